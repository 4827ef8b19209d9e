import Verif.Lemmas.MaxwellLocal
/-!
# Faraday's and Ampère's law for one time step of the electromagnetic solvers
-/
set_option linter.dupNamespace false
set_option linter.unusedSectionVars false
set_option linter.constructorNameAsVariable false
set_option linter.unusedSimpArgs false

namespace Verif.Solver
open Matrix Verif.Recip

section
variable {ι : Type} [Fintype ι] [DecidableEq ι] {A B : Type} [Fintype A] [Fintype B] {N : ℕ}

private theorem Steps.parts {d : Recip.Scheme A B ι} {p : List (Stmt ι)} {gA : A → Fld} {gB : B → Var}
    {mψ mφ : State ι → A → B → ι → ℝ} (h : Steps d p gA gB mψ mφ) (s : State ι) :
    (∀ a i, exec p s (.fld (gA a)) i = d.w a i *
      nextT d (fun a => s (.fld (gA a))) (fun b => s (gB b)) (mψ s) a i) ∧
    ∃ T, ∀ b i, exec p s (gB b) i = nextZ d (fun b => s (gB b)) T (mφ s) b i :=
  ⟨(h s).1, _, (h s).2.1⟩

private theorem StepsR.parts {d : Recip.Scheme A B ι} {x : Relax (Fin N) B ι} {p : List (Stmt ι)} {gA : A → Fld}
    {gB : B → Fld} {mψ mφ : State ι → A → B → ι → ℝ} (h : StepsR d x p gA gB mψ mφ) (s : State ι) :
    (∀ a i, exec p s (.fld (gA a)) i = d.w a i *
      nextT d (fun a => s (.fld (gA a))) (fun b => s (.fld (gB b))) (mψ s) a i) ∧
    ∃ T, (∀ b i, exec p s (.fld (gB b)) i = nextZ d (fun b => s (.fld (gB b))) T (mφ s) b i +
      relaxed x (fun l b => s (.rel (gB b) l)) (fun l b => exec p s (.rel (gB b) l)) b i) ∧
    ∀ l b i, exec p s (.rel (gB b) (l : Fin N)) i = nextR d x (fun b => s (.fld (gB b))) T (mφ s)
      (fun l b => s (.rel (gB b) l)) l b i :=
  ⟨(h s).1, _, (h s).2.1, (h s).2.2.1⟩
end

/-! ### The laws at a point -/

theorem surfaceDeriv_regular {NX NY NZ : ℕ} {sp : Int} {DT DH : ℝ} : (surfaceDeriv NX NY NZ sp DT DH).regular :=
  ⟨⟨rfl, rfl, rfl, rfl, rfl, rfl, rfl, rfl⟩, rfl, rfl, rfl⟩

variable {NX NY NZ : ℕ} (sp : Int) (DT DH : ℝ) {c : BC (Pt NX NY NZ)} {m : EMod (Pt NX NY NZ)}
  (s : State (Pt NX NY NZ))

local notation "D₀" => surfaceDeriv NX NY NZ sp DT DH
local notation "G₀" => regularGrids NX NY NZ sp DT DH

private theorem fwdT (a : Axis) : (forwardMatrix sp DT DH a : Matrix (Pt NX NY NZ) _ ℝ).transpose =
    -backwardMatrix sp DT DH a := by
  have h := surfaceDeriv_regular (NX := NX) (NY := NY) (NZ := NZ) (sp := sp) (DT := DT) (DH := DH)
  cases a
  · exact (neg_eq_iff_eq_neg.mpr h.adjX).symm
  · exact (neg_eq_iff_eq_neg.mpr h.adjY).symm
  · exact (neg_eq_iff_eq_neg.mpr h.adjZ).symm

/-- Components of an electric or magnetic field. -/
def comps (f : Axis → Fld) (s : State (Pt NX NY NZ)) (a : Axis) : Pt NX NY NZ → ℝ := s (.fld (f a))

/-- Faraday's law for the components `hs` at the points the absorbing boundaries do not change. -/
def FaradayAt (G : Grids (Pt NX NY NZ → ℝ)) (m : EMod (Pt NX NY NZ)) (c : BC (Pt NX NY NZ)) (hs : List Axis)
    (s s' : State (Pt NX NY NZ)) : Prop :=
  ∀ a ∈ hs, ∀ i, c.Off i →
    s' (.fld (magn a)) i = s (.fld (magn a)) i - m.invMuAt a i * G.rot (comps elec s) a i

/-- Ampère's law for the components `es` with the coefficients `ca`, `cb` and the additional current `J`. -/
def AmpereAt (G : Grids (Pt NX NY NZ → ℝ)) (c : BC (Pt NX NY NZ)) (es : List Axis) (ca cb : Axis → Pt NX NY NZ → ℝ)
    (dt : ℝ) (J : Axis → Pt NX NY NZ → ℝ) (s s' : State (Pt NX NY NZ)) : Prop :=
  ∃ T, ∀ a ∈ es, ∀ i, c.Off i → s' (.fld (elec a)) i = ca a i * s (.fld (elec a)) i +
    cb a i * (G.rotB T a i - dt * J a i)

/-- Sum of the relaxation variables of a component. -/
def relaxSum (m : EMod (Pt NX NY NZ)) (s : State (Pt NX NY NZ)) (a : Axis) (i : Pt NX NY NZ) : ℝ :=
  ∑ l : Fin m.L, s (.rel (elec a) l) i

/-- The relaxation variables of the components `es` after a step. -/
def RelaxAt (m : EMod (Pt NX NY NZ)) (es : List Axis) (s s' : State (Pt NX NY NZ)) : Prop :=
  ∀ a ∈ es, ∀ l : Fin m.L, ∀ i, s' (.rel (elec a) l) i =
    m.cc l * s (.rel (elec a) l) i + m.cd a l i * s (.fld (elec a)) i


/-- Values at a point of a scheme whose coefficients vanish there. -/
local macro "law" hi:ident h:term : tactic => `(tactic| (
  refine ($h).trans ?_
  simp [nextT, nextZ, nextψ, nextφ, layout, coefA, coefB, quirk, BC.Off.wt $hi, BC.Off.ca $hi, BC.Off.cb $hi,
    emem3DScheme, emem2DScheme, tmem2DScheme, viscoemem3DScheme, viscoemem2DScheme, viscotmem2DScheme, layEM2, layEM3,
    layTM2, half, fwdT, Matrix.neg_mulVec, Fin.sum_univ_two, Fin.sum_univ_three, Grids.rot, Grids.rotB, Grids.flat,
    regularGrids, comps, elec, magn, EMod.invMuAt, surfaceDeriv, regularDeriv, Solver.relaxed, EMod.relax, nextR,
    relaxSum, ← Finset.mul_sum]
  try ring1))

theorem emem3D_local : FaradayAt G₀ m c [.x, .y, .z] s (exec (emem3D D₀ m c) s) ∧
    AmpereAt G₀ c [.x, .y, .z] m.ca m.cb m.DT (0) s (exec (emem3D D₀ m c) s) := by
  obtain ⟨h1, T, h2⟩ := Steps.parts (emem3D_steps_pml (m := m) (c := c) (surfaceDeriv_regular (sp := sp) (DT := DT) (DH := DH))) s
  refine ⟨?_, ?_⟩
  · intro a ha i hi
    cases a
    · law hi (h1 0 i)
    · law hi (h1 1 i)
    · law hi (h1 2 i)
  · refine ⟨fun a => T (match a with | .x => 0 | .y => 1 | .z => 2), fun a ha i hi => ?_⟩
    cases a
    · law hi (h2 0 i)
    · law hi (h2 1 i)
    · law hi (h2 2 i)

theorem emem2D_local : FaradayAt (G₀).flat m c [.z] s (exec (emem2D D₀ m c) s) ∧
    AmpereAt (G₀).flat c [.x, .y] m.ca m.cb m.DT (0) s (exec (emem2D D₀ m c) s) := by
  obtain ⟨h1, T, h2⟩ := Steps.parts (emem2D_steps (m := m) (c := c) (surfaceDeriv_regular (sp := sp) (DT := DT) (DH := DH))) s
  refine ⟨?_, ?_⟩
  · intro a ha i hi
    cases a
    · simp at ha
    · simp at ha
    · law hi (h1 0 i)
  · refine ⟨fun _ => T 0, fun a ha i hi => ?_⟩
    cases a
    · law hi (h2 0 i)
    · law hi (h2 1 i)
    · simp at ha

theorem tmem2D_local : FaradayAt (G₀).flat m c [.x, .y] s (exec (tmem2D D₀ m c) s) ∧
    AmpereAt (G₀).flat c [.z] m.ca m.cb m.DT (0) s (exec (tmem2D D₀ m c) s) := by
  obtain ⟨h1, T, h2⟩ := Steps.parts (tmem2D_steps (m := m) (c := c) (surfaceDeriv_regular (sp := sp) (DT := DT) (DH := DH))) s
  refine ⟨?_, ?_⟩
  · intro a ha i hi
    cases a
    · law hi (h1 0 i)
    · law hi (h1 1 i)
    · simp at ha
  · refine ⟨fun a => T (match a with | .x => 0 | _ => 1), fun a ha i hi => ?_⟩
    cases a
    · simp at ha
    · simp at ha
    · law hi (h2 0 i)

theorem viscoemem3D_local : FaradayAt G₀ m c [.x, .y, .z] s (exec (viscoemem3D D₀ m c) s) ∧
    AmpereAt G₀ c [.x, .y, .z] m.caV m.cbV m.DT (relaxSum m (exec (viscoemem3D D₀ m c) s)) s (exec (viscoemem3D D₀ m c) s) ∧
    RelaxAt m [.x, .y, .z] s (exec (viscoemem3D D₀ m c) s) := by
  obtain ⟨h1, T, h2, h3⟩ := StepsR.parts (viscoemem3D_steps_pml (m := m) (c := c) (surfaceDeriv_regular (sp := sp) (DT := DT) (DH := DH))) s
  refine ⟨?_, ?_, ?_⟩
  · intro a ha i hi
    cases a
    · law hi (h1 0 i)
    · law hi (h1 1 i)
    · law hi (h1 2 i)
  · refine ⟨fun a => T (match a with | .x => 0 | .y => 1 | .z => 2), fun a ha i hi => ?_⟩
    cases a
    · law hi (h2 0 i)
    · law hi (h2 1 i)
    · law hi (h2 2 i)
  · intro a ha l i
    cases a
    · refine (h3 l 0 i).trans ?_
      simp [nextR, EMod.relax, elec, layEM2, layEM3, layTM2]
    · refine (h3 l 1 i).trans ?_
      simp [nextR, EMod.relax, elec, layEM2, layEM3, layTM2]
    · refine (h3 l 2 i).trans ?_
      simp [nextR, EMod.relax, elec, layEM2, layEM3, layTM2]

theorem viscoemem2D_local : FaradayAt (G₀).flat m c [.z] s (exec (viscoemem2D D₀ m c) s) ∧
    AmpereAt (G₀).flat c [.x, .y] m.caV m.cbV m.DT (relaxSum m (exec (viscoemem2D D₀ m c) s)) s (exec (viscoemem2D D₀ m c) s) ∧
    RelaxAt m [.x, .y] s (exec (viscoemem2D D₀ m c) s) := by
  obtain ⟨h1, T, h2, h3⟩ := StepsR.parts (viscoemem2D_steps (m := m) (c := c) (surfaceDeriv_regular (sp := sp) (DT := DT) (DH := DH))) s
  refine ⟨?_, ?_, ?_⟩
  · intro a ha i hi
    cases a
    · simp at ha
    · simp at ha
    · law hi (h1 0 i)
  · refine ⟨fun _ => T 0, fun a ha i hi => ?_⟩
    cases a
    · law hi (h2 0 i)
    · law hi (h2 1 i)
    · simp at ha
  · intro a ha l i
    cases a
    · refine (h3 l 0 i).trans ?_
      simp [nextR, EMod.relax, elec, layEM2, layEM3, layTM2]
    · refine (h3 l 1 i).trans ?_
      simp [nextR, EMod.relax, elec, layEM2, layEM3, layTM2]
    · simp at ha

theorem viscotmem2D_local : FaradayAt (G₀).flat m c [.x, .y] s (exec (viscotmem2D D₀ m c) s) ∧
    AmpereAt (G₀).flat c [.z] m.caV m.cbV m.DT (relaxSum m (exec (viscotmem2D D₀ m c) s)) s (exec (viscotmem2D D₀ m c) s) ∧
    RelaxAt m [.z] s (exec (viscotmem2D D₀ m c) s) := by
  obtain ⟨h1, T, h2, h3⟩ := StepsR.parts (viscotmem2D_steps (m := m) (c := c) (surfaceDeriv_regular (sp := sp) (DT := DT) (DH := DH))) s
  refine ⟨?_, ?_, ?_⟩
  · intro a ha i hi
    cases a
    · law hi (h1 0 i)
    · law hi (h1 1 i)
    · simp at ha
  · refine ⟨fun a => T (match a with | .x => 0 | _ => 1), fun a ha i hi => ?_⟩
    cases a
    · simp at ha
    · simp at ha
    · law hi (h2 0 i)
  · intro a ha l i
    cases a
    · simp at ha
    · simp at ha
    · refine (h3 l 0 i).trans ?_
      simp [nextR, EMod.relax, elec, layEM2, layEM3, layTM2]

end Verif.Solver
