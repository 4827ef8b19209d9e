import Verif.Props.Leapfrog
import Verif.Lemmas.RecipRelax3D
import Verif.Lemmas.MaxwellLaws

/-!
# C106: the time step of the attenuating solvers

The medium is a generalised standard linear solid (a Debye medium for the electromagnetic solvers). The
specification is the implicit one: every relaxation variable follows its differential equation with the
centred (Crank-Nicolson) difference in time. The coefficients of the explicit update do not occur in it.
-/
set_option linter.dupNamespace false
set_option linter.constructorNameAsVariable false
set_option linter.unusedSimpArgs false
set_option linter.unusedTactic false

namespace Verif.Solver
open Matrix

/-- Relaxation strength of shear at the position of the stress component. -/
def Mod.tauAt {ι : Type} (m : Mod ι) : Axis → Axis → ι → ℝ
  | .x, .y | .y, .x => m.tauSXY
  | .x, .z | .z, .x => m.tauSXZ
  | .y, .z | .z, .y => m.tauSYZ
  | _, _ => m.tauS

section
variable {NX NY NZ : ℕ} (sp : Int) (DT DH : ℝ) (c : BC (Pt NX NY NZ)) (s : State (Pt NX NY NZ))

/-- Hooke's law for the velocities `v`: change of the stress component during the step if the moduli are
multiplied by `wP` and `wS`. -/
noncomputable def hooke (dims : List Axis) (m : Mod (Pt NX NY NZ)) (wP : Pt NX NY NZ → ℝ)
    (wS : Axis → Axis → Pt NX NY NZ → ℝ) (v : Axis → Pt NX NY NZ → ℝ) (a b : Axis) (i : Pt NX NY NZ) : ℝ :=
  (if a = b then (m.pMod i * wP i - 2 * m.sMod i * wS a b i) *
    (dims.map fun k => slope sp DT DH c s k (vel k) (v k) i).sum else 0) +
  m.muAt a b i * wS a b i *
    (slope sp DT DH c s b (vel a) (v a) i + slope sp DT DH c s a (vel b) (v b) i)

/-- Equation of a relaxation variable: `τ r' = -(r + G ε')`, integrated over the step with the mean of the
old and the new value. `e` is `G ε'` times the time step. -/
def Relaxes (τ r r' e : ℝ) : Prop := τ * (r' - r) = -(DT * ((r + r') / 2) + e)

/-- Stress increment caused by the relaxation variables of the component. -/
noncomputable def relaxation (L : ℕ) (s' : State (Pt NX NY NZ)) (f : Fld) (i : Pt NX NY NZ) : ℝ :=
  ∑ l : Fin L, DT * ((s (.rel f l) i + s' (.rel f l) i) / 2)

/-- One step of an attenuating elastic medium with the axes `dims`: equation of motion with the old stresses,
relaxation with the relaxing parts of the moduli, stresses with the unrelaxed moduli. `inst` is the relaxation
strength of shear in the unrelaxed moduli. -/
structure ViscoelasticStep (dims : List Axis) (m : Mod (Pt NX NY NZ)) (inst : Axis → Axis → Pt NX NY NZ → ℝ)
    (s' : State (Pt NX NY NZ)) : Prop where
  step : ∃ v : Axis → Pt NX NY NZ → ℝ,
    (∀ a ∈ dims, ∀ i, v a i = old s (vel a) i + m.invRhoAt a i *
      (dims.map fun b => slope sp DT DH c s b (stress a b) (old s (stress a b)) i).sum) ∧
    (∀ a ∈ dims, ∀ i, s' (.fld (vel a)) i = frame c i * v a i) ∧
    (∀ a ∈ dims, ∀ b ∈ dims, ∀ l : Fin m.L, ∀ i,
      Relaxes DT (m.relaxTime l) (s (.rel (stress a b) l) i) (s' (.rel (stress a b) l) i)
        (hooke sp DT DH c s dims m m.tauP m.tauAt v a b i)) ∧
    (∀ a ∈ dims, ∀ b ∈ dims, ∀ i, s' (.fld (stress a b)) i = frame c i * (old s (stress a b) i +
      hooke sp DT DH c s dims m (fun j => 1 + m.L * m.tauP j) (fun a b j => 1 + m.L * inst a b j) v a b i +
      relaxation DT s m.L s' (stress a b) i)) ∧
    (c.pml.isSome → ∀ a ∈ dims, ∀ b ∈ dims, ∀ i,
      s' (.psi (stress a b) b) i = memory sp DT DH c s b (stress a b) (old s (stress a b)) i ∧
      s' (.psi (vel a) b) i = memory sp DT DH c s b (vel a) (v a) i)

/-- One step of attenuating SH waves. -/
structure ViscoSHStep (m : Mod (Pt NX NY NZ)) (inst : Axis → Axis → Pt NX NY NZ → ℝ)
    (s' : State (Pt NX NY NZ)) : Prop where
  step : ∃ v : Pt NX NY NZ → ℝ,
    (∀ i, v i = old s .vZ i + m.invRho i *
      (slope sp DT DH c s .x .Sxz (old s .Sxz) i + slope sp DT DH c s .y .Syz (old s .Syz) i)) ∧
    (∀ i, s' (.fld .vZ) i = frame c i * v i) ∧
    (∀ a ∈ [Axis.x, .y], ∀ l : Fin m.L, ∀ i,
      Relaxes DT (m.relaxTime l) (s (.rel (stress a .z) l) i) (s' (.rel (stress a .z) l) i)
        (m.muAt a .z i * m.tauAt a .z i * slope sp DT DH c s a .vZ v i)) ∧
    (∀ a ∈ [Axis.x, .y], ∀ i, s' (.fld (stress a .z)) i = frame c i * (old s (stress a .z) i +
      m.muAt a .z i * (1 + m.L * inst a .z i) * slope sp DT DH c s a .vZ v i +
      relaxation DT s m.L s' (stress a .z) i)) ∧
    (c.pml.isSome → ∀ a ∈ [Axis.x, .y], ∀ i,
      s' (.psi (stress a .z) a) i = memory sp DT DH c s a (stress a .z) (old s (stress a .z)) i ∧
      s' (.psi .vZ a) i = memory sp DT DH c s a .vZ v i)

/-- One step of Maxwell's equations in a medium whose polarisation relaxes, with derivatives along `dims`,
magnetic components `hs` and electric components `es`. In Ampère's law the conduction current is taken at the
middle of the step and the relaxation currents at its end; each relaxation current follows
`τ r' = -(r + Δε e / (L τ))`, driven by the old electric field. -/
structure ViscoMaxwellStep (dims hs es : List Axis) (m : EMod (Pt NX NY NZ)) (s' : State (Pt NX NY NZ)) : Prop where
  step : ∃ u : Fld → Pt NX NY NZ → ℝ,
    (∀ a ∈ hs, ∀ i, u (magn a) i = old s (magn a) i -
      m.invMuAt a i * curl sp DT DH c s dims elec (old s) a i) ∧
    (∀ a ∈ es, ∀ i, m.epsEff a i * (u (elec a) i - old s (elec a) i) =
      curl sp DT DH c s dims magn u a i -
        DT * (m.sigEff a i * ((old s (elec a) i + u (elec a) i) / 2) +
          ∑ l : Fin m.L, s' (.rel (elec a) l) i)) ∧
    (∀ a ∈ es, ∀ l : Fin m.L, ∀ i,
      Relaxes DT (m.relaxTime l) (s (.rel (elec a) l) i) (s' (.rel (elec a) l) i)
        (DT * (m.tauEps a i * m.eps a i / (m.L * m.relaxTime l) * old s (elec a) i))) ∧
    (∀ f ∈ hs.map magn ++ es.map elec, ∀ i, s' (.fld f) i = frame c i * u f i) ∧
    (c.pml.isSome → ∀ a ∈ dims, ∀ b, b ≠ a → ∀ i,
      (b ∈ es → s' (.psi (elec b) a) i = memory sp DT DH c s a (elec b) (old s (elec b)) i) ∧
      (b ∈ hs → s' (.psi (magn b) a) i = memory sp DT DH c s a (magn b) (u (magn b)) i))

end

section
variable {NX NY NZ : ℕ} (sp : Int) (DT DH : ℝ) (c : BC (Pt NX NY NZ)) (s : State (Pt NX NY NZ))

private theorem frame_wt (i : Pt NX NY NZ) : frame c i = c.wt i := by
  unfold frame BC.wt
  cases c.damping <;> rfl

private theorem slope_mem (a : Axis) (f : Fld) (v : Pt NX NY NZ → ℝ) (i : Pt NX NY NZ) :
    slope sp DT DH c s a f v i = centred sp DT DH a f v i +
      (c.cb (!halfway f a) a i * c.mem s f a i + c.ca (!halfway f a) a i * centred sp DT DH a f v i) := by
  unfold slope memory BC.cb BC.ca BC.mem
  cases c.pml <;> cases halfway f a <;> simp

private theorem memory_mem (hp : c.pml.isSome) (a : Axis) (f : Fld) (v : Pt NX NY NZ → ℝ) (i : Pt NX NY NZ) :
    memory sp DT DH c s a f v i =
      c.cb (!halfway f a) a i * c.mem s f a i + c.ca (!halfway f a) a i * centred sp DT DH a f v i := by
  unfold memory BC.cb BC.ca BC.mem
  rcases h : c.pml with _ | q
  · simp [h] at hp
  · cases halfway f a <;> simp

private theorem psi_mem (hp : c.pml.isSome) (s' : State (Pt NX NY NZ)) (a : Axis) (f : Fld) (i : Pt NX NY NZ) :
    s' (.psi f a) i = c.mem s' f a i := by
  unfold BC.mem
  rcases h : c.pml with _ | q
  · simp [h] at hp
  · rfl

private theorem fwd_tr (a : Axis) : (forwardMatrix sp DT DH a : Matrix (Pt NX NY NZ) _ ℝ).transpose =
    -backwardMatrix sp DT DH a := by
  have h := surfaceDeriv_regular (NX := NX) (NY := NY) (NZ := NZ) (sp := sp) (DT := DT) (DH := DH)
  cases a
  · exact (neg_eq_iff_eq_neg.mpr h.adjX).symm
  · exact (neg_eq_iff_eq_neg.mpr h.adjY).symm
  · exact (neg_eq_iff_eq_neg.mpr h.adjZ).symm

private theorem bwd_tr (a : Axis) : (backwardMatrix sp DT DH a : Matrix (Pt NX NY NZ) _ ℝ).transpose =
    -forwardMatrix sp DT DH a := by
  rw [← Matrix.transpose_transpose (forwardMatrix sp DT DH a), fwd_tr, Matrix.transpose_neg, neg_neg]

private theorem StepsR.all {A B : Type} [Fintype A] [Fintype B] [DecidableEq A] [DecidableEq B] {N : ℕ}
    {d : Recip.Scheme A B (Pt NX NY NZ)} {x : Recip.Relax (Fin N) B (Pt NX NY NZ)} {p : List (Stmt (Pt NX NY NZ))}
    {gA : A → Fld} {gB : B → Fld} {mψ mφ : State (Pt NX NY NZ) → A → B → Pt NX NY NZ → ℝ}
    (h : StepsR d x p gA gB mψ mφ) :
    ∃ T : A → Pt NX NY NZ → ℝ,
      (∀ a i, T a i = nextT d (fun a => s (.fld (gA a))) (fun b => s (.fld (gB b))) (mψ s) a i) ∧
      (∀ a i, exec p s (.fld (gA a)) i = d.w a i * T a i) ∧
      (∀ b i, exec p s (.fld (gB b)) i = nextZ d (fun b => s (.fld (gB b))) T (mφ s) b i +
        relaxed x (fun l b => s (.rel (gB b) l)) (fun l b => exec p s (.rel (gB b) l)) b i) ∧
      (∀ l b i, exec p s (.rel (gB b) (l : Fin N)) i = nextR d x (fun b => s (.fld (gB b))) T (mφ s)
        (fun l b => s (.rel (gB b) l)) l b i) ∧
      (∀ a b i, mψ (exec p s) a b i = nextψ d (fun b => s (.fld (gB b))) (mψ s) a b i) ∧
      (∀ a b i, mφ (exec p s) a b i = nextφ d T (mφ s) a b i) :=
  ⟨_, fun _ _ => rfl, h s⟩

/-- The update of a relaxation variable solves the implicit equation. -/
private theorem relaxes_of {τ r r' e : ℝ} (hτ : 0 < τ) (hD : 0 ≤ DT)
    (h : r' = (1 - DT / (2 * τ)) * (1 / (1 + DT / (2 * τ))) * r - 1 / τ * (1 / (1 + DT / (2 * τ))) * e) :
    Relaxes DT τ r r' e := by
  have h1 : 1 + DT / (2 * τ) ≠ 0 := by positivity
  have h2 : 2 * τ + DT ≠ 0 := by positivity
  unfold Relaxes
  rw [h]
  field_simp
  ring1

private theorem relaxed_eq {B : Type} {m : Mod (Pt NX NY NZ)} (hDT : m.DT = DT) (G : Pt NX NY NZ → Matrix B B ℝ)
    (gB : B → Fld) (s' : State (Pt NX NY NZ)) (b : B) (i : Pt NX NY NZ) :
    relaxed (m.relax c G) (fun l b => s (.rel (gB b) l)) (fun l b => s' (.rel (gB b) l)) b i =
      c.wt i * relaxation DT s m.L s' (gB b) i := by
  simp only [relaxed, Mod.relax, relaxation, Finset.mul_sum, Mod.DThalf, hDT]
  exact Finset.sum_congr rfl fun l _ => by ring1

/-- The update of an electric component solves Ampère's law. -/
private theorem ampere_of {e σ u o k r : ℝ} (he : 0 < e) (hs : 0 ≤ σ) (hD : 0 ≤ DT)
    (h : u = Ca e σ DT * o + Cb e σ DT * (k - DT * r)) :
    e * (u - o) = k - DT * (σ * ((o + u) / 2) + r) := by
  have h1 : 1 / 2 / e * σ * DT + 1 ≠ 0 := by positivity
  rw [h, Ca, Cb, Cinv]
  field_simp
  ring1

set_option hygiene false in
/-- Close an equation with the instance `h` of the description of the step as a scheme. -/
local macro "law" d:ident l:ident g:ident h:term : tactic => `(tactic| (
  have key := $h
  try rw [relaxed_eq DT c s hDT] at key
  simp [nextT, nextZ, nextR, nextψ, nextφ, $d:ident, $l:ident, $g:ident, layout, Lay.mψ, Lay.mφ, memOf, coefA, coefB,
    half, surfaceDeriv, regularDeriv, Mod.relax, fwd_tr, bwd_tr, Matrix.neg_mulVec, Mod.vc1, Mod.vc2, Mod.invRelax,
    Mod.onePlusLtauS, Mod.onePlusLtauP, hDT, Fin.sum_univ_two, Fin.sum_univ_three, Fin.sum_univ_six] at key
  simp [hooke, slope_mem, halfway, centred, old, stress, vel, Mod.muAt, Mod.tauAt, Mod.invRhoAt, frame_wt]
  first | linear_combination key | linear_combination -key))

/-- C106: SH waves in an attenuating medium. The unrelaxed moduli are formed with the relaxation strength of
the grid point. -/
theorem C106_viscosh2D_partial (hc : c.useFreeSurface ≠ 1) (m : Mod (Pt NX NY NZ)) (hDT : m.DT = DT) (h0 : 0 ≤ DT)
    (hτ : ∀ l < m.L, 0 < m.relaxTime l) :
    ViscoSHStep sp DT DH c s m (fun _ _ => m.tauS)
      (exec (viscosh2D (surfaceDeriv NX NY NZ sp DT DH) m c) s) := by
  obtain ⟨T, h1, h2, h3, h4, h5, h6⟩ := StepsR.all s
    (viscosh2D_steps (m := m) (c := c) (surfaceDeriv_regular (sp := sp) (DT := DT) (DH := DH)) hc)
  generalize exec (viscosh2D (surfaceDeriv NX NY NZ sp DT DH) m c) s = s' at *
  refine ⟨T 0, ?_, ?_, ?_, ?_, ?_⟩
  · intro i
    law viscosh2DScheme layS2 viscoshG (h1 0 i)
  · intro i
    law viscosh2DScheme layS2 viscoshG (h2 0 i)
  · intro a ha l i
    refine relaxes_of DT (hτ l l.2) h0 ?_
    cases a <;> first | (exfalso; revert ha; decide) | skip
    · law viscosh2DScheme layS2 viscoshG (h4 l 0 i)
    · law viscosh2DScheme layS2 viscoshG (h4 l 1 i)
  · intro a ha i
    cases a <;> first | (exfalso; revert ha; decide) | skip
    · law viscosh2DScheme layS2 viscoshG (h3 0 i)
    · law viscosh2DScheme layS2 viscoshG (h3 1 i)
  · intro hp a ha i
    simp only [psi_mem c hp, memory_mem sp DT DH c s hp]
    cases a <;> first | (exfalso; revert ha; decide) | skip
    · exact ⟨by law viscosh2DScheme layS2 viscoshG (h5 0 0 i), by law viscosh2DScheme layS2 viscoshG (h6 0 0 i)⟩
    · exact ⟨by law viscosh2DScheme layS2 viscoshG (h5 0 1 i), by law viscosh2DScheme layS2 viscoshG (h6 0 1 i)⟩

set_option maxHeartbeats 2000000 in
/-- C106: the same for 2D attenuating elastic media. -/
theorem C106_viscoelastic2D_partial (hc : c.useFreeSurface = 0) (m : Mod (Pt NX NY NZ)) (hDT : m.DT = DT)
    (h0 : 0 ≤ DT) (hτ : ∀ l < m.L, 0 < m.relaxTime l) :
    ViscoelasticStep sp DT DH c s [.x, .y] m (fun _ _ => m.tauS)
      (exec (viscoelastic2D (surfaceDeriv NX NY NZ sp DT DH) m c) s) := by
  obtain ⟨T, h1, h2, h3, h4, h5, h6⟩ := StepsR.all s
    (viscoelastic2D_steps (m := m) (c := c) (surfaceDeriv_regular (sp := sp) (DT := DT) (DH := DH)) hc)
  generalize exec (viscoelastic2D (surfaceDeriv NX NY NZ sp DT DH) m c) s = s' at *
  refine ⟨fun a => match a with | .x => T 0 | .y => T 1 | .z => 0, ?_, ?_, ?_, ?_, ?_⟩
  · intro a ha i
    cases a <;> first | (exfalso; revert ha; decide) | skip
    · law viscoelastic2DScheme layE2 viscoelastic2DG (h1 0 i)
    · law viscoelastic2DScheme layE2 viscoelastic2DG (h1 1 i)
  · intro a ha i
    cases a <;> first | (exfalso; revert ha; decide) | skip
    · law viscoelastic2DScheme layE2 viscoelastic2DG (h2 0 i)
    · law viscoelastic2DScheme layE2 viscoelastic2DG (h2 1 i)
  · intro a ha b hb l i
    refine relaxes_of DT (hτ l l.2) h0 ?_
    cases a <;> first | (exfalso; revert ha; decide) |
      (cases b <;> first | (exfalso; revert hb; decide) | skip)
    · law viscoelastic2DScheme layE2 viscoelastic2DG (h4 l 0 i)
    · law viscoelastic2DScheme layE2 viscoelastic2DG (h4 l 2 i)
    · law viscoelastic2DScheme layE2 viscoelastic2DG (h4 l 2 i)
    · law viscoelastic2DScheme layE2 viscoelastic2DG (h4 l 1 i)
  · intro a ha b hb i
    cases a <;> first | (exfalso; revert ha; decide) |
      (cases b <;> first | (exfalso; revert hb; decide) | skip)
    · law viscoelastic2DScheme layE2 viscoelastic2DG (h3 0 i)
    · law viscoelastic2DScheme layE2 viscoelastic2DG (h3 2 i)
    · law viscoelastic2DScheme layE2 viscoelastic2DG (h3 2 i)
    · law viscoelastic2DScheme layE2 viscoelastic2DG (h3 1 i)
  · intro hp a ha b hb i
    simp only [psi_mem c hp, memory_mem sp DT DH c s hp]
    cases a <;> first | (exfalso; revert ha; decide) |
      (cases b <;> first | (exfalso; revert hb; decide) | skip)
    · exact ⟨by law viscoelastic2DScheme layE2 viscoelastic2DG (h5 0 0 i),
        by law viscoelastic2DScheme layE2 viscoelastic2DG (h6 0 0 i)⟩
    · exact ⟨by law viscoelastic2DScheme layE2 viscoelastic2DG (h5 0 2 i),
        by law viscoelastic2DScheme layE2 viscoelastic2DG (h6 0 2 i)⟩
    · exact ⟨by law viscoelastic2DScheme layE2 viscoelastic2DG (h5 1 2 i),
        by law viscoelastic2DScheme layE2 viscoelastic2DG (h6 1 2 i)⟩
    · exact ⟨by law viscoelastic2DScheme layE2 viscoelastic2DG (h5 1 1 i),
        by law viscoelastic2DScheme layE2 viscoelastic2DG (h6 1 1 i)⟩

set_option maxHeartbeats 4000000 in
/-- C106: the same for 3D attenuating elastic media. -/
theorem C106_viscoelastic3D_partial (hc : c.useFreeSurface ≠ 1) (m : Mod (Pt NX NY NZ)) (hDT : m.DT = DT)
    (h0 : 0 ≤ DT) (hτ : ∀ l < m.L, 0 < m.relaxTime l) :
    ViscoelasticStep sp DT DH c s [.x, .y, .z] m (fun _ _ => m.tauS)
      (exec (viscoelastic3D (surfaceDeriv NX NY NZ sp DT DH) m c) s) := by
  obtain ⟨T, h1, h2, h3, h4, h5, h6⟩ := StepsR.all s
    (viscoelastic3D_steps (m := m) (c := c) (surfaceDeriv_regular (sp := sp) (DT := DT) (DH := DH)) hc)
  generalize exec (viscoelastic3D (surfaceDeriv NX NY NZ sp DT DH) m c) s = s' at *
  refine ⟨fun a => match a with | .x => T 0 | .y => T 1 | .z => T 2, ?_, ?_, ?_, ?_, ?_⟩
  · intro a ha i
    cases a <;> first | (exfalso; revert ha; decide) | skip
    · law viscoelastic3DScheme layE3 viscoelastic3DG (h1 0 i)
    · law viscoelastic3DScheme layE3 viscoelastic3DG (h1 1 i)
    · law viscoelastic3DScheme layE3 viscoelastic3DG (h1 2 i)
  · intro a ha i
    cases a <;> first | (exfalso; revert ha; decide) | skip
    · law viscoelastic3DScheme layE3 viscoelastic3DG (h2 0 i)
    · law viscoelastic3DScheme layE3 viscoelastic3DG (h2 1 i)
    · law viscoelastic3DScheme layE3 viscoelastic3DG (h2 2 i)
  · intro a ha b hb l i
    refine relaxes_of DT (hτ l l.2) h0 ?_
    cases a <;> first | (exfalso; revert ha; decide) |
      (cases b <;> first | (exfalso; revert hb; decide) | skip)
    · law viscoelastic3DScheme layE3 viscoelastic3DG (h4 l 0 i)
    · law viscoelastic3DScheme layE3 viscoelastic3DG (h4 l 3 i)
    · law viscoelastic3DScheme layE3 viscoelastic3DG (h4 l 4 i)
    · law viscoelastic3DScheme layE3 viscoelastic3DG (h4 l 3 i)
    · law viscoelastic3DScheme layE3 viscoelastic3DG (h4 l 1 i)
    · law viscoelastic3DScheme layE3 viscoelastic3DG (h4 l 5 i)
    · law viscoelastic3DScheme layE3 viscoelastic3DG (h4 l 4 i)
    · law viscoelastic3DScheme layE3 viscoelastic3DG (h4 l 5 i)
    · law viscoelastic3DScheme layE3 viscoelastic3DG (h4 l 2 i)
  · intro a ha b hb i
    cases a <;> first | (exfalso; revert ha; decide) |
      (cases b <;> first | (exfalso; revert hb; decide) | skip)
    · law viscoelastic3DScheme layE3 viscoelastic3DG (h3 0 i)
    · law viscoelastic3DScheme layE3 viscoelastic3DG (h3 3 i)
    · law viscoelastic3DScheme layE3 viscoelastic3DG (h3 4 i)
    · law viscoelastic3DScheme layE3 viscoelastic3DG (h3 3 i)
    · law viscoelastic3DScheme layE3 viscoelastic3DG (h3 1 i)
    · law viscoelastic3DScheme layE3 viscoelastic3DG (h3 5 i)
    · law viscoelastic3DScheme layE3 viscoelastic3DG (h3 4 i)
    · law viscoelastic3DScheme layE3 viscoelastic3DG (h3 5 i)
    · law viscoelastic3DScheme layE3 viscoelastic3DG (h3 2 i)
  · intro hp a ha b hb i
    simp only [psi_mem c hp, memory_mem sp DT DH c s hp]
    cases a <;> first | (exfalso; revert ha; decide) |
      (cases b <;> first | (exfalso; revert hb; decide) | skip)
    · exact ⟨by law viscoelastic3DScheme layE3 viscoelastic3DG (h5 0 0 i),
        by law viscoelastic3DScheme layE3 viscoelastic3DG (h6 0 0 i)⟩
    · exact ⟨by law viscoelastic3DScheme layE3 viscoelastic3DG (h5 0 3 i),
        by law viscoelastic3DScheme layE3 viscoelastic3DG (h6 0 3 i)⟩
    · exact ⟨by law viscoelastic3DScheme layE3 viscoelastic3DG (h5 0 4 i),
        by law viscoelastic3DScheme layE3 viscoelastic3DG (h6 0 4 i)⟩
    · exact ⟨by law viscoelastic3DScheme layE3 viscoelastic3DG (h5 1 3 i),
        by law viscoelastic3DScheme layE3 viscoelastic3DG (h6 1 3 i)⟩
    · exact ⟨by law viscoelastic3DScheme layE3 viscoelastic3DG (h5 1 1 i),
        by law viscoelastic3DScheme layE3 viscoelastic3DG (h6 1 1 i)⟩
    · exact ⟨by law viscoelastic3DScheme layE3 viscoelastic3DG (h5 1 5 i),
        by law viscoelastic3DScheme layE3 viscoelastic3DG (h6 1 5 i)⟩
    · exact ⟨by law viscoelastic3DScheme layE3 viscoelastic3DG (h5 2 4 i),
        by law viscoelastic3DScheme layE3 viscoelastic3DG (h6 2 4 i)⟩
    · exact ⟨by law viscoelastic3DScheme layE3 viscoelastic3DG (h5 2 5 i),
        by law viscoelastic3DScheme layE3 viscoelastic3DG (h6 2 5 i)⟩
    · exact ⟨by law viscoelastic3DScheme layE3 viscoelastic3DG (h5 2 2 i),
        by law viscoelastic3DScheme layE3 viscoelastic3DG (h6 2 2 i)⟩

/-- The update of a relaxation current solves the implicit equation. -/
private theorem debye_of {τ r r' w o : ℝ} {L : ℕ} (hτ : 0 < τ) (hD : 0 ≤ DT) (l : Fin L)
    (h : r' = (1 - 1 / 2 * DT / τ) / (1 + 1 / 2 * DT / τ) * r -
      w * (1 / (1 + 1 / 2 * DT / τ) / (L * τ * τ)) * DT * o) :
    Relaxes DT τ r r' (DT * (w / (L * τ) * o)) := by
  have h1 : 1 + 1 / 2 * DT / τ ≠ 0 := by positivity
  have h2 : 2 * τ + DT ≠ 0 := by positivity
  have hL : (L : ℝ) ≠ 0 := by
    have := l.2
    exact_mod_cast (show L ≠ 0 by omega)
  unfold Relaxes
  rw [h]
  field_simp
  ring1

private theorem epsEff_pos {m : EMod (Pt NX NY NZ)} (h : 0 < m.epsVac) (a : Axis) (i : Pt NX NY NZ) :
    0 < m.epsEff a i := by
  unfold EMod.epsEff
  dsimp only
  split <;> linarith

/-- The fields of the step: magnetic components `H`, electric components by Ampère's law. -/
private noncomputable def emFields (dims : List Axis) (m : EMod (Pt NX NY NZ)) (s' : State (Pt NX NY NZ))
    (H : Axis → Pt NX NY NZ → ℝ) : Fld → Pt NX NY NZ → ℝ :=
  let h : Fld → Pt NX NY NZ → ℝ := fun f => match f with | .hX => H .x | .hY => H .y | .hZ => H .z | _ => 0
  let E : Axis → Pt NX NY NZ → ℝ := fun a i => m.caV a i * old s (elec a) i +
    m.cbV a i * (curl sp DT DH c s dims magn h a i - DT * ∑ l : Fin m.L, s' (.rel (elec a) l) i)
  fun f => match f with | .eX => E .x | .eY => E .y | .eZ => E .z | f => h f

private theorem emFields_magn (dims : List Axis) (m : EMod (Pt NX NY NZ)) (s' : State (Pt NX NY NZ))
    (H : Axis → Pt NX NY NZ → ℝ) (a : Axis) : emFields sp DT DH c s dims m s' H (magn a) = H a := by
  cases a <;> rfl

private theorem emFields_elec (dims : List Axis) (m : EMod (Pt NX NY NZ)) (s' : State (Pt NX NY NZ))
    (H : Axis → Pt NX NY NZ → ℝ) (a : Axis) (i : Pt NX NY NZ) :
    emFields sp DT DH c s dims m s' H (elec a) i = m.caV a i * old s (elec a) i +
      m.cbV a i * (curl sp DT DH c s dims magn (emFields sp DT DH c s dims m s' H) a i -
        DT * ∑ l : Fin m.L, s' (.rel (elec a) l) i) := by
  cases a <;> rfl

private theorem relaxedE_eq {B : Type} {m : EMod (Pt NX NY NZ)} (hDT : m.DT = DT) (ax : B → Axis)
    (gB : B → Fld) (s' : State (Pt NX NY NZ)) (b : B) (i : Pt NX NY NZ) :
    relaxed (m.relax c ax) (fun l b => s (.rel (gB b) l)) (fun l b => s' (.rel (gB b) l)) b i =
      -(c.wt i * m.cbV (ax b) i * DT * ∑ l : Fin m.L, s' (.rel (gB b) l) i) := by
  simp only [relaxed, EMod.relax, Finset.mul_sum, hDT, ← Finset.sum_neg_distrib]
  exact Finset.sum_congr rfl fun l _ => by ring1

set_option hygiene false in
/-- The same for the electromagnetic solvers. -/
local macro "lawE" d:ident l:ident h:term : tactic => `(tactic| (
  have key := $h
  try rw [relaxedE_eq DT c s hDT] at key
  simp [nextT, nextZ, nextR, nextψ, nextφ, $d:ident, $l:ident, layout, Lay.mψ, Lay.mφ, memOf, coefA, coefB,
    half, surfaceDeriv, regularDeriv, EMod.relax, fwd_tr, bwd_tr, Matrix.neg_mulVec, EMod.cc, EMod.cd,
    hDT, hpml, Fin.sum_univ_two, Fin.sum_univ_three] at key
  simp [emFields, curl, levi, slope_mem, halfway, centred, old, elec, magn, EMod.invMuAt, frame_wt, hpml]
  first | linear_combination key | linear_combination -key))

set_option maxHeartbeats 2000000 in
/-- C106: the 2D EMEM solver with relaxation (magnetic field along `z`). -/
theorem C106_viscoemem2D_partial (m : EMod (Pt NX NY NZ)) (hDT : m.DT = DT) (h0 : 0 ≤ DT)
    (hτ : ∀ l < m.L, 0 < m.relaxTime l) (hε : 0 < m.epsVac) (hσ : ∀ a i, 0 ≤ m.sigEff a i) :
    ViscoMaxwellStep sp DT DH c s [.x, .y] [.z] [.x, .y] m
      (exec (viscoemem2D (surfaceDeriv NX NY NZ sp DT DH) m c) s) := by
  have hpml : True := trivial
  obtain ⟨T, h1, h2, h3, h4, h5, h6⟩ := StepsR.all s
    (viscoemem2D_steps (m := m) (c := c) (surfaceDeriv_regular (sp := sp) (DT := DT) (DH := DH)))
  generalize exec (viscoemem2D (surfaceDeriv NX NY NZ sp DT DH) m c) s = s' at *
  refine ⟨emFields sp DT DH c s [.x, .y] m s' (fun a => match a with | .z => T 0 | _ => 0), ?_, ?_, ?_, ?_, ?_⟩
  · intro a ha i
    cases a <;> first | (exfalso; revert ha; decide) | skip
    · lawE viscoemem2DScheme layEM2 (h1 0 i)
  · intro a ha i
    refine ampere_of DT (epsEff_pos hε a i) (hσ a i) h0 ?_
    rw [emFields_elec, EMod.caV, EMod.cbV, hDT]
  · intro a ha l i
    refine debye_of DT (hτ l l.2) h0 l ?_
    cases a <;> first | (exfalso; revert ha; decide) | skip
    · lawE viscoemem2DScheme layEM2 (h4 l 0 i)
    · lawE viscoemem2DScheme layEM2 (h4 l 1 i)
  · simp only [List.map_cons, List.map_nil, List.cons_append, List.nil_append, List.forall_mem_cons, List.not_mem_nil,
      false_imp_iff, implies_true, and_true]
    refine ⟨?_, ?_, ?_⟩ <;> intro i
    · lawE viscoemem2DScheme layEM2 (h2 0 i)
    · lawE viscoemem2DScheme layEM2 (h3 0 i)
    · lawE viscoemem2DScheme layEM2 (h3 1 i)
  · intro hp a ha b hb i
    simp only [psi_mem c hp, memory_mem sp DT DH c s hp]
    constructor <;> intro h <;> cases a <;> cases b <;> first | (exfalso; revert ha hb h; decide) | skip
    · lawE viscoemem2DScheme layEM2 (h5 0 1 i)
    · lawE viscoemem2DScheme layEM2 (h5 0 0 i)
    · lawE viscoemem2DScheme layEM2 (h6 0 1 i)
    · lawE viscoemem2DScheme layEM2 (h6 0 0 i)

set_option maxHeartbeats 2000000 in
/-- C106: the same for the 2D TMEM solver (electric field along `z`). -/
theorem C106_viscotmem2D_partial (m : EMod (Pt NX NY NZ)) (hDT : m.DT = DT) (h0 : 0 ≤ DT)
    (hτ : ∀ l < m.L, 0 < m.relaxTime l) (hε : 0 < m.epsVac) (hσ : ∀ a i, 0 ≤ m.sigEff a i) :
    ViscoMaxwellStep sp DT DH c s [.x, .y] [.x, .y] [.z] m
      (exec (viscotmem2D (surfaceDeriv NX NY NZ sp DT DH) m c) s) := by
  have hpml : True := trivial
  obtain ⟨T, h1, h2, h3, h4, h5, h6⟩ := StepsR.all s
    (viscotmem2D_steps (m := m) (c := c) (surfaceDeriv_regular (sp := sp) (DT := DT) (DH := DH)))
  generalize exec (viscotmem2D (surfaceDeriv NX NY NZ sp DT DH) m c) s = s' at *
  refine ⟨emFields sp DT DH c s [.x, .y] m s' (fun a => match a with | .x => T 0 | .y => T 1 | .z => 0), ?_, ?_, ?_, ?_, ?_⟩
  · intro a ha i
    cases a <;> first | (exfalso; revert ha; decide) | skip
    · lawE viscotmem2DScheme layTM2 (h1 0 i)
    · lawE viscotmem2DScheme layTM2 (h1 1 i)
  · intro a ha i
    refine ampere_of DT (epsEff_pos hε a i) (hσ a i) h0 ?_
    rw [emFields_elec, EMod.caV, EMod.cbV, hDT]
  · intro a ha l i
    refine debye_of DT (hτ l l.2) h0 l ?_
    cases a <;> first | (exfalso; revert ha; decide) | skip
    · lawE viscotmem2DScheme layTM2 (h4 l 0 i)
  · simp only [List.map_cons, List.map_nil, List.cons_append, List.nil_append, List.forall_mem_cons, List.not_mem_nil,
      false_imp_iff, implies_true, and_true]
    refine ⟨?_, ?_, ?_⟩ <;> intro i
    · lawE viscotmem2DScheme layTM2 (h2 0 i)
    · lawE viscotmem2DScheme layTM2 (h2 1 i)
    · lawE viscotmem2DScheme layTM2 (h3 0 i)
  · intro hp a ha b hb i
    simp only [psi_mem c hp, memory_mem sp DT DH c s hp]
    constructor <;> intro h <;> cases a <;> cases b <;> first | (exfalso; revert ha hb h; decide) | skip
    · lawE viscotmem2DScheme layTM2 (h5 1 0 i)
    · lawE viscotmem2DScheme layTM2 (h5 0 0 i)
    · lawE viscotmem2DScheme layTM2 (h6 1 0 i)
    · lawE viscotmem2DScheme layTM2 (h6 0 0 i)

set_option maxHeartbeats 2000000 in
/-- C106: the same for the 3D solver, if there is no CPML (for CPML see `C106_emem3D_cpml_violated`). -/
theorem C106_viscoemem3D_partial (hpml : c.pml = none) (m : EMod (Pt NX NY NZ)) (hDT : m.DT = DT) (h0 : 0 ≤ DT)
    (hτ : ∀ l < m.L, 0 < m.relaxTime l) (hε : 0 < m.epsVac) (hσ : ∀ a i, 0 ≤ m.sigEff a i) :
    ViscoMaxwellStep sp DT DH c s [.x, .y, .z] [.x, .y, .z] [.x, .y, .z] m
      (exec (viscoemem3D (surfaceDeriv NX NY NZ sp DT DH) m c) s) := by
  obtain ⟨T, h1, h2, h3, h4, h5, h6⟩ := StepsR.all s
    (viscoemem3D_steps (m := m) (c := c) (surfaceDeriv_regular (sp := sp) (DT := DT) (DH := DH)) hpml)
  generalize exec (viscoemem3D (surfaceDeriv NX NY NZ sp DT DH) m c) s = s' at *
  refine ⟨emFields sp DT DH c s [.x, .y, .z] m s' (fun a => match a with | .x => T 0 | .y => T 1 | .z => T 2), ?_, ?_, ?_, ?_, ?_⟩
  · intro a ha i
    cases a <;> first | (exfalso; revert ha; decide) | skip
    · lawE viscoemem3DScheme layEM3 (h1 0 i)
    · lawE viscoemem3DScheme layEM3 (h1 1 i)
    · lawE viscoemem3DScheme layEM3 (h1 2 i)
  · intro a ha i
    refine ampere_of DT (epsEff_pos hε a i) (hσ a i) h0 ?_
    rw [emFields_elec, EMod.caV, EMod.cbV, hDT]
  · intro a ha l i
    refine debye_of DT (hτ l l.2) h0 l ?_
    cases a <;> first | (exfalso; revert ha; decide) | skip
    · lawE viscoemem3DScheme layEM3 (h4 l 0 i)
    · lawE viscoemem3DScheme layEM3 (h4 l 1 i)
    · lawE viscoemem3DScheme layEM3 (h4 l 2 i)
  · simp only [List.map_cons, List.map_nil, List.cons_append, List.nil_append, List.forall_mem_cons, List.not_mem_nil,
      false_imp_iff, implies_true, and_true]
    refine ⟨?_, ?_, ?_, ?_, ?_, ?_⟩ <;> intro i
    · lawE viscoemem3DScheme layEM3 (h2 0 i)
    · lawE viscoemem3DScheme layEM3 (h2 1 i)
    · lawE viscoemem3DScheme layEM3 (h2 2 i)
    · lawE viscoemem3DScheme layEM3 (h3 0 i)
    · lawE viscoemem3DScheme layEM3 (h3 1 i)
    · lawE viscoemem3DScheme layEM3 (h3 2 i)
  · intro hp a ha b hb i
    simp [hpml] at hp

private theorem tauAt_uniform {m : Mod (Pt NX NY NZ)}
    (h : ∀ i, m.tauSXY i = m.tauS i ∧ m.tauSXZ i = m.tauS i ∧ m.tauSYZ i = m.tauS i) :
    m.tauAt = fun _ _ => m.tauS := by
  funext a b i
  cases a <;> cases b <;> simp [Mod.tauAt, h]

/-- C106: if the relaxation strength of shear does not vary between neighbouring points, so that its averages
equal the value at the point, the three attenuating seismic solvers follow the scheme with every component at
its own position. -/
theorem C106_visco_uniform_partial (m : Mod (Pt NX NY NZ)) (hDT : m.DT = DT)
    (h0 : 0 ≤ DT) (hτ : ∀ l < m.L, 0 < m.relaxTime l)
    (hu : ∀ i, m.tauSXY i = m.tauS i ∧ m.tauSXZ i = m.tauS i ∧ m.tauSYZ i = m.tauS i) :
    (c.useFreeSurface ≠ 1 → ViscoSHStep sp DT DH c s m m.tauAt
      (exec (viscosh2D (surfaceDeriv NX NY NZ sp DT DH) m c) s)) ∧
    (c.useFreeSurface = 0 → ViscoelasticStep sp DT DH c s [.x, .y] m m.tauAt
      (exec (viscoelastic2D (surfaceDeriv NX NY NZ sp DT DH) m c) s)) ∧
    (c.useFreeSurface ≠ 1 → ViscoelasticStep sp DT DH c s [.x, .y, .z] m m.tauAt
      (exec (viscoelastic3D (surfaceDeriv NX NY NZ sp DT DH) m c) s)) := by
  rw [tauAt_uniform hu]
  exact ⟨fun hc => C106_viscosh2D_partial sp DT DH c s hc m hDT h0 hτ,
    fun hc => C106_viscoelastic2D_partial sp DT DH c s hc m hDT h0 hτ,
    fun hc => C106_viscoelastic3D_partial sp DT DH c s hc m hDT h0 hτ⟩

private theorem fwd_diag (a : Axis) (i : Pt NX NY NZ) : forwardMatrix 2 DT DH a i i = -(DT / DH) := by
  have h : moveTo a i (along a i) = i := by cases a <;> simp [moveTo, along]
  unfold forwardMatrix
  rw [if_pos h]
  simp [Verif.Stencil.fwdStencilEntry, Verif.Stencil.fd]

/-- C106: in general the scheme is not followed: the unrelaxed shear modulus is formed with the relaxation
strength of the grid point although the stress lives between grid points, where the relaxation variables use
the averaged strength (ForwardSolver2Dviscosh.cpp). Wherever the two differ the step is wrong. -/
theorem C106_viscosh2D_violated (m : Mod (Pt NX NY NZ)) (hDT : m.DT = DT) (h0 : 0 < DT) (hH : DH ≠ 0)
    (hτ : ∀ l < m.L, 0 < m.relaxTime l) (hL : 0 < m.L) (i : Pt NX NY NZ) (hμ : m.sModXZ i ≠ 0)
    (ht : m.tauSXZ i ≠ m.tauS i) (c : BC (Pt NX NY NZ)) (hc : c.useFreeSurface ≠ 1) (hp : c.pml = none)
    (hd : c.damping = none) :
    ¬ ∀ s, ViscoSHStep 2 DT DH c s m m.tauAt
      (exec (viscosh2D (surfaceDeriv NX NY NZ 2 DT DH) m c) s) := by
  intro h
  set s : State (Pt NX NY NZ) := fun v => if v = .fld .vZ then fun j => if j = i then 1 else 0 else 0 with hs
  obtain ⟨v, a1, -, -, a4, -⟩ := h s
  obtain ⟨w, b1, -, -, b4, -⟩ := C106_viscosh2D_partial 2 DT DH c s hc m hDT h0.le hτ
  have e : v = w := funext fun j => (a1 j).trans (b1 j).symm
  subst e
  have hv : v = fun j => if j = i then 1 else 0 := by
    funext j
    rw [a1 j]
    simp [slope, centred, halfway, hp, hs, old]
  have k := (a4 .x (by simp) i).symm.trans (b4 .x (by simp) i)
  have hsl : slope 2 DT DH c s .x .vZ v i = -(DT / DH) := by
    simp [slope, centred, halfway, hp, hv, Matrix.mulVec, dotProduct, fwd_diag]
  simp only [frame, hd, Option.map_none, Option.getD_none, one_mul, hsl, Mod.muAt, Mod.tauAt] at k
  have h1 : m.sModXZ i * m.L * (m.tauSXZ i - m.tauS i) * (DT / DH) = 0 := by linear_combination -k
  have h2 : (m.L : ℝ) ≠ 0 := by exact_mod_cast hL.ne'
  have h3 : DT / DH ≠ 0 := div_ne_zero h0.ne' hH
  have h4 : m.tauSXZ i - m.tauS i ≠ 0 := sub_ne_zero.2 ht
  exact (mul_ne_zero (mul_ne_zero (mul_ne_zero hμ h2) h4) h3) h1

end

/-- The hypotheses can be met: two mechanisms, CPML, damping frame, free surface off, and an electromagnetic
medium with relaxation. -/
example (s : State (Pt 2 3 4)) (w : Pt 2 3 4 → ℝ) :
    let m : Mod (Pt 2 3 4) := ⟨fun i => 1 + i.1.val, fun i => 2 + i.1.val, fun i => 3 + i.2.1.val,
      fun i => 4 + i.2.2.val, fun i => 9 + i.1.val, fun i => 1 + i.2.1.val, fun _ => 1, fun _ => 2,
      fun i => 3 + i.2.2.val, fun i => i.1.val, fun i => i.1.val, fun i => i.1.val + 1 / 2, 1, 1, 2, fun _ => 1, 1⟩
    let c : BC (Pt 2 3 4) := ⟨0, some w, some (regularPML ⟨4, 10, 3, 1, 1⟩ 1 0 true), fun _ => false⟩
    ViscoelasticStep 4 1 1 c s [.x, .y, .z] m (fun _ _ => m.tauS)
      (exec (viscoelastic3D (surfaceDeriv 2 3 4 4 1 1) m c) s) :=
  C106_viscoelastic3D_partial 4 1 1 _ s (show (0 : ℕ) ≠ 1 by decide) _ rfl (by norm_num) (fun _ _ => one_pos)

example (s : State (Pt 5 5 1)) :
    let m : EMod (Pt 5 5 1) := ⟨1, 1, 1, fun _ _ => 4, fun _ _ => 1, fun _ _ => 1 / 4, fun _ _ => 1, 1, 2, fun _ => 2, 1⟩
    ViscoMaxwellStep 2 1 1 ⟨0, none, none, fun _ => false⟩ s [.x, .y] [.x, .y] [.z] m
      (exec (viscotmem2D (surfaceDeriv 5 5 1 2 1 1) m ⟨0, none, none, fun _ => false⟩) s) := by
  intro m
  refine C106_viscotmem2D_partial 2 1 1 _ s m rfl (by norm_num) (fun _ _ => two_pos) one_pos (fun a i => ?_)
  simp [EMod.sigEff, m, List.range_succ]
  norm_num

/-- A medium whose relaxation strength varies: the averaged value differs from the value at the point. -/
example :
    let m : Mod (Pt 2 1 1) := ⟨1, 1, 1, 1, fun _ => 4, 1, 1, 1, 1, 0, fun i => i.1.val, 0,
      fun i => if i.1.val = 0 then 1 / 2 else 1, fun i => i.1.val, 1, fun _ => 1, 1⟩
    ¬ ∀ s : State (Pt 2 1 1), ViscoSHStep 2 1 1 ⟨0, none, none, fun _ => false⟩ s m m.tauAt
      (exec (viscosh2D (surfaceDeriv 2 1 1 2 1 1) m ⟨0, none, none, fun _ => false⟩) s) := by
  intro m
  exact C106_viscosh2D_violated 1 1 m rfl one_pos one_ne_zero (fun _ _ => one_pos) one_pos (0, 0, 0) (by simp [m])
    (by simp [m]) _ (by simp) rfl rfl

end Verif.Solver
