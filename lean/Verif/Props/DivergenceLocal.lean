import Verif.Lemmas.MaxwellLaws
import Verif.Props.Divergence
import Mathlib.Analysis.SpecificLimits.Basic

/-!
# C119, C120: magnetic flux and electric charge with absorbing boundaries and relaxation

The laws hold at every point whose stencil avoids the absorbing boundaries, whatever happens there. The charge obeys
the continuity equation in all media: it changes only by the conduction current, the polarization current of the
relaxation mechanisms and the sources.
-/
set_option linter.dupNamespace false

namespace Verif.Solver
open Matrix

variable {NX NY NZ : ℕ} (sp : Int) (DT DH : ℝ) {c : BC (Pt NX NY NZ)}
  {m : EMod (Pt NX NY NZ)} (srcs : List (Source (Pt NX NY NZ))) (s : State (Pt NX NY NZ)) {i : Pt NX NY NZ}

local notation "D₀" => surfaceDeriv NX NY NZ sp DT DH
local notation "G₀" => regularGrids NX NY NZ sp DT DH

private theorem mulVec_at {M : Matrix (Pt NX NY NZ) (Pt NX NY NZ) ℝ} {v w : Pt NX NY NZ → ℝ}
    (h : ∀ j, M i j ≠ 0 → v j = w j) : M.mulVec v i = M.mulVec w i := by
  refine Finset.sum_congr rfl fun j _ => ?_
  by_cases hj : M i j = 0
  · simp [hj]
  · rw [h j hj]

/-! ### Magnetic flux -/

private theorem flux_sub {axes : List Axis} {s s' : State (Pt NX NY NZ)} {X : Axis → Pt NX NY NZ → ℝ}
    (hX : (axes.map fun a => (forwardMatrix sp DT DH a).mulVec (X a)).sum = 0)
    (hm : ∀ a i, m.invMuAt a i ≠ 0)
    (h : ∀ a ∈ axes, ∀ j, forwardMatrix sp DT DH a i j ≠ 0 →
      s' (.fld (magn a)) j = s (.fld (magn a)) j - m.invMuAt a j * X a j) :
    fluxDivergence sp DT DH axes m s' i = fluxDivergence sp DT DH axes m s i := by
  have key : fluxDivergence sp DT DH axes m s' i = fluxDivergence sp DT DH axes m s i -
      (axes.map fun a => (forwardMatrix sp DT DH a).mulVec (X a)).sum i := by
    clear hX
    unfold fluxDivergence
    induction axes with
    | nil => simp
    | cons a axes ih =>
      simp only [List.map_cons, List.sum_cons, Pi.add_apply]
      rw [ih fun b hb => h b (List.mem_cons_of_mem _ hb)]
      have e : (forwardMatrix sp DT DH a).mulVec (fun j => s' (.fld (magn a)) j / m.invMuAt a j) i =
          (forwardMatrix sp DT DH a).mulVec ((fun j => s (.fld (magn a)) j / m.invMuAt a j) - X a) i :=
        mulVec_at fun j hj => by
          rw [h a List.mem_cons_self j hj, Pi.sub_apply]
          field_simp [hm a j]
      rw [e, Matrix.mulVec_sub, Pi.sub_apply]
      ring
  rw [key, hX, Pi.zero_apply, sub_zero]

private theorem rot3 (E : Axis → Pt NX NY NZ → ℝ) :
    ([Axis.x, .y, .z].map fun a => (forwardMatrix sp DT DH a).mulVec ((G₀).rot E a)).sum = 0 := by
  rw [← (G₀).divF_rot E]
  simp [Grids.divF, regularGrids, add_assoc]

private theorem rot2 (E : Axis → Pt NX NY NZ → ℝ) :
    ([Axis.x, .y].map fun a => (forwardMatrix sp DT DH a).mulVec ((G₀).flat.rot E a)).sum = 0 := by
  rw [← (G₀).flat.divF_rot E]
  simp [Grids.divF, regularGrids, Grids.flat]

private theorem flux_run {S : Solver (Pt NX NY NZ)} {G : Grids (Pt NX NY NZ → ℝ)} {axes : List Axis}
    (hF : ∀ s, FaradayAt G m c axes s (exec S.prog s))
    (hG : ∀ E, (axes.map fun a => (forwardMatrix sp DT DH a).mulVec (G.rot E a)).sum = 0)
    (hinj : ∀ n, ∀ a ∈ axes, injected S srcs n (magn a) = 0) (hm : ∀ a i, m.invMuAt a i ≠ 0)
    (hc : ∀ a ∈ axes, ∀ j, forwardMatrix sp DT DH a i j ≠ 0 → c.Off j) (n : ℕ) :
    fluxDivergence sp DT DH axes m (run S srcs s n) i = fluxDivergence sp DT DH axes m s i := by
  induction n with
  | zero => rfl
  | succ n ih =>
    rw [← ih]
    refine flux_sub sp DT DH (hG (comps elec (run S srcs s n))) hm fun a ha j hj => ?_
    rw [run_succ_fld, hinj n a ha, add_zero]
    exact hF _ a ha j (hc a ha j hj)

private theorem noMagnetic {S : Solver (Pt NX NY NZ)} {a : Axis} {n : ℕ}
    (h : ∀ q ∈ srcs, magn a ∉ S.srcFlds q.ty) : injected S srcs n (magn a) = 0 := by
  funext i
  unfold injected
  apply List.sum_eq_zero
  intro x hx
  obtain ⟨q, hq, rfl⟩ := List.mem_map.mp hx
  rw [if_neg]
  rintro ⟨e, -⟩
  exact h q hq e

/-- C119: in a 3D electromagnetic simulation without magnetic sources the divergence of the magnetic flux density
never changes at a point whose stencil avoids the absorbing boundaries, for all media, electric sources, initial
states and whatever the boundaries do. -/
theorem C119_emem3D (hc : ∀ a j, forwardMatrix sp DT DH a i j ≠ 0 → c.Off j) (hm : ∀ a i, m.invMuAt a i ≠ 0)
    (h : ∀ q ∈ srcs, q.ty ≠ .HZ) (n : ℕ) :
    fluxDivergence sp DT DH [.x, .y, .z] m (run (emem3DSolver D₀ m c) srcs s n) i =
      fluxDivergence sp DT DH [.x, .y, .z] m s i := by
  refine flux_run sp DT DH srcs s (fun s => (emem3D_local sp DT DH s).1) (rot3 sp DT DH)
    (fun n a _ => noMagnetic srcs fun q hq => ?_) hm (fun a _ => hc a) n
  have := h q hq
  cases a <;> cases hty : q.ty <;> simp_all [Solver.srcFlds, emem3DSolver, src3Demem, magn]

/-- C119 for media with relaxation. -/
theorem C119_viscoemem3D (hc : ∀ a j, forwardMatrix sp DT DH a i j ≠ 0 → c.Off j) (hm : ∀ a i, m.invMuAt a i ≠ 0)
    (h : ∀ q ∈ srcs, q.ty ≠ .HZ) (n : ℕ) :
    fluxDivergence sp DT DH [.x, .y, .z] m (run (viscoemem3DSolver D₀ m c) srcs s n) i =
      fluxDivergence sp DT DH [.x, .y, .z] m s i := by
  refine flux_run sp DT DH srcs s (fun s => (viscoemem3D_local sp DT DH s).1) (rot3 sp DT DH)
    (fun n a _ => noMagnetic srcs fun q hq => ?_) hm (fun a _ => hc a) n
  have := h q hq
  cases a <;> cases hty : q.ty <;> simp_all [Solver.srcFlds, viscoemem3DSolver, src3Demem, magn]

/-- C119 in two dimensions (TMEM), for all sources. -/
theorem C119_tmem2D (hc : ∀ a ∈ [Axis.x, .y], ∀ j, forwardMatrix sp DT DH a i j ≠ 0 → c.Off j)
    (hm : ∀ a i, m.invMuAt a i ≠ 0) (n : ℕ) :
    fluxDivergence sp DT DH [.x, .y] m (run (tmem2DSolver D₀ m c) srcs s n) i =
      fluxDivergence sp DT DH [.x, .y] m s i := by
  refine flux_run sp DT DH srcs s (fun s => (tmem2D_local sp DT DH s).1) (rot2 sp DT DH)
    (fun n a ha => noMagnetic srcs fun q hq => ?_) hm hc n
  fin_cases ha <;> cases hty : q.ty <;> simp [Solver.srcFlds, tmem2DSolver, src2Dtmem, magn]

/-- C119 in two dimensions (TMEM) with relaxation. -/
theorem C119_viscotmem2D (hc : ∀ a ∈ [Axis.x, .y], ∀ j, forwardMatrix sp DT DH a i j ≠ 0 → c.Off j)
    (hm : ∀ a i, m.invMuAt a i ≠ 0) (n : ℕ) :
    fluxDivergence sp DT DH [.x, .y] m (run (viscotmem2DSolver D₀ m c) srcs s n) i =
      fluxDivergence sp DT DH [.x, .y] m s i := by
  refine flux_run sp DT DH srcs s (fun s => (viscotmem2D_local sp DT DH s).1) (rot2 sp DT DH)
    (fun n a ha => noMagnetic srcs fun q hq => ?_) hm hc n
  fin_cases ha <;> cases hty : q.ty <;> simp [Solver.srcFlds, viscotmem2DSolver, src2Dtmem, magn]

/-! ### Electric charge -/

/-- Divergence at a point. -/
private theorem div_at {axes : List Axis} {k k' E E' : Axis → Pt NX NY NZ → ℝ}
    (h : ∀ a ∈ axes, ∀ j, backwardMatrix sp DT DH a i j ≠ 0 → k a j * E a j = k' a j * E' a j) :
    elecDivergence sp DT DH axes k E i = elecDivergence sp DT DH axes k' E' i := by
  unfold elecDivergence
  induction axes with
  | nil => rfl
  | cons a axes ih =>
    simp only [List.map_cons, List.sum_cons, Pi.add_apply]
    rw [ih fun b hb => h b (List.mem_cons_of_mem _ hb)]
    congr 1
    exact mulVec_at fun j hj => h a List.mem_cons_self j hj

private theorem div_add' (axes : List Axis) (X Y : Axis → Pt NX NY NZ → ℝ) :
    elecDivergence sp DT DH axes 1 (X + Y) =
      elecDivergence sp DT DH axes 1 X + elecDivergence sp DT DH axes 1 Y := by
  unfold elecDivergence
  induction axes with
  | nil => simp
  | cons a axes ih =>
    simp only [List.map_cons, List.sum_cons]
    rw [ih]
    have e : (fun j => (1 : Axis → Pt NX NY NZ → ℝ) a j * (X + Y) a j) =
      (fun j => (1 : Axis → Pt NX NY NZ → ℝ) a j * X a j) +
        fun j => (1 : Axis → Pt NX NY NZ → ℝ) a j * Y a j := by
      funext j; simp
    rw [e, Matrix.mulVec_add]
    abel

private theorem div_smul' (axes : List Axis) (r : ℝ) (X : Axis → Pt NX NY NZ → ℝ) :
    elecDivergence sp DT DH axes 1 (r • X) = r • elecDivergence sp DT DH axes 1 X := by
  unfold elecDivergence
  induction axes with
  | nil => simp
  | cons a axes ih =>
    simp only [List.map_cons, List.sum_cons]
    rw [ih]
    have e : (fun j => (1 : Axis → Pt NX NY NZ → ℝ) a j * (r • X) a j) =
      r • fun j => (1 : Axis → Pt NX NY NZ → ℝ) a j * X a j := by
      funext j; simp
    rw [e, Matrix.mulVec_smul, smul_add]

private theorem div_weight (axes : List Axis) (k X : Axis → Pt NX NY NZ → ℝ) :
    elecDivergence sp DT DH axes k X = elecDivergence sp DT DH axes 1 (k * X) := by
  funext i
  exact div_at sp DT DH fun a _ j _ => by simp

private theorem curl3 (T : Axis → Pt NX NY NZ → ℝ) :
    elecDivergence sp DT DH [.x, .y, .z] 1 ((G₀).rotB T) = 0 := by
  rw [← (G₀).div_rotB T]
  simp [elecDivergence, Grids.div, regularGrids, add_assoc]

private theorem curl2 (T : Axis → Pt NX NY NZ → ℝ) :
    elecDivergence sp DT DH [.x, .y] 1 ((G₀).flat.rotB T) = 0 := by
  rw [← (G₀).flat.div_rotB T]
  simp [elecDivergence, Grids.div, regularGrids, Grids.flat]

/-- Ampère's law without the update coefficients. -/
private theorem ampere {e σ dt x x' w : ℝ} (he : 0 < e) (hσ : 0 ≤ σ) (hT : 0 < dt)
    (h : x' = Ca e σ dt * x + Cb e σ dt * w) : e * x' = e * x - dt / 2 * (σ * (x + x')) + w := by
  have hp : 0 < 2 * e + σ * dt := by positivity
  have hx : x' * (2 * e + σ * dt) = (2 * e - σ * dt) * x + 2 * w := by
    rw [h]
    simp only [Ca, Cb, Cinv]
    field_simp
    ring
  linarith

private theorem balance {G : Grids (Pt NX NY NZ → ℝ)} {axes : List Axis} {e σ J : Axis → Pt NX NY NZ → ℝ} {dt : ℝ}
    {s s' : State (Pt NX NY NZ)} (hG : ∀ T, elecDivergence sp DT DH axes 1 (G.rotB T) = 0)
    (he : ∀ a j, 0 < e a j) (hσ : ∀ a j, 0 ≤ σ a j) (hT : 0 < dt)
    (hc : ∀ a ∈ axes, ∀ j, backwardMatrix sp DT DH a i j ≠ 0 → c.Off j)
    (h : AmpereAt G c axes (fun a j => Ca (e a j) (σ a j) dt) (fun a j => Cb (e a j) (σ a j) dt) dt J s s') :
    elecDivergence sp DT DH axes e (elecField s') i = elecDivergence sp DT DH axes e (elecField s) i -
      dt / 2 * elecDivergence sp DT DH axes σ (elecField s + elecField s') i -
      dt * elecDivergence sp DT DH axes 1 J i := by
  obtain ⟨T, hT'⟩ := h
  have e1 : elecDivergence sp DT DH axes e (elecField s') i = elecDivergence sp DT DH axes 1
      (e * elecField s + ((-(dt / 2)) • (σ * (elecField s + elecField s')) + (G.rotB T + (-dt) • J))) i := by
    refine div_at sp DT DH fun a ha j hj => ?_
    have := ampere (he a j) (hσ a j) hT (hT' a ha j (hc a ha j hj))
    simp only [elecField, Pi.one_apply, Pi.add_apply, Pi.mul_apply, Pi.smul_apply, smul_eq_mul, one_mul]
    rw [this]
    ring
  rw [e1]
  simp only [div_add', div_smul', hG, ← div_weight, Pi.add_apply, Pi.smul_apply, smul_eq_mul, Pi.zero_apply]
  ring

/-- The electric field after time step `n` without what the sources add. -/
noncomputable def beforeSources (S : Solver (Pt NX NY NZ)) (n : ℕ) : Axis → Pt NX NY NZ → ℝ :=
  elecField (run S srcs s (n + 1)) - addedElectric srcs n

private theorem div_sub' (axes : List Axis) (k X Y : Axis → Pt NX NY NZ → ℝ) :
    elecDivergence sp DT DH axes k (X - Y) =
      elecDivergence sp DT DH axes k X - elecDivergence sp DT DH axes k Y := by
  rw [div_weight, div_weight sp DT DH axes k X, div_weight sp DT DH axes k Y,
    show k * (X - Y) = k * X + (-1 : ℝ) • (k * Y) by rw [mul_sub]; module, div_add', div_smul']
  module

private theorem before_at {S : Solver (Pt NX NY NZ)} {axes : List Axis} {n : ℕ}
    (hadd : ∀ a ∈ axes, injected S srcs n (elec a) = addedElectric srcs n a) {a : Axis} (ha : a ∈ axes)
    (j : Pt NX NY NZ) : beforeSources srcs s S n a j = elecField (exec S.prog (run S srcs s n)) a j := by
  simp only [beforeSources, Pi.sub_apply, elecField, run_succ_fld, hadd a ha, Pi.add_apply]
  ring

private theorem continuity {S : Solver (Pt NX NY NZ)} {G : Grids (Pt NX NY NZ → ℝ)} {axes : List Axis}
    {e σ : Axis → Pt NX NY NZ → ℝ} {J : State (Pt NX NY NZ) → Axis → Pt NX NY NZ → ℝ} {dt : ℝ}
    (hG : ∀ T, elecDivergence sp DT DH axes 1 (G.rotB T) = 0)
    (hadd : ∀ n, ∀ a ∈ axes, injected S srcs n (elec a) = addedElectric srcs n a)
    (hJ : ∀ n, J (exec S.prog (run S srcs s n)) = J (run S srcs s (n + 1)))
    (he : ∀ a j, 0 < e a j) (hσ : ∀ a j, 0 ≤ σ a j) (hT : 0 < dt)
    (h : ∀ s, AmpereAt G c axes (fun a j => Ca (e a j) (σ a j) dt) (fun a j => Cb (e a j) (σ a j) dt) dt
      (J (exec S.prog s)) s (exec S.prog s))
    (hc : ∀ a ∈ axes, ∀ j, backwardMatrix sp DT DH a i j ≠ 0 → c.Off j) (n : ℕ) :
    elecDivergence sp DT DH axes e (beforeSources srcs s S n) i =
      elecDivergence sp DT DH axes e (elecField (run S srcs s n)) i -
      dt / 2 * elecDivergence sp DT DH axes σ (elecField (run S srcs s n) + beforeSources srcs s S n) i -
      dt * elecDivergence sp DT DH axes 1 (J (run S srcs s (n + 1))) i := by
  have e1 : elecDivergence sp DT DH axes e (beforeSources srcs s S n) i =
      elecDivergence sp DT DH axes e (elecField (exec S.prog (run S srcs s n))) i :=
    div_at sp DT DH fun a ha j _ => by rw [before_at srcs s (hadd n) ha]
  have e2 : elecDivergence sp DT DH axes σ (elecField (run S srcs s n) + beforeSources srcs s S n) i =
      elecDivergence sp DT DH axes σ (elecField (run S srcs s n) + elecField (exec S.prog (run S srcs s n))) i :=
    div_at sp DT DH fun a ha j _ => by simp only [Pi.add_apply]; rw [before_at srcs s (hadd n) ha]
  rw [e1, e2, ← hJ]
  exact balance sp DT DH hG he hσ hT hc (h _)

private theorem added_of {S : Solver (Pt NX NY NZ)} {a : Axis} {n : ℕ}
    (h : ∀ ty, elec a ∈ S.srcFlds ty ↔ ty = (match a with | .x => SType.EX | .y => .EY | .z => .EZ)) :
    injected S srcs n (elec a) = addedElectric srcs n a := by
  funext i
  unfold injected addedElectric
  congr 1
  refine List.map_congr_left fun q _ => ?_
  cases a <;> simp [h]

private theorem added3 (n : ℕ) (a : Axis) :
    injected (emem3DSolver D₀ m c) srcs n (elec a) = addedElectric srcs n a :=
  added_of srcs fun ty => by cases a <;> cases ty <;> simp [Solver.srcFlds, emem3DSolver, src3Demem, elec]

private theorem addedV3 (n : ℕ) (a : Axis) :
    injected (viscoemem3DSolver D₀ m c) srcs n (elec a) = addedElectric srcs n a :=
  added_of srcs fun ty => by cases a <;> cases ty <;> simp [Solver.srcFlds, viscoemem3DSolver, src3Demem, elec]

private theorem added2 (n : ℕ) {a : Axis} (ha : a ∈ [Axis.x, .y]) :
    injected (emem2DSolver D₀ m c) srcs n (elec a) = addedElectric srcs n a :=
  added_of srcs fun ty => by
    fin_cases ha <;> cases ty <;> simp [Solver.srcFlds, emem2DSolver, src2Demem, elec]

private theorem addedV2 (n : ℕ) {a : Axis} (ha : a ∈ [Axis.x, .y]) :
    injected (viscoemem2DSolver D₀ m c) srcs n (elec a) = addedElectric srcs n a :=
  added_of srcs fun ty => by
    fin_cases ha <;> cases ty <;> simp [Solver.srcFlds, viscoemem2DSolver, src2Demem, elec]

/-- C120: the continuity equation of a 3D electromagnetic simulation. In one time step the charge `div (eps E)`
changes by the divergence of the conduction current, taken with the mean of the old and the new electric field, and
by nothing else, at every point whose stencil avoids the absorbing boundaries; after that the sources are added. -/
theorem C120_emem3D_continuity (hc : ∀ a j, backwardMatrix sp DT DH a i j ≠ 0 → c.Off j)
    (he : ∀ a j, 0 < m.eps a j) (hs : ∀ a j, 0 ≤ m.sig a j) (hT : 0 < m.DT) (n : ℕ) :
    elecDivergence sp DT DH [.x, .y, .z] m.eps (beforeSources srcs s (emem3DSolver D₀ m c) n) i =
      elecDivergence sp DT DH [.x, .y, .z] m.eps (elecField (run (emem3DSolver D₀ m c) srcs s n)) i -
      m.DT / 2 * elecDivergence sp DT DH [.x, .y, .z] m.sig
        (elecField (run (emem3DSolver D₀ m c) srcs s n) + beforeSources srcs s (emem3DSolver D₀ m c) n) i := by
  have := continuity sp DT DH srcs s (S := emem3DSolver D₀ m c) (J := fun _ => 0) (curl3 sp DT DH)
    (fun n a _ => added3 sp DT DH srcs n a) (fun _ => rfl) he hs hT (fun s => (emem3D_local sp DT DH s).2)
    (fun a _ => hc a) n
  rw [this]
  simp [elecDivergence, ← Pi.zero_def]

/-- C120: the continuity equation of a 2D EMEM simulation. -/
theorem C120_emem2D_continuity (hc : ∀ a ∈ [Axis.x, .y], ∀ j, backwardMatrix sp DT DH a i j ≠ 0 → c.Off j)
    (he : ∀ a j, 0 < m.eps a j) (hs : ∀ a j, 0 ≤ m.sig a j) (hT : 0 < m.DT) (n : ℕ) :
    elecDivergence sp DT DH [.x, .y] m.eps (beforeSources srcs s (emem2DSolver D₀ m c) n) i =
      elecDivergence sp DT DH [.x, .y] m.eps (elecField (run (emem2DSolver D₀ m c) srcs s n)) i -
      m.DT / 2 * elecDivergence sp DT DH [.x, .y] m.sig
        (elecField (run (emem2DSolver D₀ m c) srcs s n) + beforeSources srcs s (emem2DSolver D₀ m c) n) i := by
  have := continuity sp DT DH srcs s (S := emem2DSolver D₀ m c) (J := fun _ => 0) (curl2 sp DT DH)
    (fun n _ => added2 sp DT DH srcs n) (fun _ => rfl) he hs hT (fun s => (emem2D_local sp DT DH s).2) hc n
  rw [this]
  simp [elecDivergence, ← Pi.zero_def]

/-- Parameters of a relaxing medium: no negative permittivity, conductivity or relaxation strength. -/
structure EMod.Relaxing (m : EMod (Pt NX NY NZ)) : Prop where
  vacuum : 0 < m.epsVac
  eps : ∀ a j, 0 ≤ m.eps a j
  sig : ∀ a j, 0 ≤ m.sig a j
  tau : ∀ a j, 0 ≤ m.tauEps a j
  times : ∀ l, 0 < m.relaxTime l
  step : 0 < m.DT

private theorem EMod.Relaxing.epsEff_pos (h : m.Relaxing) (a : Axis) (j : Pt NX NY NZ) : 0 < m.epsEff a j := by
  unfold EMod.epsEff
  have := h.vacuum
  dsimp only
  split <;> linarith

private theorem EMod.Relaxing.sigEff_nonneg (h : m.Relaxing) (a : Axis) (j : Pt NX NY NZ) : 0 ≤ m.sigEff a j := by
  unfold EMod.sigEff
  have h1 : 0 ≤ ((List.range m.L).map fun l => 1 / m.relaxTime l).sum :=
    List.sum_nonneg fun x hx => by
      obtain ⟨l, -, rfl⟩ := List.mem_map.mp hx
      have := h.times l
      positivity
  have h2 := h.eps a j
  have h3 := h.sig a j
  have h4 := h.tau a j
  positivity

/-- C120: the continuity equation of a 3D simulation with relaxation. The charge belongs to the effective permittivity;
the relaxation variables are the current of the mechanisms. -/
theorem C120_viscoemem3D_continuity (hc : ∀ a j, backwardMatrix sp DT DH a i j ≠ 0 → c.Off j) (hm : m.Relaxing)
    (n : ℕ) :
    elecDivergence sp DT DH [.x, .y, .z] m.epsEff (beforeSources srcs s (viscoemem3DSolver D₀ m c) n) i =
      elecDivergence sp DT DH [.x, .y, .z] m.epsEff (elecField (run (viscoemem3DSolver D₀ m c) srcs s n)) i -
      m.DT / 2 * elecDivergence sp DT DH [.x, .y, .z] m.sigEff
        (elecField (run (viscoemem3DSolver D₀ m c) srcs s n) +
          beforeSources srcs s (viscoemem3DSolver D₀ m c) n) i -
      m.DT * elecDivergence sp DT DH [.x, .y, .z] 1
        (relaxSum m (run (viscoemem3DSolver D₀ m c) srcs s (n + 1))) i :=
  continuity sp DT DH srcs s (S := viscoemem3DSolver D₀ m c) (J := relaxSum m) (curl3 sp DT DH)
    (fun n a _ => addedV3 sp DT DH srcs n a) (fun _ => rfl) hm.epsEff_pos hm.sigEff_nonneg hm.step
    (fun s => (viscoemem3D_local sp DT DH s).2.1) (fun a _ => hc a) n

/-- C120: the continuity equation of a 2D EMEM simulation with relaxation. -/
theorem C120_viscoemem2D_continuity (hc : ∀ a ∈ [Axis.x, .y], ∀ j, backwardMatrix sp DT DH a i j ≠ 0 → c.Off j)
    (hm : m.Relaxing) (n : ℕ) :
    elecDivergence sp DT DH [.x, .y] m.epsEff (beforeSources srcs s (viscoemem2DSolver D₀ m c) n) i =
      elecDivergence sp DT DH [.x, .y] m.epsEff (elecField (run (viscoemem2DSolver D₀ m c) srcs s n)) i -
      m.DT / 2 * elecDivergence sp DT DH [.x, .y] m.sigEff
        (elecField (run (viscoemem2DSolver D₀ m c) srcs s n) +
          beforeSources srcs s (viscoemem2DSolver D₀ m c) n) i -
      m.DT * elecDivergence sp DT DH [.x, .y] 1
        (relaxSum m (run (viscoemem2DSolver D₀ m c) srcs s (n + 1))) i :=
  continuity sp DT DH srcs s (S := viscoemem2DSolver D₀ m c) (J := relaxSum m) (curl2 sp DT DH)
    (fun n _ => addedV2 sp DT DH srcs n) (fun _ => rfl) hm.epsEff_pos hm.sigEff_nonneg hm.step
    (fun s => (viscoemem2D_local sp DT DH s).2.1) hc n

/-! ### Consequences -/

private theorem div_const {axes : List Axis} {k X : Axis → Pt NX NY NZ → ℝ} {κ : ℝ}
    (h : ∀ a ∈ axes, ∀ j, backwardMatrix sp DT DH a i j ≠ 0 → k a j = κ) :
    elecDivergence sp DT DH axes k X i = κ * elecDivergence sp DT DH axes 1 X i := by
  have : elecDivergence sp DT DH axes k X i = elecDivergence sp DT DH axes 1 (κ • X) i :=
    div_at sp DT DH fun a ha j hj => by rw [h a ha j hj]; simp
  rw [this, div_smul', Pi.smul_apply, smul_eq_mul]

private theorem lossless {S : Solver (Pt NX NY NZ)} {axes : List Axis} {e σ : Axis → Pt NX NY NZ → ℝ} {dt : ℝ}
    (h : ∀ n, elecDivergence sp DT DH axes e (beforeSources srcs s S n) i =
      elecDivergence sp DT DH axes e (elecField (run S srcs s n)) i -
      dt / 2 * elecDivergence sp DT DH axes σ (elecField (run S srcs s n) + beforeSources srcs s S n) i)
    (hσ : ∀ a ∈ axes, ∀ j, backwardMatrix sp DT DH a i j ≠ 0 → σ a j = 0) (n : ℕ) :
    elecDivergence sp DT DH axes e (elecField (run S srcs s n)) i = elecDivergence sp DT DH axes e (elecField s) i +
      ∑ k ∈ Finset.range n, elecDivergence sp DT DH axes e (addedElectric srcs k) i := by
  induction n with
  | zero => simp [run]
  | succ n ih =>
    have := h n
    rw [div_const sp DT DH hσ, zero_mul, mul_zero, sub_zero, beforeSources, div_sub', Pi.sub_apply, ih] at this
    rw [Finset.sum_range_succ]
    linarith

/-- C120: where the stencil of a point avoids conductive material and absorbing boundaries, its charge changes only by
what the sources add, in all 3D media, for all magnetic sources and whatever happens elsewhere. -/
theorem C120_emem3D_lossless (he : ∀ a j, 0 < m.eps a j) (hs : ∀ a j, 0 ≤ m.sig a j) (hT : 0 < m.DT)
    (hc : ∀ a j, backwardMatrix sp DT DH a i j ≠ 0 → c.Off j ∧ m.sig a j = 0) (n : ℕ) :
    elecDivergence sp DT DH [.x, .y, .z] m.eps (elecField (run (emem3DSolver D₀ m c) srcs s n)) i =
      elecDivergence sp DT DH [.x, .y, .z] m.eps (elecField s) i +
        ∑ k ∈ Finset.range n, elecDivergence sp DT DH [.x, .y, .z] m.eps (addedElectric srcs k) i :=
  lossless sp DT DH srcs s (C120_emem3D_continuity sp DT DH srcs s (fun a j hj => (hc a j hj).1) he hs hT)
    (fun a _ j hj => (hc a j hj).2) n

/-- C120: the same for 2D EMEM simulations. -/
theorem C120_emem2D_lossless (he : ∀ a j, 0 < m.eps a j) (hs : ∀ a j, 0 ≤ m.sig a j) (hT : 0 < m.DT)
    (hc : ∀ a ∈ [Axis.x, .y], ∀ j, backwardMatrix sp DT DH a i j ≠ 0 → c.Off j ∧ m.sig a j = 0) (n : ℕ) :
    elecDivergence sp DT DH [.x, .y] m.eps (elecField (run (emem2DSolver D₀ m c) srcs s n)) i =
      elecDivergence sp DT DH [.x, .y] m.eps (elecField s) i +
        ∑ k ∈ Finset.range n, elecDivergence sp DT DH [.x, .y] m.eps (addedElectric srcs k) i :=
  lossless sp DT DH srcs s (C120_emem2D_continuity sp DT DH srcs s (fun a ha j hj => (hc a ha j hj).1) he hs hT)
    (fun a ha j hj => (hc a ha j hj).2) n

private theorem conductive {S : Solver (Pt NX NY NZ)} {axes : List Axis} {e σ : Axis → Pt NX NY NZ → ℝ} {dt ε γ : ℝ}
    (hp : 0 < 2 * ε + γ * dt)
    (h : ∀ n, elecDivergence sp DT DH axes e (beforeSources srcs s S n) i =
      elecDivergence sp DT DH axes e (elecField (run S srcs s n)) i -
      dt / 2 * elecDivergence sp DT DH axes σ (elecField (run S srcs s n) + beforeSources srcs s S n) i)
    (he : ∀ a ∈ axes, ∀ j, backwardMatrix sp DT DH a i j ≠ 0 → e a j = ε)
    (hσ : ∀ a ∈ axes, ∀ j, backwardMatrix sp DT DH a i j ≠ 0 → σ a j = γ)
    (h0 : ∀ a ∈ axes, ∀ j, backwardMatrix sp DT DH a i j ≠ 0 → ∀ n, addedElectric srcs n a j = 0) (n : ℕ) :
    elecDivergence sp DT DH axes e (elecField (run S srcs s n)) i =
      ((2 * ε - γ * dt) / (2 * ε + γ * dt)) ^ n * elecDivergence sp DT DH axes e (elecField s) i := by
  induction n with
  | zero => simp [run]
  | succ n ih =>
    have hb : ∀ k : Axis → Pt NX NY NZ → ℝ, elecDivergence sp DT DH axes k (beforeSources srcs s S n) i =
        elecDivergence sp DT DH axes k (elecField (run S srcs s (n + 1))) i := fun k =>
      div_at sp DT DH fun a ha j hj => by simp [beforeSources, h0 a ha j hj n]
    have hn := h n
    have hsum : elecDivergence sp DT DH axes σ (elecField (run S srcs s n) + beforeSources srcs s S n) i =
        γ * (elecDivergence sp DT DH axes 1 (elecField (run S srcs s n)) i +
          elecDivergence sp DT DH axes 1 (elecField (run S srcs s (n + 1))) i) := by
      rw [div_const sp DT DH hσ, div_add', Pi.add_apply, hb]
    rw [hsum, hb, div_const sp DT DH he, div_const sp DT DH he] at hn
    rw [div_const sp DT DH he] at ih
    rw [pow_succ', mul_assoc, ← ih, div_const sp DT DH he]
    rw [div_mul_eq_mul_div, eq_div_iff hp.ne']
    linear_combination (2 * ε) * hn

/-- C120: where the stencil of a point avoids the absorbing boundaries and electric sources and lies in material with
the same permittivity and conductivity, its charge decreases by the same factor in every time step, whatever happens
elsewhere. -/
theorem C120_emem3D_conductive (ε γ : ℝ) (he : ∀ a j, 0 < m.eps a j) (hs : ∀ a j, 0 ≤ m.sig a j) (hT : 0 < m.DT)
    (hc : ∀ a j, backwardMatrix sp DT DH a i j ≠ 0 → c.Off j ∧ m.eps a j = ε ∧ m.sig a j = γ)
    (h0 : ∀ q ∈ srcs, ∀ a, backwardMatrix sp DT DH a i q.pos ≠ 0 → q.ty ≠ .EX ∧ q.ty ≠ .EY ∧ q.ty ≠ .EZ)
    (hpos : 0 < 2 * ε + γ * m.DT) (n : ℕ) :
    elecDivergence sp DT DH [.x, .y, .z] m.eps (elecField (run (emem3DSolver D₀ m c) srcs s n)) i =
      ((2 * ε - γ * m.DT) / (2 * ε + γ * m.DT)) ^ n *
        elecDivergence sp DT DH [.x, .y, .z] m.eps (elecField s) i :=
  conductive sp DT DH srcs s hpos
    (C120_emem3D_continuity sp DT DH srcs s (fun a j hj => (hc a j hj).1) he hs hT)
    (fun a _ j hj => (hc a j hj).2.1) (fun a _ j hj => (hc a j hj).2.2)
    (fun a _ j hj n => by
      unfold addedElectric
      apply List.sum_eq_zero
      intro x hx
      obtain ⟨q, hq, rfl⟩ := List.mem_map.mp hx
      rw [if_neg]
      rintro ⟨e, rfl⟩
      have := h0 q hq a hj
      cases a <;> simp_all) n

/-- C120: the same for 2D EMEM simulations. -/
theorem C120_emem2D_conductive (ε γ : ℝ) (he : ∀ a j, 0 < m.eps a j) (hs : ∀ a j, 0 ≤ m.sig a j) (hT : 0 < m.DT)
    (hc : ∀ a ∈ [Axis.x, .y], ∀ j, backwardMatrix sp DT DH a i j ≠ 0 → c.Off j ∧ m.eps a j = ε ∧ m.sig a j = γ)
    (h0 : ∀ q ∈ srcs, ∀ a ∈ [Axis.x, .y], backwardMatrix sp DT DH a i q.pos ≠ 0 → q.ty ≠ .EX ∧ q.ty ≠ .EY)
    (hpos : 0 < 2 * ε + γ * m.DT) (n : ℕ) :
    elecDivergence sp DT DH [.x, .y] m.eps (elecField (run (emem2DSolver D₀ m c) srcs s n)) i =
      ((2 * ε - γ * m.DT) / (2 * ε + γ * m.DT)) ^ n *
        elecDivergence sp DT DH [.x, .y] m.eps (elecField s) i :=
  conductive sp DT DH srcs s hpos
    (C120_emem2D_continuity sp DT DH srcs s (fun a ha j hj => (hc a ha j hj).1) he hs hT)
    (fun a ha j hj => (hc a ha j hj).2.1) (fun a ha j hj => (hc a ha j hj).2.2)
    (fun a ha j hj n => by
      unfold addedElectric
      apply List.sum_eq_zero
      intro x hx
      obtain ⟨q, hq, rfl⟩ := List.mem_map.mp hx
      rw [if_neg]
      rintro ⟨e, rfl⟩
      have := h0 q hq a ha hj
      fin_cases ha <;> simp_all) n

/-- C120: with conductivity the charge of such a point vanishes in the long run. -/
theorem C120_emem3D_decay (ε γ : ℝ) (he : ∀ a j, 0 < m.eps a j) (hs : ∀ a j, 0 ≤ m.sig a j) (hT : 0 < m.DT)
    (hε : 0 < ε) (hγ : 0 < γ)
    (hc : ∀ a j, backwardMatrix sp DT DH a i j ≠ 0 → c.Off j ∧ m.eps a j = ε ∧ m.sig a j = γ)
    (h0 : ∀ q ∈ srcs, ∀ a, backwardMatrix sp DT DH a i q.pos ≠ 0 → q.ty ≠ .EX ∧ q.ty ≠ .EY ∧ q.ty ≠ .EZ) :
    Filter.Tendsto (fun n => elecDivergence sp DT DH [.x, .y, .z] m.eps
      (elecField (run (emem3DSolver D₀ m c) srcs s n)) i) Filter.atTop (nhds 0) := by
  have hpos : 0 < 2 * ε + γ * m.DT := by positivity
  simp only [C120_emem3D_conductive sp DT DH srcs s ε γ he hs hT hc h0 hpos]
  have hst : 0 < γ * m.DT := by positivity
  have hk : |(2 * ε - γ * m.DT) / (2 * ε + γ * m.DT)| < 1 := by
    rw [abs_div, abs_of_pos hpos, div_lt_one hpos, abs_lt]
    constructor <;> linarith
  have := (tendsto_pow_atTop_nhds_zero_of_abs_lt_one hk).mul_const
    (elecDivergence sp DT DH [.x, .y, .z] m.eps (elecField s) i)
  rwa [zero_mul] at this

/-- Divergence of the current of a mechanism. -/
noncomputable def relaxDivergence (axes : List Axis) (l : ℕ) (s : State (Pt NX NY NZ)) : Pt NX NY NZ → ℝ :=
  elecDivergence sp DT DH axes 1 fun a => s (.rel (elec a) l)

private theorem relaxSum_div (axes : List Axis) (t : State (Pt NX NY NZ)) :
    elecDivergence sp DT DH axes 1 (relaxSum m t) = ∑ l : Fin m.L, relaxDivergence sp DT DH axes l t := by
  have e : relaxSum m t = ∑ l : Fin m.L, fun a => t (.rel (elec a) l) := by
    funext a j
    simp [relaxSum, Finset.sum_apply]
  rw [e]
  have : ∀ S : Finset (Fin m.L), elecDivergence sp DT DH axes 1 (∑ l ∈ S, fun a => t (.rel (elec a) l)) =
      ∑ l ∈ S, relaxDivergence sp DT DH axes l t := by
    intro S
    induction S using Finset.induction with
    | empty => simp only [Finset.sum_empty]; simpa using div_smul' sp DT DH axes 0 (0 : Axis → Pt NX NY NZ → ℝ)
    | insert l S hl ih => rw [Finset.sum_insert hl, Finset.sum_insert hl, div_add', ih]; rfl
  exact this _

private theorem neutral {S : Solver (Pt NX NY NZ)} {axes : List Axis} {ε γ : ℝ} {κ : ℕ → ℝ}
    (h : ∀ n, elecDivergence sp DT DH axes m.epsEff (beforeSources srcs s S n) i =
      elecDivergence sp DT DH axes m.epsEff (elecField (run S srcs s n)) i -
      m.DT / 2 * elecDivergence sp DT DH axes m.sigEff (elecField (run S srcs s n) + beforeSources srcs s S n) i -
      m.DT * elecDivergence sp DT DH axes 1 (relaxSum m (run S srcs s (n + 1))) i)
    (hR : ∀ n, RelaxAt m axes (run S srcs s n) (run S srcs s (n + 1)))
    (hp : 0 < 2 * ε + γ * m.DT)
    (he : ∀ a ∈ axes, ∀ j, backwardMatrix sp DT DH a i j ≠ 0 → m.epsEff a j = ε)
    (hσ : ∀ a ∈ axes, ∀ j, backwardMatrix sp DT DH a i j ≠ 0 → m.sigEff a j = γ)
    (hκ : ∀ a ∈ axes, ∀ j, backwardMatrix sp DT DH a i j ≠ 0 → ∀ l, m.cd a l j = κ l)
    (h0 : ∀ a ∈ axes, ∀ j, backwardMatrix sp DT DH a i j ≠ 0 → ∀ n, addedElectric srcs n a j = 0)
    (hE : elecDivergence sp DT DH axes 1 (elecField s) i = 0)
    (hr : ∀ l : Fin m.L, relaxDivergence sp DT DH axes l s i = 0) (n : ℕ) :
    elecDivergence sp DT DH axes 1 (elecField (run S srcs s n)) i = 0 ∧
      ∀ l : Fin m.L, relaxDivergence sp DT DH axes l (run S srcs s n) i = 0 := by
  induction n with
  | zero => exact ⟨hE, hr⟩
  | succ n ih =>
    have hl : ∀ l : Fin m.L, relaxDivergence sp DT DH axes l (run S srcs s (n + 1)) i = 0 := by
      intro l
      have e : relaxDivergence sp DT DH axes l (run S srcs s (n + 1)) i = elecDivergence sp DT DH axes 1
          (m.cc l • (fun a => run S srcs s n (.rel (elec a) l)) + κ l • elecField (run S srcs s n)) i :=
        div_at sp DT DH fun a ha j hj => by
          rw [hR n a ha l j, hκ a ha j hj]
          simp [elecField]
      have h1 : elecDivergence sp DT DH axes 1 (fun a => run S srcs s n (.rel (elec a) l)) i = 0 := ih.2 l
      rw [e, div_add', div_smul', div_smul', Pi.add_apply, Pi.smul_apply, Pi.smul_apply, ih.1, h1]
      simp
    refine ⟨?_, hl⟩
    have hb : ∀ k : Axis → Pt NX NY NZ → ℝ, elecDivergence sp DT DH axes k (beforeSources srcs s S n) i =
        elecDivergence sp DT DH axes k (elecField (run S srcs s (n + 1))) i := fun k =>
      div_at sp DT DH fun a ha j hj => by simp [beforeSources, h0 a ha j hj n]
    have hn := h n
    have hsum : elecDivergence sp DT DH axes m.sigEff (elecField (run S srcs s n) + beforeSources srcs s S n) i =
        γ * (elecDivergence sp DT DH axes 1 (elecField (run S srcs s n)) i +
          elecDivergence sp DT DH axes 1 (elecField (run S srcs s (n + 1))) i) := by
      rw [div_const sp DT DH hσ, div_add', Pi.add_apply, hb]
    rw [hsum, hb, div_const sp DT DH he, div_const sp DT DH he, ih.1, relaxSum_div, Finset.sum_apply,
      Finset.sum_eq_zero fun l _ => hl l] at hn
    have : (2 * ε + γ * m.DT) * elecDivergence sp DT DH axes 1 (elecField (run S srcs s (n + 1))) i = 0 := by
      linarith
    exact (mul_eq_zero.mp this).resolve_left hp.ne'

private theorem effective {a : Axis} {j : Pt NX NY NZ} {e σ τ τ' : ℝ} (h : m.eps a j = e) (h1 : m.sig a j = σ)
    (h2 : m.tauEps a j = τ) (h3 : m.tauSig a j = τ') :
    m.epsEff a j = (if (1 - τ) * e + σ * τ' < m.epsVac then m.epsVac else (1 - τ) * e + σ * τ') ∧
    m.sigEff a j = τ * (((List.range m.L).map fun l => 1 / m.relaxTime l).sum / m.L) * e + σ ∧
    ∀ l, m.cd a l j = τ * (1 / (1 + 1 / 2 * m.DT / m.relaxTime l) / (m.L * m.relaxTime l * m.relaxTime l)) * e *
      (-m.DT) := by
  simp [EMod.epsEff, EMod.sigEff, EMod.cd, h, h1, h2, h3]

private theorem effective_pos {e σ τ τ' : ℝ} (hm : m.Relaxing) (he : 0 ≤ e) (hσ : 0 ≤ σ) (hτ : 0 ≤ τ) :
    0 < 2 * (if (1 - τ) * e + σ * τ' < m.epsVac then m.epsVac else (1 - τ) * e + σ * τ') +
      (τ * (((List.range m.L).map fun l => 1 / m.relaxTime l).sum / m.L) * e + σ) * m.DT := by
  have h1 : 0 ≤ ((List.range m.L).map fun l => 1 / m.relaxTime l).sum :=
    List.sum_nonneg fun x hx => by
      obtain ⟨l, -, rfl⟩ := List.mem_map.mp hx
      have := hm.times l
      positivity
  have h2 := hm.step
  have h3 : 0 ≤ (τ * (((List.range m.L).map fun l => 1 / m.relaxTime l).sum / m.L) * e + σ) * m.DT := by positivity
  have h4 := hm.vacuum
  split <;> linarith

private theorem noElectric {a : Axis} {j : Pt NX NY NZ}
    (h : ∀ q ∈ srcs, q.pos = j → q.ty ≠ (match a with | .x => SType.EX | .y => .EY | .z => .EZ)) (n : ℕ) :
    addedElectric srcs n a j = 0 := by
  unfold addedElectric
  apply List.sum_eq_zero
  intro x hx
  obtain ⟨q, hq, rfl⟩ := List.mem_map.mp hx
  rw [if_neg]
  rintro ⟨e, e'⟩
  have := h q hq e'
  cases a <;> exact this e

/-- C120: in a homogeneous relaxing medium no charge appears where there is none: if the electric field and the
currents of the mechanisms have no divergence at a point at the beginning, they never get any, whatever the magnetic
sources, the sources elsewhere and the boundaries do. -/
theorem C120_viscoemem3D_neutral (hm : m.Relaxing) {e σ τ τ' : ℝ} (he : 0 ≤ e) (hσ : 0 ≤ σ) (hτ : 0 ≤ τ)
    (hc : ∀ a j, backwardMatrix sp DT DH a i j ≠ 0 → c.Off j ∧ m.eps a j = e ∧ m.sig a j = σ ∧
      m.tauEps a j = τ ∧ m.tauSig a j = τ')
    (h0 : ∀ q ∈ srcs, ∀ a, backwardMatrix sp DT DH a i q.pos ≠ 0 → q.ty ≠ .EX ∧ q.ty ≠ .EY ∧ q.ty ≠ .EZ)
    (hE : elecDivergence sp DT DH [.x, .y, .z] 1 (elecField s) i = 0)
    (hr : ∀ l : Fin m.L, relaxDivergence sp DT DH [.x, .y, .z] l s i = 0) (n : ℕ) :
    elecDivergence sp DT DH [.x, .y, .z] 1 (elecField (run (viscoemem3DSolver D₀ m c) srcs s n)) i = 0 ∧
      ∀ l : Fin m.L, relaxDivergence sp DT DH [.x, .y, .z] l (run (viscoemem3DSolver D₀ m c) srcs s n) i = 0 := by
  have hh : ∀ a j, backwardMatrix sp DT DH a i j ≠ 0 → _ := fun a j hj =>
    effective (m := m) (hc a j hj).2.1 (hc a j hj).2.2.1 (hc a j hj).2.2.2.1 (hc a j hj).2.2.2.2
  refine neutral sp DT DH srcs s
    (C120_viscoemem3D_continuity sp DT DH srcs s (fun a j hj => (hc a j hj).1) hm)
    (fun n => (viscoemem3D_local sp DT DH _).2.2) (effective_pos hm he hσ hτ)
    (fun a _ j hj => (hh a j hj).1) (fun a _ j hj => (hh a j hj).2.1) (fun a _ j hj => (hh a j hj).2.2)
    (fun a _ j hj n => noElectric srcs (fun q hq e => ?_) n) hE hr n
  subst e
  have := h0 q hq a hj
  cases a <;> simp [this]

/-- C120: the same for 2D EMEM simulations with relaxation. -/
theorem C120_viscoemem2D_neutral (hm : m.Relaxing) {e σ τ τ' : ℝ} (he : 0 ≤ e) (hσ : 0 ≤ σ) (hτ : 0 ≤ τ)
    (hc : ∀ a ∈ [Axis.x, .y], ∀ j, backwardMatrix sp DT DH a i j ≠ 0 → c.Off j ∧ m.eps a j = e ∧ m.sig a j = σ ∧
      m.tauEps a j = τ ∧ m.tauSig a j = τ')
    (h0 : ∀ q ∈ srcs, ∀ a ∈ [Axis.x, .y], backwardMatrix sp DT DH a i q.pos ≠ 0 → q.ty ≠ .EX ∧ q.ty ≠ .EY)
    (hE : elecDivergence sp DT DH [.x, .y] 1 (elecField s) i = 0)
    (hr : ∀ l : Fin m.L, relaxDivergence sp DT DH [.x, .y] l s i = 0) (n : ℕ) :
    elecDivergence sp DT DH [.x, .y] 1 (elecField (run (viscoemem2DSolver D₀ m c) srcs s n)) i = 0 ∧
      ∀ l : Fin m.L, relaxDivergence sp DT DH [.x, .y] l (run (viscoemem2DSolver D₀ m c) srcs s n) i = 0 := by
  have hh : ∀ a ∈ [Axis.x, .y], ∀ j, backwardMatrix sp DT DH a i j ≠ 0 → _ := fun a ha j hj =>
    effective (m := m) (hc a ha j hj).2.1 (hc a ha j hj).2.2.1 (hc a ha j hj).2.2.2.1 (hc a ha j hj).2.2.2.2
  refine neutral sp DT DH srcs s
    (C120_viscoemem2D_continuity sp DT DH srcs s (fun a ha j hj => (hc a ha j hj).1) hm)
    (fun n => (viscoemem2D_local sp DT DH _).2.2) (effective_pos hm he hσ hτ)
    (fun a ha j hj => (hh a ha j hj).1) (fun a ha j hj => (hh a ha j hj).2.1)
    (fun a ha j hj => (hh a ha j hj).2.2)
    (fun a ha j hj n => noElectric srcs (fun q hq e => ?_) n) hE hr n
  subst e
  have := h0 q hq a ha hj
  fin_cases ha <;> simp [this]

/-- The stencil of a point away from the face `x = 0` avoids this face. -/
private theorem avoids {a : Axis} {j : Pt 9 9 9}
    (h : backwardMatrix (NX := 9) (NY := 9) (NZ := 9) 2 1 1 a (4, 4, 4) j ≠ 0) : j.1.val ≠ 0 := by
  rw [backwardMatrix_line] at h
  unfold lineMatrix at h
  split at h
  · next e =>
    cases a
    · have h' := fwdEntry_window (s := 2) (by decide) (fun h0 => h (by beta_reduce; rw [h0]; simp))
      have h4 : ((along .x ((4, 4, 4) : Pt 9 9 9) : ℕ) : ℤ) = 4 := rfl
      have hj : (along .x j : ℕ) = j.1.val := rfl
      rw [h4, hj] at h'
      omega
    · rw [← e]; simp [moveTo]
    · rw [← e]; simp [moveTo]
  · exact absurd rfl h

/-- The hypotheses for a relaxing medium with two mechanisms, damping boundaries and a magnetic source: the charge stays
zero in the middle of the model. -/
example (g : ℕ → ℝ) :
    let m : EMod (Pt 9 9 9) := ⟨fun i => 1 + i.1.val, fun _ => 2, fun i => 3 + i.2.1.val, fun _ _ => 4, fun _ _ => 1,
      fun _ _ => 1 / 2, fun _ _ => 0, 1, 2, fun l => 1 + l, 1 / 10⟩
    let c : BC (Pt 9 9 9) := ⟨0, some fun i => if i.1.val = 0 then 1 / 2 else 1, none, fun _ => false⟩
    elecDivergence 2 1 1 [.x, .y, .z] 1
      (elecField (run (viscoemem3DSolver (surfaceDeriv 9 9 9 2 1 1) m c) [⟨.HZ, (4, 4, 4), g⟩] 0 7)) (4, 4, 4) = 0 := by
  intro m c
  refine (C120_viscoemem3D_neutral 2 1 1 _ 0 (m := m) (e := 4) (σ := 1) (τ := 1 / 2) (τ' := 0)
    ⟨by norm_num [m], fun _ _ => by norm_num [m], fun _ _ => by norm_num [m], fun _ _ => by norm_num [m],
      fun l => by simp only [m]; positivity, by norm_num [m]⟩ (by norm_num) (by norm_num) (by norm_num)
    (fun a j hj => ⟨⟨fun w hw => ?_, fun q hq => ?_⟩, rfl, rfl, rfl, rfl⟩)
    (fun q hq a _ => ?_) ?_ (fun l => ?_) 7).1
  · simp only [c, Option.some.injEq] at hw
    rw [← hw]
    simp [avoids hj]
  · simp [c] at hq
  · simp only [List.mem_singleton] at hq
    subst hq
    simp
  · simp [elecDivergence, elecField, ← Pi.zero_def]
  · simp [relaxDivergence, elecDivergence, ← Pi.zero_def]

/-- The hypotheses of the other theorems: varying permittivity and permeability, an electric and a magnetic source,
the same damping. -/
example (s : State (Pt 9 9 9)) (g : ℕ → ℝ) :
    let m : EMod (Pt 9 9 9) := ⟨fun i => 1 + i.1.val, fun _ => 2, fun i => 3 + i.2.1.val, fun _ i => 1 + i.2.2.val,
      fun _ i => if i.1.val = 0 then 3 else 0, fun _ _ => 0, fun _ _ => 0, 1, 0, fun _ => 1, 1⟩
    let c : BC (Pt 9 9 9) := ⟨1, some fun i => if i.1.val = 0 then 1 / 2 else 1, none, fun _ => true⟩
    elecDivergence 2 1 1 [.x, .y, .z] m.eps
      (elecField (run (emem3DSolver (surfaceDeriv 9 9 9 2 1 1) m c) [⟨.HZ, (1, 1, 1), g⟩, ⟨.EX, (4, 4, 4), g⟩] s 7))
        (4, 4, 4) =
      elecDivergence 2 1 1 [.x, .y, .z] m.eps (elecField s) (4, 4, 4) + ∑ k ∈ Finset.range 7,
        elecDivergence 2 1 1 [.x, .y, .z] m.eps
          (addedElectric [⟨.HZ, (1, 1, 1), g⟩, ⟨.EX, (4, 4, 4), g⟩] k) (4, 4, 4) := by
  intro m c
  refine C120_emem3D_lossless 2 1 1 _ s (fun a j => ?_) (fun a j => ?_) (by norm_num [m]) (fun a j hj =>
    ⟨⟨fun w hw => ?_, fun q hq => ?_⟩, ?_⟩) 7
  · simp only [m]
    positivity
  · simp only [m]
    split <;> norm_num
  · simp only [c, Option.some.injEq] at hw
    rw [← hw]
    simp [avoids hj]
  · simp [c] at hq
  · simp [m, avoids hj]

/-- The hypotheses of C119: the flux at the opposite end of the model. -/
example (s : State (Pt 9 9 9)) (g : ℕ → ℝ) :
    let m : EMod (Pt 9 9 9) := ⟨fun i => 1 + i.1.val, fun _ => 2, fun i => 3 + i.2.1.val, fun _ i => 1 + i.2.2.val,
      fun _ _ => 3, fun _ _ => 1, fun _ _ => 0, 1, 2, fun _ => 1, 1⟩
    let c : BC (Pt 9 9 9) := ⟨1, some fun i => if i = (0, 0, 0) then 1 / 2 else 1, none, fun _ => true⟩
    fluxDivergence 2 1 1 [.x, .y, .z] m
      (run (viscoemem3DSolver (surfaceDeriv 9 9 9 2 1 1) m c) [⟨.EX, (4, 4, 4), g⟩] s 7) (8, 8, 8) =
      fluxDivergence 2 1 1 [.x, .y, .z] m s (8, 8, 8) := by
  intro m c
  refine C119_viscoemem3D 2 1 1 _ s (fun a j hj => ⟨fun w hw => ?_, fun q hq => ?_⟩) (fun a i => ?_) (by simp) 7
  · simp only [c, Option.some.injEq] at hw
    have : j ≠ (0, 0, 0) := by
      rintro rfl
      rw [forwardMatrix_line] at hj
      unfold lineMatrix at hj
      cases a <;> exact hj (if_neg (by decide))
    rw [← hw]
    simp [this]
  · simp [c] at hq
  · cases a <;> simp only [EMod.invMuAt, m] <;> positivity

end Verif.Solver
