import Verif.Lemmas.Energy
import Mathlib.Data.Fin.VecNotation
import Mathlib.Algebra.BigOperators.Fin
import Mathlib.Tactic.NormNum
import Mathlib.Tactic.Positivity
import Mathlib.Tactic.NormNum.Abs
/-!
# Energy balance of the time stepping

The wavefields are known at staggered times, so the kinetic energy of the old and the new half step
are mixed: the energies below contain the product of a velocity with the gradient acting on it.
-/
set_option linter.dupNamespace false
set_option linter.unusedSectionVars false

namespace Verif.Solver
open Matrix

variable {ι : Type} [Fintype ι] [DecidableEq ι]

private theorem applySource_nil (S : Solver ι) (t : ℕ) (s : State ι) : applySource S [] t s = s := by
  funext v
  cases v <;> simp [applySource]

theorem run_succ_nil (S : Solver ι) (s : State ι) (n : ℕ) :
    run S [] s (n + 1) = exec S.prog (run S [] s n) := by
  rw [run, step, applySource_nil]

/-- A quantity that one step keeps (under an invariant) is kept by all steps. -/
private theorem conserved {S : Solver ι} (I : State ι → Prop) (E : State ι → ℝ)
    (hI : ∀ s, I s → I (exec S.prog s)) (hE : ∀ s, I s → E (exec S.prog s) = E s) (s : State ι)
    (h : I s) (n : ℕ) : E (run S [] s n) = E s := by
  have : I (run S [] s n) ∧ E (run S [] s n) = E s := by
    induction n with
    | zero => exact ⟨h, rfl⟩
    | succ n ih => rw [run_succ_nil]; exact ⟨hI _ ih.1, (hE _ ih.1).trans ih.2⟩
  exact this.2

private theorem sq_div {K p d : ℝ} (h : K = 0 → p = 0) :
    (p + d * K) ^ 2 / K = p ^ 2 / K + (p + (p + d * K)) * d := by
  by_cases hK : K = 0
  · simp [hK, h hK]
  · field_simp
    ring

private theorem el2 {M μ x y a b : ℝ} (h1 : M = μ → x + y = 0) (h2 : μ = 0 → x = y) :
    let x' := x + ((a + b) * M + -(2 * (b * μ)))
    let y' := y + ((a + b) * M + -(2 * (a * μ)))
    (x' + y') ^ 2 / (4 * (M - μ)) + (x' - y') ^ 2 / (4 * μ) =
      (x + y) ^ 2 / (4 * (M - μ)) + (x - y) ^ 2 / (4 * μ) + ((x + x') * a + (y + y') * b) := by
  intro x' y'
  have e1 := sq_div (K := 4 * (M - μ)) (p := x + y) (d := (a + b) / 2)
    (fun h => h1 (by linarith))
  have e2 := sq_div (K := 4 * μ) (p := x - y) (d := (a - b) / 2)
    (fun h => sub_eq_zero.mpr (h2 (by linarith)))
  rw [show x + y + (a + b) / 2 * (4 * (M - μ)) = x' + y' by simp only [x', y']; ring] at e1
  rw [show x - y + (a - b) / 2 * (4 * μ) = x' - y' by simp only [x', y']; ring] at e2
  rw [e1, e2]
  ring

private theorem el3 {M μ x y z a b c : ℝ} (h1 : 3 * M = 4 * μ → x + y + z = 0)
    (h2 : μ = 0 → x = y ∧ y = z) :
    let x' := x + ((a + (b + c)) * M + -(2 * ((b + c) * μ)))
    let y' := y + ((a + (b + c)) * M + -(2 * ((a + c) * μ)))
    let z' := z + ((a + (b + c)) * M + -(2 * ((a + b) * μ)))
    (x' + y' + z') ^ 2 / (3 * (3 * M - 4 * μ)) +
        ((x' - y') ^ 2 / (6 * μ) + (y' - z') ^ 2 / (6 * μ) + (z' - x') ^ 2 / (6 * μ)) =
      (x + y + z) ^ 2 / (3 * (3 * M - 4 * μ)) +
        ((x - y) ^ 2 / (6 * μ) + (y - z) ^ 2 / (6 * μ) + (z - x) ^ 2 / (6 * μ)) +
        ((x + x') * a + (y + y') * b + (z + z') * c) := by
  intro x' y' z'
  have e1 := sq_div (K := 3 * (3 * M - 4 * μ)) (p := x + y + z) (d := (a + b + c) / 3)
    (fun h => h1 (by linarith))
  have e2 := sq_div (K := 6 * μ) (p := x - y) (d := (a - b) / 3)
    (fun h => sub_eq_zero.mpr (h2 (by linarith)).1)
  have e3 := sq_div (K := 6 * μ) (p := y - z) (d := (b - c) / 3)
    (fun h => sub_eq_zero.mpr (h2 (by linarith)).2)
  have e4 := sq_div (K := 6 * μ) (p := z - x) (d := (c - a) / 3)
    (fun h => sub_eq_zero.mpr ((h2 (by linarith)).1.trans (h2 (by linarith)).2).symm)
  rw [show x + y + z + (a + b + c) / 3 * (3 * (3 * M - 4 * μ)) = x' + y' + z' by
    simp only [x', y', z']; ring] at e1
  rw [show x - y + (a - b) / 3 * (6 * μ) = x' - y' by simp only [x', y']; ring] at e2
  rw [show y - z + (b - c) / 3 * (6 * μ) = y' - z' by simp only [z', y']; ring] at e3
  rw [show z - x + (c - a) / 3 * (6 * μ) = z' - x' by simp only [x', z']; ring] at e4
  rw [e1, e2, e3, e4]
  ring

private theorem em1 {ε σ DT e d : ℝ} (h1 : 0 < ε) (h2 : 0 ≤ σ) (h3 : 0 < DT) :
    let e' := Ca ε σ DT * e + d * Cb ε σ DT
    ε * e' ^ 2 = ε * e ^ 2 + (e + e') * d - σ * DT / 2 * (e + e') ^ 2 := by
  intro e'
  have hp : 0 < 1 / 2 / ε * σ * DT + 1 := by positivity
  have he : (1 / 2 / ε * σ * DT + 1) * e' = (1 - 1 / 2 / ε * σ * DT) * e + d / ε := by
    simp only [e', Ca, Cb, Cinv]
    field_simp
  have h4 : ε * (e' - e) = d - σ * DT / 2 * (e + e') := by
    have : ε * ((1 / 2 / ε * σ * DT + 1) * e') = ε * ((1 - 1 / 2 / ε * σ * DT) * e + d / ε) := by
      rw [he]
    field_simp at this
    linarith
  have : ε * e' ^ 2 - ε * e ^ 2 = (e + e') * (ε * (e' - e)) := by ring
  rw [h4] at this
  linarith

/-! ### C27 -/

/-- Energy of a 2D acoustic wavefield. -/
noncomputable def acousticEnergy2D (D : Deriv ι) (m : Mod ι) (s : State ι) : ℝ :=
  ∑ i, s (.fld .p) i ^ 2 / m.pMod i +
  (∑ i, s (.fld .vX) i ^ 2 / m.invRhoX i + ∑ i, s (.fld .vY) i ^ 2 / m.invRhoY i) +
  (∑ i, s (.fld .vX) i * D.Dxf.mulVec (s (.fld .p)) i +
   ∑ i, s (.fld .vY) i * D.Dyf.mulVec (s (.fld .p)) i)

/-- Values that never change because a parameter is zero are zero (true of every wavefield that
started at rest). -/
def acousticRest2D (m : Mod ι) (s : State ι) : Prop :=
  ∀ i, (m.pMod i = 0 → s (.fld .p) i = 0) ∧ (m.invRhoX i = 0 → s (.fld .vX) i = 0) ∧
    (m.invRhoY i = 0 → s (.fld .vY) i = 0)

theorem acoustic2D_step {D : Deriv ι} {m : Mod ι} {c : BC ι} (hc : c.plain)
    (hD : D.regular) (s : State ι) (h : acousticRest2D m s) :
    acousticRest2D m (exec (acoustic2D D m c) s) ∧
    acousticEnergy2D D m (exec (acoustic2D D m c) s) = acousticEnergy2D D m s := by
  obtain ⟨e1, e2, e3⟩ := acoustic2D_plain (m := m) hc hD s
  generalize exec (acoustic2D D m c) s = s' at e1 e2 e3 ⊢
  refine ⟨fun i => ?_, ?_⟩
  · obtain ⟨h1, h2, h3⟩ := h i
    refine ⟨fun hz => ?_, fun hz => ?_, fun hz => ?_⟩
    · rw [e3]; simp [hz, h1 hz]
    · rw [e1]; simp [hz, h2 hz]
    · rw [e2]; simp [hz, h3 hz]
  · have := energy_step (A := Fin 2) (B := Fin 1) (fun i s => s 0 i ^ 2 / m.pMod i)
      ![m.invRhoX, m.invRhoY] ![![D.Dxf], ![D.Dyf]]
      ![s (.fld .vX), s (.fld .vY)] ![s' (.fld .vX), s' (.fld .vY)] ![s (.fld .p)] ![s' (.fld .p)]
      (fun _ => 0)
      (by intro a i; fin_cases a <;> simpa using by simp_all [acousticRest2D])
      (by intro a i; fin_cases a <;> simp [gSum, e1, e2])
      (by
        intro i
        have e3i := congrFun e3 i
        rw [hD.adjX, hD.adjY] at e3i
        simp only [neg_mulVec, Pi.neg_apply] at e3i
        have := sq_div (d := -(D.Dxf.transpose.mulVec (s' (.fld .vX)) i) +
          -(D.Dyf.transpose.mulVec (s' (.fld .vY)) i)) (h i).1
        rw [← e3i] at this
        simp only [dSum, Fin.sum_univ_two, Fin.sum_univ_one, Matrix.cons_val]
        linear_combination this)
    simpa [energy, gSum, Fin.sum_univ_two, acousticEnergy2D] using this

/-- 2D acoustic modelling without sources and boundary conditions keeps the energy in every step. -/
theorem C27_acoustic2D {D : Deriv ι} {m : Mod ι} {c : BC ι} (hc : c.plain) (hD : D.regular)
    (s : State ι) (h : acousticRest2D m s) (n : ℕ) :
    acousticEnergy2D D m (run (acoustic2DSolver D m c) [] s n) = acousticEnergy2D D m s :=
  conserved (acousticRest2D m) _ (fun s hs => (acoustic2D_step hc hD s hs).1)
    (fun s hs => (acoustic2D_step hc hD s hs).2) s h n

/-- Energy of a 3D acoustic wavefield. -/
noncomputable def acousticEnergy3D (D : Deriv ι) (m : Mod ι) (s : State ι) : ℝ :=
  ∑ i, s (.fld .p) i ^ 2 / m.pMod i +
  (∑ i, s (.fld .vX) i ^ 2 / m.invRhoX i + ∑ i, s (.fld .vY) i ^ 2 / m.invRhoY i +
    ∑ i, s (.fld .vZ) i ^ 2 / m.invRhoZ i) +
  (∑ i, s (.fld .vX) i * D.Dxf.mulVec (s (.fld .p)) i +
   ∑ i, s (.fld .vY) i * D.Dyf.mulVec (s (.fld .p)) i +
   ∑ i, s (.fld .vZ) i * D.Dzf.mulVec (s (.fld .p)) i)

/-- See `acousticRest2D`. -/
def acousticRest3D (m : Mod ι) (s : State ι) : Prop :=
  ∀ i, (m.pMod i = 0 → s (.fld .p) i = 0) ∧ (m.invRhoX i = 0 → s (.fld .vX) i = 0) ∧
    (m.invRhoY i = 0 → s (.fld .vY) i = 0) ∧ (m.invRhoZ i = 0 → s (.fld .vZ) i = 0)

theorem acoustic3D_step {D : Deriv ι} {m : Mod ι} {c : BC ι} (hc : c.plain)
    (hD : D.regular) (s : State ι) (h : acousticRest3D m s) :
    acousticRest3D m (exec (acoustic3D D m c) s) ∧
    acousticEnergy3D D m (exec (acoustic3D D m c) s) = acousticEnergy3D D m s := by
  obtain ⟨e1, e2, e3, e4⟩ := acoustic3D_plain (m := m) hc hD s
  generalize exec (acoustic3D D m c) s = s' at e1 e2 e3 e4 ⊢
  refine ⟨fun i => ?_, ?_⟩
  · obtain ⟨h1, h2, h3, h4⟩ := h i
    refine ⟨fun hz => ?_, fun hz => ?_, fun hz => ?_, fun hz => ?_⟩
    · rw [e4]; simp [hz, h1 hz]
    · rw [e1]; simp [hz, h2 hz]
    · rw [e2]; simp [hz, h3 hz]
    · rw [e3]; simp [hz, h4 hz]
  · have := energy_step (A := Fin 3) (B := Fin 1) (fun i s => s 0 i ^ 2 / m.pMod i)
      ![m.invRhoX, m.invRhoY, m.invRhoZ] ![![D.Dxf], ![D.Dyf], ![D.Dzf]]
      ![s (.fld .vX), s (.fld .vY), s (.fld .vZ)] ![s' (.fld .vX), s' (.fld .vY), s' (.fld .vZ)]
      ![s (.fld .p)] ![s' (.fld .p)] (fun _ => 0)
      (by intro a i; fin_cases a <;> simpa using by simp_all [acousticRest3D])
      (by intro a i; fin_cases a <;> simp [gSum, e1, e2, e3])
      (by
        intro i
        have e3i := congrFun e4 i
        rw [hD.adjX, hD.adjY, hD.adjZ] at e3i
        simp only [neg_mulVec, Pi.neg_apply] at e3i
        have := sq_div (d := -(D.Dxf.transpose.mulVec (s' (.fld .vX)) i) +
          (-(D.Dyf.transpose.mulVec (s' (.fld .vY)) i) +
          -(D.Dzf.transpose.mulVec (s' (.fld .vZ)) i))) (h i).1
        rw [← e3i] at this
        simp only [dSum, Fin.sum_univ_three, Fin.sum_univ_one, Matrix.cons_val]
        linear_combination this)
    simpa [energy, gSum, Fin.sum_univ_three, acousticEnergy3D] using this

/-- 3D acoustic modelling without sources and boundary conditions keeps the energy in every step. -/
theorem C27_acoustic3D {D : Deriv ι} {m : Mod ι} {c : BC ι} (hc : c.plain) (hD : D.regular)
    (s : State ι) (h : acousticRest3D m s) (n : ℕ) :
    acousticEnergy3D D m (run (acoustic3DSolver D m c) [] s n) = acousticEnergy3D D m s :=
  conserved (acousticRest3D m) _ (fun s hs => (acoustic3D_step hc hD s hs).1)
    (fun s hs => (acoustic3D_step hc hD s hs).2) s h n

/-- Example: derivatives of two points per direction, all parameters 1 except a point of vanishing
bulk modulus, and a wavefield that is not at rest. -/
noncomputable def energyExD : Deriv (Fin 2) :=
  let F : Matrix (Fin 2) (Fin 2) ℝ := !![-1, 1; 0, -1]
  let B := -F.transpose
  ⟨F, B, F, B, F, B, F, B, F, B, F, B, B, B, none, none, none, none⟩

/-- Example model. -/
noncomputable def energyExM : Mod (Fin 2) :=
  ⟨1, 1, 1, 1, ![1, 0], 1, 1, 1, 1, 1, 1, 1, 1, 1, 0, fun _ => 1, 1⟩

example : energyExD.regular ∧ (⟨0, none, none, fun _ => false⟩ : BC (Fin 2)).plain ∧
    acousticRest2D energyExM (fun _ => ![1, 0]) ∧ acousticEnergy2D energyExD energyExM (fun _ => ![1, 0]) = 1 := by
  refine ⟨⟨⟨rfl, rfl, rfl, rfl, rfl, rfl, rfl, rfl⟩, rfl, rfl, rfl⟩, ⟨rfl, rfl, rfl⟩, ?_, ?_⟩
  · intro i
    fin_cases i <;> simp [energyExM]
  · simp [acousticEnergy2D, energyExM, energyExD, Fin.sum_univ_two, Matrix.mulVec, dotProduct]
    norm_num

/-! ### C68: SH and elastic waves -/

/-- Energy of an SH wavefield. -/
noncomputable def shEnergy (D : Deriv ι) (m : Mod ι) (s : State ι) : ℝ :=
  (∑ i, s (.fld .Sxz) i ^ 2 / m.sModXZ i + ∑ i, s (.fld .Syz) i ^ 2 / m.sModYZ i) +
  ∑ i, s (.fld .vZ) i ^ 2 / m.invRho i +
  ∑ i, s (.fld .vZ) i * (D.Dxb.mulVec (s (.fld .Sxz)) i + D.Dyb.mulVec (s (.fld .Syz)) i)

/-- See `acousticRest2D`. -/
def shRest (m : Mod ι) (s : State ι) : Prop :=
  ∀ i, (m.sModXZ i = 0 → s (.fld .Sxz) i = 0) ∧ (m.sModYZ i = 0 → s (.fld .Syz) i = 0) ∧
    (m.invRho i = 0 → s (.fld .vZ) i = 0)

theorem sh_step {D : Deriv ι} {m : Mod ι} {c : BC ι} (hc : c.plain)
    (hD : D.regular) (s : State ι) (h : shRest m s) :
    shRest m (exec (sh2D D m c) s) ∧ shEnergy D m (exec (sh2D D m c) s) = shEnergy D m s := by
  obtain ⟨e1, e2, e3⟩ := sh2D_plain (m := m) hc hD s
  generalize exec (sh2D D m c) s = s' at e1 e2 e3 ⊢
  refine ⟨fun i => ?_, ?_⟩
  · obtain ⟨h1, h2, h3⟩ := h i
    refine ⟨fun hz => ?_, fun hz => ?_, fun hz => ?_⟩
    · rw [e2]; simp [hz, h1 hz]
    · rw [e3]; simp [hz, h2 hz]
    · rw [e1]; simp [hz, h3 hz]
  · have := energy_step (A := Fin 1) (B := Fin 2)
      (fun i s => s 0 i ^ 2 / m.sModXZ i + s 1 i ^ 2 / m.sModYZ i)
      ![m.invRho] ![![D.Dxb, D.Dyb]]
      ![s (.fld .vZ)] ![s' (.fld .vZ)] ![s (.fld .Sxz), s (.fld .Syz)]
      ![s' (.fld .Sxz), s' (.fld .Syz)] (fun _ => 0)
      (by intro a i; fin_cases a; simpa using by simp_all [shRest])
      (by intro a i; fin_cases a; simp [gSum, e1, Fin.sum_univ_two])
      (by
        intro i
        have t1 := sq_div (d := D.Dxf.mulVec (s' (.fld .vZ)) i) (h i).1
        have t2 := sq_div (d := D.Dyf.mulVec (s' (.fld .vZ)) i) (h i).2.1
        rw [← congrFun e2 i] at t1
        rw [← congrFun e3 i] at t2
        simp only [dSum, Fin.sum_univ_two, Fin.sum_univ_one, Matrix.cons_val, hD.adjX, hD.adjY,
          transpose_neg, transpose_transpose, neg_mulVec, Pi.neg_apply]
        linear_combination t1 + t2)
    simpa [energy, gSum, Fin.sum_univ_two, shEnergy, Finset.sum_add_distrib] using this

/-- 2D SH modelling without sources and boundary conditions keeps the energy in every step. -/
theorem C68_sh2D {D : Deriv ι} {m : Mod ι} {c : BC ι} (hc : c.plain) (hD : D.regular)
    (s : State ι) (h : shRest m s) (n : ℕ) :
    shEnergy D m (run (sh2DSolver D m c) [] s n) = shEnergy D m s :=
  conserved (shRest m) _ (fun s hs => (sh_step hc hD s hs).1)
    (fun s hs => (sh_step hc hD s hs).2) s h n

/-- Energy of a 2D elastic wavefield: the stress part is `σ : C⁻¹ σ`, split into the mean stress and
the deviator, so that fluids (`μ = 0`) are included. -/
noncomputable def elasticEnergy2D (D : Deriv ι) (m : Mod ι) (s : State ι) : ℝ :=
  ∑ i, ((s (.fld .Sxx) i + s (.fld .Syy) i) ^ 2 / (4 * (m.pMod i - m.sMod i)) +
    (s (.fld .Sxx) i - s (.fld .Syy) i) ^ 2 / (4 * m.sMod i) +
    s (.fld .Sxy) i ^ 2 / m.sModXY i) +
  (∑ i, s (.fld .vX) i ^ 2 / m.invRhoX i + ∑ i, s (.fld .vY) i ^ 2 / m.invRhoY i) +
  (∑ i, s (.fld .vX) i * (D.Dxf.mulVec (s (.fld .Sxx)) i + D.Dyb.mulVec (s (.fld .Sxy)) i) +
   ∑ i, s (.fld .vY) i * (D.Dxb.mulVec (s (.fld .Sxy)) i + D.Dyf.mulVec (s (.fld .Syy)) i))

/-- Components that never change because a modulus is zero are zero (true of every wavefield that
started at rest). -/
def elasticRest2D (m : Mod ι) (s : State ι) : Prop :=
  ∀ i, (m.pMod i = m.sMod i → s (.fld .Sxx) i + s (.fld .Syy) i = 0) ∧
    (m.sMod i = 0 → s (.fld .Sxx) i = s (.fld .Syy) i) ∧
    (m.sModXY i = 0 → s (.fld .Sxy) i = 0) ∧
    (m.invRhoX i = 0 → s (.fld .vX) i = 0) ∧ (m.invRhoY i = 0 → s (.fld .vY) i = 0)

theorem elastic2D_step {D : Deriv ι} {m : Mod ι} {c : BC ι} (hc : c.plain)
    (hD : D.regular) (s : State ι) (h : elasticRest2D m s) :
    elasticRest2D m (exec (elastic2D D m c) s) ∧
      elasticEnergy2D D m (exec (elastic2D D m c) s) = elasticEnergy2D D m s := by
  obtain ⟨e1, e2, e3, e4, e5⟩ := elastic2D_plain (m := m) hc hD s
  generalize exec (elastic2D D m c) s = s' at e1 e2 e3 e4 e5 ⊢
  refine ⟨fun i => ?_, ?_⟩
  · obtain ⟨h1, h2, h3, h4, h5⟩ := h i
    refine ⟨fun hz => ?_, fun hz => ?_, fun hz => ?_, fun hz => ?_, fun hz => ?_⟩
    · rw [e3, e4]; simp only [hz]; linear_combination h1 hz
    · rw [e3, e4]; simp [hz, h2 hz]
    · rw [e5]; simp [hz, h3 hz]
    · rw [e1]; simp [hz, h4 hz]
    · rw [e2]; simp [hz, h5 hz]
  · have := energy_step (A := Fin 2) (B := Fin 3)
      (fun i s => (s 0 i + s 1 i) ^ 2 / (4 * (m.pMod i - m.sMod i)) +
        (s 0 i - s 1 i) ^ 2 / (4 * m.sMod i) + s 2 i ^ 2 / m.sModXY i)
      ![m.invRhoX, m.invRhoY] ![![D.Dxf, 0, D.Dyb], ![0, D.Dyf, D.Dxb]]
      ![s (.fld .vX), s (.fld .vY)] ![s' (.fld .vX), s' (.fld .vY)]
      ![s (.fld .Sxx), s (.fld .Syy), s (.fld .Sxy)]
      ![s' (.fld .Sxx), s' (.fld .Syy), s' (.fld .Sxy)] (fun _ => 0)
      (by intro a i; fin_cases a <;> simpa using by simp_all [elasticRest2D])
      (by intro a i; fin_cases a <;> simp [gSum, e1, e2, Fin.sum_univ_three, add_comm])
      (by
        intro i
        have t1 := el2 (a := D.Dxb.mulVec (s' (.fld .vX)) i) (b := D.Dyb.mulVec (s' (.fld .vY)) i)
          (h i).1 (h i).2.1
        have t2 := sq_div (d := D.Dyf.mulVec (s' (.fld .vX)) i + D.Dxf.mulVec (s' (.fld .vY)) i)
          (h i).2.2.1
        simp only at t1
        rw [← congrFun e3 i, ← congrFun e4 i] at t1
        rw [← congrFun e5 i] at t2
        simp only [hD.adjX, hD.adjY, neg_mulVec, Pi.neg_apply] at t1 t2
        simp only [dSum, Fin.sum_univ_two, Fin.sum_univ_three, Matrix.cons_val, hD.adjX, hD.adjY,
          transpose_neg, transpose_transpose, neg_mulVec, Pi.neg_apply, transpose_zero, zero_mulVec,
          Pi.zero_apply]
        linear_combination t1 + t2)
    simpa [energy, gSum, Fin.sum_univ_two, Fin.sum_univ_three, elasticEnergy2D, add_comm,
      add_left_comm] using this

/-- 2D elastic modelling without sources and boundary conditions keeps the energy in every step. -/
theorem C68_elastic2D {D : Deriv ι} {m : Mod ι} {c : BC ι} (hc : c.plain) (hD : D.regular)
    (s : State ι) (h : elasticRest2D m s) (n : ℕ) :
    elasticEnergy2D D m (run (elastic2DSolver D m c) [] s n) = elasticEnergy2D D m s :=
  conserved (elasticRest2D m) _ (fun s hs => (elastic2D_step hc hD s hs).1)
    (fun s hs => (elastic2D_step hc hD s hs).2) s h n

/-- Energy of a 3D elastic wavefield. -/
noncomputable def elasticEnergy3D (D : Deriv ι) (m : Mod ι) (s : State ι) : ℝ :=
  ∑ i, ((s (.fld .Sxx) i + s (.fld .Syy) i + s (.fld .Szz) i) ^ 2 /
      (3 * (3 * m.pMod i - 4 * m.sMod i)) +
    ((s (.fld .Sxx) i - s (.fld .Syy) i) ^ 2 / (6 * m.sMod i) +
     (s (.fld .Syy) i - s (.fld .Szz) i) ^ 2 / (6 * m.sMod i) +
     (s (.fld .Szz) i - s (.fld .Sxx) i) ^ 2 / (6 * m.sMod i)) +
    s (.fld .Sxy) i ^ 2 / m.sModXY i + s (.fld .Sxz) i ^ 2 / m.sModXZ i +
    s (.fld .Syz) i ^ 2 / m.sModYZ i) +
  (∑ i, s (.fld .vX) i ^ 2 / m.invRhoX i + ∑ i, s (.fld .vY) i ^ 2 / m.invRhoY i +
    ∑ i, s (.fld .vZ) i ^ 2 / m.invRhoZ i) +
  (∑ i, s (.fld .vX) i * (D.Dxf.mulVec (s (.fld .Sxx)) i + D.Dyb.mulVec (s (.fld .Sxy)) i +
      D.Dzb.mulVec (s (.fld .Sxz)) i) +
   ∑ i, s (.fld .vY) i * (D.Dyf.mulVec (s (.fld .Syy)) i + D.Dxb.mulVec (s (.fld .Sxy)) i +
      D.Dzb.mulVec (s (.fld .Syz)) i) +
   ∑ i, s (.fld .vZ) i * (D.Dzf.mulVec (s (.fld .Szz)) i + D.Dxb.mulVec (s (.fld .Sxz)) i +
      D.Dyb.mulVec (s (.fld .Syz)) i))

/-- See `elasticRest2D`. -/
def elasticRest3D (m : Mod ι) (s : State ι) : Prop :=
  ∀ i, (3 * m.pMod i = 4 * m.sMod i →
      s (.fld .Sxx) i + s (.fld .Syy) i + s (.fld .Szz) i = 0) ∧
    (m.sMod i = 0 → s (.fld .Sxx) i = s (.fld .Syy) i ∧ s (.fld .Syy) i = s (.fld .Szz) i) ∧
    (m.sModXY i = 0 → s (.fld .Sxy) i = 0) ∧ (m.sModXZ i = 0 → s (.fld .Sxz) i = 0) ∧
    (m.sModYZ i = 0 → s (.fld .Syz) i = 0) ∧
    (m.invRhoX i = 0 → s (.fld .vX) i = 0) ∧ (m.invRhoY i = 0 → s (.fld .vY) i = 0) ∧
    (m.invRhoZ i = 0 → s (.fld .vZ) i = 0)

theorem elastic3D_step {D : Deriv ι} {m : Mod ι} {c : BC ι} (hc : c.plain)
    (hD : D.regular) (s : State ι) (h : elasticRest3D m s) :
    elasticRest3D m (exec (elastic3D D m c) s) ∧
      elasticEnergy3D D m (exec (elastic3D D m c) s) = elasticEnergy3D D m s := by
  obtain ⟨e1, e2, e3, e4, e5, e6, e7, e8, e9⟩ := elastic3D_plain (m := m) hc hD s
  generalize exec (elastic3D D m c) s = s' at e1 e2 e3 e4 e5 e6 e7 e8 e9 ⊢
  refine ⟨fun i => ?_, ?_⟩
  · obtain ⟨h1, h2, h3, h4, h5, h6, h7, h8⟩ := h i
    refine ⟨fun hz => ?_, fun hz => ?_, fun hz => ?_, fun hz => ?_, fun hz => ?_, fun hz => ?_,
      fun hz => ?_, fun hz => ?_⟩
    · rw [e4, e5, e6]
      linear_combination h1 hz + (D.Dxb.mulVec (s' (.fld .vX)) i + D.Dyb.mulVec (s' (.fld .vY)) i +
        D.Dzb.mulVec (s' (.fld .vZ)) i) * hz
    · rw [e4, e5, e6]; simp [hz, (h2 hz).1, (h2 hz).2]
    · rw [e7]; simp [hz, h3 hz]
    · rw [e8]; simp [hz, h4 hz]
    · rw [e9]; simp [hz, h5 hz]
    · rw [e1]; simp [hz, h6 hz]
    · rw [e2]; simp [hz, h7 hz]
    · rw [e3]; simp [hz, h8 hz]
  · have := energy_step (A := Fin 3) (B := Fin 6)
      (fun i s => (s 0 i + s 1 i + s 2 i) ^ 2 / (3 * (3 * m.pMod i - 4 * m.sMod i)) +
        ((s 0 i - s 1 i) ^ 2 / (6 * m.sMod i) + (s 1 i - s 2 i) ^ 2 / (6 * m.sMod i) +
         (s 2 i - s 0 i) ^ 2 / (6 * m.sMod i)) +
        s 3 i ^ 2 / m.sModXY i + s 4 i ^ 2 / m.sModXZ i + s 5 i ^ 2 / m.sModYZ i)
      ![m.invRhoX, m.invRhoY, m.invRhoZ]
      ![![D.Dxf, 0, 0, D.Dyb, D.Dzb, 0], ![0, D.Dyf, 0, D.Dxb, 0, D.Dzb],
        ![0, 0, D.Dzf, 0, D.Dxb, D.Dyb]]
      ![s (.fld .vX), s (.fld .vY), s (.fld .vZ)] ![s' (.fld .vX), s' (.fld .vY), s' (.fld .vZ)]
      ![s (.fld .Sxx), s (.fld .Syy), s (.fld .Szz), s (.fld .Sxy), s (.fld .Sxz), s (.fld .Syz)]
      ![s' (.fld .Sxx), s' (.fld .Syy), s' (.fld .Szz), s' (.fld .Sxy), s' (.fld .Sxz),
        s' (.fld .Syz)] (fun _ => 0)
      (by
        intro a i
        obtain ⟨h1, h2, h3, h4, h5, h6, h7, h8⟩ := h i
        fin_cases a
        · exact h6
        · exact h7
        · exact h8)
      (by
        intro a i
        fin_cases a <;>
        · simp only [gSum, e1, e2, e3, Fin.sum_univ_six, Matrix.cons_val, zero_mulVec, Pi.zero_apply,
            Fin.zero_eta, Fin.mk_one, Fin.reduceFinMk]
          ring)
      (by
        intro i
        obtain ⟨h1, h2, h3, h4, h5, h6, h7, h8⟩ := h i
        have t1 := el3 (a := D.Dxb.mulVec (s' (.fld .vX)) i) (b := D.Dyb.mulVec (s' (.fld .vY)) i)
          (c := D.Dzb.mulVec (s' (.fld .vZ)) i) h1 h2
        have t2 := sq_div (d := D.Dyf.mulVec (s' (.fld .vX)) i + D.Dxf.mulVec (s' (.fld .vY)) i) h3
        have t3 := sq_div (d := D.Dzf.mulVec (s' (.fld .vX)) i + D.Dxf.mulVec (s' (.fld .vZ)) i) h4
        have t4 := sq_div (d := D.Dzf.mulVec (s' (.fld .vY)) i + D.Dyf.mulVec (s' (.fld .vZ)) i) h5
        simp only at t1
        rw [← congrFun e4 i, ← congrFun e5 i, ← congrFun e6 i] at t1
        rw [← congrFun e7 i] at t2
        rw [← congrFun e8 i] at t3
        rw [← congrFun e9 i] at t4
        simp only [hD.adjX, hD.adjY, hD.adjZ, neg_mulVec, Pi.neg_apply] at t1 t2 t3 t4
        simp only [dSum, Fin.sum_univ_three, Fin.sum_univ_six, Matrix.cons_val, hD.adjX, hD.adjY,
          hD.adjZ, transpose_neg, transpose_transpose, neg_mulVec, Pi.neg_apply, transpose_zero,
          zero_mulVec, Pi.zero_apply]
        linear_combination t1 + t2 + t3 + t4)
    simpa [energy, gSum, Fin.sum_univ_three, Fin.sum_univ_six, elasticEnergy3D] using this

/-- 3D elastic modelling without sources and boundary conditions keeps the energy in every step. -/
theorem C68_elastic3D {D : Deriv ι} {m : Mod ι} {c : BC ι} (hc : c.plain) (hD : D.regular)
    (s : State ι) (h : elasticRest3D m s) (n : ℕ) :
    elasticEnergy3D D m (run (elastic3DSolver D m c) [] s n) = elasticEnergy3D D m s :=
  conserved (elasticRest3D m) _ (fun s hs => (elastic3D_step hc hD s hs).1)
    (fun s hs => (elastic3D_step hc hD s hs).2) s h n

/-- Example: a solid whose second point is a fluid. -/
example : elasticRest2D ⟨1, 1, 1, 1, 3, ![1, 0], 1, 1, 1, 1, 1, 1, 1, 1, 0, fun _ => 1, 1⟩
    (fun v => if v = .fld .Syy then ![2, 1] else ![1, 1]) := by
  intro i
  fin_cases i <;> simp

/-! ### C69: electromagnetic waves -/

/-- Physical electromagnetic parameters. -/
structure EMod.physical (m : EMod ι) : Prop where
  eps : ∀ a i, 0 < m.eps a i
  sig : ∀ a i, 0 ≤ m.sig a i
  dt : 0 < m.DT

/-- An energy that every step diminishes by a non-negative loss (under an invariant). -/
private theorem balance {S : Solver ι} (I : State ι → Prop) (E : State ι → ℝ)
    (loss : State ι → State ι → ℝ) (hI : ∀ s, I s → I (exec S.prog s))
    (hE : ∀ s, I s → E (exec S.prog s) = E s - loss s (exec S.prog s)) (s : State ι)
    (h : I s) (n : ℕ) :
    E (run S [] s (n + 1)) = E (run S [] s n) - loss (run S [] s n) (run S [] s (n + 1)) := by
  have : ∀ n, I (run S [] s n) := by
    intro n
    induction n with
    | zero => exact h
    | succ n ih => rw [run_succ_nil]; exact hI _ ih
  rw [run_succ_nil]
  exact hE _ (this n)

private theorem le_of_balance {S : Solver ι} (E : State ι → ℝ) {s : State ι} (loss : ℕ → ℝ)
    (hl : ∀ n, 0 ≤ loss n) (h : ∀ n, E (run S [] s (n + 1)) = E (run S [] s n) - loss n) {k n : ℕ}
    (hkn : k ≤ n) : E (run S [] s n) ≤ E (run S [] s k) := by
  induction hkn with
  | refl => exact le_rfl
  | step _ ih => exact (by rw [h]; linarith [hl ‹_›] : _ ≤ _).trans ih

/-- Energy of a 2D EMEM wavefield. -/
noncomputable def ememEnergy2D (D : Deriv ι) (m : EMod ι) (s : State ι) : ℝ :=
  ∑ i, (m.eps .x i * s (.fld .eX) i ^ 2 + m.eps .y i * s (.fld .eY) i ^ 2) +
  ∑ i, s (.fld .hZ) i ^ 2 / m.invMuXY i +
  ∑ i, s (.fld .hZ) i * (D.Dyf.mulVec (s (.fld .eX)) i - D.Dxf.mulVec (s (.fld .eY)) i)

/-- Ohmic loss of one step in the component `f`: `σ DT / 2 * (e + e')²` at every point. -/
noncomputable def ohmic (m : EMod ι) (a : Axis) (f : Fld) (s s' : State ι) (i : ι) : ℝ :=
  m.sig a i * m.DT / 2 * (s (.fld f) i + s' (.fld f) i) ^ 2

theorem ohmic_nonneg {m : EMod ι} (hm : m.physical) (a : Axis) (f : Fld) (s s' : State ι)
    (i : ι) : 0 ≤ ohmic m a f s s' i := by
  have := hm.sig a i
  have := hm.dt
  unfold ohmic
  positivity

theorem emem2D_step {D : Deriv ι} {m : EMod ι} {c : BC ι} (hc : c.plain)
    (hD : D.regular) (hm : m.physical) (s : State ι)
    (h : ∀ i, m.invMuXY i = 0 → s (.fld .hZ) i = 0) :
    let s' := exec (emem2D D m c) s
    (∀ i, m.invMuXY i = 0 → s' (.fld .hZ) i = 0) ∧
    ememEnergy2D D m s' = ememEnergy2D D m s -
      ∑ i, (ohmic m .x .eX s s' i + ohmic m .y .eY s s' i) := by
  obtain ⟨e1, e2, e3⟩ := emem2D_plain (e := m) hc hD s
  simp only
  generalize exec (emem2D D m c) s = s' at e1 e2 e3 ⊢
  refine ⟨fun i hz => ?_, ?_⟩
  · rw [e1]; simp [hz, h i hz]
  · have := energy_step (A := Fin 1) (B := Fin 2)
      (fun i s => m.eps .x i * s 0 i ^ 2 + m.eps .y i * s 1 i ^ 2)
      ![m.invMuXY] ![![D.Dyf, -D.Dxf]]
      ![s (.fld .hZ)] ![s' (.fld .hZ)] ![s (.fld .eX), s (.fld .eY)]
      ![s' (.fld .eX), s' (.fld .eY)] (fun i => ohmic m .x .eX s s' i + ohmic m .y .eY s s' i)
      (by intro a i; fin_cases a; exact h i)
      (by
        intro a i
        fin_cases a
        simp only [gSum, e1, Fin.sum_univ_two, Matrix.cons_val, neg_mulVec, Pi.neg_apply, Fin.zero_eta]
        ring)
      (by
        intro i
        have t1 := em1 (e := s (.fld .eX) i) (d := D.Dyb.mulVec (s' (.fld .hZ)) i)
          (hm.eps .x i) (hm.sig .x i) hm.dt
        have t2 := em1 (e := s (.fld .eY) i) (d := -D.Dxb.mulVec (s' (.fld .hZ)) i)
          (hm.eps .y i) (hm.sig .y i) hm.dt
        have q1 : Ca (m.eps .x i) (m.sig .x i) m.DT * s (.fld .eX) i +
            D.Dyb.mulVec (s' (.fld .hZ)) i * Cb (m.eps .x i) (m.sig .x i) m.DT = s' (.fld .eX) i := by
          rw [e2]; rfl
        have q2 : Ca (m.eps .y i) (m.sig .y i) m.DT * s (.fld .eY) i +
            -D.Dxb.mulVec (s' (.fld .hZ)) i * Cb (m.eps .y i) (m.sig .y i) m.DT =
              s' (.fld .eY) i := by
          rw [e3, neg_mul]; rfl
        simp only [q1, q2] at t1 t2
        simp only [hD.adjX, hD.adjY, neg_mulVec, Pi.neg_apply] at t1 t2
        simp only [dSum, Fin.sum_univ_two, Fin.sum_univ_one, Matrix.cons_val,
          transpose_neg, neg_mulVec, Pi.neg_apply, ohmic]
        linear_combination t1 + t2)
    simpa [energy, gSum, Fin.sum_univ_two, ememEnergy2D, neg_mulVec, sub_eq_add_neg] using this

/-- 2D EMEM modelling: the energy changes in every step exactly by the Ohmic losses. -/
theorem C69_emem2D_balance {D : Deriv ι} {m : EMod ι} {c : BC ι} (hc : c.plain) (hD : D.regular)
    (hm : m.physical) (s : State ι) (h : ∀ i, m.invMuXY i = 0 → s (.fld .hZ) i = 0) (n : ℕ) :
    let e := fun k => run (emem2DSolver D m c) [] s k
    ememEnergy2D D m (e (n + 1)) = ememEnergy2D D m (e n) -
      ∑ i, (m.sig .x i * m.DT / 2 * (e n (.fld .eX) i + e (n + 1) (.fld .eX) i) ^ 2 +
        m.sig .y i * m.DT / 2 * (e n (.fld .eY) i + e (n + 1) (.fld .eY) i) ^ 2) :=
  balance (S := emem2DSolver D m c) (fun s => ∀ i, m.invMuXY i = 0 → s (.fld .hZ) i = 0)
    (ememEnergy2D D m)
    (fun s s' => ∑ i, (ohmic m .x .eX s s' i + ohmic m .y .eY s s' i))
    (fun s hs => (emem2D_step hc hD hm s hs).1) (fun s hs => (emem2D_step hc hD hm s hs).2) s h n

/-- 2D EMEM modelling: without sources the energy never grows. -/
theorem C69_emem2D_no_growth {D : Deriv ι} {m : EMod ι} {c : BC ι} (hc : c.plain) (hD : D.regular)
    (hm : m.physical) (s : State ι) (h : ∀ i, m.invMuXY i = 0 → s (.fld .hZ) i = 0) {k n : ℕ}
    (hkn : k ≤ n) :
    ememEnergy2D D m (run (emem2DSolver D m c) [] s n) ≤
      ememEnergy2D D m (run (emem2DSolver D m c) [] s k) :=
  le_of_balance _ _ (fun _ => Finset.sum_nonneg fun i _ =>
    add_nonneg (ohmic_nonneg hm .x .eX _ _ i) (ohmic_nonneg hm .y .eY _ _ i))
    (C69_emem2D_balance hc hD hm s h) hkn

/-- Energy of a 2D TMEM wavefield. -/
noncomputable def tmemEnergy2D (D : Deriv ι) (m : EMod ι) (s : State ι) : ℝ :=
  ∑ i, m.eps .z i * s (.fld .eZ) i ^ 2 +
  (∑ i, s (.fld .hX) i ^ 2 / m.invMuYZ i + ∑ i, s (.fld .hY) i ^ 2 / m.invMuXZ i) +
  (-∑ i, s (.fld .hX) i * D.Dyf.mulVec (s (.fld .eZ)) i +
    ∑ i, s (.fld .hY) i * D.Dxf.mulVec (s (.fld .eZ)) i)

theorem tmem2D_step {D : Deriv ι} {m : EMod ι} {c : BC ι} (hc : c.plain)
    (hD : D.regular) (hm : m.physical) (s : State ι)
    (h : ∀ i, (m.invMuYZ i = 0 → s (.fld .hX) i = 0) ∧ (m.invMuXZ i = 0 → s (.fld .hY) i = 0)) :
    let s' := exec (tmem2D D m c) s
    (∀ i, (m.invMuYZ i = 0 → s' (.fld .hX) i = 0) ∧ (m.invMuXZ i = 0 → s' (.fld .hY) i = 0)) ∧
    tmemEnergy2D D m s' = tmemEnergy2D D m s - ∑ i, ohmic m .z .eZ s s' i := by
  obtain ⟨e1, e2, e3⟩ := tmem2D_plain (e := m) hc hD s
  simp only
  generalize exec (tmem2D D m c) s = s' at e1 e2 e3 ⊢
  refine ⟨fun i => ⟨fun hz => ?_, fun hz => ?_⟩, ?_⟩
  · rw [e1]; simp [hz, (h i).1 hz]
  · rw [e2]; simp [hz, (h i).2 hz]
  · have := energy_step (A := Fin 2) (B := Fin 1)
      (fun i s => m.eps .z i * s 0 i ^ 2)
      ![m.invMuYZ, m.invMuXZ] ![![-D.Dyf], ![D.Dxf]]
      ![s (.fld .hX), s (.fld .hY)] ![s' (.fld .hX), s' (.fld .hY)] ![s (.fld .eZ)]
      ![s' (.fld .eZ)] (fun i => ohmic m .z .eZ s s' i)
      (by intro a i; fin_cases a; exacts [(h i).1, (h i).2])
      (by
        intro a i
        fin_cases a <;>
        · simp only [gSum, e1, e2, Fin.sum_univ_one, Matrix.cons_val, neg_mulVec, Pi.neg_apply,
            Fin.zero_eta, Fin.mk_one, neg_mul])
      (by
        intro i
        have t1 := em1 (e := s (.fld .eZ) i)
          (d := D.Dxb.mulVec (s' (.fld .hY)) i + -D.Dyb.mulVec (s' (.fld .hX)) i)
          (hm.eps .z i) (hm.sig .z i) hm.dt
        have q1 : Ca (m.eps .z i) (m.sig .z i) m.DT * s (.fld .eZ) i +
            (D.Dxb.mulVec (s' (.fld .hY)) i + -D.Dyb.mulVec (s' (.fld .hX)) i) *
              Cb (m.eps .z i) (m.sig .z i) m.DT = s' (.fld .eZ) i := by
          rw [e3]; rfl
        simp only [q1] at t1
        simp only [hD.adjX, hD.adjY, neg_mulVec, Pi.neg_apply] at t1
        simp only [dSum, Fin.sum_univ_two, Fin.sum_univ_one, Matrix.cons_val,
          transpose_neg, neg_mulVec, Pi.neg_apply, ohmic]
        linear_combination t1)
    simpa [energy, gSum, Fin.sum_univ_two, tmemEnergy2D, neg_mulVec] using this

/-- 2D TMEM modelling: the energy changes in every step exactly by the Ohmic losses. -/
theorem C69_tmem2D_balance {D : Deriv ι} {m : EMod ι} {c : BC ι} (hc : c.plain) (hD : D.regular)
    (hm : m.physical) (s : State ι)
    (h : ∀ i, (m.invMuYZ i = 0 → s (.fld .hX) i = 0) ∧ (m.invMuXZ i = 0 → s (.fld .hY) i = 0))
    (n : ℕ) :
    let e := fun k => run (tmem2DSolver D m c) [] s k
    tmemEnergy2D D m (e (n + 1)) = tmemEnergy2D D m (e n) -
      ∑ i, m.sig .z i * m.DT / 2 * (e n (.fld .eZ) i + e (n + 1) (.fld .eZ) i) ^ 2 :=
  balance (S := tmem2DSolver D m c)
    (fun s => ∀ i, (m.invMuYZ i = 0 → s (.fld .hX) i = 0) ∧ (m.invMuXZ i = 0 → s (.fld .hY) i = 0))
    (tmemEnergy2D D m) (fun s s' => ∑ i, ohmic m .z .eZ s s' i)
    (fun s hs => (tmem2D_step hc hD hm s hs).1) (fun s hs => (tmem2D_step hc hD hm s hs).2) s h n

/-- 2D TMEM modelling: without sources the energy never grows. -/
theorem C69_tmem2D_no_growth {D : Deriv ι} {m : EMod ι} {c : BC ι} (hc : c.plain) (hD : D.regular)
    (hm : m.physical) (s : State ι)
    (h : ∀ i, (m.invMuYZ i = 0 → s (.fld .hX) i = 0) ∧ (m.invMuXZ i = 0 → s (.fld .hY) i = 0))
    {k n : ℕ} (hkn : k ≤ n) :
    tmemEnergy2D D m (run (tmem2DSolver D m c) [] s n) ≤
      tmemEnergy2D D m (run (tmem2DSolver D m c) [] s k) :=
  le_of_balance _ _ (fun _ => Finset.sum_nonneg fun i _ => ohmic_nonneg hm .z .eZ _ _ i)
    (C69_tmem2D_balance hc hD hm s h) hkn

/-- Energy of a 3D electromagnetic wavefield. -/
noncomputable def ememEnergy3D (D : Deriv ι) (m : EMod ι) (s : State ι) : ℝ :=
  ∑ i, (m.eps .x i * s (.fld .eX) i ^ 2 + m.eps .y i * s (.fld .eY) i ^ 2 +
    m.eps .z i * s (.fld .eZ) i ^ 2) +
  (∑ i, s (.fld .hX) i ^ 2 / m.invMuYZ i + ∑ i, s (.fld .hY) i ^ 2 / m.invMuXZ i +
    ∑ i, s (.fld .hZ) i ^ 2 / m.invMuXY i) +
  (∑ i, s (.fld .hX) i * (D.Dzf.mulVec (s (.fld .eY)) i + -D.Dyf.mulVec (s (.fld .eZ)) i) +
   ∑ i, s (.fld .hY) i * (-D.Dzf.mulVec (s (.fld .eX)) i + D.Dxf.mulVec (s (.fld .eZ)) i) +
   ∑ i, s (.fld .hZ) i * (D.Dyf.mulVec (s (.fld .eX)) i + -D.Dxf.mulVec (s (.fld .eY)) i))

/-- See `acousticRest2D`. -/
def ememRest3D (m : EMod ι) (s : State ι) : Prop :=
  ∀ i, (m.invMuYZ i = 0 → s (.fld .hX) i = 0) ∧ (m.invMuXZ i = 0 → s (.fld .hY) i = 0) ∧
    (m.invMuXY i = 0 → s (.fld .hZ) i = 0)

theorem emem3D_step {D : Deriv ι} {m : EMod ι} {c : BC ι} (hc : c.plain)
    (hD : D.regular) (hm : m.physical) (s : State ι) (h : ememRest3D m s) :
    let s' := exec (emem3D D m c) s
    ememRest3D m s' ∧
    ememEnergy3D D m s' = ememEnergy3D D m s -
      ∑ i, (ohmic m .x .eX s s' i + ohmic m .y .eY s s' i + ohmic m .z .eZ s s' i) := by
  obtain ⟨e1, e2, e3, e4, e5, e6⟩ := emem3D_plain (e := m) hc hD s
  simp only
  generalize exec (emem3D D m c) s = s' at e1 e2 e3 e4 e5 e6 ⊢
  refine ⟨fun i => ⟨fun hz => ?_, fun hz => ?_, fun hz => ?_⟩, ?_⟩
  · rw [e1]; simp [hz, (h i).1 hz]
  · rw [e2]; simp [hz, (h i).2.1 hz]
  · rw [e3]; simp [hz, (h i).2.2 hz]
  · have := energy_step (A := Fin 3) (B := Fin 3)
      (fun i s => m.eps .x i * s 0 i ^ 2 + m.eps .y i * s 1 i ^ 2 + m.eps .z i * s 2 i ^ 2)
      ![m.invMuYZ, m.invMuXZ, m.invMuXY]
      ![![0, D.Dzf, -D.Dyf], ![-D.Dzf, 0, D.Dxf], ![D.Dyf, -D.Dxf, 0]]
      ![s (.fld .hX), s (.fld .hY), s (.fld .hZ)] ![s' (.fld .hX), s' (.fld .hY), s' (.fld .hZ)]
      ![s (.fld .eX), s (.fld .eY), s (.fld .eZ)] ![s' (.fld .eX), s' (.fld .eY), s' (.fld .eZ)]
      (fun i => ohmic m .x .eX s s' i + ohmic m .y .eY s s' i + ohmic m .z .eZ s s' i)
      (by intro a i; fin_cases a; exacts [(h i).1, (h i).2.1, (h i).2.2])
      (by
        intro a i
        fin_cases a <;>
        · simp only [gSum, e1, e2, e3, Fin.sum_univ_three, Matrix.cons_val, neg_mulVec, Pi.neg_apply,
            Fin.zero_eta, Fin.mk_one, Fin.reduceFinMk, zero_mulVec, Pi.zero_apply]
          ring)
      (by
        intro i
        have t1 := em1 (e := s (.fld .eX) i)
          (d := D.Dyb.mulVec (s' (.fld .hZ)) i + -D.Dzb.mulVec (s' (.fld .hY)) i)
          (hm.eps .x i) (hm.sig .x i) hm.dt
        have t2 := em1 (e := s (.fld .eY) i)
          (d := D.Dzb.mulVec (s' (.fld .hX)) i + -D.Dxb.mulVec (s' (.fld .hZ)) i)
          (hm.eps .y i) (hm.sig .y i) hm.dt
        have t3 := em1 (e := s (.fld .eZ) i)
          (d := D.Dxb.mulVec (s' (.fld .hY)) i + -D.Dyb.mulVec (s' (.fld .hX)) i)
          (hm.eps .z i) (hm.sig .z i) hm.dt
        have q1 := congrFun e4 i
        have q2 := congrFun e5 i
        have q3 := congrFun e6 i
        simp only [EMod.ca, EMod.cb] at q1 q2 q3
        simp only [← q1, ← q2, ← q3] at t1 t2 t3
        simp only [hD.adjX, hD.adjY, hD.adjZ, neg_mulVec, Pi.neg_apply] at t1 t2 t3
        simp only [dSum, Fin.sum_univ_three, Matrix.cons_val,
          transpose_neg, neg_mulVec, Pi.neg_apply, ohmic, transpose_zero, zero_mulVec, Pi.zero_apply]
        linear_combination t1 + t2 + t3)
    simpa [energy, gSum, Fin.sum_univ_three, ememEnergy3D, neg_mulVec] using this

/-- 3D electromagnetic modelling: the energy changes in every step exactly by the Ohmic losses. -/
theorem C69_emem3D_balance {D : Deriv ι} {m : EMod ι} {c : BC ι} (hc : c.plain) (hD : D.regular)
    (hm : m.physical) (s : State ι) (h : ememRest3D m s) (n : ℕ) :
    let e := fun k => run (emem3DSolver D m c) [] s k
    ememEnergy3D D m (e (n + 1)) = ememEnergy3D D m (e n) -
      ∑ i, (m.sig .x i * m.DT / 2 * (e n (.fld .eX) i + e (n + 1) (.fld .eX) i) ^ 2 +
        m.sig .y i * m.DT / 2 * (e n (.fld .eY) i + e (n + 1) (.fld .eY) i) ^ 2 +
        m.sig .z i * m.DT / 2 * (e n (.fld .eZ) i + e (n + 1) (.fld .eZ) i) ^ 2) :=
  balance (S := emem3DSolver D m c) (ememRest3D m) (ememEnergy3D D m)
    (fun s s' => ∑ i, (ohmic m .x .eX s s' i + ohmic m .y .eY s s' i + ohmic m .z .eZ s s' i))
    (fun s hs => (emem3D_step hc hD hm s hs).1) (fun s hs => (emem3D_step hc hD hm s hs).2) s h n

/-- 3D electromagnetic modelling: without sources the energy never grows. -/
theorem C69_emem3D_no_growth {D : Deriv ι} {m : EMod ι} {c : BC ι} (hc : c.plain) (hD : D.regular)
    (hm : m.physical) (s : State ι) (h : ememRest3D m s) {k n : ℕ} (hkn : k ≤ n) :
    ememEnergy3D D m (run (emem3DSolver D m c) [] s n) ≤
      ememEnergy3D D m (run (emem3DSolver D m c) [] s k) :=
  le_of_balance _ _ (fun _ => Finset.sum_nonneg fun i _ =>
    add_nonneg (add_nonneg (ohmic_nonneg hm .x .eX _ _ i) (ohmic_nonneg hm .y .eY _ _ i))
      (ohmic_nonneg hm .z .eZ _ _ i))
    (C69_emem3D_balance hc hD hm s h) hkn

/-- Example: a conducting medium with one lossless point. -/
example : (⟨1, 1, 1, fun _ => 2, fun _ => ![0, 3], 0, 0, 1, 0, fun _ => 1, 1 / 2⟩ :
    EMod (Fin 2)).physical := by
  refine ⟨fun a i => by simp, fun a i => ?_, by norm_num⟩
  fin_cases i <;> simp

end Verif.Solver
