import Verif.Model.Reflectivity
import Verif.Lemmas.Stability

/-!
# C145: reflectivity
-/
set_option linter.dupNamespace false
set_option linter.unusedSimpArgs false
set_option linter.unusedVariables false

namespace Verif.Reflect
open Verif Verif.Solver Verif.Stencil
open Verif.Sub (Eqn Par)

variable {NX NY NZ : ℕ}

/-- The point below. -/
def below (p : Pt NX NY NZ) (h : p.2.1.val + 1 < NY) : Pt NX NY NZ := (p.1, ⟨p.2.1.val + 1, h⟩, p.2.2)

/-- The reflection coefficient of the particle velocity (of the electric field) for a wave that goes from the point `p` straight
down to the point `p'`: pressure waves for the acoustic equation, shear waves for the other seismic equations. -/
noncomputable def coefficient (e : Eqn) (m : Params NX NY NZ) (p p' : Pt NX NY NZ) : ℝ :=
  match e with
  | .acoustic => (m .density p * m .velocityP p - m .density p' * m .velocityP p') /
      (m .density p * m .velocityP p + m .density p' * m .velocityP p')
  | .elastic | .viscoelastic | .sh | .viscosh => (m .density p * m .velocityS p - m .density p' * m .velocityS p') /
      (m .density p * m .velocityS p + m .density p' * m .velocityS p')
  | .tmem | .emem | .viscotmem | .viscoemem =>
      (√(m .mu p' / m .eps p') - √(m .mu p / m .eps p)) / (√(m .mu p' / m .eps p') + √(m .mu p / m .eps p))

/-- Positive density, velocity, permittivity and permeability. -/
def Positive (e : Eqn) (m : Params NX NY NZ) (p : Pt NX NY NZ) : Prop :=
  match e with
  | .acoustic => 0 < m .density p ∧ 0 < m .velocityP p
  | .elastic | .viscoelastic | .sh | .viscosh => 0 < m .density p ∧ 0 < m .velocityS p
  | .tmem | .emem | .viscotmem | .viscoemem => 0 < m .eps p ∧ 0 < m .mu p

/-! ### Helper lemmas -/

private theorem impedance_pos {e : Eqn} {m : Params NX NY NZ} {p : Pt NX NY NZ} (h : Positive e m p) :
    0 < impedance e m p := by
  cases e <;> simp only [Positive, impedance] at * <;> obtain ⟨h1, h2⟩ := h <;> positivity

private theorem average_pos {q : Pt NX NY NZ → ℝ} {p : Pt NX NY NZ} (h0 : 0 < q p)
    (h1 : ∀ h : p.2.1.val + 1 < NY, 0 < q (below p h)) : 0 < averageY q p := by
  unfold averageY
  split
  · rename_i h
    have := h1 h
    unfold below at this
    linarith
  · exact h0

/-- An inner row of the derivative matrix. -/
private theorem derivative_row {h : ℕ} {s : ℕ} {cs : List ℚ} (hcs : fd s = some cs) (hlen : cs.length = 2 * h)
    (hh : s = 2 * h) (DT DH : ℝ) (q : Pt NX NY NZ → ℝ) (p : Pt NX NY NZ) (h1 : h ≤ p.2.1.val + 1)
    (h2 : p.2.1.val + h < NY) :
    (forwardMatrix s DT DH .y).mulVec q p = DT / DH * ∑ k : Fin (2 * h),
      ((cs.getD k 0 : ℚ) : ℝ) * q (p.1, ⟨p.2.1.val + 1 - h + k.val, by omega⟩, p.2.2) := by
  unfold Matrix.mulVec dotProduct forwardMatrix
  simp only [ite_mul, zero_mul]
  rw [sum_line .y p fun j => DT / DH *
    (fwdStencilEntry (axisSize NX NY NZ .y) s (along .y p) (along .y j) : ℝ) * q j]
  simp only [moveTo_along]
  rw [Finset.mul_sum]
  symm
  apply Finset.sum_of_injOn (fun k : Fin (2 * h) => (⟨p.2.1.val + 1 - h + k.val, by
    have := k.2; show _ < NY; omega⟩ : Fin (axisSize NX NY NZ .y)))
  · intro a _ b _ hab
    simp only [Fin.mk.injEq] at hab
    exact Fin.ext (by omega)
  · intro k _; simp
  · intro c _ hc
    have : fwdStencilEntry (axisSize NX NY NZ .y) s (along .y p) c = 0 := by
      unfold fwdStencilEntry
      rw [hcs, Option.getD_some]
      split
      · rename_i hx
        rw [List.getElem?_eq_none, Option.getD_none]
        by_contra hlt
        apply hc
        have hy : (along .y p : Fin (axisSize NX NY NZ .y)).val = p.2.1.val := rfl
        refine ⟨⟨c.val - (p.2.1.val + 1 - h), ?_⟩, by simp, ?_⟩
        · rw [hy] at hx hlt
          omega
        · apply Fin.ext
          rw [hy] at hx
          simp only
          omega
      · rfl
    rw [this]
    simp
  · intro k _
    have hk := k.2
    have hent : ∀ c : ℕ, c = p.2.1.val + 1 - h + k.val →
        fwdStencilEntry (NY : Int) s (p.2.1.val : Int) c = cs.getD k 0 := by
      intro c hc
      unfold fwdStencilEntry
      rw [hcs, Option.getD_some, if_pos (by omega), List.getD_eq_getElem?_getD]
      congr 2
      omega
    have : fwdStencilEntry (axisSize NX NY NZ .y) s (along .y p)
        ((⟨p.2.1.val + 1 - h + k.val, by show _ < NY; omega⟩ : Fin (axisSize NX NY NZ .y)) : ℕ) = cs.getD k 0 :=
      hent _ rfl
    rw [this]
    exact (mul_assoc _ _ _).symm

private theorem index_lt (p : Pt NX NY NZ) : index p < NX * NY * NZ ∧
    p.2.1.val * (NX * NZ) ≤ index p ∧ index p < (p.2.1.val + 1) * (NX * NZ) := by
  have hx := p.1.2
  have hy := p.2.1.2
  have hz := p.2.2.2
  unfold index
  have h1 : p.1.val + p.2.2.val * NX < NX * NZ := by
    calc p.1.val + p.2.2.val * NX < NX + p.2.2.val * NX := by omega
      _ = (p.2.2.val + 1) * NX := by ring
      _ ≤ NZ * NX := Nat.mul_le_mul_right _ hz
      _ = NX * NZ := by ring
  have h2 : p.2.1.val * NX * NZ = p.2.1.val * (NX * NZ) := by ring
  have h3 : (p.2.1.val + 1) * (NX * NZ) = p.2.1.val * (NX * NZ) + NX * NZ := by ring
  have h4 : (p.2.1.val + 1) * (NX * NZ) ≤ NY * (NX * NZ) := Nat.mul_le_mul_right _ hy
  have h5 : NX * NY * NZ = NY * (NX * NZ) := by ring
  omega

/-- The rows that are set to zero. -/
private theorem zeroed (p : Pt NX NY NZ) (h : ℕ) :
    (index p < 2 * h * NX * NZ / 2 ∨ NX * NY * NZ - index p - 1 < 2 * h * NX * NZ / 2) ↔
      p.2.1.val < h ∨ NY ≤ p.2.1.val + h := by
  obtain ⟨h1, h2, h3⟩ := index_lt p
  have hx := p.1.2
  have hz := p.2.2.2
  have hA : 0 < NX * NZ := Nat.mul_pos (by omega) (by omega)
  have e1 : 2 * h * NX * NZ / 2 = h * (NX * NZ) := by
    rw [show 2 * h * NX * NZ = 2 * (h * (NX * NZ)) by ring, Nat.mul_div_cancel_left _ (by norm_num)]
  have e2 : NX * NY * NZ = NY * (NX * NZ) := by ring
  rw [e2] at h1
  rw [e1, e2]
  clear e1 e2
  generalize NX * NZ = A at *
  constructor
  · intro hor
    by_contra hn
    push Not at hn
    obtain ⟨a, b⟩ := hn
    have c1 : h * A ≤ p.2.1.val * A := Nat.mul_le_mul_right _ a
    have c2 : (p.2.1.val + h + 1) * A ≤ NY * A := Nat.mul_le_mul_right _ b
    have c3 : (p.2.1.val + h + 1) * A = (p.2.1.val + 1) * A + h * A := by ring
    omega
  · rintro (a | a)
    · left
      have : (p.2.1.val + 1) * A ≤ h * A := Nat.mul_le_mul_right _ a
      omega
    · right
      have : NY * A ≤ (p.2.1.val + h) * A := Nat.mul_le_mul_right _ a
      have c3 : (p.2.1.val + h) * A = p.2.1.val * A + h * A := by ring
      omega

private theorem fits {h : ℕ} (p : Pt NX NY NZ) (hN : h ≤ NY) : ¬ NX * NY * NZ < 2 * h * NX * NZ / 2 := by
  have e1 : 2 * h * NX * NZ / 2 = h * (NX * NZ) := by
    rw [show 2 * h * NX * NZ = 2 * (h * (NX * NZ)) by ring, Nat.mul_div_cancel_left _ (by norm_num)]
  have e2 : NX * NY * NZ = NY * (NX * NZ) := by ring
  rw [e1, e2, not_lt]
  exact Nat.mul_le_mul_right _ hN

/-- The value at an inner point. -/
private theorem inner {h : ℕ} {cs : List ℚ} (hcs : fd ((2 * h : ℕ) : Int) = some cs) (hlen : cs.length = 2 * h)
    (e : Eqn) {DT DH : ℝ} (hDT : 0 < DT) (hDH : 0 < DH) (m : Params NX NY NZ) (p : Pt NX NY NZ)
    (h1 : h ≤ p.2.1.val) (h2 : p.2.1.val + h < NY) :
    ∃ r, calcReflectivity e (2 * h) DT DH m = .ok r ∧
      r p = if averageY (impedance e m) p * 2 = 0 then none else
        some (factor e 1 1 * (∑ k : Fin (2 * h), ((cs.getD k 0 : ℚ) : ℝ) *
          impedance e m (p.1, ⟨p.2.1.val + 1 - h + k.val, by omega⟩, p.2.2)) / (averageY (impedance e m) p * 2)) := by
  unfold calcReflectivity
  rw [if_neg (fits p (by omega))]
  refine ⟨_, rfl, ?_⟩
  rw [if_neg (by rw [zeroed]; omega), derivative_row hcs hlen rfl DT DH _ p (by omega) h2]
  congr 2
  have : factor e DT DH = factor e 1 1 * (DH / DT) := by
    cases e <;> simp only [factor] <;> ring
  rw [this]
  field_simp

private theorem order2 (e : Eqn) {DT DH : ℝ} (hDT : 0 < DT) (hDH : 0 < DH) (m : Params NX NY NZ) (p : Pt NX NY NZ)
    (h1 : 1 ≤ p.2.1.val) (h2 : p.2.1.val + 1 < NY) (hp : Positive e m p) (hp' : Positive e m (below p h2)) :
    ∃ r, calcReflectivity e 2 DT DH m = .ok r ∧ r p = some (factor e 1 1 *
      (impedance e m (below p h2) - impedance e m p) / (impedance e m (below p h2) + impedance e m p)) := by
  have hcs : fd ((2 * 1 : ℕ) : Int) = some [-1, 1] := by decide +kernel
  obtain ⟨r, hr, hv⟩ := inner hcs rfl e hDT hDH m p h1 h2
  refine ⟨r, hr, ?_⟩
  have a := impedance_pos hp
  have b := impedance_pos hp'
  have hav : averageY (impedance e m) p * 2 = impedance e m (below p h2) + impedance e m p := by
    unfold averageY
    rw [dif_pos h2]
    unfold below
    ring
  rw [hv, hav, if_neg (by positivity)]
  congr 2
  rw [Fin.sum_univ_two]
  have e0 : (p.1, (⟨p.2.1.val + 1 - 1 + (0 : Fin (2 * 1)).val, by omega⟩ : Fin NY), p.2.2) = p := by
    simp
  have e1 : (p.1, (⟨p.2.1.val + 1 - 1 + (1 : Fin (2 * 1)).val, by simp <;> omega⟩ : Fin NY), p.2.2) = below p h2 := by
    simp [below]
  rw [e0, e1]
  simp
  left
  ring

private theorem seismic_formula (a b : ℝ) : -1 / 1 * (b - a) / (b + a) = (a - b) / (a + b) := by
  rw [add_comm b a]
  ring

private theorem factor_coefficient {e : Eqn} {m : Params NX NY NZ} {p p' : Pt NX NY NZ} (hp : Positive e m p)
    (hp' : Positive e m p') (hmu : m .mu p = m .mu p') :
    factor e 1 1 * (impedance e m p' - impedance e m p) / (impedance e m p' + impedance e m p) = coefficient e m p p' := by
  have em : 0 < m .eps p → 0 < m .eps p' → 0 < m .mu p' →
      1 / 1 * (1 / √(m .eps p') - 1 / √(m .eps p)) / (1 / √(m .eps p') + 1 / √(m .eps p)) =
      (√(m .mu p' / m .eps p') - √(m .mu p / m .eps p)) / (√(m .mu p' / m .eps p') + √(m .mu p / m .eps p)) := by
    intro h1 h2 h3
    rw [hmu, Real.sqrt_div h3.le, Real.sqrt_div h3.le]
    have a := Real.sqrt_pos.mpr h1
    have b := Real.sqrt_pos.mpr h2
    have c := Real.sqrt_pos.mpr h3
    field_simp
  cases e <;> simp only [Positive, factor, impedance, coefficient] at *
  all_goals first
    | exact seismic_formula _ _
    | exact em hp.1 hp'.1 hp'.2

/-! ### C145 -/

/-- C145 for order 2: between two inner rows, the reflectivity is the reflection coefficient at normal incidence. Missing: the
uppermost and lowermost rows (`C145_edge_violated`), higher orders (`C145_order_violated`), fluids in elastic models
(`C145_fluid_violated`) and changes of the permeability (`C145_permeability_violated`). -/
theorem C145_coefficient_partial (e : Eqn) {DT DH : ℝ} (hDT : 0 < DT) (hDH : 0 < DH) (m : Params NX NY NZ)
    (p : Pt NX NY NZ) (h1 : 1 ≤ p.2.1.val) (h2 : p.2.1.val + 1 < NY) (hp : Positive e m p)
    (hp' : Positive e m (below p h2)) (hmu : m .mu p = m .mu (below p h2)) :
    ∃ r, calcReflectivity e 2 DT DH m = .ok r ∧ r p = some (coefficient e m p (below p h2)) := by
  obtain ⟨r, hr, hv⟩ := order2 e hDT hDH m p h1 h2 hp hp'
  exact ⟨r, hr, by rw [hv, factor_coefficient hp hp' hmu]⟩

/-- C145 for order 2: the reflectivity lies between -1 and 1 at every point of every model. -/
theorem C145_bounded_partial (e : Eqn) {DT DH : ℝ} (hDT : 0 < DT) (hDH : 0 < DH) (m : Params NX NY NZ)
    (hm : ∀ p, Positive e m p) (hN : 1 ≤ NY) :
    ∃ r, calcReflectivity e 2 DT DH m = .ok r ∧ ∀ p, ∃ t, r p = some t ∧ |t| < 1 := by
  by_cases hne : Nonempty (Pt NX NY NZ)
  · obtain ⟨p₀⟩ := hne
    have hok : ∃ r, calcReflectivity e 2 DT DH m = .ok r := by
      unfold calcReflectivity
      rw [if_neg (by simpa using fits (h := 1) p₀ hN)]
      exact ⟨_, rfl⟩
    obtain ⟨r, hr⟩ := hok
    refine ⟨r, hr, fun p => ?_⟩
    by_cases hin : 1 ≤ p.2.1.val ∧ p.2.1.val + 1 < NY
    · obtain ⟨r', hr', hv⟩ := order2 e hDT hDH m p hin.1 hin.2 (hm _) (hm _)
      rw [hr] at hr'
      cases hr'
      refine ⟨_, hv, ?_⟩
      have a := impedance_pos (hm p)
      have b := impedance_pos (hm (below p hin.2))
      have hf : |factor e 1 1| = 1 := by cases e <;> simp [factor]
      rw [mul_div_assoc, abs_mul, hf, one_mul, abs_div, div_lt_one (by positivity), abs_lt, abs_of_pos (by positivity)]
      constructor <;> linarith
    · refine ⟨0, ?_, by simp⟩
      unfold calcReflectivity at hr
      rw [if_neg (by simpa using fits (h := 1) p₀ hN)] at hr
      have hr := (Out.ok.inj hr).symm
      rw [hr]
      have := (zeroed p 1).mpr (by omega)
      simp only [mul_one] at this
      exact if_pos this
  · refine ⟨fun p => none, ?_, fun p => absurd ⟨p⟩ hne⟩
    have hz : ¬ NX * NY * NZ < 2 * NX * NZ / 2 := by
      have e1 : 2 * NX * NZ / 2 = NX * NZ := by
        rw [show 2 * NX * NZ = 2 * (NX * NZ) by ring, Nat.mul_div_cancel_left _ (by norm_num)]
      rw [e1, not_lt]
      calc NX * NZ = NX * 1 * NZ := by ring
        _ ≤ NX * NY * NZ := Nat.mul_le_mul_right _ (Nat.mul_le_mul_left _ hN)
    unfold calcReflectivity
    rw [if_neg hz]
    congr 1
    funext p
    exact absurd ⟨p⟩ hne

/-- C145 for every order `2 * h`: where the model does not change over the rows of the stencil, there is no reflectivity. -/
theorem C145_uniform (e : Eqn) {h : ℕ} (hs : ValidOrder ((2 * h : ℕ) : Int)) {DT DH : ℝ} (hDT : 0 < DT) (hDH : 0 < DH)
    (m : Params NX NY NZ) (p : Pt NX NY NZ) (h1 : h ≤ p.2.1.val) (h2 : p.2.1.val + h < NY) (hp : Positive e m p)
    (hu : ∀ (y : Fin NY) (a : Par), p.2.1.val + 1 ≤ y.val + h → y.val ≤ p.2.1.val + h → m a (p.1, y, p.2.2) = m a p) :
    ∃ r, calcReflectivity e (2 * h) DT DH m = .ok r ∧ r p = some 0 := by
  obtain ⟨cs, hcs, hl⟩ := fd_length hs
  have hlen : cs.length = 2 * h := by exact_mod_cast hl
  obtain ⟨r, hr, hv⟩ := inner hcs hlen e hDT hDH m p h1 h2
  refine ⟨r, hr, ?_⟩
  have hq : ∀ (y : Fin NY), p.2.1.val + 1 ≤ y.val + h → y.val ≤ p.2.1.val + h →
      impedance e m (p.1, y, p.2.2) = impedance e m p := by
    intro y a b
    cases e <;> simp only [impedance, hu y _ a b]
  have hpos := impedance_pos hp
  have hh : 1 ≤ h := by
    have := hs.even
    omega
  have hav : averageY (impedance e m) p * 2 ≠ 0 := by
    apply ne_of_gt
    have : 0 < averageY (impedance e m) p := by
      apply average_pos hpos
      intro hb
      unfold below
      rw [hq ⟨p.2.1.val + 1, hb⟩ (by simp only; omega) (by simp only; omega)]
      exact hpos
    positivity
  rw [hv, if_neg hav]
  have hsum : ∑ k : Fin (2 * h), ((cs.getD k 0 : ℚ) : ℝ) *
      impedance e m (p.1, ⟨p.2.1.val + 1 - h + k.val, by omega⟩, p.2.2) = 0 := by
    have e1 : ∀ k : Fin (2 * h), ((cs.getD k 0 : ℚ) : ℝ) *
        impedance e m (p.1, ⟨p.2.1.val + 1 - h + k.val, by omega⟩, p.2.2) =
        ((cs.getD k 0 : ℚ) : ℝ) * impedance e m p := by
      intro k
      rw [hq _ (by simp only; omega) (by simp only; omega)]
    rw [Finset.sum_congr rfl fun k _ => e1 k, ← Finset.sum_mul]
    have e2 : ∑ k : Fin (2 * h), cs.getD k 0 = 0 := by
      rw [← fd_sum hcs, ← hlen, ← List.sum_ofFn]
      congr 1
      apply List.ext_getElem (by simp)
      intro i a b
      simp
    have e3 : ∑ k : Fin (2 * h), ((cs.getD k 0 : ℚ) : ℝ) = 0 := by
      exact_mod_cast congrArg (fun x : ℚ => (x : ℝ)) e2
    rw [e3, zero_mul]
  rw [hsum]
  simp

/-- C145 fails in the upper rows: an interface within the first `h` rows has no reflectivity, for every order `2 * h`. -/
theorem C145_edge_violated (e : Eqn) {h : ℕ} (DT DH : ℝ) (m : Params NX NY NZ) (hN : h ≤ NY) (p : Pt NX NY NZ)
    (h1 : p.2.1.val < h) (h2 : p.2.1.val + 1 < NY)
    (hi : coefficient e m p (below p h2) ≠ 0) :
    ∃ r, calcReflectivity e (2 * h) DT DH m = .ok r ∧ r p = some 0 ∧ r p ≠ some (coefficient e m p (below p h2)) := by
  unfold calcReflectivity
  rw [if_neg (fits p hN)]
  have hz : (if index p < 2 * h * NX * NZ / 2 ∨ NX * NY * NZ - index p - 1 < 2 * h * NX * NZ / 2 then some (0 : ℝ)
      else if averageY (impedance e m) p * 2 = 0 then none
      else some ((forwardMatrix (2 * h : ℕ) DT DH .y).mulVec (impedance e m) p * factor e DT DH /
        (averageY (impedance e m) p * 2))) = some 0 := if_pos ((zeroed p h).mpr (.inl h1))
  refine ⟨_, rfl, hz, ?_⟩
  rw [hz]
  intro hc
  exact hi (Option.some.inj hc).symm

/-- C145 fails for order 4: an interface between two uniform half spaces of acoustic impedance `a` and `b` gets 13/12 of the
reflection coefficient, and there is reflectivity also in the row above the interface. -/
theorem C145_order_violated {DT DH : ℝ} (hDT : 0 < DT) (hDH : 0 < DH) {a b : ℝ} (ha : 0 < a) (hb : 0 < b) (hab : a ≠ b)
    (m : Params NX NY NZ) (p : Pt NX NY NZ) (h1 : 2 ≤ p.2.1.val) (h2 : p.2.1.val + 1 < NY) (h3 : p.2.1.val + 2 < NY)
    (hv : ∀ x, m .velocityP x = 1)
    (hd : ∀ x, m .density x = if x.2.1.val ≤ p.2.1.val then a else b) :
    ∃ r, calcReflectivity .acoustic 4 DT DH m = .ok r ∧
      r p = some (13 / 12 * coefficient .acoustic m p (below p h2)) ∧
      (3 ≤ p.2.1.val → r (p.1, ⟨p.2.1.val - 1, by omega⟩, p.2.2) = some ((b - a) / (48 * a)) ∧ (b - a) / (48 * a) ≠ 0) := by
  have hcs : fd ((2 * 2 : ℕ) : Int) = some [1/24, -9/8, 9/8, -1/24] := by decide +kernel
  have hq : ∀ x, impedance .acoustic m x = if x.2.1.val ≤ p.2.1.val then a else b := by
    intro x
    simp only [impedance, hv, hd, mul_one]
  obtain ⟨r, hr, hv'⟩ := inner hcs rfl .acoustic hDT hDH m p h1 h3
  refine ⟨r, hr, ?_, fun h5 => ⟨?_, ?_⟩⟩
  · have hav : averageY (impedance .acoustic m) p * 2 = a + b := by
      unfold averageY
      rw [dif_pos h2, hq, hq, if_pos le_rfl, if_neg (by simp only; omega)]
      ring
    rw [hv', hav, if_neg (by positivity)]
    congr 1
    rw [Fin.sum_univ_four]
    simp only [hq, coefficient, hv, hd, below, factor]
    rw [if_pos (by simp <;> omega), if_pos (by simp <;> omega), if_neg (by simp <;> omega), if_neg (by simp <;> omega),
      if_pos le_rfl, if_neg (by omega)]
    have : a + b ≠ 0 := by positivity
    simp
    field_simp
    ring
  · obtain ⟨r', hr', hv''⟩ := inner hcs rfl .acoustic hDT hDH m (p.1, ⟨p.2.1.val - 1, by omega⟩, p.2.2)
      (by simp only; omega) (by simp only; omega)
    rw [hr] at hr'
    cases hr'
    have hav : averageY (impedance .acoustic m) (p.1, ⟨p.2.1.val - 1, by omega⟩, p.2.2) * 2 = a + a := by
      unfold averageY
      rw [dif_pos (by simp only; omega), hq, hq, if_pos (by simp only; omega), if_pos (by simp only; omega)]
      ring
    rw [hv'', hav, if_neg (by positivity)]
    congr 1
    rw [Fin.sum_univ_four]
    simp only [hq, factor]
    rw [if_pos (by simp <;> omega), if_pos (by simp <;> omega), if_pos (by simp <;> omega), if_neg (by simp <;> omega)]
    simp
    field_simp
    ring
  · have : b - a ≠ 0 := sub_ne_zero.mpr hab.symm
    positivity

/-- C145 fails for fluids in the elastic equations: the reflectivity is not a number. -/
theorem C145_fluid_violated (e : Eqn) (he : e = .elastic ∨ e = .viscoelastic) {DT DH : ℝ} (hDT : 0 < DT) (hDH : 0 < DH)
    (m : Params NX NY NZ) (p : Pt NX NY NZ) (h1 : 1 ≤ p.2.1.val) (h2 : p.2.1.val + 1 < NY)
    (hp : m .velocityS p = 0) (hp' : m .velocityS (below p h2) = 0) :
    ∃ r, calcReflectivity e 2 DT DH m = .ok r ∧ r p = none := by
  have hcs : fd ((2 * 1 : ℕ) : Int) = some [-1, 1] := by decide +kernel
  obtain ⟨r, hr, hv⟩ := inner hcs rfl e hDT hDH m p h1 h2
  refine ⟨r, hr, ?_⟩
  rw [hv, if_pos]
  unfold averageY
  rw [dif_pos h2]
  unfold below at hp'
  rcases he with rfl | rfl <;> simp [impedance, hp, hp']

/-- C145 fails where the permeability changes: a contrast of the permeability alone has no reflectivity. -/
theorem C145_permeability_violated (e : Eqn) (he : e = .tmem ∨ e = .emem ∨ e = .viscotmem ∨ e = .viscoemem) {DT DH : ℝ}
    (hDT : 0 < DT) (hDH : 0 < DH) (m : Params NX NY NZ) (p : Pt NX NY NZ) (h1 : 1 ≤ p.2.1.val) (h2 : p.2.1.val + 1 < NY)
    (hp : Positive e m p) (hp' : Positive e m (below p h2)) (heps : m .eps p = m .eps (below p h2))
    (hmu : m .mu p ≠ m .mu (below p h2)) :
    ∃ r, calcReflectivity e 2 DT DH m = .ok r ∧ r p = some 0 ∧ coefficient e m p (below p h2) ≠ 0 := by
  obtain ⟨r, hr, hv⟩ := order2 e hDT hDH m p h1 h2 hp hp'
  have hP : 0 < m .eps p ∧ 0 < m .mu p ∧ 0 < m .mu (below p h2) := by
    rcases he with rfl | rfl | rfl | rfl <;> exact ⟨hp.1, hp.2, hp'.2⟩
  obtain ⟨he0, hm0, hm1⟩ := hP
  refine ⟨r, hr, ?_, ?_⟩
  · rw [hv]
    have : impedance e m (below p h2) = impedance e m p := by
      rcases he with rfl | rfl | rfl | rfl <;> simp only [impedance, heps]
    rw [this]
    simp
  · have hc : coefficient e m p (below p h2) = (√(m .mu (below p h2) / m .eps (below p h2)) - √(m .mu p / m .eps p)) /
        (√(m .mu (below p h2) / m .eps (below p h2)) + √(m .mu p / m .eps p)) := by
      rcases he with rfl | rfl | rfl | rfl <;> rfl
    rw [hc]
    have he1 : 0 < m .eps (below p h2) := heps ▸ he0
    have a : 0 < √(m .mu (below p h2) / m .eps (below p h2)) := Real.sqrt_pos.mpr (by positivity)
    have b : 0 < √(m .mu p / m .eps p) := Real.sqrt_pos.mpr (by positivity)
    refine div_ne_zero (sub_ne_zero.mpr fun h => hmu ?_) (by positivity)
    rw [Real.sqrt_inj (by positivity) (by positivity), ← heps, div_left_inj' he0.ne'] at h
    exact h.symm

/-- C145 fails for models with fewer rows than half the order: they are rejected. -/
theorem C145_thin_violated (e : Eqn) {h : ℕ} (DT DH : ℝ) (m : Params NX NY NZ) (hX : 0 < NX) (hZ : 0 < NZ) (hN : NY < h) :
    calcReflectivity e (2 * h) DT DH m = .err := by
  unfold calcReflectivity
  refine if_pos ?_
  have e1 : 2 * h * NX * NZ / 2 = h * (NX * NZ) := by
    rw [show 2 * h * NX * NZ = 2 * (h * (NX * NZ)) by ring, Nat.mul_div_cancel_left _ (by norm_num)]
  rw [e1, show NX * NY * NZ = NY * (NX * NZ) by ring]
  exact Nat.mul_lt_mul_of_pos_right hN (Nat.mul_pos hX hZ)

/-- Four rows, with a jump of the impedance from 1 to 3 in the middle: reflection coefficient -1/2. -/
example : ∃ r, calcReflectivity (NX := 1) (NY := 4) (NZ := 1) .acoustic 2 1 1
    (fun a x => if a = .density ∧ 1 < x.2.1.val then 3 else 1) = .ok r ∧ r (0, 1, 0) = some (-1 / 2) := by
  obtain ⟨r, h1, h2⟩ := C145_coefficient_partial (NX := 1) (NY := 4) (NZ := 1) .acoustic (DT := 1) (DH := 1) one_pos one_pos
    (fun a x => if a = .density ∧ 1 < x.2.1.val then 3 else 1) (0, 1, 0) (by decide) (by decide)
    ⟨by norm_num, by norm_num⟩ ⟨by norm_num [below], by dsimp only; rw [if_neg (by rintro ⟨h, _⟩; cases h)]; norm_num⟩ (by simp)
  refine ⟨r, h1, ?_⟩
  rw [h2]
  simp [coefficient, below]
  norm_num

end Verif.Reflect
