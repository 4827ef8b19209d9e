import Verif.Model.RegularDeriv
import Verif.Lemmas.Stencil
import Verif.Lemmas.StencilSums
import Mathlib.Algebra.Order.BigOperators.Ring.Finset
import Mathlib.Algebra.BigOperators.Field
import Mathlib.Algebra.Order.AbsoluteValue.Basic
import Mathlib.Data.Fintype.BigOperators
import Mathlib.Tactic.Ring
import Mathlib.Tactic.FieldSimp
import Mathlib.Tactic.Linarith
import Mathlib.Tactic.Positivity
import Mathlib.Data.Real.Basic
/-! Bounds of the derivative matrices of a regular grid and of the mixed term of the energy. -/
set_option linter.dupNamespace false
set_option linter.unusedSectionVars false

namespace Verif.Solver
open Matrix Verif.Stencil

/-! ### The mixed term -/
section Cross
variable {ι : Type} [Fintype ι]

private theorem young {β w a b : ℝ} (hβ : 0 < β) (hw : 0 < w) :
    a * b ≤ β / 2 * (a ^ 2 * w) + 1 / (2 * β) * (b ^ 2 / w) := by
  have h : β / 2 * (a ^ 2 * w) + 1 / (2 * β) * (b ^ 2 / w) - a * b = (β * a * w - b) ^ 2 / (2 * β * w) := by
    field_simp; ring
  have : 0 ≤ (β * a * w - b) ^ 2 / (2 * β * w) := by positivity
  linarith

/-- The mixed term `v · D p` is bounded by the two quadratic terms. -/
theorem cross_bound (D : Matrix ι ι ℝ) (v p R K : ι → ℝ) (w : ι → ι → ℝ) {c B β : ℝ}
    (hβ : 0 < β) (hR : ∀ i, 0 ≤ R i) (hK : ∀ i, 0 ≤ K i)
    (hv : ∀ i, R i = 0 → v i = 0) (hp : ∀ i, K i = 0 → p i = 0)
    (hw : ∀ i j, R i ≠ 0 → D i j ≠ 0 → 0 ≤ w i j ∧ K j ≤ w i j * c ^ 2)
    (hrow : ∀ i, R i ≠ 0 → R i * ∑ j, |D i j| * w i j ≤ B) (hcol : ∀ j, ∑ i, |D i j| ≤ B) :
    |∑ i, v i * D.mulVec p i| ≤
      β * B / 2 * ∑ i, v i ^ 2 / R i + c ^ 2 * B / (2 * β) * ∑ j, p j ^ 2 / K j := by
  have e1 : ∀ i j, |v i * (D i j * p j)| ≤
      β / 2 * (v i ^ 2 * (|D i j| * w i j)) + 1 / (2 * β) * (|D i j| * (c ^ 2 * (p j ^ 2 / K j))) := by
    intro i j
    have hn : 0 ≤ p j ^ 2 / K j := div_nonneg (sq_nonneg _) (hK j)
    by_cases hRi : R i = 0
    · rw [hv i hRi]
      simp only [zero_mul, abs_zero, ne_eq, OfNat.ofNat_ne_zero, not_false_eq_true, zero_pow, mul_zero,
        zero_add]
      positivity
    by_cases hD : D i j = 0
    · simp [hD]
    obtain ⟨hw0, hwK⟩ := hw i j hRi hD
    by_cases hKj : K j = 0
    · rw [hp j hKj]
      simp only [mul_zero, abs_zero, ne_eq, OfNat.ofNat_ne_zero, not_false_eq_true, zero_pow, zero_div,
        add_zero]
      positivity
    have hw0 : 0 < w i j := by
      rcases hw0.eq_or_lt with h | h
      · rw [← h, zero_mul] at hwK
        exact absurd (le_antisymm hwK (hK j)) hKj
      · exact h
    have y := young (a := |v i|) (b := |p j|) hβ hw0
    rw [sq_abs, sq_abs] at y
    have q : p j ^ 2 / w i j ≤ c ^ 2 * (p j ^ 2 / K j) := by
      rcases (hK j).eq_or_lt with h | h
      · rw [hp j h.symm]; simp
      · rw [div_le_iff₀ hw0]
        have : p j ^ 2 = p j ^ 2 / K j * K j := by field_simp
        calc p j ^ 2 = p j ^ 2 / K j * K j := this
          _ ≤ p j ^ 2 / K j * (w i j * c ^ 2) := mul_le_mul_of_nonneg_left hwK hn
          _ = _ := by ring
    have hβ2 : 0 ≤ 1 / (2 * β) := by positivity
    calc |v i * (D i j * p j)| = |D i j| * (|v i| * |p j|) := by rw [abs_mul, abs_mul]; ring
      _ ≤ |D i j| * (β / 2 * (v i ^ 2 * w i j) + 1 / (2 * β) * (c ^ 2 * (p j ^ 2 / K j))) := by
        apply mul_le_mul_of_nonneg_left _ (abs_nonneg _)
        exact y.trans (by linarith [mul_le_mul_of_nonneg_left q hβ2])
      _ = _ := by ring
  have e2 : |∑ i, v i * D.mulVec p i| ≤ ∑ i, ∑ j, |v i * (D i j * p j)| := by
    refine (Finset.abs_sum_le_sum_abs _ _).trans (Finset.sum_le_sum fun i _ => ?_)
    rw [mulVec, dotProduct, Finset.mul_sum]
    exact Finset.abs_sum_le_sum_abs _ _
  have e3 : ∑ i, ∑ j, |v i * (D i j * p j)| ≤
      ∑ i, ∑ j, (β / 2 * (v i ^ 2 * (|D i j| * w i j)) +
        1 / (2 * β) * (|D i j| * (c ^ 2 * (p j ^ 2 / K j)))) :=
    Finset.sum_le_sum fun i _ => Finset.sum_le_sum fun j _ => e1 i j
  have e4 : ∑ i, ∑ j, (β / 2 * (v i ^ 2 * (|D i j| * w i j)) +
        1 / (2 * β) * (|D i j| * (c ^ 2 * (p j ^ 2 / K j)))) =
      ∑ i, β / 2 * (v i ^ 2 * ∑ j, |D i j| * w i j) +
        ∑ j, 1 / (2 * β) * ((∑ i, |D i j|) * (c ^ 2 * (p j ^ 2 / K j))) := by
    simp only [Finset.sum_add_distrib]
    congr 1
    · refine Finset.sum_congr rfl fun i _ => ?_
      rw [Finset.mul_sum, Finset.mul_sum]
    · rw [Finset.sum_comm]
      refine Finset.sum_congr rfl fun j _ => ?_
      rw [Finset.sum_mul, Finset.mul_sum]
  have e5 : ∑ i, β / 2 * (v i ^ 2 * ∑ j, |D i j| * w i j) ≤ β * B / 2 * ∑ i, v i ^ 2 / R i := by
    rw [Finset.mul_sum]
    refine Finset.sum_le_sum fun i _ => ?_
    by_cases hRi : R i = 0
    · simp [hv i hRi]
    have hR0 : 0 < R i := lt_of_le_of_ne (hR i) (Ne.symm hRi)
    have : ∑ j, |D i j| * w i j ≤ B / R i := by
      rw [le_div_iff₀ hR0, mul_comm]; exact hrow i hRi
    calc β / 2 * (v i ^ 2 * ∑ j, |D i j| * w i j) ≤ β / 2 * (v i ^ 2 * (B / R i)) := by
          apply mul_le_mul_of_nonneg_left _ (by positivity)
          exact mul_le_mul_of_nonneg_left this (sq_nonneg _)
      _ = _ := by ring
  have e6 : ∑ j, 1 / (2 * β) * ((∑ i, |D i j|) * (c ^ 2 * (p j ^ 2 / K j))) ≤
      c ^ 2 * B / (2 * β) * ∑ j, p j ^ 2 / K j := by
    rw [Finset.mul_sum]
    refine Finset.sum_le_sum fun j _ => ?_
    have hn : 0 ≤ c ^ 2 * (p j ^ 2 / K j) := mul_nonneg (sq_nonneg _) (div_nonneg (sq_nonneg _) (hK j))
    have hβ2 : 0 ≤ 1 / (2 * β) := by positivity
    calc 1 / (2 * β) * ((∑ i, |D i j|) * (c ^ 2 * (p j ^ 2 / K j)))
        ≤ 1 / (2 * β) * (B * (c ^ 2 * (p j ^ 2 / K j))) :=
          mul_le_mul_of_nonneg_left (mul_le_mul_of_nonneg_right (hcol j) hn) hβ2
      _ = _ := by ring
  linarith

end Cross

/-! ### Row and column sums -/

theorem moveTo_along {NX NY NZ : ℕ} (a : Axis) (i : Pt NX NY NZ) (k : Fin (axisSize NX NY NZ a)) :
    along a (moveTo a i k) = k := by
  cases a <;> rfl

theorem moveTo_self {NX NY NZ : ℕ} (a : Axis) (i : Pt NX NY NZ) : moveTo a i (along a i) = i := by
  cases a <;> rfl

theorem moveTo_moveTo {NX NY NZ : ℕ} (a : Axis) (i : Pt NX NY NZ) (k l : Fin (axisSize NX NY NZ a)) :
    moveTo a (moveTo a i k) l = moveTo a i l := by
  cases a <;> rfl

/-- A sum over the points of a line. -/
theorem sum_line {NX NY NZ : ℕ} (a : Axis) (i : Pt NX NY NZ) (F : Pt NX NY NZ → ℝ) :
    ∑ j, (if moveTo a i (along a j) = j then F j else 0) = ∑ k, F (moveTo a i k) := by
  rw [← Finset.sum_filter]
  symm
  refine Finset.sum_bij (fun k _ => moveTo a i k) ?_ ?_ ?_ ?_
  · intro k _; simp [moveTo_along]
  · intro k _ l _ h
    have := congrArg (along a) h
    simpa [moveTo_along] using this
  · intro j hj
    exact ⟨along a j, Finset.mem_univ _, (Finset.mem_filter.mp hj).2⟩
  · intro k _; rfl

theorem line_symm {NX NY NZ : ℕ} (a : Axis) (i j : Pt NX NY NZ) :
    moveTo a i (along a j) = j ↔ moveTo a j (along a i) = i := by
  constructor
  · intro h; rw [← h, moveTo_moveTo, moveTo_self]
  · intro h; rw [← h, moveTo_moveTo, moveTo_self]

/-- Sum of the absolute values of a table. -/
def absSum (cs : List ℚ) : ℚ := (cs.map abs).sum

private theorem sum_inj {N : ℕ} (cs : List ℚ) (P : Fin N → Prop) [DecidablePred P] (k : Fin N → ℕ)
    (hk : ∀ a b, P a → P b → k a = k b → a = b) :
    ∑ c, |if P c then (cs[k c]?).getD 0 else 0| ≤ absSum cs := by
  have h1 : ∑ c, |if P c then (cs[k c]?).getD 0 else 0| =
      ∑ c ∈ Finset.univ.filter P, |(cs[k c]?).getD 0| := by
    rw [Finset.sum_filter]
    refine Finset.sum_congr rfl fun c _ => ?_
    split <;> simp
  have h2 : ∑ c ∈ Finset.univ.filter P, |(cs[k c]?).getD 0| =
      ∑ j ∈ (Finset.univ.filter P).image k, |(cs[j]?).getD 0| := by
    rw [Finset.sum_image]
    intro a ha b hb hab
    exact hk a b (Finset.mem_filter.mp ha).2 (Finset.mem_filter.mp hb).2 hab
  have h3 : ∑ j ∈ (Finset.univ.filter P).image k, |(cs[j]?).getD 0| ≤
      ∑ j ∈ (Finset.univ.filter P).image k ∪ Finset.range cs.length, |(cs[j]?).getD 0| :=
    Finset.sum_le_sum_of_subset_of_nonneg Finset.subset_union_left fun _ _ _ => abs_nonneg _
  have h4 : ∑ j ∈ (Finset.univ.filter P).image k ∪ Finset.range cs.length, |(cs[j]?).getD 0| =
      ∑ j ∈ Finset.range cs.length, |(cs[j]?).getD 0| := by
    symm
    refine Finset.sum_subset Finset.subset_union_right fun j _ hj => ?_
    rw [Finset.mem_range, not_lt] at hj
    simp [List.getElem?_eq_none hj]
  have h5 : ∀ l : List ℚ, ∑ j ∈ Finset.range l.length, |(l[j]?).getD 0| = absSum l := by
    intro l
    induction l with
    | nil => simp [absSum]
    | cons x l ih =>
      rw [List.length_cons, Finset.sum_range_succ']
      simp only [List.getElem?_cons_succ, List.getElem?_cons_zero, Option.getD_some]
      rw [ih]; simp [absSum, add_comm]
  rw [h1, h2, ← h5 cs, ← h4]; exact h3

theorem stencil_row {N : ℕ} {s : Int} {cs : List ℚ} (hcs : fd s = some cs) (r : Int) :
    ∑ c : Fin N, |fwdStencilEntry N s r c| ≤ absSum cs := by
  unfold fwdStencilEntry
  rw [hcs]
  refine sum_inj cs (fun c : Fin N => 0 ≤ r ∧ r < N ∧ 0 ≤ (c : Int) ∧ (c : Int) < N ∧
    0 ≤ (c : Int) - r + s / 2 - 1) (fun c => ((c : Int) - r + s / 2 - 1).toNat) ?_
  intro a b ha hb h
  ext; omega

theorem stencil_col {N : ℕ} {s : Int} {cs : List ℚ} (hcs : fd s = some cs) (c : Int) :
    ∑ r : Fin N, |fwdStencilEntry N s r c| ≤ absSum cs := by
  unfold fwdStencilEntry
  rw [hcs]
  refine sum_inj cs (fun r : Fin N => 0 ≤ (r : Int) ∧ (r : Int) < N ∧ 0 ≤ c ∧ c < N ∧
    0 ≤ c - (r : Int) + s / 2 - 1) (fun r => (c - (r : Int) + s / 2 - 1).toNat) ?_
  intro a b ha hb h
  ext; omega

variable {NX NY NZ : ℕ} {s : Int} {cs : List ℚ} {DT DH : ℝ}

theorem abs_forward (hDT : 0 ≤ DT) (hDH : 0 < DH) (a : Axis) (i j : Pt NX NY NZ) :
    |forwardMatrix s DT DH a i j| = if moveTo a i (along a j) = j then
      DT / DH * ((|fwdStencilEntry (axisSize NX NY NZ a) s (along a i) (along a j)| : ℚ) : ℝ)
      else 0 := by
  unfold forwardMatrix
  split
  · rw [abs_mul, abs_of_nonneg (by positivity)]; push_cast; rfl
  · simp

theorem forward_row (hcs : fd s = some cs) (hDT : 0 ≤ DT) (hDH : 0 < DH) (a : Axis)
    (i : Pt NX NY NZ) : ∑ j, |forwardMatrix s DT DH a i j| ≤ DT / DH * (absSum cs : ℝ) := by
  simp only [abs_forward hDT hDH]
  rw [sum_line a i fun j => DT / DH *
    ((|fwdStencilEntry (axisSize NX NY NZ a) s (along a i) (along a j)| : ℚ) : ℝ)]
  simp only [moveTo_along]
  rw [← Finset.mul_sum]
  apply mul_le_mul_of_nonneg_left _ (by positivity)
  exact_mod_cast stencil_row (N := axisSize NX NY NZ a) hcs (along a i)

theorem forward_col (hcs : fd s = some cs) (hDT : 0 ≤ DT) (hDH : 0 < DH) (a : Axis)
    (j : Pt NX NY NZ) : ∑ i, |forwardMatrix s DT DH a i j| ≤ DT / DH * (absSum cs : ℝ) := by
  simp only [abs_forward hDT hDH, line_symm a _ j]
  rw [sum_line a j fun i => DT / DH *
    ((|fwdStencilEntry (axisSize NX NY NZ a) s (along a i) (along a j)| : ℚ) : ℝ)]
  simp only [moveTo_along]
  rw [← Finset.mul_sum]
  apply mul_le_mul_of_nonneg_left _ (by positivity)
  exact_mod_cast stencil_col (N := axisSize NX NY NZ a) hcs (along a j)

/-- Two points on a line along the axis, not further apart than the stencil of order `s` reaches. -/
def Near (s : Int) (a : Axis) (i j : Pt NX NY NZ) : Prop :=
  moveTo a i (along a j) = j ∧ |((along a j : ℕ) : Int) - ((along a i : ℕ) : Int)| ≤ s / 2

/-- Mean of a parameter over a point and its next neighbour along an axis; on the last point of a
line the value of the point itself. -/
noncomputable def meanNext (a : Axis) (q : Pt NX NY NZ → ℝ) (i : Pt NX NY NZ) : ℝ :=
  if h : (along a i : ℕ) + 1 < axisSize NX NY NZ a then
    (q i + q (moveTo a i ⟨(along a i : ℕ) + 1, h⟩)) / 2
  else q i

theorem meanNext_nonneg (a : Axis) {q : Pt NX NY NZ → ℝ} (hq : ∀ i, 0 ≤ q i) (i : Pt NX NY NZ) :
    0 ≤ meanNext a q i := by
  unfold meanNext
  split
  · have := hq i
    have := hq (moveTo a i ⟨(along a i : ℕ) + 1, ‹_›⟩)
    positivity
  · exact hq i

theorem near_of_entry (hs : ValidOrder s) (hcs : fd s = some cs) {a : Axis} {i j : Pt NX NY NZ}
    (h : forwardMatrix s DT DH a i j ≠ 0) : Near s a i j := by
  unfold forwardMatrix at h
  split at h
  swap; · exact absurd rfl h
  rename_i hl
  refine ⟨hl, ?_⟩
  by_contra hcon
  apply h
  have hlen : (cs.length : Int) = s := by
    obtain ⟨cs', h1, h2⟩ := fd_length hs
    rw [hcs] at h1; rw [Option.some.inj h1]; exact h2
  have : fwdStencilEntry (axisSize NX NY NZ a) s (along a i) (along a j) = 0 := by
    unfold fwdStencilEntry
    split
    · rename_i hin
      rw [hcs, Option.getD_some, List.getElem?_eq_none, Option.getD_none]
      have := hs.even
      rw [not_le, lt_abs] at hcon
      omega
    · rfl
  rw [this]; simp

/-- Order 2: the weighted sum over a row is twice the mean. -/
theorem order2_row (hDT : 0 ≤ DT) (hDH : 0 < DH) (a : Axis) (q : Pt NX NY NZ → ℝ)
    (hq : ∀ i, 0 ≤ q i) (i : Pt NX NY NZ) :
    ∑ j, |forwardMatrix 2 DT DH a i j| * q j ≤ 2 * DT / DH * meanNext a q i := by
  have e : ∀ j, |forwardMatrix 2 DT DH a i j| * q j = if moveTo a i (along a j) = j then
      DT / DH * ((|fwdStencilEntry (axisSize NX NY NZ a) 2 (along a i) (along a j)| : ℚ) : ℝ) * q j
      else 0 := by
    intro j
    rw [abs_forward hDT hDH]
    split <;> simp
  simp only [e]
  rw [sum_line a i fun j => DT / DH *
    ((|fwdStencilEntry (axisSize NX NY NZ a) 2 (along a i) (along a j)| : ℚ) : ℝ) * q j]
  simp only [moveTo_along]
  have hent : ∀ k : Fin (axisSize NX NY NZ a),
      |fwdStencilEntry (axisSize NX NY NZ a) 2 (along a i) k| =
        if k = along a i ∨ (k : ℕ) = along a i + 1 then 1 else 0 := by
    intro k
    have hk := k.2
    have hi := (along a i).2
    have hfd : fd 2 = some [-1, 1] := by decide +kernel
    unfold fwdStencilEntry
    rw [hfd, Option.getD_some]
    by_cases h1 : k = along a i
    · rw [if_pos (by subst h1; omega), if_pos (.inl h1), h1]
      simp
    · have h1' : (k : ℕ) ≠ along a i := fun h => h1 (Fin.ext h)
      by_cases h2 : (k : ℕ) = along a i + 1
      · rw [if_pos (by omega), if_pos (.inr h2)]
        have : ((k : ℕ) : Int) - ((along a i : ℕ) : Int) + 2 / 2 - 1 = 1 := by omega
        rw [this]; simp
      · rw [if_neg (c := k = along a i ∨ (k : ℕ) = along a i + 1) (by tauto)]
        split
        · rw [List.getElem?_eq_none]
          · simp
          · simp only [List.length_cons, List.length_nil]; omega
        · simp
  simp only [hent]
  have hsum : ∑ k, DT / DH * (((if k = along a i ∨ (k : ℕ) = along a i + 1 then 1 else 0 : ℚ)) : ℝ) *
      q (moveTo a i k) =
      DT / DH * (q i + if h : (along a i : ℕ) + 1 < axisSize NX NY NZ a then
        q (moveTo a i ⟨(along a i : ℕ) + 1, h⟩) else 0) := by
    have h1 : ∀ k, DT / DH * (((if k = along a i ∨ (k : ℕ) = along a i + 1 then 1 else 0 : ℚ)) : ℝ) *
        q (moveTo a i k) = DT / DH * ((if k = along a i then q (moveTo a i k) else 0) +
          if (k : ℕ) = along a i + 1 then q (moveTo a i k) else 0) := by
      intro k
      by_cases h1 : k = along a i
      · subst h1; simp
      · by_cases h2 : (k : ℕ) = along a i + 1 <;> simp [h1, h2]
    simp only [h1]
    rw [← Finset.mul_sum, Finset.sum_add_distrib, Finset.sum_ite_eq' Finset.univ (along a i),
      if_pos (Finset.mem_univ _), moveTo_self]
    congr 2
    split
    · rename_i h
      rw [Finset.sum_eq_single ⟨(along a i : ℕ) + 1, h⟩]
      · simp
      · intro k _ hk
        rw [if_neg]; intro h'; exact hk (Fin.ext h')
      · simp
    · rename_i h
      refine Finset.sum_eq_zero fun k _ => ?_
      rw [if_neg]; intro h'; have := k.2; omega
  rw [hsum]
  unfold meanNext
  have h0 : 0 ≤ DT / DH := by positivity
  split
  · apply le_of_eq; field_simp
  · rw [add_zero, mul_div_assoc, mul_assoc]
    have := mul_nonneg h0 (hq i)
    linarith

/-! ### Norms and commutation -/

/-- A forward derivative does not enlarge the sum of squares by more than `B²`. -/
theorem forward_norm (hcs : fd s = some cs) (hDT : 0 < DT) (hDH : 0 < DH) (h0 : 0 < absSum cs)
    (a : Axis) (f : Pt NX NY NZ → ℝ) :
    ∑ i, (forwardMatrix s DT DH a).mulVec f i ^ 2 ≤
      (DT / DH * (absSum cs : ℝ)) ^ 2 * ∑ i, f i ^ 2 := by
  have h0' : (0 : ℝ) < absSum cs := by exact_mod_cast h0
  set B := DT / DH * (absSum cs : ℝ) with hB
  have hBp : 0 < B := by positivity
  have h := cross_bound (forwardMatrix s DT DH a) ((forwardMatrix s DT DH a).mulVec f) f
    (fun _ => 1) (fun _ => 1) (fun _ _ => 1) (c := 1) (B := B) (β := 1 / B) (by positivity)
    (fun _ => zero_le_one) (fun _ => zero_le_one) (fun _ h => absurd h one_ne_zero)
    (fun _ h => absurd h one_ne_zero) (fun _ _ _ _ => ⟨zero_le_one, by norm_num⟩)
    (fun i _ => by simpa using forward_row hcs hDT.le hDH a i)
    (fun j => forward_col hcs hDT.le hDH a j)
  have e1 : 1 / B * B / 2 = 1 / 2 := by field_simp
  have e2 : 1 ^ 2 * B / (2 * (1 / B)) = B ^ 2 / 2 := by field_simp
  rw [e1, e2] at h
  simp only [div_one, ← sq] at h
  have := (le_abs_self _).trans h
  linarith

/-- The same for the transpose. -/
theorem forward_transpose_norm (hcs : fd s = some cs) (hDT : 0 < DT) (hDH : 0 < DH)
    (h0 : 0 < absSum cs) (a : Axis) (f : Pt NX NY NZ → ℝ) :
    ∑ i, (forwardMatrix s DT DH a).transpose.mulVec f i ^ 2 ≤
      (DT / DH * (absSum cs : ℝ)) ^ 2 * ∑ i, f i ^ 2 := by
  have h0' : (0 : ℝ) < absSum cs := by exact_mod_cast h0
  set B := DT / DH * (absSum cs : ℝ) with hB
  have hBp : 0 < B := by positivity
  have h := cross_bound (forwardMatrix s DT DH a).transpose
    ((forwardMatrix s DT DH a).transpose.mulVec f) f
    (fun _ => 1) (fun _ => 1) (fun _ _ => 1) (c := 1) (B := B) (β := 1 / B) (by positivity)
    (fun _ => zero_le_one) (fun _ => zero_le_one) (fun _ h => absurd h one_ne_zero)
    (fun _ h => absurd h one_ne_zero) (fun _ _ _ _ => ⟨zero_le_one, by norm_num⟩)
    (fun i _ => by simpa using forward_col hcs hDT.le hDH a i)
    (fun j => by simpa using forward_row hcs hDT.le hDH a j)
  have e1 : 1 / B * B / 2 = 1 / 2 := by field_simp
  have e2 : 1 ^ 2 * B / (2 * (1 / B)) = B ^ 2 / 2 := by field_simp
  rw [e1, e2] at h
  simp only [div_one, ← sq] at h
  have := (le_abs_self _).trans h
  linarith

private theorem moveTo_comm {a b : Axis} (hab : a ≠ b) (i : Pt NX NY NZ)
    (k : Fin (axisSize NX NY NZ a)) (l : Fin (axisSize NX NY NZ b)) :
    moveTo a (moveTo b i l) k = moveTo b (moveTo a i k) l := by
  cases a <;> cases b <;> first | exact absurd rfl hab | rfl

private theorem along_moveTo_ne {a b : Axis} (hab : a ≠ b) (i : Pt NX NY NZ)
    (l : Fin (axisSize NX NY NZ b)) : along a (moveTo b i l) = along a i := by
  cases a <;> cases b <;> first | exact absurd rfl hab | rfl

/-- Derivatives along different axes commute, also when one of them is transposed. -/
theorem forward_comm {a b : Axis} (hab : a ≠ b) :
    (forwardMatrix (NX := NX) (NY := NY) (NZ := NZ) s DT DH a).transpose * forwardMatrix s DT DH b =
      forwardMatrix s DT DH b * (forwardMatrix s DT DH a).transpose := by
  ext i j
  simp only [Matrix.mul_apply, transpose_apply]
  rw [Finset.sum_eq_single (moveTo a i (along a j)), Finset.sum_eq_single (moveTo b i (along b j))]
  · unfold forwardMatrix
    simp only [moveTo_moveTo, moveTo_self, moveTo_along, along_moveTo_ne hab, along_moveTo_ne hab.symm,
      if_true]
    have : moveTo b (moveTo a i (along a j)) (along b j) = j ↔
        moveTo a j (along a i) = moveTo b i (along b j) := by
      constructor
      · intro h
        conv_lhs => rw [← h]
        rw [← moveTo_comm hab, moveTo_moveTo, ← along_moveTo_ne hab i (along b j), moveTo_self]
      · intro h
        rw [← moveTo_comm hab, ← h, moveTo_moveTo, moveTo_self]
    by_cases h : moveTo b (moveTo a i (along a j)) (along b j) = j
    · rw [if_pos h, if_pos (this.mp h)]; ring
    · rw [if_neg h, if_neg (fun h' => h (this.mpr h'))]; ring
  · intro k _ hk
    unfold forwardMatrix
    by_cases h1 : moveTo b i (along b k) = k
    · by_cases h2 : moveTo a j (along a k) = k
      · exfalso
        apply hk
        have : along b k = along b j := by rw [← h2, along_moveTo_ne hab.symm]
        rw [← this, h1]
      · rw [if_neg h2]; simp
    · rw [if_neg h1]; simp
  · simp
  · intro k _ hk
    unfold forwardMatrix
    by_cases h1 : moveTo a k (along a i) = i
    · by_cases h2 : moveTo b k (along b j) = j
      · exfalso
        apply hk
        have h3 : along a k = along a j := by rw [← h2, along_moveTo_ne hab]
        rw [← h3]
        exact ((line_symm a k i).mp h1).symm
      · rw [if_neg h2]; simp
    · rw [if_neg h1]; simp
  · simp

/-- Mixed products of derivatives along different axes can be exchanged. -/
theorem forward_exchange {a b : Axis} (hab : a ≠ b) (f g : Pt NX NY NZ → ℝ) :
    ∑ i, (forwardMatrix s DT DH a).mulVec f i * (forwardMatrix s DT DH b).mulVec g i =
      ∑ i, (forwardMatrix s DT DH b).transpose.mulVec f i *
        (forwardMatrix s DT DH a).transpose.mulVec g i := by
  have h1 := Matrix.dotProduct_mulVec ((forwardMatrix s DT DH a).mulVec f) (forwardMatrix s DT DH b) g
  have h2 : (forwardMatrix s DT DH a).mulVec f ᵥ* forwardMatrix s DT DH b =
      ((forwardMatrix s DT DH b).transpose * forwardMatrix s DT DH a).mulVec f := by
    rw [← Matrix.mulVec_transpose, Matrix.mulVec_mulVec]
  rw [h2, forward_comm hab.symm, ← Matrix.mulVec_mulVec] at h1
  have h3 := Matrix.dotProduct_mulVec g (forwardMatrix s DT DH a)
    ((forwardMatrix s DT DH b).transpose.mulVec f)
  rw [← Matrix.mulVec_transpose] at h3
  rw [dotProduct_comm] at h3
  have : ∑ i, (forwardMatrix s DT DH a).mulVec f i * (forwardMatrix s DT DH b).mulVec g i =
      (forwardMatrix s DT DH a).mulVec f ⬝ᵥ (forwardMatrix s DT DH b).mulVec g := rfl
  rw [this, h1, h3, dotProduct_comm]
  rfl

theorem regularDeriv_regular : (regularDeriv NX NY NZ s DT DH).regular :=
  ⟨⟨rfl, rfl, rfl, rfl, rfl, rfl, rfl, rfl⟩, rfl, rfl, rfl⟩

end Verif.Solver
