import Verif.Lemmas.Stability
import Mathlib.Analysis.Matrix.PosDef
/-! Modes of the derivative matrices of a regular grid that oscillate as fast as the grid can show. -/
set_option linter.dupNamespace false
set_option linter.unusedSectionVars false

namespace Verif.Solver
open Matrix Verif.Stencil

/-- A symmetric matrix has an eigenvalue above each of its Rayleigh quotients. -/
theorem exists_mode {n : Type} [Fintype n] [DecidableEq n] {A : Matrix n n ℝ} (hA : Aᵀ = A) {κ : ℝ}
    {x : n → ℝ} (h : κ * (x ⬝ᵥ x) < x ⬝ᵥ A.mulVec x) :
    ∃ (lam : ℝ) (y : n → ℝ), κ < lam ∧ y ≠ 0 ∧ A.mulVec y = lam • y := by
  have hB : (κ • (1 : Matrix n n ℝ) - A).IsHermitian := by
    unfold Matrix.IsHermitian
    rw [conjTranspose_eq_transpose_of_trivial, transpose_sub, transpose_smul, transpose_one, hA]
  have hv : ∀ y : n → ℝ, (κ • (1 : Matrix n n ℝ) - A).mulVec y = κ • y - A.mulVec y := fun y => by
    rw [sub_mulVec, smul_mulVec, one_mulVec]
  have hn : ¬ (0 ≤ hB.eigenvalues) := by
    intro h0
    have hp := (hB.posSemidef_iff_eigenvalues_nonneg.mpr h0).dotProduct_mulVec_nonneg x
    rw [star_trivial, hv, dotProduct_sub, dotProduct_smul, smul_eq_mul] at hp
    linarith
  rw [Pi.le_def] at hn
  push Not at hn
  obtain ⟨j, hj⟩ := hn
  refine ⟨κ - hB.eigenvalues j, ⇑(hB.eigenvectorBasis j), ?_, ?_, ?_⟩
  · simp only [Pi.zero_apply] at hj; linarith
  · intro h0
    have := hB.eigenvectorBasis.orthonormal.ne_zero j
    exact this (by ext i; simpa using congrFun h0 i)
  · have := hB.mulVec_eigenvectorBasis j
    rw [hv] at this
    rw [sub_smul, ← this]; simp

/-- `cs[0] - cs[1] + cs[2] - …` -/
def altSum : List ℚ → ℚ
  | [] => 0
  | a :: l => a - altSum l

private theorem altSum_eq (l : List ℚ) :
    ∑ k ∈ Finset.range l.length, (l[k]?).getD 0 * (-1) ^ k = altSum l := by
  induction l with
  | nil => simp [altSum]
  | cons x l ih =>
    rw [List.length_cons, Finset.sum_range_succ']
    simp only [List.getElem?_cons_succ, List.getElem?_cons_zero, Option.getD_some, pow_succ, altSum]
    rw [← ih, sub_eq_add_neg, ← Finset.sum_neg_distrib]
    simp [add_comm]

theorem abs_altSum {s : Int} {cs : List ℚ} (hs : ValidOrder s) (hcs : fd s = some cs) :
    |altSum cs| = absSum cs := by
  have : ∀ t ∈ [(2 : Int), 4, 6, 8, 10, 12], ∀ c ∈ fd t, |altSum c| = absSum c := by decide +kernel
  refine this s ?_ cs hcs
  unfold ValidOrder at hs
  simp only [List.mem_cons, List.not_mem_nil, or_false]
  omega

/-- The derivative of a field with alternating signs, away from the ends of the line. -/
theorem stencil_alt {N h : ℕ} {s : Int} {cs : List ℚ} (hs : ValidOrder s) (hcs : fd s = some cs)
    (hh : s = 2 * h) (r : Fin N) (h1 : h ≤ (r : ℕ) + 1) (h2 : (r : ℕ) + h < N) :
    |∑ c : Fin N, fwdStencilEntry N s r c * (-1) ^ (c : ℕ)| = absSum cs := by
  have hlen : cs.length = 2 * h := by
    obtain ⟨cs', h3, h4⟩ := fd_length hs
    rw [hcs] at h3
    cases h3
    omega
  have e1 : ∑ c : Fin N, fwdStencilEntry N s r c * (-1) ^ (c : ℕ) =
      ∑ c ∈ Finset.range N, (if (r : ℕ) + 1 ≤ c + h then (cs[c + h - (r + 1)]?).getD 0 else 0) *
        (-1) ^ c := by
    rw [← Fin.sum_univ_eq_sum_range (fun c => (if (r : ℕ) + 1 ≤ c + h then
      (cs[c + h - (r + 1)]?).getD 0 else 0) * (-1) ^ c)]
    refine Finset.sum_congr rfl fun c _ => ?_
    congr 1
    unfold fwdStencilEntry
    rw [hcs, Option.getD_some]
    have hc := c.2
    by_cases hx : (r : ℕ) + 1 ≤ c + h
    · rw [if_pos hx, if_pos (by omega)]
      congr 2
      omega
    · rw [if_neg hx, if_neg (by omega)]
  have e2 : ∑ c ∈ Finset.range N, (if (r : ℕ) + 1 ≤ c + h then (cs[c + h - (r + 1)]?).getD 0 else 0) *
        (-1) ^ c = ∑ c ∈ Finset.Ico ((r : ℕ) + 1 - h) ((r : ℕ) + 1 - h + cs.length),
        (if (r : ℕ) + 1 ≤ c + h then (cs[c + h - (r + 1)]?).getD 0 else 0) * (-1) ^ c := by
    symm
    refine Finset.sum_subset (fun c hc => ?_) fun c _ hc => ?_
    · simp only [Finset.mem_Ico, Finset.mem_range] at hc ⊢; omega
    · simp only [Finset.mem_Ico] at hc
      by_cases hx : (r : ℕ) + 1 ≤ c + h
      · rw [if_pos hx, List.getElem?_eq_none (by omega)]; simp
      · rw [if_neg hx, zero_mul]
  rw [e1, e2, Finset.sum_Ico_eq_sum_range, ← abs_altSum hs hcs, ← altSum_eq]
  have e3 : ∀ k, (if (r : ℕ) + 1 ≤ (r : ℕ) + 1 - h + k + h then
      (cs[(r : ℕ) + 1 - h + k + h - (r + 1)]?).getD 0 else 0) * (-1) ^ ((r : ℕ) + 1 - h + k) =
      (-1) ^ ((r : ℕ) + 1 - h) * ((cs[k]?).getD 0 * (-1) ^ k) := by
    intro k
    rw [if_pos (by omega), show (r : ℕ) + 1 - h + k + h - (r + 1) = k by omega, pow_add]
    ring
  simp only [e3]
  rw [← Finset.mul_sum, abs_mul, abs_pow, abs_neg, abs_one, one_pow, one_mul,
    show (r : ℕ) + 1 - h + cs.length - (r + 1 - h) = cs.length by omega]

variable {NX NY NZ : ℕ} {s : Int} {cs : List ℚ} {DT DH : ℝ}

/-- A field that changes its sign from each point to its neighbours. -/
def alternating (i : Pt NX NY NZ) : ℝ := (-1) ^ ((i.1 : ℕ) + i.2.1 + i.2.2)

private theorem alternating_sq (i : Pt NX NY NZ) : alternating i ^ 2 = 1 := by
  unfold alternating; rw [← pow_mul, mul_comm, pow_mul]; norm_num

private theorem alternating_moveTo (a : Axis) (i : Pt NX NY NZ) (k : Fin (axisSize NX NY NZ a)) :
    alternating (moveTo a i k) = alternating i * (-1) ^ (along a i : ℕ) * (-1) ^ (k : ℕ) := by
  have e : ∀ n : ℕ, ((-1 : ℝ) ^ n) * (-1) ^ n = 1 := fun n => by
    rw [← pow_add, ← two_mul, pow_mul]; norm_num
  cases a <;> unfold alternating moveTo along <;> simp only [pow_add]
  · linear_combination (-(-1) ^ (k : ℕ) * (-1) ^ (i.2.1 : ℕ) * (-1) ^ (i.2.2 : ℕ)) * e i.1
  · linear_combination (-(-1) ^ (k : ℕ) * (-1) ^ (i.1 : ℕ) * (-1) ^ (i.2.2 : ℕ)) * e i.2.1
  · linear_combination (-(-1) ^ (k : ℕ) * (-1) ^ (i.1 : ℕ) * (-1) ^ (i.2.1 : ℕ)) * e i.2.2

theorem forward_alternating {h : ℕ} (hs : ValidOrder s) (hcs : fd s = some cs) (hh : s = 2 * h)
    (a : Axis) (i : Pt NX NY NZ) (h1 : h ≤ (along a i : ℕ) + 1)
    (h2 : (along a i : ℕ) + h < axisSize NX NY NZ a) :
    (forwardMatrix s DT DH a).mulVec alternating i ^ 2 = (DT / DH * (absSum cs : ℚ)) ^ 2 := by
  have e : (forwardMatrix s DT DH a).mulVec alternating i = DT / DH *
      (alternating i * (-1) ^ (along a i : ℕ)) *
      ((∑ k : Fin (axisSize NX NY NZ a), fwdStencilEntry (axisSize NX NY NZ a) s (along a i) k *
        (-1) ^ (k : ℕ) : ℚ) : ℝ) := by
    unfold Matrix.mulVec dotProduct forwardMatrix
    simp only [ite_mul, zero_mul]
    rw [sum_line a i fun j => DT / DH *
      (fwdStencilEntry (axisSize NX NY NZ a) s (along a i) (along a j) : ℝ) * alternating j]
    simp only [moveTo_along, alternating_moveTo]
    push_cast
    rw [Finset.mul_sum]
    refine Finset.sum_congr rfl fun k _ => ?_
    ring
  rw [e, mul_pow, mul_pow, mul_pow, alternating_sq, ← pow_mul, mul_comm _ 2, pow_mul, mul_pow]
  rw [← sq_abs (((∑ k : Fin (axisSize NX NY NZ a), fwdStencilEntry (axisSize NX NY NZ a) s (along a i) k *
        (-1) ^ (k : ℕ) : ℚ) : ℝ)), ← Rat.cast_abs, stencil_alt hs hcs hh _ h1 h2]
  norm_num

private theorem count_inner {N h : ℕ} :
    (N : ℝ) - 2 * h ≤ ∑ r : Fin N, (if h ≤ (r : ℕ) + 1 ∧ (r : ℕ) + h < N then (1 : ℝ) else 0) := by
  rw [Fin.sum_univ_eq_sum_range (fun r => if h ≤ r + 1 ∧ r + h < N then (1 : ℝ) else 0),
    ← Finset.sum_filter, Finset.sum_const, nsmul_one]
  have : (Finset.Ico h (N - h)).card ≤ ((Finset.range N).filter fun r => h ≤ r + 1 ∧ r + h < N).card := by
    refine Finset.card_le_card fun r hr => ?_
    simp only [Finset.mem_Ico, Finset.mem_filter, Finset.mem_range] at hr ⊢
    omega
  rw [Nat.card_Ico] at this
  have h2 : (N : ℝ) ≤ ((N - h - h : ℕ) : ℝ) + 2 * h := by
    have : N ≤ (N - h - h) + 2 * h := by omega
    exact_mod_cast this
  have h3 : ((N - h - h : ℕ) : ℝ) ≤ (((Finset.range N).filter fun r => h ≤ r + 1 ∧ r + h < N).card : ℝ) := by
    exact_mod_cast this
  linarith

private theorem sum_along (a : Axis) (g : Fin (axisSize NX NY NZ a) → ℝ) :
    (axisSize NX NY NZ a : ℝ) * ∑ i : Pt NX NY NZ, g (along a i) =
      (Fintype.card (Pt NX NY NZ) : ℝ) * ∑ k, g k := by
  cases a with
  | x =>
    have : ∀ g : Fin NX → ℝ, (NX : ℝ) * ∑ i : Pt NX NY NZ, g i.1 =
        (Fintype.card (Pt NX NY NZ) : ℝ) * ∑ k, g k := fun g => by
      simp only [Fintype.sum_prod_type, Finset.sum_const, Finset.card_univ,
        Fintype.card_prod, Fintype.card_fin, nsmul_eq_mul, Nat.cast_mul, ← Finset.mul_sum]
      ring
    exact this g
  | y =>
    have : ∀ g : Fin NY → ℝ, (NY : ℝ) * ∑ i : Pt NX NY NZ, g i.2.1 =
        (Fintype.card (Pt NX NY NZ) : ℝ) * ∑ k, g k := fun g => by
      simp only [Fintype.sum_prod_type, Finset.sum_const, Finset.card_univ,
        Fintype.card_prod, Fintype.card_fin, nsmul_eq_mul, Nat.cast_mul, ← Finset.mul_sum]
      ring
    exact this g
  | z =>
    have : ∀ g : Fin NZ → ℝ, (NZ : ℝ) * ∑ i : Pt NX NY NZ, g i.2.2 =
        (Fintype.card (Pt NX NY NZ) : ℝ) * ∑ k, g k := fun g => by
      simp only [Fintype.sum_prod_type, Finset.sum_const, Finset.card_univ,
        Fintype.card_prod, Fintype.card_fin, nsmul_eq_mul, Nat.cast_mul]
      ring
    exact this g

/-- The fastest oscillation of the grid has a large derivative almost everywhere. -/
theorem forward_alternating_norm {N h : ℕ} (hs : ValidOrder s) (hcs : fd s = some cs) (hh : s = 2 * h)
    (a : Axis) (hN : axisSize NX NY NZ a = N) (hN0 : 0 < N) :
    (Fintype.card (Pt NX NY NZ) : ℝ) * (1 - 2 * h / N) * (DT / DH * (absSum cs : ℚ)) ^ 2 ≤
      ∑ i : Pt NX NY NZ, (forwardMatrix s DT DH a).mulVec alternating i ^ 2 := by
  subst hN
  have hN' : (0 : ℝ) < axisSize NX NY NZ a := by exact_mod_cast hN0
  have e1 : ∑ i : Pt NX NY NZ, (if h ≤ (along a i : ℕ) + 1 ∧ (along a i : ℕ) + h < axisSize NX NY NZ a
      then (1 : ℝ) else 0) * (DT / DH * (absSum cs : ℚ)) ^ 2 ≤
      ∑ i : Pt NX NY NZ, (forwardMatrix s DT DH a).mulVec alternating i ^ 2 := by
    refine Finset.sum_le_sum fun i _ => ?_
    split
    · rename_i hi
      rw [one_mul, forward_alternating hs hcs hh a i hi.1 hi.2]
    · rw [zero_mul]; positivity
  refine le_trans ?_ e1
  rw [← Finset.sum_mul]
  refine mul_le_mul_of_nonneg_right ?_ (sq_nonneg _)
  have e2 := sum_along (NX := NX) (NY := NY) (NZ := NZ) a
    (fun r => if h ≤ (r : ℕ) + 1 ∧ (r : ℕ) + h < axisSize NX NY NZ a then (1 : ℝ) else 0)
  have e3 := count_inner (N := axisSize NX NY NZ a) (h := h)
  have e4 : (axisSize NX NY NZ a : ℝ) * ((Fintype.card (Pt NX NY NZ) : ℝ) *
      (1 - 2 * h / axisSize NX NY NZ a)) =
      (Fintype.card (Pt NX NY NZ) : ℝ) * (axisSize NX NY NZ a - 2 * h) := by field_simp
  refine le_of_mul_le_mul_left ?_ hN'
  rw [e4, e2]
  exact mul_le_mul_of_nonneg_left e3 (Nat.cast_nonneg _)

/-- A mode whose derivatives are almost as large as the bound `forward_norm` allows. -/
theorem grid_mode {N h : ℕ} (hs : ValidOrder s) (hcs : fd s = some cs) (hh : s = 2 * h) (hDT : 0 < DT)
    (hDH : 0 < DH) (S : Finset Axis) (hN : ∀ a ∈ S, axisSize NX NY NZ a = N) (hN0 : 0 < N)
    (hne : 0 < Fintype.card (Pt NX NY NZ)) {κ : ℝ}
    (hκ : κ < S.card * (1 - 2 * h / N) * (absSum cs : ℚ) ^ 2) :
    ∃ (lam : ℝ) (y : Pt NX NY NZ → ℝ), κ * (DT / DH) ^ 2 < lam ∧ y ≠ 0 ∧
      ∀ i, ∑ a ∈ S, (forwardMatrix s DT DH a)ᵀ.mulVec ((forwardMatrix s DT DH a).mulVec y) i =
        lam * y i := by
  have hc : (0 : ℝ) < Fintype.card (Pt NX NY NZ) := by exact_mod_cast hne
  have hq : 0 < (DT / DH) ^ 2 := by positivity
  obtain ⟨lam, y, h1, h2, h3⟩ := exists_mode
    (A := ∑ a ∈ S, (forwardMatrix (NX := NX) (NY := NY) (NZ := NZ) s DT DH a)ᵀ * forwardMatrix s DT DH a)
    (κ := κ * (DT / DH) ^ 2) (x := alternating)
    (by rw [transpose_sum]; simp [transpose_mul])
    (by
      have e1 : (alternating : Pt NX NY NZ → ℝ) ⬝ᵥ alternating = (Fintype.card (Pt NX NY NZ) : ℝ) := by
        unfold dotProduct
        simp only [← sq, alternating_sq]
        simp
      have e2 : alternating ⬝ᵥ (∑ a ∈ S, (forwardMatrix (NX := NX) (NY := NY) (NZ := NZ) s DT DH a)ᵀ *
          forwardMatrix s DT DH a).mulVec alternating = ∑ a ∈ S, ∑ i : Pt NX NY NZ,
          (forwardMatrix s DT DH a).mulVec alternating i ^ 2 := by
        rw [sum_mulVec, dotProduct_sum]
        refine Finset.sum_congr rfl fun a _ => ?_
        rw [← mulVec_mulVec, dotProduct_mulVec, vecMul_transpose]
        unfold dotProduct
        simp only [sq]
      rw [e1, e2]
      have e3 : ∑ a ∈ S, (Fintype.card (Pt NX NY NZ) : ℝ) * (1 - 2 * h / N) *
          (DT / DH * (absSum cs : ℚ)) ^ 2 ≤ ∑ a ∈ S, ∑ i : Pt NX NY NZ,
          (forwardMatrix s DT DH a).mulVec alternating i ^ 2 :=
        Finset.sum_le_sum fun a ha => forward_alternating_norm hs hcs hh a (hN a ha) hN0
      refine lt_of_lt_of_le ?_ e3
      rw [Finset.sum_const, nsmul_eq_mul]
      have := mul_lt_mul_of_pos_right hκ (mul_pos hc hq)
      linarith [this])
  refine ⟨lam, y, h1, h2, fun i => ?_⟩
  have := congrFun h3 i
  rw [sum_mulVec, Finset.sum_apply] at this
  simpa only [← mulVec_mulVec, Pi.smul_apply, smul_eq_mul] using this

end Verif.Solver
