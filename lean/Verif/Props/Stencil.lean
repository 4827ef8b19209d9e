import Verif.Lemmas.StencilSums
/-!
# C20–C25: rows of the derivative matrices

`fwdRow N d off x s` / `bwdRow N d off x s`: row of grid point `x` on an axis of `N` points,
grid factor `d` (1 on regular grids), requested order `s`.
-/
namespace Verif.Stencil
open Polynomial

/-! ### C20 -/

private theorem zipIdx_fst_sum (g : ℚ) : ∀ (cs : List ℚ) (k : Nat),
    ((cs.zipIdx k).map fun e => e.1 * g).sum = cs.sum * g := by
  intro cs
  induction cs with
  | nil => simp
  | cons a cs ih => intro k; simp [ih, add_mul]

private theorem shape_constant {N d s : Int} {row : List (Int × ℚ)} (h : RowShape N d s row)
    (DH c : ℚ) : apply DH row (fun _ => c) = 0 := by
  rcases h with rfl | ⟨s', start, hv, _, _, _, rfl⟩
  · rfl
  · obtain ⟨cs, hcs, _⟩ := fd_length hv
    rw [apply_plain hcs]
    have : (fun e : ℚ × Nat => e.1 / DH * c) = fun e : ℚ × Nat => e.1 * (c / DH) := by
      funext e; ring
    rw [this, zipIdx_fst_sum, fd_sum hcs, zero_mul]

/-- C20: forward and backward derivative of a constant field is zero at every point of every
grid (also in coarsened layers, `d > 1`, and on layer interfaces, `off ≠ 0`), for every order. -/
theorem C20_constant {N d off x s : Int} (hd : 1 ≤ d) (hs : ValidOrder s) (DH c : ℚ) :
    (∃ row, fwdRow N d off x s = .ok row ∧ apply DH row (fun _ => c) = 0) ∧
    (∃ row, bwdRow N d off x s = .ok row ∧ apply DH row (fun _ => c) = 0) := by
  obtain ⟨r1, h1, s1⟩ := fwdRow_shape (N := N) (off := off) (x := x) hd hs
  obtain ⟨r2, h2, s2⟩ := bwdRow_shape (N := N) (off := off) (x := x) hd hs
  exact ⟨⟨r1, h1, shape_constant s1 DH c⟩, ⟨r2, h2, shape_constant s2 DH c⟩⟩

/-! ### C22 -/

private theorem plain_length {s d start : Int} (hs : ValidOrder s) :
    ((plain s d start).length : Int) = s := by
  obtain ⟨cs, hcs, hl⟩ := fd_length hs
  simp [plain, hcs, hl]

/-- C22: on a regular axis with at least two points building a row ends, with an even number of
entries between 2 and the requested order, in distinct columns of the model. -/
theorem C22_regular {N x s : Int} (hN : 2 ≤ N) (hs : ValidOrder s) (h0 : 0 ≤ x) (hx : x < N) :
    (∃ row, fwdRow N 1 0 x s = .ok row ∧ ValidOrder row.length ∧ (row.length : Int) ≤ s ∧
      ∀ e ∈ row, 0 ≤ e.1 ∧ e.1 < N) ∧
    (∃ row, bwdRow N 1 0 x s = .ok row ∧ ValidOrder row.length ∧ (row.length : Int) ≤ s ∧
      ∀ e ∈ row, 0 ≤ e.1 ∧ e.1 < N) := by
  obtain ⟨hev, h2, h12⟩ := hs.even
  constructor
  · have hv := fwdOrder_valid hs h0 hx
    refine ⟨_, fwdRow_eq hs hN h0 hx, by rw [plain_length hv]; exact hv, ?_, ?_⟩
    · rw [plain_length hv]; unfold fwdOrder; split <;> omega
    · intro e he
      obtain ⟨cs, j, hj, hcs, he1, _⟩ := mem_plain he
      obtain ⟨cs', hcs', hl⟩ := fd_length hv
      rw [hcs] at hcs'; injection hcs' with hcs'; subst hcs'
      have := hv.even
      rw [he1]
      have ho : fwdOrder N x s ≤ if x + 1 = N then 2 else min (2 * x + 2) (2 * (N - 1 - x)) := by
        unfold fwdOrder; split <;> omega
      unfold fwdBase
      split <;> rename_i hc <;> simp only [hc, if_true, if_false] at ho <;> omega
  · have hv := bwdOrder_valid hs h0 hx
    refine ⟨_, bwdRow_eq hs hN h0 hx, by rw [plain_length hv]; exact hv, ?_, ?_⟩
    · rw [plain_length hv]; unfold bwdOrder; split <;> omega
    · intro e he
      obtain ⟨cs, j, hj, hcs, he1, _⟩ := mem_plain he
      obtain ⟨cs', hcs', hl⟩ := fd_length hv
      rw [hcs] at hcs'; injection hcs' with hcs'; subst hcs'
      have := hv.even
      rw [he1]
      have ho : bwdOrder N x s ≤ if x = 0 then 2 else min (2 * x) (2 * (N - x)) := by
        unfold bwdOrder; split <;> omega
      unfold bwdBase
      by_cases hc : x = 0
      · rw [if_pos hc] at ho ⊢; omega
      · rw [if_neg hc] at ho ⊢; omega

/-- C22: the order used at a point of a regular axis: reduced by two per point closer to the
edge than the half stencil (a second order row shifted by one at the outermost point). -/
theorem C22_order_used {N x s : Int} (hN : 2 ≤ N) (hs : ValidOrder s) (h0 : 0 ≤ x) (hx : x < N) :
    (∃ row, fwdRow N 1 0 x s = .ok row ∧ (row.length : Int) =
      if x = N - 1 then 2 else min s (min (2 * (x + 1)) (2 * (N - 1 - x)))) ∧
    (∃ row, bwdRow N 1 0 x s = .ok row ∧ (row.length : Int) =
      if x = 0 then 2 else min s (min (2 * x) (2 * (N - x)))) := by
  constructor
  · refine ⟨_, fwdRow_eq hs hN h0 hx, ?_⟩
    rw [plain_length (fwdOrder_valid hs h0 hx)]
    unfold fwdOrder
    split <;> split <;> omega
  · refine ⟨_, bwdRow_eq hs hN h0 hx, ?_⟩
    rw [plain_length (bwdOrder_valid hs h0 hx)]
    rfl

/-- C22 for coarsened layers: building a row ends and references only coordinates of the
model, whatever the grid factor, offset and position. -/
theorem C22_any_factor {N d off x s : Int} (hd : 1 ≤ d) (hs : ValidOrder s) :
    (∃ row, fwdRow N d off x s = .ok row ∧ (row.length : Int) ≤ max s 2 ∧
      ∀ e ∈ row, 0 ≤ e.1 ∧ e.1 < N) ∧
    (∃ row, bwdRow N d off x s = .ok row ∧ (row.length : Int) ≤ max s 2 ∧
      ∀ e ∈ row, 0 ≤ e.1 ∧ e.1 < N) := by
  have key : ∀ row, RowShape N d s row → (row.length : Int) ≤ max s 2 ∧
      ∀ e ∈ row, 0 ≤ e.1 ∧ e.1 < N := by
    rintro row (rfl | ⟨s', start, hv, hle, h0, hN, rfl⟩)
    · simp
    · refine ⟨by rw [plain_length hv]; exact hle, ?_⟩
      intro e he
      obtain ⟨cs, j, hj, hcs, he1, _⟩ := mem_plain he
      obtain ⟨cs', hcs', hl⟩ := fd_length hv
      rw [hcs] at hcs'; injection hcs' with hcs'; subst hcs'
      rw [he1]
      have h1 : 0 ≤ d * (j : Int) := mul_nonneg (by omega) (by omega)
      have h2 : d * (j : Int) ≤ d * (s' - 1) := mul_le_mul_of_nonneg_left (by omega) (by omega)
      omega
  obtain ⟨r1, h1, s1⟩ := fwdRow_shape (N := N) (off := off) (x := x) hd hs
  obtain ⟨r2, h2, s2⟩ := bwdRow_shape (N := N) (off := off) (x := x) hd hs
  exact ⟨⟨r1, h1, key r1 s1⟩, ⟨r2, h2, key r2 s2⟩⟩

/-- Case: order 8 on an axis of 6 points; next to the lower edge order 4 is used, at the upper
edge the second order row of its neighbour. -/
example : fwdRow 6 1 0 1 8 = .ok [(0, 1/24), (1, -9/8), (2, 9/8), (3, -1/24)] ∧
    fwdRow 6 1 0 5 8 = .ok [(4, -1), (5, 1)] ∧ bwdRow 6 1 0 0 8 = .ok [(0, -1), (1, 1)] := by
  refine ⟨?_, ?_, ?_⟩
  · rw [fwdRow_eq (by decide) (by decide) (by decide) (by decide)]; rfl
  · rw [fwdRow_eq (by decide) (by decide) (by decide) (by decide)]; rfl
  · rw [bwdRow_eq (by decide) (by decide) (by decide) (by decide)]; rfl

/-! ### C21 -/

private theorem poly_linear {s d start : Int} (hs : ValidOrder s) (hd : 1 ≤ d) {h : ℚ}
    (hh : h ≠ 0) (a b : ℚ) :
    ∃ cs, fd s = some cs ∧
      apply (d * h) (plain s d start) (fun X => a + b * (X * h)) = b * moment cs 1 := by
  obtain ⟨cs, hcs, _⟩ := fd_length hs
  refine ⟨cs, hcs, ?_⟩
  have hd0 : (d : ℚ) ≠ 0 := by exact_mod_cast (by omega : d ≠ 0)
  have e : (fun i : Int => a + b * (i * h)) =
      fun i : Int => (C a + C b * X : ℚ[X]).eval ((i : ℚ) * h) := by
    funext i; simp
  have hdeg : (C a + C b * X : ℚ[X]).natDegree < 2 := by
    have := natDegree_linear_le (a := b) (b := a)
    rw [add_comm] at this
    omega
  rw [e, apply_plain_poly hcs _ h hdeg, Finset.sum_range_succ, Finset.sum_range_one]
  have m0 : moment cs 0 = 0 := by
    have := fd_sum hcs
    have z := zipIdx_fst_sum 1 cs 0
    unfold moment
    simp only [pow_zero]
    rw [z, this, zero_mul]
  rw [m0, taylor_coeff_one]
  simp
  field_simp
  exact Or.inl trivial

private theorem fwd_plain {N x s : Int} (hN : 2 ≤ N) (hs : ValidOrder s) (h0 : 0 ≤ x) (hx : x < N) :
    ∃ s' start, ValidOrder s' ∧ s' ≤ s ∧ fwdRow N 1 0 x s = .ok (plain s' 1 start) := by
  obtain ⟨hev, h2, h12⟩ := hs.even
  exact ⟨_, _, fwdOrder_valid hs h0 hx, by unfold fwdOrder; split <;> omega, fwdRow_eq hs hN h0 hx⟩

private theorem bwd_plain {N x s : Int} (hN : 2 ≤ N) (hs : ValidOrder s) (h0 : 0 ≤ x) (hx : x < N) :
    ∃ s' start, ValidOrder s' ∧ s' ≤ s ∧ bwdRow N 1 0 x s = .ok (plain s' 1 start) := by
  obtain ⟨hev, h2, h12⟩ := hs.even
  exact ⟨_, _, bwdOrder_valid hs h0 hx, by unfold bwdOrder; split <;> omega, bwdRow_eq hs hN h0 hx⟩

/-- C21: up to order 8 the derivative of a linear field is its slope at every grid point,
edges included. -/
theorem C21_linear {N x s : Int} (hN : 2 ≤ N) (hs : ValidOrder s) (h8 : s ≤ 8) (h0 : 0 ≤ x)
    (hx : x < N) {DH : ℚ} (hDH : DH ≠ 0) (a b : ℚ) :
    (∃ row, fwdRow N 1 0 x s = .ok row ∧ apply DH row (fun X => a + b * (X * DH)) = b) ∧
    (∃ row, bwdRow N 1 0 x s = .ok row ∧ apply DH row (fun X => a + b * (X * DH)) = b) := by
  have key : ∀ s' start, ValidOrder s' → s' ≤ s →
      apply DH (plain s' 1 start) (fun X => a + b * (X * DH)) = b := by
    intro s' start hv hle
    obtain ⟨cs, hcs, e⟩ := poly_linear (start := start) hv (le_refl (1 : Int)) hDH a b
    have m := fd_moment hcs (by omega) (k := 1) (by have := hv.even; omega)
    rw [m] at e
    simpa using e
  obtain ⟨s1, st1, v1, l1, e1⟩ := fwd_plain hN hs h0 hx
  obtain ⟨s2, st2, v2, l2, e2⟩ := bwd_plain hN hs h0 hx
  exact ⟨⟨_, e1, key _ _ v1 l1⟩, ⟨_, e2, key _ _ v2 l2⟩⟩

/-- C21: for every order (also 10 and 12, whose table is rounded) the relative error on linear
fields is at most `10⁻¹⁵`. -/
theorem C21_linear_rounded {N x s : Int} (hN : 2 ≤ N) (hs : ValidOrder s) (h0 : 0 ≤ x)
    (hx : x < N) {DH : ℚ} (hDH : DH ≠ 0) (a b : ℚ) :
    (∃ row, fwdRow N 1 0 x s = .ok row ∧
      |apply DH row (fun X => a + b * (X * DH)) - b| ≤ |b| / 10 ^ 15) ∧
    (∃ row, bwdRow N 1 0 x s = .ok row ∧
      |apply DH row (fun X => a + b * (X * DH)) - b| ≤ |b| / 10 ^ 15) := by
  have key : ∀ s' start, ValidOrder s' →
      |apply DH (plain s' 1 start) (fun X => a + b * (X * DH)) - b| ≤ |b| / 10 ^ 15 := by
    intro s' start hv
    obtain ⟨cs, hcs, e⟩ := poly_linear (start := start) hv (le_refl (1 : Int)) hDH a b
    have m := fd_moment_one_approx hcs
    have e' : apply DH (plain s' 1 start) (fun X => a + b * (X * DH)) = b * moment cs 1 := by
      simpa using e
    rw [e', show b * moment cs 1 - b = b * (moment cs 1 - 1) by ring, abs_mul, div_eq_mul_one_div]
    exact mul_le_mul_of_nonneg_left m (abs_nonneg b)
  obtain ⟨s1, st1, v1, l1, e1⟩ := fwd_plain hN hs h0 hx
  obtain ⟨s2, st2, v2, l2, e2⟩ := bwd_plain hN hs h0 hx
  exact ⟨⟨_, e1, key _ _ v1⟩, ⟨_, e2, key _ _ v2⟩⟩

private theorem poly_error {s d start : Int} (hs : ValidOrder s) (hd : 1 ≤ d) {h : ℚ} (hh : h ≠ 0)
    (P : ℚ[X]) (hdeg : (P.natDegree : Int) ≤ s) (c : ℚ)
    (hc : c = (start + d * (((s : ℚ) - 1) / 2)) * h) :
    (s ≤ 8 → apply (d * h) (plain s d start) (fun X => P.eval (X * h)) = P.derivative.eval c) ∧
    |apply (d * h) (plain s d start) (fun X => P.eval (X * h)) - P.derivative.eval c| ≤
      1 / 10 ^ 11 * ∑ k ∈ Finset.range (P.natDegree + 1),
        |(taylor c P).coeff k * ((d * h) ^ k / (d * h))| := by
  obtain ⟨cs, hcs, hl⟩ := fd_length hs
  have hd0 : (d : ℚ) ≠ 0 := by exact_mod_cast (by omega : d ≠ 0)
  have hlq : (cs.length : ℚ) = (s : ℚ) := by exact_mod_cast hl
  have e := apply_plain_poly (d := d) (start := start) hcs P h (Nat.lt_succ_self P.natDegree)
  rw [hlq, ← hc] at e
  have hsum : ∑ k ∈ Finset.range (P.natDegree + 1),
      (taylor c P).coeff k * ((d * h) ^ k / (d * h)) * (if k = 1 then 1 else 0) =
        P.derivative.eval c := by
    rw [← taylor_coeff_one]
    by_cases h1 : 1 < P.natDegree + 1
    · rw [Finset.sum_eq_single 1]
      · simp [hd0, hh]
      · intro k _ hk; simp [hk]
      · intro hk; simp at hk; omega
    · have : P.natDegree = 0 := by omega
      rw [coeff_eq_zero_of_natDegree_lt (by rw [natDegree_taylor]; omega)]
      apply Finset.sum_eq_zero
      intro k hk
      rw [if_neg (by simp at hk; omega), mul_zero]
  constructor
  · intro h8
    rw [e, ← hsum]
    apply Finset.sum_congr rfl
    intro k hk
    rw [fd_moment hcs h8 (by simp at hk; omega)]
  · rw [e, ← hsum, ← Finset.sum_sub_distrib, Finset.mul_sum]
    refine (Finset.abs_sum_le_sum_abs _ _).trans (Finset.sum_le_sum fun k hk => ?_)
    rw [← mul_sub, abs_mul, mul_comm (1 / 10 ^ 11 : ℚ)]
    exact mul_le_mul_of_nonneg_left (fd_moment_approx hcs (by simp at hk; omega)) (abs_nonneg _)

/-- C21: where the full stencil of order `s` fits, the forward derivative of a polynomial of
degree at most `s` is its exact derivative half a grid spacing to the right, the backward one
half a spacing to the left (orders up to 8). -/
theorem C21_polynomial {N x s : Int} (hN : 2 ≤ N) (hs : ValidOrder s) (h8 : s ≤ 8) (P : ℚ[X])
    (hdeg : (P.natDegree : Int) ≤ s) {DH : ℚ} (hDH : DH ≠ 0) :
    (s / 2 - 1 ≤ x → x + s / 2 < N → ∃ row, fwdRow N 1 0 x s = .ok row ∧
      apply DH row (fun X => P.eval (X * DH)) = P.derivative.eval ((x + 1 / 2) * DH)) ∧
    (s / 2 ≤ x → x + s / 2 ≤ N → x < N → ∃ row, bwdRow N 1 0 x s = .ok row ∧
      apply DH row (fun X => P.eval (X * DH)) = P.derivative.eval ((x - 1 / 2) * DH)) := by
  obtain ⟨hev, h2, h12⟩ := hs.even
  have hq : (s : ℚ) = 2 * ((s / 2 : Int) : ℚ) := by exact_mod_cast hev
  constructor
  · intro h0 hx
    refine ⟨_, fwdRow_eq hs hN (by omega) (by omega), ?_⟩
    have ho : fwdOrder N x s = s := by unfold fwdOrder; rw [if_neg (by omega)]; omega
    have hb : fwdBase N x = x := by unfold fwdBase; rw [if_neg (by omega)]
    rw [ho, hb]
    have := (poly_error (start := x + 1 - s / 2) hs (le_refl (1 : Int)) hDH P hdeg
      ((x + 1 / 2) * DH) (by push_cast; rw [hq]; ring)).1 h8
    simpa using this
  · intro h0 hx hlt
    refine ⟨_, bwdRow_eq hs hN (by omega) hlt, ?_⟩
    have ho : bwdOrder N x s = s := by unfold bwdOrder; rw [if_neg (by omega)]; omega
    have hb : bwdBase x = x := by unfold bwdBase; rw [if_neg (by omega)]
    rw [ho, hb]
    have := (poly_error (start := x - s / 2) hs (le_refl (1 : Int)) hDH P hdeg
      ((x - 1 / 2) * DH) (by push_cast; rw [hq]; ring)).1 h8
    simpa using this

/-- C21 for all orders: the error on a polynomial of degree at most `s` is at most `10⁻¹¹`
times the sum of the magnitudes of its Taylor terms at one grid spacing. -/
theorem C21_polynomial_rounded {N x s : Int} (hN : 2 ≤ N) (hs : ValidOrder s) (P : ℚ[X])
    (hdeg : (P.natDegree : Int) ≤ s) {DH : ℚ} (hDH : DH ≠ 0) (h0 : s / 2 - 1 ≤ x)
    (hx : x + s / 2 < N) :
    ∃ row, fwdRow N 1 0 x s = .ok row ∧
      |apply DH row (fun X => P.eval (X * DH)) - P.derivative.eval ((x + 1 / 2) * DH)| ≤
        1 / 10 ^ 11 * ∑ k ∈ Finset.range (P.natDegree + 1),
          |(taylor ((x + 1 / 2) * DH) P).coeff k * (DH ^ k / DH)| := by
  obtain ⟨hev, h2, h12⟩ := hs.even
  have hq : (s : ℚ) = 2 * ((s / 2 : Int) : ℚ) := by exact_mod_cast hev
  refine ⟨_, fwdRow_eq hs hN (by omega) (by omega), ?_⟩
  have ho : fwdOrder N x s = s := by unfold fwdOrder; rw [if_neg (by omega)]; omega
  have hb : fwdBase N x = x := by unfold fwdBase; rw [if_neg (by omega)]
  rw [ho, hb]
  have := (poly_error (start := x + 1 - s / 2) hs (le_refl (1 : Int)) hDH P hdeg
    ((x + 1 / 2) * DH) (by push_cast; rw [hq]; ring)).2
  simpa using this

/-- Case: the fourth order row at point 3 of 8 differentiates `X⁴` exactly. -/
example : ∃ row, fwdRow 8 1 0 3 4 = .ok row ∧
    apply 2 row (fun i => (X ^ 4 : ℚ[X]).eval ((i : ℚ) * 2)) = 4 * 7 ^ 3 := by
  obtain ⟨row, h1, h2⟩ := (C21_polynomial (N := 8) (x := 3) (s := 4) (by decide) (by decide)
    (by decide) (X ^ 4) (by simp) (DH := 2) (by norm_num)).1 (by decide) (by decide)
  exact ⟨row, h1, by rw [h2]; norm_num⟩

/-! ### C23 -/

private theorem coef_antisymm {s : Int} {cs : List ℚ} (hcs : fd s = some cs)
    (hl : (cs.length : Int) = s) (k : Int) :
    (if 0 ≤ k then (cs[k.toNat]?).getD 0 else 0) =
      - (if 0 ≤ s - 1 - k then (cs[(s - 1 - k).toNat]?).getD 0 else 0) := by
  by_cases h0 : 0 ≤ k
  · by_cases h1 : 0 ≤ s - 1 - k
    · rw [if_pos h0, if_pos h1]
      have hk : k.toNat < cs.length := by omega
      have e : (s - 1 - k).toNat = cs.length - 1 - k.toNat := by omega
      have ha := fd_antisymm hcs
      have g : cs.reverse[k.toNat]? = (cs.map (- ·))[k.toNat]? := by rw [ha]
      rw [List.getElem?_reverse hk, List.getElem?_map, ← e] at g
      rw [g, List.getElem?_eq_getElem hk]
      simp
    · rw [if_pos h0, if_neg h1, List.getElem?_eq_none (by omega)]; simp
  · rw [if_neg h0]
    by_cases h1 : 0 ≤ s - 1 - k
    · rw [if_pos h1, List.getElem?_eq_none (by omega)]; simp
    · rw [if_neg h1]; simp

/-- C23: for points at least half a stencil from both edges, the backward matrix is the negative
transpose of the forward matrix: entry (r, c) of one is minus entry (c, r) of the other. -/
theorem C23_negative_transpose {N r c s : Int} (hN : 2 ≤ N) (hs : ValidOrder s)
    (hr0 : s / 2 - 1 ≤ r) (hr : r + s / 2 < N) (hc0 : s / 2 ≤ c) (hc : c + s / 2 ≤ N)
    (hcN : c < N) :
    ∃ rowF rowB, fwdRow N 1 0 r s = .ok rowF ∧ bwdRow N 1 0 c s = .ok rowB ∧
      entry rowB r = - entry rowF c := by
  obtain ⟨hev, h2, h12⟩ := hs.even
  obtain ⟨cs, hcs, hl⟩ := fd_length hs
  refine ⟨_, _, fwdRow_eq hs hN (by omega) (by omega), bwdRow_eq hs hN (by omega) hcN, ?_⟩
  have ho : fwdOrder N r s = s := by unfold fwdOrder; rw [if_neg (by omega)]; omega
  have hb : fwdBase N r = r := by unfold fwdBase; rw [if_neg (by omega)]
  have ho' : bwdOrder N c s = s := by unfold bwdOrder; rw [if_neg (by omega)]; omega
  have hb' : bwdBase c = c := by unfold bwdBase; rw [if_neg (by omega)]
  rw [ho, hb, ho', hb', entry_plain hcs, entry_plain hcs]
  have a := coef_antisymm hcs hl (r - (c - s / 2))
  have e1 : (c - s / 2 ≤ r) ↔ (0 ≤ r - (c - s / 2)) := by omega
  have e2 : (r + 1 - s / 2 ≤ c) ↔ (0 ≤ s - 1 - (r - (c - s / 2))) := by omega
  have e3 : c - (r + 1 - s / 2) = s - 1 - (r - (c - s / 2)) := by omega
  simp only [e1, e2, e3]
  exact a

/-- C23, why the distance to the edge matters: in the outermost columns the sparse matrices are
not negative transposes of each other: the forward row at the upper edge is shifted inwards and
has a diagonal entry of the wrong sign. -/
theorem C23_edge_not_transpose :
    ∃ rowF rowB, fwdRow 4 1 0 3 2 = .ok rowF ∧ bwdRow 4 1 0 3 2 = .ok rowB ∧
      entry rowB 3 ≠ - entry rowF 3 := by
  refine ⟨_, _, fwdRow_eq (by decide) (by decide) (by decide) (by decide),
    bwdRow_eq (by decide) (by decide) (by decide) (by decide), ?_⟩
  rw [entry_plain (cs := [-1, 1]) rfl, entry_plain (cs := [-1, 1]) rfl]
  norm_num [bwdOrder, bwdBase, fwdOrder, fwdBase]

/-- C23 for the stencil matrices: the negated transpose is the backward difference stencil
(offsets `-s/2 … s/2-1`, coefficients of the table), cut off at the edges. -/
theorem C23_stencil_backward {N r c s : Int} (hs : ValidOrder s) {cs : List ℚ}
    (hcs : fd s = some cs) (hr : 0 ≤ r ∧ r < N) (hc : 0 ≤ c ∧ c < N) :
    bwdStencilEntry N s r c = if 0 ≤ c - r + s / 2 then (cs[(c - r + s / 2).toNat]?).getD 0 else 0 := by
  obtain ⟨hev, h2, h12⟩ := hs.even
  obtain ⟨cs', hcs', hl⟩ := fd_length hs
  rw [hcs] at hcs'; injection hcs' with hcs'; subst hcs'
  have a := coef_antisymm hcs hl (c - r + s / 2)
  rw [a]
  unfold bwdStencilEntry fwdStencilEntry
  have e1 : s - 1 - (c - r + s / 2) = r - c + s / 2 - 1 := by omega
  rw [e1, hcs]
  have e2 : (0 ≤ c ∧ c < N ∧ 0 ≤ r ∧ r < N ∧ 0 ≤ r - c + s / 2 - 1) ↔ 0 ≤ r - c + s / 2 - 1 := by
    omega
  simp only [e2, Option.getD_some]

/-- C23: where the stencil fits, the rows of the sparse and of the stencil matrices agree. -/
theorem C23_sparse_eq_stencil {N r c s : Int} (hN : 2 ≤ N) (hs : ValidOrder s)
    (hr : 0 ≤ r ∧ r < N) (hc : 0 ≤ c ∧ c < N) :
    (s / 2 - 1 ≤ r → r + s / 2 < N → ∃ row, fwdRow N 1 0 r s = .ok row ∧
      entry row c = fwdStencilEntry N s r c) ∧
    (s / 2 ≤ r → r + s / 2 ≤ N → ∃ row, bwdRow N 1 0 r s = .ok row ∧
      entry row c = bwdStencilEntry N s r c) := by
  obtain ⟨hev, h2, h12⟩ := hs.even
  obtain ⟨cs, hcs, hl⟩ := fd_length hs
  constructor
  · intro h0 h1
    refine ⟨_, fwdRow_eq hs hN hr.1 hr.2, ?_⟩
    have ho : fwdOrder N r s = s := by unfold fwdOrder; rw [if_neg (by omega)]; omega
    have hb : fwdBase N r = r := by unfold fwdBase; rw [if_neg (by omega)]
    rw [ho, hb, entry_plain hcs]
    unfold fwdStencilEntry
    have e1 : (0 ≤ r ∧ r < N ∧ 0 ≤ c ∧ c < N ∧ 0 ≤ c - r + s / 2 - 1) ↔ r + 1 - s / 2 ≤ c := by omega
    have e2 : c - (r + 1 - s / 2) = c - r + s / 2 - 1 := by omega
    simp only [e1, e2, hcs, Option.getD_some]
  · intro h0 h1
    refine ⟨_, bwdRow_eq hs hN hr.1 hr.2, ?_⟩
    have ho : bwdOrder N r s = s := by unfold bwdOrder; rw [if_neg (by omega)]; omega
    have hb : bwdBase r = r := by unfold bwdBase; rw [if_neg (by omega)]
    rw [ho, hb, entry_plain hcs, C23_stencil_backward hs hcs hr hc]
    have e1 : (r - s / 2 ≤ c) ↔ 0 ≤ c - r + s / 2 := by omega
    have e2 : c - (r - s / 2) = c - r + s / 2 := by omega
    simp only [e1, e2]

/-! ### C24 -/

/-- C24 fails: in a layer coarsened by 3 on an axis of 8 points (grid points 0, 3, 6) the second
order forward row at 6 and the backward row at 0 are empty, and so is the fourth order forward
row at 0. -/
theorem C24_coarse_edge_violated :
    fwdRow 8 3 0 6 2 = .ok [] ∧ bwdRow 8 3 0 0 2 = .ok [] ∧ fwdRow 8 3 0 0 4 = .ok [] := by
  decide

/-- C24 fails throughout: on the last grid point of any axis fitting a factor `d ≥ 3` (that is
`x = N - 1 - d/2`) every forward row is empty, and on the first point every backward row. -/
theorem C24_last_row_empty {N d s : Int} (hd : 3 ≤ d) (hs : ValidOrder s) :
    (d * (s / 2 - 1) ≤ N - 1 - d / 2 → fwdRow N d 0 (N - 1 - d / 2) s = .ok []) ∧
    bwdRow N d 0 0 s = .ok [] := by
  obtain ⟨hev, h2, h12⟩ := hs.even
  have t1 : s.tdiv 2 = s / 2 := Int.tdiv_eq_ediv_of_nonneg (by omega)
  have t2 : (-s).tdiv 2 = -(s / 2) := by rw [Int.neg_tdiv, t1]
  have hk : (d - 1) * (s / 2) ≥ d - 1 := by
    have : (d - 1) * (s / 2) ≥ (d - 1) * 1 := Int.mul_le_mul_of_nonneg_left (by omega) (by omega)
    omega
  have e1 : (d - 1) * (s / 2) = d * (s / 2) - s / 2 := by ring
  have e2 : d * (s / 2 - 1) = d * (s / 2) - d := by ring
  have t3 : (d * s).tdiv 2 = d * (s / 2) := by
    have : d * s = 2 * (d * (s / 2)) := by
      conv_lhs => rw [hev]
      ring
    rw [this, Int.mul_tdiv_cancel_left _ (by norm_num)]
  constructor
  · intro hfit
    have e8 : s.toNat + 8 = (s.toNat + 6) + 2 := rfl
    unfold fwdRow
    rw [e8, fwdLoop, if_pos (by omega)]
    simp only [t2, t3]
    have e3 : d * (-(s / 2) + 1) = d - d * (s / 2) := by ring
    rw [e3, if_neg (by omega), if_pos (by omega), if_neg (by omega), fwdLoop, if_neg (by omega)]
  · have e8 : s.toNat + 8 = (s.toNat + 6) + 2 := rfl
    unfold bwdRow
    rw [e8, bwdLoop, if_pos (by omega)]
    simp only [t2]
    have e3 : d * -(s / 2) = -(d * (s / 2)) := by ring
    rw [e3, if_pos (by omega), if_neg (by omega), bwdLoop, if_neg (by omega)]

/-- C24, what holds: where the full stencil of the requested order fits into the model, all of
it is used, for every grid factor. Missing: points closer to the edge in coarsened layers. -/
theorem C24_interior_partial {N d off x s : Int} (hs : ValidOrder s) :
    (0 ≤ x + off + d * (1 - s / 2) → x + off + d * (s / 2) < N →
      ∃ row, fwdRow N d off x s = .ok row ∧ (row.length : Int) = s) ∧
    (0 ≤ x + off - d * (s / 2) → x + off + d * (s / 2 - 1) < N →
      ∃ row, bwdRow N d off x s = .ok row ∧ (row.length : Int) = s) := by
  constructor
  · intro h1 h2
    exact ⟨_, fwdLoop_plain' hs h1 h2 (by omega), plain_length hs⟩
  · intro h1 h2
    exact ⟨_, bwdLoop_plain' hs (by linarith [mul_neg d (s / 2)]) h2 (by omega), plain_length hs⟩

/-! ### C25 -/

/-- Field continued above the free surface at depth 0 by the negative mirror image (and by zero
below the model). -/
def mirrored (NY : Int) (f : Int → ℚ) (Y : Int) : ℚ :=
  if Y < 0 then -(if -Y < NY then f (-Y) else 0)
  else if Y = 0 then 0
  else if Y < NY then f Y else 0

/-- The same for a field on points half a spacing `d` below the grid points. -/
def mirroredHalf (NY d : Int) (f : Int → ℚ) (Y : Int) : ℚ :=
  if Y < 0 then -(if -Y - d < NY then f (-Y - d) else 0)
  else if Y < NY then f Y else 0

/-- C25 for the forward operator: at depth `y = d*q` the free-surface row equals the plain
stencil applied to the mirrored field. -/
theorem C25_forward {NY d q s : Int} (hs : ValidOrder s) (hd : 1 ≤ d) (hq : 0 ≤ q)
    {cs : List ℚ} (hcs : fd s = some cs) (DH : ℚ) (f : Int → ℚ) :
    ∃ row, fwdFreeSurfaceRow NY d (d * q) s = .ok row ∧
      apply DH row f = ∑ j ∈ Finset.range s.toNat,
        coef cs j / DH * mirrored NY f (d * q + d * ((j : Int) - s / 2 + 1)) := by
  obtain ⟨hev, h2, h12⟩ := hs.even
  have t1 : s.tdiv 2 = s / 2 := Int.tdiv_eq_ediv_of_nonneg (by omega)
  obtain ⟨cs', hcs', hl⟩ := fd_length hs
  rw [hcs] at hcs'; injection hcs' with hcs'; subst hcs'
  have tq : (2 * (d * q)).tdiv d = 2 * q := by
    rw [show 2 * (d * q) = d * (2 * q) by ring, Int.mul_tdiv_cancel_left _ (by omega)]
  have hn : s.toNat = cs.length := by omega
  obtain ⟨row, h1, h3⟩ := foldr_rows hcs (fun j => d * q + d * ((j : Int) - s / 2 + 1)) NY
    (s - 2 - 2 * q) (by omega)
    (fun (j : Nat) rest => do
      let Y := d * q + d * ((j : Int) - s.tdiv 2 + 1)
      let c ← fdAt s j
      let diff ← (if s ≥ 2 + (2 * (d * q)).tdiv d + j then
        fdAt s (s - 2 - (2 * (d * q)).tdiv d - j) else pure 0 : Out ℚ)
      let r ← rest
      pure (if 0 ≤ Y ∧ Y < NY then (Y, c - diff) :: r else r))
    (by
      intro j rest
      simp only [t1, tq]
      have e : (s ≥ 2 + 2 * q + j) ↔ ((j : Int) ≤ s - 2 - 2 * q) := by omega
      simp only [e])
    (List.range s.toNat) (by intro j hj; simp at hj; omega)
  refine ⟨row, h1, ?_⟩
  rw [h3, range_sum]
  refine image_sum (by omega) (coef cs) _ (fun Y => -Y) DH NY f (mirrored NY f) ?_ ?_
  · intro j hj
    have : ((s - 2 - 2 * q).toNat - j : Nat) = s - 2 - 2 * q - j := by omega
    simp only [this]
    have : s - 2 - 2 * q - j - s / 2 + 1 = s / 2 - 1 - 2 * q - j := by omega
    rw [this]; ring
  · intro j hj
    have e : d * q + d * ((j : Int) - s / 2 + 1) = d * (q + ((j : Int) - s / 2 + 1)) := by ring
    simp only [e]
    unfold mirrored
    rcases lt_trichotomy (q + ((j : Int) - s / 2 + 1)) 0 with hlt | heq | hgt
    · have hneg : d * (q + ((j : Int) - s / 2 + 1)) < 0 := mul_neg_of_pos_of_neg (by omega) hlt
      rw [if_neg (by omega), if_pos hneg, if_pos (by omega)]
      by_cases hN : -(d * (q + ((j : Int) - s / 2 + 1))) < NY
      · rw [if_pos ⟨by omega, hN⟩, if_pos hN]; ring
      · rw [if_neg (fun h => hN h.2), if_neg hN]; ring
    · rw [heq]
      simp only [mul_zero, neg_zero, lt_irrefl, if_false, if_true]
      rw [if_pos (show (j : Int) ≤ s - 2 - 2 * q by omega)]
      ring
    · have hpos : 0 < d * (q + ((j : Int) - s / 2 + 1)) := mul_pos (by omega) hgt
      rw [if_neg (show ¬ d * (q + ((j : Int) - s / 2 + 1)) < 0 by omega),
        if_neg (show ¬ d * (q + ((j : Int) - s / 2 + 1)) = 0 by omega)]
      have z : (if (j : Int) ≤ s - 2 - 2 * q then
          (if 0 ≤ -(d * (q + ((j : Int) - s / 2 + 1))) ∧ -(d * (q + ((j : Int) - s / 2 + 1))) < NY
            then f (-(d * (q + ((j : Int) - s / 2 + 1)))) else 0) else 0) = 0 := by
        split
        · rw [if_neg (by omega)]
        · rfl
      rw [z, sub_zero]
      by_cases hN : d * (q + ((j : Int) - s / 2 + 1)) < NY
      · rw [if_pos ⟨hpos.le, hN⟩, if_pos hN]
      · rw [if_neg (fun h => hN h.2), if_neg hN]

/-- C25 for the backward operator, acting on fields half a spacing below the grid points. -/
theorem C25_backward {NY d q s : Int} (hs : ValidOrder s) (hd : 1 ≤ d) (hq : 0 ≤ q)
    {cs : List ℚ} (hcs : fd s = some cs) (DH : ℚ) (f : Int → ℚ) :
    ∃ row, bwdFreeSurfaceRow NY d (d * q) s = .ok row ∧
      apply DH row f = ∑ j ∈ Finset.range s.toNat,
        coef cs j / DH * mirroredHalf NY d f (d * q + d * ((j : Int) - s / 2)) := by
  obtain ⟨hev, h2, h12⟩ := hs.even
  have t1 : s.tdiv 2 = s / 2 := Int.tdiv_eq_ediv_of_nonneg (by omega)
  obtain ⟨cs', hcs', hl⟩ := fd_length hs
  rw [hcs] at hcs'; injection hcs' with hcs'; subst hcs'
  have tq : (2 * (d * q)).tdiv d = 2 * q := by
    rw [show 2 * (d * q) = d * (2 * q) by ring, Int.mul_tdiv_cancel_left _ (by omega)]
  have hn : s.toNat = cs.length := by omega
  obtain ⟨row, h1, h3⟩ := foldr_rows hcs (fun j => d * q + d * ((j : Int) - s / 2)) NY
    (s - 1 - 2 * q) (by omega)
    (fun (j : Nat) rest => do
      let Y := d * q + d * ((j : Int) - s.tdiv 2)
      let c ← fdAt s j
      let diff ← (if s ≥ 1 + (2 * (d * q)).tdiv d + j then
        fdAt s (s - 1 - (2 * (d * q)).tdiv d - j) else pure 0 : Out ℚ)
      let r ← rest
      pure (if 0 ≤ Y ∧ Y < NY then (Y, c - diff) :: r else r))
    (by
      intro j rest
      simp only [t1, tq]
      have e : (s ≥ 1 + 2 * q + j) ↔ ((j : Int) ≤ s - 1 - 2 * q) := by omega
      simp only [e])
    (List.range s.toNat) (by intro j hj; simp at hj; omega)
  refine ⟨row, h1, ?_⟩
  rw [h3, range_sum]
  refine image_sum (by omega) (coef cs) _ (fun Y => -Y - d) DH NY f (mirroredHalf NY d f) ?_ ?_
  · intro j hj
    have : ((s - 1 - 2 * q).toNat - j : Nat) = s - 1 - 2 * q - j := by omega
    simp only [this]
    have : s - 1 - 2 * q - j - s / 2 = s / 2 - 1 - 2 * q - j := by omega
    rw [this]; ring
  · intro j hj
    have e : d * q + d * ((j : Int) - s / 2) = d * (q + ((j : Int) - s / 2)) := by ring
    simp only [e]
    unfold mirroredHalf
    rcases lt_or_ge (q + ((j : Int) - s / 2)) 0 with hlt | hge
    · have hneg : d * (q + ((j : Int) - s / 2)) < 0 := mul_neg_of_pos_of_neg (by omega) hlt
      have hneg2 : d * (q + ((j : Int) - s / 2)) ≤ -d := by
        have := mul_le_mul_of_nonneg_left (show q + ((j : Int) - s / 2) ≤ -1 by omega)
          (show 0 ≤ d by omega)
        linarith
      rw [if_neg (by omega), if_pos hneg, if_pos (by omega)]
      by_cases hN : -(d * (q + ((j : Int) - s / 2))) - d < NY
      · rw [if_pos ⟨by omega, hN⟩, if_pos hN]; ring
      · rw [if_neg (fun h => hN h.2), if_neg hN]; ring
    · have hpos : 0 ≤ d * (q + ((j : Int) - s / 2)) := mul_nonneg (by omega) hge
      rw [if_neg (show ¬ d * (q + ((j : Int) - s / 2)) < 0 by omega)]
      have z : (if (j : Int) ≤ s - 1 - 2 * q then
          (if 0 ≤ -(d * (q + ((j : Int) - s / 2))) - d ∧ -(d * (q + ((j : Int) - s / 2))) - d < NY
            then f (-(d * (q + ((j : Int) - s / 2))) - d) else 0) else 0) = 0 := by
        split
        · rw [if_neg (by omega)]
        · rfl
      rw [z, sub_zero]
      by_cases hN : d * (q + ((j : Int) - s / 2)) < NY
      · rw [if_pos ⟨hpos, hN⟩, if_pos hN]
      · rw [if_neg (fun h => hN h.2), if_neg hN]

/-- Case: fourth order at the surface (`y = 0`): the surface value itself drops out and the
image of the value at depth 1 is folded back. -/
example : fwdFreeSurfaceRow 10 1 0 4 = .ok [(0, -9/8 - -9/8), (1, 9/8 - 1/24), (2, -1/24 - 0)] := by
  rfl

end Verif.Stencil
