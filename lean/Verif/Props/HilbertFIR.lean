import Verif.Model.HilbertFIR
import Mathlib.Tactic.Positivity
import Mathlib.Tactic.FieldSimp
import Mathlib.Analysis.Real.Pi.Bounds

/-!
# C142: Hilbert transform with a finite impulse response
-/
set_option linter.dupNamespace false

namespace Verif.FIR
open Verif Finset

/-- The Blackman window of half width `K - 1` at the lag `j`. -/
noncomputable def blackman (K : ℕ) (j : ℤ) : ℝ :=
  0.42 + 0.5 * Real.cos (Real.pi * j / (K - 1)) + 0.08 * Real.cos (2 * Real.pi * j / (K - 1))

/-- The impulse response of the Hilbert transform, `2 / (π j)` at odd lags and zero at even lags, cut off with a Blackman
window. -/
noncomputable def tap (K : ℕ) (j : ℤ) : ℝ :=
  if Odd j ∧ |j| < K then 2 / (Real.pi * j) * blackman K j else 0

private theorem weight_eq {K : ℕ} (hK : Even K) (h2 : 2 ≤ K) (l : ℕ) :
    weight K l = 2 / (Real.pi * (2 * l - K + 1 : ℤ)) * blackman K (2 * l - K + 1) := by
  have hodd : Odd (2 * l - K + 1 : ℤ) := by
    obtain ⟨r, rfl⟩ := hK
    exact ⟨l - r, by push_cast; ring⟩
  have hm : (-K + 1 + 2 * l : ℝ) = ((2 * l - K + 1 : ℤ) : ℝ) := by push_cast; ring
  have hK1 : (K : ℝ) - 1 ≠ 0 := by
    have : (2 : ℝ) ≤ K := by exact_mod_cast h2
    linarith
  have ha : 2 * (Real.pi * l / (K - 1 : ℝ)) = Real.pi * ((2 * l - K + 1 : ℤ) : ℝ) / (K - 1) + Real.pi := by
    push_cast
    field_simp
    ring
  have hb : 4 * (Real.pi * l / (K - 1 : ℝ)) = 2 * Real.pi * ((2 * l - K + 1 : ℤ) : ℝ) / (K - 1) + 2 * Real.pi := by
    push_cast
    field_simp
    ring
  unfold weight blackman
  simp only
  rw [hm, Real.cos_int_mul_pi, hodd.neg_one_zpow, ha, hb, Real.cos_add_pi, Real.cos_add_two_pi, mul_comm Real.pi]
  norm_num

private theorem weight_tap {K : ℕ} (hK : Even K) (h2 : 2 ≤ K) {l : ℕ} (hl : l < K) :
    weight K l = tap K (2 * l - K + 1) := by
  have hodd : Odd (2 * l - K + 1 : ℤ) := by
    obtain ⟨r, rfl⟩ := hK
    exact ⟨l - r, by push_cast; ring⟩
  rw [weight_eq hK h2, tap, if_pos ⟨hodd, by rw [abs_lt]; constructor <;> omega⟩]

private theorem blackman_neg (K : ℕ) (j : ℤ) : blackman K (-j) = blackman K j := by
  unfold blackman
  push_cast
  rw [show Real.pi * -(j : ℝ) / (K - 1) = -(Real.pi * j / (K - 1)) by ring,
    show 2 * Real.pi * -(j : ℝ) / (K - 1) = -(2 * Real.pi * j / (K - 1)) by ring, Real.cos_neg, Real.cos_neg]

theorem tap_neg (K : ℕ) (j : ℤ) : tap K (-j) = -tap K j := by
  unfold tap
  simp only [odd_neg, abs_neg, blackman_neg]
  split
  · push_cast
    rw [show Real.pi * -(j : ℝ) = -(Real.pi * j) by ring, div_neg, neg_mul]
  · simp

/-- The outermost taps vanish. -/
private theorem tap_edge {K : ℕ} (h2 : 2 ≤ K) : tap K (K - 1 : ℤ) = 0 := by
  have hK1 : (K : ℝ) - 1 ≠ 0 := by
    have : (2 : ℝ) ≤ K := by exact_mod_cast h2
    linarith
  have : blackman K (K - 1 : ℤ) = 0 := by
    unfold blackman
    push_cast
    rw [mul_div_cancel_right₀ _ hK1, mul_div_cancel_right₀ _ hK1, Real.cos_pi, Real.cos_two_pi]
    norm_num
  unfold tap
  rw [this]
  simp

private theorem calcKernel_even {K : ℕ} (hK : Even K) (h2 : 2 ≤ K) :
    ∃ h, calcKernel K = .ok h ∧ ∀ l < K, h l = tap K (2 * l - K + 1) := by
  have hn : ¬∃ n < K, (-K + 1 + 2 * n : ℤ) = 0 := by
    rintro ⟨n, -, h⟩
    obtain ⟨r, rfl⟩ := hK
    push_cast at h
    omega
  refine ⟨_, by rw [calcKernel, if_neg hn], ?_⟩
  have key : ∀ t ≤ K, ∀ l < t, ((List.range t).foldl
      (fun h n => Function.update (Function.update h n (weight K n)) (K - n - 1) (-weight K n)) fun _ => (0 : ℝ)) l =
        weight K l := by
    intro t
    induction t with
    | zero => intro _ l hl; omega
    | succ t ih =>
      intro ht l hl
      rw [List.range_succ, List.foldl_append]
      simp only [List.foldl_cons, List.foldl_nil]
      by_cases h1 : l = K - t - 1
      · subst h1
        rw [Function.update_self, weight_tap hK h2 (by omega), weight_tap hK h2 (by omega), ← tap_neg]
        congr 1
        omega
      · rw [Function.update_of_ne h1]
        by_cases h3 : l = t
        · subst h3
          rw [Function.update_self]
        · rw [Function.update_of_ne h3]
          exact ih (by omega) l (by omega)
  intro l hl
  rw [key K le_rfl l hl, weight_tap hK h2 hl]

/-- C142, kernels: with an odd kernel size the kernel contains NaN; that is accepted without a message. -/
theorem C142_odd_violated {K : ℕ} (hK : Odd K) (x : List ℝ) : hilbertVector K x = .ub ∧ hilbertRow K x = .ub := by
  have : calcKernel K = .ub := by
    unfold calcKernel
    rw [if_pos]
    obtain ⟨r, rfl⟩ := hK
    exact ⟨r, by omega, by push_cast; ring⟩
  simp [hilbertVector, hilbertRow, this]

private theorem convolve_eq {K : ℕ} (hK : Even K) (h2 : 2 ≤ K) {h : ℕ → ℝ} (hh : ∀ l < K, h l = tap K (2 * l - K + 1))
    (x : List ℝ) {j : ℕ} (h1 : K - 1 ≤ j ∨ Odd j) (hj : j + K ≤ x.length) :
    convolve K h x (j + (2 * K - 1) / 2) = ∑ i ∈ range x.length, x.getD i 0 * tap K ((j : ℤ) - i) := by
  have e1 : (2 * K - 1) / 2 = K - 1 := by omega
  unfold convolve
  simp only [e1]
  rw [if_neg (by omega)]
  simp only [Nat.add_zero]
  rw [sum_filter]
  refine sum_congr rfl fun i hi => ?_
  rw [mem_range] at hi
  have hmin : min (j + (K - 1)) (x.length - 1) = j + (K - 1) := by omega
  rw [hmin]
  split
  · rename_i hc
    obtain ⟨hc1, hc2, hc3⟩ := hc
    obtain ⟨r, hr⟩ := hK
    have hp : (j + (K - 1) - i) % 2 = 0 := by
      rcases h1 with h1 | ⟨q, hq⟩ <;> omega
    rw [hh _ (by omega)]
    congr 2
    omega
  · rename_i hc
    have : tap K ((j : ℤ) - i) = 0 := by
      by_cases he : (j : ℤ) - i = -((K : ℤ) - 1)
      · rw [he, tap_neg, tap_edge h2, neg_zero]
      · unfold tap
        rw [if_neg]
        rintro ⟨⟨q, hq⟩, hab⟩
        rw [abs_lt] at hab
        obtain ⟨r, hr⟩ := hK
        apply hc
        refine ⟨by omega, by omega, ?_⟩
        rcases h1 with h1 | ⟨q', hq'⟩ <;> omega
    rw [this, mul_zero]

/-- C142: away from the ends of the trace the result is the convolution with the Hilbert impulse response under a Blackman
window. `partial`: at the first samples (with an even index) and at the last ones it is not, see below. -/
theorem C142_convolution_partial {K : ℕ} (hK : Even K) (h2 : 2 ≤ K) (x : List ℝ) :
    ∃ y z, hilbertVector K x = .ok y ∧ hilbertRow K x = .ok z ∧ y.length = x.length ∧ z.length = x.length ∧
      ∀ j, (K - 1 ≤ j ∨ Odd j) → j + K ≤ x.length →
        y[j]? = some (∑ i ∈ range x.length, x.getD i 0 * tap K ((j : ℤ) - i)) ∧ z[j]? = y[j]? := by
  obtain ⟨h, hk, hh⟩ := calcKernel_even hK h2
  refine ⟨outputs K h x (x.getLastD 0), outputs K h x 0, by simp [hilbertVector, hk], by simp [hilbertRow, hk],
    by simp [outputs], by simp [outputs], fun j h1 hj => ?_⟩
  simp only [outputs, List.getElem?_map, List.getElem?_range (show j < x.length by omega), Option.map_some]
  rw [if_pos (by omega), if_pos (by omega), convolve_eq hK h2 hh x h1 hj]
  exact ⟨rfl, rfl⟩

/-- C142, quadrature: away from the ends of the trace a harmonic of any frequency, amplitude and phase comes out shifted by
exactly a quarter of its period, with a gain that depends on the frequency only; a constant is removed. -/
theorem C142_quadrature_partial {K : ℕ} (hK : Even K) (h2 : 2 ≤ K) (ω : ℝ) :
    ∃ G : ℝ, (ω = 0 → G = 0) ∧ ∀ (A φ : ℝ) (S : ℕ), ∃ y,
      hilbertVector K ((List.range S).map fun t : ℕ => A * Real.cos (ω * t + φ)) = .ok y ∧
        ∀ j, K - 1 ≤ j → j + K ≤ S → y[j]? = some (G * (A * Real.sin (ω * j + φ))) := by
  refine ⟨∑ l ∈ range (2 * K - 1), tap K ((K : ℤ) - 1 - l) * Real.sin (ω * ((K : ℤ) - 1 - l : ℤ)), ?_, fun A φ S => ?_⟩
  · rintro rfl
    simp
  obtain ⟨y, z, hy, -, -, -, hc⟩ := C142_convolution_partial hK h2 ((List.range S).map fun t : ℕ => A * Real.cos (ω * t + φ))
  refine ⟨y, hy, fun j h1 hj => ?_⟩
  rw [(hc j (.inl h1) (by simpa using hj)).1]
  congr 1
  have hlen : ((List.range S).map fun t : ℕ => A * Real.cos (ω * t + φ)).length = S := by simp
  rw [hlen]
  have hsub : (range (2 * K - 1)).image (fun l => j - (K - 1) + l) ⊆ range S := by
    intro i hi
    obtain ⟨l, hl, rfl⟩ := mem_image.mp hi
    rw [mem_range] at hl ⊢
    omega
  rw [← sum_subset hsub]
  · rw [sum_image (by intro a _ b _ h; exact Nat.add_left_cancel h)]
    have hval : ∀ l ∈ range (2 * K - 1),
        ((List.range S).map fun t : ℕ => A * Real.cos (ω * t + φ)).getD (j - (K - 1) + l) 0 *
          tap K ((j : ℤ) - (j - (K - 1) + l : ℕ)) =
        tap K ((K : ℤ) - 1 - l) * Real.cos (ω * ((K : ℤ) - 1 - l : ℤ)) * (A * Real.cos (ω * j + φ)) +
          tap K ((K : ℤ) - 1 - l) * Real.sin (ω * ((K : ℤ) - 1 - l : ℤ)) * (A * Real.sin (ω * j + φ)) := by
      intro l hl
      rw [mem_range] at hl
      have hlt : j - (K - 1) + l < S := by omega
      rw [List.getD_eq_getElem?_getD, List.getElem?_map, List.getElem?_range hlt, Option.map_some, Option.getD_some]
      have e1 : (j : ℤ) - (j - (K - 1) + l : ℕ) = (K : ℤ) - 1 - l := by omega
      have e2 : ω * ((j - (K - 1) + l : ℕ) : ℝ) + φ = (ω * j + φ) - ω * ((K : ℤ) - 1 - l : ℤ) := by
        have : ((j - (K - 1) + l : ℕ) : ℝ) = (((j - (K - 1) + l : ℕ) : ℤ) : ℝ) := by push_cast; rfl
        rw [this, show ((j - (K - 1) + l : ℕ) : ℤ) = (j : ℤ) - ((K : ℤ) - 1 - l) by omega]
        push_cast
        ring
      rw [e1, e2, Real.cos_sub]
      ring
    rw [sum_congr rfl hval, sum_add_distrib, ← sum_mul, ← sum_mul]
    have hodd : ∑ l ∈ range (2 * K - 1), tap K ((K : ℤ) - 1 - l) * Real.cos (ω * ((K : ℤ) - 1 - l : ℤ)) = 0 := by
      have hr := sum_range_reflect (fun l : ℕ => tap K ((K : ℤ) - 1 - l) * Real.cos (ω * ((K : ℤ) - 1 - l : ℤ)))
        (2 * K - 1)
      have : ∀ l ∈ range (2 * K - 1), tap K ((K : ℤ) - 1 - (2 * K - 1 - 1 - l : ℕ)) *
          Real.cos (ω * ((K : ℤ) - 1 - (2 * K - 1 - 1 - l : ℕ) : ℤ)) =
          -(tap K ((K : ℤ) - 1 - l) * Real.cos (ω * ((K : ℤ) - 1 - l : ℤ))) := by
        intro l hl
        rw [mem_range] at hl
        have e : (K : ℤ) - 1 - (2 * K - 1 - 1 - l : ℕ) = -((K : ℤ) - 1 - l) := by omega
        rw [e, tap_neg, Int.cast_neg, mul_neg, Real.cos_neg, neg_mul]
      rw [sum_congr rfl this, sum_neg_distrib] at hr
      linarith
    rw [hodd, zero_mul, zero_add]
  · intro i hi hn
    rw [mem_range] at hi
    have : tap K ((j : ℤ) - i) = 0 := by
      unfold tap
      rw [if_neg]
      rintro ⟨-, hab⟩
      rw [abs_lt] at hab
      apply hn
      rw [mem_image]
      exact ⟨i - (j - (K - 1)), by rw [mem_range]; omega, by omega⟩
    rw [this, mul_zero]

private theorem tap_one_pos {K : ℕ} (hK : 4 ≤ K) : 0 < tap K 1 := by
  have hK1 : (3 : ℝ) ≤ (K : ℝ) - 1 := by
    have : (4 : ℝ) ≤ K := by exact_mod_cast hK
    linarith
  have hpi := Real.pi_pos
  have hc : (1 / 2 : ℝ) ≤ Real.cos (Real.pi / (K - 1)) := by
    rw [← Real.cos_pi_div_three]
    refine Real.cos_le_cos_of_nonneg_of_le_pi (by positivity) (by linarith) ?_
    exact div_le_div_of_nonneg_left hpi.le (by norm_num) hK1
  have hb : 0 < blackman K 1 := by
    unfold blackman
    have h1 : Real.pi * ((1 : ℤ) : ℝ) / ((K : ℝ) - 1) = Real.pi / (K - 1) := by push_cast; ring
    have h2 := Real.neg_one_le_cos (2 * Real.pi * ((1 : ℤ) : ℝ) / ((K : ℝ) - 1))
    rw [h1]
    nlinarith
  unfold tap
  rw [if_pos ⟨odd_one, by rw [abs_one]; exact_mod_cast (by omega : 1 < K)⟩]
  push_cast
  positivity

/-- An impulse at sample `p`. -/
def impulse (S p : ℕ) : List ℝ := (List.range S).map fun i => if i = p then 1 else 0

private theorem impulse_getD (S p i : ℕ) (hp : p < S) : (impulse S p).getD i 0 = if i = p then 1 else 0 := by
  unfold impulse
  rw [List.getD_eq_getElem?_getD, List.getElem?_map]
  by_cases hi : i < S
  · rw [List.getElem?_range hi]
    rfl
  · rw [List.getElem?_eq_none (by simpa using hi), if_neg (by omega)]
    rfl

/-- C142 is violated at the beginning of a trace, for every even kernel size from 4 on: the transform of an impulse at the
first sample is not zero at this sample. -/
theorem C142_start_violated {K S : ℕ} (hK : Even K) (h4 : 4 ≤ K) (hS : K ≤ S) : ∃ y, hilbertVector K (impulse S 0) = .ok y ∧
    ∑ i ∈ range S, (impulse S 0).getD i 0 * tap K ((0 : ℤ) - i) = 0 ∧ ∃ v, y[0]? = some v ∧ v ≠ 0 := by
  obtain ⟨h, hk, hh⟩ := calcKernel_even hK (by omega)
  have hlen : (impulse S 0).length = S := by simp [impulse]
  refine ⟨_, by rw [hilbertVector, hk, Out.bind_ok], ?_, ?_⟩
  · refine sum_eq_zero fun i hi => ?_
    rw [impulse_getD S 0 i (by omega)]
    split
    · rename_i h0
      subst h0
      simp [tap]
    · rw [zero_mul]
  · simp only [outputs, hlen, List.getElem?_map, List.getElem?_range (show 0 < S by omega), Option.map_some]
    refine ⟨_, rfl, ?_⟩
    rw [if_pos (by omega), Nat.zero_add, show (2 * K - 1) / 2 = K - 1 by omega]
    unfold convolve
    simp only
    rw [if_neg (by omega), hlen]
    rw [sum_eq_single 0]
    · rw [impulse_getD S 0 0 (by omega), if_pos rfl, one_mul, hh _ (by omega)]
      obtain ⟨r, hr⟩ := hK
      rw [show (2 * ((K - 1 - 0) / 2 : ℕ) - K + 1 : ℤ) = -1 by omega, tap_neg]
      exact neg_ne_zero.mpr (tap_one_pos h4).ne'
    · intro i _ hi
      rw [impulse_getD S 0 i (by omega), if_neg hi, zero_mul]
    · intro hn
      exfalso
      apply hn
      rw [mem_filter, mem_range]
      refine ⟨by omega, by omega, by omega, by omega⟩

/-- C142 is violated at the end of a trace, for every even kernel size from 4 on: the last two samples have no effect on the
samples before. -/
theorem C142_end_violated {K S : ℕ} (hK : Even K) (h4 : 4 ≤ K) (hS : K ≤ S) :
    ∃ y, hilbertVector K (impulse S (S - 2)) = .ok y ∧
    ∑ i ∈ range S, (impulse S (S - 2)).getD i 0 * tap K (((S - 3 : ℕ) : ℤ) - i) ≠ 0 ∧ y[S - 3]? = some 0 := by
  obtain ⟨h, hk, hh⟩ := calcKernel_even hK (by omega)
  have hlen : (impulse S (S - 2)).length = S := by simp [impulse]
  refine ⟨_, by rw [hilbertVector, hk, Out.bind_ok], ?_, ?_⟩
  · rw [sum_eq_single (S - 2)]
    · rw [impulse_getD S _ _ (by omega), if_pos rfl, one_mul,
        show (((S - 3 : ℕ) : ℤ) - (S - 2 : ℕ)) = -1 by omega, tap_neg]
      exact neg_ne_zero.mpr (tap_one_pos h4).ne'
    · intro i _ hi
      rw [impulse_getD S _ i (by omega), if_neg hi, zero_mul]
    · intro hn
      exact absurd (mem_range.mpr (by omega)) hn
  · simp only [outputs, hlen, List.getElem?_map, List.getElem?_range (show S - 3 < S by omega), Option.map_some]
    rw [if_pos (by omega)]
    congr 1
    unfold convolve
    simp only
    rw [if_neg (by omega), hlen]
    refine sum_eq_zero fun i hi => ?_
    rw [mem_filter] at hi
    rw [impulse_getD S _ i (by omega), if_neg (by omega), zero_mul]

/-- C142 is violated at the last sample: the transform of a vector leaves it as it is, that of a matrix sets it to zero; the
two disagree for every trace whose last sample is not zero. -/
theorem C142_last_violated {K : ℕ} (hK : Even K) (h2 : 2 ≤ K) (x : List ℝ) (v : ℝ) (hv : v ≠ 0) :
    ∃ y z, hilbertVector K (x ++ [v]) = .ok y ∧ hilbertRow K (x ++ [v]) = .ok z ∧ y[x.length]? = some v ∧
      z[x.length]? = some 0 ∧ y ≠ z := by
  obtain ⟨h, hk, -⟩ := calcKernel_even hK h2
  have e : ∀ last, (outputs K h (x ++ [v]) last)[x.length]? = some last := by
    intro last
    simp [outputs]
  refine ⟨_, _, by rw [hilbertVector, hk, Out.bind_ok], by rw [hilbertRow, hk, Out.bind_ok], ?_, e 0, fun hyz => ?_⟩
  · simpa using e ((x ++ [v]).getLastD 0)
  · have h1 := e ((x ++ [v]).getLastD 0)
    rw [hyz, e 0] at h1
    simp at h1
    exact hv h1.symm

/-- C142: the transform is linear, up to the ends. -/
theorem C142_linear {K : ℕ} (S : ℕ) (a b : ℝ) (x x' : ℕ → ℝ) {y y' : List ℝ}
    (hy : hilbertVector K ((List.range S).map x) = .ok y) (hy' : hilbertVector K ((List.range S).map x') = .ok y') :
    hilbertVector K ((List.range S).map fun i => a * x i + b * x' i) =
      .ok (List.zipWith (fun u v => a * u + b * v) y y') := by
  unfold hilbertVector at hy hy' ⊢
  cases hk : calcKernel K with
  | err => rw [hk] at hy; cases hy
  | ub => rw [hk] at hy; cases hy
  | ok h =>
    rw [hk] at hy hy'
    simp only [Out.bind_ok, Out.ok.injEq] at hy hy' ⊢
    subst hy hy'
    have hget : ∀ (f : ℕ → ℝ) i, i < S → ((List.range S).map f).getD i 0 = f i := by
      intro f i hi
      rw [List.getD_eq_getElem?_getD, List.getElem?_map, List.getElem?_range hi]
      rfl
    have hconv : ∀ n, convolve K h ((List.range S).map fun i => a * x i + b * x' i) n =
        a * convolve K h ((List.range S).map x) n + b * convolve K h ((List.range S).map x') n := by
      intro n
      unfold convolve
      simp only [List.length_map, List.length_range]
      rw [mul_sum, mul_sum, ← sum_add_distrib]
      refine sum_congr rfl fun i hi => ?_
      have hi : i < S := mem_range.mp (mem_filter.mp hi).1
      rw [hget _ _ hi, hget _ _ hi, hget _ _ hi]
      ring
    have hlast : ∀ f : ℕ → ℝ, ((List.range S).map f).getLastD 0 = if S = 0 then 0 else f (S - 1) := by
      intro f
      cases S with
      | zero => rfl
      | succ S => simp [List.range_succ]
    unfold outputs
    simp only [List.length_map, List.length_range, List.zipWith_map, List.zipWith_self]
    refine List.map_congr_left fun j _ => ?_
    split
    · exact hconv _
    · rw [hlast, hlast, hlast]
      split
      · simp
      · rfl

/-- Example: the gain at a quarter of the sampling rate with the kernel size 4 is positive. -/
example : 0 < ∑ l ∈ range (2 * 4 - 1), tap 4 (((4 : ℕ) : ℤ) - 1 - l) * Real.sin (Real.pi / 2 * (((4 : ℕ) : ℤ) - 1 - l : ℤ)) := by
  have h1 := tap_one_pos (le_refl 4)
  have h0 : ∀ j : ℤ, Even j → tap 4 j = 0 := fun j hj => by
    unfold tap
    rw [if_neg]
    rintro ⟨ho, -⟩
    exact (Int.not_odd_iff_even.mpr hj) ho
  have h3 : tap 4 3 = 0 := by simpa using tap_edge (K := 4) (by norm_num)
  have hm1 := tap_neg 4 1
  have hm3 := tap_neg 4 3
  simp only [sum_range_succ, sum_range_zero]
  norm_num
  rw [h3, hm1, hm3, h3]
  simp
  linarith

end Verif.FIR
