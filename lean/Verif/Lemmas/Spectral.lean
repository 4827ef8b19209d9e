import Verif.Model.Spectral
import Mathlib.RingTheory.RootsOfUnity.Complex
import Mathlib.Algebra.Ring.GeomSum
import Mathlib.Algebra.BigOperators.Ring.Finset
import Mathlib.Tactic.Ring
import Mathlib.Tactic.FieldSimp
import Mathlib.Tactic.Linarith
/-!
# The discrete Fourier transform: inversion, Parseval
-/
namespace Verif.Spectral
open Finset Complex

theorem cis_zero (N : ℕ) : cis N 0 = 1 := by simp [cis]

theorem cis_add (N : ℕ) (a b : ℤ) : cis N (a + b) = cis N a * cis N b := by
  rw [cis, cis, cis, ← Complex.exp_add]; congr 1; push_cast; ring

theorem cis_nat_mul (N : ℕ) (k : ℕ) (a : ℤ) : cis N (k * a) = cis N a ^ k := by
  rw [cis, cis, ← Complex.exp_nat_mul]; congr 1; push_cast; ring

theorem cis_self {N : ℕ} (hN : N ≠ 0) (m : ℤ) : cis N (N * m) = 1 := by
  rw [cis]
  have : (2 * Real.pi * I * (((N * m : ℤ) : ℂ) / N)) = m * (2 * Real.pi * I) := by
    have : (N : ℂ) ≠ 0 := by exact_mod_cast hN
    push_cast; field_simp
  rw [this, Complex.exp_int_mul_two_pi_mul_I]

theorem cis_eq_one_iff {N : ℕ} (hN : N ≠ 0) (m : ℤ) : cis N m = 1 ↔ (N : ℤ) ∣ m := by
  constructor
  · intro h
    rw [cis, Complex.exp_eq_one_iff] at h
    obtain ⟨n, hn⟩ := h
    refine ⟨n, ?_⟩
    have hNc : (N : ℂ) ≠ 0 := by exact_mod_cast hN
    have hp : (2 * Real.pi * I : ℂ) ≠ 0 := Complex.two_pi_I_ne_zero
    have h2 : ((m : ℂ) / N) = n := by
      apply mul_left_cancel₀ hp; rw [hn]; ring
    have h3 : (m : ℂ) = N * n := by rw [← h2]; field_simp
    exact_mod_cast h3
  · rintro ⟨n, rfl⟩; exact cis_self hN n

theorem cis_eq_cos_sin (N : ℕ) (m : ℤ) :
    cis N m = ⟨Real.cos (2 * Real.pi * m / N), Real.sin (2 * Real.pi * m / N)⟩ := by
  have : cis N m = Complex.exp (((2 * Real.pi * m / N : ℝ) : ℂ) * I) := by
    rw [cis]; congr 1; push_cast; ring
  rw [this]
  apply Complex.ext
  · rw [Complex.exp_ofReal_mul_I_re]
  · rw [Complex.exp_ofReal_mul_I_im]

theorem conj_cis (N : ℕ) (m : ℤ) : (starRingEnd ℂ) (cis N m) = cis N (-m) := by
  rw [cis_eq_cos_sin, cis_eq_cos_sin]
  apply Complex.ext
  · simp [neg_div, mul_neg]
  · simp [neg_div, mul_neg]

theorem norm_cis (N : ℕ) (m : ℤ) : ‖cis N m‖ = 1 := by
  have : cis N m = Complex.exp (((2 * Real.pi * m / N : ℝ) : ℂ) * I) := by
    rw [cis]; congr 1; push_cast; ring
  rw [this, Complex.norm_exp_ofReal_mul_I]

/-- Orthogonality of the characters. -/
theorem sum_cis {N : ℕ} (hN : N ≠ 0) (m : ℤ) :
    ∑ k ∈ range N, cis N (k * m) = if (N : ℤ) ∣ m then (N : ℂ) else 0 := by
  have h0 : ∑ k ∈ range N, cis N (k * m) = ∑ k ∈ range N, cis N m ^ k :=
    sum_congr rfl fun k _ => cis_nat_mul N k m
  rw [h0]
  split_ifs with h
  · rw [(cis_eq_one_iff hN m).2 h]; simp
  · have h1 : cis N m ≠ 1 := fun e => h ((cis_eq_one_iff hN m).1 e)
    rw [geom_sum_eq h1, ← cis_nat_mul, cis_self hN]; simp

theorem dvd_sub_iff {N a b : ℕ} (ha : a < N) (hb : b < N) : (N : ℤ) ∣ (a : ℤ) - b ↔ a = b := by
  constructor
  · intro h
    have := Int.eq_zero_of_abs_lt_dvd h (by rw [abs_lt]; constructor <;> omega)
    omega
  · rintro rfl; simp

theorem sum_cis_sub {N a b : ℕ} (ha : a < N) (hb : b < N) :
    ∑ k ∈ range N, cis N (k * ((a : ℤ) - b)) = if a = b then (N : ℂ) else 0 := by
  rw [sum_cis (by omega)]
  simp only [dvd_sub_iff ha hb]

/-- The inverse transform of the transform is `N` times the vector. -/
theorem ifft_fft {N : ℕ} (x : ℕ → ℂ) {t : ℕ} (ht : t < N) : ifft N (fft N x) t = N * x t := by
  have : ifft N (fft N x) t
      = ∑ u ∈ range N, x u * ∑ k ∈ range N, cis N (k * ((t : ℤ) - u)) := by
    rw [ifft]
    simp only [fft, sum_mul, mul_sum]
    rw [sum_comm]
    refine sum_congr rfl fun u _ => sum_congr rfl fun k _ => ?_
    rw [mul_assoc, ← cis_add]; congr 2; ring
  rw [this, sum_eq_single t]
  · rw [sum_cis_sub ht ht, if_pos rfl]; ring
  · intro u hu hne
    rw [sum_cis_sub ht (mem_range.1 hu), if_neg (Ne.symm hne), mul_zero]
  · intro h; exact absurd (mem_range.2 ht) h

theorem fft_ifft {N : ℕ} (X : ℕ → ℂ) {k : ℕ} (hk : k < N) : fft N (ifft N X) k = N * X k := by
  have : fft N (ifft N X) k
      = ∑ j ∈ range N, X j * ∑ t ∈ range N, cis N (t * ((j : ℤ) - k)) := by
    rw [fft]
    simp only [ifft, sum_mul, mul_sum]
    rw [sum_comm]
    refine sum_congr rfl fun u _ => sum_congr rfl fun k _ => ?_
    rw [mul_assoc, ← cis_add]; congr 2; ring
  rw [this, sum_eq_single k]
  · rw [sum_cis_sub hk hk, if_pos rfl]; ring
  · intro u hu hne
    rw [sum_cis_sub (mem_range.1 hu) hk, if_neg hne, mul_zero]
  · intro h; exact absurd (mem_range.2 hk) h

theorem normSq_eq (z : ℂ) : ((‖z‖ ^ 2 : ℝ) : ℂ) = z * (starRingEnd ℂ) z := by
  rw [Complex.mul_conj, Complex.normSq_eq_norm_sq]

/-- Parseval for the inverse transform. -/
theorem parseval_ifft (N : ℕ) (X : ℕ → ℂ) :
    ∑ t ∈ range N, ‖ifft N X t‖ ^ 2 = N * ∑ k ∈ range N, ‖X k‖ ^ 2 := by
  have h : ((∑ t ∈ range N, ‖ifft N X t‖ ^ 2 : ℝ) : ℂ)
      = ∑ k ∈ range N, (starRingEnd ℂ) (X k) * fft N (ifft N X) k := by
    rw [ofReal_sum]
    have : ∀ t ∈ range N, ((‖ifft N X t‖ ^ 2 : ℝ) : ℂ)
        = ∑ k ∈ range N, ifft N X t * ((starRingEnd ℂ) (X k) * cis N (-(k * t))) := by
      intro t _
      rw [normSq_eq]
      conv_lhs => rw [ifft]
      conv_lhs => arg 2; rw [map_sum]
      rw [mul_sum]
      refine sum_congr rfl fun k _ => ?_
      rw [map_mul, conj_cis]; rfl
    rw [sum_congr rfl this, sum_comm]
    refine sum_congr rfl fun k _ => ?_
    rw [fft, mul_sum]
    refine sum_congr rfl fun t _ => ?_
    ring
  have h2 : ((∑ t ∈ range N, ‖ifft N X t‖ ^ 2 : ℝ) : ℂ)
      = ((N * ∑ k ∈ range N, ‖X k‖ ^ 2 : ℝ) : ℂ) := by
    rw [h]
    push_cast
    rw [mul_sum]
    refine sum_congr rfl fun k hk => ?_
    rw [fft_ifft X (mem_range.1 hk), ← ofReal_pow, normSq_eq]
    ring
  exact_mod_cast h2

theorem ifft_congr {N : ℕ} {X Y : ℕ → ℂ} (h : ∀ k < N, X k = Y k) : ifft N X = ifft N Y := by
  funext t
  rw [ifft, ifft]
  exact sum_congr rfl fun k hk => by rw [h k (mem_range.1 hk)]

theorem fft_congr {N : ℕ} {X Y : ℕ → ℂ} (h : ∀ k < N, X k = Y k) : fft N X = fft N Y := by
  funext t
  rw [fft, fft]
  exact sum_congr rfl fun k hk => by rw [h k (mem_range.1 hk)]

theorem ifft_add (N : ℕ) (X Y : ℕ → ℂ) (t : ℕ) : ifft N (fun k => X k + Y k) t = ifft N X t + ifft N Y t := by
  simp only [ifft, ← sum_add_distrib]
  exact sum_congr rfl fun k _ => by ring

theorem ifft_mul (N : ℕ) (a : ℂ) (X : ℕ → ℂ) (t : ℕ) : ifft N (fun k => a * X k) t = a * ifft N X t := by
  simp only [ifft, mul_sum]
  exact sum_congr rfl fun k _ => by ring

theorem fft_add (N : ℕ) (X Y : ℕ → ℂ) (t : ℕ) : fft N (fun k => X k + Y k) t = fft N X t + fft N Y t := by
  simp only [fft, ← sum_add_distrib]
  exact sum_congr rfl fun k _ => by ring

theorem fft_mul (N : ℕ) (a : ℂ) (X : ℕ → ℂ) (t : ℕ) : fft N (fun k => a * X k) t = a * fft N X t := by
  simp only [fft, mul_sum]
  exact sum_congr rfl fun k _ => by ring

/-- Parseval for the transform. -/
theorem parseval_fft (N : ℕ) (x : ℕ → ℂ) :
    ∑ k ∈ range N, ‖fft N x k‖ ^ 2 = N * ∑ t ∈ range N, ‖x t‖ ^ 2 := by
  rcases Nat.eq_zero_or_pos N with rfl | hN
  · simp
  have h := parseval_ifft N (fft N x)
  have h2 : ∑ t ∈ range N, ‖ifft N (fft N x) t‖ ^ 2 = N ^ 2 * ∑ t ∈ range N, ‖x t‖ ^ 2 := by
    rw [mul_sum]
    refine sum_congr rfl fun t ht => ?_
    rw [ifft_fft x (mem_range.1 ht), norm_mul, mul_pow]; simp
  have hN' : (N : ℝ) ≠ 0 := by positivity
  rw [h2] at h
  apply mul_left_cancel₀ hN'
  rw [← h]; ring

/-- Transform of one complex tone. -/
theorem fft_cis {N k j : ℕ} (hk : k < N) (hj : j < N) :
    fft N (fun t => cis N (j * t)) k = if j = k then (N : ℂ) else 0 := by
  rw [← sum_cis_sub hj hk, fft]
  refine sum_congr rfl fun t _ => ?_
  rw [← cis_add]; congr 1; ring

/-- Transform of the tone with the opposite frequency. -/
theorem fft_cis_neg {N k j : ℕ} (hk : k < N) (hj : j < N) (hj0 : 0 < j) :
    fft N (fun t => cis N (-(j * t))) k = if N - j = k then (N : ℂ) else 0 := by
  rw [← fft_cis hk (show N - j < N by omega)]
  congr 1
  funext t
  have : (((N - j : ℕ) : ℤ) * t) = N * t + -(j * t) := by
    rw [Nat.cast_sub hj.le]; ring
  rw [this, cis_add, cis_self (by omega), one_mul]

/-- Applying a transfer function to a complex tone multiplies it with the value at its frequency. -/
theorem ifft_tf_cis {N j : ℕ} (hj : j < N) (H : ℕ → ℂ) (t : ℕ) :
    ifft N (fun k => fft N (fun t => cis N (j * t)) k * H k / N) t = H j * cis N (j * t) := by
  have hN : (N : ℂ) ≠ 0 := by exact_mod_cast (show N ≠ 0 by omega)
  rw [ifft, sum_eq_single j]
  · rw [fft_cis hj hj, if_pos rfl]; field_simp
  · intro k hk hne
    rw [fft_cis (mem_range.1 hk) hj, if_neg (Ne.symm hne)]; simp
  · intro h; exact absurd (mem_range.2 hj) h

theorem ifft_tf_cis_neg {N j : ℕ} (hj : j < N) (hj0 : 0 < j) (H : ℕ → ℂ) (t : ℕ) :
    ifft N (fun k => fft N (fun t => cis N (-(j * t))) k * H k / N) t = H (N - j) * cis N (-(j * t)) := by
  have e : (fun t : ℕ => cis N (-((j : ℤ) * t))) = fun t : ℕ => cis N (((N - j : ℕ) : ℤ) * t) := by
    funext t
    have : (((N - j : ℕ) : ℤ) * t) = N * t + -(j * t) := by
      rw [Nat.cast_sub hj.le]; ring
    rw [this, cis_add, cis_self (by omega), one_mul]
  rw [e, ifft_tf_cis (show N - j < N by omega)]
  exact congrArg _ (congrFun e t).symm

/-- A filter is linear in the signal. -/
theorem ifft_tf_lin (N : ℕ) (a b : ℂ) (x y H : ℕ → ℂ) (t : ℕ) :
    ifft N (fun k => fft N (fun t => a * x t + b * y t) k * H k / N) t
      = a * ifft N (fun k => fft N x k * H k / N) t + b * ifft N (fun k => fft N y k * H k / N) t := by
  rw [← ifft_mul, ← ifft_mul, ← ifft_add]
  congr 1
  funext k
  rw [fft_add, fft_mul, fft_mul]; ring

end Verif.Spectral
