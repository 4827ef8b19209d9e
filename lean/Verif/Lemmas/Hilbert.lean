import Verif.Lemmas.FilterSetup
/-!
# The Hilbert transform in the frequency domain
-/
namespace Verif.Spectral
open Finset Complex

theorem sum_range_neg_mod (N : ℕ) (f : ℕ → ℂ) : ∑ k ∈ range N, f ((N - k) % N) = ∑ k ∈ range N, f k := by
  rcases N with _ | M
  · simp
  rw [sum_range_succ', sum_range_succ' f]
  congr 1
  · rw [← sum_range_reflect (fun k => f (k + 1))]
    refine sum_congr rfl fun k hk => ?_
    have := mem_range.1 hk
    rw [Nat.mod_eq_of_lt (by omega)]
    congr 1; omega
  · simp

theorem cis_neg_mod {N k : ℕ} (hk : k < N) (t : ℕ) : cis N (((N - k) % N : ℕ) * t) = cis N (-(k * t)) := by
  rcases Nat.eq_zero_or_pos k with rfl | h0
  · simp [cis_zero]
  · rw [Nat.mod_eq_of_lt (by omega)]
    have : (((N - k : ℕ) : ℤ) * t) = N * t + -(k * t) := by
      rw [Nat.cast_sub hk.le]; ring
    rw [this, cis_add, cis_self (by omega), one_mul]

/-- The spectrum of a real trace is Hermitian. -/
theorem fft_real {N : ℕ} {x : ℕ → ℂ} (hx : ∀ t, (x t).im = 0) {k : ℕ} (hk : k < N) :
    fft N x ((N - k) % N) = (starRingEnd ℂ) (fft N x k) := by
  rw [fft, fft, map_sum]
  refine sum_congr rfl fun t _ => ?_
  rw [map_mul, conj_cis, conj_eq_iff_im.2 (hx t), neg_neg]
  congr 1
  have h1 : -((((N - k) % N : ℕ) : ℤ) * t) = -((((N - k) % N : ℕ) : ℤ) * t) := rfl
  have h2 := cis_neg_mod hk t
  have h3 : (starRingEnd ℂ) (cis N ((((N - k) % N : ℕ) : ℤ) * t)) = (starRingEnd ℂ) (cis N (-((k : ℤ) * t))) := by rw [h2]
  rw [conj_cis, conj_cis, neg_neg] at h3
  exact h3

/-- Factor of the Hilbert transform in the frequency domain. -/
def hilbertSign (N k : ℕ) : ℂ :=
  if k = 0 ∨ 2 * k = N then 0 else if 2 * k < N then -I else I

theorem kernel_sub {N k : ℕ} (hN : 2 * (N / 2) = N) (hk : k < N) :
    hilbertKernel N k - hilbertKernel N ((N - k) % N) = 2 * I * hilbertSign N k := by
  rcases Nat.eq_zero_or_pos k with rfl | h0
  · simp [hilbertSign]
  · rw [Nat.mod_eq_of_lt (by omega), hilbertKernel, hilbertKernel, if_pos hN, if_pos hN, hilbertSign]
    rcases lt_trichotomy (2 * k) N with h | h | h
    · rw [if_neg (by omega), if_pos (by omega), if_neg (by omega), if_neg (by omega), if_neg (by omega), if_pos h]
      rw [mul_neg, mul_assoc, I_mul_I]; ring
    · rw [if_pos (by omega), if_pos (by omega), if_pos (by omega)]; ring
    · rw [if_neg (by omega), if_neg (by omega), if_neg (by omega), if_pos (by omega), if_neg (by omega), if_neg (by omega)]
      rw [mul_assoc, I_mul_I]; ring

/-- The imaginary part of the analytic signal. -/
theorem im_analytic {N : ℕ} (hN : 2 * (N / 2) = N) (x : List ℝ) (t : ℕ) :
    (((analytic N x t).im : ℝ) : ℂ) = ifft N (fun k => fft N (padded x) k * hilbertSign N k / N) t := by
  have hx : ∀ t, (padded x t).im = 0 := fun t => by rw [padded, ofReal_im]
  have h1 : (starRingEnd ℂ) (analytic N x t)
      = ifft N (fun k => fft N (padded x) k * hilbertKernel N ((N - k) % N) / N) t := by
    have hK : ∀ k, (starRingEnd ℂ) (hilbertKernel N k) = hilbertKernel N k := by
      intro k; rw [hilbertKernel]; split_ifs <;> first | exact map_one _ | exact map_zero _ | exact map_ofNat _ 2
    rw [analytic, ifft, map_sum, ifft, ← sum_range_neg_mod N fun k =>
      fft N (padded x) k * hilbertKernel N ((N - k) % N) / N * cis N (k * t)]
    refine sum_congr rfl fun k hk => ?_
    have hk' := mem_range.1 hk
    rw [map_mul, map_div₀, map_mul, conj_cis, hK, ← fft_real hx hk', cis_neg_mod hk']
    have : (N - (N - k) % N) % N = k := by
      rcases Nat.eq_zero_or_pos k with rfl | h0
      · simp
      · rw [Nat.mod_eq_of_lt (show N - k < N by omega), show N - (N - k) = k by omega, Nat.mod_eq_of_lt hk']
    rw [this, map_natCast]
  have h2 : (((analytic N x t).im : ℝ) : ℂ) = (analytic N x t - (starRingEnd ℂ) (analytic N x t)) / (2 * I) := by
    rw [sub_conj]; field_simp [I_ne_zero]
    push_cast; ring
  rw [h2, h1, analytic, ifft, ifft, ifft, ← sum_sub_distrib,
    div_eq_mul_inv _ (2 * I), sum_mul]
  refine sum_congr rfl fun k hk => ?_
  have h3 := kernel_sub hN (mem_range.1 hk)
  have h4 : hilbertSign N k = (hilbertKernel N k - hilbertKernel N ((N - k) % N)) / (2 * I) := by
    rw [h3]; field_simp [I_ne_zero]
  rw [h4]; ring

end Verif.Spectral
