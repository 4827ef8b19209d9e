import Verif.Props.FrequencyFilter
import Verif.Lemmas.Hilbert
/-!
# Hilbert transform, envelope, instantaneous phase, phase residual
-/
namespace Verif.Spectral
open Finset Complex

/-! ### Hilbert transform and envelope -/

private theorem kernelSize_pow {m : ℕ} (hm : 2 ≤ m) : kernelSize (2 ^ m) = .ok (2 ^ m) := by
  have h4 : 2 ^ 2 ≤ 2 ^ m := Nat.pow_le_pow_right (by omega) hm
  have h1 : (((2 ^ m : ℕ) : ℤ) - 1).toNat = 2 ^ m - 1 := by omega
  rw [kernelSize, Common.calcNextPowTwo, if_neg (by omega), h1, clog_pow_sub_one hm]
  simp only
  have : ((2 : ℤ) ^ m) = ((2 ^ m : ℕ) : ℤ) := by push_cast; rfl
  rw [this, Int.toNat_natCast]

private theorem analytic_tone {N k : ℕ} (hN : 2 * (N / 2) = N) (hk0 : 0 < k) (hk : 2 * k < N) (A φ : ℝ) (t : ℕ) :
    analytic N (tone N A φ k) t = ⟨A * Real.cos (2 * Real.pi * k * t / N + φ), A * Real.sin (2 * Real.pi * k * t / N + φ)⟩ := by
  have hK1 : hilbertKernel N k = 2 := by
    rw [hilbertKernel, if_pos hN, if_neg (by omega), if_pos (by omega)]
  have hK2 : hilbertKernel N (N - k) = 0 := by
    rw [hilbertKernel, if_pos hN, if_neg (by omega), if_neg (by omega)]
  rw [analytic, fft_congr fun t ht => padded_tone ht A φ k, ifft_tf_lin, ifft_tf_cis (by omega),
    ifft_tf_cis_neg (by omega) hk0, hK1, hK2, zero_mul, mul_zero, add_zero]
  have h2 : cis N (k * t) = exp ((2 * Real.pi * k * t / N : ℝ) * I) := by
    rw [cis]; congr 1; push_cast; ring
  have h3 : (A / 2 * exp (φ * I)) * (2 * cis N (k * t)) = (A : ℂ) * exp ((2 * Real.pi * k * t / N + φ : ℝ) * I) := by
    rw [h2, show ((2 * Real.pi * k * t / N + φ : ℝ) : ℂ) * I = φ * I + (2 * Real.pi * k * t / N : ℝ) * I by
      push_cast; ring, exp_add]
    ring
  rw [h3]
  apply Complex.ext
  · rw [re_ofReal_mul, exp_ofReal_mul_I_re]
  · rw [im_ofReal_mul, exp_ofReal_mul_I_im]

/-- **C112.** The Hilbert transform of a cosine is the sine of the same frequency, amplitude and phase. -/
theorem C112_hilbert_tone {m k : ℕ} (hm : 2 ≤ m) (hk0 : 0 < k) (hk : 2 * k < 2 ^ m) (A φ : ℝ) :
    hilbert (2 ^ m) (tone (2 ^ m) A φ k)
      = .ok ((List.range (2 ^ m)).map fun t : ℕ => A * Real.sin (2 * Real.pi * k * t / (2 ^ m : ℕ) + φ)) := by
  have he : 2 * (2 ^ m / 2) = 2 ^ m := len_even (by
    have : 2 ^ 2 ≤ 2 ^ m := Nat.pow_le_pow_right (by omega) hm
    omega)
  rw [hilbert, if_neg (by positivity), cut]
  congr 1
  have hl : (tone (2 ^ m) A φ k).length = 2 ^ m := by rw [tone]; simp
  rw [hl]
  refine List.map_congr_left fun t ht => ?_
  rw [if_pos (List.mem_range.1 ht), analytic_tone he hk0 hk]

/-- **C112.** The envelope of a tone is its amplitude. -/
theorem C112_envelope_tone {m k : ℕ} (hm : 2 ≤ m) (hk0 : 0 < k) (hk : 2 * k < 2 ^ m) (A φ : ℝ) :
    envelope (tone (2 ^ m) A φ k) = .ok (List.replicate (2 ^ m) |A|) := by
  have hl : (tone (2 ^ m) A φ k).length = 2 ^ m := by rw [tone]; simp
  rw [envelope, hl, kernelSize_pow hm]
  show (hilbert (2 ^ m) (tone (2 ^ m) A φ k) >>= _) = _
  rw [C112_hilbert_tone hm hk0 hk]
  show Out.ok _ = _
  congr 1
  rw [List.eq_replicate_iff]
  refine ⟨by rw [tone]; simp, fun b hb => ?_⟩
  rw [tone, List.zipWith_map, List.zipWith_self] at hb
  obtain ⟨t, -, rfl⟩ := List.mem_map.1 hb
  rw [← Real.sqrt_sq_eq_abs]
  congr 1
  have := Real.sin_sq_add_cos_sq (2 * Real.pi * k * t / (2 ^ m : ℕ) + φ)
  linear_combination A ^ 2 * this

/-- **C112.** The envelope is at least as large as the trace, sample by sample. -/
theorem C112_envelope_ge {x e : List ℝ} (h : envelope x = .ok e) :
    e.length = x.length ∧ ∀ t < x.length, |x.getD t 0| ≤ e.getD t 0 := by
  rw [envelope] at h
  obtain ⟨N, -, h⟩ := bind_ok h
  obtain ⟨v, hv, h⟩ := bind_ok h
  rw [hilbert] at hv
  split_ifs at hv
  have hvl : v.length = x.length := by rw [← Out.ok.inj hv, cut]; simp
  rw [← Out.ok.inj h]
  refine ⟨by simp [hvl], fun t ht => ?_⟩
  have ht' : t < v.length := by omega
  simp only [List.getD, List.getElem?_zipWith, List.getElem?_eq_getElem ht, List.getElem?_eq_getElem ht', Option.getD_some]
  rw [← Real.sqrt_sq_eq_abs]
  apply Real.sqrt_le_sqrt
  nlinarith [sq_nonneg v[t]]

private theorem sum_eq_getD (x : List ℝ) : x.sum = ∑ t ∈ range x.length, x.getD t 0 := by
  induction x with
  | nil => simp
  | cons v x ih => rw [List.sum_cons, List.length_cons, sum_range_succ', ih, add_comm]; simp

/-- Alternating sum of a trace. -/
def alternatingSum (x : List ℝ) : ℝ := ∑ t ∈ range x.length, (-1) ^ t * x.getD t 0

private theorem padded_hilbert {N : ℕ} (hN : 2 * (N / 2) = N) {x : List ℝ} (hx : x.length = N) {t : ℕ} (ht : t < N) :
    padded (cut x.length N im (analytic N x)) t = ifft N (fun k => fft N (padded x) k * hilbertSign N k / N) t := by
  rw [← im_analytic hN, padded, cut, hx]
  simp only [List.getD, List.getElem?_map, List.getElem?_range ht, Option.map_some, Option.getD_some, if_pos ht]

private theorem fft_half {N : ℕ} (hN : 2 * (N / 2) = N) (h0 : 0 < N) (x : List ℝ) (hx : x.length = N) :
    fft N (padded x) (N / 2) = ((alternatingSum x : ℝ) : ℂ) := by
  rw [fft, alternatingSum, hx, ofReal_sum]
  refine sum_congr rfl fun t _ => ?_
  have hNr : (N : ℝ) = 2 * ((N / 2 : ℕ) : ℝ) := by exact_mod_cast hN.symm
  have hpos : ((N / 2 : ℕ) : ℝ) ≠ 0 := by
    have : N / 2 ≠ 0 := by omega
    exact_mod_cast this
  have e : 2 * Real.pi * ((-(((N / 2 : ℕ) : ℤ) * (t : ℤ)) : ℤ) : ℝ) / N = -(t * Real.pi) := by
    rw [hNr]
    generalize N / 2 = M at hpos
    push_cast; field_simp
  have hc : cis N (-(((N / 2 : ℕ) : ℤ) * (t : ℤ))) = (((-1) ^ t : ℝ) : ℂ) := by
    rw [cis_eq_cos_sin, e, Real.cos_neg, Real.sin_neg, Real.sin_nat_mul_pi, neg_zero, Real.cos_nat_mul_pi]; rfl
  rw [hc, padded, ofReal_mul, mul_comm]

/-- **C112.** For traces without mean and without the highest frequency, the Hilbert transform applied twice is the
negated trace, and it keeps the energy. -/
theorem C112_twice {m : ℕ} (hm : 1 ≤ m) {x : List ℝ} (hx : x.length = 2 ^ m) (h0 : x.sum = 0) (h1 : alternatingSum x = 0) :
    ∃ y, hilbert (2 ^ m) x = .ok y ∧ hilbert (2 ^ m) y = .ok (x.map fun v => -v) ∧ energy y = energy x := by
  have h2 : 2 ^ 1 ≤ 2 ^ m := Nat.pow_le_pow_right (by omega) hm
  have he : 2 * (2 ^ m / 2) = 2 ^ m := len_even (by omega)
  set N := 2 ^ m
  have hNc : (N : ℂ) ≠ 0 := by exact_mod_cast (show N ≠ 0 by omega)
  set y := cut x.length N im (analytic N x) with hy
  have hyl : y.length = N := by rw [hy, cut, hx]; simp
  have hX0 : fft N (padded x) 0 = 0 := by
    have h3 : x.sum = ∑ t ∈ range N, x.getD t 0 := by rw [sum_eq_getD, hx]
    have h4 : fft N (padded x) 0 = ((∑ t ∈ range N, x.getD t 0 : ℝ) : ℂ) := by
      rw [fft, ofReal_sum]
      refine sum_congr rfl fun t _ => ?_
      simp [cis_zero, padded]
    rw [h4, ← h3, h0, ofReal_zero]
  have hXn : fft N (padded x) (N / 2) = 0 := by rw [fft_half he (by omega) x hx, h1, ofReal_zero]
  have hY : ∀ k < N, fft N (padded y) k = fft N (padded x) k * hilbertSign N k := by
    intro k hk
    rw [fft_congr fun t ht => padded_hilbert he hx ht, fft_ifft _ hk]; field_simp
  have hsq : ∀ k < N, fft N (padded x) k * hilbertSign N k * hilbertSign N k = -fft N (padded x) k := by
    intro k hk
    rw [hilbertSign]
    split_ifs with h5 h6
    · have : fft N (padded x) k = 0 := by
        rcases h5 with rfl | h5
        · exact hX0
        · rw [show k = N / 2 by omega]; exact hXn
      rw [this]; simp
    · rw [mul_assoc, neg_mul_neg, I_mul_I, mul_neg_one]
    · rw [mul_assoc, I_mul_I, mul_neg_one]
  refine ⟨y, by rw [hilbert, if_neg (by omega)], ?_, ?_⟩
  · rw [hilbert, if_neg (by omega)]
    congr 1
    apply List.ext_getElem
    · rw [cut, hyl]; simp [hx]
    · intro t ht1 ht2
      have ht : t < N := by simpa [hx] using ht2
      have hp := padded_hilbert he hyl ht
      rw [padded] at hp
      have h6 : ifft N (fun k => fft N (padded y) k * hilbertSign N k / N) t = -padded x t := by
        rw [ifft_congr (Y := fun k => (-1 / N) * fft N (padded x) k) fun k hk => by
          rw [hY k hk, hsq k hk]; ring, ifft_mul, ifft_fft _ ht]
        field_simp
      rw [h6, padded] at hp
      have hp' : (cut y.length N im (analytic N y)).getD t 0 = -(x.getD t 0) := by exact_mod_cast hp
      have hxt : t < x.length := by omega
      simp only [List.getD, List.getElem?_eq_getElem ht1, List.getElem?_eq_getElem hxt, Option.getD_some] at hp'
      rw [hp', List.getElem_map]
  · have hen : ∀ z : List ℝ, z.length = N → energy z = ∑ t ∈ range N, ‖padded z t‖ ^ 2 := by
      intro z hz
      rw [energy_eq, hz]
      refine sum_congr rfl fun t _ => ?_
      rw [padded, Complex.norm_real, Real.norm_eq_abs, sq_abs]
    have hN0 : (N : ℝ) ≠ 0 := by exact_mod_cast (show N ≠ 0 by omega)
    rw [hen y hyl, hen x hx]
    apply mul_left_cancel₀ hN0
    rw [← parseval_fft, ← parseval_fft]
    refine sum_congr rfl fun k hk => ?_
    have h7 := congrArg norm (hsq k (mem_range.1 hk))
    rw [hY k (mem_range.1 hk)]
    rw [norm_neg, norm_mul, norm_mul] at h7
    rw [norm_mul]
    rcases eq_or_ne ‖hilbertSign N k‖ 1 with h8 | h8
    · rw [h8, mul_one]
    · have h9 : ‖hilbertSign N k‖ = 0 := by
        rw [hilbertSign] at h8 ⊢
        split_ifs at h8 ⊢ <;> simp_all
      rw [h9] at h7 ⊢
      rw [← h7]; ring

/-- **C112, violated for traces of `2 ^ m + 1` samples:** the transform is too short for the trace. The last sample has no
influence on the envelope elsewhere, and the envelope there is the sample itself. -/
theorem C112_last_sample_violated {m : ℕ} {x : List ℝ} (hx : x.length = 2 ^ m) :
    ∃ e : List ℝ, e.length = 2 ^ m ∧ ∀ a : ℝ, envelope (x ++ [a]) = .ok (e ++ [|a|]) := by
  have hk : kernelSize (2 ^ m + 1) = .ok (2 ^ m) := by
    have hp : 0 < 2 ^ m := by positivity
    have h1 : (((2 ^ m + 1 : ℕ) : ℤ) - 1).toNat = 2 ^ m := by omega
    rw [kernelSize, Common.calcNextPowTwo, if_neg (by omega), h1, Nat.clog_pow _ _ (by omega)]
    simp only
    have : ((2 : ℤ) ^ m) = ((2 ^ m : ℕ) : ℤ) := by push_cast; rfl
    rw [this, Int.toNat_natCast]
  set h := (List.range (2 ^ m)).map fun t => (analytic (2 ^ m) x t).im with hh
  have hhl : h.length = 2 ^ m := by rw [hh]; simp
  refine ⟨List.zipWith (fun a b => Real.sqrt (a * a + b * b)) x h, by simp [hx, hhl], fun a => ?_⟩
  have hl : (x ++ [a]).length = 2 ^ m + 1 := by simp [hx]
  have hpad : ∀ t < 2 ^ m, padded (x ++ [a]) t = padded x t := by
    intro t ht
    rw [padded, padded, List.getD, List.getD, List.getElem?_append_left (by omega)]
  have hhil : hilbert (2 ^ m) (x ++ [a]) = .ok (h ++ [0]) := by
    rw [hilbert, if_neg (by positivity), cut, hl, List.range_succ, List.map_append]
    congr 2
    · refine List.map_congr_left fun t ht => ?_
      rw [if_pos (List.mem_range.1 ht), analytic, analytic, fft_congr hpad]
    · simp
  rw [envelope, hl, hk]
  show (hilbert (2 ^ m) (x ++ [a]) >>= _) = _
  rw [hhil]
  show Out.ok _ = _
  congr 1
  rw [List.zipWith_append (by rw [hx, hhl])]
  simp [← Real.sqrt_sq_eq_abs, sq]

/-- **C112, violated for traces of one sample:** the transform has length 0. -/
theorem C112_single_sample_violated (a : ℝ) : envelope [a] = .ub := by
  rw [envelope]; simp [kernelSize, Common.calcNextPowTwo]; rfl

/-! ### Instantaneous phase -/

private theorem atan2_neg (d : ℝ) :
    atan2 (-d) d = if 0 < d then -(Real.pi / 4) else if d = 0 then 0 else 3 * Real.pi / 4 := by
  have hpi := Real.pi_pos
  have hs : Real.sqrt 2 * Real.sqrt 2 = 2 := Real.mul_self_sqrt (by norm_num)
  have hsp : 0 < Real.sqrt 2 := by positivity
  rw [atan2]
  rcases lt_trichotomy d 0 with h | h | h
  · rw [if_neg (by linarith), if_neg h.ne]
    have e : (⟨d, -d⟩ : ℂ) = ((-d * Real.sqrt 2 : ℝ) : ℂ)
        * (Complex.cos ((3 * Real.pi / 4 : ℝ) : ℂ) + Complex.sin ((3 * Real.pi / 4 : ℝ) : ℂ) * I) := by
      have h1 : Real.cos (3 * Real.pi / 4) = -(Real.sqrt 2 / 2) := by
        rw [show 3 * Real.pi / 4 = Real.pi - Real.pi / 4 by ring, Real.cos_pi_sub, Real.cos_pi_div_four]
      have h2 : Real.sin (3 * Real.pi / 4) = Real.sqrt 2 / 2 := by
        rw [show 3 * Real.pi / 4 = Real.pi - Real.pi / 4 by ring, Real.sin_pi_sub, Real.sin_pi_div_four]
      rw [← ofReal_cos, ← ofReal_sin, h1, h2]
      apply Complex.ext
      · rw [re_ofReal_mul]; simp; linear_combination (-d / 2) * hs
      · rw [im_ofReal_mul]; simp; linear_combination (-d / 2) * hs
    rw [e, Complex.arg_mul_cos_add_sin_mul_I (by nlinarith) ⟨by linarith, by linarith⟩]
  · subst h; simp
    exact Complex.arg_zero
  · rw [if_pos h]
    have e : (⟨d, -d⟩ : ℂ) = ((d * Real.sqrt 2 : ℝ) : ℂ)
        * (Complex.cos ((-(Real.pi / 4) : ℝ) : ℂ) + Complex.sin ((-(Real.pi / 4) : ℝ) : ℂ) * I) := by
      rw [← ofReal_cos, ← ofReal_sin, Real.cos_neg, Real.sin_neg, Real.cos_pi_div_four, Real.sin_pi_div_four]
      apply Complex.ext
      · rw [re_ofReal_mul]; simp; linear_combination (-d / 2) * hs
      · rw [im_ofReal_mul]; simp; linear_combination (-d / 2) * hs
    rw [e, Complex.arg_mul_cos_add_sin_mul_I (by positivity) ⟨by linarith, by linarith⟩]

/-- **C113, violated for every trace:** the "phase in [-π, π]" only says which sign the sample has. -/
theorem C113_phase_is_sign_violated (x : List ℝ) :
    instantaneousPhase 2 x
      = .ok (x.map fun d => if 0 < d then -(Real.pi / 4) else if d = 0 then 0 else 3 * Real.pi / 4) := by
  rw [instantaneousPhase, if_neg (by decide), if_pos rfl]
  congr 1
  exact List.map_congr_left fun d _ => atan2_neg d

/-- **C113, violated for every trace:** the "phase in [-π/2, π/2]" is always the same. -/
theorem C113_phase_constant_violated {x y : List ℝ} (h : instantaneousPhase 1 x = .ok y) :
    y = List.replicate x.length (-(Real.pi / 4)) := by
  rw [instantaneousPhase, if_pos rfl] at h
  split_ifs at h with h0
  rw [← Out.ok.inj h, List.eq_replicate_iff]
  refine ⟨by simp, fun b hb => ?_⟩
  obtain ⟨d, hd, rfl⟩ := List.mem_map.1 hb
  have : d ≠ 0 := fun hc => h0 (hc ▸ hd)
  rw [neg_div, div_self this, Real.arctan_neg, Real.arctan_one]

/-- **C113, violated:** the phase of a tone should advance by the same angle from sample to sample (here π/4);
the calculated phase stays the same over the first samples. -/
theorem C113_tone_violated : ∃ y, instantaneousPhase 2 (tone 8 1 0 1) = .ok y ∧
    y.getD 0 0 = -(Real.pi / 4) ∧ y.getD 1 0 = -(Real.pi / 4) := by
  refine ⟨_, C113_phase_is_sign_violated _, ?_, ?_⟩
  · simp [tone, List.getD, List.range_succ]
  · have : 0 < Real.cos (2 * Real.pi / 8) := by
      apply Real.cos_pos_of_mem_Ioo
      constructor <;> linarith [Real.pi_pos]
    simp [tone, List.getD, List.range_succ, this]

/-! ### Phase residual -/

private noncomputable def q (r : List ℝ) (k : ℤ) : ℝ := ((shifted r k).map fun v => v * v).sum

private theorem q_eq (r : List ℝ) (k : ℤ) :
    q r k = (r.length * (4 * Real.pi ^ 2)) * (k : ℝ) ^ 2 + (4 * Real.pi * r.sum) * k + (r.map fun v => v * v).sum := by
  rw [q, shifted]
  induction r with
  | nil => simp
  | cons v r ih =>
    simp only [List.map_cons, List.sum_cons, List.length_cons] at ih ⊢
    rw [ih]; push_cast; ring

private theorem q_nonneg (r : List ℝ) (k : ℤ) : 0 ≤ q r k := by
  rw [q]
  refine List.sum_nonneg fun v hv => ?_
  obtain ⟨w, -, rfl⟩ := List.mem_map.1 hv
  exact mul_self_nonneg w

private theorem norm_le_iff (r : List ℝ) (j k : ℤ) : l2Norm (shifted r j) ≤ l2Norm (shifted r k) ↔ q r j ≤ q r k := by
  rw [l2Norm, l2Norm]
  exact Real.sqrt_le_sqrt_iff (q_nonneg r k)

private theorem shifted_zero (r : List ℝ) : shifted r 0 = r := by
  rw [shifted]; simp

private theorem q_min {r : List ℝ} {p : ℤ} (hr : r ≠ []) (h1 : q r p ≤ q r (p + 1)) (h2 : q r p ≤ q r (p - 1)) (j : ℤ) :
    q r p ≤ q r j := by
  have ha : 0 < (r.length : ℝ) * (4 * Real.pi ^ 2) := by
    have : 0 < r.length := List.length_pos_iff.2 hr
    have := Real.pi_pos
    positivity
  rw [q_eq, q_eq] at *
  set a := (r.length : ℝ) * (4 * Real.pi ^ 2)
  set b := 4 * Real.pi * r.sum
  push_cast at h1 h2
  have h3 : 0 ≤ a * (2 * p + 1) + b := by linarith
  have h4 : a * (2 * p - 1) + b ≤ 0 := by linarith
  rcases lt_trichotomy j p with h | h | h
  · have h5 : (j : ℝ) ≤ p - 1 := by exact_mod_cast (show j ≤ p - 1 by omega)
    have h6 : a * (j + p) + b ≤ 0 := by nlinarith
    nlinarith
  · rw [h]
  · have h5 : (p : ℝ) + 1 ≤ j := by exact_mod_cast (show p + 1 ≤ j by omega)
    have h6 : 0 ≤ a * (j + p) + b := by nlinarith
    nlinarith

private theorem loop_some {r : List ℝ} {d : ℤ} : ∀ (fuel : ℕ) (k : ℤ) (res : List ℝ), q r (k - d) ≤ q r (k - 2 * d) →
    residualLoop r d fuel k (shifted r (k - d)) = some res →
    ∃ p, res = shifted r p ∧ q r p ≤ q r (p + d) ∧ q r p ≤ q r (p - d) := by
  intro fuel
  induction fuel with
  | zero => intro k res _ h; rw [residualLoop] at h; cases h
  | succ fuel ih =>
    intro k res hk h
    rw [residualLoop] at h
    split_ifs at h with hc
    · rw [norm_le_iff] at hc
      have := ih (k + d) res (by rw [show k + d - d = k by ring, show k + d - 2 * d = k - d by ring]; exact hc)
      rw [show k + d - d = k by ring] at this
      exact this h
    · rw [norm_le_iff] at hc
      refine ⟨k - d, (Option.some.inj h).symm, ?_, ?_⟩
      · rw [show k - d + d = k by ring]; exact (not_le.1 hc).le
      · rw [show k - d - d = k - 2 * d by ring]; exact hk

private theorem loop_none {r : List ℝ} {d : ℤ} : ∀ (fuel : ℕ) (k : ℤ),
    residualLoop r d fuel k (shifted r (k - d)) = none → ∀ i < fuel, q r (k + i * d) ≤ q r (k + i * d - d) := by
  intro fuel
  induction fuel with
  | zero => intro k _ i hi; omega
  | succ fuel ih =>
    intro k h i hi
    rw [residualLoop] at h
    split_ifs at h with hc
    rw [norm_le_iff] at hc
    rcases i with _ | i
    · simpa using hc
    · have := ih (k + d) (by rw [show k + d - d = k by ring]; exact h) i (by omega)
      rw [show k + d + (i : ℤ) * d = k + ((i + 1 : ℕ) : ℤ) * d by push_cast; ring] at this
      exact this

private theorem loop_terminates {r : List ℝ} (hr : r ≠ []) {d : ℤ} (hd : d * d = 1) (k : ℤ) :
    ∃ n, ∀ fuel, n ≤ fuel → residualLoop r d fuel k (shifted r (k - d)) ≠ none := by
  have ha : 0 < (r.length : ℝ) * (4 * Real.pi ^ 2) := by
    have : 0 < r.length := List.length_pos_iff.2 hr
    have := Real.pi_pos
    positivity
  set a := (r.length : ℝ) * (4 * Real.pi ^ 2) with haa
  set b := 4 * Real.pi * r.sum with hbb
  obtain ⟨n, hn⟩ := exists_nat_gt ((-(a * (2 * k * d - 1) + b * d)) / (2 * a))
  refine ⟨n + 1, fun fuel hf hc => ?_⟩
  have h1 := loop_none fuel k hc n (by omega)
  rw [q_eq, q_eq, ← haa, ← hbb] at h1
  push_cast at h1
  have hdr : (d : ℝ) * d = 1 := by exact_mod_cast hd
  rw [div_lt_iff₀ (by positivity)] at hn
  have h2 : a * (2 * k * d - 1) + b * d + n * (2 * a) ≤ 0 := by
    have e : (a * (k + n * d : ℝ) ^ 2 + b * (k + n * d)) - (a * (k + n * d - d : ℝ) ^ 2 + b * (k + n * d - d))
        = a * (2 * k * d - 1) + b * d + n * (2 * a) := by linear_combination (a * (2 * n - 1)) * hdr
    linarith
  linarith

/-- **C114.** The residual is the phase difference shifted by a whole number of cycles, and no other number of cycles gives
a smaller residual; the search ends for every trace with samples. -/
theorem C114_minimal {r : List ℝ} (hr : r ≠ []) :
    ∃ n, ∀ fuel, n ≤ fuel → ∃ k : ℤ, phaseResidual fuel r = some (r.map fun v => v + k * (2 * Real.pi)) ∧
      ∀ j : ℤ, l2Norm (r.map fun v => v + k * (2 * Real.pi)) ≤ l2Norm (r.map fun v => v + j * (2 * Real.pi)) := by
  have hsh : ∀ k : ℤ, (r.map fun v => v + k * (2 * Real.pi)) = shifted r k := by
    intro k; rw [shifted]; exact List.map_congr_left fun v _ => by ring
  simp only [hsh, norm_le_iff]
  have key : ∀ d : ℤ, d * d = 1 → q r d ≤ q r 0 → ∃ n, ∀ fuel, n ≤ fuel →
      ∃ k, residualLoop r d fuel d r = some (shifted r k) ∧ ∀ j, q r k ≤ q r j := by
    intro d hd h0
    obtain ⟨n, hn⟩ := loop_terminates hr hd (d + d)
    refine ⟨n + 1, fun fuel hf => ?_⟩
    obtain ⟨f, rfl⟩ : ∃ f, fuel = f + 1 := ⟨fuel - 1, by omega⟩
    have h1 : residualLoop r d (f + 1) d r = residualLoop r d f (d + d) (shifted r (d + d - d)) := by
      rw [residualLoop, if_pos, show d + d - d = d by ring]
      have := (norm_le_iff r d 0).2 h0
      rwa [shifted_zero] at this
    rw [h1]
    have h2 := hn f (by omega)
    obtain ⟨res, h3⟩ := Option.ne_none_iff_exists'.1 h2
    obtain ⟨p, h4, h5, h6⟩ := loop_some f (d + d) res (by
      rw [show d + d - d = d by ring, show d + d - 2 * d = 0 by ring]; exact h0) h3
    refine ⟨p, by rw [h3, h4], fun j => ?_⟩
    rcases mul_self_eq_one_iff.1 hd with rfl | rfl
    · exact q_min hr h5 h6 j
    · exact q_min hr (by simpa using h6) (by simpa [sub_eq_add_neg] using h5) j
  have e1 : l2Norm (shifted r 1) ≤ l2Norm r ↔ q r 1 ≤ q r 0 := by
    have := norm_le_iff r 1 0; rwa [shifted_zero] at this
  have e2 : l2Norm (shifted r (-1)) ≤ l2Norm r ↔ q r (-1) ≤ q r 0 := by
    have := norm_le_iff r (-1) 0; rwa [shifted_zero] at this
  simp only [phaseResidual, e1, e2]
  by_cases h1 : q r 1 ≤ q r 0
  · simp only [if_pos h1]; exact key 1 (by ring) h1
  · by_cases h2 : q r (-1) ≤ q r 0
    · simp only [if_neg h1, if_pos h2]; exact key (-1) (by ring) h2
    · simp only [if_neg h1, if_neg h2]
      refine ⟨0, fun fuel _ => ⟨0, by rw [shifted_zero], fun j => ?_⟩⟩
      exact q_min hr (by simpa using (not_le.1 h1).le) (by simpa using (not_le.1 h2).le) j

/-- **C114, violated for traces without samples:** the search never ends. -/
theorem C114_empty_violated (fuel : ℕ) : phaseResidual fuel [] = none := by
  have hs : ∀ k, shifted [] k = [] := fun k => by rw [shifted]; rfl
  have hl : ∀ (fuel : ℕ) (k : ℤ), residualLoop [] 1 fuel k [] = none := by
    intro fuel
    induction fuel with
    | zero => intro k; rfl
    | succ n ih => intro k; rw [residualLoop, hs, if_pos le_rfl]; exact ih _
  rw [phaseResidual, hs, if_pos le_rfl, hl]

/-! ### Concrete cases -/

/-- C112: three periods in 16 samples. -/
example : envelope (tone (2 ^ 4) (-2) 1 3) = .ok (List.replicate (2 ^ 4) 2) := by
  rw [C112_envelope_tone (by omega) (by omega) (by norm_num)]; norm_num

/-- C112: the conditions of the inversion hold for `1, 0, -1, 0`. -/
example : ([1, 0, -1, 0] : List ℝ).sum = 0 ∧ alternatingSum [1, 0, -1, 0] = 0 := by
  constructor
  · norm_num
  · simp [alternatingSum, sum_range_succ]

/-- C114: a phase difference of about two cycles is reduced by two cycles. -/
example : ∃ n, ∀ fuel, n ≤ fuel → ∃ k : ℤ, phaseResidual fuel [4 * Real.pi, 4 * Real.pi + 1]
    = some ([4 * Real.pi, 4 * Real.pi + 1].map fun v => v + k * (2 * Real.pi)) := by
  obtain ⟨n, hn⟩ := C114_minimal (r := [4 * Real.pi, 4 * Real.pi + 1]) (by simp)
  exact ⟨n, fun fuel hf => (hn fuel hf).imp fun k hk => hk.1⟩

end Verif.Spectral
