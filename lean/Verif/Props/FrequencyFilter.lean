import Verif.Lemmas.FilterSetup
/-!
# Butterworth filters: gain, tones, energy
-/
namespace Verif.Spectral
open Finset Complex

/-- The frequency that entry `k` of a spectrum of `N` samples stands for: multiples of `1 / (N dt)`, from the
second half on the negative ones. -/
noncomputable def binFrequency (N : ℕ) (dt : ℝ) (k : ℕ) : ℝ :=
  (if 2 * k ≤ N then (k : ℝ) else (k : ℝ) - N) / (N * dt)

/-- Power gain of a Butterworth low-pass of order `n` at frequency `f`. -/
noncomputable def lowPassGain (n : ℕ) (fc f : ℝ) : ℝ := 1 / (1 + (f / fc) ^ (2 * n))

/-- Power gain of a Butterworth high-pass of order `n` at frequency `f`. -/
noncomputable def highPassGain (n : ℕ) (fc f : ℝ) : ℝ := (f / fc) ^ (2 * n) / (1 + (f / fc) ^ (2 * n))

/-- Power gain that the documentation promises for a filter type. -/
noncomputable def gain (filterType : String) (n : ℕ) (fc1 fc2 f : ℝ) : ℝ :=
  if filterType = "lp" then lowPassGain n fc1 f
  else if filterType = "hp" then highPassGain n fc1 f
  else lowPassGain n fc2 f * highPassGain n fc1 f

private theorem pos_one_add (x : ℝ) (n : ℕ) : 0 < 1 + x ^ (2 * n) := by
  have : 0 ≤ x ^ (2 * n) := by rw [pow_mul]; positivity
  linarith

/-- **C108.** The calculated transfer function has the gain of a Butterworth filter at every frequency. -/
theorem C108_gain {dt : ℝ} {nt : Int} {F F' : Filter} {ty : String} {n : ℕ} {fc1 fc2 : ℝ} (hi : init dt nt = .ok F)
    (h : F.calc "butterworth" ty n fc1 fc2 = .ok F') :
    ∀ k < F'.len, ‖F'.tf k‖ ^ 2 = gain ty n fc1 fc2 (binFrequency F'.len dt k) := by
  obtain ⟨hdt, hnt, hF⟩ := init_ok hi
  obtain ⟨hfc, hlen, hn, poly, hp, H, G, T, hF', hH, hG, hT⟩ := butterworth_ok h
  have he : 2 * (F.len / 2) = F.len := by
    rw [hF] at hlen ⊢; exact len_even hlen
  intro k hk
  have hk' : k < F.len := by rw [hF'] at hk; exact hk
  have hb : binFrequency F'.len dt k = F.freq k := by
    rw [freq_eq F he, hF', hF]; rfl
  have hf0 : k ≠ 0 → F.freq k ≠ 0 := by
    intro h0
    rw [freq_eq F he, hF]
    have hN : ((2 ^ Nat.clog 2 (nt - 1).toNat : ℕ) : ℝ) ≠ 0 := by positivity
    refine div_ne_zero ?_ (mul_ne_zero hN hdt)
    rw [hF] at hk'
    simp only at hk' ⊢
    split_ifs with hc
    · exact_mod_cast h0
    · rw [sub_ne_zero]
      exact_mod_cast hk'.ne
  have hf00 : k = 0 → F.freq k = 0 := by
    intro h0; rw [freq_eq F he, h0]; simp
  have hLow : ‖H k‖ ^ 2 = lowPassGain n (if ty = "bp" then fc2 else fc1) (F.freq k) := by
    rw [hH]
    by_cases h0 : k = 0
    · simp only [if_pos h0]
      rw [lowPassGain, hf00 h0]
      simp [show 2 * n ≠ 0 by omega]
    · simp only [if_neg h0]
      rw [norm_butterValue (by omega) hp]; rfl
  have hHigh : ‖G k‖ ^ 2 = highPassGain n fc1 (F.freq k) := by
    rw [hG]
    by_cases h0 : k = 0
    · simp only [if_pos h0]
      rw [highPassGain, hf00 h0]
      simp [show 2 * n ≠ 0 by omega]
    · simp only [if_neg h0]
      rw [norm_butterValue (by omega) hp, highPassGain]
      have h1 := hf0 h0
      have h2 : (-fc1 / F.freq k) ^ (2 * n) = 1 / (F.freq k / fc1) ^ (2 * n) := by
        rw [pow_mul, pow_mul, ← one_div_pow]; congr 1; field_simp
      have h3 : 0 < (F.freq k / fc1) ^ (2 * n) := by
        rw [pow_mul]; positivity
      rw [h2]
      field_simp
      ring
  rw [hb, hF', gain]
  rcases hT with ⟨rfl, rfl⟩ | ⟨rfl, rfl⟩ | ⟨rfl, -, rfl⟩
  · simpa using hLow
  · simpa using hHigh
  · simp only [norm_mul, mul_pow, hLow, hHigh]; simp

/-- **C108.** Such filters can be calculated for every trace of at least three samples, every corner frequency above zero
and every order above one. -/
theorem C108_defined {dt fc1 fc2 : ℝ} {nt : Int} {ty : String} {n : ℕ} (hdt : dt ≠ 0) (hnt : 3 ≤ nt) (hfc : 0 < fc1)
    (hfc2 : ty = "bp" → fc2 ≠ 0) (hn : 2 ≤ n) (hty : ty = "lp" ∨ ty = "hp" ∨ ty = "bp") :
    ∃ F F', init dt nt = .ok F ∧ F.calc "butterworth" ty n fc1 fc2 = .ok F' ∧ nt ≤ F'.len + 1 := by
  have hle : (nt - 1).toNat ≤ 2 ^ Nat.clog 2 (nt - 1).toNat := Nat.le_pow_clog (by omega) _
  obtain ⟨poly, hp, -⟩ := calcButterPoly_eq hn
  have key : ∀ F : Filter, 2 ≤ F.len → ∃ F', F.calc "butterworth" ty n fc1 fc2 = .ok F' ∧ F'.len = F.len := by
    intro F hF
    rw [Filter.calc, if_pos rfl, Filter.butterworth, if_neg (not_not.2 hfc), if_neg (by omega)]
    rcases hty with rfl | rfl | rfl
    · rw [if_pos rfl, Filter.lowPass, hp]; exact ⟨_, rfl, rfl⟩
    · rw [if_neg (by decide), if_pos rfl, Filter.highPass, hp]; exact ⟨_, rfl, rfl⟩
    · rw [if_neg (by decide), if_neg (by decide), if_pos rfl, if_neg (hfc2 rfl), Filter.lowPass, Filter.highPass, hp]
      exact ⟨_, rfl, rfl⟩
  have hi := init_eq hdt (show 2 ≤ nt by omega)
  obtain ⟨F', h1, h2⟩ := key _ (show 2 ≤ (Filter.mk (2 ^ Nat.clog 2 (nt - 1).toNat - nt)
    (2 ^ Nat.clog 2 (nt - 1).toNat) (fun _ => 1) dt nt.toNat none).len by simp only; omega)
  refine ⟨_, F', hi, h1, ?_⟩
  rw [h2]; simp only; omega

/-- **C108, violated for order 1:** the coefficients are written behind the end of a vector. -/
theorem C108_first_order_violated {dt : ℝ} {nt : Int} {F : Filter} {fc1 fc2 : ℝ} (hi : init dt nt = .ok F)
    (hnt : 3 ≤ nt) (hfc : 0 < fc1) : F.calc "butterworth" "lp" 1 fc1 fc2 = .ub := by
  obtain ⟨hdt, -, hF⟩ := init_ok hi
  have hle : (nt - 1).toNat ≤ 2 ^ Nat.clog 2 (nt - 1).toNat := Nat.le_pow_clog (by omega) _
  rw [Filter.calc, if_pos rfl, Filter.butterworth, if_neg (not_not.2 hfc), if_neg (by rw [hF]; simp only; omega),
    if_pos rfl, Filter.lowPass, calcButterPoly_low le_rfl]
  rfl

/-- At the corner frequency half of the power passes. -/
theorem C108_corner {n : ℕ} {fc : ℝ} (hfc : 0 < fc) :
    lowPassGain n fc fc = 1 / 2 ∧ highPassGain n fc fc = 1 / 2 := by
  rw [lowPassGain, highPassGain, div_self hfc.ne']; norm_num

/-- Values at opposite frequencies are conjugate, so that filtered traces are real. -/
theorem tf_conj {dt : ℝ} {nt : Int} {F F' : Filter} {ty : String} {n : ℕ} {fc1 fc2 : ℝ} (hi : init dt nt = .ok F)
    (h : F.calc "butterworth" ty n fc1 fc2 = .ok F') {k : ℕ} (hk0 : 0 < k) (hk : 2 * k < F'.len) :
    F'.tf (F'.len - k) = (starRingEnd ℂ) (F'.tf k) := by
  obtain ⟨hdt, hnt, hF⟩ := init_ok hi
  obtain ⟨hfc, hlen, hn, poly, hp, H, G, T, hF', hH, hG, hT⟩ := butterworth_ok h
  have he : 2 * (F.len / 2) = F.len := by
    rw [hF] at hlen ⊢; exact len_even hlen
  have hl : F'.len = F.len := by rw [hF']
  rw [hl] at hk ⊢
  have hf : F.freq (F.len - k) = -F.freq k := by
    rw [freq_eq F he, freq_eq F he, if_neg (by omega), if_pos (by omega), Nat.cast_sub (by omega)]; ring
  have h1 : H (F.len - k) = (starRingEnd ℂ) (H k) := by
    rw [hH]
    simp only [if_neg (show F.len - k ≠ 0 by omega), if_neg (show k ≠ 0 by omega)]
    rw [hf, neg_div, butterValue_conj]
  have h2 : G (F.len - k) = (starRingEnd ℂ) (G k) := by
    rw [hG]
    simp only [if_neg (show F.len - k ≠ 0 by omega), if_neg (show k ≠ 0 by omega)]
    rw [hf, div_neg, butterValue_conj]
  rw [hF']
  rcases hT with ⟨rfl, rfl⟩ | ⟨rfl, rfl⟩ | ⟨rfl, -, rfl⟩
  · exact h1
  · exact h2
  · simp only [map_mul, h1, h2]

/-! ### Tones -/

/-- `N` samples of `A cos(2π k t / N + φ)`: a trace with `k` periods. -/
noncomputable def tone (N : ℕ) (A φ : ℝ) (k : ℕ) : List ℝ :=
  (List.range N).map fun t : ℕ => A * Real.cos (2 * Real.pi * k * t / N + φ)

theorem padded_tone {N t : ℕ} (ht : t < N) (A φ : ℝ) (k : ℕ) :
    padded (tone N A φ k) t = (A / 2 * exp (φ * I)) * cis N (k * t) + (A / 2 * exp (-(φ * I))) * cis N (-(k * t)) := by
  have h1 : padded (tone N A φ k) t = ((A * Real.cos (2 * Real.pi * k * t / N + φ) : ℝ) : ℂ) := by
    rw [padded, tone]; simp [List.getD, ht]
  have h2 : cis N (k * t) = exp ((2 * Real.pi * k * t / N : ℝ) * I) := by
    rw [cis]; congr 1; push_cast; ring
  have h3 : cis N (-(k * t)) = exp (-((2 * Real.pi * k * t / N : ℝ) * I)) := by
    rw [cis]; congr 1; push_cast; ring
  rw [h1, h2, h3, mul_assoc (_ / _ : ℂ), mul_assoc (_ / _ : ℂ), ← exp_add, ← exp_add, ofReal_mul, ofReal_cos,
    Complex.cos]
  rw [show ((2 * Real.pi * k * t / N + φ : ℝ) : ℂ) * I = φ * I + (2 * Real.pi * k * t / N : ℝ) * I by push_cast; ring,
    show -((2 * Real.pi * k * t / N + φ : ℝ) : ℂ) * I = -(φ * I) + -((2 * Real.pi * k * t / N : ℝ) * I) by push_cast; ring]
  ring

/-- Response to a tone. -/
theorem response_tone {N k : ℕ} (hk0 : 0 < k) (hk : k < N) {H : ℕ → ℂ} (hH : H (N - k) = (starRingEnd ℂ) (H k))
    (A φ : ℝ) (t : ℕ) :
    ifft N (fun j => fft N (padded (tone N A φ k)) j * H j / N) t
      = ((A * ‖H k‖ * Real.cos (2 * Real.pi * k * t / N + (φ + arg (H k))) : ℝ) : ℂ) := by
  rw [fft_congr fun t ht => padded_tone ht A φ k, ifft_tf_lin, ifft_tf_cis hk, ifft_tf_cis_neg hk hk0, hH]
  have h2 : cis N (k * t) = exp ((2 * Real.pi * k * t / N : ℝ) * I) := by
    rw [cis]; congr 1; push_cast; ring
  have h3 : cis N (-(k * t)) = exp (-((2 * Real.pi * k * t / N : ℝ) * I)) := by
    rw [cis]; congr 1; push_cast; ring
  have h4 : H k = ‖H k‖ * exp (arg (H k) * I) := (norm_mul_exp_arg_mul_I (H k)).symm
  have h5 : (starRingEnd ℂ) (H k) = ‖H k‖ * exp (-(arg (H k) * I)) := by
    conv_lhs => rw [h4]
    rw [map_mul, conj_ofReal, ← exp_conj, map_mul, conj_ofReal, conj_I, mul_neg]
  rw [h5]
  conv_lhs => arg 1; rw [h4]
  rw [h2, h3, ofReal_mul, ofReal_cos, Complex.cos]
  rw [show ((2 * Real.pi * k * t / N + (φ + arg (H k)) : ℝ) : ℂ) * I
      = φ * I + (arg (H k) * I + (2 * Real.pi * k * t / N : ℝ) * I) by push_cast; ring,
    show -((2 * Real.pi * k * t / N + (φ + arg (H k)) : ℝ) : ℂ) * I
      = -(φ * I) + (-(arg (H k) * I) + -((2 * Real.pi * k * t / N : ℝ) * I)) by push_cast; ring,
    exp_add, exp_add, exp_add, exp_add]
  push_cast
  ring

theorem viaFFT_tone {F : Filter} {k : ℕ} (hk0 : 0 < k) (hk : k < F.len)
    (hH : F.tf (F.len - k) = (starRingEnd ℂ) (F.tf k)) (A φ : ℝ) :
    F.viaFFT (tone F.len A φ k) = tone F.len (A * ‖F.tf k‖) (φ + arg (F.tf k)) k := by
  rw [Filter.viaFFT, cut]
  simp only [response_tone hk0 hk hH, ofReal_re]
  rw [tone, tone, List.length_map, List.length_range]
  refine List.map_congr_left fun t ht => ?_
  rw [if_pos (List.mem_range.1 ht)]

theorem clog_pow_sub_one {m : ℕ} (hm : 2 ≤ m) : Nat.clog 2 (2 ^ m - 1) = m := by
  have h4 : 2 ^ 2 ≤ 2 ^ m := Nat.pow_le_pow_right (by omega) hm
  apply le_antisymm
  · exact Nat.clog_le_of_le_pow (by omega)
  · by_contra hlt
    have h1 : 2 ^ m - 1 ≤ 2 ^ Nat.clog 2 (2 ^ m - 1) := Nat.le_pow_clog (by omega) _
    have h2 : 2 ^ Nat.clog 2 (2 ^ m - 1) ≤ 2 ^ (m - 1) := Nat.pow_le_pow_right (by omega) (by omega)
    have h3 : 2 ^ m = 2 * 2 ^ (m - 1) := by rw [← pow_succ']; congr 1; omega
    omega

theorem init_pow {dt : ℝ} {m : ℕ} (hm : 2 ≤ m) {F : Filter} (hi : init dt ((2 ^ m : ℕ) : ℤ) = .ok F) :
    F.len = 2 ^ m ∧ F.zeroPadding = 0 ∧ F.line = none ∧ F.dt = dt := by
  obtain ⟨-, -, hF⟩ := init_ok hi
  have h1 : (((2 ^ m : ℕ) : ℤ) - 1).toNat = 2 ^ m - 1 := by
    have : 0 < 2 ^ m := by positivity
    omega
  rw [h1, clog_pow_sub_one hm] at hF
  rw [hF]
  refine ⟨rfl, by simp, rfl, rfl⟩

/-- **C109.** On traces of `2 ^ m` samples a tone with a whole number of periods comes out as a tone of the same
frequency: its amplitude is multiplied with the Butterworth gain at the frequency of the tone, its phase is shifted by an
angle that depends on the frequency only. -/
theorem C109_tone {dt : ℝ} {m : ℕ} {F F' : Filter} {ty : String} {n : ℕ} {fc1 fc2 : ℝ} (hm : 2 ≤ m)
    (hi : init dt ((2 ^ m : ℕ) : ℤ) = .ok F) (h : F.calc "butterworth" ty n fc1 fc2 = .ok F')
    {k : ℕ} (hk0 : 0 < k) (hk : 2 * k < 2 ^ m) :
    ∃ θ : ℝ, ∀ A φ : ℝ, F'.applyVector (tone (2 ^ m) A φ k)
      = .ok (tone (2 ^ m) (A * Real.sqrt (gain ty n fc1 fc2 (k / (2 ^ m * dt)))) (φ + θ) k) := by
  obtain ⟨hl, hz, hline, -⟩ := init_pow hm hi
  obtain ⟨-, -, -, -, -, -, -, T, hF', -⟩ := butterworth_ok h
  have hl' : F'.len = 2 ^ m := by rw [hF']; exact hl
  have hg := C108_gain hi h k (by omega)
  have hb : binFrequency F'.len dt k = k / (2 ^ m * dt) := by
    rw [binFrequency, if_pos (by omega), hl']; push_cast; rfl
  rw [hb] at hg
  refine ⟨arg (F'.tf k), fun A φ => ?_⟩
  have hlen : (tone (2 ^ m) A φ k).length = 2 ^ m := by rw [tone]; simp
  have hz' : F'.zeroPadding = 0 := by rw [hF']; exact hz
  have hline' : F'.line = none := by rw [hF']; exact hline
  rw [Filter.applyVector, hlen, hz', if_neg (by rw [hl']; simp), hline', ← hl']
  simp only
  rw [viaFFT_tone hk0 (by omega) (tf_conj hi h hk0 (by omega)), ← hg, Real.sqrt_sq (norm_nonneg _)]

/-- **C109.** Constant traces pass a low-pass unchanged and are removed by the other filters. -/
theorem C109_constant {dt : ℝ} {m : ℕ} {F F' : Filter} {ty : String} {n : ℕ} {fc1 fc2 : ℝ} (hm : 2 ≤ m)
    (hi : init dt ((2 ^ m : ℕ) : ℤ) = .ok F) (h : F.calc "butterworth" ty n fc1 fc2 = .ok F') (c : ℝ) :
    F'.applyVector (List.replicate (2 ^ m) c) = .ok (List.replicate (2 ^ m) (if ty = "lp" then c else 0)) := by
  obtain ⟨hl, hz, hline, -⟩ := init_pow hm hi
  obtain ⟨-, -, -, poly, -, H, G, T, hF', hH, hG, hT⟩ := butterworth_ok h
  have hl' : F'.len = 2 ^ m := by rw [hF']; exact hl
  have hz' : F'.zeroPadding = 0 := by rw [hF']; exact hz
  have hline' : F'.line = none := by rw [hF']; exact hline
  have hT0 : F'.tf 0 = if ty = "lp" then 1 else 0 := by
    rw [hF']
    rcases hT with ⟨rfl, rfl⟩ | ⟨rfl, rfl⟩ | ⟨rfl, -, rfl⟩ <;> simp [hH, hG]
  have hp : ∀ t < 2 ^ m, padded (List.replicate (2 ^ m) c) t = (c : ℂ) * cis (2 ^ m) ((0 : ℕ) * t) + 0 * 0 := by
    intro t ht
    rw [padded]
    simp [List.getD, ht, cis_zero]
  have hpos : 0 < 2 ^ m := by positivity
  rw [Filter.applyVector, List.length_replicate, hz', if_neg (by rw [hl']; simp), hline']
  simp only
  rw [Filter.viaFFT, cut, hl', List.length_replicate]
  congr 1
  rw [List.eq_replicate_iff]
  refine ⟨by simp, fun b hb => ?_⟩
  obtain ⟨t, ht, rfl⟩ := List.mem_map.1 hb
  rw [if_pos (List.mem_range.1 ht), fft_congr hp, ifft_tf_lin, ifft_tf_cis hpos, hT0]
  split_ifs <;> simp [cis_zero]

/-! ### Energy -/

/-- Energy of a trace. -/
def energy (x : List ℝ) : ℝ := (x.map fun v => v ^ 2).sum

private theorem sum_map_range (m : ℕ) (f : ℕ → ℝ) : ((List.range m).map f).sum = ∑ i ∈ range m, f i := by
  induction m with
  | zero => simp
  | succ m ih => rw [List.range_succ, List.map_append, List.sum_append, ih, sum_range_succ]; simp

theorem energy_eq (x : List ℝ) : energy x = ∑ t ∈ range x.length, (x.getD t 0) ^ 2 := by
  rw [energy, ← sum_map_range]
  congr 1
  apply List.ext_getElem
  · simp
  · intro i h1 h2
    simp at h1
    simp [List.getD, h1]

/-- A transfer function bounded by 1 does not increase the energy. -/
theorem energy_viaFFT {F : Filter} (h : ∀ k < F.len, ‖F.tf k‖ ≤ 1) (x : List ℝ) : energy (F.viaFFT x) ≤ energy x := by
  have hlen : (F.viaFFT x).length = x.length := by rw [Filter.viaFFT, cut]; simp
  rcases Nat.eq_zero_or_pos F.len with h0 | hN
  · have : energy (F.viaFFT x) = 0 := by
      rw [energy_eq, hlen]
      refine sum_eq_zero fun t ht => ?_
      have ht' := mem_range.1 ht
      rw [Filter.viaFFT, cut]
      simp [List.getD, ht', h0]
    rw [this, energy]
    exact List.sum_nonneg (by intro v hv; obtain ⟨w, -, rfl⟩ := List.mem_map.1 hv; positivity)
  have hNr : (0 : ℝ) < F.len := by exact_mod_cast hN
  set N := F.len
  set Y := ifft N fun k => fft N (padded x) k * F.tf k / N with hY
  have h1 : energy (F.viaFFT x) ≤ ∑ t ∈ range N, ‖Y t‖ ^ 2 := by
    rw [energy_eq, hlen]
    have : ∀ t ∈ range x.length, ((F.viaFFT x).getD t 0) ^ 2 = if t < N then (Y t).re ^ 2 else 0 := by
      intro t ht
      have ht' := mem_range.1 ht
      rw [Filter.viaFFT, cut]
      simp only [List.getD, List.getElem?_map, List.getElem?_range ht', Option.map_some, Option.getD_some]
      split_ifs
      · rfl
      · simp
    rw [sum_congr rfl this, ← sum_filter]
    refine (sum_le_sum (g := fun t => ‖Y t‖ ^ 2) fun t _ => ?_).trans ?_
    · rw [← Complex.normSq_eq_norm_sq, Complex.normSq_apply]; nlinarith [sq_nonneg (Y t).im]
    · exact sum_le_sum_of_subset_of_nonneg (fun t ht => mem_range.2 (mem_filter.1 ht).2) fun _ _ _ => by positivity
  have h2 : ∑ t ∈ range N, ‖Y t‖ ^ 2 ≤ ∑ t ∈ range N, ‖padded x t‖ ^ 2 := by
    rw [hY, parseval_ifft]
    have h3 : N * ∑ t ∈ range N, ‖padded x t‖ ^ 2 = ∑ k ∈ range N, ‖fft N (padded x) k‖ ^ 2 :=
      (parseval_fft N (padded x)).symm
    have h4 : ∑ k ∈ range N, ‖fft N (padded x) k * F.tf k / N‖ ^ 2
        ≤ (1 / (N : ℝ) ^ 2) * ∑ k ∈ range N, ‖fft N (padded x) k‖ ^ 2 := by
      rw [mul_sum]
      refine sum_le_sum fun k hk => ?_
      have h5 := h k (mem_range.1 hk)
      rw [norm_div, norm_mul, Complex.norm_natCast, div_pow, mul_pow]
      have h6 : ‖F.tf k‖ ^ 2 ≤ 1 := by nlinarith [norm_nonneg (F.tf k)]
      rw [div_eq_mul_one_div, mul_comm (1 / (N : ℝ) ^ 2)]
      apply mul_le_mul_of_nonneg_right _ (by positivity)
      nlinarith [sq_nonneg ‖fft N (padded x) k‖]
    rw [← h3] at h4
    calc (N : ℝ) * ∑ k ∈ range N, ‖fft N (padded x) k * F.tf k / N‖ ^ 2
        ≤ N * (1 / (N : ℝ) ^ 2 * (N * ∑ t ∈ range N, ‖padded x t‖ ^ 2)) := mul_le_mul_of_nonneg_left h4 hNr.le
      _ = ∑ t ∈ range N, ‖padded x t‖ ^ 2 := by field_simp
  have h3 : ∑ t ∈ range N, ‖padded x t‖ ^ 2 ≤ energy x := by
    rw [energy_eq]
    have : ∀ t ∈ range N, ‖padded x t‖ ^ 2 = if t < x.length then (x.getD t 0) ^ 2 else 0 := by
      intro t _
      rw [padded, Complex.norm_real, Real.norm_eq_abs, sq_abs]
      split_ifs with hc
      · rfl
      · simp [List.getD, List.getElem?_eq_none (not_lt.1 hc)]
    rw [sum_congr rfl this, ← sum_filter]
    exact sum_le_sum_of_subset_of_nonneg (fun t ht => mem_range.2 (mem_filter.1 ht).2) fun _ _ _ => by positivity
  exact h1.trans (h2.trans h3)

private theorem gain_le (ty : String) (n : ℕ) (fc1 fc2 f : ℝ) : gain ty n fc1 fc2 f ≤ 1 := by
  have hL : ∀ fc, 0 ≤ lowPassGain n fc f ∧ lowPassGain n fc f ≤ 1 := by
    intro fc
    have h1 := pos_one_add (f / fc) n
    have h2 : 0 ≤ (f / fc) ^ (2 * n) := by rw [pow_mul]; positivity
    rw [lowPassGain]
    exact ⟨by positivity, by rw [div_le_one h1]; linarith⟩
  have hH : ∀ fc, 0 ≤ highPassGain n fc f ∧ highPassGain n fc f ≤ 1 := by
    intro fc
    have h1 := pos_one_add (f / fc) n
    have h2 : 0 ≤ (f / fc) ^ (2 * n) := by rw [pow_mul]; positivity
    rw [highPassGain]
    exact ⟨by positivity, by rw [div_le_one h1]; linarith⟩
  rw [gain]
  split_ifs
  · exact (hL fc1).2
  · exact (hH fc1).2
  · exact mul_le_one₀ (hL fc2).2 (hH fc1).1 (hH fc1).2

/-- **C110.** Filtering never adds energy to a trace, whatever its length. -/
theorem C110_energy {dt : ℝ} {nt : Int} {F F' : Filter} {ty : String} {n : ℕ} {fc1 fc2 : ℝ} (hi : init dt nt = .ok F)
    (h : F.calc "butterworth" ty n fc1 fc2 = .ok F') {x y : List ℝ} (hy : F'.applyVector x = .ok y) :
    y.length = x.length ∧ energy y ≤ energy x := by
  have hg := C108_gain hi h
  obtain ⟨-, -, -, -, -, -, -, T, hF', -⟩ := butterworth_ok h
  obtain ⟨-, -, hF⟩ := init_ok hi
  have hline : F'.line = none := by rw [hF', hF]
  rw [Filter.applyVector] at hy
  split_ifs at hy
  rw [hline] at hy
  rw [← Out.ok.inj hy]
  refine ⟨by rw [Filter.viaFFT, cut]; simp, energy_viaFFT (fun k hk => ?_) x⟩
  have h1 := hg k hk
  have h2 := gain_le ty n fc1 fc2 (binFrequency F'.len dt k)
  rw [← h1] at h2
  exact (sq_le_one_iff₀ (norm_nonneg _)).1 h2

/-- Sum of two traces of the same length with factors. -/
def combine (a b : ℝ) (x z : List ℝ) : List ℝ := List.zipWith (fun v w => a * v + b * w) x z

theorem viaFFT_combine (F : Filter) (a b : ℝ) {x z : List ℝ} (hl : x.length = z.length) :
    F.viaFFT (combine a b x z) = combine a b (F.viaFFT x) (F.viaFFT z) := by
  have hlen : (combine a b x z).length = x.length := by rw [combine]; simp [hl]
  have hp : padded (combine a b x z) = fun t => (a : ℂ) * padded x t + b * padded z t := by
    funext t
    rw [padded, padded, padded, combine]
    by_cases ht : t < x.length
    · simp [List.getD, ht, hl ▸ ht]
    · have ht' : ¬ t < z.length := hl ▸ ht
      simp only [List.getD, List.getElem?_zipWith, List.getElem?_eq_none (not_lt.1 ht),
        List.getElem?_eq_none (not_lt.1 ht')]
      simp
  rw [Filter.viaFFT, cut, hlen, hp]
  simp only [ifft_tf_lin]
  rw [combine, Filter.viaFFT, Filter.viaFFT, cut, cut, ← hl]
  apply List.ext_getElem
  · simp
  · intro i h1 h2
    simp only [List.length_map, List.length_range] at h1
    simp only [List.getElem_map, List.getElem_range, List.getElem_zipWith]
    split_ifs <;> simp

/-- **C110.** Filtering is linear. -/
theorem C110_linear {dt : ℝ} {nt : Int} {F F' : Filter} {ty : String} {n : ℕ} {fc1 fc2 : ℝ} (hi : init dt nt = .ok F)
    (h : F.calc "butterworth" ty n fc1 fc2 = .ok F') {x z y v : List ℝ} (hx : F'.applyVector x = .ok y)
    (hz : F'.applyVector z = .ok v) (a b : ℝ) : F'.applyVector (combine a b x z) = .ok (combine a b y v) := by
  obtain ⟨-, -, -, -, -, -, -, T, hF', -⟩ := butterworth_ok h
  obtain ⟨-, -, hF⟩ := init_ok hi
  have hline : F'.line = none := by rw [hF', hF]
  rw [Filter.applyVector] at hx hz
  split_ifs at hx with h1
  split_ifs at hz with h2
  rw [hline] at hx hz
  rw [← Out.ok.inj hx, ← Out.ok.inj hz]
  have hl : x.length = z.length := by omega
  have hlen : (combine a b x z).length = x.length := by rw [combine]; simp [hl]
  rw [Filter.applyVector, hlen, if_neg h1, hline]
  simp only
  rw [viaFFT_combine _ _ _ hl]

/-! ### Causality -/

/-- A trace of `N` samples that is 1 at sample `s` and 0 elsewhere. -/
def impulse (N s : ℕ) : List ℝ := (List.range N).map fun t => if t = s then 1 else 0

private theorem viaFFT_first (F : Filter) (hN : 0 < F.len) {x : List ℝ} (hx : x.length = F.len) :
    (F.viaFFT x).getD 0 0 = ∑ s ∈ range F.len, x.getD s 0 * (F.viaFFT (impulse F.len s)).getD 0 0 := by
  have key : ∀ z : List ℝ, z.length = F.len → (F.viaFFT z).getD 0 0
      = ∑ s ∈ range F.len, z.getD s 0 * (∑ k ∈ range F.len, cis F.len (-(k * s)) * F.tf k / F.len).re := by
    intro z hz
    rw [Filter.viaFFT, cut, hz]
    simp only [List.getD, List.getElem?_map, List.getElem?_range hN, Option.map_some, Option.getD_some, if_pos hN]
    rw [ifft]
    have : ∑ k ∈ range F.len, fft F.len (padded z) k * F.tf k / F.len * cis F.len (k * (0 : ℕ))
        = ∑ s ∈ range F.len, padded z s * ∑ k ∈ range F.len, cis F.len (-(k * s)) * F.tf k / F.len := by
      simp only [fft, div_eq_mul_inv, sum_mul, mul_sum]
      rw [sum_comm]
      refine sum_congr rfl fun s _ => sum_congr rfl fun k _ => ?_
      rw [show ((k : ℤ) * ((0 : ℕ) : ℤ)) = 0 by simp, cis_zero]
      ring
    rw [this, re_sum]
    refine sum_congr rfl fun s _ => ?_
    rw [padded, re_ofReal_mul]
    rfl
  rw [key x hx]
  refine sum_congr rfl fun s hs => ?_
  have hs' := mem_range.1 hs
  have himp : ∀ b < F.len, (impulse F.len s).getD b 0 = if b = s then 1 else 0 := by
    intro b hb
    rw [impulse]
    simp only [List.getD, List.getElem?_map, List.getElem?_range hb, Option.map_some, Option.getD_some]
  congr 1
  rw [key (impulse F.len s) (by rw [impulse]; simp), sum_eq_single (f := fun b => (impulse F.len s).getD b 0 * _) s]
  · rw [himp s hs', if_pos rfl, one_mul]
  · intro b hb hne
    rw [himp b (mem_range.1 hb), if_neg hne, zero_mul]
  · intro h; exact absurd hs h

/-- **C111, violated by every Butterworth filter:** the filter is not causal. There is always a signal at a later sample
to which the first sample of the filtered trace responds (the filter works on the periodically continued trace). -/
theorem C111_causality_violated {dt : ℝ} {m : ℕ} {F F' : Filter} {ty : String} {n : ℕ} {fc1 fc2 : ℝ} (hm : 2 ≤ m)
    (hi : init dt ((2 ^ m : ℕ) : ℤ) = .ok F) (h : F.calc "butterworth" ty n fc1 fc2 = .ok F') :
    ∃ s y, 0 < s ∧ s < 2 ^ m ∧ F'.applyVector (impulse (2 ^ m) s) = .ok y ∧ y.getD 0 0 ≠ 0 := by
  obtain ⟨hl, hz, hline, -⟩ := init_pow hm hi
  obtain ⟨hdt, -, -⟩ := init_ok hi
  obtain ⟨hfc, -, hn, poly, -, H, G, T, hF', hH, hG, hT⟩ := butterworth_ok h
  have hl' : F'.len = 2 ^ m := by rw [hF']; exact hl
  have hz' : F'.zeroPadding = 0 := by rw [hF']; exact hz
  have hline' : F'.line = none := by rw [hF']; exact hline
  have h4 : 2 ^ 2 ≤ 2 ^ m := Nat.pow_le_pow_right (by omega) hm
  have happ : ∀ x : List ℝ, x.length = 2 ^ m → F'.applyVector x = .ok (F'.viaFFT x) := by
    intro x hx
    rw [Filter.applyVector, hx, hz', if_neg (by rw [hl']; simp), hline']
  have himp : ∀ s, (impulse (2 ^ m) s).length = 2 ^ m := fun s => by rw [impulse]; simp
  by_contra hno
  have hzero : ∀ s, 0 < s → s < 2 ^ m → (F'.viaFFT (impulse F'.len s)).getD 0 0 = 0 := by
    intro s h1 h2
    by_contra h3
    exact hno ⟨s, _, h1, h2, happ _ (himp s), by rw [hl'] at h3; exact h3⟩
  set r := (F'.viaFFT (impulse F'.len 0)).getD 0 0 with hr
  have hfirst : ∀ x : List ℝ, x.length = 2 ^ m → (F'.viaFFT x).getD 0 0 = x.getD 0 0 * r := by
    intro x hx
    rw [viaFFT_first F' (by rw [hl']; positivity) (by rw [hl', hx]), sum_eq_single 0]
    · intro s hs hne
      rw [hzero s (by omega) (by rw [← hl']; exact mem_range.1 hs), mul_zero]
    · intro hc; exact absurd (mem_range.2 (by rw [hl']; positivity)) hc
  -- the constant trace
  have hc := C109_constant hm hi h 1
  rw [happ _ (by simp)] at hc
  have hc2 := hfirst (List.replicate (2 ^ m) 1) (by simp)
  rw [Out.ok.inj hc] at hc2
  have hpos : 0 < 2 ^ m := by positivity
  simp only [List.getD, List.getElem?_replicate, if_pos hpos, Option.getD_some, one_mul] at hc2
  -- the tone with one period
  obtain ⟨θ, hθ⟩ := C109_tone hm hi h (k := 1) (by omega) (by omega)
  set g := gain ty n fc1 fc2 ((1 : ℕ) / (2 ^ m * dt))
  have ht : ∀ φ : ℝ, Real.sqrt g * Real.cos (φ + θ) = Real.cos φ * r := by
    intro φ
    have h5 := hθ 1 φ
    rw [happ _ (by rw [tone]; simp)] at h5
    have h6 := hfirst (tone (2 ^ m) 1 φ 1) (by rw [tone]; simp)
    rw [Out.ok.inj h5, tone, tone] at h6
    simp only [List.getD, List.getElem?_map, List.getElem?_range hpos, Option.map_some, Option.getD_some] at h6
    simpa using h6
  have hf : ((1 : ℕ) / (2 ^ m * dt) : ℝ) ≠ 0 := by
    have : (2 : ℝ) ^ m ≠ 0 := by positivity
    simp [hdt]
  have hL : ∀ fc, fc ≠ 0 → 0 < lowPassGain n fc ((1 : ℕ) / (2 ^ m * dt)) ∧ lowPassGain n fc ((1 : ℕ) / (2 ^ m * dt)) < 1 := by
    intro fc hfc0
    have h2 : 0 < (((1 : ℕ) / (2 ^ m * dt) : ℝ) / fc) ^ (2 * n) := by
      rw [pow_mul]; have := div_ne_zero hf hfc0; positivity
    rw [lowPassGain]
    exact ⟨by positivity, by rw [div_lt_one (by linarith)]; linarith⟩
  have hHp : 0 < highPassGain n fc1 ((1 : ℕ) / (2 ^ m * dt)) := by
    have h2 : 0 < (((1 : ℕ) / (2 ^ m * dt) : ℝ) / fc1) ^ (2 * n) := by
      rw [pow_mul]; have := div_ne_zero hf hfc.ne'; positivity
    rw [highPassGain]; positivity
  have a1 := ht (-θ)
  have a2 := ht (Real.pi / 2 - θ)
  rw [neg_add_cancel, Real.cos_zero, Real.cos_neg] at a1
  rw [sub_add_cancel, Real.cos_pi_div_two, Real.cos_pi_div_two_sub] at a2
  by_cases hlp : ty = "lp"
  · have hg1 : g < 1 := by
      have : g = lowPassGain n fc1 ((1 : ℕ) / (2 ^ m * dt)) := by simp only [g, gain, if_pos hlp]
      rw [this]; exact (hL fc1 hfc.ne').2
    rw [if_pos hlp] at hc2
    rw [← hc2] at a1 a2
    have h7 := Real.sin_sq_add_cos_sq θ
    have h8 : Real.sin θ = 0 := by linarith
    have h9 : Real.sqrt g ^ 2 = 1 := by
      rw [show Real.sqrt g = Real.cos θ by linarith]; rw [h8] at h7; linarith
    have h10 : Real.sqrt g < 1 := by
      rw [Real.sqrt_lt' one_pos]; linarith
    nlinarith [Real.sqrt_nonneg g]
  · have hg1 : 0 < g := by
      simp only [g, gain, if_neg hlp]
      rcases hT with ⟨hc, -⟩ | ⟨hc, -⟩ | ⟨hc, h0, -⟩
      · exact absurd hc hlp
      · rw [if_pos hc]; exact hHp
      · rw [if_neg (by rw [hc]; decide)]; exact mul_pos (hL fc2 h0).1 hHp
    rw [if_neg hlp] at hc2
    rw [← hc2] at a1
    have := Real.sqrt_pos.2 hg1
    linarith

/-! ### The highest frequency -/

/-- **C109, violated at the Nyquist frequency:** the fastest oscillation of a trace does not get the gain of the filter.
A second-order low-pass with this corner frequency removes it, instead of passing half of the power. -/
theorem C109_nyquist_violated {dt : ℝ} (hdt : 0 < dt) {m : ℕ} (hm : 2 ≤ m) {F F' : Filter}
    (hi : init dt ((2 ^ m : ℕ) : ℤ) = .ok F) (h : F.calc "butterworth" "lp" 2 (1 / (2 * dt)) 0 = .ok F') :
    gain "lp" 2 (1 / (2 * dt)) 0 ((2 ^ (m - 1) : ℕ) / (2 ^ m * dt)) = 1 / 2 ∧
    F'.applyVector (tone (2 ^ m) 1 0 (2 ^ (m - 1))) = .ok (tone (2 ^ m) 0 0 (2 ^ (m - 1))) := by
  obtain ⟨hl, hz, hline, hd⟩ := init_pow hm hi
  obtain ⟨hfc, hlen, hn, poly, hp, H, G, T, hF', hH, hG, hT⟩ := butterworth_ok h
  have hl' : F'.len = 2 ^ m := by rw [hF']; exact hl
  have hz' : F'.zeroPadding = 0 := by rw [hF']; exact hz
  have hline' : F'.line = none := by rw [hF']; exact hline
  have h2 : 2 ^ m = 2 * 2 ^ (m - 1) := by rw [← pow_succ']; congr 1; omega
  have h2r : (2 : ℝ) ^ m = 2 * 2 ^ (m - 1) := by exact_mod_cast h2
  have hpos : 0 < 2 ^ (m - 1) := by positivity
  have hfreq : F.freq (2 ^ (m - 1)) = 1 / (2 * dt) := by
    rw [freq_eq F (by omega), if_pos (by omega), hl, hd]
    push_cast
    rw [h2r]
    field_simp
  have hT' : F'.tf (2 ^ (m - 1)) = butterValue 2 poly (I * ((1 : ℝ) : ℂ)) := by
    rw [hF']
    rcases hT with ⟨-, rfl⟩ | ⟨hc, -⟩ | ⟨hc, -⟩
    · rw [hH]
      simp only [if_neg hpos.ne', hfreq]
      rw [if_neg (by decide), div_self hfc.ne']
    · exact absurd hc (by decide)
    · exact absurd hc (by decide)
  have hre : (F'.tf (2 ^ (m - 1))).re = 0 := by
    rw [hT', butterValue_eq hp]
    have : ((butterProd 2).map ofRealHom).eval (I * ((1 : ℝ) : ℂ)) = (butterCoef 2 1 : ℂ) * I := by
      rw [butterProd]
      simp [quadPoly]
    rw [this, Complex.inv_re]; simp
  constructor
  · rw [gain, if_pos rfl, lowPassGain]
    have : ((2 ^ (m - 1) : ℕ) / (2 ^ m * dt) : ℝ) / (1 / (2 * dt)) = 1 := by
      push_cast; rw [h2r]; field_simp
    rw [this]; norm_num
  · have hcos : ∀ t : ℕ, 2 * Real.pi * ((2 ^ (m - 1) : ℕ) : ℝ) * t / ((2 ^ m : ℕ) : ℝ) = t * Real.pi := by
      intro t; push_cast; rw [h2r]; field_simp
    have hcis : ∀ t : ℕ, cis (2 ^ m) (((2 ^ (m - 1) : ℕ) : ℤ) * t) = ((Real.cos (t * Real.pi) : ℝ) : ℂ) := by
      intro t
      rw [cis_eq_cos_sin]
      have : 2 * Real.pi * (((2 ^ (m - 1) : ℕ) * t : ℤ) : ℝ) / ((2 ^ m : ℕ) : ℝ) = t * Real.pi := by
        rw [← hcos t]; push_cast; ring
      rw [this, Real.sin_nat_mul_pi]; rfl
    have hpad : ∀ t < 2 ^ m, padded (tone (2 ^ m) 1 0 (2 ^ (m - 1))) t
        = 1 * cis (2 ^ m) (((2 ^ (m - 1) : ℕ) : ℤ) * t) + 0 * 0 := by
      intro t ht
      rw [hcis, padded, tone]
      simp only [List.getD, List.getElem?_map, List.getElem?_range ht, Option.map_some, Option.getD_some, hcos]
      simp
    have hlt : (tone (2 ^ m) 1 0 (2 ^ (m - 1))).length = 2 ^ m := by rw [tone]; simp
    rw [Filter.applyVector, hlt, hz', if_neg (by rw [hl']; simp), hline']
    simp only
    rw [Filter.viaFFT, cut, hl', hlt]
    congr 1
    conv_rhs => rw [tone]
    refine List.map_congr_left fun t ht => ?_
    rw [if_pos (List.mem_range.1 ht), fft_congr hpad, ifft_tf_lin, ifft_tf_cis (by omega), hcis]
    rw [zero_mul, add_zero, one_mul, re_mul_ofReal, hre, zero_mul, zero_mul]

/-! ### Concrete cases -/

/-- C108, C110: a fourth-order low-pass at 15 Hz for 500 samples of 1 ms (the filter of the unit test) exists and has the
gain 1/2 in power at 15 Hz. -/
example : ∃ F F', init 1e-3 500 = .ok F ∧ F.calc "butterworth" "lp" 4 15 0 = .ok F' ∧
    lowPassGain 4 15 15 = 1 / 2 := by
  obtain ⟨F, F', h1, h2, -⟩ := C108_defined (dt := 1e-3) (fc1 := 15) (fc2 := 0) (nt := 500) (ty := "lp") (n := 4)
    (by norm_num) (by norm_num) (by norm_num) (by decide) (by omega) (by simp)
  exact ⟨F, F', h1, h2, (C108_corner (by norm_num)).1⟩

/-- C109, C111: the hypotheses hold for 1024 samples of 2 ms and a band-pass of third order from 5 to 40 Hz. -/
example : ∃ F F', init 2e-3 ((2 ^ 10 : ℕ) : ℤ) = .ok F ∧ F.calc "butterworth" "bp" 3 5 40 = .ok F' := by
  obtain ⟨F, F', h1, h2, -⟩ := C108_defined (dt := 2e-3) (fc1 := 5) (fc2 := 40) (nt := ((2 ^ 10 : ℕ) : ℤ)) (ty := "bp") (n := 3)
    (by norm_num) (by norm_num) (by norm_num) (fun _ => by norm_num) (by omega) (by simp)
  exact ⟨F, F', h1, h2⟩

end Verif.Spectral
