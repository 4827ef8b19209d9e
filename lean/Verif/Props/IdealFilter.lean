import Verif.Props.FrequencyFilter
/-!
# The single-frequency ("ideal") filter and filters that are calculated again
-/
namespace Verif.Spectral
open Finset Complex

private theorem fc1Ind_eq {F : Filter} {fc : ℝ} {k : ℕ} (h1 : (k : ℝ) - 1 < fc / F.df) (h2 : fc / F.df ≤ k) :
    ⌈fc / F.df⌉.toNat = k := by
  have : ⌈fc / F.df⌉ = (k : ℤ) := by
    rw [Int.ceil_eq_iff]; push_cast; exact ⟨h1, h2⟩
  rw [this, Int.toNat_natCast]

private theorem fc_div_df {F : Filter} {dt fc : ℝ} {m : ℕ} (hl : F.len = 2 ^ m) (hd : F.dt = dt) :
    fc / F.df = fc * (2 ^ m * dt) := by
  rw [Filter.df, hl, hd]; push_cast; rw [div_div_eq_mul_div, div_one]

private theorem tone_zero (N : ℕ) (φ : ℝ) (k : ℕ) : tone N 0 φ k = List.replicate N 0 := by
  rw [tone, List.eq_replicate_iff]
  refine ⟨by simp, fun b hb => ?_⟩
  obtain ⟨t, -, rfl⟩ := List.mem_map.1 hb
  simp

/-- Setting of the following theorems: a fresh filter for traces of `2 ^ m` samples and a frequency `fc` below the Nyquist
frequency; `k` is the number of periods of the first resolved frequency that is not below `fc`. -/
structure Setting (dt fc : ℝ) (m k : ℕ) (F : Filter) : Prop where
  hm : 2 ≤ m
  hi : init dt ((2 ^ m : ℕ) : ℤ) = .ok F
  hfc : 0 < fc
  hk0 : 0 < k
  hk : 2 * k < 2 ^ m
  above : (k : ℝ) - 1 < fc * (2 ^ m * dt)
  below : fc * (2 ^ m * dt) ≤ k

private theorem Setting.order0 {dt fc : ℝ} {m k : ℕ} {F : Filter} (S : Setting dt fc m k F) (G : Filter)
    (h : ∃ T, G = { F with tf := T }) :
    G.calc "ideal" "bp" 0 fc 0 = .ok { G with tf := fun j => 1 - if j = k ∨ j = 2 ^ m - k then 0 else G.tf j } := by
  obtain ⟨hl, -, -, hd⟩ := init_pow S.hm S.hi
  obtain ⟨T, rfl⟩ := h
  have hk := S.hk
  have e := fc_div_df (F := { F with tf := T }) (fc := fc) hl hd
  have hc := fc1Ind_eq (F := { F with tf := T }) (by rw [e]; exact S.above) (by rw [e]; exact S.below)
  rw [Filter.calc, if_neg (by decide), if_pos rfl, Filter.ideal, if_neg (not_not.2 S.hfc), if_pos rfl]
  simp only
  rw [hc, if_pos trivial, if_neg (by rw [hl]; omega), hl]

/-- **C115.** A fresh single-frequency filter passes the tone of its frequency unchanged and removes all other tones with
whole numbers of periods. -/
theorem C115_select {dt fc : ℝ} {m k : ℕ} {F : Filter} (S : Setting dt fc m k F) :
    ∃ F', F.calc "ideal" "bp" 0 fc 0 = .ok F' ∧ ∀ (A φ : ℝ) (j : ℕ), 0 < j → 2 * j < 2 ^ m →
      F'.applyVector (tone (2 ^ m) A φ j) = .ok (if j = k then tone (2 ^ m) A φ j else List.replicate (2 ^ m) 0) := by
  obtain ⟨hl, hz, hline, hd⟩ := init_pow S.hm S.hi
  obtain ⟨-, -, hF⟩ := init_ok S.hi
  have hk := S.hk
  have hk0 := S.hk0
  refine ⟨_, S.order0 F ⟨F.tf, rfl⟩, fun A φ j hj0 hj => ?_⟩
  have htf : ∀ i, F.tf i = 1 := fun i => by rw [hF]
  set F' : Filter := { F with tf := fun j => 1 - if j = k ∨ j = 2 ^ m - k then 0 else F.tf j } with hF'
  have hl' : F'.len = 2 ^ m := hl
  have h1 : F'.tf j = if j = k then 1 else 0 := by
    simp only [hF', htf]
    split_ifs with h2 h3 h3 <;> first | (exfalso; omega) | simp
  have h2 : F'.tf (2 ^ m - j) = if j = k then 1 else 0 := by
    simp only [hF', htf]
    split_ifs with h2 h3 h3 <;> first | (exfalso; omega) | simp
  have hlen : (tone (2 ^ m) A φ j).length = 2 ^ m := by rw [tone]; simp
  rw [Filter.applyVector, hlen, show F'.zeroPadding = 0 from hz, if_neg (by rw [hl']; simp), show F'.line = none from hline,
    ← hl']
  simp only
  rw [viaFFT_tone hj0 (by omega) (by rw [hl', h1, h2]; split_ifs <;> simp), h1]
  split_ifs
  · simp
  · rw [norm_zero, mul_zero, tone_zero]

/-- **C115, violated when the same filter object is calculated again:** the filter that has been calculated twice for the
same frequency lets every tone pass. -/
theorem C115_recalculated_violated {dt fc : ℝ} {m k : ℕ} {F : Filter} (S : Setting dt fc m k F) :
    ∃ F' F'', F.calc "ideal" "bp" 0 fc 0 = .ok F' ∧ F'.calc "ideal" "bp" 0 fc 0 = .ok F'' ∧
      ∀ (A φ : ℝ) (j : ℕ), 0 < j → 2 * j < 2 ^ m →
        F''.applyVector (tone (2 ^ m) A φ j) = .ok (tone (2 ^ m) A φ j) := by
  obtain ⟨hl, hz, hline, hd⟩ := init_pow S.hm S.hi
  obtain ⟨-, -, hF⟩ := init_ok S.hi
  have hk := S.hk
  refine ⟨_, _, S.order0 F ⟨F.tf, rfl⟩, S.order0 _ ⟨_, rfl⟩, fun A φ j hj0 hj => ?_⟩
  have htf : ∀ i, F.tf i = 1 := fun i => by rw [hF]
  set F' : Filter := { F with tf := fun j => 1 - if j = k ∨ j = 2 ^ m - k then 0 else
    (fun j => 1 - if j = k ∨ j = 2 ^ m - k then 0 else F.tf j) j } with hF'
  have hl' : F'.len = 2 ^ m := hl
  have h1 : ∀ i, F'.tf i = 1 := by
    intro i
    simp only [hF', htf]
    split_ifs <;> simp
  have hlen : (tone (2 ^ m) A φ j).length = 2 ^ m := by rw [tone]; simp
  show F'.applyVector _ = _
  rw [Filter.applyVector, hlen, show F'.zeroPadding = 0 from hz, if_neg (by rw [hl']; simp), show F'.line = none from hline,
    ← hl']
  simp only
  rw [viaFFT_tone hj0 (by omega) (by rw [h1, h1]; simp), h1]
  simp

private theorem Setting.order1 {dt fc : ℝ} {m k : ℕ} {F : Filter} (S : Setting dt fc m k F) {n : ℕ} (hn : n ≠ 0) :
    F.calc "ideal" "bp" n fc 0 = .ok { F with line := some k } := by
  obtain ⟨hl, -, -, hd⟩ := init_pow S.hm S.hi
  have e := fc_div_df (fc := fc) hl hd
  have hc := fc1Ind_eq (by rw [e]; exact S.above) (by rw [e]; exact S.below)
  rw [Filter.calc, if_neg (by decide), if_pos rfl, Filter.ideal, if_neg (not_not.2 S.hfc), if_pos rfl]
  simp only
  rw [hc, if_neg hn]

/-- **C116.** Butterworth filters can be calculated again with the same object: the last one counts. Missing: objects
that were a single-frequency filter before, see below. -/
theorem C116_recalculate_partial {F F' : Filter} {ty ty' : String} {n n' : ℕ} {fc1 fc2 fc1' fc2' : ℝ}
    (h : F.calc "butterworth" ty n fc1 fc2 = .ok F') :
    F'.calc "butterworth" ty' n' fc1' fc2' = F.calc "butterworth" ty' n' fc1' fc2' := by
  obtain ⟨-, -, -, -, -, -, -, T, hF', -⟩ := butterworth_ok h
  rw [hF']; rfl

/-- **C116, violated:** a filter object that was once calculated as single-frequency filter of order 1 (as for source
encoding) stays one: a Butterworth filter that is calculated afterwards has no effect. -/
theorem C116_stale_line_violated {dt fc : ℝ} {m k : ℕ} {F : Filter} (S : Setting dt fc m k F) {ty : String} {n : ℕ}
    {fc1 fc2 : ℝ} {F' F'' : Filter} (h1 : F.calc "ideal" "bp" 1 fc 0 = .ok F')
    (h2 : F'.calc "butterworth" ty n fc1 fc2 = .ok F'') (x : List ℝ) : F''.applyVector x = F'.applyVector x := by
  rw [S.order1 (by omega)] at h1
  have h3 := Out.ok.inj h1
  obtain ⟨-, -, -, -, -, -, -, T, hF'', -⟩ := butterworth_ok h2
  rw [hF'', ← h3]
  rfl

private theorem fft_tone {N k : ℕ} (hk0 : 0 < k) (hk : 2 * k < N) (A φ : ℝ) :
    fft N (padded (tone N A φ k)) k = N * (A / 2 * exp (φ * I)) := by
  rw [fft_congr fun t ht => padded_tone ht A φ k, fft_add, fft_mul, fft_mul, fft_cis (by omega) (by omega), if_pos rfl,
    fft_cis_neg (by omega) (by omega) hk0, if_neg (by omega)]
  ring

private theorem re_tone {N k : ℕ} (A φ : ℝ) (t : ℕ) :
    ((A * exp (φ * I)) * cis N (k * t)).re = A * Real.cos (2 * Real.pi * k * t / N + φ) := by
  have h2 : cis N (k * t) = exp ((2 * Real.pi * k * t / N : ℝ) * I) := by
    rw [cis]; congr 1; push_cast; ring
  have h3 : (A * exp (φ * I)) * cis N (k * t) = (A : ℂ) * exp ((2 * Real.pi * k * t / N + φ : ℝ) * I) := by
    rw [h2, show ((2 * Real.pi * k * t / N + φ : ℝ) : ℂ) * I = φ * I + (2 * Real.pi * k * t / N : ℝ) * I by
      push_cast; ring, exp_add]
    ring
  rw [h3, re_ofReal_mul, exp_ofReal_mul_I_re]

/-- **C117, violated:** a single-frequency filter of order 1 halves the amplitude of the tone of its frequency when it is
applied to a single trace, while the filter of order 0 passes the tone unchanged (`C115_select`). -/
theorem C117_half_amplitude_violated {dt fc : ℝ} {m k : ℕ} {F : Filter} (S : Setting dt fc m k F) :
    ∃ F', F.calc "ideal" "bp" 1 fc 0 = .ok F' ∧
      ∀ A φ : ℝ, F'.applyVector (tone (2 ^ m) A φ k) = .ok (tone (2 ^ m) (A / 2) φ k) := by
  obtain ⟨hl, hz, -, -⟩ := init_pow S.hm S.hi
  obtain ⟨-, -, hF⟩ := init_ok S.hi
  have hNT : F.NT = 2 ^ m := by rw [hF]; exact Int.toNat_natCast _
  refine ⟨_, S.order1 (by omega), fun A φ => ?_⟩
  have hlen : (tone (2 ^ m) A φ k).length = 2 ^ m := by rw [tone]; simp
  rw [Filter.applyVector, hlen]
  simp only
  rw [hz, hl, hNT, if_neg (by simp)]
  congr 1
  conv_rhs => rw [tone]
  refine List.map_congr_left fun t _ => ?_
  have h1 : ∑ u ∈ range (2 ^ m), cis (2 ^ m) (-(k * u)) * padded (tone (2 ^ m) A φ k) u
      = fft (2 ^ m) (padded (tone (2 ^ m) A φ k)) k := by
    rw [fft]; exact sum_congr rfl fun u _ => mul_comm _ _
  have hN : (((2 ^ m : ℕ) : ℝ) : ℂ) ≠ 0 := by norm_num
  rw [h1, fft_tone S.hk0 S.hk, ← re_tone]
  congr 1
  push_cast at hN ⊢
  field_simp

/-- **C117, violated:** applied to a set of traces, the single-frequency filter of order 1 loses the amplitude: traces that
are `c` times as strong give the same result. -/
theorem C117_amplitude_lost_violated {dt fc : ℝ} {m k : ℕ} {F F' : Filter} (S : Setting dt fc m k F)
    (h : F.calc "ideal" "bp" 1 fc 0 = .ok F') {c : ℝ} (hc : 0 < c) (xs : List (List ℝ)) :
    F'.applyMatrix (2 ^ m) (xs.map fun x => x.map fun v => c * v) = F'.applyMatrix (2 ^ m) xs := by
  obtain ⟨hl, hz, -, -⟩ := init_pow S.hm S.hi
  rw [S.order1 (by omega)] at h
  have h3 := Out.ok.inj h
  have hlin : F'.line = some k := by rw [← h3]
  have hv : ∀ x : List ℝ, F'.viaLine k (x.map fun v => c * v) = (F'.viaLine k x).map fun v => c * v := by
    intro x
    rw [Filter.viaLine, Filter.viaLine, List.length_map, List.map_map]
    refine List.map_congr_left fun t _ => ?_
    have hp : ∀ u, padded (x.map fun v => c * v) u = (c : ℂ) * padded x u := by
      intro u
      rw [padded, padded, ← ofReal_mul]
      congr 1
      simp only [List.getD, List.getElem?_map]
      cases x[u]? <;> simp
    have hs : ∑ u ∈ range F'.NT, padded (x.map fun v => c * v) u * cis F'.len (-(k * u))
        = (c : ℂ) * ∑ u ∈ range F'.NT, padded x u * cis F'.len (-(k * u)) := by
      rw [mul_sum]; exact sum_congr rfl fun u _ => by rw [hp]; ring
    rw [hs, mul_assoc, mul_assoc, re_ofReal_mul, ← mul_assoc]
    rfl
  have hys : ∀ ys : List (List ℝ), maxNorm (ys.map fun y => y.map fun v => c * v) = c * maxNorm ys := by
    intro ys
    rw [maxNorm, maxNorm, ← List.map_flatten, List.map_map]
    have : ∀ (l : List ℝ) (a : ℝ), (l.map ((fun v => |v|) ∘ fun v => c * v)).foldl max (c * a)
        = c * (l.map fun v => |v|).foldl max a := by
      intro l
      induction l with
      | nil => intro a; simp
      | cons v l ih =>
        intro a
        simp only [List.map_cons, List.foldl_cons, Function.comp]
        rw [abs_mul, abs_of_pos hc, ← mul_max_of_nonneg _ _ hc.le]
        exact ih _
    have h5 := this ys.flatten 0
    rw [mul_zero] at h5
    exact h5
  have hmap : (xs.map fun x => x.map fun v => c * v).map (F'.viaLine k)
      = (xs.map (F'.viaLine k)).map fun y => y.map fun v => c * v := by
    rw [List.map_map, List.map_map]
    exact List.map_congr_left fun x _ => hv x
  rw [Filter.applyMatrix, Filter.applyMatrix, hlin]
  simp only
  rw [hmap, hys]
  by_cases h0 : maxNorm (xs.map (F'.viaLine k)) = 0
  · rw [if_pos (by rw [h0, mul_zero] : c * maxNorm (xs.map (F'.viaLine k)) = 0), if_pos h0]
  · rw [if_neg (mul_ne_zero hc.ne' h0), if_neg h0]
    congr 2
    rw [List.map_map]
    refine List.map_congr_left fun y _ => ?_
    simp only [Function.comp, List.map_map]
    refine List.map_congr_left fun v _ => ?_
    simp only [Function.comp]
    field_simp

/-- Concrete case: 256 samples of 1 ms, 30 Hz lies between 7 and 8 periods per trace. -/
example : ∃ F, Setting 1e-3 30 8 8 F := by
  refine ⟨_, ⟨by omega, init_eq (by norm_num) (by norm_num), by norm_num, by omega, by norm_num, ?_, ?_⟩⟩ <;> norm_num

end Verif.Spectral
