import Verif.Props.FrequencyFilter

/-!
# C155: the filters are stable
-/
namespace Verif.Spectral
open Finset Complex Polynomial

private theorem butterCoef_pos {n i : ℕ} (hi : i < n / 2) : 0 < butterCoef n (i + 1) := by
  have hn : (0 : ℝ) < n := by exact_mod_cast (show 0 < n by omega)
  have hi' : (2 * (i : ℝ) + 1) < n := by exact_mod_cast (show 2 * i + 1 < n by omega)
  have hθ : (2 * ((i + 1 : ℕ) : ℝ) + n - 1) / (2 * n) * Real.pi = ((2 * i + 1) / n) * (Real.pi / 2) + Real.pi / 2 := by
    push_cast
    field_simp
    ring
  have h0 : 0 < (2 * (i : ℝ) + 1) / n := by positivity
  have h1 : (2 * (i : ℝ) + 1) / n < 1 := (div_lt_one hn).mpr hi'
  have hp := Real.pi_pos
  have hs : 0 < Real.sin (((2 * i + 1) / n) * (Real.pi / 2)) :=
    Real.sin_pos_of_pos_of_lt_pi (by positivity) (by nlinarith)
  rw [butterCoef, hθ, Real.cos_add_pi_div_two]
  linarith

private theorem quad_ne_zero {c : ℝ} (hc : 0 < c) {s : ℂ} (hs : 0 ≤ s.re) : 1 + (c : ℂ) * s + s ^ 2 ≠ 0 := by
  intro h
  have hre := congrArg Complex.re h
  have him := congrArg Complex.im h
  simp [sq] at hre him
  have hy : s.im = 0 := by
    have : s.im * (c + 2 * s.re) = 0 := by linarith
    rcases mul_eq_zero.mp this with h | h
    · exact h
    · linarith
  rw [hy] at hre
  nlinarith [mul_nonneg hc.le hs, mul_nonneg hs hs]

private theorem aeval_butter (n : ℕ) (s : ℂ) : aeval s (butterProd n) = ((butterProd n).map ofRealHom).eval s := by
  rw [aeval_def, eval_map]
  rfl

private theorem butter_ne_zero (n : ℕ) {s : ℂ} (hs : 0 ≤ s.re) : aeval s (butterProd n) ≠ 0 := by
  have hq : ∀ c d : ℝ, aeval s (quadPoly c d) = 1 + (c : ℂ) * s + d * s ^ 2 := by
    intro c d
    simp [quadPoly]
  rw [butterProd, map_mul, map_prod]
  refine mul_ne_zero (prod_ne_zero_iff.mpr fun i hi => ?_) ?_
  · rw [hq]
    simpa using quad_ne_zero (butterCoef_pos (mem_range.mp hi)) hs
  · split_ifs
    · rw [hq]
      intro h
      have := congrArg Complex.re h
      simp at this
      linarith
    · simp

private theorem butter_coeff_zero (n : ℕ) : (butterProd n).coeff 0 = 1 := by
  have hq : ∀ c d : ℝ, (quadPoly c d).coeff 0 = 1 := fun c d => by simp [quadPoly]
  rw [butterProd, mul_coeff_zero, coeff_zero_prod]
  simp only [hq, prod_const_one, one_mul]
  split_ifs
  · exact hq _ _
  · simp

/-- C155: the values of a filter of order `n` are `1 / P(i f / fc)` for low-pass, `1 / P(fc / (i f))` for high-pass and the product
for band-pass filters, with one polynomial of degree at most `n` with real coefficients for all of them. It has no zeros with
non-negative real part, so that the filters are stable, and delay instead of advancing. -/
theorem C155_stable (n : ℕ) : ∃ P : ℝ[X], P.natDegree ≤ n ∧ P.coeff 0 = 1 ∧
    (∀ s : ℂ, 0 ≤ s.re → aeval s P ≠ 0) ∧
    ∀ (dt : ℝ) (nt : Int) (F F' : Filter) (ty : String) (fc1 fc2 : ℝ), init dt nt = .ok F →
      F.calc "butterworth" ty n fc1 fc2 = .ok F' → ∀ k, 0 < k → k < F'.len → ∀ f : ℝ, f = binFrequency F'.len dt k →
        (ty = "lp" → F'.tf k * aeval (I * ((f / fc1 : ℝ) : ℂ)) P = 1) ∧
        (ty = "hp" → F'.tf k * aeval ((fc1 : ℂ) / (I * f)) P = 1) ∧
        (ty = "bp" → F'.tf k * (aeval (I * ((f / fc2 : ℝ) : ℂ)) P * aeval ((fc1 : ℂ) / (I * f)) P) = 1) := by
  refine ⟨butterProd n, natDegree_butterProd n, butter_coeff_zero n, fun s hs => butter_ne_zero n hs, ?_⟩
  intro dt nt F F' ty fc1 fc2 hi h k h0 hk f hf
  obtain ⟨hdt, hnt, hF⟩ := init_ok hi
  obtain ⟨hfc, hlen, -, poly, hp, H, G, T, hF', hH, hG, hT⟩ := butterworth_ok h
  have he : 2 * (F.len / 2) = F.len := by
    rw [hF] at hlen ⊢; exact len_even hlen
  have hb : F.freq k = f := by
    rw [hf, freq_eq F he, hF', hF]; rfl
  have hv : ∀ z : ℂ, z.re = 0 → butterValue n poly z * aeval z (butterProd n) = 1 := by
    intro z hz
    have hne := butter_ne_zero n hz.ge
    rw [butterValue_eq hp, ← aeval_butter]
    exact inv_mul_cancel₀ hne
  have hz : I * ((-fc1 / f : ℝ) : ℂ) = (fc1 : ℂ) / (I * f) := by
    push_cast
    rw [div_mul_eq_div_div, Complex.div_I]
    ring
  have hre : ∀ x : ℝ, (I * (x : ℂ)).re = 0 := fun x => by simp
  have hHk : ∀ fc, (if ty = "bp" then fc2 else fc1) = fc → H k * aeval (I * ((f / fc : ℝ) : ℂ)) (butterProd n) = 1 := by
    intro fc hfc
    rw [hH]
    simp only [if_neg h0.ne', hb, hfc]
    exact hv _ (hre _)
  have hGk : G k * aeval ((fc1 : ℂ) / (I * f)) (butterProd n) = 1 := by
    rw [hG]
    simp only [if_neg h0.ne', hb, ← hz]
    exact hv _ (hre _)
  rw [hF']
  refine ⟨?_, ?_, ?_⟩ <;> rintro rfl
  · rcases hT with ⟨-, rfl⟩ | ⟨hc, -⟩ | ⟨hc, -⟩
    · exact hHk fc1 (if_neg (by decide))
    · exact absurd hc (by decide)
    · exact absurd hc (by decide)
  · rcases hT with ⟨hc, -⟩ | ⟨-, rfl⟩ | ⟨hc, -⟩
    · exact absurd hc (by decide)
    · exact hGk
    · exact absurd hc (by decide)
  · rcases hT with ⟨hc, -⟩ | ⟨hc, -⟩ | ⟨-, -, rfl⟩
    · exact absurd hc (by decide)
    · exact absurd hc (by decide)
    · have h1 := hHk fc2 (if_pos rfl)
      show H k * G k * _ = 1
      rw [mul_mul_mul_comm, h1, hGk, one_mul]

/-- C155: a low-pass filter of second order delays: for positive frequencies the imaginary part of
the transfer function is negative. -/
theorem C155_delay {dt : ℝ} {nt : Int} {F F' : Filter} {fc1 fc2 : ℝ} (hi : init dt nt = .ok F)
    (h : F.calc "butterworth" "lp" 2 fc1 fc2 = .ok F') {k : ℕ} (h0 : 0 < k)
    (hf : 0 < binFrequency F'.len dt k) : (F'.tf k).im < 0 := by
  obtain ⟨hdt, hnt, hF⟩ := init_ok hi
  obtain ⟨hfc, hlen, -, poly, hp, H, G, T, hF', hH, hG, hT⟩ := butterworth_ok h
  have he : 2 * (F.len / 2) = F.len := by
    rw [hF] at hlen ⊢; exact len_even hlen
  have hb : F.freq k = binFrequency F'.len dt k := by
    rw [freq_eq F he, hF', hF]; rfl
  rw [← hb] at hf
  have hTk : F'.tf k = butterValue 2 poly (I * ((F.freq k / fc1 : ℝ) : ℂ)) := by
    rw [hF']
    rcases hT with ⟨-, rfl⟩ | ⟨hc, -⟩ | ⟨hc, -⟩
    · rw [hH]
      simp only [if_neg h0.ne']
      rw [if_neg (by decide)]
    · exact absurd hc (by decide)
    · exact absurd hc (by decide)
  have hw : 0 < F.freq k / fc1 := div_pos hf hfc
  generalize F.freq k / fc1 = w at hTk hw
  have hc := butterCoef_pos (n := 2) (i := 0) (by omega)
  have hval : ((butterProd 2).map ofRealHom).eval (I * (w : ℂ)) = ⟨1 - w ^ 2, butterCoef 2 1 * w⟩ := by
    rw [butterProd]
    simp [quadPoly]
    rw [mul_pow, I_sq]
    apply Complex.ext <;> simp [← ofReal_pow] <;> ring
  rw [hTk, butterValue_eq hp, hval, Complex.inv_im]
  have hpos : 0 < butterCoef 2 1 * w := mul_pos hc hw
  have hn : 0 < Complex.normSq ⟨1 - w ^ 2, butterCoef 2 1 * w⟩ := by
    rw [Complex.normSq_mk]
    nlinarith [mul_self_nonneg (1 - w ^ 2), mul_pos hpos hpos]
  show -(butterCoef 2 1 * w) / _ < 0
  exact div_neg_of_neg_of_pos (by linarith) hn

/-- A filter that meets the conditions: a low-pass of order four for traces of a hundred samples. -/
example : ∃ F F', init 0.001 100 = .ok F ∧ F.calc "butterworth" "lp" 4 30 0 = .ok F' := by
  obtain ⟨F, F', h1, h2, -⟩ := C108_defined (dt := 0.001) (fc1 := 30) (fc2 := 0) (nt := 100) (ty := "lp") (n := 4) (by norm_num)
    (by norm_num) (by norm_num) (fun h => absurd h (by decide)) (by norm_num) (.inl rfl)
  exact ⟨F, F', h1, h2⟩

end Verif.Spectral
