import Mathlib.Analysis.Complex.Polynomial.Basic
import Mathlib.LinearAlgebra.Matrix.ToLinearEquiv
import Mathlib.Analysis.SpecificLimits.Basic
import Mathlib.Tactic.ComputeDegree
import Mathlib.Tactic.LinearCombination
import Mathlib.Tactic.FieldSimp
import Mathlib.Tactic.NormNum
/-! A real quartic with a root that is not real, and the leapfrog factor of such an eigenvalue. -/

namespace Verif.Solver
open Polynomial

private theorem root4 (a b c d : ℝ) : ∃ z : ℂ, z ^ 4 + a * z ^ 3 + b * z ^ 2 + c * z + d = 0 := by
  have hd : (X ^ 4 + C (a : ℂ) * X ^ 3 + C (b : ℂ) * X ^ 2 + C (c : ℂ) * X + C (d : ℂ)).degree = 4 := by
    compute_degree!
  obtain ⟨z, hz⟩ := Complex.exists_root (f := X ^ 4 + C (a : ℂ) * X ^ 3 + C (b : ℂ) * X ^ 2 +
    C (c : ℂ) * X + C (d : ℂ)) (by rw [hd]; norm_num)
  exact ⟨z, by simpa using hz⟩

private theorem root3 (b c d : ℝ) : ∃ z : ℂ, z ^ 3 + b * z ^ 2 + c * z + d = 0 := by
  have hd : (X ^ 3 + C (b : ℂ) * X ^ 2 + C (c : ℂ) * X + C (d : ℂ)).degree = 3 := by
    compute_degree!
  obtain ⟨z, hz⟩ := Complex.exists_root (f := X ^ 3 + C (b : ℂ) * X ^ 2 +
    C (c : ℂ) * X + C (d : ℂ)) (by rw [hd]; norm_num)
  exact ⟨z, by simpa using hz⟩

private theorem root2 (c d : ℝ) : ∃ z : ℂ, z ^ 2 + c * z + d = 0 := by
  have hd : (X ^ 2 + C (c : ℂ) * X + C (d : ℂ)).degree = 2 := by
    compute_degree!
  obtain ⟨z, hz⟩ := Complex.exists_root (f := X ^ 2 +
    C (c : ℂ) * X + C (d : ℂ)) (by rw [hd]; norm_num)
  exact ⟨z, by simpa using hz⟩

/-- If all roots of a quartic are real, the sum of the squared products of three roots,
`c² - 2 b d`, is not negative. -/
theorem nonreal_root {a b c d : ℝ} (h : c ^ 2 < 2 * b * d) :
    ∃ z : ℂ, z ^ 4 + a * z ^ 3 + b * z ^ 2 + c * z + d = 0 ∧ z.im ≠ 0 := by
  by_contra hn
  push Not at hn
  have real : ∀ z : ℂ, z ^ 4 + a * z ^ 3 + b * z ^ 2 + c * z + d = 0 → ∃ t : ℝ, z = t :=
    fun z hz => ⟨z.re, Complex.ext rfl (by simpa using hn z hz)⟩
  obtain ⟨z1, h1⟩ := root4 a b c d
  obtain ⟨t1, rfl⟩ := real z1 h1
  have f1 : ∀ z : ℂ, z ^ 4 + a * z ^ 3 + b * z ^ 2 + c * z + d =
      (z - t1) * (z ^ 3 + ((a + t1 : ℝ) : ℂ) * z ^ 2 + ((b + t1 * (a + t1) : ℝ) : ℂ) * z +
        ((c + t1 * (b + t1 * (a + t1)) : ℝ) : ℂ)) := by
    intro z
    push_cast
    linear_combination h1
  obtain ⟨z2, h2⟩ := root3 (a + t1) (b + t1 * (a + t1)) (c + t1 * (b + t1 * (a + t1)))
  obtain ⟨t2, rfl⟩ := real z2 (by rw [f1, h2, mul_zero])
  set p := a + t1 with hp
  set q := b + t1 * p with hq
  set r := c + t1 * q with hr
  have f2 : ∀ z : ℂ, z ^ 3 + (p : ℂ) * z ^ 2 + (q : ℂ) * z + (r : ℂ) =
      (z - t2) * (z ^ 2 + ((p + t2 : ℝ) : ℂ) * z + ((q + t2 * (p + t2) : ℝ) : ℂ)) := by
    intro z
    push_cast
    linear_combination h2
  obtain ⟨z3, h3⟩ := root2 (p + t2) (q + t2 * (p + t2))
  obtain ⟨t3, rfl⟩ := real z3 (by rw [f1, f2, h3, mul_zero, mul_zero])
  have e1 : t1 ^ 4 + a * t1 ^ 3 + b * t1 ^ 2 + c * t1 + d = 0 := by exact_mod_cast h1
  have e2 : t2 ^ 3 + p * t2 ^ 2 + q * t2 + r = 0 := by exact_mod_cast h2
  have e3 : t3 ^ 2 + (p + t2) * t3 + (q + t2 * (p + t2)) = 0 := by exact_mod_cast h3
  obtain ⟨t4, e4⟩ : ∃ t4, t4 = -(p + t2) - t3 := ⟨_, rfl⟩
  have hp' : p = -(t2 + t3 + t4) := by rw [e4]; ring
  have hq' : q = t2 * t3 + t2 * t4 + t3 * t4 := by rw [hp'] at e3; linarith
  have hr' : r = -(t2 * t3 * t4) := by rw [hp', hq'] at e2; linarith
  have ha : a = -(t1 + t2 + t3 + t4) := by linarith
  have hb : b = t1 * t2 + t1 * t3 + t1 * t4 + t2 * t3 + t2 * t4 + t3 * t4 := by
    rw [hp', hq'] at hq; linarith
  have hc : c = -(t1 * t2 * t3 + t1 * t2 * t4 + t1 * t3 * t4 + t2 * t3 * t4) := by
    rw [hq', hr'] at hr; linarith
  have hd : d = t1 * t2 * t3 * t4 := by rw [ha, hb, hc] at e1; linarith
  have : c ^ 2 - 2 * b * d = (t1 * t2 * t3) ^ 2 + (t1 * t2 * t4) ^ 2 + (t1 * t3 * t4) ^ 2 +
      (t2 * t3 * t4) ^ 2 := by rw [hb, hc, hd]; ring
  nlinarith [sq_nonneg (t1 * t2 * t3), sq_nonneg (t1 * t2 * t4), sq_nonneg (t1 * t3 * t4),
    sq_nonneg (t2 * t3 * t4)]

/-- The leapfrog scheme amplifies a mode whose eigenvalue is not real. -/
theorem leapfrog_factor {l : ℂ} (hl : l.im ≠ 0) :
    ∃ z : ℂ, (z - 1) ^ 2 = l * z ∧ 1 < ‖z‖ ∧ z.im ≠ 0 := by
  have hd : (X ^ 2 + C (-(2 + l)) * X + C (1 : ℂ)).degree = 2 := by
    compute_degree!
  obtain ⟨z, hz⟩ := Complex.exists_root (f := X ^ 2 + C (-(2 + l)) * X + C (1 : ℂ))
    (by rw [hd]; norm_num)
  have hz : z ^ 2 + -(2 + l) * z + 1 = 0 := by simpa using hz
  have h0 : z ≠ 0 := by rintro rfl; simp at hz
  have hsum : z + z⁻¹ = 2 + l := by
    field_simp
    linear_combination hz
  have hq : ∀ w : ℂ, w ≠ 0 → w + w⁻¹ = 2 + l → (w - 1) ^ 2 = l * w ∧ w.im ≠ 0 := by
    intro w hw h
    refine ⟨?_, fun him => hl ?_⟩
    · field_simp at h
      linear_combination h
    · have := congrArg Complex.im h
      simpa [Complex.inv_im, him] using this.symm
  rcases lt_trichotomy ‖z‖ 1 with h | h | h
  · refine ⟨z⁻¹, (hq _ (inv_ne_zero h0) (by rw [inv_inv, add_comm]; exact hsum)).1, ?_,
      (hq _ (inv_ne_zero h0) (by rw [inv_inv, add_comm]; exact hsum)).2⟩
    rw [norm_inv]
    exact (one_lt_inv₀ (norm_pos_iff.mpr h0)).mpr h
  · exfalso
    apply hl
    have hc : z⁻¹ = (starRingEnd ℂ) z := by
      rw [Complex.inv_def, Complex.normSq_eq_norm_sq, h]; simp
    rw [hc] at hsum
    have := congrArg Complex.im hsum
    simpa using this.symm
  · exact ⟨z, (hq z h0 hsum).1, h, (hq z h0 hsum).2⟩

/-- The real part of a growing oscillation is not bounded. -/
theorem oscillation_grows {z u : ℂ} (hz : 1 < ‖z‖) (hi : z.im ≠ 0) (hu : u ≠ 0) (C : ℝ) :
    ∃ n : ℕ, C < |(z ^ n * u).re| := by
  by_contra hn
  push Not at hn
  have him : ∀ n : ℕ, |(z ^ n * u).im| ≤ (C + |z.re| * C) / |z.im| := by
    intro n
    rw [le_div_iff₀ (abs_pos.mpr hi), ← abs_mul]
    have e : (z ^ n * u).im * z.im = z.re * (z ^ n * u).re - (z ^ (n + 1) * u).re := by
      have : z ^ (n + 1) * u = z * (z ^ n * u) := by ring
      rw [this]
      generalize z ^ n * u = w
      rw [Complex.mul_re]
      ring
    rw [e]
    calc |z.re * (z ^ n * u).re - (z ^ (n + 1) * u).re|
        ≤ |z.re * (z ^ n * u).re| + |(z ^ (n + 1) * u).re| := abs_sub _ _
      _ ≤ |z.re| * C + C := by
          rw [abs_mul]
          exact add_le_add (mul_le_mul_of_nonneg_left (hn n) (abs_nonneg _)) (hn (n + 1))
      _ = _ := add_comm _ _
  set B := C + (C + |z.re| * C) / |z.im| with hB
  have hb : ∀ n : ℕ, ‖z‖ ^ n * ‖u‖ ≤ B := fun n => by
    rw [← norm_pow, ← norm_mul]
    exact (Complex.norm_le_abs_re_add_abs_im _).trans (add_le_add (hn n) (him n))
  obtain ⟨n, h⟩ := pow_unbounded_of_one_lt (B / ‖u‖) hz
  rw [div_lt_iff₀ (norm_pos_iff.mpr hu)] at h
  exact absurd (hb n) (not_le.mpr h)

end Verif.Solver
