import Mathlib.Analysis.SpecialFunctions.Trigonometric.Basic
import Mathlib.Analysis.SpecialFunctions.Complex.Analytic
import Mathlib.Analysis.SpecialFunctions.Trigonometric.ArctanDeriv
import Mathlib.Tactic.FieldSimp
import Mathlib.Tactic.LinearCombination

/-!
# Harmonic sequences
-/

namespace Verif.Solver
open Complex

/-- Samples of a harmonic oscillation with the complex amplitude `A`: `f n = Re (A exp (i w n dt))`. -/
def Harmonic (w dt : ℝ) (f : ℕ → ℝ) (A : ℂ) : Prop := ∀ n : ℕ, f n = (A * exp (I * (w * dt * n : ℝ))).re

/-- Factor from one sample to the next. -/
noncomputable def turn (w dt : ℝ) : ℂ := exp (I * (w * dt : ℝ))

theorem turn_pow (w dt : ℝ) (n : ℕ) : exp (I * (w * dt * n : ℝ)) = turn w dt ^ n := by
  rw [turn, ← exp_nat_mul]
  congr 1
  push_cast
  ring

theorem turn_im (w dt : ℝ) : (turn w dt).im = Real.sin (w * dt) := by
  rw [turn, mul_comm, exp_ofReal_mul_I_im]

/-- The amplitude is determined by the samples. -/
theorem harmonic_unique {w dt : ℝ} (hw : Real.sin (w * dt) ≠ 0) {f : ℕ → ℝ} {A B : ℂ}
    (hA : Harmonic w dt f A) (hB : Harmonic w dt f B) : A = B := by
  have h0 := (hA 0).symm.trans (hB 0)
  have h1 := (hA 1).symm.trans (hB 1)
  rw [turn_pow] at h0 h1
  simp only [pow_zero, mul_one, pow_one, mul_re] at h0 h1
  rw [turn_im] at h1
  refine Complex.ext h0 ?_
  rw [h0] at h1
  have : (A.im - B.im) * Real.sin (w * dt) = 0 := by linarith
  rcases mul_eq_zero.mp this with h | h
  · linarith
  · exact absurd h hw

theorem Harmonic.add {w dt : ℝ} {f g : ℕ → ℝ} {A B : ℂ} (hA : Harmonic w dt f A) (hB : Harmonic w dt g B) :
    Harmonic w dt (fun n => f n + g n) (A + B) := fun n => by
  simp only [hA n, hB n, add_mul, add_re]

theorem Harmonic.smul {w dt : ℝ} {f : ℕ → ℝ} {A : ℂ} (hA : Harmonic w dt f A) (c : ℝ) :
    Harmonic w dt (fun n => c * f n) (c * A) := fun n => by
  simp only [hA n, mul_assoc, re_ofReal_mul]

theorem Harmonic.next {w dt : ℝ} {f : ℕ → ℝ} {A : ℂ} (hA : Harmonic w dt f A) :
    Harmonic w dt (fun n => f (n + 1)) (turn w dt * A) := fun n => by
  simp only [hA (n + 1), turn_pow, pow_succ]
  congr 1
  ring

theorem Harmonic.zero {w dt : ℝ} : Harmonic w dt (fun _ => 0) 0 := fun n => by simp

theorem Harmonic.sum {w dt : ℝ} {κ : Type} (s : Finset κ) {f : κ → ℕ → ℝ} {A : κ → ℂ}
    (h : ∀ k ∈ s, Harmonic w dt (f k) (A k)) : Harmonic w dt (fun n => ∑ k ∈ s, f k n) (∑ k ∈ s, A k) := fun n => by
  simp only [Finset.sum_mul, re_sum]
  exact Finset.sum_congr rfl fun k hk => h k hk n

theorem Harmonic.congr {w dt : ℝ} {f g : ℕ → ℝ} {A : ℂ} (h : Harmonic w dt f A) (e : ∀ n, g n = f n) :
    Harmonic w dt g A := fun n => (e n).trans (h n)

/-- The frequency that a centred difference with the mean of two samples sees instead of `w`. -/
noncomputable def seenFreq (w dt : ℝ) : ℝ := 2 / dt * Real.tan (w * dt / 2)

theorem turn_half (w dt : ℝ) : turn w dt + 1 = 2 * Real.cos (w * dt / 2) * exp (I * (w * dt / 2 : ℝ)) ∧
    turn w dt - 1 = 2 * I * Real.sin (w * dt / 2) * exp (I * (w * dt / 2 : ℝ)) := by
  have e : turn w dt = exp (I * (w * dt / 2 : ℝ)) * exp (I * (w * dt / 2 : ℝ)) := by
    rw [turn, ← exp_add]
    congr 1
    push_cast
    ring
  have h : exp (I * (w * dt / 2 : ℝ)) = Real.cos (w * dt / 2) + Real.sin (w * dt / 2) * I := by
    rw [mul_comm, exp_mul_I, ofReal_cos, ofReal_sin]
  have q : (Real.cos (w * dt / 2) : ℂ) ^ 2 + (Real.sin (w * dt / 2) : ℂ) ^ 2 = 1 := by
    have := Real.cos_sq_add_sin_sq (w * dt / 2)
    exact_mod_cast this
  rw [e, h]
  generalize (Real.cos (w * dt / 2) : ℂ) = x at *
  generalize (Real.sin (w * dt / 2) : ℂ) = y at *
  constructor
  · linear_combination (-1 : ℂ) * q + y ^ 2 * I_sq
  · linear_combination (1 : ℂ) * q - y ^ 2 * I_sq

theorem half_ne {w dt : ℝ} (hw : Real.sin (w * dt) ≠ 0) : Real.cos (w * dt / 2) ≠ 0 ∧ Real.sin (w * dt / 2) ≠ 0 := by
  have h : Real.sin (w * dt) = 2 * Real.sin (w * dt / 2) * Real.cos (w * dt / 2) := by
    rw [← Real.sin_two_mul]
    congr 1
    ring
  rw [h] at hw
  exact ⟨fun e => hw (by rw [e, mul_zero]), fun e => hw (by rw [e]; ring)⟩

theorem turn_ne {w dt : ℝ} (hw : Real.sin (w * dt) ≠ 0) : turn w dt + 1 ≠ 0 := by
  rw [(turn_half w dt).1]
  have := (half_ne hw).1
  refine mul_ne_zero (mul_ne_zero two_ne_zero ?_) (exp_ne_zero _)
  exact_mod_cast this

/-- Difference and mean of two samples. -/
theorem turn_sub {w dt : ℝ} (hdt : dt ≠ 0) (hw : Real.sin (w * dt) ≠ 0) :
    turn w dt - 1 = dt * (I * seenFreq w dt) * ((turn w dt + 1) / 2) := by
  rw [(turn_half w dt).1, (turn_half w dt).2, seenFreq, Real.tan_eq_sin_div_cos]
  have h1 : (Real.cos (w * dt / 2) : ℂ) ≠ 0 := by exact_mod_cast (half_ne hw).1
  have h2 : (dt : ℂ) ≠ 0 := by exact_mod_cast hdt
  push_cast
  push_cast at h1
  field_simp

/-- The product of two successive samples against the square of their mean. -/
theorem turn_mean {w dt : ℝ} (hw : Real.sin (w * dt) ≠ 0) :
    turn w dt = ((turn w dt + 1) / 2) ^ 2 / (Real.cos (w * dt / 2) : ℂ) ^ 2 := by
  rw [(turn_half w dt).1]
  have h1 : (Real.cos (w * dt / 2) : ℂ) ≠ 0 := by exact_mod_cast (half_ne hw).1
  have e : turn w dt = exp (I * (w * dt / 2 : ℝ)) ^ 2 := by
    rw [turn, sq, ← exp_add]
    congr 1
    push_cast
    ring
  rw [e]
  field_simp

open Filter Topology in
theorem seenFreq_tendsto (w : ℝ) : Tendsto (seenFreq w) (𝓝[>] 0) (𝓝 w) := by
  have h : HasDerivAt (fun x => Real.tan (w * x / 2)) (w / 2) 0 := by
    have h1 : HasDerivAt (fun x : ℝ => w * x / 2) (w / 2) 0 := by
      simpa using ((hasDerivAt_id (0 : ℝ)).const_mul w).div_const 2
    have h2 : HasDerivAt Real.tan (1 / Real.cos (w * 0 / 2) ^ 2) (w * 0 / 2) :=
      Real.hasDerivAt_tan (by simp)
    have := h2.comp (0 : ℝ) h1
    simpa [Function.comp_def] using this
  have h2 := (hasDerivAt_iff_tendsto_slope.mp h).const_mul 2
  have h3 : Tendsto (fun dt : ℝ => 2 * _root_.slope (fun x => Real.tan (w * x / 2)) 0 dt) (𝓝[>] 0) (𝓝 (2 * (w / 2))) :=
    h2.mono_left (nhdsWithin_mono _ (by intro x hx; simpa using ne_of_gt hx))
  rw [show 2 * (w / 2) = w by ring] at h3
  refine h3.congr fun dt => ?_
  rw [slope_def_field, seenFreq]
  simp
  ring

end Verif.Solver
