import Mathlib.Tactic.Linarith
import Mathlib.Tactic.Ring
import Mathlib.Tactic.FieldSimp
import Mathlib.Tactic.NormNum
import Mathlib.Tactic.Positivity
import Mathlib.Analysis.Complex.Basic
import Mathlib.Data.Complex.BigOperators
import Verif.Props.ModelParam
/-!
# C78–C81: thresholds, finite parameters, the reference frequency and model arithmetic
-/
namespace Verif.MP
open Verif.Avg (Dir)
open Verif.Common (FP)

variable {ι : Type}

/-- Every lower threshold is at most its upper threshold. -/
structure Thresholds.Ordered (t : Thresholds) : Prop where
  vp : t.lowerVP ≤ t.upperVP
  vs : t.lowerVS ≤ t.upperVS
  rho : t.lowerDensity ≤ t.upperDensity
  ratio : t.lowerRatio ≤ t.upperRatio

private theorem mask_eq (v : ℝ) : mask v = if v = 0 then 0 else 1 := by
  unfold mask
  rcases lt_trichotomy v 0 with h | h | h
  · rw [if_pos h, if_neg h.ne]; norm_num
  · subst h; simp
  · rw [if_neg (not_lt.mpr h.le), if_pos h, if_neg h.ne']; norm_num

private theorem clip_mem {lo hi : ℝ} (h : lo ≤ hi) (v : ℝ) : lo ≤ clip lo hi v ∧ clip lo hi v ≤ hi := by
  unfold clip
  simp only
  constructor <;> split_ifs <;> linarith

private theorem clip_id {lo hi v : ℝ} (h1 : lo ≤ v) (h2 : v ≤ hi) : clip lo hi v = v := by
  unfold clip
  simp only
  rw [if_neg (not_lt.mpr h1), if_neg (not_lt.mpr h2)]

private theorem clip_idem {lo hi : ℝ} (h : lo ≤ hi) (v : ℝ) :
    clip lo hi (clip lo hi v) = clip lo hi v :=
  clip_id (clip_mem h v).1 (clip_mem h v).2

/-- The point is vacuum for the equation: the velocity that decides is zero. -/
def Vacuum (e : Eqn) (b : Base ι) (x : ι) : Prop :=
  if e.hasP then b.velocityP x = 0 else b.velocityS x = 0

/-! ### C78: thresholds -/

/-- C78: after `applyThresholds` every parameter of a point that is not vacuum lies between its
thresholds (the S-wave velocity unless the point is a fluid). -/
theorem C78_bounds (e : Eqn) (A : Averages ι) (t : Thresholds) (ht : t.Ordered) (m : Model ι) (x : ι)
    (hx : ¬ Vacuum e m.toBase x) :
    ∃ m', step e A m (.applyThresholds t) = .ok m' ∧
      (e.hasP → t.lowerVP ≤ m'.velocityP x ∧ m'.velocityP x ≤ t.upperVP) ∧
      (e.hasS → m.velocityS x ≠ 0 → t.lowerVS ≤ m'.velocityS x ∧ m'.velocityS x ≤ t.upperVS) ∧
      t.lowerDensity ≤ m'.density x ∧ m'.density x ≤ t.upperDensity := by
  refine ⟨_, rfl, ?_, ?_, ?_⟩
  · intro hp
    have h0 : m.velocityP x ≠ 0 := by simpa [Vacuum, hp] using hx
    simp only [touch, setBase, thresholdValues, hp, if_true, mask_eq, if_neg h0, mul_one]
    exact clip_mem ht.vp _
  · intro hs h0
    simp only [touch, setBase, thresholdValues, hs, if_true, mask_eq, if_neg h0, mul_one]
    exact clip_mem ht.vs _
  · have h0 : (if e.hasP then m.velocityP x else m.velocityS x) ≠ 0 := by
      unfold Vacuum at hx
      split_ifs at hx ⊢ <;> exact hx
    simp only [touch, setBase, thresholdValues, mask_eq, if_neg h0, mul_one]
    exact clip_mem ht.rho _

/-- C78: vacuum stays vacuum with zero density, and a point without S-wave velocity keeps none. -/
theorem C78_vacuum (e : Eqn) (A : Averages ι) (t : Thresholds) (m : Model ι) (x : ι) :
    ∃ m', step e A m (.applyThresholds t) = .ok m' ∧
      (Vacuum e m.toBase x → Vacuum e m'.toBase x ∧ m'.density x = 0) ∧
      (m.velocityS x = 0 → m'.velocityS x = 0) := by
  refine ⟨_, rfl, ?_, ?_⟩
  · intro hv
    unfold Vacuum at hv ⊢
    by_cases hp : e.hasP = true
    · rw [if_pos hp] at hv
      rw [if_pos hp]
      simp [touch, setBase, thresholdValues, hp, mask_eq, hv]
    · rw [if_neg hp] at hv
      rw [if_neg hp]
      have hs : e.hasS = true := by cases e <;> simp_all [Eqn.hasP, Eqn.hasS]
      simp [touch, setBase, thresholdValues, hp, hs, mask_eq, hv]
  · intro hv
    by_cases hs : e.hasS = true <;> simp [touch, setBase, thresholdValues, hs, mask_eq, hv]

/-- The values of a point obey all thresholds. -/
structure Admissible (e : Eqn) (t : Thresholds) (b : Base ι) (x : ι) : Prop where
  vp : e.hasP → t.lowerVP ≤ b.velocityP x ∧ b.velocityP x ≤ t.upperVP
  vs : e.hasS → b.velocityS x = 0 ∨ t.lowerVS ≤ b.velocityS x ∧ b.velocityS x ≤ t.upperVS
  rho : t.lowerDensity ≤ b.density x ∧ b.density x ≤ t.upperDensity
  ratio : e.hasP → e.hasS → b.velocityS x ≠ 0 →
    t.lowerRatio * b.velocityS x ≤ b.velocityP x ∧ b.velocityP x ≤ t.upperRatio * b.velocityS x

private theorem clipRatio_id {lo hi vs vp : ℝ} (h1 : lo * vs ≤ vp) (h2 : vp ≤ hi * vs) :
    clipRatio lo hi vs vp = vp := by
  unfold clipRatio
  simp only
  rw [if_neg (not_lt.mpr h1), if_neg (not_lt.mpr h2)]

/-- C78: parameters that obey the thresholds are not changed. Missing: fluids in an elastic model
(see `C78_fluid_violated`). -/
theorem C78_admissible_unchanged_partial (e : Eqn) (A : Averages ι) (t : Thresholds) (m : Model ι) (x : ι)
    (h : Admissible e t m.toBase x) (hx : ¬ Vacuum e m.toBase x)
    (hf : e.hasP → e.hasS → m.velocityS x ≠ 0) :
    ∃ m', step e A m (.applyThresholds t) = .ok m' ∧ m'.velocityP x = m.velocityP x ∧
      m'.velocityS x = m.velocityS x ∧ m'.density x = m.density x := by
  refine ⟨_, rfl, ?_, ?_, ?_⟩
  · by_cases hp : e.hasP = true
    swap
    · simp [touch, setBase, thresholdValues, hp]
    have h0 : m.velocityP x ≠ 0 := by simpa [Vacuum, hp] using hx
    simp only [touch, setBase, thresholdValues, hp, if_true, mask_eq, if_neg h0, mul_one]
    by_cases hs : e.hasS = true
    · rw [if_pos hs, clipRatio_id (h.ratio hp hs (hf hp hs)).1 (h.ratio hp hs (hf hp hs)).2]
      exact clip_id (h.vp hp).1 (h.vp hp).2
    · rw [if_neg hs]
      exact clip_id (h.vp hp).1 (h.vp hp).2
  · by_cases hs : e.hasS = true
    swap
    · simp [touch, setBase, thresholdValues, hs]
    simp only [touch, setBase, thresholdValues, hs, if_true, mask_eq]
    rcases h.vs hs with h1 | h1
    · rw [h1]; simp
    · rw [clip_id h1.1 h1.2]
      split_ifs with h0
      · rw [h0]; simp
      · simp
  · have h0 : (if e.hasP then m.velocityP x else m.velocityS x) ≠ 0 := by
      unfold Vacuum at hx
      split_ifs at hx ⊢ <;> exact hx
    simp only [touch, setBase, thresholdValues, mask_eq, if_neg h0, mul_one]
    exact clip_id h.rho.1 h.rho.2

/-- C78: the equation without S-waves has no such exception: admissible points and vacuum with zero
density are not changed by the acoustic and SH equations. -/
theorem C78_single_velocity_unchanged (e : Eqn) (he : ¬ (e.hasP ∧ e.hasS)) (A : Averages ι)
    (t : Thresholds) (m : Model ι) (x : ι)
    (h : Admissible e t m.toBase x ∨ Vacuum e m.toBase x ∧ m.density x = 0) :
    ∃ m', step e A m (.applyThresholds t) = .ok m' ∧ m'.velocityP x = m.velocityP x ∧
      m'.velocityS x = m.velocityS x ∧ (¬ Vacuum e m.toBase x ∨ m.density x = 0 →
      m'.density x = m.density x) := by
  by_cases hx : Vacuum e m.toBase x
  · refine ⟨_, rfl, ?_, ?_, ?_⟩
    · by_cases hp : e.hasP = true
      · have h0 : m.velocityP x = 0 := by simpa [Vacuum, hp] using hx
        simp [touch, setBase, thresholdValues, hp, mask_eq, h0]
      · simp [touch, setBase, thresholdValues, hp]
    · by_cases hs : e.hasS = true
      · have hp : ¬ e.hasP = true := fun hp => he ⟨hp, hs⟩
        have h0 : m.velocityS x = 0 := by simpa [Vacuum, hp] using hx
        simp [touch, setBase, thresholdValues, hs, mask_eq, h0]
      · simp [touch, setBase, thresholdValues, hs]
    · rintro (h1 | h1)
      · exact absurd hx h1
      · have h0 : (if e.hasP then m.velocityP x else m.velocityS x) = 0 := by
          unfold Vacuum at hx
          split_ifs at hx ⊢ <;> exact hx
        simp only [touch, setBase, thresholdValues, mask_eq, if_pos h0, mul_zero, h1]
  · rcases h with h | h
    swap; · exact absurd h.1 hx
    obtain ⟨m', h1, h2, h3, h4⟩ := C78_admissible_unchanged_partial e A t m x h hx
      (fun hp hs => absurd ⟨hp, hs⟩ he)
    exact ⟨m', h1, h2, h3, fun _ => h4⟩

/-- Ordinary thresholds. -/
noncomputable def usualThresholds : Thresholds :=
  { lowerVP := 300, upperVP := 5000, lowerVS := 500, upperVS := 3000, lowerDensity := 900,
    upperDensity := 3000, lowerRatio := 3/2, upperRatio := 4 }

example : usualThresholds.Ordered := by constructor <;> norm_num [usualThresholds]

/-- Rock that obeys all thresholds. -/
example : Admissible .elastic usualThresholds (onePoint 2000 1000 2000) () ∧
    ¬ Vacuum .elastic (onePoint 2000 1000 2000) () := by
  refine ⟨⟨?_, ?_, ?_, ?_⟩, ?_⟩ <;> norm_num [usualThresholds, onePoint, Vacuum, Eqn.hasP]

/-- C78 fails for fluids in elastic models: water obeys all thresholds, but the upper limit of the
ratio of the velocities replaces its P-wave velocity by the lower threshold. -/
theorem C78_fluid_violated :
    ∃ (t : Thresholds) (m m' : Model Unit), t.Ordered ∧ Admissible .elastic t m.toBase () ∧
      ¬ Vacuum .elastic m.toBase () ∧ step .elastic oneAverage m (.applyThresholds t) = .ok m' ∧
      m.velocityP () = 1500 ∧ m'.velocityP () = 300 := by
  refine ⟨usualThresholds, Model.fresh (onePoint 1500 0 1000), _, ?_, ⟨?_, ?_, ?_, ?_⟩, ?_, rfl, rfl, ?_⟩
  · constructor <;> norm_num [usualThresholds]
  · norm_num [usualThresholds, onePoint, Model.fresh]
  · norm_num [onePoint, Model.fresh]
  · norm_num [usualThresholds, onePoint, Model.fresh]
  · norm_num [onePoint, Model.fresh]
  · norm_num [onePoint, Model.fresh, Vacuum, Eqn.hasP]
  · norm_num [touch, setBase, thresholdValues, Eqn.hasP, Eqn.hasS, mask_eq, clip, clipRatio,
      usualThresholds, onePoint, Model.fresh]

/-- C78 fails for the ratio of the velocities: the velocities are clipped after the ratio was, so the
result can be outside the thresholds of the ratio. -/
theorem C78_ratio_violated :
    ∃ (t : Thresholds) (m m' : Model Unit), t.Ordered ∧
      step .elastic oneAverage m (.applyThresholds t) = .ok m' ∧
      m'.velocityS () ≠ 0 ∧ m'.velocityP () < t.lowerRatio * m'.velocityS () := by
  refine ⟨usualThresholds, Model.fresh (onePoint 600 300 1000), _, ?_, rfl, ?_, ?_⟩
  · constructor <;> norm_num [usualThresholds]
  · norm_num [touch, setBase, thresholdValues, Eqn.hasP, Eqn.hasS, mask_eq, clip, clipRatio,
      usualThresholds, onePoint, Model.fresh]
  · norm_num [touch, setBase, thresholdValues, Eqn.hasP, Eqn.hasS, mask_eq, clip, clipRatio,
      usualThresholds, onePoint, Model.fresh]

/-! ### C79: the solver's parameters are finite -/

/-- Every row of the matrices is an average: positive vectors stay positive. -/
def Positive (A : Averages ι) : Prop :=
  ∀ (d : Dir) (f : ι → ℝ), (∀ x, 0 < f x) → ∀ x, 0 < A d f x

/-- C79: nothing is divided by zero when the averaged S-wave modulus and the attenuated moduli are
computed, for all velocities and densities (vacuum and fluids included) and τ ≥ 0. -/
theorem C79_no_zero_divisor (e : Eqn) (A : Averages ι) (hA : Positive A) (b : Base ι) :
    (∀ d x, 0 < A d (fun i => (max 1 (specS e b i))⁻¹) x) ∧
      ∀ tau : ℝ, 0 ≤ tau → 1 ≤ attenuation b tau := by
  constructor
  · intro d x
    apply hA
    intro i
    have : (0 : ℝ) < max 1 (specS e b i) := lt_of_lt_of_le one_pos (le_max_left _ _)
    positivity
  · intro tau h
    unfold attenuation
    have : 0 ≤ ∑ l ∈ Finset.range b.numRelax,
        (b.centerFreq / b.freq.getD l 0) ^ 2 / (1 + (b.centerFreq / b.freq.getD l 0) ^ 2) := by
      apply Finset.sum_nonneg
      intro l _
      positivity
    nlinarith [mul_nonneg this h]

/-- C79: the parameters a prepared model gives to the solver are finite wherever the density is not
zero, and everywhere if the equation is not one of the SH equations. Missing: vacuum in SH models. -/
theorem C79_finite_partial (e : Eqn) (A : Averages ι) (b : Base ι) (ops : List (Op ι))
    (ho : ∀ o ∈ ops, NotInit o) {m : Model ι} (hr : runOps e A (Model.fresh b) ops = .ok m)
    {q : Getter} (hu : Used e q) {v : ι → FP ℝ} (hv : constGet e m q = .ok v) (x : ι)
    (hx : (e = .sh ∨ e = .viscosh) → m.density x ≠ 0) : ∃ r, v x = .fin r := by
  have hx' : q = .inverseDensity → m.density x ≠ 0 := by
    rintro rfl
    cases e <;> simp [Used] at hu <;> exact hx (by simp)
  by_cases hq : q = .sWaveModulus
  · subst hq
    simp only [constGet] at hv
    split at hv
    · have hv := Out.ok.inj hv; subst hv; exact ⟨_, rfl⟩
    · cases hv
  · have h := C77_never_stale_partial e A b ops ho hr hu hv x (fun h => absurd h hq)
    cases q <;> simp only [Current] at h
    · exact ⟨_, h⟩
    · exact absurd rfl hq
    · exact ⟨_, h (hx' rfl)⟩
    · exact ⟨_, h⟩
    · exact ⟨_, h⟩
    · exact ⟨_, h⟩

example : Positive oneAverage := fun _ _ h x => h x

/-- C79 fails for vacuum in SH models: the inverse density handed to the solver is infinite. -/
theorem C79_sh_vacuum_violated :
    ∃ (b : Base Unit) (m : Model Unit) (v : Unit → FP ℝ),
      runOps .sh oneAverage (Model.fresh b) [.prepareForModelling] = .ok m ∧
      constGet .sh m .inverseDensity = .ok v ∧ v () = .inf := by
  refine ⟨onePoint 0 0 0, _, _, rfl, rfl, ?_⟩
  simp [calculateAveraging, Model.fresh, Eqn.isSH, onePoint, calcInverseDensity]

/-! ### C80: velocities are those at the reference frequency -/

/-- The complex modulus of the generalised standard linear solid with relaxed modulus `M`. -/
noncomputable def complexModulus (M tau : ℝ) (n : Nat) (freq : Nat → ℝ) (f : ℝ) : ℂ :=
  M * (1 + tau * ∑ l ∈ Finset.range n,
    Complex.I * (2 * Real.pi * f) / ((2 * Real.pi * freq l : ℝ) + Complex.I * (2 * Real.pi * f)))

private theorem re_relax (fl f : ℝ) (h : 0 < fl) :
    (Complex.I * (2 * Real.pi * f) / ((2 * Real.pi * fl : ℝ) + Complex.I * (2 * Real.pi * f))).re =
      (f / fl) ^ 2 / (1 + (f / fl) ^ 2) := by
  have hpi := Real.pi_pos
  rw [Complex.div_re]
  have e1 : Complex.normSq ((2 * Real.pi * fl : ℝ) + Complex.I * (2 * Real.pi * f)) =
      (2 * Real.pi) ^ 2 * (fl ^ 2 + f ^ 2) := by
    simp [Complex.normSq_apply]; ring
  rw [e1]
  simp
  have : fl ^ 2 + f ^ 2 ≠ 0 := by positivity
  field_simp

private theorem reference (b : Base ι) (tau rv : ℝ) (ht : 0 ≤ tau)
    (hf : ∀ l < b.numRelax, 0 < b.freq.getD l 0) :
    (complexModulus (rv / attenuation b tau) tau b.numRelax (fun l => b.freq.getD l 0) b.centerFreq).re =
      rv := by
  have h1 : 1 ≤ attenuation b tau := (C79_no_zero_divisor .viscosh (fun _ f => f)
    (fun _ _ h x => h x) b).2 _ ht
  have h3 : (1 + (tau : ℂ) * ∑ l ∈ Finset.range b.numRelax,
      Complex.I * (2 * Real.pi * b.centerFreq) /
        ((2 * Real.pi * b.freq.getD l 0 : ℝ) + Complex.I * (2 * Real.pi * b.centerFreq))).re =
      attenuation b tau := by
    rw [Complex.add_re, Complex.re_ofReal_mul, Complex.re_sum, Complex.one_re]
    unfold attenuation
    rw [Finset.sum_congr rfl (fun l hl => re_relax (b.freq.getD l 0) b.centerFreq
      (hf l (Finset.mem_range.mp hl)))]
    ring
  unfold complexModulus
  rw [Complex.re_ofReal_mul, h3]
  field_simp

/-- C80: the relaxed modulus used by the solver is such that the real part of the complex modulus at
the reference frequency is ρ v²: the velocities of the model are those at that frequency. -/
theorem C80_p_wave (e : Eqn) (he : e.visco = true) (hp : e.hasP = true) (A : Averages ι)
    (b : Base ι) (ops : List (Op ι)) (ho : ∀ o ∈ ops, NotInit o) {m : Model ι}
    (hr : runOps e A (Model.fresh b) ops = .ok m) {v : ι → FP ℝ}
    (hv : constGet e m .pWaveModulus = .ok v) (x : ι) (ht : 0 ≤ m.tauP x)
    (hf : ∀ l < m.numRelax, 0 < m.freq.getD l 0) :
    ∃ M, v x = .fin M ∧
      (complexModulus M (m.tauP x) m.numRelax (fun l => m.freq.getD l 0) m.centerFreq).re =
        m.density x * m.velocityP x ^ 2 := by
  have hu : Used e .pWaveModulus := by cases e <;> simp_all [Used, Eqn.hasP]
  have h := C77_never_stale_partial e A b ops ho hr hu hv x (by intro h; cases h)
  refine ⟨_, h, ?_⟩
  have h2 : specP e m.toBase x = m.density x * m.velocityP x ^ 2 / attenuation m.toBase (m.tauP x) := by
    cases e <;> simp_all [Eqn.visco, specP]
  rw [h2]
  exact reference m.toBase _ _ ht hf

/-- C80: the same for the S-wave modulus. A modulus below 1 is raised to 1, so nothing is said where
the getter returns exactly 1. -/
theorem C80_s_wave (e : Eqn) (he : e.visco = true) (A : Averages ι)
    (b : Base ι) (ops : List (Op ι)) (ho : ∀ o ∈ ops, NotInit o) {m : Model ι}
    (hr : runOps e A (Model.fresh b) ops = .ok m) {v : ι → FP ℝ}
    (hv : constGet e m .sWaveModulus = .ok v) (x : ι) (ht : 0 ≤ m.tauS x)
    (hf : ∀ l < m.numRelax, 0 < m.freq.getD l 0) (hM : v x ≠ .fin 1) :
    ∃ M, v x = .fin M ∧
      (complexModulus M (m.tauS x) m.numRelax (fun l => m.freq.getD l 0) m.centerFreq).re =
        m.density x * m.velocityS x ^ 2 := by
  rcases C77_s_modulus_partial e A b ops ho hr hv x with h | ⟨_, h⟩
  swap; · exact absurd h hM
  refine ⟨_, h, ?_⟩
  have h2 : specS e m.toBase x = m.density x * m.velocityS x ^ 2 / attenuation m.toBase (m.tauS x) := by
    cases e <;> simp_all [Eqn.visco, specS]
  rw [h2]
  exact reference m.toBase _ _ ht hf

/-- A viscoelastic point with two relaxation mechanisms. -/
noncomputable def viscoPoint : Base Unit :=
  { onePoint 2000 1000 2000 with
    tauP := fun _ => 1/10
    tauS := fun _ => 1/10
    numRelax := 2
    freq := [5, 50]
    centerFreq := 20 }

/-- The hypotheses are met by a prepared viscoelastic model. -/
example : ∃ m v, runOps .viscoelastic oneAverage (Model.fresh viscoPoint) [.prepareForModelling] = .ok m ∧
    constGet .viscoelastic m .pWaveModulus = .ok v ∧ 0 ≤ m.tauP () ∧
    (∀ l < m.numRelax, 0 < m.freq.getD l 0) := by
  obtain ⟨m, h1, h2, h3⟩ := C77_prepared .viscoelastic oneAverage viscoPoint [] (by simp) rfl
  obtain ⟨v, hv⟩ := h3 .pWaveModulus (.inl rfl)
  refine ⟨m, v, h1, hv, ?_, ?_⟩
  · rw [h2]; norm_num [Model.fresh, viscoPoint]
  · rw [h2]
    intro l hl
    have : l = 0 ∨ l = 1 := by
      change l < 2 at hl
      omega
    rcases this with rfl | rfl <;> norm_num [Model.fresh, viscoPoint]

end Verif.MP
