import Mathlib.Tactic.Linarith
import Mathlib.Tactic.Ring
import Mathlib.Tactic.NormNum
import Mathlib.Tactic.FieldSimp
import Verif.Model.RockFiles
import Verif.Props.ModelParam
import Verif.Props.ModelParamEM
import Verif.Props.ModelValues
import Verif.Props.Petro
/-!
# C100, C101: arithmetic of models, files of the rock matrix
-/
namespace Verif.MP
open Verif.Common (FP)

variable {ι : Type}

/-- Both models have the same values of the parameters of the equation. -/
def SameValues (e : Eqn) (b c : Base ι) : Prop :=
  (e.hasP → b.velocityP = c.velocityP) ∧ (e.hasS → b.velocityS = c.velocityS) ∧ b.density = c.density ∧
  (e.visco → e.hasP → b.tauP = c.tauP) ∧ (e.visco → b.tauS = c.tauS)

/-- C100: after an assignment and the preparation for modelling a solver reads from the model, whatever
happened to it before, what it reads from a new model with the assigned parameters. -/
theorem C100_assign (e : Eqn) (A : Averages ι) (m : Model ι) (c : Base ι) :
    ∃ m₁ m₂, runOps e A m [.assign c, .prepareForModelling] = .ok m₁ ∧
      runOps e A (Model.fresh c) [.prepareForModelling] = .ok m₂ ∧ SameValues e m₁.toBase c ∧
      ∀ q, Used e q → ∃ v, constGet e m₁ q = .ok v ∧ constGet e m₂ q = .ok v := by
  cases e <;>
  · refine ⟨_, _, rfl, rfl, ?_, ?_⟩
    · simp [SameValues, touch, setBase, assignBase, calculateAveraging, Eqn.hasP, Eqn.hasS, Eqn.visco]
    · intro q hq
      simp only [Used] at hq
      cases q <;> simp at hq <;>
        exact ⟨_, by
          simp [touch, setBase, assignBase, calculateAveraging, constGet, Model.fresh, Eqn.hasP, Eqn.hasS,
            Eqn.visco, Eqn.isSH, calcP, calcS], rfl⟩

/-- C100: adding and subtracting the same model, in either order, gives the parameters back. -/
theorem C100_add_sub (e : Eqn) (A : Averages ι) (m : Model ι) (c : Base ι) :
    (∃ m', runOps e A m [.add c, .sub c] = .ok m' ∧ m'.toBase = m.toBase) ∧
    ∃ m', runOps e A m [.sub c, .add c] = .ok m' ∧ m'.toBase = m.toBase := by
  refine ⟨⟨_, rfl, ?_⟩, ⟨_, rfl, ?_⟩⟩ <;>
  · apply Base.ext <;> first | rfl | (funext x; simp only [touch, setBase, combine]; split_ifs <;> ring) |
      (funext x; simp only [touch, setBase, combine]; ring)

/-- C100: the sum does not depend on the order, and scaling distributes over it. -/
theorem C100_sum (e : Eqn) (A : Averages ι) (b c : Base ι) :
    ∃ m₁ m₂, runOps e A (Model.fresh b) [.add c] = .ok m₁ ∧ runOps e A (Model.fresh c) [.add b] = .ok m₂ ∧
      SameValues e m₁.toBase m₂.toBase ∧
      ∀ r : ℝ, ∃ m₃ cr m₄ : Model ι, runOps e A m₁ [.scale r] = .ok m₃ ∧
        runOps e A (Model.fresh c) [.scale r] = .ok cr ∧
        runOps e A (Model.fresh b) [.scale r, .add cr.toBase] = .ok m₄ ∧
        SameValues e m₃.toBase m₄.toBase := by
  refine ⟨_, _, rfl, rfl, ?_, fun r => ⟨_, _, _, rfl, rfl, rfl, ?_⟩⟩ <;>
  · refine ⟨fun h => ?_, fun h => ?_, ?_, fun h h' => ?_, fun h => ?_⟩ <;> funext x <;>
      simp [touch, setBase, combine, Model.fresh, *] <;> ring

/-- C100: a model minus itself is zero, scaling by `r` and by `1/r` gives the parameters back, and
`a - c` is `a + (-1) c`. -/
theorem C100_scale (e : Eqn) (A : Averages ι) (m : Model ι) (c : Base ι) (r : ℝ) (hr : r ≠ 0) :
    (∃ m', runOps e A m [.scale r, .scale (1 / r)] = .ok m' ∧ m'.toBase = m.toBase) ∧
    (∃ m' c', runOps e A m [.sub m.toBase] = .ok m' ∧ runOps e A m [.scale 0] = .ok c' ∧
      SameValues e m'.toBase c'.toBase) ∧
    ∃ n c' m₁ m₂ : Model ι, runOps e A m [.scale 1] = .ok n ∧ runOps e A (Model.fresh c) [.scale (-1)] = .ok c' ∧
      runOps e A n [.sub c] = .ok m₁ ∧ runOps e A m [.add c'.toBase] = .ok m₂ ∧
      SameValues e m₁.toBase m₂.toBase := by
  refine ⟨⟨_, rfl, ?_⟩, ⟨_, _, rfl, rfl, ?_⟩, ⟨_, _, _, _, rfl, rfl, rfl, rfl, ?_⟩⟩
  · apply Base.ext <;> first | rfl | (funext x; simp only [touch, setBase, combine]; split_ifs <;> field_simp) |
      (funext x; simp only [touch, setBase, combine]; field_simp)
  all_goals
    refine ⟨fun h => ?_, fun h => ?_, ?_, fun h h' => ?_, fun h => ?_⟩ <;> funext x <;>
      simp [touch, setBase, combine, Model.fresh, *] <;> try ring

/-- Two different rocks, and a scaling factor. -/
example : ¬ SameValues .elastic (onePoint 1500 700 1000) (onePoint 2000 700 1000) ∧ (2 : ℝ) ≠ 0 := by
  refine ⟨fun h => ?_, by norm_num⟩
  have := congrFun (h.1 rfl) ()
  norm_num [onePoint] at this

/-- C78: if the S-wave velocity is within its thresholds and the P-wave velocity is not limited by its
own, the ratio is within its thresholds. Missing: points where one of the velocities is limited after
the ratio was (see `C78_ratio_violated`). -/
theorem C78_ratio_partial (e : Eqn) (hP : e.hasP) (hS : e.hasS) (A : Averages ι) (t : Thresholds)
    (hr : t.lowerRatio ≤ t.upperRatio) (m : Model ι) (x : ι) (h0 : m.velocityP x ≠ 0)
    (hs : 0 < m.velocityS x) (h1 : t.lowerVS ≤ m.velocityS x) (h2 : m.velocityS x ≤ t.upperVS) :
    ∃ m', step e A m (.applyThresholds t) = .ok m' ∧
      (t.lowerVP < m'.velocityP x → m'.velocityP x < t.upperVP →
        t.lowerRatio * m'.velocityS x ≤ m'.velocityP x ∧ m'.velocityP x ≤ t.upperRatio * m'.velocityS x) := by
  have mask1 : ∀ v : ℝ, v ≠ 0 → mask v = 1 := by
    intro v hv
    unfold mask
    rcases lt_or_gt_of_ne hv with h | h
    · simp [h]
    · simp [h, not_lt.2 h.le]
  refine ⟨_, rfl, ?_⟩
  have hvs : clip t.lowerVS t.upperVS (m.velocityS x) = m.velocityS x := by
    unfold clip
    simp [not_lt.2 h1, not_lt.2 h2]
  simp only [touch, setBase, thresholdValues, hP, hS, if_true, mask1 _ h0, mask1 _ hs.ne', mul_one, hvs]
  have hlo : t.lowerRatio * m.velocityS x ≤ t.upperRatio * m.velocityS x :=
    mul_le_mul_of_nonneg_right hr hs.le
  have hq : t.lowerRatio * m.velocityS x ≤ clipRatio t.lowerRatio t.upperRatio (m.velocityS x) (m.velocityP x) ∧
      clipRatio t.lowerRatio t.upperRatio (m.velocityS x) (m.velocityP x) ≤ t.upperRatio * m.velocityS x := by
    unfold clipRatio
    simp only
    split_ifs <;> constructor <;> linarith
  generalize clipRatio t.lowerRatio t.upperRatio (m.velocityS x) (m.velocityP x) = v at hq
  intro k1 k2
  have : clip t.lowerVP t.upperVP v = v := by
    unfold clip at k1 k2 ⊢
    simp only at k1 k2 ⊢
    split_ifs at k1 k2 ⊢ <;> first | rfl | (exfalso; linarith)
  rw [this]
  exact hq

/-- Rock whose P-wave velocity is too low for its S-wave velocity. -/
example : ∃ m', step .elastic oneAverage (Model.fresh (onePoint 1200 1000 2000)) (.applyThresholds usualThresholds) =
    .ok m' ∧ m'.velocityP () = 3 / 2 * m'.velocityS () ∧ m'.velocityS () = 1000 := by
  refine ⟨_, rfl, ?_, ?_⟩ <;>
    norm_num [touch, setBase, thresholdValues, Eqn.hasP, Eqn.hasS, mask, clip, clipRatio, usualThresholds,
      onePoint, Model.fresh]

end Verif.MP

namespace Verif.EMP

variable {ι : Type}

/-- Both models have the same values of the parameters of the equation. -/
def SameValues (e : Eqn) (b c : Base ι) : Prop :=
  b.mu = c.mu ∧ b.sigma = c.sigma ∧ b.eps = c.eps ∧ (e.visco → b.tauSigma = c.tauSigma) ∧
  (e.visco → b.tauEps = c.tauEps)

/-- C100 for the electromagnetic equations. -/
theorem C100_em_assign (e : Eqn) (A : MP.Averages ι) (m : Model ι) (c : Base ι) :
    ∃ m₁ m₂, runOps e A m [.assign c, .prepareForModelling] = .ok m₁ ∧
      runOps e A (Model.fresh c) [.prepareForModelling] = .ok m₂ ∧ SameValues e m₁.toBase c ∧
      ∀ q, Used e q → ∃ v, constGet m₁ q = .ok v ∧ constGet m₂ q = .ok v := by
  cases e <;>
  · refine ⟨_, _, rfl, rfl, ?_, ?_⟩
    · simp [SameValues, prepare, getVelocity, touch, setBase, assignBase, calculateAveraging, Eqn.visco]
    · intro q hq
      cases q <;> simp [Used] at hq <;>
        exact ⟨_, by
          simp [prepare, getVelocity, touch, setBase, assignBase, calculateAveraging, constGet, Model.fresh,
            Eqn.visco, Eqn.isTM]
          try rfl, rfl⟩

/-- C100 for the electromagnetic equations. -/
theorem C100_em_add_sub (e : Eqn) (A : MP.Averages ι) (m : Model ι) (c : Base ι) :
    (∃ m', runOps e A m [.add c, .sub c] = .ok m' ∧ m'.toBase = m.toBase) ∧
    ∃ m', runOps e A m [.sub c, .add c] = .ok m' ∧ m'.toBase = m.toBase := by
  refine ⟨⟨_, rfl, ?_⟩, ⟨_, rfl, ?_⟩⟩ <;>
  · apply Base.ext <;> first | rfl | (funext x; simp only [touch, setBase, combine]; split_ifs <;> ring) |
      (funext x; simp only [touch, setBase, combine]; ring)

/-- C100 for the electromagnetic equations. -/
theorem C100_em_sum (e : Eqn) (A : MP.Averages ι) (b c : Base ι) :
    ∃ m₁ m₂, runOps e A (Model.fresh b) [.add c] = .ok m₁ ∧ runOps e A (Model.fresh c) [.add b] = .ok m₂ ∧
      SameValues e m₁.toBase m₂.toBase ∧
      ∀ r : ℝ, ∃ m₃ cr m₄ : Model ι, runOps e A m₁ [.scale r] = .ok m₃ ∧
        runOps e A (Model.fresh c) [.scale r] = .ok cr ∧
        runOps e A (Model.fresh b) [.scale r, .add cr.toBase] = .ok m₄ ∧
        SameValues e m₃.toBase m₄.toBase := by
  refine ⟨_, _, rfl, rfl, ?_, fun r => ⟨_, _, _, rfl, rfl, rfl, ?_⟩⟩ <;>
  · refine ⟨?_, ?_, ?_, fun h => ?_, fun h => ?_⟩ <;> funext x <;>
      simp [touch, setBase, combine, Model.fresh, *] <;> ring

/-- C82: a relative relaxation time `r` of the conductivity means that at the reference frequency the
conduction current has a part `r` times itself ahead by a quarter of a period: `σ (1 + i r)`. -/
theorem C82_relative_tau (rel : Relaxation) (hc : rel.centerFreq ≠ 0) (mur sigma r : ℝ)
    (x : ι) :
    response (initHomogeneous .viscoemem rel mur sigma 0 r 0 : Base ι) (2 * Real.pi * rel.centerFreq) x =
      sigma * (1 + Complex.I * r) := by
  have hpi := Real.pi_ne_zero
  have h : 2 * Real.pi * rel.centerFreq * (r * tauRef rel.centerFreq) = r := by
    unfold tauRef
    field_simp
  have h' : (2 * Real.pi * rel.centerFreq : ℂ) * ((r * tauRef rel.centerFreq : ℝ) : ℂ) = r := by
    exact_mod_cast congrArg (fun v : ℝ => (v : ℂ)) h
  simp [response, initHomogeneous, Eqn.visco]
  push_cast at h'
  linear_combination Complex.I * sigma * h'

end Verif.EMP

namespace Verif.Petro

/-- C101: the S-wave velocity written for the rock matrix is the one of its shear modulus and density,
and so is the P-wave velocity of a matrix without shear modulus. Missing: the P-wave velocity of a
matrix with shear modulus (see `C101_vp_violated`). -/
theorem C101_velocities_partial (e : MP.Eqn) (he : e ≠ .acoustic) {r : Rock} (hr : 0 < r.density)
    (hmu : 0 ≤ r.mu) (hK : 0 ≤ r.K) :
    (writeRock e r).density = some r.density ∧
    (∃ v, (writeRock e r).vs = some v ∧ 0 ≤ v ∧ r.density * v ^ 2 = r.mu) ∧
    (e.hasP → r.mu = 0 → ∃ v, (writeRock e r).vp = some v ∧ 0 ≤ v ∧ r.density * v ^ 2 = r.K) := by
  have key : ∀ M, 0 ≤ M → 0 ≤ MP.velocityFromModulus M r.density ∧
      r.density * MP.velocityFromModulus M r.density ^ 2 = M := by
    intro M hM
    have : 0 ≤ M / r.density := div_nonneg hM hr.le
    unfold MP.velocityFromModulus
    rw [if_neg hr.ne', if_neg (not_lt.2 this), Real.sq_sqrt this]
    exact ⟨Real.sqrt_nonneg _, by field_simp⟩
  refine ⟨?_, ⟨_, ?_, key _ hmu⟩, fun hp h0 => ⟨_, ?_, key _ hK⟩⟩
  · simp [writeRock, he]
  · simp [writeRock, he]
  · simp [writeRock, he, hp, h0]

/-- C101 fails for the P-wave velocity: `4 / 3` is 1, so the velocity written belongs to the modulus
`K + μ`, which is too low. -/
theorem C101_vp_violated (e : MP.Eqn) (he : e = .elastic ∨ e = .viscoelastic) {r : Rock}
    (hr : 0 < r.density) (hmu : 0 < r.mu) (hK : 0 ≤ r.K) :
    ∃ v, (writeRock e r).vp = some v ∧ r.density * v ^ 2 < r.K + 4 / 3 * r.mu ∧
      r.density * v ^ 2 = r.K + r.mu := by
  have h4 : fourThirds = 1 := by
    unfold fourThirds
    rw [show (4 : Int).tdiv 3 = 1 by decide]
    norm_num
  have : 0 ≤ (r.K + r.mu) / r.density := div_nonneg (by linarith) hr.le
  have k : r.density * MP.velocityFromModulus (r.K + r.mu) r.density ^ 2 = r.K + r.mu := by
    unfold MP.velocityFromModulus
    rw [if_neg hr.ne', if_neg (not_lt.2 this), Real.sq_sqrt this]
    field_simp
  refine ⟨MP.velocityFromModulus (r.K + r.mu) r.density, ?_, by linarith, k⟩
  rcases he with rfl | rfl <;> simp [writeRock, MP.Eqn.hasP, h4]

/-- C101: the velocities written are the velocities that the program itself computes for rock without
pores. -/
theorem C101_no_pores (e : MP.Eqn) (he : e ≠ .acoustic) {r : Rock} (S : ℝ) (old : Wave)
    (hr : 0 ≤ r.density) (hmu : 0 ≤ r.mu) (hK : 0 ≤ r.K) :
    (writeRock e r).density = some (waveFromPetro e 0 S r old).density ∧
    (writeRock e r).vs = some (waveFromPetro e 0 S r old).vs ∧
    (e.hasP → (writeRock e r).vp = some (waveFromPetro e 0 S r old).vp) := by
  have hv : ∀ M, 0 ≤ M → MP.velocityFromModulus M r.density = velocity M r.density := by
    intro M hM
    unfold MP.velocityFromModulus velocity
    by_cases h0 : r.density = 0
    · rw [if_pos h0, h0]
      simp only [div, infSign, if_true]
      split_ifs <;> simp [root, valid]
    · have : 0 ≤ M / r.density := div_nonneg hM hr
      rw [if_neg h0, if_neg (not_lt.2 this)]
      simp [div, h0, root, not_lt.2 this, valid]
  have hc : ∀ v : ℝ, 0 ≤ v → valid 0 (clipIf e (.fin v)) = v := by
    intro v h
    unfold clipIf
    split_ifs
    · simp [atLeast, not_lt.2 h, valid]
    · rfl
  have hb : biot 0 = 0 := by simp [biot]
  have e1 : satDensity e 0 S r = r.density := by
    unfold satDensity fluidMass
    rw [mul_zero, add_zero, sub_zero, one_mul, hc _ hr]
  have e2 : satMu e 0 r = r.mu := by
    unfold satMu
    rw [hb, sub_zero, mul_one, hc _ hmu]
  have e3 : satK e 0 S r = r.K := by
    unfold satK
    rw [hb, sub_zero, mul_one, mul_zero, add_zero, hc _ hK]
  have h4 : fourThirds = 1 := by
    unfold fourThirds
    rw [show (4 : Int).tdiv 3 = 1 by decide]
    norm_num
  refine ⟨?_, ?_, fun hp => ?_⟩
  · simp [writeRock, waveFromPetro, he, e1]
  · simp [writeRock, waveFromPetro, he, e1, e2, hv _ hmu]
  · simp [writeRock, waveFromPetro, he, hp, e1, e2, e3, h4, add_comm r.K, hv _ (add_nonneg hmu hK)]

/-- Quartz. -/
example : (0 : ℝ) < 2650 ∧ (0 : ℝ) < 44000000000 ∧ (0 : ℝ) ≤ 37000000000 := by norm_num

end Verif.Petro
