import Mathlib.Tactic.Ring
import Mathlib.Tactic.Linarith
import Mathlib.Tactic.FieldSimp
import Mathlib.Tactic.LinearCombination
import Mathlib.Tactic.NormNum
import Mathlib.Tactic.Positivity
import Verif.Model.Petro
import Verif.Props.ModelParamEM
/-!
# Properties of the petrophysical transformations (C89–C93)
-/
set_option linter.unusedSimpArgs false
namespace Verif.Petro
open Verif.Common (FP)

/-! ### Helpers -/

private theorem kw_pos : 0 < bulkWater := by unfold bulkWater densityWater; norm_num
private theorem ka_pos : 0 < bulkAir := by unfold bulkAir densityAir; norm_num

private theorem div_fin {a b : ℝ} (hb : b ≠ 0) : div (.fin a) (.fin b) = .fin (a / b) := by
  simp only [div]; rw [if_neg hb]

private theorem floor_nonneg {v : ℝ} (h : 0 ≤ v) : valid 0 (atLeast 0 (.fin v)) = v := by
  simp only [atLeast]; rw [if_neg (not_lt.mpr h)]; rfl

private theorem clip_nonneg (e : MP.Eqn) {v : ℝ} (h : 0 ≤ v) : valid 0 (clipIf e (.fin v)) = v := by
  unfold clipIf
  by_cases he : e = .elastic
  · rw [if_pos he]; simp only [atLeast]; rw [if_neg (by linarith)]; rfl
  · rw [if_neg he]; rfl

private theorem clip_other {e : MP.Eqn} (he : e ≠ .elastic) (v : ℝ) : valid 0 (clipIf e (.fin v)) = v := by
  unfold clipIf
  rw [if_neg he]; rfl

private theorem biot_mid {phi : ℝ} (h0 : 0 ≤ phi) (h1 : phi ≤ 4 / 10) : biot phi = phi / (4 / 10) := by
  have a : 0 ≤ phi / (4 / 10 : ℝ) := by positivity
  have b : phi / (4 / 10 : ℝ) ≤ 1 := by rw [div_le_one (by norm_num)]; exact h1
  unfold biot criticalPorosity
  simp only
  rw [if_neg (not_lt.mpr a), if_neg (not_lt.mpr b)]

private theorem biot_high {phi : ℝ} (h1 : 4 / 10 ≤ phi) : biot phi = 1 := by
  have b : 1 ≤ phi / (4 / 10 : ℝ) := by rw [one_le_div (by norm_num)]; exact h1
  unfold biot criticalPorosity
  simp only
  have a : ¬ phi / (4 / 10 : ℝ) < 0 := by linarith
  rw [if_neg a]
  rcases b.lt_or_eq with h | h
  · rw [if_pos h]
  · rw [← h]; simp

private theorem compl_pos {S : ℝ} (h0 : 0 ≤ S) (h1 : S ≤ 1) : 0 < S / bulkWater + (1 - S) / bulkAir := by
  have a := kw_pos
  have b := ka_pos
  rcases h0.lt_or_eq with h | h
  · have : 0 ≤ (1 - S) / bulkAir := div_nonneg (by linarith) b.le
    have : 0 < S / bulkWater := by positivity
    linarith
  · subst h; simp; exact b

private theorem fluid_eq {S : ℝ} (h0 : 0 ≤ S) (h1 : S ≤ 1) :
    bulkFluid S = 1 / (S / bulkWater + (1 - S) / bulkAir) := by
  have h := compl_pos h0 h1
  unfold bulkFluid
  rw [div_fin h.ne']
  exact floor_nonneg (one_div_nonneg.mpr h.le)

private theorem fluid_pos {S : ℝ} (h0 : 0 ≤ S) (h1 : S ≤ 1) : 0 < bulkFluid S := by
  rw [fluid_eq h0 h1]
  have := compl_pos h0 h1
  positivity

private theorem fluidMass_nonneg {phi S : ℝ} (hp : 0 ≤ phi) (h0 : 0 ≤ S) (h1 : S ≤ 1) :
    0 ≤ fluidMass phi S := by
  unfold fluidMass densityWater densityAir
  have : 0 ≤ 1 - S := by linarith
  positivity

private theorem velocity_eq {m rho : ℝ} (hm : 0 ≤ m) (hr : 0 < rho) : velocity m rho = Real.sqrt (m / rho) := by
  unfold velocity
  simp only [div]
  rw [if_neg hr.ne']
  simp only [root]
  rw [if_neg (not_lt.mpr (by positivity))]
  rfl

private theorem velocity_back {v rho : ℝ} (hv : 0 ≤ v) (hr : 0 < rho) :
    velocity (MP.modulusFromVelocity v rho) rho = v := by
  unfold MP.modulusFromVelocity
  rw [velocity_eq (by positivity) hr, show rho * v * v / rho = v ^ 2 by field_simp]
  exact Real.sqrt_sq hv

private theorem fourThirds_eq : fourThirds = 1 := by
  unfold fourThirds
  rw [show (4 : Int).tdiv 3 = 1 by decide]
  norm_num

/-- The quadratic equation solved for the bulk modulus of the matrix. -/
private theorem rockK_root (e : MP.Eqn) {phi S Ksat : ℝ} (h0 : 0 ≤ phi) (h1 : phi < 4 / 10) (hS0 : 0 ≤ S)
    (hS1 : S ≤ 1) (hK : 0 ≤ Ksat) :
    0 ≤ rockK e phi S Ksat ∧
      (1 - phi / (4 / 10)) / bulkFluid S * rockK e phi S Ksat ^ 2 +
        ((1 - phi / (4 / 10)) * (3 / 2) + phi / (4 / 10) / (4 / 10) - Ksat / bulkFluid S) *
          rockK e phi S Ksat - 3 / 2 * Ksat = 0 := by
  have hF := fluid_pos hS0 hS1
  have hb := biot_mid h0 h1.le
  set F := bulkFluid S with hFd
  have hbeta : phi / (4 / 10 : ℝ) < 1 := by rw [div_lt_one (by norm_num)]; exact h1
  set be := phi / (4 / 10 : ℝ) with hbe
  have ha : 0 < (1 - be) / F := div_pos (by linarith) hF
  set a := (1 - be) / F with had
  set b := (1 - be) * (3 / 2) + be / (4 / 10) - Ksat / F with hbd
  have hd : 0 ≤ b * b + 4 * a * (3 / 2 * Ksat) := add_nonneg (mul_self_nonneg b) (by positivity)
  have hval : rockK e phi S Ksat = (Real.sqrt (b * b + 4 * a * (3 / 2 * Ksat)) - b) / a / 2 := by
    unfold rockK
    simp only [hb, ← hFd, ← hbe]
    rw [show (1 / criticalPorosity - 1 : ℝ) = 3 / 2 by unfold criticalPorosity; norm_num]
    rw [show criticalPorosity = 4 / 10 from rfl]
    simp only [div]
    rw [if_neg hF.ne', if_neg hF.ne']
    simp only [sub, neg, add, mul]
    rw [← had, show (1 - be) * (3 / 2) + be / (4 / 10) + -(Ksat / F) = b by rw [hbd]; ring]
    rw [show b * b + -(4 * a * (-(3 / 2) * Ksat)) = b * b + 4 * a * (3 / 2 * Ksat) by ring]
    have hcl : clipIf e (.fin (b * b + 4 * a * (3 / 2 * Ksat))) = .fin (b * b + 4 * a * (3 / 2 * Ksat)) := by
      unfold clipIf
      split
      · simp only [atLeast]; rw [if_neg (not_lt.mpr hd)]
      · rfl
    rw [hcl]
    simp only [root]
    rw [if_neg (not_lt.mpr hd)]
    simp only
    rw [if_neg ha.ne']
    simp only
    rw [if_neg (by norm_num)]
    simp only [valid]
    rw [← sub_eq_add_neg]
    refine clip_nonneg e ?_
    have : b ≤ Real.sqrt (b * b + 4 * a * (3 / 2 * Ksat)) := by
      apply Real.le_sqrt_of_sq_le
      have : 0 ≤ 4 * a * (3 / 2 * Ksat) := by positivity
      nlinarith
    have : 0 ≤ Real.sqrt (b * b + 4 * a * (3 / 2 * Ksat)) - b := by linarith
    positivity
  have hsq := Real.mul_self_sqrt hd
  set r := Real.sqrt (b * b + 4 * a * (3 / 2 * Ksat)) with hr
  have hrb : b ≤ r := by
    rw [hr]
    apply Real.le_sqrt_of_sq_le
    have : 0 ≤ 4 * a * (3 / 2 * Ksat) := by positivity
    nlinarith
  rw [hval]
  constructor
  · have : 0 ≤ r - b := by linarith
    positivity
  · have ha' := ha.ne'
    clear_value a b r
    field_simp
    linear_combination hsq

/-- The modulus of the saturated rock, as one formula. -/
private theorem bulkM_eq {phi S K : ℝ} (h0 : 0 < phi) (h1 : phi < 4 / 10) (hS0 : 0 ≤ S) (hS1 : S ≤ 1)
    (hK : 0 < K) : bulkM phi S K = 1 / (phi / bulkFluid S + (phi / (4 / 10) - phi) / K) := by
  have hF := fluid_pos hS0 hS1
  have hpos : 0 < phi / bulkFluid S + (phi / (4 / 10) - phi) / K := by
    have : 0 < phi / (4 / 10) - phi := by
      rw [show phi / (4 / 10) - phi = phi * (3 / 2) by ring]; positivity
    positivity
  unfold bulkM
  rw [biot_mid h0.le h1.le]
  simp only
  rw [div_fin hF.ne', div_fin hK.ne']
  simp only [add]
  rw [div_fin hpos.ne']
  exact floor_nonneg (one_div_nonneg.mpr hpos.le)

private theorem bulkM_zero {phi S : ℝ} (h0 : 0 < phi) (hS0 : 0 ≤ S) (hS1 : S ≤ 1) (h1 : phi < 4 / 10) :
    bulkM phi S 0 = 0 := by
  have hF := fluid_pos hS0 hS1
  unfold bulkM
  rw [biot_mid h0.le h1.le]
  have h : 0 < phi / (4 / 10) - phi := by
    rw [show phi / (4 / 10) - phi = phi * (3 / 2) by ring]; positivity
  have h2 : div (.fin (phi / (4 / 10) - phi)) (.fin 0) = .inf := by
    simp only [div, if_true, infSign]
    rw [if_neg h.ne', if_pos h]
  simp only
  rw [div_fin hF.ne', h2]
  exact floor_nonneg le_rfl

private theorem satK_back (e : MP.Eqn) {phi S Ksat : ℝ} (h0 : 0 ≤ phi) (h1 : phi < 4 / 10) (hS0 : 0 ≤ S)
    (hS1 : S ≤ 1) (hK : 0 ≤ Ksat) (rho mu : ℝ) :
    satK e phi S ⟨rho, mu, rockK e phi S Ksat⟩ = Ksat := by
  obtain ⟨hk, hq⟩ := rockK_root e h0 h1 hS0 hS1 hK
  have hF := fluid_pos hS0 hS1
  unfold satK
  simp only
  set k := rockK e phi S Ksat
  rw [biot_mid h0 h1.le]
  have main : k * (1 - phi / (4 / 10)) + bulkM phi S k * (phi / (4 / 10)) * (phi / (4 / 10)) = Ksat := by
    rcases h0.lt_or_eq with hp | hp
    · rcases hk.lt_or_eq with hk' | hk'
      · rw [bulkM_eq hp h1 hS0 hS1 hk']
        clear_value k
        set F := bulkFluid S
        clear_value F
        have hd : 0 < phi * k + (phi * (3 / 2)) * F := by positivity
        have e1 : 1 / (phi / F + (phi / (4 / 10) - phi) / k) = F * k / (phi * k + (phi * (3 / 2)) * F) := by
          rw [show phi / (4 / 10) - phi = phi * (3 / 2) by ring]
          field_simp
        rw [e1]
        have hF' := hF.ne'
        have hd2 : 2 * k + 3 * F ≠ 0 := by positivity
        field_simp at hq ⊢
        linear_combination hq
      · rw [← hk', bulkM_zero hp hS0 hS1 h1]
        rw [← hk'] at hq
        linarith
    · subst hp
      have hq' : (k - Ksat) * (k / bulkFluid S + 3 / 2) = 0 := by
        have : (1 - 0 / (4 / 10) : ℝ) = 1 := by norm_num
        rw [this] at hq
        have h2 : (0 : ℝ) / (4 / 10) / (4 / 10) = 0 := by norm_num
        rw [h2] at hq
        rw [← hq]
        field_simp
        ring
      have : k / bulkFluid S + 3 / 2 ≠ 0 := by positivity
      have := (mul_eq_zero.mp hq').resolve_right this
      have h3 : (0 : ℝ) / (4 / 10) = 0 := by norm_num
      rw [h3]
      linarith
  rw [main]
  exact clip_nonneg e hK

/-! ### C89 -/

/-- C89: for a porosity below the critical porosity, transforming the rock matrix parameters of a model
back gives the density and velocities of the model. Missing: porosities from the critical one on. -/
theorem C89_roundtrip_partial (e : MP.Eqn) {phi S : ℝ} {w : Wave} (old : Rock) (h0 : 0 ≤ phi) (h1 : phi < 4 / 10)
    (hS0 : 0 ≤ S) (hS1 : S ≤ 1) (hr : 0 < w.density) (hs : 0 ≤ w.vs) (hp : 0 ≤ w.vp)
    (hsp : 4 * w.vs ^ 2 ≤ 3 * w.vp ^ 2 ∨ e.hasP = false)
    (hm : (S * 1000 + (1 - S) * (129 / 100)) * phi ≤ w.density) :
    waveFromPetro e phi S (rockMatrix e phi S w old) w = w := by
  by_cases he : e = .acoustic
  · unfold waveFromPetro; rw [if_pos he]
  have hphi : 0 < 1 - phi := by linarith
  have hbeta : 0 < 1 - phi / (4 / 10 : ℝ) := by
    have : phi / (4 / 10 : ℝ) < 1 := by rw [div_lt_one (by norm_num)]; exact h1
    linarith
  have hfm : fluidMass phi S ≤ w.density := hm
  unfold waveFromPetro rockMatrix
  rw [if_neg he, if_neg he]
  simp only
  set mu := MP.modulusFromVelocity w.vs w.density with hmu
  have hmu0 : 0 ≤ mu := by rw [hmu]; unfold MP.modulusFromVelocity; positivity
  have hrd : rockDensity e phi S w.density = (w.density - fluidMass phi S) / (1 - phi) := by
    unfold rockDensity
    simp only [div]
    rw [if_neg hphi.ne']
    simp only [mul, valid]
    rw [show (w.density - fluidMass phi S) * (1 / (1 - phi)) = (w.density - fluidMass phi S) / (1 - phi) by ring]
    exact clip_nonneg e (div_nonneg (by linarith) hphi.le)
  have hrm : rockMu e phi mu = mu / (1 - phi / (4 / 10)) := by
    unfold rockMu
    rw [biot_mid h0 h1.le]
    simp only [div]
    rw [if_neg hbeta.ne']
    simp only [mul, valid]
    rw [show mu * (1 / (1 - phi / (4 / 10))) = mu / (1 - phi / (4 / 10)) by ring]
    exact clip_nonneg e (by positivity)
  have hd : ∀ K m, satDensity e phi S ⟨rockDensity e phi S w.density, m, K⟩ = w.density := by
    intro K m
    unfold satDensity
    simp only
    rw [hrd, show (1 - phi) * ((w.density - fluidMass phi S) / (1 - phi)) + fluidMass phi S = w.density by
      field_simp; ring]
    exact clip_nonneg e hr.le
  have hmuback : ∀ K d, satMu e phi ⟨d, rockMu e phi mu, K⟩ = mu := by
    intro K d
    unfold satMu
    simp only
    rw [hrm, biot_mid h0 h1.le,
      show mu / (1 - phi / (4 / 10)) * (1 - phi / (4 / 10)) = mu from div_mul_cancel₀ _ hbeta.ne']
    exact clip_nonneg e hmu0
  rw [hd, hmuback]
  have hvs : velocity mu w.density = w.vs := velocity_back hs hr
  rw [hvs]
  by_cases hP : e.hasP = true
  · have hsp' : 4 * w.vs ^ 2 ≤ 3 * w.vp ^ 2 := by
      rcases hsp with h | h
      · exact h
      · rw [hP] at h; cases h
    rw [if_pos hP, if_pos hP]
    have hK : 0 ≤ MP.modulusFromVelocity w.vp w.density - fourThirds * mu := by
      rw [fourThirds_eq, hmu]
      unfold MP.modulusFromVelocity
      have : 0 ≤ w.vs ^ 2 := sq_nonneg _
      have : 0 ≤ w.density * (w.vp ^ 2 - w.vs ^ 2) := mul_nonneg hr.le (by linarith)
      linarith
    rw [clip_nonneg e hK, satK_back e h0 h1 hS0 hS1 hK]
    rw [show fourThirds * mu + (MP.modulusFromVelocity w.vp w.density - fourThirds * mu) =
      MP.modulusFromVelocity w.vp w.density by ring, velocity_back hp hr]
  · rw [if_neg hP]

/-- A sandstone with porosity 0.2, half filled with water. -/
example (old : Rock) : waveFromPetro .elastic (2 / 10) (1 / 2)
    (rockMatrix .elastic (2 / 10) (1 / 2) ⟨2200, 1500, 3000⟩ old) ⟨2200, 1500, 3000⟩ = ⟨2200, 1500, 3000⟩ := by
  refine C89_roundtrip_partial .elastic old ?_ ?_ ?_ ?_ ?_ ?_ ?_ (Or.inl ?_) ?_ <;> norm_num

/-- C89: from the critical porosity on the shear velocity is lost: it comes back as zero. -/
theorem C89_critical_violated (e : MP.Eqn) (he : e ≠ .acoustic) {phi S : ℝ} {w : Wave} (old : Rock)
    (h1 : 4 / 10 ≤ phi) : (waveFromPetro e phi S (rockMatrix e phi S w old) w).vs = 0 := by
  unfold waveFromPetro
  rw [if_neg he]
  simp only
  have : satMu e phi (rockMatrix e phi S w old) = 0 := by
    unfold satMu
    rw [biot_high h1, sub_self, mul_zero]
    exact clip_nonneg e le_rfl
  rw [this]
  unfold velocity
  simp only [div]
  split
  · simp only [infSign, if_true, root, valid]
  · simp [root, valid]

/-- For instance a rock with porosity 0.45 and shear velocity 300 m/s. -/
example (old : Rock) : (waveFromPetro .sh (45 / 100) 1
    (rockMatrix .sh (45 / 100) 1 ⟨1800, 300, 0⟩ old) ⟨1800, 300, 0⟩).vs ≠ 300 := by
  rw [C89_critical_violated .sh (by decide) old (by norm_num)]
  norm_num

/-! ### C90 -/

/-- C90: the porosity from which density and shear velocity were computed is recovered from them; a
porosity above the critical one comes back as the critical one. -/
theorem C90_porosity (e : MP.Eqn) (he : e ≠ .acoustic) {phi S : ℝ} {r : Rock} (w : Wave) (phi' : ℝ)
    (h0 : 0 ≤ phi) (hmu : 0 < r.mu) (hd : 0 < (1 - phi) * r.density + (S * 1000 + (1 - S) * (129 / 100)) * phi) :
    porosityFromWave e phi' r (waveFromPetro e phi S r w) = min phi (4 / 10) := by
  replace hd : 0 < (1 - phi) * r.density + fluidMass phi S := hd
  have hb : 0 ≤ 1 - biot phi := by
    rcases le_total phi (4 / 10) with h | h
    · rw [biot_mid h0 h]
      have : phi / (4 / 10 : ℝ) ≤ 1 := by rw [div_le_one (by norm_num)]; exact h
      linarith
    · rw [biot_high h]; norm_num
  unfold porosityFromWave waveFromPetro
  rw [if_neg he, if_neg he]
  simp only
  have hD : satDensity e phi S r = (1 - phi) * r.density + fluidMass phi S := clip_nonneg e hd.le
  have hM : satMu e phi r = r.mu * (1 - biot phi) := clip_nonneg e (mul_nonneg hmu.le hb)
  rw [hD, hM]
  set D := (1 - phi) * r.density + fluidMass phi S
  have hm0 : 0 ≤ r.mu * (1 - biot phi) := mul_nonneg hmu.le hb
  rw [velocity_eq hm0 hd]
  unfold MP.modulusFromVelocity
  rw [mul_assoc, Real.mul_self_sqrt (by positivity), mul_div_cancel₀ _ hd.ne']
  simp only [div]
  rw [if_neg hmu.ne', mul_div_cancel_left₀ _ hmu.ne']
  simp only [sub, neg, add, mul, valid]
  rcases le_total phi (4 / 10) with h | h
  · rw [biot_mid h0 h, min_eq_left h]; unfold criticalPorosity; ring
  · rw [biot_high h, min_eq_right h]; unfold criticalPorosity; ring

/-- Quartz with porosity 0.25. -/
example (w : Wave) : porosityFromWave .sh 0 ⟨2650, 44000000000, 0⟩
    (waveFromPetro .sh (1 / 4) 1 ⟨2650, 44000000000, 0⟩ w) = 1 / 4 := by
  rw [C90_porosity .sh (by decide) w 0 (by norm_num) (by norm_num)
    (by norm_num)]
  norm_num

/-! ### C91 -/

/-- Bulk modulus of the pore fluid: Wood's formula for water (1000 kg/m³, 1473 m/s) and air (1.29 kg/m³,
340 m/s). -/
noncomputable def wood (S : ℝ) : ℝ := 1 / (S / (1000 * 1473 ^ 2) + (1 - S) / (129 / 100 * 340 ^ 2))

/-- Gassmann's formula for the bulk modulus of the saturated rock, with the Biot coefficient
`phi / 0.4`. -/
noncomputable def gassmann (phi S K : ℝ) : ℝ :=
  (1 - phi / (4 / 10)) * K +
    (phi / (4 / 10)) ^ 2 / (phi / wood S + (phi / (4 / 10) - phi) / K)

private theorem wood_eq {S : ℝ} (h0 : 0 ≤ S) (h1 : S ≤ 1) : bulkFluid S = wood S := by
  rw [fluid_eq h0 h1]
  unfold wood bulkWater bulkAir densityWater densityAir
  norm_num

private theorem satK_gassmann (e : MP.Eqn) {phi S : ℝ} {r : Rock} (h0 : 0 < phi) (h1 : phi < 4 / 10)
    (hS0 : 0 ≤ S) (hS1 : S ≤ 1) (hK : 0 < r.K) :
    satK e phi S r = gassmann phi S r.K ∧ 0 < gassmann phi S r.K := by
  have hbeta : 0 < 1 - phi / (4 / 10 : ℝ) := by
    have : phi / (4 / 10 : ℝ) < 1 := by rw [div_lt_one (by norm_num)]; exact h1
    linarith
  have hF : 0 < wood S := by rw [← wood_eq hS0 hS1]; exact fluid_pos hS0 hS1
  have hq : 0 < phi / wood S + (phi / (4 / 10) - phi) / r.K := by
    have : 0 < phi / (4 / 10) - phi := by
      rw [show phi / (4 / 10) - phi = phi * (3 / 2) by ring]; positivity
    positivity
  have hg : 0 < gassmann phi S r.K := by unfold gassmann; positivity
  refine ⟨?_, hg⟩
  unfold satK
  rw [biot_mid h0.le h1.le, bulkM_eq h0 h1 hS0 hS1 hK, wood_eq hS0 hS1]
  rw [show r.K * (1 - phi / (4 / 10)) + 1 / (phi / wood S + (phi / (4 / 10) - phi) / r.K) *
    (phi / (4 / 10)) * (phi / (4 / 10)) = gassmann phi S r.K by unfold gassmann; ring]
  exact clip_nonneg e hg.le

/-- The velocities in terms of the moduli. -/
private theorem moduli (e : MP.Eqn) (he : e = .elastic ∨ e = .viscoelastic) {phi S : ℝ} {r : Rock}
    (w : Wave) (h0 : 0 < phi) (h1 : phi < 4 / 10) (hS0 : 0 ≤ S) (hS1 : S ≤ 1) (hr : 0 < r.density)
    (hmu : 0 ≤ r.mu) (hK : 0 < r.K) :
    (waveFromPetro e phi S r w).density * (waveFromPetro e phi S r w).vs ^ 2 =
        r.mu * (1 - phi / (4 / 10)) ∧
      (waveFromPetro e phi S r w).density * (waveFromPetro e phi S r w).vp ^ 2 =
        gassmann phi S r.K + r.mu * (1 - phi / (4 / 10)) := by
  have hac : e ≠ .acoustic := by rcases he with rfl | rfl <;> decide
  have hP : e.hasP = true := by rcases he with rfl | rfl <;> rfl
  have hbeta : 0 < 1 - phi / (4 / 10 : ℝ) := by
    have : phi / (4 / 10 : ℝ) < 1 := by rw [div_lt_one (by norm_num)]; exact h1
    linarith
  have hd : 0 < (1 - phi) * r.density + fluidMass phi S := by
    have := fluidMass_nonneg h0.le hS0 hS1
    have : 0 < (1 - phi) * r.density := mul_pos (by linarith) hr
    linarith
  have hD : satDensity e phi S r = (1 - phi) * r.density + fluidMass phi S := clip_nonneg e hd.le
  have hM : satMu e phi r = r.mu * (1 - phi / (4 / 10)) := by
    unfold satMu
    rw [biot_mid h0.le h1.le]
    exact clip_nonneg e (by positivity)
  obtain ⟨hG, hg⟩ := satK_gassmann e h0 h1 hS0 hS1 hK
  have hm : 0 ≤ r.mu * (1 - phi / (4 / 10)) := by positivity
  unfold waveFromPetro
  rw [if_neg hac]
  simp only
  rw [if_pos hP, fourThirds_eq, one_mul, hD, hM, hG]
  rw [velocity_eq hm hd, velocity_eq (by linarith) hd, Real.sq_sqrt (by positivity),
    Real.sq_sqrt (by positivity), mul_div_cancel₀ _ hd.ne', mul_div_cancel₀ _ hd.ne']
  exact ⟨rfl, by ring⟩

/-- C91 fails for every rock with a shear modulus: the P-wave velocity computed from petrophysical
parameters has the modulus `K + μ` instead of `K + 4/3 μ`. -/
theorem C91_p_modulus_violated (e : MP.Eqn) (he : e = .elastic ∨ e = .viscoelastic) {phi S : ℝ} {r : Rock}
    (w : Wave) (h0 : 0 < phi) (h1 : phi < 4 / 10) (hS0 : 0 ≤ S) (hS1 : S ≤ 1) (hr : 0 < r.density)
    (hmu : 0 < r.mu) (hK : 0 < r.K) :
    let v := waveFromPetro e phi S r w
    v.density * v.vp ^ 2 = gassmann phi S r.K + v.density * v.vs ^ 2 ∧
      v.density * v.vp ^ 2 < gassmann phi S r.K + 4 / 3 * (v.density * v.vs ^ 2) := by
  obtain ⟨a, b⟩ := moduli e he w h0 h1 hS0 hS1 hr hmu.le hK
  have hbeta : 0 < 1 - phi / (4 / 10 : ℝ) := by
    have : phi / (4 / 10 : ℝ) < 1 := by rw [div_lt_one (by norm_num)]; exact h1
    linarith
  have : 0 < r.mu * (1 - phi / (4 / 10)) := by positivity
  simp only
  rw [a, b]
  exact ⟨rfl, by linarith⟩

/-- C91: the S-wave modulus is the shear modulus of the frame, and without shear modulus the P-wave
modulus is right. Missing: the P-wave modulus of rocks with a shear modulus. -/
theorem C91_moduli_partial (e : MP.Eqn) (he : e = .elastic ∨ e = .viscoelastic) {phi S : ℝ} {r : Rock}
    (w : Wave) (h0 : 0 < phi) (h1 : phi < 4 / 10) (hS0 : 0 ≤ S) (hS1 : S ≤ 1) (hr : 0 < r.density)
    (hmu : 0 ≤ r.mu) (hK : 0 < r.K) :
    let v := waveFromPetro e phi S r w
    v.density * v.vs ^ 2 = r.mu * (1 - phi / (4 / 10)) ∧
      (r.mu = 0 → v.density * v.vp ^ 2 = gassmann phi S r.K + 4 / 3 * (v.density * v.vs ^ 2)) := by
  obtain ⟨a, b⟩ := moduli e he w h0 h1 hS0 hS1 hr hmu hK
  simp only
  rw [a, b]
  refine ⟨rfl, fun h => ?_⟩
  rw [h]; ring

/-- C91: the density is that of matrix and pore fluid, weighted with the porosity. -/
theorem C91_density (e : MP.Eqn) (he : e ≠ .acoustic) {phi S : ℝ} {r : Rock} (w : Wave) (h0 : 0 ≤ phi)
    (h1 : phi ≤ 1) (hS0 : 0 ≤ S) (hS1 : S ≤ 1) (hr : 0 ≤ r.density) :
    (waveFromPetro e phi S r w).density =
      (1 - phi) * r.density + phi * (S * 1000 + (1 - S) * (129 / 100)) := by
  have hf := fluidMass_nonneg h0 hS0 hS1
  unfold waveFromPetro
  rw [if_neg he]
  simp only [satDensity]
  rw [clip_nonneg e (add_nonneg (mul_nonneg (by linarith) hr) hf)]
  unfold fluidMass densityWater densityAir
  ring

/-- C91: without pores (porosity zero, or negative by rounding) the saturated rock has the moduli of
its matrix. -/
theorem C91_no_pores (e : MP.Eqn) {phi S : ℝ} {r : Rock} (h0 : phi ≤ 0) (hmu : 0 ≤ r.mu) (hK : 0 ≤ r.K) :
    satMu e phi r = r.mu ∧ satK e phi S r = r.K := by
  have hb : biot phi = 0 := by
    unfold biot criticalPorosity
    have h : phi / (4 / 10) ≤ 0 := by
      rw [div_nonpos_iff]; exact .inr ⟨h0, by norm_num⟩
    rcases h.eq_or_lt with h | h
    · simp [h]
    · simp only [if_pos h]; norm_num
  unfold satMu satK
  rw [hb]
  simp only [sub_zero, mul_one, mul_zero, add_zero]
  exact ⟨clip_nonneg e hmu, clip_nonneg e hK⟩

/-- Quartz with porosity 0.2, saturated with water. -/
example (w : Wave) : (waveFromPetro .elastic (1 / 5) 1 ⟨2650, 44000000000, 37000000000⟩ w).density = 2320 := by
  rw [C91_density .elastic (by decide) w] <;> norm_num

example (w : Wave) : let v := waveFromPetro .elastic (1 / 5) 1 ⟨2650, 44000000000, 37000000000⟩ w
    v.density * v.vp ^ 2 < gassmann (1 / 5) 1 37000000000 + 4 / 3 * (v.density * v.vs ^ 2) :=
  (C91_p_modulus_violated .elastic (Or.inl rfl) (r := ⟨2650, 44000000000, 37000000000⟩) w (by norm_num)
    (by norm_num) (by norm_num) (by norm_num) (by norm_num) (by norm_num) (by norm_num)).2

/-! ### C92 -/

private theorem sqrt_water : Real.sqrt epsWater = 9 := by
  unfold epsWater
  rw [show (81 : ℝ) = 9 ^ 2 by norm_num]
  exact Real.sqrt_sq (by norm_num)

private theorem sqrt_air : Real.sqrt epsAir = 1 := by
  unfold epsAir; exact Real.sqrt_one

private theorem pore_eq (phi S : ℝ) : poreIndex phi S = phi * (1 + 8 * S) := by
  unfold poreIndex
  rw [sqrt_water, sqrt_air]; ring

private theorem power_pos {x : ℝ} (h : 0 < x) (y : ℝ) : power x y = .fin (x ^ y) := by
  unfold power; rw [if_pos h]

private theorem sigma_back {A : Archie} {phi S sigma : ℝ} (ha : 0 < A.a) (hp : 0 < phi) (hS : 0 < S)
    (hs : 0 ≤ sigma) : sigmaFromPetro A phi S (sigmaWater A phi S sigma) = .fin sigma := by
  have p1 := Real.rpow_pos_of_pos hp A.m
  have p2 := Real.rpow_pos_of_pos hS A.n
  have w : sigmaWater A phi S sigma = sigma * A.a / phi ^ A.m / S ^ A.n := by
    unfold sigmaWater
    simp only
    rw [power_pos hp, power_pos hS]
    simp only [mul]
    rw [Real.rpow_neg hp.le, Real.rpow_neg hS.le]
    refine (floor_nonneg (show 0 ≤ sigma * A.a * (phi ^ A.m)⁻¹ * (S ^ A.n)⁻¹ by positivity)).trans ?_
    field_simp
  unfold sigmaFromPetro
  rw [w, div_fin ha.ne', power_pos hp, power_pos hS]
  simp only [mul]
  rw [show sigma * A.a / phi ^ A.m / S ^ A.n / A.a * phi ^ A.m * S ^ A.n = sigma by field_simp]
  simp only [atLeast]
  rw [if_neg (not_lt.mpr hs)]

private theorem epsMatrix_eq {phi S eps : ℝ} (hp : phi < 1)
    (h1 : (1 - phi) + phi * (1 + 8 * S) ≤ Real.sqrt (eps / EMP.epsVac))
    (h2 : Real.sqrt (eps / EMP.epsVac) ≤ 9 * (1 - phi) + phi * (1 + 8 * S)) (he : 0 ≤ eps / EMP.epsVac) :
    epsMatrix phi S eps = ((Real.sqrt (eps / EMP.epsVac) - phi * (1 + 8 * S)) / (1 - phi)) ^ 2 := by
  have hq : 0 < 1 - phi := by linarith
  have r1 : 1 ≤ (Real.sqrt (eps / EMP.epsVac) - phi * (1 + 8 * S)) / (1 - phi) := by
    rw [le_div_iff₀ hq]; linarith
  have r2 : (Real.sqrt (eps / EMP.epsVac) - phi * (1 + 8 * S)) / (1 - phi) ≤ 9 := by
    rw [div_le_iff₀ hq]; linarith
  unfold epsMatrix
  simp only [root]
  rw [if_neg (not_lt.mpr he), pore_eq, div_fin hq.ne']
  simp only [sub, neg, add, mul, valid]
  rw [show (Real.sqrt (eps / EMP.epsVac) + -(phi * (1 + 8 * S))) * (1 / (1 - phi)) =
    (Real.sqrt (eps / EMP.epsVac) - phi * (1 + 8 * S)) / (1 - phi) by ring]
  set q := (Real.sqrt (eps / EMP.epsVac) - phi * (1 + 8 * S)) / (1 - phi)
  unfold epsAir epsWater
  simp only [atLeast]
  rw [if_neg (not_lt.mpr (by nlinarith))]
  simp only [atMost]
  rw [if_neg (not_lt.mpr (by nlinarith))]
  ring

private theorem epsFromPetro_eq {phi S em : ℝ} (hp0 : 0 ≤ phi) (hp : phi ≤ 1) (hS0 : 0 ≤ S) (hS1 : S ≤ 1)
    (h1 : 1 ≤ em) (h2 : em ≤ 81) :
    epsFromPetro phi S em =
      .fin (((1 - phi) * Real.sqrt em + phi * (1 + 8 * S)) ^ 2 * EMP.epsVac) := by
  have s1 : 1 ≤ Real.sqrt em := by rw [Real.one_le_sqrt]; exact h1
  have s2 : Real.sqrt em ≤ 9 := by
    rw [Real.sqrt_le_left (by norm_num)]; linarith
  unfold epsFromPetro
  simp only [root]
  rw [if_neg (by linarith), pore_eq]
  simp only [mul, add]
  rw [show Real.sqrt em * (1 - phi) + phi * (1 + 8 * S) =
    (1 - phi) * Real.sqrt em + phi * (1 + 8 * S) by ring]
  set q := (1 - phi) * Real.sqrt em + phi * (1 + 8 * S) with hq
  have q1 : 1 ≤ q := by
    have a : 0 ≤ (1 - phi) * (Real.sqrt em - 1) := mul_nonneg (by linarith) (by linarith)
    have b : 0 ≤ phi * S := mul_nonneg hp0 hS0
    rw [hq]; linarith
  have q2 : q ≤ 9 := by
    have a : 0 ≤ (1 - phi) * (9 - Real.sqrt em) := mul_nonneg (by linarith) (by linarith)
    have b : 0 ≤ phi * (1 - S) := mul_nonneg hp0 (by linarith)
    rw [hq]; linarith
  unfold epsAir epsWater
  simp only [atLeast]
  rw [if_neg (not_lt.mpr (by nlinarith))]
  simp only [atMost]
  rw [if_neg (not_lt.mpr (by nlinarith))]
  simp only [mul]
  rw [show q * q = q ^ 2 by ring]

private theorem eps_back {phi S eps : ℝ} (hp0 : 0 ≤ phi) (hp : phi < 1) (hS0 : 0 ≤ S) (hS1 : S ≤ 1)
    (he : 0 ≤ eps)
    (h1 : (1 - phi) + phi * (1 + 8 * S) ≤ Real.sqrt (eps / EMP.epsVac))
    (h2 : Real.sqrt (eps / EMP.epsVac) ≤ 9 * (1 - phi) + phi * (1 + 8 * S)) :
    epsFromPetro phi S (epsMatrix phi S eps) = .fin eps := by
  have hv := EMP.epsVac_pos
  have hq : 0 < 1 - phi := by linarith
  have he' : 0 ≤ eps / EMP.epsVac := by positivity
  have r1 : 1 ≤ (Real.sqrt (eps / EMP.epsVac) - phi * (1 + 8 * S)) / (1 - phi) := by
    rw [le_div_iff₀ hq]; linarith
  have r2 : (Real.sqrt (eps / EMP.epsVac) - phi * (1 + 8 * S)) / (1 - phi) ≤ 9 := by
    rw [div_le_iff₀ hq]; linarith
  rw [epsMatrix_eq hp h1 h2 he', epsFromPetro_eq hp0 hp.le hS0 hS1 (by nlinarith) (by nlinarith),
    Real.sqrt_sq (by linarith), mul_div_cancel₀ _ hq.ne']
  rw [show Real.sqrt (eps / EMP.epsVac) - phi * (1 + 8 * S) + phi * (1 + 8 * S) =
    Real.sqrt (eps / EMP.epsVac) by ring, Real.sq_sqrt he', div_mul_cancel₀ _ hv.ne']

private theorem waveEM_back (e : EMP.Eqn) {ι : Type} {A : Archie} {phi S : ι → ℝ} {b : EMP.Base ι}
    {sg ep : ι → ℝ} {r : (ι → ℝ) × (ι → ℝ)}
    (h1 : ∀ x, sigmaFromPetro A (phi x) (S x) (r.1 x) = .fin (sg x))
    (h2 : ∀ x, epsFromPetro (phi x) (S x) (r.2 x) = .fin (ep x)) :
    waveEM e A phi S r b =
      some (if e.visco then EMP.fromEffective b ep sg else { b with eps := ep, sigma := sg }) := by
  unfold waveEM
  simp only
  rw [if_pos (fun x => ⟨⟨_, h1 x⟩, ⟨_, h2 x⟩⟩)]
  simp only [h1, h2, valid]

/-- The refractive index `n` of a point can be explained by a matrix with a permittivity between those
of vacuum and water, in the mixing rule `n = (1 - phi) n_ma + phi (S n_water + (1 - S) n_air)`. -/
def Explained (phi S eps : ℝ) : Prop :=
  ∃ nMa, 1 ≤ nMa ∧ nMa ≤ 9 ∧
    Real.sqrt (eps / EMP.epsVac) = (1 - phi) * nMa + phi * (S * 9 + (1 - S) * 1)

private theorem Explained.bounds {phi S eps : ℝ} (h : Explained phi S eps) (hp : phi < 1) :
    (1 - phi) + phi * (1 + 8 * S) ≤ Real.sqrt (eps / EMP.epsVac) ∧
      Real.sqrt (eps / EMP.epsVac) ≤ 9 * (1 - phi) + phi * (1 + 8 * S) := by
  obtain ⟨n, h1, h2, h3⟩ := h
  rw [h3]
  have a : 0 ≤ (1 - phi) * (n - 1) := mul_nonneg (by linarith) (by linarith)
  have b : 0 ≤ (1 - phi) * (9 - n) := mul_nonneg (by linarith) (by linarith)
  constructor <;> linarith

/-- C92: without relaxation, transforming water conductivity and matrix permittivity of a model back
gives the model, if every point has pores with some water and its permittivity can be explained by an
admissible matrix. Missing: dry points, points without pores and other permittivities. -/
theorem C92_roundtrip_partial (e : EMP.Eqn) (he : e.visco = false) {ι : Type} {A : Archie} (ha : 0 < A.a)
    {phi S : ι → ℝ} {b : EMP.Base ι} (hp : ∀ x, 0 < phi x ∧ phi x < 1) (hS : ∀ x, 0 < S x ∧ S x ≤ 1)
    (hs : ∀ x, 0 ≤ b.sigma x) (hE : ∀ x, 0 ≤ b.eps x) (hx : ∀ x, Explained (phi x) (S x) (b.eps x)) :
    waveEM e A phi S (rockEM e A phi S b) b = some b := by
  rw [waveEM_back e (sg := b.sigma) (ep := b.eps), he]
  · rfl
  · intro x
    simp only [rockEM, he, Bool.false_eq_true, if_false]
    exact sigma_back ha (hp x).1 (hS x).1 (hs x)
  · intro x
    simp only [rockEM, he, Bool.false_eq_true, if_false]
    have := (hx x).bounds (hp x).2
    exact eps_back (hp x).1.le (hp x).2 (hS x).1.le (hS x).2 (hE x) this.1 this.2

/-- C92 with relaxation: the same for the effective values, where no value is raised to that of
vacuum. Missing: the points excluded above, and points where an effective value is below that of
vacuum. -/
theorem C92_relaxation_partial (e : EMP.Eqn) (he : e.visco = true) {ι : Type} {A : Archie} (ha : 0 < A.a)
    {phi S : ι → ℝ} {b : EMP.Base ι} (hp : ∀ x, 0 < phi x ∧ phi x < 1) (hS : ∀ x, 0 < S x ∧ S x ≤ 1)
    (h1 : ∀ x, 0 ≤ b.sigma x) (h2 : ∀ x, EMP.epsVac ≤ b.eps x)
    (h3 : ∀ x, EMP.epsVac ≤
      b.eps x * (1 - EMP.dispersion b * b.tauEps x) + b.sigma x * b.tauSigma x)
    (h4 : ∀ x, 0 ≤ b.eps x * (EMP.loss b * b.tauEps x) + b.sigma x)
    (h5 : ∀ x, 1 - EMP.dispersion b * b.tauEps x - EMP.loss b * b.tauEps x * b.tauSigma x ≠ 0)
    (hx : ∀ x, Explained (phi x) (S x) (EMP.epsEff b x)) :
    waveEM e A phi S (rockEM e A phi S b) b = some b := by
  have hv := EMP.epsVac_pos
  have hfl : ∀ lo v, lo ≤ EMP.floorAt lo v := by
    intro lo v
    unfold EMP.floorAt
    split
    · exact le_rfl
    · rename_i h; exact not_lt.mp h
  rw [waveEM_back e (sg := EMP.sigmaEff b) (ep := EMP.epsEff b), he]
  · simp only [if_true]
    obtain ⟨k1, k2⟩ := EMP.static_of_effective (c := b) h1 h2 h3 h4 h5 rfl rfl rfl rfl rfl
    unfold EMP.fromEffective
    rw [k1, k2]
  · intro x
    simp only [rockEM, he, if_true]
    exact sigma_back ha (hp x).1 (hS x).1 (hfl _ _)
  · intro x
    simp only [rockEM, he, if_true]
    have := (hx x).bounds (hp x).2
    exact eps_back (hp x).1.le (hp x).2 (hS x).1.le (hS x).2 (hv.le.trans (hfl _ _)) this.1 this.2

/-- A wet sand: porosity 0.5, saturation 0.5, matrix index 2, i.e. index 3.5. -/
example (mu : ℝ) : waveEM .tmem ⟨1, 2, 2⟩ (fun _ : Unit => 1 / 2) (fun _ => 1 / 2)
    (rockEM .tmem ⟨1, 2, 2⟩ (fun _ => 1 / 2) (fun _ => 1 / 2)
      ⟨fun _ => mu, fun _ => 1 / 100, fun _ => (7 / 2) ^ 2 * EMP.epsVac, fun _ => 0, fun _ => 0, 0, [], 0⟩)
      ⟨fun _ => mu, fun _ => 1 / 100, fun _ => (7 / 2) ^ 2 * EMP.epsVac, fun _ => 0, fun _ => 0, 0, [], 0⟩ =
    some ⟨fun _ => mu, fun _ => 1 / 100, fun _ => (7 / 2) ^ 2 * EMP.epsVac, fun _ => 0, fun _ => 0, 0, [], 0⟩ := by
  have hv := EMP.epsVac_pos
  refine C92_roundtrip_partial .tmem rfl (by norm_num) (fun _ => by norm_num) (fun _ => by norm_num)
    (fun _ => by norm_num) (fun _ => by positivity) (fun _ => ⟨2, by norm_num, by norm_num, ?_⟩)
  simp only
  rw [mul_div_cancel_right₀ _ hv.ne', Real.sqrt_sq (by norm_num)]
  norm_num

/-- C92 fails where the permittivity is too small for its pores: the difference of the indices is
negative, but is squared. Vacuum permittivity with porosity 1/2 filled with water comes back as 64 times
that of vacuum. -/
theorem C92_unexplained_violated :
    epsFromPetro (1 / 2) 1 (epsMatrix (1 / 2) 1 EMP.epsVac) = .fin (64 * EMP.epsVac) := by
  have hv := EMP.epsVac_pos
  have h1 : epsMatrix (1 / 2) 1 EMP.epsVac = 49 := by
    unfold epsMatrix
    rw [div_self hv.ne']
    simp only [root]
    rw [if_neg (by norm_num), pore_eq, Real.sqrt_one, div_fin (by norm_num)]
    simp only [sub, neg, add, mul, valid]
    norm_num [atLeast, atMost, epsAir, epsWater]
  rw [h1, epsFromPetro_eq (by norm_num) (by norm_num) (by norm_num) (by norm_num) (by norm_num) (by norm_num)]
  rw [show (49 : ℝ) = 7 ^ 2 by norm_num, Real.sqrt_sq (by norm_num)]
  norm_num

/-- C92 fails for dry points with a conductivity: it comes back as zero. -/
theorem C92_dry_violated {A : Archie} {phi sigma : ℝ} (hp : 0 < phi) (ha : 0 < A.a) (hn : 0 < A.n)
    (hs : 0 < sigma) : sigmaFromPetro A phi 0 (sigmaWater A phi 0 sigma) = .fin 0 := by
  have w : sigmaWater A phi 0 sigma = 0 := by
    have p := Real.rpow_pos_of_pos hp (-A.m)
    unfold sigmaWater
    have h0 : power 0 (-A.n) = .inf := by
      unfold power
      rw [if_neg (lt_irrefl _), if_neg (lt_irrefl _), if_pos (by linarith)]
    simp only
    rw [power_pos hp, h0]
    have q : 0 < sigma * A.a * phi ^ (-A.m) := by positivity
    simp only [mul, infSign]
    rw [if_neg q.ne', if_pos q]
    exact floor_nonneg le_rfl
  have h0 : power 0 A.n = .fin 0 := by
    unfold power
    rw [if_neg (lt_irrefl _), if_neg (lt_irrefl _), if_neg (by linarith), if_neg hn.ne']
  unfold sigmaFromPetro
  rw [w, div_fin ha.ne', power_pos hp, h0]
  simp [mul, atLeast]

/-! ### C93 -/

private theorem sqrt_back {q : ℝ} (hq : 0 ≤ q) : Real.sqrt (q ^ 2 * EMP.epsVac / EMP.epsVac) = q := by
  rw [mul_div_cancel_right₀ _ EMP.epsVac_pos.ne', Real.sqrt_sq hq]

/-- C93: the saturation from which the permittivity was computed is recovered from it with the same
porosity, in every call that updates the saturation. -/
theorem C93_saturation {strategy count : Int} (hc : strategy ≠ 2 ∨ count.tmod 2 = 0) {phi S S' em : ℝ}
    (hp0 : 0 < phi) (hp1 : phi ≤ 1) (hS0 : 0 ≤ S) (hS1 : S ≤ 1) (h1 : 1 ≤ em) (h2 : em ≤ 81) :
    ∃ eps, epsFromPetro phi S em = .fin eps ∧ petroFromEM strategy count phi S' em eps = (phi, S) := by
  refine ⟨_, epsFromPetro_eq hp0.le hp1 hS0 hS1 h1 h2, ?_⟩
  have hq : 0 ≤ (1 - phi) * Real.sqrt em + phi * (1 + 8 * S) := by
    have : 0 ≤ 1 - phi := by linarith
    positivity
  have hv := EMP.epsVac_pos
  unfold petroFromEM
  simp only
  rw [if_pos hc]
  simp only [root]
  rw [if_neg (not_lt.mpr (by positivity)), if_neg (not_lt.mpr (by linarith)), sqrt_back hq, sqrt_water,
    sqrt_air]
  simp only [mul, sub, neg, add]
  rw [div_fin hp0.ne']
  simp only [add]
  rw [div_fin (by norm_num)]
  simp only [valid]
  congr 1
  field_simp
  ring

/-- C93: so is the porosity, with the same saturation, in the calls that update the porosity, if pore
filling and matrix differ. Missing: equal refractive indices, where the porosity has no influence. -/
theorem C93_porosity_partial {count : Int} (hc : count.tmod 2 = 1) {phi phi' S em : ℝ}
    (hp0 : 0 ≤ phi) (hp1 : phi ≤ 1) (hS0 : 0 ≤ S) (hS1 : S ≤ 1) (h1 : 1 ≤ em) (h2 : em ≤ 81)
    (hne : 1 + 8 * S ≠ Real.sqrt em) :
    ∃ eps, epsFromPetro phi S em = .fin eps ∧ petroFromEM 2 count phi' S em eps = (phi, S) := by
  refine ⟨_, epsFromPetro_eq hp0 hp1 hS0 hS1 h1 h2, ?_⟩
  have hq : 0 ≤ (1 - phi) * Real.sqrt em + phi * (1 + 8 * S) := by
    have : 0 ≤ 1 - phi := by linarith
    positivity
  have hv := EMP.epsVac_pos
  unfold petroFromEM
  simp only
  rw [if_neg (by rw [hc]; simp), if_pos hc]
  simp only [root]
  rw [if_neg (not_lt.mpr (by positivity)), if_neg (not_lt.mpr (by linarith)), sqrt_back hq, sqrt_water,
    sqrt_air]
  simp only [mul, sub, neg, add]
  have hd : S * 9 + (1 - S) * 1 + -Real.sqrt em ≠ 0 := by
    intro h
    apply hne
    linarith
  rw [div_fin hd]
  simp only [valid]
  congr 1
  rw [div_eq_iff hd]
  ring

/-- C93: with equal refractive indices the porosity is set to zero. -/
theorem C93_equal_index_violated : ∃ eps, epsFromPetro (1 / 3) 0 1 = .fin eps ∧
    petroFromEM 2 1 (1 / 3) 0 1 eps = (0, 0) := by
  refine ⟨_, epsFromPetro_eq (by norm_num) (by norm_num) (by norm_num) (by norm_num) (by norm_num)
    (by norm_num), ?_⟩
  have hv := EMP.epsVac_pos
  unfold petroFromEM
  simp only
  rw [if_neg (by decide), if_pos (by decide)]
  simp only [root]
  rw [if_neg (not_lt.mpr (by positivity)), if_neg (by norm_num), Real.sqrt_one, sqrt_back (by norm_num),
    sqrt_water, sqrt_air]
  simp only [sub, neg, add, div]
  norm_num [infSign, valid]

/-- C93: with `exchangeStrategy = 2` two calls in a row update the saturation and the porosity in turn,
starting with the saturation. -/
theorem C93_alternates {count : Int} (h : count.tmod 2 = 0) (hn : 0 ≤ count) (phi S em e1 e2 : ℝ) :
    (petroFromEM 2 count phi S em e1).1 = phi ∧ (petroFromEM 2 (count + 1) phi S em e2).2 = S := by
  have h1 : (count + 1).tmod 2 = 1 := by
    rw [Int.tmod_eq_emod_of_nonneg (by omega)] at h ⊢
    omega
  constructor
  · unfold petroFromEM
    simp only
    rw [if_pos (Or.inr h)]
  · unfold petroFromEM
    simp only
    rw [if_neg (by rw [h1]; simp), if_pos h1]

/-- A wet sand. -/
example : ∃ eps, epsFromPetro (1 / 2) (1 / 2) 4 = .fin eps ∧
    petroFromEM 0 0 (1 / 2) 0 4 eps = (1 / 2, 1 / 2) ∧ petroFromEM 2 1 0 (1 / 2) 4 eps = (1 / 2, 1 / 2) := by
  obtain ⟨e1, a, b⟩ := C93_saturation (strategy := 0) (count := 0) (Or.inl (by decide)) (phi := 1 / 2)
    (S := 1 / 2) (S' := 0) (em := 4) (by norm_num) (by norm_num) (by norm_num) (by norm_num) (by norm_num)
    (by norm_num)
  obtain ⟨e2, c, d⟩ := C93_porosity_partial (count := 1) (by decide) (phi := 1 / 2) (phi' := 0)
    (S := 1 / 2) (em := 4) (by norm_num) (by norm_num) (by norm_num) (by norm_num) (by norm_num)
    (by norm_num) (by
      rw [show (4 : ℝ) = 2 ^ 2 by norm_num, Real.sqrt_sq (by norm_num)]; norm_num)
  rw [a] at c
  cases c
  exact ⟨e1, a, b, d⟩

end Verif.Petro
