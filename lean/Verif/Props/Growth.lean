import Verif.Lemmas.Growth
import Verif.Props.ViscoStability
import Verif.Model.ModelParam
import Mathlib.Topology.Order.IntermediateValue
import Mathlib.Topology.Algebra.Order.Field
import Mathlib.Topology.Instances.Real.Lemmas
/-!
# C94, C96: above the Courant limit wavefields grow without bound, and the check lets them through
-/
set_option linter.dupNamespace false
set_option linter.unusedSectionVars false

namespace Verif.Solver
open Matrix Verif.Stencil Verif.Check

/-- A component of the wavefield exceeds every bound at some grid point. -/
def BlowsUp {ι : Type} [Fintype ι] [DecidableEq ι] (S : Solver ι) (f : Fld) (w : State ι) : Prop :=
  ∃ i, ∀ M : ℝ, ∃ n, M < |run S [] w n (.fld f) i|

private theorem blows_up {ι : Type} [Fintype ι] [DecidableEq ι] {S : Solver ι} {f : Fld} {w : State ι} {g b : ℝ}
    {y : ι → ℝ} (hg : g < -1) (hb : b ≠ 0) (hy : y ≠ 0)
    (h : ∀ n, run S [] w n (.fld f) = fun i => g ^ n * (b * y i)) : BlowsUp S f w := by
  obtain ⟨i, hi⟩ := Function.ne_iff.mp hy
  have hp : 0 < |b * y i| := abs_pos.mpr (mul_ne_zero hb hi)
  refine ⟨i, fun M => ?_⟩
  obtain ⟨n, hn⟩ := pow_unbounded_of_one_lt (M / |b * y i|) (show 1 < |g| by rw [lt_abs]; right; linarith)
  refine ⟨n, ?_⟩
  rw [h]
  simp only
  rw [abs_mul, abs_pow]
  exact (div_lt_iff₀ hp).mp hn

private theorem growth_factor {q : ℝ} (hq : 4 < q) : ∃ g : ℝ, g < -1 ∧ (g - 1) ^ 2 = -(q * g) := by
  have h0 : 0 ≤ (q - 2) ^ 2 - 4 := by nlinarith
  have h1 := Real.sq_sqrt h0
  have h2 := Real.sqrt_nonneg ((q - 2) ^ 2 - 4)
  refine ⟨-((q - 2) + √((q - 2) ^ 2 - 4)) / 2, by linarith, ?_⟩
  linear_combination (1 / 4 : ℝ) * h1

/-- Grids on which the fastest oscillation is fast enough. -/
private theorem fine_enough {k h : ℕ} {κ A : ℝ} (hκ : κ < k * A) :
    ∃ N0 : ℕ, 0 < N0 ∧ ∀ N, N0 ≤ N → κ < k * (1 - 2 * h / N) * A := by
  obtain ⟨N0, hN0⟩ := exists_nat_gt (k * A * (2 * h) / (k * A - κ))
  have hd : 0 < k * A - κ := by linarith
  refine ⟨max N0 1, by simp, fun N hN => ?_⟩
  have h1 : 1 ≤ N := le_trans (le_max_right _ _) hN
  have hN' : (0 : ℝ) < N := by exact_mod_cast h1
  have h2 : (N0 : ℝ) ≤ N := by exact_mod_cast le_trans (le_max_left _ _) hN
  have h3 := (div_lt_iff₀ hd).mp (lt_of_lt_of_le hN0 h2)
  have h4 : k * A * (2 * h) / N < k * A - κ := by rw [div_lt_iff₀ hN']; linarith
  have e : k * (1 - 2 * h / N) * A = k * A - k * A * (2 * h) / N := by ring
  linarith

private theorem above_limit {DT DH g r v : ℝ} (hDT : 0 < DT) (hDH : 0 < DH) (hg : 0 < g) (hr : 0 < r)
    (hv : 0 < v) (hC : DH / (g * r * v) < DT) : 4 / (v ^ 2 * (DT / DH) ^ 2) < r ^ 2 * (2 * g) ^ 2 := by
  rw [div_lt_iff₀ (by positivity)] at hC
  have h1 : 1 < DT * (g * r * v) / DH := by rw [lt_div_iff₀ hDH]; linarith
  rw [div_lt_iff₀ (by positivity)]
  have e : r ^ 2 * (2 * g) ^ 2 * (v ^ 2 * (DT / DH) ^ 2) = 4 * (DT * (g * r * v) / DH) ^ 2 := by
    field_simp; ring
  rw [e]
  nlinarith

/-! ### Growing modes of homogeneous models -/
section Modes
variable {ι : Type} [Fintype ι] [DecidableEq ι]

private theorem acoustic2D_grows {D : Deriv ι} {m : Mod ι} {c : BC ι} (hc : c.plain) (hD : D.regular)
    {K R lam : ℝ} (hm : ∀ i, m.pMod i = K ∧ m.invRhoX i = R ∧ m.invRhoY i = R) {y : ι → ℝ} (hy : y ≠ 0)
    (hmode : ∀ i, D.Dxfᵀ.mulVec (D.Dxf.mulVec y) i + D.Dyfᵀ.mulVec (D.Dyf.mulVec y) i = lam * y i)
    (hq : 4 < K * R * lam) : ∃ w, BlowsUp (acoustic2DSolver D m c) .p w := by
  obtain ⟨g, hg1, hg2⟩ := growth_factor hq
  obtain ⟨w, hw⟩ : ∃ w : State ι, w = fun v => if v = .fld .p then (g - 1) • y
    else if v = .fld .vX then R • D.Dxf.mulVec y
    else if v = .fld .vY then R • D.Dyf.mulVec y else 0 := ⟨_, rfl⟩
  have key : ∀ n, run (acoustic2DSolver D m c) [] w n (.fld .p) = g ^ n • ((g - 1) • y) ∧
      run (acoustic2DSolver D m c) [] w n (.fld .vX) = g ^ n • (R • D.Dxf.mulVec y) ∧
      run (acoustic2DSolver D m c) [] w n (.fld .vY) = g ^ n • (R • D.Dyf.mulVec y) := by
    intro n
    induction n with
    | zero => refine ⟨?_, ?_, ?_⟩ <;> simp [run, hw]
    | succ n ih =>
      rw [run_succ_nil]
      generalize run (acoustic2DSolver D m c) [] w n = u at ih ⊢
      obtain ⟨i1, i2, i3⟩ := ih
      obtain ⟨e1, e2, e3⟩ := acoustic2D_plain (m := m) hc hD u
      change exec (acoustic2D D m c) u _ = _ ∧ exec (acoustic2D D m c) u _ = _ ∧
        exec (acoustic2D D m c) u _ = _
      generalize exec (acoustic2D D m c) u = u' at e1 e2 e3 ⊢
      have f1 : u' (.fld .vX) = g ^ (n + 1) • (R • D.Dxf.mulVec y) := by
        rw [e1, i2, i1]
        funext i
        simp only [mulVec_smul, Pi.smul_apply, smul_eq_mul, (hm i).2.1]
        ring
      have f2 : u' (.fld .vY) = g ^ (n + 1) • (R • D.Dyf.mulVec y) := by
        rw [e2, i3, i1]
        funext i
        simp only [mulVec_smul, Pi.smul_apply, smul_eq_mul, (hm i).2.2]
        ring
      refine ⟨?_, f1, f2⟩
      rw [e3, f1, f2, i1, hD.adjX, hD.adjY]
      funext i
      simp only [neg_mulVec, Pi.neg_apply, mulVec_smul, Pi.smul_apply, smul_eq_mul, (hm i).1]
      linear_combination (-(g ^ (n + 1) * R * K)) * hmode i - g ^ n * y i * hg2
  exact ⟨w, blows_up hg1 (b := g - 1) (by linarith) hy fun n => by
    rw [(key n).1]; funext i; simp⟩

private theorem acoustic3D_grows {D : Deriv ι} {m : Mod ι} {c : BC ι} (hc : c.plain) (hD : D.regular)
    {K R lam : ℝ} (hm : ∀ i, m.pMod i = K ∧ m.invRhoX i = R ∧ m.invRhoY i = R ∧ m.invRhoZ i = R)
    {y : ι → ℝ} (hy : y ≠ 0)
    (hmode : ∀ i, D.Dxfᵀ.mulVec (D.Dxf.mulVec y) i + (D.Dyfᵀ.mulVec (D.Dyf.mulVec y) i +
      D.Dzfᵀ.mulVec (D.Dzf.mulVec y) i) = lam * y i)
    (hq : 4 < K * R * lam) : ∃ w, BlowsUp (acoustic3DSolver D m c) .p w := by
  obtain ⟨g, hg1, hg2⟩ := growth_factor hq
  obtain ⟨w, hw⟩ : ∃ w : State ι, w = fun v => if v = .fld .p then (g - 1) • y
    else if v = .fld .vX then R • D.Dxf.mulVec y
    else if v = .fld .vY then R • D.Dyf.mulVec y
    else if v = .fld .vZ then R • D.Dzf.mulVec y else 0 := ⟨_, rfl⟩
  have key : ∀ n, run (acoustic3DSolver D m c) [] w n (.fld .p) = g ^ n • ((g - 1) • y) ∧
      run (acoustic3DSolver D m c) [] w n (.fld .vX) = g ^ n • (R • D.Dxf.mulVec y) ∧
      run (acoustic3DSolver D m c) [] w n (.fld .vY) = g ^ n • (R • D.Dyf.mulVec y) ∧
      run (acoustic3DSolver D m c) [] w n (.fld .vZ) = g ^ n • (R • D.Dzf.mulVec y) := by
    intro n
    induction n with
    | zero => refine ⟨?_, ?_, ?_, ?_⟩ <;> simp [run, hw]
    | succ n ih =>
      rw [run_succ_nil]
      generalize run (acoustic3DSolver D m c) [] w n = u at ih ⊢
      obtain ⟨i1, i2, i3, i4⟩ := ih
      obtain ⟨e1, e2, e3, e4⟩ := acoustic3D_plain (m := m) hc hD u
      change exec (acoustic3D D m c) u _ = _ ∧ exec (acoustic3D D m c) u _ = _ ∧
        exec (acoustic3D D m c) u _ = _ ∧ exec (acoustic3D D m c) u _ = _
      generalize exec (acoustic3D D m c) u = u' at e1 e2 e3 e4 ⊢
      have f1 : u' (.fld .vX) = g ^ (n + 1) • (R • D.Dxf.mulVec y) := by
        rw [e1, i2, i1]
        funext i
        simp only [mulVec_smul, Pi.smul_apply, smul_eq_mul, (hm i).2.1]
        ring
      have f2 : u' (.fld .vY) = g ^ (n + 1) • (R • D.Dyf.mulVec y) := by
        rw [e2, i3, i1]
        funext i
        simp only [mulVec_smul, Pi.smul_apply, smul_eq_mul, (hm i).2.2.1]
        ring
      have f3 : u' (.fld .vZ) = g ^ (n + 1) • (R • D.Dzf.mulVec y) := by
        rw [e3, i4, i1]
        funext i
        simp only [mulVec_smul, Pi.smul_apply, smul_eq_mul, (hm i).2.2.2]
        ring
      refine ⟨?_, f1, f2, f3⟩
      rw [e4, f1, f2, f3, i1, hD.adjX, hD.adjY, hD.adjZ]
      funext i
      simp only [neg_mulVec, Pi.neg_apply, mulVec_smul, Pi.smul_apply, smul_eq_mul, (hm i).1]
      linear_combination (-(g ^ (n + 1) * R * K)) * hmode i - g ^ n * y i * hg2
  exact ⟨w, blows_up hg1 (b := g - 1) (by linarith) hy fun n => by
    rw [(key n).1]; funext i; simp⟩

/-- The growth factor of a standard linear solid. -/
private theorem growth_factor_visco {K k q h : ℝ} (hK : 0 ≤ K) (hk : 0 ≤ k) (hq : 0 < q) (hh : 0 ≤ h)
    (h4 : 4 < q * (K + k)) :
    ∃ g : ℝ, g < -1 ∧ (g - 1) / q + g * K / (g - 1) + g * k / (g - 1 + h * (1 + g)) = 0 := by
  set F : ℝ → ℝ := fun g => (g - 1) / q + g * K / (g - 1) + g * k / (g - 1 + h * (1 + g)) with hF
  have d1 : ∀ g ∈ Set.Icc (-(q * (K + k))) (-1 : ℝ), g - 1 < 0 ∧ g - 1 + h * (1 + g) < 0 := by
    intro g hg
    have : h * (1 + g) ≤ 0 := mul_nonpos_of_nonneg_of_nonpos hh (by linarith [hg.2])
    exact ⟨by linarith [hg.2], by linarith [hg.2]⟩
  have hcont : ContinuousOn F (Set.Icc (-(q * (K + k))) (-1)) := by
    refine ((ContinuousOn.div_const (by fun_prop) _).add (ContinuousOn.div (by fun_prop) (by fun_prop)
      fun g hg => (d1 g hg).1.ne)).add (ContinuousOn.div (by fun_prop) (by fun_prop)
      fun g hg => (d1 g hg).2.ne)
  have hle : -(q * (K + k)) ≤ (-1 : ℝ) := by linarith
  have hF1 : 0 < F (-1) := by
    have : F (-1) = (q * (K + k) - 4) / (2 * q) := by
      simp only [hF]; norm_num; field_simp; ring
    rw [this]; exact div_pos (by linarith) (by linarith)
  have hF2 : F (-(q * (K + k))) < 0 := by
    set g := -(q * (K + k)) with hgdef
    obtain ⟨a1, a2⟩ := d1 g ⟨le_rfl, hle⟩
    have b1 : g * K / (g - 1) ≤ K := by
      rw [div_le_iff_of_neg a1]; nlinarith
    have b2 : g * k / (g - 1 + h * (1 + g)) ≤ k := by
      rw [div_le_iff_of_neg a2]
      have : h * (1 + g) ≤ 0 := mul_nonpos_of_nonneg_of_nonpos hh (by linarith)
      nlinarith
    have b3 : (g - 1) / q = -(K + k) - 1 / q := by rw [hgdef]; field_simp
    have b4 : 0 < 1 / q := by positivity
    show (g - 1) / q + g * K / (g - 1) + g * k / (g - 1 + h * (1 + g)) < 0
    linarith
  obtain ⟨g, hg, hg0⟩ := intermediate_value_Icc hle hcont ⟨hF2.le, hF1.le⟩
  refine ⟨g, lt_of_le_of_ne hg.2 fun he => ?_, hg0⟩
  rw [he] at hg0
  linarith

private theorem viscosh2D_grows {D : Deriv ι} {m : Mod ι} {c : BC ι} (hc : c.plain) (hD : D.regular)
    (hr : Relaxing m) (hL : m.L = 1)
    {K k R lam : ℝ} (hK : 0 ≤ K) (hk : 0 ≤ k) (hR : 0 < R)
    (hm : ∀ i, m.invRho i = R ∧ m.sModXZ i = K ∧ m.sModYZ i = K ∧ K * m.tauS i = k ∧
      K * m.tauSXZ i = k ∧ K * m.tauSYZ i = k) {y : ι → ℝ} (hy : y ≠ 0)
    (hmode : ∀ i, D.Dxfᵀ.mulVec (D.Dxf.mulVec y) i + D.Dyfᵀ.mulVec (D.Dyf.mulVec y) i = lam * y i)
    (hlam : 0 < lam) (hq : 4 < R * lam * (K + k)) :
    ∃ w, viscoshRest m w ∧ BlowsUp (viscosh2DSolver D m c) .vZ w := by
  have ht := hr.2 0 (by omega)
  have hDT := hr.1
  obtain ⟨h, hh⟩ : ∃ h, h = m.DT / (2 * m.relaxTime 0) := ⟨_, rfl⟩
  have hh0 : 0 ≤ h := by rw [hh]; positivity
  obtain ⟨g, hg1, hg2⟩ := growth_factor_visco hK hk (mul_pos hR hlam) hh0 hq
  have n1 : g - 1 ≠ 0 := by linarith
  have n2 : g - 1 + h * (1 + g) ≠ 0 := by
    have : h * (1 + g) ≤ 0 := mul_nonpos_of_nonneg_of_nonpos hh0 (by linarith)
    linarith
  obtain ⟨a, ha⟩ : ∃ a, a = g * k / (g - 1 + h * (1 + g)) := ⟨_, rfl⟩
  obtain ⟨b, hb⟩ : ∃ b, b = g * K / (g - 1) := ⟨_, rfl⟩
  have ha' : g * a = a + g * k - h * (1 + g) * a := by rw [ha]; field_simp; ring
  have hb' : g * b = b + g * K := by rw [hb]; field_simp; ring
  have hab : R * lam * (a + b) = 1 - g := by
    rw [← ha, ← hb] at hg2
    have : (g - 1) / (R * lam) = -(a + b) := by linarith
    rw [div_eq_iff (mul_pos hR hlam).ne'] at this
    linarith
  obtain ⟨w, hw⟩ : ∃ w : State ι, w = fun v => if v = .fld .vZ then y
    else if v = .fld .Sxz then (a + b) • D.Dxf.mulVec y
    else if v = .fld .Syz then (a + b) • D.Dyf.mulVec y
    else if v = .rel .Sxz 0 then (-(a / m.relaxTime 0)) • D.Dxf.mulVec y
    else if v = .rel .Syz 0 then (-(a / m.relaxTime 0)) • D.Dyf.mulVec y else 0 := ⟨_, rfl⟩
  have key : ∀ n, run (viscosh2DSolver D m c) [] w n (.fld .vZ) = g ^ n • y ∧
      run (viscosh2DSolver D m c) [] w n (.fld .Sxz) = g ^ n • ((a + b) • D.Dxf.mulVec y) ∧
      run (viscosh2DSolver D m c) [] w n (.fld .Syz) = g ^ n • ((a + b) • D.Dyf.mulVec y) ∧
      run (viscosh2DSolver D m c) [] w n (.rel .Sxz 0) =
        g ^ n • ((-(a / m.relaxTime 0)) • D.Dxf.mulVec y) ∧
      run (viscosh2DSolver D m c) [] w n (.rel .Syz 0) =
        g ^ n • ((-(a / m.relaxTime 0)) • D.Dyf.mulVec y) := by
    intro n
    induction n with
    | zero => refine ⟨?_, ?_, ?_, ?_, ?_⟩ <;> simp [run, hw]
    | succ n ih =>
      rw [run_succ_nil]
      generalize run (viscosh2DSolver D m c) [] w n = u at ih ⊢
      obtain ⟨i1, i2, i3, i4, i5⟩ := ih
      obtain ⟨e1, e2, e3, e4, e5⟩ := viscosh2D_plain (m := m) hc u
      change exec (viscosh2D D m c) u _ = _ ∧ exec (viscosh2D D m c) u _ = _ ∧
        exec (viscosh2D D m c) u _ = _ ∧ exec (viscosh2D D m c) u _ = _ ∧
        exec (viscosh2D D m c) u _ = _
      generalize exec (viscosh2D D m c) u = u' at e1 e2 e3 e4 e5 ⊢
      have e2 := e2 0 (by omega)
      have e3 := e3 0 (by omega)
      have f1 : u' (.fld .vZ) = g ^ (n + 1) • y := by
        rw [e1, i1, i2, i3, hD.adjX, hD.adjY]
        funext i
        simp only [neg_mulVec, Pi.neg_apply, mulVec_smul, Pi.smul_apply, smul_eq_mul, (hm i).1]
        linear_combination (-(g ^ n * (a + b) * R)) * hmode i - g ^ n * y i * hab
      have memory : ∀ z t : ℝ, K * t = k → m.relaxed 0 (g ^ n * (-(a / m.relaxTime 0) * z))
          (g ^ (n + 1) * z * K) t = g ^ (n + 1) * (-(a / m.relaxTime 0) * z) := by
        intro z t htau
        have hne : 1 + m.DT / (2 * m.relaxTime 0) ≠ 0 := by positivity
        unfold Mod.relaxed Mod.vc1 Mod.vc2 Mod.invRelax
        rw [← hh] at hne ⊢
        field_simp
        rw [pow_succ]
        linear_combination (g ^ n * z) * ha' - (g ^ n * g * z) * htau
      have f4 : u' (.rel .Sxz 0) = g ^ (n + 1) • ((-(a / m.relaxTime 0)) • D.Dxf.mulVec y) := by
        rw [e2, i4, f1]
        funext i
        simp only [mulVec_smul, Pi.smul_apply, smul_eq_mul, (hm i).2.1]
        exact memory _ _ (hm i).2.2.2.2.1
      have f5 : u' (.rel .Syz 0) = g ^ (n + 1) • ((-(a / m.relaxTime 0)) • D.Dyf.mulVec y) := by
        rw [e3, i5, f1]
        funext i
        simp only [mulVec_smul, Pi.smul_apply, smul_eq_mul, (hm i).2.2.1]
        exact memory _ _ (hm i).2.2.2.2.2
      have hDTh : m.DT / 2 * (a / m.relaxTime 0) = h * a := by rw [hh]; field_simp
      refine ⟨f1, ?_, ?_, f4, f5⟩
      · rw [e4]
        funext i
        simp only [relSum, hL, Finset.sum_range_one, i2, i4, f4, f1, mulVec_smul, Pi.smul_apply,
          smul_eq_mul, (hm i).2.1, Mod.DThalf, Mod.onePlusLtauS, Nat.cast_one]
        rw [pow_succ]
        linear_combination (-(g ^ n * (1 + g) * D.Dxf.mulVec y i)) * hDTh -
          (g ^ n * D.Dxf.mulVec y i) * (ha' + hb') + (g ^ n * g * D.Dxf.mulVec y i) * (hm i).2.2.2.1
      · rw [e5]
        funext i
        simp only [relSum, hL, Finset.sum_range_one, i3, i5, f5, f1, mulVec_smul, Pi.smul_apply,
          smul_eq_mul, (hm i).2.2.1, Mod.DThalf, Mod.onePlusLtauS, Nat.cast_one]
        rw [pow_succ]
        linear_combination (-(g ^ n * (1 + g) * D.Dyf.mulVec y i)) * hDTh -
          (g ^ n * D.Dyf.mulVec y i) * (ha' + hb') + (g ^ n * g * D.Dyf.mulVec y i) * (hm i).2.2.2.1
  refine ⟨w, fun i => ?_, blows_up hg1 (b := 1) one_ne_zero hy fun n => by
    rw [(key n).1]; funext i; simp⟩
  have rest : ∀ (mu tau : ι → ℝ) (f : Fld) (z : ι → ℝ), w (.fld f) = (a + b) • z →
      w (.rel f 0) = (-(a / m.relaxTime 0)) • z → mu i = K → K * tau i = k →
      shearRest m mu tau w f i := by
    intro mu tau f z w1 w2 hmu htau
    have hA : anelastic m w f 0 i = a * z i := by
      unfold anelastic; rw [w2]; simp; field_simp
    refine ⟨fun hz => ?_, fun l hl hz => ?_⟩
    · unfold spring
      rw [hL, Finset.sum_range_one, hA, w1]
      have : K = 0 := by
        unfold springModulus at hz
        rw [hmu, hL, Nat.cast_one, one_mul] at hz
        linear_combination hz - (hm i).2.2.2.1 + htau
      rw [hb, this]; simp
    · obtain rfl : l = 0 := by omega
      rw [hA, ha]
      have : k = 0 := by rw [← htau, ← hmu]; exact hz
      rw [this]; simp
  refine ⟨rest _ _ _ (D.Dxf.mulVec y) (by simp [hw]) (by simp [hw]) (hm i).2.1 (hm i).2.2.2.2.1,
    rest _ _ _ (D.Dyf.mulVec y) (by simp [hw]) (by simp [hw]) (hm i).2.2.1 (hm i).2.2.2.2.2,
    fun hz => absurd hz (by rw [(hm i).1]; exact hR.ne')⟩

end Modes

/-! ### The limit is sharp -/

/-- A fast mode of a square or cubic grid. -/
private theorem fast_mode {s : Int} {cs : List ℚ} (hs : ValidOrder s) (hcs : fd s = some cs)
    {DT DH v2 : ℝ} (hDT : 0 < DT) (hDH : 0 < DH) (hv2 : 0 < v2) {S : Finset Axis} (hS : S.Nonempty)
    (hC : DH / (gamma cs * √S.card * √v2) < DT) :
    ∃ N0, 0 < N0 ∧ ∀ N, N0 ≤ N → ∀ NX NY NZ, (∀ a ∈ S, axisSize NX NY NZ a = N) →
      0 < NX * (NY * NZ) → ∃ (lam : ℝ) (y : Pt NX NY NZ → ℝ), 4 < v2 * lam ∧ y ≠ 0 ∧
      ∀ i, ∑ a ∈ S, (forwardMatrix s DT DH a)ᵀ.mulVec ((forwardMatrix s DT DH a).mulVec y) i =
        lam * y i := by
  have hg := gamma_pos hs hcs
  have hv : 0 < √v2 := Real.sqrt_pos.mpr hv2
  have hcard : (0 : ℝ) < S.card := by exact_mod_cast hS.card_pos
  have hlim := above_limit hDT hDH hg (Real.sqrt_pos.mpr hcard) hv hC
  rw [Real.sq_sqrt hcard.le, ← absSum_gamma, Real.sq_sqrt hv2.le] at hlim
  obtain ⟨h, hh⟩ : ∃ h : ℕ, s = 2 * h := ⟨(s / 2).toNat, by have := hs.even; omega⟩
  obtain ⟨N0, hN0, hN⟩ := fine_enough (h := h) hlim
  refine ⟨N0, hN0, fun N hle NX NY NZ hsz hne => ?_⟩
  obtain ⟨lam, y, h1, h2, h3⟩ := grid_mode (NX := NX) (NY := NY) (NZ := NZ) hs hcs hh hDT hDH S hsz
    (lt_of_lt_of_le hN0 hle) (by simpa [Fintype.card_prod] using hne) (hN N hle)
  refine ⟨lam, y, ?_, h2, h3⟩
  have e : 4 / (v2 * (DT / DH) ^ 2) * (DT / DH) ^ 2 = 4 / v2 := by field_simp
  rw [e, div_lt_iff₀ hv2] at h1
  linarith

/-- C94: the Courant limit of `C94_acoustic2D` is the best possible one. Above it, on each large
enough square grid with a homogeneous acoustic model, some wavefield grows beyond every bound. -/
theorem C94_acoustic2D_sharp {s : Int} {cs : List ℚ} (hs : ValidOrder s) (hcs : fd s = some cs)
    {DT DH rho K : ℝ} (hDT : 0 < DT) (hDH : 0 < DH) (hrho : 0 < rho) (hK : 0 < K)
    (hC : DH / (gamma cs * √2 * √(K / rho)) < DT) :
    ∃ N0, ∀ N, N0 ≤ N → ∀ (m : Mod (Pt N N 1)) (c : BC (Pt N N 1)), c.plain →
      (∀ i, m.pMod i = K ∧ m.invRhoX i = 1 / rho ∧ m.invRhoY i = 1 / rho) →
      ∃ w, acousticRest2D m w ∧ BlowsUp (acoustic2DSolver (regularDeriv N N 1 s DT DH) m c) .p w := by
  obtain ⟨N0, hN0, hN⟩ := fast_mode hs hcs hDT hDH (v2 := K / rho) (by positivity)
    (S := {Axis.x, Axis.y}) (by simp) (by simpa using hC)
  refine ⟨N0, fun N hle m c hc hm => ?_⟩
  obtain ⟨lam, y, h1, h2, h3⟩ := hN N hle N N 1 (by simp [axisSize])
    (by have := lt_of_lt_of_le hN0 hle; positivity)
  obtain ⟨w, hw⟩ := acoustic2D_grows hc regularDeriv_regular hm h2
    (fun i => by have := h3 i; rwa [Finset.sum_pair (by decide)] at this)
    (by rwa [← div_eq_mul_one_div])
  refine ⟨w, fun i => ⟨fun h => ?_, fun h => ?_, fun h => ?_⟩, hw⟩
  · rw [(hm i).1] at h; exact absurd h hK.ne'
  · rw [(hm i).2.1] at h; exact absurd h (by positivity)
  · rw [(hm i).2.2] at h; exact absurd h (by positivity)

/-- C94: the same in three dimensions. -/
theorem C94_acoustic3D_sharp {s : Int} {cs : List ℚ} (hs : ValidOrder s) (hcs : fd s = some cs)
    {DT DH rho K : ℝ} (hDT : 0 < DT) (hDH : 0 < DH) (hrho : 0 < rho) (hK : 0 < K)
    (hC : DH / (gamma cs * √3 * √(K / rho)) < DT) :
    ∃ N0, ∀ N, N0 ≤ N → ∀ (m : Mod (Pt N N N)) (c : BC (Pt N N N)), c.plain →
      (∀ i, m.pMod i = K ∧ m.invRhoX i = 1 / rho ∧ m.invRhoY i = 1 / rho ∧ m.invRhoZ i = 1 / rho) →
      ∃ w, acousticRest3D m w ∧ BlowsUp (acoustic3DSolver (regularDeriv N N N s DT DH) m c) .p w := by
  have hcard : ({Axis.x, Axis.y, Axis.z} : Finset Axis).card = 3 := by decide
  obtain ⟨N0, hN0, hN⟩ := fast_mode hs hcs hDT hDH (v2 := K / rho) (by positivity)
    (S := {Axis.x, Axis.y, Axis.z}) (by simp) (by rw [hcard]; simpa using hC)
  refine ⟨N0, fun N hle m c hc hm => ?_⟩
  obtain ⟨lam, y, h1, h2, h3⟩ := hN N hle N N N (by simp [axisSize])
    (by have := lt_of_lt_of_le hN0 hle; positivity)
  obtain ⟨w, hw⟩ := acoustic3D_grows hc regularDeriv_regular hm h2
    (fun i => by
      have := h3 i
      rwa [Finset.sum_insert (by decide), Finset.sum_pair (by decide)] at this)
    (by rwa [← div_eq_mul_one_div])
  refine ⟨w, fun i => ⟨fun h => ?_, fun h => ?_, fun h => ?_, fun h => ?_⟩, hw⟩
  · rw [(hm i).1] at h; exact absurd h hK.ne'
  · rw [(hm i).2.1] at h; exact absurd h (by positivity)
  · rw [(hm i).2.2.1] at h; exact absurd h (by positivity)
  · rw [(hm i).2.2.2] at h; exact absurd h (by positivity)

private theorem gamma_gt_one {s : Int} {cs : List ℚ} (hs : ValidOrder s) (h4 : 4 ≤ s)
    (hcs : fd s = some cs) : 1 < gamma cs := by
  have : ∀ t ∈ [(4 : Int), 6, 8, 10, 12], ∀ c ∈ fd t, 2 < absSum c := by decide +kernel
  have h := this s (by
    unfold ValidOrder at hs
    simp only [List.mem_cons, List.not_mem_nil, or_false]
    omega) cs hcs
  have h' : ((2 : ℚ) : ℝ) < ((absSum cs : ℚ) : ℝ) := by exact_mod_cast h
  rw [absSum_gamma] at h'
  push_cast at h'
  linarith

private theorem accepted_above {g r v DH : ℝ} (hg : 1 < g) (hr : 0 < r) (hv : 0 < v) (hDH : 0 < DH) :
    DH / (g * r * v) < DH / (r * v) := by
  refine div_lt_div_of_pos_left hDH (by positivity) ?_
  have : 0 < r * v := by positivity
  nlinarith

/-- C94: with stencils of order 4 and higher the stability check lets 2D simulations pass that blow
up, because it divides the factor of the stencil as integers. -/
theorem C94_accepted2D_violated {s : Int} (hs : ValidOrder s) (h4 : 4 ≤ s) {DH rho K : ℝ} (hDH : 0 < DH)
    (hrho : 0 < rho) (hK : 0 < K) :
    ∃ DT, 0 < DT ∧ checkStability 0 DT DH (√(K / rho)) "2D" s = .ok () ∧
      ∃ N0, ∀ N, N0 ≤ N → ∀ (m : Mod (Pt N N 1)) (c : BC (Pt N N 1)), c.plain →
        (∀ i, m.pMod i = K ∧ m.invRhoX i = 1 / rho ∧ m.invRhoY i = 1 / rho) →
        ∃ w, acousticRest2D m w ∧ BlowsUp (acoustic2DSolver (regularDeriv N N 1 s DT DH) m c) .p w := by
  obtain ⟨cs, hcs, -⟩ := fd_length hs
  have h2 : (0 : ℝ) < √2 := Real.sqrt_pos.mpr two_pos
  have hv : 0 < √(K / rho) := Real.sqrt_pos.mpr (by positivity)
  refine ⟨DH / (√2 * √(K / rho)), by positivity, ((C13_dimensions hs _ _ _).1).mpr (.inr le_rfl), ?_⟩
  exact C94_acoustic2D_sharp hs hcs (by positivity) hDH hrho hK
    (accepted_above (gamma_gt_one hs h4 hcs) h2 hv hDH)

/-- C94: the same in three dimensions. -/
theorem C94_accepted3D_violated {s : Int} (hs : ValidOrder s) (h4 : 4 ≤ s) {DH rho K : ℝ} (hDH : 0 < DH)
    (hrho : 0 < rho) (hK : 0 < K) :
    ∃ DT, 0 < DT ∧ checkStability 0 DT DH (√(K / rho)) "3D" s = .ok () ∧
      ∃ N0, ∀ N, N0 ≤ N → ∀ (m : Mod (Pt N N N)) (c : BC (Pt N N N)), c.plain →
        (∀ i, m.pMod i = K ∧ m.invRhoX i = 1 / rho ∧ m.invRhoY i = 1 / rho ∧ m.invRhoZ i = 1 / rho) →
        ∃ w, acousticRest3D m w ∧ BlowsUp (acoustic3DSolver (regularDeriv N N N s DT DH) m c) .p w := by
  obtain ⟨cs, hcs, -⟩ := fd_length hs
  have h3 : (0 : ℝ) < √3 := Real.sqrt_pos.mpr three_pos
  have hv : 0 < √(K / rho) := Real.sqrt_pos.mpr (by positivity)
  refine ⟨DH / (√3 * √(K / rho)), by positivity, ((C13_dimensions hs _ _ _).2.1).mpr (.inr le_rfl), ?_⟩
  exact C94_acoustic3D_sharp hs hcs (by positivity) hDH hrho hK
    (accepted_above (gamma_gt_one hs h4 hcs) h3 hv hDH)

/-! ### Attenuation -/

/-- A homogeneous SH model with one relaxation mechanism: `mu` is the modulus handed to the solver. -/
def HomogeneousSH {ι : Type} (m : Mod ι) (rho mu tau : ℝ) : Prop :=
  m.L = 1 ∧ ∀ i, m.invRho i = 1 / rho ∧ m.sModXZ i = mu ∧ m.sModYZ i = mu ∧ m.tauS i = tau ∧
    m.tauSXZ i = tau ∧ m.tauSYZ i = tau

/-- C96: the limit of `C96_viscosh2D` is the best possible one. Above the Courant limit for the
unrelaxed velocity some wavefield grows beyond every bound, in spite of the attenuation. -/
theorem C96_viscosh2D_sharp {s : Int} {cs : List ℚ} (hs : ValidOrder s) (hcs : fd s = some cs)
    {DT DH rho mu tau : ℝ} (hDT : 0 < DT) (hDH : 0 < DH) (hrho : 0 < rho) (hmu : 0 < mu) (htau : 0 ≤ tau)
    (hC : DH / (gamma cs * √2 * √(mu * (1 + tau) / rho)) < DT) :
    ∃ N0, ∀ N, N0 ≤ N → ∀ (m : Mod (Pt N N 1)) (c : BC (Pt N N 1)), c.plain → Relaxing m →
      HomogeneousSH m rho mu tau → ∃ w, viscoshRest m w ∧
        BlowsUp (viscosh2DSolver (regularDeriv N N 1 s DT DH) m c) .vZ w := by
  obtain ⟨N0, hN0, hN⟩ := fast_mode hs hcs hDT hDH (v2 := mu * (1 + tau) / rho) (by positivity)
    (S := {Axis.x, Axis.y}) (by simp) (by simpa using hC)
  refine ⟨N0, fun N hle m c hc hr hm => ?_⟩
  obtain ⟨lam, y, h1, h2, h3⟩ := hN N hle N N 1 (by simp [axisSize])
    (by have := lt_of_lt_of_le hN0 hle; positivity)
  have hlam : 0 < lam := by
    have : 0 < mu * (1 + tau) / rho := by positivity
    by_contra hn
    have := mul_nonpos_of_nonneg_of_nonpos this.le (not_lt.mp hn)
    linarith
  refine viscosh2D_grows hc regularDeriv_regular hr hm.1 hmu.le (k := mu * tau) (by positivity)
    (R := 1 / rho) (by positivity) (fun i => ?_) h2
    (fun i => by have := h3 i; rwa [Finset.sum_pair (by decide)] at this) hlam ?_
  · obtain ⟨a1, a2, a3, a4, a5, a6⟩ := hm.2 i
    exact ⟨a1, a2, a3, by rw [a4], by rw [a5], by rw [a6]⟩
  · have e : 1 / rho * lam * (mu + mu * tau) = mu * (1 + tau) / rho * lam := by ring
    rw [e]; exact h1

private theorem relaxSum_one (f fc : ℝ) :
    0 ≤ MP.relaxSum 1 [f] fc ∧ MP.relaxSum 1 [f] fc < 1 := by
  unfold MP.relaxSum
  simp only [List.range_one, List.map_cons, List.map_nil, List.sum_cons, List.sum_nil, add_zero,
    List.getD_cons_zero]
  set w := 2 * Real.pi * fc
  set t := 1 / (2 * Real.pi * f)
  have e : w * w * t * t = (w * t) ^ 2 := by ring
  rw [e]
  have h0 : 0 ≤ (w * t) ^ 2 := sq_nonneg _
  exact ⟨by positivity, by rw [div_lt_one (by linarith)]; linarith⟩

/-- C96: the check uses the velocity of the model file, which belongs to the reference frequency.
With attenuation, sudden changes travel faster: for each homogeneous model with one relaxation
mechanism a 2D SH simulation that the check accepts blows up, also with the second order stencil. -/
theorem C96_viscosh2D_accepted_violated {s : Int} (hs : ValidOrder s) {DH rho vS tau f fc : ℝ}
    (hDH : 0 < DH) (hrho : 0 < rho) (hvS : 0 < vS) (htau : 0 < tau) :
    ∃ DT, 0 < DT ∧ checkStability 0 DT DH vS "2D" s = .ok () ∧
      ∃ N0, ∀ N, N0 ≤ N → ∀ (m : Mod (Pt N N 1)) (c : BC (Pt N N 1)) (b : MP.Base (Pt N N 1)),
        c.plain → Relaxing m →
        b.numRelax = 1 → b.freq = [f] → b.centerFreq = fc →
        (∀ i, b.velocityS i = vS ∧ b.density i = rho ∧ b.tauS i = tau) →
        m.L = 1 → (∀ i, m.invRho i = 1 / b.density i ∧ m.sModXZ i = MP.calcS .viscosh b i ∧
          m.sModYZ i = MP.calcS .viscosh b i ∧ m.tauS i = b.tauS i ∧ m.tauSXZ i = b.tauS i ∧
          m.tauSYZ i = b.tauS i) →
        ∃ w, viscoshRest m w ∧ BlowsUp (viscosh2DSolver (regularDeriv N N 1 s DT DH) m c) .vZ w := by
  obtain ⟨cs, hcs, -⟩ := fd_length hs
  have h2 : (0 : ℝ) < √2 := Real.sqrt_pos.mpr two_pos
  obtain ⟨r0, r1⟩ := relaxSum_one f fc
  set r := MP.relaxSum 1 [f] fc with hrdef
  have hden : 0 < 1 + r * tau := by positivity
  refine ⟨DH / (√2 * vS), by positivity, ((C13_dimensions hs _ _ _).1).mpr (.inr le_rfl), ?_⟩
  have hfast : vS < √(rho * vS * vS / (1 + r * tau) * (1 + tau) / rho) := by
    rw [Real.lt_sqrt hvS.le]
    have e : rho * vS * vS / (1 + r * tau) * (1 + tau) / rho = vS ^ 2 * ((1 + tau) / (1 + r * tau)) := by
      field_simp
    rw [e]
    have : 1 < (1 + tau) / (1 + r * tau) := by rw [one_lt_div hden]; nlinarith
    nlinarith [sq_pos_of_pos hvS]
  have hg : 1 ≤ gamma cs := by
    by_cases h4 : 4 ≤ s
    · exact (gamma_gt_one hs h4 hcs).le
    · obtain rfl : s = 2 := by unfold ValidOrder at hs; omega
      have : cs = [-1, 1] := by have := hcs; unfold fd at this; simpa using this.symm
      rw [this]; norm_num [gamma]
  obtain ⟨N0, hN⟩ := C96_viscosh2D_sharp hs hcs (DT := DH / (√2 * vS)) (by positivity) hDH hrho
    (mu := rho * vS * vS / (1 + r * tau)) (by positivity) htau.le (by
      refine div_lt_div_of_pos_left hDH (by positivity) ?_
      have : √2 * vS < √2 * √(rho * vS * vS / (1 + r * tau) * (1 + tau) / rho) :=
        mul_lt_mul_of_pos_left hfast h2
      have h0 : 0 < √2 * vS := by positivity
      rw [mul_assoc]
      nlinarith)
  refine ⟨N0, fun N hle m c b hc hr b1 b2 b3 hb hL hm => hN N hle m c hc hr ⟨hL, fun i => ?_⟩⟩
  obtain ⟨a1, a2, a3, a4, a5, a6⟩ := hm i
  obtain ⟨c1, c2, c3⟩ := hb i
  have e : MP.calcS .viscosh b i = rho * vS * vS / (1 + r * tau) := by
    unfold MP.calcS MP.modulusFromVelocity
    rw [if_pos (show MP.Eqn.viscosh.visco = true from rfl), b1, b2, b3, c1, c2, c3]
  exact ⟨by rw [a1, c2], by rw [a2, e], by rw [a3, e], by rw [a4, c3], by rw [a5, c3], by rw [a6, c3]⟩

/-! ### Concrete cases -/

/-- Water. -/
noncomputable def growthExWater (ι : Type) (DT : ℝ) : Mod ι :=
  { invRho := 1, invRhoX := fun _ => 1 / 1000, invRhoY := fun _ => 1 / 1000, invRhoZ := 1
    pMod := fun _ => 2250000000, sMod := 0, sModXY := 0, sModXZ := 0, sModYZ := 0
    tauP := 0, tauS := 0, tauSXY := 0, tauSXZ := 0, tauSYZ := 0
    L := 0, relaxTime := 1, DT := DT }

/-- Fourth order, spacing 10 m, water: the accepted step `10 / (√2 √(2.25e9 / 1000))` s is too
large. -/
example : ∃ DT, 0 < DT ∧ checkStability 0 DT 10 (√(2250000000 / 1000)) "2D" 4 = .ok () ∧
    ∃ N0, ∀ N, N0 ≤ N → ∀ c : BC (Pt N N 1), c.plain →
      ∃ w, BlowsUp (acoustic2DSolver (regularDeriv N N 1 4 DT 10) (growthExWater _ DT) c) .p w := by
  obtain ⟨DT, h1, h2, N0, h3⟩ := C94_accepted2D_violated (s := 4) (by decide) (by decide)
    (DH := 10) (rho := 1000) (K := 2250000000) (by norm_num) (by norm_num) (by norm_num)
  refine ⟨DT, h1, h2, N0, fun N hN c hc => ?_⟩
  obtain ⟨w, -, hw⟩ := h3 N hN (growthExWater _ DT) c hc fun i => ⟨rfl, rfl, rfl⟩
  exact ⟨w, hw⟩

/-- Soil with one relaxation mechanism at 5 Hz; the reference frequency is 5 Hz too. -/
noncomputable def growthExBase (ι : Type) : MP.Base ι :=
  ⟨0, fun _ => 200, fun _ => 1500, 0, fun _ => 1 / 10, 1, [5], 5⟩

noncomputable def growthExSoil (ι : Type) (DT : ℝ) : Mod ι :=
  { invRho := fun i => 1 / (growthExBase ι).density i, invRhoX := 1, invRhoY := 1, invRhoZ := 1
    pMod := 0, sMod := 0, sModXY := 0, sModXZ := MP.calcS .viscosh (growthExBase ι)
    sModYZ := MP.calcS .viscosh (growthExBase ι)
    tauP := 0, tauS := (growthExBase ι).tauS, tauSXY := 0, tauSXZ := (growthExBase ι).tauS
    tauSYZ := (growthExBase ι).tauS, L := 1, relaxTime := fun _ => 1 / (2 * Real.pi * 5), DT := DT }

example : ∃ DT, 0 < DT ∧ checkStability 0 DT 1 200 "2D" 2 = .ok () ∧
    ∃ N0, ∀ N, N0 ≤ N → ∀ c : BC (Pt N N 1), c.plain →
      ∃ w, BlowsUp (viscosh2DSolver (regularDeriv N N 1 2 DT 1) (growthExSoil _ DT) c) .vZ w := by
  obtain ⟨DT, h1, h2, N0, h3⟩ := C96_viscosh2D_accepted_violated (s := 2) (by decide)
    (DH := 1) (rho := 1500) (vS := 200) (tau := 1 / 10) (f := 5) (fc := 5) (by norm_num) (by norm_num)
    (by norm_num) (by norm_num)
  refine ⟨DT, h1, h2, N0, fun N hN c hc => ?_⟩
  obtain ⟨w, -, hw⟩ := h3 N hN (growthExSoil _ DT) c (growthExBase _) hc
    ⟨h1, fun l _ => by show 0 < 1 / (2 * Real.pi * 5); positivity⟩ rfl rfl rfl
    (fun i => ⟨rfl, rfl, rfl⟩) rfl fun i => ⟨rfl, rfl, rfl, rfl, rfl, rfl⟩
  exact ⟨w, hw⟩

end Verif.Solver
