import Verif.Lemmas.Visco
import Verif.Props.Energy
/-!
# C95: attenuation only takes energy out of a wavefield

The total stress of the viscoelastic solvers is the stress of an elastic spring plus the stresses of
`L` Maxwell elements (generalised standard linear solid). The memory wavefields of the code are minus
these anelastic stresses divided by the relaxation time.
-/
set_option linter.dupNamespace false
set_option linter.unusedSectionVars false

namespace Verif.Solver
open Matrix

variable {ι : Type} [Fintype ι] [DecidableEq ι]

/-- Stress in the Maxwell element `l` that belongs to the stress component `f`. -/
noncomputable def anelastic (m : Mod ι) (s : State ι) (f : Fld) (l : ℕ) (i : ι) : ℝ :=
  -(m.relaxTime l * s (.rel f l) i)

/-- Stress in the spring parallel to the Maxwell elements. -/
noncomputable def spring (m : Mod ι) (s : State ι) (f : Fld) (i : ι) : ℝ :=
  s (.fld f) i - ∑ l ∈ Finset.range m.L, anelastic m s f l i

/-- `1 / 2` times the time step in units of the relaxation time. -/
noncomputable def lossFactor (m : Mod ι) (l : ℕ) : ℝ := m.DT / (2 * m.relaxTime l)

/-- The relaxation times and the time step are positive. -/
def Relaxing (m : Mod ι) : Prop := 0 < m.DT ∧ ∀ l, l < m.L → 0 < m.relaxTime l

private theorem anelastic_step {m : Mod ι} (hm : Relaxing m) {s s' : State ι} {f : Fld} {l : ℕ} {i : ι}
    (hl : l < m.L) {d k : ℝ} (h : s' (.rel f l) i = m.relaxed l (s (.rel f l) i) d k) :
    anelastic m s' f l i = anelastic m s f l i + d * k -
      lossFactor m l * (anelastic m s f l i + anelastic m s' f l i) := by
  have h1 := hm.1
  have h2 := hm.2 l hl
  unfold anelastic lossFactor
  rw [h]
  unfold Mod.relaxed Mod.vc1 Mod.vc2 Mod.invRelax
  have : 0 < 1 + m.DT / (2 * m.relaxTime l) := by positivity
  field_simp
  ring

private theorem spring_step {m : Mod ι} (hm : Relaxing m) {s s' : State ι} {f : Fld} {i : ι} {w : ℕ → ℝ}
    {e : ℝ} (hs : s' (.fld f) i = s (.fld f) i + relSum m s s' f i + e)
    (h : ∀ l, l < m.L → anelastic m s' f l i = anelastic m s f l i + w l -
      lossFactor m l * (anelastic m s f l i + anelastic m s' f l i)) :
    spring m s' f i = spring m s f i + (e - ∑ l ∈ Finset.range m.L, w l) := by
  have h1 : relSum m s s' f i = ∑ l ∈ Finset.range m.L,
      (anelastic m s' f l i - anelastic m s f l i - w l) := by
    unfold relSum
    refine Finset.sum_congr rfl fun l hl => ?_
    have hl := Finset.mem_range.mp hl
    have h2 := hm.2 l hl
    rw [show anelastic m s' f l i - anelastic m s f l i - w l =
      -(lossFactor m l * (anelastic m s f l i + anelastic m s' f l i)) by linarith [h l hl]]
    unfold anelastic lossFactor Mod.DThalf
    field_simp
    ring
  unfold spring
  rw [hs, h1]
  simp only [Finset.sum_sub_distrib]
  ring

/-- Energy of a spring, and what a damped spring loses. -/
private theorem sq_damp {K p p' d h : ℝ} (h0 : K = 0 → p = 0) (hh : 0 ≤ h)
    (e : p' = p + d * K - h * (p + p')) :
    p' ^ 2 / K = p ^ 2 / K + (p + p') * d - h * ((p + p') ^ 2 / K) := by
  by_cases hK : K = 0
  · have hp := h0 hK
    have : p' * (1 + h) = 0 := by rw [hp, hK] at e; linarith
    have hp' : p' = 0 := by
      rcases mul_eq_zero.mp this with h' | h'
      · exact h'
      · linarith
    simp [hK, hp, hp']
  · have e' : (p' - p + h * (p + p')) = d * K := by linarith
    have : p' ^ 2 - p ^ 2 + h * (p + p') ^ 2 = (p + p') * (d * K) := by rw [← e']; ring
    field_simp
    linarith

private theorem damp_rest {K p p' d h : ℝ} (h0 : K = 0 → p = 0) (hh : 0 ≤ h)
    (e : p' = p + d * K - h * (p + p')) : K = 0 → p' = 0 := by
  intro hK
  have hp := h0 hK
  have : p' * (1 + h) = 0 := by rw [hp, hK] at e; linarith
  rcases mul_eq_zero.mp this with h' | h'
  · exact h'
  · linarith

private theorem lossFactor_nonneg {m : Mod ι} (hm : Relaxing m) {l : ℕ} (hl : l < m.L) :
    0 ≤ lossFactor m l := by
  have h1 := hm.1
  have h2 := hm.2 l hl
  unfold lossFactor
  positivity

/-! ### One shear stress -/

/-- Modulus of the spring that acts on a shear stress: the solvers scale the total stress with the
relaxation strength of the grid point, the memory wavefields with the averaged one. -/
noncomputable def springModulus (m : Mod ι) (mu tau : ι → ℝ) (i : ι) : ℝ :=
  mu i * (1 + m.L * (m.tauS i - tau i))

/-- Energy stored in a shear stress. -/
noncomputable def shearEnergy (m : Mod ι) (mu tau : ι → ℝ) (s : State ι) (f : Fld) (i : ι) : ℝ :=
  spring m s f i ^ 2 / springModulus m mu tau i +
  ∑ l ∈ Finset.range m.L, anelastic m s f l i ^ 2 / (mu i * tau i)

/-- What the Maxwell elements of a shear stress lose in the step from `s` to `s'`. -/
noncomputable def shearLoss (m : Mod ι) (mu tau : ι → ℝ) (s s' : State ι) (f : Fld) (i : ι) : ℝ :=
  ∑ l ∈ Finset.range m.L,
    lossFactor m l * ((anelastic m s f l i + anelastic m s' f l i) ^ 2 / (mu i * tau i))

/-- Stresses that never change because a modulus is zero are zero. -/
def shearRest (m : Mod ι) (mu tau : ι → ℝ) (s : State ι) (f : Fld) (i : ι) : Prop :=
  (springModulus m mu tau i = 0 → spring m s f i = 0) ∧
  ∀ l, l < m.L → mu i * tau i = 0 → anelastic m s f l i = 0

private theorem total_eq (m : Mod ι) (s : State ι) (f : Fld) (i : ι) :
    s (.fld f) i = spring m s f i + ∑ l ∈ Finset.range m.L, anelastic m s f l i := by
  unfold spring; ring

private theorem shear_balance {m : Mod ι} (hm : Relaxing m) {mu tau : ι → ℝ} {s s' : State ι} {f : Fld}
    {i : ι} {d : ℝ} (h : shearRest m mu tau s f i)
    (hr : ∀ l, l < m.L → s' (.rel f l) i = m.relaxed l (s (.rel f l) i) (d * mu i) (tau i))
    (hs : s' (.fld f) i = s (.fld f) i + relSum m s s' f i + d * mu i * m.onePlusLtauS i) :
    shearRest m mu tau s' f i ∧
    shearEnergy m mu tau s' f i = shearEnergy m mu tau s f i +
      (s (.fld f) i + s' (.fld f) i) * d - shearLoss m mu tau s s' f i := by
  have ha := fun l hl => anelastic_step hm hl (hr l hl)
  have hsp := spring_step hm hs ha
  rw [Finset.sum_const, Finset.card_range, nsmul_eq_mul] at hsp
  have hsp' : spring m s' f i = spring m s f i + d * springModulus m mu tau i := by
    rw [hsp]; unfold springModulus Mod.onePlusLtauS; ring
  have ha' : ∀ l, l < m.L → anelastic m s' f l i = anelastic m s f l i + d * (mu i * tau i) -
      lossFactor m l * (anelastic m s f l i + anelastic m s' f l i) := by
    intro l hl; rw [← mul_assoc]; exact ha l hl
  refine ⟨⟨fun hz => ?_, fun l hl =>
    damp_rest (h.2 l hl) (lossFactor_nonneg hm hl) (ha' l hl)⟩, ?_⟩
  · rw [hsp', h.1 hz, hz]; ring
  · have e1 := sq_damp (p' := spring m s' f i) (d := d) (h := 0) h.1 le_rfl (by linarith)
    have e2 : ∑ l ∈ Finset.range m.L, anelastic m s' f l i ^ 2 / (mu i * tau i) =
        ∑ l ∈ Finset.range m.L, anelastic m s f l i ^ 2 / (mu i * tau i) +
        (∑ l ∈ Finset.range m.L, anelastic m s f l i +
         ∑ l ∈ Finset.range m.L, anelastic m s' f l i) * d - shearLoss m mu tau s s' f i := by
      unfold shearLoss
      rw [← Finset.sum_add_distrib, Finset.sum_mul, ← Finset.sum_add_distrib,
        ← Finset.sum_sub_distrib]
      refine Finset.sum_congr rfl fun l hl => ?_
      have hl := Finset.mem_range.mp hl
      exact sq_damp (h.2 l hl) (lossFactor_nonneg hm hl) (ha' l hl)
    unfold shearEnergy
    rw [e1, e2, total_eq m s f i, total_eq m s' f i]
    ring

theorem shearLoss_nonneg {m : Mod ι} (hm : Relaxing m) {mu tau : ι → ℝ} {i : ι}
    (h : 0 ≤ mu i * tau i) (s s' : State ι) (f : Fld) : 0 ≤ shearLoss m mu tau s s' f i :=
  Finset.sum_nonneg fun l hl => mul_nonneg (lossFactor_nonneg hm (Finset.mem_range.mp hl))
    (div_nonneg (sq_nonneg _) h)

/-! ### SH waves -/

/-- Energy of a viscoelastic SH wavefield. -/
noncomputable def viscoshEnergy (D : Deriv ι) (m : Mod ι) (s : State ι) : ℝ :=
  ∑ i, (shearEnergy m m.sModXZ m.tauSXZ s .Sxz i + shearEnergy m m.sModYZ m.tauSYZ s .Syz i) +
  ∑ i, s (.fld .vZ) i ^ 2 / m.invRho i +
  ∑ i, s (.fld .vZ) i * (D.Dxb.mulVec (s (.fld .Sxz)) i + D.Dyb.mulVec (s (.fld .Syz)) i)

/-- See `shearRest`. -/
def viscoshRest (m : Mod ι) (s : State ι) : Prop :=
  ∀ i, shearRest m m.sModXZ m.tauSXZ s .Sxz i ∧ shearRest m m.sModYZ m.tauSYZ s .Syz i ∧
    (m.invRho i = 0 → s (.fld .vZ) i = 0)

/-- Energy that turns into heat in the step from `s` to `s'`. -/
noncomputable def viscoshLoss (m : Mod ι) (s s' : State ι) : ℝ :=
  ∑ i, (shearLoss m m.sModXZ m.tauSXZ s s' .Sxz i + shearLoss m m.sModYZ m.tauSYZ s s' .Syz i)

theorem viscosh_step {D : Deriv ι} {m : Mod ι} {c : BC ι} (hc : c.plain)
    (hD : D.regular) (hm : Relaxing m) (s : State ι) (h : viscoshRest m s) :
    viscoshRest m (exec (viscosh2D D m c) s) ∧
    viscoshEnergy D m (exec (viscosh2D D m c) s) =
      viscoshEnergy D m s - viscoshLoss m s (exec (viscosh2D D m c) s) := by
  obtain ⟨e1, r1, r2, e2, e3⟩ := viscosh2D_plain (D := D) (m := m) hc s
  generalize exec (viscosh2D D m c) s = s' at e1 r1 r2 e2 e3 ⊢
  have b1 := fun i => shear_balance hm (h i).1 (fun l hl => congrFun (r1 l hl) i) (congrFun e2 i)
  have b2 := fun i => shear_balance hm (h i).2.1 (fun l hl => congrFun (r2 l hl) i) (congrFun e3 i)
  refine ⟨fun i => ⟨(b1 i).1, (b2 i).1, fun hz => ?_⟩, ?_⟩
  · rw [e1]; simp [hz, (h i).2.2 hz]
  · have := energy_step_memory (A := Fin 1) (B := Fin 2)
      (fun i => shearEnergy m m.sModXZ m.tauSXZ s .Sxz i + shearEnergy m m.sModYZ m.tauSYZ s .Syz i)
      (fun i => shearEnergy m m.sModXZ m.tauSXZ s' .Sxz i + shearEnergy m m.sModYZ m.tauSYZ s' .Syz i)
      ![m.invRho] ![![D.Dxb, D.Dyb]]
      ![s (.fld .vZ)] ![s' (.fld .vZ)] ![s (.fld .Sxz), s (.fld .Syz)]
      ![s' (.fld .Sxz), s' (.fld .Syz)]
      (fun i => shearLoss m m.sModXZ m.tauSXZ s s' .Sxz i + shearLoss m m.sModYZ m.tauSYZ s s' .Syz i)
      (by intro a i; fin_cases a; simpa using (h i).2.2)
      (by intro a i; fin_cases a; simp [gSum, e1, Fin.sum_univ_two])
      (by
        intro i
        simp only [dSum, Fin.sum_univ_two, Fin.sum_univ_one, Matrix.cons_val, hD.adjX, hD.adjY,
          transpose_neg, transpose_transpose, neg_mulVec, Pi.neg_apply]
        linear_combination (b1 i).2 + (b2 i).2)
    simpa [gSum, Fin.sum_univ_two, viscoshEnergy, viscoshLoss] using this

/-- Sum of what is lost in the first `n` steps. -/
noncomputable def totalLoss (S : Solver ι) (loss : State ι → State ι → ℝ) (s : State ι) (n : ℕ) : ℝ :=
  ∑ t ∈ Finset.range n, loss (run S [] s t) (run S [] s (t + 1))

private theorem lossBalance {S : Solver ι} (I : State ι → Prop) (E : State ι → ℝ)
    (loss : State ι → State ι → ℝ)
    (hI : ∀ s, I s → I (exec S.prog s) ∧ E (exec S.prog s) = E s - loss s (exec S.prog s))
    (s : State ι) (h : I s) (n : ℕ) :
    I (run S [] s n) ∧ E (run S [] s n) = E s - totalLoss S loss s n := by
  induction n with
  | zero => exact ⟨h, by simp [totalLoss, run]⟩
  | succ n ih =>
    rw [run_succ_nil]
    refine ⟨(hI _ ih.1).1, ?_⟩
    rw [(hI _ ih.1).2, ih.2]
    unfold totalLoss
    rw [Finset.sum_range_succ, run_succ_nil]
    ring

/-- C95, 2D SH: the energy after any number of steps is the initial one minus what the Maxwell
elements have turned into heat. -/
theorem C95_viscosh2D {D : Deriv ι} {m : Mod ι} {c : BC ι} (hc : c.plain) (hD : D.regular)
    (hm : Relaxing m) (s : State ι) (h : viscoshRest m s) (n : ℕ) :
    viscoshEnergy D m (run (viscosh2DSolver D m c) [] s n) =
      viscoshEnergy D m s - totalLoss (viscosh2DSolver D m c) (viscoshLoss m) s n :=
  (lossBalance (S := viscosh2DSolver D m c) (viscoshRest m) (viscoshEnergy D m) (viscoshLoss m)
    (fun s hs => viscosh_step hc hD hm s hs) s h n).2

/-- C95, 2D SH: with moduli and relaxation strengths that are not negative the energy never grows. -/
theorem C95_viscosh2D_decreasing {D : Deriv ι} {m : Mod ι} {c : BC ι} (hc : c.plain) (hD : D.regular)
    (hm : Relaxing m) (hk : ∀ i, 0 ≤ m.sModXZ i * m.tauSXZ i ∧ 0 ≤ m.sModYZ i * m.tauSYZ i)
    (s : State ι) (h : viscoshRest m s) :
    Antitone fun n => viscoshEnergy D m (run (viscosh2DSolver D m c) [] s n) := by
  refine antitone_nat_of_succ_le fun n => ?_
  obtain ⟨h1, -⟩ := lossBalance (S := viscosh2DSolver D m c) (viscoshRest m) (viscoshEnergy D m)
    (viscoshLoss m) (fun s hs => viscosh_step hc hD hm s hs) s h n
  simp only [run_succ_nil]
  rw [show (viscosh2DSolver D m c).prog = viscosh2D D m c from rfl, (viscosh_step hc hD hm _ h1).2]
  have : 0 ≤ viscoshLoss m (run (viscosh2DSolver D m c) [] s n)
      (exec (viscosh2D D m c) (run (viscosh2DSolver D m c) [] s n)) :=
    Finset.sum_nonneg fun i _ => add_nonneg (shearLoss_nonneg hm (hk i).1 _ _ _)
      (shearLoss_nonneg hm (hk i).2 _ _ _)
  linarith

/-! ### Normal stresses in 2D -/

/-- Energy `σ : C⁻¹ σ / 2` (up to the factor) of the normal stresses `x`, `y` for the moduli `M`, `μ`, split into mean
stress and deviator. -/
noncomputable def normal2 (M μ x y : ℝ) : ℝ := (x + y) ^ 2 / (4 * (M - μ)) + (x - y) ^ 2 / (4 * μ)

/-- Components for which the modulus is zero are zero. -/
def rest2 (M μ x y : ℝ) : Prop := (M = μ → x + y = 0) ∧ (μ = 0 → x = y)

private theorem normal2_damp {M μ x y x' y' a b h : ℝ} (h0 : rest2 M μ x y) (hh : 0 ≤ h)
    (ex : x' = x + ((a + b) * M - b * μ * 2) - h * (x + x'))
    (ey : y' = y + ((a + b) * M - a * μ * 2) - h * (y + y')) :
    rest2 M μ x' y' ∧ normal2 M μ x' y' = normal2 M μ x y + ((x + x') * a + (y + y') * b) -
      h * normal2 M μ (x + x') (y + y') := by
  have p1 : x' + y' = (x + y) + (a + b) / 2 * (4 * (M - μ)) - h * ((x + y) + (x' + y')) := by
    linear_combination ex + ey
  have p2 : x' - y' = (x - y) + (a - b) / 2 * (4 * μ) - h * ((x - y) + (x' - y')) := by
    linear_combination ex - ey
  have z1 : 4 * (M - μ) = 0 → x + y = 0 := fun h => h0.1 (by linarith)
  have z2 : 4 * μ = 0 → x - y = 0 := fun h => sub_eq_zero.mpr (h0.2 (by linarith))
  refine ⟨⟨fun hz => damp_rest z1 hh p1 (by linarith), fun hz =>
    sub_eq_zero.mp (damp_rest z2 hh p2 (by linarith))⟩, ?_⟩
  unfold normal2
  rw [sq_damp z1 hh p1, sq_damp z2 hh p2]
  rw [show x + x' + (y + y') = x + y + (x' + y') by ring,
    show x + x' - (y + y') = x - y + (x' - y') by ring]
  ring

private theorem normal2_nonneg {M μ : ℝ} (h1 : 0 ≤ μ) (h2 : μ ≤ M) (x y : ℝ) : 0 ≤ normal2 M μ x y := by
  unfold normal2
  have : 0 ≤ M - μ := by linarith
  positivity

/-- Energy stored in the normal stresses of 2D P-SV waves. -/
noncomputable def normalEnergy2D (m : Mod ι) (s : State ι) (i : ι) : ℝ :=
  normal2 (m.pMod i) (m.sMod i) (spring m s .Sxx i) (spring m s .Syy i) +
  ∑ l ∈ Finset.range m.L, normal2 (m.pMod i * m.tauP i) (m.sMod i * m.tauS i)
    (anelastic m s .Sxx l i) (anelastic m s .Syy l i)

/-- What the Maxwell elements of the normal stresses lose in the step from `s` to `s'`. -/
noncomputable def normalLoss2D (m : Mod ι) (s s' : State ι) (i : ι) : ℝ :=
  ∑ l ∈ Finset.range m.L, lossFactor m l * normal2 (m.pMod i * m.tauP i) (m.sMod i * m.tauS i)
    (anelastic m s .Sxx l i + anelastic m s' .Sxx l i)
    (anelastic m s .Syy l i + anelastic m s' .Syy l i)

/-- See `rest2`. -/
def normalRest2D (m : Mod ι) (s : State ι) (i : ι) : Prop :=
  rest2 (m.pMod i) (m.sMod i) (spring m s .Sxx i) (spring m s .Syy i) ∧
  ∀ l, l < m.L → rest2 (m.pMod i * m.tauP i) (m.sMod i * m.tauS i)
    (anelastic m s .Sxx l i) (anelastic m s .Syy l i)

private theorem normal2D_balance {m : Mod ι} (hm : Relaxing m) {s s' : State ι} {i : ι} {a b : ℝ}
    (h : normalRest2D m s i)
    (hrx : ∀ l, l < m.L → s' (.rel .Sxx l) i = m.relaxed l (s (.rel .Sxx l) i)
      ((a + b) * m.pMod i * m.tauP i - b * m.sMod i * 2 * m.tauS i) 1)
    (hry : ∀ l, l < m.L → s' (.rel .Syy l) i = m.relaxed l (s (.rel .Syy l) i)
      ((a + b) * m.pMod i * m.tauP i - a * m.sMod i * 2 * m.tauS i) 1)
    (hsx : s' (.fld .Sxx) i = s (.fld .Sxx) i + relSum m s s' .Sxx i +
      ((a + b) * m.pMod i * m.onePlusLtauP i - b * m.sMod i * 2 * m.onePlusLtauS i))
    (hsy : s' (.fld .Syy) i = s (.fld .Syy) i + relSum m s s' .Syy i +
      ((a + b) * m.pMod i * m.onePlusLtauP i - a * m.sMod i * 2 * m.onePlusLtauS i)) :
    normalRest2D m s' i ∧ normalEnergy2D m s' i = normalEnergy2D m s i +
      ((s (.fld .Sxx) i + s' (.fld .Sxx) i) * a + (s (.fld .Syy) i + s' (.fld .Syy) i) * b) -
      normalLoss2D m s s' i := by
  have ax := fun l hl => anelastic_step hm hl (hrx l hl)
  have ay := fun l hl => anelastic_step hm hl (hry l hl)
  have px := spring_step hm hsx ax
  have py := spring_step hm hsy ay
  rw [Finset.sum_const, Finset.card_range, nsmul_eq_mul] at px py
  have q := normal2_damp (x' := spring m s' .Sxx i) (y' := spring m s' .Syy i) (a := a) (b := b)
    (h := 0) h.1 le_rfl (by rw [px]; unfold Mod.onePlusLtauP Mod.onePlusLtauS; ring)
    (by rw [py]; unfold Mod.onePlusLtauP Mod.onePlusLtauS; ring)
  have ql := fun l hl => normal2_damp (x' := anelastic m s' .Sxx l i) (y' := anelastic m s' .Syy l i)
    (a := a) (b := b) (h.2 l hl) (lossFactor_nonneg hm hl) (by linear_combination ax l hl)
    (by linear_combination ay l hl)
  refine ⟨⟨q.1, fun l hl => (ql l hl).1⟩, ?_⟩
  unfold normalEnergy2D normalLoss2D
  rw [q.2, Finset.sum_congr rfl fun l hl => (ql l (Finset.mem_range.mp hl)).2,
    total_eq m s .Sxx i, total_eq m s' .Sxx i, total_eq m s .Syy i, total_eq m s' .Syy i]
  simp only [Finset.sum_sub_distrib, Finset.sum_add_distrib, add_mul, Finset.sum_mul]
  ring

/-- Energy of a 2D viscoelastic wavefield. -/
noncomputable def viscoelasticEnergy2D (D : Deriv ι) (m : Mod ι) (s : State ι) : ℝ :=
  ∑ i, (normalEnergy2D m s i + shearEnergy m m.sModXY m.tauSXY s .Sxy i) +
  (∑ i, s (.fld .vX) i ^ 2 / m.invRhoX i + ∑ i, s (.fld .vY) i ^ 2 / m.invRhoY i) +
  (∑ i, s (.fld .vX) i * (D.Dxf.mulVec (s (.fld .Sxx)) i + D.Dyb.mulVec (s (.fld .Sxy)) i) +
   ∑ i, s (.fld .vY) i * (D.Dxb.mulVec (s (.fld .Sxy)) i + D.Dyf.mulVec (s (.fld .Syy)) i))

/-- Values that never change because a parameter is zero are zero (true of every wavefield that
started at rest). -/
def viscoelasticRest2D (m : Mod ι) (s : State ι) : Prop :=
  ∀ i, normalRest2D m s i ∧ shearRest m m.sModXY m.tauSXY s .Sxy i ∧
    (m.invRhoX i = 0 → s (.fld .vX) i = 0) ∧ (m.invRhoY i = 0 → s (.fld .vY) i = 0)

/-- Energy that turns into heat in the step from `s` to `s'`. -/
noncomputable def viscoelasticLoss2D (m : Mod ι) (s s' : State ι) : ℝ :=
  ∑ i, (normalLoss2D m s s' i + shearLoss m m.sModXY m.tauSXY s s' .Sxy i)

theorem viscoelastic2D_step {D : Deriv ι} {m : Mod ι} {c : BC ι} (hc : c.plain)
    (hD : D.regular) (hm : Relaxing m) (s : State ι) (h : viscoelasticRest2D m s) :
    viscoelasticRest2D m (exec (viscoelastic2D D m c) s) ∧
    viscoelasticEnergy2D D m (exec (viscoelastic2D D m c) s) =
      viscoelasticEnergy2D D m s - viscoelasticLoss2D m s (exec (viscoelastic2D D m c) s) := by
  obtain ⟨e1, e2, r, e3, e4, e5⟩ := viscoelastic2D_plain (D := D) (m := m) hc s
  generalize exec (viscoelastic2D D m c) s = s' at e1 e2 r e3 e4 e5 ⊢
  have b1 := fun i => normal2D_balance hm (h i).1 (fun l hl => congrFun (r l hl).1 i)
    (fun l hl => congrFun (r l hl).2.1 i) (congrFun e3 i) (congrFun e4 i)
  have b2 := fun i => shear_balance hm (h i).2.1 (fun l hl => congrFun (r l hl).2.2 i) (congrFun e5 i)
  refine ⟨fun i => ⟨(b1 i).1, (b2 i).1, fun hz => ?_, fun hz => ?_⟩, ?_⟩
  · rw [e1]; simp [hz, (h i).2.2.1 hz]
  · rw [e2]; simp [hz, (h i).2.2.2 hz]
  · have := energy_step_memory (A := Fin 2) (B := Fin 3)
      (fun i => normalEnergy2D m s i + shearEnergy m m.sModXY m.tauSXY s .Sxy i)
      (fun i => normalEnergy2D m s' i + shearEnergy m m.sModXY m.tauSXY s' .Sxy i)
      ![m.invRhoX, m.invRhoY] ![![D.Dxf, 0, D.Dyb], ![0, D.Dyf, D.Dxb]]
      ![s (.fld .vX), s (.fld .vY)] ![s' (.fld .vX), s' (.fld .vY)]
      ![s (.fld .Sxx), s (.fld .Syy), s (.fld .Sxy)]
      ![s' (.fld .Sxx), s' (.fld .Syy), s' (.fld .Sxy)]
      (fun i => normalLoss2D m s s' i + shearLoss m m.sModXY m.tauSXY s s' .Sxy i)
      (by intro a i; fin_cases a <;> simp; exacts [(h i).2.2.1, (h i).2.2.2])
      (by intro a i; fin_cases a <;> simp [gSum, e1, e2, Fin.sum_univ_three, add_comm])
      (by
        intro i
        have t1 := (b1 i).2
        have t2 := (b2 i).2
        simp only [hD.adjX, hD.adjY, neg_mulVec, Pi.neg_apply] at t1 t2
        simp only [dSum, Fin.sum_univ_two, Fin.sum_univ_three, Matrix.cons_val, hD.adjX, hD.adjY,
          transpose_neg, transpose_transpose, neg_mulVec, Pi.neg_apply, transpose_zero, zero_mulVec,
          Pi.zero_apply]
        linear_combination t1 + t2)
    simp only [gSum, Fin.sum_univ_two, Fin.sum_univ_three, Matrix.cons_val, zero_mulVec,
      Pi.zero_apply, add_zero, zero_add] at this
    unfold viscoelasticEnergy2D viscoelasticLoss2D
    simp only [mul_add, Finset.sum_add_distrib] at this ⊢
    linarith

/-- C95, 2D P-SV: the energy after any number of steps is the initial one minus what the Maxwell
elements have turned into heat. -/
theorem C95_viscoelastic2D {D : Deriv ι} {m : Mod ι} {c : BC ι} (hc : c.plain) (hD : D.regular)
    (hm : Relaxing m) (s : State ι) (h : viscoelasticRest2D m s) (n : ℕ) :
    viscoelasticEnergy2D D m (run (viscoelastic2DSolver D m c) [] s n) =
      viscoelasticEnergy2D D m s -
        totalLoss (viscoelastic2DSolver D m c) (viscoelasticLoss2D m) s n :=
  (lossBalance (S := viscoelastic2DSolver D m c) (viscoelasticRest2D m) (viscoelasticEnergy2D D m)
    (viscoelasticLoss2D m) (fun s hs => viscoelastic2D_step hc hD hm s hs) s h n).2

theorem viscoelasticLoss2D_nonneg {m : Mod ι} (hm : Relaxing m)
    (hk : ∀ i, 0 ≤ m.sMod i * m.tauS i ∧ m.sMod i * m.tauS i ≤ m.pMod i * m.tauP i ∧
      0 ≤ m.sModXY i * m.tauSXY i) (s s' : State ι) : 0 ≤ viscoelasticLoss2D m s s' :=
  Finset.sum_nonneg fun i _ => add_nonneg (Finset.sum_nonneg fun l hl =>
    mul_nonneg (lossFactor_nonneg hm (Finset.mem_range.mp hl))
      (normal2_nonneg (hk i).1 (hk i).2.1 _ _)) (shearLoss_nonneg hm (hk i).2.2 _ _ _)

/-- C95, 2D P-SV: if the anelastic moduli are those of a solid that resists compression and shear,
the energy never grows. -/
theorem C95_viscoelastic2D_decreasing {D : Deriv ι} {m : Mod ι} {c : BC ι} (hc : c.plain)
    (hD : D.regular) (hm : Relaxing m)
    (hk : ∀ i, 0 ≤ m.sMod i * m.tauS i ∧ m.sMod i * m.tauS i ≤ m.pMod i * m.tauP i ∧
      0 ≤ m.sModXY i * m.tauSXY i)
    (s : State ι) (h : viscoelasticRest2D m s) :
    Antitone fun n => viscoelasticEnergy2D D m (run (viscoelastic2DSolver D m c) [] s n) := by
  refine antitone_nat_of_succ_le fun n => ?_
  obtain ⟨h1, -⟩ := lossBalance (S := viscoelastic2DSolver D m c) (viscoelasticRest2D m)
    (viscoelasticEnergy2D D m) (viscoelasticLoss2D m)
    (fun s hs => viscoelastic2D_step hc hD hm s hs) s h n
  simp only [run_succ_nil]
  rw [show (viscoelastic2DSolver D m c).prog = viscoelastic2D D m c from rfl,
    (viscoelastic2D_step hc hD hm _ h1).2]
  linarith [viscoelasticLoss2D_nonneg hm hk (run (viscoelastic2DSolver D m c) [] s n)
      (exec (viscoelastic2D D m c) (run (viscoelastic2DSolver D m c) [] s n))]

/-! ### Normal stresses in 3D -/

/-- See `normal2`. -/
noncomputable def normal3 (M μ x y z : ℝ) : ℝ :=
  (x + y + z) ^ 2 / (3 * (3 * M - 4 * μ)) +
    ((x - y) ^ 2 / (6 * μ) + (y - z) ^ 2 / (6 * μ) + (z - x) ^ 2 / (6 * μ))

/-- See `rest2`. -/
def rest3 (M μ x y z : ℝ) : Prop := (3 * M = 4 * μ → x + y + z = 0) ∧ (μ = 0 → x = y ∧ y = z)

private theorem normal3_damp {M μ x y z x' y' z' a b c h : ℝ} (h0 : rest3 M μ x y z) (hh : 0 ≤ h)
    (ex : x' = x + ((a + b + c) * M - (b + c) * μ * 2) - h * (x + x'))
    (ey : y' = y + ((a + b + c) * M - (a + c) * μ * 2) - h * (y + y'))
    (ez : z' = z + ((a + b + c) * M - (a + b) * μ * 2) - h * (z + z')) :
    rest3 M μ x' y' z' ∧ normal3 M μ x' y' z' = normal3 M μ x y z +
      ((x + x') * a + (y + y') * b + (z + z') * c) - h * normal3 M μ (x + x') (y + y') (z + z') := by
  have p1 : x' + y' + z' = (x + y + z) + (a + b + c) / 3 * (3 * (3 * M - 4 * μ)) -
      h * ((x + y + z) + (x' + y' + z')) := by
    linear_combination ex + ey + ez
  have p2 : x' - y' = (x - y) + (a - b) / 3 * (6 * μ) - h * ((x - y) + (x' - y')) := by
    linear_combination ex - ey
  have p3 : y' - z' = (y - z) + (b - c) / 3 * (6 * μ) - h * ((y - z) + (y' - z')) := by
    linear_combination ey - ez
  have p4 : z' - x' = (z - x) + (c - a) / 3 * (6 * μ) - h * ((z - x) + (z' - x')) := by
    linear_combination ez - ex
  have z1 : 3 * (3 * M - 4 * μ) = 0 → x + y + z = 0 := fun h => h0.1 (by linarith)
  have z2 : 6 * μ = 0 → x - y = 0 := fun h => sub_eq_zero.mpr (h0.2 (by linarith)).1
  have z3 : 6 * μ = 0 → y - z = 0 := fun h => sub_eq_zero.mpr (h0.2 (by linarith)).2
  have z4 : 6 * μ = 0 → z - x = 0 := fun h => by linarith [z2 h, z3 h]
  refine ⟨⟨fun hz => damp_rest z1 hh p1 (by linarith), fun hz =>
    ⟨sub_eq_zero.mp (damp_rest z2 hh p2 (by linarith)),
      sub_eq_zero.mp (damp_rest z3 hh p3 (by linarith))⟩⟩, ?_⟩
  unfold normal3
  rw [sq_damp z1 hh p1, sq_damp z2 hh p2, sq_damp z3 hh p3, sq_damp z4 hh p4]
  rw [show x + x' + (y + y') + (z + z') = x + y + z + (x' + y' + z') by ring,
    show x + x' - (y + y') = x - y + (x' - y') by ring,
    show y + y' - (z + z') = y - z + (y' - z') by ring,
    show z + z' - (x + x') = z - x + (z' - x') by ring]
  ring

private theorem normal3_nonneg {M μ : ℝ} (h1 : 0 ≤ μ) (h2 : 4 * μ ≤ 3 * M) (x y z : ℝ) :
    0 ≤ normal3 M μ x y z := by
  unfold normal3
  have : 0 ≤ 3 * M - 4 * μ := by linarith
  positivity

/-- Energy stored in the normal stresses of 3D elastic waves. -/
noncomputable def normalEnergy3D (m : Mod ι) (s : State ι) (i : ι) : ℝ :=
  normal3 (m.pMod i) (m.sMod i) (spring m s .Sxx i) (spring m s .Syy i) (spring m s .Szz i) +
  ∑ l ∈ Finset.range m.L, normal3 (m.pMod i * m.tauP i) (m.sMod i * m.tauS i)
    (anelastic m s .Sxx l i) (anelastic m s .Syy l i) (anelastic m s .Szz l i)

/-- What the Maxwell elements of the normal stresses lose in the step from `s` to `s'`. -/
noncomputable def normalLoss3D (m : Mod ι) (s s' : State ι) (i : ι) : ℝ :=
  ∑ l ∈ Finset.range m.L, lossFactor m l * normal3 (m.pMod i * m.tauP i) (m.sMod i * m.tauS i)
    (anelastic m s .Sxx l i + anelastic m s' .Sxx l i)
    (anelastic m s .Syy l i + anelastic m s' .Syy l i)
    (anelastic m s .Szz l i + anelastic m s' .Szz l i)

/-- See `rest3`. -/
def normalRest3D (m : Mod ι) (s : State ι) (i : ι) : Prop :=
  rest3 (m.pMod i) (m.sMod i) (spring m s .Sxx i) (spring m s .Syy i) (spring m s .Szz i) ∧
  ∀ l, l < m.L → rest3 (m.pMod i * m.tauP i) (m.sMod i * m.tauS i)
    (anelastic m s .Sxx l i) (anelastic m s .Syy l i) (anelastic m s .Szz l i)

private theorem normal3D_balance {m : Mod ι} (hm : Relaxing m) {s s' : State ι} {i : ι} {a b c : ℝ}
    (h : normalRest3D m s i)
    (hr : ∀ l, l < m.L → s' (.rel .Sxx l) i = m.relaxed l (s (.rel .Sxx l) i)
        ((a + b + c) * m.pMod i * m.tauP i - (b + c) * m.sMod i * 2 * m.tauS i) 1 ∧
      s' (.rel .Syy l) i = m.relaxed l (s (.rel .Syy l) i)
        ((a + b + c) * m.pMod i * m.tauP i - (a + c) * m.sMod i * 2 * m.tauS i) 1 ∧
      s' (.rel .Szz l) i = m.relaxed l (s (.rel .Szz l) i)
        ((a + b + c) * m.pMod i * m.tauP i - (a + b) * m.sMod i * 2 * m.tauS i) 1)
    (hsx : s' (.fld .Sxx) i = s (.fld .Sxx) i + relSum m s s' .Sxx i +
      ((a + b + c) * m.pMod i * m.onePlusLtauP i - (b + c) * m.sMod i * 2 * m.onePlusLtauS i))
    (hsy : s' (.fld .Syy) i = s (.fld .Syy) i + relSum m s s' .Syy i +
      ((a + b + c) * m.pMod i * m.onePlusLtauP i - (a + c) * m.sMod i * 2 * m.onePlusLtauS i))
    (hsz : s' (.fld .Szz) i = s (.fld .Szz) i + relSum m s s' .Szz i +
      ((a + b + c) * m.pMod i * m.onePlusLtauP i - (a + b) * m.sMod i * 2 * m.onePlusLtauS i)) :
    normalRest3D m s' i ∧ normalEnergy3D m s' i = normalEnergy3D m s i +
      ((s (.fld .Sxx) i + s' (.fld .Sxx) i) * a + (s (.fld .Syy) i + s' (.fld .Syy) i) * b +
        (s (.fld .Szz) i + s' (.fld .Szz) i) * c) - normalLoss3D m s s' i := by
  have ax := fun l hl => anelastic_step hm hl (hr l hl).1
  have ay := fun l hl => anelastic_step hm hl (hr l hl).2.1
  have az := fun l hl => anelastic_step hm hl (hr l hl).2.2
  have px := spring_step hm hsx ax
  have py := spring_step hm hsy ay
  have pz := spring_step hm hsz az
  rw [Finset.sum_const, Finset.card_range, nsmul_eq_mul] at px py pz
  have q := normal3_damp (x' := spring m s' .Sxx i) (y' := spring m s' .Syy i)
    (z' := spring m s' .Szz i) (a := a) (b := b) (c := c)
    (h := 0) h.1 le_rfl (by rw [px]; unfold Mod.onePlusLtauP Mod.onePlusLtauS; ring)
    (by rw [py]; unfold Mod.onePlusLtauP Mod.onePlusLtauS; ring)
    (by rw [pz]; unfold Mod.onePlusLtauP Mod.onePlusLtauS; ring)
  have ql := fun l hl => normal3_damp (x' := anelastic m s' .Sxx l i) (y' := anelastic m s' .Syy l i)
    (z' := anelastic m s' .Szz l i) (a := a) (b := b) (c := c) (h.2 l hl) (lossFactor_nonneg hm hl)
    (by linear_combination ax l hl) (by linear_combination ay l hl) (by linear_combination az l hl)
  refine ⟨⟨q.1, fun l hl => (ql l hl).1⟩, ?_⟩
  unfold normalEnergy3D normalLoss3D
  rw [q.2, Finset.sum_congr rfl fun l hl => (ql l (Finset.mem_range.mp hl)).2,
    total_eq m s .Sxx i, total_eq m s' .Sxx i, total_eq m s .Syy i, total_eq m s' .Syy i,
    total_eq m s .Szz i, total_eq m s' .Szz i]
  simp only [Finset.sum_sub_distrib, Finset.sum_add_distrib, add_mul, Finset.sum_mul]
  ring

/-- Energy of a 3D viscoelastic wavefield. -/
noncomputable def viscoelasticEnergy3D (D : Deriv ι) (m : Mod ι) (s : State ι) : ℝ :=
  ∑ i, (normalEnergy3D m s i + (shearEnergy m m.sModXY m.tauSXY s .Sxy i +
    shearEnergy m m.sModXZ m.tauSXZ s .Sxz i + shearEnergy m m.sModYZ m.tauSYZ s .Syz i)) +
  (∑ i, s (.fld .vX) i ^ 2 / m.invRhoX i + ∑ i, s (.fld .vY) i ^ 2 / m.invRhoY i +
    ∑ i, s (.fld .vZ) i ^ 2 / m.invRhoZ i) +
  (∑ i, s (.fld .vX) i * (D.Dxf.mulVec (s (.fld .Sxx)) i + D.Dyb.mulVec (s (.fld .Sxy)) i +
     D.Dzb.mulVec (s (.fld .Sxz)) i) +
   ∑ i, s (.fld .vY) i * (D.Dxb.mulVec (s (.fld .Sxy)) i + D.Dyf.mulVec (s (.fld .Syy)) i +
     D.Dzb.mulVec (s (.fld .Syz)) i) +
   ∑ i, s (.fld .vZ) i * (D.Dxb.mulVec (s (.fld .Sxz)) i + D.Dyb.mulVec (s (.fld .Syz)) i +
     D.Dzf.mulVec (s (.fld .Szz)) i))

/-- See `viscoelasticRest2D`. -/
def viscoelasticRest3D (m : Mod ι) (s : State ι) : Prop :=
  ∀ i, normalRest3D m s i ∧ (shearRest m m.sModXY m.tauSXY s .Sxy i ∧
    shearRest m m.sModXZ m.tauSXZ s .Sxz i ∧ shearRest m m.sModYZ m.tauSYZ s .Syz i) ∧
    (m.invRhoX i = 0 → s (.fld .vX) i = 0) ∧ (m.invRhoY i = 0 → s (.fld .vY) i = 0) ∧
    (m.invRhoZ i = 0 → s (.fld .vZ) i = 0)

/-- Energy that turns into heat in the step from `s` to `s'`. -/
noncomputable def viscoelasticLoss3D (m : Mod ι) (s s' : State ι) : ℝ :=
  ∑ i, (normalLoss3D m s s' i + (shearLoss m m.sModXY m.tauSXY s s' .Sxy i +
    shearLoss m m.sModXZ m.tauSXZ s s' .Sxz i + shearLoss m m.sModYZ m.tauSYZ s s' .Syz i))

set_option maxHeartbeats 2000000 in
theorem viscoelastic3D_step {D : Deriv ι} {m : Mod ι} {c : BC ι} (hc : c.plain)
    (hD : D.regular) (hm : Relaxing m) (s : State ι) (h : viscoelasticRest3D m s) :
    viscoelasticRest3D m (exec (viscoelastic3D D m c) s) ∧
    viscoelasticEnergy3D D m (exec (viscoelastic3D D m c) s) =
      viscoelasticEnergy3D D m s - viscoelasticLoss3D m s (exec (viscoelastic3D D m c) s) := by
  obtain ⟨⟨e1, e2, e3⟩, r, ⟨e4, e5, e6⟩, e7, e8, e9⟩ := viscoelastic3D_plain (D := D) (m := m) hc s
  generalize exec (viscoelastic3D D m c) s = s' at e1 e2 e3 r e4 e5 e6 e7 e8 e9 ⊢
  have b1 := fun i => normal3D_balance hm (h i).1 (fun l hl => ⟨congrFun (r l hl).1.1 i,
    congrFun (r l hl).1.2.1 i, congrFun (r l hl).1.2.2 i⟩) (congrFun e4 i) (congrFun e5 i)
    (congrFun e6 i)
  have b2 := fun i => shear_balance hm (h i).2.1.1 (fun l hl => congrFun (r l hl).2.1 i)
    (congrFun e7 i)
  have b3 := fun i => shear_balance hm (h i).2.1.2.1 (fun l hl => congrFun (r l hl).2.2.1 i)
    (congrFun e8 i)
  have b4 := fun i => shear_balance hm (h i).2.1.2.2 (fun l hl => congrFun (r l hl).2.2.2 i)
    (congrFun e9 i)
  refine ⟨fun i => ⟨(b1 i).1, ⟨(b2 i).1, (b3 i).1, (b4 i).1⟩, fun hz => ?_, fun hz => ?_,
    fun hz => ?_⟩, ?_⟩
  · rw [e1]; simp [hz, (h i).2.2.1 hz]
  · rw [e2]; simp [hz, (h i).2.2.2.1 hz]
  · rw [e3]; simp [hz, (h i).2.2.2.2 hz]
  · have := energy_step_memory (A := Fin 3) (B := Fin 6)
      (fun i => normalEnergy3D m s i + (shearEnergy m m.sModXY m.tauSXY s .Sxy i +
        shearEnergy m m.sModXZ m.tauSXZ s .Sxz i + shearEnergy m m.sModYZ m.tauSYZ s .Syz i))
      (fun i => normalEnergy3D m s' i + (shearEnergy m m.sModXY m.tauSXY s' .Sxy i +
        shearEnergy m m.sModXZ m.tauSXZ s' .Sxz i + shearEnergy m m.sModYZ m.tauSYZ s' .Syz i))
      ![m.invRhoX, m.invRhoY, m.invRhoZ]
      ![![D.Dxf, 0, 0, D.Dyb, D.Dzb, 0], ![0, D.Dyf, 0, D.Dxb, 0, D.Dzb],
        ![0, 0, D.Dzf, 0, D.Dxb, D.Dyb]]
      ![s (.fld .vX), s (.fld .vY), s (.fld .vZ)] ![s' (.fld .vX), s' (.fld .vY), s' (.fld .vZ)]
      ![s (.fld .Sxx), s (.fld .Syy), s (.fld .Szz), s (.fld .Sxy), s (.fld .Sxz), s (.fld .Syz)]
      ![s' (.fld .Sxx), s' (.fld .Syy), s' (.fld .Szz), s' (.fld .Sxy), s' (.fld .Sxz),
        s' (.fld .Syz)]
      (fun i => normalLoss3D m s s' i + (shearLoss m m.sModXY m.tauSXY s s' .Sxy i +
        shearLoss m m.sModXZ m.tauSXZ s s' .Sxz i + shearLoss m m.sModYZ m.tauSYZ s s' .Syz i))
      (by
        intro a i
        fin_cases a <;> simp
        exacts [(h i).2.2.1, (h i).2.2.2.1, (h i).2.2.2.2])
      (by
        intro a i
        fin_cases a <;> simp [gSum, e1, e2, e3, Fin.sum_univ_six] <;> left <;> ring)
      (by
        intro i
        have t1 := (b1 i).2
        have t2 := (b2 i).2
        have t3 := (b3 i).2
        have t4 := (b4 i).2
        simp only [hD.adjX, hD.adjY, hD.adjZ, neg_mulVec, Pi.neg_apply] at t1 t2 t3 t4
        simp only [dSum, Fin.sum_univ_three, Fin.sum_univ_six, Matrix.cons_val, hD.adjX, hD.adjY,
          hD.adjZ, transpose_neg, transpose_transpose, neg_mulVec, Pi.neg_apply, transpose_zero,
          zero_mulVec, Pi.zero_apply]
        linear_combination t1 + t2 + t3 + t4)
    simp only [gSum, Fin.sum_univ_three, Fin.sum_univ_six, Matrix.cons_val, zero_mulVec,
      Pi.zero_apply, add_zero, zero_add] at this
    unfold viscoelasticEnergy3D viscoelasticLoss3D
    simp only [mul_add, Finset.sum_add_distrib] at this ⊢
    linarith

/-- C95, 3D: the energy after any number of steps is the initial one minus what the Maxwell elements
have turned into heat. -/
theorem C95_viscoelastic3D {D : Deriv ι} {m : Mod ι} {c : BC ι} (hc : c.plain) (hD : D.regular)
    (hm : Relaxing m) (s : State ι) (h : viscoelasticRest3D m s) (n : ℕ) :
    viscoelasticEnergy3D D m (run (viscoelastic3DSolver D m c) [] s n) =
      viscoelasticEnergy3D D m s -
        totalLoss (viscoelastic3DSolver D m c) (viscoelasticLoss3D m) s n :=
  (lossBalance (S := viscoelastic3DSolver D m c) (viscoelasticRest3D m) (viscoelasticEnergy3D D m)
    (viscoelasticLoss3D m) (fun s hs => viscoelastic3D_step hc hD hm s hs) s h n).2

theorem viscoelasticLoss3D_nonneg {m : Mod ι} (hm : Relaxing m)
    (hk : ∀ i, 0 ≤ m.sMod i * m.tauS i ∧ 4 * (m.sMod i * m.tauS i) ≤ 3 * (m.pMod i * m.tauP i) ∧
      0 ≤ m.sModXY i * m.tauSXY i ∧ 0 ≤ m.sModXZ i * m.tauSXZ i ∧ 0 ≤ m.sModYZ i * m.tauSYZ i)
    (s s' : State ι) : 0 ≤ viscoelasticLoss3D m s s' :=
  Finset.sum_nonneg fun i _ => add_nonneg (Finset.sum_nonneg fun l hl =>
    mul_nonneg (lossFactor_nonneg hm (Finset.mem_range.mp hl))
      (normal3_nonneg (hk i).1 (hk i).2.1 _ _ _))
    (add_nonneg (add_nonneg (shearLoss_nonneg hm (hk i).2.2.1 _ _ _)
      (shearLoss_nonneg hm (hk i).2.2.2.1 _ _ _)) (shearLoss_nonneg hm (hk i).2.2.2.2 _ _ _))

/-- C95, 3D: if the anelastic moduli are those of a solid that resists compression and shear, the
energy never grows. -/
theorem C95_viscoelastic3D_decreasing {D : Deriv ι} {m : Mod ι} {c : BC ι} (hc : c.plain)
    (hD : D.regular) (hm : Relaxing m)
    (hk : ∀ i, 0 ≤ m.sMod i * m.tauS i ∧ 4 * (m.sMod i * m.tauS i) ≤ 3 * (m.pMod i * m.tauP i) ∧
      0 ≤ m.sModXY i * m.tauSXY i ∧ 0 ≤ m.sModXZ i * m.tauSXZ i ∧ 0 ≤ m.sModYZ i * m.tauSYZ i)
    (s : State ι) (h : viscoelasticRest3D m s) :
    Antitone fun n => viscoelasticEnergy3D D m (run (viscoelastic3DSolver D m c) [] s n) := by
  refine antitone_nat_of_succ_le fun n => ?_
  obtain ⟨h1, -⟩ := lossBalance (S := viscoelastic3DSolver D m c) (viscoelasticRest3D m)
    (viscoelasticEnergy3D D m) (viscoelasticLoss3D m)
    (fun s hs => viscoelastic3D_step hc hD hm s hs) s h n
  simp only [run_succ_nil]
  rw [show (viscoelastic3DSolver D m c).prog = viscoelastic3D D m c from rfl,
    (viscoelastic3D_step hc hD hm _ h1).2]
  linarith [viscoelasticLoss3D_nonneg hm hk (run (viscoelastic3DSolver D m c) [] s n)
      (exec (viscoelastic3D D m c) (run (viscoelastic3DSolver D m c) [] s n))]

/-! ### Concrete cases -/

/-- Two points with two relaxation mechanisms; the second point is a fluid. -/
noncomputable def viscoExM : Mod (Fin 2) :=
  { invRho := 1, invRhoX := 1, invRhoY := ![1, 0], invRhoZ := 1
    pMod := ![3, 2], sMod := ![1, 0], sModXY := ![1, 0], sModXZ := ![1, 0], sModYZ := ![1, 0]
    tauP := 1 / 10, tauS := 1 / 10, tauSXY := 1 / 20, tauSXZ := 1 / 20, tauSYZ := 1 / 20
    L := 2, relaxTime := fun l => 1 / (l + 1), DT := 1 / 10 }

/-- A wavefield with stresses in the springs and in the Maxwell elements. -/
noncomputable def viscoExW : State (Fin 2) := fun v =>
  match v with
  | .fld .Sxx | .fld .Syy | .fld .Szz => ![1, 1]
  | .fld .Sxy | .fld .Sxz | .fld .Syz => ![1, 0]
  | .rel .Sxz 0 | .rel .Sxy 0 | .rel .Syz 0 => ![1, 0]
  | .rel .Sxx 1 | .rel .Syy 1 | .rel .Szz 1 => ![2, 2]
  | .fld .vZ | .fld .vX => 1
  | _ => 0

private theorem viscoExM_relaxing : Relaxing viscoExM :=
  ⟨by norm_num [viscoExM], fun l _ => by show (0 : ℝ) < 1 / (l + 1); positivity⟩

private theorem viscoExD_regular : energyExD.regular :=
  ⟨⟨rfl, rfl, rfl, rfl, rfl, rfl, rfl, rfl⟩, rfl, rfl, rfl⟩

private theorem viscoEx_shear (mu tau : Fin 2 → ℝ) (f : Fld) (hf : viscoExW (.fld f) = ![1, 0])
    (h0 : ∀ l, viscoExW (.rel f l) 1 = 0) (hmu : mu = ![1, 0]) (htau : tau = 1 / 20) (i : Fin 2) :
    shearRest viscoExM mu tau viscoExW f i := by
  subst hmu htau
  fin_cases i
  · refine ⟨fun h => ?_, fun l _ h => ?_⟩
    · norm_num [springModulus, viscoExM] at h
    · norm_num at h
  · refine ⟨fun _ => ?_, fun l _ _ => ?_⟩
    · simp [spring, anelastic, hf, h0]
    · simp [anelastic, h0]

private theorem viscoEx_zero (f : Fld) (hf : f = .Sxz ∨ f = .Syz ∨ f = .Sxy) (l : ℕ) :
    viscoExW (.rel f l) 1 = 0 := by
  rcases hf with rfl | rfl | rfl <;> rcases l with _ | _ | l <;> simp [viscoExW]

example : Antitone fun n => viscoshEnergy energyExD viscoExM
    (run (viscosh2DSolver energyExD viscoExM ⟨0, none, none, fun _ => false⟩) [] viscoExW n) := by
  refine C95_viscosh2D_decreasing ⟨rfl, rfl, rfl⟩ viscoExD_regular viscoExM_relaxing (fun i => ?_)
    viscoExW (fun i => ⟨viscoEx_shear _ _ _ rfl (viscoEx_zero _ (by simp)) rfl rfl i,
      viscoEx_shear _ _ _ rfl (viscoEx_zero _ (by simp)) rfl rfl i, fun h => ?_⟩)
  · fin_cases i <;> norm_num [viscoExM]
  · norm_num [viscoExM] at h

/-- The energy of this wavefield does get lost. -/
example : 0 < viscoshLoss viscoExM viscoExW viscoExW := by
  simp [viscoshLoss, shearLoss, lossFactor, anelastic, viscoExM, viscoExW, Finset.sum_range_succ]
  norm_num

example : Antitone fun n => viscoelasticEnergy2D energyExD viscoExM
    (run (viscoelastic2DSolver energyExD viscoExM ⟨0, none, none, fun _ => false⟩) [] viscoExW n) := by
  refine C95_viscoelastic2D_decreasing ⟨rfl, rfl, rfl⟩ viscoExD_regular viscoExM_relaxing (fun i => ?_)
    viscoExW (fun i => ⟨?_, viscoEx_shear _ _ _ rfl (viscoEx_zero _ (by simp)) rfl rfl i,
      fun h => ?_, fun h => ?_⟩)
  · fin_cases i <;> norm_num [viscoExM]
  · refine ⟨⟨fun h => ?_, fun _ => ?_⟩, fun l _ => ⟨fun h => ?_, fun _ => ?_⟩⟩
    · fin_cases i <;> norm_num [viscoExM] at h
    · simp only [spring, anelastic, viscoExM, viscoExW, Finset.sum_range_succ, Finset.sum_range_zero]
    · fin_cases i <;> norm_num [viscoExM] at h
    · rcases l with _ | _ | l <;> simp [anelastic, viscoExW]
  · norm_num [viscoExM] at h
  · fin_cases i
    · norm_num [viscoExM] at h
    · rfl

end Verif.Solver
