import Verif.Props.Visco
import Verif.Props.Stability
/-!
# C96: attenuating wavefields stay bounded below the Courant limit of the unrelaxed velocity
-/
set_option linter.dupNamespace false
set_option linter.unusedSectionVars false

namespace Verif.Solver
open Matrix Verif.Stencil Verif.Check

variable {ι : Type} [Fintype ι] [DecidableEq ι]

/-- The model with the moduli that a sudden deformation meets: all Maxwell elements are still
unrelaxed. -/
noncomputable def Mod.unrelaxed (m : Mod ι) : Mod ι :=
  { m with
    pMod := fun i => m.pMod i * (1 + m.L * m.tauP i)
    sMod := fun i => m.sMod i * (1 + m.L * m.tauS i)
    sModXY := fun i => m.sModXY i * (1 + m.L * m.tauS i)
    sModXZ := fun i => m.sModXZ i * (1 + m.L * m.tauS i)
    sModYZ := fun i => m.sModYZ i * (1 + m.L * m.tauS i) }

private theorem parallel2 {K k x y : ℝ} (hK : 0 ≤ K) (hk : 0 ≤ k) (hx : K = 0 → x = 0)
    (hy : k = 0 → y = 0) : (x + y) ^ 2 / (K + k) ≤ x ^ 2 / K + y ^ 2 / k := by
  rcases hK.eq_or_lt with h | h
  · simp [hx h.symm, ← h]
  · rcases hk.eq_or_lt with h' | h'
    · simp [hy h'.symm, ← h']
    · have e : x ^ 2 / K + y ^ 2 / k - (x + y) ^ 2 / (K + k) = (x * k - y * K) ^ 2 / (K * k * (K + k)) := by
        field_simp; ring
      have : 0 ≤ (x * k - y * K) ^ 2 / (K * k * (K + k)) := by positivity
      linarith

/-- Springs in parallel: the energy of the total stress for the sum of the moduli is at most the sum
of the energies. -/
private theorem parallel {K k x : ℝ} {a : ℕ → ℝ} (hK : 0 ≤ K) (hk : 0 ≤ k) (hx : K = 0 → x = 0) (L : ℕ)
    (ha : ∀ l, l < L → k = 0 → a l = 0) :
    (K + L * k = 0 → x + ∑ l ∈ Finset.range L, a l = 0) ∧
    (x + ∑ l ∈ Finset.range L, a l) ^ 2 / (K + L * k) ≤
      x ^ 2 / K + ∑ l ∈ Finset.range L, a l ^ 2 / k := by
  induction L with
  | zero => simpa using hx
  | succ n ih =>
    obtain ⟨h1, h2⟩ := ih fun l hl => ha l (hl.trans (Nat.lt_succ_self n))
    have hn : 0 ≤ K + n * k := by positivity
    have e : K + ((n + 1 : ℕ) : ℝ) * k = (K + n * k) + k := by push_cast; ring
    rw [e, Finset.sum_range_succ, Finset.sum_range_succ, ← add_assoc, ← add_assoc]
    have hl := ha n (Nat.lt_succ_self n)
    refine ⟨fun hz => ?_, ?_⟩
    · rw [h1 (by linarith), hl (by linarith)]; ring
    · have := parallel2 hn hk h1 hl
      linarith

private theorem shear_parallel {m : Mod ι} {mu tau : ι → ℝ} {s : State ι} {f : Fld} {i : ι}
    (h : shearRest m mu tau s f i) (h1 : 0 ≤ springModulus m mu tau i) (h2 : 0 ≤ mu i * tau i) :
    (mu i * (1 + m.L * m.tauS i) = 0 → s (.fld f) i = 0) ∧
    s (.fld f) i ^ 2 / (mu i * (1 + m.L * m.tauS i)) ≤ shearEnergy m mu tau s f i := by
  have := parallel h1 h2 h.1 m.L h.2
  have e : springModulus m mu tau i + m.L * (mu i * tau i) = mu i * (1 + m.L * m.tauS i) := by
    unfold springModulus; ring
  have e2 : spring m s f i + ∑ l ∈ Finset.range m.L, anelastic m s f l i = s (.fld f) i := by
    unfold spring; ring
  rwa [e, e2] at this

/-! ### SH waves -/

/-- Sum of squares of a viscoelastic SH wavefield. -/
noncomputable def viscoshNorm (m : Mod ι) (s : State ι) : ℝ :=
  ∑ i, (shearEnergy m m.sModXZ m.tauSXZ s .Sxz i + shearEnergy m m.sModYZ m.tauSYZ s .Syz i) +
  ∑ i, s (.fld .vZ) i ^ 2 / m.invRho i

/-- C96, 2D SH: with a time step below the Courant limit for the unrelaxed velocity the wavefield of a
simulation without sources and boundary conditions stays bounded for ever. -/
theorem C96_viscosh2D {NX NY : ℕ} {s : Int} {cs : List ℚ} (hs : ValidOrder s) (hcs : fd s = some cs)
    {DT DH v : ℝ} (hDT : 0 < DT) (hDH : 0 < DH) (hv : 0 < v)
    (hC : DT < DH / (gamma cs * √2 * v)) {m : Mod (Pt NX NY 1)} (hr : Relaxing m)
    (hm : ∀ i, 0 ≤ m.invRho i ∧
      (0 ≤ springModulus m m.sModXZ m.tauSXZ i ∧ 0 ≤ m.sModXZ i * m.tauSXZ i) ∧
      (0 ≤ springModulus m m.sModYZ m.tauSYZ i ∧ 0 ≤ m.sModYZ i * m.tauSYZ i))
    (hx : SpeedBound s v .x m.invRho m.unrelaxed.sModXZ)
    (hy : SpeedBound s v .y m.invRho m.unrelaxed.sModYZ)
    {c : BC (Pt NX NY 1)} (hc : c.plain) (w : State (Pt NX NY 1)) (hw : viscoshRest m w) (n : ℕ) :
    let θ := gamma cs * √2 * v * DT / DH
    viscoshNorm m (run (viscosh2DSolver (regularDeriv NX NY 1 s DT DH) m c) [] w n) ≤
      (1 + θ) / (1 - θ) * viscoshNorm m w := by
  intro θ
  have hg := gamma_pos hs hcs
  have h2 : (0 : ℝ) < √2 := Real.sqrt_pos.mpr two_pos
  have hθ : 0 ≤ θ := by positivity
  refine bounded_of_near (S := viscosh2DSolver (regularDeriv NX NY 1 s DT DH) m c) (viscoshRest m)
    (viscoshEnergy (regularDeriv NX NY 1 s DT DH) m) _ (θ := θ)
    (theta_lt hDH hv hg h2 hC)
    (fun s hs => (viscosh_step hc regularDeriv_regular hr s hs).1)
    (fun s hs => (viscosh_step hc regularDeriv_regular hr s hs).2.trans_le (sub_le_self _
      (Finset.sum_nonneg fun i _ => add_nonneg (shearLoss_nonneg hr (hm i).2.1.2 _ _ _)
      (shearLoss_nonneg hr (hm i).2.2.2 _ _ _)))) ?_ w hw n
  intro u hu
  have p1 := fun i => shear_parallel (hu i).1 (hm i).2.1.1 (hm i).2.1.2
  have p2 := fun i => shear_parallel (hu i).2.1 (hm i).2.2.1 (hm i).2.2.2
  have pos : ∀ i, 0 ≤ m.unrelaxed.sModXZ i ∧ 0 ≤ m.unrelaxed.sModYZ i := by
    intro i
    have e1 : m.unrelaxed.sModXZ i = springModulus m m.sModXZ m.tauSXZ i +
      m.L * (m.sModXZ i * m.tauSXZ i) := by simp only [Mod.unrelaxed, springModulus]; ring
    have e2 : m.unrelaxed.sModYZ i = springModulus m m.sModYZ m.tauSYZ i +
      m.L * (m.sModYZ i * m.tauSYZ i) := by simp only [Mod.unrelaxed, springModulus]; ring
    rw [e1, e2]
    obtain ⟨-, ⟨a1, a2⟩, a3, a4⟩ := hm i
    exact ⟨by positivity, by positivity⟩
  have near := sh_near hs hcs hDT hDH hv (m := m.unrelaxed)
    (fun i => ⟨(hm i).1, (pos i).1, (pos i).2⟩) hx hy u
    (fun i => ⟨(p1 i).1, (p2 i).1, (hu i).2.2⟩)
  have le : shNorm m.unrelaxed u ≤ viscoshNorm m u := by
    unfold shNorm viscoshNorm
    rw [add_comm, Finset.sum_add_distrib]
    exact add_le_add (add_le_add (Finset.sum_le_sum fun i _ => (p1 i).2)
      (Finset.sum_le_sum fun i _ => (p2 i).2)) le_rfl
  have e : viscoshEnergy (regularDeriv NX NY 1 s DT DH) m u - viscoshNorm m u =
      shEnergy (regularDeriv NX NY 1 s DT DH) m.unrelaxed u - shNorm m.unrelaxed u := by
    unfold viscoshEnergy viscoshNorm shEnergy shNorm
    simp only [Mod.unrelaxed]
    ring
  rw [e]
  exact near.trans (mul_le_mul_of_nonneg_left le hθ)

/-! ### P-SV waves -/

private theorem normal2_parallel {m : Mod ι} {s : State ι} {i : ι} (h : normalRest2D m s i)
    (h1 : 0 ≤ m.sMod i) (h2 : m.sMod i ≤ m.pMod i) (h3 : 0 ≤ m.sMod i * m.tauS i)
    (h4 : m.sMod i * m.tauS i ≤ m.pMod i * m.tauP i) :
    rest2 (m.unrelaxed.pMod i) (m.unrelaxed.sMod i) (s (.fld .Sxx) i) (s (.fld .Syy) i) ∧
    normal2 (m.unrelaxed.pMod i) (m.unrelaxed.sMod i) (s (.fld .Sxx) i) (s (.fld .Syy) i) ≤
      normalEnergy2D m s i := by
  have a := parallel (K := 4 * (m.pMod i - m.sMod i)) (k := 4 * (m.pMod i * m.tauP i - m.sMod i * m.tauS i))
    (x := spring m s .Sxx i + spring m s .Syy i)
    (a := fun l => anelastic m s .Sxx l i + anelastic m s .Syy l i) (by linarith) (by linarith)
    (fun hz => h.1.1 (by linarith)) m.L (fun l hl hz => (h.2 l hl).1 (by linarith))
  have b := parallel (K := 4 * m.sMod i) (k := 4 * (m.sMod i * m.tauS i))
    (x := spring m s .Sxx i - spring m s .Syy i)
    (a := fun l => anelastic m s .Sxx l i - anelastic m s .Syy l i) (by linarith) (by linarith)
    (fun hz => sub_eq_zero.mpr (h.1.2 (by linarith))) m.L
    (fun l hl hz => sub_eq_zero.mpr ((h.2 l hl).2 (by linarith)))
  have e1 : spring m s .Sxx i + spring m s .Syy i +
      ∑ l ∈ Finset.range m.L, (anelastic m s .Sxx l i + anelastic m s .Syy l i) =
      s (.fld .Sxx) i + s (.fld .Syy) i := by
    rw [Finset.sum_add_distrib]; unfold spring; ring
  have e2 : spring m s .Sxx i - spring m s .Syy i +
      ∑ l ∈ Finset.range m.L, (anelastic m s .Sxx l i - anelastic m s .Syy l i) =
      s (.fld .Sxx) i - s (.fld .Syy) i := by
    rw [Finset.sum_sub_distrib]; unfold spring; ring
  have k1 : 4 * (m.pMod i - m.sMod i) + m.L * (4 * (m.pMod i * m.tauP i - m.sMod i * m.tauS i)) =
      4 * (m.unrelaxed.pMod i - m.unrelaxed.sMod i) := by simp only [Mod.unrelaxed]; ring
  have k2 : 4 * m.sMod i + m.L * (4 * (m.sMod i * m.tauS i)) = 4 * m.unrelaxed.sMod i := by
    simp only [Mod.unrelaxed]; ring
  rw [e1, k1] at a
  rw [e2, k2] at b
  refine ⟨⟨fun hz => a.1 (by linarith), fun hz => sub_eq_zero.mp (b.1 (by linarith))⟩, ?_⟩
  unfold normalEnergy2D normal2
  rw [Finset.sum_add_distrib]
  linarith [a.2, b.2]

/-- Sum of squares of a 2D viscoelastic wavefield. -/
noncomputable def viscoelasticNorm2D (m : Mod ι) (s : State ι) : ℝ :=
  ∑ i, (normalEnergy2D m s i + shearEnergy m m.sModXY m.tauSXY s .Sxy i) +
  (∑ i, s (.fld .vX) i ^ 2 / m.invRhoX i + ∑ i, s (.fld .vY) i ^ 2 / m.invRhoY i)

/-- The spring and each Maxwell element resist compression and shear. -/
def Solid2D (m : Mod ι) : Prop :=
  ∀ i, 0 ≤ m.sMod i ∧ m.sMod i ≤ m.pMod i ∧ 0 ≤ m.sMod i * m.tauS i ∧
    m.sMod i * m.tauS i ≤ m.pMod i * m.tauP i ∧
    0 ≤ springModulus m m.sModXY m.tauSXY i ∧ 0 ≤ m.sModXY i * m.tauSXY i

private theorem viscoelastic2D_bounded {m : Mod ι} {D : Deriv ι} (hD : D.regular) {θ : ℝ} (h0 : 0 ≤ θ)
    (h1 : θ < 1) (hr : Relaxing m) (hm : Solid2D m)
    (near : ∀ u, elasticRest2D m.unrelaxed u →
      |elasticEnergy2D D m.unrelaxed u - elasticNorm2D m.unrelaxed u| ≤ θ * elasticNorm2D m.unrelaxed u)
    {c : BC ι} (hc : c.plain) (w : State ι) (hw : viscoelasticRest2D m w) (n : ℕ) :
    viscoelasticNorm2D m (run (viscoelastic2DSolver D m c) [] w n) ≤
      (1 + θ) / (1 - θ) * viscoelasticNorm2D m w := by
  refine bounded_of_near (S := viscoelastic2DSolver D m c) (viscoelasticRest2D m)
    (viscoelasticEnergy2D D m) _ (θ := θ) h1
    (fun s hs => (viscoelastic2D_step hc hD hr s hs).1)
    (fun s hs => (viscoelastic2D_step hc hD hr s hs).2.trans_le (sub_le_self _
      (viscoelasticLoss2D_nonneg hr (fun i => ⟨(hm i).2.2.1, (hm i).2.2.2.1, (hm i).2.2.2.2.2⟩) _ _)))
    ?_ w hw n
  intro u hu
  have p1 := fun i => normal2_parallel (hu i).1 (hm i).1 (hm i).2.1 (hm i).2.2.1 (hm i).2.2.2.1
  have p2 := fun i => shear_parallel (hu i).2.1 (hm i).2.2.2.2.1 (hm i).2.2.2.2.2
  have nr := near u (fun i => ⟨(p1 i).1.1, (p1 i).1.2, (p2 i).1, (hu i).2.2.1, (hu i).2.2.2⟩)
  have le : elasticNorm2D m.unrelaxed u ≤ viscoelasticNorm2D m u := by
    unfold elasticNorm2D viscoelasticNorm2D
    exact add_le_add (Finset.sum_le_sum fun i _ => add_le_add (p1 i).2 (p2 i).2) le_rfl
  have e : viscoelasticEnergy2D D m u - viscoelasticNorm2D m u =
      elasticEnergy2D D m.unrelaxed u - elasticNorm2D m.unrelaxed u := by
    unfold viscoelasticEnergy2D viscoelasticNorm2D elasticEnergy2D elasticNorm2D
    simp only [Mod.unrelaxed]
    ring
  rw [e]
  exact nr.trans (mul_le_mul_of_nonneg_left le h0)

private theorem unrelaxed_solid {m : Mod ι} (h : Solid2D m) (i : ι) :
    0 ≤ m.unrelaxed.sMod i ∧ m.unrelaxed.sMod i ≤ m.unrelaxed.pMod i ∧ 0 ≤ m.unrelaxed.sModXY i := by
  obtain ⟨h1, h2, h3, h4, h5, h6⟩ := h i
  have hL : (0 : ℝ) ≤ m.L := Nat.cast_nonneg _
  have t1 := mul_nonneg hL h3
  have t2 := mul_le_mul_of_nonneg_left h4 hL
  have t3 := mul_nonneg hL h6
  unfold springModulus at h5
  simp only [Mod.unrelaxed]
  refine ⟨by linarith, by linarith, by linarith⟩

/-- C96, 2D P-SV: constant unrelaxed shear modulus, everything else arbitrary. `v` is the velocity for
the largest unrelaxed P-wave modulus and the smallest density. Missing: variable unrelaxed shear
moduli. -/
theorem C96_viscoelastic2D_partial {NX NY : ℕ} {s : Int} {cs : List ℚ} (hs : ValidOrder s)
    (hcs : fd s = some cs) {DT DH v : ℝ} (hDT : 0 < DT) (hDH : 0 < DH) (hv : 0 < v)
    (hC : DT < DH / (gamma cs * √2 * v)) {m : Mod (Pt NX NY 1)} (hr : Relaxing m) (hsol : Solid2D m)
    {Mmax μ rhoMin : ℝ} (hrho : 0 < rhoMin) (hμ : 0 ≤ μ) (hμM : μ ≤ Mmax)
    (hm : ∀ i, m.unrelaxed.sMod i = μ ∧ m.unrelaxed.sModXY i ≤ μ ∧ m.unrelaxed.pMod i ≤ Mmax ∧
      (0 ≤ m.invRhoX i ∧ m.invRhoX i ≤ 1 / rhoMin) ∧ (0 ≤ m.invRhoY i ∧ m.invRhoY i ≤ 1 / rhoMin))
    (hvel : Mmax / rhoMin ≤ v ^ 2)
    {c : BC (Pt NX NY 1)} (hc : c.plain) (w : State (Pt NX NY 1)) (hw : viscoelasticRest2D m w) (n : ℕ) :
    let θ := gamma cs * √2 * v * DT / DH
    viscoelasticNorm2D m (run (viscoelastic2DSolver (regularDeriv NX NY 1 s DT DH) m c) [] w n) ≤
      (1 + θ) / (1 - θ) * viscoelasticNorm2D m w := by
  intro θ
  have hg := gamma_pos hs hcs
  have h2 : (0 : ℝ) < √2 := Real.sqrt_pos.mpr two_pos
  refine viscoelastic2D_bounded regularDeriv_regular (by positivity) (theta_lt hDH hv hg h2 hC) hr hsol
    (elastic2D_near_const hs hcs hDT hDH hv hrho hμ hμM (fun i => ?_) hvel) hc w hw n
  obtain ⟨a1, a2, a3, a4, a5⟩ := hm i
  obtain ⟨b1, b2, b3⟩ := unrelaxed_solid hsol i
  exact ⟨a1, ⟨b3, a2⟩, ⟨a1 ▸ b2, a3⟩, a4, a5⟩

/-- C96, 2D P-SV with arbitrary moduli and densities: the limit is smaller by the factor `√2`.
Missing: time steps between the two limits when the shear modulus varies. -/
theorem C96_viscoelastic2D_variable_partial {NX NY : ℕ} {s : Int} {cs : List ℚ} (hs : ValidOrder s)
    (hcs : fd s = some cs) {DT DH v : ℝ} (hDT : 0 < DT) (hDH : 0 < DH) (hv : 0 < v)
    (hC : DT < DH / (gamma cs * 2 * v)) {m : Mod (Pt NX NY 1)} (hr : Relaxing m) (hsol : Solid2D m)
    {Mmax rhoMin : ℝ} (hrho : 0 < rhoMin) (hM : 0 ≤ Mmax)
    (hm : ∀ i, m.unrelaxed.pMod i ≤ Mmax ∧ m.unrelaxed.sModXY i ≤ Mmax ∧
      (0 ≤ m.invRhoX i ∧ m.invRhoX i ≤ 1 / rhoMin) ∧ (0 ≤ m.invRhoY i ∧ m.invRhoY i ≤ 1 / rhoMin))
    (hvel : Mmax / rhoMin ≤ v ^ 2)
    {c : BC (Pt NX NY 1)} (hc : c.plain) (w : State (Pt NX NY 1)) (hw : viscoelasticRest2D m w) (n : ℕ) :
    let θ := gamma cs * 2 * v * DT / DH
    viscoelasticNorm2D m (run (viscoelastic2DSolver (regularDeriv NX NY 1 s DT DH) m c) [] w n) ≤
      (1 + θ) / (1 - θ) * viscoelasticNorm2D m w := by
  intro θ
  have hg := gamma_pos hs hcs
  refine viscoelastic2D_bounded regularDeriv_regular (by positivity) (theta_lt hDH hv hg two_pos hC) hr
    hsol (elastic2D_near_variable hs hcs hDT hDH hv hrho hM (fun i => ?_) hvel) hc w hw n
  obtain ⟨a1, a2, a3, a4⟩ := hm i
  obtain ⟨b1, b2, b3⟩ := unrelaxed_solid hsol i
  exact ⟨b1, b2, a1, ⟨b3, a2⟩, a3, a4⟩

/-! ### 3D -/

private theorem normal3_parallel {m : Mod ι} {s : State ι} {i : ι} (h : normalRest3D m s i)
    (h1 : 0 ≤ m.sMod i) (h2 : 4 * m.sMod i ≤ 3 * m.pMod i) (h3 : 0 ≤ m.sMod i * m.tauS i)
    (h4 : 4 * (m.sMod i * m.tauS i) ≤ 3 * (m.pMod i * m.tauP i)) :
    rest3 (m.unrelaxed.pMod i) (m.unrelaxed.sMod i) (s (.fld .Sxx) i) (s (.fld .Syy) i)
      (s (.fld .Szz) i) ∧
    normal3 (m.unrelaxed.pMod i) (m.unrelaxed.sMod i) (s (.fld .Sxx) i) (s (.fld .Syy) i)
      (s (.fld .Szz) i) ≤ normalEnergy3D m s i := by
  have a := parallel (K := 3 * (3 * m.pMod i - 4 * m.sMod i))
    (k := 3 * (3 * (m.pMod i * m.tauP i) - 4 * (m.sMod i * m.tauS i)))
    (x := spring m s .Sxx i + spring m s .Syy i + spring m s .Szz i)
    (a := fun l => anelastic m s .Sxx l i + anelastic m s .Syy l i + anelastic m s .Szz l i)
    (by linarith) (by linarith)
    (fun hz => h.1.1 (by linarith)) m.L (fun l hl hz => (h.2 l hl).1 (by linarith))
  have dev : ∀ f g : Fld, (m.sMod i = 0 → spring m s f i = spring m s g i) →
      (∀ l, l < m.L → m.sMod i * m.tauS i = 0 → anelastic m s f l i = anelastic m s g l i) →
      (m.unrelaxed.sMod i = 0 → s (.fld f) i = s (.fld g) i) ∧
      (s (.fld f) i - s (.fld g) i) ^ 2 / (6 * m.unrelaxed.sMod i) ≤
      (spring m s f i - spring m s g i) ^ 2 / (6 * m.sMod i) + ∑ l ∈ Finset.range m.L,
        (anelastic m s f l i - anelastic m s g l i) ^ 2 / (6 * (m.sMod i * m.tauS i)) := by
    intro f g hf hg
    have b := parallel (K := 6 * m.sMod i) (k := 6 * (m.sMod i * m.tauS i))
      (x := spring m s f i - spring m s g i)
      (a := fun l => anelastic m s f l i - anelastic m s g l i) (by linarith) (by linarith)
      (fun hz => sub_eq_zero.mpr (hf (by linarith))) m.L
      (fun l hl hz => sub_eq_zero.mpr (hg l hl (by linarith)))
    have e2 : spring m s f i - spring m s g i +
        ∑ l ∈ Finset.range m.L, (anelastic m s f l i - anelastic m s g l i) =
        s (.fld f) i - s (.fld g) i := by
      rw [Finset.sum_sub_distrib]; unfold spring; ring
    have k2 : 6 * m.sMod i + m.L * (6 * (m.sMod i * m.tauS i)) = 6 * m.unrelaxed.sMod i := by
      simp only [Mod.unrelaxed]; ring
    rw [e2, k2] at b
    exact ⟨fun hz => sub_eq_zero.mp (b.1 (by linarith)), b.2⟩
  have b1 := dev .Sxx .Syy (fun hz => (h.1.2 hz).1) (fun l hl hz => ((h.2 l hl).2 hz).1)
  have b2 := dev .Syy .Szz (fun hz => (h.1.2 hz).2) (fun l hl hz => ((h.2 l hl).2 hz).2)
  have b3 := dev .Szz .Sxx (fun hz => ((h.1.2 hz).1.trans (h.1.2 hz).2).symm)
    (fun l hl hz => (((h.2 l hl).2 hz).1.trans ((h.2 l hl).2 hz).2).symm)
  have e1 : spring m s .Sxx i + spring m s .Syy i + spring m s .Szz i +
      ∑ l ∈ Finset.range m.L, (anelastic m s .Sxx l i + anelastic m s .Syy l i +
        anelastic m s .Szz l i) =
      s (.fld .Sxx) i + s (.fld .Syy) i + s (.fld .Szz) i := by
    rw [Finset.sum_add_distrib, Finset.sum_add_distrib]; unfold spring; ring
  have k1 : 3 * (3 * m.pMod i - 4 * m.sMod i) +
      m.L * (3 * (3 * (m.pMod i * m.tauP i) - 4 * (m.sMod i * m.tauS i))) =
      3 * (3 * m.unrelaxed.pMod i - 4 * m.unrelaxed.sMod i) := by simp only [Mod.unrelaxed]; ring
  rw [e1, k1] at a
  refine ⟨⟨fun hz => a.1 (by linarith), fun hz => ⟨b1.1 hz, b2.1 hz⟩⟩, ?_⟩
  unfold normalEnergy3D normal3
  simp only [Finset.sum_add_distrib]
  linarith [a.2, b1.2, b2.2, b3.2]

/-- Sum of squares of a 3D viscoelastic wavefield. -/
noncomputable def viscoelasticNorm3D (m : Mod ι) (s : State ι) : ℝ :=
  ∑ i, (normalEnergy3D m s i + (shearEnergy m m.sModXY m.tauSXY s .Sxy i +
    shearEnergy m m.sModXZ m.tauSXZ s .Sxz i + shearEnergy m m.sModYZ m.tauSYZ s .Syz i)) +
  (∑ i, s (.fld .vX) i ^ 2 / m.invRhoX i + ∑ i, s (.fld .vY) i ^ 2 / m.invRhoY i +
    ∑ i, s (.fld .vZ) i ^ 2 / m.invRhoZ i)

/-- The spring and each Maxwell element resist compression and shear. -/
def Solid3D (m : Mod ι) : Prop :=
  ∀ i, 0 ≤ m.sMod i ∧ 4 * m.sMod i ≤ 3 * m.pMod i ∧ 0 ≤ m.sMod i * m.tauS i ∧
    4 * (m.sMod i * m.tauS i) ≤ 3 * (m.pMod i * m.tauP i) ∧
    (0 ≤ springModulus m m.sModXY m.tauSXY i ∧ 0 ≤ m.sModXY i * m.tauSXY i) ∧
    (0 ≤ springModulus m m.sModXZ m.tauSXZ i ∧ 0 ≤ m.sModXZ i * m.tauSXZ i) ∧
    (0 ≤ springModulus m m.sModYZ m.tauSYZ i ∧ 0 ≤ m.sModYZ i * m.tauSYZ i)

private theorem viscoelastic3D_bounded {m : Mod ι} {D : Deriv ι} (hD : D.regular) {θ : ℝ} (h0 : 0 ≤ θ)
    (h1 : θ < 1) (hr : Relaxing m) (hm : Solid3D m)
    (near : ∀ u, elasticRest3D m.unrelaxed u →
      |elasticEnergy3D D m.unrelaxed u - elasticNorm3D m.unrelaxed u| ≤ θ * elasticNorm3D m.unrelaxed u)
    {c : BC ι} (hc : c.plain) (w : State ι) (hw : viscoelasticRest3D m w) (n : ℕ) :
    viscoelasticNorm3D m (run (viscoelastic3DSolver D m c) [] w n) ≤
      (1 + θ) / (1 - θ) * viscoelasticNorm3D m w := by
  refine bounded_of_near (S := viscoelastic3DSolver D m c) (viscoelasticRest3D m)
    (viscoelasticEnergy3D D m) _ (θ := θ) h1
    (fun s hs => (viscoelastic3D_step hc hD hr s hs).1)
    (fun s hs => (viscoelastic3D_step hc hD hr s hs).2.trans_le (sub_le_self _
      (viscoelasticLoss3D_nonneg hr (fun i => ⟨(hm i).2.2.1, (hm i).2.2.2.1, (hm i).2.2.2.2.1.2,
        (hm i).2.2.2.2.2.1.2, (hm i).2.2.2.2.2.2.2⟩) _ _)))
    ?_ w hw n
  intro u hu
  have p1 := fun i => normal3_parallel (hu i).1 (hm i).1 (hm i).2.1 (hm i).2.2.1 (hm i).2.2.2.1
  have p2 := fun i => shear_parallel (hu i).2.1.1 (hm i).2.2.2.2.1.1 (hm i).2.2.2.2.1.2
  have p3 := fun i => shear_parallel (hu i).2.1.2.1 (hm i).2.2.2.2.2.1.1 (hm i).2.2.2.2.2.1.2
  have p4 := fun i => shear_parallel (hu i).2.1.2.2 (hm i).2.2.2.2.2.2.1 (hm i).2.2.2.2.2.2.2
  have nr := near u (fun i => ⟨(p1 i).1.1, (p1 i).1.2, (p2 i).1, (p3 i).1, (p4 i).1, (hu i).2.2.1,
    (hu i).2.2.2.1, (hu i).2.2.2.2⟩)
  have le : elasticNorm3D m.unrelaxed u ≤ viscoelasticNorm3D m u := by
    unfold elasticNorm3D viscoelasticNorm3D
    refine add_le_add (Finset.sum_le_sum fun i _ => ?_) le_rfl
    have a1 := (p1 i).2
    have a2 := (p2 i).2
    have a3 := (p3 i).2
    have a4 := (p4 i).2
    unfold normal3 at a1
    simp only [Mod.unrelaxed] at a1 ⊢
    linarith
  have e : viscoelasticEnergy3D D m u - viscoelasticNorm3D m u =
      elasticEnergy3D D m.unrelaxed u - elasticNorm3D m.unrelaxed u := by
    unfold viscoelasticEnergy3D viscoelasticNorm3D elasticEnergy3D elasticNorm3D
    simp only [Mod.unrelaxed, mul_add, Finset.sum_add_distrib]
    ring
  rw [e]
  exact nr.trans (mul_le_mul_of_nonneg_left le h0)

private theorem unrelaxed_solid3 {m : Mod ι} (h : Solid3D m) (i : ι) :
    0 ≤ m.unrelaxed.sMod i ∧ 4 * m.unrelaxed.sMod i ≤ 3 * m.unrelaxed.pMod i ∧
    0 ≤ m.unrelaxed.sModXY i ∧ 0 ≤ m.unrelaxed.sModXZ i ∧ 0 ≤ m.unrelaxed.sModYZ i := by
  obtain ⟨h1, h2, h3, h4, ⟨h5, h6⟩, ⟨h7, h8⟩, h9, h10⟩ := h i
  have hL : (0 : ℝ) ≤ m.L := Nat.cast_nonneg _
  have t1 := mul_nonneg hL h3
  have t2 := mul_le_mul_of_nonneg_left h4 hL
  have t3 := mul_nonneg hL h6
  have t4 := mul_nonneg hL h8
  have t5 := mul_nonneg hL h10
  unfold springModulus at h5 h7 h9
  simp only [Mod.unrelaxed]
  refine ⟨by linarith, by linarith, by linarith, by linarith, by linarith⟩

/-- C96, 3D: constant unrelaxed shear modulus, everything else arbitrary. Missing: variable unrelaxed
shear moduli. -/
theorem C96_viscoelastic3D_partial {NX NY NZ : ℕ} {s : Int} {cs : List ℚ} (hs : ValidOrder s)
    (hcs : fd s = some cs) {DT DH v : ℝ} (hDT : 0 < DT) (hDH : 0 < DH) (hv : 0 < v)
    (hC : DT < DH / (gamma cs * √3 * v)) {m : Mod (Pt NX NY NZ)} (hr : Relaxing m) (hsol : Solid3D m)
    {Mmax μ rhoMin : ℝ} (hrho : 0 < rhoMin) (hμ : 0 ≤ μ) (hμM : μ ≤ Mmax)
    (hm : ∀ i, m.unrelaxed.sMod i = μ ∧ (m.unrelaxed.sModXY i ≤ μ ∧ m.unrelaxed.sModXZ i ≤ μ ∧
        m.unrelaxed.sModYZ i ≤ μ) ∧ m.unrelaxed.pMod i ≤ Mmax ∧
      (0 ≤ m.invRhoX i ∧ m.invRhoX i ≤ 1 / rhoMin) ∧ (0 ≤ m.invRhoY i ∧ m.invRhoY i ≤ 1 / rhoMin) ∧
      (0 ≤ m.invRhoZ i ∧ m.invRhoZ i ≤ 1 / rhoMin))
    (hvel : Mmax / rhoMin ≤ v ^ 2)
    {c : BC (Pt NX NY NZ)} (hc : c.plain) (w : State (Pt NX NY NZ)) (hw : viscoelasticRest3D m w)
    (n : ℕ) :
    let θ := gamma cs * √3 * v * DT / DH
    viscoelasticNorm3D m (run (viscoelastic3DSolver (regularDeriv NX NY NZ s DT DH) m c) [] w n) ≤
      (1 + θ) / (1 - θ) * viscoelasticNorm3D m w := by
  intro θ
  have hg := gamma_pos hs hcs
  have h3 : (0 : ℝ) < √3 := Real.sqrt_pos.mpr three_pos
  refine viscoelastic3D_bounded regularDeriv_regular (by positivity) (theta_lt hDH hv hg h3 hC) hr hsol
    (elastic3D_near_const hs hcs hDT hDH hv hrho hμ hμM (fun i => ?_) hvel) hc w hw n
  obtain ⟨a1, ⟨a2, a3, a4⟩, a5, a6⟩ := hm i
  obtain ⟨b1, b2, b3, b4, b5⟩ := unrelaxed_solid3 hsol i
  exact ⟨a1, ⟨⟨b3, a2⟩, ⟨b4, a3⟩, ⟨b5, a4⟩⟩, ⟨a1 ▸ b2, a5⟩, a6⟩

/-- C96, 3D with arbitrary moduli and densities: the limit is smaller by the factor `√2`. Missing: time
steps between the two limits when the shear modulus varies. -/
theorem C96_viscoelastic3D_variable_partial {NX NY NZ : ℕ} {s : Int} {cs : List ℚ} (hs : ValidOrder s)
    (hcs : fd s = some cs) {DT DH v : ℝ} (hDT : 0 < DT) (hDH : 0 < DH) (hv : 0 < v)
    (hC : DT < DH / (gamma cs * √3 * (√2 * v))) {m : Mod (Pt NX NY NZ)} (hr : Relaxing m)
    (hsol : Solid3D m) {Mmax rhoMin : ℝ} (hrho : 0 < rhoMin) (hM : 0 ≤ Mmax)
    (hm : ∀ i, m.unrelaxed.pMod i ≤ Mmax ∧
      (4 * m.unrelaxed.sModXY i ≤ 3 * Mmax ∧ 4 * m.unrelaxed.sModXZ i ≤ 3 * Mmax ∧
        4 * m.unrelaxed.sModYZ i ≤ 3 * Mmax) ∧
      (0 ≤ m.invRhoX i ∧ m.invRhoX i ≤ 1 / rhoMin) ∧ (0 ≤ m.invRhoY i ∧ m.invRhoY i ≤ 1 / rhoMin) ∧
      (0 ≤ m.invRhoZ i ∧ m.invRhoZ i ≤ 1 / rhoMin))
    (hvel : Mmax / rhoMin ≤ v ^ 2)
    {c : BC (Pt NX NY NZ)} (hc : c.plain) (w : State (Pt NX NY NZ)) (hw : viscoelasticRest3D m w)
    (n : ℕ) :
    let θ := gamma cs * √3 * (√2 * v) * DT / DH
    viscoelasticNorm3D m (run (viscoelastic3DSolver (regularDeriv NX NY NZ s DT DH) m c) [] w n) ≤
      (1 + θ) / (1 - θ) * viscoelasticNorm3D m w := by
  intro θ
  have hg := gamma_pos hs hcs
  have h2 : (0 : ℝ) < √2 := Real.sqrt_pos.mpr two_pos
  have h3 : (0 : ℝ) < √3 := Real.sqrt_pos.mpr three_pos
  refine viscoelastic3D_bounded regularDeriv_regular (by positivity)
    (theta_lt hDH (mul_pos h2 hv) hg h3 hC) hr hsol
    (elastic3D_near_variable hs hcs hDT hDH hv hrho hM (fun i => ?_) hvel) hc w hw n
  obtain ⟨a1, ⟨a2, a3, a4⟩, a5⟩ := hm i
  obtain ⟨b1, b2, b3, b4, b5⟩ := unrelaxed_solid3 hsol i
  exact ⟨b1, b2, a1, ⟨⟨b3, a2⟩, ⟨b4, a3⟩, ⟨b5, a4⟩⟩, a5⟩

/-! ### A concrete case -/

/-- A solid with one relaxation mechanism below a fluid. -/
noncomputable def viscoBoundedEx : Mod (Pt 4 3 1) :=
  { invRho := 1, invRhoX := 1, invRhoY := 1, invRhoZ := 1
    pMod := 2, sMod := fun i => if (along .y i : ℕ) = 0 then 0 else 1
    sModXY := fun i => if (along .y i : ℕ) = 0 then 0 else 1, sModXZ := 0, sModYZ := 0
    tauP := 1, tauS := 1 / 2, tauSXY := 1 / 4, tauSXZ := 0, tauSYZ := 0
    L := 1, relaxTime := 1, DT := 1 / 10 }

example (n : ℕ) (c : BC (Pt 4 3 1)) (hc : c.plain) (cs : List ℚ) (hcs : fd 4 = some cs) :
    viscoelasticNorm2D viscoBoundedEx (run (viscoelastic2DSolver (regularDeriv 4 3 1 4 (1 / 10) 1)
      viscoBoundedEx c) [] (fun v _ => if v = .fld .vX then 1 else 0) n) ≤
      (1 + gamma cs * 2 * 2 * (1 / 10) / 1) / (1 - gamma cs * 2 * 2 * (1 / 10) / 1) *
      viscoelasticNorm2D viscoBoundedEx (fun v _ => if v = .fld .vX then 1 else 0) := by
  have hg : gamma cs = 7 / 6 := by
    unfold fd at hcs; norm_num at hcs; subst hcs
    norm_num [gamma, abs_of_pos, abs_of_neg]
  refine C96_viscoelastic2D_variable_partial (by decide) hcs (by norm_num) one_pos two_pos ?_
    ⟨by norm_num [viscoBoundedEx], fun l _ => one_pos⟩ (fun i => ?_)
    (Mmax := 4) (rhoMin := 1) one_pos (by norm_num) (fun i => ?_) (by norm_num) hc _ (fun i => ?_) n
  · rw [hg]; norm_num
  · simp only [viscoBoundedEx, springModulus, Pi.ofNat_apply, Pi.div_apply, Pi.one_apply]
    split <;> norm_num
  · simp only [viscoBoundedEx, Mod.unrelaxed, Pi.ofNat_apply, Pi.div_apply, Pi.one_apply]
    split <;> norm_num
  · simp [viscoBoundedEx, normalRest2D, rest2, shearRest, spring, anelastic]

end Verif.Solver
