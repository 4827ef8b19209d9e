import Verif.Props.StabilitySurface
/-!
# C139: 3D elastic waves below a free surface
-/
set_option linter.dupNamespace false
set_option linter.unusedSectionVars false

namespace Verif.Solver
open Matrix Verif.Stencil Verif.Check

variable {NX NY NZ : ℕ} {DT DH v : ℝ} {c : BC (Pt NX NY NZ)}

/-- Sum of squares of a 3D elastic wavefield; `vX`, `vZ`, the normal stresses and `Sxz` on the surface
belong to half a cell. -/
noncomputable def elasticSurfaceNorm3D (m : Mod (Pt NX NY NZ)) (c : BC (Pt NX NY NZ))
    (s : State (Pt NX NY NZ)) : ℝ :=
  ∑ i, (c.hlf i * ((s (.fld .Sxx) i + s (.fld .Syy) i + s (.fld .Szz) i) ^ 2 /
      (3 * (3 * m.pMod i - 4 * m.sMod i)) +
    ((s (.fld .Sxx) i - s (.fld .Syy) i) ^ 2 / (6 * m.sMod i) +
     (s (.fld .Syy) i - s (.fld .Szz) i) ^ 2 / (6 * m.sMod i) +
     (s (.fld .Szz) i - s (.fld .Sxx) i) ^ 2 / (6 * m.sMod i))) +
    s (.fld .Sxy) i ^ 2 / m.sModXY i + c.hlf i * (s (.fld .Sxz) i ^ 2 / m.sModXZ i) +
    s (.fld .Syz) i ^ 2 / m.sModYZ i) +
  (∑ i, c.hlf i * (s (.fld .vX) i ^ 2 / m.invRhoX i) + ∑ i, s (.fld .vY) i ^ 2 / m.invRhoY i +
    ∑ i, c.hlf i * (s (.fld .vZ) i ^ 2 / m.invRhoZ i))

private theorem hor_norm (hc : c.TopSurface) (hDT : 0 < DT) (hDH : 0 < DH) {a : Axis} (ha : a ≠ .y)
    (f : Pt NX NY NZ → ℝ) :
    ∑ i, c.hlf i * (forwardMatrix 2 DT DH a).mulVec f i ^ 2 ≤
      (2 * DT / DH) ^ 2 * ∑ i, c.hlf i * f i ^ 2 := by
  refine weighted_norm _ (fun i => (hlf_pos c i).le) (by positivity) (fun i => row2 hDT hDH a i)
    (fun j => ?_) _
  have e1 : ∀ i, c.hlf i * |forwardMatrix 2 DT DH a i j| = c.hlf j * |forwardMatrix 2 DT DH a i j| := by
    intro i
    by_cases h : forwardMatrix 2 DT DH a i j = 0
    · simp [h]
    · rw [hlf_line hc ha (line_of_entry h)]
  simp only [e1]
  rw [← Finset.mul_sum, mul_comm]
  exact mul_le_mul_of_nonneg_right (col2 hDT hDH a j) (hlf_pos c j).le

private theorem hor_transpose_norm (hc : c.TopSurface) (hDT : 0 < DT) (hDH : 0 < DH) {a : Axis}
    (ha : a ≠ .y) (f : Pt NX NY NZ → ℝ) :
    ∑ i, c.hlf i * (forwardMatrix 2 DT DH a).transpose.mulVec f i ^ 2 ≤
      (2 * DT / DH) ^ 2 * ∑ i, c.hlf i * f i ^ 2 := by
  refine weighted_norm _ (fun i => (hlf_pos c i).le) (by positivity) (fun i => ?_) (fun j => ?_) _
  · simp only [transpose_apply]; exact col2 hDT hDH a i
  · have e1 : ∀ i, c.hlf i * |(forwardMatrix 2 DT DH a).transpose i j| =
        c.hlf j * |forwardMatrix 2 DT DH a j i| := by
      intro i
      rw [transpose_apply]
      by_cases h : forwardMatrix 2 DT DH a j i = 0
      · simp [h]
      · rw [hlf_line hc ha (line_of_entry h)]
    simp only [e1]
    rw [← Finset.mul_sum, mul_comm]
    exact mul_le_mul_of_nonneg_right (row2 hDT hDH a j) (hlf_pos c j).le

private theorem plain_norm (hDT : 0 < DT) (hDH : 0 < DH) (a : Axis) (f : Pt NX NY NZ → ℝ) :
    ∑ i, (forwardMatrix 2 DT DH a).mulVec f i ^ 2 ≤ (2 * DT / DH) ^ 2 * ∑ i, f i ^ 2 := by
  have h1 := weighted_norm (w := fun _ => 1) (w' := fun _ => 1) (B := 2 * DT / DH)
    (forwardMatrix 2 DT DH a)
    (fun _ => zero_le_one) (by positivity) (fun i => row2 hDT hDH a i)
    (fun j => by simp only [one_mul, mul_one]; exact col2 hDT hDH a j) f
  simpa only [one_mul] using h1

private theorem ver_norm (hc : c.TopSurface) (hDT : 0 < DT) (hDH : 0 < DH) (f : Pt NX NY NZ → ℝ) :
    ∑ i, (forwardMatrix 2 DT DH .y).mulVec f i ^ 2 ≤ (2 * DT / DH) ^ 2 * ∑ i, c.hlf i * f i ^ 2 := by
  have h1 := weighted_norm (w := fun _ => 1) (w' := c.hlf) (B := 2 * DT / DH)
    (forwardMatrix 2 DT DH .y)
    (fun _ => zero_le_one) (by positivity) (fun i => row2 hDT hDH .y i)
    (fun j => by simp only [one_mul]; exact colY hc hDT hDH j) f
  simpa only [one_mul] using h1

private theorem ver_transpose_norm (hDT : 0 < DT) (hDH : 0 < DH) (f : Pt NX NY NZ → ℝ) :
    ∑ i, c.hlf i * (c.setZero i * (forwardMatrix 2 DT DH .y).transpose.mulVec f i) ^ 2 ≤
      (2 * DT / DH) ^ 2 * ∑ i, f i ^ 2 := by
  have h1 := weighted_norm (w := fun _ => 1) (w' := fun _ => 1) (B := 2 * DT / DH)
    (forwardMatrix 2 DT DH .y).transpose
    (fun _ => zero_le_one) (by positivity)
    (fun i => by simp only [transpose_apply]; exact col2 hDT hDH .y i)
    (fun j => by simp only [transpose_apply, one_mul, mul_one]; exact row2 hDT hDH .y j) f
  simp only [one_mul] at h1
  refine le_trans (Finset.sum_le_sum fun i _ => ?_) h1
  have h2 : (c.setZero i * (forwardMatrix 2 DT DH .y).transpose.mulVec f i) ^ 2 ≤
      (forwardMatrix 2 DT DH .y).transpose.mulVec f i ^ 2 := by
    simp only [BC.setZero]
    split
    · rw [zero_mul, zero_pow two_ne_zero]; exact sq_nonneg _
    · rw [one_mul]
  calc _ ≤ 1 * (c.setZero i * (forwardMatrix 2 DT DH .y).transpose.mulVec f i) ^ 2 :=
        mul_le_mul_of_nonneg_right (hlf_le c i) (sq_nonneg _)
    _ ≤ _ := by rw [one_mul]; exact h2

/-- Horizontal derivatives with half weights, moved to the other factor. -/
private theorem adj_halved (hc : c.TopSurface) {a : Axis} (ha : a ≠ .y) (f g : Pt NX NY NZ → ℝ) :
    ∑ i, f i * (c.hlf i * (forwardMatrix 2 DT DH a).mulVec g i) =
      ∑ i, c.hlf i * g i * (forwardMatrix 2 DT DH a).transpose.mulVec f i := by
  have al : ∀ i j, forwardMatrix 2 DT DH a i j ≠ 0 → c.onSurface i = c.onSurface j := by
    intro i j h
    have hl := hlf_line hc ha (line_of_entry h)
    unfold BC.hlf at hl
    rcases Bool.eq_false_or_eq_true (c.onSurface i) with h1 | h1 <;>
      rcases Bool.eq_false_or_eq_true (c.onSurface j) with h2 | h2 <;> simp [h1, h2] at hl ⊢
  have := adjoint (c.halve (forwardMatrix 2 DT DH a)) f g
  simp only [halve_mulVec, halve_transpose_mulVec al] at this
  rw [this]
  exact Finset.sum_congr rfl fun i _ => by ring

private theorem adj_halved_back (hc : c.TopSurface) {a : Axis} (ha : a ≠ .y) (f g : Pt NX NY NZ → ℝ) :
    ∑ i, f i * (c.hlf i * (backwardMatrix 2 DT DH a).mulVec g i) =
      -∑ i, c.hlf i * g i * (forwardMatrix 2 DT DH a).mulVec f i := by
  have e1 : ∀ i, c.hlf i * (backwardMatrix 2 DT DH a).mulVec g i =
      (backwardMatrix 2 DT DH a).mulVec (fun j => c.hlf j * g j) i := by
    intro i
    rw [mulVec, dotProduct, mulVec, dotProduct, Finset.mul_sum]
    refine Finset.sum_congr rfl fun j _ => ?_
    by_cases h : forwardMatrix 2 DT DH a j i = 0
    · have : (backwardMatrix 2 DT DH a : Matrix (Pt NX NY NZ) _ ℝ) i j = 0 := by
        rw [backwardMatrix, Matrix.neg_apply, transpose_apply, h, neg_zero]
      rw [this]; ring
    · rw [hlf_line hc ha (line_of_entry h)]; ring
  simp only [e1]
  exact adj_backward a _ _

private theorem kinetic {R w f : Pt NX NY NZ → ℝ} {rhoMin : ℝ} (hrho : 0 < rhoMin) (hw : ∀ i, 0 ≤ w i)
    (hR : ∀ i, 0 ≤ R i ∧ R i ≤ 1 / rhoMin) (hf : ∀ i, R i = 0 → f i = 0) :
    rhoMin * ∑ i, w i * f i ^ 2 ≤ ∑ i, w i * (f i ^ 2 / R i) := by
  rw [Finset.mul_sum]
  refine Finset.sum_le_sum fun i _ => ?_
  by_cases h : R i = 0
  · rw [hf i h]; simp
  · have h0 : 0 < R i := lt_of_le_of_ne (hR i).1 (Ne.symm h)
    have := (le_div_iff₀ hrho).mp (hR i).2
    have k : rhoMin * f i ^ 2 ≤ f i ^ 2 / R i := by
      rw [le_div_iff₀ h0]
      calc rhoMin * f i ^ 2 * R i = R i * rhoMin * f i ^ 2 := by ring
        _ ≤ 1 * f i ^ 2 := mul_le_mul_of_nonneg_right this (sq_nonneg _)
        _ = _ := one_mul _
    calc _ = w i * (rhoMin * f i ^ 2) := by ring
      _ ≤ _ := mul_le_mul_of_nonneg_left k (hw i)

/-- The strain energy at a point of an elastic solid. -/
private theorem strain_point {M μ Mmax μxy μxz μyz h a b d yx xy zx xz zy yz : ℝ} (h1 : 0 ≤ μ)
    (h2 : 4 * μ ≤ 3 * M) (h3 : M ≤ Mmax) (hM : 0 ≤ Mmax) (h4 : 4 * μxy ≤ 3 * Mmax)
    (h5 : 4 * μxz ≤ 3 * Mmax) (h6 : 4 * μyz ≤ 3 * Mmax) (hh : 0 ≤ h) :
    h * ((3 * M - 4 * μ) / 3) * (a + b + d) ^ 2 +
      (h * (2 * μ / 3) * (a - b) ^ 2 + h * (2 * μ / 3) * (b - d) ^ 2 + h * (2 * μ / 3) * (d - a) ^ 2) +
      (μxy * (yx + xy) ^ 2 + h * μxz * (zx + xz) ^ 2 + μyz * (zy + yz) ^ 2) ≤
    3 / 2 * Mmax * (2 * (h * a ^ 2) + 2 * (h * b ^ 2) + 2 * (h * d ^ 2) + yx ^ 2 + xy ^ 2 +
      h * zx ^ 2 + h * xz ^ 2 + zy ^ 2 + yz ^ 2) := by
  have n : (3 * M - 4 * μ) / 3 * (a + b + d) ^ 2 +
      (2 * μ / 3 * (a - b) ^ 2 + 2 * μ / 3 * (b - d) ^ 2 + 2 * μ / 3 * (d - a) ^ 2) ≤
      3 * Mmax * (a ^ 2 + b ^ 2 + d ^ 2) := by
    have t1 := mul_nonneg (sub_nonneg.mpr h2)
      (add_nonneg (add_nonneg (sq_nonneg (a - b)) (sq_nonneg (b - d))) (sq_nonneg (d - a)))
    have t2 := mul_nonneg h1 (add_nonneg (add_nonneg (sq_nonneg a) (sq_nonneg b)) (sq_nonneg d))
    have t2' := mul_nonneg h1 (sq_nonneg (a + b + d))
    have t3 := mul_le_mul_of_nonneg_right h3
      (add_nonneg (add_nonneg (sq_nonneg a) (sq_nonneg b)) (sq_nonneg d))
    linarith
  have nn := mul_le_mul_of_nonneg_left n hh
  have sh : ∀ κ p q : ℝ, 4 * κ ≤ 3 * Mmax → κ * (p + q) ^ 2 ≤ 3 / 2 * Mmax * (p ^ 2 + q ^ 2) := by
    intro κ p q hk
    have t4 := mul_le_mul_of_nonneg_right hk (sq_nonneg (p + q))
    have t7 := mul_nonneg hM (sq_nonneg (p - q))
    linarith
  have s1 := sh _ yx xy h4
  have s2 := mul_le_mul_of_nonneg_left (sh _ zx xz h5) hh
  have s3 := sh _ zy yz h6
  linarith

/-- 3D elastic waves of order 2 with arbitrary moduli and densities; `v` is the velocity for the
largest P-wave modulus and the smallest density. The limit is that of
`C94_elastic3D_variable_partial`. Missing: time steps between this limit and the Courant limit. -/
theorem C139_elastic3D_partial (hDT : 0 < DT) (hDH : 0 < DH) (hv : 0 < v)
    (hC : DT < DH / (√3 * (√2 * v))) {m : Mod (Pt NX NY NZ)} {Mmax rhoMin : ℝ}
    (hrho : 0 < rhoMin) (hM : 0 ≤ Mmax)
    (hm : ∀ i, 0 ≤ m.sMod i ∧ 4 * m.sMod i ≤ 3 * m.pMod i ∧ m.pMod i ≤ Mmax ∧
      ((0 ≤ m.sModXY i ∧ 4 * m.sModXY i ≤ 3 * Mmax) ∧ (0 ≤ m.sModXZ i ∧ 4 * m.sModXZ i ≤ 3 * Mmax) ∧
        (0 ≤ m.sModYZ i ∧ 4 * m.sModYZ i ≤ 3 * Mmax)) ∧
      (0 ≤ m.invRhoX i ∧ m.invRhoX i ≤ 1 / rhoMin) ∧ (0 ≤ m.invRhoY i ∧ m.invRhoY i ≤ 1 / rhoMin) ∧
      (0 ≤ m.invRhoZ i ∧ m.invRhoZ i ≤ 1 / rhoMin))
    (hM0 : ∀ i : Pt NX NY NZ, (i.2.1 : ℕ) = 0 → m.pMod i ≠ 0) (hvel : Mmax / rhoMin ≤ v ^ 2)
    (hc : c.TopSurfaceOnly) (w : State (Pt NX NY NZ)) (hw : elasticRest3D m w)
    (hp : ∀ i : Pt NX NY NZ, (i.2.1 : ℕ) = 0 → w (.fld .Syy) i = 0) (n : ℕ) :
    let θ := √3 * (√2 * v) * DT / DH
    elasticSurfaceNorm3D m c (run (elastic3DSolver (surfaceDeriv NX NY NZ 2 DT DH) m c) [] w n) ≤
      (1 + θ) / (1 - θ) * elasticSurfaceNorm3D m c w := by
  intro θ
  have hD : (surfaceDeriv NX NY NZ 2 DT DH).Surfaced c := surfaceDeriv_surfaced hc.1.2
  have h2 : (0 : ℝ) < √2 := Real.sqrt_pos.mpr two_pos
  have h3 : (0 : ℝ) < √3 := Real.sqrt_pos.mpr three_pos
  have hθ : θ < 1 := by
    have := theta_lt (g := 1) hDH (mul_pos h2 hv) one_pos h3 (by rwa [one_mul])
    simpa [θ] using this
  have hM1 : ∀ i, c.onSurface i = true → m.pMod i ≠ 0 :=
    fun i hi => hM0 i (by simpa [hc.1.2] using hi)
  refine bounded_of_near (S := elastic3DSolver (surfaceDeriv NX NY NZ 2 DT DH) m c)
    (fun s => elasticRest3D m s ∧ c.freeOf (s (.fld .Syy)))
    (elasticSurfaceEnergy3D (surfaceDeriv NX NY NZ 2 DT DH) m c) _ (θ := θ) hθ
    (fun s hs => (elastic3D_surface_energy hc.only hD hM1 s hs).1)
    (fun s hs => (elastic3D_surface_energy hc.only hD hM1 s hs).2.le) ?_ w
    ⟨hw, fun i hi => hp i (by simpa [hc.1.2] using hi)⟩ n
  rintro u ⟨hu, hfree⟩
  have hMv : Mmax ≤ v ^ 2 * rhoMin := by rwa [div_le_iff₀ hrho] at hvel
  have hpos := hlf_pos c
  set X := forwardMatrix (NX := NX) (NY := NY) (NZ := NZ) 2 DT DH .x with hX
  set Y := forwardMatrix (NX := NX) (NY := NY) (NZ := NZ) 2 DT DH .y with hY
  set Z := forwardMatrix (NX := NX) (NY := NY) (NZ := NZ) 2 DT DH .z with hZ
  have na := hor_transpose_norm hc.1 hDT hDH (a := .x) (by decide) (u (.fld .vX))
  have nd := hor_transpose_norm hc.1 hDT hDH (a := .z) (by decide) (u (.fld .vZ))
  have nb := ver_transpose_norm (c := c) hDT hDH (u (.fld .vY))
  have nyx := ver_norm hc.1 hDT hDH (u (.fld .vX))
  have nxy := plain_norm hDT hDH .x (u (.fld .vY))
  have nzx := hor_norm hc.1 hDT hDH (a := .z) (by decide) (u (.fld .vX))
  have nxz := hor_norm hc.1 hDT hDH (a := .x) (by decide) (u (.fld .vZ))
  have nzy := plain_norm hDT hDH .z (u (.fld .vY))
  have nyz := ver_norm hc.1 hDT hDH (u (.fld .vZ))
  rw [← hX] at na nxy nxz
  rw [← hY] at nb nyx nyz
  rw [← hZ] at nd nzx nzy
  set B := 2 * DT / DH with hBdef
  have hB : 0 < B := by positivity
  have hβ : 0 < √3 * (√2 * v) * B := by positivity
  -- the coupling of velocities and stresses
  have e : elasticSurfaceEnergy3D (surfaceDeriv NX NY NZ 2 DT DH) m c u - elasticSurfaceNorm3D m c u =
      (∑ i, c.hlf i * u (.fld .Sxx) i * X.transpose.mulVec (u (.fld .vX)) i +
       ∑ i, c.hlf i * u (.fld .Syy) i * (c.setZero i * Y.transpose.mulVec (u (.fld .vY)) i) +
       ∑ i, c.hlf i * u (.fld .Szz) i * Z.transpose.mulVec (u (.fld .vZ)) i) -
      (∑ i, u (.fld .Sxy) i * (Y.mulVec (u (.fld .vX)) i + X.mulVec (u (.fld .vY)) i) +
       ∑ i, c.hlf i * u (.fld .Sxz) i * (Z.mulVec (u (.fld .vX)) i + X.mulVec (u (.fld .vZ)) i) +
       ∑ i, u (.fld .Syz) i * (Z.mulVec (u (.fld .vY)) i + Y.mulVec (u (.fld .vZ)) i)) := by
    have ady : ∑ i, u (.fld .vY) i * Y.mulVec (u (.fld .Syy)) i =
        ∑ i, c.hlf i * u (.fld .Syy) i * (c.setZero i * Y.transpose.mulVec (u (.fld .vY)) i) := by
      rw [adj_forward]
      refine Finset.sum_congr rfl fun i _ => ?_
      rcases Bool.eq_false_or_eq_true (c.onSurface i) with hs | hs
      · rw [hfree i hs]; ring
      · simp only [BC.setZero, BC.hlf, hs, Bool.false_eq_true, if_false, ← hY]; ring
    have e0 : elasticSurfaceEnergy3D (surfaceDeriv NX NY NZ 2 DT DH) m c u -
        elasticSurfaceNorm3D m c u =
        (∑ i, u (.fld .vX) i * (c.hlf i * X.mulVec (u (.fld .Sxx)) i) +
          ∑ i, u (.fld .vX) i * (backwardMatrix 2 DT DH .y).mulVec (u (.fld .Sxy)) i +
          ∑ i, u (.fld .vX) i * (c.hlf i * (backwardMatrix 2 DT DH .z).mulVec (u (.fld .Sxz)) i)) +
        (∑ i, u (.fld .vY) i * Y.mulVec (u (.fld .Syy)) i +
          ∑ i, u (.fld .vY) i * (backwardMatrix 2 DT DH .x).mulVec (u (.fld .Sxy)) i +
          ∑ i, u (.fld .vY) i * (backwardMatrix 2 DT DH .z).mulVec (u (.fld .Syz)) i) +
        (∑ i, u (.fld .vZ) i * (c.hlf i * Z.mulVec (u (.fld .Szz)) i) +
          ∑ i, u (.fld .vZ) i * (c.hlf i * (backwardMatrix 2 DT DH .x).mulVec (u (.fld .Sxz)) i) +
          ∑ i, u (.fld .vZ) i * (backwardMatrix 2 DT DH .y).mulVec (u (.fld .Syz)) i) := by
      have e1 : ∀ (T K T' : ℝ), T + K + T' - (T + K) = T' := by intros; ring
      unfold elasticSurfaceEnergy3D elasticSurfaceNorm3D surfaceDeriv regularDeriv
      rw [e1]
      simp only [mul_add, Finset.sum_add_distrib, ← hX, ← hY, ← hZ]
    rw [e0, ady, adj_halved hc.1 (by decide), adj_halved hc.1 (by decide),
      adj_halved_back hc.1 (by decide), adj_halved_back hc.1 (by decide), adj_backward, adj_backward,
      adj_backward, adj_backward, ← hX, ← hY, ← hZ]
    simp only [mul_add, Finset.sum_add_distrib]
    ring
  set a := X.transpose.mulVec (u (.fld .vX)) with ha
  set b := fun i => c.setZero i * Y.transpose.mulVec (u (.fld .vY)) i with hb
  set d := Z.transpose.mulVec (u (.fld .vZ)) with hd
  have hμ0 : ∀ i, c.hlf i * (2 * m.sMod i / 3) = 0 → m.sMod i = 0 := fun i h => by
    have := (mul_eq_zero.mp h).resolve_left (hpos i).ne'
    linarith
  have hμn : ∀ i, 0 ≤ c.hlf i * (2 * m.sMod i / 3) := fun i => by
    have := (hm i).1
    have := hpos i
    positivity
  have b1 := sum_young_var (R := fun i => c.hlf i * ((3 * m.pMod i - 4 * m.sMod i) / 3))
    (f := fun i => c.hlf i * ((u (.fld .Sxx) i + u (.fld .Syy) i + u (.fld .Szz) i) / 3))
    (d := fun i => a i + b i + d i) hβ
    (fun i => mul_nonneg (hpos i).le (div_nonneg (sub_nonneg.mpr (hm i).2.1) three_pos.le))
    (fun i h => by
      have h0 := (mul_eq_zero.mp h).resolve_left (hpos i).ne'
      have := (hu i).1 (by linarith)
      simp only [this]; norm_num)
  have b2 := sum_young_var (R := fun i => c.hlf i * (2 * m.sMod i / 3))
    (f := fun i => c.hlf i * ((u (.fld .Sxx) i - u (.fld .Syy) i) / 3)) (d := fun i => a i - b i) hβ
    hμn (fun i h => by simp only [((hu i).2.1 (hμ0 i h)).1]; norm_num)
  have b3 := sum_young_var (R := fun i => c.hlf i * (2 * m.sMod i / 3))
    (f := fun i => c.hlf i * ((u (.fld .Syy) i - u (.fld .Szz) i) / 3)) (d := fun i => b i - d i) hβ
    hμn (fun i h => by simp only [((hu i).2.1 (hμ0 i h)).2]; norm_num)
  have b4 := sum_young_var (R := fun i => c.hlf i * (2 * m.sMod i / 3))
    (f := fun i => c.hlf i * ((u (.fld .Szz) i - u (.fld .Sxx) i) / 3)) (d := fun i => d i - a i) hβ
    hμn
    (fun i h => by
      have := (hu i).2.1 (hμ0 i h)
      simp only [this.1, this.2]; norm_num)
  have b5 := sum_young_var (R := m.sModXY) (f := u (.fld .Sxy))
    (d := fun i => Y.mulVec (u (.fld .vX)) i + X.mulVec (u (.fld .vY)) i) hβ
    (fun i => (hm i).2.2.2.1.1.1) (fun i => (hu i).2.2.1)
  have b6 := sum_young_var (R := fun i => c.hlf i * m.sModXZ i)
    (f := fun i => c.hlf i * u (.fld .Sxz) i)
    (d := fun i => Z.mulVec (u (.fld .vX)) i + X.mulVec (u (.fld .vZ)) i) hβ
    (fun i => mul_nonneg (hpos i).le (hm i).2.2.2.1.2.1.1)
    (fun i h => by
      simp only [(hu i).2.2.2.1 ((mul_eq_zero.mp h).resolve_left (hpos i).ne'), mul_zero])
  have b7 := sum_young_var (R := m.sModYZ) (f := u (.fld .Syz))
    (d := fun i => Z.mulVec (u (.fld .vY)) i + Y.mulVec (u (.fld .vZ)) i) hβ
    (fun i => (hm i).2.2.2.1.2.2.1) (fun i => (hu i).2.2.2.2.1)
  have k : ∑ i, c.hlf i * u (.fld .Sxx) i * a i + ∑ i, c.hlf i * u (.fld .Syy) i * b i +
      ∑ i, c.hlf i * u (.fld .Szz) i * d i =
      ∑ i, c.hlf i * ((u (.fld .Sxx) i + u (.fld .Syy) i + u (.fld .Szz) i) / 3) *
        (a i + b i + d i) +
      ∑ i, c.hlf i * ((u (.fld .Sxx) i - u (.fld .Syy) i) / 3) * (a i - b i) +
      ∑ i, c.hlf i * ((u (.fld .Syy) i - u (.fld .Szz) i) / 3) * (b i - d i) +
      ∑ i, c.hlf i * ((u (.fld .Szz) i - u (.fld .Sxx) i) / 3) * (d i - a i) := by
    simp only [← Finset.sum_add_distrib]
    exact Finset.sum_congr rfl fun i _ => by ring
  have e' : elasticSurfaceEnergy3D (surfaceDeriv NX NY NZ 2 DT DH) m c u -
      elasticSurfaceNorm3D m c u =
      (∑ i, c.hlf i * ((u (.fld .Sxx) i + u (.fld .Syy) i + u (.fld .Szz) i) / 3) *
        (a i + b i + d i) +
      ∑ i, c.hlf i * ((u (.fld .Sxx) i - u (.fld .Syy) i) / 3) * (a i - b i) +
      ∑ i, c.hlf i * ((u (.fld .Syy) i - u (.fld .Szz) i) / 3) * (b i - d i) +
      ∑ i, c.hlf i * ((u (.fld .Szz) i - u (.fld .Sxx) i) / 3) * (d i - a i)) -
      (∑ i, u (.fld .Sxy) i * (Y.mulVec (u (.fld .vX)) i + X.mulVec (u (.fld .vY)) i) +
       ∑ i, c.hlf i * u (.fld .Sxz) i * (Z.mulVec (u (.fld .vX)) i + X.mulVec (u (.fld .vZ)) i) +
       ∑ i, u (.fld .Syz) i * (Z.mulVec (u (.fld .vY)) i + Y.mulVec (u (.fld .vZ)) i)) := by
    rw [← k]; exact e
  -- the strains
  have st : (∑ i, c.hlf i * ((3 * m.pMod i - 4 * m.sMod i) / 3) * (a i + b i + d i) ^ 2 +
      (∑ i, c.hlf i * (2 * m.sMod i / 3) * (a i - b i) ^ 2 +
       ∑ i, c.hlf i * (2 * m.sMod i / 3) * (b i - d i) ^ 2 +
       ∑ i, c.hlf i * (2 * m.sMod i / 3) * (d i - a i) ^ 2)) +
      (∑ i, m.sModXY i * (Y.mulVec (u (.fld .vX)) i + X.mulVec (u (.fld .vY)) i) ^ 2 +
       ∑ i, c.hlf i * m.sModXZ i * (Z.mulVec (u (.fld .vX)) i + X.mulVec (u (.fld .vZ)) i) ^ 2 +
       ∑ i, m.sModYZ i * (Z.mulVec (u (.fld .vY)) i + Y.mulVec (u (.fld .vZ)) i) ^ 2) ≤
      3 / 2 * Mmax * (4 * B ^ 2 * (∑ i, c.hlf i * u (.fld .vX) i ^ 2 + ∑ i, u (.fld .vY) i ^ 2 +
        ∑ i, c.hlf i * u (.fld .vZ) i ^ 2)) := by
    have s1 : (∑ i, c.hlf i * ((3 * m.pMod i - 4 * m.sMod i) / 3) * (a i + b i + d i) ^ 2 +
      (∑ i, c.hlf i * (2 * m.sMod i / 3) * (a i - b i) ^ 2 +
       ∑ i, c.hlf i * (2 * m.sMod i / 3) * (b i - d i) ^ 2 +
       ∑ i, c.hlf i * (2 * m.sMod i / 3) * (d i - a i) ^ 2)) +
      (∑ i, m.sModXY i * (Y.mulVec (u (.fld .vX)) i + X.mulVec (u (.fld .vY)) i) ^ 2 +
       ∑ i, c.hlf i * m.sModXZ i * (Z.mulVec (u (.fld .vX)) i + X.mulVec (u (.fld .vZ)) i) ^ 2 +
       ∑ i, m.sModYZ i * (Z.mulVec (u (.fld .vY)) i + Y.mulVec (u (.fld .vZ)) i) ^ 2) ≤
      ∑ i, 3 / 2 * Mmax * (2 * (c.hlf i * a i ^ 2) + 2 * (c.hlf i * b i ^ 2) +
        2 * (c.hlf i * d i ^ 2) + Y.mulVec (u (.fld .vX)) i ^ 2 + X.mulVec (u (.fld .vY)) i ^ 2 +
        c.hlf i * Z.mulVec (u (.fld .vX)) i ^ 2 + c.hlf i * X.mulVec (u (.fld .vZ)) i ^ 2 +
        Z.mulVec (u (.fld .vY)) i ^ 2 + Y.mulVec (u (.fld .vZ)) i ^ 2) := by
      simp only [← Finset.sum_add_distrib]
      refine Finset.sum_le_sum fun i _ => ?_
      obtain ⟨h1, h2, h3, ⟨h4, h5, h6⟩, _⟩ := hm i
      exact strain_point h1 h2 h3 hM h4.2 h5.2 h6.2 (hpos i).le
    refine s1.trans ?_
    rw [← Finset.mul_sum]
    refine mul_le_mul_of_nonneg_left ?_ (by positivity)
    simp only [Finset.sum_add_distrib, ← Finset.mul_sum]
    linarith
  -- the kinetic energy
  have kx := kinetic (w := c.hlf) hrho (fun i => (hpos i).le) (fun i => (hm i).2.2.2.2.1)
    (fun i => (hu i).2.2.2.2.2.1)
  have ky := kinetic (w := fun _ => 1) hrho (fun i => zero_le_one) (fun i => (hm i).2.2.2.2.2.1)
    (fun i => (hu i).2.2.2.2.2.2.1)
  have kz := kinetic (w := c.hlf) hrho (fun i => (hpos i).le) (fun i => (hm i).2.2.2.2.2.2)
    (fun i => (hu i).2.2.2.2.2.2.2)
  simp only [one_mul] at ky
  have n1 : elasticSurfaceNorm3D m c u =
      (∑ i, (c.hlf i * ((u (.fld .Sxx) i + u (.fld .Syy) i + u (.fld .Szz) i) / 3)) ^ 2 /
          (c.hlf i * ((3 * m.pMod i - 4 * m.sMod i) / 3)) +
        ∑ i, (c.hlf i * ((u (.fld .Sxx) i - u (.fld .Syy) i) / 3)) ^ 2 /
          (c.hlf i * (2 * m.sMod i / 3)) +
        ∑ i, (c.hlf i * ((u (.fld .Syy) i - u (.fld .Szz) i) / 3)) ^ 2 /
          (c.hlf i * (2 * m.sMod i / 3)) +
        ∑ i, (c.hlf i * ((u (.fld .Szz) i - u (.fld .Sxx) i) / 3)) ^ 2 /
          (c.hlf i * (2 * m.sMod i / 3)) +
        ∑ i, u (.fld .Sxy) i ^ 2 / m.sModXY i +
        ∑ i, (c.hlf i * u (.fld .Sxz) i) ^ 2 / (c.hlf i * m.sModXZ i) +
        ∑ i, u (.fld .Syz) i ^ 2 / m.sModYZ i) +
      (∑ i, c.hlf i * (u (.fld .vX) i ^ 2 / m.invRhoX i) + ∑ i, u (.fld .vY) i ^ 2 / m.invRhoY i +
        ∑ i, c.hlf i * (u (.fld .vZ) i ^ 2 / m.invRhoZ i)) := by
    unfold elasticSurfaceNorm3D
    simp only [← Finset.sum_add_distrib]
    refine Finset.sum_congr rfl fun i _ => ?_
    have h0 := (hpos i).ne'
    have t1 : ∀ t K : ℝ, (c.hlf i * (t / 3)) ^ 2 / (c.hlf i * (K / 3)) =
        c.hlf i * (t ^ 2 / (3 * K)) := by
      intro t K
      by_cases hK : K = 0
      · simp [hK]
      · field_simp
    have t2 : ∀ t : ℝ, t ^ 2 / (3 * (2 * m.sMod i)) = t ^ 2 / (6 * m.sMod i) := by
      intro t; congr 1; ring
    have t3 : (c.hlf i * u (.fld .Sxz) i) ^ 2 / (c.hlf i * m.sModXZ i) =
        c.hlf i * (u (.fld .Sxz) i ^ 2 / m.sModXZ i) := by
      by_cases hK : m.sModXZ i = 0
      · simp [hK]
      · field_simp
    simp only [t1, t2, t3]
    ring
  have nx : 0 ≤ ∑ i, c.hlf i * u (.fld .vX) i ^ 2 :=
    Finset.sum_nonneg fun i _ => mul_nonneg (hpos i).le (sq_nonneg _)
  have ny : 0 ≤ ∑ i, u (.fld .vY) i ^ 2 := Finset.sum_nonneg fun i _ => sq_nonneg _
  have nz : 0 ≤ ∑ i, c.hlf i * u (.fld .vZ) i ^ 2 :=
    Finset.sum_nonneg fun i _ => mul_nonneg (hpos i).le (sq_nonneg _)
  have fin := mul_le_mul_of_nonneg_left st (show 0 ≤ 1 / (2 * (√3 * (√2 * v) * B)) by positivity)
  have fin2 : 1 / (2 * (√3 * (√2 * v) * B)) *
      (3 / 2 * Mmax * (4 * B ^ 2 * (∑ i, c.hlf i * u (.fld .vX) i ^ 2 + ∑ i, u (.fld .vY) i ^ 2 +
        ∑ i, c.hlf i * u (.fld .vZ) i ^ 2))) ≤
      √3 * (√2 * v) * B / 2 * (∑ i, c.hlf i * (u (.fld .vX) i ^ 2 / m.invRhoX i) +
        ∑ i, u (.fld .vY) i ^ 2 / m.invRhoY i +
        ∑ i, c.hlf i * (u (.fld .vZ) i ^ 2 / m.invRhoZ i)) := by
    generalize ∑ i, c.hlf i * u (.fld .vX) i ^ 2 = x at kx nx ⊢
    generalize ∑ i, u (.fld .vY) i ^ 2 = y at ky ny ⊢
    generalize ∑ i, c.hlf i * u (.fld .vZ) i ^ 2 = z at kz nz ⊢
    have s2 : √2 ^ 2 = 2 := Real.sq_sqrt two_pos.le
    have s3 : √3 ^ 2 = 3 := Real.sq_sqrt three_pos.le
    calc _ ≤ 1 / (2 * (√3 * (√2 * v) * B)) *
          (3 / 2 * (v ^ 2 * rhoMin) * (4 * B ^ 2 * (x + y + z))) :=
          mul_le_mul_of_nonneg_left (mul_le_mul_of_nonneg_right (by linarith) (by positivity))
            (by positivity)
      _ = √3 * (√2 * v) * B / 2 * (rhoMin * x + rhoMin * y + rhoMin * z) := by
          field_simp
          rw [s2, s3]
          ring
      _ ≤ _ := mul_le_mul_of_nonneg_left (by linarith) (by positivity)
  have hθ2 : θ = √3 * (√2 * v) * B / 2 := by simp only [θ]; rw [hBdef]; ring
  rw [e', n1, hθ2]
  rw [abs_le] at b1 b2 b3 b4 b5 b6 b7 ⊢
  constructor
  · linarith [b1.1, b2.1, b3.1, b4.1, b5.2, b6.2, b7.2]
  · linarith [b1.2, b2.2, b3.2, b4.2, b5.1, b6.1, b7.1]

/-- Example: 3D elastic waves below a free surface, with a fluid inclusion. -/
example (n : ℕ) :
    elasticSurfaceNorm3D (surfaceExM 4 3 2) (surfaceExBC 4 3 2)
      (run (elastic3DSolver (surfaceDeriv 4 3 2 2 (1 / 20) 1) (surfaceExM 4 3 2) (surfaceExBC 4 3 2)) []
        (surfaceExW 4 3 2) n) ≤
      (1 + √3 * (√2 * 4) * (1 / 20) / 1) / (1 - √3 * (√2 * 4) * (1 / 20) / 1) *
        elasticSurfaceNorm3D (surfaceExM 4 3 2) (surfaceExBC 4 3 2) (surfaceExW 4 3 2) := by
  have e : ∀ i : Pt 4 3 2, (1 : ℝ) + ((i.1 : ℕ) : ℝ) ≠ 0 := fun i => by positivity
  refine C139_elastic3D_partial (by norm_num) one_pos (by norm_num) ?_ (Mmax := 3)
    (rhoMin := 1 / 4) (by norm_num) (by norm_num) (fun i => ?_) (fun i _ => by simp [surfaceExM])
    (by norm_num) surfaceExBC_only _ (fun i => ?_) (fun i hi => by simp [surfaceExW, hi]) n
  · have h2 : √2 < 3 / 2 := Real.sqrt_two_lt_three_halves
    have h3 : √3 < 2 := by rw [Real.sqrt_lt' two_pos]; norm_num
    rw [lt_div_iff₀ (by positivity)]
    have : √3 * √2 ≤ 2 * (3 / 2) := mul_le_mul h3.le h2.le (by positivity) (by norm_num)
    linarith
  · have h0 : ((i.1 : ℕ) : ℝ) ≤ 3 := by exact_mod_cast Nat.lt_succ_iff.mp i.1.2
    have h1 : (0 : ℝ) ≤ 1 + ((i.1 : ℕ) : ℝ) := by positivity
    refine ⟨?_, ?_, le_refl _, ?_, ⟨h1, ?_⟩, ?_, ?_⟩
    · simp only [surfaceExM]; split <;> norm_num
    · simp only [surfaceExM, Pi.ofNat_apply]; split <;> norm_num
    · simp only [surfaceExM, Pi.one_apply]; norm_num
    · simp only [surfaceExM]; norm_num; linarith
    · simp only [surfaceExM, Pi.one_apply]; norm_num
    · simp only [surfaceExM, Pi.one_apply]; norm_num
  · have : (3 * 3 : ℝ) ≠ 4 * if (i.1 : ℕ) = 1 ∧ 0 < (i.2.1 : ℕ) then 0 else 1 := by
      split <;> norm_num
    simp only [surfaceExM, one_ne_zero, false_implies, e, this, Pi.ofNat_apply, true_and,
      and_true]
    intro h
    have h1 : (i.1 : ℕ) = 1 ∧ 0 < (i.2.1 : ℕ) := by
      by_contra hh; rw [if_neg hh] at h; exact one_ne_zero h
    simp [surfaceExW, h1.2.ne']

end Verif.Solver
