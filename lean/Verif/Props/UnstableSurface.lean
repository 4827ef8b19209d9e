import Verif.Lemmas.ComplexMode
import Verif.Lemmas.EnergySurface
import Verif.Props.StabilitySurface
import Mathlib.LinearAlgebra.Matrix.Determinant.Basic
import Mathlib.Tactic.FinCases
/-!
# C139: order 4 can be unstable below a free surface for every time step

The vertical derivative of the pressure is imaged at the surface, the vertical derivative of the
velocity is not. For orders above 2 they are not adjoint to each other, and their product with strongly
varying parameters has an eigenvalue that is not real: a mode of the grid grows whatever the time step.
-/
namespace Verif.Solver
open Matrix

section Generic
variable {ι : Type} [Fintype ι]

/-- One acoustic time step below a free surface of any order. -/
theorem acoustic2D_free {D : Deriv ι} {m : Mod ι} {c : BC ι} (hc : c.surfaceOnly)
    (g1 : D.interFull = none) (g2 : D.interSX = none) (s : State ι) :
    let s' := exec (acoustic2D D m c) s
    s' (.fld .vX) = (fun i => s (.fld .vX) i + D.Dxf.mulVec (s (.fld .p)) i * m.invRhoX i) ∧
    s' (.fld .vY) = (fun i => s (.fld .vY) i + D.DyfFS.mulVec (s (.fld .p)) i * m.invRhoY i) ∧
    s' (.fld .p) = (fun i => (s (.fld .p) i + (D.Dxb.mulVec (s' (.fld .vX)) i +
      D.Dyb.mulVec (s' (.fld .vY)) i) * m.pMod i) * c.setZero i) := by
  obtain ⟨h1, h2, h3⟩ := hc
  simp [acoustic2D, cpmlHalf, cpmlFull, interp, damp, ifFS, selFS, h1, h2, h3, g1, g2,
    exec, Stmt.exec, State.set, surfaceZero]

/-- A real matrix applied to a complex field. -/
noncomputable def cmul (M : Matrix ι ι ℝ) (u : ι → ℂ) (i : ι) : ℂ := ∑ j, (M i j : ℂ) * u j

theorem re_cmul (M : Matrix ι ι ℝ) (a : ℂ) (u : ι → ℂ) (i : ι) :
    M.mulVec (fun j => (a * u j).re) i = (a * cmul M u i).re := by
  show ∑ j, M i j * (a * u j).re = _
  unfold cmul
  rw [Finset.mul_sum, Complex.re_sum]
  refine Finset.sum_congr rfl fun j _ => ?_
  rw [show a * ((M i j : ℂ) * u j) = (M i j : ℂ) * (a * u j) by ring, Complex.re_ofReal_mul]

/-- The wavefield of an oscillating mode. -/
noncomputable def modeState (D : Deriv ι) (m : Mod ι) (u : ι → ℂ) (w a : ℂ) : State ι := fun v i =>
  match v with
  | .fld .p => (a * u i).re
  | .fld .vX => (a * (w * (m.invRhoX i * cmul D.Dxf u i))).re
  | .fld .vY => (a * (w * (m.invRhoY i * cmul D.DyfFS u i))).re
  | _ => 0

/-- A mode of the acoustic scheme is multiplied by `z` in every time step. -/
theorem acoustic2D_mode [DecidableEq ι] {D : Deriv ι} {m : Mod ι} {c : BC ι} (hc : c.surfaceOnly)
    (g1 : D.interFull = none) (g2 : D.interSX = none) {u : ι → ℂ} {l z : ℂ}
    (h0 : ∀ i, c.onSurface i = true → u i = 0)
    (h : ∀ i, c.onSurface i = false →
      m.pMod i * (cmul D.Dxb (fun j => m.invRhoX j * cmul D.Dxf u j) i +
        cmul D.Dyb (fun j => m.invRhoY j * cmul D.DyfFS u j) i) = l * u i)
    (hz : (z - 1) ^ 2 = l * z) (h1 : z ≠ 1) (n : ℕ) :
    ∀ f ∈ [Fld.p, .vX, .vY],
      run (acoustic2DSolver D m c) [] (modeState D m u (z - 1)⁻¹ 1) n (.fld f) =
        modeState D m u (z - 1)⁻¹ (z ^ n) (.fld f) := by
  have hz1 : z - 1 ≠ 0 := sub_ne_zero.mpr h1
  induction n with
  | zero => intro f _; rw [pow_zero]; rfl
  | succ n ih =>
    have es : run (acoustic2DSolver D m c) [] (modeState D m u (z - 1)⁻¹ 1) (n + 1) =
        exec (acoustic2D D m c) (run (acoustic2DSolver D m c) [] (modeState D m u (z - 1)⁻¹ 1) n) := by
      show applySource (acoustic2DSolver D m c) [] n _ = _
      funext v j
      unfold applySource
      cases v <;> simp <;> rfl
    obtain ⟨e1, e2, e3⟩ := acoustic2D_free (m := m) hc g1 g2
      (run (acoustic2DSolver D m c) [] (modeState D m u (z - 1)⁻¹ 1) n)
    rw [← es] at e1 e2 e3
    have ip : _ = fun j => (z ^ n * u j).re := ih .p (by simp)
    have ix := ih .vX (by simp)
    have iy := ih .vY (by simp)
    generalize run (acoustic2DSolver D m c) [] (modeState D m u (z - 1)⁻¹ 1) (n + 1) = s' at e1 e2 e3 ⊢
    generalize run (acoustic2DSolver D m c) [] (modeState D m u (z - 1)⁻¹ 1) n = s at e1 e2 e3 ip ix iy
    have kx : s' (.fld .vX) = fun i => (z ^ (n + 1) * (z - 1)⁻¹ * (m.invRhoX i * cmul D.Dxf u i)).re := by
      rw [e1, ip, ix]
      funext i
      simp only [modeState]
      rw [re_cmul, mul_comm _ (m.invRhoX i), ← Complex.re_ofReal_mul, ← Complex.add_re]
      congr 1
      rw [pow_succ]
      field_simp
      ring
    have ky : s' (.fld .vY) = fun i => (z ^ (n + 1) * (z - 1)⁻¹ * (m.invRhoY i * cmul D.DyfFS u i)).re := by
      rw [e2, ip, iy]
      funext i
      simp only [modeState]
      rw [re_cmul, mul_comm _ (m.invRhoY i), ← Complex.re_ofReal_mul, ← Complex.add_re]
      congr 1
      rw [pow_succ]
      field_simp
      ring
    have kp : s' (.fld .p) = fun i => (z ^ (n + 1) * u i).re := by
      rw [e3, kx, ky, ip]
      funext i
      beta_reduce
      rw [re_cmul, re_cmul]
      rcases Bool.eq_false_or_eq_true (c.onSurface i) with hs | hs
      · simp [BC.setZero, hs, h0 i hs]
      · have hi := h i hs
        simp only [BC.setZero, hs, Bool.false_eq_true, if_false, mul_one]
        rw [← Complex.add_re, mul_comm _ (m.pMod i), ← Complex.re_ofReal_mul, ← Complex.add_re]
        congr 1
        have : z ^ n * u i + z ^ (n + 1) * (z - 1)⁻¹ * (l * u i) = z ^ (n + 1) * u i := by
          rw [pow_succ]
          field_simp
          linear_combination (- z ^ n * u i) * hz
        rw [← this, ← hi]
        ring
    intro f hf
    fin_cases hf
    · rw [kp]; rfl
    · rw [kx]; funext i; simp only [modeState, mul_assoc]
    · rw [ky]; funext i; simp only [modeState, mul_assoc]

end Generic

/-! ### The medium -/

/-- Density of two columns of three points. -/
noncomputable def unstableRho : Pt 2 3 1 → ℝ := fun i =>
  (![![1 / 4, 1 / 4, 6], ![12, 1 / 12, 5]] : Fin 2 → Fin 3 → ℝ) i.1 i.2.1

/-- The medium; the densities at the velocities are the averages of the density as in C72. -/
noncomputable def unstableM : Mod (Pt 2 3 1) where
  invRho := fun i => 1 / unstableRho i
  invRhoX := fun i => 1 / meanNext .x unstableRho i
  invRhoY := fun i => 1 / meanNext .y unstableRho i
  invRhoZ := 1
  pMod := fun i => (![![1, 1 / 10, 119 / 22], ![1, 17 / 101, 71 / 8]] : Fin 2 → Fin 3 → ℝ) i.1 i.2.1
  sMod := 0; sModXY := 0; sModXZ := 0; sModYZ := 0
  tauP := 0; tauS := 0; tauSXY := 0; tauSXZ := 0; tauSYZ := 0
  L := 0; relaxTime := fun _ => 1; DT := 1

theorem unstable_pos (i : Pt 2 3 1) : 0 < unstableRho i ∧ 0 < unstableM.pMod i := by
  obtain ⟨x, y, z⟩ := i
  fin_cases x <;> fin_cases y <;> simp [unstableRho, unstableM]

/-- `Dxf` of order 4 on two points. -/
def rows2 : Fin 2 → Fin 2 → ℚ := ![![-9 / 8, 9 / 8], ![1 / 24, -9 / 8]]
/-- `Dyf` of order 4 on three points. -/
def rows3 : Fin 3 → Fin 3 → ℚ :=
  ![![-9 / 8, 9 / 8, -1 / 24], ![1 / 24, -9 / 8, 9 / 8], ![0, 1 / 24, -9 / 8]]
/-- `DyfFreeSurface` of order 4 on three points. -/
def rows3fs : Fin 3 → Fin 3 → ℚ :=
  ![![0, 9 / 8 - 1 / 24, -1 / 24], ![0, -9 / 8, 9 / 8], ![0, 1 / 24, -9 / 8]]

private theorem entry2 (r c : Fin 2) : Verif.Stencil.fwdStencilEntry 2 4 (r : ℕ) (c : ℕ) =
    rows2 r c := by
  revert r c
  decide +kernel

private theorem entry3 (r c : Fin 3) : Verif.Stencil.fwdStencilEntry 3 4 (r : ℕ) (c : ℕ) =
    rows3 r c := by
  revert r c
  decide +kernel

private theorem entry3fs (r c : Fin 3) :
    surfaceEntry (Verif.Stencil.fwdFreeSurfaceRow 3 1 (r : ℕ) 4) (c : ℕ) = rows3fs r c := by
  revert r c
  decide +kernel

variable {DT DH : ℝ}

private theorem sum_pts (g : Pt 2 3 1 → ℂ) : ∑ i, g i = ∑ x, ∑ y, g (x, y, 0) := by
  rw [Fintype.sum_prod_type]
  refine Finset.sum_congr rfl fun x _ => ?_
  rw [Fintype.sum_prod_type]
  refine Finset.sum_congr rfl fun y _ => ?_
  rw [Fin.sum_univ_one]

private theorem dxf (u : Pt 2 3 1 → ℂ) (x : Fin 2) (y : Fin 3) :
    cmul (forwardMatrix 4 DT DH .x) u (x, y, 0) =
      (DT / DH : ℝ) * ∑ k, ((rows2 x k : ℝ) : ℂ) * u (k, y, 0) := by
  unfold cmul
  rw [sum_pts, Finset.mul_sum]
  refine Finset.sum_congr rfl fun k _ => ?_
  rw [Finset.sum_eq_single y]
  · have : (forwardMatrix 4 DT DH .x : Matrix (Pt 2 3 1) (Pt 2 3 1) ℝ) (x, y, 0) (k, y, 0) =
        DT / DH * (rows2 x k : ℝ) := by
      rw [← entry2]; simp [forwardMatrix, moveTo, along, axisSize]
    rw [this]; push_cast; ring
  · intro b _ hb
    have : (forwardMatrix 4 DT DH .x : Matrix (Pt 2 3 1) (Pt 2 3 1) ℝ) (x, y, 0) (k, b, 0) = 0 := by
      refine if_neg fun e => hb ?_
      exact (congrArg (fun q => q.2.1) e).symm
    rw [this]; simp
  · simp

private theorem dxb (u : Pt 2 3 1 → ℂ) (x : Fin 2) (y : Fin 3) :
    cmul (backwardMatrix 4 DT DH .x) u (x, y, 0) =
      (DT / DH : ℝ) * ∑ k, -((rows2 k x : ℝ) : ℂ) * u (k, y, 0) := by
  unfold cmul
  rw [sum_pts, Finset.mul_sum]
  refine Finset.sum_congr rfl fun k _ => ?_
  rw [Finset.sum_eq_single y]
  · have : (backwardMatrix 4 DT DH .x : Matrix (Pt 2 3 1) (Pt 2 3 1) ℝ) (x, y, 0) (k, y, 0) =
        -(DT / DH * (rows2 k x : ℝ)) := by
      rw [← entry2, backwardMatrix, Matrix.neg_apply, transpose_apply]
      simp [forwardMatrix, moveTo, along, axisSize]
    rw [this]; push_cast; ring
  · intro b _ hb
    have : (backwardMatrix 4 DT DH .x : Matrix (Pt 2 3 1) (Pt 2 3 1) ℝ) (x, y, 0) (k, b, 0) = 0 := by
      rw [backwardMatrix, Matrix.neg_apply, transpose_apply, neg_eq_zero]
      refine if_neg fun e => hb ?_
      exact congrArg (fun q => q.2.1) e
    rw [this]; simp
  · simp

private theorem dyf (u : Pt 2 3 1 → ℂ) (x : Fin 2) (y : Fin 3) :
    cmul (surfaceForward 4 DT DH) u (x, y, 0) =
      (DT / DH : ℝ) * ∑ k, ((rows3fs y k : ℝ) : ℂ) * u (x, k, 0) := by
  unfold cmul
  rw [sum_pts, Finset.sum_eq_single x, Finset.mul_sum]
  · refine Finset.sum_congr rfl fun k _ => ?_
    have : (surfaceForward 4 DT DH : Matrix (Pt 2 3 1) (Pt 2 3 1) ℝ) (x, y, 0) (x, k, 0) =
        DT / DH * (rows3fs y k : ℝ) := by
      rw [← entry3fs]; simp [surfaceForward, moveTo, along, axisSize]
    rw [this]; push_cast; ring
  · intro b _ hb
    refine Finset.sum_eq_zero fun k _ => ?_
    have : (surfaceForward 4 DT DH : Matrix (Pt 2 3 1) (Pt 2 3 1) ℝ) (x, y, 0) (b, k, 0) = 0 := by
      refine if_neg fun e => hb ?_
      exact (congrArg (fun q => q.1) e).symm
    rw [this]; simp
  · simp

private theorem dyb (u : Pt 2 3 1 → ℂ) (x : Fin 2) (y : Fin 3) :
    cmul (backwardMatrix 4 DT DH .y) u (x, y, 0) =
      (DT / DH : ℝ) * ∑ k, -((rows3 k y : ℝ) : ℂ) * u (x, k, 0) := by
  unfold cmul
  rw [sum_pts, Finset.sum_eq_single x, Finset.mul_sum]
  · refine Finset.sum_congr rfl fun k _ => ?_
    have : (backwardMatrix 4 DT DH .y : Matrix (Pt 2 3 1) (Pt 2 3 1) ℝ) (x, y, 0) (x, k, 0) =
        -(DT / DH * (rows3 k y : ℝ)) := by
      rw [← entry3, backwardMatrix, Matrix.neg_apply, transpose_apply]
      simp [forwardMatrix, moveTo, along, axisSize]
    rw [this]; push_cast; ring
  · intro b _ hb
    refine Finset.sum_eq_zero fun k _ => ?_
    have : (backwardMatrix 4 DT DH .y : Matrix (Pt 2 3 1) (Pt 2 3 1) ℝ) (x, y, 0) (b, k, 0) = 0 := by
      rw [backwardMatrix, Matrix.neg_apply, transpose_apply, neg_eq_zero]
      refine if_neg fun e => hb ?_
      exact congrArg (fun q => q.1) e
    rw [this]; simp
  · simp

/-- Determinant of the four points below the surface. -/
private theorem det_points (s p q r k a b c d e f g h : ℂ) :
    (!![s - p, -a, -b, 0; -c, s - q, 0, -d; -e, 0, s - r, -f; 0, -g, -h, s - k] :
      Matrix (Fin 4) (Fin 4) ℂ).det =
    s ^ 4 + (-(p + q + r + k)) * s ^ 3 +
      (p * q + p * r + p * k + q * r + q * k + r * k - a * c - b * e - d * g - f * h) * s ^ 2 +
      (-(p * q * r + p * q * k + p * r * k + q * r * k) + a * c * (r + k) + b * e * (q + k) +
        d * g * (p + r) + f * h * (p + q)) * s +
      (p * q * r * k - a * c * (r * k) - b * e * (q * k) - d * g * (p * r) - f * h * (p * q) +
        a * c * (f * h) + b * e * (d * g) - a * d * h * e - b * f * g * c) := by
  simp [Matrix.det_succ_row_zero, Fin.sum_univ_succ, Fin.succAbove]
  ring

/-- The eigenvalue that is not real. -/
private theorem eigen : ∃ (l : ℂ) (v : Fin 4 → ℂ), l.im ≠ 0 ∧ v ≠ 0 ∧
    (-1114117 / 864000) * v 0 + 261 / 320 * v 1 + 1921 / 32000 * v 2 = l * v 0 ∧
    4437 / 3232 * v 0 + (-2033718619 / 514566720) * v 1 + 4956843 / 57174080 * v 3 = l * v 1 ∧
    2033591 / 633600 * v 0 + (-10723447 / 2323200) * v 2 + 100317 / 77440 * v 3 = l * v 2 ∧
    62071679 / 13585920 * v 1 + 59853 / 28160 * v 2 + (-102342737 / 9340320) * v 3 = l * v 3 := by
  obtain ⟨s, hs, him⟩ := nonreal_root
    (a := 17458490047033 / 4669692984000) (b := -5247647551634678741 / 215179452702720000)
    (c := 42037063839021341659 / 6375687487488000000000)
    (d := -1984820980691371171399 / 140844732678144000000000000) (by norm_num)
  have hdet := det_points s (-1114117 / 864000 + 4269 / 1000) (-2033718619 / 514566720 + 4269 / 1000)
    (-10723447 / 2323200 + 4269 / 1000) (-102342737 / 9340320 + 4269 / 1000) (261 / 320) (1921 / 32000)
    (4437 / 3232) (4956843 / 57174080) (2033591 / 633600) (100317 / 77440) (62071679 / 13585920)
    (59853 / 28160)
  have h0 := hdet.trans (Eq.trans (by push_cast; norm_num) hs)
  obtain ⟨v, hv, hm⟩ := Matrix.exists_mulVec_eq_zero_iff.mpr h0
  refine ⟨s - 4269 / 1000, v, ?_, hv, ?_, ?_, ?_, ?_⟩
  · have : (4269 / 1000 : ℂ).im = 0 := by
      rw [show (4269 / 1000 : ℂ) = ((4269 / 1000 : ℝ) : ℂ) by push_cast; rfl, Complex.ofReal_im]
    rw [Complex.sub_im, this, sub_zero]
    exact him
  · have := congrFun hm 0
    simp [Matrix.mulVec, dotProduct, Fin.sum_univ_four] at this
    linear_combination -this
  · have := congrFun hm 1
    simp [Matrix.mulVec, dotProduct, Fin.sum_univ_four] at this
    linear_combination -this
  · have := congrFun hm 2
    simp [Matrix.mulVec, dotProduct, Fin.sum_univ_four] at this
    linear_combination -this
  · have := congrFun hm 3
    simp [Matrix.mulVec, dotProduct, Fin.sum_univ_four] at this
    linear_combination -this

/-- The pressure of the mode. -/
noncomputable def unstableMode (v : Fin 4 → ℂ) : Pt 2 3 1 → ℂ := fun i =>
  (![![0, v 0, v 2], ![0, v 1, v 3]] : Fin 2 → Fin 3 → ℂ) i.1 i.2.1

private theorem rhoX : ∀ (x : Fin 2) (y : Fin 3), unstableM.invRhoX (x, y, 0) =
    (![![8 / 49, 6, 2 / 11], ![1 / 12, 12, 1 / 5]] : Fin 2 → Fin 3 → ℝ) x y := by
  intro x y
  fin_cases x <;> fin_cases y <;>
    simp [unstableM, meanNext, along, axisSize, moveTo, unstableRho] <;> norm_num

private theorem rhoY : ∀ (x : Fin 2) (y : Fin 3), unstableM.invRhoY (x, y, 0) =
    (![![4, 8 / 25, 1 / 6], ![24 / 145, 24 / 61, 1 / 5]] : Fin 2 → Fin 3 → ℝ) x y := by
  intro x y
  fin_cases x <;> fin_cases y <;>
    simp [unstableM, meanNext, along, axisSize, moveTo, unstableRho] <;> norm_num

/-- C139: a medium in which acoustic waves of order 4 below a free surface grow without bound, however
small the time step is. Without the free surface the same medium is stable for small time steps (C94). -/
theorem C139_acoustic2D_violated (hDT : 0 < DT) (hDH : 0 < DH) :
    ∃ w : State (Pt 2 3 1), acousticRest2D unstableM w ∧
      (∀ i : Pt 2 3 1, (i.2.1 : ℕ) = 0 → w (.fld .p) i = 0) ∧
      ∀ C : ℝ, ∃ n i, C < |run (acoustic2DSolver (surfaceDeriv 2 3 1 4 DT DH) unstableM
        (surfaceExBC 2 3 1)) [] w n (.fld .p) i| := by
  obtain ⟨l, v, hl, hv, q0, q1, q2, q3⟩ := eigen
  set κ := DT / DH with hκ
  have hκ0 : 0 < κ := div_pos hDT hDH
  have hl' : (((κ ^ 2 : ℝ) : ℂ) * l).im ≠ 0 := by
    rw [Complex.im_ofReal_mul]
    exact mul_ne_zero (by positivity) hl
  obtain ⟨z, hz, hz1, hzi⟩ := leapfrog_factor hl'
  have hne : z ≠ 1 := by rintro rfl; simp at hzi
  set u := unstableMode v with hu
  have surf : ∀ i : Pt 2 3 1, (i.2.1 : ℕ) = 0 → u i = 0 := by
    rintro ⟨x, y, t⟩ h
    have hy : y = 0 := Fin.ext h
    subst hy
    fin_cases x <;> rfl
  have mode := acoustic2D_mode (D := surfaceDeriv 2 3 1 4 DT DH) (m := unstableM)
    (c := surfaceExBC 2 3 1) surfaceExBC_only.only rfl rfl (u := u)
    (l := ((κ ^ 2 : ℝ) : ℂ) * l) (z := z)
    (fun i hi => surf i (by simpa [surfaceExBC] using hi)) ?_ hz hne
  · refine ⟨modeState (surfaceDeriv 2 3 1 4 DT DH) unstableM u (z - 1)⁻¹ 1, ?_, ?_, ?_⟩
    · rintro ⟨x, y, t⟩
      obtain rfl : t = 0 := Subsingleton.elim _ _
      refine ⟨fun h => absurd h (unstable_pos _).2.ne', fun h => absurd h ?_, fun h => absurd h ?_⟩
      · rw [rhoX]; fin_cases x <;> fin_cases y <;> simp
      · rw [rhoY]; fin_cases x <;> fin_cases y <;> simp
    · intro i hi
      simp [modeState, surf i hi]
    · intro C
      obtain ⟨k, hk⟩ := Function.ne_iff.mp hv
      have : ∃ i, u i = v k := by
        fin_cases k
        · exact ⟨(0, 1, 0), rfl⟩
        · exact ⟨(1, 1, 0), rfl⟩
        · exact ⟨(0, 2, 0), rfl⟩
        · exact ⟨(1, 2, 0), rfl⟩
      obtain ⟨i, hi⟩ := this
      obtain ⟨n, hn⟩ := oscillation_grows hz1 hzi (u := u i) (by rw [hi]; exact hk) C
      refine ⟨n, i, ?_⟩
      rw [mode n .p (by simp)]
      exact hn
  · rintro ⟨x, y, t⟩ hi
    obtain rfl : t = 0 := Subsingleton.elim _ _
    show _ * (cmul (backwardMatrix 4 DT DH .x) _ _ + cmul (backwardMatrix 4 DT DH .y) _ _) = _
    rw [dxb, dyb]
    show _ * (_ * ∑ k, _ * (_ * cmul (forwardMatrix 4 DT DH .x) _ _) +
      _ * ∑ k, _ * (_ * cmul (surfaceForward 4 DT DH) _ _)) = _
    simp only [dxf, dyf, rhoX, rhoY, Fin.sum_univ_two, Fin.sum_univ_three, ← hκ]
    fin_cases x <;> fin_cases y
    · simp [surfaceExBC] at hi
    · simp [unstableM, rows2, rows3, rows3fs, hu, unstableMode]
      linear_combination (κ : ℂ) ^ 2 * q0
    · simp [unstableM, rows2, rows3, rows3fs, hu, unstableMode]
      linear_combination (κ : ℂ) ^ 2 * q2
    · simp [surfaceExBC] at hi
    · simp [unstableM, rows2, rows3, rows3fs, hu, unstableMode]
      linear_combination (κ : ℂ) ^ 2 * q1
    · simp [unstableM, rows2, rows3, rows3fs, hu, unstableMode]
      linear_combination (κ : ℂ) ^ 2 * q3

end Verif.Solver
