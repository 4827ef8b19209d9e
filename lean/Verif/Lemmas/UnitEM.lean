import Verif.Lemmas.LeapfrogSolvers
import Verif.Model.RegularPML
import Mathlib.Analysis.Convex.SpecificFunctions.Basic
import Mathlib.Analysis.Complex.ExponentialBounds

/-!
# A small electromagnetic example with CPML
-/
set_option linter.dupNamespace false

namespace Verif.Solver
open Matrix

/-- A grid of one point with a homogeneous isotropic medium. -/
noncomputable def unitEMod : EMod (Pt 1 1 1) :=
  ⟨1, 1, 1, fun _ => 1, fun _ => 0, fun _ => 0, fun _ => 0, 1, 0, fun _ => 1, 1⟩

/-- CPML parameters with exponent 1. -/
noncomputable def unitPar (fc : ℝ) : Boundary.CPMLPar := ⟨1, fc, 1, 1, 1⟩

/-- CPML of width 1 without free surface. -/
noncomputable def unitBC (fc : ℝ) : BC (Pt 1 1 1) :=
  ⟨0, none, some (regularPML (unitPar fc) 1 0 true), fun _ => false⟩

open Verif.Boundary

theorem unit_mulVec (E : Matrix (Pt 1 1 1) (Pt 1 1 1) ℝ) (v : Pt 1 1 1 → ℝ) (i : Pt 1 1 1) :
    E.mulVec v i = E 0 0 * v 0 := by
  have hi : i = 0 := Subsingleton.elim _ _
  subst hi
  simp [Matrix.mulVec, dotProduct, Fintype.sum_subsingleton _ (0 : Pt 1 1 1)]

theorem unit_fwd (a : Axis) : forwardMatrix (NX := 1) (NY := 1) (NZ := 1) 2 1 1 a 0 0 = -1 := by
  cases a <;> simp [forwardMatrix, moveTo, along, axisSize, Verif.Stencil.fwdStencilEntry, Verif.Stencil.fd]

theorem unit_bwd (a : Axis) : backwardMatrix (NX := 1) (NY := 1) (NZ := 1) 2 1 1 a 0 0 = 1 := by
  simp [backwardMatrix, unit_fwd]

theorem unit_coef (fc : ℝ) (a : Axis) (i : Pt 1 1 1) :
    regularCoef (unitPar fc) 1 0 true a i =
      ⟨cpmlA (unitPar fc) 1 0 false, cpmlB (unitPar fc) 1 0 false, cpmlA (unitPar fc) 1 0 true,
        cpmlB (unitPar fc) 1 0 true⟩ := by
  have hi : i = 0 := Subsingleton.elim _ _
  subst hi
  cases a <;> simp [regularCoef, axisCoef, along, axisSize, layerWidth]

theorem unit_step (fc : ℝ) (s : State (Pt 1 1 1)) (hpsi : ∀ f a, s (.psi f a) = 0)
    (h1 : s (.fld .hX) = 0) (h2 : s (.fld .hY) = 0) (h3 : s (.fld .hZ) = 0) (x z : ℝ)
    (hx : s (.fld .eX) 0 = x) (hy : s (.fld .eY) 0 = 0) (hz : s (.fld .eZ) 0 = z) :
    let a := cpmlA (unitPar fc) 1 0 false
    let a' := cpmlA (unitPar fc) 1 0 true
    exec (emem3D (surfaceDeriv 1 1 1 2 1 1) unitEMod (unitBC fc)) s (.fld .eX) 0 =
      x - 2 * (1 + a) * (1 + a') * x + (1 + a) * (1 + a') * z ∧
    exec (emem3D (surfaceDeriv 1 1 1 2 1 1) unitEMod (unitBC fc)) s (.fld .eZ) 0 =
      z - (1 + a') * (1 + a') * z - (1 + a) * (1 + a') * z + (1 + a') * (1 + a') * x := by
  obtain ⟨u, hu⟩ := emem3D_isStep (surfaceDeriv 1 1 1 2 1 1) unitEMod (unitBC fc) s
  have k1 := (hu .hX _ rfl).1 0
  have k2 := (hu .hY _ rfl).1 0
  have k3 := (hu .hZ _ rfl).1 0
  have k4 := (hu .eX _ rfl).1 0
  have k5 := (hu .eZ _ rfl).1 0
  have k6 := (hu .eX _ rfl).2.1 0
  have k7 := (hu .eZ _ rfl).2.1 0
  intro a a'
  rw [k6, k7]
  clear k6 k7 hu
  simp [mkRow, dampW, unitBC, Row.value, Term.value, sum3, grad, newPsi, PML.at, regularPML, unit_coef, hpsi, h1,
    h2, h3, unit_mulVec, surfaceDeriv, regularDeriv, unit_fwd, unit_bwd, unitEMod, EMod.ca, EMod.cb, Ca, Cb, Cinv, hx, hy,
    hz] at k1 k2 k3 k4 k5 ⊢
  rw [k4, k5, k1, k2, k3]
  constructor <;> ring

/-- The values of the coefficient `a` at the full and at the half point differ, and `a > -1`. -/
theorem unit_coef_lt (fc : ℝ) (hfc : 0 ≤ fc) :
    cpmlA (unitPar fc) 1 0 false < cpmlA (unitPar fc) 1 0 true ∧ -1 < cpmlA (unitPar fc) 1 0 true := by
  have hL : (1 : ℝ) < -Real.log 0.0008 := by
    rw [← Real.log_inv, Real.lt_log_iff_exp_lt (by norm_num)]
    have := Real.exp_one_lt_d9
    norm_num at this ⊢
    linarith
  set L := -Real.log 0.0008 with hLdef
  have hD : cpmlD (unitPar fc) 1 0 false = L := by
    simp [cpmlD, unitPar]; rw [hLdef]; ring
  have hD' : cpmlD (unitPar fc) 1 0 true = L / 2 := by
    simp [cpmlD, unitPar]; rw [hLdef]; ring
  have hA : cpmlAlpha (unitPar fc) 1 0 false = 0 := by simp [cpmlAlpha, unitPar]
  obtain ⟨α, hα, hA'⟩ : ∃ α, 0 ≤ α ∧ cpmlAlpha (unitPar fc) 1 0 true = α := by
    refine ⟨_, ?_, rfl⟩
    have := Real.pi_pos
    simp [cpmlAlpha, unitPar]
    norm_num
    positivity
  have ha : cpmlA (unitPar fc) 1 0 false = Real.exp (-L) - 1 := by
    rw [cpmlA, if_pos (by rw [hD, abs_of_pos (by linarith)]; norm_num; linarith), cpmlB, hD, hA]
    simp only [unitPar, add_zero, mul_one]
    field_simp
  have ha' : cpmlA (unitPar fc) 1 0 true = L / 2 * (Real.exp (-(L / 2 + α)) - 1) / (L / 2 + α) := by
    rw [cpmlA, if_pos (by rw [hD', abs_of_pos (by linarith)]; norm_num; linarith), cpmlB, hD', hA']
    simp only [unitPar, mul_one]
  have hy : 0 < L / 2 + α := by linarith
  have conv : Real.exp (-(L / 2)) ≤ (L / 2) / (L / 2 + α) * Real.exp (-(L / 2 + α)) + (1 - (L / 2) / (L / 2 + α)) := by
    have h := convexOn_exp.2 (Set.mem_univ (-(L / 2 + α))) (Set.mem_univ 0)
      (show 0 ≤ (L / 2) / (L / 2 + α) by positivity)
      (show 0 ≤ 1 - (L / 2) / (L / 2 + α) by
        rw [sub_nonneg, div_le_one hy]; linarith) (by ring)
    simp only [smul_eq_mul, mul_zero, add_zero, Real.exp_zero, mul_one] at h
    rwa [show (L / 2) / (L / 2 + α) * -(L / 2 + α) = -(L / 2) by field_simp] at h
  have e : L / 2 * (Real.exp (-(L / 2 + α)) - 1) / (L / 2 + α) =
      (L / 2) / (L / 2 + α) * Real.exp (-(L / 2 + α)) + (1 - (L / 2) / (L / 2 + α)) - 1 := by ring
  rw [ha, ha', e]
  have h1 : Real.exp (-L) < Real.exp (-(L / 2)) := Real.exp_lt_exp.2 (by linarith)
  have h2 := Real.exp_pos (-(L / 2))
  constructor <;> linarith

end Verif.Solver
