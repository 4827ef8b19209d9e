import Verif.Lemmas.Energy
import Verif.Lemmas.RecipSurface
/-! The plain time steps of the solvers below a free surface. -/
set_option linter.dupNamespace false
set_option linter.unusedSectionVars false
set_option linter.unusedSimpArgs false

namespace Verif.Solver
open Matrix

variable {ι : Type} [Fintype ι] [DecidableEq ι]

/-- A free surface and no absorbing boundary. -/
def BC.surfaceOnly (c : BC ι) : Prop := c.useFreeSurface = 1 ∧ c.damping = none ∧ c.pml = none

theorem cut_mulVec (c : BC ι) (M : Matrix ι ι ℝ) (v : ι → ℝ) :
    (c.cut M).mulVec v = M.mulVec (fun i => c.setZero i * v i) := by
  unfold BC.cut
  rw [← Matrix.mulVec_mulVec]
  congr 1
  funext i
  rw [Matrix.mulVec_diagonal]

/-- The cut derivative of a field that vanishes on the surface is the plain one. -/
theorem cut_mulVec_of_zero {c : BC ι} {v : ι → ℝ} (h : ∀ i, c.onSurface i = true → v i = 0)
    (M : Matrix ι ι ℝ) : (c.cut M).mulVec v = M.mulVec v := by
  rw [cut_mulVec]
  congr 1
  funext i
  rcases Bool.eq_false_or_eq_true (c.onSurface i) with hs | hs <;> simp [BC.setZero, hs, h]

local macro "surface_step" d:ident : tactic => `(tactic| (
  rename_i hc hD s
  obtain ⟨h1, h2, h3⟩ := hc
  obtain ⟨hr, f1, f2, f3, f4, -, -⟩ := hD
  obtain ⟨g1, g2, g3, g4, k1, k2, k3, k4⟩ := hr.getters
  simp [$d:ident, cpmlHalf, cpmlFull, interp, damp, ifFS, selFS, h1, h2, h3, g1, g2, g3, g4, k1, k2,
    k3, k4, f1, f2, f3, f4, exec, Stmt.exec, State.set, surfaceZero, exchange2D, exchange3D,
    scaleHor, scaleVert, sub_eq_add_neg, add_assoc]))

section
variable {D : Deriv ι} {m : Mod ι} {c : BC ι} (hc : c.surfaceOnly) (hD : D.Surfaced c)
  (s : State ι)
include hc hD

theorem acoustic2D_surface :
    let s' := exec (acoustic2D D m c) s
    s' (.fld .vX) = (fun i => s (.fld .vX) i + D.Dxf.mulVec (s (.fld .p)) i * m.invRhoX i) ∧
    s' (.fld .vY) = (fun i => s (.fld .vY) i + (c.cut D.Dyf).mulVec (s (.fld .p)) i * m.invRhoY i) ∧
    s' (.fld .p) = (fun i => (s (.fld .p) i + (D.Dxb.mulVec (s' (.fld .vX)) i +
      D.Dyb.mulVec (s' (.fld .vY)) i) * m.pMod i) * c.setZero i) := by
  surface_step acoustic2D

theorem acoustic3D_surface :
    let s' := exec (acoustic3D D m c) s
    s' (.fld .vX) = (fun i => s (.fld .vX) i + D.Dxf.mulVec (s (.fld .p)) i * m.invRhoX i) ∧
    s' (.fld .vY) = (fun i => s (.fld .vY) i + (c.cut D.Dyf).mulVec (s (.fld .p)) i * m.invRhoY i) ∧
    s' (.fld .vZ) = (fun i => s (.fld .vZ) i + D.Dzf.mulVec (s (.fld .p)) i * m.invRhoZ i) ∧
    s' (.fld .p) = (fun i => (s (.fld .p) i + (D.Dxb.mulVec (s' (.fld .vX)) i +
      (D.Dyb.mulVec (s' (.fld .vY)) i + D.Dzb.mulVec (s' (.fld .vZ)) i)) * m.pMod i) *
        c.setZero i) := by
  surface_step acoustic3D

theorem sh2D_surface :
    let s' := exec (sh2D D m c) s
    s' (.fld .vZ) = (fun i => s (.fld .vZ) i + (D.Dxb.mulVec (s (.fld .Sxz)) i +
      (c.double D.Dyb).mulVec (s (.fld .Syz)) i) * m.invRho i) ∧
    s' (.fld .Sxz) = (fun i => s (.fld .Sxz) i + D.Dxf.mulVec (s' (.fld .vZ)) i * m.sModXZ i) ∧
    s' (.fld .Syz) = (fun i => s (.fld .Syz) i + D.Dyf.mulVec (s' (.fld .vZ)) i * m.sModYZ i) := by
  surface_step sh2D

theorem elastic2D_surface :
    let s' := exec (elastic2D D m c) s
    let a := D.Dxb.mulVec (s' (.fld .vX))
    let b := D.Dyb.mulVec (s' (.fld .vY))
    s' (.fld .vX) = (fun i => s (.fld .vX) i + (D.Dxf.mulVec (s (.fld .Sxx)) i +
      (c.double D.Dyb).mulVec (s (.fld .Sxy)) i) * m.invRhoX i) ∧
    s' (.fld .vY) = (fun i => s (.fld .vY) i + (D.Dxb.mulVec (s (.fld .Sxy)) i +
      (c.cut D.Dyf).mulVec (s (.fld .Syy)) i) * m.invRhoY i) ∧
    s' (.fld .Sxx) = (fun i => s (.fld .Sxx) i + ((a i + b i) * m.pMod i +
      (-(2 * (b i * m.sMod i)) + (scaleHor m c i * a i + -(scaleVert m c i * b i))))) ∧
    s' (.fld .Syy) = (fun i => (s (.fld .Syy) i + ((a i + b i) * m.pMod i +
        (-(2 * (a i * m.sMod i))))) * c.setZero i) ∧
    s' (.fld .Sxy) = (fun i => s (.fld .Sxy) i + (D.Dyf.mulVec (s' (.fld .vX)) i +
      D.Dxf.mulVec (s' (.fld .vY)) i) * m.sModXY i) := by
  surface_step elastic2D

theorem elastic3D_surface :
    let s' := exec (elastic3D D m c) s
    let a := D.Dxb.mulVec (s' (.fld .vX))
    let b := D.Dyb.mulVec (s' (.fld .vY))
    let e := D.Dzb.mulVec (s' (.fld .vZ))
    s' (.fld .vX) = (fun i => s (.fld .vX) i + (D.Dxf.mulVec (s (.fld .Sxx)) i +
      ((c.double D.Dyb).mulVec (s (.fld .Sxy)) i + D.Dzb.mulVec (s (.fld .Sxz)) i)) * m.invRhoX i) ∧
    s' (.fld .vY) = (fun i => s (.fld .vY) i + (D.Dxb.mulVec (s (.fld .Sxy)) i +
      ((c.cut D.Dyf).mulVec (s (.fld .Syy)) i + D.Dzb.mulVec (s (.fld .Syz)) i)) * m.invRhoY i) ∧
    s' (.fld .vZ) = (fun i => s (.fld .vZ) i + (D.Dxb.mulVec (s (.fld .Sxz)) i +
      ((c.double D.Dyb).mulVec (s (.fld .Syz)) i + D.Dzf.mulVec (s (.fld .Szz)) i)) * m.invRhoZ i) ∧
    s' (.fld .Sxx) = (fun i => s (.fld .Sxx) i + ((a i + (b i + e i)) * m.pMod i +
        (-(2 * ((b i + e i) * m.sMod i)) +
        (scaleHor m c i * (a i + e i) + -(scaleVert m c i * b i))))) ∧
    s' (.fld .Syy) = (fun i => (s (.fld .Syy) i + ((a i + (b i + e i)) * m.pMod i +
        (-(2 * ((a i + e i) * m.sMod i))))) * c.setZero i) ∧
    s' (.fld .Szz) = (fun i => s (.fld .Szz) i + ((a i + (b i + e i)) * m.pMod i +
        (-(2 * ((a i + b i) * m.sMod i)) +
        (scaleHor m c i * (a i + e i) + -(scaleVert m c i * b i))))) ∧
    s' (.fld .Sxy) = (fun i => s (.fld .Sxy) i + (D.Dyf.mulVec (s' (.fld .vX)) i +
      D.Dxf.mulVec (s' (.fld .vY)) i) * m.sModXY i) ∧
    s' (.fld .Sxz) = (fun i => s (.fld .Sxz) i + (D.Dzf.mulVec (s' (.fld .vX)) i +
      D.Dxf.mulVec (s' (.fld .vZ)) i) * m.sModXZ i) ∧
    s' (.fld .Syz) = (fun i => s (.fld .Syz) i + (D.Dzf.mulVec (s' (.fld .vY)) i +
      D.Dyf.mulVec (s' (.fld .vZ)) i) * m.sModYZ i) := by
  surface_step elastic3D
end

end Verif.Solver
