import Verif.Lemmas.Solver
import Verif.Model.SolverEM
import Mathlib.Algebra.BigOperators.Field
import Mathlib.Algebra.Order.BigOperators.Ring.Finset
import Mathlib.Tactic.Ring
import Mathlib.Tactic.FieldSimp
import Mathlib.Tactic.Linarith
/-! The discrete energy of leapfrog schemes and the plain time steps of the solvers. -/
set_option linter.dupNamespace false
set_option linter.unusedSectionVars false

namespace Verif.Solver
open Matrix

variable {ι : Type} [Fintype ι]

section Abstract
variable {A B : Type} [Fintype A] [Fintype B]

/-- Right hand side of the first half step. -/
noncomputable def gSum (G : A → B → Matrix ι ι ℝ) (s : B → ι → ℝ) (a : A) (i : ι) : ℝ :=
  ∑ b, (G a b).mulVec (s b) i

/-- Right hand side of the second half step: minus the adjoint. -/
noncomputable def dSum (G : A → B → Matrix ι ι ℝ) (v : A → ι → ℝ) (b : B) (i : ι) : ℝ :=
  - ∑ a, (G a b).transpose.mulVec (v a) i

/-- Discrete energy of a leapfrog scheme. -/
noncomputable def energy (Q : ι → (B → ι → ℝ) → ℝ) (R : A → ι → ℝ) (G : A → B → Matrix ι ι ℝ)
    (v : A → ι → ℝ) (s : B → ι → ℝ) : ℝ :=
  ∑ i, Q i s + ∑ a, ∑ i, v a i ^ 2 / R a i + ∑ a, ∑ i, v a i * gSum G s a i

theorem adjoint (M : Matrix ι ι ℝ) (a b : ι → ℝ) :
    ∑ i, a i * M.mulVec b i = ∑ i, M.transpose.mulVec a i * b i := by
  have := Matrix.dotProduct_mulVec a M b
  rw [← Matrix.mulVec_transpose] at this
  exact this

theorem gd_adjoint (G : A → B → Matrix ι ι ℝ) (v : A → ι → ℝ) (s : B → ι → ℝ) :
    ∑ a, ∑ i, v a i * gSum G s a i = - ∑ b, ∑ i, s b i * dSum G v b i := by
  have h1 : ∑ a, ∑ i, v a i * gSum G s a i =
      ∑ a, ∑ b, ∑ i, v a i * (G a b).mulVec (s b) i := by
    refine Finset.sum_congr rfl fun a _ => ?_
    rw [Finset.sum_comm]
    exact Finset.sum_congr rfl fun i _ => by rw [gSum, Finset.mul_sum]
  have h2 : - ∑ b, ∑ i, s b i * dSum G v b i =
      ∑ b, ∑ a, ∑ i, v a i * (G a b).mulVec (s b) i := by
    rw [← Finset.sum_neg_distrib]
    refine Finset.sum_congr rfl fun b _ => ?_
    simp only [adjoint]
    rw [Finset.sum_comm, ← Finset.sum_neg_distrib]
    refine Finset.sum_congr rfl fun i _ => ?_
    rw [dSum, mul_neg, neg_neg, Finset.mul_sum]
    exact Finset.sum_congr rfl fun a _ => by ring
  rw [h1, h2, Finset.sum_comm]

/-- Energy balance of a leapfrog step; `q` and `q'` are the potential energies per point. -/
theorem energy_step_memory (q q' : ι → ℝ) (R : A → ι → ℝ) (G : A → B → Matrix ι ι ℝ)
    (v v' : A → ι → ℝ) (s s' : B → ι → ℝ) (diss : ι → ℝ)
    (hR : ∀ a i, R a i = 0 → v a i = 0)
    (hv : ∀ a i, v' a i = v a i + gSum G s a i * R a i)
    (hQ : ∀ i, q' i = q i + ∑ b, (s b i + s' b i) * dSum G v' b i - diss i) :
    ∑ i, q' i + ∑ a, ∑ i, v' a i ^ 2 / R a i + ∑ a, ∑ i, v' a i * gSum G s' a i =
      ∑ i, q i + ∑ a, ∑ i, v a i ^ 2 / R a i + ∑ a, ∑ i, v a i * gSum G s a i - ∑ i, diss i := by
  have e1 : ∑ i, q' i = ∑ i, q i + ∑ b, ∑ i, s b i * dSum G v' b i +
      ∑ b, ∑ i, s' b i * dSum G v' b i - ∑ i, diss i := by
    rw [Finset.sum_congr rfl fun i _ => hQ i, Finset.sum_sub_distrib, Finset.sum_add_distrib]
    rw [Finset.sum_comm (s := Finset.univ) (t := Finset.univ)
      (f := fun i b => (s b i + s' b i) * dSum G v' b i)]
    rw [add_assoc (∑ i, q i), ← Finset.sum_add_distrib]
    congr 2
    refine Finset.sum_congr rfl fun b _ => ?_
    rw [← Finset.sum_add_distrib]
    exact Finset.sum_congr rfl fun i _ => by ring
  have e2 : ∑ a, ∑ i, v' a i ^ 2 / R a i = ∑ a, ∑ i, v a i ^ 2 / R a i +
      ∑ a, ∑ i, v a i * gSum G s a i + ∑ a, ∑ i, v' a i * gSum G s a i := by
    rw [← Finset.sum_add_distrib, ← Finset.sum_add_distrib]
    refine Finset.sum_congr rfl fun a _ => ?_
    rw [← Finset.sum_add_distrib, ← Finset.sum_add_distrib]
    refine Finset.sum_congr rfl fun i _ => ?_
    rw [hv]
    by_cases h : R a i = 0
    · simp [hR a i h, h]
    · field_simp
  have e3 := gd_adjoint G v' s
  have e4 := gd_adjoint G v' s'
  linarith

theorem energy_step (Q : ι → (B → ι → ℝ) → ℝ) (R : A → ι → ℝ) (G : A → B → Matrix ι ι ℝ)
    (v v' : A → ι → ℝ) (s s' : B → ι → ℝ) (diss : ι → ℝ)
    (hR : ∀ a i, R a i = 0 → v a i = 0)
    (hv : ∀ a i, v' a i = v a i + gSum G s a i * R a i)
    (hQ : ∀ i, Q i s' = Q i s + ∑ b, (s b i + s' b i) * dSum G v' b i - diss i) :
    energy Q R G v' s' = energy Q R G v s - ∑ i, diss i :=
  energy_step_memory (fun i => Q i s) (fun i => Q i s') R G v v' s s' diss hR hv hQ

end Abstract

/-! ### Plain time steps -/

local macro "plain_step" d:ident : tactic => `(tactic| (
  rename_i hc hD s
  obtain ⟨h1, h2, h3⟩ := hc
  obtain ⟨g1, g2, g3, g4, k1, k2, k3, k4⟩ := hD.getters
  simp [$d:ident, cpmlHalf, cpmlFull, interp, damp, ifFS, selFS, h1, h2, h3, g1, g2, g3, g4, k1, k2,
    k3, k4, exec, Stmt.exec, State.set, eUpdate, magnetic3D, sub_eq_add_neg, add_assoc]))

section
variable {D : Deriv ι} {m : Mod ι} {e : EMod ι} {c : BC ι} (hc : c.plain) (hD : D.regular)
  (s : State ι)
include hc hD

theorem acoustic2D_plain :
    let s' := exec (acoustic2D D m c) s
    s' (.fld .vX) = (fun i => s (.fld .vX) i + D.Dxf.mulVec (s (.fld .p)) i * m.invRhoX i) ∧
    s' (.fld .vY) = (fun i => s (.fld .vY) i + D.Dyf.mulVec (s (.fld .p)) i * m.invRhoY i) ∧
    s' (.fld .p) = (fun i => s (.fld .p) i + (D.Dxb.mulVec (s' (.fld .vX)) i +
      D.Dyb.mulVec (s' (.fld .vY)) i) * m.pMod i) := by
  plain_step acoustic2D

theorem acoustic3D_plain :
    let s' := exec (acoustic3D D m c) s
    s' (.fld .vX) = (fun i => s (.fld .vX) i + D.Dxf.mulVec (s (.fld .p)) i * m.invRhoX i) ∧
    s' (.fld .vY) = (fun i => s (.fld .vY) i + D.Dyf.mulVec (s (.fld .p)) i * m.invRhoY i) ∧
    s' (.fld .vZ) = (fun i => s (.fld .vZ) i + D.Dzf.mulVec (s (.fld .p)) i * m.invRhoZ i) ∧
    s' (.fld .p) = (fun i => s (.fld .p) i + (D.Dxb.mulVec (s' (.fld .vX)) i +
      (D.Dyb.mulVec (s' (.fld .vY)) i + D.Dzb.mulVec (s' (.fld .vZ)) i)) * m.pMod i) := by
  plain_step acoustic3D

theorem elastic2D_plain :
    let s' := exec (elastic2D D m c) s
    s' (.fld .vX) = (fun i => s (.fld .vX) i + (D.Dxf.mulVec (s (.fld .Sxx)) i +
      D.Dyb.mulVec (s (.fld .Sxy)) i) * m.invRhoX i) ∧
    s' (.fld .vY) = (fun i => s (.fld .vY) i + (D.Dxb.mulVec (s (.fld .Sxy)) i +
      D.Dyf.mulVec (s (.fld .Syy)) i) * m.invRhoY i) ∧
    s' (.fld .Sxx) = (fun i => s (.fld .Sxx) i + ((D.Dxb.mulVec (s' (.fld .vX)) i +
      D.Dyb.mulVec (s' (.fld .vY)) i) * m.pMod i +
        (-(2 * (D.Dyb.mulVec (s' (.fld .vY)) i * m.sMod i))))) ∧
    s' (.fld .Syy) = (fun i => s (.fld .Syy) i + ((D.Dxb.mulVec (s' (.fld .vX)) i +
      D.Dyb.mulVec (s' (.fld .vY)) i) * m.pMod i +
        (-(2 * (D.Dxb.mulVec (s' (.fld .vX)) i * m.sMod i))))) ∧
    s' (.fld .Sxy) = (fun i => s (.fld .Sxy) i + (D.Dyf.mulVec (s' (.fld .vX)) i +
      D.Dxf.mulVec (s' (.fld .vY)) i) * m.sModXY i) := by
  plain_step elastic2D

theorem elastic3D_plain :
    let s' := exec (elastic3D D m c) s
    let vxx := D.Dxb.mulVec (s' (.fld .vX))
    let vyy := D.Dyb.mulVec (s' (.fld .vY))
    let vzz := D.Dzb.mulVec (s' (.fld .vZ))
    s' (.fld .vX) = (fun i => s (.fld .vX) i + (D.Dxf.mulVec (s (.fld .Sxx)) i +
      (D.Dyb.mulVec (s (.fld .Sxy)) i + D.Dzb.mulVec (s (.fld .Sxz)) i)) * m.invRhoX i) ∧
    s' (.fld .vY) = (fun i => s (.fld .vY) i + (D.Dxb.mulVec (s (.fld .Sxy)) i +
      (D.Dyf.mulVec (s (.fld .Syy)) i + D.Dzb.mulVec (s (.fld .Syz)) i)) * m.invRhoY i) ∧
    s' (.fld .vZ) = (fun i => s (.fld .vZ) i + (D.Dxb.mulVec (s (.fld .Sxz)) i +
      (D.Dyb.mulVec (s (.fld .Syz)) i + D.Dzf.mulVec (s (.fld .Szz)) i)) * m.invRhoZ i) ∧
    s' (.fld .Sxx) = (fun i => s (.fld .Sxx) i + ((vxx i + (vyy i + vzz i)) * m.pMod i +
        (-(2 * ((vyy i + vzz i) * m.sMod i))))) ∧
    s' (.fld .Syy) = (fun i => s (.fld .Syy) i + ((vxx i + (vyy i + vzz i)) * m.pMod i +
        (-(2 * ((vxx i + vzz i) * m.sMod i))))) ∧
    s' (.fld .Szz) = (fun i => s (.fld .Szz) i + ((vxx i + (vyy i + vzz i)) * m.pMod i +
        (-(2 * ((vxx i + vyy i) * m.sMod i))))) ∧
    s' (.fld .Sxy) = (fun i => s (.fld .Sxy) i + (D.Dyf.mulVec (s' (.fld .vX)) i +
      D.Dxf.mulVec (s' (.fld .vY)) i) * m.sModXY i) ∧
    s' (.fld .Sxz) = (fun i => s (.fld .Sxz) i + (D.Dzf.mulVec (s' (.fld .vX)) i +
      D.Dxf.mulVec (s' (.fld .vZ)) i) * m.sModXZ i) ∧
    s' (.fld .Syz) = (fun i => s (.fld .Syz) i + (D.Dzf.mulVec (s' (.fld .vY)) i +
      D.Dyf.mulVec (s' (.fld .vZ)) i) * m.sModYZ i) := by
  plain_step elastic3D

theorem sh2D_plain :
    let s' := exec (sh2D D m c) s
    s' (.fld .vZ) = (fun i => s (.fld .vZ) i + (D.Dxb.mulVec (s (.fld .Sxz)) i +
      D.Dyb.mulVec (s (.fld .Syz)) i) * m.invRho i) ∧
    s' (.fld .Sxz) = (fun i => s (.fld .Sxz) i + D.Dxf.mulVec (s' (.fld .vZ)) i * m.sModXZ i) ∧
    s' (.fld .Syz) = (fun i => s (.fld .Syz) i + D.Dyf.mulVec (s' (.fld .vZ)) i * m.sModYZ i) := by
  plain_step sh2D

theorem emem2D_plain :
    let s' := exec (emem2D D e c) s
    s' (.fld .hZ) = (fun i => s (.fld .hZ) i + -((D.Dxf.mulVec (s (.fld .eY)) i +
      -D.Dyf.mulVec (s (.fld .eX)) i) * e.invMuXY i)) ∧
    s' (.fld .eX) = (fun i => e.ca .x i * s (.fld .eX) i +
      D.Dyb.mulVec (s' (.fld .hZ)) i * e.cb .x i) ∧
    s' (.fld .eY) = (fun i => e.ca .y i * s (.fld .eY) i +
      -(D.Dxb.mulVec (s' (.fld .hZ)) i * e.cb .y i)) := by
  plain_step emem2D

theorem tmem2D_plain :
    let s' := exec (tmem2D D e c) s
    s' (.fld .hX) = (fun i => s (.fld .hX) i + -(D.Dyf.mulVec (s (.fld .eZ)) i * e.invMuYZ i)) ∧
    s' (.fld .hY) = (fun i => s (.fld .hY) i + D.Dxf.mulVec (s (.fld .eZ)) i * e.invMuXZ i) ∧
    s' (.fld .eZ) = (fun i => e.ca .z i * s (.fld .eZ) i +
      (D.Dxb.mulVec (s' (.fld .hY)) i + -D.Dyb.mulVec (s' (.fld .hX)) i) * e.cb .z i) := by
  plain_step tmem2D

theorem emem3D_plain :
    let s' := exec (emem3D D e c) s
    s' (.fld .hX) = (fun i => s (.fld .hX) i + -((D.Dyf.mulVec (s (.fld .eZ)) i +
      -D.Dzf.mulVec (s (.fld .eY)) i) * e.invMuYZ i)) ∧
    s' (.fld .hY) = (fun i => s (.fld .hY) i + -((D.Dzf.mulVec (s (.fld .eX)) i +
      -D.Dxf.mulVec (s (.fld .eZ)) i) * e.invMuXZ i)) ∧
    s' (.fld .hZ) = (fun i => s (.fld .hZ) i + -((D.Dxf.mulVec (s (.fld .eY)) i +
      -D.Dyf.mulVec (s (.fld .eX)) i) * e.invMuXY i)) ∧
    s' (.fld .eX) = (fun i => e.ca .x i * s (.fld .eX) i +
      (D.Dyb.mulVec (s' (.fld .hZ)) i + -D.Dzb.mulVec (s' (.fld .hY)) i) * e.cb .x i) ∧
    s' (.fld .eY) = (fun i => e.ca .y i * s (.fld .eY) i +
      (D.Dzb.mulVec (s' (.fld .hX)) i + -D.Dxb.mulVec (s' (.fld .hZ)) i) * e.cb .y i) ∧
    s' (.fld .eZ) = (fun i => e.ca .z i * s (.fld .eZ) i +
      (D.Dxb.mulVec (s' (.fld .hY)) i + -D.Dyb.mulVec (s' (.fld .hX)) i) * e.cb .z i) := by
  plain_step emem3D
end

end Verif.Solver
