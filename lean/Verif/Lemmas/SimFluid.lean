import Verif.Lemmas.SimEM
/-! The elastic solvers without shear modulus and the acoustic solvers in parallel. -/
set_option linter.dupNamespace false
set_option linter.unusedSectionVars false
set_option linter.unnecessarySeqFocus false

namespace Verif.Solver
open Matrix

variable {ι : Type} [Fintype ι]

/-- The elastic state `s` carries the acoustic state `t`: the normal stresses are the pressure, the
shear stress is zero. -/
structure Fluid2D (c : BC ι) (s t : State ι) : Prop where
  vX : s (.fld .vX) = t (.fld .vX)
  vY : s (.fld .vY) = t (.fld .vY)
  Sxx : s (.fld .Sxx) = t (.fld .p)
  Syy : s (.fld .Syy) = t (.fld .p)
  Sxy : s (.fld .Sxy) = 0
  vXx : s (.psi .vX .x) = t (.psi .vX .x)
  vYy : s (.psi .vY .y) = t (.psi .vY .y)
  Sxxx : s (.psi .Sxx .x) = t (.psi .p .x)
  Syyy : s (.psi .Syy .y) = t (.psi .p .y)
  Sxyx : s (.psi .Sxy .x) = 0
  Sxyy : s (.psi .Sxy .y) = 0
  surf : c.useFreeSurface = 1 → ∀ i, c.onSurface i = true → t (.fld .p) i = 0

theorem fluid2D_velocity (D : Deriv ι) (m : Mod ι) (c : BC ι) (s t : State ι)
    (h : Fluid2D c s t) (M1 : Matrix ι ι ℝ) :
    Fluid2D c (exec (List.flatten [
      [.mul U D.Dxf (.fld .Sxx)], cpmlHalf c U .Sxx .x,
      [.mul UT M1 (.fld .Sxy)], cpmlFull c UT .Sxy .y,
      [.add U UT, .scale U m.invRhoX, .add (.fld .vX) U],
      [.mul U D.Dxb (.fld .Sxy)], cpmlFull c U .Sxy .x,
      [.mul UT (selFS c D.DyfFS D.Dyf) (.fld .Syy)], cpmlHalf c UT .Syy .y,
      [.add U UT, .scale U m.invRhoY, .add (.fld .vY) U]]) s)
    (exec (List.flatten [
      [.mul U D.Dxf (.fld .p)], cpmlHalf c U .p .x,
      [.scale U m.invRhoX, .add (.fld .vX) U],
      [.mul U (selFS c D.DyfFS D.Dyf) (.fld .p)], cpmlHalf c U .p .y,
      [.scale U m.invRhoY, .add (.fld .vY) U]]) t) := by
  obtain ⟨h1, h2, h3, h4, h5, h6, h7, h8, h9, h10, h11, h12⟩ := h
  unfold cpmlHalf cpmlFull
  cases c.pml with
  | none =>
    constructor <;> (try funext i) <;>
      simp [Stmt.exec, State.set, h1, h2, h3, h4, h5, h6, h7, h8, h9, h10, h11] <;> assumption
  | some q =>
    constructor <;> (try funext i) <;>
      simp [Stmt.exec, State.set, h1, h2, h3, h4, h5, h6, h7, h8, h9, h10, h11,
        Boundary.applyCPML] <;> assumption

/-- As `Fluid2D` after the update of the stresses and before the free surface. -/
structure FluidB2D (m : Mod ι) (c : BC ι) (s t : State ι) : Prop where
  vX : s (.fld .vX) = t (.fld .vX)
  vY : s (.fld .vY) = t (.fld .vY)
  Sxx : s (.fld .Sxx) = t (.fld .p)
  Syy : s (.fld .Syy) = t (.fld .p)
  Sxy : s (.fld .Sxy) = 0
  vXx : s (.psi .vX .x) = t (.psi .vX .x)
  vYy : s (.psi .vY .y) = t (.psi .vY .y)
  Sxxx : s (.psi .Sxx .x) = t (.psi .p .x)
  Syyy : s (.psi .Syy .y) = t (.psi .p .y)
  Sxyx : s (.psi .Sxy .x) = 0
  Sxyy : s (.psi .Sxy .y) = 0
  surf : c.useFreeSurface = 1 → ∀ i, c.onSurface i = true →
    t (.fld .p) i = (s Vxx i + s Vyy i) * m.pMod i

theorem fluid2D_stress (D : Deriv ι) (m : Mod ι) (c : BC ι) (s t : State ι)
    (h : Fluid2D c s t) (hs : ∀ i, m.sMod i = 0) (hXY : ∀ i, m.sModXY i = 0) :
    FluidB2D m c (exec (List.flatten [
      [.mul Vxx D.Dxb (.fld .vX), .mul Vyy D.Dyb (.fld .vY)],
      cpmlFull c Vxx .vX .x, cpmlFull c Vyy .vY .y,
      [.copy U Vxx, .add U Vyy, .scale U m.pMod, .add (.fld .Sxx) U, .add (.fld .Syy) U,
       .copy U Vyy, .scale U m.sMod, .axpy (.fld .Sxx) (-2) U,
       .copy U Vxx, .scale U m.sMod, .axpy (.fld .Syy) (-2) U],
      [.mul U D.Dyf (.fld .vX)], cpmlHalf c U .vX .y,
      [.mul UT D.Dxf (.fld .vY)], cpmlHalf c UT .vY .x,
      [.add U UT, .scale U m.sModXY, .add (.fld .Sxy) U]]) s)
    (exec (List.flatten [
      [.mul U D.Dxb (.fld .vX)], cpmlFull c U .vX .x,
      [.mul UT D.Dyb (.fld .vY)], cpmlFull c UT .vY .y,
      [.add U UT, .scale U m.pMod, .add (.fld .p) U]]) t) := by
  obtain ⟨h1, h2, h3, h4, h5, h6, h7, h8, h9, h10, h11, h12⟩ := h
  unfold cpmlHalf cpmlFull
  cases c.pml with
  | none =>
    constructor <;> (try funext i) <;>
      simp [Stmt.exec, State.set, h1, h2, h3, h4, h5, h6, h7, h8, h9, h10, h11, hs, hXY] <;>
      assumption
  | some q =>
    constructor <;> (try funext i) <;>
      simp [Stmt.exec, State.set, h1, h2, h3, h4, h5, h6, h7, h8, h9, h10, h11, hs, hXY,
        Boundary.applyCPML] <;> assumption

theorem fluid2D_boundary (m : Mod ι) (c : BC ι) (s t : State ι)
    (h : FluidB2D m c s t) (hs : ∀ i, m.sMod i = 0) :
    Fluid2D c (exec (ifFS c (exchange2D m c Vxx ++ surfaceZero c (.fld .Syy)) ++
      damp c [.Sxx, .Syy, .Sxy, .vX, .vY]) s)
    (exec (damp c [.p, .vX, .vY] ++ ifFS c (surfaceZero c (.fld .p))) t) := by
  obtain ⟨h1, h2, h3, h4, h5, h6, h7, h8, h9, h10, h11, h12⟩ := h
  unfold ifFS
  by_cases hfs : c.useFreeSurface = 1
  · rw [if_pos hfs, if_pos hfs]
    have hx : ∀ i, t (.fld .p) i + -(c.select i * m.pMod i * s Vxx i) -
        c.select i * m.pMod i * s Vyy i = t (.fld .p) i * c.setZero i := by
      intro i
      by_cases hi : c.onSurface i = true
      · simp only [BC.select, BC.setZero, hi, if_true]
        rw [h12 hfs i hi]
        ring
      · simp [BC.select, BC.setZero, hi]
    have hz : ∀ i, c.onSurface i = true → c.setZero i = 0 := fun i hi => by
      simp [BC.setZero, hi]
    unfold damp
    cases c.damping with
    | none =>
      constructor <;> (try funext i) <;>
        simp [Stmt.exec, State.set, surfaceZero, exchange2D, scaleHor, scaleVert, h1, h2, h3, h4,
          h5, h6, h7, h8, h9, h10, h11, hs, hx]
      · exact fun _ i hi => .inr (hz i hi)
    | some w =>
      constructor <;> (try funext i) <;>
        simp [Stmt.exec, State.set, surfaceZero, exchange2D, scaleHor, scaleVert, h1, h2, h3, h4,
          h5, h6, h7, h8, h9, h10, h11, hs, hx]
      · ring
      · ring
      · exact fun _ i hi => .inr (hz i hi)
  · rw [if_neg hfs, if_neg hfs]
    unfold damp
    cases c.damping with
    | none =>
      constructor <;> (try funext i) <;>
        simp [h1, h2, h3, h4, h5, h6, h7, h8, h9, h10, h11]
      · exact fun h => absurd h hfs
    | some w =>
      constructor <;> (try funext i) <;>
        simp [Stmt.exec, State.set, h1, h2, h3, h4, h5, h6, h7, h8, h9, h10, h11]
      · exact fun h => absurd h hfs

theorem fluid2D_step (D : Deriv ι) (m : Mod ι) (c : BC ι)
    (hD : D.interFull = none ∧ D.interSX = none ∧ D.DyfSX = D.Dyf) (s t : State ι)
    (h : Fluid2D c s t) (hs : ∀ i, m.sMod i = 0) (hXY : ∀ i, m.sModXY i = 0) :
    Fluid2D c (exec (elastic2D D m c) s) (exec (acoustic2D D m c) t) := by
  obtain ⟨d1, d2, d3⟩ := hD
  have h1 := fluid2D_boundary m c _ _ (fluid2D_stress D m c _ _
    (fluid2D_velocity D m c s t h (selFS c D.DybSXFS D.DybSX)) hs hXY) hs
  have e1 : elastic2D D m c = List.flatten [
      [.mul U D.Dxf (.fld .Sxx)], cpmlHalf c U .Sxx .x,
      [.mul UT (selFS c D.DybSXFS D.DybSX) (.fld .Sxy)], cpmlFull c UT .Sxy .y,
      [.add U UT, .scale U m.invRhoX, .add (.fld .vX) U],
      [.mul U D.Dxb (.fld .Sxy)], cpmlFull c U .Sxy .x,
      [.mul UT (selFS c D.DyfFS D.Dyf) (.fld .Syy)], cpmlHalf c UT .Syy .y,
      [.add U UT, .scale U m.invRhoY, .add (.fld .vY) U]] ++ (List.flatten [
      [.mul Vxx D.Dxb (.fld .vX), .mul Vyy D.Dyb (.fld .vY)],
      cpmlFull c Vxx .vX .x, cpmlFull c Vyy .vY .y,
      [.copy U Vxx, .add U Vyy, .scale U m.pMod, .add (.fld .Sxx) U, .add (.fld .Syy) U,
       .copy U Vyy, .scale U m.sMod, .axpy (.fld .Sxx) (-2) U,
       .copy U Vxx, .scale U m.sMod, .axpy (.fld .Syy) (-2) U],
      [.mul U D.Dyf (.fld .vX)], cpmlHalf c U .vX .y,
      [.mul UT D.Dxf (.fld .vY)], cpmlHalf c UT .vY .x,
      [.add U UT, .scale U m.sModXY, .add (.fld .Sxy) U]] ++
      (ifFS c (exchange2D m c Vxx ++ surfaceZero c (.fld .Syy)) ++
      damp c [.Sxx, .Syy, .Sxy, .vX, .vY])) := by
    simp [elastic2D, d1, d2, d3, interp]
  have e2 : acoustic2D D m c = List.flatten [
      [.mul U D.Dxf (.fld .p)], cpmlHalf c U .p .x,
      [.scale U m.invRhoX, .add (.fld .vX) U],
      [.mul U (selFS c D.DyfFS D.Dyf) (.fld .p)], cpmlHalf c U .p .y,
      [.scale U m.invRhoY, .add (.fld .vY) U]] ++ (List.flatten [
      [.mul U D.Dxb (.fld .vX)], cpmlFull c U .vX .x,
      [.mul UT D.Dyb (.fld .vY)], cpmlFull c UT .vY .y,
      [.add U UT, .scale U m.pMod, .add (.fld .p) U]] ++
      (damp c [.p, .vX, .vY] ++ ifFS c (surfaceZero c (.fld .p)))) := by
    simp [acoustic2D, d1, d2, interp]
  rw [e1, e2, exec_append, exec_append, exec_append (List.flatten _) _ t,
    exec_append (List.flatten _) _ (exec _ t)]
  exact h1

/-- The three-dimensional version of `Fluid2D`. -/
structure Fluid3D (c : BC ι) (s t : State ι) : Prop where
  vX : s (.fld .vX) = t (.fld .vX)
  vY : s (.fld .vY) = t (.fld .vY)
  vZ : s (.fld .vZ) = t (.fld .vZ)
  Sxx : s (.fld .Sxx) = t (.fld .p)
  Syy : s (.fld .Syy) = t (.fld .p)
  Szz : s (.fld .Szz) = t (.fld .p)
  Sxy : s (.fld .Sxy) = 0
  Sxz : s (.fld .Sxz) = 0
  Syz : s (.fld .Syz) = 0
  vXx : s (.psi .vX .x) = t (.psi .vX .x)
  vYy : s (.psi .vY .y) = t (.psi .vY .y)
  vZz : s (.psi .vZ .z) = t (.psi .vZ .z)
  Sxxx : s (.psi .Sxx .x) = t (.psi .p .x)
  Syyy : s (.psi .Syy .y) = t (.psi .p .y)
  Szzz : s (.psi .Szz .z) = t (.psi .p .z)
  Sxyx : s (.psi .Sxy .x) = 0
  Sxyy : s (.psi .Sxy .y) = 0
  Sxzx : s (.psi .Sxz .x) = 0
  Sxzz : s (.psi .Sxz .z) = 0
  Syzy : s (.psi .Syz .y) = 0
  Syzz : s (.psi .Syz .z) = 0
  surf : c.useFreeSurface = 1 → ∀ i, c.onSurface i = true → t (.fld .p) i = 0

/-- The three-dimensional version of `FluidB2D`. -/
structure FluidB3D (m : Mod ι) (c : BC ι) (s t : State ι) : Prop where
  vX : s (.fld .vX) = t (.fld .vX)
  vY : s (.fld .vY) = t (.fld .vY)
  vZ : s (.fld .vZ) = t (.fld .vZ)
  Sxx : s (.fld .Sxx) = t (.fld .p)
  Syy : s (.fld .Syy) = t (.fld .p)
  Szz : s (.fld .Szz) = t (.fld .p)
  Sxy : s (.fld .Sxy) = 0
  Sxz : s (.fld .Sxz) = 0
  Syz : s (.fld .Syz) = 0
  vXx : s (.psi .vX .x) = t (.psi .vX .x)
  vYy : s (.psi .vY .y) = t (.psi .vY .y)
  vZz : s (.psi .vZ .z) = t (.psi .vZ .z)
  Sxxx : s (.psi .Sxx .x) = t (.psi .p .x)
  Syyy : s (.psi .Syy .y) = t (.psi .p .y)
  Szzz : s (.psi .Szz .z) = t (.psi .p .z)
  Sxyx : s (.psi .Sxy .x) = 0
  Sxyy : s (.psi .Sxy .y) = 0
  Sxzx : s (.psi .Sxz .x) = 0
  Sxzz : s (.psi .Sxz .z) = 0
  Syzy : s (.psi .Syz .y) = 0
  Syzz : s (.psi .Syz .z) = 0
  surf : c.useFreeSurface = 1 → ∀ i, c.onSurface i = true →
    t (.fld .p) i = (s Vxx i + s Vyy i + s Vzz i) * m.pMod i

theorem fluid3D_velocity (D : Deriv ι) (m : Mod ι) (c : BC ι) (s t : State ι)
    (h : Fluid3D c s t) (M1 M2 : Matrix ι ι ℝ) :
    Fluid3D c (exec (List.flatten [
      [.mul U D.Dxf (.fld .Sxx)], cpmlHalf c U .Sxx .x,
      [.mul UT M1 (.fld .Sxy)], cpmlFull c UT .Sxy .y,
      [.add U UT, .mul UT D.Dzb (.fld .Sxz)], cpmlFull c UT .Sxz .z,
      [.add U UT, .scale U m.invRhoX, .add (.fld .vX) U],
      [.mul U D.Dxb (.fld .Sxy)], cpmlFull c U .Sxy .x,
      [.mul UT (selFS c D.DyfFS D.Dyf) (.fld .Syy)], cpmlHalf c UT .Syy .y,
      [.add U UT, .mul UT D.Dzb (.fld .Syz)], cpmlFull c UT .Syz .z,
      [.add U UT, .scale U m.invRhoY, .add (.fld .vY) U],
      [.mul U D.Dxb (.fld .Sxz)], cpmlFull c U .Sxz .x,
      [.mul UT M2 (.fld .Syz)], cpmlFull c UT .Syz .y,
      [.add U UT, .mul UT D.Dzf (.fld .Szz)], cpmlHalf c UT .Szz .z,
      [.add U UT, .scale U m.invRhoZ, .add (.fld .vZ) U]]) s)
    (exec (List.flatten [
      [.mul U D.Dxf (.fld .p)], cpmlHalf c U .p .x,
      [.scale U m.invRhoX, .add (.fld .vX) U],
      [.mul U (selFS c D.DyfFS D.Dyf) (.fld .p)], cpmlHalf c U .p .y,
      [.scale U m.invRhoY, .add (.fld .vY) U],
      [.mul U D.Dzf (.fld .p)], cpmlHalf c U .p .z,
      [.scale U m.invRhoZ, .add (.fld .vZ) U]]) t) := by
  obtain ⟨h1, h2, h3, h4, h5, h6, h7, h8, h9, h10, h11, h12, h13, h14, h15, h16, h17, h18, h19, h20,
    h21, h22⟩ := h
  unfold cpmlHalf cpmlFull
  cases c.pml with
  | none =>
    constructor <;> (try funext i) <;>
      simp [Stmt.exec, State.set, h1, h2, h3, h4, h5, h6, h7, h8, h9, h10, h11, h12, h13, h14, h15,
        h16, h17, h18, h19, h20, h21] <;> assumption
  | some q =>
    constructor <;> (try funext i) <;>
      simp [Stmt.exec, State.set, h1, h2, h3, h4, h5, h6, h7, h8, h9, h10, h11, h12, h13, h14, h15,
        h16, h17, h18, h19, h20, h21, Boundary.applyCPML] <;> assumption

set_option maxHeartbeats 1000000 in
theorem fluid3D_stress (D : Deriv ι) (m : Mod ι) (c : BC ι) (s t : State ι)
    (h : Fluid3D c s t) (hs : ∀ i, m.sMod i = 0) (hXY : ∀ i, m.sModXY i = 0)
    (hXZ : ∀ i, m.sModXZ i = 0) (hYZ : ∀ i, m.sModYZ i = 0) :
    FluidB3D m c (exec (List.flatten [
      [.mul Vxx D.Dxb (.fld .vX), .mul Vyy D.Dyb (.fld .vY), .mul Vzz D.Dzb (.fld .vZ)],
      cpmlFull c Vxx .vX .x, cpmlFull c Vyy .vY .y, cpmlFull c Vzz .vZ .z,
      [.copy U Vxx, .add U Vyy, .add U Vzz, .scale U m.pMod,
       .add (.fld .Sxx) U, .add (.fld .Syy) U, .add (.fld .Szz) U,
       .sum U Vyy Vzz, .scale U m.sMod, .axpy (.fld .Sxx) (-2) U,
       .sum U Vxx Vzz, .scale U m.sMod, .axpy (.fld .Syy) (-2) U,
       .sum U Vxx Vyy, .scale U m.sMod, .axpy (.fld .Szz) (-2) U],
      [.mul U D.Dyf (.fld .vX)], cpmlHalf c U .vX .y,
      [.mul UT D.Dxf (.fld .vY)], cpmlHalf c UT .vY .x,
      [.add U UT, .scale U m.sModXY, .add (.fld .Sxy) U],
      [.mul U D.Dzf (.fld .vX)], cpmlHalf c U .vX .z,
      [.mul UT D.Dxf (.fld .vZ)], cpmlHalf c UT .vZ .x,
      [.add U UT, .scale U m.sModXZ, .add (.fld .Sxz) U],
      [.mul U D.Dzf (.fld .vY)], cpmlHalf c U .vY .z,
      [.mul UT D.Dyf (.fld .vZ)], cpmlHalf c UT .vZ .y,
      [.add U UT, .scale U m.sModYZ, .add (.fld .Syz) U]]) s)
    (exec (List.flatten [
      [.mul U D.Dxb (.fld .vX)], cpmlFull c U .vX .x,
      [.mul UT D.Dyb (.fld .vY)], cpmlFull c UT .vY .y,
      [.add U UT],
      [.mul UT D.Dzb (.fld .vZ)], cpmlFull c UT .vZ .z,
      [.add U UT, .scale U m.pMod, .add (.fld .p) U]]) t) := by
  obtain ⟨h1, h2, h3, h4, h5, h6, h7, h8, h9, h10, h11, h12, h13, h14, h15, h16, h17, h18, h19, h20,
    h21, h22⟩ := h
  unfold cpmlHalf cpmlFull
  cases c.pml with
  | none =>
    constructor <;> (try funext i) <;>
      simp [Stmt.exec, State.set, h1, h2, h3, h4, h5, h6, h7, h8, h9, h10, h11, h12, h13, h14, h15,
        h16, h17, h18, h19, h20, h21, hs, hXY, hXZ, hYZ] <;> assumption
  | some q =>
    constructor <;> (try funext i) <;>
      simp [Stmt.exec, State.set, h1, h2, h3, h4, h5, h6, h7, h8, h9, h10, h11, h12, h13, h14, h15,
        h16, h17, h18, h19, h20, h21, hs, hXY, hXZ, hYZ, Boundary.applyCPML] <;> assumption

theorem fluid3D_boundary (m : Mod ι) (c : BC ι) (s t : State ι)
    (h : FluidB3D m c s t) (hs : ∀ i, m.sMod i = 0) :
    Fluid3D c (exec (ifFS c ([.sum U Vxx Vzz] ++ surfaceZero c (.fld .Syy) ++ exchange3D m c U) ++
      damp c [.Sxx, .Syy, .Szz, .Sxy, .Sxz, .Syz, .vX, .vY, .vZ]) s)
    (exec (damp c [.p, .vX, .vY, .vZ] ++ ifFS c (surfaceZero c (.fld .p))) t) := by
  obtain ⟨h1, h2, h3, h4, h5, h6, h7, h8, h9, h10, h11, h12, h13, h14, h15, h16, h17, h18, h19, h20,
    h21, h22⟩ := h
  unfold ifFS
  by_cases hfs : c.useFreeSurface = 1
  · rw [if_pos hfs, if_pos hfs]
    have hx : ∀ i, t (.fld .p) i + -(c.select i * m.pMod i * (s Vxx i + s Vzz i)) -
        c.select i * m.pMod i * s Vyy i = t (.fld .p) i * c.setZero i := by
      intro i
      by_cases hi : c.onSurface i = true
      · simp only [BC.select, BC.setZero, hi, if_true]
        rw [h22 hfs i hi]
        ring
      · simp [BC.select, BC.setZero, hi]
    have hz : ∀ i, c.onSurface i = true → c.setZero i = 0 := fun i hi => by
      simp [BC.setZero, hi]
    unfold damp
    cases c.damping with
    | none =>
      constructor <;> (try funext i) <;>
        simp [Stmt.exec, State.set, surfaceZero, exchange3D, scaleHor, scaleVert, h1, h2, h3, h4,
          h5, h6, h7, h8, h9, h10, h11, h12, h13, h14, h15, h16, h17, h18, h19, h20, h21, hs, hx]
      · exact fun _ i hi => .inr (hz i hi)
    | some w =>
      constructor <;> (try funext i) <;>
        simp [Stmt.exec, State.set, surfaceZero, exchange3D, scaleHor, scaleVert, h1, h2, h3, h4,
          h5, h6, h7, h8, h9, h10, h11, h12, h13, h14, h15, h16, h17, h18, h19, h20, h21, hs, hx]
      · ring
      · ring
      · ring
      · exact fun _ i hi => .inr (hz i hi)
  · rw [if_neg hfs, if_neg hfs]
    unfold damp
    cases c.damping with
    | none =>
      constructor <;> (try funext i) <;>
        simp [h1, h2, h3, h4, h5, h6, h7, h8, h9, h10, h11, h12, h13, h14, h15, h16, h17, h18, h19,
          h20, h21]
      · exact fun h => absurd h hfs
    | some w =>
      constructor <;> (try funext i) <;>
        simp [Stmt.exec, State.set, h1, h2, h3, h4, h5, h6, h7, h8, h9, h10, h11, h12, h13, h14,
          h15, h16, h17, h18, h19, h20, h21]
      · exact fun h => absurd h hfs

theorem fluid3D_step (D : Deriv ι) (m : Mod ι) (c : BC ι)
    (hD : D.interFull = none ∧ D.interSX = none ∧ D.interSZ = none ∧ D.interSXZ = none ∧
      D.DyfSX = D.Dyf ∧ D.DyfSZ = D.Dyf) (s t : State ι)
    (h : Fluid3D c s t) (hs : ∀ i, m.sMod i = 0) (hXY : ∀ i, m.sModXY i = 0)
    (hXZ : ∀ i, m.sModXZ i = 0) (hYZ : ∀ i, m.sModYZ i = 0) :
    Fluid3D c (exec (elastic3D D m c) s) (exec (acoustic3D D m c) t) := by
  obtain ⟨d1, d2, d3, d4, d5, d6⟩ := hD
  have h1 := fluid3D_boundary m c _ _ (fluid3D_stress D m c _ _
    (fluid3D_velocity D m c s t h (selFS c D.DybSXFS D.DybSX) (selFS c D.DybSZFS D.DybSZ))
    hs hXY hXZ hYZ) hs
  have e1 : elastic3D D m c = List.flatten [
      [.mul U D.Dxf (.fld .Sxx)], cpmlHalf c U .Sxx .x,
      [.mul UT (selFS c D.DybSXFS D.DybSX) (.fld .Sxy)], cpmlFull c UT .Sxy .y,
      [.add U UT, .mul UT D.Dzb (.fld .Sxz)], cpmlFull c UT .Sxz .z,
      [.add U UT, .scale U m.invRhoX, .add (.fld .vX) U],
      [.mul U D.Dxb (.fld .Sxy)], cpmlFull c U .Sxy .x,
      [.mul UT (selFS c D.DyfFS D.Dyf) (.fld .Syy)], cpmlHalf c UT .Syy .y,
      [.add U UT, .mul UT D.Dzb (.fld .Syz)], cpmlFull c UT .Syz .z,
      [.add U UT, .scale U m.invRhoY, .add (.fld .vY) U],
      [.mul U D.Dxb (.fld .Sxz)], cpmlFull c U .Sxz .x,
      [.mul UT (selFS c D.DybSZFS D.DybSZ) (.fld .Syz)], cpmlFull c UT .Syz .y,
      [.add U UT, .mul UT D.Dzf (.fld .Szz)], cpmlHalf c UT .Szz .z,
      [.add U UT, .scale U m.invRhoZ, .add (.fld .vZ) U]] ++ (List.flatten [
      [.mul Vxx D.Dxb (.fld .vX), .mul Vyy D.Dyb (.fld .vY), .mul Vzz D.Dzb (.fld .vZ)],
      cpmlFull c Vxx .vX .x, cpmlFull c Vyy .vY .y, cpmlFull c Vzz .vZ .z,
      [.copy U Vxx, .add U Vyy, .add U Vzz, .scale U m.pMod,
       .add (.fld .Sxx) U, .add (.fld .Syy) U, .add (.fld .Szz) U,
       .sum U Vyy Vzz, .scale U m.sMod, .axpy (.fld .Sxx) (-2) U,
       .sum U Vxx Vzz, .scale U m.sMod, .axpy (.fld .Syy) (-2) U,
       .sum U Vxx Vyy, .scale U m.sMod, .axpy (.fld .Szz) (-2) U],
      [.mul U D.Dyf (.fld .vX)], cpmlHalf c U .vX .y,
      [.mul UT D.Dxf (.fld .vY)], cpmlHalf c UT .vY .x,
      [.add U UT, .scale U m.sModXY, .add (.fld .Sxy) U],
      [.mul U D.Dzf (.fld .vX)], cpmlHalf c U .vX .z,
      [.mul UT D.Dxf (.fld .vZ)], cpmlHalf c UT .vZ .x,
      [.add U UT, .scale U m.sModXZ, .add (.fld .Sxz) U],
      [.mul U D.Dzf (.fld .vY)], cpmlHalf c U .vY .z,
      [.mul UT D.Dyf (.fld .vZ)], cpmlHalf c UT .vZ .y,
      [.add U UT, .scale U m.sModYZ, .add (.fld .Syz) U]] ++
      (ifFS c ([.sum U Vxx Vzz] ++ surfaceZero c (.fld .Syy) ++ exchange3D m c U) ++
      damp c [.Sxx, .Syy, .Szz, .Sxy, .Sxz, .Syz, .vX, .vY, .vZ])) := by
    simp [elastic3D, d1, d2, d3, d4, d5, d6, interp]
  have e2 : acoustic3D D m c = List.flatten [
      [.mul U D.Dxf (.fld .p)], cpmlHalf c U .p .x,
      [.scale U m.invRhoX, .add (.fld .vX) U],
      [.mul U (selFS c D.DyfFS D.Dyf) (.fld .p)], cpmlHalf c U .p .y,
      [.scale U m.invRhoY, .add (.fld .vY) U],
      [.mul U D.Dzf (.fld .p)], cpmlHalf c U .p .z,
      [.scale U m.invRhoZ, .add (.fld .vZ) U]] ++ (List.flatten [
      [.mul U D.Dxb (.fld .vX)], cpmlFull c U .vX .x,
      [.mul UT D.Dyb (.fld .vY)], cpmlFull c UT .vY .y,
      [.add U UT],
      [.mul UT D.Dzb (.fld .vZ)], cpmlFull c UT .vZ .z,
      [.add U UT, .scale U m.pMod, .add (.fld .p) U]] ++
      (damp c [.p, .vX, .vY, .vZ] ++ ifFS c (surfaceZero c (.fld .p)))) := by
    simp [acoustic3D, d1, d2, d3, interp]
  rw [e1, e2, exec_append, exec_append, exec_append (List.flatten _) _ t,
    exec_append (List.flatten _) _ (exec _ t)]
  exact h1

end Verif.Solver
