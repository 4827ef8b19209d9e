import Verif.Model.Solver
/-!
# The seismic forward solvers

One definition per `run` function, one list element per LAMA statement.
-/
set_option linter.dupNamespace false

namespace Verif.Solver
open Matrix

variable {ι : Type} [Fintype ι]

/-- Model parameters read by the seismic solvers (Modelparameter.hpp getters), after
`prepareForModelling`. `L` is the number of relaxation mechanisms, `relaxTime l` the relaxation time
`1 / (2 π f_l)`. -/
structure Mod (ι : Type) where
  invRho : ι → ℝ
  invRhoX : ι → ℝ
  invRhoY : ι → ℝ
  invRhoZ : ι → ℝ
  pMod : ι → ℝ
  sMod : ι → ℝ
  sModXY : ι → ℝ
  sModXZ : ι → ℝ
  sModYZ : ι → ℝ
  tauP : ι → ℝ
  tauS : ι → ℝ
  tauSXY : ι → ℝ
  tauSXZ : ι → ℝ
  tauSYZ : ι → ℝ
  L : ℕ
  relaxTime : ℕ → ℝ
  DT : ℝ

namespace Mod
variable (m : Mod ι)

/-- `inverseRelaxationTime[l]`, ForwardSolver2Dviscoelastic.cpp:57. -/
noncomputable def invRelax (l : ℕ) : ℝ := 1 / m.relaxTime l
/-- `viscoCoeff1[l]`, ForwardSolver2Dviscoelastic.cpp:58. -/
noncomputable def vc1 (l : ℕ) : ℝ := 1 - m.DT / (2 * m.relaxTime l)
/-- `viscoCoeff2[l]`, ForwardSolver2Dviscoelastic.cpp:59. -/
noncomputable def vc2 (l : ℕ) : ℝ := 1 / (1 + m.DT / (2 * m.relaxTime l))
/-- `DThalf`, ForwardSolver2Dviscoelastic.cpp:61. -/
noncomputable def DThalf : ℝ := m.DT / 2
/-- `onePlusLtauP`, ForwardSolver2Dviscoelastic.cpp (prepareForModelling). -/
noncomputable def onePlusLtauP (i : ι) : ℝ := 1 + (m.L : ℝ) * m.tauP i
/-- `onePlusLtauS`, ForwardSolver2Dviscoelastic.cpp (prepareForModelling). -/
noncomputable def onePlusLtauS (i : ι) : ℝ := 1 + (m.L : ℝ) * m.tauS i
end Mod

section
variable (f : Fld)
/-- `update` -/
abbrev U : Var := .scr .update
/-- `update_temp` -/
abbrev UT : Var := .scr .updateTemp
/-- `update2` -/
abbrev U2 : Var := .scr .update2
/-- `vxx` -/
abbrev Vxx : Var := .scr .vxx
/-- `vyy` -/
abbrev Vyy : Var := .scr .vyy
/-- `vzz` -/
abbrev Vzz : Var := .scr .vzz
/-- `temp` of the free surface classes -/
abbrev TMP : Var := .scr .temp
end

/-- `setSurfaceZero`, FreeSurface2Dacoustic.cpp / FreeSurfaceElastic.hpp: multiply by
`setZeroFreeSurface`. -/
def surfaceZero (c : BC ι) (v : Var) : List (Stmt ι) := [.scale v c.setZero]

/-- Statements executed if `useFreeSurface == 1`. -/
def ifFS (c : BC ι) (p : List (Stmt ι)) : List (Stmt ι) := if c.useFreeSurface = 1 then p else []

/-- `useFreeSurface == 1 ? D1 : D0` -/
def selFS (c : BC ι) (D1 D0 : Matrix ι ι ℝ) : Matrix ι ι ℝ := if c.useFreeSurface = 1 then D1 else D0

/-! ### Acoustic -/

/-- `FD2Dacoustic::run`, ForwardSolver2Dacoustic.cpp:91-194. -/
def acoustic2D (D : Deriv ι) (m : Mod ι) (c : BC ι) : List (Stmt ι) :=
  List.flatten [
  [.mul U D.Dxf (.fld .p)], cpmlHalf c U .p .x,
  [.scale U m.invRhoX, .add (.fld .vX) U], interp D.interSX .vX,
  [.mul U (selFS c D.DyfFS D.Dyf) (.fld .p)], cpmlHalf c U .p .y,
  [.scale U m.invRhoY, .add (.fld .vY) U], interp D.interFull .vY,
  [.mul U D.Dxb (.fld .vX)], cpmlFull c U .vX .x,
  [.mul UT D.Dyb (.fld .vY)], cpmlFull c UT .vY .y,
  [.add U UT, .scale U m.pMod, .add (.fld .p) U],
  damp c [.p, .vX, .vY],
  interp D.interFull .p,
  ifFS c (surfaceZero c (.fld .p))]

/-- `FD3Dacoustic::run`, ForwardSolver3Dacoustic.cpp:91-230. -/
def acoustic3D (D : Deriv ι) (m : Mod ι) (c : BC ι) : List (Stmt ι) :=
  List.flatten [
  [.mul U D.Dxf (.fld .p)], cpmlHalf c U .p .x,
  [.scale U m.invRhoX, .add (.fld .vX) U], interp D.interSX .vX,
  [.mul U (selFS c D.DyfFS D.Dyf) (.fld .p)], cpmlHalf c U .p .y,
  [.scale U m.invRhoY, .add (.fld .vY) U], interp D.interFull .vY,
  [.mul U D.Dzf (.fld .p)], cpmlHalf c U .p .z,
  [.scale U m.invRhoZ, .add (.fld .vZ) U], interp D.interSZ .vZ,
  [.mul U D.Dxb (.fld .vX)], cpmlFull c U .vX .x,
  [.mul UT D.Dyb (.fld .vY)], cpmlFull c UT .vY .y,
  [.add U UT],
  [.mul UT D.Dzb (.fld .vZ)], cpmlFull c UT .vZ .z,
  [.add U UT, .scale U m.pMod, .add (.fld .p) U],
  damp c [.p, .vX, .vY, .vZ],
  interp D.interFull .p,
  ifFS c (surfaceZero c (.fld .p))]

/-! ### Elastic -/

/-- `scaleVerticalUpdate`, FreeSurfaceElastic.cpp:29-46. -/
noncomputable def scaleVert (m : Mod ι) (c : BC ι) (i : ι) : ℝ :=
  c.select i * (m.pMod i - 2 * m.sMod i)

/-- `scaleHorizontalUpdate`, FreeSurfaceElastic.cpp:29-46. -/
noncomputable def scaleHor (m : Mod ι) (c : BC ι) (i : ι) : ℝ :=
  c.select i * ((m.pMod i - 2 * m.sMod i) * (m.pMod i - 2 * m.sMod i) / m.pMod i * (-1))

/-- `exchangeHorizontalUpdate`, FreeSurface2Delastic.cpp:14-46. -/
noncomputable def exchange2D (m : Mod ι) (c : BC ι) (sumHor : Var) : List (Stmt ι) :=
  [.wmul TMP (scaleHor m c) sumHor, .add (.fld .Sxx) TMP,
   .wmul TMP (scaleVert m c) Vyy, .sub (.fld .Sxx) TMP]

/-- `exchangeHorizontalUpdate`, FreeSurface3Delastic.cpp:14-55. -/
noncomputable def exchange3D (m : Mod ι) (c : BC ι) (sumHor : Var) : List (Stmt ι) :=
  [.wmul TMP (scaleHor m c) sumHor, .add (.fld .Sxx) TMP, .add (.fld .Szz) TMP,
   .wmul TMP (scaleVert m c) Vyy, .sub (.fld .Sxx) TMP, .sub (.fld .Szz) TMP]

/-- `FD2Delastic::run`, ForwardSolver2Delastic.cpp:117-294. -/
noncomputable def elastic2D (D : Deriv ι) (m : Mod ι) (c : BC ι) : List (Stmt ι) :=
  List.flatten [
  [.mul U D.Dxf (.fld .Sxx)], cpmlHalf c U .Sxx .x,
  [.mul UT (selFS c D.DybSXFS D.DybSX) (.fld .Sxy)], cpmlFull c UT .Sxy .y,
  [.add U UT, .scale U m.invRhoX, .add (.fld .vX) U], interp D.interSX .vX,
  [.mul U D.Dxb (.fld .Sxy)], cpmlFull c U .Sxy .x,
  [.mul UT (selFS c D.DyfFS D.Dyf) (.fld .Syy)], cpmlHalf c UT .Syy .y,
  [.add U UT, .scale U m.invRhoY, .add (.fld .vY) U], interp D.interFull .vY,
  [.mul Vxx D.Dxb (.fld .vX), .mul Vyy D.Dyb (.fld .vY)],
  cpmlFull c Vxx .vX .x, cpmlFull c Vyy .vY .y,
  [.copy U Vxx, .add U Vyy, .scale U m.pMod, .add (.fld .Sxx) U, .add (.fld .Syy) U,
   .copy U Vyy, .scale U m.sMod, .axpy (.fld .Sxx) (-2) U,
   .copy U Vxx, .scale U m.sMod, .axpy (.fld .Syy) (-2) U],
  interp D.interFull .Sxx, interp D.interFull .Syy,
  [.mul U D.DyfSX (.fld .vX)], cpmlHalf c U .vX .y,
  [.mul UT D.Dxf (.fld .vY)], cpmlHalf c UT .vY .x,
  [.add U UT, .scale U m.sModXY, .add (.fld .Sxy) U], interp D.interSX .Sxy,
  ifFS c (exchange2D m c Vxx ++ surfaceZero c (.fld .Syy)),
  damp c [.Sxx, .Syy, .Sxy, .vX, .vY]]

/-- `FD3Delastic::run`, ForwardSolver3Delastic.cpp:120-414. -/
noncomputable def elastic3D (D : Deriv ι) (m : Mod ι) (c : BC ι) : List (Stmt ι) :=
  List.flatten [
  [.mul U D.Dxf (.fld .Sxx)], cpmlHalf c U .Sxx .x,
  [.mul UT (selFS c D.DybSXFS D.DybSX) (.fld .Sxy)], cpmlFull c UT .Sxy .y,
  [.add U UT, .mul UT D.Dzb (.fld .Sxz)], cpmlFull c UT .Sxz .z,
  [.add U UT, .scale U m.invRhoX, .add (.fld .vX) U], interp D.interSX .vX,
  [.mul U D.Dxb (.fld .Sxy)], cpmlFull c U .Sxy .x,
  [.mul UT (selFS c D.DyfFS D.Dyf) (.fld .Syy)], cpmlHalf c UT .Syy .y,
  [.add U UT, .mul UT D.Dzb (.fld .Syz)], cpmlFull c UT .Syz .z,
  [.add U UT, .scale U m.invRhoY, .add (.fld .vY) U], interp D.interFull .vY,
  [.mul U D.Dxb (.fld .Sxz)], cpmlFull c U .Sxz .x,
  [.mul UT (selFS c D.DybSZFS D.DybSZ) (.fld .Syz)], cpmlFull c UT .Syz .y,
  [.add U UT, .mul UT D.Dzf (.fld .Szz)], cpmlHalf c UT .Szz .z,
  [.add U UT, .scale U m.invRhoZ, .add (.fld .vZ) U], interp D.interSZ .vZ,
  [.mul Vxx D.Dxb (.fld .vX), .mul Vyy D.Dyb (.fld .vY), .mul Vzz D.Dzb (.fld .vZ)],
  cpmlFull c Vxx .vX .x, cpmlFull c Vyy .vY .y, cpmlFull c Vzz .vZ .z,
  [.copy U Vxx, .add U Vyy, .add U Vzz, .scale U m.pMod,
   .add (.fld .Sxx) U, .add (.fld .Syy) U, .add (.fld .Szz) U,
   .sum U Vyy Vzz, .scale U m.sMod, .axpy (.fld .Sxx) (-2) U,
   .sum U Vxx Vzz, .scale U m.sMod, .axpy (.fld .Syy) (-2) U,
   .sum U Vxx Vyy, .scale U m.sMod, .axpy (.fld .Szz) (-2) U],
  interp D.interFull .Sxx, interp D.interFull .Syy, interp D.interFull .Szz,
  [.mul U D.DyfSX (.fld .vX)], cpmlHalf c U .vX .y,
  [.mul UT D.Dxf (.fld .vY)], cpmlHalf c UT .vY .x,
  [.add U UT, .scale U m.sModXY, .add (.fld .Sxy) U], interp D.interSX .Sxy,
  [.mul U D.Dzf (.fld .vX)], cpmlHalf c U .vX .z,
  [.mul UT D.Dxf (.fld .vZ)], cpmlHalf c UT .vZ .x,
  [.add U UT, .scale U m.sModXZ, .add (.fld .Sxz) U], interp D.interSXZ .Sxz,
  [.mul U D.Dzf (.fld .vY)], cpmlHalf c U .vY .z,
  [.mul UT D.DyfSZ (.fld .vZ)], cpmlHalf c UT .vZ .y,
  [.add U UT, .scale U m.sModYZ, .add (.fld .Syz) U],
  interp D.interSZ .Syz, interp D.interSZ .Syz,
  ifFS c ([.sum U Vxx Vzz] ++ surfaceZero c (.fld .Syy) ++ exchange3D m c U),
  damp c [.Sxx, .Syy, .Szz, .Sxy, .Sxz, .Syz, .vX, .vY, .vZ]]

/-! ### SH -/

/-- `FD2Dsh::run`, ForwardSolver2Dsh.cpp:108-193. -/
def sh2D (D : Deriv ι) (m : Mod ι) (c : BC ι) : List (Stmt ι) :=
  List.flatten [
  [.mul U D.Dxb (.fld .Sxz), .mul UT (selFS c D.DybFS D.Dyb) (.fld .Syz)],
  cpmlFull c U .Sxz .x, cpmlFull c UT .Syz .y,
  [.add U UT, .scale U m.invRho, .add (.fld .vZ) U],
  [.mul U D.Dxf (.fld .vZ)], cpmlHalf c U .vZ .x,
  [.scale U m.sModXZ, .add (.fld .Sxz) U],
  [.mul U D.Dyf (.fld .vZ)], cpmlHalf c U .vZ .y,
  [.scale U m.sModYZ, .add (.fld .Syz) U],
  damp c [.Sxz, .Syz, .vZ]]

/-- The relaxation loop of the shear stresses, e.g. ForwardSolver2Dviscosh.cpp:190-203: expects the
elastic increment in `update`, adds the viscoelastic one to the stress `f`. -/
noncomputable def relaxShear (m : Mod ι) (f : Fld) (tau : ι → ℝ) : List (Stmt ι) :=
  forLoop m.L (fun l =>
    [.axpy (.fld f) m.DThalf (.rel f l), .smul (.rel f l) (m.vc1 l),
     .cmul U2 (m.invRelax l) U, .scale U2 tau, .sub (.rel f l) U2,
     .smul (.rel f l) (m.vc2 l), .axpy (.fld f) m.DThalf (.rel f l)]) ++
  [.scale U m.onePlusLtauS, .add (.fld f) U]

/-- `FD2Dviscosh::run`, ForwardSolver2Dviscosh.cpp:126-241. -/
noncomputable def viscosh2D (D : Deriv ι) (m : Mod ι) (c : BC ι) : List (Stmt ι) :=
  List.flatten [
  [.mul U D.Dxb (.fld .Sxz), .mul UT (selFS c D.DybFS D.Dyb) (.fld .Syz)],
  cpmlFull c U .Sxz .x, cpmlFull c UT .Syz .y,
  [.add U UT, .scale U m.invRho, .add (.fld .vZ) U],
  [.mul U D.Dxf (.fld .vZ)], cpmlHalf c U .vZ .x,
  [.scale U m.sModXZ], relaxShear m .Sxz m.tauSXZ,
  [.mul U D.Dyf (.fld .vZ)], cpmlHalf c U .vZ .y,
  [.scale U m.sModYZ], relaxShear m .Syz m.tauSYZ,
  damp c [.Sxz, .Syz, .vZ]]

/-! ### Viscoelastic -/

/-- First half of the relaxation of the normal stresses, ForwardSolver2Dviscoelastic.cpp:219-236,
ForwardSolver3Dviscoelastic.cpp:272-295. -/
noncomputable def relaxNormal (m : Mod ι) (fs : List Fld) : List (Stmt ι) :=
  forLoop m.L (fun l =>
    [.cmul U2 (m.invRelax l) U, .scale U2 m.tauP] ++
    fs.flatMap fun f => [.axpy (.fld f) m.DThalf (.rel f l), .smul (.rel f l) (m.vc1 l),
      .sub (.rel f l) U2]) ++
  [.scale U m.onePlusLtauP] ++ fs.map fun f => .add (.fld f) U

/-- Second half for one normal stress, e.g. ForwardSolver2Dviscoelastic.cpp:239-255; expects the sum
of the transverse strain rates in `update`. -/
noncomputable def relaxTrans (m : Mod ι) (f : Fld) : List (Stmt ι) :=
  [.scale U m.sMod, .smul U 2] ++
  forLoop m.L (fun l =>
    [.cmul U2 (m.invRelax l) U, .scale U2 m.tauS, .add (.rel f l) U2,
     .smul (.rel f l) (m.vc2 l), .axpy (.fld f) m.DThalf (.rel f l)]) ++
  [.scale U m.onePlusLtauS, .sub (.fld f) U]

/-- `scaleStressVerticalUpdate`, FreeSurfaceViscoelastic.cpp:37-43. -/
noncomputable def scaleStressVert (m : Mod ι) (c : BC ι) (i : ι) : ℝ :=
  c.select i * (-2 * m.sMod i * m.onePlusLtauS i + m.pMod i * m.onePlusLtauP i)

/-- `scaleStressHorizontalUpdate`, FreeSurfaceViscoelastic.cpp:37-48. -/
noncomputable def scaleStressHor (m : Mod ι) (c : BC ι) (i : ι) : ℝ :=
  -1 * c.select i * (-2 * m.sMod i * m.onePlusLtauS i + m.pMod i * m.onePlusLtauP i) *
    (-2 * m.sMod i * m.onePlusLtauS i + m.pMod i * m.onePlusLtauP i) *
    (1 / (m.pMod i * m.onePlusLtauP i))

/-- `scaleRelaxationVerticalUpdate[l]`, FreeSurfaceViscoelastic.cpp:77-84. -/
noncomputable def scaleRelVert (m : Mod ι) (c : BC ι) (l : ℕ) (i : ι) : ℝ :=
  c.select i * (2 * m.sMod i * m.tauS i - m.pMod i * m.tauP i) * m.vc2 l / m.relaxTime l

/-- `scaleRelaxationHorizontalUpdate[l]`, FreeSurfaceViscoelastic.cpp:77-94. -/
noncomputable def scaleRelHor (m : Mod ι) (c : BC ι) (l : ℕ) (i : ι) : ℝ :=
  c.select i * (2 * m.sMod i * m.tauS i - m.pMod i * m.tauP i) *
    (2 * m.sMod i * m.onePlusLtauS i / (m.pMod i * m.onePlusLtauP i) - 1) * m.vc2 l / m.relaxTime l

/-- `exchangeHorizontalUpdate` of the viscoelastic free surface, FreeSurface2Dviscoelastic.cpp (for
`fs = [Sxx]`) and FreeSurface3Dviscoelastic.cpp:30-75 (for `fs = [Sxx, Szz]`). -/
noncomputable def exchangeVisco (m : Mod ι) (c : BC ι) (fs : List Fld) (sumHor : Var) :
    List (Stmt ι) :=
  forLoop m.L (fun l => fs.flatMap fun f =>
    [.wmul TMP c.select (.rel f l), .axpy (.fld f) (-m.DThalf) TMP]) ++
  [.wmul TMP (scaleStressHor m c) sumHor] ++ fs.map (fun f => .add (.fld f) TMP) ++
  [.wmul TMP (scaleStressVert m c) Vyy] ++ fs.map (fun f => .sub (.fld f) TMP) ++
  forLoop m.L (fun l =>
    [.wmul TMP (scaleRelHor m c l) sumHor] ++ fs.map (fun f => .add (.rel f l) TMP) ++
    [.wmul TMP (scaleRelVert m c l) Vyy] ++ fs.map (fun f => .sub (.rel f l) TMP) ++
    fs.flatMap fun f => [.wmul TMP c.select (.rel f l), .axpy (.fld f) m.DThalf TMP])

/-- `FD2Dviscoelastic::run`, ForwardSolver2Dviscoelastic.cpp:130-318. The free surface is applied
whenever `useFreeSurface` is not 0; for a value other than 1 the free surface object was never
initialised (see `viscoelastic2DSolver`). -/
noncomputable def viscoelastic2D (D : Deriv ι) (m : Mod ι) (c : BC ι) : List (Stmt ι) :=
  List.flatten [
  [.mul U D.Dxf (.fld .Sxx)], cpmlHalf c U .Sxx .x,
  [.mul UT (selFS c D.DybFS D.Dyb) (.fld .Sxy)], cpmlFull c UT .Sxy .y,
  [.add U UT, .scale U m.invRhoX, .add (.fld .vX) U],
  [.mul U D.Dxb (.fld .Sxy)], cpmlFull c U .Sxy .x,
  [.mul UT (selFS c D.DyfFS D.Dyf) (.fld .Syy)], cpmlHalf c UT .Syy .y,
  [.add U UT, .scale U m.invRhoY, .add (.fld .vY) U],
  [.mul Vxx D.Dxb (.fld .vX), .mul Vyy D.Dyb (.fld .vY)],
  cpmlFull c Vxx .vX .x, cpmlFull c Vyy .vY .y,
  [.copy U Vxx, .add U Vyy, .scale U m.pMod], relaxNormal m [.Sxx, .Syy],
  [.copy U Vyy], relaxTrans m .Sxx,
  [.copy U Vxx], relaxTrans m .Syy,
  [.mul U D.Dyf (.fld .vX)], cpmlHalf c U .vX .y,
  [.mul UT D.Dxf (.fld .vY)], cpmlHalf c UT .vY .x,
  [.add U UT, .scale U m.sModXY], relaxShear m .Sxy m.tauSXY,
  (if c.useFreeSurface ≠ 0 then
    exchangeVisco m c [.Sxx] Vxx ++ surfaceZero c (.fld .Syy) ++
    forLoop m.L (fun l => surfaceZero c (.rel .Syy l)) else []),
  damp c [.Sxx, .Syy, .Sxy, .vX, .vY]]

/-- `FD3Dviscoelastic::run`, ForwardSolver3Dviscoelastic.cpp:132-454. -/
noncomputable def viscoelastic3D (D : Deriv ι) (m : Mod ι) (c : BC ι) : List (Stmt ι) :=
  List.flatten [
  [.mul U D.Dxf (.fld .Sxx)], cpmlHalf c U .Sxx .x,
  [.mul UT (selFS c D.DybFS D.Dyb) (.fld .Sxy)], cpmlFull c UT .Sxy .y,
  [.add U UT, .mul UT D.Dzb (.fld .Sxz)], cpmlFull c UT .Sxz .z,
  [.add U UT, .scale U m.invRhoX, .add (.fld .vX) U],
  [.mul U D.Dxb (.fld .Sxy)], cpmlFull c U .Sxy .x,
  [.mul UT (selFS c D.DyfFS D.Dyf) (.fld .Syy)], cpmlHalf c UT .Syy .y,
  [.add U UT, .mul UT D.Dzb (.fld .Syz)], cpmlFull c UT .Syz .z,
  [.add U UT, .scale U m.invRhoY, .add (.fld .vY) U],
  [.mul U D.Dxb (.fld .Sxz)], cpmlFull c U .Sxz .x,
  [.mul UT (selFS c D.DybFS D.Dyb) (.fld .Syz)], cpmlFull c UT .Syz .y,
  [.add U UT, .mul UT D.Dzf (.fld .Szz)], cpmlHalf c UT .Szz .z,
  [.add U UT, .scale U m.invRhoZ, .add (.fld .vZ) U],
  [.mul Vxx D.Dxb (.fld .vX), .mul Vyy D.Dyb (.fld .vY), .mul Vzz D.Dzb (.fld .vZ)],
  cpmlFull c Vxx .vX .x, cpmlFull c Vyy .vY .y, cpmlFull c Vzz .vZ .z,
  [.copy U Vxx, .add U Vyy, .add U Vzz, .scale U m.pMod],
  relaxNormal m [.Sxx, .Syy, .Szz],
  [.sum U Vyy Vzz], relaxTrans m .Sxx,
  [.sum U Vxx Vzz], relaxTrans m .Syy,
  [.sum U Vxx Vyy], relaxTrans m .Szz,
  [.mul U D.Dyf (.fld .vX)], cpmlHalf c U .vX .y,
  [.mul UT D.Dxf (.fld .vY)], cpmlHalf c UT .vY .x,
  [.add U UT, .scale U m.sModXY], relaxShear m .Sxy m.tauSXY,
  [.mul U D.Dzf (.fld .vX)], cpmlHalf c U .vX .z,
  [.mul UT D.Dxf (.fld .vZ)], cpmlHalf c UT .vZ .x,
  [.add U UT, .scale U m.sModXZ], relaxShear m .Sxz m.tauSXZ,
  [.mul U D.Dzf (.fld .vY)], cpmlHalf c U .vY .z,
  [.mul UT D.Dyf (.fld .vZ)], cpmlHalf c UT .vZ .y,
  [.add U UT, .scale U m.sModYZ], relaxShear m .Syz m.tauSYZ,
  ifFS c ([.sum U Vxx Vzz] ++ exchangeVisco m c [.Sxx, .Szz] U ++ surfaceZero c (.fld .Syy) ++
    forLoop m.L (fun l => surfaceZero c (.rel .Syy l))),
  damp c [.Sxx, .Syy, .Szz, .Sxy, .Sxz, .Syz, .vX, .vY, .vZ]]

/-! ### The solvers with their sources, receivers and reset functions -/

/-- Relaxation wavefields `R..[l]`, `l < L`, of the given stresses. -/
def rels (L : ℕ) (fs : List Fld) : List Var :=
  (List.range L).flatMap fun l => fs.map fun f => .rel f l

/-- Coupling of the 2D acoustic solver: FDTDacoustic.cpp, SourceReceiverImplSeismic.cpp; the 2D
acoustic wavefields throw on `VZ`. -/
def src2Dacoustic : SType → Option (List Fld)
  | .P => some [.p] | .VX => some [.vX] | .VY => some [.vY] | _ => none

/-- Receivers record what a source of the same type is added to. -/
def single (f : SType → Option (List Fld)) (ty : SType) : Option (ℝ × List Fld) :=
  (f ty).map fun l => (1, l)

/-- Coupling of the 3D acoustic solver. -/
def src3Dacoustic : SType → Option (List Fld)
  | .P => some [.p] | .VX => some [.vX] | .VY => some [.vY] | .VZ => some [.vZ] | _ => none

/-- Sources of the 2D (visco)elastic solvers, FDTD2Delastic.cpp (applySourcePressure). -/
def src2Delastic : SType → Option (List Fld)
  | .P => some [.Sxx, .Syy] | .VX => some [.vX] | .VY => some [.vY] | _ => none

/-- Receivers of the 2D (visco)elastic solvers, FDTD2Delastic.cpp (gatherSeismogramPressure). -/
noncomputable def rec2Delastic : SType → Option (ℝ × List Fld)
  | .P => some (1 / 2, [.Sxx, .Syy]) | .VX => some (1, [.vX]) | .VY => some (1, [.vY]) | _ => none

/-- Sources of the 3D (visco)elastic solvers, FDTD3Delastic.cpp. -/
def src3Delastic : SType → Option (List Fld)
  | .P => some [.Sxx, .Syy, .Szz] | .VX => some [.vX] | .VY => some [.vY] | .VZ => some [.vZ]
  | _ => none

/-- Receivers of the 3D (visco)elastic solvers, FDTD3Delastic.cpp. -/
noncomputable def rec3Delastic : SType → Option (ℝ × List Fld)
  | .P => some (1 / 3, [.Sxx, .Syy, .Szz]) | .VX => some (1, [.vX]) | .VY => some (1, [.vY])
  | .VZ => some (1, [.vZ]) | _ => none

/-- Coupling of the SH solvers, FDTD2Dsh.hpp: only `VZ`. -/
def srcSH : SType → Option (List Fld)
  | .VZ => some [.vZ] | _ => none

/-- Memory variables of CPML2DAcoustic.cpp:6-12. -/
def psi2Dacoustic : List Var := [.psi .vX .x, .psi .vY .y, .psi .p .x, .psi .p .y]

/-- Memory variables of CPML3DAcoustic.cpp. -/
def psi3Dacoustic : List Var :=
  [.psi .vX .x, .psi .vY .y, .psi .vZ .z, .psi .p .x, .psi .p .y, .psi .p .z]

/-- Memory variables of CPML2D.cpp:6-22 (P-SV and SH solvers). -/
def psi2D : List Var :=
  [.psi .vX .x, .psi .vY .x, .psi .vX .y, .psi .vY .y, .psi .Sxx .x, .psi .Sxy .x, .psi .Sxy .y,
   .psi .Syy .y, .psi .vZ .x, .psi .vZ .y, .psi .Sxz .x, .psi .Syz .y]

/-- Memory variables of CPML3D.cpp:6-29. -/
def psi3D : List Var :=
  [.psi .vX .x, .psi .vY .x, .psi .vZ .x, .psi .vX .y, .psi .vY .y, .psi .vZ .y, .psi .vX .z,
   .psi .vY .z, .psi .vZ .z, .psi .Sxx .x, .psi .Sxy .x, .psi .Sxz .x, .psi .Sxy .y, .psi .Syy .y,
   .psi .Syz .y, .psi .Sxz .z, .psi .Syz .z, .psi .Szz .z]

/-- Wavefields2Dacoustic.cpp:255-260. -/
def acoustic2DSolver (D : Deriv ι) (m : Mod ι) (c : BC ι) : Solver ι where
  prog := acoustic2D D m c
  src := src2Dacoustic
  recv := single src2Dacoustic
  fields := [.fld .vX, .fld .vY, .fld .p]
  memory := psi2Dacoustic
  ready := true

/-- Wavefields3Dacoustic.cpp:92-97. -/
def acoustic3DSolver (D : Deriv ι) (m : Mod ι) (c : BC ι) : Solver ι where
  prog := acoustic3D D m c
  src := src3Dacoustic
  recv := single src3Dacoustic
  fields := [.fld .vX, .fld .vY, .fld .vZ, .fld .p]
  memory := psi3Dacoustic
  ready := true

/-- Wavefields2Delastic.cpp:104-110. -/
noncomputable def elastic2DSolver (D : Deriv ι) (m : Mod ι) (c : BC ι) : Solver ι where
  prog := elastic2D D m c
  src := src2Delastic
  recv := rec2Delastic
  fields := [.fld .vX, .fld .vY, .fld .Sxx, .fld .Syy, .fld .Sxy]
  memory := psi2D
  ready := true

/-- Wavefields3Delastic.cpp:111-121. -/
noncomputable def elastic3DSolver (D : Deriv ι) (m : Mod ι) (c : BC ι) : Solver ι where
  prog := elastic3D D m c
  src := src3Delastic
  recv := rec3Delastic
  fields := [.fld .vX, .fld .vY, .fld .vZ, .fld .Sxx, .fld .Syy, .fld .Szz, .fld .Sxy, .fld .Sxz,
    .fld .Syz]
  memory := psi3D
  ready := true

/-- Wavefields2Dsh.cpp:90-94. -/
def sh2DSolver (D : Deriv ι) (m : Mod ι) (c : BC ι) : Solver ι where
  prog := sh2D D m c
  src := srcSH
  recv := single srcSH
  fields := [.fld .vZ, .fld .Sxz, .fld .Syz]
  memory := psi2D
  ready := true

/-- Wavefields2Dviscosh.cpp:104-112. -/
noncomputable def viscosh2DSolver (D : Deriv ι) (m : Mod ι) (c : BC ι) : Solver ι where
  prog := viscosh2D D m c
  src := srcSH
  recv := single srcSH
  fields := [.fld .vZ, .fld .Sxz, .fld .Syz] ++ rels m.L [.Sxz, .Syz]
  memory := psi2D
  ready := true

/-- Wavefields2Dviscoelastic.cpp:121-132. `ready`: ForwardSolver2Dviscoelastic.cpp:299 applies the
free surface for every nonzero `useFreeSurface`, but `prepareBoundaries` (ForwardSolver.cpp:34-54)
initialises it only for the value 1. -/
noncomputable def viscoelastic2DSolver (D : Deriv ι) (m : Mod ι) (c : BC ι) : Solver ι where
  prog := viscoelastic2D D m c
  src := src2Delastic
  recv := rec2Delastic
  fields := [.fld .vX, .fld .vY, .fld .Sxx, .fld .Syy, .fld .Sxy] ++ rels m.L [.Sxx, .Syy, .Sxy]
  memory := psi2D
  ready := c.useFreeSurface = 0 ∨ c.useFreeSurface = 1

/-- Wavefields3Dviscoelastic.cpp:137-154. -/
noncomputable def viscoelastic3DSolver (D : Deriv ι) (m : Mod ι) (c : BC ι) : Solver ι where
  prog := viscoelastic3D D m c
  src := src3Delastic
  recv := rec3Delastic
  fields := [.fld .vX, .fld .vY, .fld .vZ, .fld .Sxx, .fld .Syy, .fld .Szz, .fld .Sxy, .fld .Sxz,
    .fld .Syz] ++ rels m.L [.Sxx, .Syy, .Szz, .Sxy, .Sxz, .Syz]
  memory := psi3D
  ready := true

end Verif.Solver
