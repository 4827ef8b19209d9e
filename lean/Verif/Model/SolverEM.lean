import Verif.Model.SolverSeismic
/-!
# The electromagnetic forward solvers

One definition per `run` function, one list element per LAMA statement.
-/
set_option linter.dupNamespace false

namespace Verif.Solver
open Matrix

variable {ι : Type} [Fintype ι]

/-- Model parameters read by the electromagnetic solvers (ModelparameterEM.hpp getters): averaged
inverse permeabilities, averaged permittivity and conductivity per component, their relaxation
parameters. -/
structure EMod (ι : Type) where
  invMuXY : ι → ℝ
  invMuXZ : ι → ℝ
  invMuYZ : ι → ℝ
  eps : Axis → ι → ℝ
  sig : Axis → ι → ℝ
  tauEps : Axis → ι → ℝ
  tauSig : Axis → ι → ℝ
  epsVac : ℝ
  L : ℕ
  relaxTime : ℕ → ℝ
  DT : ℝ

/-- `getAveragedCinv`, ForwardSolverEM.cpp:14-24. -/
noncomputable def Cinv (e s DT : ℝ) : ℝ := 1 / (1 / 2 / e * s * DT + 1)
/-- `getAveragedCa`, ForwardSolverEM.cpp:37-47. -/
noncomputable def Ca (e s DT : ℝ) : ℝ := (1 - 1 / 2 / e * s * DT) * Cinv e s DT
/-- `getAveragedCb`, ForwardSolverEM.cpp:61-68. -/
noncomputable def Cb (e s DT : ℝ) : ℝ := 1 / e * Cinv e s DT

namespace EMod
variable (m : EMod ι)

/-- `CaAverageX`, ... of the solvers without relaxation (prepareForModelling,
ForwardSolver3Demem.cpp). -/
noncomputable def ca (a : Axis) (i : ι) : ℝ := Ca (m.eps a i) (m.sig a i) m.DT
/-- `CbAverageX`, ... of the solvers without relaxation. -/
noncomputable def cb (a : Axis) (i : ι) : ℝ := Cb (m.eps a i) (m.sig a i) m.DT
/-- `getElectricConductivityEffectiveOptical`, ForwardSolverEM.cpp:122-135. For `L = 0` the source
divides 0 by 0; here the quotient is 0. -/
noncomputable def sigEff (a : Axis) (i : ι) : ℝ :=
  m.tauEps a i * (((List.range m.L).map fun l => 1 / m.relaxTime l).sum / m.L) * m.eps a i + m.sig a i
/-- `getDielectricPermittivityEffectiveOptical`, ForwardSolverEM.cpp:140-154. -/
noncomputable def epsEff (a : Axis) (i : ι) : ℝ :=
  let e := (1 - m.tauEps a i) * m.eps a i + m.sig a i * m.tauSig a i
  if e < m.epsVac then m.epsVac else e
/-- `CaAverageX`, ... of the solvers with relaxation (prepareForModelling,
ForwardSolver3Dviscoemem.cpp:80-127). -/
noncomputable def caV (a : Axis) (i : ι) : ℝ := Ca (m.epsEff a i) (m.sigEff a i) m.DT
/-- `CbAverageX`, ... of the solvers with relaxation. -/
noncomputable def cbV (a : Axis) (i : ι) : ℝ := Cb (m.epsEff a i) (m.sigEff a i) m.DT
/-- `getCc`, ForwardSolverEM.cpp:80-88. -/
noncomputable def cc (l : ℕ) : ℝ :=
  (1 - 1 / 2 * m.DT / m.relaxTime l) / (1 + 1 / 2 * m.DT / m.relaxTime l)
/-- `getAveragedCd`, ForwardSolverEM.cpp:102-117. -/
noncomputable def cd (a : Axis) (l : ℕ) (i : ι) : ℝ :=
  m.tauEps a i * (1 / (1 + 1 / 2 * m.DT / m.relaxTime l) / (m.L * m.relaxTime l * m.relaxTime l)) *
    m.eps a i * (-m.DT)
end EMod

/-- `update *= Cb; update_temp = Ca * e; e = update_temp + update;` -/
def eUpdate (e : Fld) (ca cb : ι → ℝ) : List (Stmt ι) :=
  [.scale U cb, .wmul UT ca (.fld e), .sum (.fld e) UT U]

/-- `update = Cc[l] * r[l]; update_temp = Cd[l] * e; r[l] = update_temp + update;` -/
noncomputable def rUpdate (m : EMod ι) (e : Fld) (a : Axis) (l : ℕ) : List (Stmt ι) :=
  [.cmul U (m.cc l) (.rel e l), .wmul UT (m.cd a l) (.fld e), .sum (.rel e l) UT U]

/-- `for (l) update -= DT_temp * r[l];` -/
def rSubtract (m : EMod ι) (e : Fld) : List (Stmt ι) :=
  forLoop m.L fun l => [.axpy U (-m.DT) (.rel e l)]

/-- `FD2Demem::run`, ForwardSolver2Demem.cpp:112-176. -/
noncomputable def emem2D (D : Deriv ι) (m : EMod ι) (c : BC ι) : List (Stmt ι) :=
  List.flatten [
  [.mul U D.Dxf (.fld .eY), .mul UT D.Dyf (.fld .eX)],
  cpmlHalf c U .eY .x, cpmlHalf c UT .eX .y,
  [.sub U UT, .scale U m.invMuXY, .sub (.fld .hZ) U],
  [.mul U D.DybSX (.fld .hZ)], cpmlFull c U .hZ .y, eUpdate .eX (m.ca .x) (m.cb .x),
  [.mul U D.Dxb (.fld .hZ)], cpmlFull c U .hZ .x,
  [.scale U (m.cb .y), .wmul UT (m.ca .y) (.fld .eY), .diff (.fld .eY) UT U],
  damp c [.eY, .eX, .hZ]]

/-- `FD2Dtmem::run`, ForwardSolver2Dtmem.cpp:108-171. -/
noncomputable def tmem2D (D : Deriv ι) (m : EMod ι) (c : BC ι) : List (Stmt ι) :=
  List.flatten [
  [.mul U D.Dyf (.fld .eZ)], cpmlHalf c U .eZ .y, [.scale U m.invMuYZ, .sub (.fld .hX) U],
  [.mul UT D.Dxf (.fld .eZ)], cpmlHalf c UT .eZ .x,
  [.neg U UT, .scale U m.invMuXZ, .sub (.fld .hY) U],
  [.mul U D.Dxb (.fld .hY), .mul UT D.Dyb (.fld .hX)], cpmlFull c U .hY .x, cpmlFull c UT .hX .y,
  [.sub U UT], eUpdate .eZ (m.ca .z) (m.cb .z),
  damp c [.eZ, .hX, .hY]]

/-- `FD2Dviscoemem::run`, ForwardSolver2Dviscoemem.cpp:142-228. -/
noncomputable def viscoemem2D (D : Deriv ι) (m : EMod ι) (c : BC ι) : List (Stmt ι) :=
  List.flatten [
  [.mul U D.Dxf (.fld .eY), .mul UT D.Dyf (.fld .eX)],
  cpmlHalf c U .eY .x, cpmlHalf c UT .eX .y,
  [.sub U UT, .scale U m.invMuXY, .sub (.fld .hZ) U],
  forLoop m.L (fun l => rUpdate m .eX .x l ++ rUpdate m .eY .y l),
  [.mul U D.DybSX (.fld .hZ)], cpmlFull c U .hZ .y, rSubtract m .eX,
  eUpdate .eX (m.caV .x) (m.cbV .x),
  [.mul UT D.Dxb (.fld .hZ)], cpmlFull c UT .hZ .x, [.neg U UT], rSubtract m .eY,
  eUpdate .eY (m.caV .y) (m.cbV .y),
  damp c [.eY, .eX, .hZ]]

/-- `FD2Dviscotmem::run`, ForwardSolver2Dviscotmem.cpp:130-207. -/
noncomputable def viscotmem2D (D : Deriv ι) (m : EMod ι) (c : BC ι) : List (Stmt ι) :=
  List.flatten [
  [.mul U D.Dyf (.fld .eZ)], cpmlHalf c U .eZ .y, [.scale U m.invMuYZ, .sub (.fld .hX) U],
  [.mul UT D.Dxf (.fld .eZ)], cpmlHalf c UT .eZ .x,
  [.neg U UT, .scale U m.invMuXZ, .sub (.fld .hY) U],
  forLoop m.L (rUpdate m .eZ .z),
  [.mul U D.Dxb (.fld .hY), .mul UT D.Dyb (.fld .hX)], cpmlFull c U .hY .x, cpmlFull c UT .hX .y,
  [.sub U UT], rSubtract m .eZ, eUpdate .eZ (m.caV .z) (m.cbV .z),
  damp c [.eZ, .hX, .hY]]

/-- Magnetic field update of the 3D solvers, ForwardSolver3Demem.cpp:151-190,
ForwardSolver3Dviscoemem.cpp:197-236. -/
def magnetic3D (D : Deriv ι) (m : EMod ι) (c : BC ι) : List (Stmt ι) :=
  List.flatten [
  [.mul U D.DyfSZ (.fld .eZ), .mul UT D.Dzf (.fld .eY)],
  cpmlHalf c U .eZ .y, cpmlHalf c UT .eY .z,
  [.sub U UT, .scale U m.invMuYZ, .sub (.fld .hX) U],
  [.mul U D.Dzf (.fld .eX), .mul UT D.Dxf (.fld .eZ)],
  cpmlHalf c U .eX .z, cpmlHalf c UT .eZ .x,
  [.sub U UT, .scale U m.invMuXZ, .sub (.fld .hY) U],
  [.mul U D.Dxf (.fld .eY), .mul UT D.DyfSX (.fld .eX)],
  cpmlHalf c U .eY .x, cpmlHalf c UT .eX .y,
  [.sub U UT, .scale U m.invMuXY, .sub (.fld .hZ) U]]

/-- `FD3Demem::run`, ForwardSolver3Demem.cpp:119-240. `apply_hyx` of CPMLEM3D.cpp:67-70 uses the
coefficients of the half points. -/
noncomputable def emem3D (D : Deriv ι) (m : EMod ι) (c : BC ι) : List (Stmt ι) :=
  List.flatten [
  magnetic3D D m c,
  [.mul U D.DybSX (.fld .hZ), .mul UT D.Dzb (.fld .hY)],
  cpmlFull c U .hZ .y, cpmlFull c UT .hY .z,
  [.sub U UT], eUpdate .eX (m.ca .x) (m.cb .x),
  [.mul U D.Dzb (.fld .hX), .mul UT D.Dxb (.fld .hZ)],
  cpmlFull c U .hX .z, cpmlFull c UT .hZ .x,
  [.sub U UT], eUpdate .eY (m.ca .y) (m.cb .y),
  [.mul U D.Dxb (.fld .hY), .mul UT D.DybSZ (.fld .hX)],
  cpmlHalf c U .hY .x, cpmlFull c UT .hX .y,
  [.sub U UT], eUpdate .eZ (m.ca .z) (m.cb .z),
  damp c [.eZ, .eY, .eX, .hX, .hY, .hZ]]

/-- `FD3Dviscoemem::run`, ForwardSolver3Dviscoemem.cpp:161-312. -/
noncomputable def viscoemem3D (D : Deriv ι) (m : EMod ι) (c : BC ι) : List (Stmt ι) :=
  List.flatten [
  magnetic3D D m c,
  forLoop m.L (fun l => rUpdate m .eX .x l ++ rUpdate m .eY .y l ++ rUpdate m .eZ .z l),
  [.mul U D.DybSX (.fld .hZ), .mul UT D.Dzb (.fld .hY)],
  cpmlFull c U .hZ .y, cpmlFull c UT .hY .z,
  [.sub U UT], rSubtract m .eX, eUpdate .eX (m.caV .x) (m.cbV .x),
  [.mul U D.Dzb (.fld .hX), .mul UT D.Dxb (.fld .hZ)],
  cpmlFull c U .hX .z, cpmlFull c UT .hZ .x,
  [.sub U UT], rSubtract m .eY, eUpdate .eY (m.caV .y) (m.cbV .y),
  [.mul U D.Dxb (.fld .hY), .mul UT D.DybSZ (.fld .hX)],
  cpmlHalf c U .hY .x, cpmlFull c UT .hX .y,
  [.sub U UT], rSubtract m .eZ, eUpdate .eZ (m.caV .z) (m.cbV .z),
  damp c [.eZ, .eY, .eX, .hX, .hY, .hZ]]

/-- Coupling of the 2D EMEM solvers, SourceReceiverImplEM.cpp:50-165, FDTD2Demem.hpp. -/
def src2Demem : SType → Option (List Fld)
  | .EX => some [.eX] | .EY => some [.eY] | .HZ => some [.hZ] | _ => none

/-- Coupling of the 2D TMEM solvers, FDTD2Dtmem.hpp. -/
def src2Dtmem : SType → Option (List Fld)
  | .EZ => some [.eZ] | _ => none

/-- Coupling of the 3D solvers, FDTD3Demem.hpp. -/
def src3Demem : SType → Option (List Fld)
  | .EX => some [.eX] | .EY => some [.eY] | .EZ => some [.eZ] | .HZ => some [.hZ] | _ => none

/-- Memory variables of CPMLEM2D.cpp:6-17. -/
def psi2DEM : List Var :=
  [.psi .hY .x, .psi .hZ .x, .psi .hX .y, .psi .hZ .y, .psi .eY .x, .psi .eZ .x, .psi .eX .y,
   .psi .eZ .y]

/-- Memory variables of CPMLEM3D.cpp:6-21. -/
def psi3DEM : List Var :=
  [.psi .hY .x, .psi .hZ .x, .psi .hX .y, .psi .hZ .y, .psi .hX .z, .psi .hY .z,
   .psi .eZ .x, .psi .eY .x, .psi .eZ .y, .psi .eX .y, .psi .eY .z, .psi .eX .z]

/-- Wavefields2Demem.cpp:87-91. -/
noncomputable def emem2DSolver (D : Deriv ι) (m : EMod ι) (c : BC ι) : Solver ι where
  prog := emem2D D m c
  src := src2Demem
  recv := single src2Demem
  fields := [.fld .hZ, .fld .eX, .fld .eY]
  memory := psi2DEM
  ready := true

/-- Wavefields2Dtmem.cpp:166-170. -/
noncomputable def tmem2DSolver (D : Deriv ι) (m : EMod ι) (c : BC ι) : Solver ι where
  prog := tmem2D D m c
  src := src2Dtmem
  recv := single src2Dtmem
  fields := [.fld .hX, .fld .hY, .fld .eZ]
  memory := psi2DEM
  ready := true

/-- Wavefields2Dviscoemem.cpp:101-109. -/
noncomputable def viscoemem2DSolver (D : Deriv ι) (m : EMod ι) (c : BC ι) : Solver ι where
  prog := viscoemem2D D m c
  src := src2Demem
  recv := single src2Demem
  fields := [.fld .hZ, .fld .eX, .fld .eY] ++ rels m.L [.eX, .eY]
  memory := psi2DEM
  ready := true

/-- Wavefields2Dviscotmem.cpp:108-115. -/
noncomputable def viscotmem2DSolver (D : Deriv ι) (m : EMod ι) (c : BC ι) : Solver ι where
  prog := viscotmem2D D m c
  src := src2Dtmem
  recv := single src2Dtmem
  fields := [.fld .hX, .fld .hY, .fld .eZ] ++ rels m.L [.eZ]
  memory := psi2DEM
  ready := true

/-- Wavefields3Demem.cpp:101-108. -/
noncomputable def emem3DSolver (D : Deriv ι) (m : EMod ι) (c : BC ι) : Solver ι where
  prog := emem3D D m c
  src := src3Demem
  recv := single src3Demem
  fields := [.fld .hX, .fld .hY, .fld .hZ, .fld .eX, .fld .eY, .fld .eZ]
  memory := psi3DEM
  ready := true

/-- Wavefields3Dviscoemem.cpp:119-131. -/
noncomputable def viscoemem3DSolver (D : Deriv ι) (m : EMod ι) (c : BC ι) : Solver ι where
  prog := viscoemem3D D m c
  src := src3Demem
  recv := single src3Demem
  fields := [.fld .hX, .fld .hY, .fld .hZ, .fld .eX, .fld .eY, .fld .eZ] ++
    rels m.L [.eX, .eY, .eZ]
  memory := psi3DEM
  ready := true

/-- The fourteen forward solvers that `ForwardSolver::Factory` can create (ForwardSolverFactory.cpp).
A configuration `dimension`, `equationType` selects one of them. -/
inductive IsSolver (D : Deriv ι) (c : BC ι) : Solver ι → Prop
  | acoustic2D (m : Mod ι) : IsSolver D c (acoustic2DSolver D m c)
  | acoustic3D (m : Mod ι) : IsSolver D c (acoustic3DSolver D m c)
  | elastic2D (m : Mod ι) : IsSolver D c (elastic2DSolver D m c)
  | elastic3D (m : Mod ι) : IsSolver D c (elastic3DSolver D m c)
  | sh2D (m : Mod ι) : IsSolver D c (sh2DSolver D m c)
  | viscosh2D (m : Mod ι) : IsSolver D c (viscosh2DSolver D m c)
  | viscoelastic2D (m : Mod ι) : IsSolver D c (viscoelastic2DSolver D m c)
  | viscoelastic3D (m : Mod ι) : IsSolver D c (viscoelastic3DSolver D m c)
  | emem2D (m : EMod ι) : IsSolver D c (emem2DSolver D m c)
  | tmem2D (m : EMod ι) : IsSolver D c (tmem2DSolver D m c)
  | viscoemem2D (m : EMod ι) : IsSolver D c (viscoemem2DSolver D m c)
  | viscotmem2D (m : EMod ι) : IsSolver D c (viscotmem2DSolver D m c)
  | emem3D (m : EMod ι) : IsSolver D c (emem3DSolver D m c)
  | viscoemem3D (m : EMod ι) : IsSolver D c (viscoemem3DSolver D m c)

end Verif.Solver
