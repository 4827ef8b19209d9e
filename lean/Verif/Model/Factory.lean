import Verif.Model.MatrixSetup
import Verif.Model.Subset
import Verif.Model.Config

/-!
# Choice of the classes of a simulation

The factories that `/repo/src/Simulation.cpp` calls with `dimension` and `equationType`, and what the checks before the first
time step make of the two strings. A factory that finds no class returns a null pointer.
-/
namespace Verif.Setup
open Verif
open Verif.Config (Str lower)
open Verif.MatSetup (Kind)
open Verif.Sub (Eqn)

/-- The names accepted by the assertions, WavefieldsFactory.cpp:15, ForwardSolverFactory.cpp:13, ModelparameterFactory.cpp:11,
SourceReceiverImplFactory.cpp:12, Common.hpp:256. -/
def types : List String :=
  ["acoustic", "elastic", "viscoelastic", "sh", "viscosh", "emem", "tmem", "viscoemem", "viscotmem"]

/-- WavefieldsFactory.cpp:14, ForwardSolverFactory.cpp:12, DerivativesFactory.cpp:12, SourceReceiverImplFactory.cpp:11. -/
def dimensions : List String := ["2d", "3d"]

/-- One of the names, after the change to lower case. -/
def accepted (names : List String) (s : Str) : Bool := names.any fun n => n.toList = lower s

/-- A factory with two arguments: assertions, then the first entry that fits, otherwise a null pointer. -/
def create {α : Type} (table : List (String × String × α)) (dim type : Str) : Out (Option α) :=
  if accepted dimensions dim && accepted types type then
    .ok ((table.find? fun r => r.1.toList = lower dim && r.2.1.toList = lower type).map fun r => r.2.2)
  else .err

/-- WavefieldsFactory.cpp:18-65; the class `FD2Dacoustic` is `acoustic2D` and so on. -/
def wavefieldTable : List (String × String × Kind) :=
  [("2d", "acoustic", .acoustic2D), ("2d", "elastic", .elastic2D), ("2d", "viscoelastic", .viscoelastic2D),
   ("2d", "sh", .sh2D), ("2d", "viscosh", .viscosh2D),
   ("3d", "acoustic", .acoustic3D), ("3d", "elastic", .elastic3D), ("3d", "viscoelastic", .viscoelastic3D),
   ("2d", "tmem", .tmem2D), ("2d", "emem", .emem2D), ("2d", "viscotmem", .viscotmem2D), ("2d", "viscoemem", .viscoemem2D),
   ("3d", "emem", .emem3D), ("3d", "viscoemem", .viscoemem3D)]

/-- ForwardSolverFactory.cpp:16-63. -/
def solverTable : List (String × String × Kind) :=
  [("2d", "acoustic", .acoustic2D), ("2d", "elastic", .elastic2D), ("2d", "viscoelastic", .viscoelastic2D),
   ("2d", "sh", .sh2D), ("2d", "viscosh", .viscosh2D),
   ("3d", "acoustic", .acoustic3D), ("3d", "elastic", .elastic3D), ("3d", "viscoelastic", .viscoelastic3D),
   ("2d", "tmem", .tmem2D), ("2d", "emem", .emem2D), ("2d", "viscotmem", .viscotmem2D), ("2d", "viscoemem", .viscoemem2D),
   ("3d", "emem", .emem3D), ("3d", "viscoemem", .viscoemem3D)]

/-- ModelparameterFactory.cpp:13-40. -/
def createModel (type : Str) : Out (Option Eqn) :=
  let table : List (String × Eqn) :=
    [("acoustic", .acoustic), ("elastic", .elastic), ("viscoelastic", .viscoelastic), ("sh", .sh), ("viscosh", .viscosh),
     ("tmem", .tmem), ("emem", .emem), ("viscotmem", .viscotmem), ("viscoemem", .viscoemem)]
  if accepted types type then .ok ((table.find? fun r => r.1.toList = lower type).map fun r => r.2) else .err

/-- DerivativesFactory.cpp:12-22; the result is the number of dimensions of the class. -/
def createDerivatives (dim : Str) : Out ℕ :=
  if accepted dimensions dim then
    if lower dim = "2d".toList then .ok 2
    else if lower dim = "3d".toList then .ok 3
    else .err
  else .err

/-- The classes that couple sources and receivers to the wavefields, `SourceReceiverImpl`. -/
inductive Coupling
  | acoustic2D | elastic2D | sh2D | acoustic3D | elastic3D | emem2D | tmem2D | emem3D
  deriving DecidableEq, Repr

/-- SourceReceiverImplFactory.cpp:15-43. -/
def couplingTable : List (String × String × Coupling) :=
  [("2d", "acoustic", .acoustic2D), ("2d", "elastic", .elastic2D), ("2d", "viscoelastic", .elastic2D),
   ("2d", "sh", .sh2D), ("2d", "viscosh", .sh2D),
   ("3d", "acoustic", .acoustic3D), ("3d", "elastic", .elastic3D), ("3d", "viscoelastic", .elastic3D),
   ("2d", "emem", .emem2D), ("2d", "viscoemem", .emem2D), ("2d", "tmem", .tmem2D), ("2d", "viscotmem", .tmem2D),
   ("3d", "emem", .emem3D), ("3d", "viscoemem", .emem3D)]

/-- The class that `run` of a solver uses: ForwardSolver2Dacoustic.cpp:116, 2Delastic.cpp:154, 2Dsh.cpp:130,
2Dviscoelastic.cpp:167, 2Dviscosh.cpp:154, 3Dacoustic.cpp:122, 3Delastic.cpp:172, 3Dviscoelastic.cpp:183, 2Demem.cpp:131,
2Dtmem.cpp:126, 2Dviscoemem.cpp:163, 2Dviscotmem.cpp:150, 3Demem.cpp:149, 3Dviscoemem.cpp:195. -/
def coupling : Kind → Coupling
  | .acoustic2D => .acoustic2D
  | .elastic2D => .elastic2D
  | .viscoelastic2D => .elastic2D
  | .sh2D => .sh2D
  | .viscosh2D => .sh2D
  | .acoustic3D => .acoustic3D
  | .elastic3D => .elastic3D
  | .viscoelastic3D => .elastic3D
  | .emem2D => .emem2D
  | .tmem2D => .tmem2D
  | .viscoemem2D => .emem2D
  | .viscotmem2D => .tmem2D
  | .emem3D => .emem3D
  | .viscoemem3D => .emem3D

/-- `numDimension` and `equationType` of the wavefields: lines 24-25 of the constructors in `Wavefields/` and `WavefieldsEM/`,
52-53 in Wavefields2Dacoustic.cpp. -/
def description : Kind → ℕ × String
  | .acoustic2D => (2, "acoustic")
  | .elastic2D => (2, "elastic")
  | .viscoelastic2D => (2, "viscoelastic")
  | .sh2D => (2, "sh")
  | .viscosh2D => (2, "viscosh")
  | .acoustic3D => (3, "acoustic")
  | .elastic3D => (3, "elastic")
  | .viscoelastic3D => (3, "viscoelastic")
  | .emem2D => (2, "emem")
  | .tmem2D => (2, "tmem")
  | .viscoemem2D => (2, "viscoemem")
  | .viscotmem2D => (2, "viscotmem")
  | .emem3D => (3, "emem")
  | .viscoemem3D => (3, "viscoemem")

/-- `equationType` of the models: line 42 of the headers in `Modelparameter/` and `ModelparameterEM/`. -/
def modelType : Eqn → String
  | .acoustic => "acoustic"
  | .elastic => "elastic"
  | .viscoelastic => "viscoelastic"
  | .sh => "sh"
  | .viscosh => "viscosh"
  | .tmem => "tmem"
  | .emem => "emem"
  | .viscotmem => "viscotmem"
  | .viscoemem => "viscoemem"

/-- The objects of a simulation. -/
structure Parts where
  derivatives : ℕ
  model : Eqn
  wavefields : Kind
  solver : Kind
  deriving DecidableEq, Repr

/-- A call of a method through a pointer. -/
def deref {α : Type} : Option α → Out α
  | some a => .ok a
  | none => .ub

/-- Simulation.cpp:159-175: the factories, then the memory estimates, which call a method of each object. -/
def createAll (dim type : Str) : Out Parts := do
  let d ← createDerivatives dim
  let m ← createModel type
  let w ← create wavefieldTable dim type
  let s ← create solverTable dim type
  let w ← deref w
  let m ← deref m
  let s ← deref s
  .ok ⟨d, m, w, s⟩

/-! ### The checks before the first time step -/

/-- `checkEquationType`, Common.hpp:249-265. -/
def checkEquationType (type : Str) : Out Bool :=
  if accepted types type then
    if accepted ["acoustic", "elastic", "viscoelastic", "sh", "viscosh"] type then .ok true
    else if accepted ["emem", "tmem", "viscoemem", "viscotmem"] type then .ok false
    else .ok true
  else .err

/-- The velocities of a model. -/
inductive Vel
  | P | S | EM
  deriving DecidableEq, Repr

/-- `getVelocityP`, `getVelocityS` and `getVelocityEM` raise exceptions in models without such waves: SH.cpp:476-480,
ViscoSH.cpp:523-527, Acoustic.cpp:462-466, ModelparameterSeismic.cpp:719-732, ModelparameterEM.cpp:1106-1127. -/
def getVelocity : Eqn → Vel → Out Vel
  | .sh, .P => .err
  | .viscosh, .P => .err
  | .acoustic, .S => .err
  | .tmem, .EM => .ok .EM
  | .emem, .EM => .ok .EM
  | .viscotmem, .EM => .ok .EM
  | .viscoemem, .EM => .ok .EM
  | .tmem, _ => .err
  | .emem, _ => .err
  | .viscotmem, _ => .err
  | .viscoemem, _ => .err
  | _, .EM => .err
  | _, v => .ok v

/-- What the checks use: the velocities for the stability and the dispersion criterion, whether the ratio of the velocities is
checked, and the number of dimensions in the stability criterion. -/
structure Checks where
  fastest : Vel
  slowest : Vel
  ratio : Bool
  dimension : ℕ
  deriving DecidableEq, Repr

/-- `checkNumericalArtefactsAndInstabilities`, CheckParameter.hpp:165-250, and `checkStabilityCriterion`, CheckParameter.hpp:62-70,
on the first process of a shot domain, if the sources do not come from an SU file. `m` is the model. The comparisons here use
the strings of the configuration as they are. -/
def checks (dim type : Str) (m : Eqn) : Out Checks := do
  let seismic ← checkEquationType type
  let fast ← getVelocity m (if seismic then
    if type = "sh".toList || type = "viscosh".toList then .S else .P else .EM)
  let slow ← getVelocity m (if seismic then if type = "acoustic".toList then .P else .S else .EM)
  if dim = "2D".toList then .ok ⟨fast, slow, type = "elastic".toList || type = "viscoelastic".toList, 2⟩
  else if dim = "3D".toList then .ok ⟨fast, slow, type = "elastic".toList || type = "viscoelastic".toList, 3⟩
  else .err

end Verif.Setup
