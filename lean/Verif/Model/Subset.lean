import Mathlib.Data.Real.Basic
import Mathlib.Data.Rat.Floor
import Verif.Model.Outcome
import Verif.Model.Grid
import Verif.Model.Acquisition
import Verif.Model.SU
/-!
# Models on other grids: variable grids and shot windows

`/repo/src/Modelparameter/Modelparameter.cpp` (`getShrinkMatrix`), the functions
`init(variableDist, variableCoordinates, regularCoordinates)` and `getModelPerShot` of the nine model
classes, and `getCutCoord` of `/repo/src/Acquisition/AcquisitionSettings.hpp`.

Vectors are lists. Porosity, saturation, reflectivity and the rock matrix parameters, which no solver
reads, are left out.
-/
namespace Verif.Sub
open Verif.Grid
open Verif.Acq (Source uniqueShotNos)

/-- The wave equation types, ModelparameterFactory.cpp:13-60. -/
inductive Eqn | acoustic | elastic | viscoelastic | sh | viscosh | tmem | emem | viscotmem | viscoemem
  deriving DecidableEq, Repr

/-- The parameter vectors, Modelparameter.hpp:302-325. -/
inductive Par | velocityP | velocityS | density | tauP | tauS | mu | sigma | eps | tauSigma | tauEps
  deriving DecidableEq, Repr

/-- A model object: parameter vectors and relaxation data, Modelparameter.hpp:298-325. -/
structure Model where
  par : Par → List ℝ
  numRelax : Nat
  freq : List ℝ

/-- A model object as the factory creates it, Modelparameter.hpp:298-300 (the reference frequency, which
has no initial value, is left out). -/
def Model.fresh : Model := ⟨fun _ => [], 0, []⟩

/-- `temp = matrix * v` where row `i` of the matrix has the single entry one in column `row i`. A vector
of the wrong size is rejected by LAMA. -/
def select (rows cols : Nat) (row : Nat → Out Int) (v : List ℝ) : Out (List ℝ) :=
  if v.length ≠ cols then .err
  else (List.range rows).mapM fun i => do
    let k ← row i
    if 0 ≤ k ∧ k < cols then .ok (v.getD k.toNat 0) else .ub

/-- Apply a matrix to the listed vectors of `src` and store the results in `dst`. -/
def transfer (f : List ℝ → Out (List ℝ)) (src : Model) : List Par → Model → Out Model
  | [], dst => .ok dst
  | p :: ps, dst => do
    let v ← f (src.par p)
    transfer f src ps { dst with par := Function.update dst.par p v }

/-! ### Variable grids -/

/-- One row of the meshing matrix, Acoustic.cpp:181-192 (the same in Elastic.cpp, EMEM.cpp, TMEM.cpp and
ViscoTMEM.cpp:216-232). -/
def meshRow (var reg : Grid) (i : Nat) : Out Int := do
  let c ← index2coordinate var i
  coordinate2index reg c

/-- The vectors multiplied by the meshing matrix: Acoustic.cpp:196-199, Elastic.cpp:216-220,
EMEM.cpp:196-201, TMEM.cpp:196-201, ViscoTMEM.cpp:234-237. The other classes throw ("variable grid is
not implemented", SH.hpp:107, ViscoSH.hpp:103, Viscoelastic.hpp:100, ViscoEMEM.hpp:91). -/
def Eqn.meshed : Eqn → Option (List Par)
  | .acoustic => some [.density, .velocityP]
  | .elastic => some [.density, .velocityP, .velocityS]
  | .emem | .tmem | .viscotmem => some [.mu, .sigma, .eps]
  | _ => none

/-- `init(variableDist, variableCoordinates, regularCoordinates)`: the model `m` was read on the regular
grid. The products overwrite the vectors one after the other. -/
def initVariable (e : Eqn) (var reg : Grid) (m : Model) : Out Model :=
  match e.meshed with
  | none => .err
  | some ps => transfer (select var.n.toNat reg.n.toNat (meshRow var reg)) m ps m

/-! ### Shot windows -/

/-- One row of the shrink matrix, Modelparameter.cpp:152-172. -/
def shrinkRow (small big : Grid) (cut : Coord) (i : Nat) : Out Int := do
  let c ← index2coordinate small i
  coordinate2index big ⟨c.x + cut.x, c.y + cut.y, c.z + cut.z⟩

/-- The vectors cut out by `getModelPerShot`: Acoustic.cpp:99-103, Elastic.cpp:112-119,
Viscoelastic.cpp:111-124, SH.cpp:99-103, ViscoSH.cpp:99-106, EMEM.cpp:98-105, TMEM.cpp:98-105,
ViscoTMEM.cpp:113-126, ViscoEMEM.cpp:112-125. -/
def Eqn.cutOut : Eqn → List Par
  | .acoustic => [.velocityP, .density]
  | .elastic => [.velocityP, .velocityS, .density]
  | .viscoelastic => [.velocityP, .velocityS, .density, .tauP, .tauS]
  | .sh => [.velocityS, .density]
  | .viscosh => [.velocityS, .tauS, .density]
  | .emem | .tmem => [.mu, .eps, .sigma]
  | .viscotmem | .viscoemem => [.mu, .eps, .sigma, .tauEps, .tauSigma]

/-- `big.getModelPerShot(obj, …)`: the setters of `obj` are called with the products. -/
def getModelPerShot (e : Eqn) (small big : Grid) (cut : Coord) (m obj : Model) : Out Model :=
  transfer (select small.n.toNat big.n.toNat (shrinkRow small big cut)) m e.cutOut obj

/-- The model a shot is simulated with, Simulation.cpp:289, 396: the object comes from the factory and
is set by `getModelPerShot` only. -/
def modelForShot (e : Eqn) (small big : Grid) (cut : Coord) (m : Model) : Out Model :=
  getModelPerShot e small big cut m Model.fresh

/-- The loop over the sources in `getCutCoord`, AcquisitionSettings.hpp:386-398. Arguments:
`useSourceEncode`, `numShotPerSuperShot`, `minX`, the remaining sources, the loop counter and
`sourceCoordX`. -/
def cutLoop (encode perSuper minX : Int) : List Source → Int → Int → Out (List Coord)
  | [], _, _ => .ok []
  | s :: ss, i, x =>
    let x := if s.no ≥ 0 then
        if encode = 0 ∨ (encode = 3 ∧ i.tmod perSuper = 0) then s.coords.x else x
      else x
    if x = 0 then .err
    else do
      let r ← cutLoop encode perSuper minX ss (i + 1) x
      .ok (⟨if x - minX > 0 then x - minX else 0, 0, 0⟩ :: r)

/-- The running minimum of the source positions, AcquisitionSettings.hpp:379-383. -/
def minSourceX : List Source → Int → Int
  | [], m => m
  | s :: ss, m => minSourceX ss (if m > s.coords.x then s.coords.x else m)

/-- `getCutCoord`, AcquisitionSettings.hpp:363-399. `DH` is the common grid spacing (line 374 rejects
different ones); `x0` and `x0Big` are the origins of the shot grid and of the big grid. Simplification:
`NumShotDomains` ≤ 0, where line 378 divides by zero or the loop takes a remainder by zero, is `ub`. -/
def getCutCoord (x0 x0Big DH : ℚ) (encode domains : Int) (src : List Source) : Out (List Coord) := do
  let us ← uniqueShotNos src
  match src with
  | [] => .ub
  | s :: _ =>
    if src.length ≠ us.length then .err
    else if domains ≤ 0 then .ub
    else
      let perSuper := ⌈(src.length : ℚ) / domains⌉
      let minX := minSourceX src s.coords.x
      let residual := SU.roundQ ((x0 - x0Big) / DH)
      cutLoop encode perSuper (minX - residual) src 0 0

end Verif.Sub
