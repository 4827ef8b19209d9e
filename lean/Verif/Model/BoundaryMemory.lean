import Verif.Model.NodeWeights
import Mathlib.Algebra.Order.Floor.Defs
import Mathlib.Data.Nat.Init

/-!
# Estimate of the memory of absorbing boundaries

`estimateBoundaryMemory` of `/repo/src/ForwardSolver/ForwardSolver.cpp` and `estimateMemory` of the absorbing boundaries.
The distribution of the grid points is a list of the indices owned by each process. Values are exact; the products of
`IndexType` and `size_t` do not overflow here. Not modelled: the units in which the simulation prints the sum of its
estimates.
-/
namespace Verif.BMem
open Verif Verif.Grid
open Verif.MatSetup (Kind)

/-- What a point adds to the counter of `ABS2D::estimateMemory`, ABS2D.cpp:68-90. -/
def absCount2D (g : Grid) (W useFreeSurface : Int) (i : Nat) : Out ℕ := do
  let c ← index2coordinate g i
  let dist ← edgeDistance g c
  let coordinateMin := if dist.x < dist.y then dist.x else dist.y
  if useFreeSurface = 0 then pure (if coordinateMin < W then 1 else 0)
  else if c.y < W then pure (if dist.x < W then 1 else 0)
  else pure (if coordinateMin < W then 1 else 0)

/-- What a point adds to the counter of `ABS3D::estimateMemory`, ABS3D.cpp:114-134. -/
def absCount3D (g : Grid) (W useFreeSurface : Int) (i : Nat) : Out ℕ := do
  let c ← index2coordinate g i
  let dist ← edgeDistance g c
  let coordinateMin := Boundary.coordMin dist
  if useFreeSurface = 0 then pure (if coordinateMin < W then 1 else 0)
  else if c.y < W then pure (if dist.z < W ∨ dist.x < W then 1 else 0)
  else pure (if coordinateMin < W then 1 else 0)

/-- What a point adds to the counter of `estimateMemory` of the CPML, CPML3D.cpp:173-201 = CPML3DAcoustic.cpp:77-105 =
CPMLEM3D.cpp:125-153; without the z axis CPML2D.cpp:125-149 = CPML2DAcoustic.cpp:61-85 = CPMLEM2D.cpp:93-117. -/
def cpmlCount (threeD : Bool) (g : Grid) (W useFreeSurface : Int) (i : Nat) : Out ℕ := do
  let c ← index2coordinate g i
  let d ← (match g.layers[getLayer g c.y]? with
    | some l => Out.ok l.dh
    | none => .ub)
  let dist ← edgeDistance g c
  let width := Boundary.layerWidth W d
  let nx := if dist.x.tdiv d < width then 1 else 0
  let ny := if dist.y.tdiv d < width then
      if c.y.tdiv d < width then
        if useFreeSurface = 0 then 1 else 0
      else 1
    else 0
  let nz := if threeD then
      if dist.z.tdiv d < width then 1 else 0
    else 0
  pure (nx + ny + nz)

/-- The counter of one process and `getCommunicator().sum(counter)`, ABS2D.cpp:60-93, CPML2D.cpp:119-151. -/
def counter (count : Nat → Out ℕ) (owned : List (List ℕ)) : Out ℕ := do
  let counters ← owned.mapM fun (l : List ℕ) => do
    let ns ← l.mapM count
    pure ns.sum
  pure counters.sum

/-- `numVectorsPerDim`, CPML2D.cpp:152, CPML2DAcoustic.cpp:88, CPML3D.cpp:204, CPML3DAcoustic.cpp:108, CPMLEM2D.cpp:120,
CPMLEM3D.cpp:156, with the classes that the solvers use (members `ConvPML` of the headers of the solvers). -/
def numVectorsPerDim : Kind → ℕ
  | .acoustic2D | .acoustic3D => 6
  | .elastic2D | .viscoelastic2D | .sh2D | .viscosh2D => 8
  | .elastic3D | .viscoelastic3D => 10
  | .tmem2D | .emem2D | .viscotmem2D | .viscoemem2D => 8
  | .emem3D | .viscoemem3D => 10

/-- `estimateMemory` of the solvers, i.e. `estimateBoundaryMemory`, ForwardSolver.cpp:11-19, with ABS2D.cpp:93-96,
ABS3D.cpp:137-140 (division of floating point numbers) and CPML2D.cpp:151-153 (division of integers). `size` is
`sizeof(ValueType)`. -/
def estimate (k : Kind) (size : ℕ) (dampingBoundary W useFreeSurface : Int) (g : Grid) (owned : List (List ℕ)) :
    Out ℚ :=
  if dampingBoundary = 1 then do
    let sum ← counter (if k.threeD then absCount3D g W useFreeSurface else absCount2D g W useFreeSurface) owned
    pure ((sum * size : ℕ) / (1024 * 1024))
  else if dampingBoundary = 2 then do
    let sum ← counter (cpmlCount k.threeD g W useFreeSurface) owned
    pure ((sum * size * numVectorsPerDim k / (1024 * 1024) : ℕ) : ℚ)
  else pure 0

/-- Coefficients at a point, `CPML3D::init`, CPML3D.cpp:276-347 (CPML3DAcoustic.cpp, CPMLEM3D.cpp alike): as
`Boundary.cpml2D`, and the z axis treated as the x axis. -/
noncomputable def cpml3D (g : Grid) (par : Nat → Boundary.CPMLPar) (W useFreeSurface : Int) (c : Coord) :
    Out (Boundary.AxisCoef × Boundary.AxisCoef × Boundary.AxisCoef) := do
  let (cx, cy) ← Boundary.cpml2D g par W useFreeSurface c
  let dist ← edgeDistance g c
  let d ← (match g.layers[getLayer g c.y]? with
    | some l => Out.ok l.dh
    | none => .ub)
  let cz ← Boundary.axisCoef (par (getLayer g c.y)) W d c.z dist.z false
  pure (cx, cy, cz)

end Verif.BMem
