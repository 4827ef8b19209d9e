import Verif.Model.Grid
import Mathlib.Data.Real.Basic

/-!
# Order of the grid points in vectors, and files with coordinates

The matrices of `/repo/src/Wavefields/Wavefields.cpp` that change the order of the grid points in a vector, and the files with
coordinates of `/repo/src/Acquisition/Coordinates.cpp`. A distribution is a list of the indices that each process owns.
-/
namespace Verif.Reorder
open Verif Verif.Grid

/-- Wavefields.cpp:125. -/
def column (g : Grid) (c : Coord) : Int := c.y + c.x * g.NY + c.z * g.NX * g.NY

/-- The loop of one process, Wavefields.cpp:123-127: row and column of the entries, which have the value one. -/
def assemble (g : Grid) (owned : List Int) : Out (List (Int × Int)) :=
  owned.mapM fun i => do
    let c ← index2coordinate g i
    .ok (i, column g c)

/-- `calcTransformMatrixXYZ`, Wavefields.cpp:109-133: the entries of `transformMatrixXZY`. `fillFromAssembly` rejects columns
outside of the matrix. `transformMatrixYXZ` is the transposed matrix. -/
def matrix (g : Grid) (owned : List (List Int)) : Out (List (Int × Int)) := do
  let parts ← owned.mapM (assemble g)
  if parts.flatten.all fun e => 0 ≤ e.2 && e.2 < g.n then .ok parts.flatten else .err

/-- `transformMatrixXZY * v`, as in `applyTransform` of the wavefields, for example Wavefields2Dsh.cpp:340-345. -/
def mulXZY (m : List (Int × Int)) (v : Int → ℝ) (i : Int) : ℝ := ((m.filter fun e => e.1 = i).map fun e => v e.2).sum

/-- `transformMatrixYXZ * v`. -/
def mulYXZ (m : List (Int × Int)) (v : Int → ℝ) (k : Int) : ℝ := ((m.filter fun e => e.2 = k).map fun e => v e.1).sum

/-- `getCoordinates`, Coordinates.cpp:544-575, and `writeCoordinates`, Coordinates.cpp:583-590: the three files as lists of
pairs of an index and a value, in the order of the processes. -/
def coordinateFiles (g : Grid) (owned : List (List Int)) : Out (List (Int × Int) × List (Int × Int) × List (Int × Int)) := do
  let parts ← owned.mapM fun (l : List Int) => l.mapM fun i => do
    let c ← index2coordinate g i
    .ok (i, c)
  .ok (parts.flatten.map fun p => (p.1, p.2.x), parts.flatten.map fun p => (p.1, p.2.y), parts.flatten.map fun p => (p.1, p.2.z))

end Verif.Reorder
