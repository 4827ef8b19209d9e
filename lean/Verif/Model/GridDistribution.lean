import Verif.Model.Grid
import Mathlib.Data.Rat.Floor
/-!
# Sizes of the grid in `Coordinates` and in the distributions of `/repo/src/Partitioning/Partitioning.hpp`

`NX`, `NY`, `NZ` are the values of the configuration, `per` is the argument `NXPerShot`, `D` the factor of the grid for the inversion.
-/
namespace Verif.GridDist
open Verif

/-- `ceil(a / D)` converted to an integer; for `D = 0` the quotient is not a number or infinite and the conversion undefined. -/
def ceilQuot (a : ℚ) (D : Int) : Out Int := if D = 0 then .ub else .ok ⌈a / D⌉

/-- `Coordinates::init`, Coordinates.cpp:32-38 and, for regular grids, 268-295. -/
def coordinates (NX NY NZ D : Int) (per : ℚ) : Out Grid.Grid := do
  let nx ← if per < NX then ceilQuot NX D else ceilQuot per D
  let ny ← ceilQuot NY D
  let nz ← ceilQuot NZ D
  Grid.initRegular nx ny nz

/-- The spacing of the grid, Coordinates.cpp:39. -/
def spacing (DH : ℚ) (D : Int) : ℚ := DH * D

/-- Sizes of a `common::Grid3D` (first to last dimension). -/
structure Sizes where
  n0 : Int
  n1 : Int
  n2 : Int
  deriving DecidableEq, Repr

/-- Conversion of a number to an integer. -/
def trunc (q : ℚ) : Int := if 0 ≤ q then ⌊q⌋ else ⌈q⌉

/-- `gridPartition`, Partitioning.hpp:88-99: the grid that is distributed. -/
def gridPartition (NX NY NZ : Int) (per : ℚ) : Sizes := ⟨NY, NZ, if per < NX then NX else trunc per⟩

/-- `gridPartitionInversion`, Partitioning.hpp:108-121. -/
def gridPartitionInversion (NX NY NZ D : Int) (per : ℚ) : Out Sizes := do
  let nx ← if per < NX then ceilQuot NX D else ceilQuot per D
  let ny ← ceilQuot NY D
  let nz ← ceilQuot NZ D
  .ok ⟨ny, nz, nx⟩

/-- Contract of `common::Grid3D`: number of points. -/
def Sizes.size (s : Sizes) : Int := s.n0 * s.n1 * s.n2

/-- Contract of `common::Grid3D::linearPos`: row-major position of the point with the indices `i0`, `i1`, `i2`. -/
def Sizes.linearPos (s : Sizes) (i0 i1 i2 : Int) : Int := (i0 * s.n1 + i1) * s.n2 + i2

end Verif.GridDist
