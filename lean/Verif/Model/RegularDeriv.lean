import Verif.Model.Solver
import Verif.Model.Stencil
/-!
# Derivative matrices of a regular grid

The matrices that `FDTD2D::initializeMatrices` (FDTD2D.cpp:156-189) and
`FDTD3D::initializeMatrices` (FDTD3D.cpp:183-218) hand to the solvers when the grid is regular.
Grid points are triples of indices; how LAMA numbers and distributes them is left out. A 2D grid
has `NZ = 1`.
-/
namespace Verif.Solver
open Matrix

/-- Points of a regular grid. -/
abbrev Pt (NX NY NZ : ℕ) := Fin NX × Fin NY × Fin NZ

variable {NX NY NZ : ℕ}

/-- Number of points along an axis. -/
def axisSize (NX NY NZ : ℕ) : Axis → ℕ
  | .x => NX
  | .y => NY
  | .z => NZ

/-- Index of a point along an axis. -/
def along : (a : Axis) → Pt NX NY NZ → Fin (axisSize NX NY NZ a)
  | .x, p => p.1
  | .y, p => p.2.1
  | .z, p => p.2.2

/-- The point with another index along an axis. -/
def moveTo : (a : Axis) → Pt NX NY NZ → Fin (axisSize NX NY NZ a) → Pt NX NY NZ
  | .x, p, k => (k, p.2)
  | .y, p, k => (p.1, k, p.2.2)
  | .z, p, k => (p.1, p.2.1, k)

/-- `Dxf`, `Dyf`, `Dzf` of a regular grid: the one-dimensional stencil matrix along the axis, the
identity across it (`calcDxf(dist)`, `calcDyf(dist)`, `calcDzf(dist)`, Derivatives.cpp:109-121,
194-201, 288-295), times `DT / DH` (FDTD2D.cpp:177-180). -/
noncomputable def forwardMatrix (s : Int) (DT DH : ℝ) (a : Axis) :
    Matrix (Pt NX NY NZ) (Pt NX NY NZ) ℝ := fun i j =>
  if moveTo a i (along a j) = j then
    DT / DH * (Verif.Stencil.fwdStencilEntry (axisSize NX NY NZ a) s (along a i) (along a j) : ℝ)
  else 0

/-- `Dxb`, `Dyb`, `Dzb`: transposed and negated, FDTD2D.cpp:171-174, FDTD3D.cpp:202-207. -/
noncomputable def backwardMatrix (s : Int) (DT DH : ℝ) (a : Axis) :
    Matrix (Pt NX NY NZ) (Pt NX NY NZ) ℝ := -(forwardMatrix s DT DH a).transpose

/-- The matrices of a regular grid without free surface. The getters of staggered matrices fall back
to the plain ones (Derivatives.cpp:1772-1990). The matrices of the free surface are not built; as
they are not used without a free surface, zero matrices stand in for them. -/
noncomputable def regularDeriv (NX NY NZ : ℕ) (s : Int) (DT DH : ℝ) : Deriv (Pt NX NY NZ) where
  Dxf := forwardMatrix s DT DH .x
  Dxb := backwardMatrix s DT DH .x
  Dyf := forwardMatrix s DT DH .y
  Dyb := backwardMatrix s DT DH .y
  Dzf := forwardMatrix s DT DH .z
  Dzb := backwardMatrix s DT DH .z
  DyfFS := 0
  DybFS := 0
  DyfSX := forwardMatrix s DT DH .y
  DybSX := backwardMatrix s DT DH .y
  DyfSZ := forwardMatrix s DT DH .y
  DybSZ := backwardMatrix s DT DH .y
  DybSXFS := 0
  DybSZFS := 0
  interFull := none
  interSX := none
  interSZ := none
  interSXZ := none

/-- Entry of the row of a free surface matrix; a row the code cannot build counts as empty (see C25
for the orders for which all rows are built). -/
def surfaceEntry (row : Out (List (Int × ℚ))) (c : Int) : ℚ :=
  match row with
  | .ok r => Verif.Stencil.entry r c
  | _ => 0

/-- `DyfFreeSurface` of a regular grid, `calcDyfFreeSurface` (Derivatives.cpp:360-442), times
`DT / DH` (FDTD2D.cpp:243-265, FDTD3D.cpp:312-345). With `useHybridFreeSurface` the same matrix is
stored as stencil plus differences. -/
noncomputable def surfaceForward (s : Int) (DT DH : ℝ) : Matrix (Pt NX NY NZ) (Pt NX NY NZ) ℝ :=
  fun i j =>
    if moveTo .y i (along .y j) = j then
      DT / DH * (surfaceEntry (Verif.Stencil.fwdFreeSurfaceRow NY 1 (along .y i : ℕ) s)
        (along .y j : ℕ) : ℝ)
    else 0

/-- `DybFreeSurface`, `calcDybFreeSurface` (Derivatives.cpp:446-527), in the same way. -/
noncomputable def surfaceBackward (s : Int) (DT DH : ℝ) : Matrix (Pt NX NY NZ) (Pt NX NY NZ) ℝ :=
  fun i j =>
    if moveTo .y i (along .y j) = j then
      DT / DH * (surfaceEntry (Verif.Stencil.bwdFreeSurfaceRow NY 1 (along .y i : ℕ) s)
        (along .y j : ℕ) : ℝ)
    else 0

/-- The matrices of a regular grid with those of the free surface. The getters of the staggered
matrices with free surface fall back to the plain ones (Derivatives.cpp:1772-1835). Not modelled:
`DybFreeSurface` is built only for the elastic equations, and `Dyf` is purged for the others; the
solvers of the other seismic equations use neither in that case. -/
noncomputable def surfaceDeriv (NX NY NZ : ℕ) (s : Int) (DT DH : ℝ) : Deriv (Pt NX NY NZ) :=
  { regularDeriv NX NY NZ s DT DH with
    DyfFS := surfaceForward s DT DH
    DybFS := surfaceBackward s DT DH
    DybSXFS := surfaceBackward s DT DH
    DybSZFS := surfaceBackward s DT DH }

end Verif.Solver
