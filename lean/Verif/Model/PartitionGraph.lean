import Verif.Model.RegularDeriv

/-!
# The graph for the partitioning tools

`getGraph` of `/repo/src/ForwardSolver/Derivatives/FDTD2D.cpp` and `FDTD3D.cpp` on regular grids without variable orders. Points are triples
of indices as in `RegularDeriv.lean`.
-/
namespace Verif.Graph
open Verif Verif.Solver Matrix

/-- The sparse matrices `DxbSparse`, `DybSparse`, `DzbSparse` of a regular grid, `calcDxb` (Derivatives.cpp:700-762), `calcDyb`, `calcDzb`. -/
def backwardSparse {NX NY NZ : ℕ} (s : Int) (DH : ℚ) (a : Axis) : Matrix (Pt NX NY NZ) (Pt NX NY NZ) ℚ := fun i j =>
  if moveTo a i (along a j) = j then
    surfaceEntry (Stencil.bwdRow (axisSize NX NY NZ a) 1 0 (along a i : ℕ) s) (along a j : ℕ) / DH
  else 0

/-- `getGraph`, FDTD2D.cpp:290-316 and FDTD3D.cpp:347-376. The zeros on the diagonal and elsewhere that a sparse matrix may store are left
out. -/
def graph {NX NY NZ : ℕ} (threeD : Bool) (s : Int) (DH : ℚ) : Matrix (Pt NX NY NZ) (Pt NX NY NZ) ℚ :=
  if threeD then
    (backwardSparse s DH .x + backwardSparse s DH .y + backwardSparse s DH .z)ᵀ - backwardSparse s DH .x - backwardSparse s DH .y -
      backwardSparse s DH .z
  else (backwardSparse s DH .x + backwardSparse s DH .y)ᵀ - backwardSparse s DH .x - backwardSparse s DH .y

end Verif.Graph
