import Verif.Model.RegularDeriv
import Verif.Model.Boundary
/-!
# CPML coefficients of a regular grid

The coefficient vectors that `CPML2D::init`, `CPML3D::init` and their acoustic and electromagnetic
variants assemble on a regular grid.
-/
namespace Verif.Solver
open Verif.Boundary

variable {NX NY NZ : ℕ}

/-- Coefficients of one axis at one point, CPML3D.cpp:292-353 (`edgeDistance` is
`min x (N - 1 - x)`, the grid factor of the only layer is 1). The two-dimensional classes have no
vectors for the z axis (CPML2D.cpp): `three` is false. -/
noncomputable def regularCoef (q : CPMLPar) (W : ℕ) (useFreeSurface : ℕ) (three : Bool) (x : Axis)
    (i : Pt NX NY NZ) : AxisCoef :=
  if x = .z ∧ three = false then AxisCoef.none
  else
    match axisCoef q W 1 (along x i : ℕ)
      (min ((along x i : ℕ) : Int) (axisSize NX NY NZ x - 1 - (along x i : ℕ)))
      (x = .y ∧ useFreeSurface ≠ 0) with
    | .ok k => k
    | _ => AxisCoef.none

/-- The coefficient vectors of all axes. -/
noncomputable def regularPML (q : CPMLPar) (W : ℕ) (useFreeSurface : ℕ) (three : Bool) :
    PML (Pt NX NY NZ) where
  a := fun x i => (regularCoef q W useFreeSurface three x i).a
  b := fun x i => (regularCoef q W useFreeSurface three x i).b
  aHalf := fun x i => (regularCoef q W useFreeSurface three x i).a_half
  bHalf := fun x i => (regularCoef q W useFreeSurface three x i).b_half

end Verif.Solver
