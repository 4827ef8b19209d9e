import Verif.Model.Grid
import Mathlib.Analysis.SpecialFunctions.Pow.Real
import Mathlib.Analysis.SpecialFunctions.Log.Basic
import Mathlib.Analysis.SpecialFunctions.Sqrt
import Mathlib.Analysis.Real.Pi.Bounds
/-!
# Absorbing boundaries: the damping frame (ABS) and the CPML

`/repo/src/ForwardSolver/BoundaryCondition/ABS2D.cpp`, `ABS3D.cpp`, `CPML.cpp`,
`CPML2DAcoustic.cpp`, `CPML2D.cpp`, `CPML3DAcoustic.cpp`, `CPML3D.cpp`. Values are exact reals;
rounding, overflow and underflow are not modelled. `sqrt` and `log` of a negative number (NaN in
the code) are real-valued junk here, so theorems exclude damping coefficients outside [0,100).
-/
namespace Verif.Boundary
open Verif.Grid

/-- `coeff[j]`, ABS2D.cpp:129-137 = ABS3D.cpp:172-180. -/
noncomputable def absCoeff (W : Int) (D : ℝ) (j : Int) : ℝ :=
  let amp := 1 - D / 100
  let a := √(-Real.log amp / ((W : ℝ) * W))
  Real.exp (-(a * a * ((W - j : Int) : ℝ) * ((W - j : Int) : ℝ)))

/-- Read of the array `coeff` of length `W`. -/
noncomputable def absCoeffAt (W : Int) (D : ℝ) (j : Int) : Out ℝ :=
  if 0 ≤ j ∧ j < W then .ok (absCoeff W D j) else .ub

/-- Damping factor of one grid point, `ABS2D::init`, ABS2D.cpp:110-178. The sparse vector
`damping` is 1 where nothing is pushed. -/
noncomputable def damping2D (g : Grid) (W : Int) (D : ℝ) (useFreeSurface : Int) (c : Coord) :
    Out ℝ := do
  let dist ← edgeDistance g c
  let coordinateMin := if dist.x < dist.y then dist.x else dist.y
  if useFreeSurface = 0 then
    if coordinateMin < W then absCoeffAt W D coordinateMin else pure 1
  else if c.y < W then
    if dist.x < W then absCoeffAt W D dist.x else pure 1
  else if coordinateMin < W then absCoeffAt W D coordinateMin else pure 1

/-- `coordinate3D::min`, Coordinates.hpp:40-52. -/
def coordMin (c : Coord) : Int :=
  let temp := if c.x < c.y then c.x else c.y
  if c.z < temp then c.z else temp

/-- Damping factor of one grid point, `ABS3D::init`, ABS3D.cpp:151-218. -/
noncomputable def damping3D (g : Grid) (W : Int) (D : ℝ) (useFreeSurface : Int) (c : Coord) :
    Out ℝ := do
  let dist ← edgeDistance g c
  let coordinateMin := coordMin dist
  if useFreeSurface = 0 then
    if coordinateMin < W then absCoeffAt W D coordinateMin else pure 1
  else
    let coordinatexzMin := if ¬ (dist.x < dist.z) then dist.z else dist.x
    if c.y < W then
      if dist.z < W ∨ dist.x < W then absCoeffAt W D coordinatexzMin else pure 1
    else if coordinateMin < W then absCoeffAt W D coordinateMin else pure 1

/-! ### CPML -/

/-- Parameters of the CPML (configuration values and the grid spacing of the layer). -/
structure CPMLPar where
  NPower : ℝ
  fc : ℝ
  vmax : ℝ
  DT : ℝ
  DH : ℝ

/-- The damping `d` of entry `i`, CPML.cpp:39-57; `shiftGrid` moves the point by half a cell. -/
noncomputable def cpmlD (q : CPMLPar) (W i : Nat) (shiftGrid : Bool) : ℝ :=
  let shift : ℝ := if shiftGrid then 0.5 else 0
  let d0 := -(q.NPower + 1) * q.vmax * Real.log 0.0008 / (2 * W * q.DH)
  let pos := ((W : ℝ) - i - shift) / W
  d0 * pos ^ q.NPower

/-- `alpha_prime` of entry `i`, CPML.cpp:58. -/
noncomputable def cpmlAlpha (q : CPMLPar) (W i : Nat) (shiftGrid : Bool) : ℝ :=
  let shift : ℝ := if shiftGrid then 0.5 else 0
  let alpha_max := 2 * Real.pi * (q.fc / 2)
  let pos := ((W : ℝ) - i - shift) / W
  alpha_max * (1 - pos)

/-- `b[i]`, CPML.cpp:59. -/
noncomputable def cpmlB (q : CPMLPar) (W i : Nat) (shiftGrid : Bool) : ℝ :=
  Real.exp (-(cpmlD q W i shiftGrid + cpmlAlpha q W i shiftGrid) * q.DT)

/-- `a[i]`, CPML.cpp:60-65. -/
noncomputable def cpmlA (q : CPMLPar) (W i : Nat) (shiftGrid : Bool) : ℝ :=
  if |cpmlD q W i shiftGrid| > 1.0e-6 then
    cpmlD q W i shiftGrid * (cpmlB q W i shiftGrid - 1) /
      (cpmlD q W i shiftGrid + cpmlAlpha q W i shiftGrid)
  else 0

/-- Coefficients of one grid point and one axis: `a_x`, `b_x` act at the full grid points,
`a_x_half`, `b_x_half` at the points shifted by half a cell. -/
structure AxisCoef where
  a : ℝ
  b : ℝ
  a_half : ℝ
  b_half : ℝ

/-- Nothing pushed: the vectors keep the value zero (`initVector`, CPML.cpp:16-24). -/
def AxisCoef.none : AxisCoef := { a := 0, b := 0, a_half := 0, b_half := 0 }

/-- Width of the boundary in grid points of a layer with grid factor `d`,
`std::ceil((float)BoundaryWidth / DHFactor)`, CPML2DAcoustic.cpp:137 and 163. -/
def layerWidth (W d : Int) : Int := (W + d - 1).tdiv d

/-- Coefficients of one axis at one grid point, CPML2DAcoustic.cpp:163-199 (the same code in
CPML2D.cpp, CPML3DAcoustic.cpp, CPML3D.cpp). `x` is the coordinate, `dist` the edge distance of
the axis, `d` the grid factor of the layer. `skipLow` stands for `useFreeSurface != 0` on the
y axis and is false on the other axes. -/
noncomputable def axisCoef (q : CPMLPar) (W d x dist : Int) (skipLow : Bool) : Out AxisCoef :=
  let width := layerWidth W d
  let xDist := dist.tdiv d
  if xDist < width then
    if xDist < 0 then .ub else
    let i := xDist.toNat
    let w := width.toNat
    let low := x.tdiv d
    if low < width then
      if skipLow then .ok AxisCoef.none
      else .ok { a := cpmlA q w i false, b := cpmlB q w i false,
                 a_half := cpmlA q w i true, b_half := cpmlB q w i true }
    else .ok { a := cpmlA q w i true, b := cpmlB q w i true,
               a_half := cpmlA q w i false, b_half := cpmlB q w i false }
  else .ok AxisCoef.none

/-- `CPML2DAcoustic::init`: the coefficients of the x and y axis at grid point `c`. `par` maps the
layer to the parameters (only `DH` differs). -/
noncomputable def cpml2D (g : Grid) (par : Nat → CPMLPar) (W useFreeSurface : Int) (c : Coord) :
    Out (AxisCoef × AxisCoef) := do
  let layer := getLayer g c.y
  let dist ← edgeDistance g c
  let d ← (match g.layers[layer]? with
    | some l => Out.ok l.dh
    | none => .ub)
  let cx ← axisCoef (par layer) W d c.x dist.x false
  let cy ← axisCoef (par layer) W d c.y dist.y (useFreeSurface != 0)
  pure (cx, cy)

/-- `applyCPML` at one grid point, CPML.cpp:84-95: returns the corrected derivative and the new
memory variable. -/
noncomputable def applyCPML (a b psi v : ℝ) : ℝ × ℝ :=
  let psi' := b * psi + a * v
  (v + psi', psi')

/-- Memory variable after feeding the derivatives `vs` one after the other. -/
noncomputable def cpmlMemory (a b : ℝ) (psi : ℝ) : List ℝ → ℝ
  | [] => psi
  | v :: vs => cpmlMemory a b (applyCPML a b psi v).2 vs

/-- `resetVector`, CPML.cpp:5-10. -/
noncomputable def resetCPML (_psi : ℝ) : ℝ := 0

end Verif.Boundary
