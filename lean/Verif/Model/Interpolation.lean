import Verif.Model.Grid
import Mathlib.Data.Rat.Defs
import Mathlib.Algebra.Field.Rat
/-!
# Interpolation matrices of variable grids

`/repo/src/ForwardSolver/Derivatives/Derivatives.cpp`, `calcInterpolationFull` (1251-1333),
`calcInterpolationStaggeredX` (1351-1440), `calcInterpolationStaggeredZ` (1458-1546),
`calcInterpolationStaggeredXZ` (1564-1652). One row is the list of (column index, weight) pairs
pushed for one grid point; pairs with the same column add up.
-/
namespace Verif.Interp
open Verif.Grid

/-- `getTransition`, Coordinates.cpp:524-537: the transition of the last layer that ends at the
interface `y`. -/
def getTransition (g : Grid) (y : Int) : Out Int :=
  if locatedOnInterface g y then
    .ok ((g.layers.zip g.interfaces.tail).foldl (fun t p => if y = p.2 then p.1.transition else t) 0)
  else .err

/-- `getDHFactor(layer)`, Coordinates.cpp:453-456. -/
def dhAt (g : Grid) (layer : Nat) : Out Int :=
  match g.layers[layer]? with
  | some l => .ok l.dh
  | none => .ub

/-- The points pushed for the grid point `c` on an interface, Derivatives.cpp:1291-1327, 1391-1430,
1498-1536, 1604-1642. `d` is the grid factor of the layer, `fine` that of the finer of the two
neighbouring layers; `stX`, `stZ` say whether the field is staggered in x or z. -/
def interfacePoints (NX NZ d fine : Int) (stX stZ : Bool) (c : Coord) : List (Coord × ℚ) :=
  let modx := (if stX then c.x - d.tdiv 2 else c.x).tmod d
  let modz := (if stZ then c.z - d.tdiv 2 else c.z).tmod d
  let kx : Int := if stX then 1 else 2
  let kz : Int := if stZ then 1 else 2
  let denom : ℚ := 1 / ((d * d : Int) : ℚ)
  (if (stX = true → c.x ≥ modx) ∧ (stZ = true → c.z ≥ modz) then
    [((⟨c.x - modx, c.y, c.z - modz⟩ : Coord), (((d - modx) * (d - modz) : Int) : ℚ) * denom)]
    else []) ++
  (if c.x + kx * fine < NX then
    [((⟨c.x + d - modx, c.y, c.z - modz⟩ : Coord), ((modx * (d - modz) : Int) : ℚ) * denom)]
    else []) ++
  (if ((stX = true ∨ stZ = true) → c.x ≥ modx) ∧ c.z + kz * fine < NZ then
    [((⟨c.x - modx, c.y, c.z + d - modz⟩ : Coord), (((d - modx) * modz : Int) : ℚ) * denom)]
    else []) ++
  (if c.x + kx * fine < NX ∧ c.z + kz * fine < NZ then
    [((⟨c.x + d - modx, c.y, c.z + d - modz⟩ : Coord), ((modx * modz : Int) : ℚ) * denom)]
    else [])

/-- Column indices of the pushed points. -/
def toColumns (g : Grid) : List (Coord × ℚ) → Out (List (Int × ℚ))
  | [] => .ok []
  | p :: ps => do
    let i ← coordinate2index g p.1
    let r ← toColumns g ps
    .ok ((i, p.2) :: r)

/-- One row of an interpolation matrix. -/
def interpRow (g : Grid) (stX stZ : Bool) (i : Int) : Out (List (Int × ℚ)) := do
  let c ← index2coordinate g i
  let layer := getLayer g c.y
  let d ← dhAt g layer
  if d = 0 then .ub
  else if locatedOnInterface g c.y then do
    let t ← getTransition g c.y
    let fine ← (if t = 1 then (if layer = 0 then .ub else dhAt g (layer - 1))
      else if t = -1 then dhAt g (layer + 1) else .ok d : Out Int)
    toColumns g (interfacePoints g.NX g.NZ d fine stX stZ c)
  else .ok [(i, 1)]

/-- Value of a row on a field given by grid index. -/
def rowValue (row : List (Int × ℚ)) (f : Int → ℚ) : ℚ := (row.map fun e => e.2 * f e.1).sum

end Verif.Interp
