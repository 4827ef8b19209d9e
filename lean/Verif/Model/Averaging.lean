import Verif.Model.Interpolation
/-!
# Averaging matrices of the model parameters

`/repo/src/Modelparameter/Modelparameter.cpp`, 330-651. One row of a matrix is the list of
(column, weight) pairs pushed for one grid point, as in `Verif.Interp`. The matrices are modelled
on the whole grid; how rows are distributed over processes is left out. Weights are exact
rationals.
-/
namespace Verif.Avg
open Verif.Grid Verif.Interp

/-- The six averaging matrices of the library. -/
inductive Dir | x | y | z | xy | xz | yz
  deriving DecidableEq, Repr

/-- Columns for a list of coordinates that all get the weight `w`. -/
def cols (g : Grid) (w : ℚ) (cs : List Coord) : Out (List (Int × ℚ)) :=
  toColumns g (cs.map fun c => (c, w))

/-- Row of a two-point average: `n` is the coordinate of the neighbour and `inside` says whether it
is still in the model. Modelparameter.cpp:352-361, 396-402, 429-438. -/
def twoPoint (g : Grid) (i : Int) (inside : Bool) (n : Coord) : Out (List (Int × ℚ)) :=
  if inside then do
    let r ← cols g (1 / 2) [n]
    .ok ((i, 1 / 2) :: r)
  else .ok [(i, 1)]

/-- `calc4PointAverageMatrixRow`, Modelparameter.cpp:449-528. `p1`..`p4` are the entries 1..4 of
the arrays `pX`, `pY`, `pZ`; the entry 0 is always 0. The seven `if`s of the code exclude one
another, so they are written as one match on the three comparisons; nothing is pushed when all
three maxima are outside. -/
def fourPoint (g : Grid) (i : Int) (p1 p2 p3 p4 : Coord) : Out (List (Int × ℚ)) :=
  let maxX := max (max (max (max 0 p1.x) p2.x) p3.x) p4.x
  let maxY := max (max (max (max 0 p1.y) p2.y) p3.y) p4.y
  let maxZ := max (max (max (max 0 p1.z) p2.z) p3.z) p4.z
  match decide (maxX < g.NX), decide (maxY < g.NY), decide (maxZ < g.NZ) with
  | true, true, true => do
    let r ← cols g (1 / 4) [p2, p3, p4]
    .ok ((i, 1 / 4) :: r)
  | true, false, true => do
    let r ← cols g (1 / 2) [⟨maxX, p1.y, maxZ⟩]
    .ok (r ++ [(i, 1 / 2)])
  | false, true, true => do
    let r ← cols g (1 / 2) [⟨p1.x, maxY, maxZ⟩]
    .ok (r ++ [(i, 1 / 2)])
  | true, true, false => do
    let r ← cols g (1 / 2) [⟨maxX, maxY, p1.z⟩]
    .ok (r ++ [(i, 1 / 2)])
  | false, false, true => .ok [(i, 1)]
  | true, false, false => .ok [(i, 1)]
  | false, true, false => .ok [(i, 1)]
  | false, false, false => .ok []

/-- One row of `averageMatrixX` (336-365), `Y` (373-409), `Z` (416-442), `XY` (534-558),
`XZ` (566-592), `YZ` (600-624). -/
def averageRow (g : Grid) (dir : Dir) (i : Int) : Out (List (Int × ℚ)) := do
  let c ← index2coordinate g i
  let layer := getLayer g c.y
  match dir with
  | .x => do
    let d ← dhAt g layer
    twoPoint g i (decide (c.x + d < g.NX)) ⟨c.x + d, c.y, c.z⟩
  | .y => do
    let t ← (if locatedOnInterface g c.y then getTransition g c.y else .ok 1 : Out Int)
    let d ← dhAt g (if locatedOnInterface g c.y ∧ t = 0 then layer + 1 else layer)
    twoPoint g i (decide (c.y + d < g.NY)) ⟨c.x, c.y + d, c.z⟩
  | .z => do
    let d ← dhAt g layer
    twoPoint g i (decide (c.z + d < g.NZ)) ⟨c.x, c.y, c.z + d⟩
  | .xy => do
    let d ← dhAt g layer
    fourPoint g i c ⟨c.x + d, c.y, c.z⟩ ⟨c.x, c.y + d, c.z⟩ ⟨c.x + d, c.y + d, c.z⟩
  | .xz => do
    let d ← dhAt g layer
    fourPoint g i c ⟨c.x + d, c.y, c.z⟩ ⟨c.x, c.y, c.z + d⟩ ⟨c.x + d, c.y, c.z + d⟩
  | .yz => do
    let d ← dhAt g layer
    fourPoint g i c ⟨c.x, c.y + d, c.z⟩ ⟨c.x, c.y, c.z + d⟩ ⟨c.x, c.y + d, c.z + d⟩

/-- `calcAveragedParameter`, Modelparameter.cpp:648-651: one entry of the averaged vector. -/
def averaged (row : List (Int × ℚ)) (f : Int → ℚ) : ℚ := rowValue row f

/-- `calcInverseAveragedParameter`, Modelparameter.cpp:633-641. Division by zero gives an infinity
in the code which `replaceInvalid` turns into 0; exact division by zero gives 0 right away. -/
def inverseAveraged (row : List (Int × ℚ)) (f : Int → ℚ) : ℚ := 1 / rowValue row f

/-- One entry of `calcAveragedSWaveModulus`, ModelparameterSeismic.cpp:421-434. The parameter is
first raised to at least 1 (in place), then averaged harmonically; results below 4 become 0. -/
def averagedSWaveModulus (row : List (Int × ℚ)) (f : Int → ℚ) : ℚ :=
  let r := 1 / rowValue row fun i => 1 / (if f i < 1 then 1 else f i)
  if r < 4 then 0 else r

end Verif.Avg
