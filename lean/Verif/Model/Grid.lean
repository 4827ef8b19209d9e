import Verif.Model.Outcome
/-!
# Grid: `/repo/src/Acquisition/Coordinates.cpp`, `Coordinates.hpp`

Model of the mapping between the linear model index and 3-D grid coordinates, for
regular grids and for grids made of horizontal layers coarsened by `3^n`.

Simplifications for the whole file: `IndexType` is an unbounded `Int` (no overflow);
the parallel vectors `varNX, varNY, varNZ, layerStart, layerEnd, dhFactor, transition`
are one list of records; `varDH`, `x0` … are not modelled (not used by the mapping).
C++ `/` on integers is `Int.tdiv`.
-/
namespace Verif.Grid

/-- `coordinate3D`, Coordinates.hpp:15-53. -/
structure Coord where
  x : Int
  y : Int
  z : Int
  deriving DecidableEq, Repr

/-- One entry of the per-layer vectors, Coordinates.hpp:118-153. -/
structure Layer where
  /-- `dhFactor[layer]` -/
  dh : Int
  /-- `varNX[layer]` -/
  nx : Int
  /-- `varNY[layer]` -/
  ny : Int
  /-- `varNZ[layer]` -/
  nz : Int
  /-- `layerStart[layer]` -/
  start : Int
  /-- `layerEnd[layer]` -/
  stop : Int
  /-- `transition[layer]` -/
  transition : Int
  deriving DecidableEq, Repr

/-- `nGridpointsPerLayer[layer]`, Coordinates.cpp:242. -/
def Layer.n (l : Layer) : Int := l.nx * l.ny * l.nz

/-- The members of `Coordinates` used here. `interfaces` is the vector
`interface[0..numLayers]` (first entry `-1`). -/
structure Grid where
  NX : Int
  NY : Int
  NZ : Int
  interfaces : List Int
  layers : List Layer
  deriving DecidableEq, Repr

/-- `nGridpoints`, Coordinates.cpp:243/282. -/
def Grid.n (g : Grid) : Int := (g.layers.map Layer.n).sum

/-! ### Index → coordinate -/

/-- Coordinates.cpp:626-642, once the layer is known. `varNX*varNZ = 0` or
`varNX = 0` divides by zero. -/
def coordInLayer (l : Layer) (i : Int) : Out Coord :=
  if l.nx * l.nz = 0 then .ub
  else
    let y := i.tdiv (l.nx * l.nz)
    let i := i - y * (l.nx * l.nz)
    let z := i.tdiv l.nx
    let i := i - z * l.nx
    .ok { x := i * l.dh, y := y * l.dh + l.start, z := z * l.dh }

/-- `mapIndex2coordinate`, Coordinates.cpp:615-645. Running off the end of the layer
list leaves `layer == numLayers`, and the vectors are then read out of bounds. -/
def mapIndex : List Layer → Int → Out Coord
  | [], _ => .ub
  | l :: ls, i => if i ≥ l.n then mapIndex ls (i - l.n) else coordInLayer l i

/-- `index2coordinate`, Coordinates.cpp:656-659. -/
def index2coordinate (g : Grid) (i : Int) : Out Coord := mapIndex g.layers i

/-! ### Coordinate → index -/

/-- Coordinates.cpp:678-691: first layer whose `[layerStart, layerEnd]` contains `Y`;
`acc` is the number of grid points in the layers before. No layer: out-of-bounds
read of `dhFactor[numLayers]`. -/
def lookup (X Y Z : Int) : List Layer → Int → Out Int
  | [], _ => .ub
  | l :: ls, acc =>
    if Y ≤ l.stop ∧ Y ≥ l.start then
      if l.dh = 0 then .ub
      else .ok (X.tdiv l.dh + Z.tdiv l.dh * l.nx + (Y - l.start).tdiv l.dh * l.nx * l.nz + acc)
    else lookup X Y Z ls (acc + l.n)

/-- The six range asserts, Coordinates.cpp:671-676 and 736-741. -/
def inRange (g : Grid) (c : Coord) : Bool :=
  c.x < g.NX && c.y < g.NY && c.z < g.NZ && c.x ≥ 0 && c.y ≥ 0 && c.z ≥ 0

/-- `map3Dcoordinate2index` / `coordinate2index`, Coordinates.cpp:668-724. -/
def coordinate2index (g : Grid) (c : Coord) : Out Int :=
  if inRange g c then lookup c.x c.y c.z g.layers 0 else .err

/-! ### Constructors -/

/-- `init()` for regular grids, Coordinates.cpp:268-295 (called with a fresh object; the
asserts are evaluated last but nothing before them can fail). -/
def initRegular (NX NY NZ : Int) : Out Grid :=
  if NX > 0 ∧ NY > 0 ∧ NZ > 0 then
    .ok { NX, NY, NZ, interfaces := [-1, NY - 1],
          layers := [{ dh := 1, nx := NX, ny := NY, nz := NZ, start := 0, stop := NY - 1,
                       transition := 0 }] }
  else .err

/-- Is `d` a power of three? Stands for the logarithm test Coordinates.cpp:146
(simplification: evaluated exactly, whereas the C++ compares rounded logarithms).
`fuel` bounds the number of divisions. -/
def isPow3 : Nat → Int → Bool
  | 0, _ => false
  | f + 1, d => d = 1 || (d % 3 = 0 && d > 0 && isPow3 f (d / 3))

/-- `log 0 = -∞` passes the test of Coordinates.cpp:146, so `0` is accepted there. -/
def acceptFactor (d : Int) : Bool := d = 0 || isPow3 (d.toNat + 1) d

/-- Coordinates.cpp:155-160 (and 162-167): decrement until
`N == (N / dhMax) * dhMax + 1 + dhMax / 2`. For `N < 0` the test can never succeed, the
C++ loop then decrements past `INT_MIN`: `none`. -/
def fitDown (dhMax : Int) : Nat → Option Int
  | 0 => if (0 : Int) = (Int.tdiv 0 dhMax) * dhMax + 1 + dhMax.tdiv 2 then some 0 else none
  | n + 1 =>
    let N : Int := n + 1
    if N = (N.tdiv dhMax) * dhMax + 1 + dhMax.tdiv 2 then some N else fitDown dhMax n

/-- Coordinates.cpp:179-197, one interface: decrement while `(i - base)/d` is not an
integer. `none` if the fuel does not suffice. -/
def decLoop (d base : Int) : Nat → Int → Option Int
  | 0, _ => none
  | f + 1, i => if (i - base) % d = 0 then some i else decLoop d base f (i - 1)

/-- Coordinates.cpp:179-197 over all interfaces: interface `k+1` is aligned to
`dhFactor[k]` relative to interface `k` (the first one relative to 0). -/
def adjust : Int → List Int → List Int → Option (List Int)
  | base, d :: ds, j :: js =>
    match decLoop d base (d.toNat + 1) j with
    | none => none
    | some i => (adjust i ds js).map (i :: ·)
  | _, _, _ => some []

/-- Coordinates.cpp:231-246: sizes of one layer. -/
def mkLayer (NX NZ d start stop transition : Int) : Layer :=
  { dh := d, nx := if d > 1 then NX.tdiv d + 1 else NX.tdiv d,
    ny := (stop - start).tdiv d + 1,
    nz := if d > 1 then NZ.tdiv d + 1 else NZ.tdiv d,
    start, stop, transition }

/-- Coordinates.cpp:209-228: start, end and transition of every layer.
Arguments: start of the current layer, remaining factors, remaining interfaces. -/
def buildLayers (NX NZ : Int) : Int → List Int → List Int → List Layer
  | start, d :: d' :: ds, i :: is =>
    if d < d' then
      mkLayer NX NZ d start i 1 :: buildLayers NX NZ (i + d') (d' :: ds) is
    else if d > d' then
      mkLayer NX NZ d start (i - d) (-1) :: buildLayers NX NZ i (d' :: ds) is
    else
      mkLayer NX NZ d start (i - d) 0 :: buildLayers NX NZ i (d' :: ds) is
  | start, [d], i :: _ => [mkLayer NX NZ d start i 0]
  | _, _, _ => []

/-- `dhMax`, Coordinates.cpp:143-149. -/
def maxFactor (dhs : List Int) : Int := dhs.foldl (fun m d => if d > m then d else m) 0

/-- `init(dhFactors, interfaces)`, Coordinates.cpp:115-247. A factor `0` ends in a
division by zero (line 156, 182 or 234). -/
def initVar (NX NY NZ : Int) (dhs ifs : List Int) : Out Grid :=
  if dhs = [] then .err
  else if ifs.length ≠ dhs.length - 1 then .err
  else if ¬ (NX > 0 ∧ NY > 0 ∧ NZ > 0) then .err
  else if ¬ dhs.all acceptFactor then .err
  else if dhs.contains 0 then .ub
  else
    let dhMax := maxFactor dhs
    if dhMax ≠ 1 then
      match fitDown dhMax NX.toNat,
            (if NZ = 1 then some 1 else fitDown dhMax NZ.toNat),
            adjust 0 dhs (ifs ++ [NY - 1]) with
      | some NX', some NZ', some is =>
        .ok { NX := NX', NY := is.getLastD (-1) + 1, NZ := NZ', interfaces := -1 :: is,
              layers := buildLayers NX' NZ' 0 dhs is }
      | _, _, _ => .ub
    else
      let is := ifs ++ [NY - 1]
      .ok { NX, NY := is.getLastD (-1) + 1, NZ, interfaces := -1 :: is,
            layers := buildLayers NX NZ 0 dhs is }

/-- Grid checks made when the configuration is read, Coordinates.cpp:63-70: interfaces
strictly increasing and neighbouring factors equal or a factor three apart. -/
def checkGridConfig (dhs ifs : List Int) : Bool :=
  (ifs.zip (ifs.drop 1)).all (fun p => p.2 > p.1) &&
  (dhs.zip (dhs.drop 1)).all (fun p => p.2 = p.1 * 3 || p.2 = p.1.tdiv 3 || p.2 = p.1)

/-- Variable-grid branch of `init(config, …)`, Coordinates.cpp:44-72: the first column
must start with interface 0, which is dropped. -/
def initVarConfig (NX NY NZ : Int) (dhs col0 : List Int) : Out Grid :=
  match col0 with
  | [] => .err                      -- `interface.at(0)` throws
  | i0 :: ifs =>
    if i0 ≠ 0 then .err
    else if ¬ checkGridConfig dhs ifs then .err
    else initVar NX NY NZ dhs ifs

/-! ### Layer queries -/

/-- Loop of `getLayer`, Coordinates.cpp:391-406, from layer number `k` on.
`lo` is `interface[layer]`. -/
def getLayerFrom (y : Int) : Nat → Int → List Layer → List Int → Nat
  | k, lo, l :: ls, hi :: his =>
    if y < hi ∧ y > lo then k
    else if y = hi then (if l.transition > 0 then k + 1 else k)
    else getLayerFrom y (k + 1) hi ls his
  | k, _, _, _ => k

/-- `getLayer`, Coordinates.cpp:391-406. -/
def getLayer (g : Grid) (y : Int) : Nat :=
  match g.interfaces with
  | lo :: his => getLayerFrom y 0 lo g.layers his
  | [] => 0

/-- `locatedOnInterface`, Coordinates.cpp:482-491: compares with
`interface[0 .. numLayers-1]`. -/
def locatedOnInterface (g : Grid) (y : Int) : Bool :=
  (g.interfaces.take g.layers.length).contains y

/-- `distToInterface`, Coordinates.cpp:498-507: minimum over the inner interfaces,
starting from `NY`. -/
def distToInterface (g : Grid) (y : Int) : Int :=
  (g.interfaces.tail.dropLast).foldl
    (fun dist i => if ((y - i).natAbs : Int) < dist then ((y - i).natAbs : Int) else dist) g.NY

/-- `estimateDistanceToEdges3D` / `edgeDistance`, Coordinates.cpp:734-761. -/
def edgeDistance (g : Grid) (c : Coord) : Out Coord :=
  if inRange g c then
    .ok { x := if ¬ (g.NX - 1 - c.x < c.x) then c.x else g.NX - 1 - c.x,
          y := if ¬ (g.NY - 1 - c.y < c.y) then c.y else g.NY - 1 - c.y,
          z := if ¬ (g.NZ - 1 - c.z < c.z) then c.z else g.NZ - 1 - c.z }
  else .err

/-- `locatedOnSurface`, Coordinates.cpp:598-607. -/
def locatedOnSurface (g : Grid) (i : Int) : Out Bool := do
  let c ← index2coordinate g i
  pure (c.y = 0)

end Verif.Grid
