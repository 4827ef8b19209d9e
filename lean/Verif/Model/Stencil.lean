import Verif.Model.Outcome
import Mathlib.Data.Rat.Defs
import Mathlib.Algebra.Field.Rat
import Mathlib.Algebra.Order.Ring.Rat
import Mathlib.Algebra.BigOperators.Group.List.Basic
/-!
# Rows of the spatial derivative matrices

`/repo/src/ForwardSolver/Derivatives/Derivatives.cpp`. One axis is modelled at a time: a row is
the list of (coordinate along the axis, coefficient) pairs pushed for one grid point; the other
two coordinates of a column are those of the grid point.
-/
namespace Verif.Stencil

/-- `setFDCoef`, Derivatives.cpp:2001-2042: coefficient table of every order (exact rational
values of the decimal/quotient literals). An order that is not in the map makes
`stencilFDmap[order].values()` point nowhere. -/
def fd (s : Int) : Option (List ℚ) :=
  if s = 2 then some [-1, 1]
  else if s = 4 then some [1/24, -9/8, 9/8, -1/24]
  else if s = 6 then some [-3/640, 25/384, -75/64, 75/64, -25/384, 3/640]
  else if s = 8 then some [5/7168, -49/5120, 245/3072, -1225/1024, 1225/1024, -245/3072,
    49/5120, -5/7168]
  else if s = 10 then some [-8756999275442633/73786976294838206464,
    8142668969129685/4611686018427387904, -567/40960, 735/8192, -19845/16384, 19845/16384,
    -735/8192, 567/40960, -8142668969129685/4611686018427387904,
    8756999275442633/73786976294838206464]
  else if s = 12 then some [6448335830095439/295147905179352825856,
    -1655620175512543/4611686018427387904, 6842103786556949/2305843009213693952,
    -628618285389933/36028797018963968, 436540475965291/4503599627370496,
    -2750204998582123/2251799813685248, 2750204998582123/2251799813685248,
    -436540475965291/4503599627370496, 628618285389933/36028797018963968,
    -6842103786556949/2305843009213693952, 1655620175512543/4611686018427387904,
    -6448335830095439/295147905179352825856]
  else none

/-- `stencilFDmap[s].values()[j]`: undefined behaviour without such an order or entry. -/
def fdAt (s j : Int) : Out ℚ :=
  match fd s with
  | some cs => if 0 ≤ j then (match cs[j.toNat]? with
      | some c => .ok c
      | none => .ub) else .ub
  | none => .ub

/-- The loop of `calcDxf` (Derivatives.cpp:154-180), `calcDyf` (255-274) and `calcDzf`
(329-355) for one grid point at coordinate `x` of an axis with `N` points and grid factor `d`;
`off` is 0, or `-d/3` for x and z on a layer interface. The state is (j, order, coordinate);
`j--` followed by the loop's `j++` keeps `j`. Running out of fuel stands for a loop that does
not end; the division by the grid spacing is left to `apply`. -/
def fwdLoop (N d off : Int) : Nat → Int → Int → Int → Out (List (Int × ℚ))
  | 0, _, _, _ => .ub
  | fuel + 1, j, s, x =>
    if j < s then
      let X := x + off + d * (j - s.tdiv 2 + 1)
      let Xmin := x + off + d * ((-s).tdiv 2 + 1)
      let Xmax := x + off + (d * s).tdiv 2
      if Xmin < 0 then fwdLoop N d off fuel j (s + 2 * Xmin) x
      else if Xmax ≥ N then
        if s - 2 * (Xmax - N + 1) = 0 then fwdLoop N d off fuel j 2 (x - 1)
        else fwdLoop N d off fuel j (s - 2 * (Xmax - N + 1)) x
      else do
        let c ← fdAt s j
        let rest ← fwdLoop N d off fuel (j + 1) s x
        pure ((X, c) :: rest)
    else .ok []

/-- Row of a forward derivative matrix; the fuel is more than any terminating run needs. -/
def fwdRow (N d off x s : Int) : Out (List (Int × ℚ)) := fwdLoop N d off (s.toNat + 8) 0 s x

/-- The loop of `calcDxb` (Derivatives.cpp:731-757), `calcDyb` (808-837, without the
correction on layer interfaces) and `calcDzb` (1202-1228). -/
def bwdLoop (N d off : Int) : Nat → Int → Int → Int → Out (List (Int × ℚ))
  | 0, _, _, _ => .ub
  | fuel + 1, j, s, x =>
    if j < s then
      let X := x + off + d * (j - s.tdiv 2)
      let Xmin := x + off + d * (-s).tdiv 2
      let Xmax := x + off + d * (s.tdiv 2 - 1)
      if Xmin < 0 then
        if s + 2 * Xmin = 0 then bwdLoop N d off fuel j 2 (x + 1)
        else bwdLoop N d off fuel j (s + 2 * Xmin) x
      else if Xmax ≥ N then bwdLoop N d off fuel j (s - 2 * (Xmax - N + 1)) x
      else do
        let c ← fdAt s j
        let rest ← bwdLoop N d off fuel (j + 1) s x
        pure ((X, c) :: rest)
    else .ok []

/-- Row of a backward derivative matrix. -/
def bwdRow (N d off x s : Int) : Out (List (Int × ℚ)) := bwdLoop N d off (s.toNat + 8) 0 s x

/-- Value of a row on a field: the matrix-vector product with entries divided by the grid
spacing `DH`; entries for the same column add up. -/
def apply (DH : ℚ) (row : List (Int × ℚ)) (f : Int → ℚ) : ℚ :=
  (row.map fun e => e.2 / DH * f e.1).sum

/-- Matrix entry in column `c` of a row. -/
def entry (row : List (Int × ℚ)) (c : Int) : ℚ :=
  ((row.filter fun e => e.1 = c).map Prod.snd).sum

/-- Entry (r, c) of the stencil matrices `Dxf`, `Dyf`, `Dzf` of a regular grid
(`calcDxf(dist)`, Derivatives.cpp:109-121, 194-201, 288-295; scaling with `DT/DH` left out), by
the contract of a LAMA stencil matrix: a stencil with `s` values sits at the offsets
`-s/2+1 … s/2`, and entries that leave the grid are dropped. -/
def fwdStencilEntry (N s r c : Int) : ℚ :=
  if 0 ≤ r ∧ r < N ∧ 0 ≤ c ∧ c < N ∧ 0 ≤ c - r + s / 2 - 1 then
    (((fd s).getD [])[(c - r + s / 2 - 1).toNat]?).getD 0
  else 0

/-- `Dxb = transpose(Dxf); Dxb.scale(-1.0)`, FDTD2D.cpp:171-174, FDTD3D.cpp:202-207. -/
def bwdStencilEntry (N s r c : Int) : ℚ := - fwdStencilEntry N s c r

/-- `calcDyfFreeSurface`, Derivatives.cpp:407-425 (not the hybrid variant), one grid point at
depth `y`, grid factor `d`. -/
def fwdFreeSurfaceRow (NY d y s : Int) : Out (List (Int × ℚ)) :=
  (List.range s.toNat).foldr (fun (j : Nat) rest => do
    let Y := y + d * ((j : Int) - s.tdiv 2 + 1)
    let c ← fdAt s j
    let diff ← (if s ≥ 2 + (2 * y).tdiv d + j then fdAt s (s - 2 - (2 * y).tdiv d - j) else pure 0 : Out ℚ)
    let r ← rest
    pure (if 0 ≤ Y ∧ Y < NY then (Y, c - diff) :: r else r)) (pure [])

/-- `calcDybFreeSurface`, Derivatives.cpp:480-507 (not the hybrid variant), away from layer
interfaces. -/
def bwdFreeSurfaceRow (NY d y s : Int) : Out (List (Int × ℚ)) :=
  (List.range s.toNat).foldr (fun (j : Nat) rest => do
    let Y := y + d * ((j : Int) - s.tdiv 2)
    let c ← fdAt s j
    let diff ← (if s ≥ 1 + (2 * y).tdiv d + j then fdAt s (s - 1 - (2 * y).tdiv d - j) else pure 0 : Out ℚ)
    let r ← rest
    pure (if 0 ≤ Y ∧ Y < NY then (Y, c - diff) :: r else r)) (pure [])

end Verif.Stencil
