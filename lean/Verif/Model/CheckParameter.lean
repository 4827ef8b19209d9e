import Verif.Model.Outcome
import Verif.Model.Grid
import Mathlib.Analysis.SpecialFunctions.Sqrt
/-!
# Parameter checks before a simulation: `/repo/src/CheckParameter/CheckParameter.hpp`
-/
namespace Verif.Check

/-- The factor `h` of `checkStabilityCriterion`, CheckParameter.hpp:72-94. The literals are
`int`, so the divisions truncate. -/
def orderFactor (order : Int) : Option Int :=
  if order = 2 then some 1
  else if order = 4 then some ((7 : Int).tdiv 6)
  else if order = 6 then some ((149 : Int).tdiv 120)
  else if order = 8 then some ((2161 : Int).tdiv 1680)
  else if order = 10 then some ((53089 : Int).tdiv 40320)
  else if order = 12 then some ((1187803 : Int).tdiv 887040)
  else none

/-- CheckParameter.hpp:63-70. -/
def dimNumber (dim : String) : Option Nat :=
  if dim = "2D" then some 2 else if dim = "3D" then some 3 else none

open Classical in
/-- `checkStabilityCriterion`, CheckParameter.hpp:60-113, on process `rank`, in exact
arithmetic. For `v = 0` the C++ quotient is `+∞` and the check passes. -/
noncomputable def checkStability (rank : Nat) (dt DH v : ℝ) (dim : String) (order : Int) : Out Unit :=
  if rank = 0 then
    match dimNumber dim, orderFactor order with
    | some D, some h => if v = 0 ∨ dt ≤ DH / (h * Real.sqrt D * v) then .ok () else .err
    | _, _ => .err
  else .ok ()

open Classical in
/-- The loop over the owned grid points, CheckParameter.hpp:200-218: `vMax` per layer, started at
zero. A point is (layer, velocity); layers beyond the array are not modelled. -/
noncomputable def localMax (pts : List (Nat × ℝ)) : Nat → ℝ :=
  pts.foldl (fun m p => if p.2 > m p.1 then Function.update m p.1 p.2 else m) fun _ => 0

open Classical in
/-- The same for `vMin`, started at `3e8`, positive velocities only. -/
noncomputable def localMin (pts : List (Nat × ℝ)) : Nat → ℝ :=
  pts.foldl (fun m p => if p.2 < m p.1 ∧ p.2 > 0 then Function.update m p.1 p.2 else m)
    fun _ => 3 * 10 ^ 8

/-- `maxImpl` / `minImpl` over the processes, CheckParameter.hpp:221-222. -/
noncomputable def globalMax (p0 : List (Nat × ℝ)) (ps : List (List (Nat × ℝ))) (l : Nat) : ℝ :=
  ps.foldl (fun m p => max m (localMax p l)) (localMax p0 l)

noncomputable def globalMin (p0 : List (Nat × ℝ)) (ps : List (List (Nat × ℝ))) (l : Nat) : ℝ :=
  ps.foldl (fun m p => min m (localMin p l)) (localMin p0 l)

/-- The loop over layers, CheckParameter.hpp:240-248, stability part, on the root process of a
shot domain: grid points of all its processes, spacing and order of each layer. -/
noncomputable def checkAllLayers (numLayers : Nat) (dt : ℝ) (DH : Nat → ℝ) (dim : String)
    (order : Nat → Int) (p0 : List (Nat × ℝ)) (ps : List (List (Nat × ℝ))) : Out Unit :=
  (List.range numLayers).foldl (fun r l => do
    let _ ← r
    checkStability 0 dt (DH l) (globalMax p0 ps l) dim (order l)) (.ok ())

/-- `checkSources` / `checkReceivers`, CheckParameter.hpp:259-306. -/
def checkPositions (g : Grid.Grid) : List Grid.Coord → Out Unit
  | [] => .ok ()
  | c :: cs =>
    if c.x ≥ g.NX ∨ c.x < 0 ∨ c.y ≥ g.NY ∨ c.y < 0 ∨ c.z ≥ g.NZ ∨ c.z < 0 then .err
    else do
      let i ← Grid.coordinate2index g c
      let c' ← Grid.index2coordinate g i
      if c' ≠ c then .err else checkPositions g cs

end Verif.Check
