import Mathlib.Data.Rat.Defs
import Mathlib.Algebra.Order.Field.Rat
import Verif.Model.Boundary
import Verif.Model.MatrixSetup

/-!
# Weights of the grid points for the partitioner

`Weights` of `/repo/src/Partitioning/Partitioning.hpp`. Values are exact. The cost of a single operation and the numbers of
vector operations are measured constants of the source. Not modelled: pairs of dimension and equation for which there is no
solver, and the partitioner itself.
-/
namespace Verif.Part
open Verif Verif.Grid
open Verif.MatSetup (Kind)

/-- Numbers of operations in a time step. -/
structure Ops where
  matrixVector : ℕ
  assignment : ℕ
  plusVector : ℕ
  pmlPerDim : ℕ
  deriving DecidableEq, Repr

/-- `NumMatrixVector`, ..., Partitioning.hpp:280-376. -/
def ops : Kind → Ops
  | .acoustic2D => ⟨4, 7, 0, 2⟩
  | .elastic2D => ⟨8, 20, 0, 4⟩
  | .viscoelastic2D => ⟨8, 41, 8, 4⟩
  | .sh2D => ⟨4, 7, 0, 2⟩
  | .viscosh2D => ⟨4, 7, 0, 2⟩
  | .acoustic3D => ⟨6, 10, 0, 2⟩
  | .elastic3D => ⟨18, 34, 3, 6⟩
  | .viscoelastic3D => ⟨18, 72, 22, 6⟩
  | .tmem2D => ⟨4, 7, 0, 2⟩
  | .emem2D => ⟨4, 7, 0, 2⟩
  | .viscotmem2D => ⟨4, 41, 8, 4⟩
  | .viscoemem2D => ⟨8, 41, 8, 4⟩
  | .emem3D => ⟨18, 34, 3, 6⟩
  | .viscoemem3D => ⟨18, 72, 22, 6⟩

/-- `constantWeight`, Partitioning.hpp:379. -/
def constantWeight (k : Kind) : ℚ := (ops k).assignment * (1 / 4) + (ops k).plusVector * (43 / 100)

/-- `referenceTotalWeight`, Partitioning.hpp:380. -/
def reference (k : Kind) : ℚ := (ops k).matrixVector * 1 + constantWeight k

/-- The array `FDWeights`, Partitioning.hpp:406. -/
def fdTable : List ℚ := [1, 156 / 100, 206 / 100, 254 / 100, 3, 370 / 100]

/-- The keys of the configuration. `orders` is the second column of the grid configuration if `useVariableFDoperators` is
set. -/
structure Keys where
  kind : Kind
  useNodeWeights : Bool
  orders : Option (List Int)
  spatialFDorder : Int
  dampingBoundary : Int
  boundaryWidth : Int
  freeSurface : Int

/-- `FDOrder`, Partitioning.hpp:412-418. Reading outside of the vector is undefined. -/
def fdOrder (q : Keys) (layer : Nat) : Out Int :=
  match q.orders with
  | some l => (match l[layer]? with
    | some s => .ok s
    | none => .ub)
  | none => .ok q.spatialFDorder

/-- Cost of the derivatives and vector operations at a point, Partitioning.hpp:409-427. Reading outside of the array is
undefined. -/
def fdWeight (q : Keys) (layer : Nat) : Out ℚ := do
  let order ← fdOrder q layer
  let i := order.tdiv 2 - 1
  if i < 0 then .ub
  else match fdTable[i.toNat]? with
    | some w => .ok ((ops q.kind).matrixVector * w + constantWeight q.kind)
    | none => .ub

/-- Cost of the CPML at a point, Partitioning.hpp:435-476. -/
def pmlWeight (g : Grid) (q : Keys) (c : Coord) : Out ℚ := do
  let dist ← edgeDistance g c
  let d ← (match g.layers[getLayer g c.y]? with
    | some l => Out.ok l.dh
    | none => .ub)
  let width := Boundary.layerWidth q.boundaryWidth d
  let one : ℚ := (ops q.kind).pmlPerDim * (3 / 2)
  let wx := if dist.x.tdiv d < width then one else 0
  let wy := if dist.y.tdiv d < width then
      if c.y.tdiv d < width then
        if q.freeSurface = 0 then one else 0
      else one
    else 0
  let wz := if q.kind.threeD then
      if dist.z.tdiv d < width then one else 0
    else 0
  pure (0 + wx + wy + wz)

/-- `fdWeights + pmlWeights` at the point of index `i`, Partitioning.hpp:385-480. -/
def nodeCost (g : Grid) (q : Keys) (i : Nat) : Out ℚ :=
  if q.useNodeWeights then do
    let c ← index2coordinate g i
    let f ← fdWeight q (getLayer g c.y)
    let p ← if q.dampingBoundary = 2 then pmlWeight g q c else .ok 0
    pure (f + p)
  else .ok (reference q.kind)

/-- `Weights`, Partitioning.hpp:259-488. A division by zero (not a number in the code) is undefined here. -/
def weights (g : Grid) (q : Keys) : Out (List ℚ) := do
  let cost ← (List.range g.n.toNat).mapM (nodeCost g q)
  if reference q.kind = 0 then .ub
  else
    let ws := cost.map (· / reference q.kind)
    if ws.sum = 0 ∧ ws ≠ [] then .ub
    else pure (ws.map (· / ws.sum))

end Verif.Part
