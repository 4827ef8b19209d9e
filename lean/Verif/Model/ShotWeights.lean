import Mathlib.Analysis.SpecialFunctions.Trigonometric.Basic
import Verif.Model.Subset

/-!
# Weights of a shot window in the big model

`getShrinkVector` of `/repo/src/Modelparameter/Modelparameter.cpp`. A vector on the big grid is a function of the index. The
points of the window are those of all processes together.
-/
set_option linter.dupNamespace false

namespace Verif.Sub
open Verif.Grid

/-- The values of the ramp, Modelparameter.cpp:204-205, 209-210. -/
noncomputable def ramp (w i : ℕ) : ℝ := Real.sin (i * Real.pi / (w * 2)) ^ 2

/-- The loops over the borders, Modelparameter.cpp:202-213: the places written and the values, in the order of the writes.
`nx` is the width of the window, `NY` the height of the big model. -/
noncomputable def dampWrites (nx : Int) (NY : ℕ) (cut : Coord) (left right : ℕ) : List (Coord × ℝ) :=
  (List.range NY).flatMap fun y : ℕ =>
    ((List.range left).map fun i : ℕ => ((⟨cut.x + i, y, 0⟩ : Coord), ramp left i)) ++
    (List.range right).map fun i : ℕ => ((⟨cut.x + nx - 1 - i, y, 0⟩ : Coord), ramp right i)

/-- `shrinkVector[coordinate2index(...)] = tmp`, Modelparameter.cpp:206, 211. -/
def writeAt (big : Grid) (v : Int → ℝ) (w : Coord × ℝ) : Out (Int → ℝ) := do
  let k ← coordinate2index big w.1
  .ok (Function.update v k w.2)

/-- `getShrinkVector`, Modelparameter.cpp:182-215. A negative width writes nothing and is the same as zero. -/
noncomputable def shrinkVector (small big : Grid) (cut : Coord) (left right : ℕ) : Out (Int → ℝ) := do
  let ks ← (List.range small.n.toNat).mapM (shrinkRow small big cut)
  (dampWrites small.NX big.NY.toNat cut left right).foldlM (writeAt big) fun k => if k ∈ ks then 1 else 0

end Verif.Sub
