import Verif.Model.Common
import Verif.Model.Subset

/-!
# Minimum velocity of a model

`getVmin` of `/repo/src/Modelparameter/Modelparameter.cpp`. Vectors hold the values of all processes; the minimum and maximum of
a distributed vector are those over all processes, and `searchAndReplace` treats each value on its own.
-/
set_option linter.dupNamespace false

namespace Verif.Sub
open Verif

/-- `v.min()` of a vector (`lt` is `min`) or `v.max()`; the value for an empty vector, the largest number of the type, is not
modelled. -/
noncomputable def extremum (lt : ℝ → ℝ → ℝ) : List ℝ → Out ℝ
  | [] => .ub
  | x :: xs => .ok (xs.foldl lt x)

/-- The vector whose minimum is taken, Modelparameter.cpp:106-116; `velocityEM` is the velocity derived from permittivity and
permeability. -/
def vMinVec (e : Eqn) (m : Model) (velocityEM : List ℝ) : List ℝ :=
  match e with
  | .sh | .viscosh | .elastic | .viscoelastic => m.par .velocityS
  | .acoustic => m.par .velocityP
  | _ => velocityEM

/-- `getVmin`, Modelparameter.cpp:104-124. -/
noncomputable def getVmin (e : Eqn) (m : Model) (velocityEM : List ℝ) : Out ℝ := do
  let v := vMinVec e m velocityEM
  let vMin ← extremum min v
  if vMin ≤ 1 then
    let top ← extremum max v
    let v' ← Common.searchAndReplace v 1 top 3
    extremum min v'
  else .ok vMin

end Verif.Sub
