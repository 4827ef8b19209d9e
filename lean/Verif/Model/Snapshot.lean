import Verif.Model.Outcome
import Verif.Model.Common
/-!
# Writing of snapshots: `/repo/src/Simulation.cpp` lines 304, 321, 468, 504
-/
namespace Verif.Snapshot
open Verif.Common

/-- The configuration values used (rational; floating-point rounding of `time / DT` is not
modelled). -/
structure Conf where
  DT : ℚ
  T : ℚ
  snapType : Int
  decomposition : Int
  tFirst : ℚ
  tLast : ℚ
  tInc : ℚ

/-- Simulation.cpp:314, 317-322: `snapType` after taking the decomposition into account. -/
def snapType (c : Conf) : Int := if c.decomposition ≠ 0 then c.decomposition + 3 else c.snapType

/-- The condition of Simulation.cpp:468 and 504, with its short-circuit evaluation; `%` by zero is
undefined. -/
def writesAt (c : Conf) (tStep : Int) : Out Bool :=
  if snapType c > 0 then
    if tStep ≥ time2index c.tFirst c.DT then
      if tStep ≤ time2index c.tLast c.DT then
        if time2index c.tInc c.DT = 0 then .ub
        else .ok ((tStep - time2index c.tFirst c.DT).tmod (time2index c.tInc c.DT) = 0)
      else .ok false
    else .ok false
  else .ok false

/-- The time loop, Simulation.cpp:447-477 (483-512 for the streamer geometry): the steps at which
a snapshot is written, from step `t` with `n` steps to go. -/
def timeLoop (c : Conf) : Nat → Int → List Int → Out (List Int)
  | 0, _, acc => .ok acc
  | n + 1, t, acc => do
    let w ← writesAt c t
    timeLoop c n (t + 1) (if w then acc ++ [t] else acc)

/-- All snapshots of a shot: `tStep` from 0 to `tStepEnd - 1`, Simulation.cpp:304. -/
def snapshots (c : Conf) : Out (List Int) := timeLoop c (time2index c.T c.DT).toNat 0 []

end Verif.Snapshot
