import Verif.Model.Outcome
import Mathlib.Algebra.BigOperators.Group.List.Basic
import Mathlib.Data.List.FinRange
import Mathlib.Logic.Function.Basic

/-!
# Profiles: one file with a trace of each shot

The seismogram handler of the sources (`writeSource`) or the receivers during the shot loop, for one round of the loop. `T` is
the type of traces. The four components are those of `SeismogramType`, Acquisition.hpp:17-21. The processes of a shot domain
are one object. Formats other than 5 (AGC); without resampling.
-/
set_option linter.dupNamespace false

namespace Verif.Profile
open Verif

variable {T : Type}

/-- The members of a `Seismogram` that take part: the rows of `data` and `dataCOP`, and `shotInd`, Seismogram.hpp:128-135. -/
structure Comp (T : Type) where
  data : List T
  cop : List T
  shotInd : ℕ

/-- `SeismogramHandler`: a seismogram for each component, SeismogramHandler.hpp:71. -/
abbrev Handler (T : Type) := Fin 4 → Comp T

/-- `allocateCOP`, SeismogramHandler.cpp:493-499, for a handler without traces. -/
def allocateCOP [Zero T] (n : ℕ) : Handler T := fun _ => ⟨[], List.replicate n 0, 0⟩

/-- The first seismogram with traces; the loops of `setShotInd`, `sumShotDomain` and `assignCOP` stop there,
SeismogramHandler.cpp:465-471, 481-486, 507-515. -/
def first (h : Handler T) : Option (Fin 4) := (List.finRange 4).find? fun c => (h c).data.length ≠ 0

/-- `setShotInd`, SeismogramHandler.cpp:463-472. -/
def setShotInd (h : Handler T) (s : ℕ) : Handler T :=
  match first h with
  | some c => Function.update h c { h c with shotInd := s }
  | none => h

/-- `write` of a seismogram, Seismogram.cpp:83-125: a single trace goes to its row of the profile, if there is one. The result
is the seismogram afterwards and the rows of the file. -/
def write (c : Comp T) : Comp T × Option (List T) :=
  match c.data with
  | [] => (c, none)
  | [t] => if 1 < c.cop.length then ({ c with cop := c.cop.set c.shotInd t }, none) else (c, some [t])
  | d => (c, some d)

/-- `setRow` in `write` rejects rows that do not exist. -/
def rowExists (c : Comp T) : Bool := !(c.data.length == 1 && 1 < c.cop.length) || c.shotInd < c.cop.length

/-- `write` of the handler, SeismogramHandler.cpp:16-21. -/
def writeAll (h : Handler T) : Out (Handler T × (Fin 4 → Option (List T))) :=
  if (List.finRange 4).all fun c => rowExists (h c) then .ok (fun c => (write (h c)).1, fun c => (write (h c)).2)
  else .err

/-- One shot, Simulation.cpp:383-410 for the sources, 419-423 and 526-534 for the receivers: the traces `tr` of the shot replace
those of the shot before, and are written. The files of single shots are left out. -/
def shot (tr : Fin 4 → List T) (s : ℕ) (h : Handler T) : Out (Handler T) :=
  match writeAll (setShotInd (fun c => { h c with data := tr c }) s) with
  | .ok r => .ok r.1
  | .err => .err
  | .ub => .ub

/-- The shots of a domain, Simulation.cpp:370. -/
def shots (tr : ℕ → Fin 4 → List T) : List ℕ → Handler T → Out (Handler T)
  | [], h => .ok h
  | s :: l, h =>
    match shot (tr s) s h with
    | .ok h => shots tr l h
    | .err => .err
    | .ub => .ub

/-- `sumShotDomain`, Seismogram.cpp:1051-1067: row by row the sum over the domains, each of which contributes its first seismogram
with traces. -/
def sumRows [AddMonoid T] (n : ℕ) (cops : List (List T)) : List T :=
  (List.range n).map fun i => (cops.map fun c => c.getD i 0).sum

/-- Domain 0 after the sum: `assignCOP` (SeismogramHandler.cpp:505-516) and `write`, Simulation.cpp:539-546. -/
def collect [AddMonoid T] (h : Handler T) (c : Fin 4) (rows : List T) : Out (Fin 4 → Option (List T)) :=
  match writeAll (Function.update h c { h c with data := rows, cop := rows.map fun _ => 0 }) with
  | .ok r => .ok r.2
  | .err => .err
  | .ub => .ub

/-- The end of the round, Simulation.cpp:536-563, for the handlers of all domains and `n` shots. A domain without any traces
does not call the sum for which the others wait: such runs hang and are `ub`. -/
def finish [AddMonoid T] (n : ℕ) (hs : List (Handler T)) : Out (Fin 4 → Option (List T)) :=
  match hs.mapM fun h => (first h).map fun c => (h, c) with
  | some ((h, c) :: l) => collect h c (sumRows n (((h, c) :: l).map fun p => (p.1 p.2).cop))
  | _ => .ub

/-- The domains one after the other. -/
def domains [Zero T] (n : ℕ) (tr : ℕ → Fin 4 → List T) : List (List ℕ) → Out (List (Handler T))
  | [] => .ok []
  | l :: ls =>
    match shots tr l (allocateCOP n), domains n tr ls with
    | .ok h, .ok hs => .ok (h :: hs)
    | .ub, _ => .ub
    | _, .ub => .ub
    | _, _ => .err

/-- The profiles of a round: `n` shots, `tr s` the traces of shot `s`, `sched` the shots of each domain. -/
def profile [AddMonoid T] (n : ℕ) (tr : ℕ → Fin 4 → List T) (sched : List (List ℕ)) :
    Out (Fin 4 → Option (List T)) :=
  match domains n tr sched with
  | .ok hs => finish n hs
  | .err => .err
  | .ub => .ub

end Verif.Profile
