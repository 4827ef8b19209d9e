import Verif.Model.Common
import Verif.Model.ShotSelection
import Mathlib.Data.Nat.Count

/-!
# Shot domains and the shots that each process simulates

All processes of a shot domain work on the same shot; the shots are distributed over the domains.
-/
namespace Verif.Domains
open Verif

/-- `getShotDomain` with all values of `ShotDomainDefinition`, Partitioning.hpp:43-83, for process `rank` of `P`: `node` are the numbers of
the nodes, `env` the values of the environment variable DOMAIN. A process without that variable makes all processes stop. -/
def shotDomain (definition numShotDomains : Int) (P : ℕ) (node : ℕ → Int) (env : ℕ → Option Int) (rank : ℕ) : Out Int :=
  if definition = 0 then Common.getShotDomain numShotDomains P rank
  else if definition = 1 then .ok (node rank)
  else if (List.range P).all fun r => (env r).isSome then .ok ((env rank).getD 0)
  else .err

/-- Contract of `Communicator::split(color)`: the rank among the processes of the same colour is the number of those with lower rank. -/
def groupRank (color : ℕ → Int) (r : ℕ) : ℕ := Nat.count (fun q => color q = color r) r

/-- Contract of `Communicator::split(color)`: the number of processes of the same colour among all `P` processes. -/
def groupSize (P : ℕ) (color : ℕ → Int) (r : ℕ) : ℕ := Nat.count (fun q => color q = color r) P

/-- The indices of the shots that process `r` simulates, Simulation.cpp:119-120, 343, 371: `commShot = commAll->split(shotDomain)`,
`commInterShot = commAll->split(commShot->getRank())`, and the loop over the block of the process in `blockDistribution(numshots,
commInterShot)`. Without random selection of shots. `dom` are the shot domains of the processes. -/
def shotsOf (P : ℕ) (dom : ℕ → Int) (numshots r : ℕ) : List ℕ :=
  let local' : ℕ → Int := fun q => (groupRank dom q : ℕ)
  let lb := Shots.blockLb numshots (groupSize P local' r) (groupRank local' r)
  let ub := Shots.blockUb numshots (groupSize P local' r) (groupRank local' r)
  List.range' lb (ub - lb)

/-- The check of the number of shots without encoding and random selection, Simulation.cpp:267-271; `numShotDomains` is the number in the
configuration, at most the number of processes. -/
def numshotsAccepted (numshots : ℕ) (numShotDomains : Int) (P : ℕ) : Bool :=
  let N := Common.checkNumShotDomains numShotDomains P
  N ≤ numshots ∧ (numshots : Int).tmod N = 0

end Verif.Domains
