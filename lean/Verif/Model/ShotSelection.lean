import Verif.Model.Outcome
/-!
# Selection and encoding of shots: `getRandomShotInds`
(`/repo/src/Acquisition/AcquisitionSettings.hpp`), `calcSourceSettingsEncode`,
`calcUniqueShotInds` (`Sources.cpp`) and the shot loop (`Simulation.cpp`)

Random numbers are an explicit input: the list of values `std::rand()` returns. A loop that has
used up the list without finishing returns `none`.
-/
namespace Verif.Shots

/-- `ceil(ValueType(n) / d)`. -/
def ceilDiv (n d : Nat) : Nat := (n + d - 1) / d

/-- `getRandomShotInds`, mode 1, AcquisitionSettings.hpp:443-463: `inds` are the shots accepted so
far (the history array beyond them is never compared), `hist` is `shotHistory`. -/
def pickRandom (numshots maxcount domains : Nat) :
    List Nat → List Nat → List Nat → Out (Option (List Nat × List Nat))
  | rands, inds, hist =>
    if inds.length = domains then .ok (some (inds, hist))
    else
      match rands with
      | [] => .ok none
      | r :: rs =>
        if numshots = 0 then .ub
        else
          match hist[r % numshots]? with
          | none => .ub
          | some c =>
            if c ≥ maxcount ∨ r % numshots ∈ inds then pickRandom numshots maxcount domains rs inds hist
            else pickRandom numshots maxcount domains rs (inds ++ [r % numshots])
              (hist.set (r % numshots) (c + 1))

/-- The loops of modes 2 and 3, AcquisitionSettings.hpp:468-473 and 477-482: assign shot `f d` to
domain `d` and count it. -/
def assignAll (f : Nat → Nat) : Nat → List Nat → Out (List Nat × List Nat)
  | 0, hist => .ok ([], hist)
  | d + 1, hist => do
    let (inds, h) ← assignAll f d hist
    match h[f d]? with
    | none => .ub
    | some c => .ok (inds ++ [f d], h.set (f d) (c + 1))

/-- Mode 2, AcquisitionSettings.hpp:464-473. -/
def pickGlobal (numshots domains : Nat) (hist : List Nat) : Out (List Nat × List Nat) :=
  if domains = 0 then .ub
  else if numshots = 0 then .ub
  else assignAll (fun d => (hist.sum / domains + d * ceilDiv numshots domains) % numshots) domains hist

/-- Mode 3, AcquisitionSettings.hpp:474-482. -/
def pickLocal (numshots domains : Nat) (hist : List Nat) : Out (List Nat × List Nat) :=
  if domains = 0 then .ub
  else if numshots = 0 then .ub
  else assignAll (fun d => (hist.sum / domains * domains + d) % numshots) domains hist

/-- Repeated selection, Simulation.cpp:362-363: all selections and the final history. -/
def repeatPick (f : List Nat → Out (List Nat × List Nat)) : Nat → List Nat →
    Out (List (List Nat) × List Nat)
  | 0, hist => .ok ([], hist)
  | k + 1, hist => do
    let (s, h) ← repeatPick f k hist
    let (i, h') ← f h
    .ok (s ++ [i], h')

/-- Repeated selection in mode 1, each round with its own random numbers. -/
def repeatRandom (numshots maxcount domains : Nat) : List (List Nat) → List Nat →
    Out (Option (List (List Nat) × List Nat))
  | [], hist => .ok (some ([], hist))
  | rs :: rss, hist => do
    match ← pickRandom numshots maxcount domains rs [] hist with
    | none => .ok none
    | some (i, h) =>
      match ← repeatRandom numshots maxcount domains rss h with
      | none => .ok none
      | some (s, h') => .ok (some (i :: s, h'))

/-- `calcUniqueShotInds` followed by the lookup `uniqueShotNos[shotIndTrue]` in the shot loop,
Sources.cpp:693-717, Simulation.cpp:337-375, for random source selection in mode 1. The source
list is given by the shot numbers of its entries; the history has one entry per *different* shot
number (Simulation.cpp:250, 338), the random index ranges over all source entries
(Sources.cpp:695, 705). -/
def randomShotNos (uniqueNos : List Int) (numSources domains : Nat) (rands hist : List Nat) :
    Out (Option (List Int)) := do
  match ← pickRandom numSources 1 domains rands [] hist with
  | none => .ok none
  | some (i, _) =>
    match i.mapM fun k => uniqueNos[k]? with
    | none => .ub
    | some l => .ok (some l)

/-- Source encoding, mode 1, the shots that do not get a random supershot, Sources.cpp:622-624:
shot `i < domains` goes to supershot `i`. -/
def encodeFirst (n domains : Nat) : List Nat × List Nat :=
  (List.range (min n domains), (List.range domains).map fun i => if i < n then 1 else 0)

/-- Source encoding, mode 1, the remaining shots, Sources.cpp:625-632: draw until a supershot has
room. `groups` are the supershots assigned so far, `hist` their sizes. -/
def encodeLoop (n domains per : Nat) : List Nat → List Nat → List Nat → Out (Option (List Nat))
  | rands, groups, hist =>
    if groups.length = n then .ok (some groups)
    else
      match rands with
      | [] => .ok none
      | r :: rs =>
        if domains = 0 then .ub
        else
          match hist[r % domains]? with
          | none => .ub
          | some c =>
            if c ≥ per then encodeLoop n domains per rs groups hist
            else encodeLoop n domains per rs (groups ++ [r % domains]) (hist.set (r % domains) (c + 1))

/-- Supershot of each of `n` shots, Sources.cpp:609-648 (`sourceNo` is `domains*10^4 + 1 +` the
number given here). `domains = 0` divides by zero. -/
def encode (mode n domains : Nat) (rands : List Nat) : Out (Option (List Nat)) :=
  if domains = 0 then .ub
  else if mode = 1 then
    encodeLoop n domains (ceilDiv n domains) rands (encodeFirst n domains).1 (encodeFirst n domains).2
  else if mode = 2 then .ok (some ((List.range n).map (· % domains)))
  else if mode = 3 then .ok (some ((List.range n).map (· / ceilDiv n domains)))
  else .ok (some [])

/-- The loops over all supershots, e.g. Sources.cpp:784-791 and Simulation.cpp:380: they read
`uniqueShotNosEncode[0 … domains-1]`; `unique` are the different supershots in use. -/
def readSupershots {α : Type} (domains : Nat) (unique : List α) : Out (List α) :=
  match (List.range domains).mapM fun k => unique[k]? with
  | none => .ub
  | some l => .ok l

/-- Contract of `dmemo::blockDistribution(n, comm)`: first index and end of the block of process
`p` out of `P`. -/
def blockLb (n P p : Nat) : Nat := min n (p * ceilDiv n P)
def blockUb (n P p : Nat) : Nat := min n ((p + 1) * ceilDiv n P)

/-- Shot numbers simulated by shot domain `p` without random selection and without encoding,
Simulation.cpp:343-375: `calcUniqueShotInds` yields `0 … numSources-1`, the block of the domain is
taken from the number of different shots. -/
def scheduled (uniqueNos : List Int) (numSources domains p : Nat) : Out (List Int) :=
  let lb := blockLb uniqueNos.length domains p
  let ub := blockUb uniqueNos.length domains p
  match ((List.range ub).drop lb).mapM fun k => (List.range numSources)[k]?.bind fun t => uniqueNos[t]? with
  | none => .ub
  | some l => .ok l

end Verif.Shots
