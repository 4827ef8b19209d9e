import Verif.Model.Outcome
import Mathlib.Analysis.SpecialFunctions.Sqrt
/-!
# Model of the trace processing in `src/Acquisition/Seismogram.cpp`

Samples are exact rationals (real numbers where a square root is taken). A trace is a list of
samples; the loops over local traces treat every row alike, so one row is modelled.
-/
namespace Verif.Seis

/-! ### AGC, Seismogram.cpp:268-387 -/

/-- `NAGC = round(1.0 / (frequencyAGC * DT))`, clipped to `NT / 2` (integer division),
Seismogram.cpp:277-280, 335-338. `round` rounds halves away from zero; arguments are positive. -/
def windowLength (frequency DT : ℚ) (NT : Nat) : Nat :=
  min (1 / (frequency * DT) + 1 / 2).floor.toNat (NT / 2)

/-- `HArrayUtils::getVal`. -/
def getVal (x : List ℚ) (i : Nat) : Out ℚ :=
  match x[i]? with
  | some v => .ok v
  | none => .ub

/-- `sumTemp / NWIN`; `0.0 / 0.0` is not a number (`none`). -/
def mean (sum nwin : ℚ) : Option ℚ := if nwin = 0 then none else some (sum / nwin)

/-- The first loop, Seismogram.cpp:288-291 and 357-361: `n` samples up to the end, each adding
`f var` and the water level. -/
def agcStart (f : ℚ → ℚ) (wl : ℚ) (x : List ℚ) (NT : Nat) : Nat → Out ℚ
  | 0 => .ok 0
  | n + 1 => do
    let s ← agcStart f wl x NT n
    let v ← getVal x (NT - (n + 1))
    .ok (s + f v + wl)

/-- The loop over decreasing time steps, Seismogram.cpp:292-310 and 362-384; the argument `n` is
`tStep + 1`. The result lists the window means of the samples `0 … n-1`. The order of the first loop
is immaterial (exact arithmetic) and reversed here. `f` is the square and `wl` the water level for
`calcInverseAGC`; `getAGCSum` is `f = id`, `wl = 0`. -/
def agcLoop (f : ℚ → ℚ) (wl : ℚ) (x : List ℚ) (NT NAGC : Nat) : Nat → ℚ → ℚ → Out (List (Option ℚ))
  | 0, _, _ => .ok []
  | t + 1, sum, nwin =>
    if NT - NAGC ≤ t then
      if t < NAGC then .ub -- negative index tStep-NAGC
      else do
        let v ← getVal x (t - NAGC)
        let rest ← agcLoop f wl x NT NAGC t (sum + f v + wl) (nwin + 1)
        .ok (rest ++ [mean (sum + f v + wl) (nwin + 1)])
    else if NAGC ≤ t then do
      let v ← getVal x (t - NAGC)
      let u ← getVal x (t + NAGC)
      let rest ← agcLoop f wl x NT NAGC t (sum + f v - f u) nwin
      .ok (rest ++ [mean (sum + f v - f u) nwin])
    else do
      let u ← getVal x (t + NAGC)
      let rest ← agcLoop f wl x NT NAGC t (sum - f u - wl) (nwin - 1)
      .ok (rest ++ [mean (sum - f u - wl) (nwin - 1)])

/-- Window means of one trace. -/
def agcMeans (f : ℚ → ℚ) (wl : ℚ) (x : List ℚ) (NAGC : Nat) : Out (List (Option ℚ)) := do
  let s ← agcStart f wl x x.length NAGC
  agcLoop f wl x x.length NAGC x.length s NAGC

/-- The gain, Seismogram.cpp:376-382: `rmsTemp > 0` is false for a NaN. -/
noncomputable def gain : Option ℚ → ℝ
  | some m => if 0 < m then 1 / Real.sqrt m else 0
  | none => 0

/-! ### Normalisation, Seismogram.cpp:215-236 -/

/-- `HArrayUtils::maxNorm`. -/
noncomputable def maxNorm (x : List ℝ) : ℝ := x.foldr (fun v m => max |v| m) 0

/-- `HArrayUtils::l2Norm`. -/
noncomputable def l2Norm (x : List ℝ) : ℝ := Real.sqrt (x.map fun v => v ^ 2).sum

/-- Division of the row by its norm, by 1 if the norm is 0. -/
noncomputable def divideBy (norm : ℝ) (x : List ℝ) : List ℝ :=
  x.map fun v => v / (if norm = 0 then 1 else norm)

/-- A seismogram with one trace; the members the normalisation uses. -/
structure Trace where
  data : List ℝ
  inverseAGC : List ℝ
  useAGC : Bool

/-- `normalizeTrace` without the envelope mode 4, Seismogram.cpp:215-241. -/
noncomputable def normalizeTrace (mode : Int) (s : Trace) : Trace :=
  if mode = 1 then { s with data := divideBy (maxNorm s.data) s.data }
  else if mode ≥ 2 then
    let s := { s with data := divideBy (l2Norm s.data) s.data }
    if mode = 3 ∧ s.useAGC = true then
      { s with data := List.zipWith (· * ·) s.data s.inverseAGC, useAGC := false }
    else s
  else s

/-- Copy constructor, Seismogram.cpp:13-31: `useAGC` is not copied and keeps the default of the
header, `true` (Seismogram.hpp:144). -/
def copy (s : Trace) : Trace := { s with useAGC := true }

/-! ### Integration and differentiation, Seismogram.cpp:475-507 -/

/-- The in-place loop `row[j+1] = g (row[j+1]) (row[j])` where `row[j]` has been updated. -/
def sweep (g : ℚ → ℚ → ℚ) : ℚ → List ℚ → List ℚ
  | _, [] => []
  | prev, v :: vs => g v prev :: sweep g (g v prev) vs

/-- A row; the first sample stays as it is. -/
def inPlace (g : ℚ → ℚ → ℚ) : List ℚ → List ℚ
  | [] => []
  | v :: vs => v :: sweep g v vs

/-- `integrateTraces`, Seismogram.cpp:475-487. -/
def integrate (DT : ℚ) : List ℚ → List ℚ := inPlace fun v prev => v * DT + prev

/-- `differentiateTraces`, Seismogram.cpp:495-507. -/
def differentiate (DT : ℚ) : List ℚ → List ℚ := inPlace fun v prev => (v - prev) / DT

/-! ### `isFinite`, Seismogram.cpp:529-539 -/

/-- The loop over the flat local data; the entries say whether the sample is finite. `fuel` bounds
the number of iterations (the index grows with every iteration). -/
def finiteLoop (data : List Bool) (NT : Int) : Nat → Int → Out Bool
  | 0, _ => .ok true
  | fuel + 1, i =>
    if i < (data.length : Int) - 1 then
      match data[i.toNat]? with
      | some b => if b = false then .ok false else finiteLoop data NT fuel (i + NT)
      | none => .ub
    else .ok true

/-- `isFinite` of a seismogram with `NT ≥ 1` samples per trace. -/
def isFinite (data : List Bool) (NT : Nat) : Out Bool :=
  finiteLoop data NT data.length ((NT : Int) - 1)

/-! ### Common offset profile -/

/-- Rows of the profile held by each shot domain: domain → row → trace (one number stands for the
trace). -/
abbrev Profile := Nat → Nat → ℚ

/-- Seismogram::write with one trace per shot, Seismogram.cpp:85-97: domain `p` copies the trace of
each of its shots into the row of the shot. -/
def storeRows (sched : Nat → List Nat) (data : Nat → ℚ) (c : Profile) : Profile :=
  fun p s => if s ∈ sched p then data s else c p s

/-- Sum over the shot domains, Seismogram.cpp:1043-1060. -/
def total (D : Nat) (c : Profile) (s : Nat) : ℚ := ((List.range D).map fun p => c p s).sum

/-- One round of the shot loop, Simulation.cpp:538-563: rows are stored, summed over the domains,
written by domain 0, which then resets its rows (SeismogramHandler.cpp:505-517); the other domains
keep the sum. Result: the written profile and the next state. -/
def profileRound (D : Nat) (sched : Nat → List Nat) (data : Nat → ℚ) (c : Profile) :
    (Nat → ℚ) × Profile :=
  let t := total D (storeRows sched data c)
  (t, fun p s => if p = 0 then 0 else t s)

end Verif.Seis
