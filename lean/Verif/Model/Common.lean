import Verif.Model.Outcome
import Mathlib.Data.Rat.Floor
import Mathlib.Algebra.Order.Floor.Ring
import Mathlib.Data.Nat.Log
import Mathlib.Analysis.SpecialFunctions.Trigonometric.Basic
/-!
# Helpers: `/repo/src/Common/Common.hpp`, shot domains in
`/repo/src/Partitioning/Partitioning.hpp`, padding in `/repo/src/Filter/Filter.cpp`
-/
namespace Verif.Common

/-! ### Search and replace -/

/-- The comparison of one `case`, Common.hpp:75-113. -/
def compareTest (V : Type) [LinearOrder V] (code : Int) (threshold v : V) : Option Bool :=
  if code = 1 then some (decide (v < threshold))
  else if code = 2 then some (decide (v > threshold))
  else if code = 3 then some (decide (v ≤ threshold))
  else if code = 4 then some (decide (v ≥ threshold))
  else if code = 5 then some (decide (v = threshold))
  else none

/-- `searchAndReplace`, Common.hpp:68-120, on the values owned by one process
(simplification: values are totally ordered, no NaN). The loop overwrites entry by entry and
never reads another entry, so it is a `map`. -/
def searchAndReplace {V : Type} [LinearOrder V] (xs : List V) (threshold replace : V) (code : Int) :
    Out (List V) :=
  if 1 ≤ code ∧ code ≤ 5 then
    .ok (xs.map fun v => if compareTest V code threshold v = some true then replace else v)
  else .err

/-- A floating point value: finite, an infinity or NaN. -/
inductive FP (V : Type) where
  | fin (v : V)
  | inf
  | ninf
  | nan
  deriving DecidableEq

/-- `replaceInvalid`, Common.hpp:128-141. -/
def replaceInvalid {V : Type} (xs : List (FP V)) (r : FP V) : List (FP V) :=
  xs.map fun v => match v with
    | .fin v => .fin v
    | _ => r

/-- `replaceVpwithVs`, Common.hpp:149-181. Reading `velocityS` beyond its length is undefined. -/
def replaceVpWithVs {V : Type} [LinearOrder V] [Mul V] (vp vs : List V) (ratio : V) (code : Int) :
    Out (List V) :=
  if code = 1 then
    if vs.length < vp.length then .ub
    else .ok (List.zipWith (fun p s => if p < ratio * s then ratio * s else p) vp vs)
  else if code = 2 then
    if vs.length < vp.length then .ub
    else .ok (List.zipWith (fun p s => if p > ratio * s then ratio * s else p) vp vs)
  else .err

/-! ### Resampling -/

/-- Number of samples after resampling, Common.hpp:206, as exact arithmetic; a zero
coefficient divides by zero. -/
def numColsNew (numCols : Int) (c : ℚ) : Int := ⌊((numCols - 1 : Int) : ℚ) / c⌋ + 1

/-- `calcResampleMat`, Common.hpp:202-233: the pushed triples (column index of the old trace,
index of the new trace, value). For non-negative arguments `fmod(r, 1)` is `r - ⌊r⌋`. -/
def resampleEntries (numCols : Int) (c : ℚ) : List (Int × Int × ℚ) :=
  (List.range (numColsNew numCols c).toNat).flatMap fun (row : Nat) =>
    let rel : ℚ := row * c
    let col : Int := ⌊rel⌋
    (if col < numCols then [(col, (row : Int), 1 - Int.fract rel)] else []) ++
    (if col + 1 < numCols then [(col + 1, (row : Int), Int.fract rel)] else [])

/-- Resampled trace: the trace times the assembled matrix (Seismogram.cpp:
`data * resampleMat`), entry `row`. -/
def resampled (numCols : Int) (c : ℚ) (f : Int → ℚ) (row : Int) : ℚ :=
  (((resampleEntries numCols c).filter (fun e => e.2.1 = row)).map fun e => e.2.2 * f e.1).sum

/-- `time2index`, Common.hpp:240-243 (truncation towards zero). -/
def time2index (time DT : ℚ) : Int :=
  let q := time / DT + 1 / 2
  if 0 ≤ q then ⌊q⌋ else ⌈q⌉

/-! ### Power of two, filter padding -/

/-- `calcNextPowTwo`, Common.hpp:187-194: `2 ^ ceil(log2 nt)` (simplification: the logarithm
is evaluated exactly). `none` for `nt ≤ 0`, where the logarithm is `-∞` or NaN. -/
def calcNextPowTwo (nt : Int) : Option Int :=
  if nt ≤ 0 then none else some (2 ^ Nat.clog 2 nt.toNat)

/-- Length of the frequency-domain filter set up by `Filter::init`, Filter.cpp:8-18:
`zeroPadding = calcNextPowTwo(nt - 1) - nt`, `filterLength = zeroPadding + nt`. For `nt = 1`
the result of `pow(2, -∞) = 0` is used. -/
def filterLength (nt : Int) : Out (Int × Int) :=
  if nt = 0 then .err
  else match calcNextPowTwo (nt - 1) with
    | some p => .ok (p - nt, (p - nt) + nt)
    | none => if nt = 1 then .ok (-1, 0) else .ub

/-- What `Filter::apply`, Filter.cpp:280-306, keeps of a signal when the filter is neutral:
the signal is resized to the filter length (truncating or zero padding), transformed forth
and back (identity) and resized to its own length. -/
def applyNeutral {V : Type} [Zero V] (nt : Int) (sig : List V) : Out (List V) := do
  let (pad, len) ← filterLength nt
  if (sig.length : Int) + pad = len then
    let padded := (sig ++ List.replicate (len.toNat - sig.length) 0).take len.toNat
    pure ((padded ++ List.replicate (sig.length - len.toNat) 0).take sig.length)
  else .err

/-! ### Phase unwrapping -/

/-- One step of the wrap correction, Common.hpp:332 (`M_PI` is the exact π). -/
noncomputable def wrapDiff (d : ℝ) : ℝ :=
  if d > Real.pi then d - 2 * Real.pi else if d < -Real.pi then d + 2 * Real.pi else d

/-- Loop over the samples, Common.hpp:328-336: previous wrapped phase, previous output,
remaining wrapped phases. -/
noncomputable def unwrapFrom : ℝ → ℝ → List ℝ → List ℝ
  | _, _, [] => []
  | w, u, w' :: ws => (u + wrapDiff (w' - w)) :: unwrapFrom w' (u + wrapDiff (w' - w)) ws

/-- `calcInstantaneousPhase(…, 3)` for one trace, Common.hpp:321-338, given the wrapped phases
(values of `atan2`). -/
noncomputable def unwrap : List ℝ → List ℝ
  | [] => []
  | w :: ws => w :: unwrapFrom w w ws

/-! ### Shot domains -/

/-- `checkNumShotDomains`, Common.hpp:465-471. -/
def checkNumShotDomains (numShotDomains size : Int) : Int :=
  if size < numShotDomains then size else numShotDomains

/-- `getShotDomain` with `ShotDomainDefinition = 0`, Partitioning.hpp:43-61, for process `rank`
of `size`. Zero domains divide by zero. -/
def getShotDomain (numShotDomains size rank : Int) : Out Int :=
  let n := checkNumShotDomains numShotDomains size
  if n = 0 then .ub
  else
    let np := size.tdiv n
    if size ≠ n * np then .err
    else if np = 0 then .ub
    else .ok (rank.tdiv np)

end Verif.Common
