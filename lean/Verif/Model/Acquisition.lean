import Verif.Model.Outcome
import Verif.Model.Grid
import Mathlib.Data.Rat.Defs
import Mathlib.Data.Int.Init
/-!
# Acquisition: `/repo/src/Acquisition/AcquisitionSettings.hpp`, `AcquisitionGeometry.cpp`,
`Sources.cpp`, `Receivers.cpp`

`std::vector` is `List`; `push_back` appends at the end; reading past the end is `Out.ub`.
-/
namespace Verif.Acq
open Verif.Grid (Coord)

/-- `sourceSettings`, AcquisitionSettings.hpp:22-34 (wavelet shape, frequency and time shift are
not used by the functions below and left out). -/
structure Source where
  no : Int
  coords : Coord
  type : Int
  waveletType : Int
  amp : ℚ
  row : Int
  deriving DecidableEq

/-- `receiverSettings`, AcquisitionSettings.hpp:40-45. -/
structure Receiver where
  coords : Coord
  type : Int
  deriving DecidableEq

/-- `std::abs(sourceNo)`. -/
def Source.shot (s : Source) : Int := s.no.natAbs

/-- `calcuniqueShotNo`, AcquisitionSettings.hpp:191-202; `sourceSettings[0]` of an empty vector
is undefined. -/
def uniqueShotNos : List Source → Out (List Int)
  | [] => .ub
  | s :: ss => .ok ((s :: ss).foldl
      (fun u t => if t.shot ∈ u then u else u ++ [t.shot]) [s.shot])

/-- `getuniqueShotInd`, AcquisitionSettings.hpp:208-216. The output parameter keeps its old value
`ind` if the number is not found. -/
def uniqueShotInd (ind : Nat) (us : List Int) (n : Int) : Nat :=
  go us 0
where
  go : List Int → Nat → Nat
    | [], _ => ind
    | u :: us, i => if u = n then i else go us (i + 1)

/-- `createSettingsForShot`, AcquisitionSettings.hpp:119-127. -/
def createSettingsForShot (all : List Source) (n : Int) : List Source :=
  all.foldl (fun r s => if s.shot = n then r ++ [s] else r) []

/-- The shift and the six asserts of `getSettingsPerShot`, AcquisitionSettings.hpp:141-153 and
169-181. -/
def shiftChecked (c cut : Coord) (NX NY NZ bw : Int) : Out Coord :=
  let d : Coord := ⟨c.x - cut.x, c.y - cut.y, c.z - cut.z⟩
  if ¬ d.x ≥ bw then .err
  else if ¬ d.x < NX - bw then .err
  else if ¬ d.y ≥ bw then .err
  else if ¬ d.y < NY - bw then .err
  else if NZ > bw * 2 then
    if ¬ d.z ≥ bw then .err
    else if ¬ d.z < NZ - bw then .err
    else .ok d
  else .ok d

/-- `getSettingsPerShot` for sources, AcquisitionSettings.hpp:136-155 (one cut position per
source). -/
def sourcesPerShot (NX NY NZ bw : Int) : List Source → List Coord → Out (List Source)
  | [], _ => .ok []
  | _ :: _, [] => .ub
  | s :: ss, cut :: cuts => do
    let c ← shiftChecked s.coords cut NX NY NZ bw
    let r ← sourcesPerShot NX NY NZ bw ss cuts
    .ok ({ s with coords := c } :: r)

/-- `getSettingsPerShot` for receivers, AcquisitionSettings.hpp:164-183. -/
def receiversPerShot (NX NY NZ bw : Int) (cut : Coord) : List Receiver → Out (List Receiver)
  | [] => .ok []
  | r :: rs => do
    let c ← shiftChecked r.coords cut NX NY NZ bw
    let t ← receiversPerShot NX NY NZ bw cut rs
    .ok ({ r with coords := c } :: t)

/-- `Global2Local`, AcquisitionSettings.hpp:294-324, on the process `p`: `owner i` is the process
owning grid point `i`, `n` the number of grid points. The two loops (count, then write) visit the
same traces; the write loop is modelled. Traces are numbered from `k`. -/
def global2Local (owner : Int → Nat) (n : Int) (p : Nat) : Nat → List Int → Out (List Nat)
  | _, [] => .ok []
  | k, c :: cs =>
    if 0 ≤ c ∧ c < n then do
      let r ← global2Local owner n p (k + 1) cs
      .ok (if owner c = p then k :: r else r)
    else .err

/-- State of `initSeismogramHandler`, AcquisitionGeometry.cpp:24-54: for each type, the
coordinates written so far. The first loop counts the traces of each type to allocate the vectors;
the second writes coordinate number `count[type]` and increments the count, which appends. A type
outside 1..4 indexes the arrays out of bounds (the check is only active in debug builds). -/
def sortTraces : List (Int × Int) → Out (List Int × List Int × List Int × List Int)
  | ts => ts.foldl (fun acc t => do
      let (a, b, c, d) ← acc
      if t.1 - 1 = (0 : Int) then .ok (a ++ [t.2], b, c, d)
      else if t.1 - 1 = (1 : Int) then .ok (a, b ++ [t.2], c, d)
      else if t.1 - 1 = (2 : Int) then .ok (a, b, c ++ [t.2], d)
      else if t.1 - 1 = (3 : Int) then .ok (a, b, c, d ++ [t.2])
      else .ub) (.ok ([], [], [], []))

/-- Conversion of a floating point value to `IndexType`: truncation towards zero. -/
def truncQ (q : ℚ) : Int := q.num.tdiv q.den

/-- The factor applied to a signal row in `copySignalsToSeismogramHandler`,
Sources.cpp:366-370, with the amplitudes collected in `init`, Sources.cpp:36-41, in a
`std::vector<IndexType>`. -/
def signalFactor (s : Source) : Int :=
  let waveletAmp : Int := truncQ s.amp
  if s.waveletType ≠ 1 then (if waveletAmp > 0 then 1 else -1) else 1

/-- Row search for a normal shot, Receivers.cpp:268-277. `rows` is the mark matrix (column 0 is the
shot number), `inds` the remaining selected shot indices, `numshots` the number of rows, `cur` the
current value of `receiverMarkVector`. A row index outside the matrix is undefined. -/
def findMarkRow (rows : List (List Int)) (n numshots : Int) : List Nat → List Int → Out (List Int)
  | [], cur => .ok cur
  | i :: is, _ =>
    match rows[i]? with
    | none => .ub
    | some row =>
      match row[0]? with
      | none => .ub
      | some h =>
        if h = n then .ok row
        else if (i : Int) = numshots - 1 then .err
        else findMarkRow rows n numshots is row

/-- Sum of the rows of the members of a supershot, Receivers.cpp:278-287; `enc` are the encoded
shot numbers of the selected shots, `inds` their indices. -/
def sumMarkRows (rows : List (List Int)) (n : Int) : List Nat → List Int → List Int → Out (List Int)
  | [], _, acc => .ok acc
  | _ :: _, [], _ => .ub
  | i :: is, e :: es, acc =>
    if (e.natAbs : Int) = n then
      match rows[i]? with
      | none => .ub
      | some row => sumMarkRows rows n is es (List.zipWith (· + ·) acc row)
    else sumMarkRows rows n is es acc

/-- Selection of the receivers with a non-zero mark, Receivers.cpp:289-296 (the sign of an entry
is zero exactly if the entry is). The mark vector has one entry more than there are receivers. -/
def selectMarked {α : Type} : List α → List Int → Out (List α)
  | [], _ => .ok []
  | _ :: _, [] => .ub
  | r :: rs, m :: ms => do
    let t ← selectMarked rs ms
    .ok (if m ≠ 0 then r :: t else t)

/-- `getAcquisitionSettings` of the receivers with marks, Receivers.cpp:245-297. -/
def markedReceivers {α : Type} (recs : List α) (rows : List (List Int)) (n : Int) (inds : List Nat)
    (enc : List Int) (old : List Int) : Out (List α) := do
  let v ← (if enc.length = 0 then findMarkRow rows n rows.length inds old
    else sumMarkRows rows n inds enc (List.replicate (recs.length + 1) 0) : Out (List Int))
  selectMarked recs v.tail

/-- The loop collecting receiver types in `initWholeSpace`, Receivers.cpp:167-177. -/
def wholeSpaceTypes : List Int → Out (List Int)
  | [] => .ub
  | t :: ts => .ok ((t :: ts).foldl
      (fun u x => if (u.filter (· ≠ x)).length ≠ 0 then u ++ [x] else u) [t])

/-- `initWholeSpace`, Receivers.cpp:161-186: one receiver per collected type and grid index. -/
def wholeSpace (pos : Nat → Coord) (n : Nat) (types : List Int) : Out (List Receiver) := do
  let u ← wholeSpaceTypes types
  .ok (u.flatMap fun t => (List.range n).map fun i => ⟨pos i, t⟩)

end Verif.Acq
