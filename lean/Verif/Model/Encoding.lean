import Verif.Model.Outcome
import Mathlib.Data.Rat.Defs
import Mathlib.Algebra.Order.Ring.Rat
import Mathlib.Data.Int.Init
import Mathlib.Algebra.BigOperators.Group.List.Basic
/-!
# Supershots and individual shots: `encode`, `decode` and `getModelPerShotSize` of
`/repo/src/Acquisition/Receivers.cpp`

A trace is an element of an additive group `M`; a seismogram is the list of its traces.
Receivers are numbered `0 … n-1` in file order; `ty` is their type and `row` the marks of a shot
(column `irec + 1` of its row in the mark file).
-/
namespace Verif.Encoding

/-- A shot of a supershot: the amplitude of its source in the encoded settings, the shot number in
column 0 of its row of the mark file and the marks of the receivers. -/
structure Member where
  amp : ℚ
  no : Int
  row : ℕ → Int

variable {M : Type} [AddCommGroup M]

/-- `if (amp < 0) dataSingle *= -1`, Receivers.cpp:501-502 and 527-528. -/
def signed (amp : ℚ) (x : M) : M := if amp < 0 then -x else x

/-- `receiverMarkVector`, Receivers.cpp:278-288: sign of the sum of the members' rows. -/
def markVector (ms : List Member) (irec : ℕ) : Int := ((ms.map fun s : Member => s.row irec).sum).sign

/-- `receiverMarkRow.sum()` after column 0 was cleared, Receivers.cpp:484-485. -/
def numSingle (n : ℕ) (row : ℕ → Int) : Int := ((List.range n).map row).sum

/-- One round of the loop over the receivers when decoding, Receivers.cpp:517-526. The state is
`count`, `countEncode` and `dataSingle`. A row outside a matrix is undefined. -/
def decodeStep (ty v row : ℕ → Int) (t : Int) (data : List M) (st : ℕ × ℕ × List M) (irec : ℕ) :
    Out (ℕ × ℕ × List M) :=
  if v irec ≠ 0 ∧ ty irec = t then
    if row irec ≠ 0 then
      match data[st.2.1]? with
      | none => .ub
      | some d =>
        if st.1 < st.2.2.length then .ok (st.1 + 1, st.2.1 + 1, st.2.2.set st.1 d) else .ub
    else .ok (st.1, st.2.1 + 1, st.2.2)
  else .ok st

/-- The loop over the receivers when decoding. -/
def decodeLoop (ty v row : ℕ → Int) (t : Int) (data : List M) :
    List ℕ → ℕ × ℕ × List M → Out (ℕ × ℕ × List M)
  | [], st => .ok st
  | irec :: l, st => do
    let st' ← decodeStep ty v row t data st irec
    decodeLoop ty v row t data l st'

/-- Decoding one member of a supershot, Receivers.cpp:481-529, for the component of receiver type
`t`. `data` holds the traces of this component of the supershot. `allocate` fills with zeros; a
negative number of rows is rejected. Simplifications: `gradientDomain = 0`, so no frequency filter
is applied; data with as many receivers as shots (common offset) are treated separately by the
code and left out. -/
def decodeShot (n : ℕ) (ty v : ℕ → Int) (t : Int) (data : List M) (s : Member) : Out (List M) :=
  if numSingle n s.row < 0 then .err
  else do
    let st ← decodeLoop ty v s.row t data (List.range n)
      (0, 0, List.replicate (numSingle n s.row).toNat 0)
    .ok (st.2.2.map (signed s.amp))

/-- `decode` (encode types 2 and 3), Receivers.cpp:430-437, 478-541: `dataDecode`, one matrix for
each member in the order of the members. -/
def decodeAll (n : ℕ) (ty v : ℕ → Int) (t : Int) (data : List M) :
    List Member → Out (List (List M))
  | [] => .ok []
  | s :: ss => do
    let d ← decodeShot n ty v t data s
    let r ← decodeAll n ty v t data ss
    .ok (d :: r)

/-- `decode` for the supershot with the members `ms`. -/
def decode (n : ℕ) (ty : ℕ → Int) (t : Int) (ms : List Member) (data : List M) :
    Out (List (List M)) :=
  decodeAll n ty (markVector ms) t data ms

/-- One round of the loop over the receivers when encoding, Receivers.cpp:507-516. The state is
`count`, `countEncode` and `data`. -/
def encodeStep (ty v row : ℕ → Int) (t : Int) (single : List M) (st : ℕ × ℕ × List M) (irec : ℕ) :
    Out (ℕ × ℕ × List M) :=
  if v irec ≠ 0 ∧ ty irec = t then
    if row irec ≠ 0 then
      match single[st.1]?, st.2.2[st.2.1]? with
      | some d, some e => .ok (st.1 + 1, st.2.1 + 1, st.2.2.set st.2.1 (e + d))
      | _, _ => .ub
    else .ok (st.1, st.2.1 + 1, st.2.2)
  else .ok st

/-- The loop over the receivers when encoding. -/
def encodeLoop (ty v row : ℕ → Int) (t : Int) (single : List M) :
    List ℕ → ℕ × ℕ × List M → Out (ℕ × ℕ × List M)
  | [], st => .ok st
  | irec :: l, st => do
    let st' ← encodeStep ty v row t single st irec
    encodeLoop ty v row t single l st'

/-- Adding one member to a supershot, Receivers.cpp:481-516 (same simplifications as
`decodeShot`). -/
def encodeShot (n : ℕ) (ty v : ℕ → Int) (t : Int) (data : List M) (s : Member)
    (single : List M) : Out (List M) := do
  let st ← encodeLoop ty v s.row t (single.map (signed s.amp)) (List.range n) (0, 0, data)
  .ok st.2.2

/-- Adding all members. A missing entry of `dataDecode` is undefined. -/
def encodeAll (n : ℕ) (ty v : ℕ → Int) (t : Int) :
    List Member → List (List M) → List M → Out (List M)
  | [], _, data => .ok data
  | _ :: _, [], _ => .ub
  | s :: ss, d :: ds, data => do
    let data' ← encodeShot n ty v t data s d
    encodeAll n ty v t ss ds data'

/-- `encode` with encode type 0, Receivers.cpp:427-428, 478-541: the matrix of the supershot is set
to zero (`k` is its number of rows) and the members in `dataDecode` are added. -/
def encode (n : ℕ) (ty : ℕ → Int) (t : Int) (ms : List Member) (k : ℕ)
    (singles : List (List M)) : Out (List M) :=
  encodeAll n ty (markVector ms) t ms singles (List.replicate k 0)

/-- Reading the file of one member with encode type 1, Receivers.cpp:486, 497 with `readMatrix`,
IO.hpp:139-171: the file must have as many rows as `dataSingle` was allocated with, and one of the
three matrix formats. -/
def readSingle (n : ℕ) (fmt : Int) (s : Member) (file : List M) : Out (List M) :=
  if ¬ (fmt = 1 ∨ fmt = 2 ∨ fmt = 3) then .err
  else if (file.length : Int) = numSingle n s.row then .ok file
  else .err

/-- The seismogram file of a supershot or of an ordinary shot, `write`, Seismogram.cpp:100-126:
every trace is resampled to the output sampling, and the format is one of the matrix formats 1, 2, 3
or SU (4). The headers of an SU file are not part of the model here. -/
def writeShot (fmt : Int) (resample : M → M) (data : List M) : Out (List M) :=
  if fmt = 4 ∨ fmt = 1 ∨ fmt = 2 ∨ fmt = 3 then .ok (data.map resample) else .err

/-- The file of a decoded shot, Receivers.cpp:530-537 with `writeMatrix`, IO.hpp:93-119. -/
def writeDecoded (fmt : Int) (data : List M) : Out (List M) :=
  if fmt = 1 ∨ fmt = 2 ∨ fmt = 3 then .ok data else .err

/-- Writing a list of decoded shots. -/
def writeDecodedAll (fmt : Int) : List Member → List (List M) → Out (List (Int × List M))
  | [], _ => .ok []
  | _ :: _, [] => .ub
  | s :: ss, d :: ds => do
    let f ← writeDecoded fmt d
    let r ← writeDecodedAll fmt ss ds
    .ok ((s.no, f) :: r)

/-- What is on disk after a supershot was simulated, Simulation.cpp:531-532, for one component: the
file of the supershot and the files of its members, each with the shot number of its name. -/
def finish (n : ℕ) (ty : ℕ → Int) (t : Int) (fmt : Int) (resample : M → M) (no : Int)
    (ms : List Member) (data : List M) : Out (List (Int × List M)) := do
  let f ← writeShot fmt resample data
  let ds ← decode n ty t ms data
  let fs ← writeDecodedAll fmt ms ds
  .ok ((no, f) :: fs)

/-! ## The width of the grid -/

/-- A source with the first coordinate of its position, the cut position of its model (0 without
streaming) and the first coordinates of its receivers. -/
structure ShotX where
  src : Int
  cut : Int
  recs : List Int

/-- The sources visited by the loop `shotInd += shotSkip`, Receivers.cpp:633. -/
def sampled {α : Type} (skip : ℕ) : List α → List α
  | [] => []
  | a :: l => a :: sampled skip (l.drop (skip - 1))
termination_by l => l.length
decreasing_by simp; omega

/-- `shotSkip`, Receivers.cpp:630-632 (division of unsigned integers). -/
def shotSkip (n : ℕ) : ℕ := if n / 10 > 1 then n / 10 else 1

/-- Running minimum, e.g. Receivers.cpp:638-639. -/
def runMin (m : Int) (l : List Int) : Int := l.foldl (fun m x => if m > x then x else m) m

/-- Running maximum, e.g. Receivers.cpp:640-641. -/
def runMax (m : Int) (l : List Int) : Int := l.foldl (fun m x => if m < x then x else m) m

/-- `getModelPerShotSize`, Receivers.cpp:582-672, without source encoding: the width of the grid of a
shot. `NX` is the configured width and `bw` the boundary width. The first source of an empty list is
undefined. The four running extremes are independent of each other, so each is computed by a loop of
its own. -/
def modelPerShotSize (NX bw : Int) (shots : List ShotX) : Out Int :=
  match shots with
  | [] => .ub
  | first :: _ =>
    let x0 := first.src - first.cut
    let vis := sampled (shotSkip shots.length) shots
    let srcs := vis.map fun s => s.src - s.cut
    let recs := vis.flatMap fun s => s.recs.map fun x => x - s.cut
    let minXsrc := runMin x0 srcs
    let maxXsrc := runMax x0 srcs
    let minXrec := runMin x0 recs
    let maxXrec := runMax x0 recs
    let maxXrec := if maxXrec < maxXsrc then maxXsrc else maxXrec
    let minXrec := if minXrec > minXsrc then minXsrc else minXrec
    if ¬ minXrec ≥ bw then .err
    else if NX < maxXrec + bw + 1 then .ok (maxXrec + bw + 1)
    else .ok NX

end Verif.Encoding
