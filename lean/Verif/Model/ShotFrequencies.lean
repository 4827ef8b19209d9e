import Verif.Model.ShotSelection
import Verif.Model.Acquisition
import Mathlib.Data.Rat.Floor
import Mathlib.Logic.Function.Basic
/-!
# Frequencies of encoded shots: `calcSourceSettingsEncode` of `/repo/src/Acquisition/Sources.cpp` for `gradientDomain ≠ 0`

Random numbers are an explicit input: the list of values `std::rand()` returns from line 669 on. A loop that has used up the list
without finishing returns `none`.
-/
namespace Verif.ShotFreq

/-- `fc1Ind` with encoding, Sources.cpp:593, 608-611: number of the first frequency in multiples of `df`. -/
def firstInd (fc1 df : ℚ) : Int :=
  let i := ⌈fc1 / df⌉
  let j := if i = 0 then 2 else i
  if j.tmod 2 = 1 then j + 1 else j

/-- `nfc12` with encoding, Sources.cpp:594, 612. -/
def numFreq (fc1 fc2 df : ℚ) : Int := ⌈((⌈fc2 / df⌉ - firstInd fc1 df + 1 : Int) : ℚ) / 2⌉

/-- `fc12[k]` with encoding, Sources.cpp:613. -/
def freq (fc1 df : ℚ) (k : Nat) : ℚ := firstInd fc1 df * df + k * (2 * df)

/-- `fc12` without encoding, Sources.cpp:593-601; this list is kept for each shot (603-606). A negative length is rejected by the vector. -/
def plainFreqs (fc1 fc2 df : ℚ) : Out (List ℚ) :=
  let i := ⌈((⌈fc1 / df⌉ : Int) : ℚ) / 2⌉
  let i1 := if i = 0 then 1 else i
  let n := ⌈fc2 / df⌉ * 2 - i1 + 1
  if n < 0 then .err else .ok ((List.range n.toNat).map fun k : Nat => (i1 : ℚ) * df + k * df)

/-- Values that change in the loops over the shots: the unused random numbers, `fc12History`, `jf`, the frequencies `fc` of the shots
and `uniqueFC`. -/
structure State where
  rands : List Nat
  hist : List Nat
  jf : Nat
  fc : Nat → ℚ
  uniq : List ℚ

/-- Drawing a frequency that was not used before, Sources.cpp:669-673: the index and the unused random numbers. A remainder modulo zero
and an index outside the history are undefined; `fc12` is as long as the history. -/
def draw (hist : List Nat) : List Nat → Out (Option (Nat × List Nat))
  | [] => .ok none
  | r :: rs =>
    if hist.length = 0 then .ub
    else match hist[r % hist.length]? with
      | none => .ub
      | some c => if c > 0 then draw hist rs else .ok (some (r % hist.length, rs))

/-- The loop over the shots for one supershot, Sources.cpp:664-678. `nos` are the shots (index and absolute source number) still to be
visited, `f` is `fc12`. Writing beyond the end of `uniqueFC` is undefined. -/
def members (f : Nat → ℚ) (target : Int) : List (Nat × Int) → State → Out (Option State)
  | [], st => .ok (some st)
  | (i, no) :: l, st =>
    if no = target then
      match draw st.hist st.rands with
      | .err => .err
      | .ub => .ub
      | .ok none => .ok none
      | .ok (some (k, rs)) =>
        if st.jf < st.uniq.length then
          members f target l ⟨rs, st.hist.set k 1, st.jf + 1, Function.update st.fc i (f k), st.uniq.set st.jf (f k)⟩
        else .ub
    else members f target l st

/-- The loop over the supershots, Sources.cpp:662-680. `todo` are the indices of the supershots still to be visited, `acc` is `sourceFC`.
`uniqueShotNosEncode` beyond its end is undefined. The result are the frequencies of the shots and `sourceFC`. -/
def supershots (f : Nat → ℚ) (nfc : Nat) (nos : List (Nat × Int)) (u : List Int) :
    List Nat → State → List (List ℚ) → Out (Option ((Nat → ℚ) × List (List ℚ)))
  | [], st, acc => .ok (some (st.fc, acc))
  | k :: ks, st, acc =>
    match u[k]? with
    | none => .ub
    | some t =>
      match members f t nos { st with hist := List.replicate nfc 0, jf := 0 } with
      | .err => .err
      | .ub => .ub
      | .ok none => .ok none
      | .ok (some st') => supershots f nfc nos u ks st' (acc ++ [st'.uniq])

/-- `calcSourceSettingsEncode` with encoding and `gradientDomain ≠ 0`, Sources.cpp:587-624, 657-681: frequency of each shot and
`sourceFC`. `srcs` are the encoded sources (after line 656), `d` the number of supershots, `fc0` the frequencies before the call,
`df > 0` the frequency sampling. -/
def frequencies (fc1 fc2 df : ℚ) (d : Nat) (srcs : List Acq.Source) (fc0 : Nat → ℚ) (rands : List Nat) :
    Out (Option ((Nat → ℚ) × List (List ℚ))) :=
  if d = 0 then .ub
  else if numFreq fc1 fc2 df < (Shots.ceilDiv srcs.length d : Int) then .err
  else do
    let u ← Acq.uniqueShotNos srcs
    supershots (freq fc1 df) (numFreq fc1 fc2 df).toNat ((List.range srcs.length).zip (srcs.map Acq.Source.shot)) u (List.range d)
      ⟨rands, [], 0, fc0, List.replicate (Shots.ceilDiv srcs.length d) 0⟩ []

end Verif.ShotFreq
