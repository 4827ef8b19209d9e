import Mathlib.Data.Rat.Floor
import Mathlib.Algebra.Order.Field.Rat
import Verif.Model.Outcome
import Verif.Model.ShotSelection
/-!
# Seismic Unix files: `writeSU`, `readDataSU`, `readSingleDataSU`, `readHeaderSU`
(`/repo/src/IO/SUIO.hpp`) and `suHandler` (`/repo/src/Acquisition/suHandler.cpp`)

A file is a list of bytes (type `B`). How the 240 header bytes and the four bytes of a float are
laid out is left open: every theorem holds for all codecs that read back what they wrote.
-/
namespace Verif.SU
open Verif.Shots (blockLb blockUb)

/-- Position on the grid (`coordinate3D`). -/
structure Coord where
  x : Int
  y : Int
  z : Int
  deriving DecidableEq, Repr

/-- The fields of `Segy` (segy.hpp:69-351) that some reader of the code uses, plus the trace number
and the sampling interval. Simplification: angles, offset and the constant fields are left out. -/
structure Header where
  tracl : Int
  gelev : Int
  sdepth : Int
  sx : Int
  sy : Int
  gx : Int
  gy : Int
  scalel : Int
  scalco : Int
  ns : Nat
  dt : Int
  deriving DecidableEq, Repr

/-- 32-bit signed range. -/
def int32 (i : Int) : Bool := -2147483648 ≤ i ∧ i < 2147483648

/-- Every field fits its bit field. -/
def Header.fits (h : Header) : Bool :=
  int32 h.tracl && int32 h.gelev && int32 h.sdepth && int32 h.sx && int32 h.sy && int32 h.gx &&
  int32 h.gy && (-32768 ≤ h.scalel && h.scalel < 32768) && (-32768 ≤ h.scalco && h.scalco < 32768) &&
  h.ns < 65536 && (0 ≤ h.dt && h.dt < 65536)

/-- In-memory layout of headers and floats as copied by `memcpy`/`fread`. -/
structure Codec (B V : Type) where
  encH : Header → List B
  decH : List B → Header
  encF : V → List B
  decF : List B → V
  lenH : ∀ h, (encH h).length = 240
  lenF : ∀ v, (encF v).length = 4
  invH : ∀ h, h.fits = true → decH (encH h) = h
  invF : ∀ v, decF (encF v) = v

/-- C `round`: half away from zero. -/
def roundQ (q : ℚ) : Int := if 0 ≤ q then ⌊q + 1 / 2⌋ else ⌈q - 1 / 2⌉

/-- `static_cast<int>` of a floating point number: towards zero. -/
def truncQ (q : ℚ) : Int := if 0 ≤ q then ⌊q⌋ else ⌈q⌉

/-- The values assigned to the header of trace `k`, SUIO.hpp:196-251; the number of samples wraps to
16 bits. -/
def headerOf (DH DT : ℚ) (ns : Nat) (src rcv : Coord) (k : Nat) : Header :=
  { tracl := k + 1
    gelev := roundQ (rcv.y * DH * 1000)
    sdepth := roundQ (src.y * DH * 1000)
    sx := roundQ (src.x * DH * 1000)
    sy := roundQ (src.z * DH * 1000)
    gx := roundQ (rcv.x * DH * 1000)
    gy := roundQ (rcv.z * DH * 1000)
    scalel := -3
    scalco := -3
    ns := ns % 65536
    dt := roundQ (DT * 1000000) }

/-- The header of trace `k`. Converting a floating point value that does not fit the integer type is
undefined behaviour. -/
def mkHeader (DH DT : ℚ) (ns : Nat) (src rcv : Coord) (k : Nat) : Out Header :=
  if (headerOf DH DT ns src rcv k).fits then .ok (headerOf DH DT ns src rcv k) else .ub

/-- One trace in the buffer: 240 header bytes, then the samples, SUIO.hpp:253-257. -/
def traceBytes {B V : Type} (c : Codec B V) (h : Header) (row : List V) : List B :=
  c.encH h ++ row.flatMap c.encF

/-- Buffer of one process, SUIO.hpp:188-258: traces `lo, …, hi-1`. The buffer is allocated with a
32-bit size. `rows` is the matrix, `rcvs` the trace coordinates (both after redistribution). -/
def localBuffer {B V : Type} (c : Codec B V) (DH DT : ℚ) (ns : Nat) (src : Coord) (rcvs : List Coord)
    (rows : List (List V)) (lo hi : Nat) : Out (List (List B)) :=
  if 2147483648 ≤ (hi - lo) * (240 + 4 * ns) then .ub
  else (List.range' lo (hi - lo)).mapM fun k =>
    match rcvs[k]?, rows[k]? with
    | some r, some row => do
      let h ← mkHeader DH DT ns src r k
      .ok (traceBytes c h row)
    | _, _ => .ub

/-- `writeSU`, SUIO.hpp:156-269, on `P` processes with a block distribution of the traces; the
collective write puts the buffers one after another in the order of the processes. -/
def writeSU {B V : Type} (c : Codec B V) (P : Nat) (DH DT : ℚ) (ns : Nat) (src : Coord)
    (rcvs : List Coord) (rows : List (List V)) : Out (List B) := do
  let bufs ← (List.range P).mapM fun p =>
    localBuffer c DH DT ns src rcvs rows (blockLb rows.length P p) (blockUb rows.length P p)
  .ok (bufs.flatten.flatten)

/-- `n` floats from a buffer. -/
def decFloats {B V : Type} (c : Codec B V) (n : Nat) (bytes : List B) : List V :=
  (List.range n).map fun j => c.decF ((bytes.drop (4 * j)).take 4)

/-- `readDataSU`, SUIO.hpp:280-340, on `Q` processes: process `q` reads its traces' bytes after
those of the processes before it and skips the headers. A file that is too short leaves the buffer
partly uninitialised (`ub`). -/
def readDataSU {B V : Type} (c : Codec B V) (Q ns ntr : Nat) (file : List B) : Out (List (List V)) := do
  let parts ← (List.range Q).mapM fun q =>
    let lo := blockLb ntr Q q
    let n := blockUb ntr Q q - lo
    let L := 240 + 4 * ns
    let buf := (file.drop (lo * L)).take (n * L)
    if 2147483648 ≤ n * L then .ub
    else if buf.length < n * L then .ub
    else .ok ((List.range n).map fun i => decFloats c ns ((buf.drop (i * L + 240)).take (4 * ns)))
  .ok parts.flatten

/-- `readSingleDataSU`, SUIO.hpp:350-372: header of the first trace, skip (computed in 32-bit
integers), samples. Reading past the end leaves `tr.data` uninitialised (`ub`). -/
def readSingle {B V : Type} (c : Codec B V) (file : List B) (k : Nat) : Out (List V) :=
  if file.length < 240 then .ub
  else
    let ns := (c.decH (file.take 240)).ns
    if 2147483648 ≤ (240 + ns * 4) * k then .ub
    else
      let bytes := (file.drop (240 + (240 + ns * 4) * k)).take (4 * ns)
      if bytes.length < 4 * ns then .ub else .ok (decFloats c ns bytes)

/-- `readHeaderSU`, SUIO.hpp:380-405: until the end of the file, read a header and skip the samples
it announces. A truncated header is partly stale (`ub`). `fuel` bounds the number of headers. -/
def readHeadersLoop {B V : Type} (c : Codec B V) : Nat → List B → Out (List Header)
  | 0, _ => .ub
  | fuel + 1, file =>
    if file = [] then .ok []
    else if file.length < 240 then .ub
    else do
      let h := c.decH (file.take 240)
      let hs ← readHeadersLoop c fuel (file.drop (240 + 4 * h.ns))
      .ok (h :: hs)

/-- `readHeaderSU`; every header takes at least one byte. -/
def readHeaders {B V : Type} (c : Codec B V) (file : List B) : Out (List Header) :=
  readHeadersLoop c (file.length + 1) file

/-- Grid position of the source of a trace, suHandler.cpp:78-80. -/
def sourceCoord (DH : ℚ) (h : Header) : Coord :=
  { x := truncQ (h.sx * (10 : ℚ) ^ h.scalco / DH + 1 / 2)
    y := truncQ (h.sdepth * (10 : ℚ) ^ h.scalel / DH + 1 / 2)
    z := truncQ (h.sy * (10 : ℚ) ^ h.scalco / DH + 1 / 2) }

/-- Grid position of the receiver of a trace, suHandler.cpp:107-109. -/
def receiverCoord (DH : ℚ) (h : Header) : Coord :=
  { x := truncQ (h.gx * (10 : ℚ) ^ h.scalco / DH)
    y := truncQ (h.gelev * (10 : ℚ) ^ h.scalel / DH)
    z := truncQ (h.gy * (10 : ℚ) ^ h.scalco / DH) }

/-! ### Component from the file name -/

/-- `substr(0, find_last_of('.'))`; without a dot the position is `npos` and the whole string is
kept. -/
def beforeLastDot (s : List Char) : List Char :=
  if '.' ∈ s then ((s.reverse.dropWhile (· ≠ '.')).drop 1).reverse else s

/-- `substr(find_last_of('.') + 1)`; `npos + 1 = 0`. -/
def afterLastDot (s : List Char) : List Char := (s.reverse.takeWhile (· ≠ '.')).reverse

/-- `SeismogramTypeString`, Acquisition.hpp. -/
def componentNames : List (List Char) := [['p'], ['v', 'x'], ['v', 'y'], ['v', 'z']]

/-- `getComponentFromName`, suHandler.cpp:119-134: the last match of the loop wins. -/
def getComponent (filename : List Char) : Out Nat :=
  let t := afterLastDot (beforeLastDot filename)
  let c := (List.range 4).foldl (fun c i => if componentNames[i]? = some t then i + 1 else c) 6
  if c < 6 then .ok c else .err

/-- File name of component `i`, suHandler.cpp:23 and 45 (also Seismogram/SUIO:
`filename + "." + component + ".su"`). -/
def componentFile (base : List Char) (i : Nat) : List Char :=
  base ++ ['.'] ++ (componentNames[i]?).getD [] ++ ['.', 's', 'u']

/-! ### All component files

A directory is a map from file names to contents (already decoded to headers). -/

/-- `readAllSettingsFromSUComp`, suHandler.cpp:65-86 and 95-112: coordinates and type of every trace
of a file; opening a missing file throws. -/
def readComp (dir : List Char → Option (List Header)) (pos : Header → Coord) (name : List Char) :
    Out (List (Coord × Nat)) :=
  match dir name with
  | none => .err
  | some hs => do
    let c ← getComponent name
    .ok (hs.map fun h => (pos h, c))

/-- `readAllSettingsFromSU` for sources, suHandler.cpp:14-27. -/
def readAllSources (dir : List Char → Option (List Header)) (pos : Header → Coord)
    (base : List Char) : Out (List (Coord × Nat)) := do
  let parts ← (List.range 4).mapM fun i => readComp dir pos (componentFile base i)
  .ok parts.flatten

/-- `readAllSettingsFromSU` for receivers, suHandler.cpp:35-56: an exception is caught and counted;
the fourth one is reported. The temporary vector is cleared before the file is opened, so nothing
is inserted for a missing file. -/
def readAllReceivers (dir : List Char → Option (List Header)) (pos : Header → Coord)
    (base : List Char) : Out (List (Coord × Nat)) := do
  let r ← (List.range 4).foldlM (fun (st : List (Coord × Nat) × Nat) i =>
    match readComp dir pos (componentFile base i) with
    | .ok l => .ok (st.1 ++ l, st.2)
    | .err => if st.2 + 1 = 4 then .err else .ok (st.1, st.2 + 1)
    | .ub => .ub) ([], 0)
  .ok r.1

end Verif.SU
