import Verif.Model.SU
import Verif.Model.Config
import Mathlib.Logic.Function.Basic

/-!
# Writing and reading seismograms

`write` and `read` of `/repo/src/Acquisition/Seismogram.cpp`, with the matrix files of `/repo/src/IO/IO.hpp` and the SU files
of `Verif.Model.SU`. A matrix file keeps its values exactly. Left out: the reference traces and the instantaneous attributes
that `write` puts into further files, and messages.
-/
namespace Verif.SeisFile
open Verif
open Verif.Config (Str)

variable {B V : Type}

/-- Contents of a file: a matrix, row by row, or the bytes of an SU file. -/
inductive File (B V : Type)
  | matrix (rows : List (List V))
  | bytes (b : List B)

/-- The files by name. -/
abbrev Disk (B V : Type) := Str → Option (File B V)

/-- The members of a `Seismogram` that take part, Seismogram.hpp:121-145. `comp` is its `SeismogramTypeString`
(Acquisition.hpp:28-33, 51-58), `ns` the number of columns of `data`. -/
structure Seis (V : Type) where
  comp : Str
  ns : ℕ
  data : List (List V)
  inverseAGC : List (List V)
  cop : List (List V)
  inverseAGCCOP : List (List V)
  coordinates : List SU.Coord
  source : SU.Coord
  shotInd : ℕ
  shotIndIncr : ℕ
  useAGC : Bool

/-- Ends of the names of matrix files, IO.hpp:97-116, 133-147; other formats raise an exception. -/
def extension (fmt : Int) : Option Str :=
  if fmt = 1 then some ".mtx".toList
  else if fmt = 2 then some ".lmf".toList
  else if fmt = 3 then some ".frv".toList
  else none

/-- Is this the seismogram of one shot of a profile? Seismogram.cpp:86 and 162. -/
def inProfile (s : Seis V) : Bool := s.data.length = 1 && 1 < s.cop.length

/-- Seismogram.cpp:86-96: the row goes into the profile; `setRow` rejects rows that do not exist. -/
def intoProfile (fmt : Int) (s : Seis V) : Out (Seis V) :=
  if fmt ≠ 5 then
    if s.shotInd < s.cop.length then .ok { s with cop := s.cop.set s.shotInd (s.data.headD []) } else .err
  else
    if s.shotInd < s.inverseAGCCOP.length then
      .ok { s with inverseAGCCOP := s.inverseAGCCOP.set s.shotInd (s.inverseAGC.headD []) }
    else .err

/-- A file is written or replaced. -/
def put (disk : Disk B V) (name : Str) (f : File B V) : Disk B V := fun n => if n = name then some f else disk n

/-- `write`, Seismogram.cpp:83-126, on `P` processes. `resample` is the product with `resampleMat`, which has `nsOut` columns. -/
def write (c : SU.Codec B V) (P : ℕ) (DH outputDT : ℚ) (resample : List V → List V) (nsOut : ℕ) (fmt : Int)
    (filename : Str) (s : Seis V) (disk : Disk B V) : Out (Seis V × Disk B V) :=
  if s.data.length * s.ns = 0 then .ok (s, disk)
  else if inProfile s then do
    let s' ← intoProfile fmt s
    .ok (s', disk)
  else
    let name := filename ++ ".".toList ++ s.comp
    if fmt = 5 then .ok (s, put disk (name ++ ".inverseAGC".toList ++ ".mtx".toList) (.matrix (s.inverseAGC.map resample)))
    else if fmt = 4 then do
      let b ← SU.writeSU c P DH outputDT nsOut s.source s.coordinates (s.data.map resample)
      .ok (s, put disk (name ++ ".su".toList) (.bytes b))
    else match extension fmt with
      | some e => .ok (s, put disk (name ++ e) (.matrix (s.data.map resample)))
      | none => .err

/-- `filename.substr(0, filename.find(".shot"))`, Seismogram.cpp:164-165. -/
def beforeShot : Str → Str
  | [] => []
  | a :: l => if ".shot".toList.isPrefixOf (a :: l) then [] else a :: beforeShot l

/-- `readMatrix` of all rows, IO.hpp:130-164: the sizes must be those of the seismogram. -/
def readRows (n ns : ℕ) (rows : List (List V)) : Out (List (List V)) :=
  if rows.length = n ∧ ∀ r ∈ rows, r.length = ns then .ok rows else .err

/-- `readMatrix` of one row, IO.hpp:172-195, and `setLocalRow`, Seismogram.cpp:194-195, which rejects a row of another
length. -/
def readRow (ns k : ℕ) (rows : List (List V)) : Out (List (List V)) :=
  match rows[k]? with
  | some r => if r.length = ns then .ok [r] else .err
  | none => .err

/-- `dataTemp` after the files are read, Seismogram.cpp:177-199. A missing file raises an exception. -/
def load (c : SU.Codec B V) (Q : ℕ) (fmt : Int) (name : Str) (readOriginal : Bool) (s : Seis V) (disk : Disk B V) :
    Out (List (List V)) :=
  if fmt = 4 then
    match disk (name ++ ".su".toList) with
    | some (.bytes b) => SU.readDataSU c Q s.ns (if inProfile s then 1 else s.data.length) b
    | _ => .err
  else match extension fmt with
    | none => .err
    | some e =>
      match disk (name ++ e) with
      | some (.matrix rows) =>
        if inProfile s then readRow s.ns (if readOriginal then s.shotIndIncr else s.shotInd) rows
        else readRows s.data.length s.ns rows
      | _ => .err

/-- `read`, Seismogram.cpp:158-207, on `Q` processes. -/
def read (c : SU.Codec B V) (Q : ℕ) (fmt : Int) (filename : Str) (readOriginal : Bool) (s : Seis V) (disk : Disk B V) :
    Out (Seis V) :=
  if inProfile s && 1 < Q then .err
  else
    let name := (if inProfile s then beforeShot filename else filename) ++ ".".toList ++ s.comp
    if fmt = 5 then do
      let rows ← load c Q 1 (name ++ ".inverseAGC".toList) readOriginal s disk
      .ok { s with inverseAGC := rows, useAGC := true }
    else do
      let rows ← load c Q fmt name readOriginal s disk
      .ok { s with data := rows }

/-- `write` of the handler, SeismogramHandler.cpp:16-21. -/
def writeAll (c : SU.Codec B V) (P : ℕ) (DH outputDT : ℚ) (resample : List V → List V) (nsOut : ℕ) (fmt : Int)
    (filename : Str) : List (Seis V) → Disk B V → Out (List (Seis V) × Disk B V)
  | [], disk => .ok ([], disk)
  | s :: l, disk => do
    let r ← write c P DH outputDT resample nsOut fmt filename s disk
    let rs ← writeAll c P DH outputDT resample nsOut fmt filename l r.2
    .ok (r.1 :: rs.1, rs.2)

/-- `read` of the handler, SeismogramHandler.cpp:33-39. -/
def readAll (c : SU.Codec B V) (Q : ℕ) (fmt : Int) (filename : Str) (readOriginal : Bool) (l : List (Seis V))
    (disk : Disk B V) : Out (List (Seis V)) :=
  l.mapM fun s => if 0 < s.data.length then read c Q fmt filename readOriginal s disk else .ok s

end Verif.SeisFile
