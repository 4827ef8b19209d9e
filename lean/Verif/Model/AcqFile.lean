import Verif.Model.Outcome
import Verif.Model.Acquisition
/-!
# Source and receiver files: `/repo/src/Acquisition/AcquisitionSettings.hpp` lines 55-109, 238-283

A file is the list of its characters (`none`: it cannot be opened). `std::stof` is a parameter (any
total function into `Option`); everything else is spelled out.
-/
namespace Verif.AcqFile
open Verif.Acq Verif.Grid

/-- `isspace` in the C locale. -/
def isSpace (c : Char) : Bool :=
  c = ' ' || c = '\t' || c = '\n' || c = '\x0b' || c = '\x0c' || c = '\r'

/-- Successive `getline`s (AcquisitionSettings.hpp:63, 246): pieces between newlines; nothing after a
newline at the end of the file. `cur` is the reversed beginning of the current line. -/
def getlines : List Char → List Char → List (List Char)
  | [], cur => if cur = [] then [] else [cur.reverse]
  | c :: cs, cur => if c = '\n' then cur.reverse :: getlines cs [] else getlines cs (c :: cur)

/-- `while (strings >> tempStr)`, AcquisitionSettings.hpp:73-75, 255-257: the maximal pieces without
white space. -/
def tokens : List Char → List Char → List (List Char)
  | [], cur => if cur = [] then [] else [cur.reverse]
  | c :: cs, cur =>
    if isSpace c then (if cur = [] then tokens cs [] else cur.reverse :: tokens cs [])
    else tokens cs (c :: cur)

/-- Is the line skipped (AcquisitionSettings.hpp:68, 251)? It is if its first character is `#`, or
if it is empty or white space. -/
def skipped (line : List Char) : Bool :=
  (line.head? = some '#') || (line = [] || line.all isSpace)

def digitVal (c : Char) : Nat := c.toNat - '0'.toNat

/-- Value of the longest prefix of decimal digits, continuing from `acc`. -/
def readDigits : List Char → Nat → Nat
  | [], acc => acc
  | c :: cs, acc => if c.isDigit then readDigits cs (10 * acc + digitVal c) else acc

/-- `std::stoi` of a token (no leading white space): optional sign, at least one digit
(`invalid_argument` otherwise), anything may follow the digits; the value must fit an `int`
(`out_of_range` otherwise). Both exceptions are turned into an error, AcquisitionSettings.hpp:
94-100, 271-277. -/
def stoi (t : List Char) : Out Int :=
  let (neg, d) : Bool × List Char :=
    match t with
    | '-' :: r => (true, r)
    | '+' :: r => (false, r)
    | _ => (false, t)
  match d.head? with
  | some c =>
    if c.isDigit then
      let v : Int := readDigits d 0
      let v := if neg then -v else v
      if -2147483648 ≤ v ∧ v ≤ 2147483647 then .ok v else .err
    else .err
  | none => .err

/-- `std::stof` with its exceptions as errors. -/
def stofOut {F : Type} (stof : List Char → Option F) (t : List Char) : Out F :=
  match stof t with
  | some v => .ok v
  | none => .err

/-- One receiver line, AcquisitionSettings.hpp:255-278. -/
def receiverLine (line : List Char) : Out Receiver :=
  match tokens line [] with
  | [a, b, c, d] => do
    let x ← stoi a
    let y ← stoi b
    let z ← stoi c
    let t ← stoi d
    .ok ⟨⟨x, y, z⟩, t⟩
  | _ => .err

/-- The loop over the lines, AcquisitionSettings.hpp:246-280; the vector is `acc`. -/
def receiverLoop : List (List Char) → List Receiver → Out (List Receiver)
  | [], acc => .ok acc
  | l :: ls, acc =>
    if skipped l then receiverLoop ls acc
    else do
      let r ← receiverLine l
      receiverLoop ls (acc ++ [r])

/-- `readAllSettings` of receivers, AcquisitionSettings.hpp:238-283. -/
def readReceivers (file : Option (List Char)) : Out (List Receiver) :=
  match file with
  | none => .err
  | some cs => receiverLoop (getlines cs []) []

/-- `sourceSettings`, AcquisitionSettings.hpp:22-34, with all its members. -/
structure SourceLine (F : Type) where
  no : Int
  coords : Coord
  type : Int
  waveletType : Int
  waveletShape : Int
  fc : F
  amp : F
  tShift : F
  row : Int
  deriving DecidableEq

/-- One source line, AcquisitionSettings.hpp:72-103. -/
def sourceLine {F : Type} (stof : List Char → Option F) (row : Int) (line : List Char) :
    Out (SourceLine F) :=
  match tokens line [] with
  | [a0, a1, a2, a3, a4, a5, a6, a7, a8, a9] => do
    let no ← stoi a0
    let x ← stoi a1
    let y ← stoi a2
    let z ← stoi a3
    let t ← stoi a4
    let wt ← stoi a5
    let ws ← stoi a6
    let fc ← stofOut stof a7
    let amp ← stofOut stof a8
    let ts ← stofOut stof a9
    .ok ⟨no, ⟨x, y, z⟩, t, wt, ws, fc, amp, ts, row⟩
  | _ => .err

/-- The loop over the lines, AcquisitionSettings.hpp:63-105: `row` is `row_index`. -/
def sourceLoop {F : Type} (stof : List Char → Option F) :
    List (List Char) → Int → List (SourceLine F) → Out (List (SourceLine F))
  | [], _, acc => .ok acc
  | l :: ls, row, acc =>
    if skipped l then sourceLoop stof ls row acc
    else do
      let s ← sourceLine stof (row + 1) l
      sourceLoop stof ls (row + 1) (acc ++ [s])

/-- `readAllSettings` of sources, AcquisitionSettings.hpp:55-109. -/
def readSources {F : Type} (stof : List Char → Option F) (file : Option (List Char)) :
    Out (List (SourceLine F)) :=
  match file with
  | none => .err
  | some cs => sourceLoop stof (getlines cs []) (-1) []

end Verif.AcqFile
