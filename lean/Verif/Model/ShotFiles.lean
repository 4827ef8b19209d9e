import Verif.Model.Acquisition

/-!
# Text files with the selected and the encoded shots

`writeShotIndsIncr` and `writeSourceEncode` of `/repo/src/Acquisition/Sources.cpp`. A file is a list of characters. Opening the
file is not modelled.
-/
namespace Verif.ShotFile
open Verif

/-- `outputFile << x` for an integer. -/
def showInt : Int → List Char
  | .ofNat n => Nat.toDigits 10 n
  | .negSucc n => '-' :: Nat.toDigits 10 (n + 1)

/-- `std::setw(w)`: fills up with spaces on the left, and does not cut off longer texts. -/
def setw (w : Nat) (s : List Char) : List Char := List.replicate (w - s.length) ' ' ++ s

/-- The lines with the shots, Sources.cpp:745-747. -/
def incrLine (p : Int × Int) : List Char := setw 12 (showInt (p.1 + 1)) ++ setw 12 (showInt p.2) ++ ['\n']

/-- `writeShotIndsIncr`, Sources.cpp:725-749, on the first process with `shotIncr > DH`. `incr` is the text of the number
`shotIncr`. -/
def incrFile (incr : List Char) (inds nos : List Int) : Out (List Char) :=
  if inds.length = nos.length then
    .ok ("# Shot indices (shotIncr = ".toList ++ incr ++ " m, numshots = ".toList ++ showInt inds.length ++ ")\n".toList ++
      "# Shot index | shot number\n".toList ++ (inds.zip nos).flatMap incrLine)
  else .err

/-- The indices printed in one line, Sources.cpp:786-789: counted from one. -/
def encodeFields (k : Nat) (n : Int) : List Acq.Source → List Char
  | [] => []
  | s :: ss => (if s.shot = n then setw 5 (showInt (k + 1)) else []) ++ encodeFields (k + 1) n ss

/-- One turn of the loop Sources.cpp:784-791. Reading behind the end of `uniqueShotNosEncode` is undefined. -/
def encodeLine (unique : List Int) (settings : List Acq.Source) (k : Nat) : Out (List Char) :=
  match unique[k]? with
  | none => .ub
  | some n => .ok (setw 13 (showInt n) ++ encodeFields 0 n settings ++ ['\n'])

/-- `writeSourceEncode`, Sources.cpp:757-793, on the first process with source encoding. `size` is the size of
`shotIndsIncr`. -/
def encodeFile (mode : Int) (domains size : Nat) (settings : List Acq.Source) : Out (List Char) := do
  let unique ← Acq.uniqueShotNos settings
  if settings.length = size then
    let lines ← (List.range domains).mapM (encodeLine unique settings)
    .ok ("# Shot indices used in source encode (useSourceEncode = ".toList ++ showInt mode ++ ", numShotDomains = ".toList ++
      showInt domains ++ ", numshots = ".toList ++ showInt size ++ ")\n".toList ++
      "# Shot number | shot index (selected)\n".toList ++ lines.flatten)
  else .err

end Verif.ShotFile
