import Verif.Model.ShotFiles

/-!
# The text file with the frequencies of the shots

`writeSourceFC` of `/repo/src/Acquisition/Sources.cpp`. A file is a list of characters. Opening the file is not modelled. The text of a
floating-point number, `outputFile << x`, is a function `txt`; the theorems say what they need of it.
-/
namespace Verif.FreqFile
open Verif
open Verif.ShotFile

/-- The frequencies printed in one line, Sources.cpp:840-843. `fc` are the frequencies of the shots by index, `k` is the index of the
first shot of the list. -/
def fcFields (txt : ℚ → List Char) (fc : Nat → ℚ) (k : Nat) (n : Int) : List Acq.Source → List Char
  | [] => []
  | s :: ss => (if s.shot = n then setw 14 (txt (fc k)) else []) ++ fcFields txt fc (k + 1) n ss

/-- One turn of the loop Sources.cpp:838-845. Reading behind the end of `uniqueShotNosEncode` is undefined. -/
def fcLine (txt : ℚ → List Char) (fc : Nat → ℚ) (unique : List Int) (settings : List Acq.Source) (k : Nat) : Out (List Char) :=
  match unique[k]? with
  | none => .ub
  | some n => .ok (setw 13 (showInt n) ++ fcFields txt fc 0 n settings ++ ['\n'])

/-- The two lines of comments, Sources.cpp:824-825. -/
def header (domain mode : Int) (domains nf : Nat) : List Char :=
  "# Shot frequency used in the frequency domain gradient (gradientDomain = ".toList ++ showInt domain ++
    ", useSourceEncode = ".toList ++ showInt mode ++ ", numShotDomains = ".toList ++ showInt domains ++ ", NF = ".toList ++
    showInt nf ++ ")\n".toList ++ "# Shot number | frequency (Hz)\n".toList

/-- `writeSourceFC` with encoding, Sources.cpp:801-845, on the first process with `gradientDomain` other than zero. `sourceFC` is the
list of all shots, whose first entry must exist; `size` is the size of `shotIndsIncr`. -/
def encodedFile (txt : ℚ → List Char) (domain mode : Int) (domains size : Nat) (sourceFC : List (List ℚ)) (fc : Nat → ℚ)
    (settings : List Acq.Source) : Out (List Char) :=
  match sourceFC with
  | [] => .ub
  | f :: _ => do
    let unique ← Acq.uniqueShotNos settings
    if settings.length = size then
      let lines ← (List.range domains).mapM (fcLine txt fc unique settings)
      .ok (header domain mode domains f.length ++ lines.flatten)
    else .err

/-- `writeSourceFC` without encoding, Sources.cpp:801-831: `settings` are the selected shots. -/
def plainFile (txt : ℚ → List Char) (domain : Int) (domains : Nat) (sourceFC : List (List ℚ)) (settings : List Acq.Source) :
    Out (List Char) :=
  match sourceFC, settings with
  | f :: _, s :: _ => .ok (header domain 0 domains f.length ++ (setw 13 (showInt s.no) ++ f.flatMap (fun x => setw 14 (txt x)) ++ ['\n']))
  | _, _ => .ub

end Verif.FreqFile
