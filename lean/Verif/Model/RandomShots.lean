import Verif.Model.ShotFiles

/-!
# The log of randomly chosen shots

`writeRandomShotNosToFile` of `/repo/src/Acquisition/AcquisitionSettings.hpp`, on the first process with `useRandomSource` other than
zero. The name of the file and failures to open it are not modelled. `std::scientific` does not change integers.
-/
namespace Verif.RandomShots
open Verif
open Verif.ShotFile

/-- One call: the shot numbers, the indices of the chosen shots, stage and iteration. -/
structure Call where
  nos : List Int
  inds : List Nat
  stage : Int
  it : Int

/-- The loop over the chosen shots, AcquisitionSettings.hpp:511-517; `i` is the number of shots printed before. Reading behind the end
of `uniqueShotNos` is undefined. -/
def shotFields (nos : List Int) (i : Nat) : List Nat → Out (List Char)
  | [] => .ok []
  | k :: ks =>
    match nos[k]? with
    | none => .ub
    | some n => do
      let r ← shotFields nos (i + 1) ks
      .ok (setw (if i = 0 then 9 else 4) (showInt n) ++ r)

/-- The comments, AcquisitionSettings.hpp:503-505. -/
def header (type : Int) : List Char :=
  "# Shot number records during inversion\n".toList ++ "# random source type = ".toList ++ showInt type ++
    " (0=all sequential shot, 1=numShotDomains random shot, 2=numShotDomains sequential shot)\n".toList ++
    "# Stage | Iteration | shot number\n".toList

/-- `writeRandomShotNosToFile`, AcquisitionSettings.hpp:495-521. The file is emptied in the first iteration of the first stage and
continued in all others. -/
def write (type : Int) (file : List Char) (c : Call) : Out (List Char) := do
  let r ← shotFields c.nos 0 c.inds
  .ok ((if c.stage = 1 ∧ c.it = 0 then header type else file) ++
    (setw 5 (showInt c.stage) ++ setw 10 (showInt c.it) ++ r ++ ['\n']))

/-- The calls of an inversion. -/
def writeAll (type : Int) : List Char → List Call → Out (List Char)
  | file, [] => .ok file
  | file, c :: cs => do
    let f ← write type file c
    writeAll type f cs

end Verif.RandomShots
