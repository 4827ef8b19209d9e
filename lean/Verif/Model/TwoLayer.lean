import Verif.Model.Config
import Verif.Model.Grid
import Mathlib.Data.Rat.Defs

/-!
# The tool that creates a model of two layers

`/repo/src/Tools/CreateModel/TwoLayer.cpp` and the files that the simulation reads with `ModelRead=1` (without `inversionType` 3,
`parameterisation` 1 or 2 and `gradientKernel`). Values are exact; a file is a list of values.
-/
namespace Verif.TwoLayer
open Verif
open Verif.Config (Str lower)

/-- The vectors of the tool, TwoLayer.cpp:49-53. -/
inductive Vec
  | density | vp | vs | tauP | tauS
  deriving DecidableEq, Repr

/-- Values of the first layer, TwoLayer.cpp:25. -/
def upper : Vec → ℚ
  | .vp => 3500
  | .vs => 2000
  | .density => 2000
  | .tauP | .tauS => 1 / 10

/-- Values of the second layer, TwoLayer.cpp:26. -/
def below : Vec → ℚ
  | .vp => 4550
  | .vs => 2600
  | .density => 2600
  | .tauP | .tauS => 1 / 10

/-- `depth`, TwoLayer.cpp:29. -/
def depth : ℕ := 40

/-- Assignment to `(y, Range(), Range())` of a vector on the grid `(NY, NZ, NX)`, TwoLayer.cpp:58-62. LAMA stores grids row by row:
`(y, z, x)` is element `(y * NZ + z) * NX + x`. -/
def setSlice (NX NZ : ℕ) (v : List ℚ) (y : ℕ) (p : ℚ) : List ℚ :=
  v.mapIdx fun i q => if i / (NZ * NX) = y then p else q

/-- A vector before it is written, TwoLayer.cpp:49-63. -/
def vector (NX NY NZ : ℕ) (f : Vec) : List ℚ :=
  (List.range' depth (NY - depth)).foldl (fun v y => setSlice NX NZ v y (below f)) (List.replicate (NY * NZ * NX) (upper f))

/-- The ends of the file names. -/
def suffix : Vec → Str
  | .density => ".density".toList
  | .vp => ".vp".toList
  | .vs => ".vs".toList
  | .tauP => ".tauP".toList
  | .tauS => ".tauS".toList

/-- The vectors that are written for an `equationType`, TwoLayer.cpp:74-87. -/
def written (type : Str) : List Vec :=
  [.density] ++ (if type ≠ "sh".toList then [.vp] else []) ++ (if type ≠ "acoustic".toList then [.vs] else []) ++
    if type = "viscoelastic".toList then [.tauP, .tauS] else []

/-- The files of the tool. -/
def files (NX NY NZ : ℕ) (type : Str) (name : Str) : Option (List ℚ) :=
  ((written type).find? fun f => suffix f = name).map (vector NX NY NZ)

/-- The files that the simulation reads, `Factory::Create` (ModelparameterFactory.cpp:5-44, in lower case) and `init` of the
model classes: Acoustic.cpp:261-262, Elastic.cpp:286-288, Viscoelastic.cpp:273-277, SH.cpp:220-221, ViscoSH.cpp:238-240, TMEM.cpp:270-272,
EMEM.cpp:270-272, ViscoTMEM.cpp:325-329, ViscoEMEM.cpp:280-284. -/
def needed (type : Str) : Out (List Str) :=
  let t := lower type
  if t = "acoustic".toList then .ok [".vp".toList, ".density".toList]
  else if t = "elastic".toList then .ok [".vp".toList, ".vs".toList, ".density".toList]
  else if t = "viscoelastic".toList then
    .ok [".vs".toList, ".vp".toList, ".density".toList, ".tauS".toList, ".tauP".toList]
  else if t = "sh".toList then .ok [".vs".toList, ".density".toList]
  else if t = "viscosh".toList then .ok [".vs".toList, ".density".toList, ".tauS".toList]
  else if t = "tmem".toList ∨ t = "emem".toList then .ok [".mur".toList, ".sigma".toList, ".epsilonr".toList]
  else if t = "viscotmem".toList ∨ t = "viscoemem".toList then
    .ok [".mur".toList, ".sigma".toList, ".epsilonr".toList, ".tauSigmar".toList, ".tauEpsilon".toList]
  else .err

/-- `readVector`, IO.hpp:58-87: the file has to exist and to have as many values as the grid has points. -/
def readVector (n : ℕ) (fs : Str → Option (List ℚ)) (name : Str) : Out (Str × List ℚ) :=
  match fs name with
  | some v => if v.length = n then .ok (name, v) else .err
  | none => .err

/-- The model of the simulation. -/
def readModel (n : ℕ) (type : Str) (fs : Str → Option (List ℚ)) : Out (List (Str × List ℚ)) := do
  let names ← needed type
  names.mapM (readVector n fs)

end Verif.TwoLayer
