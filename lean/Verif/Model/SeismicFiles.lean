import Verif.Model.Outcome
import Mathlib.Data.Real.Basic

/-!
# Files of seismic models

`write` and `init` from files of the five seismic model classes in `/repo/src/Modelparameter`, with `writeVector` and `readVector` of
`/repo/src/IO/IO.hpp`. A disk maps names to vectors; the contents of a file are the values that were written (the conversion to text or
`float` is not modelled).
-/
namespace Verif.SeisFiles
open Verif

/-- The seismic model classes. -/
inductive Eqn | acoustic | elastic | viscoelastic | sh | viscosh
  deriving DecidableEq, Repr

/-- Parameter vectors that are stored in files. -/
inductive Fld | density | vp | vs | tauP | tauS | porosity | saturation | reflectivity
  deriving DecidableEq, Repr

abbrev Name := List Char
abbrev Disk := Name → Option (List ℝ)

/-- Settings of a model object that decide about further files. -/
structure Flags where
  inversionType : Int
  parameterisation : Int
  gradientKernel : Int
  decomposition : Int

/-- `getInversionType() == 3 || getParameterisation() == 1 || getParameterisation() == 2`, e.g. Elastic.cpp:289, 334. -/
def Flags.petro (g : Flags) : Bool := g.inversionType = 3 ∨ g.parameterisation = 1 ∨ g.parameterisation = 2

/-- `getGradientKernel() != 0 && getDecomposition() == 0`, e.g. Elastic.cpp:296, 338. -/
def Flags.refl (g : Flags) : Bool := g.gradientKernel ≠ 0 ∧ g.decomposition = 0

/-- Ends of the names of the parameters, e.g. Viscoelastic.cpp:326-336. -/
def suffix : Fld → Name
  | .density => ".density".toList
  | .vp => ".vp".toList
  | .vs => ".vs".toList
  | .tauP => ".tauP".toList
  | .tauS => ".tauS".toList
  | .porosity => ".porosity".toList
  | .saturation => ".saturation".toList
  | .reflectivity => ".reflectivity".toList

/-- Ends of the names for the file formats, IO.hpp:23-46, 61-75; others raise an exception. -/
def extension (fmt : Int) : Out Name :=
  if fmt = 1 then .ok ".mtx".toList else if fmt = 2 then .ok ".lmf".toList else if fmt = 3 then .ok ".frv".toList else .err

/-- Files that are written, in this order: Acoustic.cpp:302-310, Elastic.cpp:331-340, Viscoelastic.cpp:326-337, SH.cpp:260-268,
ViscoSH.cpp:285-294. -/
def written (e : Eqn) (g : Flags) : List Fld :=
  (match e with
    | .acoustic => [.density, .vp]
    | .elastic => [.density, .vp, .vs]
    | .viscoelastic => [.density, .vp, .vs, .tauP, .tauS]
    | .sh => [.density, .vs]
    | .viscosh => [.density, .vs, .tauS]) ++
  (if g.petro then [.porosity, .saturation] else []) ++ (if g.refl then [.reflectivity] else [])

/-- Files that are read, in this order: Acoustic.cpp:261-274, Elastic.cpp:286-300, Viscoelastic.cpp:273-289, SH.cpp:220-233,
ViscoSH.cpp:238-252. -/
def needed (e : Eqn) (g : Flags) : List Fld :=
  (match e with
    | .acoustic => [.vp, .density]
    | .elastic => [.vp, .vs, .density]
    | .viscoelastic => [.vs, .vp, .density, .tauS, .tauP]
    | .sh => [.vs, .density]
    | .viscosh => [.vs, .density, .tauS]) ++
  (if g.petro then [.porosity, .saturation] else []) ++ (if g.refl then [.reflectivity] else [])

/-- Parameters that are set to zero when they are not read, the `else` branches of the same lines. -/
def zeroed (g : Flags) : List Fld :=
  (if g.petro then [] else [.porosity, .saturation]) ++ (if g.refl then [] else [.reflectivity])

/-- `write` of a model with parameters `m` under the name `base`. -/
def write (e : Eqn) (g : Flags) (base : Name) (fmt : Int) (m : Fld → List ℝ) (d : Disk) : Out Disk := do
  let ext ← extension fmt
  pure ((written e g).foldl (fun d f => fun x => if x = base ++ suffix f ++ ext then some (m f) else d x) d)

/-- `initModelparameter` from a file, Modelparameter.cpp:256-262, with `readVector`, IO.hpp:58-87: the file has to exist and to have as
many values as the grid has points. -/
def readVector (n : ℕ) (base ext : Name) (d : Disk) (m : Fld → List ℝ) (f : Fld) : Out (Fld → List ℝ) :=
  match d (base ++ suffix f ++ ext) with
  | none => .err
  | some v => if v.length = n then .ok (fun x => if x = f then v else m x) else .err

/-- `init` from files for a grid with `n` points; `m` are the parameters of the object before. -/
noncomputable def init (e : Eqn) (g : Flags) (n : ℕ) (base : Name) (fmt : Int) (d : Disk) (m : Fld → List ℝ) : Out (Fld → List ℝ) := do
  let ext ← extension fmt
  let r ← (needed e g).foldlM (readVector n base ext d) m
  pure ((zeroed g).foldl (fun m f => fun x => if x = f then List.replicate n 0 else m x) r)

end Verif.SeisFiles
