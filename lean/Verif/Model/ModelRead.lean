import Verif.Model.SeismicFiles
import Verif.Model.Subset

/-!
# Seismic models from the configuration

`init(config, ctx, dist, modelCoordinates)` of the five seismic model classes in `/repo/src/Modelparameter`. The number of relaxation
mechanisms and their frequencies are left out.
-/
namespace Verif.SeisFiles
open Verif Verif.Grid

/-- Entries of the configuration: `ModelRead`, `UseVariableGrid` (read as an integer here, and as a truth value by the coordinates), `NX`,
`NY`, `NZ`, `ModelFilename`, `FileFormat` and the values of homogeneous models. -/
structure Setup where
  modelRead : Int
  variableGrid : Int
  nx : Int
  ny : Int
  nz : Int
  base : Name
  fmt : Int
  const : Fld → ℝ

/-- `config.get<bool>("useVariableGrid")`, Coordinates.cpp:44: all integers but 0 and 1 are read as true (with a failed stream that is not
checked). -/
def Setup.useVariableGrid (s : Setup) : Bool := s.variableGrid ≠ 0

/-- Parameters of homogeneous models, Acoustic.cpp:226-227, Elastic.cpp:251-253, Viscoelastic.cpp:235-239, SH.cpp:187-188,
ViscoSH.cpp:204-206. -/
def constants : Eqn → List Fld
  | .acoustic => [.vp, .density]
  | .elastic => [.vp, .vs, .density]
  | .viscoelastic => [.vp, .vs, .density, .tauS, .tauP]
  | .sh => [.vs, .density]
  | .viscosh => [.vs, .density, .tauS]

/-- `init` with values, e.g. Acoustic.cpp:224-231: all points get the same values, and porosity, saturation and reflectivity are zero. -/
noncomputable def homogeneous (e : Eqn) (n : ℕ) (c : Fld → ℝ) (m : Fld → List ℝ) : Fld → List ℝ := fun f =>
  if f ∈ constants e then List.replicate n (c f)
  else if f = .porosity ∨ f = .saturation ∨ f = .reflectivity then List.replicate n 0 else m f

/-- The equation and the parameters as in `Verif.Sub`, where porosity, saturation and reflectivity are left out. -/
def Eqn.sub : Eqn → Sub.Eqn
  | .acoustic => .acoustic
  | .elastic => .elastic
  | .viscoelastic => .viscoelastic
  | .sh => .sh
  | .viscosh => .viscosh

/-- Parameters with their names in `Verif.Sub`. -/
def Fld.sub : Fld → Option Sub.Par
  | .density => some .density
  | .vp => some .velocityP
  | .vs => some .velocityS
  | .tauP => some .tauP
  | .tauS => some .tauS
  | .porosity | .saturation | .reflectivity => none

/-- A model object as in `Verif.Sub`. -/
def toSub (m : Fld → List ℝ) : Sub.Model where
  par
    | .density => m .density
    | .velocityP => m .vp
    | .velocityS => m .vs
    | .tauP => m .tauP
    | .tauS => m .tauS
    | _ => []
  numRelax := 0
  freq := []

/-- Back again; the other vectors stay as they are. -/
def fromSub (r : Sub.Model) (m : Fld → List ℝ) : Fld → List ℝ := fun f =>
  match f.sub with
  | some p => r.par p
  | none => m f

/-- `init(config, ctx, dist, modelCoordinates)` for a simulation on `grid`: Acoustic.cpp:143-171, Elastic.cpp:162-190 (first two),
Viscoelastic.cpp:167-196, SH.cpp:143-159, ViscoSH.cpp:146-175 (others). -/
noncomputable def initConfig (e : Eqn) (g : Flags) (s : Setup) (grid : Grid) (d : Disk) (m : Fld → List ℝ) : Out (Fld → List ℝ) :=
  if e = .acoustic ∨ e = .elastic then
    if s.modelRead = 2 ∧ s.variableGrid ≠ 1 then .err
    else if (s.modelRead = 1 ∧ s.variableGrid = 0) ∨ s.modelRead = 2 then init e g grid.n.toNat s.base s.fmt d m
    else if s.modelRead = 1 ∧ s.variableGrid = 1 then do
      let reg ← initRegular s.nx s.ny s.nz
      let m ← init e g reg.n.toNat s.base s.fmt d m
      let r ← Sub.initVariable e.sub grid reg (toSub m)
      pure (fromSub r m)
    else .ok (homogeneous e grid.n.toNat s.const m)
  else
    if s.modelRead = 2 then .err
    else if s.modelRead = 1 then init e g grid.n.toNat s.base s.fmt d m
    else .ok (homogeneous e grid.n.toNat s.const m)

end Verif.SeisFiles
