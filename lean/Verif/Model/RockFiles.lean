import Verif.Model.ModelParam
import Verif.Model.Petro
/-!
# Model of the files of the rock matrix

`writeRockMatrixParameter` of the seismic model classes.
-/
namespace Verif.Petro

/-- The vectors written, for one point; a file that a class does not write is `none`. -/
structure RockFiles where
  density : Option ℝ
  vs : Option ℝ
  vp : Option ℝ

/-- `writeRockMatrixParameter`: Acoustic.cpp:317-320 (empty), Elastic.cpp:347-361,
Viscoelastic.cpp:344-358, SH.cpp:275-283, ViscoSH.cpp:301-309. -/
noncomputable def writeRock (e : MP.Eqn) (r : Rock) : RockFiles :=
  if e = .acoustic then ⟨none, none, none⟩ else
  { density := some r.density
    vs := some (MP.velocityFromModulus r.mu r.density)
    vp := if e.hasP then some (MP.velocityFromModulus (r.K + fourThirds * r.mu) r.density) else none }

end Verif.Petro
