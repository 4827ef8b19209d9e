import Mathlib.Analysis.SpecialFunctions.Pow.Real
import Verif.Model.RegularDeriv
import Verif.Model.Subset

/-!
# Reflectivity

`calcReflectivity` of the model classes on a regular grid. A value that is not a number or infinite is `none`.
-/
set_option linter.dupNamespace false

namespace Verif.Reflect
open Verif Verif.Solver
open Verif.Sub (Eqn Par)

variable {NX NY NZ : ℕ}

/-- A model: a value of each parameter at each point. -/
abbrev Params (NX NY NZ : ℕ) := Par → Pt NX NY NZ → ℝ

/-- The vector `impedance`, Acoustic.cpp:408, Elastic.cpp:606, Viscoelastic.cpp:614, SH.cpp:451, ViscoSH.cpp:498,
ModelparameterEM.cpp:604-605. -/
noncomputable def impedance (e : Eqn) (m : Params NX NY NZ) (p : Pt NX NY NZ) : ℝ :=
  match e with
  | .acoustic => m .density p * m .velocityP p
  | .elastic | .viscoelastic | .sh | .viscosh => m .density p * m .velocityS p
  | .tmem | .emem | .viscotmem | .viscoemem => 1 / √(m .eps p)

/-- The factor of the derivative, `-DH / DT` (Acoustic.cpp:413 and the other seismic classes) or `DH / DT`
(ModelparameterEM.cpp:610). -/
noncomputable def factor (e : Eqn) (DT DH : ℝ) : ℝ :=
  match e with
  | .acoustic | .elastic | .viscoelastic | .sh | .viscosh => -DH / DT
  | .tmem | .emem | .viscotmem | .viscoemem => DH / DT

/-- `calcAverageMatrixY` times a vector, Modelparameter.cpp:373-408, on a regular grid: the mean of a point and the point
below, at the bottom the point itself. -/
noncomputable def averageY (q : Pt NX NY NZ → ℝ) (p : Pt NX NY NZ) : ℝ :=
  if h : p.2.1.val + 1 < NY then 1 / 2 * q p + 1 / 2 * q (p.1, ⟨p.2.1.val + 1, h⟩, p.2.2) else q p

/-- The index of a point, Coordinates.cpp:668-724. -/
def index (p : Pt NX NY NZ) : ℕ := p.1.val + p.2.2.val * NX + p.2.1.val * NX * NZ

/-- `calcReflectivity`, Acoustic.cpp:395-419, Elastic.cpp:593-617, Viscoelastic.cpp:601-625, SH.cpp:438-462, ViscoSH.cpp:485-509,
ModelparameterEM.cpp:591-616. `s` is the spatial order of the derivatives. Setting an element before the first one is
rejected by LAMA. -/
noncomputable def calcReflectivity (e : Eqn) (s : ℕ) (DT DH : ℝ) (m : Params NX NY NZ) :
    Out (Pt NX NY NZ → Option ℝ) :=
  let q := impedance e m
  let edge := s * NX * NZ / 2
  if NX * NY * NZ < edge then .err
  else .ok fun p =>
    if index p < edge ∨ NX * NY * NZ - index p - 1 < edge then some 0
    else if averageY q p * 2 = 0 then none
    else some ((forwardMatrix s DT DH .y).mulVec q p * factor e DT DH / (averageY q p * 2))

end Verif.Reflect
