import Verif.Lemmas.RecipRelaxSolver
/-! Reciprocity: the three-dimensional elastic solver with relaxation. -/
set_option linter.dupNamespace false
set_option linter.unusedSectionVars false
set_option linter.constructorNameAsVariable false
set_option linter.unusedSimpArgs false

namespace Verif.Solver
open Matrix Verif.Recip

variable {ι : Type} [Fintype ι] [DecidableEq ι]

/-- The 3D elastic solver with relaxation as a scheme. -/
noncomputable def viscoelastic3DScheme (D : Deriv ι) (m : Mod ι) (c : BC ι) :
    Scheme (Fin 3) (Fin 6) ι :=
  layout layE3 c ![m.invRhoX, m.invRhoY, m.invRhoZ]
    ![![D.Dxf, 0, 0, D.Dyb, D.Dzb, 0], ![0, D.Dyf, 0, D.Dxb, 0, D.Dzb], ![0, 0, D.Dzf, 0, D.Dxb, D.Dyb]]
    (fun i => c.wt i • 1)
    (fun i => c.wt i • !![m.pMod i * m.onePlusLtauP i,
        m.pMod i * m.onePlusLtauP i - 2 * m.sMod i * m.onePlusLtauS i,
        m.pMod i * m.onePlusLtauP i - 2 * m.sMod i * m.onePlusLtauS i, 0, 0, 0;
      m.pMod i * m.onePlusLtauP i - 2 * m.sMod i * m.onePlusLtauS i, m.pMod i * m.onePlusLtauP i,
        m.pMod i * m.onePlusLtauP i - 2 * m.sMod i * m.onePlusLtauS i, 0, 0, 0;
      m.pMod i * m.onePlusLtauP i - 2 * m.sMod i * m.onePlusLtauS i,
        m.pMod i * m.onePlusLtauP i - 2 * m.sMod i * m.onePlusLtauS i, m.pMod i * m.onePlusLtauP i, 0, 0, 0;
      0, 0, 0, m.sModXY i * m.onePlusLtauS i, 0, 0; 0, 0, 0, 0, m.sModXZ i * m.onePlusLtauS i, 0;
      0, 0, 0, 0, 0, m.sModYZ i * m.onePlusLtauS i])

/-- Moduli of the mechanisms of the 3D elastic solver. -/
noncomputable def viscoelastic3DG (m : Mod ι) (i : ι) : Matrix (Fin 6) (Fin 6) ℝ :=
  !![m.pMod i * m.tauP i, m.pMod i * m.tauP i - 2 * m.sMod i * m.tauS i,
      m.pMod i * m.tauP i - 2 * m.sMod i * m.tauS i, 0, 0, 0;
    m.pMod i * m.tauP i - 2 * m.sMod i * m.tauS i, m.pMod i * m.tauP i,
      m.pMod i * m.tauP i - 2 * m.sMod i * m.tauS i, 0, 0, 0;
    m.pMod i * m.tauP i - 2 * m.sMod i * m.tauS i, m.pMod i * m.tauP i - 2 * m.sMod i * m.tauS i,
      m.pMod i * m.tauP i, 0, 0, 0;
    0, 0, 0, m.sModXY i * m.tauSXY i, 0, 0; 0, 0, 0, 0, m.sModXZ i * m.tauSXZ i, 0;
    0, 0, 0, 0, 0, m.sModYZ i * m.tauSYZ i]

set_option maxHeartbeats 4000000 in
theorem viscoelastic3D_steps {D : Deriv ι} {m : Mod ι} {c : BC ι} (hD : D.regular)
    (hc : c.useFreeSurface ≠ 1) :
    StepsR (viscoelastic3DScheme D m c) (m.relax c (viscoelastic3DG m)) (viscoelastic3D D m c)
      layE3.gA layE3.gB (layE3.mψ c) (layE3.mφ c) := by
  relax_half_steps 21 viscoelastic3DScheme layE3 viscoelastic3DG

end Verif.Solver
