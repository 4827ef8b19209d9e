import Verif.Lemmas.RecipSurface
/-! Reciprocity below a free surface: the three-dimensional elastic solver. -/
set_option linter.dupNamespace false
set_option linter.unusedSectionVars false
set_option linter.constructorNameAsVariable false
set_option linter.unusedSimpArgs false
set_option linter.unusedTactic false
set_option linter.unreachableTactic false

namespace Verif.Solver
open Matrix Verif.Recip

variable {ι : Type} [Fintype ι] [DecidableEq ι]

/-- Elastic moduli of the 3D elastic solver below a free surface; on the surface they are those of
plane stress, doubled for the quantities of the halved cell. -/
noncomputable def elastic3DModuli (m : Mod ι) (c : BC ι) (i : ι) : Matrix (Fin 6) (Fin 6) ℝ :=
  !![c.dbl i * (m.pMod i - c.select i * ((m.pMod i - 2 * m.sMod i) ^ 2 / m.pMod i)),
      c.setZero i * (m.pMod i - 2 * m.sMod i),
      c.dbl i * (m.pMod i - 2 * m.sMod i - c.select i * ((m.pMod i - 2 * m.sMod i) ^ 2 / m.pMod i)),
      0, 0, 0;
    c.setZero i * (m.pMod i - 2 * m.sMod i), c.setZero i * m.pMod i,
      c.setZero i * (m.pMod i - 2 * m.sMod i), 0, 0, 0;
    c.dbl i * (m.pMod i - 2 * m.sMod i - c.select i * ((m.pMod i - 2 * m.sMod i) ^ 2 / m.pMod i)),
      c.setZero i * (m.pMod i - 2 * m.sMod i),
      c.dbl i * (m.pMod i - c.select i * ((m.pMod i - 2 * m.sMod i) ^ 2 / m.pMod i)), 0, 0, 0;
    0, 0, 0, m.sModXY i, 0, 0; 0, 0, 0, 0, c.dbl i * m.sModXZ i, 0; 0, 0, 0, 0, 0, m.sModYZ i]

/-- The 3D elastic solver below a free surface as a scheme. -/
noncomputable def elastic3DSurface (D : Deriv ι) (m : Mod ι) (c : BC ι) : Scheme (Fin 3) (Fin 6) ι :=
  layout layE3 c ![fun i => m.invRhoX i * c.dbl i, m.invRhoY, fun i => m.invRhoZ i * c.dbl i]
    ![![c.halve D.Dxf, 0, 0, D.Dyb, c.halve D.Dzb, 0], ![0, c.cut D.Dyf, 0, D.Dxb, 0, D.Dzb],
      ![0, 0, c.halve D.Dzf, 0, c.halve D.Dxb, D.Dyb]]
    (fun i => c.wt i • diagonal ![1, c.setZero i, 1, 1, 1, 1])
    (fun i => c.wt i • elastic3DModuli m c i)

set_option maxHeartbeats 8000000 in
theorem elastic3D_surface_steps {D : Deriv ι} {m : Mod ι} {c : BC ι} (hD : D.Surfaced c)
    (hc : c.useFreeSurface = 1) :
    Steps (elastic3DSurface D m c) (elastic3D D m c) layE3.gA (fun b => .fld (layE3.gB b))
      (fun s a b i => ![![c.hlf, 1, 1, c.hlf, c.hlf, 1], ![1, 1, 1, 1, 1, 1],
        ![1, 1, c.hlf, 1, c.hlf, c.hlf]] a b i * layE3.mψ c s a b i)
      (fun s a b i => ![![c.hlf, 1, 1, 1, c.hlf, 1], ![1, c.setZero, 1, 1, 1, 1],
        ![1, 1, c.hlf, 1, c.hlf, 1]] a b i * layE3.mφ c s a b i) := by
  unfold elastic3DSurface elastic3DModuli
  surface_half_steps 24 elastic3DSurface layE3 c

end Verif.Solver
