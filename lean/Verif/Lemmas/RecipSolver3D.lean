import Verif.Lemmas.RecipSolver
/-! Reciprocity: the three-dimensional elastic and electromagnetic solvers. -/
set_option linter.dupNamespace false
set_option linter.unusedSectionVars false
set_option linter.constructorNameAsVariable false
set_option linter.unusedSimpArgs false

namespace Verif.Solver
open Matrix Verif.Recip

variable {ι : Type} [Fintype ι] [DecidableEq ι]

/-- Components of the 3D elastic solver. -/
noncomputable def layE3 : Lay (Fin 3) (Fin 6) :=
  ⟨![.vX, .vY, .vZ], ![.Sxx, .Syy, .Szz, .Sxy, .Sxz, .Syz],
    ![![some .x, none, none, some .y, some .z, none],
      ![none, some .y, none, some .x, none, some .z],
      ![none, none, some .z, none, some .x, some .y]], fun _ _ => 1⟩

/-- The 3D elastic solver as a scheme. -/
noncomputable def elastic3DScheme (D : Deriv ι) (m : Mod ι) (c : BC ι) : Scheme (Fin 3) (Fin 6) ι :=
  layout layE3 c ![m.invRhoX, m.invRhoY, m.invRhoZ]
    ![![D.Dxf, 0, 0, D.Dyb, D.Dzb, 0], ![0, D.Dyf, 0, D.Dxb, 0, D.Dzb], ![0, 0, D.Dzf, 0, D.Dxb, D.Dyb]]
    (fun i => c.wt i • 1)
    (fun i => c.wt i • !![m.pMod i, m.pMod i - 2 * m.sMod i, m.pMod i - 2 * m.sMod i, 0, 0, 0;
      m.pMod i - 2 * m.sMod i, m.pMod i, m.pMod i - 2 * m.sMod i, 0, 0, 0;
      m.pMod i - 2 * m.sMod i, m.pMod i - 2 * m.sMod i, m.pMod i, 0, 0, 0;
      0, 0, 0, m.sModXY i, 0, 0; 0, 0, 0, 0, m.sModXZ i, 0; 0, 0, 0, 0, 0, m.sModYZ i])

set_option maxHeartbeats 2000000 in
theorem elastic3D_steps {D : Deriv ι} {m : Mod ι} {c : BC ι} (hD : D.regular)
    (hc : c.useFreeSurface ≠ 1) :
    Steps (elastic3DScheme D m c) (elastic3D D m c) layE3.gA (fun b => .fld (layE3.gB b))
      (layE3.mψ c) (layE3.mφ c) := by
  recip_half_steps 24 elastic3DScheme layE3

/-- Components of the 3D electromagnetic solver. -/
noncomputable def layEM3 : Lay (Fin 3) (Fin 3) :=
  ⟨![.hX, .hY, .hZ], ![.eX, .eY, .eZ],
    ![![none, some .z, some .y], ![some .z, none, some .x], ![some .y, some .x, none]],
    ![![0, 1, -1], ![-1, 0, 1], ![1, -1, 0]]⟩

/-- The 3D electromagnetic solver as a scheme. -/
noncomputable def emem3DScheme (D : Deriv ι) (m : EMod ι) (c : BC ι) : Scheme (Fin 3) (Fin 3) ι :=
  layout layEM3 c ![m.invMuYZ, m.invMuXZ, m.invMuXY]
    ![![0, D.Dzf, -D.Dyf], ![-D.Dzf, 0, D.Dxf], ![D.Dyf, -D.Dxf, 0]]
    (fun i => c.wt i • !![m.ca .x i, 0, 0; 0, m.ca .y i, 0; 0, 0, m.ca .z i])
    (fun i => c.wt i • !![m.cb .x i, 0, 0; 0, m.cb .y i, 0; 0, 0, m.cb .z i])

set_option maxHeartbeats 2000000 in
theorem emem3D_steps {D : Deriv ι} {m : EMod ι} {c : BC ι} (hD : D.regular)
    (hc : c.pml = none) :
    Steps (emem3DScheme D m c) (emem3D D m c) layEM3.gA (fun b => .fld (layEM3.gB b))
      (layEM3.mψ c) (layEM3.mφ c) := by
  have q1 : ∀ h x i, c.ca h x i = 0 := fun h x i => by simp [BC.ca, hc]
  have q2 : ∀ h x i, c.cb h x i = 0 := fun h x i => by simp [BC.cb, hc]
  obtain ⟨g1, g2, g3, g4, k1, k2, k3, k4⟩ := hD.getters
  have a1 := hD.adjX
  have a2 := hD.adjY
  have a3 := hD.adjZ
  refine Steps.split rfl 1 (fun s => ?_) (fun s => ?_)
  all_goals refine ⟨fun a i => ?_, fun b => ?_, fun a b i => ?_, fun a b i => ?_⟩ <;>
    (try fin_cases a) <;> (try fin_cases b) <;> (try intro i) <;>
    simp [interp, ifFS, selFS, g1, g2, g3, g4, k1, k2, k3, k4, cpmlHalf_fld, cpmlHalf_scr,
      cpmlHalf_rel, cpmlFull_fld, cpmlFull_scr, cpmlFull_rel, mem_cpmlHalf, mem_cpmlFull, damp_fld,
      damp_mem, damp_rel, mem_set_fld, mem_set_scr, mem_set_rel, Stmt.exec, set_ne, BC.upd,
      nextT, nextZ, nextψ, nextφ, layout, Lay.mψ, Lay.mφ, coefA, coefB, memOf, half, emem3DScheme,
      layEM3, a1, a2, a3, Matrix.neg_mulVec, Fin.sum_univ_two, Fin.sum_univ_three, Fin.sum_univ_six,
      eUpdate, magnetic3D, q1, q2] <;> ring

end Verif.Solver
