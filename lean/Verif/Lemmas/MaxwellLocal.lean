import Verif.Lemmas.RecipRelaxEM
import Verif.Lemmas.Potential
import Verif.Lemmas.Stability
import Verif.Lemmas.PotentialRun
/-!
# One time step of the electromagnetic solvers away from the absorbing boundaries

At a point where the absorbing boundaries change nothing, the step is Faraday's and Ampère's law. The magnetic field
whose curl enters there is the one before damping.
-/
set_option linter.dupNamespace false
set_option linter.unusedSectionVars false
set_option linter.constructorNameAsVariable false
set_option linter.unusedSimpArgs false

namespace Verif.Solver
open Matrix Verif.Recip

variable {ι : Type} [Fintype ι] [DecidableEq ι]

/-- The absorbing boundaries change nothing at the point: damping factor 1, CPML coefficients 0. -/
def BC.Off (c : BC ι) (i : ι) : Prop :=
  (∀ w, c.damping = some w → w i = 1) ∧
    ∀ q, c.pml = some q → ∀ x, q.a x i = 0 ∧ q.b x i = 0 ∧ q.aHalf x i = 0 ∧ q.bHalf x i = 0

theorem BC.Off.wt {c : BC ι} {i : ι} (h : c.Off i) : c.wt i = 1 := by
  unfold BC.wt
  rcases hd : c.damping with _ | w
  · rfl
  · exact h.1 w hd

theorem BC.Off.ca {c : BC ι} {i : ι} (h : c.Off i) (hf : Bool) (x : Axis) : c.ca hf x i = 0 := by
  unfold BC.ca
  rcases hq : c.pml with _ | q
  · rfl
  · have := h.2 q hq x
    cases hf <;> simp [this]

theorem BC.Off.cb {c : BC ι} {i : ι} (h : c.Off i) (hf : Bool) (x : Axis) : c.cb hf x i = 0 := by
  unfold BC.cb
  rcases hq : c.pml with _ | q
  · rfl
  · have := h.2 q hq x
    cases hf <;> simp [this]

/-- CPML coefficients of the electric field in 3D, with those of the half points in `apply_hyx`. -/
noncomputable def quirk (f : Bool → Axis → ι → ℝ) : Fin 3 → Fin 3 → ι → ℝ :=
  ![![0, f false .z, f false .y], ![f false .z, 0, f true .x], ![f false .y, f false .x, 0]]

set_option maxHeartbeats 4000000 in
theorem emem3D_steps_pml {D : Deriv ι} {m : EMod ι} {c : BC ι} (hD : D.regular) :
    Steps {emem3DScheme D m c with aB := quirk c.ca, bB := quirk c.cb} (emem3D D m c) layEM3.gA
      (fun b => .fld (layEM3.gB b)) (layEM3.mψ c) (layEM3.mφ c) := by
  obtain ⟨g1, g2, g3, g4, k1, k2, k3, k4⟩ := hD.getters
  have a1 := hD.adjX
  have a2 := hD.adjY
  have a3 := hD.adjZ
  refine Steps.split rfl 1 (fun s => ?_) (fun s => ?_)
  all_goals refine ⟨fun a i => ?_, fun b => ?_, fun a b i => ?_, fun a b i => ?_⟩ <;>
    (try fin_cases a) <;> (try fin_cases b) <;> (try intro i) <;>
    simp [interp, ifFS, selFS, g1, g2, g3, g4, k1, k2, k3, k4, cpmlHalf_fld, cpmlHalf_scr,
      cpmlHalf_rel, cpmlFull_fld, cpmlFull_scr, cpmlFull_rel, mem_cpmlHalf, mem_cpmlFull, damp_fld,
      damp_mem, damp_rel, mem_set_fld, mem_set_scr, mem_set_rel, Stmt.exec, set_ne, BC.upd,
      nextT, nextZ, nextψ, nextφ, layout, Lay.mψ, Lay.mφ, coefA, coefB, memOf, half, emem3DScheme,
      layEM3, a1, a2, a3, Matrix.neg_mulVec, Fin.sum_univ_two, Fin.sum_univ_three, Fin.sum_univ_six,
      eUpdate, magnetic3D, quirk] <;> ring1

set_option maxHeartbeats 4000000 in
theorem viscoemem3D_steps_pml {D : Deriv ι} {m : EMod ι} {c : BC ι} (hD : D.regular) :
    StepsR {viscoemem3DScheme D m c with aB := quirk c.ca, bB := quirk c.cb} (m.relax c ![.x, .y, .z])
      (viscoemem3D D m c) layEM3.gA layEM3.gB (layEM3.mψ c) (layEM3.mφ c) := by
  have hn : ([(Fld.eX, Axis.x), (.eY, .y), (.eZ, .z)].map (·.1)).Nodup := by simp
  have ll : forLoop m.L (fun l => rUpdate m .eX .x l ++ (rUpdate m .eY .y l ++ rUpdate m .eZ .z l)) =
      rLoop m [(.eX, .x), (.eY, .y), (.eZ, .z)] := by simp [rLoop]
  have f1 := rLoop_fld m hn
  have f2 := rLoop_mem m hn c
  have p1 := rLoop_rel m hn (e := (.eX, .x)) (by simp)
  have p2 := rLoop_rel m hn (e := (.eY, .y)) (by simp)
  have p3 := rLoop_rel m hn (e := (.eZ, .z)) (by simp)
  clear hn
  obtain ⟨g1, g2, g3, g4, k1, k2, k3, k4⟩ := Deriv.regular.getters hD
  have a1 := Deriv.regular.adjX hD
  have a2 := Deriv.regular.adjY hD
  have a3 := Deriv.regular.adjZ hD
  refine StepsR.split rfl 1 (fun s => ?_) (fun s => ?_)
  all_goals refine ⟨fun a i => ?_, fun b => ?_, fun l b => ?_, fun a b i => ?_, fun a b i => ?_⟩ <;>
    (try fin_cases a) <;> (try fin_cases b) <;> (try intro i) <;>
    simp [interp, ifFS, selFS, g1, g2, g3, g4, k1, k2, k3, k4, cpmlHalf_fld, cpmlHalf_scr,
      cpmlHalf_rel, cpmlFull_fld, cpmlFull_scr, cpmlFull_rel, mem_cpmlHalf, mem_cpmlFull, damp_fld,
      damp_mem, damp_rel, mem_set_fld, mem_set_scr, mem_set_rel, Stmt.exec, set_ne, BC.upd,
      nextT, nextZ, nextψ, nextφ, layout, Lay.mψ, Lay.mφ, coefA, coefB, memOf, half, viscoemem3DScheme,
      layEM3, a1, a2, a3, Matrix.neg_mulVec, Fin.sum_univ_two, Fin.sum_univ_three,
      eUpdate, magnetic3D, ll, f1, f2, p1, p2, p3, rSubtract_fld, rSubtract_rel,
      rSubtract_mem, rSubtract_scr, Solver.relaxed, EMod.relax, nextR, quirk,
      Finset.sum_add_distrib, ← Finset.mul_sum] <;>
    ring1

end Verif.Solver
