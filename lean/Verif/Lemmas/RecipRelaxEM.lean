import Verif.Lemmas.RecipRelaxSolver
import Verif.Lemmas.RecipSolver3D
/-! Reciprocity: electromagnetic solvers with relaxation mechanisms as leapfrog schemes. -/
set_option linter.dupNamespace false
set_option linter.unusedSectionVars false
set_option linter.constructorNameAsVariable false
set_option linter.unusedSimpArgs false

namespace Verif.Solver
open Matrix Verif.Recip

variable {ι : Type} [Fintype ι] [DecidableEq ι]

/-! ### Effect of the statements on relaxation variables -/

/-- The loop over the mechanisms for the components `es`. -/
noncomputable def rLoop (m : EMod ι) (es : List (Fld × Axis)) : List (Stmt ι) :=
  forLoop m.L fun l => es.flatMap fun e => rUpdate m e.1 e.2 l

private theorem rUpdate_exec (m : EMod ι) (e : Fld) (a : Axis) (l : ℕ) (s : State ι) :
    exec (rUpdate m e a l) s (.rel e l) = (fun i => m.cc l * s (.rel e l) i + m.cd a l i * s (.fld e) i) ∧
    (∀ f l', ¬(f = e ∧ l' = l) → exec (rUpdate m e a l) s (.rel f l') = s (.rel f l')) ∧
    (∀ f, exec (rUpdate m e a l) s (.fld f) = s (.fld f)) ∧
    (∀ f x, exec (rUpdate m e a l) s (.psi f x) = s (.psi f x)) := by
  refine ⟨?_, fun f l' h => ?_, fun f => ?_, fun f x => ?_⟩
  · funext i
    simp [rUpdate, Stmt.exec, State.set, add_comm]
  all_goals simp_all [rUpdate, Stmt.exec, State.set]

private theorem rBlock_exec (m : EMod ι) (es : List (Fld × Axis)) (hn : (es.map (·.1)).Nodup) (l : ℕ)
    (s : State ι) :
    (∀ e ∈ es, exec (es.flatMap fun e => rUpdate m e.1 e.2 l) s (.rel e.1 l) =
      fun i => m.cc l * s (.rel e.1 l) i + m.cd e.2 l i * s (.fld e.1) i) ∧
    (∀ f l', ¬(f ∈ es.map (·.1) ∧ l' = l) →
      exec (es.flatMap fun e => rUpdate m e.1 e.2 l) s (.rel f l') = s (.rel f l')) ∧
    (∀ f, exec (es.flatMap fun e => rUpdate m e.1 e.2 l) s (.fld f) = s (.fld f)) ∧
    (∀ f x, exec (es.flatMap fun e => rUpdate m e.1 e.2 l) s (.psi f x) = s (.psi f x)) := by
  induction es generalizing s with
  | nil => simp
  | cons e es ih =>
    rw [List.map_cons, List.nodup_cons] at hn
    obtain ⟨a1, a2, a3, a4⟩ := rUpdate_exec m e.1 e.2 l s
    obtain ⟨b1, b2, b3, b4⟩ := ih hn.2 (exec (rUpdate m e.1 e.2 l) s)
    simp only [List.flatMap_cons, exec_append]
    refine ⟨fun e' he' => ?_, fun f l' h => ?_, fun f => (b3 f).trans (a3 f),
      fun f x => (b4 f x).trans (a4 f x)⟩
    · rcases List.mem_cons.1 he' with rfl | he'
      · rw [b2 _ _ (fun h => hn.1 h.1), a1]
      · have hne : ¬(e'.1 = e.1 ∧ l = l) := fun h =>
          hn.1 (List.mem_map.2 ⟨e', he', h.1⟩)
        rw [b1 e' he', a3, a2 _ _ hne]
    · rw [List.map_cons] at h
      rw [b2 f l' (fun g => h ⟨List.mem_cons_of_mem _ g.1, g.2⟩),
        a2 f l' (fun g => h ⟨g.1 ▸ List.mem_cons_self, g.2⟩)]

private theorem rLoop_exec (m : EMod ι) (es : List (Fld × Axis)) (hn : (es.map (·.1)).Nodup) (N : ℕ)
    (s : State ι) :
    (∀ e ∈ es, ∀ l, exec (forLoop N fun l => es.flatMap fun e => rUpdate m e.1 e.2 l) s (.rel e.1 l) =
      if l < N then fun i => m.cc l * s (.rel e.1 l) i + m.cd e.2 l i * s (.fld e.1) i
      else s (.rel e.1 l)) ∧
    (∀ f, f ∉ es.map (·.1) → ∀ l,
      exec (forLoop N fun l => es.flatMap fun e => rUpdate m e.1 e.2 l) s (.rel f l) = s (.rel f l)) ∧
    (∀ f, exec (forLoop N fun l => es.flatMap fun e => rUpdate m e.1 e.2 l) s (.fld f) = s (.fld f)) ∧
    (∀ f x, exec (forLoop N fun l => es.flatMap fun e => rUpdate m e.1 e.2 l) s (.psi f x) =
      s (.psi f x)) := by
  induction N with
  | zero => simp [forLoop]
  | succ N ih =>
    obtain ⟨b1, b2, b3, b4⟩ := ih
    have e0 : forLoop (N + 1) (fun l => es.flatMap fun e => rUpdate m e.1 e.2 l) =
        forLoop N (fun l => es.flatMap fun e => rUpdate m e.1 e.2 l) ++
          es.flatMap fun e => rUpdate m e.1 e.2 N := by
      simp [forLoop, List.range_succ]
    obtain ⟨a1, a2, a3, a4⟩ := rBlock_exec m es hn N
      (exec (forLoop N fun l => es.flatMap fun e => rUpdate m e.1 e.2 l) s)
    rw [e0]
    simp only [exec_append]
    refine ⟨fun e he l => ?_, fun f hf l => ?_, fun f => (a3 f).trans (b3 f),
      fun f x => (a4 f x).trans (b4 f x)⟩
    · by_cases hl : l = N
      · subst hl
        rw [a1 e he, if_pos (Nat.lt_succ_self l), b1 e he, if_neg (lt_irrefl l), b3]
      · rw [a2 _ _ (fun h => hl h.2), b1 e he]
        by_cases h : l < N
        · rw [if_pos h, if_pos (by omega)]
        · rw [if_neg h, if_neg (by omega)]
    · rw [a2 _ _ (fun h => hf h.1), b2 f hf]

theorem rLoop_rel (m : EMod ι) {es : List (Fld × Axis)} (hn : (es.map (·.1)).Nodup) {e : Fld × Axis}
    (he : e ∈ es) (s : State ι) (l : Fin m.L) : exec (rLoop m es) s (.rel e.1 l) =
      fun i => m.cc l * s (.rel e.1 l) i + m.cd e.2 l i * s (.fld e.1) i := by
  rw [rLoop, (rLoop_exec m es hn m.L s).1 e he, if_pos l.isLt]

theorem rLoop_fld (m : EMod ι) {es : List (Fld × Axis)} (hn : (es.map (·.1)).Nodup) (s : State ι)
    (f : Fld) : exec (rLoop m es) s (.fld f) = s (.fld f) :=
  (rLoop_exec m es hn m.L s).2.2.1 f

theorem rLoop_mem (m : EMod ι) {es : List (Fld × Axis)} (hn : (es.map (·.1)).Nodup) (c : BC ι)
    (s : State ι) (f : Fld) (x : Axis) : c.mem (exec (rLoop m es) s) f x = c.mem s f x :=
  mem_congr ((rLoop_exec m es hn m.L s).2.2.2 f x)

private theorem rSubtract_exec (m : EMod ι) (e : Fld) (N : ℕ) (s : State ι) :
    exec (forLoop N fun l => [.axpy U (-m.DT) (.rel e l)]) s =
      s.set U fun i => s U i + ∑ l ∈ Finset.range N, -m.DT * s (.rel e l) i := by
  induction N with
  | zero =>
    funext v i
    by_cases h : v = U
    · subst h; simp [forLoop, State.set]
    · simp [forLoop, State.set, h]
  | succ N ih =>
    have e0 : forLoop (N + 1) (fun l => [Stmt.axpy (ι := ι) U (-m.DT) (.rel e l)]) =
        forLoop N (fun l => [.axpy U (-m.DT) (.rel e l)]) ++ [.axpy U (-m.DT) (.rel e N)] := by
      simp [forLoop, List.range_succ]
    rw [e0, exec_append, ih]
    funext v i
    by_cases h : v = U
    · subst h
      simp [Stmt.exec, State.set, Finset.sum_range_succ]
      ring
    · simp [Stmt.exec, State.set, h]

theorem rSubtract_fld (m : EMod ι) (e : Fld) (s : State ι) (f : Fld) :
    exec (rSubtract m e) s (.fld f) = s (.fld f) := by
  rw [rSubtract, rSubtract_exec]
  simp [State.set]

theorem rSubtract_rel (m : EMod ι) (e : Fld) (s : State ι) (f : Fld) (l : ℕ) :
    exec (rSubtract m e) s (.rel f l) = s (.rel f l) := by
  rw [rSubtract, rSubtract_exec]
  simp [State.set]

theorem rSubtract_mem (c : BC ι) (m : EMod ι) (e : Fld) (s : State ι) (f : Fld) (x : Axis) :
    c.mem (exec (rSubtract m e) s) f x = c.mem s f x := by
  refine mem_congr ?_
  rw [rSubtract, rSubtract_exec]
  simp [State.set]

theorem rSubtract_scr (m : EMod ι) (e : Fld) (s : State ι) :
    exec (rSubtract m e) s U = fun i => s U i + ∑ l : Fin m.L, -m.DT * s (.rel e l) i := by
  rw [rSubtract, rSubtract_exec]
  funext i
  simp [State.set, Finset.sum_range]

/-! ### The solvers -/

/-- The mechanisms of the electromagnetic solvers; `ax` is the axis of a component of the electric
field. -/
noncomputable def EMod.relax {B : Type} (m : EMod ι) (c : BC ι) (ax : B → Axis) :
    Relax (Fin m.L) B ι where
  c := fun l _ _ => m.cc l
  Gz := fun l b i => m.cd (ax b) l i
  Ge := fun _ _ => 0
  h0 := fun _ _ _ => 0
  h1 := fun _ b i => -(c.wt i * m.cbV (ax b) i * m.DT)

/-- The 2D EMEM solver with relaxation as a scheme. -/
noncomputable def viscoemem2DScheme (D : Deriv ι) (m : EMod ι) (c : BC ι) :
    Scheme (Fin 1) (Fin 2) ι :=
  layout layEM2 c ![m.invMuXY] ![![D.Dyf, -D.Dxf]]
    (fun i => c.wt i • !![m.caV .x i, 0; 0, m.caV .y i])
    (fun i => c.wt i • !![m.cbV .x i, 0; 0, m.cbV .y i])

/-- The 2D TMEM solver with relaxation as a scheme. -/
noncomputable def viscotmem2DScheme (D : Deriv ι) (m : EMod ι) (c : BC ι) :
    Scheme (Fin 2) (Fin 1) ι :=
  layout layTM2 c ![m.invMuYZ, m.invMuXZ] ![![-D.Dyf], ![D.Dxf]]
    (fun i => c.wt i • !![m.caV .z i]) (fun i => c.wt i • !![m.cbV .z i])

/-- The 3D solver with relaxation as a scheme. -/
noncomputable def viscoemem3DScheme (D : Deriv ι) (m : EMod ι) (c : BC ι) :
    Scheme (Fin 3) (Fin 3) ι :=
  layout layEM3 c ![m.invMuYZ, m.invMuXZ, m.invMuXY]
    ![![0, D.Dzf, -D.Dyf], ![-D.Dzf, 0, D.Dxf], ![D.Dyf, -D.Dxf, 0]]
    (fun i => c.wt i • !![m.caV .x i, 0, 0; 0, m.caV .y i, 0; 0, 0, m.caV .z i])
    (fun i => c.wt i • !![m.cbV .x i, 0, 0; 0, m.cbV .y i, 0; 0, 0, m.cbV .z i])

/-- Evaluate the half steps of an electromagnetic solver with relaxation. -/
local macro "relax_em_steps" k:num d:ident l:ident : tactic => `(tactic| (
  rename_i hD q1 q2 ll f1 f2 p1 p2 p3
  obtain ⟨g1, g2, g3, g4, k1, k2, k3, k4⟩ := Deriv.regular.getters hD
  have a1 := Deriv.regular.adjX hD
  have a2 := Deriv.regular.adjY hD
  have a3 := Deriv.regular.adjZ hD
  refine StepsR.split rfl $k (fun s => ?_) (fun s => ?_)
  all_goals refine ⟨fun a i => ?_, fun b => ?_, fun l b => ?_, fun a b i => ?_, fun a b i => ?_⟩ <;>
    (try fin_cases a) <;> (try fin_cases b) <;> (try intro i) <;>
    simp [interp, ifFS, selFS, g1, g2, g3, g4, k1, k2, k3, k4, cpmlHalf_fld, cpmlHalf_scr,
      cpmlHalf_rel, cpmlFull_fld, cpmlFull_scr, cpmlFull_rel, mem_cpmlHalf, mem_cpmlFull, damp_fld,
      damp_mem, damp_rel, mem_set_fld, mem_set_scr, mem_set_rel, Stmt.exec, set_ne, BC.upd,
      nextT, nextZ, nextψ, nextφ, layout, Lay.mψ, Lay.mφ, coefA, coefB, memOf, half, $d:ident,
      $l:ident, a1, a2, a3, Matrix.neg_mulVec, Fin.sum_univ_two, Fin.sum_univ_three,
      eUpdate, magnetic3D, q1, q2, ll, f1, f2, p1, p2, p3, rSubtract_fld, rSubtract_rel,
      rSubtract_mem, rSubtract_scr, Solver.relaxed, EMod.relax, nextR,
      Finset.sum_add_distrib, ← Finset.mul_sum] <;>
    ring1))

theorem viscotmem2D_steps {D : Deriv ι} {m : EMod ι} {c : BC ι} (hD : D.regular) :
    StepsR (viscotmem2DScheme D m c) (m.relax c ![.z]) (viscotmem2D D m c)
      layTM2.gA layTM2.gB (layTM2.mψ c) (layTM2.mφ c) := by
  have q1 : True := trivial
  have q2 : True := trivial
  have hn : ([(Fld.eZ, Axis.z)].map (·.1)).Nodup := by simp
  have ll : forLoop m.L (rUpdate m .eZ .z) = rLoop m [(.eZ, .z)] := by simp [rLoop]
  have f1 := rLoop_fld m hn
  have f2 := rLoop_mem m hn c
  have p1 := rLoop_rel m hn (e := (.eZ, .z)) (by simp)
  have p2 : True := trivial
  have p3 : True := trivial
  clear hn
  relax_em_steps 6 viscotmem2DScheme layTM2

theorem viscoemem2D_steps {D : Deriv ι} {m : EMod ι} {c : BC ι} (hD : D.regular) :
    StepsR (viscoemem2DScheme D m c) (m.relax c ![.x, .y]) (viscoemem2D D m c)
      layEM2.gA layEM2.gB (layEM2.mψ c) (layEM2.mφ c) := by
  have q1 : True := trivial
  have q2 : True := trivial
  have hn : ([(Fld.eX, Axis.x), (.eY, .y)].map (·.1)).Nodup := by simp
  have ll : forLoop m.L (fun l => rUpdate m .eX .x l ++ rUpdate m .eY .y l) =
      rLoop m [(.eX, .x), (.eY, .y)] := by simp [rLoop]
  have f1 := rLoop_fld m hn
  have f2 := rLoop_mem m hn c
  have p1 := rLoop_rel m hn (e := (.eX, .x)) (by simp)
  have p2 := rLoop_rel m hn (e := (.eY, .y)) (by simp)
  have p3 : True := trivial
  clear hn
  relax_em_steps 4 viscoemem2DScheme layEM2

set_option maxHeartbeats 2000000 in
theorem viscoemem3D_steps {D : Deriv ι} {m : EMod ι} {c : BC ι} (hD : D.regular)
    (hc : c.pml = none) :
    StepsR (viscoemem3DScheme D m c) (m.relax c ![.x, .y, .z]) (viscoemem3D D m c)
      layEM3.gA layEM3.gB (layEM3.mψ c) (layEM3.mφ c) := by
  have q1 : ∀ h x i, c.ca h x i = 0 := fun h x i => by simp [BC.ca, hc]
  have q2 : ∀ h x i, c.cb h x i = 0 := fun h x i => by simp [BC.cb, hc]
  have hn : ([(Fld.eX, Axis.x), (.eY, .y), (.eZ, .z)].map (·.1)).Nodup := by simp
  have ll : forLoop m.L (fun l => rUpdate m .eX .x l ++ (rUpdate m .eY .y l ++ rUpdate m .eZ .z l)) =
      rLoop m [(.eX, .x), (.eY, .y), (.eZ, .z)] := by simp [rLoop]
  have f1 := rLoop_fld m hn
  have f2 := rLoop_mem m hn c
  have p1 := rLoop_rel m hn (e := (.eX, .x)) (by simp)
  have p2 := rLoop_rel m hn (e := (.eY, .y)) (by simp)
  have p3 := rLoop_rel m hn (e := (.eZ, .z)) (by simp)
  clear hc hn
  relax_em_steps 1 viscoemem3DScheme layEM3

end Verif.Solver
