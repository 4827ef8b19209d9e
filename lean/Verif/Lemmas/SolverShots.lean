import Verif.Lemmas.SolverFlow
/-! Time stepping and shots: linearity and independence of the starting state. -/
set_option linter.dupNamespace false
set_option linter.unusedSectionVars false

namespace Verif.Solver
open Matrix

variable {ι : Type} [Fintype ι] [DecidableEq ι]

theorem applySource_agree {S : Solver ι} {srcs : List (Source ι)} {t : ℕ} {σ : Set Var}
    {s s' : State ι} (h : Agree σ s s') :
    Agree σ (applySource S srcs t s) (applySource S srcs t s') := by
  intro v hv
  have := h v hv
  cases v <;> simp_all [applySource]

theorem run_agree {S : Solver ι} {σ : Set Var} (hf : Flow σ σ S.prog) (srcs : List (Source ι))
    {s s' : State ι} (h : Agree σ s s') (n : ℕ) : Agree σ (run S srcs s n) (run S srcs s' n) := by
  induction n with
  | zero => exact h
  | succ n ih => exact applySource_agree (hf.agree ih)

theorem IsSolver.recv_fields {D : Deriv ι} {c : BC ι} {S : Solver ι} (h : IsSolver D c S)
    {ty : SType} {w : ℝ} {fs : List Fld} (hr : S.recv ty = some (w, fs)) :
    ∀ f ∈ fs, Var.fld f ∈ S.fields := by
  cases h <;> cases ty <;>
    simp only [acoustic2DSolver, acoustic3DSolver, elastic2DSolver, elastic3DSolver, sh2DSolver,
      viscosh2DSolver, viscoelastic2DSolver, viscoelastic3DSolver, emem2DSolver, tmem2DSolver,
      viscoemem2DSolver, viscotmem2DSolver, emem3DSolver, viscoemem3DSolver, single, src2Dacoustic,
      src3Dacoustic, rec2Delastic, rec3Delastic, srcSH, src2Demem, src2Dtmem, src3Demem,
      Option.map_some, Option.map_none, Option.some.injEq, Prod.mk.injEq, reduceCtorEq] at hr <;>
    first
      | contradiction
      | (obtain ⟨_, rfl⟩ := hr
         simp [acoustic2DSolver, acoustic3DSolver, elastic2DSolver, elastic3DSolver, sh2DSolver,
          viscosh2DSolver, viscoelastic2DSolver, viscoelastic3DSolver, emem2DSolver, tmem2DSolver,
          viscoemem2DSolver, viscotmem2DSolver, emem3DSolver, viscoemem3DSolver])

theorem IsSolver.sample_agree {D : Deriv ι} {c : BC ι} {S : Solver ι} (h : IsSolver D c S)
    (srcs : List (Source ι)) {s s' : State ι} (ha : Agree S.live s s') (r : Receiver ι) (t : ℕ) :
    sample S srcs s r t = sample S srcs s' r t := by
  have h1 := run_agree h.flow srcs ha (t + 1)
  unfold sample gather
  split
  · rfl
  · rename_i w fs hr
    congr 2
    exact List.map_congr_left fun f hf => by rw [h1 _ (.inl (h.recv_fields hr f hf))]

theorem clear_agree {S : Solver ι} {s s' : State ι} (h : ∀ v ∈ S.memory, s v = s' v) :
    Agree S.live (clear S.fields s) (clear S.fields s') := by
  intro v hv
  unfold clear
  split
  · rfl
  · rename_i hn
    exact h v (hv.resolve_left hn)

theorem clear_mem {vs : List Var} {s : State ι} {v : Var} (h : v ∈ vs) : clear vs s v = 0 := by
  simp [clear, h]

/-- A shot started with zero memory variables does not depend on anything else. -/
theorem IsSolver.runShot_eq {D : Deriv ι} {c : BC ι} {S : Solver ι} (h : IsSolver D c S)
    {s s' : State ι} (hs : ∀ v ∈ S.memory, s v = 0) (hs' : ∀ v ∈ S.memory, s' v = 0)
    (sh : Shot ι) :
    (runShot S sh s = .err ∧ runShot S sh s' = .err) ∨
    ∃ g t t', runShot S sh s = .ok (g, t) ∧ runShot S sh s' = .ok (g, t') ∧
      ∀ v ∈ S.memory, t v = 0 := by
  have ha : Agree S.live (clear S.fields s) (clear S.fields s') :=
    clear_agree fun v hv => by rw [hs v hv, hs' v hv]
  unfold runShot
  split
  · exact .inl ⟨rfl, rfl⟩
  · refine .inr ⟨_, _, clear S.memory (run S sh.sources (clear S.fields s') sh.nt), rfl, ?_,
      fun v hv => clear_mem hv⟩
    have : (sh.receivers.map fun r => (List.range sh.nt).map fun t =>
          sample S sh.sources (clear S.fields s') r t) =
        sh.receivers.map fun r => (List.range sh.nt).map fun t =>
          sample S sh.sources (clear S.fields s) r t :=
      List.map_congr_left fun r _ => List.map_congr_left fun t _ =>
        (h.sample_agree _ ha r t).symm
    simp only [this]

/-! ### The last statements of a program -/

theorem exec_flatten_last (ls : List (List (Stmt ι))) (h : ls ≠ []) (s : State ι) :
    exec ls.flatten s = exec (ls.getLast h) (exec ls.dropLast.flatten s) := by
  conv_lhs => rw [← List.dropLast_append_getLast h]
  simp

theorem exec_flatten_last2 (ls : List (List (Stmt ι))) (a b : List (Stmt ι)) (s : State ι) :
    exec (ls ++ [a, b]).flatten s = exec b (exec a (exec ls.flatten s)) := by
  simp

theorem exec_surfaceZero (c : BC ι) (v : Var) (s : State ι) {i : ι} (hi : c.onSurface i = true) :
    exec (surfaceZero c v) s v i = 0 := by
  simp [surfaceZero, exec, Stmt.exec, set_self, BC.setZero, hi]

theorem exec_damp_zero (c : BC ι) (fs : List Fld) (v : Var) (s : State ι) {i : ι}
    (h : s v i = 0) : exec (damp c fs) s v i = 0 := by
  unfold damp
  split
  · exact h
  · rename_i w _
    induction fs generalizing s with
    | nil => exact h
    | cons f fs ih =>
      rw [List.map_cons, exec_cons]
      apply ih
      by_cases hv : v = .fld f
      · subst hv
        simp [Stmt.exec, set_self, h]
      · rw [Stmt.exec, set_ne _ _ hv]
        exact h

/-! ### Linearity -/

/-- Sources with signals multiplied by a number. -/
def weighted (a : ℝ) (A : List (Source ι)) : List (Source ι) :=
  A.map fun q => { q with signal := fun t => a * q.signal t }

theorem sum_weighted (S : Solver ι) (a : ℝ) (A : List (Source ι)) (f : Fld) (i : ι) (t : ℕ) :
    ((weighted a A).map fun q => if f ∈ S.srcFlds q.ty ∧ q.pos = i then q.signal t else 0).sum =
      a * (A.map fun q => if f ∈ S.srcFlds q.ty ∧ q.pos = i then q.signal t else 0).sum := by
  induction A with
  | nil => simp [weighted]
  | cons q A ih =>
    simp only [weighted, List.map_cons, List.sum_cons] at ih ⊢
    rw [ih, mul_add]
    congr 1
    split <;> simp

theorem applySource_lin (S : Solver ι) (a b : ℝ) (A B : List (Source ι)) (t : ℕ) (s s' : State ι) :
    applySource S (weighted a A ++ weighted b B) t (a • s + b • s') =
      a • applySource S A t s + b • applySource S B t s' := by
  funext v i
  cases v with
  | fld f =>
    simp only [applySource, List.map_append, List.sum_append, sum_weighted, Pi.add_apply,
      Pi.smul_apply, smul_eq_mul]
    ring
  | _ => simp [applySource]

theorem run_lin (S : Solver ι) (a b : ℝ) (A B : List (Source ι)) (s s' : State ι) (n : ℕ) :
    run S (weighted a A ++ weighted b B) (a • s + b • s') n =
      a • run S A s n + b • run S B s' n := by
  induction n with
  | zero => rfl
  | succ n ih => simp only [run, step, ih, exec_lin, applySource_lin]

theorem gather_lin (S : Solver ι) (r : Receiver ι) (a b : ℝ) (s s' : State ι) :
    gather S r (a • s + b • s') = a * gather S r s + b * gather S r s' := by
  unfold gather
  split
  · simp
  · rename_i w fs _
    have : ∀ fs : List Fld, (fs.map fun f => (a • s + b • s') (.fld f) r.pos).sum =
        a * (fs.map fun f => s (.fld f) r.pos).sum +
          b * (fs.map fun f => s' (.fld f) r.pos).sum := by
      intro fs
      induction fs with
      | nil => simp
      | cons f fs ih =>
        rw [List.map_cons, List.sum_cons, ih]
        simp only [List.map_cons, List.sum_cons, Pi.add_apply, Pi.smul_apply, smul_eq_mul]
        ring
    simp only [this]
    ring

theorem sample_lin (S : Solver ι) (a b : ℝ) (A B : List (Source ι)) (s s' : State ι)
    (r : Receiver ι) (t : ℕ) :
    sample S (weighted a A ++ weighted b B) (a • s + b • s') r t =
      a * sample S A s r t + b * sample S B s' r t := by
  simp only [sample, run_lin, gather_lin]

end Verif.Solver
