import Verif.Model.SolverEM
import Mathlib.Algebra.Module.Pi
import Mathlib.Algebra.BigOperators.Group.List.Lemmas
import Mathlib.Tactic.Ring
import Mathlib.Tactic.Abel
import Mathlib.Tactic.Module
/-! Helper lemmas on the statement language of the solvers. -/
set_option linter.dupNamespace false
set_option linter.unusedSectionVars false

namespace Verif.Solver
open Matrix

variable {ι : Type}

@[simp] theorem set_self (s : State ι) (d : Var) (v : ι → ℝ) : s.set d v d = v := by
  simp [State.set]

theorem set_ne (s : State ι) {d x : Var} (v : ι → ℝ) (h : x ≠ d) : s.set d v x = s x := by
  simp [State.set, h]

variable [Fintype ι]

@[simp] theorem exec_nil (s : State ι) : exec [] s = s := rfl

@[simp] theorem exec_cons (st : Stmt ι) (p : List (Stmt ι)) (s : State ι) :
    exec (st :: p) s = exec p (st.exec s) := rfl

@[simp] theorem exec_append (p q : List (Stmt ι)) (s : State ι) :
    exec (p ++ q) s = exec q (exec p s) := by
  simp [exec, List.foldl_append]

/-! ### Linearity -/

theorem Stmt.exec_lin (st : Stmt ι) (a b : ℝ) (s t : State ι) :
    st.exec (a • s + b • t) = a • st.exec s + b • st.exec t := by
  funext v i
  cases st with
  | mul d D w =>
    by_cases h : v = d
    · subst h
      simp only [Stmt.exec, State.set, if_true, Pi.add_apply, Pi.smul_apply, smul_eq_mul]
      rw [Matrix.mulVec_add, Matrix.mulVec_smul, Matrix.mulVec_smul]
      simp
    · simp [Stmt.exec, State.set, h]
  | swap x y =>
    simp only [Stmt.exec, State.set, Pi.add_apply, Pi.smul_apply, smul_eq_mul]
    by_cases hy : v = y
    · simp only [if_pos hy, Pi.add_apply, Pi.smul_apply, smul_eq_mul]
    · by_cases hx : v = x
      · simp only [if_neg hy, if_pos hx, Pi.add_apply, Pi.smul_apply, smul_eq_mul]
      · simp only [if_neg hx, if_neg hy, Pi.add_apply, Pi.smul_apply, smul_eq_mul]
  | cpml d ps x y =>
    simp only [Stmt.exec, State.set, Boundary.applyCPML, Pi.add_apply, Pi.smul_apply, smul_eq_mul]
    by_cases hx : v = ps
    · simp only [if_pos hx]; ring
    · by_cases hy : v = d
      · simp only [if_neg hx, if_pos hy]; ring
      · simp only [if_neg hx, if_neg hy, Pi.add_apply, Pi.smul_apply, smul_eq_mul]
  | copy d x | neg d x | add d x | sub d x | axpy d c x | scale d x | smul d x | wmul d x y
  | cmul d x y | sum d x y | diff d x y =>
    by_cases h : v = d
    · subst h
      simp [Stmt.exec, State.set] <;> ring
    · simp [Stmt.exec, State.set, h]

theorem exec_lin (p : List (Stmt ι)) (a b : ℝ) (s t : State ι) :
    exec p (a • s + b • t) = a • exec p s + b • exec p t := by
  induction p generalizing s t with
  | nil => rfl
  | cons st p ih => simp only [exec_cons, Stmt.exec_lin, ih]

/-! ### Which vectors are read and written -/

/-- Vectors whose old contents a statement uses. -/
def Stmt.reads : Stmt ι → List Var
  | .mul _ _ s => [s]
  | .copy _ s => [s]
  | .neg _ s => [s]
  | .sum _ a b => [a, b]
  | .diff _ a b => [a, b]
  | .add d s => [d, s]
  | .sub d s => [d, s]
  | .axpy d _ s => [d, s]
  | .scale d _ => [d]
  | .smul d _ => [d]
  | .wmul _ _ s => [s]
  | .cmul _ _ s => [s]
  | .swap _ b => [b]
  | .cpml d ps _ _ => [d, ps]

/-- Vectors a statement changes. -/
def Stmt.writes : Stmt ι → List Var
  | .mul d _ _ => [d]
  | .copy d _ => [d]
  | .neg d _ => [d]
  | .sum d _ _ => [d]
  | .diff d _ _ => [d]
  | .add d _ => [d]
  | .sub d _ => [d]
  | .axpy d _ _ => [d]
  | .scale d _ => [d]
  | .smul d _ => [d]
  | .wmul d _ _ => [d]
  | .cmul d _ _ => [d]
  | .swap a b => [a, b]
  | .cpml d ps _ _ => [d, ps]

theorem Stmt.exec_frame (st : Stmt ι) (s : State ι) {v : Var} (h : v ∉ st.writes) :
    st.exec s v = s v := by
  cases st <;> simp_all [Stmt.exec, Stmt.writes, State.set]

theorem exec_frame (p : List (Stmt ι)) (s : State ι) {v : Var} (h : ∀ st ∈ p, v ∉ st.writes) :
    exec p s v = s v := by
  induction p generalizing s with
  | nil => rfl
  | cons st p ih =>
    rw [exec_cons, ih _ (fun x hx => h x (List.mem_cons_of_mem _ hx)),
      Stmt.exec_frame _ _ (h st List.mem_cons_self)]

/-- Two states agree on a set of vectors. -/
def Agree (σ : Set Var) (s t : State ι) : Prop := ∀ v ∈ σ, s v = t v

theorem Agree.mono {σ τ : Set Var} {s t : State ι} (h : Agree τ s t) (hs : σ ⊆ τ) : Agree σ s t :=
  fun v hv => h v (hs hv)

/-- `a` is in `σ`, or never read when `swap`ped into the other vector: `swap a b` moves `b` to `a`
and makes the contents of `b` unknown unless `a` is in `σ`. -/
def Stmt.after (st : Stmt ι) (σ : Set Var) : Set Var :=
  match st with
  | .swap a b => insert a (σ \ {b})
  | .cpml _ _ _ _ => σ
  | .mul d _ _ | .copy d _ | .neg d _ | .sum d _ _ | .diff d _ _ | .wmul d _ _ | .cmul d _ _ =>
    insert d σ
  | _ => σ

theorem Stmt.exec_agree (st : Stmt ι) {σ : Set Var} {s t : State ι} (h : Agree σ s t)
    (hr : ∀ v ∈ st.reads, v ∈ σ) : Agree (st.after σ) (st.exec s) (st.exec t) := by
  intro v hv
  cases st with
  | swap x y =>
    have h1 := h y (hr y (by simp [Stmt.reads]))
    simp only [Stmt.after, Set.mem_insert_iff, Set.mem_sdiff, Set.mem_singleton_iff] at hv
    by_cases hy : v = y
    · subst hy
      rcases hv with hv | ⟨_, hv⟩
      · subst hv
        simp [Stmt.exec, h1]
      · exact absurd rfl hv
    · by_cases hx : v = x
      · subst hx
        simp [Stmt.exec, State.set, hy, h1]
      · rcases hv with hv | ⟨hv, _⟩
        · exact absurd hv hx
        · simp [Stmt.exec, State.set, hy, hx, h v hv]
  | cpml d ps a b =>
    have h1 := h d (hr d (by simp [Stmt.reads]))
    have h2 := h ps (hr ps (by simp [Stmt.reads]))
    have h3 := h v hv
    simp only [Stmt.exec, State.set, h1, h2]
    split
    · rfl
    · split
      · rfl
      · exact h3
  | mul d x y | copy d y | neg d y | wmul d x y | cmul d x y =>
    have h1 := h y (hr y (by simp [Stmt.reads]))
    simp only [Stmt.after, Set.mem_insert_iff] at hv
    by_cases hd : v = d
    · simp [Stmt.exec, State.set, hd, h1]
    · simp [Stmt.exec, State.set, hd, h v (hv.resolve_left hd)]
  | sum d x y | diff d x y =>
    have h1 := h y (hr y (by simp [Stmt.reads]))
    have h2 := h x (hr x (by simp [Stmt.reads]))
    simp only [Stmt.after, Set.mem_insert_iff] at hv
    by_cases hd : v = d
    · simp [Stmt.exec, State.set, hd, h1, h2]
    · simp [Stmt.exec, State.set, hd, h v (hv.resolve_left hd)]
  | add d y | sub d y | axpy d x y =>
    have h1 := h y (hr y (by simp [Stmt.reads]))
    have h2 := h d (hr d (by simp [Stmt.reads]))
    by_cases hd : v = d
    · simp [Stmt.exec, State.set, hd, h1, h2]
    · simp [Stmt.exec, State.set, hd, h v hv]
  | scale d x | smul d x =>
    have h2 := h d (hr d (by simp [Stmt.reads]))
    by_cases hd : v = d
    · simp [Stmt.exec, State.set, hd, h2]
    · simp [Stmt.exec, State.set, hd, h v hv]

/-- Every vector a sequence of statements uses is in `σ` or assigned before. The final sets contain
`ρ`. -/
inductive Flow (ρ : Set Var) : Set Var → List (Stmt ι) → Prop
  | nil {σ : Set Var} : ρ ⊆ σ → Flow ρ σ []
  | cons {σ : Set Var} {st : Stmt ι} {p : List (Stmt ι)} :
      (∀ v ∈ st.reads, v ∈ σ) → Flow ρ (st.after σ) p → Flow ρ σ (st :: p)

theorem Flow.agree {ρ σ : Set Var} {p : List (Stmt ι)} (h : Flow ρ σ p) {s t : State ι}
    (ha : Agree σ s t) : Agree ρ (exec p s) (exec p t) := by
  induction h generalizing s t with
  | nil hs => exact ha.mono hs
  | cons hr _ ih => exact ih (Stmt.exec_agree _ ha hr)

theorem Stmt.after_mono (st : Stmt ι) {σ τ : Set Var} (h : σ ⊆ τ) : st.after σ ⊆ st.after τ := by
  cases st <;> simp only [Stmt.after] <;> first
    | exact h
    | exact Set.insert_subset_insert h
    | exact Set.insert_subset_insert (Set.sdiff_subset_sdiff_left h)

theorem Flow.mono {ρ σ τ : Set Var} {p : List (Stmt ι)} (h : Flow ρ σ p) (hs : σ ⊆ τ) :
    Flow ρ τ p := by
  induction h generalizing τ with
  | nil h => exact .nil (h.trans hs)
  | cons hr _ ih => exact .cons (fun v hv => hs (hr v hv)) (ih (Stmt.after_mono _ hs))

theorem Flow.append {ρ τ σ : Set Var} {p q : List (Stmt ι)} (h : Flow τ σ p) (hq : Flow ρ τ q) :
    Flow ρ σ (p ++ q) := by
  induction h with
  | nil hs => exact hq.mono hs
  | cons hr _ ih => exact .cons hr ih

theorem Flow.flatMap {σ : Set Var} {α : Type} (l : List α) (f : α → List (Stmt ι))
    (h : ∀ x ∈ l, Flow σ σ (f x)) : Flow σ σ (l.flatMap f) := by
  induction l with
  | nil => exact .nil subset_rfl
  | cons x l ih =>
    rw [List.flatMap_cons]
    exact (h x List.mem_cons_self).append (ih fun y hy => h y (List.mem_cons_of_mem _ hy))

theorem Flow.map {σ : Set Var} {α : Type} (l : List α) (f : α → Stmt ι)
    (h : ∀ x ∈ l, Flow σ σ [f x]) : Flow σ σ (l.map f) := by
  induction l with
  | nil => exact .nil subset_rfl
  | cons x l ih =>
    rw [List.map_cons, ← List.singleton_append]
    exact (h x List.mem_cons_self).append (ih fun y hy => h y (List.mem_cons_of_mem _ hy))

/-- Optional segments of the solvers. -/
theorem flow_cpmlHalf {σ : Set Var} (c : BC ι) {d : Var} {f : Fld} {ax : Axis} (h1 : d ∈ σ)
    (h2 : Var.psi f ax ∈ σ) : Flow σ σ (cpmlHalf c d f ax) := by
  unfold cpmlHalf
  split
  · exact .nil subset_rfl
  · exact .cons (by simp [Stmt.reads, h1, h2]) (.nil subset_rfl)

theorem flow_cpmlFull {σ : Set Var} (c : BC ι) {d : Var} {f : Fld} {ax : Axis} (h1 : d ∈ σ)
    (h2 : Var.psi f ax ∈ σ) : Flow σ σ (cpmlFull c d f ax) := by
  unfold cpmlFull
  split
  · exact .nil subset_rfl
  · exact .cons (by simp [Stmt.reads, h1, h2]) (.nil subset_rfl)

theorem flow_damp {σ : Set Var} (c : BC ι) {fs : List Fld} (h : ∀ f ∈ fs, Var.fld f ∈ σ) :
    Flow σ σ (damp c fs) := by
  unfold damp
  split
  · exact .nil subset_rfl
  · exact Flow.map _ _ fun f hf => .cons (by simp [Stmt.reads, h f hf]) (.nil subset_rfl)

theorem flow_interp {σ : Set Var} (D : Option (Matrix ι ι ℝ)) {f : Fld} (h : Var.fld f ∈ σ) :
    Flow σ σ (interp D f) := by
  unfold interp
  split
  · exact .nil subset_rfl
  · refine .cons (by simp [Stmt.reads, h]) (.cons (by simp [Stmt.reads, Stmt.after])
      (.nil fun v hv => ?_))
    simp only [Stmt.after, Set.mem_insert_iff, Set.mem_sdiff, Set.mem_singleton_iff]
    by_cases hv2 : v = Var.fld f
    · exact .inl hv2
    · exact .inr (.inr ⟨hv, hv2⟩)

theorem flow_ifFS {σ : Set Var} (c : BC ι) {p : List (Stmt ι)} (h : Flow σ σ p) :
    Flow σ σ (ifFS c p) := by
  unfold ifFS
  split
  · exact h
  · exact .nil subset_rfl

theorem flow_surfaceZero {σ : Set Var} (c : BC ι) {v : Var} (h : v ∈ σ) :
    Flow σ σ (surfaceZero c v) :=
  .cons (by simp [Stmt.reads, h]) (.nil subset_rfl)

end Verif.Solver
