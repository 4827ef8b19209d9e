import Verif.Lemmas.Recip
import Verif.Lemmas.SolverShots
import Verif.Lemmas.Energy
/-! Reciprocity: the solvers as leapfrog schemes with stretched derivatives. -/
set_option linter.dupNamespace false
set_option linter.unusedSectionVars false
set_option linter.constructorNameAsVariable false

namespace Verif.Solver
open Matrix Verif.Recip

variable {ι : Type} [Fintype ι] [DecidableEq ι]

section Generic
variable {A B : Type} [Fintype A] [Fintype B] [DecidableEq A] [DecidableEq B]

/-- New memory variables of the first half step. -/
noncomputable def nextψ (d : Scheme A B ι) (z : B → ι → ℝ) (ψ : A → B → ι → ℝ) (a : A) (b : B) (i : ι) : ℝ :=
  d.bA a b i * ψ a b i + d.aA a b i * (d.D a b).mulVec (z b) i

/-- First half step before damping. -/
noncomputable def nextT (d : Scheme A B ι) (y : A → ι → ℝ) (z : B → ι → ℝ) (ψ : A → B → ι → ℝ)
    (a : A) (i : ι) : ℝ :=
  y a i + d.R a i * ∑ b, ((d.D a b).mulVec (z b) i + nextψ d z ψ a b i)

/-- New memory variables of the second half step. -/
noncomputable def nextφ (d : Scheme A B ι) (t : A → ι → ℝ) (φ : A → B → ι → ℝ) (a : A) (b : B) (i : ι) : ℝ :=
  d.bB a b i * φ a b i + d.aB a b i * (d.D a b).transpose.mulVec (t a) i

/-- Second half step. -/
noncomputable def nextZ (d : Scheme A B ι) (z : B → ι → ℝ) (t : A → ι → ℝ) (φ : A → B → ι → ℝ)
    (b : B) (i : ι) : ℝ :=
  ∑ b', d.Az i b b' * z b' i -
    ∑ b', d.Q i b b' * ∑ a, ((d.D a b').transpose.mulVec (t a) i + nextφ d t φ a b' i)

/-- The time step `p` acts on the vectors `gA`, `gB` and the memory variables `mψ`, `mφ` like the
scheme. -/
def Steps (d : Scheme A B ι) (p : List (Stmt ι)) (gA : A → Fld) (gB : B → Var)
    (mψ mφ : State ι → A → B → ι → ℝ) : Prop :=
  ∀ s, (∀ a i, exec p s (.fld (gA a)) i = d.w a i *
      nextT d (fun a => s (.fld (gA a))) (fun b => s (gB b)) (mψ s) a i) ∧
    (∀ b i, exec p s (gB b) i = nextZ d (fun b => s (gB b))
      (nextT d (fun a => s (.fld (gA a))) (fun b => s (gB b)) (mψ s)) (mφ s) b i) ∧
    (∀ a b i, mψ (exec p s) a b i = nextψ d (fun b => s (gB b)) (mψ s) a b i) ∧
    (∀ a b i, mφ (exec p s) a b i =
      nextφ d (nextT d (fun a => s (.fld (gA a))) (fun b => s (gB b)) (mψ s)) (mφ s) a b i)

/-- A source and a receiver of type `ty` at `pos`: the receiver reads the form `u`, `v`; the source,
multiplied by `W`, excites the scheme at `u`, `v`. -/
structure Port (S : Solver ι) (d : Scheme A B ι) (gA : A → Fld) (gB : B → Var) (ty : SType) (pos : ι)
    (W : ℝ) (u : A → ι → ℝ) (v : B → ι → ℝ) : Prop where
  recv : ∀ s, gather S ⟨ty, pos⟩ s =
    ∑ a, ∑ i, u a i * s (.fld (gA a)) i + ∑ b, ∑ i, v b i * s (gB b) i
  srcA : ∀ a i, (if gA a ∈ S.srcFlds ty ∧ pos = i then W else 0) = -(d.w a i * (d.R a i * u a i))
  srcB : ∀ b i, (match gB b with
    | .fld f => if f ∈ S.srcFlds ty ∧ pos = i then W else 0
    | _ => 0) = ∑ b', d.Q i b b' * v b' i

theorem run_sol {S : Solver ι} {d : Scheme A B ι} {gA : A → Fld} {gB : B → Var}
    {mψ mφ : State ι → A → B → ι → ℝ} (hs : Steps d S.prog gA gB mψ mφ)
    (hψ0 : ∀ a b i, mψ 0 a b i = 0) (hφ0 : ∀ a b i, mφ 0 a b i = 0)
    (hψa : ∀ srcs t s, mψ (applySource S srcs t s) = mψ s)
    (hφa : ∀ srcs t s, mφ (applySource S srcs t s) = mφ s)
    {ty : SType} {pos : ι} {W : ℝ} {u : A → ι → ℝ} {v : B → ι → ℝ}
    (hp : Port S d gA gB ty pos W u v) (sig : ℕ → ℝ) :
    d.Sol sig u v (fun n a => run S [⟨ty, pos, fun t => W * sig t⟩] 0 n (.fld (gA a)))
      (fun n b => run S [⟨ty, pos, fun t => W * sig t⟩] 0 n (gB b))
      (fun n => nextT d (fun a => run S [⟨ty, pos, fun t => W * sig t⟩] 0 n (.fld (gA a)))
        (fun b => run S [⟨ty, pos, fun t => W * sig t⟩] 0 n (gB b))
        (mψ (run S [⟨ty, pos, fun t => W * sig t⟩] 0 n)))
      (fun n => mψ (run S [⟨ty, pos, fun t => W * sig t⟩] 0 n))
      (fun n => mφ (run S [⟨ty, pos, fun t => W * sig t⟩] 0 n)) := by
  set r := run S [⟨ty, pos, fun t => W * sig t⟩] 0
  have hr : ∀ n, r (n + 1) = applySource S [⟨ty, pos, fun t => W * sig t⟩] n (exec S.prog (r n)) :=
    fun n => rfl
  have hψS : ∀ n a b i, mψ (r (n + 1)) a b i = nextψ d (fun b => r n (gB b)) (mψ (r n)) a b i := by
    intro n a b i
    rw [hr, hψa, (hs _).2.2.1]
  have hsig : ∀ (f : Fld) n i, (if f ∈ S.srcFlds ty ∧ pos = i then W * sig n else 0) =
      sig n * (if f ∈ S.srcFlds ty ∧ pos = i then W else 0) := by
    intro f n i
    split <;> ring
  refine ⟨fun a i => rfl, fun b i => rfl, fun a b i => hψ0 a b i, fun a b i => hφ0 a b i,
    fun n a b i => ?_, fun n a b i => ?_, fun n a i => ?_, fun n a i => ?_, fun n b i => ?_⟩
  · exact hψS n a b i
  · rw [hr, hφa, (hs _).2.2.2]
    rfl
  · show nextT d _ _ _ a i = _
    simp only [hψS]
    rfl
  · rw [hr]
    simp only [applySource, List.map_cons, List.map_nil, List.sum_cons, List.sum_nil, add_zero]
    rw [(hs _).1, hsig, hp.srcA]
    ring
  · rw [hr]
    have e : applySource S [⟨ty, pos, fun t => W * sig t⟩] n (exec S.prog (r n)) (gB b) i =
        exec S.prog (r n) (gB b) i + sig n * (match gB b with
          | .fld f => if f ∈ S.srcFlds ty ∧ pos = i then W else 0
          | _ => 0) := by
      unfold applySource
      cases gB b <;> simp [hsig]
    rw [e, (hs _).2.1, hp.srcB]
    have e2 : ∀ a b i, mφ (applySource S [⟨ty, pos, fun t => W * sig t⟩] n (exec S.prog (r n))) a b i =
        nextφ d (nextT d (fun a => r n (.fld (gA a))) (fun b => r n (gB b)) (mψ (r n))) (mφ (r n))
          a b i := fun a b i => by rw [hφa, (hs _).2.2.2]
    simp only [e2]
    rfl

/-- Reciprocity of a solver that steps like a symmetric scheme. -/
theorem recip_solver {S : Solver ι} {d : Scheme A B ι} {gA : A → Fld} {gB : B → Var}
    {mψ mφ : State ι → A → B → ι → ℝ} (hs : Steps d S.prog gA gB mψ mφ)
    (hψ0 : ∀ a b i, mψ 0 a b i = 0) (hφ0 : ∀ a b i, mφ 0 a b i = 0)
    (hψa : ∀ srcs t s, mψ (applySource S srcs t s) = mψ s)
    (hφa : ∀ srcs t s, mφ (applySource S srcs t s) = mφ s)
    (ωA : A → ι → PowerSeries ℝ) (ωB : B → ι → PowerSeries ℝ)
    (hω : ∀ a i, IsUnit (ωA a i))
    (hrel : ∀ a b i j, d.D a b i j ≠ 0 → ωA a i * stretch (d.aB a b j) (d.bB a b j) =
      stretch (d.aA a b i) (d.bA a b i) * ωB b j)
    (hQω : ∀ i b b', d.Q i b b' ≠ 0 → ωB b i = ωB b' i)
    (hAω : ∀ i b b', d.Az i b b' ≠ 0 → ωB b i = ωB b' i)
    (hQ : ∀ i, (d.Q i).transpose = d.Q i)
    (hAQ : ∀ i, (d.Az i * d.Q i).transpose = d.Az i * d.Q i)
    {ty ty' : SType} {pos pos' : ι} {W W' : ℝ} {u u' : A → ι → ℝ} {v v' : B → ι → ℝ}
    (hp : Port S d gA gB ty pos W u v) (hp' : Port S d gA gB ty' pos' W' u' v')
    (hu : ∀ a i, u a i ≠ 0 ∨ u' a i ≠ 0 → ωA a i = 1)
    (hv : ∀ b i, v b i ≠ 0 ∨ v' b i ≠ 0 → ωB b i = 1) (sig : ℕ → ℝ) (t : ℕ) :
    W * sample S [⟨ty, pos, sig⟩] 0 ⟨ty', pos'⟩ t = W' * sample S [⟨ty', pos', sig⟩] 0 ⟨ty, pos⟩ t := by
  have key : ∀ (W : ℝ) (ty ty' : SType) (pos pos' : ι),
      W * sample S [⟨ty, pos, sig⟩] 0 ⟨ty', pos'⟩ t =
        sample S [⟨ty, pos, fun t => W * sig t⟩] 0 ⟨ty', pos'⟩ t := by
    intro W ty ty' pos pos'
    have := sample_lin S W 0 [⟨ty, pos, sig⟩] [] 0 0 ⟨ty', pos'⟩ t
    simp only [weighted, List.map_cons, List.map_nil, List.append_nil, smul_zero, add_zero,
      zero_mul] at this
    exact this.symm
  rw [key, key]
  unfold sample
  rw [hp'.recv, hp.recv]
  exact reciprocity d ωA ωB hω hrel hQω hAω hQ hAQ (run_sol hs hψ0 hφ0 hψa hφa hp sig)
    (run_sol hs hψ0 hφ0 hψa hφa hp' sig) hu hv (t + 1)

end Generic

/-! ### Boundary coefficients -/

/-- CPML coefficient `a` of an axis, 0 without CPML. -/
noncomputable def BC.ca (c : BC ι) (half : Bool) (ax : Axis) (i : ι) : ℝ :=
  match c.pml with
  | none => 0
  | some q => if half then q.aHalf ax i else q.a ax i

/-- CPML coefficient `b` of an axis, 0 without CPML. -/
noncomputable def BC.cb (c : BC ι) (half : Bool) (ax : Axis) (i : ι) : ℝ :=
  match c.pml with
  | none => 0
  | some q => if half then q.bHalf ax i else q.b ax i

/-- Damping factor, 1 without damping. -/
noncomputable def BC.wt (c : BC ι) (i : ι) : ℝ :=
  match c.damping with
  | none => 1
  | some w => w i

/-- CPML memory variable, 0 without CPML. -/
noncomputable def BC.mem (c : BC ι) (s : State ι) (f : Fld) (ax : Axis) (i : ι) : ℝ :=
  match c.pml with
  | none => 0
  | some _ => s (.psi f ax) i

theorem mem_zero (c : BC ι) (f : Fld) (ax : Axis) (i : ι) : c.mem 0 f ax i = 0 := by
  unfold BC.mem
  split <;> rfl

theorem mem_applySource (c : BC ι) (S : Solver ι) (srcs : List (Source ι)) (t : ℕ) (s : State ι)
    (f : Fld) (ax : Axis) : c.mem (applySource S srcs t s) f ax = c.mem s f ax := by
  funext i
  unfold BC.mem
  split <;> rfl

/-- New value of a memory variable. -/
noncomputable def BC.upd (c : BC ι) (half : Bool) (ax : Axis) (ψ v : ι → ℝ) (i : ι) : ℝ :=
  c.cb half ax i * ψ i + c.ca half ax i * v i

/-- Assign a memory variable if there is a CPML. -/
noncomputable def BC.setMem (c : BC ι) (s : State ι) (f : Fld) (ax : Axis) (v : ι → ℝ) : State ι :=
  match c.pml with
  | none => s
  | some _ => s.set (.psi f ax) v

theorem setMem_fld (c : BC ι) (s : State ι) (f : Fld) (ax : Axis) (v : ι → ℝ) (g : Fld) :
    c.setMem s f ax v (.fld g) = s (.fld g) := by
  rcases hq : c.pml with _ | q
  · simp only [BC.setMem, hq]
  · simp only [BC.setMem, hq]
    exact set_ne _ _ (by simp)

theorem setMem_rel (c : BC ι) (s : State ι) (f : Fld) (ax : Axis) (v : ι → ℝ) (g : Fld) (l : ℕ) :
    c.setMem s f ax v (.rel g l) = s (.rel g l) := by
  rcases hq : c.pml with _ | q
  · simp only [BC.setMem, hq]
  · simp only [BC.setMem, hq]
    exact set_ne _ _ (by simp)

theorem setMem_scr (c : BC ι) (s : State ι) (f : Fld) (ax : Axis) (v : ι → ℝ) (g : Scr) :
    c.setMem s f ax v (.scr g) = s (.scr g) := by
  rcases hq : c.pml with _ | q
  · simp only [BC.setMem, hq]
  · simp only [BC.setMem, hq]
    exact set_ne _ _ (by simp)

theorem mem_setMem (c : BC ι) (s : State ι) (f : Fld) (ax : Axis) (half : Bool) (w : ι → ℝ)
    (g : Fld) (bx : Axis) :
    c.mem (c.setMem s f ax (c.upd half ax (c.mem s f ax) w)) g bx =
      if g = f ∧ bx = ax then c.upd half ax (c.mem s f ax) w else c.mem s g bx := by
  funext i
  rcases hq : c.pml with _ | q
  · have e : c.upd half ax (c.mem s f ax) w = 0 := by
      funext j
      simp [BC.upd, BC.ca, BC.cb, hq]
    have e' : c.mem s g bx = 0 := by
      funext j
      simp [BC.mem, hq]
    rw [e, e', ite_self]
    simp [BC.mem, hq]
  · by_cases h : g = f ∧ bx = ax
    · obtain ⟨rfl, rfl⟩ := h
      simp [BC.setMem, BC.mem, BC.upd, BC.ca, BC.cb, hq]
    · have h' : (Var.psi g bx) ≠ .psi f ax := by simpa using h
      simp [BC.setMem, BC.mem, hq, h, set_ne _ _ h']

theorem mem_set_fld (c : BC ι) (s : State ι) (f : Fld) (v : ι → ℝ) (g : Fld) (bx : Axis) :
    c.mem (s.set (.fld f) v) g bx = c.mem s g bx := by
  funext i
  unfold BC.mem
  split
  · rfl
  · rw [set_ne _ _ (by simp)]

theorem mem_set_rel (c : BC ι) (s : State ι) (f : Fld) (l : ℕ) (v : ι → ℝ) (g : Fld) (bx : Axis) :
    c.mem (s.set (.rel f l) v) g bx = c.mem s g bx := by
  funext i
  unfold BC.mem
  split
  · rfl
  · rw [set_ne _ _ (by simp)]

theorem mem_set_scr (c : BC ι) (s : State ι) (f : Scr) (v : ι → ℝ) (g : Fld) (bx : Axis) :
    c.mem (s.set (.scr f) v) g bx = c.mem s g bx := by
  funext i
  unfold BC.mem
  split
  · rfl
  · rw [set_ne _ _ (by simp)]

theorem exec_cpmlHalf (c : BC ι) (d : Scr) (f : Fld) (ax : Axis) (s : State ι) :
    exec (cpmlHalf c (.scr d) f ax) s =
      c.setMem (s.set (.scr d) fun i => s (.scr d) i + c.upd true ax (c.mem s f ax) (s (.scr d)) i) f ax
        (c.upd true ax (c.mem s f ax) (s (.scr d))) := by
  rcases hq : c.pml with _ | q
  · simp only [cpmlHalf, BC.setMem, BC.upd, BC.mem, BC.ca, BC.cb, hq, exec_nil, zero_mul, add_zero]
    funext x
    by_cases h : x = .scr d
    · subst h
      rw [set_self]
    · rw [set_ne _ _ h]
  · have e : ∀ i, c.upd true ax (c.mem s f ax) (s (.scr d)) i =
        q.bHalf ax i * s (.psi f ax) i + q.aHalf ax i * s (.scr d) i := by
      intro i
      simp [BC.upd, BC.mem, BC.ca, BC.cb, hq]
    simp only [BC.setMem, hq, cpmlHalf, exec, List.foldl, Stmt.exec, Boundary.applyCPML, e]
    congr 1
    funext i
    exact (e i).symm

theorem exec_cpmlFull (c : BC ι) (d : Scr) (f : Fld) (ax : Axis) (s : State ι) :
    exec (cpmlFull c (.scr d) f ax) s =
      c.setMem (s.set (.scr d) fun i => s (.scr d) i + c.upd false ax (c.mem s f ax) (s (.scr d)) i) f ax
        (c.upd false ax (c.mem s f ax) (s (.scr d))) := by
  rcases hq : c.pml with _ | q
  · simp only [cpmlFull, BC.setMem, BC.upd, BC.mem, BC.ca, BC.cb, hq, exec_nil, zero_mul, add_zero]
    funext x
    by_cases h : x = .scr d
    · subst h
      rw [set_self]
    · rw [set_ne _ _ h]
  · have e : ∀ i, c.upd false ax (c.mem s f ax) (s (.scr d)) i =
        q.b ax i * s (.psi f ax) i + q.a ax i * s (.scr d) i := by
      intro i
      simp [BC.upd, BC.mem, BC.ca, BC.cb, hq]
    simp only [BC.setMem, hq, cpmlFull, exec, List.foldl, Stmt.exec, Boundary.applyCPML, e]
    congr 1
    funext i
    exact (e i).symm

theorem mem_setMem' (c : BC ι) (s s' : State ι) (f : Fld) (ax : Axis) (half : Bool) (w : ι → ℝ)
    (g : Fld) (bx : Axis) (h : c.mem s' f ax = c.mem s f ax) :
    c.mem (c.setMem s f ax (c.upd half ax (c.mem s' f ax) w)) g bx =
      if g = f ∧ bx = ax then c.upd half ax (c.mem s f ax) w else c.mem s g bx := by
  rw [h, mem_setMem]

/-- Effect of a CPML statement on the memory variables. -/
theorem mem_cpmlHalf (c : BC ι) (d : Scr) (f : Fld) (ax : Axis) (s : State ι) (g : Fld) (bx : Axis) :
    c.mem (exec (cpmlHalf c (.scr d) f ax) s) g bx =
      if g = f ∧ bx = ax then c.upd true ax (c.mem s f ax) (s (.scr d)) else c.mem s g bx := by
  rw [exec_cpmlHalf, mem_setMem' _ _ _ _ _ _ _ _ _ (mem_set_scr ..).symm, mem_set_scr, mem_set_scr]

/-- Effect of a CPML statement on the memory variables. -/
theorem mem_cpmlFull (c : BC ι) (d : Scr) (f : Fld) (ax : Axis) (s : State ι) (g : Fld) (bx : Axis) :
    c.mem (exec (cpmlFull c (.scr d) f ax) s) g bx =
      if g = f ∧ bx = ax then c.upd false ax (c.mem s f ax) (s (.scr d)) else c.mem s g bx := by
  rw [exec_cpmlFull, mem_setMem' _ _ _ _ _ _ _ _ _ (mem_set_scr ..).symm, mem_set_scr, mem_set_scr]

theorem cpmlHalf_fld (c : BC ι) (d : Scr) (f : Fld) (ax : Axis) (s : State ι) (g : Fld) :
    exec (cpmlHalf c (.scr d) f ax) s (.fld g) = s (.fld g) := by
  rw [exec_cpmlHalf, setMem_fld, set_ne _ _ (by simp)]

theorem cpmlHalf_rel (c : BC ι) (d : Scr) (f : Fld) (ax : Axis) (s : State ι) (g : Fld) (l : ℕ) :
    exec (cpmlHalf c (.scr d) f ax) s (.rel g l) = s (.rel g l) := by
  rw [exec_cpmlHalf, setMem_rel, set_ne _ _ (by simp)]

theorem cpmlHalf_scr (c : BC ι) (d : Scr) (f : Fld) (ax : Axis) (s : State ι) (g : Scr) :
    exec (cpmlHalf c (.scr d) f ax) s (.scr g) =
      if g = d then fun i => s (.scr d) i + c.upd true ax (c.mem s f ax) (s (.scr d)) i
      else s (.scr g) := by
  rw [exec_cpmlHalf, setMem_scr]
  by_cases h : g = d
  · subst h; simp
  · rw [set_ne _ _ (by simpa using h), if_neg h]

theorem cpmlFull_fld (c : BC ι) (d : Scr) (f : Fld) (ax : Axis) (s : State ι) (g : Fld) :
    exec (cpmlFull c (.scr d) f ax) s (.fld g) = s (.fld g) := by
  rw [exec_cpmlFull, setMem_fld, set_ne _ _ (by simp)]

theorem cpmlFull_rel (c : BC ι) (d : Scr) (f : Fld) (ax : Axis) (s : State ι) (g : Fld) (l : ℕ) :
    exec (cpmlFull c (.scr d) f ax) s (.rel g l) = s (.rel g l) := by
  rw [exec_cpmlFull, setMem_rel, set_ne _ _ (by simp)]

theorem cpmlFull_scr (c : BC ι) (d : Scr) (f : Fld) (ax : Axis) (s : State ι) (g : Scr) :
    exec (cpmlFull c (.scr d) f ax) s (.scr g) =
      if g = d then fun i => s (.scr d) i + c.upd false ax (c.mem s f ax) (s (.scr d)) i
      else s (.scr g) := by
  rw [exec_cpmlFull, setMem_scr]
  by_cases h : g = d
  · subst h; simp
  · rw [set_ne _ _ (by simpa using h), if_neg h]

theorem damp_nonfld (c : BC ι) (fs : List Fld) (s : State ι) (v : Var) (hv : ∀ f, v ≠ .fld f) :
    exec (damp c fs) s v = s v := by
  unfold damp
  split
  · rfl
  · rename_i w _
    induction fs generalizing s with
    | nil => rfl
    | cons f fs ih =>
      rw [List.map_cons, exec_cons, ih, Stmt.exec, set_ne _ _ (hv f)]

theorem damp_rel (c : BC ι) (fs : List Fld) (s : State ι) (g : Fld) (l : ℕ) :
    exec (damp c fs) s (.rel g l) = s (.rel g l) := damp_nonfld c fs s _ (by simp)

theorem damp_mem (c : BC ι) (fs : List Fld) (s : State ι) (f : Fld) (ax : Axis) :
    c.mem (exec (damp c fs) s) f ax = c.mem s f ax := by
  funext i
  unfold BC.mem
  split
  · rfl
  · rw [damp_nonfld _ _ _ _ (by simp)]

theorem damp_fld (c : BC ι) (fs : List Fld) (hfs : fs.Nodup) (s : State ι) (g : Fld) :
    exec (damp c fs) s (.fld g) = if g ∈ fs then fun i => s (.fld g) i * c.wt i else s (.fld g) := by
  rcases hq : c.damping with _ | w
  · have e : c.wt = 1 := by
      funext i
      simp [BC.wt, hq]
    simp [damp, hq, e]
  · have e : c.wt = w := by
      funext i
      simp [BC.wt, hq]
    simp only [damp, hq, e]
    induction fs generalizing s with
    | nil => simp
    | cons f fs ih =>
      rw [List.map_cons, exec_cons, ih (List.nodup_cons.1 hfs).2, Stmt.exec]
      by_cases h : g = f
      · subst h
        simp [(List.nodup_cons.1 hfs).1]
      · rw [set_ne _ _ (by simpa using h)]
        simp [h]

section Split
variable {A B : Type} [Fintype A] [Fintype B] [DecidableEq A] [DecidableEq B]

/-- A time step consisting of two half steps. -/
theorem Steps.split {d : Scheme A B ι} {p : List (Stmt ι)} {gA : A → Fld} {gB : B → Var}
    {mψ mφ : State ι → A → B → ι → ℝ} {L : List (List (Stmt ι))} (hp : p = L.flatten) (k : ℕ)
    (h1 : ∀ s, (∀ a i, exec (L.take k).flatten s (.fld (gA a)) i =
        nextT d (fun a => s (.fld (gA a))) (fun b => s (gB b)) (mψ s) a i) ∧
      (∀ b, exec (L.take k).flatten s (gB b) = s (gB b)) ∧
      (∀ a b i, mψ (exec (L.take k).flatten s) a b i = nextψ d (fun b => s (gB b)) (mψ s) a b i) ∧
      (∀ a b i, mφ (exec (L.take k).flatten s) a b i = mφ s a b i))
    (h2 : ∀ s, (∀ a i, exec (L.drop k).flatten s (.fld (gA a)) i = d.w a i * s (.fld (gA a)) i) ∧
      (∀ b i, exec (L.drop k).flatten s (gB b) i =
        nextZ d (fun b => s (gB b)) (fun a => s (.fld (gA a))) (mφ s) b i) ∧
      (∀ a b i, mψ (exec (L.drop k).flatten s) a b i = mψ s a b i) ∧
      (∀ a b i, mφ (exec (L.drop k).flatten s) a b i =
        nextφ d (fun a => s (.fld (gA a))) (mφ s) a b i)) :
    Steps d p gA gB mψ mφ := by
  intro s
  have e : exec p s = exec (L.drop k).flatten (exec (L.take k).flatten s) := by
    rw [hp, ← exec_append, ← List.flatten_append, List.take_append_drop]
  obtain ⟨a1, a2, a3, a4⟩ := h1 s
  obtain ⟨b1, b2, b3, b4⟩ := h2 (exec (L.take k).flatten s)
  have hT : (fun a => exec (L.take k).flatten s (.fld (gA a))) =
      nextT d (fun a => s (.fld (gA a))) (fun b => s (gB b)) (mψ s) := by
    funext a i
    exact a1 a i
  have hφ : mφ (exec (L.take k).flatten s) = mφ s := by
    funext a b i
    exact a4 a b i
  have hz : (fun b => exec (L.take k).flatten s (gB b)) = fun b => s (gB b) := by
    funext b
    exact a2 b
  rw [e]
  refine ⟨fun a i => ?_, fun b i => ?_, fun a b i => ?_, fun a b i => ?_⟩
  · rw [b1, a1]
  · rw [b2, hz, hT, hφ]
  · rw [b3, a3]
  · rw [b4, hT, hφ]

end Split

/-! ### Staggered components -/

/-- Half a grid spacing offset of a component along an axis. -/
def half : Fld → Axis → Bool
  | .vX, .x | .vY, .y | .vZ, .z => true
  | .Sxy, .x | .Sxy, .y | .Sxz, .x | .Sxz, .z | .Syz, .y | .Syz, .z => true
  | .eX, .x | .eY, .y | .eZ, .z => true
  | .hX, .y | .hX, .z | .hY, .x | .hY, .z | .hZ, .x | .hZ, .y => true
  | _, _ => false

section Layout
variable {A B : Type} [Fintype A] [Fintype B] [DecidableEq A] [DecidableEq B]

/-- CPML coefficient of the component `f`, 0 if the derivative does not occur. -/
noncomputable def coefA (c : BC ι) (f : Fld) : Option Axis → ι → ℝ
  | none => 0
  | some x => c.ca (half f x) x

/-- CPML coefficient of the component `f`, 0 if the derivative does not occur. -/
noncomputable def coefB (c : BC ι) (f : Fld) : Option Axis → ι → ℝ
  | none => 0
  | some x => c.cb (half f x) x

/-- Signed memory variable, 0 if the derivative does not occur. -/
noncomputable def memOf (c : BC ι) (s : State ι) (f : Fld) (sg : ℝ) : Option Axis → ι → ℝ
  | none => 0
  | some x => fun i => sg * c.mem s f x i

/-- Components of the two half steps, axes and signs of the derivatives that couple them. -/
structure Lay (A B : Type) where
  gA : A → Fld
  gB : B → Fld
  ax : A → B → Option Axis
  sg : A → B → ℝ

/-- Memory variables of the first half step. -/
noncomputable def Lay.mψ (L : Lay A B) (c : BC ι) (s : State ι) (a : A) (b : B) : ι → ℝ :=
  memOf c s (L.gB b) (L.sg a b) (L.ax a b)

/-- Memory variables of the second half step. -/
noncomputable def Lay.mφ (L : Lay A B) (c : BC ι) (s : State ι) (a : A) (b : B) : ι → ℝ :=
  memOf c s (L.gA a) (-L.sg a b) (L.ax a b)

/-- A scheme on the components of a layout. -/
noncomputable def layout (L : Lay A B) (c : BC ι) (R : A → ι → ℝ) (D : A → B → Matrix ι ι ℝ)
    (Az Q : ι → Matrix B B ℝ) : Scheme A B ι where
  w := fun _ => c.wt
  R := R
  D := D
  Az := Az
  Q := Q
  aA := fun a b => coefA c (L.gA a) (L.ax a b)
  bA := fun a b => coefB c (L.gA a) (L.ax a b)
  aB := fun a b => coefA c (L.gB b) (L.ax a b)
  bB := fun a b => coefB c (L.gB b) (L.ax a b)

/-- The CPML coefficients of the other axes agree. -/
def BC.Across (c : BC ι) (x : Axis) (i j : ι) : Prop :=
  ∀ y, y ≠ x → ∀ h, c.ca h y i = c.ca h y j ∧ c.cb h y i = c.cb h y j

/-- The absorbing layer leaves the point alone. -/
def BC.Inside (c : BC ι) (i : ι) : Prop := c.wt i = 1 ∧ ∀ h x, c.ca h x i = 0

/-- The CPML coefficients vary only along their own axis. -/
structure BC.Aligned (c : BC ι) (D : Deriv ι) : Prop where
  unit : ∀ h x i, 1 + c.ca h x i ≠ 0
  acrossX : ∀ i j, D.Dxf i j ≠ 0 → c.Across .x i j
  acrossY : ∀ i j, D.Dyf i j ≠ 0 → c.Across .y i j
  acrossZ : ∀ i j, D.Dzf i j ≠ 0 → c.Across .z i j

theorem BC.Across.symm {c : BC ι} {x : Axis} {i j : ι} (h : c.Across x i j) : c.Across x j i :=
  fun y hy h' => ⟨(h y hy h').1.symm, (h y hy h').2.symm⟩

/-- Stretching of the axis `x` for the component `f`. -/
noncomputable def stretchAt (c : BC ι) (f : Fld) (x : Axis) (i : ι) : PowerSeries ℝ :=
  stretch (c.ca (half f x) x i) (c.cb (half f x) x i)

/-- Weight of a component in the reciprocity relation. -/
noncomputable def omega (c : BC ι) (f : Fld) (i : ι) : PowerSeries ℝ :=
  stretchAt c f .x i * stretchAt c f .y i * stretchAt c f .z i

theorem omega_unit {c : BC ι} (h : ∀ h x i, 1 + c.ca h x i ≠ 0) (f : Fld) (i : ι) :
    IsUnit (omega c f i) :=
  ((isUnit_stretch (h _ _ _)).mul (isUnit_stretch (h _ _ _))).mul (isUnit_stretch (h _ _ _))

theorem omega_inside {c : BC ι} {i : ι} (h : c.Inside i) (f : Fld) : omega c f i = 1 := by
  unfold omega stretchAt
  simp [h.2, stretch_zero]

theorem omega_congr {c : BC ι} {f g : Fld} (h : half f = half g) (i : ι) : omega c f i = omega c g i := by
  unfold omega stretchAt
  rw [h]

theorem omega_rel {c : BC ι} {f g : Fld} {x : Axis} {i j : ι} (h : c.Across x i j)
    (hfg : ∀ y, y ≠ x → half f y = half g y) :
    omega c f i * stretchAt c g x j = stretchAt c f x i * omega c g j := by
  have e : ∀ y, y ≠ x → stretchAt c f y i = stretchAt c g y j := by
    intro y hy
    unfold stretchAt
    rw [hfg y hy, (h y hy _).1, (h y hy _).2]
  unfold omega
  cases x
  · rw [e .y (by simp), e .z (by simp)]
    ring
  · rw [e .x (by simp), e .z (by simp)]
    ring
  · rw [e .x (by simp), e .y (by simp)]
    ring

theorem memOf_zero (c : BC ι) (f : Fld) (sg : ℝ) (x : Option Axis) (i : ι) : memOf c 0 f sg x i = 0 := by
  cases x
  · rfl
  · simp [memOf, mem_zero]

theorem memOf_applySource (c : BC ι) (S : Solver ι) (srcs : List (Source ι)) (t : ℕ) (s : State ι)
    (f : Fld) (sg : ℝ) (x : Option Axis) :
    memOf c (applySource S srcs t s) f sg x = memOf c s f sg x := by
  cases x
  · rfl
  · simp [memOf, mem_applySource]

/-- Reciprocity of a solver on staggered components. -/
theorem recip_layout {S : Solver ι} {c : BC ι} {L : Lay A B} {gV : B → Var}
    {R : A → ι → ℝ} {D : A → B → Matrix ι ι ℝ} {Az Q : ι → Matrix B B ℝ}
    (hs : Steps (layout L c R D Az Q) S.prog L.gA gV (L.mψ c) (L.mφ c))
    (hu : ∀ h x i, 1 + c.ca h x i ≠ 0)
    (hD : ∀ a b i j, D a b i j ≠ 0 → ∃ x, L.ax a b = some x ∧ c.Across x i j ∧
      ∀ y, y ≠ x → half (L.gA a) y = half (L.gB b) y)
    (hQh : ∀ i b b', Q i b b' ≠ 0 → half (L.gB b) = half (L.gB b'))
    (hAh : ∀ i b b', Az i b b' ≠ 0 → half (L.gB b) = half (L.gB b'))
    (hQ : ∀ i, (Q i).transpose = Q i)
    (hAQ : ∀ i, (Az i * Q i).transpose = Az i * Q i)
    {ty ty' : SType} {pos pos' : ι} {W W' : ℝ} {u u' : A → ι → ℝ} {v v' : B → ι → ℝ}
    (hp : Port S (layout L c R D Az Q) L.gA gV ty pos W u v)
    (hp' : Port S (layout L c R D Az Q) L.gA gV ty' pos' W' u' v')
    (hi : c.Inside pos) (hi' : c.Inside pos')
    (h1 : ∀ a i, u a i ≠ 0 → i = pos) (h1' : ∀ a i, u' a i ≠ 0 → i = pos')
    (h2 : ∀ b i, v b i ≠ 0 → i = pos) (h2' : ∀ b i, v' b i ≠ 0 → i = pos')
    (sig : ℕ → ℝ) (t : ℕ) :
    W * sample S [⟨ty, pos, sig⟩] 0 ⟨ty', pos'⟩ t = W' * sample S [⟨ty', pos', sig⟩] 0 ⟨ty, pos⟩ t := by
  refine recip_solver hs (fun a b i => memOf_zero ..) (fun a b i => memOf_zero ..)
    (fun srcs t s => ?_) (fun srcs t s => ?_) (fun a => omega c (L.gA a)) (fun b => omega c (L.gB b))
    (fun a i => omega_unit hu _ _) (fun a b i j h => ?_) (fun i b b' h => omega_congr (hQh i b b' h) i)
    (fun i b b' h => omega_congr (hAh i b b' h) i) hQ hAQ hp hp' (fun a i h => ?_) (fun b i h => ?_) sig t
  · funext a b
    exact memOf_applySource ..
  · funext a b
    exact memOf_applySource ..
  · obtain ⟨x, hx, hac, hh⟩ := hD a b i j h
    have := omega_rel hac hh
    simpa [layout, coefA, coefB, hx, stretchAt] using this
  · rcases h with h | h
    · exact h1 a i h ▸ omega_inside hi _
    · exact h1' a i h ▸ omega_inside hi' _
  · rcases h with h | h
    · exact h2 b i h ▸ omega_inside hi _
    · exact h2' b i h ▸ omega_inside hi' _

end Layout

/-! ### The solvers -/

/-- Evaluate one half step. -/
macro "recip_half_step" d:ident l:ident : tactic => `(tactic| (
  rename_i hD hc g1 g2 g3 g4 k1 k2 k3 k4 a1 a2 a3 s
  refine ⟨fun a i => ?_, fun b => ?_, fun a b i => ?_, fun a b i => ?_⟩ <;>
    (try fin_cases a) <;> (try fin_cases b) <;> (try intro i) <;>
    simp [interp, ifFS, selFS, hc, g1, g2, g3, g4, k1, k2, k3, k4, cpmlHalf_fld, cpmlHalf_scr,
      cpmlHalf_rel, cpmlFull_fld, cpmlFull_scr, cpmlFull_rel, mem_cpmlHalf, mem_cpmlFull, damp_fld,
      damp_mem, damp_rel, mem_set_fld, mem_set_scr, mem_set_rel, Stmt.exec, set_ne, BC.upd,
      nextT, nextZ, nextψ, nextφ, layout, Lay.mψ, Lay.mφ, coefA, coefB, memOf, half, $d:ident,
      $l:ident, a1, a2, a3, Matrix.neg_mulVec, Fin.sum_univ_two, Fin.sum_univ_three, Fin.sum_univ_six,
      eUpdate, magnetic3D] <;> ring))

/-- Names for the facts about regular matrices. -/
macro "recip_half_steps" k:num d:ident l:ident : tactic => `(tactic| (
  rename_i hD hc
  obtain ⟨g1, g2, g3, g4, k1, k2, k3, k4⟩ := hD.getters
  have a1 := hD.adjX
  have a2 := hD.adjY
  have a3 := hD.adjZ
  refine Steps.split rfl $k (fun s => ?_) (fun s => ?_)
  · recip_half_step $d $l
  · recip_half_step $d $l))

/-- Components of the 2D acoustic solver. -/
noncomputable def layA2 : Lay (Fin 2) (Fin 1) :=
  ⟨![.vX, .vY], ![.p], ![![some .x], ![some .y]], fun _ _ => 1⟩

/-- The 2D acoustic solver as a scheme. -/
noncomputable def acoustic2DScheme (D : Deriv ι) (m : Mod ι) (c : BC ι) : Scheme (Fin 2) (Fin 1) ι :=
  layout layA2 c ![m.invRhoX, m.invRhoY] ![![D.Dxf], ![D.Dyf]] (fun i => c.wt i • 1)
    (fun i => !![c.wt i * m.pMod i])

theorem acoustic2D_steps {D : Deriv ι} {m : Mod ι} {c : BC ι} (hD : D.regular)
    (hc : c.useFreeSurface ≠ 1) :
    Steps (acoustic2DScheme D m c) (acoustic2D D m c) layA2.gA (fun b => .fld (layA2.gB b))
      (layA2.mψ c) (layA2.mφ c) := by
  recip_half_steps 8 acoustic2DScheme layA2

/-- Components of the 3D acoustic solver. -/
noncomputable def layA3 : Lay (Fin 3) (Fin 1) :=
  ⟨![.vX, .vY, .vZ], ![.p], ![![some .x], ![some .y], ![some .z]], fun _ _ => 1⟩

/-- The 3D acoustic solver as a scheme. -/
noncomputable def acoustic3DScheme (D : Deriv ι) (m : Mod ι) (c : BC ι) : Scheme (Fin 3) (Fin 1) ι :=
  layout layA3 c ![m.invRhoX, m.invRhoY, m.invRhoZ] ![![D.Dxf], ![D.Dyf], ![D.Dzf]]
    (fun i => c.wt i • 1) (fun i => !![c.wt i * m.pMod i])

theorem acoustic3D_steps {D : Deriv ι} {m : Mod ι} {c : BC ι} (hD : D.regular)
    (hc : c.useFreeSurface ≠ 1) :
    Steps (acoustic3DScheme D m c) (acoustic3D D m c) layA3.gA (fun b => .fld (layA3.gB b))
      (layA3.mψ c) (layA3.mφ c) := by
  recip_half_steps 12 acoustic3DScheme layA3

/-- Components of the 2D elastic solver. -/
noncomputable def layE2 : Lay (Fin 2) (Fin 3) :=
  ⟨![.vX, .vY], ![.Sxx, .Syy, .Sxy], ![![some .x, none, some .y], ![none, some .y, some .x]],
    fun _ _ => 1⟩

/-- The 2D elastic solver as a scheme. -/
noncomputable def elastic2DScheme (D : Deriv ι) (m : Mod ι) (c : BC ι) : Scheme (Fin 2) (Fin 3) ι :=
  layout layE2 c ![m.invRhoX, m.invRhoY] ![![D.Dxf, 0, D.Dyb], ![0, D.Dyf, D.Dxb]]
    (fun i => c.wt i • 1)
    (fun i => c.wt i • !![m.pMod i, m.pMod i - 2 * m.sMod i, 0;
      m.pMod i - 2 * m.sMod i, m.pMod i, 0; 0, 0, m.sModXY i])

theorem elastic2D_steps {D : Deriv ι} {m : Mod ι} {c : BC ι} (hD : D.regular)
    (hc : c.useFreeSurface ≠ 1) :
    Steps (elastic2DScheme D m c) (elastic2D D m c) layE2.gA (fun b => .fld (layE2.gB b))
      (layE2.mψ c) (layE2.mφ c) := by
  recip_half_steps 12 elastic2DScheme layE2

/-- Components of the SH solver. -/
noncomputable def layS2 : Lay (Fin 1) (Fin 2) :=
  ⟨![.vZ], ![.Sxz, .Syz], ![![some .x, some .y]], fun _ _ => 1⟩

/-- The SH solver as a scheme. -/
noncomputable def sh2DScheme (D : Deriv ι) (m : Mod ι) (c : BC ι) : Scheme (Fin 1) (Fin 2) ι :=
  layout layS2 c ![m.invRho] ![![D.Dxb, D.Dyb]] (fun i => c.wt i • 1)
    (fun i => c.wt i • !![m.sModXZ i, 0; 0, m.sModYZ i])

theorem sh2D_steps {D : Deriv ι} {m : Mod ι} {c : BC ι} (hD : D.regular)
    (hc : c.useFreeSurface ≠ 1) :
    Steps (sh2DScheme D m c) (sh2D D m c) layS2.gA (fun b => .fld (layS2.gB b))
      (layS2.mψ c) (layS2.mφ c) := by
  recip_half_steps 4 sh2DScheme layS2

/-- Components of the 2D EMEM solver. -/
noncomputable def layEM2 : Lay (Fin 1) (Fin 2) :=
  ⟨![.hZ], ![.eX, .eY], ![![some .y, some .x]], ![![1, -1]]⟩

/-- The 2D EMEM solver as a scheme. -/
noncomputable def emem2DScheme (D : Deriv ι) (m : EMod ι) (c : BC ι) : Scheme (Fin 1) (Fin 2) ι :=
  layout layEM2 c ![m.invMuXY] ![![D.Dyf, -D.Dxf]]
    (fun i => c.wt i • !![m.ca .x i, 0; 0, m.ca .y i])
    (fun i => c.wt i • !![m.cb .x i, 0; 0, m.cb .y i])

theorem emem2D_steps {D : Deriv ι} {m : EMod ι} {c : BC ι} (hD : D.regular) :
    Steps (emem2DScheme D m c) (emem2D D m c) layEM2.gA (fun b => .fld (layEM2.gB b))
      (layEM2.mψ c) (layEM2.mφ c) := by
  have hc : True := trivial
  recip_half_steps 4 emem2DScheme layEM2

/-- Components of the 2D TMEM solver. -/
noncomputable def layTM2 : Lay (Fin 2) (Fin 1) :=
  ⟨![.hX, .hY], ![.eZ], ![![some .y], ![some .x]], ![![-1], ![1]]⟩

/-- The 2D TMEM solver as a scheme. -/
noncomputable def tmem2DScheme (D : Deriv ι) (m : EMod ι) (c : BC ι) : Scheme (Fin 2) (Fin 1) ι :=
  layout layTM2 c ![m.invMuYZ, m.invMuXZ] ![![-D.Dyf], ![D.Dxf]]
    (fun i => c.wt i • !![m.ca .z i]) (fun i => c.wt i • !![m.cb .z i])

theorem tmem2D_steps {D : Deriv ι} {m : EMod ι} {c : BC ι} (hD : D.regular) :
    Steps (tmem2DScheme D m c) (tmem2D D m c) layTM2.gA (fun b => .fld (layTM2.gB b))
      (layTM2.mψ c) (layTM2.mφ c) := by
  have hc : True := trivial
  recip_half_steps 6 tmem2DScheme layTM2

end Verif.Solver
