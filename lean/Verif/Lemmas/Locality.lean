import Verif.Lemmas.SolverFlow
/-!
# How far a time step looks

Two grids `ι'` and `ι`, the first embedded in the second by `φ`. Every vector holds values at one of
the eight staggered positions of a grid cell. `In k π i` says that position `π` of point `i` of the
first grid is at least `k` applications of a derivative matrix away from everything that differs.
-/
set_option linter.dupNamespace false
set_option linter.unusedSectionVars false
set_option linter.unusedVariables false

namespace Verif.Solver
open Matrix

variable {ι ι' : Type} [Fintype ι] [Fintype ι']

/-! ### Staggered positions -/

/-- Position in a cell: half a point spacing further along the axes with `true`. -/
structure Pos where
  px : Bool
  py : Bool
  pz : Bool
  deriving DecidableEq

/-- Half a spacing further along an axis? -/
def Pos.half (π : Pos) : Axis → Bool
  | .x => π.px
  | .y => π.py
  | .z => π.pz

/-- The neighbouring position along an axis. -/
def Pos.toggle (π : Pos) : Axis → Pos
  | .x => ⟨!π.px, π.py, π.pz⟩
  | .y => ⟨π.px, !π.py, π.pz⟩
  | .z => ⟨π.px, π.py, !π.pz⟩

theorem Pos.toggle_toggle (π : Pos) (a : Axis) : (π.toggle a).toggle a = π := by
  cases a <;> simp [Pos.toggle]

/-- Positions of the wavefields on the staggered grid. -/
def fldPos : Fld → Pos
  | .p | .Sxx | .Syy | .Szz => ⟨false, false, false⟩
  | .vX | .eX => ⟨true, false, false⟩
  | .vY | .eY => ⟨false, true, false⟩
  | .vZ | .eZ => ⟨false, false, true⟩
  | .Sxy | .hZ => ⟨true, true, false⟩
  | .Sxz | .hY => ⟨true, false, true⟩
  | .Syz | .hX => ⟨false, true, true⟩

/-- Positions of wavefields and memory variables. -/
def varPos : Var → Pos
  | .fld f => fldPos f
  | .rel f _ => fldPos f
  | .psi f a => (fldPos f).toggle a
  | .scr _ => ⟨false, false, false⟩

def Var.isScr : Var → Bool
  | .scr _ => true
  | _ => false

/-- Positions of the auxiliary vectors whose contents are known. -/
abbrev Env := Scr → Option Pos

def Env.put (e : Env) (s : Scr) (π : Pos) : Env := fun t => if t = s then some π else e t
def Env.drop (e : Env) (s : Scr) : Env := fun t => if t = s then none else e t
def Env.empty : Env := fun _ => none

/-- Position of the values of a vector, if they are known: always for wavefields and memory
variables. -/
def Env.look (e : Env) : Var → Option Pos
  | .scr s => e s
  | v => some (varPos v)

/-- Vector `v` holds known values at position `π`. -/
abbrev Known (e : Env) (v : Var) (π : Pos) : Prop := e.look v = some π

/-! ### Agreement -/

/-- An embedding of grids with nested regions. -/
structure Emb (ι' ι : Type) where
  φ : ι' → ι
  R : ι' → Prop
  In : ℕ → Pos → ι' → Prop
  sub : ∀ k π i, In k π i → R i
  mono : ∀ k π i, In (k + 1) π i → In k π i

variable (F : Emb ι' ι)

theorem Emb.mono_le {k n : ℕ} (h : k ≤ n) {π : Pos} {i : ι'} (hi : F.In n π i) : F.In k π i := by
  induction n with
  | zero => simpa [Nat.le_zero.mp h] using hi
  | succ n ih =>
    rcases Nat.lt_or_ge k (n + 1) with h' | h'
    · exact ih (by omega) (F.mono _ _ _ hi)
    · rwa [show k = n + 1 by omega]

/-- Coefficients that agree on the region. -/
def VecLoc (w' : ι' → ℝ) (w : ι → ℝ) : Prop := ∀ i, F.R i → w' i = w (F.φ i)

/-- Derivative matrices along `a` whose results sit at the half points (`b`) or at the full points,
whose rows agree, and which look at most one region further. -/
def MatLoc (a : Axis) (b : Bool) (D' : Matrix ι' ι' ℝ) (D : Matrix ι ι ℝ) : Prop :=
  ∀ (π : Pos), π.half a = b → ∀ (k : ℕ) (v' : ι' → ℝ) (v : ι → ℝ),
    (∀ j, F.In k (π.toggle a) j → v' j = v (F.φ j)) →
    ∀ i, F.In (k + 1) π i → D'.mulVec v' i = D.mulVec v (F.φ i)

/-- The known vectors agree on region `k`. -/
def Agree2 (k : ℕ) (e : Env) (s' : State ι') (s : State ι) : Prop :=
  ∀ v π, Known e v π → ∀ i, F.In k π i → s' v i = s v (F.φ i)

/-- The wavefields in `W` agree on region `k`. -/
def AgreeW (k : ℕ) (W : List Fld) (s' : State ι') (s : State ι) : Prop :=
  ∀ f ∈ W, ∀ i, F.In k (fldPos f) i → s' (.fld f) i = s (.fld f) (F.φ i)

/-- A pair of programs that differentiates only wavefields of `W`, changes none of them, and leads
from known vectors `e` to known vectors `e'`. -/
def Tr (W : List Fld) (e : Env) (p' : List (Stmt ι')) (p : List (Stmt ι))
    (e' : Env) : Prop :=
  ∀ k s' s, Agree2 F (k + 1) e s' s → AgreeW F k W s' s →
    Agree2 F (k + 1) e' (exec p' s') (exec p s) ∧ AgreeW F k W (exec p' s') (exec p s)

/-- May be assigned values at `π` while `W` is read. -/
def Dest (W : List Fld) : Var → Pos → Prop
  | .scr _, _ => True
  | .fld f, π => f ∉ W ∧ fldPos f = π
  | v, π => varPos v = π

/-- Known vectors after an assignment. -/
def Env.out (e : Env) : Var → Pos → Env
  | .scr s, π => e.put s π
  | _, _ => e

variable {F} {W : List Fld} {e e' e'' : Env}

theorem Tr.nil : Tr F W e [] [] e := fun _ _ _ h1 h0 => ⟨h1, h0⟩

theorem Known.mono (hs : ∀ s π, e'' s = some π → e' s = some π) {v : Var} {π : Pos}
    (h : Known e'' v π) : Known e' v π := by
  cases v with
  | scr s => exact hs s π h
  | _ => exact h

theorem Tr.done : Tr F W e [] [] Env.empty := fun _ _ _ h1 h0 =>
  ⟨fun v π hk i hi => h1 v π (hk.mono fun _ _ h => by cases h) i hi, h0⟩

theorem Tr.append {p' q' : List (Stmt ι')} {p q : List (Stmt ι)} (h : Tr F W e p' p e')
    (hq : Tr F W e' q' q e'') : Tr F W e (p' ++ q') (p ++ q) e'' := by
  intro k s' s h1 h0
  rw [exec_append, exec_append]
  obtain ⟨a, b⟩ := h k s' s h1 h0
  exact hq k _ _ a b

/-- Less is known. -/
theorem Tr.weaken {p' : List (Stmt ι')} {p : List (Stmt ι)} (h : Tr F W e p' p e')
    (hs : ∀ s π, e'' s = some π → e' s = some π) : Tr F W e p' p e'' := by
  intro k s' s h1 h0
  obtain ⟨a, b⟩ := h k s' s h1 h0
  exact ⟨fun v π hk i hi => a _ _ (hk.mono hs) i hi, b⟩

theorem Tr.pre {p' : List (Stmt ι')} {p : List (Stmt ι)} (h : Tr F W e p' p e')
    (hs : ∀ s π, e s = some π → e'' s = some π) : Tr F W e'' p' p e' := by
  intro k s' s h1 h0
  exact h k s' s (fun v π hk i hi => h1 _ _ (hk.mono hs) i hi) h0

/-- Assignment of one vector. -/
theorem agree_set {k : ℕ} {s' : State ι'} {s : State ι} {d : Var} {π : Pos} {w' : ι' → ℝ}
    {w : ι → ℝ} (hd : Dest W d π) (h1 : Agree2 F (k + 1) e s' s) (h0 : AgreeW F k W s' s)
    (hw : ∀ i, F.In (k + 1) π i → w' i = w (F.φ i)) :
    Agree2 F (k + 1) (e.out d π) (s'.set d w') (s.set d w) ∧
      AgreeW F k W (s'.set d w') (s.set d w) := by
  refine ⟨fun v ρ hk i hi => ?_, fun f hf i hi => ?_⟩
  · by_cases hvd : v = d
    · subst hvd
      simp only [State.set, if_true]
      have : ρ = π := by
        cases v with
        | scr s => simpa [Known, Env.look, Env.out, Env.put, eq_comm] using hk
        | fld f => exact (Option.some.inj hk).symm.trans hd.2
        | rel f l => exact (Option.some.inj hk).symm.trans hd
        | psi f a => exact (Option.some.inj hk).symm.trans hd
      subst this
      exact hw i hi
    · simp only [State.set, hvd, if_false]
      refine h1 _ _ ?_ i hi
      cases v with
      | scr s =>
        cases d with
        | scr t =>
          have : s ≠ t := fun h => hvd (by rw [h])
          simpa [Known, Env.look, Env.out, Env.put, this] using hk
        | _ => exact hk
      | _ => exact hk
  · have : Var.fld f ≠ d := by
      rintro rfl
      exact hd.1 hf
    simp only [State.set, this, if_false]
    exact h0 f hf i hi

/-! ### Statements -/

theorem Tr.cons_of {st' : Stmt ι'} {st : Stmt ι} {p' : List (Stmt ι')} {p : List (Stmt ι)}
    (h : ∀ k s' s, Agree2 F (k + 1) e s' s → AgreeW F k W s' s →
      Agree2 F (k + 1) e' (st'.exec s') (st.exec s) ∧ AgreeW F k W (st'.exec s') (st.exec s))
    (hr : Tr F W e' p' p e'') : Tr F W e (st' :: p') (st :: p) e'' := by
  intro k s' s h1 h0
  rw [exec_cons, exec_cons]
  obtain ⟨a, b⟩ := h k s' s h1 h0
  exact hr k _ _ a b

section rules
variable {p' : List (Stmt ι')} {p : List (Stmt ι)} {π : Pos} {d a b : Var}

theorem Tr.mul {ax : Axis} {h : Bool} {f : Fld} {D' D} (hD : MatLoc F ax h D' D) (hf : f ∈ W)
    (hh : ((fldPos f).toggle ax).half ax = h) (hd : Dest W d ((fldPos f).toggle ax))
    (hr : Tr F W (e.out d ((fldPos f).toggle ax)) p' p e'') :
    Tr F W e (.mul d D' (.fld f) :: p') (.mul d D (.fld f) :: p) e'' :=
  .cons_of (fun k s' s h1 h0 => agree_set hd h1 h0 fun i hi =>
    hD _ hh k _ _ (fun j hj => h0 f hf j (by rwa [Pos.toggle_toggle] at hj)) i hi) hr

theorem Tr.copy (ha : Known e a π) (hd : Dest W d π) (hr : Tr F W (e.out d π) p' p e'') :
    Tr F W e (.copy d a :: p') (.copy d a :: p) e'' :=
  .cons_of (fun k s' s h1 h0 => agree_set hd h1 h0 fun i hi => h1 _ _ ha i hi) hr

theorem Tr.neg (ha : Known e a π) (hd : Dest W d π) (hr : Tr F W (e.out d π) p' p e'') :
    Tr F W e (.neg d a :: p') (.neg d a :: p) e'' :=
  .cons_of (fun k s' s h1 h0 => agree_set hd h1 h0 fun i hi => by rw [h1 _ _ ha i hi]) hr

theorem Tr.sum (ha : Known e a π) (hb : Known e b π) (hd : Dest W d π)
    (hr : Tr F W (e.out d π) p' p e'') :
    Tr F W e (.sum d a b :: p') (.sum d a b :: p) e'' :=
  .cons_of (fun k s' s h1 h0 => agree_set hd h1 h0 fun i hi => by
    rw [h1 _ _ ha i hi, h1 _ _ hb i hi]) hr

theorem Tr.diff (ha : Known e a π) (hb : Known e b π) (hd : Dest W d π)
    (hr : Tr F W (e.out d π) p' p e'') :
    Tr F W e (.diff d a b :: p') (.diff d a b :: p) e'' :=
  .cons_of (fun k s' s h1 h0 => agree_set hd h1 h0 fun i hi => by
    rw [h1 _ _ ha i hi, h1 _ _ hb i hi]) hr

theorem Tr.add (ha : Known e a π) (hb : Known e d π) (hd : Dest W d π)
    (hr : Tr F W (e.out d π) p' p e'') :
    Tr F W e (.add d a :: p') (.add d a :: p) e'' :=
  .cons_of (fun k s' s h1 h0 => agree_set hd h1 h0 fun i hi => by
    rw [h1 _ _ ha i hi, h1 _ _ hb i hi]) hr

theorem Tr.sub (ha : Known e a π) (hb : Known e d π) (hd : Dest W d π)
    (hr : Tr F W (e.out d π) p' p e'') :
    Tr F W e (.sub d a :: p') (.sub d a :: p) e'' :=
  .cons_of (fun k s' s h1 h0 => agree_set hd h1 h0 fun i hi => by
    rw [h1 _ _ ha i hi, h1 _ _ hb i hi]) hr

theorem Tr.axpy {c' c : ℝ} (hc : c' = c) (ha : Known e a π) (hb : Known e d π)
    (hd : Dest W d π) (hr : Tr F W (e.out d π) p' p e'') :
    Tr F W e (.axpy d c' a :: p') (.axpy d c a :: p) e'' :=
  .cons_of (fun k s' s h1 h0 => agree_set hd h1 h0 fun i hi => by
    rw [h1 _ _ ha i hi, h1 _ _ hb i hi, hc]) hr

theorem Tr.scale {w' w} (hw : VecLoc F w' w) (hb : Known e d π) (hd : Dest W d π)
    (hr : Tr F W (e.out d π) p' p e'') :
    Tr F W e (.scale d w' :: p') (.scale d w :: p) e'' :=
  .cons_of (fun k s' s h1 h0 => agree_set hd h1 h0 fun i hi => by
    rw [h1 _ _ hb i hi, hw i (F.sub _ _ _ hi)]) hr

theorem Tr.smul {c' c : ℝ} (hc : c' = c) (hb : Known e d π) (hd : Dest W d π)
    (hr : Tr F W (e.out d π) p' p e'') :
    Tr F W e (.smul d c' :: p') (.smul d c :: p) e'' :=
  .cons_of (fun k s' s h1 h0 => agree_set hd h1 h0 fun i hi => by
    rw [h1 _ _ hb i hi, hc]) hr

theorem Tr.wmul {w' w} (hw : VecLoc F w' w) (ha : Known e a π) (hd : Dest W d π)
    (hr : Tr F W (e.out d π) p' p e'') :
    Tr F W e (.wmul d w' a :: p') (.wmul d w a :: p) e'' :=
  .cons_of (fun k s' s h1 h0 => agree_set hd h1 h0 fun i hi => by
    rw [h1 _ _ ha i hi, hw i (F.sub _ _ _ hi)]) hr

theorem Tr.cmul {c' c : ℝ} (hc : c' = c) (ha : Known e a π) (hd : Dest W d π)
    (hr : Tr F W (e.out d π) p' p e'') :
    Tr F W e (.cmul d c' a :: p') (.cmul d c a :: p) e'' :=
  .cons_of (fun k s' s h1 h0 => agree_set hd h1 h0 fun i hi => by
    rw [h1 _ _ ha i hi, hc]) hr

theorem Tr.cpml {x' x y' y} (hx : VecLoc F x' x) (hy : VecLoc F y' y) (ha : Known e d π)
    (hb : Known e a π) (hd : Dest W d π) (hda : Dest W a π) (hs : a.isScr = false)
    (hr : Tr F W (e.out d π) p' p e'') :
    Tr F W e (.cpml d a x' y' :: p') (.cpml d a x y :: p) e'' := by
  refine .cons_of (fun k s' s h1 h0 => ?_) hr
  have h2 : ∀ i, F.In (k + 1) π i →
      Boundary.applyCPML (x' i) (y' i) (s' a i) (s' d i) =
        Boundary.applyCPML (x (F.φ i)) (y (F.φ i)) (s a (F.φ i)) (s d (F.φ i)) := fun i hi => by
    rw [h1 _ _ ha i hi, h1 _ _ hb i hi, hx i (F.sub _ _ _ hi), hy i (F.sub _ _ _ hi)]
  obtain ⟨g1, g0⟩ := agree_set (w' := fun i => (Boundary.applyCPML (x' i) (y' i) (s' a i) (s' d i)).1)
    (w := fun i => (Boundary.applyCPML (x i) (y i) (s a i) (s d i)).1) hd h1 h0
    (fun i hi => by simp only [h2 i hi])
  have := agree_set (w' := fun i => (Boundary.applyCPML (x' i) (y' i) (s' a i) (s' d i)).2)
    (w := fun i => (Boundary.applyCPML (x i) (y i) (s a i) (s d i)).2) hda g1 g0
    (fun i hi => by simp only [h2 i hi])
  have he : (e.out d π).out a π = e.out d π := by
    cases a with
    | scr => cases hs
    | _ => rfl
  rw [he] at this
  exact this

/-- Factors that are 1 on the region. -/
theorem Tr.scale_left {w : ι' → ℝ} (hw : ∀ i, F.R i → w i = 1) (hr : Tr F W e p' p e'') :
    Tr F W e (.scale d w :: p') p e'' := by
  intro k s' s h1 h0
  rw [exec_cons]
  have key : ∀ v i, F.R i → (Stmt.scale d w).exec s' v i = s' v i := fun v i hi => by
    by_cases hvd : v = d
    · subst hvd
      simp [Stmt.exec, State.set, hw i hi]
    · simp [Stmt.exec, State.set, hvd]
  exact hr k _ _ (fun v π hk i hi => (key v i (F.sub _ _ _ hi)).trans (h1 v π hk i hi))
    (fun f hf i hi => (key _ i (F.sub _ _ _ hi)).trans (h0 f hf i hi))

theorem Tr.scale_right {w : ι → ℝ} (hw : ∀ i, F.R i → w (F.φ i) = 1)
    (hr : Tr F W e p' p e'') : Tr F W e p' (.scale d w :: p) e'' := by
  intro k s' s h1 h0
  rw [exec_cons]
  have key : ∀ v i, F.R i → (Stmt.scale d w).exec s v (F.φ i) = s v (F.φ i) := fun v i hi => by
    by_cases hvd : v = d
    · subst hvd
      simp [Stmt.exec, State.set, hw i hi]
    · simp [Stmt.exec, State.set, hvd]
  exact hr k _ _ (fun v π hk i hi => (h1 v π hk i hi).trans (key v i (F.sub _ _ _ hi)).symm)
    (fun f hf i hi => (h0 f hf i hi).trans (key _ i (F.sub _ _ _ hi)).symm)

end rules

/-! ### Programs -/

theorem Tr.flatMap {α : Type} (l : List α) {f' : α → List (Stmt ι')} {f : α → List (Stmt ι)}
    (h : ∀ x ∈ l, Tr F W e (f' x) (f x) e) : Tr F W e (l.flatMap f') (l.flatMap f) e := by
  induction l with
  | nil => exact .nil
  | cons x l ih =>
    exact (h x List.mem_cons_self).append (ih fun y hy => h y (List.mem_cons_of_mem _ hy))

theorem Tr.forLoop {L' L : ℕ} (hL : L' = L) {f' : ℕ → List (Stmt ι')} {f : ℕ → List (Stmt ι)}
    (h : ∀ l < L, Tr F W e (f' l) (f l) e) : Tr F W e (forLoop L' f') (forLoop L f) e := by
  subst hL
  exact Tr.flatMap _ fun l hl => h l (List.mem_range.mp hl)

theorem Tr.fseg {p' : List (Stmt ι')} {p : List (Stmt ι)} {r' r} (h : Tr F W e p' p e')
    (hr : Tr F W e' (List.flatten r') (List.flatten r) e'') :
    Tr F W e (List.flatten (p' :: r')) (List.flatten (p :: r)) e'' := by
  rw [List.flatten_cons, List.flatten_cons]
  exact h.append hr

theorem Tr.fnil : Tr F W e (List.flatten []) (List.flatten []) Env.empty := Tr.done

/-- The wavefields and memory variables agree on region `k`. -/
def AgreeOn (F : Emb ι' ι) (k : ℕ) (s' : State ι') (s : State ι) : Prop :=
  ∀ v, v.isScr = false → ∀ i, F.In k (varPos v) i → s' v i = s v (F.φ i)

theorem agree2_empty {k : ℕ} {s' : State ι'} {s : State ι} :
    Agree2 F k Env.empty s' s ↔ AgreeOn F k s' s := by
  refine ⟨fun h v hs i hi => h v _ ?_ i hi, fun h v π hk i hi => ?_⟩
  · cases v with
    | scr => cases hs
    | _ => rfl
  · cases v with
    | scr => cases hk
    | _ =>
      have := Option.some.inj hk
      subst this
      exact h _ rfl i hi

theorem AgreeOn.weaken {k n : ℕ} {s' : State ι'} {s : State ι} (h : AgreeOn F k s' s)
    (hk : k ≤ n) : AgreeOn F n s' s :=
  fun v hs i hi => h v hs i (F.mono_le hk hi)

/-- A time step in two stages followed by statements without derivative moves the region by two. -/
theorem two_stages {q1 q2 q3 : List (Stmt ι')} {p1 p2 p3 : List (Stmt ι)} {W1 W2 : List Fld}
    (h1 : Tr F W1 Env.empty q1 p1 Env.empty) (h2 : Tr F W2 Env.empty q2 p2 Env.empty)
    (h3 : Tr F [] Env.empty q3 p3 Env.empty) {k : ℕ} {s' : State ι'} {s : State ι}
    (ha : AgreeOn F k s' s) :
    AgreeOn F (k + 2) (exec (q1 ++ (q2 ++ q3)) s') (exec (p1 ++ (p2 ++ p3)) s) := by
  rw [exec_append, exec_append, exec_append, exec_append]
  have e1 := agree2_empty.mp (h1 k _ _ (agree2_empty.mpr (ha.weaken (Nat.le_succ _)))
    (fun f _ i hi => ha (.fld f) rfl i hi)).1
  have e2 := (h2 (k + 1) _ _ (agree2_empty.mpr (e1.weaken (Nat.le_succ _)))
    (fun f _ i hi => e1 (.fld f) rfl i hi)).1
  exact agree2_empty.mp (h3 (k + 1) _ _ e2 (fun f hf => by simp at hf)).1

end Verif.Solver
