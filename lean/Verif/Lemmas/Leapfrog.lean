import Verif.Lemmas.Solver
import Verif.Model.SolverEM
import Mathlib.Tactic.Ring

/-!
# Staggered leapfrog schemes in tabular form

A scheme gives for every wavefield one row: which derivatives along which axis of which other
wavefields are added, with which factors. Rows of the first half step use the old wavefields, rows of
the second half step the new ones.
-/
set_option linter.dupNamespace false

namespace Verif.Solver
open Matrix

variable {ι : Type}

/-- One summand of a row: `w *` the derivative `D * src`, corrected by the CPML with the coefficients of
the half points (`half`) or of the full points. -/
structure Term (ι : Type) where
  src : Fld
  D : Matrix ι ι ℝ
  half : Bool
  w : ι → ℝ

/-- One row of a scheme: `f = fin * (keep * f + sum of the terms)`. The factor `fin` (absorbing boundary,
zero at the free surface) is applied after both half steps. -/
structure Row (ι : Type) where
  late : Bool
  keep : ι → ℝ
  term : Axis → Option (Term ι)
  fin : ι → ℝ

/-- A scheme: a row for every wavefield that is in use. -/
abbrev Scheme (ι : Type) := Fld → Option (Row ι)

/-- Sum over the three directions. -/
def sum3 (g : Axis → ℝ) : ℝ := g .x + g .y + g .z

/-- CPML coefficients of the direction `a`. -/
def PML.at (q : PML ι) (half : Bool) (a : Axis) : (ι → ℝ) × (ι → ℝ) :=
  if half then (q.aHalf a, q.bHalf a) else (q.a a, q.b a)

/-- The new memory variable for the derivative `d`. -/
def newPsi (c : BC ι) (half : Bool) (a : Axis) (psi d : ι → ℝ) : ι → ℝ :=
  match c.pml with
  | none => psi
  | some q => fun i => (q.at half a).2 i * psi i + (q.at half a).1 i * d i

/-- The derivative as it enters the update. -/
def grad (c : BC ι) (half : Bool) (a : Axis) (psi d : ι → ℝ) : ι → ℝ :=
  match c.pml with
  | none => d
  | some _ => fun i => d i + newPsi c half a psi d i

variable [Fintype ι]

/-- Contribution of one summand in the state `s` with the values `inp` of the wavefields. -/
def Term.value (c : BC ι) (s : State ι) (inp : Fld → ι → ℝ) (a : Axis) (t : Term ι) : ι → ℝ :=
  fun i => t.w i * grad c t.half a (s (.psi t.src a)) (t.D.mulVec (inp t.src)) i

/-- Contribution of the direction `a` to a row. -/
def Row.value (c : BC ι) (s : State ι) (inp : Fld → ι → ℝ) (r : Row ι) (a : Axis) : ι → ℝ :=
  match r.term a with
  | none => 0
  | some t => t.value c s inp a

/-- `s'` is the state after one time step of the scheme from the state `s`; `u` are the wavefields before
the final factors. -/
def IsStep (R : Scheme ι) (c : BC ι) (s s' : State ι) : Prop :=
  ∃ u : Fld → ι → ℝ, ∀ f r, R f = some r →
    let inp : Fld → ι → ℝ := if r.late then u else fun g => s (.fld g)
    (∀ i, u f i = r.keep i * s (.fld f) i + sum3 fun a => r.value c s inp a i) ∧
    (∀ i, s' (.fld f) i = r.fin i * u f i) ∧
    ∀ a t, r.term a = some t →
      s' (.psi t.src a) = newPsi c t.half a (s (.psi t.src a)) (t.D.mulVec (inp t.src))

/-- Every summand of a row of the second half step takes a wavefield of the first half step. -/
def Scheme.Staggered (R : Scheme ι) : Prop :=
  ∀ f r a t, R f = some r → r.late = true → r.term a = some t → ∃ q, R t.src = some q ∧ q.late = false

theorem Row.value_congr {c : BC ι} {s : State ι} {inp inp' : Fld → ι → ℝ} {r : Row ι}
    (h : ∀ a t, r.term a = some t → inp t.src = inp' t.src) (a : Axis) :
    r.value c s inp a = r.value c s inp' a := by
  unfold Row.value
  cases ht : r.term a with
  | none => rfl
  | some t =>
    funext i
    simp only [Term.value, h a t ht]

/-- The scheme determines the new wavefields and memory variables. -/
theorem IsStep.unique {R : Scheme ι} (hR : R.Staggered) {c : BC ι} {s s' s'' : State ι}
    (h' : IsStep R c s s') (h'' : IsStep R c s s'') {f : Fld} {r : Row ι} (hf : R f = some r) :
    s' (.fld f) = s'' (.fld f) ∧
    ∀ a t, r.term a = some t → s' (.psi t.src a) = s'' (.psi t.src a) := by
  obtain ⟨u, hu⟩ := h'
  obtain ⟨w, hw⟩ := h''
  have early : ∀ g q, R g = some q → q.late = false → u g = w g := by
    intro g q hg hq
    funext i
    rw [(hu g q hg).1 i, (hw g q hg).1 i]
    simp only [hq, Bool.false_eq_true, if_false]
  have key : ∀ a t, r.term a = some t → r.late = true → u t.src = w t.src := by
    intro a t ht hl
    obtain ⟨q, hq, hq'⟩ := hR f r a t hf hl ht
    exact early _ _ hq hq'
  have huw : u f = w f := by
    cases hl : r.late with
    | false => exact early f r hf hl
    | true =>
      funext i
      rw [(hu f r hf).1 i, (hw f r hf).1 i]
      simp only [hl, if_true]
      congr 2
      funext a
      exact congrFun (Row.value_congr (fun a t ht => key a t ht hl) a) i
  refine ⟨?_, ?_⟩
  · funext i
    rw [(hu f r hf).2.1 i, (hw f r hf).2.1 i, huw]
  · intro a t ht
    rw [(hu f r hf).2.2 a t ht, (hw f r hf).2.2 a t ht]
    cases hl : r.late with
    | false => rfl
    | true =>
      simp only [if_true]
      rw [key a t ht hl]

/-- The first half of a step. -/
structure FirstHalf (R : Scheme ι) (c : BC ι) (s s₁ : State ι) : Prop where
  early : ∀ f r, R f = some r → r.late = false →
    (∀ i, s₁ (.fld f) i = r.keep i * s (.fld f) i + sum3 fun a => r.value c s (fun g => s (.fld g)) a i) ∧
    ∀ a t, r.term a = some t →
      s₁ (.psi t.src a) = newPsi c t.half a (s (.psi t.src a)) (t.D.mulVec (s (.fld t.src)))
  waiting : ∀ f r, R f = some r → r.late = true →
    (∀ i, s₁ (.fld f) i = s (.fld f) i) ∧ ∀ a t, r.term a = some t → s₁ (.psi t.src a) = s (.psi t.src a)

/-- The second half of a step. -/
structure SecondHalf (R : Scheme ι) (c : BC ι) (s₁ s' : State ι) : Prop where
  late : ∀ f r, R f = some r → r.late = true →
    (∀ i, s' (.fld f) i = r.fin i * (r.keep i * s₁ (.fld f) i +
      sum3 fun a => r.value c s₁ (fun g => s₁ (.fld g)) a i)) ∧
    ∀ a t, r.term a = some t →
      s' (.psi t.src a) = newPsi c t.half a (s₁ (.psi t.src a)) (t.D.mulVec (s₁ (.fld t.src)))
  done : ∀ f r, R f = some r → r.late = false →
    (∀ i, s' (.fld f) i = r.fin i * s₁ (.fld f) i) ∧
    ∀ a t, r.term a = some t → s' (.psi t.src a) = s₁ (.psi t.src a)

/-- The wavefields after both halves, before the final factors. -/
def Scheme.unscaled (R : Scheme ι) (c : BC ι) (s₁ : State ι) (f : Fld) : ι → ℝ :=
  match R f with
  | none => 0
  | some r => if r.late then fun i => r.keep i * s₁ (.fld f) i +
      sum3 fun a => r.value c s₁ (fun g => s₁ (.fld g)) a i else s₁ (.fld f)

theorem isStep_of_halves {R : Scheme ι} (hR : R.Staggered) {c : BC ι} {s s₁ s' : State ι}
    (hA : FirstHalf R c s s₁) (hB : SecondHalf R c s₁ s') : IsStep R c s s' := by
  refine ⟨R.unscaled c s₁, ?_⟩
  intro f r hf
  have hu : R.unscaled c s₁ f = if r.late then fun i => r.keep i * s₁ (.fld f) i +
      sum3 fun a => r.value c s₁ (fun g => s₁ (.fld g)) a i else s₁ (.fld f) := by
    simp only [Scheme.unscaled, hf]
  cases hl : r.late with
  | false =>
    obtain ⟨h1, h2⟩ := hA.early f r hf hl
    obtain ⟨h3, h4⟩ := hB.done f r hf hl
    simp only [hu, hl, Bool.false_eq_true, if_false]
    refine ⟨h1, h3, fun a t ht => ?_⟩
    rw [h4 a t ht, h2 a t ht]
  | true =>
    obtain ⟨h1, h2⟩ := hA.waiting f r hf hl
    obtain ⟨h3, h4⟩ := hB.late f r hf hl
    have key : ∀ a t, r.term a = some t → R.unscaled c s₁ t.src = s₁ (.fld t.src) := by
      intro a t ht
      obtain ⟨q, hq, hq'⟩ := hR f r a t hf hl ht
      simp [Scheme.unscaled, hq, hq']
    simp only [hu, hl, if_true]
    refine ⟨fun i => ?_, h3, fun a t ht => ?_⟩
    · rw [h1]
      congr 2
      funext a
      unfold Row.value
      cases ht : r.term a with
      | none => rfl
      | some t => simp only [Term.value, h2 a t ht, key a t ht]
    · rw [h4 a t ht, h2 a t ht, key a t ht]

theorem exec_append' (p q : List (Stmt ι)) (s : State ι) : exec (p ++ q) s = exec q (exec p s) := by
  simp [exec]

/-- Factor of the damping boundary. -/
def dampW (c : BC ι) : ι → ℝ := match c.damping with
  | none => fun _ => 1
  | some w => w

/-- Factor of a wavefield that is set to zero at a free surface. -/
def surfW (c : BC ι) : ι → ℝ := if c.useFreeSurface = 1 then c.setZero else fun _ => 1

theorem exec_damp (c : BC ι) (fs : List Fld) (hn : fs.Nodup) (s : State ι) (f : Fld) (i : ι) :
    exec (damp c fs) s (.fld f) i = if f ∈ fs then dampW c i * s (.fld f) i else s (.fld f) i := by
  unfold damp dampW
  cases c.damping with
  | none => simp [exec]
  | some w =>
    simp only
    induction fs generalizing s with
    | nil => simp [exec]
    | cons g gs ih =>
      rw [List.nodup_cons] at hn
      have : exec (List.map (fun f => Stmt.scale (.fld f) w) (g :: gs)) s =
        exec (List.map (fun f => Stmt.scale (.fld f) w) gs) ((Stmt.scale (.fld g) w).exec s) := rfl
      rw [this, ih hn.2]
      by_cases hfg : f = g
      · subst hfg
        simp [hn.1, Stmt.exec, State.set, mul_comm]
      · simp [hfg, Stmt.exec, State.set]

theorem exec_damp_psi (c : BC ι) (fs : List Fld) (s : State ι) (f : Fld) (a : Axis) :
    exec (damp c fs) s (.psi f a) = s (.psi f a) := by
  apply exec_frame
  unfold damp
  cases c.damping <;> simp [Stmt.writes]

/-- Grids without interpolation points. -/
def NoInterp (D : Deriv ι) : Prop :=
  D.interFull = none ∧ D.interSX = none ∧ D.interSZ = none ∧ D.interSXZ = none

/-- Row of a scheme by its summands along x, y and z. -/
def mkRow (late : Bool) (keep fin : ι → ℝ) (tx ty tz : Option (Term ι)) : Row ι where
  late := late
  keep := keep
  term := fun | .x => tx | .y => ty | .z => tz
  fin := fin

end Verif.Solver
