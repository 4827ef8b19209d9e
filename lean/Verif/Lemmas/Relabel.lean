import Verif.Lemmas.Leapfrog
import Mathlib.Tactic.Ring
import Mathlib.Tactic.LinearCombination
import Mathlib.Algebra.BigOperators.Group.Finset.Basic

/-!
# Leapfrog schemes with other names for wavefields, axes and grid points
-/
set_option linter.dupNamespace false

namespace Verif.Solver
open Matrix

variable {ι ι' : Type}

/-- New names: of the wavefields, the axes and the grid points, and signs of the wavefields. -/
structure Relabel (ι' ι : Type) where
  e : ι' ≃ ι
  φ : Fld → Fld
  π : Axis → Axis
  σ : Fld → ℝ
  perm : ∀ g : Axis → ℝ, sum3 (fun a => g (π a)) = sum3 g

namespace Relabel
variable (x : Relabel ι' ι)

/-- Summands that correspond to each other. Full and half points only matter with a CPML. -/
def Terms (c : BC ι) (f : Fld) (t' : Term ι') (t : Term ι) : Prop :=
  t'.src = x.φ t.src ∧ (c.pml = none ∨ t'.half = t.half) ∧ (∀ i j, t'.D i j = t.D (x.e i) (x.e j)) ∧
    ∀ i, t'.w i * x.σ t.src = x.σ f * t.w (x.e i)

/-- Rows that correspond to each other. -/
structure Rows (c : BC ι) (f : Fld) (r' : Row ι') (r : Row ι) : Prop where
  late : r'.late = r.late
  keep : ∀ i, r'.keep i = r.keep (x.e i)
  fin : ∀ i, r'.fin i = r.fin (x.e i)
  term : ∀ a, match r'.term (x.π a), r.term a with
    | none, none => True
    | some t', some t => x.Terms c f t' t
    | _, _ => False

/-- Schemes that correspond to each other. -/
def Schemes (c : BC ι) (R' : Scheme ι') (R : Scheme ι) : Prop :=
  ∀ f r, R f = some r → ∃ r', R' (x.φ f) = some r' ∧ x.Rows c f r' r

/-- CPML coefficients that correspond to each other. -/
def PMLs (c' : BC ι') (c : BC ι) : Prop :=
  match c'.pml, c.pml with
  | none, none => True
  | some q', some q => ∀ a i, q'.a (x.π a) i = q.a a (x.e i) ∧ q'.b (x.π a) i = q.b a (x.e i) ∧
      q'.aHalf (x.π a) i = q.aHalf a (x.e i) ∧ q'.bHalf (x.π a) i = q.bHalf a (x.e i)
  | _, _ => False

/-- States that correspond to each other. -/
def States (R : Scheme ι) (s' : State ι') (s : State ι) : Prop :=
  ∀ f r, R f = some r → (∀ i, s' (.fld (x.φ f)) i = x.σ f * s (.fld f) (x.e i)) ∧
    ∀ a t, r.term a = some t → ∀ i, s' (.psi (x.φ t.src) (x.π a)) i = x.σ t.src * s (.psi t.src a) (x.e i)

variable {x}

theorem newPsi_eq {c' : BC ι'} {c : BC ι} (hp : x.PMLs c' c) {half' half : Bool}
    (hh : c.pml = none ∨ half' = half) (a : Axis) (k : ℝ)
    {psi' d' : ι' → ℝ} {psi d : ι → ℝ} (h1 : ∀ i, psi' i = k * psi (x.e i))
    (h2 : ∀ i, d' i = k * d (x.e i)) (i : ι') :
    newPsi c' half' (x.π a) psi' d' i = k * newPsi c half a psi d (x.e i) := by
  unfold PMLs at hp
  unfold newPsi
  cases hc' : c'.pml <;> cases hc : c.pml <;> simp only [hc', hc] at hp
  · exact h1 i
  · obtain ⟨p1, p2, p3, p4⟩ := hp a i
    obtain rfl : half' = half := by simpa [hc] using hh
    cases half' <;> simp only [PML.at, Bool.false_eq_true, if_false, if_true, p1, p2, p3, p4, h1, h2] <;> ring

theorem grad_eq {c' : BC ι'} {c : BC ι} (hp : x.PMLs c' c) {half' half : Bool}
    (hh : c.pml = none ∨ half' = half) (a : Axis) (k : ℝ)
    {psi' d' : ι' → ℝ} {psi d : ι → ℝ} (h1 : ∀ i, psi' i = k * psi (x.e i))
    (h2 : ∀ i, d' i = k * d (x.e i)) (i : ι') :
    grad c' half' (x.π a) psi' d' i = k * grad c half a psi d (x.e i) := by
  have h3 := newPsi_eq hp hh a k h1 h2 i
  unfold PMLs at hp
  unfold grad
  cases hc' : c'.pml <;> cases hc : c.pml <;> simp only [hc', hc] at hp
  · exact h2 i
  · simp only [h3, h2]
    ring

variable [Fintype ι] [Fintype ι']

theorem mulVec_eq {D' : Matrix ι' ι' ℝ} {D : Matrix ι ι ℝ} (hD : ∀ i j, D' i j = D (x.e i) (x.e j)) (k : ℝ)
    {v' : ι' → ℝ} {v : ι → ℝ} (hv : ∀ i, v' i = k * v (x.e i)) (i : ι') :
    D'.mulVec v' i = k * D.mulVec v (x.e i) := by
  simp only [Matrix.mulVec, dotProduct, hD, hv]
  rw [Finset.mul_sum, ← x.e.sum_comp]
  exact Finset.sum_congr rfl fun j _ => by ring

/-- One step of corresponding schemes from corresponding states. -/
theorem step_eq {R' : Scheme ι'} {R : Scheme ι} {c' : BC ι'} {c : BC ι}
    (hR : x.Schemes c R' R) (hS : R.Staggered)
    (hC : ∀ f r a t, R f = some r → r.term a = some t → ∃ q, R t.src = some q) (hp : x.PMLs c' c) {s' s₁' : State ι'} {s s₁ : State ι}
    (h' : IsStep R' c' s' s₁') (h : IsStep R c s s₁) (hs : x.States R s' s) : x.States R s₁' s₁ := by
  obtain ⟨u', hu'⟩ := h'
  obtain ⟨u, hu⟩ := h
  -- the contribution of one row, given the values of the wavefields it reads
  have key : ∀ f r r', R f = some r → x.Rows c f r' r → ∀ (inp' : Fld → ι' → ℝ) (inp : Fld → ι → ℝ),
      (∀ a t, r.term a = some t → ∀ i, inp' (x.φ t.src) i = x.σ t.src * inp t.src (x.e i)) → ∀ i,
      (r'.keep i * s' (.fld (x.φ f)) i + sum3 fun a => r'.value c' s' inp' a i) =
        x.σ f * (r.keep (x.e i) * s (.fld f) (x.e i) + sum3 fun a => r.value c s inp a (x.e i)) := by
    intro f r r' hf hr inp' inp hin i
    have hv : ∀ a, r'.value c' s' inp' (x.π a) i = x.σ f * r.value c s inp a (x.e i) := by
      intro a
      have ha := hr.term a
      unfold Row.value
      cases ht' : r'.term (x.π a) <;> cases ht : r.term a <;> simp only [ht', ht] at ha
      · simp
      · rename_i t' t
        obtain ⟨h1, h2, h3, h4⟩ := ha
        simp only [Term.value, h1]
        rw [grad_eq hp h2 a (x.σ t.src) (((hs f r hf).2 a t ht))
          (mulVec_eq h3 (x.σ t.src) (hin a t ht)), ← mul_assoc, h4]
        ring
    rw [hr.keep, (hs f r hf).1, ← x.perm]
    simp only [hv, sum3]
    ring
  have early : ∀ f r, R f = some r → r.late = false → ∀ i, u' (x.φ f) i = x.σ f * u f (x.e i) := by
    intro f r hf hl i
    obtain ⟨r', hf', hr⟩ := hR f r hf
    rw [(hu' _ _ hf').1 i, (hu _ _ hf).1 (x.e i)]
    simp only [hr.late, hl, Bool.false_eq_true, if_false]
    refine key f r r' hf hr _ _ ?_ i
    intro a t ht
    obtain ⟨q, hq⟩ := hC f r a t hf ht
    exact (hs _ q hq).1
  have srcs : ∀ f r, R f = some r → r.late = true → ∀ a t, r.term a = some t → ∀ i,
      u' (x.φ t.src) i = x.σ t.src * u t.src (x.e i) := by
    intro f r hf hl a t ht
    obtain ⟨q, hq, hq'⟩ := hS f r a t hf hl ht
    exact early _ q hq hq'
  intro f r hf
  obtain ⟨r', hf', hr⟩ := hR f r hf
  have hin : ∀ a t, r.term a = some t → ∀ i,
      (if r'.late then u' else fun g => s' (.fld g)) (x.φ t.src) i =
        x.σ t.src * (if r.late then u else fun g => s (.fld g)) t.src (x.e i) := by
    intro a t ht i
    rw [hr.late]
    cases hl : r.late with
    | false =>
      obtain ⟨q, hq⟩ := hC f r a t hf ht
      exact (hs _ q hq).1 i
    | true => exact srcs f r hf hl a t ht i
  obtain ⟨a1, a2, a3⟩ := hu' _ _ hf'
  obtain ⟨b1, b2, b3⟩ := hu _ _ hf
  refine ⟨fun i => ?_, fun a t ht i => ?_⟩
  · rw [a2, b2, a1, b1, hr.fin, key f r r' hf hr _ _ hin i]
    ring
  · have ha := hr.term a
    cases ht' : r'.term (x.π a) with
    | none => simp only [ht', ht] at ha
    | some t' =>
      simp only [ht', ht] at ha
      obtain ⟨h1, h2, h3, h4⟩ := ha
      rw [← h1, a3 _ _ ht', b3 _ _ ht, h1]
      exact newPsi_eq hp h2 a (x.σ t.src) ((hs f r hf).2 a t ht)
        (mulVec_eq h3 (x.σ t.src) (hin a t ht)) i

/-! ### Time stepping -/

variable [DecidableEq ι] [DecidableEq ι'] (x)

/-- The source with the new names: `τ` renames the types, `κ` are the signs of the types. -/
def source (τ : SType → SType) (κ : SType → ℝ) (q : Source ι) : Source ι' :=
  ⟨τ q.ty, x.e.symm q.pos, fun t => κ q.ty * q.signal t⟩

/-- The receiver with the new names. -/
def receiver (τ : SType → SType) (r : Receiver ι) : Receiver ι' := ⟨τ r.ty, x.e.symm r.pos⟩

variable {x}

theorem run_eq {S' : Solver ι'} {S : Solver ι} {R' : Scheme ι'} {R : Scheme ι} {c' : BC ι'} {c : BC ι}
    (hR : x.Schemes c R' R)
    (hS : R.Staggered) (hC : ∀ f r a t, R f = some r → r.term a = some t → ∃ q, R t.src = some q)
    (hp : x.PMLs c' c) (h' : ∀ s, IsStep R' c' s (exec S'.prog s))
    (h : ∀ s, IsStep R c s (exec S.prog s)) {τ : SType → SType} {κ : SType → ℝ} {srcs : List (Source ι)}
    (hq : ∀ q ∈ srcs, ∀ f r, R f = some r →
      (x.φ f ∈ S'.srcFlds (τ q.ty) ↔ f ∈ S.srcFlds q.ty) ∧ (f ∈ S.srcFlds q.ty → κ q.ty = x.σ f))
    {s' : State ι'} {s : State ι} (hs : x.States R s' s) (n : ℕ) :
    x.States R (run S' (srcs.map (x.source τ κ)) s' n) (run S srcs s n) := by
  induction n with
  | zero => exact hs
  | succ n ih =>
    have hx := step_eq hR hS hC hp (h' _) (h _) ih
    intro f r hf
    obtain ⟨h1, h2⟩ := hx f r hf
    refine ⟨fun i => ?_, h2⟩
    simp only [run, step, applySource, h1 i, mul_add]
    congr 1
    rw [List.map_map, ← List.sum_map_mul_left]
    congr 1
    refine List.map_congr_left fun q hm => ?_
    obtain ⟨e1, e2⟩ := hq q hm f r hf
    simp only [Function.comp_apply, source, e1, Equiv.symm_apply_eq]
    by_cases hm' : f ∈ S.srcFlds q.ty ∧ q.pos = x.e i
    · simp only [hm', and_self, if_true, e2 hm'.1]
    · simp only [hm', if_false, mul_zero]

omit [Fintype ι] [Fintype ι'] [DecidableEq ι] [DecidableEq ι'] in
theorem gather_eq {S' : Solver ι'} {S : Solver ι} {R : Scheme ι} {τ : SType → SType} {κ : SType → ℝ}
    {r : Receiver ι}
    (hg : match S'.recv (τ r.ty), S.recv r.ty with
      | none, none => True
      | some (k', fs'), some (k, fs) => k' = k ∧ fs'.Perm (fs.map x.φ) ∧
          ∀ f ∈ fs, (R f).isSome ∧ x.σ f = κ r.ty
      | _, _ => False)
    {s' : State ι'} {s : State ι} (hs : x.States R s' s) :
    gather S' (x.receiver τ r) s' = κ r.ty * gather S r s := by
  unfold gather receiver
  simp only
  cases h' : S'.recv (τ r.ty) with
  | none =>
    cases h : S.recv r.ty with
    | none => simp
    | some kf => simp only [h', h] at hg
  | some kf' =>
    cases h : S.recv r.ty with
    | none => simp only [h', h] at hg
    | some kf =>
      simp only [h', h] at hg
      obtain ⟨h1, h2, h3⟩ := hg
      simp only [h1]
      rw [(h2.map _).sum_eq, List.map_map, ← mul_assoc, ← List.sum_map_mul_left]
      congr 2
      refine List.map_congr_left fun f hf => ?_
      obtain ⟨a, b⟩ := h3 f hf
      obtain ⟨row, hrow⟩ := Option.isSome_iff_exists.mp a
      simp only [Function.comp_apply, (hs f row hrow).1, Equiv.apply_symm_apply, b]

end Relabel
end Verif.Solver
