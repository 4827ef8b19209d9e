import Verif.Lemmas.LocalityGrid
/-!
# C103: how far a time step looks

On a regular grid a stencil of `s` points reaches `(s - 1) / 2` point spacings, and a time step
applies two stencils one after the other. Hence nothing travels faster than `s - 1` points per time
step, and the seismogram at a receiver depends only on what is within reach.

Distances (`dist2`) are measured between the places on the staggered grid where the source and the
receiver act, in half point spacings, the axes added up.
-/
set_option linter.dupNamespace false
set_option linter.unusedSectionVars false

namespace Verif.Solver
open Matrix Verif.Stencil

variable {NX' NY' NZ' NX NY NZ : ℕ}

/-- Wavefields a receiver records. -/
def Solver.recFlds {ι : Type} (S : Solver ι) (ty : SType) : List Fld := ((S.recv ty).map (·.2)).getD []

/-- A receiver records zero if the wavefields it records are zero at its place. -/
private theorem gather_zero {ι : Type} {S : Solver ι} {r : Receiver ι} {s : State ι}
    (h : ∀ g ∈ S.recFlds r.ty, s (.fld g) r.pos = 0) : gather S r s = 0 := by
  unfold Solver.recFlds at h
  unfold gather
  rcases hr : S.recv r.ty with _ | ⟨w, fs⟩
  · rfl
  · rw [hr] at h
    simp only
    rw [List.sum_eq_zero fun z hz => ?_, zero_mul]
    obtain ⟨g, hg, rfl⟩ := List.mem_map.mp hz
    exact h g hg

private theorem gather_congr {ι ι' : Type} {S' : Solver ι'} {S : Solver ι} (hr : S'.recv = S.recv)
    {ty : SType} {i' : ι'} {i : ι} {s' : State ι'} {s : State ι}
    (h : ∀ g ∈ S.recFlds ty, s' (.fld g) i' = s (.fld g) i) :
    gather S' ⟨ty, i'⟩ s' = gather S ⟨ty, i⟩ s := by
  unfold Solver.recFlds at h
  unfold gather
  rw [hr]
  rcases hr : S.recv ty with _ | ⟨w, fs⟩
  · rfl
  · rw [hr] at h
    replace h : ∀ g ∈ fs, s' (.fld g) i' = s (.fld g) i := h
    simp only
    rw [List.map_congr_left h]

private theorem live_clear {ι : Type} {S : Solver ι} {s : State ι} (hs : ∀ v ∈ S.memory, s v = 0) :
    Agree S.live (clear S.fields s) 0 := by
  intro v hv
  unfold clear
  split
  · rfl
  · rename_i hn
    exact hs v (hv.resolve_left hn)

/-- One source. -/
private theorem single_far {s : ℤ} (hv : ValidOrder s) {DT DH : ℝ} {c : BC (Pt NX NY NZ)}
    {S : Solver (Pt NX NY NZ)} (h : IsSolver (surfaceDeriv NX NY NZ s DT DH) c S)
    (q : Source (Pt NX NY NZ)) (r : Receiver (Pt NX NY NZ)) (t : ℕ)
    (hfar : ∀ f ∈ S.srcFlds q.ty, ∀ g ∈ S.recFlds r.ty, ∀ τ ≤ t, q.signal τ ≠ 0 →
      2 * (t - τ) * (s - 1) < dist2 r.pos (fldPos g) q.pos (fldPos f)) :
    sample S [q] 0 r t = 0 := by
  refine gather_zero fun g hg => ?_
  by_cases h0 : ∃ τ, τ ≤ t ∧ q.signal τ ≠ 0
  · classical
    let n0 := Nat.find h0
    obtain ⟨h1, h2⟩ : n0 ≤ t ∧ q.signal n0 ≠ 0 := Nat.find_spec h0
    have h3 : ∀ τ < n0, ∀ q' ∈ [q], q'.signal τ = 0 := by
      intro τ hτ q' hq'
      rw [List.mem_singleton.mp hq']
      by_contra hn
      exact Nat.find_min h0 hτ ⟨by omega, hn⟩
    have := run_far hv h (n := t - n0) h3 (v := .fld g) rfl (i := r.pos) fun q' hq' f hf => by
      rw [List.mem_singleton.mp hq'] at hf ⊢
      have := hfar f hf g hg n0 h1 h2
      push_cast [Nat.cast_sub h1]
      exact this
    rwa [show n0 + (t - n0) + 1 = t + 1 by omega] at this
  · have : run S [q] 0 (t + 1) = 0 := run_zero fun τ hτ f i => by
      simp only [injected, List.map_cons, List.map_nil, List.sum_cons, List.sum_nil, add_zero]
      have : q.signal τ = 0 := by
        by_contra hn
        exact h0 ⟨τ, by omega, hn⟩
      rw [this, ite_self]
    rw [this]
    rfl

/-- C103: sample `t` of a seismogram is exactly zero unless some source has a nonzero sample `τ ≤ t`
and is within reach, that is, at most `(t - τ) (s - 1)` point spacings away. Any equations, any model, any
free surface and absorbing boundaries. -/
theorem C103_nothing_arrives_before {s : ℤ} (hv : ValidOrder s) {DT DH : ℝ}
    {c : BC (Pt NX NY NZ)} {S : Solver (Pt NX NY NZ)}
    (h : IsSolver (surfaceDeriv NX NY NZ s DT DH) c S) (s0 : State (Pt NX NY NZ))
    (hs : ∀ v ∈ S.memory, s0 v = 0) (srcs : List (Source (Pt NX NY NZ)))
    (r : Receiver (Pt NX NY NZ)) (t : ℕ)
    (hfar : ∀ q ∈ srcs, ∀ f ∈ S.srcFlds q.ty, ∀ g ∈ S.recFlds r.ty, ∀ τ ≤ t, q.signal τ ≠ 0 →
      2 * (t - τ) * (s - 1) < dist2 r.pos (fldPos g) q.pos (fldPos f)) :
    sample S srcs (clear S.fields s0) r t = 0 := by
  rw [h.sample_agree srcs (live_clear hs)]
  have one : ∀ A : List (Source (Pt NX NY NZ)), weighted 1 A = A := fun A => by
    simp [weighted]
  induction srcs with
  | nil => exact gather_zero fun g _ => by rw [run_zero fun _ _ _ _ => rfl]; rfl
  | cons q srcs ih =>
    have e := sample_lin S 1 1 [q] srcs 0 0 r t
    rw [one, one, smul_zero, add_zero, single_far hv h q r t (hfar q List.mem_cons_self),
      ih fun q' hq' => hfar q' (List.mem_cons_of_mem _ hq')] at e
    simpa using e

/-- Pressure source and receiver of the acoustic equations in points: nothing is recorded before
the distance (the axes added up) is covered at `s - 1` points per time step. -/
theorem C103_acoustic_points {s : ℤ} (hv : ValidOrder s) {DT DH : ℝ} (m : Mod (Pt NX NY NZ))
    (c : BC (Pt NX NY NZ)) (s0 : State (Pt NX NY NZ))
    (hs : ∀ v ∈ (acoustic3DSolver (surfaceDeriv NX NY NZ s DT DH) m c).memory, s0 v = 0)
    (A B : Pt NX NY NZ) (sig : ℕ → ℝ) (t : ℕ)
    (hfar : (t : ℤ) * (s - 1) < |(A.1 : ℤ) - B.1| + |(A.2.1 : ℤ) - B.2.1| + |(A.2.2 : ℤ) - B.2.2|) :
    sample (acoustic3DSolver (surfaceDeriv NX NY NZ s DT DH) m c) [⟨.P, A, sig⟩]
      (clear (acoustic3DSolver (surfaceDeriv NX NY NZ s DT DH) m c).fields s0) ⟨.P, B⟩ t = 0 := by
  refine C103_nothing_arrives_before hv (.acoustic3D m) s0 hs _ _ _ fun q hq f hf g hg τ hτ _ => ?_
  rw [List.mem_singleton.mp hq] at hf ⊢
  obtain ⟨_, h2, _⟩ := hv.even
  simp only [acoustic3DSolver, Solver.srcFlds, src3Dacoustic, Option.getD_some,
    List.mem_singleton] at hf
  simp only [acoustic3DSolver, Solver.recFlds, single, src3Dacoustic, Option.map_some,
    Option.getD_some, List.mem_singleton] at hg
  subst hf hg
  have e : dist2 B (fldPos .p) A (fldPos .p) =
      2 * (|(A.1 : ℤ) - B.1| + |(A.2.1 : ℤ) - B.2.1| + |(A.2.2 : ℤ) - B.2.2|) := by
    rw [dist2_comm]
    simp only [dist2, coord, fldPos, Pos.half, along, Bool.false_eq_true, if_false, add_zero]
    rw [← mul_sub, ← mul_sub, ← mul_sub, abs_mul, abs_mul, abs_mul, abs_two]
    ring
  rw [e]
  nlinarith [mul_nonneg (show (0 : ℤ) ≤ τ by positivity) (show 0 ≤ s - 1 by omega)]

/-! ### Simulations of a part of the model -/

section cutout
variable (C : Cut NX' NY' NZ' NX NY NZ) {s : ℤ} {DT DH : ℝ} {R : Pt NX' NY' NZ' → Pos → Prop}
  {c' : BC (Pt NX' NY' NZ')} {c : BC (Pt NX NY NZ)} {S' : Solver (Pt NX' NY' NZ')}
  {S : Solver (Pt NX NY NZ)}

/-- C103: a simulation on a box of the grid records the same samples as the simulation on the whole
grid, at every receiver that is at least `t (s - 1)` points away from the faces of the box that are
inside the whole grid, and from all places outside `R`. On `R` the models, the boundary settings
and the sources agree; everything else may differ. With a free surface the box contains it. -/
theorem C103_cut_out (hv : ValidOrder s)
    (hS : Pair C.φ (fun i => ∃ π, R i π) (surfaceDeriv NX' NY' NZ' s DT DH)
      (surfaceDeriv NX NY NZ s DT DH) c' c S' S)
    (hc : BC.Same C.φ (fun i => ∃ π, R i π) c' c) (ho : c.useFreeSurface = 1 → C.oy = 0)
    (s0' : State (Pt NX' NY' NZ')) (hs' : ∀ v ∈ S'.memory, s0' v = 0)
    (s0 : State (Pt NX NY NZ)) (hs : ∀ v ∈ S.memory, s0 v = 0)
    (srcs' : List (Source (Pt NX' NY' NZ'))) (srcs : List (Source (Pt NX NY NZ)))
    (hq : ∀ t f i, R i (fldPos f) → injected S' srcs' t f i = injected S srcs t f (C.φ i))
    (ty : SType) (i : Pt NX' NY' NZ') (t : ℕ)
    (hi : ∀ g ∈ S.recFlds ty, C.In s R (2 * t) (fldPos g) i) :
    sample S' srcs' (clear S'.fields s0') ⟨ty, i⟩ t =
      sample S srcs (clear S.fields s0) ⟨ty, C.φ i⟩ t := by
  have h1 : 1 ≤ s := by obtain ⟨_, h2, _⟩ := hv.even; omega
  obtain ⟨i1, i2⟩ := pair_isSolver hS
  rw [i1.sample_agree srcs' (live_clear hs'), i2.sample_agree srcs (live_clear hs)]
  let F := C.emb s h1 R
  have hp : StepLoc F S'.prog S.prog := pair_step (surfaceDeriv_loc C hv h1 R DT DH ho) hc hS
  have hq' : ∀ k t f j, F.In k (fldPos f) j → injected S' srcs' t f j =
      injected S srcs t f (F.φ j) := fun k t f j hj => hq t f j (Cut.In.sub h1 hj)
  have h2 : AgreeOn F 0 (run S' srcs' 0 1) (run S srcs 0 1) :=
    first_loc (fun f j hj => hq' 0 _ f j hj) rfl rfl
  have h3 := run_loc hp hq' h2 t
  rw [show 1 + t = t + 1 by ring, zero_add] at h3
  exact gather_congr (pair_same hS).2.1 fun g hg => h3 _ rfl i (hi g hg)

/-- C103: the same up to the time for the way to the faces of the box (or to a place outside `R`)
and back. If all sources are more than `t₀ (s - 1)` points away from the places within reach of one
time step from the faces, then up to time step `t₀` all of `R` is undisturbed, and `n` time
steps later everything that is at least `n (s - 1)` points away from the faces still is. -/
theorem C103_cut_out_two_way (hv : ValidOrder s)
    (hS : Pair C.φ (fun i => ∃ π, R i π) (surfaceDeriv NX' NY' NZ' s DT DH)
      (surfaceDeriv NX NY NZ s DT DH) c' c S' S)
    (hc : BC.Same C.φ (fun i => ∃ π, R i π) c' c) (ho : c.useFreeSurface = 1 → C.oy = 0)
    (s0' : State (Pt NX' NY' NZ')) (hs' : ∀ v ∈ S'.memory, s0' v = 0)
    (s0 : State (Pt NX NY NZ)) (hs : ∀ v ∈ S.memory, s0 v = 0)
    (srcs' : List (Source (Pt NX' NY' NZ'))) (srcs : List (Source (Pt NX NY NZ)))
    (hq : ∀ t f i, R i (fldPos f) → injected S' srcs' t f i = injected S srcs t f (C.φ i))
    (t₀ : ℕ) (hfar : ∀ i π, R i π → C.In s R 2 π i ∨
      (∀ q ∈ srcs', ∀ f ∈ S.srcFlds q.ty, 2 * t₀ * (s - 1) < dist2 i π q.pos (fldPos f)) ∧
      ∀ q ∈ srcs, ∀ f ∈ S.srcFlds q.ty, 2 * t₀ * (s - 1) < dist2 (C.φ i) π q.pos (fldPos f))
    (ty : SType) (i : Pt NX' NY' NZ') (n : ℕ)
    (hi : ∀ g ∈ S.recFlds ty, C.In s R (2 * n) (fldPos g) i) :
    sample S' srcs' (clear S'.fields s0') ⟨ty, i⟩ (t₀ + n) =
      sample S srcs (clear S.fields s0) ⟨ty, C.φ i⟩ (t₀ + n) := by
  have h1 : 1 ≤ s := by obtain ⟨_, h2, _⟩ := hv.even; omega
  obtain ⟨i1, i2⟩ := pair_isSolver hS
  have hsrc : S'.srcFlds = S.srcFlds := by
    funext ty
    rw [Solver.srcFlds, Solver.srcFlds, (pair_same hS).1]
  rw [i1.sample_agree srcs' (live_clear hs'), i2.sample_agree srcs (live_clear hs)]
  let F := C.emb s h1 R
  have hp : StepLoc F S'.prog S.prog := pair_step (surfaceDeriv_loc C hv h1 R DT DH ho) hc hS
  have hq' : ∀ k t f j, F.In k (fldPos f) j → injected S' srcs' t f j =
      injected S srcs t f (F.φ j) := fun k t f j hj => hq t f j (Cut.In.sub h1 hj)
  have key : ∀ m ≤ t₀, AgreeOn F 0 (run S' srcs' 0 (m + 1)) (run S srcs 0 (m + 1)) := by
    intro m
    induction m with
    | zero => exact fun _ => first_loc (fun f j hj => hq' 0 _ f j hj) rfl rfl
    | succ m ih =>
      intro hm v hw j hj
      rcases hfar j (varPos v) (Cut.In.sub h1 hj) with h2 | ⟨h2, h3⟩
      · exact run_loc hp hq' (ih (by omega)) 1 v hw j h2
      · have hle : (2 : ℤ) * ((m + 1 : ℕ) : ℤ) * (s - 1) ≤ 2 * t₀ * (s - 1) := by
          have : (((m + 1 : ℕ) : ℤ)) ≤ t₀ := by exact_mod_cast hm
          nlinarith
        have z1 := run_far hv i1 (n0 := 0) (n := m + 1) (srcs := srcs') (fun _ h => by omega) hw
          (i := j) fun q hq f hf => hle.trans_lt (h2 q hq f (by rwa [hsrc] at hf))
        have z2 := run_far hv i2 (n0 := 0) (n := m + 1) (srcs := srcs) (fun _ h => by omega) hw
          (i := C.φ j) fun q hq f hf => hle.trans_lt (h3 q hq f hf)
        rw [zero_add] at z1 z2
        rw [z1]
        exact z2.symm
  have h3 := run_loc hp hq' (key t₀ le_rfl) n
  rw [show t₀ + 1 + n = t₀ + n + 1 by ring, zero_add] at h3
  exact gather_congr (pair_same hS).2.1 fun g hg => h3 _ rfl i (hi g hg)

end cutout

/-! ### Examples -/

/-- A model with all parameters 1. -/
noncomputable def unitMod (NX NY NZ : ℕ) : Mod (Pt NX NY NZ) :=
  ⟨1, 1, 1, 1, 1, 1, 1, 1, 1, 1, 1, 1, 1, 1, 0, fun _ => 1, 1⟩

/-- No boundaries. -/
def noBC (NX NY NZ : ℕ) : BC (Pt NX NY NZ) := ⟨0, none, none, fun _ => false⟩

/-- Nine of twenty points. -/
def exCut : Cut 9 1 1 20 1 1 := ⟨5, 0, 0, by omega, by omega, by omega⟩

/-- A model that differs from `unitMod` outside the box. -/
noncomputable def exLarge : Mod (Pt 20 1 1) :=
  { unitMod 20 1 1 with pMod := fun i => if 5 ≤ (i.1 : ℕ) ∧ (i.1 : ℕ) < 14 then 1 else 7 }

/-- Example for `C103_cut_out_two_way`, second order: source and receiver in the middle of the box,
four points from its ends; the seismograms agree up to sample 7. -/
example (s0' : State (Pt 9 1 1)) (s0 : State (Pt 20 1 1)) (sig : ℕ → ℝ)
    (hs' : ∀ v ∈ psi2Dacoustic, s0' v = 0) (hs : ∀ v ∈ psi2Dacoustic, s0 v = 0) :
    let S' := acoustic2DSolver (surfaceDeriv 9 1 1 2 1 1) (unitMod 9 1 1) (noBC 9 1 1)
    let S := acoustic2DSolver (surfaceDeriv 20 1 1 2 1 1) exLarge (noBC 20 1 1)
    sample S' [⟨.P, (4, 0, 0), sig⟩] (clear S'.fields s0') ⟨.P, (4, 0, 0)⟩ 7 =
      sample S [⟨.P, (9, 0, 0), sig⟩] (clear S.fields s0) ⟨.P, (9, 0, 0)⟩ 7 := by
  intro S' S
  have hm : Mod.Same exCut.φ (fun _ => ∃ _ : Pos, True) (unitMod 9 1 1) exLarge := by
    constructor
    case pMod =>
      intro i _
      have h1 : (5 : ℕ) ≤ ((exCut.φ i).1 : ℕ) ∧ ((exCut.φ i).1 : ℕ) < 14 := by
        have := i.1.isLt
        simp only [Cut.φ, Cut.idx, Cut.off, exCut]
        omega
      simp only [exLarge, h1, unitMod, and_self, if_true]
      rfl
    all_goals first | rfl | exact fun _ _ => rfl
  refine C103_cut_out_two_way exCut (R := fun _ _ => True) (s := 2) (DT := 1) (DH := 1)
    (c' := noBC 9 1 1) (c := noBC 20 1 1) (.inl rfl) (.acoustic2D hm)
    ⟨rfl, fun _ _ => rfl, trivial, fun _ _ => rfl⟩ (by simp [noBC]) s0' hs' s0 hs _ _ ?_ 3 ?_ .P
    (4, 0, 0) 4 ?_
  · intro t f i _
    simp only [injected, List.map_cons, List.map_nil, List.sum_cons, List.sum_nil, add_zero]
    have e : ((9, 0, 0) : Pt 20 1 1) = exCut.φ (4, 0, 0) := rfl
    simp only [e, exCut.φ_injective.eq_iff]
    rfl
  · intro i π _
    by_cases hin : 2 ≤ coord .x i π ∧ coord .x i π + 2 ≤ 17
    · refine .inl ⟨fun a => ?_, fun _ _ _ => trivial⟩
      cases a
      · exact ⟨.inr hin.1, .inr hin.2⟩
      · exact ⟨.inl rfl, .inl rfl⟩
      · exact ⟨.inl rfl, .inl rfl⟩
    · have far : ∀ d : ℤ, coord .x i π = d → 6 < |d - 8| := by
        rintro d rfl
        have : 0 ≤ coord .x i π := by unfold coord; split <;> omega
        rcases abs_cases (coord .x i π - 8) with ⟨h, _⟩ | ⟨h, _⟩ <;> rw [h] <;> omega
      refine .inr ⟨fun q hq f hf => ?_, fun q hq f hf => ?_⟩ <;>
      · rw [List.mem_singleton.mp hq] at hf ⊢
        simp only [acoustic2DSolver, Solver.srcFlds, src2Dacoustic, Option.getD_some,
          List.mem_singleton] at hf
        subst hf
        have h0 := far _ rfl
        refine lt_of_lt_of_le (b := |coord .x i π - 8|) (by simpa using h0) ?_
        unfold dist2
        refine le_trans (le_of_eq ?_) (le_trans (le_add_of_nonneg_right (abs_nonneg _))
          (le_add_of_nonneg_right (abs_nonneg _)))
        congr 1 <;>
        · simp only [coord, fldPos, Pos.half, along, exCut, Cut.φ, Cut.idx, Cut.off]
          push_cast
          simp
          try ring
  · intro g hg
    simp only [acoustic2DSolver, Solver.recFlds, single, src2Dacoustic, Option.map_some,
      Option.getD_some, List.mem_singleton] at hg
    subst hg
    refine ⟨fun a => ?_, fun _ _ _ => trivial⟩
    cases a
    · exact ⟨.inr (by decide), .inr (by decide)⟩
    · exact ⟨.inl rfl, .inl rfl⟩
    · exact ⟨.inl rfl, .inl rfl⟩

private theorem mulVec_x (E : ℤ → ℤ → ℝ) (v : Pt 2 1 1 → ℝ) (i : Pt 2 1 1) :
    (lineMatrix .x E).mulVec v i =
      E ((i.1 : ℕ) : ℤ) 0 * v (0, 0, 0) + E ((i.1 : ℕ) : ℤ) 1 * v (1, 0, 0) := by
  rw [lineMatrix_mulVec]
  have h2 : i.2 = (0, 0) := Subsingleton.elim _ _
  refine (Fin.sum_univ_two (M := ℝ) _).trans ?_
  simp only [moveTo, h2]
  rfl

private theorem mulVec_y (E : ℤ → ℤ → ℝ) (v : Pt 2 1 1 → ℝ) (i : Pt 2 1 1) :
    (lineMatrix .y E).mulVec v i = E 0 0 * v i := by
  rw [lineMatrix_mulVec]
  refine (Fin.sum_univ_one (M := ℝ) _).trans ?_
  have h2 : i.2 = (0, 0) := Subsingleton.elim _ _
  have h3 : i = (i.1, 0, 0) := Prod.ext rfl h2
  rw [h3]
  rfl

/-- The reach is attained: second order, two points, one time step after the source. -/
example : sample (acoustic2DSolver (surfaceDeriv 2 1 1 2 1 1) (unitMod 2 1 1) (noBC 2 1 1))
    [⟨.P, (0, 0, 0), fun _ => 1⟩] 0 ⟨.P, (1, 0, 0)⟩ 1 ≠ 0 := by
  have e1 : run (acoustic2DSolver (surfaceDeriv 2 1 1 2 1 1) (unitMod 2 1 1) (noBC 2 1 1))
      [⟨.P, (0, 0, 0), fun _ => 1⟩] 0 1 =
      fun v => if v = .fld .p then fun i => if i = (0, 0, 0) then 1 else 0 else 0 := by
    rw [run, step, run, exec_zero]
    funext v i
    cases v with
    | fld f =>
      by_cases hf : f = .p <;> by_cases hi : i = (0, 0, 0) <;>
        simp [applySource, acoustic2DSolver, Solver.srcFlds, src2Dacoustic, hf, hi, eq_comm]
    | _ => rfl
  have e2 : sample (acoustic2DSolver (surfaceDeriv 2 1 1 2 1 1) (unitMod 2 1 1) (noBC 2 1 1))
      [⟨.P, (0, 0, 0), fun _ => 1⟩] 0 ⟨.P, (1, 0, 0)⟩ 1 = 1 := by
    rw [sample, run, e1]
    simp only [step, gather, acoustic2DSolver, single, src2Dacoustic, Option.map_some, applySource]
    simp [acoustic2D, exec, Stmt.exec, State.set, cpmlHalf, cpmlFull, interp, damp, ifFS, selFS,
      noBC, unitMod, surfaceDeriv, regularDeriv, backwardMatrix_line, forwardMatrix_line,
      mulVec_x, mulVec_y, axisSize, U, UT, fwdStencilEntry, fd]
  rw [e2]
  exact one_ne_zero

end Verif.Solver
