import Verif.Lemmas.LocalitySolvers
import Verif.Lemmas.SolverShots
import Verif.Lemmas.StencilSums
import Verif.Model.RegularDeriv
import Mathlib.Algebra.BigOperators.Fin
/-!
# Cut-outs of regular grids

Distances are counted in half point spacings between staggered positions, along the axes added up.
-/
set_option linter.dupNamespace false
set_option linter.unusedSectionVars false

namespace Verif.Solver
open Matrix

variable {NX' NY' NZ' NX NY NZ : ℕ}

/-- Coordinate of a staggered position in half point spacings. -/
def coord (a : Axis) (i : Pt NX NY NZ) (π : Pos) : ℤ :=
  2 * (along a i : ℕ) + if π.half a then 1 else 0

/-- Distance of two staggered positions, the axes added up, in half point spacings. -/
def dist2 (i : Pt NX NY NZ) (π : Pos) (j : Pt NX NY NZ) (π' : Pos) : ℤ :=
  |coord .x i π - coord .x j π'| + |coord .y i π - coord .y j π'| + |coord .z i π - coord .z j π'|

theorem dist2_self (i : Pt NX NY NZ) (π : Pos) : dist2 i π i π = 0 := by simp [dist2]

theorem dist2_comm (i j : Pt NX NY NZ) (π π' : Pos) : dist2 i π j π' = dist2 j π' i π := by
  simp only [dist2, abs_sub_comm]

theorem dist2_triangle (i j l : Pt NX NY NZ) (π π' π'' : Pos) :
    dist2 i π l π'' ≤ dist2 i π j π' + dist2 j π' l π'' := by
  unfold dist2
  have := abs_sub_le (coord .x i π) (coord .x j π') (coord .x l π'')
  have := abs_sub_le (coord .y i π) (coord .y j π') (coord .y l π'')
  have := abs_sub_le (coord .z i π) (coord .z j π') (coord .z l π'')
  linarith

/-- A box of a regular grid: its first corner. -/
structure Cut (NX' NY' NZ' NX NY NZ : ℕ) where
  ox : ℕ
  oy : ℕ
  oz : ℕ
  hx : ox + NX' ≤ NX
  hy : oy + NY' ≤ NY
  hz : oz + NZ' ≤ NZ

/-- First corner of the box along an axis. -/
def Cut.off (C : Cut NX' NY' NZ' NX NY NZ) : Axis → ℕ
  | .x => C.ox
  | .y => C.oy
  | .z => C.oz

theorem Cut.le (C : Cut NX' NY' NZ' NX NY NZ) (a : Axis) :
    C.off a + axisSize NX' NY' NZ' a ≤ axisSize NX NY NZ a := by
  cases a
  exacts [C.hx, C.hy, C.hz]

/-- Index in the large grid. -/
def Cut.idx (C : Cut NX' NY' NZ' NX NY NZ) (a : Axis) (k : Fin (axisSize NX' NY' NZ' a)) :
    Fin (axisSize NX NY NZ a) := ⟨C.off a + k, by have := C.le a; omega⟩

/-- Point of the large grid. -/
def Cut.φ (C : Cut NX' NY' NZ' NX NY NZ) (i : Pt NX' NY' NZ') : Pt NX NY NZ :=
  (C.idx .x i.1, C.idx .y i.2.1, C.idx .z i.2.2)

theorem Cut.along_φ (C : Cut NX' NY' NZ' NX NY NZ) (a : Axis) (i : Pt NX' NY' NZ') :
    along a (C.φ i) = C.idx a (along a i) := by
  cases a <;> rfl

theorem Cut.φ_moveTo (C : Cut NX' NY' NZ' NX NY NZ) (a : Axis) (i : Pt NX' NY' NZ')
    (k : Fin (axisSize NX' NY' NZ' a)) : C.φ (moveTo a i k) = moveTo a (C.φ i) (C.idx a k) := by
  cases a <;> rfl

theorem Cut.φ_injective (C : Cut NX' NY' NZ' NX NY NZ) : Function.Injective C.φ := by
  intro i j h
  have key : ∀ a, (along a i : ℕ) = along a j := by
    intro a
    have : along a (C.φ i) = along a (C.φ j) := by rw [h]
    rw [C.along_φ, C.along_φ] at this
    simpa [Cut.idx, Fin.ext_iff] using this
  exact Prod.ext (Fin.ext (key .x)) (Prod.ext (Fin.ext (key .y)) (Fin.ext (key .z)))

/-- Position `π` of point `i` is at least `k` applications of a stencil of `s` points away from the
faces of the box that are not faces of the large grid, and from all positions outside `R`. -/
def Cut.In (C : Cut NX' NY' NZ' NX NY NZ) (s : ℤ) (R : Pt NX' NY' NZ' → Pos → Prop) (k : ℕ)
    (π : Pos) (i : Pt NX' NY' NZ') : Prop :=
  (∀ a, (C.off a = 0 ∨ k * (s - 1) ≤ coord a i π) ∧
    (C.off a + axisSize NX' NY' NZ' a = axisSize NX NY NZ a ∨
      coord a i π + k * (s - 1) ≤ 2 * axisSize NX' NY' NZ' a - 1)) ∧
  ∀ j π', dist2 i π j π' ≤ k * (s - 1) → R j π'

theorem Cut.In.mono {C : Cut NX' NY' NZ' NX NY NZ} {s : ℤ} (hs : 1 ≤ s)
    {R : Pt NX' NY' NZ' → Pos → Prop} {k : ℕ} {π : Pos} {i : Pt NX' NY' NZ'}
    (h : C.In s R (k + 1) π i) : C.In s R k π i := by
  have hk : (k : ℤ) * (s - 1) ≤ ((k + 1 : ℕ) : ℤ) * (s - 1) := by
    push_cast
    nlinarith
  refine ⟨fun a => ⟨(h.1 a).1.imp_right fun h => hk.trans h, (h.1 a).2.imp_right fun h => ?_⟩,
    fun j π' hd => h.2 j π' (hd.trans hk)⟩
  linarith

theorem Cut.In.sub {C : Cut NX' NY' NZ' NX NY NZ} {s : ℤ} (hs : 1 ≤ s)
    {R : Pt NX' NY' NZ' → Pos → Prop} {k : ℕ} {π : Pos} {i : Pt NX' NY' NZ'}
    (h : C.In s R k π i) : R i π := by
  refine h.2 i π ?_
  rw [dist2_self]
  exact mul_nonneg (by positivity) (by omega)

/-- The embedding of the box. -/
def Cut.emb (C : Cut NX' NY' NZ' NX NY NZ) (s : ℤ) (hs : 1 ≤ s)
    (R : Pt NX' NY' NZ' → Pos → Prop) : Emb (Pt NX' NY' NZ') (Pt NX NY NZ) where
  φ := C.φ
  R := fun i => ∃ π, R i π
  In := C.In s R
  sub := fun _ π _ h => ⟨π, h.sub hs⟩
  mono := fun _ _ _ h => h.mono hs

/-! ### Matrices that act along one axis -/

/-- A matrix that acts along one axis. -/
noncomputable def lineMatrix (a : Axis) (E : ℤ → ℤ → ℝ) : Matrix (Pt NX NY NZ) (Pt NX NY NZ) ℝ :=
  fun i j => if moveTo a i (along a j) = j then E (along a i : ℕ) (along a j : ℕ) else 0

theorem moveTo_along (a : Axis) (i : Pt NX NY NZ) (k : Fin (axisSize NX NY NZ a)) :
    along a (moveTo a i k) = k := by cases a <;> rfl

theorem moveTo_injective (a : Axis) (i : Pt NX NY NZ) : Function.Injective (moveTo a i) := by
  intro k l h
  rw [← moveTo_along a i k, h, moveTo_along]

theorem moveTo_symm {a : Axis} {i j : Pt NX NY NZ} :
    moveTo a i (along a j) = j ↔ moveTo a j (along a i) = i := by
  obtain ⟨i1, i2, i3⟩ := i
  obtain ⟨j1, j2, j3⟩ := j
  cases a <;> simp [moveTo, along, eq_comm]

theorem lineMatrix_mulVec (a : Axis) (E : ℤ → ℤ → ℝ) (v : Pt NX NY NZ → ℝ) (i : Pt NX NY NZ) :
    (lineMatrix a E).mulVec v i =
      ∑ k : Fin (axisSize NX NY NZ a), E (along a i : ℕ) (k : ℕ) * v (moveTo a i k) := by
  unfold Matrix.mulVec dotProduct
  symm
  refine Fintype.sum_of_injective (moveTo a i) (moveTo_injective a i) _ _ ?_ ?_
  · intro j hj
    have : moveTo a i (along a j) ≠ j := fun h => hj ⟨_, h⟩
    simp [lineMatrix, this]
  · intro k
    simp [lineMatrix, moveTo_along]

theorem coord_moveTo_self (a : Axis) (i : Pt NX NY NZ) (π : Pos) (k : Fin (axisSize NX NY NZ a)) :
    coord a (moveTo a i k) π = 2 * (k : ℕ) + if π.half a then 1 else 0 := by
  rw [coord, moveTo_along]

theorem coord_moveTo_toggle {a b : Axis} (h : b ≠ a) (i : Pt NX NY NZ) (π : Pos)
    (k : Fin (axisSize NX NY NZ a)) : coord b (moveTo a i k) (π.toggle a) = coord b i π := by
  cases a <;> cases b <;> first | rfl | exact absurd rfl h

theorem toggle_half (π : Pos) (a : Axis) : (π.toggle a).half a = !π.half a := by
  cases a <;> rfl

theorem dist2_moveTo (a : Axis) (i : Pt NX NY NZ) (π : Pos) (k : Fin (axisSize NX NY NZ a)) :
    dist2 i π (moveTo a i k) (π.toggle a) =
      |coord a i π - coord a (moveTo a i k) (π.toggle a)| := by
  have h := fun b (hb : b ≠ a) => coord_moveTo_toggle hb i π k
  unfold dist2
  cases a
  · rw [h .y (by decide), h .z (by decide)]; simp
  · rw [h .x (by decide), h .z (by decide)]; simp
  · rw [h .x (by decide), h .y (by decide)]; simp

/-- One application of a matrix along an axis stays inside. -/
theorem Cut.In.step {C : Cut NX' NY' NZ' NX NY NZ} {s : ℤ} (hs : 1 ≤ s)
    {R : Pt NX' NY' NZ' → Pos → Prop} {k : ℕ} {π : Pos} {i : Pt NX' NY' NZ'}
    (h : C.In s R (k + 1) π i) (a : Axis) (c : Fin (axisSize NX' NY' NZ' a))
    (hc : |coord a i π - coord a (moveTo a i c) (π.toggle a)| ≤ s - 1) :
    C.In s R k (π.toggle a) (moveTo a i c) := by
  have e : ((k + 1 : ℕ) : ℤ) * (s - 1) = k * (s - 1) + (s - 1) := by push_cast; ring
  refine ⟨fun b => ?_, fun j π' hd => h.2 j π' ?_⟩
  · by_cases hb : b = a
    · subst hb
      obtain ⟨h1, h2⟩ := h.1 b
      rw [e] at h1 h2
      rw [abs_le] at hc
      exact ⟨h1.imp_right fun h => by linarith [hc.2], h2.imp_right fun h => by linarith [hc.1]⟩
    · rw [coord_moveTo_toggle hb]
      exact (h.mono hs).1 b
  · have := dist2_triangle i (moveTo a i c) j π (π.toggle a) π'
    rw [dist2_moveTo] at this
    rw [e]
    linarith

/-- Matrices along an axis whose rows agree and are not longer than the stencil. -/
theorem lineLoc (C : Cut NX' NY' NZ' NX NY NZ) {s : ℤ} (hs : 1 ≤ s)
    (R : Pt NX' NY' NZ' → Pos → Prop) (a : Axis) (b : Bool) {E' E : ℤ → ℤ → ℝ}
    (hw : ∀ r c, E r c ≠ 0 → |2 * r + (if b then 1 else 0) - (2 * c + if b then 0 else 1)| ≤ s - 1)
    (hE : ∀ r c : ℕ, r < axisSize NX' NY' NZ' a → c < axisSize NX' NY' NZ' a →
      E' r c = E (C.off a + r) (C.off a + c)) :
    MatLoc (C.emb s hs R) a b (lineMatrix a E') (lineMatrix a E) := by
  intro π hb k v' v hv i hi
  change C.In s R (k + 1) π i at hi
  change _ = (lineMatrix a E).mulVec v (C.φ i)
  rw [lineMatrix_mulVec, lineMatrix_mulVec]
  have e : ((k + 1 : ℕ) : ℤ) * (s - 1) = k * (s - 1) + (s - 1) := by push_cast; ring
  have e0 : 0 ≤ (k : ℤ) * (s - 1) := mul_nonneg (by positivity) (by omega)
  refine Fintype.sum_of_injective (C.idx a) ?_ _ _ ?_ ?_
  · intro c d h
    simpa [Cut.idx, Fin.ext_iff] using h
  · intro c hc
    by_cases h0 : E (along a (C.φ i) : ℕ) (c : ℕ) = 0
    · rw [h0, zero_mul]
    · exfalso
      apply hc
      have h1 := hw _ _ h0
      rw [C.along_φ] at h1
      obtain ⟨h2, h3⟩ := hi.1 a
      rw [e] at h2 h3
      rw [coord, hb] at h2 h3
      have h4 := c.isLt
      simp only [Cut.idx] at h1
      rw [abs_le] at h1
      push_cast at h1
      have hlo : C.off a ≤ (c : ℕ) := by
        rcases h2 with h2 | h2
        · omega
        · cases b <;> simp at h1 h2 <;> omega
      have hhi : (c : ℕ) < C.off a + axisSize NX' NY' NZ' a := by
        rcases h3 with h3 | h3
        · omega
        · cases b <;> simp at h1 h3 <;> omega
      exact ⟨⟨c - C.off a, by omega⟩, Fin.ext (by simp only [Cut.idx]; omega)⟩
  · intro c
    have hx := hE (along a i : ℕ) (c : ℕ) (along a i).isLt c.isLt
    rw [hx, C.along_φ]
    simp only [Cut.idx]
    push_cast
    by_cases h0 : E ((C.off a : ℤ) + (along a i : ℕ)) (C.off a + (c : ℕ)) = 0
    · rw [h0, zero_mul, zero_mul]
    · congr 1
      have h1 := hw _ _ h0
      rw [hv (moveTo a i c) ?_]
      · change v (C.φ _) = _
        rw [C.φ_moveTo]
        rfl
      · refine hi.step hs a c ?_
        rw [coord_moveTo_self, toggle_half, coord, hb]
        refine le_of_eq_of_le ?_ h1
        congr 1
        cases b <;> simp <;> ring

/-! ### The matrices of a regular grid -/

theorem forwardMatrix_line (s : ℤ) (DT DH : ℝ) (a : Axis) :
    (forwardMatrix s DT DH a : Matrix (Pt NX NY NZ) (Pt NX NY NZ) ℝ) =
      lineMatrix a fun r c =>
        DT / DH * (Verif.Stencil.fwdStencilEntry (axisSize NX NY NZ a) s r c : ℝ) := rfl

theorem backwardMatrix_line (s : ℤ) (DT DH : ℝ) (a : Axis) :
    (backwardMatrix s DT DH a : Matrix (Pt NX NY NZ) (Pt NX NY NZ) ℝ) =
      lineMatrix a fun r c =>
        -(DT / DH * (Verif.Stencil.fwdStencilEntry (axisSize NX NY NZ a) s c r : ℝ)) := by
  refine Matrix.ext fun i j => ?_
  simp only [backwardMatrix, forwardMatrix, lineMatrix, Matrix.neg_apply, Matrix.transpose_apply]
  by_cases h : moveTo a i (along a j) = j
  · rw [if_pos h, if_pos (moveTo_symm.mp h)]
  · rw [if_neg h, if_neg fun h' => h (moveTo_symm.mpr h'), neg_zero]

open Verif.Stencil in
theorem fwdEntry_window {N s r c : ℤ} (hs : ValidOrder s) (h : fwdStencilEntry N s r c ≠ 0) :
    1 - s / 2 ≤ c - r ∧ c - r ≤ s / 2 := by
  obtain ⟨cs, hcs, hl⟩ := fd_length hs
  obtain ⟨hev, h2, h12⟩ := hs.even
  unfold fwdStencilEntry at h
  split at h
  · rename_i hr
    refine ⟨by omega, ?_⟩
    by_contra hn
    apply h
    rw [hcs, Option.getD_some, List.getElem?_eq_none (by omega), Option.getD_none]
  · exact absurd rfl h

open Verif.Stencil in
theorem fwdEntry_shift {N N' s o : ℤ} (ho : 0 ≤ o) (hN : o + N' ≤ N) {r c : ℤ} (hr : 0 ≤ r)
    (hr' : r < N') (hc : 0 ≤ c) (hc' : c < N') :
    fwdStencilEntry N' s r c = fwdStencilEntry N s (o + r) (o + c) := by
  unfold fwdStencilEntry
  rw [show o + c - (o + r) + s / 2 - 1 = c - r + s / 2 - 1 by ring]
  by_cases h : 0 ≤ c - r + s / 2 - 1
  · rw [if_pos ⟨hr, hr', hc, hc', h⟩,
      if_pos ⟨by omega, by omega, by omega, by omega, h⟩]
  · rw [if_neg fun h' => h h'.2.2.2.2, if_neg fun h' => h h'.2.2.2.2]

theorem forwardLoc (C : Cut NX' NY' NZ' NX NY NZ) {s : ℤ} (hv : Verif.Stencil.ValidOrder s)
    (hs : 1 ≤ s) (R : Pt NX' NY' NZ' → Pos → Prop) (DT DH : ℝ) (a : Axis) :
    MatLoc (C.emb s hs R) a true (forwardMatrix s DT DH a) (forwardMatrix s DT DH a) := by
  rw [forwardMatrix_line, forwardMatrix_line]
  obtain ⟨hev, h2, h12⟩ := hv.even
  refine lineLoc C hs R a true (fun r c h => ?_) fun r c hr hc => ?_
  · have := fwdEntry_window hv (fun h0 => h (by rw [h0]; simp))
    rw [abs_le]
    simp only [if_true]
    omega
  · have := C.le a
    rw [fwdEntry_shift (N := axisSize NX NY NZ a) (o := C.off a)] <;> omega

theorem backwardLoc (C : Cut NX' NY' NZ' NX NY NZ) {s : ℤ} (hv : Verif.Stencil.ValidOrder s)
    (hs : 1 ≤ s) (R : Pt NX' NY' NZ' → Pos → Prop) (DT DH : ℝ) (a : Axis) :
    MatLoc (C.emb s hs R) a false (backwardMatrix s DT DH a) (backwardMatrix s DT DH a) := by
  rw [backwardMatrix_line, backwardMatrix_line]
  obtain ⟨hev, h2, h12⟩ := hv.even
  refine lineLoc C hs R a false (fun r c h => ?_) fun r c hr hc => ?_
  · have := fwdEntry_window hv (fun h0 => h (by rw [h0]; simp))
    rw [abs_le]
    simp only [Bool.false_eq_true, if_false]
    omega
  · have := C.le a
    rw [fwdEntry_shift (N := axisSize NX NY NZ a) (o := C.off a)] <;> omega

/-! ### The matrices of the free surface -/

section rows
open Verif.Stencil

theorem entry_eq_apply (row : List (ℤ × ℚ)) (c : ℤ) :
    entry row c = apply 1 row fun Y => if Y = c then 1 else 0 := by
  unfold entry apply
  induction row with
  | nil => rfl
  | cons e row ih =>
    rw [List.filter_cons, List.map_cons, List.sum_cons, ← ih]
    by_cases h : e.1 = c <;> simp [h]

/-- Entries of a row of a free surface matrix, without the lower end of the grid. -/
def rowSum (cs : List ℚ) (Y : ℕ → ℤ) (kI : ℤ) (c : ℤ) : ℚ :=
  ∑ j ∈ Finset.range cs.length, if Y j = c then
    coef cs j - (if (j : ℤ) ≤ kI then coef cs (kI.toNat - j) else 0) else 0

theorem rowSum_ne {cs : List ℚ} {Y : ℕ → ℤ} {kI c : ℤ} (h : rowSum cs Y kI c ≠ 0) :
    ∃ j < cs.length, Y j = c := by
  by_contra hn
  push Not at hn
  exact h (Finset.sum_eq_zero fun j hj => if_neg (hn j (by simpa using hj)))

theorem surfaceEntry_fwd {s : ℤ} {cs : List ℚ} (hv : ValidOrder s) (hcs : fd s = some cs)
    (hl : (cs.length : ℤ) = s) {NY y c : ℤ} (hy : 0 ≤ y) (hc : 0 ≤ c) (hN : c < NY) :
    surfaceEntry (fwdFreeSurfaceRow NY 1 y s) c =
      rowSum cs (fun j => y + ((j : ℤ) - s / 2 + 1)) (s - 2 - 2 * y) c := by
  obtain ⟨hev, h2, h12⟩ := hv.even
  have t1 : s.tdiv 2 = s / 2 := Int.tdiv_eq_ediv_of_nonneg (by omega)
  obtain ⟨row, h1, h3⟩ := foldr_rows hcs (fun j => y + ((j : ℤ) - s / 2 + 1)) NY
    (s - 2 - 2 * y) (by omega)
    (fun (j : Nat) rest => do
      let Y := y + 1 * ((j : Int) - s.tdiv 2 + 1)
      let c ← fdAt s j
      let diff ← (if s ≥ 2 + (2 * y).tdiv 1 + j then
        fdAt s (s - 2 - (2 * y).tdiv 1 - j) else pure 0 : Out ℚ)
      let r ← rest
      pure (if 0 ≤ Y ∧ Y < NY then (Y, c - diff) :: r else r))
    (by
      intro j rest
      simp only [t1, Int.tdiv_one, one_mul]
      have e : (s ≥ 2 + 2 * y + j) ↔ ((j : Int) ≤ s - 2 - 2 * y) := by omega
      simp only [e])
    (List.range s.toNat) (by intro j hj; simp at hj; omega)
  rw [fwdFreeSurfaceRow, h1]
  simp only [surfaceEntry]
  rw [entry_eq_apply, h3, range_sum, rowSum, show s.toNat = cs.length by omega]
  refine Finset.sum_congr rfl fun j _ => ?_
  by_cases h : y + ((j : ℤ) - s / 2 + 1) = c
  · simp only [h, if_true, div_one, mul_one]
    rw [if_pos ⟨hc, hN⟩]
  · simp [h]

theorem surfaceEntry_bwd {s : ℤ} {cs : List ℚ} (hv : ValidOrder s) (hcs : fd s = some cs)
    (hl : (cs.length : ℤ) = s) {NY y c : ℤ} (hy : 0 ≤ y) (hc : 0 ≤ c) (hN : c < NY) :
    surfaceEntry (bwdFreeSurfaceRow NY 1 y s) c =
      rowSum cs (fun j => y + ((j : ℤ) - s / 2)) (s - 1 - 2 * y) c := by
  obtain ⟨hev, h2, h12⟩ := hv.even
  have t1 : s.tdiv 2 = s / 2 := Int.tdiv_eq_ediv_of_nonneg (by omega)
  obtain ⟨row, h1, h3⟩ := foldr_rows hcs (fun j => y + ((j : ℤ) - s / 2)) NY
    (s - 1 - 2 * y) (by omega)
    (fun (j : Nat) rest => do
      let Y := y + 1 * ((j : Int) - s.tdiv 2)
      let c ← fdAt s j
      let diff ← (if s ≥ 1 + (2 * y).tdiv 1 + j then
        fdAt s (s - 1 - (2 * y).tdiv 1 - j) else pure 0 : Out ℚ)
      let r ← rest
      pure (if 0 ≤ Y ∧ Y < NY then (Y, c - diff) :: r else r))
    (by
      intro j rest
      simp only [t1, Int.tdiv_one, one_mul]
      have e : (s ≥ 1 + 2 * y + j) ↔ ((j : Int) ≤ s - 1 - 2 * y) := by omega
      simp only [e])
    (List.range s.toNat) (by intro j hj; simp at hj; omega)
  rw [bwdFreeSurfaceRow, h1]
  simp only [surfaceEntry]
  rw [entry_eq_apply, h3, range_sum, rowSum, show s.toNat = cs.length by omega]
  refine Finset.sum_congr rfl fun j _ => ?_
  by_cases h : y + ((j : ℤ) - s / 2) = c
  · simp only [h, if_true, div_one, mul_one]
    rw [if_pos ⟨hc, hN⟩]
  · simp [h]

end rows

theorem lineMatrix_congr (a : Axis) {E' E : ℤ → ℤ → ℝ}
    (h : ∀ r c : ℕ, r < axisSize NX NY NZ a → c < axisSize NX NY NZ a → E' r c = E r c) :
    (lineMatrix a E' : Matrix (Pt NX NY NZ) (Pt NX NY NZ) ℝ) = lineMatrix a E := by
  refine Matrix.ext fun i j => ?_
  simp only [lineMatrix]
  rw [h _ _ (along a i).isLt (along a j).isLt]

open Verif.Stencil in
theorem surfaceForwardLoc (C : Cut NX' NY' NZ' NX NY NZ) {s : ℤ} (hv : ValidOrder s)
    (hs : 1 ≤ s) (R : Pt NX' NY' NZ' → Pos → Prop) (DT DH : ℝ) (ho : C.oy = 0) :
    MatLoc (C.emb s hs R) .y true (surfaceForward s DT DH) (surfaceForward s DT DH) := by
  obtain ⟨hev, h2, h12⟩ := hv.even
  obtain ⟨cs, hcs, hl⟩ := fd_length hv
  have key : ∀ NX NY NZ : ℕ,
      (surfaceForward s DT DH : Matrix (Pt NX NY NZ) (Pt NX NY NZ) ℝ) =
        lineMatrix .y fun r c => DT / DH *
          (rowSum cs (fun j => r + ((j : ℤ) - s / 2 + 1)) (s - 2 - 2 * r) c : ℝ) := by
    intro NX NY NZ
    refine (show _ = lineMatrix .y _ from rfl).trans (lineMatrix_congr .y (E' := fun r c =>
      DT / DH * (surfaceEntry (fwdFreeSurfaceRow NY 1 r s) c : ℝ)) fun r c hr hc => ?_)
    have hc' : c < NY := hc
    rw [surfaceEntry_fwd hv hcs hl] <;> omega
  rw [key, key]
  refine lineLoc C hs R .y true (fun r c h => ?_) fun r c hr hc => ?_
  · obtain ⟨j, hj, hY⟩ := rowSum_ne (fun h0 => h (by rw [h0]; simp))
    rw [abs_le]
    simp only [if_true]
    omega
  · simp [Cut.off, ho]

open Verif.Stencil in
theorem surfaceBackwardLoc (C : Cut NX' NY' NZ' NX NY NZ) {s : ℤ} (hv : ValidOrder s)
    (hs : 1 ≤ s) (R : Pt NX' NY' NZ' → Pos → Prop) (DT DH : ℝ) (ho : C.oy = 0) :
    MatLoc (C.emb s hs R) .y false (surfaceBackward s DT DH) (surfaceBackward s DT DH) := by
  obtain ⟨hev, h2, h12⟩ := hv.even
  obtain ⟨cs, hcs, hl⟩ := fd_length hv
  have key : ∀ NX NY NZ : ℕ,
      (surfaceBackward s DT DH : Matrix (Pt NX NY NZ) (Pt NX NY NZ) ℝ) =
        lineMatrix .y fun r c => DT / DH *
          (rowSum cs (fun j => r + ((j : ℤ) - s / 2)) (s - 1 - 2 * r) c : ℝ) := by
    intro NX NY NZ
    refine (show _ = lineMatrix .y _ from rfl).trans (lineMatrix_congr .y (E' := fun r c =>
      DT / DH * (surfaceEntry (bwdFreeSurfaceRow NY 1 r s) c : ℝ)) fun r c hr hc => ?_)
    have hc' : c < NY := hc
    rw [surfaceEntry_bwd hv hcs hl] <;> omega
  rw [key, key]
  refine lineLoc C hs R .y false (fun r c h => ?_) fun r c hr hc => ?_
  · obtain ⟨j, hj, hY⟩ := rowSum_ne (fun h0 => h (by rw [h0]; simp))
    rw [abs_le]
    simp only [Bool.false_eq_true, if_false]
    omega
  · simp [Cut.off, ho]

theorem surfaceDeriv_loc (C : Cut NX' NY' NZ' NX NY NZ) {s : ℤ} (hv : Verif.Stencil.ValidOrder s)
    (hs : 1 ≤ s) (R : Pt NX' NY' NZ' → Pos → Prop) (DT DH : ℝ) {fs : ℕ} (ho : fs = 1 → C.oy = 0) :
    Deriv.Loc (C.emb s hs R) fs (surfaceDeriv NX' NY' NZ' s DT DH)
      (surfaceDeriv NX NY NZ s DT DH) where
  Dxf := forwardLoc C hv hs R DT DH .x
  Dxb := backwardLoc C hv hs R DT DH .x
  Dyf := forwardLoc C hv hs R DT DH .y
  Dyb := backwardLoc C hv hs R DT DH .y
  Dzf := forwardLoc C hv hs R DT DH .z
  Dzb := backwardLoc C hv hs R DT DH .z
  DyfFS := fun h => surfaceForwardLoc C hv hs R DT DH (ho h)
  DybFS := fun h => surfaceBackwardLoc C hv hs R DT DH (ho h)
  DyfSX := forwardLoc C hv hs R DT DH .y
  DybSX := backwardLoc C hv hs R DT DH .y
  DyfSZ := forwardLoc C hv hs R DT DH .y
  DybSZ := backwardLoc C hv hs R DT DH .y
  DybSXFS := fun h => surfaceBackwardLoc C hv hs R DT DH (ho h)
  DybSZFS := fun h => surfaceBackwardLoc C hv hs R DT DH (ho h)
  inter' := ⟨rfl, rfl, rfl, rfl⟩
  inter := ⟨rfl, rfl, rfl, rfl⟩

/-! ### Pairs of solvers -/

section pairs
variable {ι ι' : Type} [Fintype ι] [Fintype ι']

theorem pair_isSolver {φ : ι' → ι} {R : ι' → Prop} {D' : Deriv ι'} {D : Deriv ι} {c' : BC ι'}
    {c : BC ι} {S' : Solver ι'} {S : Solver ι} (h : Pair φ R D' D c' c S' S) :
    IsSolver D' c' S' ∧ IsSolver D c S := by
  cases h with
  | acoustic2D => exact ⟨.acoustic2D _, .acoustic2D _⟩
  | acoustic3D => exact ⟨.acoustic3D _, .acoustic3D _⟩
  | elastic2D => exact ⟨.elastic2D _, .elastic2D _⟩
  | elastic3D => exact ⟨.elastic3D _, .elastic3D _⟩
  | sh2D => exact ⟨.sh2D _, .sh2D _⟩
  | viscosh2D => exact ⟨.viscosh2D _, .viscosh2D _⟩
  | viscoelastic2D => exact ⟨.viscoelastic2D _, .viscoelastic2D _⟩
  | viscoelastic3D => exact ⟨.viscoelastic3D _, .viscoelastic3D _⟩
  | emem2D => exact ⟨.emem2D _, .emem2D _⟩
  | tmem2D => exact ⟨.tmem2D _, .tmem2D _⟩
  | viscoemem2D => exact ⟨.viscoemem2D _, .viscoemem2D _⟩
  | viscotmem2D => exact ⟨.viscotmem2D _, .viscotmem2D _⟩
  | emem3D => exact ⟨.emem3D _, .emem3D _⟩
  | viscoemem3D => exact ⟨.viscoemem3D _, .viscoemem3D _⟩

theorem pair_same {φ : ι' → ι} {R : ι' → Prop} {D' : Deriv ι'} {D : Deriv ι} {c' : BC ι'}
    {c : BC ι} {S' : Solver ι'} {S : Solver ι} (h : Pair φ R D' D c' c S' S) :
    S'.src = S.src ∧ S'.recv = S.recv ∧ S'.fields = S.fields ∧ S'.memory = S.memory := by
  cases h with
  | acoustic2D => exact ⟨rfl, rfl, rfl, rfl⟩
  | acoustic3D => exact ⟨rfl, rfl, rfl, rfl⟩
  | elastic2D => exact ⟨rfl, rfl, rfl, rfl⟩
  | elastic3D => exact ⟨rfl, rfl, rfl, rfl⟩
  | sh2D => exact ⟨rfl, rfl, rfl, rfl⟩
  | viscosh2D h => exact ⟨rfl, rfl, by simp only [viscosh2DSolver, h.L], rfl⟩
  | viscoelastic2D h => exact ⟨rfl, rfl, by simp only [viscoelastic2DSolver, h.L], rfl⟩
  | viscoelastic3D h => exact ⟨rfl, rfl, by simp only [viscoelastic3DSolver, h.L], rfl⟩
  | emem2D => exact ⟨rfl, rfl, rfl, rfl⟩
  | tmem2D => exact ⟨rfl, rfl, rfl, rfl⟩
  | viscoemem2D h => exact ⟨rfl, rfl, by simp only [viscoemem2DSolver, h.L], rfl⟩
  | viscotmem2D h => exact ⟨rfl, rfl, by simp only [viscotmem2DSolver, h.L], rfl⟩
  | emem3D => exact ⟨rfl, rfl, rfl, rfl⟩
  | viscoemem3D h => exact ⟨rfl, rfl, by simp only [viscoemem3DSolver, h.L], rfl⟩

theorem Mod.same_self (R : ι → Prop) (m : Mod ι) : Mod.Same id R m m := by
  constructor <;> first | rfl | exact fun _ _ => rfl

theorem EMod.same_self (R : ι → Prop) (m : EMod ι) : EMod.Same id R m m := by
  constructor <;> first | rfl | exact fun _ _ => rfl | exact fun _ _ _ => rfl

theorem BC.same_self (R : ι → Prop) (c : BC ι) : BC.Same id R c c where
  useFreeSurface := rfl
  damping := fun _ _ => rfl
  pml := by
    rcases c.pml with _ | q
    · trivial
    · constructor <;> exact fun _ _ _ => rfl
  onSurface := fun _ _ => rfl

theorem pair_self (R : ι → Prop) {D : Deriv ι} {c : BC ι} {S : Solver ι} (h : IsSolver D c S) :
    Pair id R D D c c S S := by
  cases h with
  | acoustic2D m => exact .acoustic2D (Mod.same_self R m)
  | acoustic3D m => exact .acoustic3D (Mod.same_self R m)
  | elastic2D m => exact .elastic2D (Mod.same_self R m)
  | elastic3D m => exact .elastic3D (Mod.same_self R m)
  | sh2D m => exact .sh2D (Mod.same_self R m)
  | viscosh2D m => exact .viscosh2D (Mod.same_self R m)
  | viscoelastic2D m => exact .viscoelastic2D (Mod.same_self R m)
  | viscoelastic3D m => exact .viscoelastic3D (Mod.same_self R m)
  | emem2D m => exact .emem2D (EMod.same_self R m)
  | tmem2D m => exact .tmem2D (EMod.same_self R m)
  | viscoemem2D m => exact .viscoemem2D (EMod.same_self R m)
  | viscotmem2D m => exact .viscotmem2D (EMod.same_self R m)
  | emem3D m => exact .emem3D (EMod.same_self R m)
  | viscoemem3D m => exact .viscoemem3D (EMod.same_self R m)

variable [DecidableEq ι] [DecidableEq ι']

/-- What the sources add to a wavefield at a point in time step `t`. -/
noncomputable def injected (S : Solver ι) (srcs : List (Source ι)) (t : ℕ) (f : Fld) (i : ι) : ℝ :=
  (srcs.map fun q => if f ∈ S.srcFlds q.ty ∧ q.pos = i then q.signal t else 0).sum

theorem applySource_loc {F : Emb ι' ι} {k t : ℕ} {S' : Solver ι'} {S : Solver ι}
    {srcs' : List (Source ι')} {srcs : List (Source ι)} {s' : State ι'} {s : State ι}
    (hq : ∀ f i, F.In k (fldPos f) i → injected S' srcs' t f i = injected S srcs t f (F.φ i))
    (h : AgreeOn F k s' s) :
    AgreeOn F k (applySource S' srcs' t s') (applySource S srcs t s) := by
  intro v hv i hi
  cases v with
  | fld f =>
    have h1 := h _ hv i hi
    have h2 := hq f i hi
    simp only [applySource, h1]
    congr 1
  | rel f l => exact h _ hv i hi
  | psi f a => exact h _ hv i hi
  | scr s => exact h _ hv i hi

theorem run_loc {F : Emb ι' ι} {S' : Solver ι'} {S : Solver ι} {srcs' : List (Source ι')}
    {srcs : List (Source ι)} (hp : StepLoc F S'.prog S.prog) {s' : State ι'} {s : State ι}
    (hq : ∀ k t f i, F.In k (fldPos f) i → injected S' srcs' t f i = injected S srcs t f (F.φ i))
    {m k : ℕ} (h : AgreeOn F k (run S' srcs' s' m) (run S srcs s m)) (n : ℕ) :
    AgreeOn F (k + 2 * n) (run S' srcs' s' (m + n)) (run S srcs s (m + n)) := by
  induction n with
  | zero => exact h
  | succ n ih =>
    rw [show k + 2 * (n + 1) = k + 2 * n + 2 by ring]
    exact applySource_loc (fun f i hi => hq _ _ f i hi) (hp _ _ _ ih)

theorem exec_zero (p : List (Stmt ι)) : exec p (0 : State ι) = 0 := by
  have := exec_lin p 0 0 (0 : State ι) 0
  simpa using this

theorem run_zero {S : Solver ι} {srcs : List (Source ι)} {n : ℕ}
    (h : ∀ t < n, ∀ f i, injected S srcs t f i = 0) : run S srcs 0 n = 0 := by
  induction n with
  | zero => rfl
  | succ n ih =>
    rw [run, step, ih fun t ht => h t (by omega), exec_zero]
    funext v i
    cases v with
    | fld f =>
      have := h n (by omega) f i
      simp only [applySource]
      exact (zero_add _).trans this
    | _ => rfl

theorem agreeOn_zero (F : Emb ι' ι) (k : ℕ) : AgreeOn F k (0 : State ι') (0 : State ι) :=
  fun _ _ _ _ => rfl

/-- The first time step adds the sources to zero wavefields. -/
theorem first_loc {F : Emb ι' ι} {S' : Solver ι'} {S : Solver ι} {srcs' : List (Source ι')}
    {srcs : List (Source ι)} {s' : State ι'} {s : State ι} {n k : ℕ}
    (hq : ∀ f i, F.In k (fldPos f) i → injected S' srcs' n f i = injected S srcs n f (F.φ i))
    (h' : run S' srcs' s' n = 0) (h : run S srcs s n = 0) :
    AgreeOn F k (run S' srcs' s' (n + 1)) (run S srcs s (n + 1)) := by
  rw [run, run, step, step, h', h, exec_zero, exec_zero]
  exact applySource_loc hq (agreeOn_zero F k)

end pairs

/-! ### Domain of dependence -/

/-- The whole grid as a box of itself. -/
def Cut.whole (NX NY NZ : ℕ) : Cut NX NY NZ NX NY NZ := ⟨0, 0, 0, by omega, by omega, by omega⟩

theorem Cut.whole_φ : (Cut.whole NX NY NZ).φ = id := by
  funext i
  refine Prod.ext (Fin.ext ?_) (Prod.ext (Fin.ext ?_) (Fin.ext ?_)) <;>
    simp [Cut.φ, Cut.whole, Cut.idx, Cut.off]

/-- Without source signals before time step `n0`, nothing arrives within `n` further time steps at
positions that are far from all sources. -/
theorem run_far {s : ℤ} (hv : Verif.Stencil.ValidOrder s) {DT DH : ℝ} {c : BC (Pt NX NY NZ)}
    {S : Solver (Pt NX NY NZ)} (h : IsSolver (surfaceDeriv NX NY NZ s DT DH) c S)
    {srcs : List (Source (Pt NX NY NZ))} {n0 n : ℕ}
    (h0 : ∀ t < n0, ∀ q ∈ srcs, q.signal t = 0) {v : Var} (hw : v.isScr = false)
    {i : Pt NX NY NZ}
    (hfar : ∀ q ∈ srcs, ∀ f ∈ S.srcFlds q.ty,
      2 * n * (s - 1) < dist2 i (varPos v) q.pos (fldPos f)) :
    run S srcs 0 (n0 + n + 1) v i = 0 := by
  have hs : 1 ≤ s := by obtain ⟨_, h2, _⟩ := hv.even; omega
  let R : Pt NX NY NZ → Pos → Prop := fun j π =>
    ∀ q ∈ srcs, ∀ f ∈ S.srcFlds q.ty, ¬ (q.pos = j ∧ fldPos f = π)
  let F := (Cut.whole NX NY NZ).emb s hs R
  have hφ : F.φ = id := Cut.whole_φ
  have hp : StepLoc F S.prog S.prog := by
    refine pair_step (surfaceDeriv_loc (Cut.whole NX NY NZ) hv hs R DT DH fun _ => rfl)
      (c := c) (c' := c) ?_ ?_
    · rw [hφ]; exact BC.same_self _ c
    · rw [hφ]; exact pair_self _ h
  have hq : ∀ k t f j, F.In k (fldPos f) j →
      injected S srcs t f j = injected S [] t f (F.φ j) := by
    intro k t f j hj
    have hR : R j (fldPos f) := Cut.In.sub hs hj
    rw [show injected S ([] : List (Source (Pt NX NY NZ))) t f (F.φ j) = 0 from rfl]
    refine List.sum_eq_zero fun z hz => ?_
    obtain ⟨q, hq, rfl⟩ := List.mem_map.mp hz
    exact if_neg fun h' => hR q hq f h'.1 ⟨h'.2, rfl⟩
  have z1 : run S srcs 0 n0 = 0 := run_zero fun t ht f j => by
    refine List.sum_eq_zero fun z hz => ?_
    obtain ⟨q, hq, rfl⟩ := List.mem_map.mp hz
    rw [h0 t ht q hq, ite_self]
  have z2 : ∀ m, run S ([] : List (Source (Pt NX NY NZ))) 0 m = 0 := fun m =>
    run_zero fun _ _ _ _ => rfl
  have h1 : AgreeOn F 0 (run S srcs 0 (n0 + 1)) (run S [] 0 (n0 + 1)) :=
    first_loc (fun f j hj => hq 0 _ f j hj) z1 (z2 _)
  have h2 := run_loc hp hq h1 n v hw i ?_
  · rw [z2] at h2
    rw [show n0 + n + 1 = n0 + 1 + n by ring]
    exact h2
  · refine ⟨fun a => ⟨.inl (by cases a <;> rfl), .inl (by cases a <;> exact Nat.zero_add _)⟩,
      fun j π' hd q hq f hf hj => ?_⟩
    · have := hfar q hq f hf
      rw [hj.1, hj.2] at this
      push_cast at hd
      simp only [zero_add] at hd
      linarith

end Verif.Solver
