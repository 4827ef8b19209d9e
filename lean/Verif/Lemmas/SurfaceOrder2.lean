import Verif.Lemmas.RecipSurface
import Verif.Lemmas.MaxwellLaws
import Verif.Lemmas.LocalityGrid
/-! The matrices of the free surface for spatial order 2. -/
set_option linter.dupNamespace false
set_option linter.constructorNameAsVariable false

namespace Verif.Solver
open Matrix

variable {NX NY NZ : ℕ}

/-! ### The matrices of order 2 -/

open Verif.Stencil in
private theorem entry2 {N r c : ℤ} (hr : 0 ≤ r) (hrN : r < N) (hc : 0 ≤ c) (hcN : c < N) :
    fwdStencilEntry N 2 r c = if c = r then -1 else if c = r + 1 then 1 else 0 := by
  unfold fwdStencilEntry
  by_cases h : 0 ≤ c - r
  · rw [if_pos (by omega)]
    rcases (show c = r ∨ c = r + 1 ∨ 2 ≤ c - r by omega) with h | h | h
    · subst h
      simp [fd]
    · subst h
      simp [fd]
    · have e : ∃ k : ℕ, (c - r + 2 / 2 - 1).toNat = k + 2 := ⟨(c - r - 2).toNat, by omega⟩
      obtain ⟨k, hk⟩ := e
      rw [hk, if_neg (by omega), if_neg (by omega)]
      simp [fd]
  · rw [if_neg (by omega), if_neg (by omega), if_neg (by omega)]

open Verif.Stencil in
theorem surface_fwd2 {N r c : ℤ} (hr : 0 ≤ r) (hrN : r < N) (hc : 0 ≤ c) (hcN : c < N) :
    surfaceEntry (fwdFreeSurfaceRow N 1 r 2) c = fwdStencilEntry N 2 r c * (if c = 0 then 0 else 1) := by
  rw [surfaceEntry_fwd (cs := [-1, 1]) (by simp [ValidOrder]) (by simp [fd]) (by simp) hr hc hcN,
    entry2 hr hrN hc hcN]
  simp only [rowSum, List.length_cons, List.length_nil, Finset.sum_range_succ, Finset.sum_range_zero]
  rcases (show r = 0 ∨ 1 ≤ r by omega) with h0 | h0
  · subst h0
    rcases (show c = 0 ∨ c = 1 ∨ 2 ≤ c by omega) with h | h | h
    · subst h
      simp [coef]
    · subst h
      simp [coef]
    · have e1 : c ≠ 0 := by omega
      have e2 : c ≠ 1 := by omega
      simp [Ne.symm e1, Ne.symm e2, e1, e2]
  · have k0 : ¬(2 * r ≤ 0) := by omega
    have k1 : ¬(1 + 2 * r ≤ 0) := by omega
    rcases (show c = r ∨ c = r + 1 ∨ (c ≠ r ∧ c ≠ r + 1) by omega) with h | h | ⟨e1, e2⟩
    · subst h
      have : c ≠ 0 := by omega
      simp [coef, this]
      omega
    · subst h
      have : r + 1 ≠ 0 := by omega
      simp [coef, this]
      omega
    · simp [Ne.symm e1, Ne.symm e2, e1, e2]

open Verif.Stencil in
theorem surface_bwd2 {N r c : ℤ} (hr : 0 ≤ r) (hrN : r < N) (hc : 0 ≤ c) (hcN : c < N) :
    surfaceEntry (bwdFreeSurfaceRow N 1 r 2) c = (if r = 0 then 2 else 1) * -fwdStencilEntry N 2 c r := by
  rw [surfaceEntry_bwd (cs := [-1, 1]) (by simp [ValidOrder]) (by simp [fd]) (by simp) hr hc hcN,
    entry2 hc hcN hr hrN]
  simp only [rowSum, List.length_cons, List.length_nil, Finset.sum_range_succ, Finset.sum_range_zero]
  rcases (show r = 0 ∨ 1 ≤ r by omega) with h0 | h0
  · subst h0
    have e3 : ¬ (-1 = c) := by omega
    have e4 : ¬ (0 = c + 1) := by omega
    rcases (show c = 0 ∨ c ≠ 0 by omega) with h | h
    · subst h
      simp [coef]
      norm_num
    · simp [e3, e4, Ne.symm h]
  · have n0 : r ≠ 0 := by omega
    rcases (show c = r ∨ c = r - 1 ∨ (c ≠ r ∧ c ≠ r - 1) by omega) with h | h | ⟨e1, e2⟩
    · subst h
      simp [coef, n0]
      omega
    · subst h
      have e : ¬ (2 * r ≤ 1) := by omega
      have e' : r ≠ r - 1 := by omega
      simp [coef, n0, e, e', ← sub_eq_add_neg]
    · have e3 : ¬ (r + -1 = c) := by omega
      have e4 : ¬ (r = c + 1) := by omega
      simp [e3, e4, Ne.symm e1]

/-- The matrices of the free surface of order 2 are the plain ones with the surface row scaled. -/
theorem surfaceDeriv_surfaced {DT DH : ℝ} {c : BC (Pt NX NY NZ)}
    (hs : ∀ i : Pt NX NY NZ, c.onSurface i = decide ((i.2.1 : ℕ) = 0)) :
    (surfaceDeriv NX NY NZ 2 DT DH).Surfaced c := by
  have b : (surfaceDeriv NX NY NZ 2 DT DH).DybFS = c.double (surfaceDeriv NX NY NZ 2 DT DH).Dyb := by
    ext i j
    show surfaceBackward 2 DT DH i j = (diagonal c.dbl * backwardMatrix 2 DT DH .y : Matrix _ _ ℝ) i j
    rw [diagonal_mul]
    unfold surfaceBackward backwardMatrix BC.dbl
    rw [neg_apply, transpose_apply]
    unfold forwardMatrix
    obtain ⟨i1, i2, i3⟩ := i
    obtain ⟨j1, j2, j3⟩ := j
    simp only [moveTo, along, axisSize, Prod.mk.injEq, true_and, hs]
    by_cases h : i1 = j1 ∧ i3 = j3
    · have h' : j1 = i1 ∧ j3 = i3 := ⟨h.1.symm, h.2.symm⟩
      rw [if_pos h, if_pos h', surface_bwd2 (by positivity) (by exact_mod_cast i2.2)
        (by positivity) (by exact_mod_cast j2.2)]
      by_cases h0 : (i2 : ℕ) = 0
      · simp [h0]
        ring
      · simp [h0]
    · have h' : ¬ (j1 = i1 ∧ j3 = i3) := fun q => h ⟨q.1.symm, q.2.symm⟩
      rw [if_neg h, if_neg h']
      simp
  have ax : ∀ a, a ≠ Axis.y → ∀ i j : Pt NX NY NZ, forwardMatrix 2 DT DH a i j ≠ 0 →
      c.onSurface i = c.onSurface j := by
    intro a ha i j hij
    have e : moveTo a i (along a j) = j := by
      by_contra hn
      exact hij (if_neg hn)
    rw [hs, hs, ← e]
    cases a
    · rfl
    · exact absurd rfl ha
    · rfl
  refine ⟨surfaceDeriv_regular, ?_, b, b, b, ax .x (by simp), ax .z (by simp)⟩
  ext i j
  show surfaceForward 2 DT DH i j = (forwardMatrix 2 DT DH .y * diagonal c.setZero : Matrix _ _ ℝ) i j
  rw [mul_diagonal]
  unfold surfaceForward BC.setZero forwardMatrix
  obtain ⟨i1, i2, i3⟩ := i
  obtain ⟨j1, j2, j3⟩ := j
  simp only [moveTo, along, axisSize, Prod.mk.injEq, true_and, hs]
  by_cases h : i1 = j1 ∧ i3 = j3
  · rw [if_pos h, if_pos h, surface_fwd2 (by positivity) (by exact_mod_cast i2.2)
      (by positivity) (by exact_mod_cast j2.2)]
    by_cases h0 : (j2 : ℕ) = 0
    · simp [h0]
    · simp [h0]
  · rw [if_neg h, if_neg h]
    simp

end Verif.Solver
