import Verif.Props.EnergySurface
import Verif.Props.Stability
/-!
# C139: below the Courant limit wavefields stay bounded below a free surface

Spatial order 2. The sums of squares are those of C94; quantities on the surface count half.
-/
set_option linter.dupNamespace false
set_option linter.unusedSectionVars false

namespace Verif.Solver
open Matrix Verif.Stencil Verif.Check

section Helpers
variable {ι : Type} [Fintype ι]

/-- Schur's bound with weights. -/
theorem weighted_norm (D : Matrix ι ι ℝ) {w w' : ι → ℝ} {B : ℝ} (hw : ∀ i, 0 ≤ w i) (hB : 0 ≤ B)
    (hrow : ∀ i, ∑ j, |D i j| ≤ B) (hcol : ∀ j, ∑ i, w i * |D i j| ≤ B * w' j) (x : ι → ℝ) :
    ∑ i, w i * D.mulVec x i ^ 2 ≤ B ^ 2 * ∑ j, w' j * x j ^ 2 := by
  have e1 : ∀ i, D.mulVec x i ^ 2 ≤ B * ∑ j, |D i j| * x j ^ 2 := by
    intro i
    have cs := Finset.sum_mul_sq_le_sq_mul_sq Finset.univ (fun j => √|D i j|)
      (fun j => √|D i j| * |x j|)
    have k1 : ∀ j, √|D i j| * (√|D i j| * |x j|) = |D i j * x j| := by
      intro j; rw [← mul_assoc, Real.mul_self_sqrt (abs_nonneg _), abs_mul]
    have k2 : ∀ j, (√|D i j| * |x j|) ^ 2 = |D i j| * x j ^ 2 := by
      intro j; rw [mul_pow, Real.sq_sqrt (abs_nonneg _), sq_abs]
    simp only [k1, k2, Real.sq_sqrt (abs_nonneg _)] at cs
    have n : 0 ≤ ∑ j, |D i j| * x j ^ 2 := Finset.sum_nonneg fun j _ => by positivity
    have a : |D.mulVec x i| ≤ ∑ j, |D i j * x j| := by
      rw [mulVec, dotProduct]; exact Finset.abs_sum_le_sum_abs _ _
    calc D.mulVec x i ^ 2 = |D.mulVec x i| ^ 2 := (sq_abs _).symm
      _ ≤ (∑ j, |D i j * x j|) ^ 2 := pow_le_pow_left₀ (abs_nonneg _) a 2
      _ ≤ _ := cs
      _ ≤ _ := mul_le_mul_of_nonneg_right (hrow i) n
  calc ∑ i, w i * D.mulVec x i ^ 2 ≤ ∑ i, w i * (B * ∑ j, |D i j| * x j ^ 2) :=
        Finset.sum_le_sum fun i _ => mul_le_mul_of_nonneg_left (e1 i) (hw i)
    _ = B * ∑ j, (∑ i, w i * |D i j|) * x j ^ 2 := by
        simp only [Finset.mul_sum, Finset.sum_mul]
        rw [Finset.sum_comm]
        exact Finset.sum_congr rfl fun j _ => Finset.sum_congr rfl fun i _ => by ring
    _ ≤ B * ∑ j, B * w' j * x j ^ 2 := by
        refine mul_le_mul_of_nonneg_left (Finset.sum_le_sum fun j _ => ?_) hB
        exact mul_le_mul_of_nonneg_right (hcol j) (sq_nonneg _)
    _ = _ := by
        rw [Finset.mul_sum, Finset.mul_sum]
        exact Finset.sum_congr rfl fun j _ => by ring

end Helpers

variable {NX NY NZ : ℕ} {DT DH v : ℝ} {c : BC (Pt NX NY NZ)}

private theorem fd2 : fd 2 = some [-1, 1] := by simp [fd]

private theorem order2 : ValidOrder 2 := by simp [ValidOrder]

private theorem gamma2 : gamma [-1, 1] = 1 := by norm_num [gamma]

private theorem sum2 : ((absSum [-1, 1] : ℚ) : ℝ) = 2 := by norm_num [absSum]

theorem hlf_pos (c : BC (Pt NX NY NZ)) (i : Pt NX NY NZ) : 0 < c.hlf i := by
  unfold BC.hlf; split <;> norm_num

theorem hlf_le (c : BC (Pt NX NY NZ)) (i : Pt NX NY NZ) : c.hlf i ≤ 1 := by
  unfold BC.hlf; split <;> norm_num

/-- The surface is a plane: half weights do not change along horizontal lines. -/
theorem hlf_line (hc : c.TopSurface) {a : Axis} (ha : a ≠ .y) {i j : Pt NX NY NZ}
    (h : moveTo a i (along a j) = j) : c.hlf i = c.hlf j := by
  unfold BC.hlf
  rw [hc.2, hc.2]
  obtain ⟨i1, i2, i3⟩ := i
  obtain ⟨j1, j2, j3⟩ := j
  cases a
  · simp only [moveTo, along, Prod.mk.injEq] at h; rw [h.2.1]
  · exact absurd rfl ha
  · simp only [moveTo, along, Prod.mk.injEq] at h; rw [h.2.1]

theorem line_of_entry {s : Int} {a : Axis} {i j : Pt NX NY NZ}
    (h : forwardMatrix s DT DH a i j ≠ 0) : moveTo a i (along a j) = j := by
  by_contra hn
  exact h (by unfold forwardMatrix; rw [if_neg hn])

theorem row2 (hDT : 0 < DT) (hDH : 0 < DH) (a : Axis) (i : Pt NX NY NZ) :
    ∑ j, |forwardMatrix 2 DT DH a i j| ≤ 2 * DT / DH := by
  have := forward_row (NX := NX) (NY := NY) (NZ := NZ) fd2 hDT.le hDH a i
  rw [sum2] at this
  exact this.trans (le_of_eq (by ring))

theorem col2 (hDT : 0 < DT) (hDH : 0 < DH) (a : Axis) (j : Pt NX NY NZ) :
    ∑ i, |forwardMatrix 2 DT DH a i j| ≤ 2 * DT / DH := by
  have := forward_col (NX := NX) (NY := NY) (NZ := NZ) fd2 hDT.le hDH a j
  rw [sum2] at this
  exact this.trans (le_of_eq (by ring))

private theorem top_entry {N r : ℤ} (hr : 0 < r) : fwdStencilEntry N 2 r 0 = 0 := by
  unfold fwdStencilEntry
  rw [if_neg (by omega)]

private theorem top_self {N : ℤ} (hN : 0 < N) : fwdStencilEntry N 2 0 0 = -1 := by
  unfold fwdStencilEntry
  rw [if_pos (by omega), fd2]
  simp

/-- Only one entry of the vertical derivative belongs to a point of the surface. -/
theorem colY (hc : c.TopSurface) (hDT : 0 < DT) (hDH : 0 < DH) (j : Pt NX NY NZ) :
    ∑ i, |forwardMatrix 2 DT DH .y i j| ≤ 2 * DT / DH * c.hlf j := by
  by_cases h : (j.2.1 : ℕ) = 0
  · have hh : c.hlf j = 1 / 2 := by unfold BC.hlf; rw [hc.2]; simp [h]
    rw [hh, Finset.sum_eq_single j]
    · rw [abs_forward hDT.le hDH, if_pos (moveTo_self .y j)]
      have e : ((along Axis.y j : ℕ) : ℤ) = 0 := by
        show ((j.2.1 : ℕ) : ℤ) = 0
        omega
      have hN : (0 : ℤ) < (axisSize NX NY NZ .y : ℕ) := by
        show (0 : ℤ) < (NY : ℤ)
        have := j.2.1.2
        omega
      rw [e, top_self hN]
      norm_num
      apply le_of_eq
      ring
    · intro i _ hij
      rw [abs_forward hDT.le hDH]
      split
      · rename_i hl
        have e : ((along Axis.y j : ℕ) : ℤ) = 0 := by
          show ((j.2.1 : ℕ) : ℤ) = 0
          omega
        have hp : (0 : ℤ) < ((along Axis.y i : ℕ) : ℤ) := by
          by_contra hn
          apply hij
          have hi : along Axis.y i = along Axis.y j := by
            apply Fin.ext
            omega
          rw [← hl, ← hi, moveTo_self]
        rw [e, top_entry hp]
        simp
      · rfl
    · simp
  · have hh : c.hlf j = 1 := by unfold BC.hlf; rw [hc.2]; simp [h]
    rw [hh, mul_one]
    exact col2 hDT hDH .y j

/-! ### Acoustic waves -/

/-- 2D acoustic waves of order 2 below a free surface stay bounded if the time step is below the
Courant limit. Missing: higher orders, where it is false (`C139_acoustic2D_violated`). -/
theorem C139_acoustic2D_partial {NX NY : ℕ} {DT DH v : ℝ} (hDT : 0 < DT) (hDH : 0 < DH) (hv : 0 < v)
    (hC : DT < DH / (√2 * v)) {m : Mod (Pt NX NY 1)}
    (hm : ∀ i, 0 ≤ m.pMod i ∧ 0 ≤ m.invRhoX i ∧ 0 ≤ m.invRhoY i)
    (hx : SpeedBound 2 v .x m.pMod m.invRhoX) (hy : SpeedBound 2 v .y m.pMod m.invRhoY)
    {c : BC (Pt NX NY 1)} (hc : c.TopSurfaceOnly) (w : State (Pt NX NY 1)) (hw : acousticRest2D m w)
    (hp : ∀ i : Pt NX NY 1, (i.2.1 : ℕ) = 0 → w (.fld .p) i = 0) (n : ℕ) :
    let θ := √2 * v * DT / DH
    acousticNorm2D m (run (acoustic2DSolver (surfaceDeriv NX NY 1 2 DT DH) m c) [] w n) ≤
      (1 + θ) / (1 - θ) * acousticNorm2D m w := by
  intro θ
  have h2 : (0 : ℝ) < √2 := Real.sqrt_pos.mpr two_pos
  have hθ : θ < 1 := by
    have := theta_lt (g := 1) hDH hv one_pos h2 (by rwa [one_mul])
    simpa [θ] using this
  refine bounded_of_near (S := acoustic2DSolver (surfaceDeriv NX NY 1 2 DT DH) m c)
    (fun s => acousticRest2D m s ∧ c.freeOf (s (.fld .p)))
    (acousticEnergy2D (surfaceDeriv NX NY 1 2 DT DH) m) _ (θ := θ) hθ
    (fun s hs => (acoustic2D_surface_energy hc.only (surfaceDeriv_surfaced hc.1.2) s hs).1)
    (fun s hs => (acoustic2D_surface_energy hc.only (surfaceDeriv_surfaced hc.1.2) s hs).2.le) ?_ w
    ⟨hw, fun i hi => hp i (by simpa [hc.1.2] using hi)⟩ n
  rintro u ⟨hu, -⟩
  have bx := axis_bound order2 fd2 hDT hDH .x (fun i => (hm i).2.1) (fun i => (hm i).1)
    (fun i => (hu i).2.1) (fun i => (hu i).1) hx (mul_pos hv h2)
  have by' := axis_bound order2 fd2 hDT hDH .y (fun i => (hm i).2.2) (fun i => (hm i).1)
    (fun i => (hu i).2.2) (fun i => (hu i).1) hy (mul_pos hv h2)
  have e : acousticEnergy2D (surfaceDeriv NX NY 1 2 DT DH) m u - acousticNorm2D m u =
      ∑ i, u (.fld .vX) i * (forwardMatrix 2 DT DH .x).mulVec (u (.fld .p)) i +
      ∑ i, u (.fld .vY) i * (forwardMatrix 2 DT DH .y).mulVec (u (.fld .p)) i := by
    unfold acousticEnergy2D acousticNorm2D surfaceDeriv regularDeriv
    ring
  rw [e]
  refine (combine2 hv bx by').trans (le_of_eq ?_)
  simp only [θ, acousticNorm2D, gamma2]
  ring

/-- 3D acoustic waves of order 2. -/
theorem C139_acoustic3D_partial (hDT : 0 < DT) (hDH : 0 < DH) (hv : 0 < v)
    (hC : DT < DH / (√3 * v)) {m : Mod (Pt NX NY NZ)}
    (hm : ∀ i, 0 ≤ m.pMod i ∧ 0 ≤ m.invRhoX i ∧ 0 ≤ m.invRhoY i ∧ 0 ≤ m.invRhoZ i)
    (hx : SpeedBound 2 v .x m.pMod m.invRhoX) (hy : SpeedBound 2 v .y m.pMod m.invRhoY)
    (hz : SpeedBound 2 v .z m.pMod m.invRhoZ)
    (hc : c.TopSurfaceOnly) (w : State (Pt NX NY NZ)) (hw : acousticRest3D m w)
    (hp : ∀ i : Pt NX NY NZ, (i.2.1 : ℕ) = 0 → w (.fld .p) i = 0) (n : ℕ) :
    let θ := √3 * v * DT / DH
    acousticNorm3D m (run (acoustic3DSolver (surfaceDeriv NX NY NZ 2 DT DH) m c) [] w n) ≤
      (1 + θ) / (1 - θ) * acousticNorm3D m w := by
  intro θ
  have h3 : (0 : ℝ) < √3 := Real.sqrt_pos.mpr three_pos
  have hθ : θ < 1 := by
    have := theta_lt (g := 1) hDH hv one_pos h3 (by rwa [one_mul])
    simpa [θ] using this
  refine bounded_of_near (S := acoustic3DSolver (surfaceDeriv NX NY NZ 2 DT DH) m c)
    (fun s => acousticRest3D m s ∧ c.freeOf (s (.fld .p)))
    (acousticEnergy3D (surfaceDeriv NX NY NZ 2 DT DH) m) _ (θ := θ) hθ
    (fun s hs => (acoustic3D_surface_energy hc.only (surfaceDeriv_surfaced hc.1.2) s hs).1)
    (fun s hs => (acoustic3D_surface_energy hc.only (surfaceDeriv_surfaced hc.1.2) s hs).2.le) ?_ w
    ⟨hw, fun i hi => hp i (by simpa [hc.1.2] using hi)⟩ n
  rintro u ⟨hu, -⟩
  have bx := axis_bound order2 fd2 hDT hDH .x (fun i => (hm i).2.1) (fun i => (hm i).1)
    (fun i => (hu i).2.1) (fun i => (hu i).1) hx (mul_pos hv h3)
  have by' := axis_bound order2 fd2 hDT hDH .y (fun i => (hm i).2.2.1) (fun i => (hm i).1)
    (fun i => (hu i).2.2.1) (fun i => (hu i).1) hy (mul_pos hv h3)
  have bz := axis_bound order2 fd2 hDT hDH .z (fun i => (hm i).2.2.2) (fun i => (hm i).1)
    (fun i => (hu i).2.2.2) (fun i => (hu i).1) hz (mul_pos hv h3)
  have e : acousticEnergy3D (surfaceDeriv NX NY NZ 2 DT DH) m u - acousticNorm3D m u =
      ∑ i, u (.fld .vX) i * (forwardMatrix 2 DT DH .x).mulVec (u (.fld .p)) i +
      ∑ i, u (.fld .vY) i * (forwardMatrix 2 DT DH .y).mulVec (u (.fld .p)) i +
      ∑ i, u (.fld .vZ) i * (forwardMatrix 2 DT DH .z).mulVec (u (.fld .p)) i := by
    unfold acousticEnergy3D acousticNorm3D surfaceDeriv regularDeriv
    ring
  rw [e]
  refine (combine3 hv bx by' bz).trans (le_of_eq ?_)
  simp only [θ, acousticNorm3D, gamma2]
  ring

/-! ### SH waves -/

/-- Sum of squares of an SH wavefield; `vZ` and `Sxz` on the surface belong to half a cell. -/
noncomputable def shSurfaceNorm (m : Mod (Pt NX NY NZ)) (c : BC (Pt NX NY NZ))
    (s : State (Pt NX NY NZ)) : ℝ :=
  ∑ i, c.hlf i * (s (.fld .vZ) i ^ 2 / m.invRho i) +
  (∑ i, c.hlf i * (s (.fld .Sxz) i ^ 2 / m.sModXZ i) + ∑ i, s (.fld .Syz) i ^ 2 / m.sModYZ i)

private theorem meanNext_mul {a : Axis} {w q : Pt NX NY NZ → ℝ}
    (hw : ∀ i j : Pt NX NY NZ, moveTo a i (along a j) = j → w i = w j) (i : Pt NX NY NZ) :
    meanNext a (fun i => w i * q i) i = w i * meanNext a q i := by
  unfold meanNext
  split
  · rename_i h
    have e := hw i (moveTo a i ⟨(along a i : ℕ) + 1, h⟩) (by rw [moveTo_along])
    beta_reduce
    rw [← e]
    ring
  · rfl

/-- Along a horizontal line the half weights cancel. -/
private theorem axis_halved (hc : c.TopSurface) (hDT : 0 < DT) (hDH : 0 < DH) {a : Axis} (ha : a ≠ .y)
    {f p R K : Pt NX NY NZ → ℝ} (hR : ∀ i, 0 ≤ R i) (hK : ∀ i, 0 ≤ K i)
    (hf : ∀ i, R i = 0 → f i = 0) (hp : ∀ i, K i = 0 → p i = 0) (hsp : SpeedBound 2 v a K R)
    {β : ℝ} (hβ : 0 < β) :
    |∑ i, c.hlf i * f i * (forwardMatrix 2 DT DH a).mulVec p i| ≤
      1 * DT / DH * (β * ∑ i, c.hlf i * (f i ^ 2 / R i) +
        v ^ 2 / β * ∑ j, c.hlf j * (p j ^ 2 / K j)) := by
  have hl : ∀ i j : Pt NX NY NZ, moveTo a i (along a j) = j → c.hlf i = c.hlf j :=
    fun i j h => hlf_line hc ha h
  have key := axis_bound (v := v) order2 fd2 hDT hDH a (f := fun i => c.hlf i * f i) (p := p)
    (R := fun i => c.hlf i * R i) (K := fun i => K i / c.hlf i)
    (fun i => mul_nonneg (hlf_pos c i).le (hR i)) (fun i => div_nonneg (hK i) (hlf_pos c i).le)
    (fun i h => by rw [hf i ((mul_eq_zero.mp h).resolve_left (hlf_pos c i).ne'), mul_zero])
    (fun i h => hp i ((div_eq_zero_iff.mp h).resolve_right (hlf_pos c i).ne'))
    (by
      rcases hsp with h | ⟨-, q, hq, hRq⟩
      · left
        intro i j hn
        have := hl i j hn.1
        have h1 := h i j hn
        have := hlf_pos c j
        calc K j / c.hlf j * (c.hlf i * R i) = K j * R i := by rw [‹c.hlf i = c.hlf j›]; field_simp
          _ ≤ _ := h1
      · right
        refine ⟨rfl, fun i => (c.hlf i)⁻¹ * q i, fun i => ?_, fun i => ?_⟩
        · have h0 := hlf_pos c i
          refine ⟨mul_nonneg (by positivity) (hq i).1, ?_⟩
          rw [div_le_iff₀ h0]
          calc K i ≤ q i * v ^ 2 := (hq i).2
            _ = _ := by field_simp
        · rw [meanNext_mul (fun i j h => by rw [hl i j h])]
          have h0 := hlf_pos c i
          rcases hRq i with h | h
          · left; beta_reduce; rw [h, mul_zero]
          · right; beta_reduce; rw [h, one_div, one_div, mul_inv, inv_inv])
    hβ
  rw [gamma2] at key
  refine key.trans (le_of_eq ?_)
  have e1 : ∀ i, (c.hlf i * f i) ^ 2 / (c.hlf i * R i) = c.hlf i * (f i ^ 2 / R i) := by
    intro i
    have h0 := (hlf_pos c i).ne'
    by_cases h : R i = 0
    · simp [h]
    · field_simp
  have e2 : ∀ i, p i ^ 2 / (K i / c.hlf i) = c.hlf i * (p i ^ 2 / K i) := by
    intro i
    rw [div_div_eq_mul_div]; ring
  simp only [e1, e2]

/-- Vertically the surface points have one neighbour only. -/
private theorem axis_vertical (hc : c.TopSurface) (hDT : 0 < DT) (hDH : 0 < DH)
    {f p R K : Pt NX NY NZ → ℝ} (hR : ∀ i, 0 ≤ R i) (hK : ∀ i, 0 ≤ K i)
    (hf : ∀ i, R i = 0 → f i = 0) (hp : ∀ i, K i = 0 → p i = 0) (hsp : SpeedBound 2 v .y K R)
    {β : ℝ} (hβ : 0 < β) :
    |∑ i, f i * (forwardMatrix 2 DT DH .y).mulVec p i| ≤
      1 * DT / DH * (β * ∑ i, f i ^ 2 / R i + v ^ 2 / β * ∑ j, c.hlf j * (p j ^ 2 / K j)) := by
  set D := forwardMatrix (NX := NX) (NY := NY) (NZ := NZ) 2 DT DH .y with hD
  have hpos := hlf_pos c
  have e0 : ∀ i, (D * diagonal fun j => (c.hlf j)⁻¹).mulVec (fun j => c.hlf j * p j) i =
      D.mulVec p i := by
    intro i
    rw [← Matrix.mulVec_mulVec]
    congr 2
    funext j
    rw [Matrix.mulVec_diagonal, ← mul_assoc, inv_mul_cancel₀ (hpos j).ne', one_mul]
  have ea : ∀ i j, |(D * diagonal fun j => (c.hlf j)⁻¹) i j| = |D i j| * (c.hlf j)⁻¹ := by
    intro i j
    rw [Matrix.mul_diagonal, abs_mul, abs_of_pos (inv_pos.mpr (hpos j))]
  have en : ∀ i j, (D * diagonal fun j => (c.hlf j)⁻¹) i j ≠ 0 → D i j ≠ 0 := by
    intro i j h h0
    apply h
    rw [Matrix.mul_diagonal, h0, zero_mul]
  have hcol : ∀ j, ∑ i, |(D * diagonal fun j => (c.hlf j)⁻¹) i j| ≤ 2 * DT / DH := by
    intro j
    simp only [ea]
    rw [← Finset.sum_mul]
    have := colY hc hDT hDH j
    calc _ ≤ 2 * DT / DH * c.hlf j * (c.hlf j)⁻¹ :=
          mul_le_mul_of_nonneg_right this (inv_pos.mpr (hpos j)).le
      _ = _ := by have := hpos j; field_simp
  have key : |∑ i, f i * (D * diagonal fun j => (c.hlf j)⁻¹).mulVec (fun j => c.hlf j * p j) i| ≤
      β * (2 * DT / DH) / 2 * ∑ i, f i ^ 2 / R i +
        v ^ 2 * (2 * DT / DH) / (2 * β) *
          ∑ j, (c.hlf j * p j) ^ 2 / (c.hlf j * K j) := by
    rcases hsp with hsp | ⟨-, q, hq, hRq⟩
    · refine cross_bound _ f _ R (fun j => c.hlf j * K j) (fun i j => c.hlf j * (1 / R i)) hβ hR
        (fun j => mul_nonneg (hpos j).le (hK j)) hf
        (fun j h => by rw [hp j ((mul_eq_zero.mp h).resolve_left (hpos j).ne'), mul_zero]) ?_ ?_ hcol
      · intro i j hi hDij
        have hR0 : 0 < R i := lt_of_le_of_ne (hR i) (Ne.symm hi)
        have h0 := hpos j
        refine ⟨by positivity, ?_⟩
        rw [mul_assoc]
        refine mul_le_mul_of_nonneg_left ?_ h0.le
        rw [one_div_mul_eq_div, le_div_iff₀ hR0]
        exact hsp i j (near_of_entry order2 fd2 (en i j hDij))
      · intro i hi
        have e : ∀ j, |(D * diagonal fun j => (c.hlf j)⁻¹) i j| * (c.hlf j * (1 / R i)) =
            |D i j| * (1 / R i) := by
          intro j
          rw [ea]
          have := hpos j
          field_simp
        simp only [e]
        rw [← Finset.sum_mul]
        have : R i * ((∑ j, |D i j|) * (1 / R i)) = ∑ j, |D i j| := by field_simp
        rw [this]
        exact row2 hDT hDH .y i
    · refine cross_bound _ f _ R (fun j => c.hlf j * K j) (fun _ j => c.hlf j * q j) hβ hR
        (fun j => mul_nonneg (hpos j).le (hK j)) hf
        (fun j h => by rw [hp j ((mul_eq_zero.mp h).resolve_left (hpos j).ne'), mul_zero]) ?_ ?_ hcol
      · intro i j _ _
        refine ⟨mul_nonneg (hpos j).le (hq j).1, ?_⟩
        rw [mul_assoc]
        exact mul_le_mul_of_nonneg_left (hq j).2 (hpos j).le
      · intro i hi
        have e : ∀ j, |(D * diagonal fun j => (c.hlf j)⁻¹) i j| * (c.hlf j * q j) =
            |D i j| * q j := by
          intro j
          rw [ea]
          have := hpos j
          field_simp
        simp only [e]
        have h := order2_row hDT.le hDH .y q (fun i => (hq i).1) i
        rcases hRq i with h0 | h1
        · exact absurd h0 hi
        · have hm : meanNext .y q i ≠ 0 := by
            intro h0; rw [h0] at h1; simp at h1; exact hi h1
          calc R i * ∑ j, |D i j| * q j
              ≤ R i * (2 * DT / DH * meanNext .y q i) := mul_le_mul_of_nonneg_left h (hR i)
            _ = 2 * DT / DH := by rw [h1]; field_simp
  simp only [e0] at key
  refine key.trans (le_of_eq ?_)
  have e1 : ∀ j, (c.hlf j * p j) ^ 2 / (c.hlf j * K j) = c.hlf j * (p j ^ 2 / K j) := by
    intro j
    have h0 := (hpos j).ne'
    by_cases h : K j = 0
    · simp [h]
    · field_simp
  simp only [e1]
  field_simp

/-- SH waves of order 2. -/
theorem C139_sh2D_partial {NX NY : ℕ} {DT DH v : ℝ} (hDT : 0 < DT) (hDH : 0 < DH) (hv : 0 < v)
    (hC : DT < DH / (√2 * v)) {m : Mod (Pt NX NY 1)}
    (hm : ∀ i, 0 ≤ m.invRho i ∧ 0 ≤ m.sModXZ i ∧ 0 ≤ m.sModYZ i)
    (hx : SpeedBound 2 v .x m.invRho m.sModXZ) (hy : SpeedBound 2 v .y m.invRho m.sModYZ)
    {c : BC (Pt NX NY 1)} (hc : c.TopSurfaceOnly) (w : State (Pt NX NY 1)) (hw : shRest m w) (n : ℕ) :
    let θ := √2 * v * DT / DH
    shSurfaceNorm m c (run (sh2DSolver (surfaceDeriv NX NY 1 2 DT DH) m c) [] w n) ≤
      (1 + θ) / (1 - θ) * shSurfaceNorm m c w := by
  intro θ
  have h2 : (0 : ℝ) < √2 := Real.sqrt_pos.mpr two_pos
  have hθ : θ < 1 := by
    have := theta_lt (g := 1) hDH hv one_pos h2 (by rwa [one_mul])
    simpa [θ] using this
  refine bounded_of_near (S := sh2DSolver (surfaceDeriv NX NY 1 2 DT DH) m c) (shRest m)
    (shSurfaceEnergy (surfaceDeriv NX NY 1 2 DT DH) m c) _ (θ := θ) hθ
    (fun s hs => (sh_surface_energy hc.only (surfaceDeriv_surfaced hc.1.2) s hs).1)
    (fun s hs => (sh_surface_energy hc.only (surfaceDeriv_surfaced hc.1.2) s hs).2.le) ?_ w hw n
  intro u hu
  have bx := axis_halved hc.1 hDT hDH (a := .x) (by decide) (fun i => (hm i).2.1) (fun i => (hm i).1)
    (fun i => (hu i).1) (fun i => (hu i).2.2) hx (mul_pos hv h2)
  have by' := axis_vertical hc.1 hDT hDH (fun i => (hm i).2.2) (fun i => (hm i).1)
    (fun i => (hu i).2.1) (fun i => (hu i).2.2) hy (mul_pos hv h2)
  have ex : ∑ i, u (.fld .vZ) i * (c.hlf i * (backwardMatrix 2 DT DH .x).mulVec (u (.fld .Sxz)) i) =
      -∑ i, c.hlf i * u (.fld .Sxz) i * (forwardMatrix 2 DT DH .x).mulVec (u (.fld .vZ)) i := by
    have e1 : ∀ i, c.hlf i * (backwardMatrix 2 DT DH .x).mulVec (u (.fld .Sxz)) i =
        (backwardMatrix 2 DT DH .x).mulVec (fun j => c.hlf j * u (.fld .Sxz) j) i := by
      intro i
      rw [mulVec, dotProduct, mulVec, dotProduct, Finset.mul_sum]
      refine Finset.sum_congr rfl fun j _ => ?_
      by_cases h : forwardMatrix 2 DT DH .x j i = 0
      · have : (backwardMatrix 2 DT DH .x : Matrix (Pt NX NY 1) _ ℝ) i j = 0 := by
          rw [backwardMatrix, Matrix.neg_apply, transpose_apply, h, neg_zero]
        rw [this]; ring
      · rw [hlf_line hc.1 (by decide) (line_of_entry h)]; ring
    simp only [e1]
    exact adj_backward .x _ _
  have e : shSurfaceEnergy (surfaceDeriv NX NY 1 2 DT DH) m c u - shSurfaceNorm m c u =
      -∑ i, c.hlf i * u (.fld .Sxz) i * (forwardMatrix 2 DT DH .x).mulVec (u (.fld .vZ)) i +
      -∑ i, u (.fld .Syz) i * (forwardMatrix 2 DT DH .y).mulVec (u (.fld .vZ)) i := by
    rw [← ex, ← adj_backward]
    unfold shSurfaceEnergy shSurfaceNorm surfaceDeriv regularDeriv
    simp only [mul_add, Finset.sum_add_distrib]
    ring
  rw [e]
  rw [← abs_neg] at bx by'
  refine (combine2 hv bx by').trans (le_of_eq ?_)
  simp only [θ, shSurfaceNorm]
  ring

/-! ### Elastic waves -/

/-- Sum of squares of a 2D elastic wavefield; `vX` and the normal stresses on the surface belong to
half a cell. -/
noncomputable def elasticSurfaceNorm2D (m : Mod (Pt NX NY NZ)) (c : BC (Pt NX NY NZ))
    (s : State (Pt NX NY NZ)) : ℝ :=
  ∑ i, (c.hlf i * ((s (.fld .Sxx) i + s (.fld .Syy) i) ^ 2 / (4 * (m.pMod i - m.sMod i)) +
    (s (.fld .Sxx) i - s (.fld .Syy) i) ^ 2 / (4 * m.sMod i)) +
    s (.fld .Sxy) i ^ 2 / m.sModXY i) +
  (∑ i, c.hlf i * (s (.fld .vX) i ^ 2 / m.invRhoX i) + ∑ i, s (.fld .vY) i ^ 2 / m.invRhoY i)

/-- 2D elastic waves of order 2 with arbitrary moduli and densities; `v` is the velocity for the
largest P-wave modulus and the smallest density. The limit is that of
`C94_elastic2D_variable_partial`. Missing: time steps between this limit and the Courant limit. -/
theorem C139_elastic2D_partial {NX NY : ℕ} {DT DH v : ℝ} (hDT : 0 < DT) (hDH : 0 < DH) (hv : 0 < v)
    (hC : DT < DH / (2 * v)) {m : Mod (Pt NX NY 1)} {Mmax rhoMin : ℝ}
    (hrho : 0 < rhoMin) (hM : 0 ≤ Mmax)
    (hm : ∀ i, 0 ≤ m.sMod i ∧ m.sMod i ≤ m.pMod i ∧ m.pMod i ≤ Mmax ∧
      (0 ≤ m.sModXY i ∧ m.sModXY i ≤ Mmax) ∧
      (0 ≤ m.invRhoX i ∧ m.invRhoX i ≤ 1 / rhoMin) ∧ (0 ≤ m.invRhoY i ∧ m.invRhoY i ≤ 1 / rhoMin))
    (hM0 : ∀ i : Pt NX NY 1, (i.2.1 : ℕ) = 0 → m.pMod i ≠ 0) (hvel : Mmax / rhoMin ≤ v ^ 2)
    {c : BC (Pt NX NY 1)} (hc : c.TopSurfaceOnly) (w : State (Pt NX NY 1)) (hw : elasticRest2D m w)
    (hp : ∀ i : Pt NX NY 1, (i.2.1 : ℕ) = 0 → w (.fld .Syy) i = 0) (n : ℕ) :
    let θ := 2 * v * DT / DH
    elasticSurfaceNorm2D m c (run (elastic2DSolver (surfaceDeriv NX NY 1 2 DT DH) m c) [] w n) ≤
      (1 + θ) / (1 - θ) * elasticSurfaceNorm2D m c w := by
  intro θ
  have hD : (surfaceDeriv NX NY 1 2 DT DH).Surfaced c := surfaceDeriv_surfaced hc.1.2
  have hθ : θ < 1 := by
    have := theta_lt (g := 1) hDH hv one_pos two_pos (by rwa [one_mul])
    simpa [θ] using this
  have hM1 : ∀ i, c.onSurface i = true → m.pMod i ≠ 0 :=
    fun i hi => hM0 i (by simpa [hc.1.2] using hi)
  refine bounded_of_near (S := elastic2DSolver (surfaceDeriv NX NY 1 2 DT DH) m c)
    (fun s => elasticRest2D m s ∧ c.freeOf (s (.fld .Syy)))
    (elasticSurfaceEnergy2D (surfaceDeriv NX NY 1 2 DT DH) m c) _ (θ := θ) hθ
    (fun s hs => (elastic2D_surface_energy hc.only hD hM1 s hs).1)
    (fun s hs => (elastic2D_surface_energy hc.only hD hM1 s hs).2.le) ?_ w
    ⟨hw, fun i hi => hp i (by simpa [hc.1.2] using hi)⟩ n
  rintro u ⟨hu, hfree⟩
  have hMv : Mmax ≤ v ^ 2 * rhoMin := by rwa [div_le_iff₀ hrho] at hvel
  set B := 2 * DT / DH with hBdef
  have hB : 0 < B := by positivity
  have hβ : 0 < 2 * v * B := by positivity
  have hpos := hlf_pos c
  set X := forwardMatrix (NX := NX) (NY := NY) (NZ := 1) 2 DT DH .x with hX
  set Y := forwardMatrix (NX := NX) (NY := NY) (NZ := 1) 2 DT DH .y with hY
  set a := X.transpose.mulVec (u (.fld .vX)) with ha
  set b := fun i => c.setZero i * Y.transpose.mulVec (u (.fld .vY)) i with hb
  set p := Y.mulVec (u (.fld .vX)) with hpdef
  set q := X.mulVec (u (.fld .vY)) with hqdef
  have b1 := sum_young_var (R := fun i => c.hlf i * (m.pMod i - m.sMod i))
    (f := fun i => c.hlf i * ((u (.fld .Sxx) i + u (.fld .Syy) i) / 2))
    (d := fun i => a i + b i) hβ
    (fun i => mul_nonneg (hpos i).le (sub_nonneg.mpr (hm i).2.1))
    (fun i h => by
      have := (hu i).1 (sub_eq_zero.mp ((mul_eq_zero.mp h).resolve_left (hpos i).ne'))
      simp only [this]; norm_num)
  have b2 := sum_young_var (R := fun i => c.hlf i * m.sMod i)
    (f := fun i => c.hlf i * ((u (.fld .Sxx) i - u (.fld .Syy) i) / 2))
    (d := fun i => a i - b i) hβ
    (fun i => mul_nonneg (hpos i).le (hm i).1)
    (fun i h => by
      have := (hu i).2.1 ((mul_eq_zero.mp h).resolve_left (hpos i).ne')
      simp only [this]; norm_num)
  have b3 := sum_young_var (R := m.sModXY) (f := u (.fld .Sxy)) (d := fun i => p i + q i) hβ
    (fun i => (hm i).2.2.2.1.1) (fun i => (hu i).2.2.1)
  rw [← abs_neg] at b3
  have adx : ∑ i, u (.fld .vX) i * (c.hlf i * X.mulVec (u (.fld .Sxx)) i) =
      ∑ i, c.hlf i * u (.fld .Sxx) i * a i := by
    have := adjoint (c.halve X) (u (.fld .vX)) (u (.fld .Sxx))
    simp only [halve_mulVec, halve_transpose_mulVec (M := X) hD.alongX] at this
    rw [this]
    exact Finset.sum_congr rfl fun i _ => by rw [ha]; ring
  have ady : ∑ i, u (.fld .vY) i * Y.mulVec (u (.fld .Syy)) i =
      ∑ i, c.hlf i * u (.fld .Syy) i * b i := by
    rw [adj_forward]
    refine Finset.sum_congr rfl fun i _ => ?_
    rcases Bool.eq_false_or_eq_true (c.onSurface i) with hs | hs
    · rw [hfree i hs]; ring
    · simp only [hb, BC.setZero, BC.hlf, hs, Bool.false_eq_true, if_false, ← hY]; ring
  have e : elasticSurfaceEnergy2D (surfaceDeriv NX NY 1 2 DT DH) m c u - elasticSurfaceNorm2D m c u =
      ∑ i, c.hlf i * ((u (.fld .Sxx) i + u (.fld .Syy) i) / 2) * (a i + b i) +
      ∑ i, c.hlf i * ((u (.fld .Sxx) i - u (.fld .Syy) i) / 2) * (a i - b i) +
      -∑ i, u (.fld .Sxy) i * (p i + q i) := by
    have e0 : elasticSurfaceEnergy2D (surfaceDeriv NX NY 1 2 DT DH) m c u -
        elasticSurfaceNorm2D m c u =
        (∑ i, u (.fld .vX) i * (c.hlf i * X.mulVec (u (.fld .Sxx)) i) +
          ∑ i, u (.fld .vX) i * (backwardMatrix 2 DT DH .y).mulVec (u (.fld .Sxy)) i) +
        (∑ i, u (.fld .vY) i * (backwardMatrix 2 DT DH .x).mulVec (u (.fld .Sxy)) i +
          ∑ i, u (.fld .vY) i * Y.mulVec (u (.fld .Syy)) i) := by
      unfold elasticSurfaceEnergy2D elasticSurfaceNorm2D surfaceDeriv regularDeriv
      simp only [mul_add, Finset.sum_add_distrib]
      ring
    rw [e0, adx, ady, adj_backward, adj_backward, ← hX, ← hY]
    have k : ∑ i, c.hlf i * u (.fld .Sxx) i * a i + ∑ i, c.hlf i * u (.fld .Syy) i * b i =
        ∑ i, c.hlf i * ((u (.fld .Sxx) i + u (.fld .Syy) i) / 2) * (a i + b i) +
        ∑ i, c.hlf i * ((u (.fld .Sxx) i - u (.fld .Syy) i) / 2) * (a i - b i) := by
      simp only [← Finset.sum_add_distrib]
      exact Finset.sum_congr rfl fun i _ => by ring
    have k2 : ∑ i, u (.fld .Sxy) i * (p i + q i) =
        ∑ i, u (.fld .Sxy) i * Y.mulVec (u (.fld .vX)) i +
        ∑ i, u (.fld .Sxy) i * X.mulVec (u (.fld .vY)) i := by
      rw [← Finset.sum_add_distrib]
      exact Finset.sum_congr rfl fun i _ => by rw [hpdef, hqdef]; ring
    linarith
  rw [e]
  refine (abs_add_three _ _ _).trans ((add_le_add (add_le_add b1 b2) b3).trans ?_)
  -- the kinetic energy
  have kin : ∀ R x : ℝ, (0 ≤ R ∧ R ≤ 1 / rhoMin) → (R = 0 → x = 0) → rhoMin * x ^ 2 ≤ x ^ 2 / R := by
    intro R x hR hx
    by_cases h : R = 0
    · rw [hx h]; simp
    · have h0 : 0 < R := lt_of_le_of_ne hR.1 (Ne.symm h)
      rw [le_div_iff₀ h0]
      have := (le_div_iff₀ hrho).mp hR.2
      calc rhoMin * x ^ 2 * R = R * rhoMin * x ^ 2 := by ring
        _ ≤ 1 * x ^ 2 := mul_le_mul_of_nonneg_right this (sq_nonneg _)
        _ = _ := one_mul _
  have kx : rhoMin * ∑ i, c.hlf i * u (.fld .vX) i ^ 2 ≤
      ∑ i, c.hlf i * (u (.fld .vX) i ^ 2 / m.invRhoX i) := by
    rw [Finset.mul_sum]
    refine Finset.sum_le_sum fun i _ => ?_
    have := mul_le_mul_of_nonneg_left (kin _ _ (hm i).2.2.2.2.1 (hu i).2.2.2.1) (hpos i).le
    calc _ = c.hlf i * (rhoMin * u (.fld .vX) i ^ 2) := by ring
      _ ≤ _ := this
  have ky : rhoMin * ∑ i, u (.fld .vY) i ^ 2 ≤ ∑ i, u (.fld .vY) i ^ 2 / m.invRhoY i := by
    rw [Finset.mul_sum]
    exact Finset.sum_le_sum fun i _ => kin _ _ (hm i).2.2.2.2.2 (hu i).2.2.2.2
  -- the strains
  have na : ∑ i, c.hlf i * a i ^ 2 ≤ B ^ 2 * ∑ i, c.hlf i * u (.fld .vX) i ^ 2 := by
    refine weighted_norm X.transpose (fun i => (hpos i).le) hB.le (fun i => ?_) (fun j => ?_) _
    · simp only [transpose_apply]; exact col2 hDT hDH .x i
    · have e1 : ∀ i, c.hlf i * |X.transpose i j| = c.hlf j * |X j i| := by
        intro i
        rw [transpose_apply]
        by_cases h : X j i = 0
        · simp [h]
        · rw [hlf_line hc.1 (by decide) (line_of_entry h)]
      simp only [e1]
      rw [← Finset.mul_sum, mul_comm]
      exact mul_le_mul_of_nonneg_right (row2 hDT hDH .x j) (hpos j).le
  have nb : ∑ i, c.hlf i * b i ^ 2 ≤ B ^ 2 * ∑ i, u (.fld .vY) i ^ 2 := by
    have h1 := weighted_norm (w := fun _ => 1) (w' := fun _ => 1) (B := B) Y.transpose
      (fun _ => zero_le_one) hB.le
      (fun i => by simp only [transpose_apply]; exact col2 hDT hDH .y i)
      (fun j => by simp only [transpose_apply, one_mul, mul_one]; exact row2 hDT hDH .y j)
      (u (.fld .vY))
    simp only [one_mul] at h1
    refine le_trans (Finset.sum_le_sum fun i _ => ?_) h1
    have h2 : b i ^ 2 ≤ Y.transpose.mulVec (u (.fld .vY)) i ^ 2 := by
      simp only [hb, BC.setZero]
      split
      · rw [zero_mul, zero_pow two_ne_zero]; exact sq_nonneg _
      · rw [one_mul]
    calc c.hlf i * b i ^ 2 ≤ 1 * b i ^ 2 := mul_le_mul_of_nonneg_right (hlf_le c i) (sq_nonneg _)
      _ ≤ _ := by rw [one_mul]; exact h2
  have np : ∑ i, p i ^ 2 ≤ B ^ 2 * ∑ i, c.hlf i * u (.fld .vX) i ^ 2 := by
    have h1 := weighted_norm (w := fun _ => 1) (w' := c.hlf) (B := B) Y
      (fun _ => zero_le_one) hB.le (fun i => row2 hDT hDH .y i)
      (fun j => by simp only [one_mul]; exact colY hc.1 hDT hDH j) (u (.fld .vX))
    simpa only [one_mul] using h1
  have nq : ∑ i, q i ^ 2 ≤ B ^ 2 * ∑ i, u (.fld .vY) i ^ 2 := by
    have h1 := weighted_norm (w := fun _ => 1) (w' := fun _ => 1) (B := B) X
      (fun _ => zero_le_one) hB.le (fun i => row2 hDT hDH .x i)
      (fun j => by simp only [one_mul, mul_one]; exact col2 hDT hDH .x j) (u (.fld .vY))
    simpa only [one_mul] using h1
  have st : ∑ i, c.hlf i * (m.pMod i - m.sMod i) * (a i + b i) ^ 2 +
      ∑ i, c.hlf i * m.sMod i * (a i - b i) ^ 2 + ∑ i, m.sModXY i * (p i + q i) ^ 2 ≤
      2 * Mmax * (∑ i, c.hlf i * a i ^ 2 + ∑ i, c.hlf i * b i ^ 2 + ∑ i, p i ^ 2 + ∑ i, q i ^ 2) := by
    simp only [← Finset.sum_add_distrib, Finset.mul_sum]
    refine Finset.sum_le_sum fun i _ => ?_
    obtain ⟨h1, h2, h3, h4, _⟩ := hm i
    have t0 : (m.pMod i - m.sMod i) * (a i + b i) ^ 2 + m.sMod i * (a i - b i) ^ 2 ≤
        2 * Mmax * (a i ^ 2 + b i ^ 2) := by
      have t1 := mul_nonneg (sub_nonneg.mpr h2) (sq_nonneg (a i - b i))
      have t2 := mul_nonneg h1 (sq_nonneg (a i + b i))
      have t3 := mul_le_mul_of_nonneg_right h3 (add_nonneg (sq_nonneg (a i)) (sq_nonneg (b i)))
      linarith
    have t0' := mul_le_mul_of_nonneg_left t0 (hpos i).le
    have t4 := mul_le_mul_of_nonneg_right h4.2 (sq_nonneg (p i + q i))
    have t5 := mul_nonneg hM (sq_nonneg (p i - q i))
    linarith
  have n1 : elasticSurfaceNorm2D m c u =
      (∑ i, (c.hlf i * ((u (.fld .Sxx) i + u (.fld .Syy) i) / 2)) ^ 2 /
          (c.hlf i * (m.pMod i - m.sMod i)) +
        ∑ i, (c.hlf i * ((u (.fld .Sxx) i - u (.fld .Syy) i) / 2)) ^ 2 / (c.hlf i * m.sMod i) +
        ∑ i, u (.fld .Sxy) i ^ 2 / m.sModXY i) +
      (∑ i, c.hlf i * (u (.fld .vX) i ^ 2 / m.invRhoX i) + ∑ i, u (.fld .vY) i ^ 2 / m.invRhoY i) := by
    unfold elasticSurfaceNorm2D
    have sc : ∀ h f R : ℝ, h ≠ 0 → (h * (f / 2)) ^ 2 / (h * R) = h * (f ^ 2 / (4 * R)) := by
      intro h f R h0
      by_cases hR : R = 0
      · simp [hR]
      · field_simp; norm_num
    simp only [fun i f R => sc (c.hlf i) f R (hpos i).ne']
    simp only [← Finset.sum_add_distrib]
    exact Finset.sum_congr rfl fun i _ => by ring
  have nx : 0 ≤ ∑ i, c.hlf i * u (.fld .vX) i ^ 2 :=
    Finset.sum_nonneg fun i _ => mul_nonneg (hpos i).le (sq_nonneg _)
  have ny : 0 ≤ ∑ i, u (.fld .vY) i ^ 2 := Finset.sum_nonneg fun i _ => sq_nonneg _
  rw [n1]
  have hθ2 : θ = v * B := by simp only [θ]; rw [hBdef]; ring
  rw [hθ2]
  have fin : 1 / (2 * (2 * v * B)) * (∑ i, c.hlf i * (m.pMod i - m.sMod i) * (a i + b i) ^ 2 +
      ∑ i, c.hlf i * m.sMod i * (a i - b i) ^ 2 + ∑ i, m.sModXY i * (p i + q i) ^ 2) ≤
      v * B * (∑ i, c.hlf i * (u (.fld .vX) i ^ 2 / m.invRhoX i) +
        ∑ i, u (.fld .vY) i ^ 2 / m.invRhoY i) := by
    have k1 : 2 * Mmax * (∑ i, c.hlf i * a i ^ 2 + ∑ i, c.hlf i * b i ^ 2 + ∑ i, p i ^ 2 + ∑ i, q i ^ 2)
        ≤ 2 * Mmax * (2 * B ^ 2 * (∑ i, c.hlf i * u (.fld .vX) i ^ 2 + ∑ i, u (.fld .vY) i ^ 2)) :=
      mul_le_mul_of_nonneg_left (by linarith) (by positivity)
    have k2 : 2 * Mmax * (2 * B ^ 2 * (∑ i, c.hlf i * u (.fld .vX) i ^ 2 + ∑ i, u (.fld .vY) i ^ 2)) ≤
        2 * (v ^ 2 * rhoMin) *
          (2 * B ^ 2 * (∑ i, c.hlf i * u (.fld .vX) i ^ 2 + ∑ i, u (.fld .vY) i ^ 2)) :=
      mul_le_mul_of_nonneg_right (by linarith) (by positivity)
    calc _ ≤ 1 / (2 * (2 * v * B)) * (2 * (v ^ 2 * rhoMin) *
          (2 * B ^ 2 * (∑ i, c.hlf i * u (.fld .vX) i ^ 2 + ∑ i, u (.fld .vY) i ^ 2))) :=
          mul_le_mul_of_nonneg_left (st.trans (k1.trans k2)) (by positivity)
      _ = v * B * (rhoMin * ∑ i, c.hlf i * u (.fld .vX) i ^ 2 +
          rhoMin * ∑ i, u (.fld .vY) i ^ 2) := by
          field_simp
      _ ≤ _ := mul_le_mul_of_nonneg_left (by linarith) (by positivity)
  linarith

/-- Example: elastic waves on the free surface above a solid with a fluid inclusion. -/
example (n : ℕ) :
    elasticSurfaceNorm2D (surfaceExM 4 3 1) (surfaceExBC 4 3 1)
      (run (elastic2DSolver (surfaceDeriv 4 3 1 2 (1 / 20) 1) (surfaceExM 4 3 1) (surfaceExBC 4 3 1)) []
        (surfaceExW 4 3 1) n) ≤
      (1 + 2 * 4 * (1 / 20) / 1) / (1 - 2 * 4 * (1 / 20) / 1) *
        elasticSurfaceNorm2D (surfaceExM 4 3 1) (surfaceExBC 4 3 1) (surfaceExW 4 3 1) := by
  refine C139_elastic2D_partial (by norm_num) one_pos (by norm_num) (by norm_num) (Mmax := 3)
    (rhoMin := 1 / 4) (by norm_num) (by norm_num) (fun i => ?_) (fun i _ => by simp [surfaceExM])
    (by norm_num) surfaceExBC_only _ surfaceEx_rest (fun i hi => by simp [surfaceExW, hi]) n
  have h0 : ((i.1 : ℕ) : ℝ) ≤ 3 := by exact_mod_cast Nat.lt_succ_iff.mp i.1.2
  have h1 : (0 : ℝ) ≤ 1 + ((i.1 : ℕ) : ℝ) := by positivity
  refine ⟨?_, ?_, le_refl _, by simp [surfaceExM], ⟨h1, ?_⟩, by simp [surfaceExM], ?_⟩
  · simp only [surfaceExM]; split <;> norm_num
  · simp only [surfaceExM, Pi.ofNat_apply]; split <;> norm_num
  · simp only [surfaceExM]; norm_num; linarith
  · simp only [surfaceExM, Pi.one_apply]; norm_num

/-- Example: acoustic waves below a free surface; the density falls to the right. -/
example (n : ℕ) :
    acousticNorm2D (surfaceExM 4 3 1)
      (run (acoustic2DSolver (surfaceDeriv 4 3 1 2 (1 / 20) 1) (surfaceExM 4 3 1) (surfaceExBC 4 3 1)) []
        (surfaceExW 4 3 1) n) ≤
      (1 + √2 * 4 * (1 / 20) / 1) / (1 - √2 * 4 * (1 / 20) / 1) *
        acousticNorm2D (surfaceExM 4 3 1) (surfaceExW 4 3 1) := by
  have h2 := Real.sqrt_two_lt_three_halves
  have h1 : ∀ i : Pt 4 3 1, (0 : ℝ) < 1 + ((i.1 : ℕ) : ℝ) := fun i => by positivity
  have h0 : ∀ i : Pt 4 3 1, ((i.1 : ℕ) : ℝ) ≤ 3 := fun i => by exact_mod_cast Nat.lt_succ_iff.mp i.1.2
  refine C139_acoustic2D_partial (by norm_num) one_pos (by norm_num) ?_
    (fun i => ⟨by simp [surfaceExM], (h1 i).le, by simp [surfaceExM]⟩)
    (.inl fun i j _ => ?_) (.inl fun i j _ => ?_) surfaceExBC_only _
    (fun i => ⟨by simp [surfaceExM], fun h => absurd h (h1 i).ne', by simp [surfaceExM]⟩)
    (fun i hi => by simp [surfaceExW, hi]) n
  · rw [lt_div_iff₀ (by positivity)]; linarith
  · have := h0 i; have := h0 j
    simp only [surfaceExM, Pi.ofNat_apply]; linarith
  · simp only [surfaceExM, Pi.ofNat_apply]; norm_num

end Verif.Solver
