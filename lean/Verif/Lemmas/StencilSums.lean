import Verif.Lemmas.Stencil
import Mathlib.Algebra.Polynomial.Taylor
import Mathlib.Algebra.BigOperators.Group.Finset.Basic
import Mathlib.Algebra.BigOperators.Intervals
import Mathlib.Tactic.FieldSimp
/-!
# Moments of the coefficient tables and sums over rows
-/
namespace Verif.Stencil
open Polynomial

/-- Position of stencil entry `j` relative to the centre of a stencil with `n` entries. -/
def pos (n : Nat) (j : Nat) : ℚ := (j : ℚ) - ((n : ℚ) - 1) / 2

/-- `k`-th moment of a coefficient list. -/
def moment (cs : List ℚ) (k : Nat) : ℚ := (cs.zipIdx.map fun e => e.1 * pos cs.length e.2 ^ k).sum

theorem fd_moment {s : Int} {cs : List ℚ} (h : fd s = some cs) (h8 : s ≤ 8) {k : Nat}
    (hk : (k : Int) ≤ s) : moment cs k = if k = 1 then 1 else 0 := by
  unfold fd at h
  split_ifs at h
  · injection h with h; subst h; subst_vars
    have hk : k ≤ 2 := by omega
    interval_cases k <;> norm_num [moment, pos, List.zipIdx]
  · injection h with h; subst h; subst_vars
    have hk : k ≤ 4 := by omega
    interval_cases k <;> norm_num [moment, pos, List.zipIdx]
  · injection h with h; subst h; subst_vars
    have hk : k ≤ 6 := by omega
    interval_cases k <;> norm_num [moment, pos, List.zipIdx]
  · injection h with h; subst h; subst_vars
    have hk : k ≤ 8 := by omega
    interval_cases k <;> norm_num [moment, pos, List.zipIdx]
  · omega
  · omega

theorem fd_moment_approx {s : Int} {cs : List ℚ} (h : fd s = some cs) {k : Nat}
    (hk : (k : Int) ≤ s) : |moment cs k - if k = 1 then 1 else 0| ≤ 1 / 10 ^ 11 := by
  by_cases h8 : s ≤ 8
  · rw [fd_moment h h8 hk]; norm_num
  · unfold fd at h
    split_ifs at h
    · omega
    · omega
    · omega
    · omega
    · injection h with h; subst h; subst_vars
      have hk : k ≤ 10 := by omega
      rw [abs_le]
      interval_cases k <;> norm_num [moment, pos, List.zipIdx]
    · injection h with h; subst h; subst_vars
      have hk : k ≤ 12 := by omega
      rw [abs_le]
      interval_cases k <;> norm_num [moment, pos, List.zipIdx]

theorem fd_moment_one_approx {s : Int} {cs : List ℚ} (h : fd s = some cs) :
    |moment cs 1 - 1| ≤ 1 / 10 ^ 15 := by
  unfold fd at h
  split_ifs at h <;>
  · injection h with h; subst h; subst_vars
    rw [abs_le]
    norm_num [moment, pos, List.zipIdx]

theorem list_sum_finset {α : Type} (l : List α) (S : Finset Nat) (g : α → Nat → ℚ) :
    (l.map fun e => ∑ k ∈ S, g e k).sum = ∑ k ∈ S, (l.map fun e => g e k).sum := by
  induction l with
  | nil => simp
  | cons a l ih => simp [ih, Finset.sum_add_distrib]

/-- A stencil applied to a polynomial, expanded around its centre. -/
theorem apply_plain_poly {s d start : Int} {cs : List ℚ} (hcs : fd s = some cs) (P : ℚ[X]) (h : ℚ)
    {n : Nat} (hn : P.natDegree < n) :
    apply (d * h) (plain s d start) (fun X => P.eval (X * h)) =
      ∑ k ∈ Finset.range n,
        (taylor ((start + d * (((cs.length : ℚ) - 1) / 2)) * h) P).coeff k *
          ((d * h) ^ k / (d * h)) * moment cs k := by
  rw [apply_plain hcs]
  have key : ∀ e : ℚ × Nat, e.1 / (d * h) * P.eval (((start + d * (e.2 : Int) : Int) : ℚ) * h) =
      ∑ k ∈ Finset.range n,
        (taylor ((start + d * (((cs.length : ℚ) - 1) / 2)) * h) P).coeff k *
          ((d * h) ^ k / (d * h)) * (e.1 * pos cs.length e.2 ^ k) := by
    intro e
    have : P.eval (((start + d * (e.2 : Int) : Int) : ℚ) * h) =
        (taylor ((start + d * (((cs.length : ℚ) - 1) / 2)) * h) P).eval
          (d * h * pos cs.length e.2) := by
      rw [taylor_eval]
      congr 1
      unfold pos
      push_cast
      ring
    rw [this, eval_eq_sum_range' (n := n) (by rw [natDegree_taylor]; exact hn), Finset.mul_sum]
    apply Finset.sum_congr rfl
    intro k _
    rw [mul_pow]; ring
  simp only [key]
  rw [list_sum_finset]
  apply Finset.sum_congr rfl
  intro k _
  unfold moment
  rw [← List.sum_map_mul_left]

/-- Entry of a plain stencil. -/
theorem entry_plain_aux (start c : Int) : ∀ (cs : List ℚ) (k : Nat),
    ((((cs.zipIdx k).map fun e => (start + (1 : Int) * (e.2 : Int), e.1)).filter
      fun e => e.1 = c).map Prod.snd).sum =
      if start + k ≤ c then (cs[(c - start - k).toNat]?).getD 0 else 0 := by
  intro cs
  induction cs with
  | nil => intro k; simp
  | cons a cs ih =>
    intro k
    simp only [List.zipIdx_cons, List.map_cons, List.filter_cons]
    by_cases hc : start + 1 * (k : Int) = c
    · simp only [hc, decide_true, if_true, List.map_cons, List.sum_cons, ih]
      rw [if_neg (by push_cast; omega), if_pos (by omega)]
      have : (c - start - k).toNat = 0 := by omega
      rw [this]; simp
    · simp only [hc, decide_false, Bool.false_eq_true, if_false, ih]
      by_cases h : start + k ≤ c
      · rw [if_pos (by push_cast; omega), if_pos h]
        have : (c - start - k).toNat = (c - start - ((k + 1 : Nat) : Int)).toNat + 1 := by
          push_cast; omega
        rw [this, List.getElem?_cons_succ]
      · rw [if_neg (by push_cast; omega), if_neg h]

theorem entry_plain {s start c : Int} {cs : List ℚ} (hcs : fd s = some cs) :
    entry (plain s 1 start) c = if start ≤ c then (cs[(c - start).toNat]?).getD 0 else 0 := by
  have := entry_plain_aux start c cs 0
  unfold entry plain
  simpa [hcs] using this

/-! ### Free surface -/

/-- Coefficient `j` as a number. -/
def coef (cs : List ℚ) (j : Nat) : ℚ := (cs[j]?).getD 0

theorem fdAt_coef {s : Int} {cs : List ℚ} (h : fd s = some cs) {j : Nat} (hj : j < cs.length) :
    fdAt s j = .ok (coef cs j) := by
  rw [fdAt_eq h hj]; simp [coef, hj]

/-- The reflection `j ↦ k - j` of a sum over the entries up to `k`. -/
theorem sum_reflect {n k : Nat} (hk : k < n) (g : Nat → ℚ) :
    (∑ j ∈ Finset.range n, if j ≤ k then g (k - j) else 0) =
      ∑ j ∈ Finset.range n, if j ≤ k then g j else 0 := by
  rw [← Finset.sum_filter, ← Finset.sum_filter]
  have : (Finset.range n).filter (fun j => j ≤ k) = Finset.range (k + 1) := by
    ext j; simp; omega
  rw [this, Finset.sum_range_reflect (fun j => g j) (k + 1) |>.symm]
  apply Finset.sum_congr rfl
  intro j hj
  congr 1

theorem range_sum (n : Nat) (g : Nat → ℚ) :
    ((List.range n).map g).sum = ∑ j ∈ Finset.range n, g j := by
  induction n with
  | zero => simp
  | succ n ih => rw [List.range_succ, List.map_append, List.sum_append, ih, Finset.sum_range_succ]; simp

/-- The image method equals the plain stencil on the mirrored field; abstract form. `Y j` is the
coordinate of entry `j`, `k` the image index of entry 0 if entry 0 has an image. -/
theorem image_sum {n : Nat} {kI : Int} (hk : kI < n) (c : Nat → ℚ) (Y : Nat → Int) (μ : Int → Int)
    (DH : ℚ) (NY : Int) (f : Int → ℚ) (m : Int → ℚ)
    (hμ : ∀ j : Nat, (j : Int) ≤ kI → Y (kI.toNat - j) = μ (Y j))
    (hm : ∀ j : Nat, j < n → (if 0 ≤ Y j ∧ Y j < NY then f (Y j) else 0) -
      (if (j : Int) ≤ kI then (if 0 ≤ μ (Y j) ∧ μ (Y j) < NY then f (μ (Y j)) else 0) else 0) =
        m (Y j)) :
    (∑ j ∈ Finset.range n, if 0 ≤ Y j ∧ Y j < NY then
        (c j - (if (j : Int) ≤ kI then c (kI.toNat - j) else 0)) / DH * f (Y j) else 0) =
      ∑ j ∈ Finset.range n, c j / DH * m (Y j) := by
  have split : ∀ j : Nat, (if 0 ≤ Y j ∧ Y j < NY then
      (c j - (if (j : Int) ≤ kI then c (kI.toNat - j) else 0)) / DH * f (Y j) else 0) =
      (c j / DH * (if 0 ≤ Y j ∧ Y j < NY then f (Y j) else 0)) -
      (if (j : Int) ≤ kI then
        c (kI.toNat - j) / DH * (if 0 ≤ Y j ∧ Y j < NY then f (Y j) else 0) else 0) := by
    intro j
    split_ifs <;> ring
  simp only [split]
  rw [Finset.sum_sub_distrib]
  have h2 : (∑ j ∈ Finset.range n, if (j : Int) ≤ kI then
      c (kI.toNat - j) / DH * (if 0 ≤ Y j ∧ Y j < NY then f (Y j) else 0) else 0) =
      ∑ j ∈ Finset.range n, if (j : Int) ≤ kI then
        c j / DH * (if 0 ≤ μ (Y j) ∧ μ (Y j) < NY then f (μ (Y j)) else 0) else 0 := by
    by_cases hneg : kI < 0
    · apply Finset.sum_congr rfl
      intro j _
      rw [if_neg (by omega), if_neg (by omega)]
    · have e := sum_reflect (n := n) (k := kI.toNat) (by omega) (fun j =>
        c j / DH * (if 0 ≤ μ (Y j) ∧ μ (Y j) < NY then f (μ (Y j)) else 0))
      have iff : ∀ j : Nat, (j : Int) ≤ kI ↔ j ≤ kI.toNat := by intro j; omega
      simp only [iff]
      rw [← e]
      apply Finset.sum_congr rfl
      intro j _
      by_cases hj : j ≤ kI.toNat
      · simp only [if_pos hj]
        have := hμ (kI.toNat - j) (by omega)
        have e1 : kI.toNat - (kI.toNat - j) = j := by omega
        rw [e1] at this
        rw [← this]
      · simp only [if_neg hj]
  rw [h2, ← Finset.sum_sub_distrib]
  apply Finset.sum_congr rfl
  intro j hj
  rw [← hm j (by simpa using hj)]
  split_ifs <;> ring

/-- The loop of the free-surface rows, in closed form. -/
theorem foldr_rows {s : Int} {cs : List ℚ} (hcs : fd s = some cs) (Y : Nat → Int) (NY kI : Int)
    (hk : kI < cs.length) (body : Nat → Out (List (Int × ℚ)) → Out (List (Int × ℚ)))
    (hbody : ∀ j rest, body j rest = (do
      let c ← fdAt s j
      let diff ← (if (j : Int) ≤ kI then fdAt s (kI - j) else pure 0 : Out ℚ)
      let r ← rest
      pure (if 0 ≤ Y j ∧ Y j < NY then (Y j, c - diff) :: r else r)))
    (L : List Nat) (hL : ∀ j ∈ L, j < cs.length) :
    ∃ row, L.foldr body (pure []) = .ok row ∧ ∀ (DH : ℚ) (f : Int → ℚ), apply DH row f =
      (L.map fun j => if 0 ≤ Y j ∧ Y j < NY then
        (coef cs j - (if (j : Int) ≤ kI then coef cs (kI.toNat - j) else 0)) / DH * f (Y j)
        else 0).sum := by
  induction L with
  | nil => exact ⟨[], rfl, by simp [apply]⟩
  | cons j L ih =>
    obtain ⟨row, h1, h2⟩ := ih (fun i hi => hL i (List.mem_cons_of_mem _ hi))
    have hj := hL j List.mem_cons_self
    rw [List.foldr_cons, h1, hbody, fdAt_coef hcs hj]
    have hdiff : (if (j : Int) ≤ kI then fdAt s (kI - j) else pure 0) =
        Out.ok (if (j : Int) ≤ kI then coef cs (kI.toNat - j) else 0) := by
      by_cases hc : (j : Int) ≤ kI
      · rw [if_pos hc, if_pos hc]
        have : kI - (j : Int) = ((kI.toNat - j : Nat) : Int) := by omega
        rw [this, fdAt_coef hcs (by omega)]
      · rw [if_neg hc, if_neg hc]; rfl
    rw [hdiff]
    simp only [Out.bind_ok, Out.pure_eq]
    refine ⟨_, rfl, fun DH f => ?_⟩
    by_cases hY : 0 ≤ Y j ∧ Y j < NY
    · simp only [if_pos hY, List.map_cons, List.sum_cons]
      rw [← h2]; simp [apply]
    · simp only [if_neg hY, List.map_cons, List.sum_cons]
      rw [← h2]; simp

end Verif.Stencil
