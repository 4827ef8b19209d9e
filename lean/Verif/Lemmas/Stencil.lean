import Verif.Model.Stencil
import Mathlib.Tactic.Linarith
import Mathlib.Tactic.Ring
import Mathlib.Tactic.NormNum
import Mathlib.Tactic.IntervalCases
/-!
# Closed form of the derivative rows
-/
namespace Verif.Stencil

/-- The orders for which coefficients exist. -/
def ValidOrder (s : Int) : Prop := s = 2 ∨ s = 4 ∨ s = 6 ∨ s = 8 ∨ s = 10 ∨ s = 12

instance (s : Int) : Decidable (ValidOrder s) := by unfold ValidOrder; infer_instance

/-- A plain stencil of order `s` whose entries start at coordinate `start`, spacing `d`. -/
def plain (s d start : Int) : List (Int × ℚ) :=
  ((fd s).getD []).zipIdx.map fun e => (start + d * (e.2 : Int), e.1)

theorem ValidOrder.even {s : Int} (h : ValidOrder s) : s = 2 * (s / 2) ∧ 2 ≤ s ∧ s ≤ 12 := by
  rcases h with rfl | rfl | rfl | rfl | rfl | rfl <;> decide

theorem validOrder_of {s m : Int} (h : s = 2 * m) (h1 : 1 ≤ m) (h2 : m ≤ 6) : ValidOrder s := by
  subst h
  interval_cases m <;> decide

theorem fd_length {s : Int} (h : ValidOrder s) : ∃ cs, fd s = some cs ∧ (cs.length : Int) = s := by
  rcases h with rfl | rfl | rfl | rfl | rfl | rfl <;> exact ⟨_, rfl, rfl⟩

theorem fd_antisymm {s : Int} {cs : List ℚ} (h : fd s = some cs) :
    cs.reverse = cs.map (- ·) := by
  unfold fd at h
  split_ifs at h <;> (injection h with h; subst h; norm_num)

theorem fd_sum {s : Int} {cs : List ℚ} (h : fd s = some cs) : cs.sum = 0 := by
  unfold fd at h
  split_ifs at h <;> (injection h with h; subst h; norm_num)

/-- The part of a plain stencil from entry `j` on. -/
def plainFrom (cs : List ℚ) (d start : Int) (j : Nat) : List (Int × ℚ) :=
  (cs.zipIdx.map fun e => (start + d * (e.2 : Int), e.1)).drop j

theorem plainFrom_cons {cs : List ℚ} {d start : Int} {j : Nat} (h : j < cs.length) :
    plainFrom cs d start j = (start + d * j, cs[j]) :: plainFrom cs d start (j + 1) := by
  unfold plainFrom
  rw [List.drop_eq_getElem_cons (by simpa using h)]
  simp

theorem fdAt_eq {s : Int} {cs : List ℚ} (h : fd s = some cs) {j : Nat} (hj : j < cs.length) :
    fdAt s j = .ok cs[j] := by
  unfold fdAt
  rw [h]
  simp [hj]

/-- Without order reduction the loop pushes the plain stencil. -/
theorem fwdLoop_plain {N d off x s : Int} {cs : List ℚ} (hs : ValidOrder s) (hcs : fd s = some cs)
    (hlen : (cs.length : Int) = s)
    (hmin : 0 ≤ x + off + d * (1 - s / 2)) (hmax : x + off + d * (s / 2) < N) :
    ∀ (k : Nat) (j : Nat), j + k = cs.length → ∀ fuel, k < fuel →
      fwdLoop N d off fuel j s x = .ok (plainFrom cs d (x + off + d * (1 - s / 2)) j) := by
  obtain ⟨hev, h2, _⟩ := hs.even
  have t1 : s.tdiv 2 = s / 2 := Int.tdiv_eq_ediv_of_nonneg (by omega)
  have t2 : (-s).tdiv 2 = -(s / 2) := by rw [Int.neg_tdiv, t1]
  have t3 : (d * s).tdiv 2 = d * (s / 2) := by
    have : d * s = 2 * (d * (s / 2)) := by
      conv_lhs => rw [hev]
      ring
    rw [this, Int.mul_tdiv_cancel_left _ (by norm_num)]
  intro k
  induction k with
  | zero =>
    intro j hj fuel hf
    obtain ⟨fuel, rfl⟩ : ∃ f, fuel = f + 1 := ⟨fuel - 1, by omega⟩
    unfold fwdLoop
    rw [if_neg (by omega)]
    congr 1
    unfold plainFrom
    rw [List.drop_of_length_le (by simp; omega)]
  | succ k ih =>
    intro j hj fuel hf
    obtain ⟨fuel, rfl⟩ : ∃ f, fuel = f + 1 := ⟨fuel - 1, by omega⟩
    unfold fwdLoop
    rw [if_pos (by omega)]
    simp only [t1, t2, t3]
    rw [if_neg (by rw [show -(s / 2) + 1 = 1 - s / 2 by ring]; omega), if_neg (by omega)]
    have hjl : j < cs.length := by omega
    rw [fdAt_eq hcs hjl]
    have := ih (j + 1) (by omega) fuel (by omega)
    push_cast at this
    simp only [Out.bind_ok, this, Out.pure_eq]
    rw [plainFrom_cons hjl]
    congr 3
    ring

theorem bwdLoop_plain {N d off x s : Int} {cs : List ℚ} (hs : ValidOrder s) (hcs : fd s = some cs)
    (hlen : (cs.length : Int) = s)
    (hmin : 0 ≤ x + off + d * (-(s / 2))) (hmax : x + off + d * (s / 2 - 1) < N) :
    ∀ (k : Nat) (j : Nat), j + k = cs.length → ∀ fuel, k < fuel →
      bwdLoop N d off fuel j s x = .ok (plainFrom cs d (x + off + d * (-(s / 2))) j) := by
  obtain ⟨hev, h2, _⟩ := hs.even
  have t1 : s.tdiv 2 = s / 2 := Int.tdiv_eq_ediv_of_nonneg (by omega)
  have t2 : (-s).tdiv 2 = -(s / 2) := by rw [Int.neg_tdiv, t1]
  intro k
  induction k with
  | zero =>
    intro j hj fuel hf
    obtain ⟨fuel, rfl⟩ : ∃ f, fuel = f + 1 := ⟨fuel - 1, by omega⟩
    unfold bwdLoop
    rw [if_neg (by omega)]
    congr 1
    unfold plainFrom
    rw [List.drop_of_length_le (by simp; omega)]
  | succ k ih =>
    intro j hj fuel hf
    obtain ⟨fuel, rfl⟩ : ∃ f, fuel = f + 1 := ⟨fuel - 1, by omega⟩
    unfold bwdLoop
    rw [if_pos (by omega)]
    simp only [t1, t2]
    rw [if_neg (by omega), if_neg (by omega)]
    have hjl : j < cs.length := by omega
    rw [fdAt_eq hcs hjl]
    have := ih (j + 1) (by omega) fuel (by omega)
    push_cast at this
    simp only [Out.bind_ok, this, Out.pure_eq]
    rw [plainFrom_cons hjl]
    congr 3
    ring

theorem fwdLoop_plain' {N d off x s : Int} (hs : ValidOrder s)
    (hmin : 0 ≤ x + off + d * (1 - s / 2)) (hmax : x + off + d * (s / 2) < N) {fuel : Nat}
    (hf : s.toNat < fuel) :
    fwdLoop N d off fuel 0 s x = .ok (plain s d (x + off + d * (1 - s / 2))) := by
  obtain ⟨cs, hcs, hlen⟩ := fd_length hs
  have := fwdLoop_plain hs hcs hlen hmin hmax cs.length 0 (by omega) fuel (by omega)
  simpa [plain, hcs, plainFrom] using this

theorem bwdLoop_plain' {N d off x s : Int} (hs : ValidOrder s)
    (hmin : 0 ≤ x + off + d * (-(s / 2))) (hmax : x + off + d * (s / 2 - 1) < N) {fuel : Nat}
    (hf : s.toNat < fuel) :
    bwdLoop N d off fuel 0 s x = .ok (plain s d (x + off + d * (-(s / 2)))) := by
  obtain ⟨cs, hcs, hlen⟩ := fd_length hs
  have := bwdLoop_plain hs hcs hlen hmin hmax cs.length 0 (by omega) fuel (by omega)
  simpa [plain, hcs, plainFrom] using this

/-- One reduction step at the lower edge (`d = 1`, no offset). -/
theorem fwdLoop_left {N x s : Int} (hev : s = 2 * (s / 2)) (h0 : 0 < s) (h : x + 1 < s / 2)
    (fuel : Nat) :
    fwdLoop N 1 0 (fuel + 1) 0 s x = fwdLoop N 1 0 fuel 0 (2 * x + 2) x := by
  have t1 : s.tdiv 2 = s / 2 := Int.tdiv_eq_ediv_of_nonneg (by omega)
  have t2 : (-s).tdiv 2 = -(s / 2) := by rw [Int.neg_tdiv, t1]
  rw [fwdLoop, if_pos h0]
  simp only [t2]
  rw [if_pos (by omega)]
  congr 1; omega

/-- One reduction step at the upper edge. -/
theorem fwdLoop_right {N x s : Int} (hev : s = 2 * (s / 2)) (h0 : 0 < s) (h1 : s / 2 ≤ x + 1)
    (h : N ≤ x + s / 2) (hx : x + 1 ≠ N) (fuel : Nat) :
    fwdLoop N 1 0 (fuel + 1) 0 s x = fwdLoop N 1 0 fuel 0 (2 * (N - 1 - x)) x := by
  have t1 : s.tdiv 2 = s / 2 := Int.tdiv_eq_ediv_of_nonneg (by omega)
  have t2 : (-s).tdiv 2 = -(s / 2) := by rw [Int.neg_tdiv, t1]
  have t3 : (1 * s).tdiv 2 = s / 2 := by rw [one_mul, t1]
  rw [fwdLoop, if_pos h0]
  simp only [t2, t3]
  rw [if_neg (by omega), if_pos (by omega), if_neg (by omega)]
  congr 1; omega

theorem fwdLoop_last {N x s : Int} (hev : s = 2 * (s / 2)) (h0 : 0 < s) (h1 : s / 2 ≤ x + 1)
    (hx : x + 1 = N) (fuel : Nat) :
    fwdLoop N 1 0 (fuel + 1) 0 s x = fwdLoop N 1 0 fuel 0 2 (x - 1) := by
  have t1 : s.tdiv 2 = s / 2 := Int.tdiv_eq_ediv_of_nonneg (by omega)
  have t2 : (-s).tdiv 2 = -(s / 2) := by rw [Int.neg_tdiv, t1]
  have t3 : (1 * s).tdiv 2 = s / 2 := by rw [one_mul, t1]
  rw [fwdLoop, if_pos h0]
  simp only [t2, t3]
  rw [if_neg (by omega), if_pos (by omega), if_pos (by omega)]

theorem bwdLoop_left {N x s : Int} (hev : s = 2 * (s / 2)) (h0 : 0 < s) (h : x < s / 2)
    (hx : x ≠ 0) (fuel : Nat) :
    bwdLoop N 1 0 (fuel + 1) 0 s x = bwdLoop N 1 0 fuel 0 (2 * x) x := by
  have t1 : s.tdiv 2 = s / 2 := Int.tdiv_eq_ediv_of_nonneg (by omega)
  have t2 : (-s).tdiv 2 = -(s / 2) := by rw [Int.neg_tdiv, t1]
  rw [bwdLoop, if_pos h0]
  simp only [t2]
  rw [if_pos (by omega), if_neg (by omega)]
  congr 1; omega

theorem bwdLoop_first {N s : Int} (hev : s = 2 * (s / 2)) (h0 : 0 < s) (fuel : Nat) :
    bwdLoop N 1 0 (fuel + 1) 0 s 0 = bwdLoop N 1 0 fuel 0 2 1 := by
  have t1 : s.tdiv 2 = s / 2 := Int.tdiv_eq_ediv_of_nonneg (by omega)
  have t2 : (-s).tdiv 2 = -(s / 2) := by rw [Int.neg_tdiv, t1]
  rw [bwdLoop, if_pos h0]
  simp only [t2]
  rw [if_pos (by omega), if_pos (by omega)]; rfl

theorem bwdLoop_right {N x s : Int} (hev : s = 2 * (s / 2)) (h0 : 0 < s) (h1 : s / 2 ≤ x)
    (h : N < x + s / 2) (fuel : Nat) :
    bwdLoop N 1 0 (fuel + 1) 0 s x = bwdLoop N 1 0 fuel 0 (2 * (N - x)) x := by
  have t1 : s.tdiv 2 = s / 2 := Int.tdiv_eq_ediv_of_nonneg (by omega)
  have t2 : (-s).tdiv 2 = -(s / 2) := by rw [Int.neg_tdiv, t1]
  rw [bwdLoop, if_pos h0]
  simp only [t1, t2]
  rw [if_neg (by omega), if_pos (by omega)]
  congr 1; omega

/-- Order used at `x` by the forward operator, reduced towards both edges. -/
def fwdOrder (N x s : Int) : Int :=
  if x + 1 = N then 2 else min s (min (2 * x + 2) (2 * (N - 1 - x)))

/-- Left neighbour of the point at which the forward row is centred. -/
def fwdBase (N x : Int) : Int := if x + 1 = N then x - 1 else x

def bwdOrder (N x s : Int) : Int :=
  if x = 0 then 2 else min s (min (2 * x) (2 * (N - x)))

def bwdBase (x : Int) : Int := if x = 0 then 1 else x

private theorem end_right {N x s : Int} (hs : ValidOrder s) (hN : 2 ≤ N) (h0 : 0 ≤ x) (hx : x < N)
    (hl : s / 2 ≤ x + 1) {fuel : Nat} (hf : s.toNat + 3 < fuel) :
    fwdLoop N 1 0 fuel 0 s x =
      .ok (plain (if x + 1 = N then 2 else min s (2 * (N - 1 - x))) 1
        (fwdBase N x + 1 - (if x + 1 = N then 2 else min s (2 * (N - 1 - x))) / 2)) := by
  obtain ⟨hev, h2, h12⟩ := hs.even
  obtain ⟨fuel, rfl⟩ : ∃ f, fuel = f + 1 := ⟨fuel - 1, by omega⟩
  by_cases hlast : x + 1 = N
  · rw [fwdLoop_last hev (by omega) hl hlast,
      fwdLoop_plain' (by decide) (by omega) (by omega) (by omega : (2 : Int).toNat < fuel)]
    simp only [if_pos hlast, fwdBase]
    congr 2; omega
  · simp only [if_neg hlast, fwdBase]
    by_cases hr : N ≤ x + s / 2
    · have hmin : min s (2 * (N - 1 - x)) = 2 * (N - 1 - x) := by omega
      rw [fwdLoop_right hev (by omega) hl hr hlast, hmin,
        fwdLoop_plain' (validOrder_of rfl (by omega) (by omega)) (by omega) (by omega) (by omega)]
      congr 2; omega
    · have hmin : min s (2 * (N - 1 - x)) = s := by omega
      rw [hmin, fwdLoop_plain' hs (by omega) (by omega) (by omega)]
      congr 2; omega

/-- Closed form of the forward rows on a regular grid. -/
theorem fwdRow_eq {N x s : Int} (hs : ValidOrder s) (hN : 2 ≤ N) (h0 : 0 ≤ x) (hx : x < N) :
    fwdRow N 1 0 x s =
      .ok (plain (fwdOrder N x s) 1 (fwdBase N x + 1 - fwdOrder N x s / 2)) := by
  obtain ⟨hev, h2, h12⟩ := hs.even
  unfold fwdRow
  by_cases hl : s / 2 ≤ x + 1
  · rw [end_right hs hN h0 hx hl (by omega)]
    have : fwdOrder N x s = if x + 1 = N then 2 else min s (2 * (N - 1 - x)) := by
      unfold fwdOrder; split <;> omega
    rw [this]
  · have : s.toNat + 8 = (s.toNat + 7) + 1 := rfl
    rw [this, fwdLoop_left hev (by omega) (by omega),
      end_right (validOrder_of (by ring : 2 * x + 2 = 2 * (x + 1)) (by omega) (by omega)) hN h0 hx
        (by omega) (by omega)]
    have : fwdOrder N x s = if x + 1 = N then 2 else min (2 * x + 2) (2 * (N - 1 - x)) := by
      unfold fwdOrder; split <;> omega
    rw [this]

private theorem bwd_end_right {N x s : Int} (hs : ValidOrder s) (h0 : 1 ≤ x) (hx : x < N)
    (hl : s / 2 ≤ x) {fuel : Nat} (hf : s.toNat + 3 < fuel) :
    bwdLoop N 1 0 fuel 0 s x =
      .ok (plain (min s (2 * (N - x))) 1 (x - (min s (2 * (N - x))) / 2)) := by
  obtain ⟨hev, h2, h12⟩ := hs.even
  obtain ⟨fuel, rfl⟩ : ∃ f, fuel = f + 1 := ⟨fuel - 1, by omega⟩
  by_cases hr : N < x + s / 2
  · have hmin : min s (2 * (N - x)) = 2 * (N - x) := by omega
    rw [bwdLoop_right hev (by omega) hl hr, hmin,
      bwdLoop_plain' (validOrder_of rfl (by omega) (by omega)) (by omega) (by omega) (by omega)]
    congr 2; omega
  · have hmin : min s (2 * (N - x)) = s := by omega
    rw [hmin, bwdLoop_plain' hs (by omega) (by omega) (by omega)]
    congr 2; omega

/-- Closed form of the backward rows on a regular grid. -/
theorem bwdRow_eq {N x s : Int} (hs : ValidOrder s) (hN : 2 ≤ N) (h0 : 0 ≤ x) (hx : x < N) :
    bwdRow N 1 0 x s =
      .ok (plain (bwdOrder N x s) 1 (bwdBase x - bwdOrder N x s / 2)) := by
  obtain ⟨hev, h2, h12⟩ := hs.even
  unfold bwdRow
  have e8 : s.toNat + 8 = (s.toNat + 7) + 1 := rfl
  by_cases hz : x = 0
  · subst hz
    rw [e8, bwdLoop_first hev (by omega),
      bwdLoop_plain' (by decide) (by omega) (by omega) (by omega : (2 : Int).toNat < s.toNat + 7)]
    rfl
  · simp only [bwdOrder, bwdBase, if_neg hz]
    by_cases hl : s / 2 ≤ x
    · rw [bwd_end_right hs (by omega) hx hl (by omega)]
      have : min s (min (2 * x) (2 * (N - x))) = min s (2 * (N - x)) := by omega
      rw [this]
    · rw [e8, bwdLoop_left hev (by omega) (by omega) hz,
        bwd_end_right (validOrder_of rfl (by omega) (by omega)) (by omega) hx
          (by omega) (by omega)]
      have : min s (min (2 * x) (2 * (N - x))) = min (2 * x) (2 * (N - x)) := by omega
      rw [this]

theorem fwdOrder_valid {N x s : Int} (hs : ValidOrder s) (h0 : 0 ≤ x) (hx : x < N) :
    ValidOrder (fwdOrder N x s) := by
  obtain ⟨hev, h2, h12⟩ := hs.even
  unfold fwdOrder
  split
  · decide
  · exact validOrder_of (m := min (s / 2) (min (x + 1) (N - 1 - x))) (by omega) (by omega) (by omega)

theorem bwdOrder_valid {N x s : Int} (hs : ValidOrder s) (h0 : 0 ≤ x) (hx : x < N) :
    ValidOrder (bwdOrder N x s) := by
  obtain ⟨hev, h2, h12⟩ := hs.even
  unfold bwdOrder
  split
  · decide
  · exact validOrder_of (m := min (s / 2) (min x (N - x))) (by omega) (by omega) (by omega)

theorem mem_plain {s d start : Int} {e : Int × ℚ} (h : e ∈ plain s d start) :
    ∃ (cs : List ℚ) (j : Nat) (hj : j < cs.length), fd s = some cs ∧
      e.1 = start + d * j ∧ e.2 = cs[j] := by
  unfold plain at h
  cases hfd : fd s with
  | none => simp [hfd] at h
  | some cs =>
    simp only [hfd, Option.getD_some, List.mem_map] at h
    obtain ⟨⟨c, j⟩, hmem, rfl⟩ := h
    rw [List.mem_zipIdx_iff_getElem?] at hmem
    simp at hmem
    obtain ⟨hj, hc⟩ := List.getElem?_eq_some_iff.mp hmem
    exact ⟨cs, j, hj, rfl, rfl, hc.symm⟩

theorem apply_plain {s d start : Int} {cs : List ℚ} (hcs : fd s = some cs) (DH : ℚ) (f : Int → ℚ) :
    apply DH (plain s d start) f =
      (cs.zipIdx.map fun e => e.1 / DH * f (start + d * (e.2 : Int))).sum := by
  unfold apply plain
  simp [hcs, List.map_map, Function.comp_def]

/-! ### Arbitrary grid factors -/

/-- What a finished row looks like: empty, or a plain stencil of an existing order that lies in
the model. -/
def RowShape (N d s : Int) (row : List (Int × ℚ)) : Prop :=
  row = [] ∨ ∃ s' start, ValidOrder s' ∧ s' ≤ max s 2 ∧ 0 ≤ start ∧ start + d * (s' - 1) < N ∧
    row = plain s' d start

theorem RowShape.mono {N d s t : Int} {row : List (Int × ℚ)} (h : RowShape N d s row)
    (hst : s ≤ max t 2) : RowShape N d t row := by
  rcases h with h | ⟨s', st, h1, h2, h3⟩
  · exact .inl h
  · exact .inr ⟨s', st, h1, by omega, h3⟩

private theorem half_mul {d s : Int} (hev : s = 2 * (s / 2)) : (d * s).tdiv 2 = d * (s / 2) := by
  have : d * s = 2 * (d * (s / 2)) := by
    conv_lhs => rw [hev]
    ring
  rw [this, Int.mul_tdiv_cancel_left _ (by norm_num)]

private theorem fwd_shape_aux {N d off : Int} (hd : 1 ≤ d) : ∀ (n : Nat) (s x : Int), s.toNat ≤ n →
    s = 2 * (s / 2) → s ≤ 12 → ∀ fuel, n + 8 ≤ fuel →
    ∃ row, fwdLoop N d off fuel 0 s x = .ok row ∧ RowShape N d s row := by
  intro n
  induction n using Nat.strong_induction_on with
  | _ n ih =>
  intro s x hn hev h12 fuel hf
  obtain ⟨fuel, rfl⟩ : ∃ f, fuel = f + 1 := ⟨fuel - 1, by omega⟩
  by_cases h0 : 0 < s
  swap
  · refine ⟨[], ?_, .inl rfl⟩
    rw [fwdLoop, if_neg h0]
  have t1 : s.tdiv 2 = s / 2 := Int.tdiv_eq_ediv_of_nonneg (by omega)
  have t2 : (-s).tdiv 2 = -(s / 2) := by rw [Int.neg_tdiv, t1]
  have t3 := half_mul (d := d) hev
  by_cases hl : x + off + d * (-(s / 2) + 1) < 0
  · have e : fwdLoop N d off (fuel + 1) 0 s x =
        fwdLoop N d off fuel 0 (s + 2 * (x + off + d * (-(s / 2) + 1))) x := by
      rw [fwdLoop, if_pos h0]; simp only [t2]; rw [if_pos hl]
    rw [e]
    generalize x + off + d * (-(s / 2) + 1) = m at hl
    obtain ⟨row, h1, h2⟩ := ih (s + 2 * m).toNat (by omega) (s + 2 * m) x le_rfl (by omega)
      (by omega) fuel (by omega)
    exact ⟨row, h1, h2.mono (by omega)⟩
  · by_cases hr : x + off + d * (s / 2) ≥ N
    · by_cases hz : s - 2 * (x + off + d * (s / 2) - N + 1) = 0
      · have e : fwdLoop N d off (fuel + 1) 0 s x = fwdLoop N d off fuel 0 2 (x - 1) := by
          rw [fwdLoop, if_pos h0]; simp only [t2, t3]; rw [if_neg hl, if_pos hr, if_pos hz]
        rw [e]
        have hs2 : s / 2 ≥ 1 := by omega
        have hk : d * (s / 2) - s / 2 ≥ d - 1 := by
          have : (d - 1) * (s / 2) ≥ (d - 1) * 1 := Int.mul_le_mul_of_nonneg_left hs2 (by omega)
          have e2 : (d - 1) * (s / 2) = d * (s / 2) - s / 2 := by ring
          omega
        generalize hq : d * (s / 2) = q at *
        by_cases hl2 : x - 1 + off < 0
        · obtain ⟨fuel, rfl⟩ : ∃ f, fuel = f + 2 := ⟨fuel - 2, by omega⟩
          refine ⟨[], ?_, .inl rfl⟩
          rw [fwdLoop, if_pos (by norm_num)]
          simp only [show (-2 : Int).tdiv 2 + 1 = 0 by decide, mul_zero, add_zero]
          rw [if_pos hl2, fwdLoop, if_neg (by omega)]
        · refine ⟨_, fwdLoop_plain' (by decide) (by omega) ?_ (by omega : (2 : Int).toNat < fuel),
            .inr ⟨2, _, by decide, by omega, by omega, ?_, rfl⟩⟩
          · have : (2 : Int) / 2 = 1 := by decide
            rw [this]; omega
          · have : (2 : Int) / 2 = 1 := by decide
            rw [this]; omega
      · have e : fwdLoop N d off (fuel + 1) 0 s x =
            fwdLoop N d off fuel 0 (s - 2 * (x + off + d * (s / 2) - N + 1)) x := by
          rw [fwdLoop, if_pos h0]; simp only [t2, t3]; rw [if_neg hl, if_pos hr, if_neg hz]
        rw [e]
        generalize x + off + d * (s / 2) = m at hr
        obtain ⟨row, h1, h2⟩ := ih (s - 2 * (m - N + 1)).toNat (by omega) (s - 2 * (m - N + 1)) x
          le_rfl (by omega) (by omega) fuel (by omega)
        exact ⟨row, h1, h2.mono (by omega)⟩
    · have hv : ValidOrder s := validOrder_of hev (by omega) (by omega)
      have c1 : d * (-(s / 2) + 1) = d - d * (s / 2) := by ring
      have c2 : d * (1 - s / 2) = d - d * (s / 2) := by ring
      refine ⟨_, fwdLoop_plain' hv (by omega) (by omega) (by omega),
        .inr ⟨s, _, hv, by omega, by omega, ?_, rfl⟩⟩
      have c3 : d * (s - 1) = 2 * (d * (s / 2)) - d := by
        conv_lhs => rw [hev]
        ring
      rw [c2, c3]; omega

/-- Every forward row is finished and well-shaped, for every grid factor and offset. -/
theorem fwdRow_shape {N d off x s : Int} (hd : 1 ≤ d) (hs : ValidOrder s) :
    ∃ row, fwdRow N d off x s = .ok row ∧ RowShape N d s row := by
  obtain ⟨hev, h2, h12⟩ := hs.even
  exact fwd_shape_aux hd s.toNat s x le_rfl hev h12 _ le_rfl

private theorem bwd_shape_aux {N d off : Int} (hd : 1 ≤ d) : ∀ (n : Nat) (s x : Int), s.toNat ≤ n →
    s = 2 * (s / 2) → s ≤ 12 → ∀ fuel, n + 8 ≤ fuel →
    ∃ row, bwdLoop N d off fuel 0 s x = .ok row ∧ RowShape N d s row := by
  intro n
  induction n using Nat.strong_induction_on with
  | _ n ih =>
  intro s x hn hev h12 fuel hf
  obtain ⟨fuel, rfl⟩ : ∃ f, fuel = f + 1 := ⟨fuel - 1, by omega⟩
  by_cases h0 : 0 < s
  swap
  · refine ⟨[], ?_, .inl rfl⟩
    rw [bwdLoop, if_neg h0]
  have t1 : s.tdiv 2 = s / 2 := Int.tdiv_eq_ediv_of_nonneg (by omega)
  have t2 : (-s).tdiv 2 = -(s / 2) := by rw [Int.neg_tdiv, t1]
  by_cases hl : x + off + d * (-(s / 2)) < 0
  · by_cases hz : s + 2 * (x + off + d * (-(s / 2))) = 0
    · have e : bwdLoop N d off (fuel + 1) 0 s x = bwdLoop N d off fuel 0 2 (x + 1) := by
        rw [bwdLoop, if_pos h0]; simp only [t2]; rw [if_pos hl, if_pos hz]
      rw [e]
      have hs2 : s / 2 ≥ 1 := by omega
      have hk : d * (s / 2) - s / 2 ≥ d - 1 := by
        have : (d - 1) * (s / 2) ≥ (d - 1) * 1 := Int.mul_le_mul_of_nonneg_left hs2 (by omega)
        have e2 : (d - 1) * (s / 2) = d * (s / 2) - s / 2 := by ring
        omega
      have c1 : d * (-(s / 2)) = -(d * (s / 2)) := by ring
      rw [c1] at hz hl
      generalize hq : d * (s / 2) = q at *
      have h22 : (2 : Int) / 2 = 1 := by decide
      by_cases hr2 : x + 1 + off ≥ N
      · obtain ⟨fuel, rfl⟩ : ∃ f, fuel = f + 2 := ⟨fuel - 2, by omega⟩
        refine ⟨[], ?_, .inl rfl⟩
        rw [bwdLoop, if_pos (by norm_num)]
        simp only [show (-2 : Int).tdiv 2 = -1 by decide, show (2 : Int).tdiv 2 = 1 by decide,
          sub_self, mul_zero, add_zero]
        rw [if_neg (by omega), if_pos hr2, bwdLoop, if_neg (by omega)]
      · refine ⟨_, bwdLoop_plain' (by decide) (by rw [h22]; omega) (by rw [h22]; omega)
          (by omega : (2 : Int).toNat < fuel), .inr ⟨2, _, by decide, by omega, ?_, ?_, rfl⟩⟩
        · rw [h22]; omega
        · rw [h22]; omega
    · have e : bwdLoop N d off (fuel + 1) 0 s x =
          bwdLoop N d off fuel 0 (s + 2 * (x + off + d * (-(s / 2)))) x := by
        rw [bwdLoop, if_pos h0]; simp only [t2]; rw [if_pos hl, if_neg hz]
      rw [e]
      generalize x + off + d * (-(s / 2)) = m at hl
      obtain ⟨row, h1, h2⟩ := ih (s + 2 * m).toNat (by omega) (s + 2 * m) x le_rfl (by omega)
        (by omega) fuel (by omega)
      exact ⟨row, h1, h2.mono (by omega)⟩
  · by_cases hr : x + off + d * (s / 2 - 1) ≥ N
    · have e : bwdLoop N d off (fuel + 1) 0 s x =
          bwdLoop N d off fuel 0 (s - 2 * (x + off + d * (s / 2 - 1) - N + 1)) x := by
        rw [bwdLoop, if_pos h0]; simp only [t1, t2]; rw [if_neg hl, if_pos hr]
      rw [e]
      generalize x + off + d * (s / 2 - 1) = m at hr
      obtain ⟨row, h1, h2⟩ := ih (s - 2 * (m - N + 1)).toNat (by omega) (s - 2 * (m - N + 1)) x
        le_rfl (by omega) (by omega) fuel (by omega)
      exact ⟨row, h1, h2.mono (by omega)⟩
    · have hv : ValidOrder s := validOrder_of hev (by omega) (by omega)
      have c1 : d * (-(s / 2)) = -(d * (s / 2)) := by ring
      have c2 : d * (s / 2 - 1) = d * (s / 2) - d := by ring
      refine ⟨_, bwdLoop_plain' hv (by omega) (by omega) (by omega),
        .inr ⟨s, _, hv, by omega, by omega, ?_, rfl⟩⟩
      have c3 : d * (s - 1) = 2 * (d * (s / 2)) - d := by
        conv_lhs => rw [hev]
        ring
      rw [c1, c3]; omega

/-- Every backward row is finished and well-shaped. -/
theorem bwdRow_shape {N d off x s : Int} (hd : 1 ≤ d) (hs : ValidOrder s) :
    ∃ row, bwdRow N d off x s = .ok row ∧ RowShape N d s row := by
  obtain ⟨hev, h2, h12⟩ := hs.even
  exact bwd_shape_aux hd s.toNat s x le_rfl hev h12 _ le_rfl

end Verif.Stencil
