import Verif.Model.Snapshot
import Mathlib.Algebra.Order.Floor.Ring
import Mathlib.Data.Rat.Floor
import Mathlib.Tactic.Linarith
import Mathlib.Tactic.FieldSimp
import Mathlib.Tactic.Ring
/-!
# Snapshots (C49)
-/
namespace Verif.Snapshot
open Verif.Common

/-- C49: times are converted to the nearest step. -/
theorem C49_nearest_step {t DT : ℚ} (hD : 0 < DT) (ht : 0 ≤ t) :
    |(time2index t DT : ℚ) * DT - t| ≤ DT / 2 := by
  have hq : 0 ≤ t / DT + 1 / 2 := by positivity
  unfold time2index
  simp only
  rw [if_pos hq]
  have h1 := Int.floor_le (t / DT + 1 / 2)
  have h2 := Int.lt_floor_add_one (t / DT + 1 / 2)
  have e : t / DT * DT = t := div_mul_cancel₀ t hD.ne'
  rw [abs_le]
  constructor
  · nlinarith
  · nlinarith

example : |(time2index 0.1 0.003 : ℚ) * 0.003 - 0.1| ≤ 0.003 / 2 :=
  C49_nearest_step (by norm_num) (by norm_num)

private theorem tmod_zero {a b : Int} : a.tmod b = 0 ↔ b ∣ a := by
  constructor
  · exact Int.dvd_of_tmod_eq_zero
  · exact Int.tmod_eq_zero_of_dvd

/-- Snapshots are switched on: by `snapType`, or by a wavefield decomposition, which has priority. -/
def Enabled (c : Conf) : Prop :=
  (c.decomposition = 0 ∧ 0 < c.snapType) ∨ (c.decomposition ≠ 0 ∧ -3 < c.decomposition)

private theorem enabled_iff {c : Conf} : snapType c > 0 ↔ Enabled c := by
  unfold snapType Enabled
  by_cases h : c.decomposition = 0
  · rw [if_neg (by simp [h])]; omega
  · rw [if_pos h]; omega

/-- The condition of the property, in steps. -/
def Due (c : Conf) (t : Int) : Prop :=
  Enabled c ∧ time2index c.tFirst c.DT ≤ t ∧ t ≤ time2index c.tLast c.DT ∧
    time2index c.tInc c.DT ∣ t - time2index c.tFirst c.DT

private theorem writesAt_ok {c : Conf} (hi : time2index c.tInc c.DT ≠ 0) (t : Int) :
    ∃ b, writesAt c t = .ok b ∧ (b = true ↔ Due c t) := by
  unfold writesAt Due
  rw [← enabled_iff]
  by_cases h1 : snapType c > 0
  · rw [if_pos h1]
    by_cases h2 : t ≥ time2index c.tFirst c.DT
    · rw [if_pos h2]
      by_cases h3 : t ≤ time2index c.tLast c.DT
      · rw [if_pos h3, if_neg hi]
        refine ⟨_, rfl, ?_⟩
        rw [decide_eq_true_iff, tmod_zero]
        tauto
      · rw [if_neg h3]; exact ⟨_, rfl, by simp; tauto⟩
    · rw [if_neg h2]; exact ⟨_, rfl, by simp; omega⟩
  · rw [if_neg h1]; exact ⟨_, rfl, by simp; tauto⟩

private theorem timeLoop_ok {c : Conf} (hi : time2index c.tInc c.DT ≠ 0) :
    ∀ (n : Nat) (t : Int) (acc : List Int), acc.Pairwise (· < ·) → (∀ x ∈ acc, x < t) →
      ∃ l, timeLoop c n t acc = .ok l ∧ l.Pairwise (· < ·) ∧
        ∀ x, x ∈ l ↔ x ∈ acc ∨ (t ≤ x ∧ x < t + n ∧ Due c x) := by
  intro n
  induction n with
  | zero =>
    intro t acc h1 h2
    refine ⟨acc, rfl, h1, fun x => ?_⟩
    constructor
    · exact .inl
    · rintro (h | ⟨h, h', -⟩)
      · exact h
      · push_cast at h'; omega
  | succ n ih =>
    intro t acc h1 h2
    obtain ⟨b, hb, hbd⟩ := writesAt_ok hi t
    unfold timeLoop
    rw [hb, Out.bind_ok]
    by_cases hbt : b = true
    · rw [if_pos hbt]
      obtain ⟨l, e, hp, hm⟩ := ih (t + 1) (acc ++ [t])
        (List.pairwise_append.mpr ⟨h1, by simp, by simpa using h2⟩)
        (by
          intro x hx
          rcases List.mem_append.mp hx with h | h
          · have := h2 x h; omega
          · simp at h; omega)
      refine ⟨l, e, hp, fun x => ?_⟩
      rw [hm, List.mem_append, List.mem_singleton]
      push_cast
      constructor
      · rintro ((h | rfl) | ⟨h, h', h''⟩)
        · exact .inl h
        · exact .inr ⟨le_rfl, by omega, hbd.mp hbt⟩
        · exact .inr ⟨by omega, by omega, h''⟩
      · rintro (h | ⟨h, h', h''⟩)
        · exact .inl (.inl h)
        · by_cases hx : x = t
          · exact .inl (.inr hx)
          · exact .inr ⟨by omega, by omega, h''⟩
    · rw [if_neg hbt]
      obtain ⟨l, e, hp, hm⟩ := ih (t + 1) acc h1 (fun x hx => by have := h2 x hx; omega)
      refine ⟨l, e, hp, fun x => ?_⟩
      rw [hm]
      push_cast
      constructor
      · rintro (h | ⟨h, h', h''⟩)
        · exact .inl h
        · exact .inr ⟨by omega, by omega, h''⟩
      · rintro (h | ⟨h, h', h''⟩)
        · exact .inl h
        · refine .inr ⟨?_, by omega, h''⟩
          by_contra hx
          have : x = t := by omega
          subst this
          exact hbt (hbd.mpr h'')

/-- C49: if the increment is at least half a time step, the snapshots of a shot are written, in
order and once each, at exactly the steps between the first and the last snapshot that differ from
the first by a multiple of the increment. Missing: smaller increments. -/
theorem C49_exactly_due_partial {c : Conf} (hi : time2index c.tInc c.DT ≠ 0) :
    ∃ l, snapshots c = .ok l ∧ l.Pairwise (· < ·) ∧
      ∀ t, t ∈ l ↔ 0 ≤ t ∧ t < time2index c.T c.DT ∧ Enabled c ∧
        time2index c.tFirst c.DT ≤ t ∧ t ≤ time2index c.tLast c.DT ∧
        time2index c.tInc c.DT ∣ t - time2index c.tFirst c.DT := by
  obtain ⟨l, h, hp, hm⟩ := timeLoop_ok hi (time2index c.T c.DT).toNat 0 [] (by simp) (by simp)
  refine ⟨l, h, hp, fun t => ?_⟩
  rw [hm]
  unfold Due
  simp only [List.not_mem_nil, false_or, zero_add]
  constructor
  · rintro ⟨h1, h2, h3⟩
    exact ⟨h1, by omega, h3⟩
  · rintro ⟨h1, h2, h3⟩
    exact ⟨h1, by omega, h3⟩

/-- C49: with positive increment and a first snapshot not before the start, the `k`-th snapshot is
`k` increments after the first. -/
theorem C49_equidistant_partial {c : Conf} (hi : 0 < time2index c.tInc c.DT)
    (hf : 0 ≤ time2index c.tFirst c.DT) :
    ∃ n : Nat, snapshots c =
      .ok ((List.range n).map fun k : Nat => time2index c.tFirst c.DT + k * time2index c.tInc c.DT) := by
  obtain ⟨l, h, hp, hm⟩ := C49_exactly_due_partial (c := c) (by omega)
  refine ⟨l.length, ?_⟩
  rw [h]
  congr 1
  set f := time2index c.tFirst c.DT
  set inc := time2index c.tInc c.DT
  -- the list is closed downwards along the progression
  have hdown : ∀ k : Nat, f + (k + 1 : Nat) * inc ∈ l → f + k * inc ∈ l := by
    intro k hk
    rw [hm] at hk ⊢
    obtain ⟨h1, h2, h3, h4, h5, h6⟩ := hk
    push_cast at h2 h5
    have hk0 : 0 ≤ (k : Int) * inc := by positivity
    refine ⟨by omega, by nlinarith, h3, by omega, by nlinarith, ?_⟩
    rw [show f + k * inc - f = k * inc by omega]
    exact Int.dvd_mul_left _ _
  have hform : ∀ x ∈ l, ∃ k : Nat, x = f + k * inc := by
    intro x hx
    obtain ⟨h1, h2, h3, h4, h5, ⟨q, hq⟩⟩ := (hm x).mp hx
    have hq0 : 0 ≤ q := by
      by_contra hc
      have : inc * q < 0 := by nlinarith
      omega
    refine ⟨q.toNat, ?_⟩
    rw [Int.toNat_of_nonneg hq0]
    linarith [mul_comm inc q]
  -- a strictly increasing list with the members of an initial piece of the progression
  have key : ∀ (l : List Int) (a : Int), l.Pairwise (· < ·) →
      (∀ x ∈ l, ∃ k : Nat, x = a + k * inc) → (∀ k : Nat, a + (k + 1 : Nat) * inc ∈ l → a + k * inc ∈ l) →
      l = (List.range l.length).map fun k : Nat => a + k * inc := by
    intro l
    induction l with
    | nil => intros; rfl
    | cons x l ih =>
      intro a hp hform hdown
      have hxa : x = a := by
        obtain ⟨k, hk⟩ := hform x (by simp)
        cases k with
        | zero => simpa using hk
        | succ k =>
          have := hdown k (hk ▸ List.mem_cons_self)
          rcases List.mem_cons.mp this with h | h
          · rw [hk] at h; push_cast at h; nlinarith
          · have := (List.pairwise_cons.mp hp).1 _ h
            rw [hk] at this; push_cast at this; nlinarith
      subst hxa
      have hp' := (List.pairwise_cons.mp hp)
      have := ih (x + inc) hp'.2
        (by
          intro y hy
          obtain ⟨k, hk⟩ := hform y (by simp [hy])
          have := hp'.1 y hy
          cases k with
          | zero => simp at hk; omega
          | succ k => exact ⟨k, by rw [hk]; push_cast; ring⟩)
        (by
          intro k hk
          have h1 := hdown (k + 1) (List.mem_cons_of_mem _ (by
            have : x + ((k + 1 + 1 : Nat) : Int) * inc = x + inc + (k + 1 : Nat) * inc := by
              push_cast; ring
            rw [this]; exact hk))
          rcases List.mem_cons.mp h1 with h | h
          · push_cast at h; nlinarith
          · have : x + ((k + 1 : Nat) : Int) * inc = x + inc + k * inc := by push_cast; ring
            rwa [this] at h)
      rw [List.length_cons, List.range_succ_eq_map, List.map_cons, List.map_map]
      congr 1
      · simp
      · rw [this]
        simp only [List.length_map, List.length_range]
        apply List.map_congr_left
        intro k _
        simp only [Function.comp]
        push_cast
        ring
  exact key l f hp hform hdown

/-- Steps 10, 15, 20, 25 of 30 with `DT = 1/100`, snapshots from 0.1 s to 0.27 s every 0.05 s. -/
example : snapshots ⟨mkRat 1 100, mkRat 3 10, 1, 0, mkRat 1 10, mkRat 27 100, mkRat 1 20⟩ =
    .ok [10, 15, 20, 25] := by decide +kernel

/-- C49: an increment below half a time step makes the program divide by zero at the first step in the
snapshot interval. -/
theorem C49_small_increment_violated {c : Conf} (he : Enabled c) (hD : 0 < c.DT)
    (h0 : 0 ≤ c.tInc) (h1 : c.tInc < c.DT / 2) {t : Int} (ht : 0 ≤ t) (hT : t < time2index c.T c.DT)
    (hf : time2index c.tFirst c.DT ≤ t) (hl : t ≤ time2index c.tLast c.DT) :
    snapshots c = .ub := by
  have hs := enabled_iff.mpr he
  have hinc : time2index c.tInc c.DT = 0 := by
    unfold time2index
    have hq : 0 ≤ c.tInc / c.DT + 1 / 2 := by positivity
    simp only
    rw [if_pos hq, Int.floor_eq_iff]
    have : c.tInc / c.DT < 1 / 2 := by rw [div_lt_iff₀ hD]; linarith
    constructor
    · simpa using hq
    · push_cast; linarith
  have key : ∀ (n : Nat) (a : Int) (acc : List Int), a ≤ t → t < a + n →
      timeLoop c n a acc = .ub := by
    intro n
    induction n with
    | zero => intro a acc h2 h3; push_cast at h3; omega
    | succ n ih =>
      intro a acc h2 h3
      push_cast at h3
      unfold timeLoop
      by_cases ha : time2index c.tFirst c.DT ≤ a
      · have : writesAt c a = .ub := by
          unfold writesAt
          rw [if_pos hs, if_pos ha, if_pos (by omega), if_pos hinc]
        rw [this]; rfl
      · have : writesAt c a = .ok false := by
          unfold writesAt
          rw [if_pos hs, if_neg ha]
        rw [this, Out.bind_ok]
        exact ih _ _ (by omega) (by omega)
  exact key _ _ _ ht (by omega)

/-- For instance an increment of 0. -/
example : snapshots ⟨mkRat 1 100, mkRat 3 10, 1, 0, mkRat 1 10, mkRat 27 100, 0⟩ = .ub := by
  decide +kernel

/-- C49: without decomposition nothing is written unless `snapType` is positive. -/
theorem C49_disabled {c : Conf} (h0 : c.decomposition = 0) (h : c.snapType ≤ 0) : snapshots c = .ok [] := by
  have : ∀ (n : Nat) (t : Int), timeLoop c n t [] = .ok [] := by
    intro n
    induction n with
    | zero => intro t; rfl
    | succ n ih =>
      intro t
      have hw : writesAt c t = .ok false := by
        unfold writesAt snapType
        rw [if_neg (by rw [if_neg (by simp [h0])]; omega)]
      unfold timeLoop
      rw [hw, Out.bind_ok]
      exact ih _
  exact this _ _

/-- C49: with a decomposition the value of `snapType` has no influence on the snapshots. -/
theorem C49_decomposition {c : Conf} (h : c.decomposition ≠ 0) (s : Int) :
    snapshots { c with snapType := s } = snapshots c := by
  have hs : snapType { c with snapType := s } = snapType c := by
    unfold snapType
    rw [if_pos h, if_pos h]
  have hw : ∀ t, writesAt { c with snapType := s } t = writesAt c t := by
    intro t
    unfold writesAt
    rw [hs]
  have : ∀ (n : Nat) (t : Int) (acc : List Int),
      timeLoop { c with snapType := s } n t acc = timeLoop c n t acc := by
    intro n
    induction n with
    | zero => intro t acc; rfl
    | succ n ih =>
      intro t acc
      unfold timeLoop
      rw [hw]
      congr 1
      funext w
      exact ih _ _
  exact this _ _ _

/-- With decomposition 1 the snapshots of the example above are written although `snapType = 0`. -/
example : snapshots ⟨mkRat 1 100, mkRat 3 10, 0, 1, mkRat 1 10, mkRat 27 100, mkRat 1 20⟩ =
    .ok [10, 15, 20, 25] := by decide +kernel

end Verif.Snapshot
