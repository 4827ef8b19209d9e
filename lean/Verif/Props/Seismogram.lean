import Verif.Model.Seismogram
import Mathlib.Algebra.BigOperators.Intervals
import Mathlib.Algebra.Order.BigOperators.Group.Finset
import Mathlib.Data.List.GetD
import Mathlib.Tactic.Linarith
import Mathlib.Tactic.Positivity
import Mathlib.Tactic.FieldSimp
import Mathlib.Tactic.Ring
import Mathlib.Tactic.NormNum
/-!
# C42–C45, C60, C61: processing of recorded traces
-/
namespace Verif.Seis

open Finset

/-! ### C42 -/

/-- First and one-past-last sample of the AGC window of sample `t`. -/
def winLo (N t : Nat) : Nat := t - N
def winHi (NT N t : Nat) : Nat := min NT (t + N)

private theorem getVal_ok {x : List ℚ} {i : Nat} (h : i < x.length) : getVal x i = .ok (x.getD i 0) := by
  unfold getVal
  rw [List.getElem?_eq_getElem h, List.getD_eq_getElem _ _ h]

private theorem start_spec (f : ℚ → ℚ) (wl : ℚ) (x : List ℚ) : ∀ n ≤ x.length,
    agcStart f wl x x.length n = .ok (∑ k ∈ Ico (x.length - n) x.length, (f (x.getD k 0) + wl)) := by
  intro n
  induction n with
  | zero => intro _; simp [agcStart]
  | succ n ih =>
    intro h
    unfold agcStart
    rw [ih (by omega)]
    simp only [Out.bind_ok]
    rw [getVal_ok (by omega)]
    simp only [Out.bind_ok]
    congr 1
    rw [← Finset.sum_Ioo_add_eq_sum_Ico (a := x.length - (n + 1)) (by omega)]
    have : Ioo (x.length - (n + 1)) x.length = Ico (x.length - n) x.length := by
      ext k; simp only [mem_Ioo, mem_Ico]; omega
    rw [this]; ring

private theorem loop_spec (f : ℚ → ℚ) (wl : ℚ) (x : List ℚ) {N : Nat} (hN : 0 < N)
    (hN2 : N ≤ x.length / 2) : ∀ n ≤ x.length, ∀ sum nwin : ℚ,
    sum = ∑ k ∈ Ico (winLo N n) (winHi x.length N n), (f (x.getD k 0) + wl) →
    nwin = ((winHi x.length N n - winLo N n : Nat) : ℚ) →
    ∃ out, agcLoop f wl x x.length N n sum nwin = .ok out ∧ out.length = n ∧
      ∀ t < n, out[t]? = some (some ((∑ k ∈ Ico (winLo N t) (winHi x.length N t),
        (f (x.getD k 0) + wl)) / ((winHi x.length N t - winLo N t : Nat) : ℚ))) := by
  intro n
  induction n with
  | zero => intro _ _ _ _ _; exact ⟨[], rfl, rfl, fun t ht => by omega⟩
  | succ t ih =>
    intro hn sum nwin hs hw
    -- the new sum and count are those of the window of `t`
    have finish : ∀ s' w' : ℚ,
        s' = ∑ k ∈ Ico (winLo N t) (winHi x.length N t), (f (x.getD k 0) + wl) →
        w' = ((winHi x.length N t - winLo N t : Nat) : ℚ) →
        ∃ rest, agcLoop f wl x x.length N t s' w' = .ok rest ∧ (rest ++ [mean s' w']).length = t + 1 ∧
          ∀ i < t + 1, (rest ++ [mean s' w'])[i]? = some (some ((∑ k ∈ Ico (winLo N i)
            (winHi x.length N i), (f (x.getD k 0) + wl)) /
            ((winHi x.length N i - winLo N i : Nat) : ℚ))) := by
      intro s' w' h1 h2
      obtain ⟨rest, e, hl, hv⟩ := ih (by omega) s' w' h1 h2
      refine ⟨rest, e, by simp [hl], ?_⟩
      intro i hi
      by_cases hit : i < t
      · rw [List.getElem?_append_left (by omega)]; exact hv i hit
      · have : i = t := by omega
        subst this
        rw [List.getElem?_append_right (by omega), hl, Nat.sub_self]
        have hne : w' ≠ 0 := by
          rw [h2]
          have : winHi x.length N i - winLo N i ≠ 0 := by unfold winHi winLo; omega
          exact_mod_cast this
        simp only [List.getElem?_cons_zero]
        unfold mean
        rw [if_neg hne, h1, h2]
    have hlo : winLo N t < winHi x.length N t := by unfold winHi winLo; omega
    unfold agcLoop
    by_cases c1 : x.length - N ≤ t
    · rw [if_pos c1, if_neg (by omega), getVal_ok (by omega)]
      simp only [Out.bind_ok]
      obtain ⟨rest, e, h1, h2⟩ := finish (sum + f (x.getD (t - N) 0) + wl) (nwin + 1) (by
        rw [hs, ← Finset.sum_Ioo_add_eq_sum_Ico hlo]
        have : Ioo (winLo N t) (winHi x.length N t) = Ico (winLo N (t + 1)) (winHi x.length N (t + 1)) := by
          ext k; simp only [mem_Ioo, mem_Ico, winLo, winHi]; omega
        rw [this]
        unfold winLo
        ring) (by
        rw [hw]
        have : winHi x.length N t - winLo N t = winHi x.length N (t + 1) - winLo N (t + 1) + 1 := by
          unfold winHi winLo; omega
        rw [this]; push_cast; ring)
      rw [e]
      exact ⟨_, rfl, h1, h2⟩
    · rw [if_neg c1]
      have hhi : winHi x.length N (t + 1) = winHi x.length N t + 1 := by unfold winHi; omega
      have hhv : winHi x.length N t = t + N := by unfold winHi; omega
      have hmid : winLo N (t + 1) ≤ winHi x.length N t := by unfold winHi winLo; omega
      have hsum : sum = ∑ k ∈ Ico (winLo N (t + 1)) (winHi x.length N t), (f (x.getD k 0) + wl) +
          (f (x.getD (t + N) 0) + wl) := by
        rw [hs, hhi, Finset.sum_Ico_succ_top hmid, hhv]
      by_cases c2 : N ≤ t
      · rw [if_pos c2, getVal_ok (by omega), getVal_ok (by omega)]
        simp only [Out.bind_ok]
        obtain ⟨rest, e, h1, h2⟩ := finish (sum + f (x.getD (t - N) 0) - f (x.getD (t + N) 0)) nwin (by
          rw [hsum, ← Finset.sum_Ioo_add_eq_sum_Ico hlo]
          have : Ioo (winLo N t) (winHi x.length N t) = Ico (winLo N (t + 1)) (winHi x.length N t) := by
            ext k; simp only [mem_Ioo, mem_Ico, winLo, winHi]; omega
          rw [this]
          unfold winLo
          ring) (by
          rw [hw]
          congr 1
          unfold winHi winLo; omega)
        rw [e]
        exact ⟨_, rfl, h1, h2⟩
      · rw [if_neg c2, getVal_ok (by omega)]
        simp only [Out.bind_ok]
        obtain ⟨rest, e, h1, h2⟩ := finish (sum - f (x.getD (t + N) 0) - wl) (nwin - 1) (by
          rw [hsum]
          have : winLo N (t + 1) = winLo N t := by unfold winLo; omega
          rw [this]; ring) (by
          rw [hw]
          have : winHi x.length N (t + 1) - winLo N (t + 1) = winHi x.length N t - winLo N t + 1 := by
            unfold winHi winLo; omega
          rw [this]; push_cast; ring)
        rw [e]
        exact ⟨_, rfl, h1, h2⟩

/-- C42: for every trace and every window half-length between 1 and half the trace, all samples
accessed exist and the value at sample `t` is the mean over the samples `t-N ≤ k < t+N` that exist.
This covers `getAGCSum` (`f = id`, `wl = 0`) and `calcInverseAGC` (`f = square`). -/
theorem C42_sliding_mean (f : ℚ → ℚ) (wl : ℚ) (x : List ℚ) {N : Nat} (hN : 0 < N)
    (hN2 : N ≤ x.length / 2) :
    ∃ out, agcMeans f wl x N = .ok out ∧ out.length = x.length ∧
      ∀ t < x.length, out[t]? = some (some ((∑ k ∈ Ico (t - N) (min x.length (t + N)),
        (f (x.getD k 0) + wl)) / ((min x.length (t + N) - (t - N) : Nat) : ℚ))) := by
  unfold agcMeans
  rw [start_spec f wl x N (by omega)]
  simp only [Out.bind_ok]
  refine loop_spec f wl x hN hN2 x.length (le_refl _) _ _ ?_ ?_
  · unfold winLo winHi; rw [Nat.min_eq_left (by omega)]
  · unfold winLo winHi
    congr 1
    omega

/-- C42: the gain of every sample is non-negative; with a positive water level it is positive and is
the reciprocal root of the mean square plus the water level. -/
theorem C42_gain (x : List ℚ) {N : Nat} (hN : 0 < N) (hN2 : N ≤ x.length / 2) {wl : ℚ} (hwl : 0 ≤ wl) :
    ∃ out, agcMeans (fun v => v * v) wl x N = .ok out ∧ out.length = x.length ∧
      ∀ t < x.length, ∃ m : ℚ, out[t]? = some (some m) ∧ wl ≤ m ∧ 0 ≤ gain (some m) ∧
        (0 < wl → 0 < gain (some m) ∧ gain (some m) ^ 2 * m = 1) := by
  obtain ⟨out, e, hl, hv⟩ := C42_sliding_mean (fun v => v * v) wl x hN hN2
  refine ⟨out, e, hl, fun t ht => ?_⟩
  refine ⟨_, hv t ht, ?_, ?_, ?_⟩
  · have hc : 0 < min x.length (t + N) - (t - N) := by omega
    have hc' : (0 : ℚ) < ((min x.length (t + N) - (t - N) : Nat) : ℚ) := by exact_mod_cast hc
    rw [le_div_iff₀ hc']
    have : ∑ k ∈ Ico (t - N) (min x.length (t + N)), wl ≤
        ∑ k ∈ Ico (t - N) (min x.length (t + N)), (x.getD k 0 * x.getD k 0 + wl) :=
      Finset.sum_le_sum fun k _ => by nlinarith [mul_self_nonneg (x.getD k 0)]
    rw [Finset.sum_const, Nat.card_Ico, nsmul_eq_mul] at this
    linarith
  · unfold gain
    simp only
    split
    · positivity
    · exact le_refl _
  · intro hpos
    have hm : wl ≤ (∑ k ∈ Ico (t - N) (min x.length (t + N)), (x.getD k 0 * x.getD k 0 + wl)) /
        ((min x.length (t + N) - (t - N) : Nat) : ℚ) := by
      have hc : 0 < min x.length (t + N) - (t - N) := by omega
      have hc' : (0 : ℚ) < ((min x.length (t + N) - (t - N) : Nat) : ℚ) := by exact_mod_cast hc
      rw [le_div_iff₀ hc']
      have : ∑ k ∈ Ico (t - N) (min x.length (t + N)), wl ≤
          ∑ k ∈ Ico (t - N) (min x.length (t + N)), (x.getD k 0 * x.getD k 0 + wl) :=
        Finset.sum_le_sum fun k _ => by nlinarith [mul_self_nonneg (x.getD k 0)]
      rw [Finset.sum_const, Nat.card_Ico, nsmul_eq_mul] at this
      linarith
    generalize (∑ k ∈ Ico (t - N) (min x.length (t + N)), (x.getD k 0 * x.getD k 0 + wl)) /
        ((min x.length (t + N) - (t - N) : Nat) : ℚ) = m at hm
    have hmq : 0 < m := lt_of_lt_of_le hpos hm
    have hmr : (0 : ℝ) < (m : ℝ) := by
      rw [← Rat.cast_zero]
      exact Rat.cast_lt.mpr hmq
    unfold gain
    simp only
    rw [if_pos hmq]
    refine ⟨by positivity, ?_⟩
    rw [div_pow, Real.sq_sqrt hmr.le]
    field_simp

private theorem zero_loop (f : ℚ → ℚ) (wl : ℚ) (x : List ℚ) : ∀ n ≤ x.length,
    agcLoop f wl x x.length 0 n 0 0 = .ok (List.replicate n none) := by
  intro n
  induction n with
  | zero => intro _; rfl
  | succ t ih =>
    intro h
    unfold agcLoop
    rw [if_neg (by omega), if_pos (by omega), Nat.sub_zero, Nat.add_zero, getVal_ok (by omega)]
    simp only [Out.bind_ok]
    rw [zero_add, sub_self, ih (by omega)]
    simp only [Out.bind_ok]
    unfold mean
    rw [if_pos rfl, List.replicate_succ']

/-- C42 fails for window length 0, which is accepted: the mean is not a number and every gain is 0,
so that AGC erases the traces. It happens for all one-sample traces and whenever `f * DT > 2`. -/
theorem C42_zero_window_violated (x : List ℚ) (wl : ℚ) :
    ∃ out, agcMeans (fun v => v * v) wl x 0 = .ok out ∧ ∀ o ∈ out, gain o = 0 := by
  unfold agcMeans agcStart
  simp only [Out.bind_ok, Nat.cast_zero]
  rw [zero_loop _ _ _ _ (le_refl _)]
  refine ⟨_, rfl, ?_⟩
  intro o ho
  rw [List.eq_of_mem_replicate ho]
  rfl

/-- The window length of C42 is 0 exactly in these cases. -/
theorem C42_zero_window_iff {fr DT : ℚ} (hf : 0 < fr) (hd : 0 < DT) (NT : Nat) :
    windowLength fr DT NT = 0 ↔ 2 < fr * DT ∨ NT < 2 := by
  unfold windowLength
  have hp : 0 < fr * DT := mul_pos hf hd
  rw [Nat.min_eq_zero_iff]
  have h1 : (1 / (fr * DT) + 1 / 2).floor.toNat = 0 ↔ 2 < fr * DT := by
    have h2 : (1 / (fr * DT) + 1 / 2).floor ≤ 0 ↔ 1 / (fr * DT) + 1 / 2 < 1 := by
      have := Rat.le_floor_iff (x := 1) (a := 1 / (fr * DT) + 1 / 2)
      rw [← not_lt, ← Int.add_one_le_iff, zero_add, this, Int.cast_one, not_le]
    rw [Int.toNat_eq_zero, h2]
    constructor
    · intro h
      have : 1 / (fr * DT) < 1 / 2 := by linarith
      rw [one_div_lt_one_div hp (by norm_num)] at this
      exact this
    · intro h
      have : 1 / (fr * DT) < 1 / 2 := by rw [one_div_lt_one_div hp (by norm_num)]; exact h
      linarith
  rw [h1]
  constructor <;> rintro (h | h)
  · exact .inl h
  · right; omega
  · exact .inl h
  · right; omega

example : agcMeans (fun v => v * v) 1 [1, 2, 3, 4] 1 =
    .ok [some 2, some (mkRat 7 2), some (mkRat 15 2), some (mkRat 27 2)] := by decide +kernel

/-! ### C43 -/

private theorem le_maxNorm {x : List ℝ} {v : ℝ} (h : v ∈ x) : |v| ≤ maxNorm x := by
  induction x with
  | nil => simp at h
  | cons a x ih =>
    rcases List.mem_cons.mp h with rfl | h
    · exact le_max_left _ _
    · exact le_trans (ih h) (le_max_right _ _)

private theorem maxNorm_attained {x : List ℝ} (h : maxNorm x ≠ 0) : ∃ v ∈ x, |v| = maxNorm x := by
  induction x with
  | nil => exact absurd rfl h
  | cons a x ih =>
    rcases le_total |a| (maxNorm x) with hle | hle
    · have e : maxNorm (a :: x) = maxNorm x := max_eq_right hle
      rw [e] at h ⊢
      obtain ⟨v, hv, hh⟩ := ih h
      exact ⟨v, List.mem_cons_of_mem _ hv, hh⟩
    · exact ⟨a, List.mem_cons_self, (max_eq_left hle).symm⟩

private theorem maxNorm_nonneg (x : List ℝ) : 0 ≤ maxNorm x := by
  induction x with
  | nil => exact le_refl _
  | cons a x ih => exact le_trans ih (le_max_right _ _)

private theorem maxNorm_scale {c : ℝ} (hc : 0 < c) (x : List ℝ) :
    maxNorm (x.map fun v => v / c) = maxNorm x / c := by
  induction x with
  | nil => simp [maxNorm]
  | cons a x ih =>
    show max |a / c| (maxNorm (x.map fun v => v / c)) = max |a| (maxNorm x) / c
    rw [ih, abs_div, abs_of_pos hc, max_div_div_right hc.le]

private theorem l2_scale {c : ℝ} (hc : 0 < c) (x : List ℝ) :
    l2Norm (x.map fun v => v / c) = l2Norm x / c := by
  unfold l2Norm
  have : (List.map (fun v => v ^ 2) (x.map fun v => v / c)).sum = (x.map fun v => v ^ 2).sum / c ^ 2 := by
    induction x with
    | nil => simp
    | cons a x ih =>
      simp only [List.map_cons, List.sum_cons, ih]
      ring
  rw [this, Real.sqrt_div' _ (by positivity), Real.sqrt_sq hc.le]

private theorem l2_nonneg (x : List ℝ) : 0 ≤ l2Norm x := Real.sqrt_nonneg _

/-- C43: division by a norm. For each of the two norms used: a trace that is not zero gets norm 1 and
every sample is divided by the same positive number; a zero trace stays. -/
theorem C43_max (s : Trace) :
    (maxNorm s.data ≠ 0 → 0 < maxNorm s.data ∧ maxNorm (normalizeTrace 1 s).data = 1 ∧
      (normalizeTrace 1 s).data = s.data.map (· / maxNorm s.data)) ∧
    (maxNorm s.data = 0 ↔ ∀ v ∈ s.data, v = 0) ∧
    ((∀ v ∈ s.data, v = 0) → (normalizeTrace 1 s).data = s.data) := by
  have hz : maxNorm s.data = 0 ↔ ∀ v ∈ s.data, v = 0 := by
    constructor
    · intro h v hv
      have := le_maxNorm hv
      rw [h] at this
      exact abs_eq_zero.mp (le_antisymm this (abs_nonneg v))
    · intro h
      by_contra hne
      obtain ⟨v, hv, e⟩ := maxNorm_attained hne
      rw [h v hv, abs_zero] at e
      exact hne e.symm
  unfold normalizeTrace
  rw [if_pos rfl]
  simp only [divideBy]
  refine ⟨?_, hz, ?_⟩
  · intro h
    have hp : 0 < maxNorm s.data := lt_of_le_of_ne (maxNorm_nonneg _) (Ne.symm h)
    rw [if_neg h]
    exact ⟨hp, by rw [maxNorm_scale hp, div_self h], rfl⟩
  · intro h
    rw [if_pos (hz.mpr h)]
    simp

/-- C43: the same for the l2 norm. -/
theorem C43_l2 (s : Trace) :
    (l2Norm s.data ≠ 0 → 0 < l2Norm s.data ∧ l2Norm (normalizeTrace 2 s).data = 1 ∧
      (normalizeTrace 2 s).data = s.data.map (· / l2Norm s.data)) ∧
    (l2Norm s.data = 0 ↔ ∀ v ∈ s.data, v = 0) ∧
    ((∀ v ∈ s.data, v = 0) → (normalizeTrace 2 s).data = s.data) := by
  have hnn : ∀ x : List ℝ, 0 ≤ (x.map fun v => v ^ 2).sum := by
    intro x
    induction x with
    | nil => simp
    | cons a x ih => simp only [List.map_cons, List.sum_cons]; positivity
  have hz : l2Norm s.data = 0 ↔ ∀ v ∈ s.data, v = 0 := by
    unfold l2Norm
    rw [Real.sqrt_eq_zero (hnn _)]
    induction s.data with
    | nil => simp
    | cons a x ih =>
      simp only [List.map_cons, List.sum_cons, List.forall_mem_cons]
      constructor
      · intro h
        have h1 := sq_nonneg a
        have h2 := hnn x
        exact ⟨pow_eq_zero_iff (two_ne_zero) |>.mp (by linarith), ih.mp (by linarith)⟩
      · rintro ⟨h1, h2⟩
        rw [h1, ih.mpr h2]; norm_num
  unfold normalizeTrace
  rw [if_neg (by norm_num), if_pos (by norm_num)]
  simp only
  rw [if_neg (by norm_num)]
  simp only [divideBy]
  refine ⟨?_, hz, ?_⟩
  · intro h
    have hp : 0 < l2Norm s.data := lt_of_le_of_ne (l2_nonneg _) (Ne.symm h)
    rw [if_neg h]
    exact ⟨hp, by rw [l2_scale hp, div_self h], rfl⟩
  · intro h
    rw [if_pos (hz.mpr h)]
    simp

/-- C43: both normalisations are idempotent. -/
theorem C43_idempotent (s : Trace) {mode : Int} (hm : mode = 1 ∨ mode = 2) :
    (normalizeTrace mode (normalizeTrace mode s)).data = (normalizeTrace mode s).data := by
  rcases hm with rfl | rfl
  · by_cases h : maxNorm s.data = 0
    · have := (C43_max s).2.2 ((C43_max s).2.1.mp h)
      have h0 : ∀ v ∈ (normalizeTrace 1 s).data, v = 0 := by rw [this]; exact (C43_max s).2.1.mp h
      exact (C43_max (normalizeTrace 1 s)).2.2 h0
    · have h1 := ((C43_max s).1 h).2.1
      have := ((C43_max (normalizeTrace 1 s)).1 (by rw [h1]; norm_num)).2.2
      rw [this, h1]; simp
  · by_cases h : l2Norm s.data = 0
    · have := (C43_l2 s).2.2 ((C43_l2 s).2.1.mp h)
      have h0 : ∀ v ∈ (normalizeTrace 2 s).data, v = 0 := by rw [this]; exact (C43_l2 s).2.1.mp h
      exact (C43_l2 (normalizeTrace 2 s)).2.2 h0
    · have h1 := ((C43_l2 s).1 h).2.1
      have := ((C43_l2 (normalizeTrace 2 s)).1 (by rw [h1]; norm_num)).2.2
      rw [this, h1]; simp

/-- C43: the normalised trace does not depend on the amplitude of the source. -/
theorem C43_scale_invariant (s : Trace) {c : ℝ} (hc : 0 < c) {mode : Int} (hm : mode = 1 ∨ mode = 2) :
    (normalizeTrace mode { s with data := s.data.map (· / c) }).data = (normalizeTrace mode s).data := by
  have hz : (∀ v ∈ s.data, v = 0) → ∀ v ∈ s.data.map (· / c), v = 0 := by
    intro h v hv
    obtain ⟨u, hu, rfl⟩ := List.mem_map.mp hv
    rw [h u hu, zero_div]
  have hz2 : (∀ v ∈ s.data, v = 0) → s.data.map (· / c) = s.data := by
    intro h
    conv_rhs => rw [← List.map_id s.data]
    apply List.map_congr_left
    intro v hv
    rw [h v hv, zero_div, id]
  have hdiv : ∀ n : ℝ, (s.data.map (· / c)).map (· / (n / c)) = s.data.map (· / n) := by
    intro n
    rw [List.map_map]
    apply List.map_congr_left
    intro v _
    simp only [Function.comp]
    rw [div_div_div_cancel_right₀ hc.ne']
  rcases hm with rfl | rfl
  · by_cases h : maxNorm s.data = 0
    · have h0 := (C43_max s).2.1.mp h
      rw [(C43_max s).2.2 h0, (C43_max { s with data := s.data.map (· / c) }).2.2 (hz h0)]
      exact hz2 h0
    · have e := maxNorm_scale hc s.data
      rw [((C43_max s).1 h).2.2, ((C43_max { s with data := s.data.map (· / c) }).1 (by
        rw [e]; exact div_ne_zero h hc.ne')).2.2, e]
      exact hdiv _
  · by_cases h : l2Norm s.data = 0
    · have h0 := (C43_l2 s).2.1.mp h
      rw [(C43_l2 s).2.2 h0, (C43_l2 { s with data := s.data.map (· / c) }).2.2 (hz h0)]
      exact hz2 h0
    · have e := l2_scale hc s.data
      rw [((C43_l2 s).1 h).2.2, ((C43_l2 { s with data := s.data.map (· / c) }).1 (by
        rw [e]; exact div_ne_zero h hc.ne')).2.2, e]
      exact hdiv _

example : maxNorm [3, -4, 0] = 4 := by
  unfold maxNorm
  norm_num [List.foldr]

/-! ### C60: AGC is applied once -/

/-- C60, what holds: normalising the same seismogram again does not apply the AGC again. Missing:
copies. -/
theorem C60_once_partial (s : Trace) :
    (normalizeTrace 3 (normalizeTrace 3 s)).data = (normalizeTrace 2 (normalizeTrace 3 s)).data := by
  have h : (normalizeTrace 3 s).useAGC = false := by
    unfold normalizeTrace
    rw [if_neg (by norm_num), if_pos (by norm_num)]
    simp only
    split
    · rfl
    · rename_i hc
      simpa using hc
  generalize normalizeTrace 3 s = s' at h
  simp [normalizeTrace, h]

/-- C60 fails: a copy of a seismogram to which the AGC has been applied applies it again. -/
theorem C60_copy_violated :
    ∃ s : Trace, (normalizeTrace 3 (copy (normalizeTrace 3 s))).data ≠
      (normalizeTrace 3 (normalizeTrace 3 s)).data := by
  refine ⟨⟨[1], [2], true⟩, ?_⟩
  have hs : ∀ v : ℝ, 0 < v → l2Norm [v] = v := by
    intro v hv
    unfold l2Norm
    simp [Real.sqrt_sq hv.le]
  have h1 : normalizeTrace 3 ⟨[1], [2], true⟩ = ⟨[2], [2], false⟩ := by
    simp [normalizeTrace, divideBy, hs]
  have h2 : normalizeTrace 3 ⟨[2], [2], false⟩ = ⟨[1], [2], false⟩ := by
    simp [normalizeTrace, divideBy, hs]
  have h3 : normalizeTrace 3 ⟨[2], [2], true⟩ = ⟨[2], [2], false⟩ := by
    simp [normalizeTrace, divideBy, hs]
  rw [h1, h2]
  simp only [copy]
  rw [h3]
  simp

/-! ### C44 -/

/-- C44 fails: a non-finite last sample of the last trace is not detected. -/
theorem C44_last_trace_violated :
    isFinite [true, true, true, false] 2 = .ok true ∧ isFinite [false] 1 = .ok true := by decide

/-- C44, what holds: the last samples of all traces but the last are checked, nothing else, and all
accesses exist. Missing: the last trace. -/
theorem C44_checked_partial {traces : List (List Bool)} {NT : Nat} (hNT : 0 < NT)
    (hl : ∀ t ∈ traces, t.length = NT) :
    isFinite traces.flatten NT =
      .ok ((traces.dropLast).all fun t => t.getLast?.getD true) := by
  have key : ∀ (rest : List (List Bool)) (pre : List Bool) (fuel : Nat), rest.length ≤ fuel →
      (∀ t ∈ rest, t.length = NT) →
      finiteLoop (pre ++ rest.flatten) NT fuel ((pre.length : Int) + NT - 1) =
        .ok (rest.dropLast.all fun t => t.getLast?.getD true) := by
    intro rest
    induction rest with
    | nil =>
      intro pre fuel _ _
      cases fuel with
      | zero => rfl
      | succ fuel =>
        unfold finiteLoop
        rw [if_neg (by simp)]
        rfl
    | cons t rest ih =>
      intro pre fuel hf hr
      have ht := hr t List.mem_cons_self
      cases fuel with
      | zero => simp at hf
      | succ fuel =>
        unfold finiteLoop
        cases rest with
        | nil =>
          rw [if_neg (by simp [ht])]
          rfl
        | cons u rest =>
          have hu := hr u (by simp)
          rw [if_pos (by
            have : (pre ++ (t :: u :: rest).flatten).length =
                pre.length + (NT + (NT + rest.flatten.length)) := by
              simp only [List.length_append, List.flatten_cons, ht, hu]
            rw [this]; push_cast; omega)]
          have hidx : ((pre.length : Int) + NT - 1).toNat = pre.length + (NT - 1) := by omega
          have hget : (pre ++ (t :: u :: rest).flatten)[((pre.length : Int) + NT - 1).toNat]? =
              t.getLast? := by
            rw [hidx, List.getElem?_append_right (by omega), Nat.add_sub_cancel_left,
              List.flatten_cons, List.getElem?_append_left (by omega), List.getLast?_eq_getElem?, ht]
          rw [hget]
          have hne : t ≠ [] := by rintro rfl; simp at ht; omega
          rw [List.getLast?_eq_some_getLast hne]
          have hnext := ih (pre ++ t) fuel (by simp at hf ⊢; omega)
            (fun x hx => hr x (List.mem_cons_of_mem _ hx))
          rw [show (t :: u :: rest).dropLast = t :: (u :: rest).dropLast from rfl, List.all_cons]
          cases hb : t.getLast hne with
          | false => simp [hb, List.getLast?_eq_some_getLast hne]
          | true =>
            simp only [Bool.true_eq_false, if_false]
            rw [List.append_assoc, List.length_append, ht] at hnext
            rw [show (pre.length : Int) + NT - 1 + NT = ((pre.length + NT : Nat) : Int) + NT - 1 by
              push_cast; ring]
            rw [List.flatten_cons, hnext]
            simp [hb, List.getLast?_eq_some_getLast hne]
  unfold isFinite
  have hfuel : traces.length ≤ traces.flatten.length := by
    clear key
    induction traces with
    | nil => simp
    | cons t ts ih =>
      have := ih fun x hx => hl x (List.mem_cons_of_mem _ hx)
      have h := hl t List.mem_cons_self
      simp only [List.length_cons, List.flatten_cons, List.length_append]
      omega
  have := key traces [] traces.flatten.length hfuel hl
  simpa using this

/-- C44: in particular finite seismograms are never reported as not finite. -/
theorem C44_no_false_alarm {traces : List (List Bool)} {NT : Nat} (hNT : 0 < NT)
    (hl : ∀ t ∈ traces, t.length = NT) (hf : ∀ t ∈ traces, ∀ b ∈ t, b = true) :
    isFinite traces.flatten NT = .ok true := by
  rw [C44_checked_partial hNT hl]
  congr 1
  rw [List.all_eq_true]
  intro t ht
  have hmem := List.dropLast_subset _ ht
  cases h : t.getLast? with
  | none => rfl
  | some b => exact hf t hmem b (List.mem_of_getLast? h)

example : isFinite [true, false, true, true, true, true] 2 = .ok false := by decide

/-! ### C45 -/

/-- C45 fails: differentiating an integrated trace does not restore it. -/
theorem C45_inverse_violated :
    differentiate 1 (integrate 1 [0, 1, 1, 1]) = [0, 1, 1, 2] := by decide +kernel

/-- C45: the first sample of the integral is not multiplied by DT. -/
theorem C45_first_sample_violated :
    integrate (mkRat 1 2) [4, 2, 2] = [4, 5, 6] := by decide +kernel

private theorem sweep_length (g : ℚ → ℚ → ℚ) : ∀ (vs : List ℚ) (p : ℚ), (sweep g p vs).length = vs.length := by
  intro vs
  induction vs with
  | nil => intro p; rfl
  | cons v vs ih => intro p; simp [sweep, ih]

private theorem sweep_step (g : ℚ → ℚ → ℚ) : ∀ (vs : List ℚ) (p : ℚ) (j : Nat), j < vs.length →
    (sweep g p vs).getD j 0 = g (vs.getD j 0) ((p :: sweep g p vs).getD j 0) := by
  intro vs
  induction vs with
  | nil => intro p j h; simp at h
  | cons v vs ih =>
    intro p j h
    cases j with
    | zero => rfl
    | succ j =>
      have := ih (g v p) j (by simpa using h)
      simpa [sweep] using this

private theorem inPlace_spec (g : ℚ → ℚ → ℚ) (x : List ℚ) :
    (inPlace g x).length = x.length ∧ (inPlace g x).getD 0 0 = x.getD 0 0 ∧
      ∀ j, j + 1 < x.length →
        (inPlace g x).getD (j + 1) 0 = g (x.getD (j + 1) 0) ((inPlace g x).getD j 0) := by
  cases x with
  | nil => exact ⟨rfl, rfl, fun j h => by simp at h⟩
  | cons v vs =>
    refine ⟨by simp [inPlace, sweep_length], rfl, fun j h => ?_⟩
    have := sweep_step g vs v j (by simpa using h)
    simpa [inPlace] using this

/-- C45, what holds: the integral is the first sample plus DT times the sum of the following. -/
theorem C45_integral_partial (DT : ℚ) (x : List ℚ) :
    (integrate DT x).length = x.length ∧ ∀ j < x.length,
      (integrate DT x).getD j 0 = x.getD 0 0 + DT * ∑ k ∈ Ico 1 (j + 1), x.getD k 0 := by
  obtain ⟨h1, h2, h3⟩ := inPlace_spec (fun v prev => v * DT + prev) x
  refine ⟨h1, ?_⟩
  intro j
  induction j with
  | zero => intro _; rw [show integrate DT x = inPlace (fun v prev => v * DT + prev) x from rfl, h2]; simp
  | succ j ih =>
    intro hj
    have := h3 j hj
    rw [show inPlace (fun v prev => v * DT + prev) x = integrate DT x from rfl, ih (by omega)] at this
    rw [this, Finset.sum_Ico_succ_top (show 1 ≤ j + 1 by omega)]
    ring

/-- C45, what holds: what `differentiateTraces` computes satisfies `DT*r[j+1] + r[j] = x[j+1]`, so
only the first difference is right. -/
theorem C45_differentiate_partial {DT : ℚ} (hd : DT ≠ 0) (x : List ℚ) :
    (differentiate DT x).length = x.length ∧ (differentiate DT x).getD 0 0 = x.getD 0 0 ∧
      ∀ j, j + 1 < x.length →
        DT * (differentiate DT x).getD (j + 1) 0 + (differentiate DT x).getD j 0 = x.getD (j + 1) 0 := by
  obtain ⟨h1, h2, h3⟩ := inPlace_spec (fun v prev => (v - prev) / DT) x
  refine ⟨h1, h2, fun j hj => ?_⟩
  have := h3 j hj
  rw [show inPlace (fun v prev => (v - prev) / DT) x = differentiate DT x from rfl] at this
  rw [this]
  field_simp
  ring

/-- C45, what holds: the first two samples of an integrated trace are restored. -/
theorem C45_two_samples_partial {DT : ℚ} (hd : DT ≠ 0) {x : List ℚ} (hx : 2 ≤ x.length) :
    (differentiate DT (integrate DT x)).getD 0 0 = x.getD 0 0 ∧
      (differentiate DT (integrate DT x)).getD 1 0 = x.getD 1 0 := by
  obtain ⟨i1, i2⟩ := C45_integral_partial DT x
  obtain ⟨_, d2, d3⟩ := C45_differentiate_partial hd (integrate DT x)
  have e0 := i2 0 (by omega)
  have e1 := i2 1 (by omega)
  have s0 : Ico 1 (0 + 1) = (∅ : Finset Nat) := by decide
  have s1 : Ico 1 (1 + 1) = ({1} : Finset Nat) := by decide
  rw [s0, Finset.sum_empty, mul_zero, add_zero] at e0
  rw [s1, Finset.sum_singleton] at e1
  have h := d3 0 (by omega)
  rw [zero_add] at h
  rw [d2, e0, e1] at h
  refine ⟨by rw [d2, e0], ?_⟩
  have : DT * (differentiate DT (integrate DT x)).getD 1 0 = DT * x.getD 1 0 := by linarith
  exact mul_left_cancel₀ hd this

/-! ### C61: common offset profile -/

/-- C61, what holds: in the first round, if every shot belongs to at most one domain, the written
profile holds the trace of every scheduled shot in its row and zeros elsewhere. Missing: further
rounds. -/
theorem C61_first_round_partial {D : Nat} {sched : Nat → List Nat} {data : Nat → ℚ}
    (hex : ∀ s, ∀ p < D, ∀ q < D, s ∈ sched p → s ∈ sched q → p = q) (s : Nat) :
    (∀ p < D, s ∈ sched p → (profileRound D sched data fun _ _ => 0).1 s = data s) ∧
      ((∀ p < D, s ∉ sched p) → (profileRound D sched data fun _ _ => 0).1 s = 0) := by
  unfold profileRound total storeRows
  simp only
  have zero : ∀ n, (∀ p < n, s ∉ sched p) →
      ((List.range n).map fun p => if s ∈ sched p then data s else 0).sum = 0 := by
    intro n
    induction n with
    | zero => intro _; simp
    | succ n ih =>
      intro h
      rw [List.range_succ, List.map_append, List.sum_append, ih fun p hp => h p (by omega)]
      simp [h n (by omega)]
  refine ⟨?_, zero D⟩
  intro p hp hs
  have one : ∀ n, p < n → n ≤ D →
      ((List.range n).map fun p => if s ∈ sched p then data s else 0).sum = data s := by
    intro n
    induction n with
    | zero => intro h; omega
    | succ n ih =>
      intro h1 h2
      rw [List.range_succ, List.map_append, List.sum_append]
      by_cases hpn : p = n
      · subst hpn
        rw [zero p fun q hq hsq => absurd (hex s q (by omega) p hp hsq hs) (by omega)]
        simp [hs]
      · rw [ih (by omega) (by omega)]
        have : s ∉ sched n := fun h => hpn (hex s p hp n (by omega) hs h)
        simp [this]
  exact one D hp (le_refl _)

/-- C61 fails from the second round on (random selection or wavefield decomposition): domain 0
resets its rows, the others add the rows of earlier rounds again. With one domain the rows of
earlier rounds are lost, with three they are doubled. -/
theorem C61_second_round_violated :
    let data := fun _ : Nat => (1 : ℚ)
    (profileRound 1 (fun _ => [1]) data (profileRound 1 (fun _ => [0]) data fun _ _ => 0).2).1 0 = 0 ∧
      (profileRound 3 (fun p => [3 + p]) data
        (profileRound 3 (fun p => [p]) data fun _ _ => 0).2).1 0 = 2 := by
  decide +kernel

end Verif.Seis
