import Verif.Model.Signal
import Mathlib.Analysis.Real.Pi.Bounds
import Mathlib.Analysis.Complex.ExponentialBounds
import Mathlib.Tactic.Linarith
import Mathlib.Tactic.FieldSimp
import Mathlib.Tactic.Ring
import Mathlib.Tactic.NormNum
/-!
# Properties of the synthetic source signals (C50, C51, C64, C65)
-/
namespace Verif.Signal
open Real

/-! ### The window loop -/

private theorem winLoop_ok {NT : Int} {f : Nat → ℝ} : ∀ (n : Nat) (i : Int) (count : Nat) (v : Nat → ℝ),
    0 ≤ i → i + n ≤ NT → winLoop NT f n i count v =
      .ok fun j => if i ≤ (j : Int) ∧ (j : Int) < i + n then f (count + ((j : Int) - i).toNat) else v j := by
  intro n
  induction n with
  | zero =>
    intro i count v _ _
    unfold winLoop
    congr 1
    funext j
    rw [if_neg (by push_cast; omega)]
  | succ n ih =>
    intro i count v h0 h1
    push_cast at h1
    unfold winLoop
    rw [if_pos ⟨h0, by omega⟩, ih _ _ _ (by omega) (by omega)]
    congr 1
    funext j
    by_cases hj : (j : Int) = i
    · rw [if_neg (by omega), if_pos (by push_cast; omega)]
      have : i.toNat = j := by omega
      rw [this, Function.update_self, hj]
      simp
    · rw [Function.update_of_ne (by omega)]
      by_cases hc : i + 1 ≤ (j : Int) ∧ (j : Int) < i + 1 + n
      · rw [if_pos hc, if_pos (by push_cast; omega)]
        congr 1
        omega
      · rw [if_neg hc, if_neg (by push_cast; omega)]

private theorem winLoop_ub {NT : Int} {f : Nat → ℝ} : ∀ (n : Nat) (i : Int) (count : Nat) (v : Nat → ℝ),
    i ≤ NT → NT < i + n → winLoop NT f n i count v = .ub := by
  intro n
  induction n with
  | zero => intro i count v h1 h2; push_cast at h2; omega
  | succ n ih =>
    intro i count v h1 h2
    push_cast at h2
    unfold winLoop
    by_cases hc : 0 ≤ i ∧ i < NT
    · rw [if_pos hc, ih _ _ _ (by omega) (by omega)]
    · rw [if_neg hc]

private theorem winLoop_neg {NT : Int} {f : Nat → ℝ} {n : Nat} {i : Int} {count : Nat} {v : Nat → ℝ}
    (hn : 0 < n) (hi : i < 0) : winLoop NT f n i count v = .ub := by
  cases n with
  | zero => omega
  | succ n => unfold winLoop; rw [if_neg (by omega)]

/-- Number of samples covered by one period. -/
private theorem period_nonneg {DT FC : ℝ} (hD : 0 < DT) (hF : 0 < FC) : 0 ≤ ⌊1 / FC / DT⌋ :=
  Int.floor_nonneg.mpr (by positivity)

private theorem windowed_err {NT : Int} {DT FC T : ℝ} {f : Nat → ℝ} (h : NT ≤ ⌊T / DT⌋) :
    windowed NT DT FC T f = .err := by
  unfold windowed window
  simp only
  rw [if_neg (by omega)]
  rfl

private theorem windowed_ub {NT : Int} {DT FC T : ℝ} {f : Nat → ℝ} (hNT : 0 < NT) (hD : 0 < DT)
    (hF : 0 < FC) (h : ⌊T / DT⌋ < 0 ∨ (⌊T / DT⌋ < NT ∧ ⌊T / DT⌋ + ⌊1 / FC / DT⌋ = NT)) :
    windowed NT DT FC T f = .ub := by
  have hm := period_nonneg hD hF
  unfold windowed window
  simp only
  rw [if_pos (by omega), Out.bind_ok]
  rcases h with h | ⟨h1, h2⟩
  · apply winLoop_neg _ h
    split <;> simp only <;> omega
  · simp only
    rw [if_neg (by omega)]
    apply winLoop_ub _ _ _ _ (by omega)
    omega

private theorem windowed_ok {NT : Int} {DT FC T : ℝ} {f : Nat → ℝ} (hD : 0 < DT)
    (hF : 0 < FC) (h0 : 0 ≤ ⌊T / DT⌋) (h1 : ⌊T / DT⌋ < NT) (h2 : ⌊T / DT⌋ + ⌊1 / FC / DT⌋ ≠ NT) :
    ∃ v, windowed NT DT FC T f = .ok v ∧ ∀ j : Nat, (j : Int) < NT →
      v j = if ⌊T / DT⌋ ≤ (j : Int) ∧ (j : Int) ≤ ⌊T / DT⌋ + ⌊1 / FC / DT⌋ then
        f ((j : Int) - ⌊T / DT⌋).toNat else 0 := by
  have hm := period_nonneg hD hF
  unfold windowed window
  simp only
  rw [if_pos h1, Out.bind_ok]
  simp only
  refine ⟨_, winLoop_ok _ _ _ _ h0 (by split <;> omega), ?_⟩
  intro j hj
  simp only [Nat.zero_add]
  by_cases hc : ⌊T / DT⌋ + ⌊1 / FC / DT⌋ > NT
  · rw [if_pos hc]
    by_cases hd : ⌊T / DT⌋ ≤ (j : Int)
    · rw [if_pos (by omega), if_pos (by omega)]
    · rw [if_neg (by omega), if_neg (by omega)]
  · rw [if_neg hc]
    by_cases hd : ⌊T / DT⌋ ≤ (j : Int) ∧ (j : Int) ≤ ⌊T / DT⌋ + ⌊1 / FC / DT⌋
    · rw [if_pos (by omega), if_pos hd]
    · rw [if_neg (by omega), if_neg hd]

private theorem shift_neg {DT T : ℝ} (hD : 0 < DT) : ⌊T / DT⌋ < 0 ↔ T < 0 := by
  rw [Int.floor_lt]
  push_cast
  constructor
  · intro h
    by_contra hc
    have : 0 ≤ T / DT := div_nonneg (by linarith) hD.le
    linarith
  · intro h
    exact div_neg_of_neg_of_pos h hD

private theorem windowed_cases {NT : Int} {DT FC T : ℝ} (hNT : 0 < NT) (hD : 0 < DT) (hF : 0 < FC)
    (f : Nat → ℝ) :
    (windowed NT DT FC T f = .err ∧ NT ≤ ⌊T / DT⌋) ∨
    (windowed NT DT FC T f = .ub ∧
      (T < 0 ∨ (⌊T / DT⌋ < NT ∧ ⌊T / DT⌋ + ⌊1 / FC / DT⌋ = NT))) ∨
    ((∃ v, windowed NT DT FC T f = .ok v ∧ ∀ j : Nat, (j : Int) < NT →
      v j = if ⌊T / DT⌋ ≤ (j : Int) ∧ (j : Int) ≤ ⌊T / DT⌋ + ⌊1 / FC / DT⌋ then
        f ((j : Int) - ⌊T / DT⌋).toNat else 0) ∧
      0 ≤ T ∧ ⌊T / DT⌋ < NT ∧ ⌊T / DT⌋ + ⌊1 / FC / DT⌋ ≠ NT) := by
  by_cases h1 : NT ≤ ⌊T / DT⌋
  · exact .inl ⟨windowed_err h1, h1⟩
  · by_cases h2 : ⌊T / DT⌋ < 0 ∨ (⌊T / DT⌋ < NT ∧ ⌊T / DT⌋ + ⌊1 / FC / DT⌋ = NT)
    · refine .inr (.inl ⟨windowed_ub hNT hD hF h2, ?_⟩)
      rw [← shift_neg hD]; exact h2
    · push Not at h2
      have h0 : 0 ≤ T := by
        by_contra hc
        have := (shift_neg (T := T) hD).mpr (by linarith)
        omega
      exact .inr (.inr ⟨windowed_ok hD hF h2.1 (by omega) (h2.2 (by omega)), h0, by omega,
        h2.2 (by omega)⟩)

private theorem checked_pos {α : Type} {NT : Int} {DT FC : ℝ} (hNT : 0 < NT) (hD : 0 < DT) (hF : 0 < FC)
    (x : Out α) : checked NT DT FC x = x := if_pos ⟨hNT, hD, hF⟩

private theorem checked_ok {α : Type} {NT : Int} {DT FC : ℝ} {x : Out α} {a : α}
    (h : checked NT DT FC x = .ok a) : (0 < NT ∧ 0 < DT ∧ 0 < FC) ∧ x = .ok a := by
  unfold checked at h
  split at h
  · rename_i hc; exact ⟨hc, h⟩
  · cases h

/-! ### C50: staying inside the trace

The last index of the window is clamped to the trace only if it exceeds the number of samples, not
if it equals it. -/

/-- C50: the sin³ signal is written outside the trace exactly if the time shift is negative or the
wavelet ends exactly one sample after the trace. Missing for the full property: these two cases. -/
theorem C50_sinThree_iff_partial {NT : Int} {DT FC AMP T : ℝ} (hNT : 0 < NT) (hD : 0 < DT) (hF : 0 < FC) :
    sinThree NT DT FC AMP T = .ub ↔
      T < 0 ∨ (⌊T / DT⌋ < NT ∧ ⌊T / DT⌋ + ⌊1 / FC / DT⌋ = NT) := by
  unfold sinThree
  rw [checked_pos hNT hD hF]
  rcases windowed_cases (T := T) hNT hD hF (fun count => sin (count * DT * π * FC) ^ 3) with
    ⟨h, h1⟩ | ⟨h, h1⟩ | ⟨⟨v, h, -⟩, h0, h1, h2⟩
  · rw [h]
    simp only [Out.bind_err, reduceCtorEq, false_iff]
    have : ¬ T < 0 := by rw [← shift_neg hD]; omega
    push Not
    exact ⟨by linarith, by omega⟩
  · rw [h]; simpa using h1
  · rw [h]
    simp only [Out.bind_ok, reduceCtorEq, false_iff]
    push Not
    exact ⟨h0, fun _ => h2⟩

/-- C50: the same for the Fuchs-Müller signal. -/
theorem C50_sinW_iff_partial {NT : Int} {DT FC AMP T : ℝ} (hNT : 0 < NT) (hD : 0 < DT) (hF : 0 < FC) :
    sinW NT DT FC AMP T = .ub ↔
      T < 0 ∨ (⌊T / DT⌋ < NT ∧ ⌊T / DT⌋ + ⌊1 / FC / DT⌋ = NT) := by
  unfold sinW
  rw [checked_pos hNT hD hF]
  rcases windowed_cases (T := T) hNT hD hF (fun count => sin (2 * count * DT * π * FC)) with
    ⟨h, h1⟩ | ⟨h, h1⟩ | ⟨⟨v, h, -⟩, h0, h1, h2⟩
  · rw [h]
    simp only [Out.bind_err, reduceCtorEq, false_iff]
    have : ¬ T < 0 := by rw [← shift_neg hD]; omega
    push Not
    exact ⟨by linarith, by omega⟩
  · rw [h]; simpa using h1
  · rcases windowed_cases (T := T) hNT hD hF (fun count => sin (2 * (2 * count * DT * π * FC))) with
      ⟨h', h1'⟩ | ⟨h', h1'⟩ | ⟨⟨v', h', -⟩, -⟩
    · omega
    · rw [h, h']; simpa using h1'
    · rw [h, h']
      simp only [Out.bind_ok, reduceCtorEq, false_iff]
      push Not
      exact ⟨h0, fun _ => h2⟩

/-- C50: the same for the integrated sin³ signal. -/
theorem C50_intgSinThree_iff_partial {NT : Int} {DT FC AMP T : ℝ} (hNT : 0 < NT) (hD : 0 < DT)
    (hF : 0 < FC) :
    intgSinThree NT DT FC AMP T = .ub ↔
      T < 0 ∨ (⌊T / DT⌋ < NT ∧ ⌊T / DT⌋ + ⌊1 / FC / DT⌋ = NT) := by
  unfold intgSinThree
  rw [checked_pos hNT hD hF]
  rcases windowed_cases (T := T) hNT hD hF (fun count => cos (count * DT * π * FC)) with
    ⟨h, h1⟩ | ⟨h, h1⟩ | ⟨⟨v, h, -⟩, h0, h1, h2⟩
  · rw [h]
    simp only [Out.bind_err, reduceCtorEq, false_iff]
    have : ¬ T < 0 := by rw [← shift_neg hD]; omega
    push Not
    exact ⟨by linarith, by omega⟩
  · rw [h]; simpa using h1
  · rcases windowed_cases (T := T) hNT hD hF (fun count => cos (count * DT * π * FC) ^ 3) with
      ⟨h', h1'⟩ | ⟨h', h1'⟩ | ⟨⟨v', h', -⟩, -⟩
    · omega
    · rw [h, h']; simpa using h1'
    · rw [h, h']
      simp only [Out.bind_ok, reduceCtorEq, false_iff]
      push Not
      exact ⟨h0, fun _ => h2⟩

/-- C50: the spike is written outside the trace exactly if the time shift is negative. -/
theorem C50_spike_iff_partial {NT : Int} {DT AMP T : ℝ} (hNT : 0 < NT) (hD : 0 < DT) :
    spike NT DT AMP T = .ub ↔ T < 0 := by
  unfold spike
  rw [checked_pos hNT hD one_pos, ← shift_neg hD]
  simp only
  by_cases h1 : ⌊T / DT⌋ < NT
  · rw [if_pos h1]
    by_cases h2 : 0 ≤ ⌊T / DT⌋
    · rw [if_pos h2]; simp; omega
    · rw [if_neg h2]; simp; omega
  · rw [if_neg h1]; simp; omega

/-- C50: a 50 Hz signal of 100 samples at 1 ms shifted by 80 ms is written past the end; so is a spike
with negative shift before the start. -/
theorem C50_violated :
    sinThree 100 (1 / 1000) 50 1 (80 / 1000) = .ub ∧ sinW 100 (1 / 1000) 50 1 (80 / 1000) = .ub ∧
      intgSinThree 100 (1 / 1000) 50 1 (80 / 1000) = .ub ∧ spike 100 (1 / 1000) 1 (-1 / 1000) = .ub := by
  have hc : ⌊(80 / 1000 : ℝ) / (1 / 1000)⌋ < 100 ∧
      ⌊(80 / 1000 : ℝ) / (1 / 1000)⌋ + ⌊(1 : ℝ) / 50 / (1 / 1000)⌋ = 100 := by
    have h1 : ((80 / 1000 : ℝ) / (1 / 1000)) = ((80 : Int) : ℝ) := by norm_num
    have h2 : ((1 : ℝ) / 50 / (1 / 1000)) = ((20 : Int) : ℝ) := by norm_num
    rw [h1, h2, Int.floor_intCast, Int.floor_intCast]
    norm_num
  exact ⟨(C50_sinThree_iff_partial (by norm_num) (by norm_num) (by norm_num)).mpr (.inr hc),
    (C50_sinW_iff_partial (by norm_num) (by norm_num) (by norm_num)).mpr (.inr hc),
    (C50_intgSinThree_iff_partial (by norm_num) (by norm_num) (by norm_num)).mpr (.inr hc),
    (C50_spike_iff_partial (by norm_num) (by norm_num)).mpr (by norm_num)⟩

/-! ### C51: silence before the onset -/

private theorem before_shift {DT T : ℝ} (hD : 0 < DT) {i : Nat} (h : i * DT ≤ T) :
    (i : Int) ≤ ⌊T / DT⌋ := by
  rw [Int.le_floor, le_div_iff₀ hD]
  exact_mod_cast h

private theorem ok_windowed {NT : Int} {DT FC T : ℝ} (hNT : 0 < NT) (hD : 0 < DT) (hF : 0 < FC)
    {f : Nat → ℝ} {v : Nat → ℝ} (h : windowed NT DT FC T f = .ok v) :
    (∀ j : Nat, (j : Int) < NT →
      v j = if ⌊T / DT⌋ ≤ (j : Int) ∧ (j : Int) ≤ ⌊T / DT⌋ + ⌊1 / FC / DT⌋ then
        f ((j : Int) - ⌊T / DT⌋).toNat else 0) ∧
      0 ≤ T ∧ ⌊T / DT⌋ < NT ∧ ⌊T / DT⌋ + ⌊1 / FC / DT⌋ ≠ NT := by
  rcases windowed_cases (T := T) hNT hD hF f with ⟨h', -⟩ | ⟨h', -⟩ | ⟨⟨w, h', hw⟩, hr⟩
  · rw [h'] at h; cases h
  · rw [h'] at h; cases h
  · rw [h'] at h
    cases h
    exact ⟨hw, hr⟩

private theorem sinThree_ok {NT : Int} {DT FC AMP T : ℝ} {s : Nat → ℝ}
    (h : sinThree NT DT FC AMP T = .ok s) :
    (0 < NT ∧ 0 < DT ∧ 0 < FC) ∧ (∀ j : Nat, (j : Int) < NT →
      s j = AMP * if ⌊T / DT⌋ ≤ (j : Int) ∧ (j : Int) ≤ ⌊T / DT⌋ + ⌊1 / FC / DT⌋ then
        sin ((((j : Int) - ⌊T / DT⌋).toNat : ℝ) * DT * π * FC) ^ 3 else 0) ∧
      0 ≤ T ∧ ⌊T / DT⌋ < NT ∧ ⌊T / DT⌋ + ⌊1 / FC / DT⌋ ≠ NT := by
  obtain ⟨hc, h⟩ := checked_ok h
  cases hw : windowed NT DT FC T (fun count => sin (count * DT * π * FC) ^ 3) with
  | err => rw [hw] at h; cases h
  | ub => rw [hw] at h; cases h
  | ok v =>
    rw [hw] at h
    cases h
    obtain ⟨h1, h2⟩ := ok_windowed hc.1 hc.2.1 hc.2.2 hw
    exact ⟨hc, fun j hj => by simp only [h1 j hj], h2⟩

private theorem sinW_ok {NT : Int} {DT FC AMP T : ℝ} {s : Nat → ℝ}
    (h : sinW NT DT FC AMP T = .ok s) :
    (0 < NT ∧ 0 < DT ∧ 0 < FC) ∧ (∀ j : Nat, (j : Int) < NT →
      s j = AMP * if ⌊T / DT⌋ ≤ (j : Int) ∧ (j : Int) ≤ ⌊T / DT⌋ + ⌊1 / FC / DT⌋ then
        sin (2 * (((j : Int) - ⌊T / DT⌋).toNat : ℝ) * DT * π * FC) -
          sin (2 * (2 * (((j : Int) - ⌊T / DT⌋).toNat : ℝ) * DT * π * FC)) / 2 else 0) ∧
      0 ≤ T ∧ ⌊T / DT⌋ < NT ∧ ⌊T / DT⌋ + ⌊1 / FC / DT⌋ ≠ NT := by
  obtain ⟨hc, h⟩ := checked_ok h
  cases hw : windowed NT DT FC T (fun count => sin (2 * count * DT * π * FC)) with
  | err => rw [hw] at h; cases h
  | ub => rw [hw] at h; cases h
  | ok v =>
    cases hw' : windowed NT DT FC T (fun count => sin (2 * (2 * count * DT * π * FC))) with
    | err => rw [hw, hw'] at h; cases h
    | ub => rw [hw, hw'] at h; cases h
    | ok v' =>
      rw [hw, hw'] at h
      cases h
      obtain ⟨h1, h2⟩ := ok_windowed hc.1 hc.2.1 hc.2.2 hw
      obtain ⟨h1', -⟩ := ok_windowed hc.1 hc.2.1 hc.2.2 hw'
      refine ⟨hc, fun j hj => ?_, h2⟩
      simp only [h1 j hj, h1' j hj]
      split
      · rfl
      · simp

private theorem intg_ok {NT : Int} {DT FC AMP T : ℝ} {s : Nat → ℝ}
    (h : intgSinThree NT DT FC AMP T = .ok s) :
    (0 < NT ∧ 0 < DT ∧ 0 < FC) ∧ (∀ j : Nat, (j : Int) < NT →
      s j = AMP * ((0.5 + if ⌊T / DT⌋ ≤ (j : Int) ∧ (j : Int) ≤ ⌊T / DT⌋ + ⌊1 / FC / DT⌋ then
        0.25 * cos ((((j : Int) - ⌊T / DT⌋).toNat : ℝ) * DT * π * FC) ^ 3 -
          0.75 * cos ((((j : Int) - ⌊T / DT⌋).toNat : ℝ) * DT * π * FC) else 0) / FC / π / 0.75)) ∧
      0 ≤ T ∧ ⌊T / DT⌋ < NT ∧ ⌊T / DT⌋ + ⌊1 / FC / DT⌋ ≠ NT := by
  obtain ⟨hc, h⟩ := checked_ok h
  cases hw : windowed NT DT FC T (fun count => cos (count * DT * π * FC)) with
  | err => rw [hw] at h; cases h
  | ub => rw [hw] at h; cases h
  | ok v =>
    cases hw' : windowed NT DT FC T (fun count => cos (count * DT * π * FC) ^ 3) with
    | err => rw [hw, hw'] at h; cases h
    | ub => rw [hw, hw'] at h; cases h
    | ok v' =>
      rw [hw, hw'] at h
      cases h
      obtain ⟨h1, h2⟩ := ok_windowed hc.1 hc.2.1 hc.2.2 hw
      obtain ⟨h1', -⟩ := ok_windowed hc.1 hc.2.1 hc.2.2 hw'
      refine ⟨hc, fun j hj => ?_, h2⟩
      simp only [h1 j hj, h1' j hj]
      split
      · rfl
      · simp

/-- C51: the sin³ signal is zero at every sample up to its time shift. -/
theorem C51_sinThree {NT : Int} {DT FC AMP T : ℝ} {s : Nat → ℝ}
    (h : sinThree NT DT FC AMP T = .ok s) {i : Nat} (hi : (i : Int) < NT) (ht : i * DT ≤ T) : s i = 0 := by
  obtain ⟨hc, hs, -⟩ := sinThree_ok h
  rw [hs i hi]
  have := before_shift hc.2.1 ht
  split
  · have e : ((i : Int) - ⌊T / DT⌋).toNat = 0 := by omega
    simp [e]
  · simp

/-- C51: so is the Fuchs-Müller signal. -/
theorem C51_sinW {NT : Int} {DT FC AMP T : ℝ} {s : Nat → ℝ}
    (h : sinW NT DT FC AMP T = .ok s) {i : Nat} (hi : (i : Int) < NT) (ht : i * DT ≤ T) : s i = 0 := by
  obtain ⟨hc, hs, -⟩ := sinW_ok h
  rw [hs i hi]
  have := before_shift hc.2.1 ht
  split
  · have e : ((i : Int) - ⌊T / DT⌋).toNat = 0 := by omega
    simp [e]
  · simp

/-- C51: the Berlage signal is zero until one period after its time shift. -/
theorem C51_berlage {NT : Int} {DT FC AMP T : ℝ} {s : Nat → ℝ}
    (h : berlage NT DT FC AMP T = .ok (some s)) {i : Nat} (ht : i * DT ≤ 1 / FC + T) : s i = 0 := by
  obtain ⟨hc, h⟩ := checked_ok h
  simp only at h
  split at h
  · cases h
  · cases h
    have : berlageRaw DT FC T i = 0 := by
      unfold berlageRaw
      simp only [zero_add]
      rcases lt_or_eq_of_le ht with hlt | heq
      · rw [sign_neg (a := (i : ℝ) * DT - (1 / FC + T)) (by linarith)]
        simp
      · rw [heq]; simp
    simp [this]

/-- C51: the integrated sin³ signal is not zero before its onset: every sample before the shift (by
at least one sampling interval) has the value `2·AMP/(3·π·FC)`. -/
theorem C51_intgSinThree_violated {NT : Int} {DT FC AMP T : ℝ} {s : Nat → ℝ} (hA : AMP ≠ 0)
    (h : intgSinThree NT DT FC AMP T = .ok s) {i : Nat} (ht : (i + 1) * DT ≤ T) :
    s i ≠ 0 ∧ s i = 2 * AMP / (3 * π * FC) := by
  obtain ⟨hc, hs, h0, h1, -⟩ := intg_ok h
  have hi : ((i + 1 : Nat) : Int) ≤ ⌊T / DT⌋ := before_shift hc.2.1 (by push_cast; exact ht)
  push_cast at hi
  have e := hs i (by omega)
  rw [if_neg (by omega)] at e
  have hpi := pi_pos
  have hF := hc.2.2
  have e2 : s i = 2 * AMP / (3 * π * FC) := by
    rw [e]
    field_simp
    ring
  refine ⟨?_, e2⟩
  rw [e2]
  have : (0 : ℝ) < 3 * π * FC := by positivity
  exact div_ne_zero (by simpa using hA) this.ne'

/-- There are such signals: 1000 samples at 1 ms, 50 Hz, shifted by half a second. -/
example : ∃ s, intgSinThree 1000 (1 / 1000) 50 3 (1 / 2) = .ok s ∧ s 10 ≠ 0 := by
  have hx : ⌊(1 / 2 : ℝ) / (1 / 1000)⌋ = 500 := by
    have : ((1 / 2 : ℝ) / (1 / 1000)) = ((500 : Int) : ℝ) := by norm_num
    rw [this, Int.floor_intCast]
  have hy : ⌊(1 : ℝ) / 50 / (1 / 1000)⌋ = 20 := by
    have : ((1 : ℝ) / 50 / (1 / 1000)) = ((20 : Int) : ℝ) := by norm_num
    rw [this, Int.floor_intCast]
  cases h : intgSinThree 1000 (1 / 1000) 50 3 (1 / 2) with
  | ok s => exact ⟨s, rfl, (C51_intgSinThree_violated (by norm_num) h (i := 10) (by norm_num)).1⟩
  | ub =>
    rw [C50_intgSinThree_iff_partial (by norm_num) (by norm_num) (by norm_num), hx, hy] at h
    norm_num at h
  | err =>
    unfold intgSinThree at h
    rw [checked_pos (by norm_num) (by norm_num) (by norm_num)] at h
    obtain ⟨v, h1, -⟩ := windowed_ok (NT := 1000) (DT := 1 / 1000) (FC := 50) (T := 1 / 2)
      (f := fun count => cos (count * (1 / 1000) * π * 50)) (by norm_num) (by norm_num)
      (by rw [hx]; norm_num) (by rw [hx]; norm_num) (by rw [hx, hy]; norm_num)
    obtain ⟨w, h2, -⟩ := windowed_ok (NT := 1000) (DT := 1 / 1000) (FC := 50) (T := 1 / 2)
      (f := fun count => cos (count * (1 / 1000) * π * 50) ^ 3) (by norm_num) (by norm_num)
      (by rw [hx]; norm_num) (by rw [hx]; norm_num) (by rw [hx, hy]; norm_num)
    rw [h1, h2] at h
    cases h

private theorem spike_ok {NT : Int} {DT AMP T : ℝ} {s : Nat → ℝ} (h : spike NT DT AMP T = .ok s) :
    0 < DT ∧ 0 ≤ ⌊T / DT⌋ ∧ ∀ i : Nat, s i = if (i : Int) = ⌊T / DT⌋ then AMP else 0 := by
  obtain ⟨hc, h⟩ := checked_ok h
  simp only at h
  split at h
  · split at h
    · rename_i h0
      cases h
      refine ⟨hc.2.1, h0, fun i => ?_⟩
      by_cases hi : (i : Int) = ⌊T / DT⌋
      · have : ⌊T / DT⌋.toNat = i := by omega
        simp only
        rw [if_pos hi, this, Function.update_self, mul_one]
      · simp only
        rw [if_neg hi, Function.update_of_ne (by omega), mul_zero]
    · cases h
  · cases h

/-- C51: a spike whose time shift is a whole number of samples stands at its time. Missing: other
shifts. -/
theorem C51_spike_partial {NT : Int} {DT AMP : ℝ} {k : Nat} {s : Nat → ℝ}
    (h : spike NT DT AMP (k * DT) = .ok s) (i : Nat) : s i = if i = k then AMP else 0 := by
  obtain ⟨hD, -, hs⟩ := spike_ok h
  rw [hs i, mul_div_cancel_right₀ _ hD.ne']
  have : ⌊(k : ℝ)⌋ = (k : Int) := by simp
  rw [this]
  simp

/-- C51: with any other shift the spike comes early, at the sample before its time. -/
theorem C51_spike_violated {NT : Int} {DT AMP T : ℝ} {k : Nat} {s : Nat → ℝ}
    (h : spike NT DT AMP T = .ok s) (h1 : k * DT < T) (h2 : T < (k + 1) * DT) : s k = AMP := by
  obtain ⟨hD, -, hs⟩ := spike_ok h
  rw [hs k, if_pos]
  symm
  rw [Int.floor_eq_iff, le_div_iff₀ hD, div_lt_iff₀ hD]
  exact ⟨by exact_mod_cast h1.le, by exact_mod_cast h2⟩

/-- Such a spike: 10 samples at 1 s, shift 2.5 s; the spike stands at 2 s. -/
example : ∃ s, spike 10 1 7 (5 / 2) = .ok s ∧ s 2 = 7 := by
  have hx : ⌊(5 / 2 : ℝ) / 1⌋ = 2 := by rw [Int.floor_eq_iff]; norm_num
  have h : ∃ s, spike 10 1 7 (5 / 2) = .ok s := by
    unfold spike
    rw [checked_pos (by norm_num) (by norm_num) (by norm_num)]
    simp only
    rw [hx, if_pos (by norm_num), if_pos (by norm_num)]
    exact ⟨_, rfl⟩
  obtain ⟨s, h⟩ := h
  exact ⟨s, h, C51_spike_violated h (by norm_num) (by norm_num)⟩

/-! ### C64: the documented formulas

`doc/guide/WAVE_Simulation_guide_EN.tex`, equations "SignalStart" to "SignalEnd" and the two that
follow. -/

/-- Guide: Ricker wavelet. -/
noncomputable def docRicker (A fc Ts t : ℝ) : ℝ :=
  A * (1 - 2 * (π * fc * (t - 1.5 / fc - Ts)) ^ 2) * exp (-(π * fc * (t - 1.5 / fc - Ts)) ^ 2)

/-- Guide: first derivative of a Gaussian. -/
noncomputable def docFGaussian (A fc Ts t : ℝ) : ℝ :=
  -A * 2 * (π * fc * (t - 1.2 / fc - Ts)) * exp (-(π * fc * (t - 1.2 / fc - Ts)) ^ 2)

/-- Guide: Fuchs-Müller signal. -/
noncomputable def docSinW (A fc Ts t : ℝ) : ℝ :=
  if Ts ≤ t ∧ t ≤ Ts + 1 / fc then
    A * (sin (2 * π * fc * (t - Ts)) - 1 / 2 * sin (2 * (2 * π * fc * (t - Ts)))) else 0

/-- Guide: sin³ signal. -/
noncomputable def docSinThree (A fc Ts t : ℝ) : ℝ :=
  if Ts ≤ t ∧ t ≤ Ts + 1 / fc then A * sin (π * fc * (t - Ts)) ^ 3 else 0

/-- Guide: integral of sin³. -/
noncomputable def docIntgSinThree (A fc Ts t : ℝ) : ℝ :=
  if Ts ≤ t ∧ t ≤ Ts + 1 / fc then
    A * (1 / 2 - 3 / 4 * cos (π * fc * (t - Ts)) + 1 / 4 * cos (π * fc * (t - Ts)) ^ 3) /
      (fc * π * (3 / 4)) else 0

/-- Guide: Ricker wavelet of GprMax, with `tau` as argument. -/
noncomputable def docGprMax (A fc tau : ℝ) : ℝ :=
  -A * 2 * (2 * π ^ 2 * fc ^ 2) * sqrt (exp (1 / (2 * (2 * π ^ 2 * fc ^ 2)))) *
    exp (-(2 * π ^ 2 * fc ^ 2) * tau ^ 2) * tau

/-- Guide: Berlage wavelet. -/
noncomputable def docBerlage (A fc Ts t : ℝ) : ℝ :=
  if 0 ≤ t - 1 / fc - Ts then
    A * (t - 1 / fc - Ts) ^ 2 * exp (-(2 * fc) * (t - 1 / fc - Ts)) *
      cos (2 * π * fc * (t - 1 / fc - Ts)) else 0

/-- C64: the Ricker signal follows the documented formula at every sample. -/
theorem C64_ricker {NT : Int} {DT FC AMP T : ℝ} (hNT : 0 < NT) (hD : 0 < DT) (hF : 0 < FC) :
    ∃ s, ricker NT DT FC AMP T = .ok s ∧ ∀ i : Nat, s i = docRicker AMP FC T (i * DT) := by
  refine ⟨_, checked_pos hNT hD hF _, fun i => ?_⟩
  unfold docRicker
  simp only
  have e : (0 + (i : ℝ) * DT - (1.5 / FC + T)) * (π * FC) = π * FC * (i * DT - 1.5 / FC - T) := by ring
  rw [e]
  congr 2
  · ring
  · ring

/-- C64: the sine signal (not in the guide; the formula is the one of the comment in Sin.cpp:36-40) is
an oscillation with frequency FC: it starts from zero at the time shift, has the amplitude a quarter of
a period later and repeats after every period. -/
theorem C64_sine {NT : Int} {DT FC AMP T : ℝ} (hNT : 0 < NT) (hD : 0 < DT) (hF : 0 < FC) :
    ∃ s, sine NT DT FC AMP T = .ok s ∧
      (∀ i : Nat, s i = AMP * sin (2 * π * FC * (i * DT - T))) ∧
      (∀ i : Nat, i * DT = T → s i = 0) ∧
      (∀ i : Nat, i * DT = T + 1 / (4 * FC) → s i = AMP) ∧
      (∀ i k n : Nat, k * DT = n / FC → s (i + k) = s i) := by
  have e : ∀ i : Nat, (0 + (i : ℝ) * DT - T) * (2 * π * FC) = 2 * π * FC * (i * DT - T) := fun i => by ring
  refine ⟨_, checked_pos hNT hD hF _, fun i => ?_, fun i hi => ?_, fun i hi => ?_, fun i k n hk => ?_⟩
  · simp only [e]
  · simp only [e]
    rw [hi]
    simp
  · simp only [e]
    rw [hi]
    have : 2 * π * FC * (T + 1 / (4 * FC) - T) = π / 2 := by field_simp; ring
    rw [this, sin_pi_div_two, mul_one]
  · simp only [e]
    have : 2 * π * FC * (((i + k : Nat) : ℝ) * DT - T) = 2 * π * FC * (i * DT - T) + n * (2 * π) := by
      push_cast
      have : (k : ℝ) * DT * FC = n := by rw [hk]; field_simp
      linear_combination 2 * π * this
    rw [this, sin_add_nat_mul_two_pi]

/-- C64: the Gaussian derivative follows the documented formula at every sample. -/
theorem C64_fgaussian {NT : Int} {DT FC AMP T : ℝ} (hNT : 0 < NT) (hD : 0 < DT) (hF : 0 < FC) :
    ∃ s, fgaussian NT DT FC AMP T = .ok s ∧ ∀ i : Nat, s i = docFGaussian AMP FC T (i * DT) := by
  refine ⟨_, checked_pos hNT hD hF _, fun i => ?_⟩
  unfold docFGaussian
  simp only
  have e : (0 + (i : ℝ) * DT - (1.2 / FC + T)) * (π * FC) = π * FC * (i * DT - 1.2 / FC - T) := by ring
  rw [e]
  have e2 : -1 * (π * FC * (i * DT - 1.2 / FC - T)) * (π * FC * (i * DT - 1.2 / FC - T)) =
      -(π * FC * (i * DT - 1.2 / FC - T)) ^ 2 := by ring
  rw [e2]
  ring

private theorem window_iff {DT FC T : ℝ} (hD : 0 < DT) (i : Nat) :
    (⌊T / DT⌋ ≤ (i : Int) ∧ (i : Int) ≤ ⌊T / DT⌋ + ⌊1 / FC / DT⌋) ↔
      ((⌊T / DT⌋ : ℝ) * DT ≤ i * DT ∧ i * DT ≤ ⌊T / DT⌋ * DT + 1 / FC) := by
  constructor
  · rintro ⟨h1, h2⟩
    have h1' : ((⌊T / DT⌋ : Int) : ℝ) ≤ i := by exact_mod_cast h1
    refine ⟨mul_le_mul_of_nonneg_right h1' hD.le, ?_⟩
    have h3 : (i : Int) - ⌊T / DT⌋ ≤ ⌊1 / FC / DT⌋ := by omega
    rw [Int.le_floor, le_div_iff₀ hD] at h3
    push_cast at h3
    linarith
  · rintro ⟨h1, h2⟩
    have h1' := le_of_mul_le_mul_right h1 hD
    have h3 : (i : Int) - ⌊T / DT⌋ ≤ ⌊1 / FC / DT⌋ := by
      rw [Int.le_floor, le_div_iff₀ hD]
      push_cast
      linarith
    exact ⟨by exact_mod_cast h1', by omega⟩

private theorem arg_eq {DT FC T : ℝ} {i : Nat} (h : ⌊T / DT⌋ ≤ (i : Int)) :
    (((i : Int) - ⌊T / DT⌋).toNat : ℝ) * DT * π * FC = π * FC * (i * DT - ⌊T / DT⌋ * DT) := by
  have : ((((i : Int) - ⌊T / DT⌋).toNat : Int) : ℝ) = i - ⌊T / DT⌋ := by
    rw [Int.toNat_of_nonneg (by omega)]
    push_cast
    ring
  have e : (((i : Int) - ⌊T / DT⌋).toNat : ℝ) = i - ⌊T / DT⌋ := by exact_mod_cast this
  rw [e]
  ring

/-- C64: the sin³ signal follows the documented formula with the time shift rounded down to a
sample. Missing: shifts that are not a multiple of the sampling interval. -/
theorem C64_sinThree_partial {NT : Int} {DT FC AMP T : ℝ} {s : Nat → ℝ}
    (h : sinThree NT DT FC AMP T = .ok s) {i : Nat} (hi : (i : Int) < NT) :
    s i = docSinThree AMP FC (⌊T / DT⌋ * DT) (i * DT) := by
  obtain ⟨hc, hs, -⟩ := sinThree_ok h
  rw [hs i hi]
  unfold docSinThree
  by_cases hw : ⌊T / DT⌋ ≤ (i : Int) ∧ (i : Int) ≤ ⌊T / DT⌋ + ⌊1 / FC / DT⌋
  · rw [if_pos hw, if_pos ((window_iff hc.2.1 i).mp hw), arg_eq hw.1]
  · rw [if_neg hw, if_neg (fun h => hw ((window_iff hc.2.1 i).mpr h)), mul_zero]

/-- C64: the Fuchs-Müller signal follows the documented formula with the time shift rounded down to
a sample. -/
theorem C64_sinW_partial {NT : Int} {DT FC AMP T : ℝ} {s : Nat → ℝ}
    (h : sinW NT DT FC AMP T = .ok s) {i : Nat} (hi : (i : Int) < NT) :
    s i = docSinW AMP FC (⌊T / DT⌋ * DT) (i * DT) := by
  obtain ⟨hc, hs, -⟩ := sinW_ok h
  rw [hs i hi]
  unfold docSinW
  by_cases hw : ⌊T / DT⌋ ≤ (i : Int) ∧ (i : Int) ≤ ⌊T / DT⌋ + ⌊1 / FC / DT⌋
  · rw [if_pos hw, if_pos ((window_iff hc.2.1 i).mp hw)]
    have e := arg_eq (FC := FC) hw.1
    have e2 : 2 * (((i : Int) - ⌊T / DT⌋).toNat : ℝ) * DT * π * FC =
        2 * π * FC * (i * DT - ⌊T / DT⌋ * DT) := by linarith
    rw [e2]
    ring
  · rw [if_neg hw, if_neg (fun h => hw ((window_iff hc.2.1 i).mpr h)), mul_zero]

/-- C64: inside its window the integrated sin³ signal follows the documented formula, with the time
shift rounded down to a sample. Missing: outside the window it is not zero
(`C51_intgSinThree_violated`). -/
theorem C64_intgSinThree_partial {NT : Int} {DT FC AMP T : ℝ} {s : Nat → ℝ}
    (h : intgSinThree NT DT FC AMP T = .ok s) {i : Nat} (hi : (i : Int) < NT)
    (hw : ⌊T / DT⌋ * DT ≤ i * DT ∧ i * DT ≤ ⌊T / DT⌋ * DT + 1 / FC) :
    s i = docIntgSinThree AMP FC (⌊T / DT⌋ * DT) (i * DT) := by
  obtain ⟨hc, hs, -⟩ := intg_ok h
  rw [hs i hi]
  unfold docIntgSinThree
  have hw' := (window_iff (T := T) (FC := FC) hc.2.1 i).mpr hw
  rw [if_pos hw', if_pos hw, arg_eq hw'.1]
  have hpi := pi_pos
  have hF := hc.2.2
  field_simp
  ring

/-- C64: in particular the three windowed signals agree with the guide (the last one inside its
window) if the time shift is a multiple of the sampling interval; otherwise they do not: with
`DT = 1`, `FC = 1/2` and a shift of half a sample, sample 1 of the sin³ signal is 1 instead of
`sin³(π/4)`. -/
theorem C64_shift_violated :
    ∃ s, sinThree 10 1 (1 / 2) 1 (1 / 2) = .ok s ∧ s 1 = 1 ∧ docSinThree 1 (1 / 2) (1 / 2) 1 < 1 := by
  have hx : ⌊(1 / 2 : ℝ) / 1⌋ = 0 := by
    rw [Int.floor_eq_iff]; norm_num
  have hy : ⌊(1 : ℝ) / (1 / 2) / 1⌋ = 2 := by
    have : (1 : ℝ) / (1 / 2) / 1 = ((2 : Int) : ℝ) := by norm_num
    rw [this, Int.floor_intCast]
  obtain ⟨v, h1, -⟩ := windowed_ok (NT := 10) (DT := 1) (FC := 1 / 2) (T := 1 / 2)
    (f := fun count => sin (count * 1 * π * (1 / 2)) ^ 3) (by norm_num) (by norm_num)
    (by rw [hx]) (by rw [hx]; norm_num) (by rw [hx, hy]; norm_num)
  have hok : sinThree 10 1 (1 / 2) 1 (1 / 2) = .ok fun i => 1 * v i := by
    unfold sinThree
    rw [checked_pos (by norm_num) (by norm_num) (by norm_num), h1]
    rfl
  refine ⟨_, hok, ?_, ?_⟩
  · have := C64_sinThree_partial hok (i := 1) (by norm_num)
    rw [this, hx]
    unfold docSinThree
    rw [if_pos (by norm_num)]
    have e : π * (1 / 2) * (((1 : ℕ) : ℝ) * 1 - ((0 : Int) : ℝ) * 1) = π / 2 := by push_cast; ring
    rw [e, sin_pi_div_two]
    norm_num
  · unfold docSinThree
    rw [if_pos (by norm_num)]
    have e : π * (1 / 2) * (1 - 1 / 2) = π / 4 := by ring
    rw [e]
    have h0 : 0 ≤ sin (π / 4) := sin_nonneg_of_nonneg_of_le_pi (by linarith [pi_pos]) (by linarith [pi_pos])
    have h1 : sin (π / 4) < 1 := by
      rw [← sin_pi_div_two]
      exact sin_lt_sin_of_lt_of_le_pi_div_two (by linarith [pi_pos]) le_rfl (by linarith [pi_pos])
    have := pow_lt_one₀ h0 h1 (n := 3) (by norm_num)
    linarith

/-- C64: the GprMax signal follows the formula of the guide with `tau = t - 1/fc - Ts`. -/
theorem C64_gprMax_partial {NT : Int} {DT FC AMP T : ℝ} (hNT : 0 < NT) (hD : 0 < DT) (hF : 0 < FC) :
    ∃ s, rickerGprMax NT DT FC AMP T = .ok s ∧
      ∀ i : Nat, s i = docGprMax AMP FC (i * DT - 1 / FC - T) := by
  refine ⟨_, checked_pos hNT hD hF _, fun i => ?_⟩
  unfold docGprMax
  simp only
  have hz : (0 : ℝ) < 2 * π ^ 2 * FC ^ 2 := by have := pi_pos; positivity
  have e1 : sqrt (exp (1 / (2 * (2 * π ^ 2 * FC ^ 2)))) = exp (1 / (2 * π * π * FC * FC) / 4) := by
    rw [← exp_half]
    congr 1
    have := pi_pos
    field_simp
    norm_num
  have e2 : -1 * (2 * π * π * FC * FC * ((0 + (i : ℝ) * DT - (1 / FC + T)) * (0 + i * DT - (1 / FC + T)))) =
      -(2 * π ^ 2 * FC ^ 2) * (i * DT - 1 / FC - T) ^ 2 := by ring
  rw [e1, e2]
  ring

/-- C64: the guide, however, defines `tau = π·fc·(t - 1/fc - Ts)`; e.g. at the second sample with
`DT = FC = 1` the two disagree. -/
theorem C64_gprMax_violated :
    ∃ s, rickerGprMax 10 1 1 1 0 = .ok s ∧ s 2 ≠ docGprMax 1 1 (π * 1 * (2 - 1 / 1 - 0)) := by
  obtain ⟨s, h1, h2⟩ := C64_gprMax_partial (NT := 10) (DT := 1) (FC := 1) (AMP := 1) (T := 0)
    (by norm_num) one_pos one_pos
  refine ⟨s, h1, ?_⟩
  rw [h2 2]
  unfold docGprMax
  have hpi := pi_gt_three
  have hpi4 := pi_lt_four
  set E := sqrt (exp (1 / (2 * (2 * π ^ 2 * (1 : ℝ) ^ 2)))) with hE
  have hEpos : 0 < E := sqrt_pos.mpr (exp_pos _)
  intro hc
  have e1 : (((2 : ℕ) : ℝ) * 1 - 1 / 1 - 0) = 1 := by norm_num
  have e2 : (π * 1 * (2 - 1 / 1 - 0) : ℝ) = π := by norm_num
  rw [e1, e2] at hc
  have hc' : exp (-(2 * π ^ 2 * 1 ^ 2) * 1 ^ 2) = exp (-(2 * π ^ 2 * 1 ^ 2) * π ^ 2) * π := by
    have hK : (-1 * 2 * (2 * π ^ 2 * 1 ^ 2) * E : ℝ) ≠ 0 := by
      have : (0 : ℝ) < 2 * (2 * π ^ 2 * 1 ^ 2) * E := by positivity
      intro h
      linarith
    have : (-1 * 2 * (2 * π ^ 2 * 1 ^ 2) * E) * exp (-(2 * π ^ 2 * 1 ^ 2) * 1 ^ 2) =
        (-1 * 2 * (2 * π ^ 2 * 1 ^ 2) * E) * (exp (-(2 * π ^ 2 * 1 ^ 2) * π ^ 2) * π) := by
      linarith
    exact mul_left_cancel₀ hK this
  have e3 : exp (-(2 * π ^ 2 * 1 ^ 2) * 1 ^ 2) =
      exp (-(2 * π ^ 2 * 1 ^ 2) * π ^ 2) * exp (2 * π ^ 2 * (π ^ 2 - 1)) := by
    rw [← exp_add]; congr 1; ring
  rw [e3] at hc'
  have h4 := mul_left_cancel₀ (exp_pos _).ne' hc'
  have h5 := add_one_le_exp (2 * π ^ 2 * (π ^ 2 - 1))
  rw [h4] at h5
  have h6 : 9 ≤ π ^ 2 := by nlinarith
  have h7 : 8 * π ^ 2 ≤ π ^ 2 * (π ^ 2 - 1) := by nlinarith
  linarith

private theorem le_foldl_max (f : Nat → ℝ) : ∀ (l : List Nat) (m : ℝ),
    m ≤ l.foldl (fun m i => max m |f i|) m ∧ ∀ i ∈ l, |f i| ≤ l.foldl (fun m i => max m |f i|) m := by
  intro l
  induction l with
  | nil => intro m; simp
  | cons a l ih =>
    intro m
    obtain ⟨h1, h2⟩ := ih (max m |f a|)
    simp only [List.foldl_cons]
    refine ⟨le_trans (le_max_left _ _) h1, fun i hi => ?_⟩
    rcases List.mem_cons.mp hi with rfl | hi
    · exact le_trans (le_max_right _ _) h1
    · exact h2 i hi

private theorem foldl_max_mem (f : Nat → ℝ) : ∀ (l : List Nat) (m : ℝ),
    l.foldl (fun m i => max m |f i|) m = m ∨ ∃ i ∈ l, l.foldl (fun m i => max m |f i|) m = |f i| := by
  intro l
  induction l with
  | nil => intro m; simp
  | cons a l ih =>
    intro m
    simp only [List.foldl_cons]
    rcases ih (max m |f a|) with h | ⟨i, hi, h⟩
    · rw [h]
      rcases max_choice m |f a| with h' | h'
      · exact .inl h'
      · exact .inr ⟨a, by simp, h'⟩
    · exact .inr ⟨i, by simp [hi], h⟩

private theorem raw_doc {DT FC T : ℝ} (i : Nat) :
    berlageRaw DT FC T i = docBerlage 1 FC T (i * DT) := by
  unfold berlageRaw docBerlage
  simp only [zero_add]
  have e : (i : ℝ) * DT - (1 / FC + T) = i * DT - 1 / FC - T := by ring
  rw [e]
  rcases lt_trichotomy (i * DT - 1 / FC - T) 0 with h | h | h
  · rw [sign_neg h, if_neg (by linarith)]
    simp
  · rw [h]
    simp
  · rw [sign_pos h, if_pos h.le]
    have : SignType.sign (((1 : SignType) : ℝ) + 1) = 1 := sign_pos (by norm_num)
    rw [this]
    simp only [SignType.coe_one]
    have e2 : (i * DT - 1 / FC - T) * -(2 * FC) = -(2 * FC) * (i * DT - 1 / FC - T) := by ring
    rw [e2]
    ring

/-- C64: the Berlage signal is proportional to the documented formula. Missing: the factor, since the
code scales the sampled signal to a peak of `AMP`, which the guide does not mention. -/
theorem C64_berlage_partial {NT : Int} {DT FC AMP T : ℝ} {s : Nat → ℝ}
    (h : berlage NT DT FC AMP T = .ok (some s)) :
    ∃ c : ℝ, (AMP ≠ 0 → c ≠ 0) ∧ ∀ i : Nat, s i = c * docBerlage 1 FC T (i * DT) := by
  obtain ⟨hc, h⟩ := checked_ok h
  simp only at h
  split at h
  · cases h
  · rename_i hm
    cases h
    refine ⟨_, fun hA => div_ne_zero hA hm, fun i => ?_⟩
    simp only
    rw [raw_doc, mul_comm]

/-- C64: a Berlage signal that would start after the end of the simulation is not zero but not a
number (the code divides by the maximum of the all-zero signal). -/
theorem C64_berlage_nan_violated {NT : Int} {DT FC AMP T : ℝ} (hNT : 0 < NT) (hD : 0 < DT) (hF : 0 < FC)
    (h : (NT - 1) * DT ≤ 1 / FC + T) : berlage NT DT FC AMP T = .ok none := by
  unfold berlage
  rw [checked_pos hNT hD hF]
  simp only
  rw [if_pos]
  unfold maxNorm
  rcases foldl_max_mem (berlageRaw DT FC T) (List.range NT.toNat) 0 with h1 | ⟨i, hi, h1⟩
  · exact h1
  · rw [h1, raw_doc]
    have hi' : (i : Int) ≤ NT - 1 := by have := List.mem_range.mp hi; omega
    have hi2 : (i : ℝ) ≤ NT - 1 := by exact_mod_cast hi'
    have hle : (i : ℝ) * DT ≤ 1 / FC + T := le_trans (mul_le_mul_of_nonneg_right hi2 hD.le) h
    unfold docBerlage
    rcases lt_or_eq_of_le hle with hlt | heq
    · rw [if_neg (by linarith)]; simp
    · have : (i : ℝ) * DT - 1 / FC - T = 0 := by linarith
      rw [this]; simp

/-! ### C65: the amplitude parameter is the peak of the signal -/

private theorem ricker_le (x : ℝ) : |(1 - 2 * x ^ 2) * exp (-x ^ 2)| ≤ 1 := by
  rw [abs_mul, abs_of_pos (exp_pos _), exp_neg, ← div_eq_mul_inv, div_le_one (exp_pos _), abs_le]
  have h1 := add_one_le_exp (x ^ 2)
  have h2 := add_one_le_exp (x ^ 2 - 1)
  have h3 : exp (x ^ 2) = exp (x ^ 2 - 1) * exp 1 := by rw [← exp_add]; congr 1; ring
  have h4 := exp_one_gt_d9
  have hx : 0 ≤ x ^ 2 := sq_nonneg x
  constructor
  · nlinarith
  · nlinarith

/-- C65: no sample of a Ricker signal exceeds the amplitude, and the sample at `1.5/FC + T`, if there
is one, has it. -/
theorem C65_ricker {NT : Int} {DT FC AMP T : ℝ} {s : Nat → ℝ} (h : ricker NT DT FC AMP T = .ok s) :
    (∀ i, |s i| ≤ |AMP|) ∧ ∀ i : Nat, i * DT = 1.5 / FC + T → s i = AMP := by
  obtain ⟨⟨h1, h2, h3⟩, -⟩ := checked_ok h
  obtain ⟨s', h', hs⟩ := C64_ricker (AMP := AMP) (T := T) h1 h2 h3
  rw [h] at h'
  cases h'
  constructor
  · intro i
    rw [hs i]
    unfold docRicker
    rw [mul_assoc, abs_mul]
    have := ricker_le (π * FC * (i * DT - 1.5 / FC - T))
    nlinarith [abs_nonneg AMP]
  · intro i hi
    rw [hs i, hi]
    unfold docRicker
    have : (1.5 / FC + T - 1.5 / FC - T : ℝ) = 0 := by ring
    rw [this]
    simp

/-- C65: no sample of a sine signal exceeds the amplitude. -/
theorem C65_sine {NT : Int} {DT FC AMP T : ℝ} {s : Nat → ℝ} (h : sine NT DT FC AMP T = .ok s)
    (i : Nat) : |s i| ≤ |AMP| := by
  obtain ⟨⟨h1, h2, h3⟩, -⟩ := checked_ok h
  obtain ⟨s', h', hs, -⟩ := C64_sine (AMP := AMP) (T := T) h1 h2 h3
  rw [h] at h'
  cases h'
  rw [hs i, abs_mul]
  nlinarith [abs_nonneg AMP, abs_sin_le_one (2 * π * FC * (i * DT - T))]

/-- A sine of 5 Hz sampled at 100 Hz: sample 5 has the amplitude, sample 25 repeats it. -/
example : ∃ s, sine 100 (1 / 100) 5 2 0 = .ok s ∧ s 5 = 2 ∧ s 25 = 2 := by
  obtain ⟨s, hs, -, -, h2, h3⟩ := C64_sine (NT := 100) (DT := 1 / 100) (FC := 5) (AMP := 2) (T := 0)
    (by norm_num) (by norm_num) (by norm_num)
  have h5 := h2 5 (by norm_num)
  exact ⟨s, hs, h5, by have := h3 5 20 1 (by norm_num); rw [← h5, ← this]⟩

/-- C65: no sample of a Gaussian derivative exceeds the amplitude. -/
theorem C65_fgaussian {NT : Int} {DT FC AMP T : ℝ} {s : Nat → ℝ} (h : fgaussian NT DT FC AMP T = .ok s)
    (i : Nat) : |s i| ≤ |AMP| := by
  obtain ⟨⟨h1, h2, h3⟩, -⟩ := checked_ok h
  obtain ⟨s', h', hs⟩ := C64_fgaussian (AMP := AMP) (T := T) h1 h2 h3
  rw [h] at h'
  cases h'
  rw [hs i]
  unfold docFGaussian
  set x := π * FC * (i * DT - 1.2 / FC - T)
  have : |2 * x * exp (-x ^ 2)| ≤ 1 := by
    rw [abs_mul, abs_of_pos (exp_pos _), exp_neg, ← div_eq_mul_inv, div_le_one (exp_pos _), abs_le]
    have := add_one_le_exp (x ^ 2)
    constructor <;> nlinarith [sq_nonneg (x - 1), sq_nonneg (x + 1)]
  have e : -AMP * 2 * x * exp (-x ^ 2) = -AMP * (2 * x * exp (-x ^ 2)) := by ring
  rw [e, abs_mul, abs_neg]
  nlinarith [abs_nonneg AMP]

/-- C65: no sample of a sin³ signal exceeds the amplitude. -/
theorem C65_sinThree {NT : Int} {DT FC AMP T : ℝ} {s : Nat → ℝ} (h : sinThree NT DT FC AMP T = .ok s)
    {i : Nat} (hi : (i : Int) < NT) : |s i| ≤ |AMP| := by
  obtain ⟨-, hs, -⟩ := sinThree_ok h
  rw [hs i hi, abs_mul]
  have : |if ⌊T / DT⌋ ≤ (i : Int) ∧ (i : Int) ≤ ⌊T / DT⌋ + ⌊1 / FC / DT⌋ then
        sin ((((i : Int) - ⌊T / DT⌋).toNat : ℝ) * DT * π * FC) ^ 3 else 0| ≤ 1 := by
    split
    · rw [abs_pow]
      exact pow_le_one₀ (abs_nonneg _) (abs_sin_le_one _)
    · simp
  nlinarith [abs_nonneg AMP]

/-- C65: the peak of a Berlage signal is exactly the amplitude. -/
theorem C65_berlage {NT : Int} {DT FC AMP T : ℝ} {s : Nat → ℝ}
    (h : berlage NT DT FC AMP T = .ok (some s)) :
    (∀ i : Nat, (i : Int) < NT → |s i| ≤ |AMP|) ∧ ∃ i : Nat, (i : Int) < NT ∧ |s i| = |AMP| := by
  obtain ⟨hc, h⟩ := checked_ok h
  simp only at h
  split at h
  · cases h
  · rename_i hm
    cases h
    obtain ⟨h0, hle⟩ := le_foldl_max (berlageRaw DT FC T) (List.range NT.toNat) 0
    have hpos : 0 < maxNorm (berlageRaw DT FC T) NT.toNat := lt_of_le_of_ne h0 (Ne.symm hm)
    constructor
    · intro i hi
      have h1 := hle i (List.mem_range.mpr (by omega))
      rw [abs_mul, abs_div, abs_of_pos hpos, mul_div_assoc', div_le_iff₀ hpos, mul_comm]
      exact mul_le_mul_of_nonneg_left h1 (abs_nonneg _)
    · rcases foldl_max_mem (berlageRaw DT FC T) (List.range NT.toNat) 0 with h1 | ⟨i, hi, h1⟩
      · exact absurd h1 hm
      · refine ⟨i, by have := List.mem_range.mp hi; omega, ?_⟩
        rw [abs_mul, abs_div, abs_of_pos hpos]
        have : maxNorm (berlageRaw DT FC T) NT.toNat = |berlageRaw DT FC T i| := h1
        rw [← this]
        field_simp

/-- Such a signal: ten samples with `DT = FC = 1`; sample 2 is not zero. -/
example : ∃ s, berlage 10 1 1 5 0 = .ok (some s) := by
  unfold berlage
  rw [checked_pos (by norm_num) (by norm_num) (by norm_num)]
  simp only
  rw [if_neg]
  · exact ⟨_, rfl⟩
  · intro h
    have h2 := (le_foldl_max (berlageRaw 1 1 0) (List.range (10 : Int).toNat) 0).2 2 (by decide)
    unfold maxNorm at h
    rw [h, raw_doc] at h2
    have h3 := abs_nonpos_iff.mp h2
    unfold docBerlage at h3
    rw [if_pos (by norm_num)] at h3
    have e : 2 * π * 1 * (((2 : ℕ) : ℝ) * 1 - 1 / 1 - 0) = 2 * π := by push_cast; ring
    rw [e, cos_two_pi] at h3
    have := exp_pos (-(2 * 1 : ℝ) * (((2 : ℕ) : ℝ) * 1 - 1 / 1 - 0))
    norm_num at h3

/-- C65: a Fuchs-Müller signal can exceed the amplitude, but not by more than one half. -/
theorem C65_sinW_partial {NT : Int} {DT FC AMP T : ℝ} {s : Nat → ℝ} (h : sinW NT DT FC AMP T = .ok s)
    {i : Nat} (hi : (i : Int) < NT) : |s i| ≤ 3 / 2 * |AMP| := by
  obtain ⟨-, hs, -⟩ := sinW_ok h
  rw [hs i hi, abs_mul]
  have : |if ⌊T / DT⌋ ≤ (i : Int) ∧ (i : Int) ≤ ⌊T / DT⌋ + ⌊1 / FC / DT⌋ then
        sin (2 * (((i : Int) - ⌊T / DT⌋).toNat : ℝ) * DT * π * FC) -
          sin (2 * (2 * (((i : Int) - ⌊T / DT⌋).toNat : ℝ) * DT * π * FC)) / 2 else 0| ≤ 3 / 2 := by
    split
    · have h1 := abs_le.mp (abs_sin_le_one (2 * (((i : Int) - ⌊T / DT⌋).toNat : ℝ) * DT * π * FC))
      have h2 := abs_le.mp (abs_sin_le_one (2 * (2 * (((i : Int) - ⌊T / DT⌋).toNat : ℝ) * DT * π * FC)))
      rw [abs_le]
      constructor <;> linarith
    · norm_num
  nlinarith [abs_nonneg AMP]

/-- C65: with `DT = 1`, `FC = 3/8` sample 1 of the Fuchs-Müller signal is `√2/2 + 1/2 > 1`. -/
theorem C65_sinW_violated : ∃ s, sinW 10 1 (3 / 8) 1 0 = .ok s ∧ 1 < s 1 := by
  have hx : ⌊(0 : ℝ) / 1⌋ = 0 := by simp
  have hy : ⌊(1 : ℝ) / (3 / 8) / 1⌋ = 2 := by
    rw [Int.floor_eq_iff]; norm_num
  obtain ⟨v, h1, -⟩ := windowed_ok (NT := 10) (DT := 1) (FC := 3 / 8) (T := 0)
    (f := fun count => sin (2 * count * 1 * π * (3 / 8))) (by norm_num) (by norm_num)
    (by rw [hx]) (by rw [hx]; norm_num) (by rw [hx, hy]; norm_num)
  obtain ⟨w, h2, -⟩ := windowed_ok (NT := 10) (DT := 1) (FC := 3 / 8) (T := 0)
    (f := fun count => sin (2 * (2 * count * 1 * π * (3 / 8)))) (by norm_num) (by norm_num)
    (by rw [hx]) (by rw [hx]; norm_num) (by rw [hx, hy]; norm_num)
  have hok : sinW 10 1 (3 / 8) 1 0 = .ok fun i => 1 * (v i - w i / 2) := by
    unfold sinW
    rw [checked_pos (by norm_num) (by norm_num) (by norm_num), h1, h2]
    rfl
  refine ⟨_, hok, ?_⟩
  have := C64_sinW_partial hok (i := 1) (by norm_num)
  rw [this, hx]
  unfold docSinW
  rw [if_pos (by norm_num)]
  have e1 : 2 * π * (3 / 8) * (((1 : ℕ) : ℝ) * 1 - ((0 : Int) : ℝ) * 1) = π - π / 4 := by push_cast; ring
  have e2 : 2 * (π - π / 4) = π / 2 + π := by ring
  rw [e1, e2, sin_pi_sub, sin_pi_div_four, sin_add_pi, sin_pi_div_two]
  have : (1 : ℝ) < sqrt 2 := by
    rw [lt_sqrt (by norm_num)]; norm_num
  linarith

/-- C65: the GprMax signal is not normalised: for `FC ≥ 1` there is a sampling for which sample 1
exceeds `3·FC` times the amplitude. -/
theorem C65_gprMax_violated {FC AMP : ℝ} (hF : 1 ≤ FC) :
    ∃ DT s, rickerGprMax 10 DT FC AMP 0 = .ok s ∧ 3 * FC * |AMP| ≤ |s 1| := by
  have hpi := pi_gt_three
  have hF0 : 0 < FC := by linarith
  set DT := 1 / FC + 1 / (2 * π * FC) with hDT
  have hD : 0 < DT := by positivity
  obtain ⟨s, h1, h2⟩ := C64_gprMax_partial (NT := 10) (DT := DT) (FC := FC) (AMP := AMP) (T := 0)
    (by norm_num) hD hF0
  refine ⟨DT, s, h1, ?_⟩
  rw [h2 1]
  have e0 : ((1 : ℕ) : ℝ) * DT - 1 / FC - 0 = 1 / (2 * π * FC) := by rw [hDT]; push_cast; ring
  rw [e0]
  unfold docGprMax
  have e1 : -(2 * π ^ 2 * FC ^ 2) * (1 / (2 * π * FC)) ^ 2 = -(1 / 2) := by
    field_simp
  rw [e1]
  set E := sqrt (exp (1 / (2 * (2 * π ^ 2 * FC ^ 2)))) with hE
  have hE1 : 1 ≤ E := by
    rw [hE, one_le_sqrt]
    exact one_le_exp (by positivity)
  have e2 : -AMP * 2 * (2 * π ^ 2 * FC ^ 2) * E * exp (-(1 / 2)) * (1 / (2 * π * FC)) =
      -AMP * (2 * π * FC * E * exp (-(1 / 2))) := by
    field_simp
  rw [e2, abs_mul, abs_neg]
  have hexp : 1 / 2 ≤ exp (-(1 / 2) : ℝ) := by
    have := add_one_le_exp (-(1 / 2) : ℝ)
    linarith
  rw [abs_of_pos (show (0 : ℝ) < 2 * π * FC * E * exp (-(1 / 2)) by positivity)]
  have : 3 * FC ≤ 2 * π * FC * E * exp (-(1 / 2)) := by
    calc 3 * FC ≤ 2 * 3 * FC * 1 * (1 / 2) := by linarith
      _ ≤ 2 * π * FC * E * exp (-(1 / 2)) := by gcongr
  nlinarith [abs_nonneg AMP]

end Verif.Signal
