import Verif.Model.Encoding
import Verif.Model.Acquisition
import Mathlib.Tactic.Linarith
/-!
# C129, C130: the width of the grid when every shot has its own receivers
-/
namespace Verif.Encoding

private theorem runMin_le (l : List Int) : ∀ m, runMin m l ≤ m ∧ ∀ x ∈ l, runMin m l ≤ x := by
  induction l with
  | nil => intro m; simp [runMin]
  | cons y l ih =>
    intro m
    have h := ih (if m > y then y else m)
    have e : runMin m (y :: l) = runMin (if m > y then y else m) l := rfl
    rw [e]
    have h1 : (if m > y then y else m) ≤ m := by split <;> omega
    have h2 : (if m > y then y else m) ≤ y := by split <;> omega
    refine ⟨h.1.trans h1, fun x hx => ?_⟩
    rcases List.mem_cons.mp hx with rfl | hx
    · exact h.1.trans h2
    · exact h.2 x hx

private theorem le_runMax (l : List Int) : ∀ m, m ≤ runMax m l ∧ ∀ x ∈ l, x ≤ runMax m l := by
  induction l with
  | nil => intro m; simp [runMax]
  | cons y l ih =>
    intro m
    have h := ih (if m < y then y else m)
    have e : runMax m (y :: l) = runMax (if m < y then y else m) l := rfl
    rw [e]
    have h1 : m ≤ (if m < y then y else m) := by split <;> omega
    have h2 : y ≤ (if m < y then y else m) := by split <;> omega
    refine ⟨h1.trans h.1, fun x hx => ?_⟩
    rcases List.mem_cons.mp hx with rfl | hx
    · exact h2.trans h.1
    · exact h.2 x hx

private theorem runMin_mem (l : List Int) : ∀ m, runMin m l = m ∨ runMin m l ∈ l := by
  induction l with
  | nil => intro m; simp [runMin]
  | cons y l ih =>
    intro m
    have e : runMin m (y :: l) = runMin (if m > y then y else m) l := rfl
    rw [e]
    rcases ih (if m > y then y else m) with h | h
    · rw [h]; split <;> simp
    · exact Or.inr (List.mem_cons_of_mem _ h)

private theorem runMax_mem (l : List Int) : ∀ m, runMax m l = m ∨ runMax m l ∈ l := by
  induction l with
  | nil => intro m; simp [runMax]
  | cons y l ih =>
    intro m
    have e : runMax m (y :: l) = runMax (if m < y then y else m) l := rfl
    rw [e]
    rcases ih (if m < y then y else m) with h | h
    · rw [h]; split <;> simp
    · exact Or.inr (List.mem_cons_of_mem _ h)

private theorem sampled_one {α : Type} (l : List α) : sampled 1 l = l := by
  induction l with
  | nil => simp [sampled]
  | cons a l ih => rw [sampled]; simp [ih]

private theorem sampled_sub {α : Type} (k : ℕ) : ∀ (m : ℕ) (l : List α), l.length ≤ m →
    ∀ a ∈ sampled k l, a ∈ l := by
  intro m
  induction m with
  | zero =>
    intro l hl a ha
    have : l = [] := List.length_eq_zero_iff.mp (by omega)
    subst this
    simp [sampled] at ha
  | succ m ih =>
    intro l hl a ha
    cases l with
    | nil => simp [sampled] at ha
    | cons b l =>
      rw [sampled] at ha
      rcases List.mem_cons.mp ha with rfl | ha
      · simp
      · have := ih (l.drop (k - 1)) (by simp at hl ⊢; omega) a ha
        exact List.mem_cons_of_mem _ (List.mem_of_mem_drop this)

/-- The positions of a shot on its own grid: the source and the receivers. -/
def ShotX.positions (s : ShotX) : List Int := (s.src :: s.recs).map (· - s.cut)

private theorem size_spec (NX bw : Int) (first : ShotX) (rest : List ShotX) :
    ∃ lo hi, (∀ s ∈ sampled (shotSkip (first :: rest).length) (first :: rest),
        ∀ x ∈ s.positions, lo ≤ x ∧ x ≤ hi) ∧
      (∃ s ∈ first :: rest, lo ∈ s.positions) ∧ (∃ s ∈ first :: rest, hi ∈ s.positions) ∧
      modelPerShotSize NX bw (first :: rest) =
        if lo < bw then .err else .ok (if NX < hi + bw + 1 then hi + bw + 1 else NX) := by
  set vis := sampled (shotSkip (first :: rest).length) (first :: rest) with hvis
  set srcs := vis.map fun s => s.src - s.cut with hsrcs
  set recs := vis.flatMap fun s => s.recs.map fun x => x - s.cut with hrecs
  set x0 := first.src - first.cut with hx0
  have hsub : ∀ s ∈ vis, s ∈ first :: rest := fun s hs =>
    sampled_sub _ _ (first :: rest) le_rfl s hs
  have hfirst : x0 ∈ first.positions := by simp [ShotX.positions, x0]
  have hsrc : ∀ x ∈ srcs, ∃ s ∈ first :: rest, x ∈ s.positions := by
    intro x hx
    obtain ⟨s, hs, rfl⟩ := List.mem_map.mp hx
    exact ⟨s, hsub s hs, by simp [ShotX.positions]⟩
  have hrec : ∀ x ∈ recs, ∃ s ∈ first :: rest, x ∈ s.positions := by
    intro x hx
    obtain ⟨s, hs, hx⟩ := List.mem_flatMap.mp hx
    obtain ⟨y, hy, rfl⟩ := List.mem_map.mp hx
    exact ⟨s, hsub s hs, List.mem_cons_of_mem _ (List.mem_map.mpr ⟨y, hy, rfl⟩)⟩
  have hcov : ∀ s ∈ vis, ∀ x ∈ s.positions, x ∈ srcs ∨ x ∈ recs := by
    intro s hs x hx
    simp only [ShotX.positions, List.map_cons, List.mem_cons, List.mem_map] at hx
    rcases hx with rfl | ⟨y, hy, rfl⟩
    · exact Or.inl (List.mem_map.mpr ⟨s, hs, rfl⟩)
    · exact Or.inr (List.mem_flatMap.mpr ⟨s, hs, List.mem_map.mpr ⟨y, hy, rfl⟩⟩)
  refine ⟨if runMin x0 recs > runMin x0 srcs then runMin x0 srcs else runMin x0 recs,
    if runMax x0 recs < runMax x0 srcs then runMax x0 srcs else runMax x0 recs, ?_, ?_, ?_, ?_⟩
  · intro s hs x hx
    rcases hcov s hs x hx with h | h
    · have a := (runMin_le srcs x0).2 x h
      have b := (le_runMax srcs x0).2 x h
      constructor <;> split <;> omega
    · have a := (runMin_le recs x0).2 x h
      have b := (le_runMax recs x0).2 x h
      constructor <;> split <;> omega
  · split
    · rcases runMin_mem srcs x0 with h | h
      · exact ⟨first, by simp, by rw [h]; exact hfirst⟩
      · exact hsrc _ h
    · rcases runMin_mem recs x0 with h | h
      · exact ⟨first, by simp, by rw [h]; exact hfirst⟩
      · exact hrec _ h
  · split
    · rcases runMax_mem srcs x0 with h | h
      · exact ⟨first, by simp, by rw [h]; exact hfirst⟩
      · exact hsrc _ h
    · rcases runMax_mem recs x0 with h | h
      · exact ⟨first, by simp, by rw [h]; exact hfirst⟩
      · exact hrec _ h
  · unfold modelPerShotSize
    simp only [← hvis, ← hsrcs, ← hrecs, ← hx0]
    split_ifs <;> first | rfl | omega

/-- C129: with fewer than 20 sources the width is chosen such that every source and every receiver of
every shot lies outside the absorbing frame in the first direction. What is missing: from 20 sources
on only some of the shots are looked at (`C129_violated`). -/
theorem C129_partial (NX bw W : Int) (shots : List ShotX) (hlen : shots.length < 20)
    (h : modelPerShotSize NX bw shots = .ok W) :
    ∀ s ∈ shots, ∀ x ∈ s.positions, bw ≤ x ∧ x < W - bw := by
  cases shots with
  | nil => simp [modelPerShotSize] at h
  | cons first rest =>
    obtain ⟨lo, hi, hb, -, -, hw⟩ := size_spec NX bw first rest
    have hs : shotSkip (first :: rest).length = 1 := by
      unfold shotSkip; rw [if_neg (by omega)]
    rw [hs, sampled_one] at hb
    rw [hw] at h
    intro s hsm x hx
    have hx' := hb s hsm x hx
    by_cases hlo : lo < bw
    · rw [if_pos hlo] at h; cases h
    · rw [if_neg hlo] at h
      injection h with h
      subst h
      refine ⟨by omega, ?_⟩
      split <;> omega

/-- C129, consequence: the later check of the receivers of a shot in a cut model cannot fail because
of the first direction. `sx` is the list of the shots' first coordinates; `c` the position of the
source or of a receiver of one of the shots. -/
theorem C129_check_partial (NX bw W NY NZ : Int) (shots : List ShotX) (hlen : shots.length < 20)
    (h : modelPerShotSize NX bw shots = .ok W) (s : ShotX) (hs : s ∈ shots) (c : Grid.Coord)
    (hc : c.x ∈ s.src :: s.recs) (hy : bw ≤ c.y ∧ c.y < NY - bw)
    (hz : NZ ≤ bw * 2 ∨ (bw ≤ c.z ∧ c.z < NZ - bw)) :
    Acq.shiftChecked c ⟨s.cut, 0, 0⟩ W NY NZ bw = .ok ⟨c.x - s.cut, c.y, c.z⟩ := by
  have hx := C129_partial NX bw W shots hlen h s hs (c.x - s.cut)
    (List.mem_map.mpr ⟨c.x, hc, rfl⟩)
  unfold Acq.shiftChecked
  simp only [sub_zero]
  rw [if_neg (by omega), if_neg (by omega), if_neg (by omega), if_neg (by omega)]
  split
  · rw [if_neg (by omega), if_neg (by omega)]
  · rfl

/-- C129, rejection: with fewer than 20 sources the run is rejected exactly if a source or receiver
lies in the left absorbing frame of its shot. -/
theorem C129_rejected_partial (NX bw : Int) (shots : List ShotX) (hlen : shots.length < 20)
    (hne : shots ≠ []) :
    modelPerShotSize NX bw shots = .err ↔ ∃ s ∈ shots, ∃ x ∈ s.positions, x < bw := by
  cases shots with
  | nil => exact absurd rfl hne
  | cons first rest =>
    obtain ⟨lo, hi, hb, ⟨s, hs, hlo⟩, -, hw⟩ := size_spec NX bw first rest
    have hsk : shotSkip (first :: rest).length = 1 := by
      unfold shotSkip; rw [if_neg (by omega)]
    rw [hsk, sampled_one] at hb
    rw [hw]
    constructor
    · intro h
      by_cases hl : lo < bw
      · exact ⟨s, hs, lo, hlo, hl⟩
      · rw [if_neg hl] at h; cases h
    · rintro ⟨s', hs', x, hx, hlt⟩
      rw [if_pos (by have := (hb s' hs' x hx).1; omega)]

/-- A case of `C129_partial`: three shots with streaming, the last receiver far to the right. -/
example : modelPerShotSize 50 10 [⟨12, 0, [20]⟩, ⟨30, 18, [60, 40]⟩, ⟨25, 13, [26, 70]⟩] = .ok 68 := by
  simp [modelPerShotSize, shotSkip, sampled, runMin, runMax]

/-- C129 does not hold from 20 sources on: with 20 sources every second one is skipped. Here the
receiver of the second shot lies outside the grid; the width is accepted and the later check of the
cut model fails. -/
theorem C129_violated :
    ∃ (NX bw W : Int) (shots : List ShotX) (s : ShotX), s ∈ shots ∧ 0 < bw ∧
      modelPerShotSize NX bw shots = .ok W ∧ (∃ x ∈ s.positions, W ≤ x) ∧
      ∃ c : Grid.Coord, c.x ∈ s.recs ∧ bw ≤ c.y ∧ c.y < 100 - bw ∧
        Acq.shiftChecked c ⟨s.cut, 0, 0⟩ W 100 1 bw = .err := by
  refine ⟨100, 10, 100, ⟨20, 0, [30]⟩ :: ⟨20, 0, [150]⟩ :: List.replicate 18 ⟨20, 0, [30]⟩,
    ⟨20, 0, [150]⟩, by simp, by decide, ?_, ⟨150, by decide, by decide⟩, ⟨150, 50, 0⟩, by decide,
    by decide, by decide, by decide⟩
  simp [modelPerShotSize, shotSkip, sampled, runMin, runMax, List.replicate]

/-- C130: the grid is never narrower than configured, and it has the configured width exactly if all
shots looked at fit into it; a wider grid is as narrow as the positions allow. -/
theorem C130_partial (NX bw W : Int) (shots : List ShotX) (hlen : shots.length < 20)
    (h : modelPerShotSize NX bw shots = .ok W) :
    NX ≤ W ∧ (W = NX ↔ ∀ s ∈ shots, ∀ x ∈ s.positions, x < NX - bw) ∧
      (W ≠ NX → ∃ s ∈ shots, ∃ x ∈ s.positions, x = W - bw - 1) := by
  cases shots with
  | nil => simp [modelPerShotSize] at h
  | cons first rest =>
    obtain ⟨lo, hi, hb, -, ⟨s, hs, hhi⟩, hw⟩ := size_spec NX bw first rest
    have hsk : shotSkip (first :: rest).length = 1 := by
      unfold shotSkip; rw [if_neg (by omega)]
    rw [hsk, sampled_one] at hb
    rw [hw] at h
    by_cases hl : lo < bw
    · rw [if_pos hl] at h; cases h
    rw [if_neg hl] at h
    injection h with h
    by_cases hN : NX < hi + bw + 1
    · rw [if_pos hN] at h
      refine ⟨by omega, ⟨fun he => by omega, fun hall => ?_⟩, fun _ => ⟨s, hs, hi, hhi, by omega⟩⟩
      have := hall s hs hi hhi
      omega
    · rw [if_neg hN] at h
      refine ⟨by omega, ⟨fun _ s' hs' x hx => ?_, fun _ => h.symm⟩, fun hne => absurd h.symm hne⟩
      have := (hb s' hs' x hx).2
      omega

/-- C130 does not hold: without streaming (all cut positions 0) a receiver in the right absorbing
frame of a valid grid makes the run use a wider grid than configured. -/
theorem C130_violated :
    ∃ (NX bw W : Int) (shots : List ShotX), (∀ s ∈ shots, s.cut = 0) ∧
      (∀ s ∈ shots, ∀ x ∈ s.positions, 0 ≤ x ∧ x < NX) ∧
      modelPerShotSize NX bw shots = .ok W ∧ W ≠ NX :=
  ⟨100, 10, 106, [⟨50, 0, [95]⟩], by simp, by simp [ShotX.positions],
    by simp [modelPerShotSize, shotSkip, sampled, runMin, runMax], by decide⟩

end Verif.Encoding
