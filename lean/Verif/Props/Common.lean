import Verif.Model.Common
import Mathlib.Tactic.Linarith
import Mathlib.Tactic.Ring
import Mathlib.Tactic.FieldSimp
import Mathlib.Tactic.NormNum
import Mathlib.Analysis.Real.Pi.Bounds
/-!
# C12, C14–C17: shot domains, search and replace, resampling, padding, unwrapping
-/
namespace Verif.Common

/-! ### C12 -/

/-- C12: with a positive number of domains `n ≤ size` an error is raised exactly if `size` is
not a multiple of `n`; otherwise domain `k` consists exactly of the `size/n` consecutive ranks
`k*(size/n) … (k+1)*(size/n) - 1`. -/
theorem C12_blocks {n size rank : Int} (hn : 0 < n) (hle : n ≤ size) (hr0 : 0 ≤ rank)
    (hr : rank < size) :
    (¬ n ∣ size → getShotDomain n size rank = .err) ∧
    (n ∣ size → ∃ k, getShotDomain n size rank = .ok k ∧ 0 ≤ k ∧ k < n ∧
      k * (size / n) ≤ rank ∧ rank < (k + 1) * (size / n)) := by
  have hc : checkNumShotDomains n size = n := by unfold checkNumShotDomains; rw [if_neg (by omega)]
  have hq : size.tdiv n = size / n := Int.tdiv_eq_ediv_of_nonneg (by omega)
  unfold getShotDomain
  simp only [hc, hq]
  rw [if_neg (by omega)]
  constructor
  · intro hnd
    rw [if_pos]
    intro he
    exact hnd ⟨_, he⟩
  · rintro ⟨m, rfl⟩
    have hm : 0 < m := by
      by_contra h
      have : n * m ≤ 0 := mul_nonpos_of_nonneg_of_nonpos hn.le (by omega)
      omega
    have hd : n * m / n = m := Int.mul_ediv_cancel_left _ (by omega)
    rw [hd, if_neg (by simp), if_neg (by omega), Int.tdiv_eq_ediv_of_nonneg hr0]
    refine ⟨rank / m, rfl, Int.ediv_nonneg hr0 hm.le, Int.ediv_lt_of_lt_mul hm hr, ?_, ?_⟩
    · exact Int.ediv_mul_le _ (by omega)
    · have := Int.lt_ediv_add_one_mul_self rank hm
      exact this

/-- C12: more domains than processes are reduced to one process per domain. -/
theorem C12_too_many_domains {n size rank : Int} (hs : 0 < size) (hn : size < n) :
    getShotDomain n size rank = .ok rank := by
  unfold getShotDomain checkNumShotDomains
  rw [if_pos hn]
  simp only
  rw [if_neg (by omega), Int.tdiv_self (by omega)]
  simp

/-- C12: every domain below `n` is populated, by exactly `size/n` ranks. -/
theorem C12_every_domain_full {n size k : Int} (hn : 0 < n) (hd : n ∣ size) (hs : 0 < size)
    (hk0 : 0 ≤ k) (hk : k < n) (rank : Int) (h0 : 0 ≤ rank) (hr : rank < size) :
    getShotDomain n size rank = .ok k ↔ k * (size / n) ≤ rank ∧ rank < k * (size / n) + size / n := by
  obtain ⟨m, rfl⟩ := hd
  have hm : 0 < m := by
    by_contra h
    have : n * m ≤ 0 := mul_nonpos_of_nonneg_of_nonpos hn.le (by omega)
    omega
  have hle : n ≤ n * m := le_mul_of_one_le_right hn.le (by omega)
  obtain ⟨k', h1, _, _, h4, h5⟩ := (C12_blocks hn hle h0 hr).2 ⟨m, rfl⟩
  have hdiv : n * m / n = m := Int.mul_ediv_cancel_left _ (by omega)
  rw [hdiv] at h4 h5 ⊢
  rw [h1]
  constructor
  · intro h; injection h with h; subst h
    exact ⟨h4, by linarith [add_mul k' 1 m]⟩
  · rintro ⟨h6, h7⟩
    have a : k' < k + 1 := by
      by_contra h
      have : (k + 1) * m ≤ k' * m := Int.mul_le_mul_of_nonneg_right (by omega) hm.le
      linarith [add_mul k 1 m]
    have b : k < k' + 1 := by
      by_contra h
      have : (k' + 1) * m ≤ k * m := Int.mul_le_mul_of_nonneg_right (by omega) hm.le
      omega
    have : k' = k := by omega
    rw [this]

example : getShotDomain 3 12 7 = .ok 1 ∧ getShotDomain 5 12 7 = .err ∧
    getShotDomain 20 12 7 = .ok 7 := by decide

/-! ### C14 -/

/-- The relation that a comparison code stands for. -/
def Related {V : Type} [LinearOrder V] (code : Int) (v t : V) : Prop :=
  (code = 1 ∧ v < t) ∨ (code = 2 ∧ t < v) ∨ (code = 3 ∧ v ≤ t) ∨ (code = 4 ∧ t ≤ v) ∨
  (code = 5 ∧ v = t)

private theorem compareTest_iff {V : Type} [LinearOrder V] (code : Int) (v t : V) :
    compareTest V code t v = some true ↔ Related code v t := by
  unfold compareTest Related
  split_ifs <;> simp_all

/-- C14: for a valid code exactly the related entries become the replacement value and all
others and the length stay; an invalid code is an error. -/
theorem C14_replaces_exactly {V : Type} [LinearOrder V] (xs : List V) (t r : V) (code : Int) :
    (¬ (1 ≤ code ∧ code ≤ 5) → searchAndReplace xs t r code = .err) ∧
    (1 ≤ code ∧ code ≤ 5 → ∃ ys, searchAndReplace xs t r code = .ok ys ∧ ys.length = xs.length ∧
      ∀ i (h : i < xs.length) (h' : i < ys.length),
        (Related code xs[i] t → ys[i] = r) ∧ (¬ Related code xs[i] t → ys[i] = xs[i])) := by
  unfold searchAndReplace
  constructor
  · intro h; rw [if_neg h]
  · intro h
    rw [if_pos h]
    refine ⟨_, rfl, by simp, ?_⟩
    intro i hi hi'
    rw [List.getElem_map]
    constructor
    · intro hr; rw [if_pos ((compareTest_iff _ _ _).mpr hr)]
    · intro hr; rw [if_neg (fun hc => hr ((compareTest_iff _ _ _).mp hc))]

/-- C14: replacing twice is the same as replacing once. -/
theorem C14_idempotent {V : Type} [LinearOrder V] (xs ys : List V) (t r : V) (code : Int)
    (h : searchAndReplace xs t r code = .ok ys) : searchAndReplace ys t r code = .ok ys := by
  unfold searchAndReplace at h ⊢
  split at h
  · rename_i hc
    rw [if_pos hc]
    injection h with h
    subst h
    congr 1
    rw [List.map_map]
    apply List.map_congr_left
    intro v _
    simp only [Function.comp]
    split <;> simp_all
  · cases h

/-- C14: `replaceInvalid` with a finite value leaves no infinity or NaN and keeps every finite
entry. -/
theorem C14_replaceInvalid {V : Type} (xs : List (FP V)) (r : V) :
    (replaceInvalid xs (.fin r)).length = xs.length ∧
    ∀ i (h : i < xs.length) (h' : i < (replaceInvalid xs (.fin r)).length),
      (∀ v, xs[i] = .fin v → (replaceInvalid xs (.fin r))[i] = .fin v) ∧
      ((∀ v, xs[i] ≠ .fin v) → (replaceInvalid xs (.fin r))[i] = .fin r) := by
  refine ⟨by simp [replaceInvalid], fun i h h' => ?_⟩
  have e : (replaceInvalid xs (.fin r))[i] = match xs[i] with
      | .fin v => .fin v
      | _ => .fin r := by 
    simp only [replaceInvalid, List.getElem_map]
    cases xs[i] <;> rfl
  rw [e]
  cases hx : xs[i] with
  | fin v => simp
  | _ => simp

/-- C14: `replaceVpwithVs` with code 1 (2) makes every entry the maximum (minimum) of vp and
`ratio * vs`. -/
theorem C14_replaceVp {V : Type} [LinearOrder V] [Mul V] (vp vs : List V) (ratio : V)
    (hl : vp.length = vs.length) :
    replaceVpWithVs vp vs ratio 1 = .ok (List.zipWith (fun p s => max p (ratio * s)) vp vs) ∧
    replaceVpWithVs vp vs ratio 2 = .ok (List.zipWith (fun p s => min p (ratio * s)) vp vs) := by
  unfold replaceVpWithVs
  rw [if_pos rfl, if_neg (by omega), if_neg (by decide), if_pos rfl, if_neg (by omega)]
  constructor
  · congr 2
    funext p s
    rw [max_def]
    by_cases h : p < ratio * s
    · rw [if_pos h, if_pos h.le]
    · rw [if_neg h]
      split
      · exact le_antisymm ‹_› (not_lt.mp h)
      · rfl
  · congr 2
    funext p s
    rw [min_def]
    by_cases h : p > ratio * s
    · rw [if_pos h, if_neg (not_le.mpr h)]
    · rw [if_neg h, if_pos (not_lt.mp h)]

example : searchAndReplace [3, 0, 5, 2] (3 : Int) 9 3 = .ok [9, 9, 5, 9] ∧
    searchAndReplace [3, 0] (3 : Int) 9 6 = .err := by decide

/-! ### C15 -/

private theorem num_bounds {N : Int} {c : ℚ} (hN : 1 ≤ N) (hc : 0 < c) :
    1 ≤ numColsNew N c ∧ ∀ r : Int, 0 ≤ r → r < numColsNew N c → (r : ℚ) * c ≤ (N - 1 : Int) := by
  unfold numColsNew
  have h0 : (0 : ℚ) ≤ ((N - 1 : Int) : ℚ) / c := by
    apply div_nonneg _ hc.le
    exact_mod_cast (by omega : (0 : Int) ≤ N - 1)
  constructor
  · have := Int.floor_nonneg.mpr h0; omega
  · intro r _ hr
    have : r ≤ ⌊((N - 1 : Int) : ℚ) / c⌋ := by omega
    have := Int.le_floor.mp this
    rwa [le_div_iff₀ hc] at this

private theorem entries_row {N : Int} {c : ℚ} {row : Int} (h0 : 0 ≤ row)
    (hr : row < numColsNew N c) :
    (resampleEntries N c).filter (fun e => e.2.1 = row) =
      (if ⌊(row : ℚ) * c⌋ < N then [(⌊(row : ℚ) * c⌋, row, 1 - Int.fract ((row : ℚ) * c))] else []) ++
      (if ⌊(row : ℚ) * c⌋ + 1 < N then [(⌊(row : ℚ) * c⌋ + 1, row, Int.fract ((row : ℚ) * c))] else []) := by
  obtain ⟨r, rfl⟩ := Int.eq_ofNat_of_zero_le h0
  unfold resampleEntries
  have hlt : r < (numColsNew N c).toNat := by omega
  generalize (numColsNew N c).toNat = n at hlt
  induction n with
  | zero => omega
  | succ n ih =>
    rw [List.range_succ, List.flatMap_append, List.filter_append]
    by_cases hrn : r = n
    · subst hrn
      have : ((List.range r).flatMap fun (row : Nat) =>
          let rel : ℚ := row * c
          let col : Int := ⌊rel⌋
          (if col < N then [(col, (row : Int), 1 - Int.fract rel)] else []) ++
          (if col + 1 < N then [(col + 1, (row : Int), Int.fract rel)] else [])).filter
            (fun e => e.2.1 = (r : Int)) = [] := by
        rw [List.filter_eq_nil_iff]
        intro e he
        simp only [List.mem_flatMap, List.mem_range, List.mem_append] at he
        obtain ⟨m, hm, hm2⟩ := he
        have : e.2.1 = m := by
          rcases hm2 with h | h <;> (split at h <;> simp at h; rw [h])
        simp; omega
      rw [this]
      simp only [List.flatMap_cons, List.flatMap_nil, List.append_nil, List.nil_append]
      rw [List.filter_eq_self.mpr]
      · push_cast; rfl
      · intro e he
        simp only [List.mem_append] at he
        rcases he with h | h <;> (split at h <;> simp at h; simp [h])
    · rw [ih (by omega)]
      have : ([n].flatMap fun (row : Nat) =>
          let rel : ℚ := row * c
          let col : Int := ⌊rel⌋
          (if col < N then [(col, (row : Int), 1 - Int.fract rel)] else []) ++
          (if col + 1 < N then [(col + 1, (row : Int), Int.fract rel)] else [])).filter
            (fun e => e.2.1 = (r : Int)) = [] := by
        rw [List.filter_eq_nil_iff]
        intro e he
        simp only [List.flatMap_cons, List.flatMap_nil, List.append_nil, List.mem_append] at he
        have : e.2.1 = n := by
          rcases he with h | h <;> (split at h <;> simp at h; rw [h])
        simp; omega
      rw [this, List.append_nil]

/-- C15: for a positive coefficient `c`, sample `r` of the resampled trace is the linear
interpolation of the trace at position `r*c`: a convex combination of the two samples around
that position, both inside the trace (at the last sample the right neighbour has weight 0 and
is not accessed). -/
theorem C15_linear_interpolation {N : Int} {c : ℚ} (hN : 1 ≤ N) (hc : 0 < c) (f : Int → ℚ)
    {r : Int} (h0 : 0 ≤ r) (hr : r < numColsNew N c) :
    ∃ (k : Int) (w : ℚ), 0 ≤ k ∧ k < N ∧ 0 ≤ w ∧ w < 1 ∧ (k : ℚ) + w = r * c ∧
      (w ≠ 0 → k + 1 < N) ∧ resampled N c f r = (1 - w) * f k + w * f (k + 1) := by
  obtain ⟨_, hb⟩ := num_bounds hN hc
  have hle := hb r h0 hr
  have hnn : (0 : ℚ) ≤ (r : ℚ) * c := mul_nonneg (by exact_mod_cast h0) hc.le
  have hk0 : 0 ≤ ⌊(r : ℚ) * c⌋ := Int.floor_nonneg.mpr hnn
  have hkN : ⌊(r : ℚ) * c⌋ ≤ N - 1 := by
    have := Int.floor_le ((r : ℚ) * c)
    have : ((⌊(r : ℚ) * c⌋ : Int) : ℚ) ≤ ((N - 1 : Int) : ℚ) := le_trans this hle
    exact_mod_cast this
  refine ⟨⌊(r : ℚ) * c⌋, Int.fract ((r : ℚ) * c), hk0, by omega, Int.fract_nonneg _,
    Int.fract_lt_one _, Int.floor_add_fract _, ?_, ?_⟩
  · intro hw
    by_contra hlast
    have : ⌊(r : ℚ) * c⌋ = N - 1 := by omega
    apply hw
    have e := Int.floor_add_fract ((r : ℚ) * c)
    rw [this] at e
    have hnn := Int.fract_nonneg ((r : ℚ) * c)
    linarith
  · unfold resampled
    rw [entries_row h0 hr, if_pos (by omega)]
    by_cases hlast : ⌊(r : ℚ) * c⌋ + 1 < N
    · rw [if_pos hlast]; simp
    · rw [if_neg hlast]
      have : ⌊(r : ℚ) * c⌋ = N - 1 := by omega
      have e := Int.floor_add_fract ((r : ℚ) * c)
      have hnn := Int.fract_nonneg ((r : ℚ) * c)
      have hz : Int.fract ((r : ℚ) * c) = 0 := by rw [this] at e; linarith
      simp [hz]

/-- C15: constant and linear traces are reproduced exactly. -/
theorem C15_exact_on_linear {N : Int} {c : ℚ} (hN : 1 ≤ N) (hc : 0 < c) (a b : ℚ)
    {r : Int} (h0 : 0 ≤ r) (hr : r < numColsNew N c) :
    resampled N c (fun i => a + b * i) r = a + b * (r * c) := by
  obtain ⟨k, w, _, _, _, _, h5, _, h7⟩ := C15_linear_interpolation hN hc (fun i => a + b * i) h0 hr
  rw [h7, ← h5]; push_cast; ring

/-- C15: every pushed entry lies inside the matrix. -/
theorem C15_entries_in_bounds {N : Int} {c : ℚ} (hN : 1 ≤ N) (hc : 0 < c)
    {e : Int × Int × ℚ} (he : e ∈ resampleEntries N c) :
    0 ≤ e.1 ∧ e.1 < N ∧ 0 ≤ e.2.1 ∧ e.2.1 < numColsNew N c ∧ 0 ≤ e.2.2 ∧ e.2.2 ≤ 1 := by
  unfold resampleEntries at he
  simp only [List.mem_flatMap, List.mem_range, List.mem_append] at he
  obtain ⟨m, hm, hm2⟩ := he
  have hnn : (0 : ℚ) ≤ (m : ℚ) * c := mul_nonneg (by positivity) hc.le
  have hk0 : 0 ≤ ⌊(m : ℚ) * c⌋ := Int.floor_nonneg.mpr hnn
  have h1 := Int.fract_nonneg ((m : ℚ) * c)
  have h2 := (Int.fract_lt_one ((m : ℚ) * c)).le
  rcases hm2 with h | h
  · split at h
    · simp at h; subst h; refine ⟨hk0, by assumption, by simp, by simp; omega, by simp; linarith, by simp⟩
    · simp at h
  · split at h
    · simp at h; subst h; refine ⟨by simp; omega, by assumption, by simp, by simp; omega, by simp, by simpa using h2⟩
    · simp at h

/-- Case: a trace of 7 samples with coefficient 3/2 gives 5 samples. -/
example : numColsNew 7 (3 / 2) = 5 := by
  unfold numColsNew
  have : ⌊(((7 : Int) - 1 : Int) : ℚ) / (3 / 2)⌋ = 4 := by rw [Int.floor_eq_iff]; norm_num
  rw [this]; norm_num

/-! ### C16 -/

/-- C16 fails: a filter set up for 9 samples has length 8, and applying the neutral filter
loses the last sample. -/
theorem C16_padding_violated :
    filterLength 9 = .ok (-1, 8) ∧
    applyNeutral 9 [1, 2, 3, 4, 5, 6, 7, 8, (9 : Int)] = .ok [1, 2, 3, 4, 5, 6, 7, 8, 0] := by
  have h : Nat.clog 2 8 = 3 := by decide
  have h1 : calcNextPowTwo (9 - 1) = some 8 := by
    unfold calcNextPowTwo
    rw [if_neg (by decide)]
    have : ((9 : Int) - 1).toNat = 8 := by decide
    rw [this, h]; rfl
  have h2 : filterLength 9 = .ok (-1, 8) := by
    unfold filterLength
    rw [if_neg (by decide), h1]; rfl
  refine ⟨h2, ?_⟩
  unfold applyNeutral
  rw [h2]
  decide

/-- The filter is too short exactly for `nt = 2^k + 1` (and `nt = 1`), by one sample. -/
theorem C16_too_short_iff {nt : Int} (h : 2 ≤ nt) :
    ∃ pad len, filterLength nt = .ok (pad, len) ∧ pad + nt = len ∧
      (len < nt ↔ ∃ k : Nat, nt = 2 ^ k + 1) ∧ (len < nt → len = nt - 1) := by
  obtain ⟨n, hn⟩ : ∃ n : Nat, nt = n + 1 := ⟨(nt - 1).toNat, by omega⟩
  have hn1 : 1 ≤ n := by omega
  have e1 : (nt - 1).toNat = n := by omega
  unfold filterLength calcNextPowTwo
  rw [if_neg (by omega), if_neg (by omega), e1]
  have hle : n ≤ 2 ^ Nat.clog 2 n := Nat.le_pow_clog (by norm_num) n
  have hleZ : (n : Int) ≤ 2 ^ Nat.clog 2 n := by exact_mod_cast hle
  refine ⟨_, _, rfl, by ring, ⟨?_, ?_⟩, ?_⟩
  · intro hlt
    refine ⟨Nat.clog 2 n, ?_⟩
    have : (2 : Int) ^ Nat.clog 2 n - nt + nt = 2 ^ Nat.clog 2 n := by ring
    rw [this] at hlt
    omega
  · rintro ⟨k, hk⟩
    have hnk : n = 2 ^ k := by
      have : (n : Int) = 2 ^ k := by omega
      exact_mod_cast this
    have : Nat.clog 2 n = k := by rw [hnk, Nat.clog_pow _ _ (by norm_num)]
    rw [this]
    have : (2 : Int) ^ k - nt + nt = 2 ^ k := by ring
    rw [this, hk]; omega
  · intro hlt
    have e : (2 : Int) ^ Nat.clog 2 n - nt + nt = 2 ^ Nat.clog 2 n := by ring
    rw [e] at hlt ⊢
    omega

/-- C16, what holds: unless `nt = 2^k + 1` (or `nt = 1`), the neutral filter returns the signal
unchanged. Missing for the full property: those lengths. -/
theorem C16_neutral_filter_partial {V : Type} [Zero V] (sig : List V) (h : 2 ≤ sig.length)
    (hk : ¬ ∃ k : Nat, (sig.length : Int) = 2 ^ k + 1) :
    applyNeutral sig.length sig = .ok sig := by
  obtain ⟨pad, len, h1, h2, h3, _⟩ := C16_too_short_iff (nt := sig.length) (by exact_mod_cast h)
  have hge : (sig.length : Int) ≤ len := by
    by_contra hc
    exact hk (h3.mp (by omega))
  unfold applyNeutral
  rw [h1]
  simp only [Verif.Out.bind_ok]
  rw [if_pos (by omega)]
  have e1 : sig.length ≤ len.toNat := by omega
  have e2 : sig.length - len.toNat = 0 := by omega
  rw [e2]
  simp only [List.replicate_zero, List.append_nil]
  show Out.ok _ = _
  congr 1
  rw [List.take_of_length_le (l := sig ++ _) (by simp; omega), List.take_left]

example : applyNeutral 6 [1, 2, 3, 4, 5, (6 : Int)] = .ok [1, 2, 3, 4, 5, 6] :=
  C16_neutral_filter_partial [1, 2, 3, 4, 5, (6 : Int)] (by decide) (by
    rintro ⟨k, hk⟩
    have hk : (5 : Int) = 2 ^ k := by simp at hk; omega
    rcases k with _ | k
    · simp at hk
    · rw [pow_succ] at hk; omega)

/-! ### C17 -/

private theorem wrapDiff_spec {d : ℝ} (h : |d| ≤ 2 * Real.pi) :
    |wrapDiff d| ≤ Real.pi ∧ ∃ m : Int, wrapDiff d = d + m * (2 * Real.pi) := by
  have hp := Real.pi_pos
  rw [abs_le] at h
  unfold wrapDiff
  split
  · refine ⟨by rw [abs_le]; constructor <;> linarith, -1, by push_cast; ring⟩
  · split
    · refine ⟨by rw [abs_le]; constructor <;> linarith, 1, by push_cast; ring⟩
    · refine ⟨by rw [abs_le]; constructor <;> linarith, 0, by push_cast; ring⟩

private theorem unwrapFrom_spec : ∀ (ws : List ℝ) (w u : ℝ), |w| ≤ Real.pi →
    (∀ x ∈ ws, |x| ≤ Real.pi) → (∃ m : Int, u = w + m * (2 * Real.pi)) →
    (unwrapFrom w u ws).length = ws.length ∧
    (∀ i (h : i < ws.length) (h' : i < (unwrapFrom w u ws).length),
      ∃ m : Int, (unwrapFrom w u ws)[i] = ws[i] + m * (2 * Real.pi)) ∧
    List.IsChain (fun a b => |b - a| ≤ Real.pi) (u :: unwrapFrom w u ws) := by
  intro ws
  induction ws with
  | nil => intro w u _ _ _; simp [unwrapFrom]
  | cons w' ws ih =>
    rintro w u hw hws ⟨m, hm⟩
    have hw' := hws w' List.mem_cons_self
    have hd : |w' - w| ≤ 2 * Real.pi := by
      rw [abs_le] at *; constructor <;> linarith
    obtain ⟨hb, k, hk⟩ := wrapDiff_spec hd
    have hu' : ∃ m : Int, u + wrapDiff (w' - w) = w' + m * (2 * Real.pi) :=
      ⟨m + k, by rw [hk, hm]; push_cast; ring⟩
    obtain ⟨i1, i2, i3⟩ := ih w' (u + wrapDiff (w' - w)) hw'
      (fun x hx => hws x (List.mem_cons_of_mem _ hx)) hu'
    refine ⟨by simp [unwrapFrom, i1], ?_, ?_⟩
    · intro i h h'
      cases i with
      | zero => simpa [unwrapFrom] using hu'
      | succ i =>
        have := i2 i (by simpa using h) (by rw [i1]; simpa using h)
        simpa [unwrapFrom] using this
    · simp only [unwrapFrom, List.isChain_cons_cons]
      refine ⟨?_, i3⟩
      have : u + wrapDiff (w' - w) - u = wrapDiff (w' - w) := by ring
      rw [this]; exact hb

/-- C17: the unwrapped trace has the length of the wrapped one, starts with the same sample,
differs from it at every sample by a multiple of 2π, and consecutive samples never differ by
more than π. -/
theorem C17_unwrap {ws : List ℝ} (hws : ∀ x ∈ ws, |x| ≤ Real.pi) :
    (unwrap ws).length = ws.length ∧ (unwrap ws).head? = ws.head? ∧
    (∀ i (h : i < ws.length) (h' : i < (unwrap ws).length),
      ∃ m : Int, (unwrap ws)[i] = ws[i] + m * (2 * Real.pi)) ∧
    List.IsChain (fun a b => |b - a| ≤ Real.pi) (unwrap ws) := by
  cases ws with
  | nil => simp [unwrap]
  | cons w ws =>
    obtain ⟨i1, i2, i3⟩ := unwrapFrom_spec ws w w (hws w List.mem_cons_self)
      (fun x hx => hws x (List.mem_cons_of_mem _ hx)) ⟨0, by simp⟩
    refine ⟨by simp [unwrap, i1], rfl, ?_, i3⟩
    intro i h h'
    cases i with
    | zero => exact ⟨0, by simp [unwrap]⟩
    | succ i => simpa [unwrap] using i2 i (by simpa using h) (by rw [i1]; simpa using h)

/-- Case: a jump from 3 to -3 is unwrapped to `2π - 3`. -/
example : unwrap [3, -3] = [3, 3 + ((-3 - 3) + 2 * Real.pi)] ∧
    ∀ x ∈ [(3 : ℝ), -3], |x| ≤ Real.pi := by
  have h := Real.pi_gt_three
  have h4 := Real.pi_le_four
  constructor
  · simp only [unwrap, unwrapFrom, wrapDiff]
    rw [if_neg (by linarith), if_pos (by linarith)]
  · intro x hx
    simp at hx
    rcases hx with rfl | rfl <;> (rw [abs_le]; constructor <;> linarith)

end Verif.Common
