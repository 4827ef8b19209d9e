import Verif.Lemmas.Median
import Mathlib.Algebra.Ring.Parity
/-!
# C18, C19, C59: the median filter
-/
namespace Verif.Median

private theorem window_map (image : List ℚ) {NX NY b ft y x : Nat} (hx : x < NX) :
    ((List.range (2 * b + 1)).flatMap fun a => (List.range (2 * b + 1)).map fun c =>
      (y + a) * (NX + 2 * b) + (x + c)).map (extAt image NX NY b ft) =
    (List.range (2 * b + 1)).flatMap fun a => (List.range (2 * b + 1)).map fun c =>
      extImage image NX NY b ft (y + a) (x + c) := by
  rw [List.map_flatMap]
  apply List.flatMap_congr
  intro a _
  rw [List.map_map]
  apply List.map_congr_left
  intro c hc
  simp only [List.mem_range] at hc
  show extAt image NX NY b ft ((y + a) * (NX + 2 * b) + (x + c)) = _
  rw [Nat.mul_comm, extAt_addr (by omega)]

private theorem window_length (b : Nat) (f : Nat → Nat → Nat) :
    ((List.range (2 * b + 1)).flatMap fun a => (List.range (2 * b + 1)).map fun c => f a c).length =
      (2 * b + 1) * (2 * b + 1) := by
  rw [List.length_flatMap]
  simp

private theorem kB_odd (h : Nat) : kB (2 * h + 1) = h := by unfold kB; omega

private theorem sq_odd (h : Nat) : (2 * h + 1) * (2 * h + 1) = 2 * (2 * h * h + 2 * h) + 1 := by ring

/-- C18, 2-D: for every image, every odd window size `2h+1` and both fill types, the filter stays
inside all its arrays, reads no uninitialised cell, and every output sample is the median of the
`(2h+1) × (2h+1)` window around it in the extended image. The old content of the result is
irrelevant. -/
theorem C18_median_2d {image : List ℚ} {NX NY h ft : Nat} (hx : 0 < NX) (hy : 0 < NY)
    (hl : image.length = NX * NY) (result : Mem) (hr : result.size = NX * NY) :
    ∃ m, median2 (Mem.ofList image) result NX NY (2 * h + 1) ft = .ok m ∧ m.size = NX * NY ∧
      ∀ y < NY, ∀ x < NX, ∃ v, m.cell (y * NX + x) = some v ∧
        IsMedian ((List.range (2 * h + 1)).flatMap fun a => (List.range (2 * h + 1)).map fun c =>
          extImage image NX NY h ft (y + a) (x + c)) v := by
  unfold median2
  rw [if_neg (by omega)]
  obtain ⟨e, he, hf⟩ := extend_spec (ksize := 2 * h + 1) (ft := ft) hx hy hl
  rw [he]
  simp only [Out.bind_ok]
  rw [kB_odd] at hf ⊢
  unfold impl2
  rw [kB_odd, show NY + 2 * h - 2 * h = NY by omega, show NX + 2 * h - 2 * h = NX by omega]
  set R : Nat → ℚ → Prop := fun a v =>
    IsMedian ((List.range (2 * h + 1)).flatMap fun i => (List.range (2 * h + 1)).map fun c =>
          extImage image NX NY h ft (a / NX + i) (a % NX + c)) v with hR
  obtain ⟨m, em, fm⟩ := forRange_filled (n := NY) (size := NX * NY) (R := R) (S := fun _ => False)
    (T := fun y a => ∃ x < NX, a = y * NX + x) (m := result)
    (f := fun y (result : Mem) =>
      forRange NX (fun x (result : Mem) => do
        let w ← fillWindow e (windowAddrs (NX + 2 * h) (2 * h + 1) y x) 0
          (Mem.alloc ((2 * h + 1) * (2 * h + 1)))
        let v ← sortAndGet ((2 * h + 1) * (2 * h + 1)) (((2 * h + 1) * (2 * h + 1) + 1) / 2)
          (((2 * h + 1) * (2 * h + 1) - 1) / 2) w
        result.write (y * NX + x) v) result)
    ⟨hr, fun _ h => h.elim⟩ (by
      intro y hy m Q _ hm
      refine forRange_filled (T := fun x a => a = y * NX + x) hm ?_
      intro x hx m Q' _ hm
      have hwl : (windowAddrs (NX + 2 * h) (2 * h + 1) y x).length = (2 * h + 1) * (2 * h + 1) := by
        unfold windowAddrs
        rw [kB_odd]
        exact window_length h _
      obtain ⟨w, ew, ws, _, wc⟩ := fillWindow_spec (image := e) (val := extAt image NX NY h ft)
        (windowAddrs (NX + 2 * h) (2 * h + 1) y x) 0 (Mem.alloc ((2 * h + 1) * (2 * h + 1))) (by
          intro a ha
          have : a < (NX + 2 * h) * (NY + 2 * h) := by
            unfold windowAddrs at ha
            rw [kB_odd, List.mem_flatMap] at ha
            obtain ⟨i, hi, ha⟩ := ha
            obtain ⟨c, hc, rfl⟩ := List.mem_map.mp ha
            simp only [List.mem_range] at hi hc
            rw [Nat.mul_comm]
            exact addr_lt (by omega) (by omega)
          exact hf.read this this) (by rw [hwl]; simp [Mem.alloc])
      simp only [ew, Out.bind_ok]
      set l := (windowAddrs (NX + 2 * h) (2 * h + 1) y x).map (extAt image NX NY h ft) with hlw
      have hll : l.length = 2 * (2 * h * h + 2 * h) + 1 := by
        rw [hlw, List.length_map, hwl, sq_odd]
      obtain ⟨v, ev, hv⟩ := sortAndGet_spec (l := l) (w := w) hll
        (by rw [ws]; simp only [Mem.alloc]; exact sq_odd h) (by
          intro k hk
          have hk' : k < (windowAddrs (NX + 2 * h) (2 * h + 1) y x).length := by
            rw [hwl, sq_odd]; exact hk
          have := wc k hk'
          rw [Nat.zero_add] at this
          rw [this, List.getD_eq_getElem _ _ (by rw [hll]; exact hk)]
          simp [hlw])
      rw [sq_odd, show (2 * (2 * h * h + 2 * h) + 1 + 1) / 2 = 2 * h * h + 2 * h + 1 by omega,
        show (2 * (2 * h * h + 2 * h) + 1 - 1) / 2 = 2 * h * h + 2 * h by omega, ev]
      simp only [Out.bind_ok]
      refine hm.write ?_ ?_
      · rw [Nat.mul_comm y]; exact addr_lt hx hy
      · rw [hR]
        simp only
        rw [Nat.mul_comm y, addr_div hx, addr_mod hx]
        rw [hlw] at hv
        unfold windowAddrs at hv
        rw [kB_odd, window_map image hx] at hv
        exact hv)
  refine ⟨m, em, fm.1, ?_⟩
  intro y hy x hx
  obtain ⟨v, h1, h2⟩ := fm.2 (y * NX + x) (.inr ⟨y, hy, x, hx, rfl⟩)
  refine ⟨v, h1, ?_⟩
  rw [hR] at h2
  rwa [Nat.mul_comm y, addr_div hx, addr_mod hx] at h2

/-- The signal mirrored at its ends: position `k` of the signal extended by two samples. -/
def mirrored (signal : List ℚ) (k : Nat) : ℚ :=
  if k < 2 then signal.getD (1 - k) 0
  else if k < signal.length + 2 then signal.getD (k - 2) 0
  else signal.getD (2 * signal.length + 1 - k) 0

/-- C18, 1-D: every output sample is the median of the five samples around it, the signal being
mirrored at its ends; all accesses are in bounds and initialised. -/
theorem C18_median_1d {signal : List ℚ} (hn : 2 ≤ signal.length) (result : Mem)
    (hr : result.size = signal.length) (ksize : Nat) :
    ∃ m, median1 (Mem.ofList signal) result signal.length ksize = .ok m ∧ m.size = signal.length ∧
      ∀ i < signal.length, ∃ v, m.cell i = some v ∧
        IsMedian ((List.range 5).map fun j => mirrored signal (i + j)) v := by
  set N := signal.length with hN
  unfold median1
  rw [if_neg (by omega), if_neg (by omega)]
  obtain ⟨m1, e1, f1⟩ := forRange_filled (n := N) (size := N + 4) (R := fun a v => v = mirrored signal a)
    (S := fun _ => False) (T := fun k a => a = 2 + k) (m := Mem.alloc (N + 4))
    (f := fun k (e : Mem) => do
      let x ← (Mem.ofList signal).read k
      e.write (2 + k) x) ⟨rfl, fun _ h => h.elim⟩ (by
      intro k hk m Q _ hm
      rw [read_ofList (by omega)]
      simp only [Out.bind_ok]
      refine hm.write (by omega) ?_
      unfold mirrored
      rw [if_neg (by omega), if_pos (by omega), Nat.add_sub_cancel_left])
  rw [e1]
  simp only [Out.bind_ok]
  obtain ⟨m2, e2, f2⟩ := forRange_filled (n := 2) (T := fun i a => a = i ∨ a = N + 2 + i) (m := m1)
    (f := fun i (e : Mem) => do
      let x ← (Mem.ofList signal).read (1 - i)
      let e ← e.write i x
      let y ← (Mem.ofList signal).read (N - 1 - i)
      e.write (N + 2 + i) y) f1 (by
      intro i hi m Q _ hm
      rw [read_ofList (by omega), read_ofList (by omega)]
      simp only [Out.bind_ok]
      obtain ⟨m1, e1, f1⟩ := hm.write (a := i) (v := signal.getD (1 - i) 0) (by omega) (by
        unfold mirrored; rw [if_pos hi])
      rw [e1]
      simp only [Out.bind_ok]
      obtain ⟨m2, e2, f2⟩ := f1.write (a := N + 2 + i) (v := signal.getD (N - 1 - i) 0) (by omega) (by
        unfold mirrored; rw [if_neg (by omega), if_neg (by omega)]
        congr 1; omega)
      exact ⟨m2, e2, f2.mono fun a h => by rw [or_assoc]; exact h⟩)
  rw [e2]
  simp only [Out.bind_ok]
  have fall : ∀ a < N + 4, m2.read a = .ok (mirrored signal a) := by
    intro a ha
    refine f2.read ha ?_
    by_cases h1 : a < 2
    · exact .inr ⟨a, h1, .inl rfl⟩
    · by_cases h2 : a < N + 2
      · exact .inl (.inr ⟨a - 2, by omega, by omega⟩)
      · exact .inr ⟨a - (N + 2), by omega, .inr (by omega)⟩
  unfold impl1
  rw [Nat.add_sub_cancel]
  obtain ⟨m, em, fm⟩ := forRange_filled (n := N) (size := N)
    (R := fun a v => IsMedian ((List.range 5).map fun j => mirrored signal (a + j)) v)
    (S := fun _ => False) (T := fun i a => a = i) (m := result)
    (f := fun i (result : Mem) => do
      let w ← fillWindow m2 ((List.range 5).map fun j => i + j) 0 (Mem.alloc 5)
      let v ← sortAndGet 5 3 2 w
      result.write i v) ⟨hr, fun _ h => h.elim⟩ (by
      intro i hi m Q _ hm
      obtain ⟨w, ew, ws, _, wc⟩ := fillWindow_spec (image := m2) (val := mirrored signal)
        ((List.range 5).map fun j => i + j) 0 (Mem.alloc 5) (by
          intro a ha
          obtain ⟨j, hj, rfl⟩ := List.mem_map.mp ha
          simp only [List.mem_range] at hj
          exact fall _ (by omega)) (by simp [Mem.alloc])
      rw [ew]
      simp only [Out.bind_ok]
      obtain ⟨v, ev, hv⟩ := sortAndGet_spec (h := 2) (w := w)
        (l := (List.range 5).map fun j => mirrored signal (i + j)) (by simp) (by rw [ws]; rfl) (by
          intro k hk
          have := wc k (by simpa using hk)
          rw [Nat.zero_add] at this
          rw [this, List.getD_eq_getElem _ _ (by simpa using hk)]
          simp)
      rw [ev]
      simp only [Out.bind_ok]
      exact hm.write hi hv)
  exact ⟨m, em, fm.1, fun i hi => fm.2 i (.inr ⟨i, hi, rfl⟩)⟩

/-- C18: a signal of one sample is copied. -/
theorem C18_single_sample (x : ℚ) (result : Mem) (hr : result.size = 1) (ksize : Nat) :
    ∃ m, median1 (Mem.ofList [x]) result 1 ksize = .ok m ∧ m.cell 0 = some x := by
  unfold median1
  rw [if_neg (by omega), if_pos rfl, read_ofList (by simp)]
  simp only [Out.bind_ok]
  unfold Mem.write
  rw [if_pos (by omega)]
  exact ⟨_, rfl, by simp⟩

/-- C18: an image without pixels is accepted, whatever the window and the filling: nothing is read and
nothing is written. -/
theorem C18_empty_image (image result : Mem) (NX NY ksize ft : Nat) (h : NX * NY = 0) :
    median2 image result NX NY ksize ft = .ok result := by
  unfold median2
  rw [if_pos (by rcases Nat.mul_eq_zero.mp h with h | h <;> omega)]

/-- An image with rows but no columns, and one with columns but no rows. -/
example (image result : Mem) : median2 image result 0 5 3 1 = .ok result ∧
    median2 image result 5 0 3 1 = .ok result :=
  ⟨C18_empty_image _ _ _ _ _ _ rfl, C18_empty_image _ _ _ _ _ _ rfl⟩

private theorem median_sep {l : List ℚ} {u v : ℚ} (h : u < v) :
    l.countP (· ≤ u) + l.countP (v ≤ ·) ≤ l.length := by
  induction l with
  | nil => simp
  | cons x l ih =>
    simp only [List.countP_cons, List.length_cons, decide_eq_true_eq]
    split
    · rename_i h1
      rw [if_neg (by intro h2; linarith)]
      omega
    · split <;> omega

/-- A window with an odd number of entries has only one median, so C18 determines the output. -/
theorem C18_median_unique {l : List ℚ} (hodd : Odd l.length) {u v : ℚ} (hu : IsMedian l u)
    (hv : IsMedian l v) : u = v := by
  obtain ⟨k, hk⟩ := hodd
  rcases lt_trichotomy u v with h | h | h
  · have := median_sep (l := l) h
    have := hu.2.1; have := hv.2.2
    omega
  · exact h
  · have := median_sep (l := l) h
    have := hv.2.1; have := hu.2.2
    omega

/-- Cells of a result. -/
def contents (o : Out Mem) : Option (List (Option ℚ)) :=
  match o with
  | .ok m => some ((List.range m.size).map m.cell)
  | _ => none

example : contents (median1 (Mem.ofList [1, 9, 2, 8]) (Mem.alloc 4) 4 5) =
    some [some 2, some 2, some 8, some 8] := by decide

example : contents (median2 (Mem.ofList [5, 1, 7, 3]) (Mem.alloc 4) 2 2 3 1) =
    some [some 5, some 3, some 5, some 3] := by decide

/-! ### C19 -/

private theorem forRange_bad {σ : Type} {n : Nat} {f : Nat → σ → Out σ} (P : Nat → σ → Prop)
    {s : σ} (h0 : P 0 s)
    (hs : ∀ k < n, ∀ s, P k s → (∃ s', f k s = .ok s' ∧ P (k + 1) s') ∨ f k s = .ub)
    {b : Nat} (hb : b < n) (hbad : ∀ s, P b s → f b s = .ub) : forRange n f s = .ub := by
  have key : ∀ j, j ≤ n → (∃ s', forRange j f s = .ok s' ∧ P j s') ∨ forRange j f s = .ub := by
    intro j
    induction j with
    | zero => intro _; exact .inl ⟨s, rfl, h0⟩
    | succ j ih =>
      intro hj
      rcases ih (by omega) with ⟨s', e, p⟩ | e
      · unfold forRange
        rw [e]
        exact hs j (by omega) s' p
      · right; unfold forRange; rw [e]; rfl
  have h1 : forRange (b + 1) f s = .ub := by
    rcases key b (by omega) with ⟨s', e, p⟩ | e
    · unfold forRange; rw [e]; exact hbad s' p
    · unfold forRange; rw [e]; rfl
  have : ∀ d, forRange (b + 1 + d) f s = .ub := by
    intro d
    induction d with
    | zero => exact h1
    | succ d ih => show forRange (b + 1 + d + 1) f s = .ub; unfold forRange; rw [ih]; rfl
  have := this (n - (b + 1))
  rwa [show b + 1 + (n - (b + 1)) = n by omega] at this

/-- C19 fails for every even window size: whatever the image, the filter compares window entries
that have not been written. -/
theorem C19_even_size_violated {image : List ℚ} {NX NY h ft : Nat} (hx : 0 < NX) (hy : 0 < NY)
    (hl : image.length = NX * NY) (result : Mem) :
    median2 (Mem.ofList image) result NX NY (2 * (h + 1)) ft = .ub := by
  have hk : kB (2 * (h + 1)) = h := by unfold kB; omega
  unfold median2
  rw [if_neg (by omega)]
  obtain ⟨e, he, hf⟩ := extend_spec (ksize := 2 * (h + 1)) (ft := ft) hx hy hl
  rw [he]
  simp only [Out.bind_ok]
  rw [hk] at hf ⊢
  unfold impl2
  rw [hk, show NY + 2 * h - 2 * h = NY by omega, show NX + 2 * h - 2 * h = NX by omega]
  apply forRange_ub hy
  apply forRange_ub hx
  have hwl : (windowAddrs (NX + 2 * h) (2 * (h + 1)) 0 0).length = (2 * h + 1) * (2 * h + 1) := by
    unfold windowAddrs
    rw [hk]
    exact window_length h _
  have hsq : (2 * (h + 1)) * (2 * (h + 1)) = (2 * h + 1) * (2 * h + 1) + (4 * h + 3) := by ring
  obtain ⟨w, ew, ws, wk, wc⟩ := fillWindow_spec (image := e) (val := extAt image NX NY h ft)
    (windowAddrs (NX + 2 * h) (2 * (h + 1)) 0 0) 0 (Mem.alloc (2 * (h + 1) * (2 * (h + 1)))) (by
      intro a ha
      have : a < (NX + 2 * h) * (NY + 2 * h) := by
        unfold windowAddrs at ha
        rw [hk, List.mem_flatMap] at ha
        obtain ⟨i, hi, ha⟩ := ha
        obtain ⟨c, hc, rfl⟩ := List.mem_map.mp ha
        simp only [List.mem_range] at hi hc
        rw [Nat.mul_comm]
        exact addr_lt (by omega) (by omega)
      exact hf.read this this) (by rw [hwl]; simp only [Mem.alloc]; omega)
  simp only [ew, Out.bind_ok]
  have hpos : 0 < (2 * h + 1) * (2 * h + 1) := by positivity
  have hstep : minPos w (2 * (h + 1) * (2 * (h + 1))) 0 = .ub := by
    unfold minPos
    have hcell : ∀ k < (2 * h + 1) * (2 * h + 1), ∃ v, w.read k = .ok v := by
      intro k hk'
      have := wc k (by rw [hwl]; exact hk')
      rw [Nat.zero_add] at this
      unfold Mem.read
      rw [if_pos (by rw [ws]; simp only [Mem.alloc]; omega), this]
      exact ⟨_, rfl⟩
    have hun : ∀ k, (2 * h + 1) * (2 * h + 1) ≤ k → w.read k = .ub := by
      intro k hk'
      unfold Mem.read
      split
      · rw [wk k (.inr (by rw [hwl]; omega))]; rfl
      · rfl
    refine forRange_bad (fun d p => p < (2 * h + 1) * (2 * h + 1)) hpos ?_
      (b := (2 * h + 1) * (2 * h + 1) - 1) (by omega) ?_
    · intro d _ p hp
      obtain ⟨b, hb⟩ := hcell p hp
      by_cases hd : 0 + 1 + d < (2 * h + 1) * (2 * h + 1)
      · obtain ⟨a, ha⟩ := hcell _ hd
        rw [ha, hb]
        simp only [Out.bind_ok]
        refine .inl ⟨_, rfl, ?_⟩
        split
        · exact hd
        · exact hp
      · right; rw [hun _ (by omega)]; rfl
    · intro p _
      rw [hun _ (by omega)]; rfl
  unfold sortAndGet
  have : forRange ((2 * (h + 1) * (2 * (h + 1)) + 1) / 2) (selectStep (2 * (h + 1) * (2 * (h + 1)))) w =
      .ub := by
    apply forRange_ub (by omega)
    unfold selectStep
    rw [hstep]; rfl
  rw [this]
  rfl

/-- C19, what holds: for odd window sizes nothing uninitialised is read. -/
theorem C19_odd_size_partial {image : List ℚ} {NX NY h ft : Nat} (hx : 0 < NX) (hy : 0 < NY)
    (hl : image.length = NX * NY) (result : Mem) (hr : result.size = NX * NY) :
    median2 (Mem.ofList image) result NX NY (2 * h + 1) ft ≠ .ub := by
  obtain ⟨m, e, _⟩ := C18_median_2d (h := h) (ft := ft) hx hy hl result hr
  rw [e]
  exact fun h => by cases h

example : contents (median2 (Mem.ofList [5, 1, 7, 3]) (Mem.alloc 4) 2 2 2 1) = none := by decide

/-! ### C59 -/

/-- C59 fails: the 1-D filter uses five samples whatever length is asked for; a window of one sample
should return the signal. -/
theorem C59_window_length_violated :
    (∀ (s r : Mem) (n k k' : Nat), median1 s r n k = median1 s r n k') ∧
      contents (median1 (Mem.ofList [1, 9, 2, 8]) (Mem.alloc 4) 4 1) =
        some [some 2, some 2, some 8, some 8] :=
  ⟨fun _ _ _ _ _ => rfl, by decide⟩

end Verif.Median
