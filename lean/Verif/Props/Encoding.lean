import Verif.Lemmas.Encoding
import Verif.Model.Acquisition
import Mathlib.Tactic.Linarith
/-!
# C126–C128: individual shots out of supershots

`recorded` and `own` are the receivers (in file order) whose traces a supershot and one of its
members have in the component of type `t`.
-/
namespace Verif.Encoding

set_option linter.unusedSectionVars false

variable {M : Type} [AddCommGroup M]

/-- The receivers of type `t` marked for at least one member. -/
def recorded (n : ℕ) (ty : ℕ → Int) (t : Int) (ms : List Member) : List ℕ :=
  (List.range n).filter fun r => decide ((∃ s ∈ ms, s.row r ≠ 0) ∧ ty r = t)

/-- The receivers of type `t` marked for the shot `s`. -/
def own (n : ℕ) (ty : ℕ → Int) (t : Int) (s : Member) : List ℕ :=
  (List.range n).filter fun r => decide (s.row r ≠ 0 ∧ ty r = t)

/-- Marks are 0 or 1. -/
def Marks (ms : List Member) : Prop := ∀ s ∈ ms, ∀ r, s.row r = 0 ∨ s.row r = 1

private theorem recorded_eq (n : ℕ) (ty : ℕ → Int) (t : Int) (ms : List Member) (h : Marks ms) :
    recorded n ty t ms =
      (List.range n).filter fun r => decide (markVector ms r ≠ 0 ∧ ty r = t) := by
  unfold recorded
  congr 1
  funext r
  rw [decide_eq_decide, markVector_ne_zero ms h r]

private theorem row_imp (ms : List Member) (h : Marks ms) :
    ∀ s ∈ ms, ∀ r, s.row r ≠ 0 → markVector ms r ≠ 0 :=
  fun s hs r hr => (markVector_ne_zero ms h r).mpr ⟨s, hs, hr⟩

/-- C126, the traces: decoding a supershot gives every member the traces of the supershot at the
member's own receivers, in file order and with the sign of the member's amplitude undone. What is
missing: if the member has receivers of other types, zero traces follow, one for each of them
(`C126_components_violated`). -/
theorem C126_partial (n : ℕ) (ty : ℕ → Int) (t : Int) (ms : List Member) (hm : Marks ms)
    (tr : ℕ → M) :
    decode n ty t ms ((recorded n ty t ms).map tr) =
      .ok (ms.map fun s => (own n ty t s).map (fun r => if s.amp < 0 then -tr r else tr r) ++
        List.replicate ((List.range n).filter fun r => decide (s.row r ≠ 0 ∧ ty r ≠ t)).length 0) := by
  rw [recorded_eq n ty t ms hm]
  exact decodeAll_eq n ty (markVector ms) t tr ms hm (row_imp ms hm)

/-- C126 for acquisitions with one receiver type: the decoded shots are exactly the signed traces at
the members' receivers. -/
theorem C126_one_type_partial (n : ℕ) (ty : ℕ → Int) (t : Int) (ms : List Member) (hm : Marks ms)
    (hty : ∀ r, r < n → ty r = t) (tr : ℕ → M) :
    decode n ty t ms ((recorded n ty t ms).map tr) =
      .ok (ms.map fun s => (own n ty t s).map fun r => if s.amp < 0 then -tr r else tr r) := by
  rw [C126_partial n ty t ms hm tr]
  congr 1
  refine List.map_congr_left fun s _ => ?_
  have : ((List.range n).filter fun r => decide (s.row r ≠ 0 ∧ ty r ≠ t)) = [] := by
    rw [List.filter_eq_nil_iff]
    intro r hr
    simp [hty r (List.mem_range.mp hr)]
  rw [this]; simp

private theorem crosstalk (pre post : List (Member × (ℕ → M))) (p : Member × (ℕ → M)) (r : ℕ) :
    (if p.1.amp < 0 then
        -((pre ++ p :: post).map fun q => if q.1.amp < 0 then -q.2 r else q.2 r).sum
      else ((pre ++ p :: post).map fun q => if q.1.amp < 0 then -q.2 r else q.2 r).sum) =
      p.2 r + ((pre ++ post).map fun q =>
        if (p.1.amp < 0) = (q.1.amp < 0) then q.2 r else -q.2 r).sum := by
  have key : ∀ l : List (Member × (ℕ → M)),
      (if p.1.amp < 0 then -(l.map fun q => if q.1.amp < 0 then -q.2 r else q.2 r).sum
        else (l.map fun q => if q.1.amp < 0 then -q.2 r else q.2 r).sum) =
      (l.map fun q => if (p.1.amp < 0) = (q.1.amp < 0) then q.2 r else -q.2 r).sum := by
    intro l
    induction l with
    | nil => simp
    | cons q l ih =>
      simp only [List.map_cons, List.sum_cons, ← ih]
      by_cases hp : p.1.amp < 0 <;> by_cases hq : q.1.amp < 0 <;> simp [hp, hq, add_comm]
  rw [key]
  simp only [List.map_append, List.map_cons, List.sum_append, List.sum_cons, if_true]
  rw [add_left_comm]

/-- C126, cross talk: if the traces of the supershot are the superposition of the signed traces of its
members (which is what C28 gives; `p.2` are the traces member `p.1` has on its own), then what is
decoded for a member is its own trace plus the signed traces of the other members. Decoding does not
separate the shots: it is exact where the other members' traces cancel, in particular where they
vanish. -/
theorem C126_crosstalk (n : ℕ) (ty : ℕ → Int) (t : Int) (hty : ∀ r, r < n → ty r = t)
    (pre post : List (Member × (ℕ → M))) (p : Member × (ℕ → M))
    (hm : Marks ((pre ++ p :: post).map (·.1))) :
    ∃ A B, A.length = pre.length ∧
      decode n ty t ((pre ++ p :: post).map (·.1))
          ((recorded n ty t ((pre ++ p :: post).map (·.1))).map fun r =>
            ((pre ++ p :: post).map fun q => if q.1.amp < 0 then -q.2 r else q.2 r).sum) =
        .ok (A ++ (own n ty t p.1).map (fun r => p.2 r + ((pre ++ post).map fun q =>
          if (p.1.amp < 0) = (q.1.amp < 0) then q.2 r else -q.2 r).sum) :: B) := by
  rw [C126_one_type_partial n ty t _ hm hty]
  simp only [← crosstalk]
  rw [List.map_map, List.map_append, List.map_cons]
  exact ⟨_, _, List.length_map .., rfl⟩

/-- Two members with the receivers 0 and 2, and 1; the second one has a negative amplitude. -/
private def twoShots : List Member :=
  [⟨1, 7, fun r => if r = 0 ∨ r = 2 then 1 else 0⟩, ⟨-1, 8, fun r => if r = 1 then 1 else 0⟩]

/-- A case of `C126_one_type_partial`: the hypotheses hold for `twoShots`, and the second shot gets
the negative of the trace at receiver 1. -/
example : Marks twoShots ∧
    decode 3 (fun _ => 1) 1 twoShots [(10 : ℤ), 20, 30] = .ok [[10, 30], [-20]] := by
  constructor
  · intro s hs r
    simp only [twoShots, List.mem_cons, List.not_mem_nil, or_false] at hs
    rcases hs with rfl | rfl <;> dsimp only <;> split <;> simp
  · decide +kernel

/-- C126 does not hold with several receiver types: the file of a decoded shot has a row for every
receiver of the shot, whatever its type, and the surplus rows are zero. Here a shot with one pressure
receiver and one velocity receiver gets two rows of pressure. -/
theorem C126_components_violated :
    ∃ (n : ℕ) (ty : ℕ → Int) (t : Int) (ms : List Member) (data : List ℤ) (s : Member),
      Marks ms ∧ s ∈ ms ∧ data.length = (recorded n ty t ms).length ∧
      ∃ d, decode n ty t ms data = .ok [d] ∧ d.length ≠ (own n ty t s).length := by
  refine ⟨2, fun r => if r = 0 then 1 else 2, 1, [⟨1, 1, fun _ => 1⟩], [5], ⟨1, 1, fun _ => 1⟩,
    ?_, by simp, by decide +kernel, [5, 0], by decide +kernel, by decide +kernel⟩
  intro s hs r
  simp only [List.mem_cons, List.not_mem_nil, or_false] at hs
  subst hs
  exact Or.inr rfl

/-- C127: encoding members again. The supershot gets at each of its receivers the sum of the signed
traces of the members that recorded there; rows after the traces of a member do not matter. -/
theorem C127_encode (n : ℕ) (ty : ℕ → Int) (t : Int) (ps : List (Member × (ℕ → M) × List M))
    (hm : Marks (ps.map (·.1))) :
    encode n ty t (ps.map (·.1)) (recorded n ty t (ps.map (·.1))).length
        (ps.map fun p => (own n ty t p.1).map p.2.1 ++ p.2.2) =
      .ok ((recorded n ty t (ps.map (·.1))).map fun r => (ps.map fun p =>
        if p.1.row r = 0 then 0 else if p.1.amp < 0 then -p.2.1 r else p.2.1 r).sum) := by
  rw [recorded_eq n ty t _ hm]
  have h := encodeAll_eq n ty (markVector (ps.map (·.1))) t ps (fun _ => (0 : M))
    (fun p hp => row_imp _ hm p.1 (List.mem_map.mpr ⟨p, hp, rfl⟩))
  unfold encode
  rw [List.map_const'] at h
  refine h.trans ?_
  congr 1
  refine List.map_congr_left fun r _ => ?_
  rw [zero_add]
  congr 1
  refine List.map_congr_left fun p _ => ?_
  unfold signed
  by_cases h0 : p.1.row r = 0 <;> simp [h0]

private theorem sum_indicator (l : List Member) (r : ℕ) (x : M) :
    (l.map fun s => if s.row r = 0 then (0 : M) else x).sum =
      (l.filter fun s => decide (s.row r ≠ 0)).length • x := by
  induction l with
  | nil => simp
  | cons s l ih =>
    by_cases h : s.row r = 0
    · simp [h] at ih ⊢; exact ih
    · simp [h] at ih ⊢; rw [ih, succ_nsmul, add_comm]

/-- C127: decoding a supershot and encoding the result multiplies every trace by the number of members
that recorded it, for any number of receiver types. -/
theorem C127_decode_encode (n : ℕ) (ty : ℕ → Int) (t : Int) (ms : List Member) (hm : Marks ms)
    (tr : ℕ → M) :
    (decode n ty t ms ((recorded n ty t ms).map tr) >>= fun ds =>
        encode n ty t ms (recorded n ty t ms).length ds) =
      .ok ((recorded n ty t ms).map fun r =>
        (ms.filter fun s => decide (s.row r ≠ 0)).length • tr r) := by
  rw [C126_partial n ty t ms hm tr, Out.bind_ok]
  let ps : List (Member × (ℕ → M) × List M) := ms.map fun s =>
    (s, (fun r => if s.amp < 0 then -tr r else tr r),
      List.replicate ((List.range n).filter fun r => decide (s.row r ≠ 0 ∧ ty r ≠ t)).length 0)
  have e1 : ps.map (·.1) = ms := by simp [ps, Function.comp_def]
  have h := C127_encode n ty t ps (by rw [e1]; exact hm)
  rw [e1] at h
  have e2 : (ps.map fun p => (own n ty t p.1).map p.2.1 ++ p.2.2) =
      ms.map fun s => (own n ty t s).map (fun r => if s.amp < 0 then -tr r else tr r) ++
        List.replicate ((List.range n).filter fun r => decide (s.row r ≠ 0 ∧ ty r ≠ t)).length 0 := by
    simp only [ps, List.map_map, Function.comp_def]
  rw [e2] at h
  rw [h]
  congr 1
  refine List.map_congr_left fun r _ => ?_
  rw [← sum_indicator]
  simp only [ps, List.map_map, Function.comp_def]
  congr 1
  refine List.map_congr_left fun s _ => ?_
  by_cases h0 : s.row r = 0
  · simp [h0]
  · by_cases ha : s.amp < 0 <;> simp [h0, ha]

/-- C127: if no receiver is shared by two members, decoding followed by encoding gives the supershot
back. -/
theorem C127_inverse (n : ℕ) (ty : ℕ → Int) (t : Int) (ms : List Member) (hm : Marks ms)
    (hdis : ∀ r, (ms.filter fun s => decide (s.row r ≠ 0)).length ≤ 1) (tr : ℕ → M) :
    (decode n ty t ms ((recorded n ty t ms).map tr) >>= fun ds =>
        encode n ty t ms (recorded n ty t ms).length ds) =
      .ok ((recorded n ty t ms).map tr) := by
  rw [C127_decode_encode n ty t ms hm tr]
  congr 1
  refine List.map_congr_left fun r hr => ?_
  have h1 : 1 ≤ (ms.filter fun s => decide (s.row r ≠ 0)).length := by
    obtain ⟨_, hr⟩ := List.mem_filter.mp hr
    obtain ⟨⟨s, hs, h0⟩, _⟩ := of_decide_eq_true hr
    exact List.length_pos_of_mem (List.mem_filter.mpr ⟨hs, by simpa using h0⟩)
  have h2 := hdis r
  rw [show (ms.filter fun s => decide (s.row r ≠ 0)).length = 1 by omega, one_nsmul]

/-- A case of `C127_inverse`. -/
example : (∀ r, (twoShots.filter fun s => decide (s.row r ≠ 0)).length ≤ 1) ∧
    (decode 3 (fun _ => 1) 1 twoShots [(10 : ℤ), 20, 30] >>= fun ds =>
      encode 3 (fun _ => 1) 1 twoShots 3 ds) = .ok [10, 20, 30] := by
  refine ⟨fun r => ?_, by decide +kernel⟩
  by_cases h0 : r = 0
  · subst h0; decide
  by_cases h1 : r = 1
  · subst h1; decide
  by_cases h2 : r = 2
  · subst h2; decide
  simp [twoShots, h0, h1, h2]

/-- C127 does not hold when members share receivers: the trace at a shared receiver is doubled. -/
theorem C127_shared_violated :
    ∃ (ms : List Member) (data : List ℤ), Marks ms ∧
      data.length = (recorded 1 (fun _ => 1) 1 ms).length ∧
      (decode 1 (fun _ => 1) 1 ms data >>= fun ds => encode 1 (fun _ => 1) 1 ms data.length ds) ≠
        .ok data := by
  refine ⟨[⟨1, 1, fun _ => 1⟩, ⟨1, 2, fun _ => 1⟩], [5], ?_, by decide +kernel, by decide +kernel⟩
  intro s hs r
  simp only [List.mem_cons, List.not_mem_nil, or_false] at hs
  rcases hs with rfl | rfl <;> exact Or.inr rfl

/-- C127, encoding files of separately simulated shots: such a file has one row for each receiver of
its own component. It is accepted exactly if the shot has no receiver of another type. -/
theorem C127_files_partial (n : ℕ) (ty : ℕ → Int) (t fmt : Int) (hf : 1 ≤ fmt ∧ fmt ≤ 3) (s : Member)
    (hm : ∀ r, s.row r = 0 ∨ s.row r = 1) (tr : ℕ → M) :
    readSingle n fmt s ((own n ty t s).map tr) = .ok ((own n ty t s).map tr) ↔
      ∀ r, r < n → s.row r ≠ 0 → ty r = t := by
  have hn := numSingle_eq n s.row hm
  have hs := length_filter_split (List.range n) (fun r => s.row r ≠ 0) (fun r => ty r = t)
  unfold readSingle
  rw [if_neg (by omega)]
  rw [List.length_map]
  have hown : (own n ty t s).length =
      ((List.range n).filter fun r => decide (s.row r ≠ 0 ∧ ty r = t)).length := rfl
  constructor
  · intro h r hr h0
    by_contra hne
    have hpos : 0 < ((List.range n).filter fun r => decide (s.row r ≠ 0 ∧ ¬ ty r = t)).length :=
      List.length_pos_of_mem (List.mem_filter.mpr ⟨List.mem_range.mpr hr, by simp [h0, hne]⟩)
    rw [if_neg (by omega)] at h
    exact absurd h (by simp)
  · intro h
    have hz : ((List.range n).filter fun r => decide (s.row r ≠ 0 ∧ ¬ ty r = t)).length = 0 := by
      rw [List.length_eq_zero_iff, List.filter_eq_nil_iff]
      intro r hr hc
      obtain ⟨h1, h2⟩ := of_decide_eq_true hc
      exact h2 (h r (List.mem_range.mp hr) h1)
    rw [if_pos (by omega)]

/-- C127 for files does not hold with several types: the pressure file of a shot that also has a
velocity receiver is rejected. -/
theorem C127_files_violated :
    ∃ (n : ℕ) (ty : ℕ → Int) (t : Int) (s : Member) (tr : ℕ → ℤ),
      (∀ r, s.row r = 0 ∨ s.row r = 1) ∧ 0 < (own n ty t s).length ∧
      readSingle n 1 s ((own n ty t s).map tr) = .err :=
  ⟨2, fun r => if r = 0 then 1 else 2, 1, ⟨1, 1, fun _ => 1⟩, fun _ => 5, fun _ => Or.inr rfl,
    by decide +kernel, by decide +kernel⟩

private theorem writeDecodedAll_eq (fmt : Int) (hf : 1 ≤ fmt ∧ fmt ≤ 3) :
    ∀ (ms : List Member) (f : Member → List M),
      writeDecodedAll fmt ms (ms.map f) = .ok (ms.map fun s => (s.no, f s)) := by
  intro ms f
  induction ms with
  | nil => rfl
  | cons s ms ih =>
    simp only [List.map_cons]
    unfold writeDecodedAll writeDecoded
    rw [if_pos (by omega), Out.bind_ok, ih, Out.bind_ok]

/-- C128: with a matrix format, after a supershot there is a file for the supershot and one for every
member, named after its shot number. The traces of the supershot are resampled; what is missing is
that those of the members are not (`C128_sampling_violated`). -/
theorem C128_partial (n : ℕ) (ty : ℕ → Int) (t fmt : Int) (hf : 1 ≤ fmt ∧ fmt ≤ 3)
    (resample : M → M) (no : Int) (ms : List Member) (hm : Marks ms)
    (hty : ∀ r, r < n → ty r = t) (tr : ℕ → M) :
    finish n ty t fmt resample no ms ((recorded n ty t ms).map tr) =
      .ok ((no, (recorded n ty t ms).map fun r => resample (tr r)) ::
        ms.map fun s => (s.no, (own n ty t s).map fun r => if s.amp < 0 then -tr r else tr r)) := by
  unfold finish writeShot
  rw [if_pos (by omega), Out.bind_ok, C126_one_type_partial n ty t ms hm hty tr, Out.bind_ok,
    writeDecodedAll_eq fmt hf, Out.bind_ok, List.map_map]
  rfl

/-- C128 does not hold for the sampling: whenever resampling changes the trace of a receiver of a
member with positive amplitude, the two files with this trace differ. -/
theorem C128_sampling_violated (resample : M → M) (x : M) (hx : resample x ≠ x) :
    ∃ (n : ℕ) (ty : ℕ → Int) (t : Int) (ms : List Member) (data : List M),
      Marks ms ∧ data.length = (recorded n ty t ms).length ∧
      ∃ a b, finish n ty t 1 resample 10001 ms data = .ok [(10001, a), (1, b)] ∧ a ≠ b := by
  have hm : Marks [⟨1, 1, fun _ => 1⟩] := by
    intro s hs r
    simp only [List.mem_cons, List.not_mem_nil, or_false] at hs
    subst hs
    exact Or.inr rfl
  have h := C128_partial 1 (fun _ => 1) 1 1 (by decide) resample 10001 [⟨1, 1, fun _ => 1⟩] hm
    (fun _ _ => rfl) (fun _ => x)
  refine ⟨1, fun _ => 1, 1, [⟨1, 1, fun _ => 1⟩], _, hm, List.length_map .., _, _, h, ?_⟩
  intro hab
  have e1 : recorded 1 (fun _ => 1) 1 [⟨1, 1, fun _ => 1⟩] = [0] := by decide +kernel
  have e2 : own 1 (fun _ => 1) 1 ⟨1, 1, fun _ => 1⟩ = [0] := by decide +kernel
  rw [e1, e2] at hab
  simp only [List.map_cons, List.map_nil, List.cons.injEq, and_true] at hab
  rw [if_neg (by norm_num)] at hab
  exact hx hab

/-- C128 does not hold for the SU format: the run stops with an error once the first supershot was
simulated, for every supershot with a member. -/
theorem C128_su_violated (n : ℕ) (ty : ℕ → Int) (t : Int) (resample : M → M) (no : Int)
    (s : Member) (ms : List Member) (hm : Marks (s :: ms)) (tr : ℕ → M) :
    writeShot 4 resample ((recorded n ty t (s :: ms)).map tr) =
        .ok (((recorded n ty t (s :: ms)).map tr).map resample) ∧
      finish n ty t 4 resample no (s :: ms) ((recorded n ty t (s :: ms)).map tr) = .err := by
  refine ⟨by unfold writeShot; rw [if_pos (by decide)], ?_⟩
  unfold finish writeShot
  rw [if_pos (by decide), Out.bind_ok, C126_partial n ty t _ hm tr, Out.bind_ok]
  simp only [List.map_cons]
  unfold writeDecodedAll writeDecoded
  rw [if_neg (by decide)]
  rfl

end Verif.Encoding
