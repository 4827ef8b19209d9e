import Verif.Model.RecordNames
import Verif.Props.ShotFiles
import Mathlib.Data.List.Basic

/-!
# C165: files that record the choice of shots do not overwrite each other
-/
namespace Verif.RecordNames
open Verif
open Verif.ShotFile

/-- The records of a run or of an inversion. -/
inductive Record
  /-- the selected shots -/
  | selected
  /-- the supershots of an iteration -/
  | supershots (stage it : Int)
  /-- the frequencies of an iteration -/
  | frequencies (stage it : Int)
  /-- the receivers of a supershot in an iteration -/
  | receivers (shot stage it : Int)
deriving DecidableEq

/-- The file of a record. -/
def Record.file (base : List Char) : Record → List Char
  | .selected => incrName base
  | .supershots s i => encodeName base s i
  | .frequencies s i => fcName base s i
  | .receivers n s i => markName base n s i

/-- Records of the same iteration: stage 0 stands for a simulation, which has no iterations. -/
def SameIt (s i s' i' : Int) : Prop := s = s' ∧ (s = 0 ∨ i = i')

/-- Records of the same thing. -/
def Same : Record → Record → Prop
  | .selected, .selected => True
  | .supershots s i, .supershots s' i' => SameIt s i s' i'
  | .frequencies s i, .frequencies s' i' => SameIt s i s' i'
  | .receivers n s i, .receivers n' s' i' => n = n' ∧ SameIt s i s' i'
  | _, _ => False

/-- The files that are read: the positions, those of the receivers of a shot, and the marks of receivers. -/
inductive Input (base : List Char) : List Char → Prop
  | positions : Input base (acqName base)
  | ofShot (n : Int) : Input base (shotAcqName base n)
  | marks : Input base (markMatrixName base)

/-- A disk after writing records one after the other. -/
def afterWrites {α : Type} (base : List Char) (disk : List Char → Option α) : List (Record × α) → List Char → Option α
  | [] => disk
  | w :: ws => afterWrites base (fun n => if n = w.1.file base then some w.2 else disk n) ws

/-! ### Helpers -/

private theorem digit_ne {c : Char} (h2 : c.isDigit = false) (n : Nat) : c ∉ Nat.toDigits 10 n := by
  intro h
  rw [Nat.isDigit_of_mem_toDigits (by omega) (by omega) h] at h2
  cases h2

private theorem show_dot (x : Int) : '.' ∉ showInt x := by
  unfold showInt
  split
  · exact digit_ne (by decide) _
  · intro h
    rcases List.mem_cons.mp h with h | h
    · exact absurd h (by decide)
    · exact digit_ne (by decide) _ h

private theorem digits_inj {a b : Nat} (h : Nat.toDigits 10 a = Nat.toDigits 10 b) : a = b := by
  have := congrArg (fun l => Nat.ofDigitChars 10 l 0) h
  simpa only [Nat.ofDigitChars_toDigits (b := 10) (by omega) (by omega)] using this

private theorem show_inj {x y : Int} (h : showInt x = showInt y) : x = y := by
  cases x <;> cases y <;> simp only [showInt] at h
  · rw [digits_inj h]
  · exact absurd (by rw [h]; simp) (digit_ne (c := '-') (by decide) _)
  · exact absurd (by rw [← h]; simp) (digit_ne (c := '-') (by decide) _)
  · have := digits_inj (List.cons.inj h).2
    congr 1
    omega

private theorem split_dot {a b x y : List Char} (ha : '.' ∉ a) (hb : '.' ∉ b) (h : a ++ '.' :: x = b ++ '.' :: y) : a = b ∧ x = y := by
  induction a generalizing b with
  | nil =>
    cases b with
    | nil => exact ⟨rfl, by simpa using h⟩
    | cons c b =>
      simp only [List.nil_append, List.cons_append, List.cons.injEq] at h
      exact absurd (by rw [← h.1]; simp) hb
  | cons d a ih =>
    cases b with
    | nil =>
      simp only [List.nil_append, List.cons_append, List.cons.injEq] at h
      exact absurd (by rw [h.1]; simp) ha
    | cons c b =>
      simp only [List.cons_append, List.cons.injEq] at h
      obtain ⟨rfl, h⟩ := h
      obtain ⟨rfl, rfl⟩ := ih (fun m => ha (by simp [m])) (fun m => hb (by simp [m])) h
      exact ⟨rfl, rfl⟩

private theorem show_split {n m : Int} {x y : List Char} (h : showInt n ++ '.' :: x = showInt m ++ '.' :: y) : n = m ∧ x = y := by
  obtain ⟨h1, h2⟩ := split_dot (show_dot n) (show_dot m) h
  exact ⟨show_inj h1, h2⟩

private theorem staged_pos {base : List Char} {s i : Int} (h : s ≠ 0) :
    staged base s i = base ++ '.' :: 's' :: 't' :: (['a', 'g', 'e', '_'] ++ (showInt s ++ '.' :: (['I', 't', '_'] ++ showInt i))) := by
  unfold staged
  rw [if_pos h]
  simp

private theorem staged_zero {base : List Char} {i : Int} : staged base 0 i = base := by
  unfold staged
  rw [if_neg (by simp)]

/-- Cancels the stage: the tails must not begin as a stage does. -/
private theorem staged_split {base x y : List Char} {s i s' i' : Int} (hx : x.head? ≠ some 's' ∨ (x.drop 1).head? ≠ some 't')
    (hy : y.head? ≠ some 's' ∨ (y.drop 1).head? ≠ some 't') (h : staged base s i ++ '.' :: x = staged base s' i' ++ '.' :: y) :
    SameIt s i s' i' ∧ x = y := by
  by_cases h1 : s = 0
  · subst h1
    rw [staged_zero] at h
    by_cases h2 : s' = 0
    · subst h2
      rw [staged_zero] at h
      exact ⟨⟨rfl, .inl rfl⟩, (List.cons.inj (List.append_cancel_left h)).2⟩
    · rw [staged_pos h2, List.append_assoc] at h
      have := (List.cons.inj (List.append_cancel_left h)).2
      rw [this] at hx
      rcases hx with hx | hx <;> exact absurd rfl hx
  · by_cases h2 : s' = 0
    · subst h2
      rw [staged_zero, staged_pos h1, List.append_assoc] at h
      have := (List.cons.inj (List.append_cancel_left h)).2
      rw [← this] at hy
      rcases hy with hy | hy <;> exact absurd rfl hy
    · rw [staged_pos h1, staged_pos h2, List.append_assoc, List.append_assoc] at h
      have h := List.append_cancel_left h
      simp only [List.cons_append, List.append_assoc, List.cons.injEq, true_and, List.nil_append] at h
      obtain ⟨e, h⟩ := show_split h
      simp only [List.cons.injEq, true_and] at h
      obtain ⟨e2, h⟩ := show_split h
      exact ⟨⟨e, .inr e2⟩, h⟩

private theorem staged_same {base : List Char} {s i s' i' : Int} (h : SameIt s i s' i') : staged base s i = staged base s' i' := by
  obtain ⟨rfl, h | rfl⟩ := h
  · unfold staged
    rw [if_neg (by simpa using h), if_neg (by simpa using h)]
  · rfl

/-- What follows the stage in the name of a record, without the dot. -/
private def tail : Record → List Char
  | .selected => ['s', 'h', 'o', 't', 'I', 'n', 'c', 'r', '.', 't', 'x', 't']
  | .supershots _ _ => ['e', 'n', 'c', 'o', 'd', 'e', '.', 't', 'x', 't']
  | .frequencies _ _ => ['s', 'o', 'u', 'r', 'c', 'e', 'F', 'C', '.', 't', 'x', 't']
  | .receivers n _ _ => ['s', 'h', 'o', 't', '_'] ++ (showInt n ++ '.' :: ['m', 'a', 'r', 'k', '.', 'm', 't', 'x'])

private def stageOf : Record → Int × Int
  | .selected => (0, 0)
  | .supershots s i => (s, i)
  | .frequencies s i => (s, i)
  | .receivers _ s i => (s, i)

private theorem file_eq (base : List Char) (r : Record) : r.file base = staged base (stageOf r).1 (stageOf r).2 ++ '.' :: tail r := by
  cases r with
  | selected => simp [Record.file, incrName, tail, stageOf, staged_zero]
  | supershots s i => simp [Record.file, encodeName, tail, stageOf]
  | frequencies s i => simp [Record.file, fcName, tail, stageOf]
  | receivers n s i => simp [Record.file, markName, tail, stageOf]

private theorem tail_second (r : Record) : (tail r).head? ≠ some 's' ∨ ((tail r).drop 1).head? ≠ some 't' := by
  cases r with
  | receivers n s i => exact .inr (by show some 'h' ≠ some 't'; decide)
  | _ => exact .inr (by simp only [tail]; decide)

private theorem shot_tail {n : Int} {x y : List Char} (hx : ['s', 'h', 'o', 't', '_'] ++ (showInt n ++ '.' :: x) = y) :
    y.take 5 = ['s', 'h', 'o', 't', '_'] := by
  rw [← hx]
  rfl

/-! ### Properties -/

/-- C165: two records have the same file exactly if they record the same thing. -/
theorem C165_distinct (base : List Char) (r r' : Record) : r.file base = r'.file base ↔ Same r r' := by
  rw [file_eq, file_eq]
  constructor
  · intro h
    obtain ⟨h1, h2⟩ := staged_split (tail_second r) (tail_second r') h
    cases r <;> cases r' <;> simp only [tail, stageOf] at h1 h2
    case selected.selected => trivial
    case supershots.supershots => exact h1
    case frequencies.frequencies => exact h1
    case receivers.receivers => exact ⟨(show_split (List.append_cancel_left h2)).1, h1⟩
    case receivers.selected => exact absurd (shot_tail h2) (by decide)
    case receivers.supershots => exact absurd (shot_tail h2) (by decide)
    case receivers.frequencies => exact absurd (shot_tail h2) (by decide)
    case selected.receivers => exact absurd (shot_tail h2.symm) (by decide)
    case supershots.receivers => exact absurd (shot_tail h2.symm) (by decide)
    case frequencies.receivers => exact absurd (shot_tail h2.symm) (by decide)
    all_goals exact absurd h2 (by decide)
  · intro h
    cases r <;> cases r' <;> simp only [Same] at h
    case selected.selected => rfl
    case supershots.supershots => simp only [stageOf, tail, staged_same h]
    case frequencies.frequencies => simp only [stageOf, tail, staged_same h]
    case receivers.receivers => obtain ⟨rfl, h⟩ := h; simp only [stageOf, tail, staged_same h]

/-- C165: no record is written to a file that the program reads. -/
theorem C165_inputs (base : List Char) (r : Record) : ¬ Input base (r.file base) := by
  have key : ∀ t : List Char, (t.head? ≠ some 's' ∨ (t.drop 1).head? ≠ some 't') → r.file base = base ++ '.' :: t → tail r = t := by
    intro t ht h
    rw [file_eq] at h
    exact (staged_split (base := base) (s := (stageOf r).1) (i := (stageOf r).2) (s' := 0) (i' := 0) (tail_second r) ht
      (by rw [staged_zero (base := base) (i := 0)]; exact h)).2
  intro h
  generalize hf : r.file base = f at h
  cases h with
  | positions =>
    have := key ['t', 'x', 't'] (.inl (by decide)) (hf.trans (by simp [acqName]))
    cases r <;> simp only [tail] at this
    case receivers => exact absurd (shot_tail this) (by decide)
    all_goals exact absurd this (by decide)
  | ofShot n =>
    have := key (['s', 'h', 'o', 't', '_'] ++ (showInt n ++ '.' :: ['t', 'x', 't'])) (.inr (by show some 'h' ≠ some 't'; decide))
      (hf.trans (by simp [shotAcqName]))
    cases r <;> simp only [tail] at this
    case receivers => exact absurd (show_split (List.append_cancel_left this)).2 (by decide)
    all_goals exact absurd (shot_tail this.symm) (by decide)
  | marks =>
    have := key ['m', 'a', 'r', 'k', '.', 'm', 't', 'x'] (.inl (by decide)) (hf.trans (by simp [markMatrixName]))
    cases r <;> simp only [tail] at this
    case receivers => exact absurd (shot_tail this) (by decide)
    all_goals exact absurd this (by decide)

private theorem untouched {α : Type} {base n : List Char} {ws : List (Record × α)} (h : ∀ w ∈ ws, n ≠ w.1.file base)
    (disk : List Char → Option α) : afterWrites base disk ws n = disk n := by
  induction ws generalizing disk with
  | nil => rfl
  | cons w ws ih =>
    rw [afterWrites, ih fun v hv => h v (by simp [hv]), if_neg (h w (by simp))]

/-- C165: in any sequence of writes, a record can be read until the same thing is recorded again. -/
theorem C165_kept {α : Type} (base : List Char) (disk : List Char → Option α) (before later : List (Record × α)) (r : Record) (x : α)
    (h : ∀ w ∈ later, ¬ Same r w.1) : afterWrites base disk (before ++ (r, x) :: later) (r.file base) = some x := by
  induction before generalizing disk with
  | nil =>
    rw [List.nil_append, afterWrites, untouched fun w hw e => h w hw ((C165_distinct base r w.1).mp e), if_pos rfl]
  | cons w ws ih => exact ih _

/-- C165: the input is the same after any sequence of writes. -/
theorem C165_inputs_kept {α : Type} (base : List Char) (disk : List Char → Option α) (ws : List (Record × α)) {n : List Char}
    (h : Input base n) : afterWrites base disk ws n = disk n :=
  untouched (fun w _ e => C165_inputs base w.1 (e ▸ h)) disk

/-! ### Examples -/

/-- The supershots of the first iteration after those of the second and of another stage. -/
example : afterWrites "acq".toList (fun _ => none) [(.selected, 1), (.supershots 1 1, 2), (.supershots 1 2, 3), (.frequencies 1 1, 4),
    (.supershots 2 1, 5)] ((Record.supershots 1 1).file "acq".toList) = some 2 :=
  C165_kept _ _ [(.selected, 1)] [(.supershots 1 2, 3), (.frequencies 1 1, 4), (.supershots 2 1, 5)] (.supershots 1 1) 2
    (by simp [Same, SameIt])

/-- The positions of the receivers of shot 3 after writing its marks. -/
example : afterWrites "acq".toList (fun _ => some 0) [(.receivers 3 0 0, 1)] (shotAcqName "acq".toList 3) = some 0 :=
  C165_inputs_kept _ _ _ (.ofShot 3)

/-- Iterations 1 and 11 of stages 11 and 1. -/
example : (Record.supershots 11 1).file "acq/sources".toList ≠ (Record.supershots 1 11).file "acq/sources".toList :=
  fun h => absurd ((C165_distinct _ _ _).mp h).1 (by decide)

/-- A simulation overwrites its own record only. -/
example : (Record.frequencies 0 0).file "acq/sources".toList = (Record.frequencies 0 5).file "acq/sources".toList :=
  (C165_distinct _ _ _).mpr ⟨rfl, .inl rfl⟩

/-- The record of a supershot beside the receivers of shot 20001. -/
example : ¬ Input "acq/rec".toList ((Record.receivers 20001 0 0).file "acq/rec".toList) := C165_inputs _ _

/-- The name of one record. -/
example : (Record.receivers 20001 2 13).file "acq/rec".toList = "acq/rec.stage_2.It_13.shot_20001.mark.mtx".toList := by decide +kernel

end Verif.RecordNames
