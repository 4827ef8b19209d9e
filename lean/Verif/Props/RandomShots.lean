import Verif.Model.RandomShots
import Verif.Lemmas.TextRows

/-!
# C166: reading the log of randomly chosen shots
-/
namespace Verif.RandomShots
open Verif
open Verif.ShotFile
open Verif.TextRows

/-- The chosen shot numbers. -/
def chosen (c : Call) : List Int := c.inds.map fun k => c.nos.getD k 0

/-- Calls that fit the columns: existing shots, at most four digits for the stage and nine for the iteration, eight for the first shot
number and three for the others. -/
structure Fits (c : Call) : Prop where
  inds : ∀ k ∈ c.inds, k < c.nos.length
  stage : 0 ≤ c.stage ∧ c.stage < 10 ^ 4
  it : 0 ≤ c.it ∧ c.it < 10 ^ 9
  first : ∀ n, (chosen c).head? = some n → 0 ≤ n ∧ n < 10 ^ 8
  rest : ∀ n ∈ (chosen c).tail, 0 ≤ n ∧ n < 10 ^ 3

/-! ### Helpers -/

private def restRow (l : List Int) : List (Nat × List Char) := l.map fun n => (4, showInt n)

private def shotRow : List Int → List (Nat × List Char)
  | [] => []
  | n :: l => (9, showInt n) :: restRow l

private theorem rest_eq {nos : List Int} {ks : List Nat} (h : ∀ k ∈ ks, k < nos.length) (i : Nat) :
    shotFields nos (i + 1) ks = .ok (fields (restRow (ks.map fun k => nos.getD k 0))) := by
  induction ks generalizing i with
  | nil => rfl
  | cons k ks ih =>
    have hk : nos[k]? = some (nos.getD k 0) := by
      have := h k (by simp)
      simp [List.getD, List.getElem?_eq_getElem this]
    unfold shotFields
    rw [hk]
    simp only
    rw [ih (fun j hj => h j (by simp [hj])), Out.bind_ok, if_neg (by omega)]
    rfl

private theorem shots_eq {c : Call} (h : ∀ k ∈ c.inds, k < c.nos.length) :
    shotFields c.nos 0 c.inds = .ok (fields (shotRow (chosen c))) := by
  unfold chosen
  cases hi : c.inds with
  | nil => rfl
  | cons k ks =>
    rw [hi] at h
    have hk : c.nos[k]? = some (c.nos.getD k 0) := by
      have := h k (by simp)
      simp [List.getD, List.getElem?_eq_getElem this]
    unfold shotFields
    rw [hk]
    simp only
    rw [rest_eq (fun j hj => h j (by simp [hj])), Out.bind_ok, if_pos trivial]
    rfl

private def row (c : Call) : List (Nat × List Char) := (5, showInt c.stage) :: (10, showInt c.it) :: shotRow (chosen c)

private theorem good_int {x : Int} {k w : Nat} (hk : 0 < k) (hw : k < w) (h : 0 ≤ x ∧ x < 10 ^ k) :
    (showInt x).length < w ∧ showInt x ≠ [] ∧ ' ' ∉ showInt x ∧ '\n' ∉ showInt x :=
  ⟨Nat.lt_of_le_of_lt (show_length_nonneg hk h.1 h.2) hw, show_ne_nil x, show_ne (by decide) (by decide),
    show_ne (by decide) (by decide)⟩

private theorem good_row {c : Call} (h : Fits c) : Good (row c) := by
  intro f hf
  rcases List.mem_cons.mp hf with rfl | hf
  · exact good_int (k := 4) (by omega) (by omega) h.stage
  rcases List.mem_cons.mp hf with rfl | hf
  · exact good_int (k := 9) (by omega) (by omega) h.it
  have h1 := h.first
  have h2 := h.rest
  revert hf h1 h2
  cases chosen c with
  | nil => intro hf; cases hf
  | cons n l =>
    intro hf h1 h2
    rcases List.mem_cons.mp hf with rfl | hf
    · exact good_int (k := 8) (by omega) (by omega) (h1 n rfl)
    · obtain ⟨m, hm, rfl⟩ := List.mem_map.mp hf
      exact good_int (k := 3) (by omega) (by omega) (h2 m hm)

private theorem row_words (c : Call) : (row c).map Prod.snd = (c.stage :: c.it :: chosen c).map showInt := by
  unfold row
  cases chosen c with
  | nil => rfl
  | cons n l => simp [shotRow, restRow, Function.comp_def]

private theorem write_eq {type : Int} {c : Call} (h : ∀ k ∈ c.inds, k < c.nos.length) (file : List Char) : write type file c =
    .ok ((if c.stage = 1 ∧ c.it = 0 then header type else file) ++ (fields (row c) ++ ['\n'])) := by
  unfold write
  rw [shots_eq h, Out.bind_ok]
  simp [row, fields]

private theorem writeAll_append (type : Int) (file : List Char) (a b : List Call) :
    writeAll type file (a ++ b) = (writeAll type file a).bind fun f => writeAll type f b := by
  induction a generalizing file with
  | nil => rfl
  | cons c a ih =>
    show (write type file c).bind (fun f => writeAll type f (a ++ b)) = ((write type file c).bind fun f => writeAll type f a).bind _
    cases write type file c with
    | ok f => exact ih f
    | err => rfl
    | ub => rfl

private theorem defined (type : Int) {cs : List Call} (h : ∀ c ∈ cs, ∀ k ∈ c.inds, k < c.nos.length) (file : List Char) :
    ∃ f, writeAll type file cs = .ok f := by
  induction cs generalizing file with
  | nil => exact ⟨file, rfl⟩
  | cons c cs ih =>
    unfold writeAll
    rw [write_eq (h c (by simp)), Out.bind_ok]
    exact ih (fun d hd => h d (by simp [hd])) _

private theorem later_eq (type : Int) {cs : List Call} (h : ∀ c ∈ cs, Fits c) (h1 : ∀ c ∈ cs, ¬ (c.stage = 1 ∧ c.it = 0))
    (file : List Char) : writeAll type file cs = .ok (file ++ (cs.map row).flatMap fun r => fields r ++ ['\n']) := by
  induction cs generalizing file with
  | nil => simp [writeAll]
  | cons c cs ih =>
    unfold writeAll
    rw [write_eq (h c (by simp)).inds, Out.bind_ok, if_neg (h1 c (by simp)),
      ih (fun d hd => h d (by simp [hd])) (fun d hd => h1 d (by simp [hd]))]
    simp

set_option maxRecDepth 8000 in
private theorem read_header (type : Int) (l : List Char) : readWords (header type ++ l) = readWords l := by
  have e : header type ++ l = '#' :: " Shot number records during inversion".toList ++ '\n' ::
      ('#' :: (" random source type = ".toList ++ showInt type ++
        " (0=all sequential shot, 1=numShotDomains random shot, 2=numShotDomains sequential shot)".toList) ++ '\n' ::
      ('#' :: " Stage | Iteration | shot number".toList ++ '\n' :: l)) := by
    unfold header
    simp
  rw [e, read_comment (by decide), read_comment, read_comment (by decide)]
  simp only [List.mem_append, not_or]
  exact ⟨⟨by decide, show_ne (by decide) (by decide)⟩, by decide⟩

/-! ### Properties -/

/-- C166: after any calls, the log holds one line for each iteration since the last start of an inversion, with stage, iteration and the
chosen shots in their order. Missing: numbers that do not fit the columns, see `C166_violated`. -/
theorem C166_log_partial (type : Int) (file : List Char) {before later : List Call} {c : Call}
    (hb : ∀ d ∈ before, ∀ k ∈ d.inds, k < d.nos.length) (hc : c.stage = 1 ∧ c.it = 0)
    (hl : ∀ d ∈ later, ¬ (d.stage = 1 ∧ d.it = 0)) (hf : ∀ d ∈ c :: later, Fits d) :
    ∃ f, writeAll type file (before ++ c :: later) = .ok f ∧
      readWords f = (c :: later).map fun d => (d.stage :: d.it :: chosen d).map showInt := by
  obtain ⟨f0, h0⟩ := defined type hb file
  refine ⟨header type ++ ((c :: later).map row).flatMap fun r => fields r ++ ['\n'], ?_, ?_⟩
  · rw [writeAll_append, h0]
    show writeAll type f0 (c :: later) = _
    unfold writeAll
    rw [write_eq (hf c (by simp)).inds, Out.bind_ok, if_pos hc, later_eq type (fun d hd => hf d (by simp [hd])) hl]
    simp
  · rw [read_header, read_rows]
    · rw [List.map_map]
      exact List.map_congr_left fun d _ => row_words d
    · intro r hr
      obtain ⟨d, -, rfl⟩ := List.mem_map.mp hr
      simp [row]
    · intro r hr
      obtain ⟨d, hd, rfl⟩ := List.mem_map.mp hr
      exact good_row (hf d hd)

private theorem fields_ub {nos : List Int} {ks : List Nat} (h : ∃ k ∈ ks, nos.length ≤ k) (i : Nat) : shotFields nos i ks = .ub := by
  induction ks generalizing i with
  | nil => simp at h
  | cons k ks ih =>
    unfold shotFields
    by_cases hk : nos.length ≤ k
    · rw [List.getElem?_eq_none hk]
    · rw [List.getElem?_eq_getElem (by omega)]
      simp only
      obtain ⟨j, hj, h2⟩ := h
      rcases List.mem_cons.mp hj with rfl | hj
      · exact absurd h2 hk
      · rw [ih ⟨j, hj, h2⟩]
        rfl

/-- C166: a choice of shots that do not exist is undefined behaviour, and no other choice is. -/
theorem C166_undefined (type : Int) (file : List Char) (c : Call) :
    write type file c = .ub ↔ ∃ k ∈ c.inds, c.nos.length ≤ k := by
  constructor
  · intro h
    by_contra hn
    rw [write_eq fun k hk => by
      by_contra h2
      exact hn ⟨k, hk, by omega⟩] at h
    cases h
  · intro h
    unfold write
    rw [fields_ub h]
    rfl

/-- C166 fails for shot numbers of four digits: different choices of shots give the same log. -/
theorem C166_violated (type : Int) (file : List Char) : ∃ c d : Call, c.nos = d.nos ∧ c.stage = d.stage ∧ c.it = d.it ∧
    (∀ k ∈ c.inds ++ d.inds, k < c.nos.length) ∧ chosen c ≠ chosen d ∧
    ∃ f, write type file c = .ok f ∧ write type file d = .ok f := by
  have e : shotFields [5, 1000, 12000, 10001, 2000] 0 [0, 1, 2] = .ok "        5100012000".toList := by decide +kernel
  have e' : shotFields [5, 1000, 12000, 10001, 2000] 0 [0, 3, 4] = .ok "        5100012000".toList := by decide +kernel
  refine ⟨⟨[5, 1000, 12000, 10001, 2000], [0, 1, 2], 1, 3⟩, ⟨[5, 1000, 12000, 10001, 2000], [0, 3, 4], 1, 3⟩, rfl, rfl, rfl, by decide,
    by decide, file ++ (setw 5 (showInt 1) ++ setw 10 (showInt 3) ++ "        5100012000".toList ++ ['\n']), ?_, ?_⟩
  · unfold write
    rw [e, Out.bind_ok, if_neg (by decide)]
  · unfold write
    rw [e', Out.bind_ok, if_neg (by decide)]

/-! ### Examples -/

private def exCall (inds : List Nat) (stage it : Int) : Call := ⟨[20001, 7, 250, 999], inds, stage, it⟩

private theorem exFits : ∀ d ∈ [exCall [0, 2] 1 0, exCall [3, 1] 1 1, exCall [2] 2 0], Fits d := by
  intro d hd
  simp only [List.mem_cons, List.not_mem_nil, or_false] at hd
  rcases hd with rfl | rfl | rfl <;> exact ⟨by decide, by decide, by decide, by simp [chosen, exCall], by simp [chosen, exCall]⟩

/-- Shot number 5 of four shots. -/
example : write 1 [] (exCall [0, 4] 1 0) = .ub := (C166_undefined _ _ _).mpr ⟨4, by decide, by decide⟩

/-- Three iterations in two stages, after a log of an older inversion. -/
example : ∃ f, writeAll 1 "    1         0        3\n".toList [exCall [1] 1 5, exCall [0, 2] 1 0, exCall [3, 1] 1 1, exCall [2] 2 0] = .ok f ∧
    readWords f = ["1 0 20001 250", "1 1 999 7", "2 0 250"].map fun s => pieces ' ' s.toList := by
  obtain ⟨f, h1, h2⟩ := C166_log_partial 1 "    1         0        3\n".toList (before := [exCall [1] 1 5]) (c := exCall [0, 2] 1 0)
    (later := [exCall [3, 1] 1 1, exCall [2] 2 0]) (by decide) (by decide) (by decide) exFits
  exact ⟨f, h1, h2.trans (by decide +kernel)⟩

end Verif.RandomShots
