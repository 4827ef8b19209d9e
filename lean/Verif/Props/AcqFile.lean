import Verif.Model.AcqFile
import Mathlib.Data.List.Basic
import Mathlib.Tactic.Linarith
/-!
# Source and receiver files (C58)
-/
namespace Verif.AcqFile
open Verif.Acq Verif.Grid

/-! ### What a file is meant to say -/

/-- Value of a string of decimal digits. -/
def decimal (d : List Char) : Nat := d.foldl (fun a c => 10 * a + (c.toNat - 48)) 0

/-- The token is a decimal number with optional sign, of value `n`, which fits an `int`. -/
def IsInt (t : List Char) (n : Int) : Prop :=
  (∃ d : List Char, d ≠ [] ∧ (∀ c ∈ d, c.isDigit = true) ∧
    ((t = d ∨ t = '+' :: d) ∧ n = decimal d ∨ t = '-' :: d ∧ n = -(decimal d : Int))) ∧
  -2147483648 ≤ n ∧ n ≤ 2147483647

/-- The token does not begin with a number (optional sign and a digit). -/
def NoNumber (t : List Char) : Prop :=
  ∀ (c : Char) (r : List Char), c.isDigit = true → t ≠ c :: r ∧ t ≠ '+' :: c :: r ∧ t ≠ '-' :: c :: r

/-- Tokens, each preceded by white space, and white space at the end. -/
def lineOf (ps : List (List Char × List Char)) (trail : List Char) : List Char :=
  ps.flatMap (fun p => p.1 ++ p.2) ++ trail

/-- White space inside a line. -/
def Blank (w : List Char) : Prop := ∀ c ∈ w, isSpace c = true ∧ c ≠ '\n'

/-- The pieces make up a line: tokens are non-empty and free of white space, and separated. -/
def Pieces (ps : List (List Char × List Char)) (trail : List Char) : Prop :=
  (∀ p ∈ ps, Blank p.1 ∧ p.2 ≠ [] ∧ ∀ c ∈ p.2, isSpace c = false) ∧
  (∀ p ∈ ps.tail, p.1 ≠ []) ∧ Blank trail

/-- Lines of a file with data of type `α`. -/
inductive Line (α : Type) where
  | comment (text : List Char)
  | blank (white : List Char)
  | data (ps : List (List Char × List Char)) (trail : List Char) (a : α)

/-- The text of a line. -/
def Line.text {α : Type} : Line α → List Char
  | .comment t => '#' :: t
  | .blank w => w
  | .data ps trail _ => lineOf ps trail

/-- What the line stands for. -/
def Line.value {α : Type} : Line α → Option α
  | .data _ _ a => some a
  | _ => none

/-- A correct line of a receiver file. -/
def GoodReceiver : Line Receiver → Prop
  | .comment t => '\n' ∉ t
  | .blank w => Blank w
  | .data ps trail r => Pieces ps trail ∧ ∃ a b c d, ps.map Prod.snd = [a, b, c, d] ∧
      IsInt a r.coords.x ∧ IsInt b r.coords.y ∧ IsInt c r.coords.z ∧ IsInt d r.type

/-- A correct line of a source file (`row` is not part of the line). -/
def GoodSource {F : Type} (stof : List Char → Option F) : Line (SourceLine F) → Prop
  | .comment t => '\n' ∉ t
  | .blank w => Blank w
  | .data ps trail s => Pieces ps trail ∧ ∃ a0 a1 a2 a3 a4 a5 a6 a7 a8 a9,
      ps.map Prod.snd = [a0, a1, a2, a3, a4, a5, a6, a7, a8, a9] ∧
      IsInt a0 s.no ∧ IsInt a1 s.coords.x ∧ IsInt a2 s.coords.y ∧ IsInt a3 s.coords.z ∧
      IsInt a4 s.type ∧ IsInt a5 s.waveletType ∧ IsInt a6 s.waveletShape ∧
      stof a7 = some s.fc ∧ stof a8 = some s.amp ∧ stof a9 = some s.tShift

/-- The file with these lines. -/
def fileOf {α : Type} (ls : List (Line α)) : List Char := ls.flatMap fun l => l.text ++ ['\n']

/-! ### Lines and tokens -/

private theorem getlines_line : ∀ (l rest cur : List Char), '\n' ∉ l →
    getlines (l ++ '\n' :: rest) cur = (cur.reverse ++ l) :: getlines rest [] := by
  intro l
  induction l with
  | nil => intro rest cur _; simp [getlines]
  | cons c l ih =>
    intro rest cur h
    simp only [List.mem_cons, not_or] at h
    rw [List.cons_append, getlines, if_neg (Ne.symm h.1), ih _ _ h.2]
    simp

private theorem getlines_file {α : Type} (ls : List (Line α)) (h : ∀ l ∈ ls, '\n' ∉ l.text) :
    getlines (fileOf ls) [] = ls.map Line.text := by
  induction ls with
  | nil => rfl
  | cons l ls ih =>
    have e : fileOf (l :: ls) = l.text ++ '\n' :: fileOf ls := by simp [fileOf]
    rw [e, getlines_line _ _ _ (h l (by simp)), ih (fun x hx => h x (by simp [hx]))]
    simp

private theorem tokens_word : ∀ (w rest cur : List Char), (∀ c ∈ w, isSpace c = false) →
    tokens (w ++ rest) cur = tokens rest (w.reverse ++ cur) := by
  intro w
  induction w with
  | nil => intros; rfl
  | cons c w ih =>
    intro rest cur h
    rw [List.cons_append, tokens, if_neg (by rw [h c (by simp)]; simp), ih _ _ (fun x hx => h x (by simp [hx]))]
    simp

private theorem tokens_space0 : ∀ (w rest : List Char), (∀ c ∈ w, isSpace c = true) →
    tokens (w ++ rest) [] = tokens rest [] := by
  intro w
  induction w with
  | nil => intros; rfl
  | cons c w ih =>
    intro rest h
    rw [List.cons_append, tokens, if_pos (h c (by simp)), if_pos rfl, ih _ (fun x hx => h x (by simp [hx]))]

private theorem tokens_space1 {w rest cur : List Char} (hw : w ≠ []) (h : ∀ c ∈ w, isSpace c = true)
    (hc : cur ≠ []) : tokens (w ++ rest) cur = cur.reverse :: tokens rest [] := by
  cases w with
  | nil => exact absurd rfl hw
  | cons c w =>
    rw [List.cons_append, tokens, if_pos (h c (by simp)), if_neg hc,
      tokens_space0 _ _ (fun x hx => h x (by simp [hx]))]

private theorem tokens_pieces : ∀ (ps : List (List Char × List Char)) (trail cur : List Char),
    (∀ p ∈ ps, Blank p.1 ∧ p.2 ≠ [] ∧ ∀ c ∈ p.2, isSpace c = false) → (∀ p ∈ ps, p.1 ≠ []) →
    Blank trail → cur ≠ [] → tokens (lineOf ps trail) cur = cur.reverse :: ps.map Prod.snd := by
  intro ps
  induction ps with
  | nil =>
    intro trail cur _ _ ht hc
    unfold lineOf
    simp only [List.flatMap_nil, List.nil_append, List.map_nil]
    cases trail with
    | nil => simp [tokens, hc]
    | cons c t =>
      have := tokens_space1 (rest := []) (w := c :: t) (by simp) (fun x hx => (ht x hx).1) hc
      rw [List.append_nil] at this
      rw [this]
      simp [tokens]
  | cons p ps ih =>
    intro trail cur h1 h2 ht hc
    have hp := h1 p (by simp)
    have e : lineOf (p :: ps) trail = p.1 ++ (p.2 ++ lineOf ps trail) := by
      simp [lineOf, List.append_assoc]
    rw [e, tokens_space1 (h2 p (by simp)) (fun c hc => (hp.1 c hc).1) hc, tokens_word _ _ _ hp.2.2,
      List.append_nil, ih _ _ (fun x hx => h1 x (by simp [hx])) (fun x hx => h2 x (by simp [hx])) ht
        (by simpa using hp.2.1)]
    simp

private theorem tokens_lineOf {ps : List (List Char × List Char)} {trail : List Char} (h : Pieces ps trail) :
    tokens (lineOf ps trail) [] = ps.map Prod.snd := by
  obtain ⟨h1, h2, h3⟩ := h
  cases ps with
  | nil =>
    unfold lineOf
    simp only [List.flatMap_nil, List.nil_append, List.map_nil]
    have := tokens_space0 trail [] (fun x hx => (h3 x hx).1)
    rw [List.append_nil] at this
    rw [this]
    rfl
  | cons p ps =>
    have hp := h1 p (by simp)
    have e : lineOf (p :: ps) trail = p.1 ++ (p.2 ++ lineOf ps trail) := by
      simp [lineOf, List.append_assoc]
    rw [e, tokens_space0 _ _ (fun c hc => (hp.1 c hc).1), tokens_word _ _ _ hp.2.2, List.append_nil,
      tokens_pieces ps _ _ (fun x hx => h1 x (by simp [hx])) h2 h3 (by simpa using hp.2.1)]
    simp

private theorem newline_lineOf {ps : List (List Char × List Char)} {trail : List Char} (h : Pieces ps trail) :
    '\n' ∉ lineOf ps trail := by
  intro hm
  unfold lineOf at hm
  rcases List.mem_append.mp hm with hm | hm
  · obtain ⟨p, hp, hm⟩ := List.mem_flatMap.mp hm
    obtain ⟨hb, -, hn⟩ := h.1 p hp
    rcases List.mem_append.mp hm with hm | hm
    · exact (hb _ hm).2 rfl
    · have := hn _ hm
      revert this
      decide
  · exact (h.2.2 _ hm).2 rfl

private theorem not_skipped {ps : List (List Char × List Char)} {trail : List Char} (h : Pieces ps trail)
    (hne : ps ≠ []) (hh : (lineOf ps trail).head? ≠ some '#') : skipped (lineOf ps trail) = false := by
  cases ps with
  | nil => exact absurd rfl hne
  | cons p ps =>
    obtain ⟨-, hp2, hp3⟩ := h.1 p (by simp)
    obtain ⟨c, hc⟩ := List.exists_mem_of_ne_nil _ hp2
    have hcm : c ∈ lineOf (p :: ps) trail := by
      unfold lineOf
      simp [hc]
    unfold skipped
    have h1 : lineOf (p :: ps) trail ≠ [] := List.ne_nil_of_mem hcm
    have h2 : (lineOf (p :: ps) trail).all isSpace = false := by
      rw [List.all_eq_false]
      exact ⟨c, hcm, by rw [hp3 c hc]; simp⟩
    simp [hh, h1, h2]

/-! ### Numbers -/

private theorem readDigits_all : ∀ (d : List Char) (acc : Nat), (∀ c ∈ d, c.isDigit = true) →
    readDigits d acc = d.foldl (fun a c => 10 * a + (c.toNat - 48)) acc := by
  intro d
  induction d with
  | nil => intros; rfl
  | cons c d ih =>
    intro acc h
    rw [readDigits, if_pos (h c (by simp)), ih _ (fun x hx => h x (by simp [hx])), List.foldl_cons]
    rfl

private theorem digit_ne {c : Char} (h : c.isDigit = true) : c ≠ '-' ∧ c ≠ '+' ∧ c ≠ '#' := by
  refine ⟨?_, ?_, ?_⟩ <;> (rintro rfl; revert h; decide)

private theorem stoi_plain {c : Char} {d : List Char} (hc : c.isDigit = true) :
    stoi (c :: d) = if (-2147483648 : Int) ≤ readDigits (c :: d) 0 ∧
      (readDigits (c :: d) 0 : Int) ≤ 2147483647 then .ok (readDigits (c :: d) 0 : Int) else .err := by
  obtain ⟨h1, h2, -⟩ := digit_ne hc
  unfold stoi
  split
  rename_i neg d' heq
  split at heq
  · rename_i heq2; cases heq2; exact absurd rfl h1
  · rename_i heq2; cases heq2; exact absurd rfl h2
  · cases heq
    simp [hc]

private theorem stoi_plus {c : Char} {d : List Char} (hc : c.isDigit = true) :
    stoi ('+' :: c :: d) = stoi (c :: d) := by
  rw [stoi_plain hc]
  unfold stoi
  simp [hc]

private theorem stoi_minus {c : Char} {d : List Char} (hc : c.isDigit = true) :
    stoi ('-' :: c :: d) = if (-2147483648 : Int) ≤ -(readDigits (c :: d) 0 : Int) ∧
      -(readDigits (c :: d) 0 : Int) ≤ 2147483647 then .ok (-(readDigits (c :: d) 0 : Int)) else .err := by
  unfold stoi
  simp [hc]

private theorem stoi_ok {t : List Char} {n : Int} (h : IsInt t n) : stoi t = .ok n := by
  obtain ⟨⟨d, hd, hdig, hv⟩, h1, h2⟩ := h
  cases d with
  | nil => exact absurd rfl hd
  | cons c d =>
    have hc := hdig c (by simp)
    have e : readDigits (c :: d) 0 = decimal (c :: d) := readDigits_all _ _ hdig
    rcases hv with ⟨ht, hn⟩ | ⟨rfl, hn⟩
    · have : stoi t = stoi (c :: d) := by
        rcases ht with rfl | rfl
        · rfl
        · exact stoi_plus hc
      rw [this, stoi_plain hc, e, ← hn, if_pos ⟨h1, h2⟩]
    · rw [stoi_minus hc, e, ← hn, if_pos ⟨h1, h2⟩]

private theorem isInt_head {t : List Char} {n : Int} (h : IsInt t n) : t.head? ≠ some '#' := by
  obtain ⟨⟨d, hd, hdig, hv⟩, -⟩ := h
  cases d with
  | nil => exact absurd rfl hd
  | cons c d =>
    have hc := (digit_ne (hdig c (by simp))).2.2
    rcases hv with ⟨rfl | rfl, -⟩ | ⟨rfl, -⟩
    · simpa using hc
    · simp
    · simp

private theorem stoi_none {t : List Char} (h : NoNumber t) : stoi t = .err := by
  unfold stoi
  split
  rename_i neg d heq
  have key : ∀ c r, d = c :: r → c.isDigit = false := by
    intro c r hd
    by_contra hc
    have hc : c.isDigit = true := by simpa using hc
    obtain ⟨k1, k2, k3⟩ := h c r hc
    split at heq
    · rename_i r'; cases heq; exact k3 (by rw [hd])
    · rename_i r'; cases heq; exact k2 (by rw [hd])
    · cases heq; exact k1 hd
  cases d with
  | nil => rfl
  | cons c r => simp [key c r rfl]

private theorem stoi_cases (t : List Char) : stoi t = .err ∨ ∃ v, stoi t = .ok v := by
  unfold stoi
  repeat' (first | exact .inl rfl | exact .inr ⟨_, rfl⟩ | split | dsimp only)

private theorem head_lineOf {p : List Char × List Char} {ps : List (List Char × List Char)} {trail : List Char}
    (h : Pieces (p :: ps) trail) (hh : p.2.head? ≠ some '#') :
    (lineOf (p :: ps) trail).head? ≠ some '#' := by
  obtain ⟨hb, hne, -⟩ := h.1 p (by simp)
  have e : lineOf (p :: ps) trail = p.1 ++ (p.2 ++ lineOf ps trail) := by
    simp [lineOf, List.append_assoc]
  rw [e]
  cases hp : p.1 with
  | nil =>
    cases hp2 : p.2 with
    | nil => exact absurd hp2 hne
    | cons c r => rw [hp2] at hh; simpa using hh
  | cons c r =>
    have := (hb c (by rw [hp]; simp)).1
    intro hc
    simp at hc
    rw [hc] at this
    revert this
    decide

private theorem skip_comment (t : List Char) : skipped ('#' :: t) = true := by simp [skipped]

private theorem skip_blank {w : List Char} (h : Blank w) : skipped w = true := by
  unfold skipped
  have : w.all isSpace = true := List.all_eq_true.mpr fun c hc => (h c hc).1
  simp [this]

/-! ### C58 -/

private theorem good_newline {l : Line Receiver} (h : GoodReceiver l) : '\n' ∉ l.text := by
  cases l with
  | comment t => simpa [Line.text, GoodReceiver] using h
  | blank w => exact fun hm => (h _ hm).2 rfl
  | data ps trail r => exact newline_lineOf h.1

private theorem receiverLoop_skip {l : List Char} (ls : List (List Char)) (acc : List Receiver)
    (h : skipped l = true) : receiverLoop (l :: ls) acc = receiverLoop ls acc := by
  rw [receiverLoop, if_pos h]

private theorem receiverLoop_data {l : List Char} (ls : List (List Char)) (acc : List Receiver)
    (h : skipped l = false) :
    receiverLoop (l :: ls) acc = receiverLine l >>= fun r => receiverLoop ls (acc ++ [r]) := by
  rw [receiverLoop, if_neg (by rw [h]; simp)]

private theorem sourceLoop_skip {F : Type} {stof : List Char → Option F} {l : List Char}
    (ls : List (List Char)) (row : Int) (acc : List (SourceLine F))
    (h : skipped l = true) : sourceLoop stof (l :: ls) row acc = sourceLoop stof ls row acc := by
  rw [sourceLoop, if_pos h]

private theorem sourceLoop_data {F : Type} {stof : List Char → Option F} {l : List Char}
    (ls : List (List Char)) (row : Int) (acc : List (SourceLine F)) (h : skipped l = false) :
    sourceLoop stof (l :: ls) row acc =
      sourceLine stof (row + 1) l >>= fun r => sourceLoop stof ls (row + 1) (acc ++ [r]) := by
  rw [sourceLoop, if_neg (by rw [h]; simp)]

private theorem receiverLoop_good : ∀ (ls : List (Line Receiver)) (acc : List Receiver),
    (∀ l ∈ ls, GoodReceiver l) → receiverLoop (ls.map Line.text) acc = .ok (acc ++ ls.filterMap Line.value) := by
  intro ls
  induction ls with
  | nil => intro acc _; simp [receiverLoop]
  | cons l ls ih =>
    intro acc h
    have hl := h l (by simp)
    have ht := fun x hx => h x (List.mem_cons_of_mem _ hx)
    rw [List.map_cons]
    cases l with
    | comment t =>
      rw [receiverLoop_skip (l := (Line.comment t).text) _ _ (skip_comment t), ih _ ht]
      rfl
    | blank w =>
      rw [receiverLoop_skip (l := (Line.blank w).text) _ _ (skip_blank hl), ih _ ht]
      rfl
    | data ps trail r =>
      obtain ⟨hp, a, b, c, d, hm, ha, hb, hc, hd⟩ := hl
      have hns : skipped (lineOf ps trail) = false := by
        apply not_skipped hp
        · rintro rfl; simp at hm
        · cases ps with
          | nil => simp at hm
          | cons p ps =>
            apply head_lineOf hp
            simp only [List.map_cons, List.cons.injEq] at hm
            rw [hm.1]
            exact isInt_head ha
      rw [receiverLoop_data (l := (Line.data ps trail r).text) _ _ hns]
      simp only [Line.text]
      unfold receiverLine
      rw [tokens_lineOf hp, hm]
      simp only
      rw [stoi_ok ha, stoi_ok hb, stoi_ok hc, stoi_ok hd]
      simp only [Out.bind_ok]
      rw [ih _ ht]
      simp [Line.value]

/-- C58: a receiver file made of comment lines, blank lines and correct data lines (numbers in any
of the usual spellings, separated by any white space) is read as the list of its data lines. -/
theorem C58_receivers_read {ls : List (Line Receiver)} (h : ∀ l ∈ ls, GoodReceiver l) :
    readReceivers (some (fileOf ls)) = .ok (ls.filterMap Line.value) := by
  unfold readReceivers
  simp only
  rw [getlines_file ls (fun l hl => good_newline (h l hl)), receiverLoop_good ls [] h]
  simp

/-- A file with a comment, a blank line and two receivers. -/
example : readReceivers (some "# x y z t\n\n 10\t20 0  1\n+5 -6 007 4 \r\n".toList) =
    .ok [⟨⟨10, 20, 0⟩, 1⟩, ⟨⟨5, -6, 7⟩, 4⟩] := by decide +kernel

private theorem sourceLoop_good {F : Type} {stof : List Char → Option F} :
    ∀ (ls : List (Line (SourceLine F))) (row : Int) (acc : List (SourceLine F)),
    (∀ l ∈ ls, GoodSource stof l) →
    sourceLoop stof (ls.map Line.text) row acc =
      .ok (acc ++ (ls.filterMap Line.value).mapIdx fun i s => { s with row := row + 1 + i }) := by
  intro ls
  induction ls with
  | nil => intro row acc _; simp [sourceLoop]
  | cons l ls ih =>
    intro row acc h
    have hl := h l (by simp)
    have ht := fun x hx => h x (List.mem_cons_of_mem _ hx)
    rw [List.map_cons]
    cases l with
    | comment t =>
      rw [sourceLoop_skip (l := (Line.comment t).text) _ _ _ (skip_comment t), ih _ _ ht]
      rfl
    | blank w =>
      rw [sourceLoop_skip (l := (Line.blank w).text) _ _ _ (skip_blank hl), ih _ _ ht]
      rfl
    | data ps trail s =>
      obtain ⟨hp, a0, a1, a2, a3, a4, a5, a6, a7, a8, a9, hm, h0, h1, h2, h3, h4, h5, h6, h7, h8, h9⟩ := hl
      have hns : skipped (lineOf ps trail) = false := by
        apply not_skipped hp
        · rintro rfl; simp at hm
        · cases ps with
          | nil => simp at hm
          | cons p ps =>
            apply head_lineOf hp
            simp only [List.map_cons, List.cons.injEq] at hm
            rw [hm.1]
            exact isInt_head h0
      rw [sourceLoop_data (l := (Line.data ps trail s).text) _ _ _ hns]
      simp only [Line.text]
      unfold sourceLine stofOut
      rw [tokens_lineOf hp, hm]
      simp only
      rw [stoi_ok h0, stoi_ok h1, stoi_ok h2, stoi_ok h3, stoi_ok h4, stoi_ok h5, stoi_ok h6, h7, h8, h9]
      simp only [Out.bind_ok]
      rw [ih _ _ ht]
      simp only [Line.value, List.filterMap_cons, List.mapIdx_cons, List.append_assoc,
        List.singleton_append]
      congr 3
      · simp
      · apply List.mapIdx_eq_mapIdx_iff.mpr
        intro i hi
        congr 1
        push_cast
        omega

private theorem good_newline_source {F : Type} {stof : List Char → Option F} {l : Line (SourceLine F)}
    (h : GoodSource stof l) : '\n' ∉ l.text := by
  cases l with
  | comment t => simpa [Line.text, GoodSource] using h
  | blank w => exact fun hm => (h _ hm).2 rfl
  | data ps trail r => exact newline_lineOf h.1

/-- C58: a source file is read as the list of its data lines, numbered from 0 in the member `row`
(comment and blank lines do not count). -/
theorem C58_sources_read {F : Type} {stof : List Char → Option F} {ls : List (Line (SourceLine F))}
    (h : ∀ l ∈ ls, GoodSource stof l) :
    readSources stof (some (fileOf ls)) =
      .ok ((ls.filterMap Line.value).mapIdx fun i s => { s with row := i }) := by
  unfold readSources
  simp only
  rw [getlines_file ls (fun l hl => good_newline_source (h l hl)), sourceLoop_good ls _ [] h]
  simp

/-- Two sources; the numbers of the last three columns are taken as strings here. -/
example : readSources some (some "#h\n1 2 3 4 1 1 1 5.0 1e3 0.0\n \n2 9 9 9 2 1 1 5 1 0\n".toList) =
    .ok [⟨1, ⟨2, 3, 4⟩, 1, 1, 1, "5.0".toList, "1e3".toList, "0.0".toList, 0⟩,
      ⟨2, ⟨9, 9, 9⟩, 2, 1, 1, "5".toList, "1".toList, "0".toList, 1⟩] := by decide +kernel

private theorem getlines_final : ∀ (cs cur : List Char),
    getlines (cs ++ ['\n']) cur = getlines cs cur ∨ getlines (cs ++ ['\n']) cur = getlines cs cur ++ [[]] := by
  intro cs
  induction cs with
  | nil =>
    intro cur
    by_cases h : cur = []
    · right; simp [getlines, h]
    · left; simp [getlines, h]
  | cons c cs ih =>
    intro cur
    rw [List.cons_append, getlines, getlines]
    by_cases hc : c = '\n'
    · rw [if_pos hc, if_pos hc]
      rcases ih [] with h | h <;> simp [h]
    · rw [if_neg hc, if_neg hc]
      exact ih _

private theorem receiverLoop_append_nil : ∀ (ls : List (List Char)) (acc : List Receiver),
    receiverLoop (ls ++ [[]]) acc = receiverLoop ls acc := by
  intro ls
  induction ls with
  | nil => intro acc; rfl
  | cons l ls ih =>
    intro acc
    rw [List.cons_append, receiverLoop, receiverLoop]
    split
    · exact ih _
    · congr 1; funext r; exact ih _

/-- C58: whether the last line ends with a newline does not matter. -/
theorem C58_final_newline (cs : List Char) :
    readReceivers (some (cs ++ ['\n'])) = readReceivers (some cs) := by
  unfold readReceivers
  simp only
  rcases getlines_final cs [] with h | h
  · rw [h]
  · rw [h, receiverLoop_append_nil]

private theorem receiverLoop_err : ∀ (ls : List (List Char)) (acc : List Receiver),
    (∃ l ∈ ls, skipped l = false ∧ receiverLine l = .err) → receiverLoop ls acc = .err := by
  intro ls
  induction ls with
  | nil => rintro acc ⟨l, hl, -⟩; simp at hl
  | cons l ls ih =>
    rintro acc ⟨x, hx, hs, he⟩
    rw [receiverLoop]
    rcases List.mem_cons.mp hx with rfl | hx
    · rw [if_neg (by rw [hs]; simp), he]; rfl
    · split
      · exact ih _ ⟨x, hx, hs, he⟩
      · cases hr : receiverLine l with
        | ok r => exact ih _ ⟨x, hx, hs, he⟩
        | err => rfl
        | ub =>
          exfalso
          unfold receiverLine at hr
          have hub : ∀ t, stoi t ≠ .ub := by
            intro t
            rcases stoi_cases t with h | ⟨v, h⟩ <;> rw [h] <;> simp
          split at hr
          · rename_i a b c d _
            cases ha : stoi a with
            | ub => exact hub _ ha
            | err => rw [ha] at hr; simp at hr
            | ok x =>
              cases hb : stoi b with
              | ub => exact hub _ hb
              | err => rw [ha, hb] at hr; simp at hr
              | ok y =>
                cases hc : stoi c with
                | ub => exact hub _ hc
                | err => rw [ha, hb, hc] at hr; simp at hr
                | ok z =>
                  cases hd : stoi d with
                  | ub => exact hub _ hd
                  | err => rw [ha, hb, hc, hd] at hr; simp at hr
                  | ok t => rw [ha, hb, hc, hd] at hr; simp at hr
          · cases hr

private theorem getlines_split : ∀ (pre rest cur : List Char),
    ∃ ls, getlines (pre ++ '\n' :: rest) cur = ls ++ getlines rest [] := by
  intro pre
  induction pre with
  | nil => intro rest cur; exact ⟨[cur.reverse], by simp [getlines]⟩
  | cons c pre ih =>
    intro rest cur
    rw [List.cons_append, getlines]
    split
    · obtain ⟨ls, h⟩ := ih rest []
      exact ⟨cur.reverse :: ls, by rw [h]; rfl⟩
    · exact ih rest _

private theorem bad_line {pre post l : List Char} (hn : '\n' ∉ l) (hs : skipped l = false)
    (he : receiverLine l = .err) :
    readReceivers (some (pre ++ '\n' :: (l ++ '\n' :: post))) = .err ∧
      readReceivers (some (l ++ '\n' :: post)) = .err := by
  unfold readReceivers
  simp only
  have h1 := getlines_line l post [] hn
  obtain ⟨ls, h2⟩ := getlines_split pre (l ++ '\n' :: post) []
  rw [h2, h1]
  constructor <;> exact receiverLoop_err _ _ ⟨l, by simp, hs, he⟩

/-- C58: a line that is neither blank nor a comment and has not exactly four columns is an error,
wherever it stands in the file. -/
theorem C58_wrong_columns {ps : List (List Char × List Char)} {trail pre post : List Char}
    (h : Pieces ps trail) (hne : ps ≠ []) (hh : (lineOf ps trail).head? ≠ some '#') (hl : ps.length ≠ 4) :
    readReceivers (some (pre ++ '\n' :: (lineOf ps trail ++ '\n' :: post))) = .err ∧
      readReceivers (some (lineOf ps trail ++ '\n' :: post)) = .err := by
  apply bad_line (newline_lineOf h) (not_skipped h hne hh)
  unfold receiverLine
  rw [tokens_lineOf h]
  split
  · rename_i a b c d heq
    have := congrArg List.length heq
    simp at this
    exact absurd this hl
  · rfl

/-- C58: so is a line with a column that does not begin with a number. -/
theorem C58_not_a_number {ps : List (List Char × List Char)} {trail pre post : List Char}
    (h : Pieces ps trail) (hh : (lineOf ps trail).head? ≠ some '#')
    {p : List Char × List Char} (hp : p ∈ ps) (hnum : NoNumber p.2) :
    readReceivers (some (pre ++ '\n' :: (lineOf ps trail ++ '\n' :: post))) = .err ∧
      readReceivers (some (lineOf ps trail ++ '\n' :: post)) = .err := by
  apply bad_line (newline_lineOf h) (not_skipped h (List.ne_nil_of_mem hp) hh)
  unfold receiverLine
  rw [tokens_lineOf h]
  have hub := stoi_cases
  split
  · rename_i a b c d heq
    have hmem : p.2 ∈ [a, b, c, d] := by rw [← heq]; exact List.mem_map_of_mem hp
    have he := stoi_none hnum
    simp only [List.mem_cons, List.not_mem_nil, or_false] at hmem
    rcases hub a with ha | ⟨x, ha⟩
    · rw [ha]; rfl
    rcases hub b with hb | ⟨y, hb⟩
    · rw [ha, hb]; rfl
    rcases hub c with hc | ⟨z, hc⟩
    · rw [ha, hb, hc]; rfl
    rcases hub d with hd | ⟨t, hd⟩
    · rw [ha, hb, hc, hd]; rfl
    · exfalso
      rcases hmem with rfl | rfl | rfl | rfl <;> simp_all
  · rfl

private theorem bind_ne_ub {α β : Type} {x : Out α} {f : α → Out β} (hx : x ≠ .ub) (hf : ∀ a, f a ≠ .ub) :
    (x >>= f) ≠ .ub := by
  cases x with
  | ok a => exact hf a
  | err => simp
  | ub => exact absurd rfl hx

private theorem sourceLine_ne_ub {F : Type} (stof : List Char → Option F) (row : Int) (l : List Char) :
    sourceLine stof row l ≠ .ub := by
  have hi : ∀ t, stoi t ≠ .ub := by
    intro t
    rcases stoi_cases t with h | ⟨v, h⟩ <;> rw [h] <;> simp
  have hf : ∀ t, stofOut stof t ≠ .ub := by
    intro t
    unfold stofOut
    split <;> simp
  unfold sourceLine
  split
  · repeat' (first | exact hi _ | exact hf _ | (refine bind_ne_ub ?_ (fun _ => ?_)) | simp)
  · simp

private theorem sourceLoop_err {F : Type} {stof : List Char → Option F} :
    ∀ (ls : List (List Char)) (row : Int) (acc : List (SourceLine F)),
    (∃ l ∈ ls, skipped l = false ∧ ∀ row, sourceLine stof row l = .err) →
      sourceLoop stof ls row acc = .err := by
  intro ls
  induction ls with
  | nil => rintro row acc ⟨l, hl, -⟩; simp at hl
  | cons l ls ih =>
    rintro row acc ⟨x, hx, hs, he⟩
    rw [sourceLoop]
    rcases List.mem_cons.mp hx with rfl | hx
    · rw [if_neg (by rw [hs]; simp), he]; rfl
    · split
      · exact ih _ _ ⟨x, hx, hs, he⟩
      · cases hr : sourceLine stof (row + 1) l with
        | ok r => exact ih _ _ ⟨x, hx, hs, he⟩
        | err => rfl
        | ub => exact absurd hr (sourceLine_ne_ub _ _ _)

/-- C58: a source line that is neither blank nor a comment and has not exactly ten columns is an
error, wherever it stands in the file. -/
theorem C58_wrong_columns_source {F : Type} {stof : List Char → Option F}
    {ps : List (List Char × List Char)} {trail pre post : List Char}
    (h : Pieces ps trail) (hne : ps ≠ []) (hh : (lineOf ps trail).head? ≠ some '#') (hl : ps.length ≠ 10) :
    readSources stof (some (pre ++ '\n' :: (lineOf ps trail ++ '\n' :: post))) = .err ∧
      readSources stof (some (lineOf ps trail ++ '\n' :: post)) = .err := by
  have he : ∀ row, sourceLine stof row (lineOf ps trail) = .err := by
    intro row
    unfold sourceLine
    rw [tokens_lineOf h]
    split
    · rename_i heq
      have := congrArg List.length heq
      simp at this
      exact absurd this hl
    · rfl
  unfold readSources
  simp only
  have h1 := getlines_line (lineOf ps trail) post [] (newline_lineOf h)
  obtain ⟨ls, h2⟩ := getlines_split pre (lineOf ps trail ++ '\n' :: post) []
  rw [h2, h1]
  constructor <;> exact sourceLoop_err _ _ _ ⟨lineOf ps trail, by simp, not_skipped h hne hh, he⟩

/-- For instance three columns, a word, a number out of range, an indented comment. -/
example : readReceivers (some "1 2 3\n".toList) = .err ∧ readReceivers (some "1 2 3 vz\n".toList) = .err ∧
    readReceivers (some "1 2 3 4000000000\n".toList) = .err ∧
    readReceivers (some "1 2 3 4\n # note\n".toList) = .err := by decide +kernel

private theorem receiverLoop_length : ∀ (ls : List (List Char)) (acc l : List Receiver),
    receiverLoop ls acc = .ok l →
      l.length = acc.length + (ls.filter fun x => !skipped x).length ∧
        ∀ x ∈ ls, skipped x = true ∨ ∃ a b c d, tokens x [] = [a, b, c, d] := by
  intro ls
  induction ls with
  | nil => intro acc l h; cases h; simp
  | cons x ls ih =>
    intro acc l h
    unfold receiverLoop at h
    by_cases hx : skipped x = true
    · rw [if_pos hx] at h
      obtain ⟨h1, h2⟩ := ih acc l h
      refine ⟨by simp [h1, hx], fun y hy => ?_⟩
      rcases List.mem_cons.mp hy with rfl | hy
      · exact Or.inl hx
      · exact h2 y hy
    · rw [if_neg hx] at h
      cases hr : receiverLine x with
      | ok r =>
        rw [hr, Out.bind_ok] at h
        obtain ⟨h1, h2⟩ := ih _ l h
        refine ⟨by simp [h1, hx]; omega, fun y hy => ?_⟩
        rcases List.mem_cons.mp hy with rfl | hy
        · right
          unfold receiverLine at hr
          split at hr
          · rename_i a b c d heq
            exact ⟨a, b, c, d, heq⟩
          · cases hr
        · exact h2 y hy
      | err => rw [hr] at h; cases h
      | ub => rw [hr] at h; cases h

/-- C58: if receivers are read, the file exists, and every line of it is skipped (blank or comment) or
has exactly four columns and gives one receiver. -/
theorem C58_accepted {file : Option (List Char)} {l : List Receiver} (h : readReceivers file = .ok l) :
    ∃ cs, file = some cs ∧ l.length = ((getlines cs []).filter fun x => !skipped x).length ∧
      ∀ x ∈ getlines cs [], skipped x = true ∨ ∃ a b c d, tokens x [] = [a, b, c, d] := by
  cases file with
  | none => cases h
  | some cs =>
    obtain ⟨h1, h2⟩ := receiverLoop_length _ _ _ h
    exact ⟨cs, rfl, by simpa using h1, h2⟩

example : ∃ l, readReceivers (some "# x\n1 2 3 4\n".toList) = .ok l ∧ l ≠ [] :=
  ⟨[⟨⟨1, 2, 3⟩, 4⟩], by decide +kernel, by simp⟩

/-- C58: but malformed numbers are accepted if they begin with a digit: grid coordinates given with
decimals are cut, and letters behind the digits are ignored. -/
theorem C58_malformed_accepted_violated :
    readReceivers (some "10.9 2,5 3x 4e7\n".toList) = .ok [⟨⟨10, 2, 3⟩, 4⟩] := by decide +kernel

end Verif.AcqFile
