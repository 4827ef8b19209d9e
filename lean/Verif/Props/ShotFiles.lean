import Verif.Model.ShotFiles
import Verif.Lemmas.SU
import Verif.Props.Acquisition
import Mathlib.Data.List.Basic

/-!
# C154: reading the files with selected and encoded shots
-/
namespace Verif.ShotFile
open Verif

/-- The parts of a text between separators, without empty ones. -/
def pieces (sep : Char) (l : List Char) : List (List Char) := (l.splitOnP (· == sep)).filter fun s => !s.isEmpty

/-- The integer written in a text. -/
def readInt : List Char → Option Int
  | '-' :: s => if s ≠ [] ∧ s.all Char.isDigit then some (-(Nat.ofDigitChars 10 s 0 : Nat)) else none
  | s => if s ≠ [] ∧ s.all Char.isDigit then some (Nat.ofDigitChars 10 s 0 : Nat) else none

/-- A reader of text files, as users have: lines, without those that begin with #, of integers between spaces. -/
def readTable (file : List Char) : Option (List (List Int)) :=
  ((pieces '\n' file).filter fun l => l.head? ≠ some '#').mapM fun l => (pieces ' ' l).mapM readInt

/-! ### Helpers -/

private theorem splitOnP_append {p : Char → Bool} {s l : List Char} {c : Char} (hs : ∀ x ∈ s, p x = false) (hc : p c = true) :
    (s ++ c :: l).splitOnP p = s :: l.splitOnP p := by
  induction s with
  | nil => simp [List.splitOnP_cons_eq_if_modifyHead, hc]
  | cons a s ih =>
    rw [List.cons_append, List.splitOnP_cons_eq_if_modifyHead, hs a (by simp), ih fun x hx => hs x (by simp [hx])]
    rfl

private theorem pieces_sep (sep : Char) (l : List Char) : pieces sep (sep :: l) = pieces sep l := by
  have h : ([] ++ sep :: l).splitOnP (· == sep) = [] :: l.splitOnP (· == sep) := splitOnP_append (by simp) (by simp)
  rw [List.nil_append] at h
  simp [pieces, h]

private theorem pieces_block {sep : Char} {s l : List Char} (h0 : s ≠ []) (hs : sep ∉ s) :
    pieces sep (s ++ sep :: l) = s :: pieces sep l := by
  unfold pieces
  rw [splitOnP_append (fun x hx => by simpa using fun e : x = sep => hs (e ▸ hx)) (by simp)]
  simp [h0]

private theorem pieces_last {sep : Char} {s : List Char} (h0 : s ≠ []) (hs : sep ∉ s) : pieces sep s = [s] := by
  unfold pieces
  rw [List.splitOnP_eq_singleton fun x hx => by simpa using fun e : x = sep => hs (e ▸ hx)]
  simp [h0]

private theorem pieces_spaces (n : Nat) (sep : Char) (l : List Char) :
    pieces sep (List.replicate n sep ++ l) = pieces sep l := by
  induction n with
  | zero => rfl
  | succ n ih => rw [List.replicate_succ, List.cons_append, pieces_sep, ih]

private theorem digit_char {n : Nat} {c : Char} (h : c ∈ Nat.toDigits 10 n) : c.isDigit = true :=
  Nat.isDigit_of_mem_toDigits (by omega) (by omega) h

private theorem show_chars {x : Int} {c : Char} (h : c ∈ showInt x) : c = '-' ∨ c.isDigit = true := by
  unfold showInt at h
  split at h
  · exact .inr (digit_char h)
  · rcases List.mem_cons.mp h with h | h
    · exact .inl h
    · exact .inr (digit_char h)

private theorem show_ne {x : Int} {c : Char} (h1 : c ≠ '-') (h2 : c.isDigit = false) : c ∉ showInt x := by
  intro h
  rcases show_chars h with h | h
  · exact h1 h
  · rw [h2] at h
    cases h

private theorem show_ne_nil (x : Int) : showInt x ≠ [] := by
  unfold showInt
  split
  · exact Nat.toDigits_ne_nil
  · simp

private theorem read_show (x : Int) : readInt (showInt x) = some x := by
  have hd : ∀ n, (Nat.toDigits 10 n).all Char.isDigit = true := fun n => List.all_eq_true.mpr fun c hc => digit_char hc
  have ho : ∀ n, Nat.ofDigitChars 10 (Nat.toDigits 10 n) 0 = n := fun n => Nat.ofDigitChars_toDigits (by omega) (by omega)
  unfold showInt
  split
  · rename_i n
    unfold readInt
    split
    · rename_i s hs
      have : '-' ∈ Nat.toDigits 10 n := by rw [hs]; simp
      exact absurd (digit_char this) (by decide)
    · rw [if_pos ⟨Nat.toDigits_ne_nil, hd n⟩, ho]
      rfl
  · rename_i n
    have e : ∀ s, readInt ('-' :: s) = if s ≠ [] ∧ s.all Char.isDigit then some (-((Nat.ofDigitChars 10 s 0 : Nat) : Int)) else none :=
      fun _ => rfl
    rw [e, if_pos ⟨Nat.toDigits_ne_nil, hd _⟩, ho]
    rfl

private theorem mapM_read (l : List Int) : (l.map showInt).mapM readInt = some l := by
  induction l with
  | nil => rfl
  | cons x l ih => simp [List.mapM_cons, read_show, ih]

private theorem show_length {x : Int} {k : Nat} (hk : 0 < k) (h : x.natAbs < 10 ^ k) :
    (showInt x).length ≤ k + 1 ∧ (0 ≤ x → (showInt x).length ≤ k) := by
  unfold showInt
  split
  · rename_i n
    have : (Nat.toDigits 10 n).length ≤ k := (Nat.length_toDigits_le_iff (by omega) hk).mpr h
    omega
  · rename_i n
    have : (Nat.toDigits 10 (n + 1)).length ≤ k := (Nat.length_toDigits_le_iff (by omega) hk).mpr h
    refine ⟨by simpa using this, fun h => ?_⟩
    omega

/-- A line of fields of given widths. -/
private def fields (l : List (Nat × Int)) : List Char := l.flatMap fun f => setw f.1 (showInt f.2)

private theorem setw_split {w : Nat} {s : List Char} (h : s.length < w) : ∃ n, setw w s = ' ' :: (List.replicate n ' ' ++ s) := by
  refine ⟨w - s.length - 1, ?_⟩
  unfold setw
  rw [show w - s.length = (w - s.length - 1) + 1 by omega, List.replicate_succ]
  rfl

private theorem words_fields {l : List (Nat × Int)} (h : ∀ f ∈ l, (showInt f.2).length < f.1) :
    pieces ' ' (fields l) = l.map fun f => showInt f.2 := by
  have hs : ∀ x : Int, ' ' ∉ showInt x := fun x => show_ne (by decide) (by decide)
  induction l with
  | nil => rfl
  | cons f l ih =>
    have ih := ih fun g hg => h g (by simp [hg])
    obtain ⟨n, hn⟩ := setw_split (h f (by simp))
    have e : fields (f :: l) = setw f.1 (showInt f.2) ++ fields l := rfl
    rw [e, hn, List.cons_append, pieces_sep, List.append_assoc, pieces_spaces, List.map_cons]
    cases l with
    | nil => simpa [fields] using pieces_last (show_ne_nil f.2) (hs f.2)
    | cons g l =>
      obtain ⟨m, hm⟩ := setw_split (h g (by simp))
      have e2 : fields (g :: l) = ' ' :: (List.replicate m ' ' ++ showInt g.2 ++ fields l) := by
        show setw g.1 (showInt g.2) ++ fields l = _
        rw [hm]
        rfl
      rw [e2, pieces_block (show_ne_nil _) (hs _), ← ih, e2, pieces_sep]

private theorem fields_head {l : List (Nat × Int)} (h0 : l ≠ []) (h : ∀ f ∈ l, (showInt f.2).length < f.1) :
    (fields l).head? = some ' ' := by
  cases l with
  | nil => exact absurd rfl h0
  | cons f l =>
    obtain ⟨n, hn⟩ := setw_split (h f (by simp))
    show (setw f.1 (showInt f.2) ++ fields l).head? = _
    rw [hn]
    rfl

private theorem fields_newline (l : List (Nat × Int)) : '\n' ∉ fields l := by
  intro h
  obtain ⟨f, -, hf⟩ := List.mem_flatMap.mp h
  unfold setw at hf
  rcases List.mem_append.mp hf with h | h
  · exact absurd (List.eq_of_mem_replicate h) (by decide)
  · exact show_ne (by decide) (by decide) h

private theorem read_rows {rows : List (List (Nat × Int))} (h0 : ∀ r ∈ rows, r ≠ [])
    (h : ∀ r ∈ rows, ∀ f ∈ r, (showInt f.2).length < f.1) :
    readTable (rows.flatMap fun r => fields r ++ ['\n']) = some (rows.map fun r => r.map fun f => f.2) := by
  induction rows with
  | nil => rfl
  | cons r rows ih =>
    have ih := ih (fun q hq => h0 q (by simp [hq])) fun q hq => h q (by simp [hq])
    have hr := h r (by simp)
    have hh := fields_head (h0 r (by simp)) hr
    have hne : fields r ≠ [] := by
      intro e
      rw [e] at hh
      cases hh
    have e : (r :: rows).flatMap (fun r => fields r ++ ['\n']) = fields r ++ '\n' :: rows.flatMap fun r => fields r ++ ['\n'] := by
      simp [List.flatMap_cons]
    have hread : (pieces ' ' (fields r)).mapM readInt = some (r.map fun f => f.2) := by
      rw [words_fields hr, show (r.map fun f => showInt f.2) = (r.map fun f => f.2).map showInt by rw [List.map_map]; rfl]
      exact mapM_read _
    unfold readTable at ih ⊢
    rw [e, pieces_block hne (fields_newline r), List.filter_cons_of_pos (by simp [hh]), List.mapM_cons, hread, ih]
    rfl

private theorem read_comment {s l : List Char} (hs : '\n' ∉ s) : readTable ('#' :: s ++ '\n' :: l) = readTable l := by
  unfold readTable
  rw [pieces_block (by simp) (by simpa using hs), List.filter_cons_of_neg (by simp)]

/-- The indices printed by `encodeFields`. -/
private def positions (k : Nat) (n : Int) : List Acq.Source → List Int
  | [] => []
  | s :: ss => (if s.shot = n then [(k : Int) + 1] else []) ++ positions (k + 1) n ss

private theorem fields_positions (k : Nat) (n : Int) (ss : List Acq.Source) :
    encodeFields k n ss = fields ((positions k n ss).map fun x => (5, x)) := by
  induction ss generalizing k with
  | nil => rfl
  | cons s ss ih =>
    unfold encodeFields positions
    rw [ih]
    split <;> simp [fields]

private theorem mem_positions {k : Nat} {n : Int} {ss : List Acq.Source} {j : Int} :
    j ∈ positions k n ss ↔ ∃ i s, ss[i]? = some s ∧ |s.no| = n ∧ j = (k + i : Nat) + 1 := by
  induction ss generalizing k with
  | nil => simp [positions]
  | cons s ss ih =>
    unfold positions
    rw [List.mem_append, ih]
    have e : s.shot = |s.no| := by simp [Acq.Source.shot]
    constructor
    · rintro (h | ⟨i, t, h1, h2, h3⟩)
      · split at h
        · rename_i h2
          exact ⟨0, s, rfl, by rw [← e, h2], by simpa using h⟩
        · cases h
      · exact ⟨i + 1, t, h1, h2, by rw [h3]; push_cast; ring⟩
    · rintro ⟨i, t, h1, h2, h3⟩
      cases i with
      | zero =>
        left
        obtain rfl : s = t := by simpa using h1
        rw [if_pos (by rw [e, h2])]
        simpa using h3
      | succ i => exact .inr ⟨i, t, by simpa using h1, h2, by rw [h3]; push_cast; ring⟩

private theorem sorted_positions (k : Nat) (n : Int) (ss : List Acq.Source) : (positions k n ss).Pairwise (· < ·) := by
  induction ss generalizing k with
  | nil => simp [positions]
  | cons s ss ih =>
    unfold positions
    split
    · rw [List.singleton_append, List.pairwise_cons]
      refine ⟨fun j hj => ?_, ih _⟩
      obtain ⟨i, -, -, -, rfl⟩ := mem_positions.mp hj
      push_cast
      omega
    · rw [List.nil_append]
      exact ih _

private theorem mapM_lines {u : List Int} {ss : List Acq.Source} {d : Nat} (hd : d ≤ u.length) :
    (List.range d).mapM (encodeLine u ss) =
      .ok ((u.take d).map fun n => fields ((13, n) :: (positions 0 n ss).map fun x => (5, x)) ++ ['\n']) := by
  induction d with
  | zero => rfl
  | succ d ih =>
    have hu : u[d]? = some u[d] := List.getElem?_eq_getElem (by omega)
    rw [List.range_succ, List.mapM_append, ih (by omega), Out.bind_ok, List.mapM_cons]
    unfold encodeLine
    rw [hu]
    simp only [List.mapM_nil, Out.bind_ok, Out.pure_eq]
    rw [List.take_add_one, hu, fields_positions, List.map_append]
    rfl

/-- The text behind the comment sign of the first line. -/
private def head (mode : Int) (domains size : Nat) : List Char :=
  " Shot indices used in source encode (useSourceEncode = ".toList ++ showInt mode ++
    ", numShotDomains = ".toList ++ showInt domains ++ ", numshots = ".toList ++ showInt size ++ [')']

private theorem head_newline (mode : Int) (domains size : Nat) : '\n' ∉ head mode domains size := by
  unfold head
  simp only [List.mem_append, not_or]
  exact ⟨⟨⟨⟨⟨⟨by decide, show_ne (by decide) (by decide)⟩, by decide⟩, show_ne (by decide) (by decide)⟩, by decide⟩,
    show_ne (by decide) (by decide)⟩, by decide⟩

private theorem file_eq {mode : Int} {d size : Nat} {ss : List Acq.Source} {u : List Int} (hu : Acq.uniqueShotNos ss = .ok u)
    (hl : ss.length = size) (hd : d ≤ u.length) :
    encodeFile mode d size ss = .ok ('#' :: head mode d size ++
      '\n' :: ('#' :: " Shot number | shot index (selected)".toList ++
      '\n' :: ((u.take d).map fun n => (13, n) :: (positions 0 n ss).map fun x => (5, x)).flatMap fun r => fields r ++ ['\n'])) := by
  unfold encodeFile head
  rw [hu, Out.bind_ok, if_pos hl, mapM_lines hd, Out.bind_ok, List.flatMap_map, List.flatMap_def]
  simp

private theorem read_file {mode : Int} {d size : Nat} (l : List Char) :
    readTable ('#' :: head mode d size ++ '\n' :: ('#' :: " Shot number | shot index (selected)".toList ++ '\n' :: l)) =
      readTable l := by
  rw [read_comment (head_newline _ _ _), read_comment (by decide)]

/-! ### Properties -/

/-- C154: the file with the selected shots gives back the shots, counted from one, and their numbers. The numbers are those of
the type of indices, 32 bits. -/
theorem C154_selected {incr : List Char} (hi : '\n' ∉ incr) {inds nos : List Int} (hl : inds.length = nos.length)
    (h1 : ∀ i ∈ inds, 0 ≤ i ∧ i < 2 ^ 31 - 1) (h2 : ∀ n ∈ nos, -2 ^ 31 ≤ n ∧ n < 2 ^ 31) :
    ∃ file, incrFile incr inds nos = .ok file ∧
      readTable file = some ((inds.zip nos).map fun p => [p.1 + 1, p.2]) := by
  refine ⟨_, if_pos hl, ?_⟩
  have e : (inds.zip nos).flatMap incrLine =
      ((inds.zip nos).map fun p => [(12, p.1 + 1), (12, p.2)]).flatMap fun r => fields r ++ ['\n'] := by
    rw [List.flatMap_map]
    congr 1
    funext p
    simp [incrLine, fields]
  have hc : ∀ l, "# Shot indices (shotIncr = ".toList ++ incr ++ " m, numshots = ".toList ++ showInt inds.length ++ ")\n".toList ++
      "# Shot index | shot number\n".toList ++ l =
      '#' :: (" Shot indices (shotIncr = ".toList ++ incr ++ " m, numshots = ".toList ++ showInt inds.length ++ [')']) ++
        '\n' :: ('#' :: " Shot index | shot number".toList ++ '\n' :: l) := by
    intro l
    simp
  rw [hc, read_comment, read_comment (by decide), e, read_rows]
  · rw [List.map_map]
    rfl
  · intro r hr
    obtain ⟨p, -, rfl⟩ := List.mem_map.mp hr
    simp
  · intro r hr f hf
    obtain ⟨p, hp, rfl⟩ := List.mem_map.mp hr
    obtain ⟨hp1, hp2⟩ := List.of_mem_zip (show (p.1, p.2) ∈ inds.zip nos from hp)
    have := h1 _ hp1
    have := h2 _ hp2
    simp only [List.mem_cons, List.not_mem_nil, or_false] at hf
    rcases hf with rfl | rfl
    · have := (show_length (x := p.1 + 1) (k := 10) (by omega) (by omega)).1
      show (showInt (p.1 + 1)).length < 12
      omega
    · have := (show_length (x := p.2) (k := 10) (by omega) (by omega)).1
      show (showInt p.2).length < 12
      omega
  · simp only [List.mem_append, not_or]
    refine ⟨⟨⟨⟨by decide, hi⟩, by decide⟩, show_ne (by decide) (by decide)⟩, by decide⟩

/-- C154: the file with the encoded shots gives back the number of each supershot and its members, counted from one. Missing: ten
thousand shots or more. -/
theorem C154_encoded_partial {mode : Int} {domains : Nat} {settings : List Acq.Source} (h4 : settings.length < 10 ^ 4)
    (hn : ∀ s ∈ settings, |s.no| < 2 ^ 31) {u : List Int} (hu : Acq.uniqueShotNos settings = .ok u) (hd : domains ≤ u.length) :
    ∃ file rows, encodeFile mode domains settings.length settings = .ok file ∧ readTable file = some rows ∧
      rows.length = domains ∧ ∀ (k : Nat) r, rows[k]? = some r → ∃ n ms, u[k]? = some n ∧ r = n :: ms ∧ ms.Pairwise (· < ·) ∧
        ∀ j, j ∈ ms ↔ ∃ (i : Nat) (s : Acq.Source), settings[i]? = some s ∧ |s.no| = n ∧ j = (i : Int) + 1 := by
  have hmem : ∀ n ∈ u, ∃ s ∈ settings, n = |s.no| := by
    intro n hn
    have hne : settings ≠ [] := by
      rintro rfl
      cases hu
    obtain ⟨u', hu', hf⟩ := Acq.C33_unique hne
    rw [hu] at hu'
    cases hu'
    obtain ⟨s, hs, e⟩ := List.mem_map.mp ((hf.mem n).mp hn)
    exact ⟨s, hs, e.symm⟩
  refine ⟨_, (u.take domains).map fun n => n :: positions 0 n settings, file_eq hu rfl hd, ?_, ?_, ?_⟩
  · rw [read_file, read_rows]
    · rw [List.map_map]
      congr 1
      refine List.map_congr_left fun n _ => ?_
      simp
    · intro r hr
      obtain ⟨p, -, rfl⟩ := List.mem_map.mp hr
      simp
    · intro r hr f hf
      obtain ⟨n, hn', rfl⟩ := List.mem_map.mp hr
      rcases List.mem_cons.mp hf with rfl | hf
      · obtain ⟨s, hs, rfl⟩ := hmem n (List.mem_of_mem_take hn')
        have h1 := hn s hs
        have h0 := abs_nonneg s.no
        generalize |s.no| = z at h0 h1
        have := (show_length (x := z) (k := 10) (by omega) (by omega)).1
        show (showInt z).length < 13
        omega
      · obtain ⟨x, hx, rfl⟩ := List.mem_map.mp hf
        obtain ⟨i, s, hi, -, rfl⟩ := mem_positions.mp hx
        have := (List.getElem?_eq_some_iff.mp hi).1
        have := (show_length (x := ((0 + i : Nat) : Int) + 1) (k := 4) (by omega) (by omega)).2 (by omega)
        show (showInt (((0 + i : Nat) : Int) + 1)).length < 5
        omega
  · simp [hd]
  · intro k r hr
    rw [List.getElem?_map, Option.map_eq_some_iff] at hr
    obtain ⟨n, hk, rfl⟩ := hr
    refine ⟨n, _, ?_, rfl, sorted_positions _ _ _, fun j => ?_⟩
    · rw [List.getElem?_take] at hk
      split at hk
      · exact hk
      · cases hk
    · rw [mem_positions]
      simp only [Nat.zero_add]

private theorem positions_replicate {t : Acq.Source} {n : Int} (h : t.shot ≠ n) (m k : Nat) (l : List Acq.Source) :
    positions k n (List.replicate m t ++ l) = positions (k + m) n l := by
  induction m generalizing k with
  | zero => rfl
  | succ m ih =>
    rw [List.replicate_succ, List.cons_append]
    show (if t.shot = n then _ else _) ++ positions (k + 1) n (List.replicate m t ++ l) = _
    rw [if_neg h, List.nil_append, ih]
    congr 1
    omega

private theorem fold_replicate {t : Acq.Source} {u : List Int} (h : t.shot ∈ u) (m : Nat) :
    (List.replicate m t).foldl (fun u t => if t.shot ∈ u then u else u ++ [t.shot]) u = u := by
  induction m with
  | zero => rfl
  | succ m ih => rw [List.replicate_succ, List.foldl_cons, if_pos h, ih]

/-- The first and the last of `m + 2` shots are supershot 1, the others are supershot 2. -/
def outerInner (m : Nat) : List Acq.Source :=
  ⟨1, ⟨0, 0, 0⟩, 1, 1, 1, 0⟩ :: (List.replicate m ⟨2, ⟨0, 0, 0⟩, 1, 1, 1, 1⟩ ++ [⟨1, ⟨0, 0, 0⟩, 1, 1, 1, 2⟩])

private theorem unique_outerInner (m : Nat) : Acq.uniqueShotNos (outerInner (m + 1)) = .ok [1, 2] := by
  unfold outerInner
  simp only [Acq.uniqueShotNos]
  rw [List.foldl_cons, List.foldl_append, List.replicate_succ, List.foldl_cons]
  have e := fold_replicate (t := ⟨2, ⟨0, 0, 0⟩, 1, 1, 1, 1⟩) (u := [1, 2]) (by decide) m
  refine congrArg Out.ok ?_
  refine (congrArg (fun u => List.foldl (fun u (t : Acq.Source) => if t.shot ∈ u then u else u ++ [t.shot]) u
    [⟨1, ⟨0, 0, 0⟩, 1, 1, 1, 2⟩]) e).trans ?_
  rfl

private theorem outer_positions (m : Nat) : positions 0 1 (outerInner m) = [1, (m : Int) + 2] := by
  unfold outerInner
  show [((0 : Nat) : Int) + 1] ++ positions 1 1 _ = _
  rw [positions_replicate (by decide)]
  show [((0 : Nat) : Int) + 1] ++ ([((1 + m : Nat) : Int) + 1] ++ []) = _
  simp
  ring

private theorem inner_positions {m : Nat} {x : Int} (h : x ∈ positions 0 2 (outerInner m)) : 0 ≤ x ∧ x ≤ (m : Int) + 1 := by
  obtain ⟨i, s, hi, h2, rfl⟩ := mem_positions.mp h
  have hl : (outerInner m).length = m + 2 := by
    unfold outerInner
    rw [List.length_cons, List.length_append, List.length_replicate]
    rfl
  have hlt := (List.getElem?_eq_some_iff.mp hi).1
  have hne : i ≠ m + 1 := by
    rintro rfl
    have e : (outerInner m)[m + 1]? = some ⟨1, ⟨0, 0, 0⟩, 1, 1, 1, 2⟩ := by
      unfold outerInner
      rw [List.getElem?_cons_succ, List.getElem?_append_right (by rw [List.length_replicate]), List.length_replicate, Nat.sub_self]
      rfl
    rw [e] at hi
    cases hi
    exact absurd h2 (by decide)
  omega

private theorem length_outerInner (m : Nat) : (outerInner m).length = m + 2 := by
  unfold outerInner
  rw [List.length_cons, List.length_append, List.length_replicate]
  rfl

private theorem outer_fields : fields [(13, 1), (5, 1), (5, 10000)] = fields [(13, 1), (10, 110000)] := by decide +kernel

private theorem wide_field : (showInt 110000).length < 10 := by decide +kernel

private theorem run_together {ss : List Acq.Source} {l : Nat} (hu : Acq.uniqueShotNos ss = .ok [1, 2]) (hl : ss.length = l)
    (h1 : positions 0 1 ss = [1, 10000]) (h2 : ∀ x ∈ positions 0 2 ss, 0 ≤ x ∧ x ≤ 9999) :
    ∃ file rows, encodeFile 1 2 l ss = .ok file ∧ readTable file = some rows ∧ rows[0]? = some [1, 110000] := by
  refine ⟨_, [[1, 110000], 2 :: positions 0 2 ss], file_eq hu hl (by decide), ?_, rfl⟩
  have e : (((([1, 2] : List Int).take 2).map fun n => (13, n) :: (positions 0 n ss).map fun x => (5, x)).flatMap
      fun r => fields r ++ ['\n']) =
      ([[(13, 1), (10, 110000)], (13, 2) :: (positions 0 2 ss).map fun x => (5, x)] : List (List (Nat × Int))).flatMap
      fun r => fields r ++ ['\n'] := by
    simp only [List.take_succ_cons, List.take_zero, List.map_cons, List.map_nil, List.flatMap_cons, List.flatMap_nil, h1, outer_fields]
  rw [read_file, e, read_rows]
  · simp [Function.comp_def]
  · intro r hr
    simp only [List.mem_cons, List.not_mem_nil, or_false] at hr
    rcases hr with rfl | rfl <;> simp
  · intro r hr f hf
    simp only [List.mem_cons, List.not_mem_nil, or_false] at hr
    rcases hr with rfl | rfl
    · simp only [List.mem_cons, List.not_mem_nil, or_false] at hf
      rcases hf with rfl | rfl
      · decide
      · exact wide_field
    · rcases List.mem_cons.mp hf with rfl | hf
      · decide
      · obtain ⟨x, hx, rfl⟩ := List.mem_map.mp hf
        have hx := h2 x hx
        have := (show_length (x := x) (k := 4) (by omega) (by omega)).2 (by omega)
        show (showInt x).length < 5
        omega

/-- C154 fails for ten thousand shots: if the first and the last one are in the same supershot, and no other one, their numbers 1
and 10000 are read as 110000. -/
theorem C154_encoded_violated : ∃ file rows, encodeFile 1 2 10000 (outerInner 9998) = .ok file ∧ readTable file = some rows ∧
    rows[0]? = some [1, 110000] := by
  have h : ∀ m : Nat, m = 9997 → ∃ file rows, encodeFile 1 2 10000 (outerInner (m + 1)) = .ok file ∧
      readTable file = some rows ∧ rows[0]? = some [1, 110000] := by
    intro m hm
    refine run_together (unique_outerInner m) (by rw [length_outerInner]; omega) ?_ fun x hx => ?_
    · rw [outer_positions, hm]
      norm_num
    · have := inner_positions hx
      omega
  exact h 9997 rfl

/-! ### Examples -/

/-- Three selected shots. -/
example : ∃ file, incrFile "20".toList [0, 4, 9] [1, 5, 12] = .ok file ∧ readTable file = some [[1, 1], [5, 5], [10, 12]] :=
  ⟨_, rfl, by decide +kernel⟩

/-- Five shots in two supershots. -/
example : ∃ file, encodeFile 2 2 5 ((List.range 5).map fun i => ⟨20001 + (i % 2 : Nat), ⟨i, 0, 0⟩, 1, 1, 1, i⟩) = .ok file ∧
    readTable file = some [[20001, 1, 3, 5], [20002, 2, 4]] :=
  ⟨_, rfl, by decide +kernel⟩

end Verif.ShotFile
