import Verif.Model.ShotFiles
import Verif.Props.ShotFiles
import Mathlib.Data.List.Basic

/-!
# Reading lines of words in fields of fixed width
-/
namespace Verif.TextRows
open Verif
open Verif.ShotFile

/-- A reader of text files, as users have: lines, without those that begin with #, of words between spaces. -/
def readWords (file : List Char) : List (List (List Char)) :=
  ((pieces '\n' file).filter fun l => l.head? ≠ some '#').map (pieces ' ')

theorem splitOnP_append {p : Char → Bool} {s l : List Char} {c : Char} (hs : ∀ x ∈ s, p x = false) (hc : p c = true) :
    (s ++ c :: l).splitOnP p = s :: l.splitOnP p := by
  induction s with
  | nil => simp [List.splitOnP_cons_eq_if_modifyHead, hc]
  | cons a s ih =>
    rw [List.cons_append, List.splitOnP_cons_eq_if_modifyHead, hs a (by simp), ih fun x hx => hs x (by simp [hx])]
    rfl

theorem pieces_sep (sep : Char) (l : List Char) : pieces sep (sep :: l) = pieces sep l := by
  have h : ([] ++ sep :: l).splitOnP (· == sep) = [] :: l.splitOnP (· == sep) := splitOnP_append (by simp) (by simp)
  rw [List.nil_append] at h
  simp [pieces, h]

theorem pieces_block {sep : Char} {s l : List Char} (h0 : s ≠ []) (hs : sep ∉ s) :
    pieces sep (s ++ sep :: l) = s :: pieces sep l := by
  unfold pieces
  rw [splitOnP_append (fun x hx => by simpa using fun e : x = sep => hs (e ▸ hx)) (by simp)]
  simp [h0]

theorem pieces_last {sep : Char} {s : List Char} (h0 : s ≠ []) (hs : sep ∉ s) : pieces sep s = [s] := by
  unfold pieces
  rw [List.splitOnP_eq_singleton fun x hx => by simpa using fun e : x = sep => hs (e ▸ hx)]
  simp [h0]

theorem pieces_spaces (n : Nat) (sep : Char) (l : List Char) :
    pieces sep (List.replicate n sep ++ l) = pieces sep l := by
  induction n with
  | zero => rfl
  | succ n ih => rw [List.replicate_succ, List.cons_append, pieces_sep, ih]

theorem show_ne {x : Int} {c : Char} (h1 : c ≠ '-') (h2 : c.isDigit = false) : c ∉ showInt x := by
  have hd : ∀ n, c ∉ Nat.toDigits 10 n := by
    intro n h
    rw [Nat.isDigit_of_mem_toDigits (by omega) (by omega) h] at h2
    cases h2
  unfold showInt
  split
  · exact hd _
  · intro h
    rcases List.mem_cons.mp h with h | h
    · exact h1 h
    · exact hd _ h

theorem show_ne_nil (x : Int) : showInt x ≠ [] := by
  unfold showInt
  split
  · exact Nat.toDigits_ne_nil
  · simp

theorem show_length {x : Int} (h : x.natAbs < 10 ^ 10) : (showInt x).length ≤ 11 := by
  unfold showInt
  split
  · rename_i n
    have : (Nat.toDigits 10 n).length ≤ 10 := (Nat.length_toDigits_le_iff (by omega) (by omega)).mpr h
    omega
  · rename_i n
    have : (Nat.toDigits 10 (n + 1)).length ≤ 10 := (Nat.length_toDigits_le_iff (by omega) (by omega)).mpr h
    simpa using this

/-- A line of words in fields of given widths. -/
def fields (l : List (Nat × List Char)) : List Char := l.flatMap fun f => setw f.1 f.2

def Good (l : List (Nat × List Char)) : Prop :=
  ∀ f ∈ l, f.2.length < f.1 ∧ f.2 ≠ [] ∧ ' ' ∉ f.2 ∧ '\n' ∉ f.2

theorem setw_split {w : Nat} {s : List Char} (h : s.length < w) : ∃ n, setw w s = ' ' :: (List.replicate n ' ' ++ s) := by
  refine ⟨w - s.length - 1, ?_⟩
  unfold setw
  rw [show w - s.length = (w - s.length - 1) + 1 by omega, List.replicate_succ]
  rfl

theorem words_fields {l : List (Nat × List Char)} (h : Good l) : pieces ' ' (fields l) = l.map Prod.snd := by
  induction l with
  | nil => rfl
  | cons f l ih =>
    have ih := ih fun g hg => h g (by simp [hg])
    obtain ⟨h1, h2, h3, -⟩ := h f (by simp)
    obtain ⟨n, hn⟩ := setw_split h1
    have e : fields (f :: l) = setw f.1 f.2 ++ fields l := rfl
    rw [e, hn, List.cons_append, pieces_sep, List.append_assoc, pieces_spaces, List.map_cons]
    cases l with
    | nil => simpa [fields] using pieces_last h2 h3
    | cons g l =>
      obtain ⟨m, hm⟩ := setw_split (h g (by simp)).1
      have e2 : fields (g :: l) = ' ' :: (List.replicate m ' ' ++ g.2 ++ fields l) := by
        show setw g.1 g.2 ++ fields l = _
        rw [hm]
        rfl
      rw [e2, pieces_block h2 h3, ← ih, e2, pieces_sep]

theorem fields_head {l : List (Nat × List Char)} (h0 : l ≠ []) (h : Good l) : (fields l).head? = some ' ' := by
  cases l with
  | nil => exact absurd rfl h0
  | cons f l =>
    obtain ⟨n, hn⟩ := setw_split (h f (by simp)).1
    show (setw f.1 f.2 ++ fields l).head? = _
    rw [hn]
    rfl

theorem fields_newline {l : List (Nat × List Char)} (h : Good l) : '\n' ∉ fields l := by
  intro hn
  obtain ⟨f, hf, hn⟩ := List.mem_flatMap.mp hn
  unfold setw at hn
  rcases List.mem_append.mp hn with hn | hn
  · exact absurd (List.eq_of_mem_replicate hn) (by decide)
  · exact (h f hf).2.2.2 hn

theorem read_rows {rows : List (List (Nat × List Char))} (h0 : ∀ r ∈ rows, r ≠ []) (h : ∀ r ∈ rows, Good r) :
    readWords (rows.flatMap fun r => fields r ++ ['\n']) = rows.map fun r => r.map Prod.snd := by
  induction rows with
  | nil => rfl
  | cons r rows ih =>
    have ih := ih (fun q hq => h0 q (by simp [hq])) fun q hq => h q (by simp [hq])
    have hr := h r (by simp)
    have hh := fields_head (h0 r (by simp)) hr
    have hne : fields r ≠ [] := by
      intro e
      rw [e] at hh
      cases hh
    have e : (r :: rows).flatMap (fun r => fields r ++ ['\n']) = fields r ++ '\n' :: rows.flatMap fun r => fields r ++ ['\n'] := by
      simp [List.flatMap_cons]
    unfold readWords at ih ⊢
    rw [e, pieces_block hne (fields_newline hr), List.filter_cons_of_pos (by simp [hh]), List.map_cons, ih, words_fields hr]
    rfl

theorem read_comment {s l : List Char} (hs : '\n' ∉ s) : readWords ('#' :: s ++ '\n' :: l) = readWords l := by
  unfold readWords
  rw [pieces_block (by simp) (by simpa using hs), List.filter_cons_of_neg (by simp)]

/-- The length of the text of a number that is not negative. -/
theorem show_length_nonneg {x : Int} {k : Nat} (hk : 0 < k) (h0 : 0 ≤ x) (h : x < 10 ^ k) : (showInt x).length ≤ k := by
  obtain ⟨n, rfl⟩ := Int.eq_ofNat_of_zero_le h0
  exact (Nat.length_toDigits_le_iff (by omega) hk).mpr (by exact_mod_cast h)

end Verif.TextRows
