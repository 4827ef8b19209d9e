import Verif.Model.FrequencyFile
import Verif.Lemmas.TextRows
import Verif.Props.Acquisition
import Mathlib.Data.List.Basic

/-!
# C164: reading the file with the frequencies of the shots
-/
namespace Verif.FreqFile
open Verif
open Verif.ShotFile
open Verif.TextRows

/-- What is used of the text of a floating-point number with the six digits of a stream: it has no white space and at most 13
characters, as in `-1.23457e-308`. -/
structure IsText (txt : ℚ → List Char) : Prop where
  ne : ∀ x, txt x ≠ []
  space : ∀ x, ' ' ∉ txt x
  newline : ∀ x, '\n' ∉ txt x
  length : ∀ x, (txt x).length ≤ 13

/-! ### Helpers -/

private theorem read_header (domain mode : Int) (domains nf : Nat) (l : List Char) :
    readWords (header domain mode domains nf ++ l) = readWords l := by
  have e : header domain mode domains nf ++ l =
      '#' :: (" Shot frequency used in the frequency domain gradient (gradientDomain = ".toList ++ showInt domain ++
        ", useSourceEncode = ".toList ++ showInt mode ++ ", numShotDomains = ".toList ++ showInt domains ++ ", NF = ".toList ++
        showInt nf ++ [')']) ++ '\n' :: ('#' :: " Shot number | frequency (Hz)".toList ++ '\n' :: l) := by
    unfold header
    simp
  rw [e, read_comment, read_comment (by decide)]
  simp only [List.mem_append, not_or]
  exact ⟨⟨⟨⟨⟨⟨⟨⟨by decide, show_ne (by decide) (by decide)⟩, by decide⟩, show_ne (by decide) (by decide)⟩, by decide⟩,
    show_ne (by decide) (by decide)⟩, by decide⟩, show_ne (by decide) (by decide)⟩, by decide⟩

/-- The indices of the shots in a supershot. -/
def membersOf (settings : List Acq.Source) (n : Int) : List Nat :=
  (List.range settings.length).filter fun i => (settings[i]?.map fun s => |s.no|) = some n

private def members (k : Nat) (n : Int) : List Acq.Source → List Nat
  | [] => []
  | s :: ss => (if s.shot = n then [k] else []) ++ members (k + 1) n ss

private theorem members_eq (n : Int) : ∀ (ss : List Acq.Source) (k : Nat),
    members k n ss = ((List.range ss.length).filter fun i => (ss[i]?.map fun s => |s.no|) = some n).map (· + k) := by
  intro ss
  induction ss with
  | nil => intro k; rfl
  | cons s ss ih =>
    intro k
    have hs : s.shot = |s.no| := by simp [Acq.Source.shot]
    unfold members
    rw [ih, List.length_cons, List.range_succ_eq_map, List.filter_cons, List.filter_map, List.getElem?_cons_zero, hs]
    have e : (fun i : Nat => i + (k + 1)) = (fun i => i + k) ∘ Nat.succ := by funext i; simp; omega
    rw [e, ← List.map_map]
    by_cases hn : |s.no| = n
    · rw [if_pos hn, if_pos (by simp [hn])]
      simp [Function.comp_def]
    · rw [if_neg hn, if_neg (by simp [hn])]
      simp [Function.comp_def]

private theorem fcFields_eq (txt : ℚ → List Char) (fc : Nat → ℚ) (n : Int) : ∀ (ss : List Acq.Source) (k : Nat),
    fcFields txt fc k n ss = fields ((members k n ss).map fun i => (14, txt (fc i))) := by
  intro ss
  induction ss with
  | nil => intro k; rfl
  | cons s ss ih =>
    intro k
    unfold fcFields members
    rw [ih]
    split
    · rfl
    · rfl

private theorem mapM_lines {txt : ℚ → List Char} {fc : Nat → ℚ} {u : List Int} {ss : List Acq.Source} {d : Nat}
    (hd : d ≤ u.length) : (List.range d).mapM (fcLine txt fc u ss) =
      .ok ((u.take d).map fun n => fields ((13, showInt n) :: (members 0 n ss).map fun i => (14, txt (fc i))) ++ ['\n']) := by
  induction d with
  | zero => rfl
  | succ d ih =>
    have hu : u[d]? = some u[d] := List.getElem?_eq_getElem (by omega)
    rw [List.range_succ, List.mapM_append, ih (by omega), Out.bind_ok, List.mapM_cons]
    unfold fcLine
    rw [hu]
    simp only [List.mapM_nil, Out.bind_ok, Out.pure_eq]
    rw [List.take_add_one, hu, fcFields_eq, List.map_append]
    rfl

private theorem good_row {txt : ℚ → List Char} (ht : IsText txt) {n : Int} (hn : |n| < 2 ^ 31) (l : List ℚ) :
    Good ((13, showInt n) :: l.map fun x => (14, txt x)) := by
  intro f hf
  rcases List.mem_cons.mp hf with rfl | hf
  · have : n.natAbs < 10 ^ 10 := by
      have := Int.natCast_natAbs n
      omega
    have := show_length this
    exact ⟨by show (showInt n).length < 13; omega, show_ne_nil n, show_ne (by decide) (by decide), show_ne (by decide) (by decide)⟩
  · obtain ⟨x, -, rfl⟩ := List.mem_map.mp hf
    exact ⟨by show (txt x).length < 14; have := ht.length x; omega, ht.ne x, ht.space x, ht.newline x⟩

/-! ### Properties -/

/-- C164: with encoding, the file has one line for each supershot, with its number and the frequencies of its members in their order.
The frequencies are given by their texts, which have six digits. -/
theorem C164_encoded {txt : ℚ → List Char} (ht : IsText txt) {domain mode : Int} {domains : Nat} {sourceFC : List (List ℚ)}
    (h0 : sourceFC ≠ []) {fc : Nat → ℚ} {settings : List Acq.Source} (hn : ∀ s ∈ settings, |s.no| < 2 ^ 31) {u : List Int}
    (hu : Acq.uniqueShotNos settings = .ok u) (hd : domains ≤ u.length) :
    ∃ file, encodedFile txt domain mode domains settings.length sourceFC fc settings = .ok file ∧
      readWords file = (u.take domains).map fun n => showInt n :: (membersOf settings n).map fun i => txt (fc i) := by
  obtain ⟨f, fs, rfl⟩ := List.exists_cons_of_ne_nil h0
  have hmem : ∀ n ∈ u, |n| < 2 ^ 31 := by
    intro n hn'
    have hne : settings ≠ [] := by
      rintro rfl
      cases hu
    obtain ⟨u', hu', hf⟩ := Acq.C33_unique hne
    rw [hu] at hu'
    cases hu'
    obtain ⟨s, hs, rfl⟩ := List.mem_map.mp ((hf.mem n).mp hn')
    rw [abs_abs]
    exact hn s hs
  refine ⟨header domain mode domains f.length ++ ((u.take domains).map fun n =>
    (13, showInt n) :: ((members 0 n settings).map fc).map fun x => (14, txt x)).flatMap fun r => fields r ++ ['\n'], ?_, ?_⟩
  · unfold encodedFile
    simp only
    rw [hu, Out.bind_ok, if_pos trivial, mapM_lines hd, Out.bind_ok, List.flatMap_map, List.flatMap_def]
    simp only [List.map_map]
    rfl
  · rw [read_header, read_rows]
    · rw [List.map_map]
      refine List.map_congr_left fun n _ => ?_
      have e : members 0 n settings = membersOf settings n := by
        rw [members_eq]
        simp [membersOf]
      simp [e, Function.comp_def]
    · intro r hr
      obtain ⟨p, -, rfl⟩ := List.mem_map.mp hr
      simp
    · intro r hr
      obtain ⟨n, hn', rfl⟩ := List.mem_map.mp hr
      exact good_row ht (hmem n (List.mem_of_mem_take hn')) _

/-- C164: the first line of the file of supershots names the domain of the gradient, the encoding, the number of lines that follow the
comments and the number of frequencies of the first shot. -/
theorem C164_first_line {txt : ℚ → List Char} {domain mode : Int} {domains size : Nat} {f : List ℚ} {fs : List (List ℚ)} {fc : Nat → ℚ}
    {settings : List Acq.Source} {file : List Char}
    (h : encodedFile txt domain mode domains size (f :: fs) fc settings = .ok file) :
    (pieces '\n' file).head? = some ("# Shot frequency used in the frequency domain gradient (gradientDomain = ".toList ++ showInt domain ++
      ", useSourceEncode = ".toList ++ showInt mode ++ ", numShotDomains = ".toList ++ showInt domains ++ ", NF = ".toList ++
      showInt f.length ++ ")".toList) := by
  obtain ⟨l, rfl⟩ : ∃ l, file = header domain mode domains f.length ++ l := by
    unfold encodedFile at h
    simp only at h
    cases hu : Acq.uniqueShotNos settings with
    | err => rw [hu] at h; cases h
    | ub => rw [hu] at h; cases h
    | ok u =>
      rw [hu, Out.bind_ok] at h
      split at h
      · cases hl : (List.range domains).mapM (fcLine txt fc u settings) with
        | err => rw [hl] at h; cases h
        | ub => rw [hl] at h; cases h
        | ok l =>
          rw [hl, Out.bind_ok] at h
          cases h
          exact ⟨_, rfl⟩
      · cases h
  have e : header domain mode domains f.length ++ l =
      ("# Shot frequency used in the frequency domain gradient (gradientDomain = ".toList ++ showInt domain ++
        ", useSourceEncode = ".toList ++ showInt mode ++ ", numShotDomains = ".toList ++ showInt domains ++ ", NF = ".toList ++
        showInt f.length ++ ")".toList) ++ '\n' :: ("# Shot number | frequency (Hz)\n".toList ++ l) := by
    unfold header
    simp
  rw [e, pieces_block (by simp)]
  · rfl
  · simp only [List.mem_append, not_or]
    exact ⟨⟨⟨⟨⟨⟨⟨⟨by decide, show_ne (by decide) (by decide)⟩, by decide⟩, show_ne (by decide) (by decide)⟩, by decide⟩,
      show_ne (by decide) (by decide)⟩, by decide⟩, show_ne (by decide) (by decide)⟩, by decide⟩

/-- C164: an encoding that was not applied to all shots is refused, and more shot domains than supershots are undefined behaviour. -/
theorem C164_refused {txt : ℚ → List Char} {domain mode : Int} {domains size : Nat} {sourceFC : List (List ℚ)} (h0 : sourceFC ≠ [])
    {fc : Nat → ℚ} {settings : List Acq.Source} {u : List Int} (hu : Acq.uniqueShotNos settings = .ok u) :
    (settings.length ≠ size → encodedFile txt domain mode domains size sourceFC fc settings = .err) ∧
    (settings.length = size → u.length < domains → encodedFile txt domain mode domains size sourceFC fc settings = .ub) := by
  obtain ⟨f, fs, rfl⟩ := List.exists_cons_of_ne_nil h0
  unfold encodedFile
  simp only
  rw [hu, Out.bind_ok]
  refine ⟨fun h => by rw [if_neg h], fun h hd => ?_⟩
  rw [if_pos h]
  have e : List.range domains = List.range u.length ++ u.length :: (List.range (domains - u.length - 1)).map (u.length + 1 + ·) := by
    have h1 : domains = u.length + ((domains - u.length - 1) + 1) := by omega
    conv_lhs => rw [h1, List.range_add, List.range_succ_eq_map]
    simp only [List.map_cons, List.map_map, Nat.add_zero]
    congr 2
    refine List.map_congr_left fun i _ => ?_
    simp
    omega
  rw [e, List.mapM_append, mapM_lines (Nat.le_refl _), Out.bind_ok, List.mapM_cons]
  have : fcLine txt fc u settings u.length = .ub := by
    unfold fcLine
    rw [List.getElem?_eq_none (Nat.le_refl _)]
  rw [this]
  rfl

/-- C164: without encoding, the file has one line, with the number of the first shot and its frequencies. Missing: the other shots,
see `C164_plain_violated`. -/
theorem C164_plain_partial {txt : ℚ → List Char} (ht : IsText txt) {domain : Int} {domains : Nat} {f : List ℚ} {fs : List (List ℚ)}
    {s : Acq.Source} {ss : List Acq.Source} (hn : |s.no| < 2 ^ 31) :
    ∃ file, plainFile txt domain domains (f :: fs) (s :: ss) = .ok file ∧ readWords file = [showInt s.no :: f.map txt] := by
  refine ⟨_, rfl, ?_⟩
  have e : setw 13 (showInt s.no) ++ f.flatMap (fun x => setw 14 (txt x)) ++ ['\n'] =
      [(13, showInt s.no) :: f.map fun x => (14, txt x)].flatMap fun r => fields r ++ ['\n'] := by
    simp [fields, List.flatMap_map]
  rw [read_header, e, read_rows (by simp)]
  · simp [Function.comp_def]
  · intro r hr
    rw [List.mem_singleton.mp hr]
    exact good_row ht hn f

/-- C164 fails without encoding: the shots after the first are not in the file, for every choice of two or more shots. -/
theorem C164_plain_violated {txt : ℚ → List Char} (ht : IsText txt) {domain : Int} {domains : Nat} {sourceFC : List (List ℚ)}
    (h0 : sourceFC ≠ []) {settings : List Acq.Source} (h2 : 1 < settings.length) (hn : ∀ s ∈ settings, |s.no| < 2 ^ 31) :
    ∃ file, plainFile txt domain domains sourceFC settings = .ok file ∧ (readWords file).length < settings.length := by
  obtain ⟨f, fs, rfl⟩ := List.exists_cons_of_ne_nil h0
  cases settings with
  | nil => cases h2
  | cons s ss =>
    obtain ⟨file, h1, h3⟩ := C164_plain_partial ht (domain := domain) (domains := domains) (f := f) (fs := fs) (ss := ss) (hn s (by simp))
    exact ⟨file, h1, by rw [h3]; exact h2⟩

/-! ### Examples -/

/-- Texts of whole numbers of Hertz below a million. -/
private def exTxt (x : ℚ) : List Char := if 0 ≤ x ∧ x < 10 ^ 6 then showInt ⌊x⌋ else "inf".toList

private theorem exText : IsText exTxt := by
  have h : ∀ x : ℚ, 0 ≤ x ∧ x < 10 ^ 6 → (⌊x⌋).natAbs < 10 ^ 10 := by
    intro x hx
    have h1 : 0 ≤ ⌊x⌋ := Int.floor_nonneg.mpr hx.1
    have h2 : ⌊x⌋ < 10 ^ 6 := Int.floor_lt.mpr (by exact_mod_cast hx.2)
    omega
  constructor <;> intro x <;> unfold exTxt <;> split
  · exact show_ne_nil _
  · decide
  · exact show_ne (by decide) (by decide)
  · decide
  · exact show_ne (by decide) (by decide)
  · decide
  · rename_i hx
    have := show_length (h x hx)
    omega
  · decide

private def exShots : List Acq.Source := [⟨20001, ⟨1, 1, 1⟩, 1, 1, 1, 1⟩, ⟨20002, ⟨2, 1, 1⟩, 1, 1, 1, 2⟩, ⟨-20001, ⟨3, 1, 1⟩, 1, 1, 1, 3⟩]

/-- Three shots in two supershots. -/
example : ∃ file, encodedFile exTxt 1 2 2 3 [[2, 6], [4, 6]] (fun i => [2, 4, 6].getD i 0) exShots = .ok file ∧
    readWords file = ["20001 2 6", "20002 4"].map fun s => pieces ' ' s.toList := by
  obtain ⟨file, h1, h2⟩ := C164_encoded exText (domain := 1) (mode := 2) (domains := 2) (sourceFC := [[2, 6], [4, 6]]) (by simp)
    (fc := fun i => [2, 4, 6].getD i 0) (settings := exShots) (u := [20001, 20002]) (by decide) (by decide) (by decide)
  exact ⟨file, h1, h2.trans (by decide +kernel)⟩

/-- The first line for these shots. -/
example : ∃ file, encodedFile exTxt 1 2 2 3 [[2, 6], [4, 6]] (fun i => [2, 4, 6].getD i 0) exShots = .ok file ∧
    (pieces '\n' file).head? = some "# Shot frequency used in the frequency domain gradient (gradientDomain = 1, useSourceEncode = 2, numShotDomains = 2, NF = 2)".toList := by
  obtain ⟨file, h1, -⟩ := C164_encoded exText (domain := 1) (mode := 2) (domains := 2) (sourceFC := [[2, 6], [4, 6]]) (by simp)
    (fc := fun i => [2, 4, 6].getD i 0) (settings := exShots) (u := [20001, 20002]) (by decide) (by decide) (by decide)
  exact ⟨file, h1, (C164_first_line h1).trans (by decide +kernel)⟩

/-- Three shot domains for two supershots. -/
example : encodedFile exTxt 1 2 3 3 [[2, 6]] (fun _ => 2) exShots = .ub :=
  (C164_refused (by simp) (u := [20001, 20002]) (by decide)).2 rfl (by decide)

/-- Three shots without encoding, with one line. -/
example : ∃ file, plainFile exTxt 1 3 [[2, 6], [4, 6], [2, 4]] exShots = .ok file ∧ (readWords file).length < 3 :=
  C164_plain_violated exText (by simp) (settings := exShots) (by decide) (by decide)

end Verif.FreqFile
