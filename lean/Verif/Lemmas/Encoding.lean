import Verif.Model.Encoding
import Mathlib.Tactic.Ring
import Mathlib.Tactic.Linarith
import Mathlib.Algebra.Order.BigOperators.Group.List
/-!
# Lemmas about decoding and encoding supershots
-/
namespace Verif.Encoding

set_option linter.unusedSectionVars false

variable {M : Type} [AddCommGroup M]

theorem decodeLoop_eq (ty v row : ℕ → Int) (t : Int) (tr : ℕ → M)
    (hrow : ∀ r, row r ≠ 0 → v r ≠ 0) :
    ∀ (l : List ℕ) (D : List M) (P Z : List M),
      (l.filter fun r => decide (row r ≠ 0 ∧ ty r = t)).length ≤ Z.length →
      decodeLoop ty v row t (D ++ (l.filter fun r => decide (v r ≠ 0 ∧ ty r = t)).map tr) l
          (P.length, D.length, P ++ Z) =
        .ok (P.length + (l.filter fun r => decide (row r ≠ 0 ∧ ty r = t)).length,
          D.length + (l.filter fun r => decide (v r ≠ 0 ∧ ty r = t)).length,
          P ++ (l.filter fun r => decide (row r ≠ 0 ∧ ty r = t)).map tr ++
            Z.drop (l.filter fun r => decide (row r ≠ 0 ∧ ty r = t)).length) := by
  intro l
  induction l with
  | nil => intro D P Z _; simp [decodeLoop]
  | cons r l ih =>
    intro D P Z hlen
    by_cases hB : v r ≠ 0 ∧ ty r = t
    · by_cases hA : row r ≠ 0
      · have hAB : row r ≠ 0 ∧ ty r = t := ⟨hA, hB.2⟩
        have fA : ((r :: l).filter fun r => decide (row r ≠ 0 ∧ ty r = t)) = r :: l.filter fun r => decide (row r ≠ 0 ∧ ty r = t) :=
          List.filter_cons_of_pos (by simpa using hAB)
        have fB : ((r :: l).filter fun r => decide (v r ≠ 0 ∧ ty r = t)) = r :: l.filter fun r => decide (v r ≠ 0 ∧ ty r = t) :=
          List.filter_cons_of_pos (by simpa using hB)
        rw [fA] at hlen ⊢
        rw [fB]
        cases Z with
        | nil => simp at hlen
        | cons z Z =>
          simp only [List.length_cons, Nat.succ_le_succ_iff] at hlen
          have h := ih (D ++ [tr r]) (P ++ [tr r]) Z (by omega)
          have e1 : (D ++ List.map tr (r :: l.filter fun r => decide (v r ≠ 0 ∧ ty r = t))) =
              D ++ [tr r] ++ List.map tr (l.filter fun r => decide (v r ≠ 0 ∧ ty r = t)) := by simp
          rw [e1]
          unfold decodeLoop decodeStep
          rw [if_pos hB, if_pos hA]
          have e2 : (D ++ [tr r] ++ List.map tr (l.filter fun r => decide (v r ≠ 0 ∧ ty r = t)))[D.length]?
              = some (tr r) := by simp
          simp only [e2]
          rw [if_pos (by simp)]
          have e3 : (P ++ z :: Z).set P.length (tr r) = P ++ [tr r] ++ Z := by simp
          simp only [List.length_append, List.length_cons, List.length_nil, zero_add] at h
          rw [Out.bind_ok, e3, h]
          simp [Nat.add_assoc, Nat.add_comm]
          rw [Nat.add_comm, List.drop_succ_cons]
      · have hAB : ¬ (row r ≠ 0 ∧ ty r = t) := fun h => hA h.1
        have fA : ((r :: l).filter fun r => decide (row r ≠ 0 ∧ ty r = t)) = l.filter fun r => decide (row r ≠ 0 ∧ ty r = t) :=
          List.filter_cons_of_neg (by simpa using hAB)
        have fB : ((r :: l).filter fun r => decide (v r ≠ 0 ∧ ty r = t)) = r :: l.filter fun r => decide (v r ≠ 0 ∧ ty r = t) :=
          List.filter_cons_of_pos (by simpa using hB)
        rw [fA] at hlen ⊢
        rw [fB]
        have h := ih (D ++ [tr r]) P Z hlen
        have e1 : (D ++ List.map tr (r :: l.filter fun r => decide (v r ≠ 0 ∧ ty r = t))) =
            D ++ [tr r] ++ List.map tr (l.filter fun r => decide (v r ≠ 0 ∧ ty r = t)) := by simp
        rw [e1]
        unfold decodeLoop decodeStep
        rw [if_pos hB, if_neg hA]
        simp only [List.length_append, List.length_cons, List.length_nil, zero_add] at h
        rw [Out.bind_ok, h]
        simp [Nat.add_assoc, Nat.add_comm]
    · have hAB : ¬ (row r ≠ 0 ∧ ty r = t) := fun h => hB ⟨hrow r h.1, h.2⟩
      have fA : ((r :: l).filter fun r => decide (row r ≠ 0 ∧ ty r = t)) = l.filter fun r => decide (row r ≠ 0 ∧ ty r = t) :=
        List.filter_cons_of_neg (by simpa using hAB)
      have fB : ((r :: l).filter fun r => decide (v r ≠ 0 ∧ ty r = t)) = l.filter fun r => decide (v r ≠ 0 ∧ ty r = t) :=
        List.filter_cons_of_neg (by simpa using hB)
      rw [fA] at hlen ⊢
      rw [fB]
      unfold decodeLoop decodeStep
      rw [if_neg hB, Out.bind_ok]
      exact ih D P Z hlen

theorem encodeLoop_eq (ty v row : ℕ → Int) (t : Int) (f g : ℕ → M)
    (hrow : ∀ r, row r ≠ 0 → v r ≠ 0) :
    ∀ (l : List ℕ) (D P Q : List M),
      encodeLoop ty v row t (P ++ (l.filter fun r => decide (row r ≠ 0 ∧ ty r = t)).map g ++ Q) l
          (P.length, D.length, D ++ (l.filter fun r => decide (v r ≠ 0 ∧ ty r = t)).map f) =
        .ok (P.length + (l.filter fun r => decide (row r ≠ 0 ∧ ty r = t)).length,
          D.length + (l.filter fun r => decide (v r ≠ 0 ∧ ty r = t)).length,
          D ++ (l.filter fun r => decide (v r ≠ 0 ∧ ty r = t)).map
            fun r => f r + if row r ≠ 0 then g r else 0) := by
  intro l
  induction l with
  | nil => intro D P Q; simp [encodeLoop]
  | cons r l ih =>
    intro D P Q
    by_cases hB : v r ≠ 0 ∧ ty r = t
    · by_cases hA : row r ≠ 0
      · have hAB : row r ≠ 0 ∧ ty r = t := ⟨hA, hB.2⟩
        have fA : ((r :: l).filter fun r => decide (row r ≠ 0 ∧ ty r = t)) = r :: l.filter fun r => decide (row r ≠ 0 ∧ ty r = t) :=
          List.filter_cons_of_pos (by simpa using hAB)
        have fB : ((r :: l).filter fun r => decide (v r ≠ 0 ∧ ty r = t)) = r :: l.filter fun r => decide (v r ≠ 0 ∧ ty r = t) :=
          List.filter_cons_of_pos (by simpa using hB)
        rw [fA, fB]
        have h := ih (D ++ [f r + g r]) (P ++ [g r]) Q
        unfold encodeLoop encodeStep
        rw [if_pos hB, if_pos hA]
        have e1 : (P ++ List.map g (r :: l.filter fun r => decide (row r ≠ 0 ∧ ty r = t)) ++ Q)
            = P ++ [g r] ++ List.map g (l.filter fun r => decide (row r ≠ 0 ∧ ty r = t)) ++ Q := by simp
        have e2 : (P ++ [g r] ++ List.map g (l.filter fun r => decide (row r ≠ 0 ∧ ty r = t)) ++ Q)[P.length]?
            = some (g r) := by simp
        have e3 : (D ++ List.map f (r :: l.filter fun r => decide (v r ≠ 0 ∧ ty r = t)))[D.length]?
            = some (f r) := by simp
        have e4 : (D ++ List.map f (r :: l.filter fun r => decide (v r ≠ 0 ∧ ty r = t))).set D.length
            (f r + g r) = D ++ [f r + g r] ++ List.map f (l.filter fun r => decide (v r ≠ 0 ∧ ty r = t)) := by
          simp
        rw [e1]
        simp only [e2, e3, e4]
        simp only [List.length_append, List.length_cons, List.length_nil, zero_add] at h
        rw [Out.bind_ok, h]
        simp [Nat.add_assoc, Nat.add_comm, hA]
      · have hAB : ¬ (row r ≠ 0 ∧ ty r = t) := fun h => hA h.1
        have fA : ((r :: l).filter fun r => decide (row r ≠ 0 ∧ ty r = t)) = l.filter fun r => decide (row r ≠ 0 ∧ ty r = t) :=
          List.filter_cons_of_neg (by simpa using hAB)
        have fB : ((r :: l).filter fun r => decide (v r ≠ 0 ∧ ty r = t)) = r :: l.filter fun r => decide (v r ≠ 0 ∧ ty r = t) :=
          List.filter_cons_of_pos (by simpa using hB)
        rw [fA, fB]
        have h := ih (D ++ [f r]) P Q
        unfold encodeLoop encodeStep
        rw [if_pos hB, if_neg hA]
        have e4 : (D ++ List.map f (r :: l.filter fun r => decide (v r ≠ 0 ∧ ty r = t)))
            = D ++ [f r] ++ List.map f (l.filter fun r => decide (v r ≠ 0 ∧ ty r = t)) := by simp
        simp only [List.length_append, List.length_cons, List.length_nil, zero_add] at h
        rw [Out.bind_ok, e4, h]
        have hA' : row r = 0 := not_not.mp hA
        simp [Nat.add_assoc, Nat.add_comm, hA']
    · have hAB : ¬ (row r ≠ 0 ∧ ty r = t) := fun h => hB ⟨hrow r h.1, h.2⟩
      have fA : ((r :: l).filter fun r => decide (row r ≠ 0 ∧ ty r = t)) = l.filter fun r => decide (row r ≠ 0 ∧ ty r = t) :=
        List.filter_cons_of_neg (by simpa using hAB)
      have fB : ((r :: l).filter fun r => decide (v r ≠ 0 ∧ ty r = t)) = l.filter fun r => decide (v r ≠ 0 ∧ ty r = t) :=
        List.filter_cons_of_neg (by simpa using hB)
      rw [fA, fB]
      unfold encodeLoop encodeStep
      rw [if_neg hB, Out.bind_ok]
      exact ih D P Q

/-- With marks 0 and 1 the sum of a row is the number of marked receivers. -/
theorem numSingle_eq (n : ℕ) (row : ℕ → Int) (h : ∀ r, row r = 0 ∨ row r = 1) :
    numSingle n row = ((List.range n).filter fun r => decide (row r ≠ 0)).length := by
  unfold numSingle
  induction List.range n with
  | nil => simp
  | cons r l ih =>
    rcases h r with h0 | h1
    · simp [h0, ih]
    · simp [h1, ih]; ring

theorem length_filter_split (l : List ℕ) (p q : ℕ → Prop) [DecidablePred p] [DecidablePred q] :
    (l.filter fun r => decide (p r)).length =
      (l.filter fun r => decide (p r ∧ q r)).length + (l.filter fun r => decide (p r ∧ ¬ q r)).length := by
  induction l with
  | nil => simp
  | cons r l ih =>
    by_cases hp : p r <;> by_cases hq : q r <;> simp [hp, hq, ih] <;> omega

theorem signed_zero (a : ℚ) : signed a (0 : M) = 0 := by unfold signed; split <;> simp
theorem signed_signed (a : ℚ) (x : M) : signed a (signed a x) = x := by
  unfold signed; split <;> simp
theorem signed_add (a : ℚ) (x y : M) : signed a (x + y) = signed a x + signed a y := by
  unfold signed; split
  · exact neg_add x y
  · rfl

theorem markVector_ne_zero (ms : List Member) (h : ∀ s ∈ ms, ∀ r, s.row r = 0 ∨ s.row r = 1)
    (r : ℕ) : markVector ms r ≠ 0 ↔ ∃ s ∈ ms, s.row r ≠ 0 := by
  have hn : ∀ x ∈ ms.map (fun s : Member => s.row r), 0 ≤ x := by
    intro x hx
    obtain ⟨s, hs, rfl⟩ := List.mem_map.mp hx
    rcases h s hs r with h0 | h1 <;> simp [*]
  unfold markVector
  rw [ne_eq, Int.sign_eq_zero_iff_zero]
  constructor
  · intro hne
    by_contra hcon
    push Not at hcon
    exact hne (List.sum_eq_zero (by
      intro x hx
      obtain ⟨s, hs, rfl⟩ := List.mem_map.mp hx
      exact hcon s hs))
  · rintro ⟨s, hs, hr⟩ hz
    have h1 : s.row r ≤ (ms.map fun s : Member => s.row r).sum :=
      List.single_le_sum hn _ (List.mem_map.mpr ⟨s, hs, rfl⟩)
    rcases h s hs r with h0 | h1' <;> omega

/-- Decoding one member, in terms of the traces `tr` of the supershot. -/
theorem decodeShot_eq (n : ℕ) (ty v : ℕ → Int) (t : Int) (tr : ℕ → M) (s : Member)
    (h01 : ∀ r, s.row r = 0 ∨ s.row r = 1) (hrow : ∀ r, s.row r ≠ 0 → v r ≠ 0) :
    decodeShot n ty v t (((List.range n).filter fun r => decide (v r ≠ 0 ∧ ty r = t)).map tr) s =
      .ok (((List.range n).filter fun r => decide (s.row r ≠ 0 ∧ ty r = t)).map
          (fun r => signed s.amp (tr r)) ++
        List.replicate ((List.range n).filter fun r => decide (s.row r ≠ 0 ∧ ¬ ty r = t)).length 0) := by
  have hn := numSingle_eq n s.row h01
  have hs := length_filter_split (List.range n) (fun r => s.row r ≠ 0) (fun r => ty r = t)
  unfold decodeShot
  rw [if_neg (by omega)]
  have h := decodeLoop_eq ty v s.row t tr hrow (List.range n) [] []
    (List.replicate (numSingle n s.row).toNat 0) (by
      rw [List.length_replicate]; omega)
  simp only [List.nil_append, List.length_nil] at h
  rw [h, Out.bind_ok]
  simp only [List.map_append, List.map_map, List.drop_replicate, List.map_replicate, signed_zero]
  have e : (numSingle n s.row).toNat -
      ((List.range n).filter fun r => decide (s.row r ≠ 0 ∧ ty r = t)).length =
      ((List.range n).filter fun r => decide (s.row r ≠ 0 ∧ ¬ ty r = t)).length := by omega
  rw [e]
  rfl

/-- Decoding a list of members. -/
theorem decodeAll_eq (n : ℕ) (ty v : ℕ → Int) (t : Int) (tr : ℕ → M) :
    ∀ (ms : List Member), (∀ s ∈ ms, ∀ r, s.row r = 0 ∨ s.row r = 1) →
      (∀ s ∈ ms, ∀ r, s.row r ≠ 0 → v r ≠ 0) →
      decodeAll n ty v t (((List.range n).filter fun r => decide (v r ≠ 0 ∧ ty r = t)).map tr) ms =
        .ok (ms.map fun s => ((List.range n).filter fun r => decide (s.row r ≠ 0 ∧ ty r = t)).map
            (fun r => signed s.amp (tr r)) ++
          List.replicate
            ((List.range n).filter fun r => decide (s.row r ≠ 0 ∧ ¬ ty r = t)).length 0) := by
  intro ms
  induction ms with
  | nil => intro _ _; rfl
  | cons s ms ih =>
    intro h01 hrow
    unfold decodeAll
    rw [decodeShot_eq n ty v t tr s (h01 s (by simp)) (hrow s (by simp)), Out.bind_ok,
      ih (fun s hs => h01 s (by simp [hs])) (fun s hs => hrow s (by simp [hs])), Out.bind_ok]
    rfl

/-- Encoding a list of members with the traces `p.2.1` and further rows `p.2.2`. -/
theorem encodeAll_eq (n : ℕ) (ty v : ℕ → Int) (t : Int) :
    ∀ (ps : List (Member × (ℕ → M) × List M)) (f : ℕ → M),
      (∀ p ∈ ps, ∀ r, p.1.row r ≠ 0 → v r ≠ 0) →
      encodeAll n ty v t (ps.map (·.1))
          (ps.map fun p => ((List.range n).filter fun r => decide (p.1.row r ≠ 0 ∧ ty r = t)).map p.2.1 ++
            p.2.2)
          (((List.range n).filter fun r => decide (v r ≠ 0 ∧ ty r = t)).map f) =
        .ok (((List.range n).filter fun r => decide (v r ≠ 0 ∧ ty r = t)).map fun r => f r +
          (ps.map fun p => if p.1.row r ≠ 0 then signed p.1.amp (p.2.1 r) else 0).sum) := by
  intro ps
  induction ps with
  | nil => intro f _; simp [encodeAll]
  | cons p ps ih =>
    intro f hrow
    have h := encodeLoop_eq ty v p.1.row t f (fun r => signed p.1.amp (p.2.1 r))
      (hrow p (by simp)) (List.range n) [] [] (p.2.2.map (signed p.1.amp))
    simp only [List.nil_append, List.length_nil] at h
    simp only [List.map_cons]
    unfold encodeAll encodeShot
    rw [List.map_append, List.map_map]
    simp only [Function.comp_def]
    rw [h, Out.bind_ok, Out.bind_ok, ih _ (fun q hq => hrow q (by simp [hq]))]
    simp only [List.sum_cons, add_assoc]

end Verif.Encoding
