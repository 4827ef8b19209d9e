import Verif.Model.Profile
import Mathlib.Tactic.FinCases
import Mathlib.Data.Rat.Defs

/-!
# C147: profiles collect the traces of all shots
-/
set_option linter.dupNamespace false

namespace Verif.Profile
open Verif

section
variable {T : Type}

/-- Shots with one trace `sig s` in component `ty s`. -/
def single (ty : ℕ → Fin 4) (sig : ℕ → T) (s : ℕ) (c : Fin 4) : List T := if c = ty s then [sig s] else []

private theorem find_fin (p : Fin 4 → Bool) (c : Fin 4) (h : ∀ d, p d = true ↔ d = c) :
    (List.finRange 4).find? p = some c := by
  rw [List.find?_eq_some_iff_append]
  refine ⟨(h c).2 rfl, ?_⟩
  obtain ⟨a, b, e⟩ := List.append_of_mem (List.mem_finRange c)
  refine ⟨a, b, e, fun d hd => ?_⟩
  have hn : (a ++ c :: b).Nodup := e ▸ List.nodup_finRange 4
  have hne : d ≠ c := by
    rintro rfl
    rw [List.nodup_append] at hn
    exact hn.2.2 d hd d (by simp) rfl
  by_contra hh
  simp only [Bool.not_eq_eq_eq_not, Bool.not_true, Bool.not_eq_false] at hh
  exact hne ((h d).1 hh)

private theorem first_single {h : Handler T} {c : Fin 4} (hc : ∀ d, (h d).data.length ≠ 0 ↔ d = c) :
    first h = some c := by
  unfold first
  exact find_fin _ c fun d => by simpa using hc d

private theorem shot_single [Zero T] {n : ℕ} (hn : 1 < n) (ty : ℕ → Fin 4) (sig : ℕ → T) {s : ℕ} (hs : s < n)
    {h : Handler T} (hl : ∀ c, (h c).cop.length = n) :
    ∃ h', shot (single ty sig s) s h = .ok h' ∧ (∀ c, (h' c).cop.length = n) ∧
      (∀ c i, (h' c).cop.getD i 0 = if i = s ∧ ty s = c then sig s else (h c).cop.getD i 0) ∧
      (∀ c, (h' c).data = single ty sig s c) := by
  have hf : first (fun c => ({ h c with data := single ty sig s c } : Comp T)) = some (ty s) := by
    apply first_single
    intro d
    simp only [single]
    split <;> simp_all
  have hset : setShotInd (fun c => ({ h c with data := single ty sig s c } : Comp T)) s =
      Function.update (fun c => ({ h c with data := single ty sig s c } : Comp T)) (ty s)
        ⟨[sig s], (h (ty s)).cop, s⟩ := by
    unfold setShotInd
    rw [hf]
    simp [single]
  have hall : ((List.finRange 4).all fun c => rowExists
      (Function.update (fun c => ({ h c with data := single ty sig s c } : Comp T)) (ty s)
        ⟨[sig s], (h (ty s)).cop, s⟩ c)) = true := by
    rw [List.all_eq_true]
    intro c _
    by_cases hc : c = ty s
    · subst hc
      simp [rowExists, hl, hs]
    · simp [rowExists, hc, single]
  refine ⟨fun c => if c = ty s then ⟨[sig s], (h c).cop.set s (sig s), s⟩ else ⟨[], (h c).cop, (h c).shotInd⟩,
    ?_, ?_, ?_, ?_⟩
  · unfold shot writeAll
    rw [hset, if_pos hall]
    simp only [Out.ok.injEq]
    funext c
    by_cases hc : c = ty s
    · subst hc
      simp [write, hl, hn]
    · simp [write, hc, single]
  · intro c
    simp only
    split <;> simp [hl]
  · intro c i
    by_cases hc : c = ty s
    · subst hc
      simp only [if_true, List.getD_eq_getElem?_getD, List.getElem?_set, and_true]
      by_cases hi : s = i
      · subst hi
        simp [hl, hs]
      · simp [hi, Ne.symm hi]
    · simp [hc, Ne.symm hc]
  · intro c
    simp only [single]
    split <;> rfl

private theorem shots_single [Zero T] {n : ℕ} (hn : 1 < n) (ty : ℕ → Fin 4) (sig : ℕ → T) :
    ∀ (l : List ℕ), (∀ s ∈ l, s < n) → ∀ (h : Handler T), (∀ c, (h c).cop.length = n) →
    ∃ h', shots (single ty sig) l h = .ok h' ∧ (∀ c, (h' c).cop.length = n) ∧
      (∀ c i, (h' c).cop.getD i 0 = if i ∈ l ∧ ty i = c then sig i else (h c).cop.getD i 0) ∧
      (∀ s, l.getLast? = some s → ∀ c, (h' c).data = single ty sig s c) := by
  intro l
  induction l with
  | nil =>
    intro _ h hl
    exact ⟨h, rfl, hl, fun c i => by simp, fun s hs => by simp at hs⟩
  | cons a l ih =>
    intro hlt h hl
    obtain ⟨h1, e1, l1, c1, d1⟩ := shot_single hn ty sig (hlt a (by simp)) hl
    obtain ⟨h2, e2, l2, c2, d2⟩ := ih (fun s hs => hlt s (by simp [hs])) h1 l1
    refine ⟨h2, ?_, l2, ?_, ?_⟩
    · unfold shots
      rw [e1]
      exact e2
    · intro c i
      rw [c2, c1]
      by_cases h1 : i ∈ l ∧ ty i = c
      · simp [h1.1, h1.2]
      · by_cases h3 : i = a
        · subst h3
          by_cases h4 : ty i = c <;> simp_all
        · have h5 : ¬(i ∈ a :: l ∧ ty i = c) := by
            simpa [h3] using h1
          rw [if_neg h1, if_neg h5, if_neg (fun h => h3 h.1)]
    · intro s hs c
      cases l with
      | nil =>
        simp only [List.getLast?_singleton, Option.some.injEq] at hs
        subst hs
        simp only [shots, Out.ok.injEq] at e2
        subst e2
        exact d1 c
      | cons b l' =>
        exact d2 s (by simpa using hs) c

/-- What the handler of a domain holds after its shots. -/
private def After [Zero T] (n : ℕ) (ty : ℕ → Fin 4) (sig : ℕ → T) (l : List ℕ) (h : Handler T) : Prop :=
  (∀ c, (h c).cop.length = n) ∧
  (∀ c i, (h c).cop.getD i 0 = if i ∈ l ∧ ty i = c then sig i else 0) ∧
  (∀ s, l.getLast? = some s → ∀ c, (h c).data = single ty sig s c)

private theorem domains_single [Zero T] {n : ℕ} (hn : 1 < n) (ty : ℕ → Fin 4) (sig : ℕ → T) :
    ∀ (sched : List (List ℕ)), (∀ l ∈ sched, ∀ s ∈ l, s < n) →
    ∃ hs, domains n (single ty sig) sched = .ok hs ∧ List.Forall₂ (After n ty sig) sched hs := by
  intro sched
  induction sched with
  | nil => exact fun _ => ⟨[], rfl, .nil⟩
  | cons l ls ih =>
    intro hlt
    obtain ⟨h, e, h1, h2, h3⟩ := shots_single hn ty sig l (hlt l (by simp)) (allocateCOP n)
      (fun c => by simp [allocateCOP])
    obtain ⟨hs, es, hh⟩ := ih fun l' hl' => hlt l' (by simp [hl'])
    refine ⟨h :: hs, ?_, .cons ⟨h1, fun c i => ?_, h3⟩ hh⟩
    · unfold domains
      rw [e, es]
    · rw [h2]
      have : (allocateCOP (T := T) n c).cop.getD i 0 = 0 := by
        simp only [allocateCOP, List.getD_eq_getElem?_getD, List.getElem?_replicate]
        split <;> rfl
      rw [this]

/-- The component of the last shot of a domain. -/
def lastType (ty : ℕ → Fin 4) (l : List ℕ) : Fin 4 := ty (l.getLast?.getD 0)

private theorem first_after [Zero T] {n : ℕ} {ty : ℕ → Fin 4} {sig : ℕ → T} {l : List ℕ} {h : Handler T}
    (hl : l ≠ []) (ha : After n ty sig l h) : first h = some (lastType ty l) := by
  obtain ⟨s, hs⟩ := Option.ne_none_iff_exists'.1 (mt List.getLast?_eq_none_iff.1 hl)
  have := ha.2.2 s hs
  unfold lastType
  rw [hs, Option.getD_some]
  apply first_single
  intro d
  rw [this d]
  simp only [single]
  split <;> simp_all

private theorem mapM_after [Zero T] {n : ℕ} {ty : ℕ → Fin 4} {sig : ℕ → T} {sched : List (List ℕ)}
    {hs : List (Handler T)} (hne : ∀ l ∈ sched, l ≠ []) (ha : List.Forall₂ (After n ty sig) sched hs) :
    (hs.mapM fun h => (first h).map fun c => (h, c)) =
      some (List.zipWith (fun l h => (h, lastType ty l)) sched hs) := by
  induction ha with
  | nil => rfl
  | cons h1 h2 ih =>
    rename_i l h ls hs
    rw [List.mapM_cons, first_after (hne l (by simp)) h1, ih fun l' hl' => hne l' (by simp [hl'])]
    rfl

end

section
variable {T : Type} [AddCommMonoid T]

/-- The rows that the domains contribute. -/
private theorem sum_rows {n : ℕ} {ty : ℕ → Fin 4} {sig : ℕ → T} {sched : List (List ℕ)} {hs : List (Handler T)}
    (ha : List.Forall₂ (After n ty sig) sched hs) (i : ℕ) :
    (((List.zipWith (fun l h => (h, lastType ty l)) sched hs).map fun p => (p.1 p.2).cop).map
      fun c => c.getD i 0).sum =
    (sched.map fun l => if i ∈ l ∧ ty i = lastType ty l then sig i else 0).sum := by
  induction ha with
  | nil => rfl
  | cons h1 h2 ih =>
    simp only [List.zipWith_cons_cons, List.map_cons, List.sum_cons]
    rw [ih, h1.2.1]

private theorem sum_blocks (f : List ℕ → T) (i : ℕ) : ∀ (sched : List (List ℕ)) (l : List ℕ), l ∈ sched → i ∈ l →
    sched.flatten.Nodup → (sched.map fun l => if i ∈ l then f l else 0).sum = f l := by
  intro sched
  induction sched with
  | nil => simp
  | cons a ls ih =>
    intro l hl hi hnd
    rw [List.flatten_cons, List.nodup_append] at hnd
    rw [List.map_cons, List.sum_cons]
    rcases List.mem_cons.1 hl with rfl | hl
    · have : (ls.map fun l => if i ∈ l then f l else 0) = ls.map fun _ => 0 := by
        refine List.map_congr_left fun l' hl' => if_neg fun h => ?_
        exact hnd.2.2 i hi i (List.mem_flatten.2 ⟨l', hl', h⟩) rfl
      rw [this, if_pos hi]
      simp
    · rw [ih l hl hi hnd.2.1]
      have : i ∉ a := fun h => hnd.2.2 i h i (List.mem_flatten.2 ⟨l, hl, hi⟩) rfl
      rw [if_neg this, zero_add]

/-- The profile of shots with one trace each: one file, for the component of the last shot of domain 0. Row `s` holds the
trace of shot `s` if its component is that of the last shot of its domain, and zeros otherwise. -/
theorem profile_single {n : ℕ} (hn : 1 < n) (ty : ℕ → Fin 4) (sig : ℕ → T) {l : List ℕ} {ls : List (List ℕ)}
    (hne : ∀ l' ∈ l :: ls, l' ≠ []) (hp : (l :: ls).flatten.Perm (List.range n)) :
    ∃ files, profile n (single ty sig) (l :: ls) = .ok files ∧ (∀ c, c ≠ lastType ty l → files c = none) ∧
      ∃ rows, files (lastType ty l) = some rows ∧ rows.length = n ∧
        ∀ l' ∈ l :: ls, ∀ s ∈ l', rows[s]? = some (if ty s = lastType ty l' then sig s else 0) := by
  have hlt : ∀ l' ∈ l :: ls, ∀ s ∈ l', s < n := fun l' hl' s hs => by
    simpa using hp.mem_iff.1 (List.mem_flatten.2 ⟨l', hl', hs⟩)
  have hnd : (l :: ls).flatten.Nodup := hp.nodup_iff.2 List.nodup_range
  obtain ⟨hs, e, ha⟩ := domains_single hn ty sig (l :: ls) hlt
  have hm := mapM_after hne ha
  have hsum := sum_rows ha
  cases ha with
  | cons h1 h2 =>
    rename_i h hs
    simp only [List.zipWith_cons_cons] at hm hsum
    set rows := sumRows n (((h, lastType ty l) :: List.zipWith (fun l h => (h, lastType ty l)) ls hs).map
      fun p => (p.1 p.2).cop) with hrows
    have hlen : rows.length = n := by simp [hrows, sumRows]
    have hd := h1.2.2
    obtain ⟨s, hs'⟩ := Option.ne_none_iff_exists'.1 (mt List.getLast?_eq_none_iff.1 (hne l (by simp)))
    have hty : lastType ty l = ty s := by unfold lastType; rw [hs', Option.getD_some]
    have hdata := hd s hs'
    have hw : ∀ c, write (Function.update h (lastType ty l)
        { h (lastType ty l) with data := rows, cop := rows.map fun _ => 0 } c) =
        (Function.update h (lastType ty l)
          { h (lastType ty l) with data := rows, cop := rows.map fun _ => 0 } c,
        if c = lastType ty l then some rows else none) := by
      intro c
      by_cases hc : c = lastType ty l
      · subst hc
        rcases hr : rows with _ | ⟨a, _ | ⟨b, r⟩⟩
        · rw [hr] at hlen; simp at hlen; omega
        · rw [hr] at hlen; simp at hlen; omega
        · simp [write]
      · have : (h c).data = [] := by rw [hdata c]; simp [single, ← hty, hc]
        simp [write, hc, this]
    have hall : ((List.finRange 4).all fun c => rowExists (Function.update h (lastType ty l)
        { h (lastType ty l) with data := rows, cop := rows.map fun _ => 0 } c)) = true := by
      rw [List.all_eq_true]
      intro c _
      by_cases hc : c = lastType ty l
      · subst hc
        simp only [rowExists, Function.update_self, hlen]
        rw [show (n == 1) = false by simp; omega]
        simp
      · have : (h c).data = [] := by rw [hdata c]; simp [single, ← hty, hc]
        simp [rowExists, hc, this]
    refine ⟨fun c => if c = lastType ty l then some rows else none, ?_, fun c hc => by simp [hc],
      rows, by simp, hlen, ?_⟩
    · unfold profile
      rw [e]
      simp only
      unfold finish
      rw [hm]
      simp only
      rw [← hrows]
      unfold collect writeAll
      rw [if_pos hall]
      simp only [hw]
    · intro l' hl' i hi
      have hin := hlt l' hl' i hi
      rw [hrows, sumRows, List.getElem?_map, List.getElem?_range hin, Option.map_some]
      congr 1
      rw [hsum i]
      have e2 : ((l :: ls).map fun l => if i ∈ l ∧ ty i = lastType ty l then sig i else 0) =
          (l :: ls).map fun l => if i ∈ l then (if ty i = lastType ty l then sig i else 0) else 0 := by
        refine List.map_congr_left fun l'' _ => ?_
        by_cases h1 : i ∈ l'' <;> simp [h1]
      rw [e2]
      exact sum_blocks (fun l => if ty i = lastType ty l then sig i else 0) i _ l' hl' hi hnd

/-- C147, what holds: if all shots have one trace of the same component, the profile of this component holds the trace of each
shot, for every number of domains and every distribution of the shots. Missing: shots of several components
(`C147_components_violated`) and several traces for a shot (`C147_supershots_violated`). -/
theorem C147_one_component_partial {n : ℕ} (hn : 1 < n) (t : Fin 4) (sig : ℕ → T) {sched : List (List ℕ)}
    (hne : ∀ l ∈ sched, l ≠ []) (hp : sched.flatten.Perm (List.range n)) :
    profile n (fun s c => if c = t then [sig s] else []) sched =
      .ok fun c => if c = t then some ((List.range n).map sig) else none := by
  cases sched with
  | nil =>
    have := hp.length_eq
    simp at this
    omega
  | cons l ls =>
    obtain ⟨files, e, h1, rows, h2, hlen, h3⟩ := profile_single hn (fun _ => t) sig hne hp
    have hl : ∀ l, lastType (fun _ => t) l = t := fun _ => rfl
    rw [show (fun s c => if c = t then [sig s] else []) = single (fun _ => t) sig from rfl, e]
    congr 1
    funext c
    by_cases hc : c = t
    · subst hc
      rw [if_pos rfl]
      rw [hl] at h2
      rw [h2]
      congr 1
      apply List.ext_getElem?
      intro i
      by_cases hi : i < n
      · have : i ∈ (l :: ls).flatten := hp.mem_iff.2 (by simpa using hi)
        obtain ⟨l', hl', hi'⟩ := List.mem_flatten.1 this
        rw [h3 l' hl' i hi', if_pos (hl l').symm, List.getElem?_map, List.getElem?_range hi]
        rfl
      · rw [List.getElem?_eq_none (by omega), List.getElem?_eq_none (by simp; omega)]
    · rw [if_neg hc]
      exact h1 c hc

end

/-- Example: four shots on two domains, in an order that is not that of the rows. -/
example : profile 4 (fun s c => if c = 2 then [((s : ℚ) + 1)] else []) [[2, 0], [3, 1]] =
    .ok fun c => if c = 2 then some ((List.range 4).map fun s => ((s : ℚ) + 1)) else none :=
  C147_one_component_partial (by decide) 2 (fun s : ℕ => (s : ℚ) + 1) (by decide) (by decide)

/-- C147 fails if the shots have different components. A pressure source at shot 0 and a force at shot 1: on one domain the
signal of shot 0 is in no file; on two domains the signal of the force is in the file of pressure sources. -/
theorem C147_components_violated :
    (∃ files, profile 2 (single (fun s => if s = 0 then 0 else 2) fun s => (s : ℚ) + 1) [[0, 1]] = .ok files ∧
      files 0 = none ∧ files 2 = some [0, 2]) ∧
    ∃ files, profile 2 (single (fun s => if s = 0 then 0 else 2) fun s => (s : ℚ) + 1) [[0], [1]] = .ok files ∧
      files 0 = some [1, 2] ∧ files 2 = none := by
  refine ⟨⟨_, rfl, ?_⟩, _, rfl, ?_⟩ <;> decide +kernel

/-- C147 fails for supershots: if each of two shots has two traces of the same component, the profile is written and contains
zeros only. If the two traces have different components, the profile has the first component only. -/
theorem C147_supershots_violated :
    (∃ files, profile 2 (fun s c => if c = 0 then [(s : ℚ) + 1, s + 5] else []) [[0], [1]] = .ok files ∧
      files 0 = some [0, 0]) ∧
    ∃ files, profile 2 (fun s c => if c = 0 then [(s : ℚ) + 1] else if c = 2 then [(s : ℚ) + 5] else [])
      [[0], [1]] = .ok files ∧ files 0 = some [1, 2] ∧ files 2 = none := by
  refine ⟨⟨_, rfl, ?_⟩, _, rfl, ?_⟩ <;> decide +kernel

end Verif.Profile
