import Verif.Model.Config
import Mathlib.Data.List.Basic
import Mathlib.Data.List.Nodup
import Mathlib.Data.List.Induction
/-!
# C08–C11, C74: the configuration
-/
namespace Verif.Config

/-! ### Specification -/

/-- A user-visible change of a configuration. -/
inductive Op
  /-- `add2config(key, value, overwrite)` -/
  | add (key value : Str) (overwrite : Bool)
  /-- `readFromFile(file, overwrite)` -/
  | read (lines : List Str) (overwrite : Bool)

/-- What the code does for a history of operations, starting from an empty configuration. -/
def run (ops : List Op) : Config :=
  ops.foldl (fun c op => match op with
    | .add k v ow => c.add2config k v ow
    | .read ls ow => c.readFromFile ls ow) {}

/-- Abstract configuration: a partial function from lower-case names to values. -/
abbrev AMap := Str → Option Str

/-- Abstract assignment. -/
def AMap.set (m : AMap) (k v : Str) (overwrite : Bool) : AMap :=
  fun k' => if k' = k then (if overwrite then some v else (m k).or (some v)) else m k'

/-- An item of a configuration file as documented (Configuration.cpp:30-41): an assignment
`name=value` optionally followed by `# comment`, a comment line, or a line without `=`. -/
inductive Item
  | assign (name value : Str) (comment : Option Str)
  | comment (text : Str)
  | blank (text : Str)

/-- The text of an item. -/
def Item.render : Item → Str
  | .assign n v none => n ++ '=' :: v
  | .assign n v (some t) => n ++ '=' :: (v ++ '#' :: t)
  | .comment t => '#' :: t
  | .blank t => t

/-- Items as documented: names contain neither `=` nor `#`, values no `#`, other lines no `=`. -/
def Item.Valid : Item → Prop
  | .assign n v _ => '=' ∉ n ∧ '#' ∉ n ∧ '#' ∉ v
  | .comment _ => True
  | .blank t => '=' ∉ t

/-- The assignment an item makes. -/
def Item.binding : Item → Option (Str × Str)
  | .assign n v _ => some (lower n, v)
  | _ => none

/-- The value of the last assignment to `k`. -/
def lastBinding (k : Str) (bs : List (Str × Str)) : Option Str :=
  (bs.reverse.find? (fun p => p.1 = k)).map Prod.snd

/-! ### Refinement to a map -/

private theorem lookup_filter_ne (m : List (Str × Str)) {k k' : Str} (h : k' ≠ k) :
    (m.filter (fun p => p.1 ≠ k)).lookup k' = m.lookup k' := by
  induction m with
  | nil => rfl
  | cons p m ih =>
    obtain ⟨a, b⟩ := p
    by_cases hak : a = k
    · subst hak
      have hne : (k' == a) = false := by simpa using h
      simp [List.lookup_cons, hne] at ih ⊢
      exact ih
    · by_cases hka : k' = a
      · subst hka; simp [List.filter_cons, hak, List.lookup_cons]
      · have hne : (k' == a) = false := by simpa using hka
        simp [List.filter_cons, hak, List.lookup_cons, hne] at ih ⊢
        exact ih

private theorem find_add2map (c : Config) (k v : Str) (ow : Bool) :
    (c.add2map k v ow).find = AMap.set c.find k v ow := by
  funext k'
  unfold Config.add2map AMap.set
  by_cases hk : k' = k
  · subst hk
    cases hf : c.find k' with
    | none => simp [Config.find, List.lookup_cons]
    | some w => cases ow <;> simp [Config.find, List.lookup_cons] <;> exact hf
  · have hne : (k' == k) = false := by simpa using hk
    cases hf : c.find k with
    | none => simp [Config.find, List.lookup_cons, hk, hne]
    | some w =>
      cases ow
      · simp [hk]
      · have := lookup_filter_ne c.map hk
        simp [Config.find, List.lookup_cons, hk, hne] at this ⊢
        exact this

/-- C08, refinement step: an addition changes exactly the entry of the lower-cased name, and
without overwrite only if there was none. -/
theorem C08_add_refines (c : Config) (k v : Str) (ow : Bool) :
    (c.add2config k v ow).find = AMap.set c.find (lower k) v ow := find_add2map c (lower k) v ow

private def Inv (c : Config) : Prop := c.order.Nodup ∧ ∀ k, k ∈ c.order ↔ (c.find k).isSome

private theorem inv_add2map {c : Config} (h : Inv c) (k v : Str) (ow : Bool) :
    Inv (c.add2map k v ow) := by
  obtain ⟨hn, hm⟩ := h
  have hfind := find_add2map c k v ow
  constructor
  · unfold Config.add2map
    cases hf : c.find k with
    | none =>
      have : k ∉ c.order := by rw [hm, hf]; simp
      simp only
      rw [List.nodup_append]
      refine ⟨hn, by simp, ?_⟩
      intro a ha b hb
      simp at hb; subst hb
      intro hab; subst hab; exact this ha
    | some w => cases ow <;> simpa using hn
  · intro k'
    rw [hfind]
    have horder : k' ∈ (c.add2map k v ow).order ↔ k' ∈ c.order ∨ k' = k := by
      unfold Config.add2map
      cases hf : c.find k with
      | none => simp
      | some w =>
        have : k ∈ c.order := by rw [hm, hf]; simp
        cases ow <;> simp <;> (intro h; subst h; exact this)
    rw [horder, hm]
    unfold AMap.set
    by_cases hk : k' = k
    · subst hk
      cases ow <;> cases c.find k' <;> simp
    · simp [hk]

private theorem inv_read {c : Config} (h : Inv c) (lines : List Str) (ow : Bool) :
    Inv (c.readFromFile lines ow) := by
  unfold Config.readFromFile
  suffices ∀ (ls : List Str) (s : Config × Bool), Inv s.1 → Inv (ls.foldl (stepLine ow) s).1 from
    this lines (c, false) h
  intro ls
  induction ls with
  | nil => intro s hs; exact hs
  | cons l ls ih =>
    intro s hs
    apply ih
    unfold stepLine
    cases parseLine l with
    | none => exact hs
    | some p => exact inv_add2map hs _ _ _

private theorem inv_run (ops : List Op) : Inv (run ops) := by
  unfold run
  suffices ∀ (ops : List Op) (c : Config), Inv c → Inv (ops.foldl (fun c op => match op with
      | .add k v ow => c.add2config k v ow
      | .read ls ow => c.readFromFile ls ow) c) from
    this ops {} ⟨by simp, by simp [Config.find]⟩
  intro ops
  induction ops with
  | nil => intro c h; exact h
  | cons op ops ih =>
    intro c h
    apply ih
    cases op with
    | add k v ow => exact inv_add2map h _ _ _
    | read ls ow => exact inv_read h _ _

/-- C08: after every history of file reads and additions the list of names has no duplicates
and contains exactly the stored names. -/
theorem C08_insertion_order (ops : List Op) :
    (run ops).order.Nodup ∧ ∀ k, k ∈ (run ops).order ↔ (run ops).find k ≠ none := by
  obtain ⟨h1, h2⟩ := inv_run ops
  refine ⟨h1, fun k => ?_⟩
  rw [h2, Option.isSome_iff_ne_none]

/-- C08: hence printing a configuration never fails and prints every stored pair. -/
theorem C08_print_total (ops : List Op) :
    ∃ r, (run ops).print = .ok r ∧ ∀ k v, (k, v) ∈ r ↔ (run ops).find k = some v := by
  obtain ⟨h1, h2⟩ := inv_run ops
  have key : ∀ (ks : List Str), (∀ k ∈ ks, ((run ops).find k).isSome) →
      ∃ r, ks.foldr (fun k acc => do
        let r ← acc
        match (run ops).find k with
        | none => Out.err
        | some v => pure ((k, v) :: r)) (Out.ok []) = .ok r ∧
        ∀ k v, (k, v) ∈ r ↔ k ∈ ks ∧ (run ops).find k = some v := by
    intro ks
    induction ks with
    | nil => intro _; exact ⟨[], rfl, by simp⟩
    | cons a ks ih =>
      intro hk
      obtain ⟨r, hr, hr2⟩ := ih (fun k h => hk k (List.mem_cons_of_mem _ h))
      obtain ⟨w, hw⟩ := Option.isSome_iff_exists.mp (hk a List.mem_cons_self)
      refine ⟨(a, w) :: r, ?_, ?_⟩
      · rw [List.foldr_cons, hr]
        simp [hw]
      · intro k v
        rw [List.mem_cons, hr2, List.mem_cons, Prod.mk.injEq]
        constructor
        · rintro (⟨rfl, rfl⟩ | ⟨h, h'⟩)
          · exact ⟨.inl rfl, hw⟩
          · exact ⟨.inr h, h'⟩
        · rintro ⟨rfl | h, h'⟩
          · rw [hw] at h'; injection h' with h'; exact .inl ⟨rfl, h'.symm⟩
          · exact .inr ⟨h, h'⟩
  obtain ⟨r, hr, hr2⟩ := key _ (fun k hk => (h2 k).mp hk)
  refine ⟨r, hr, fun k v => ?_⟩
  rw [hr2]
  constructor
  · exact fun h => h.2
  · intro h; exact ⟨(h2 k).mpr (by rw [h]; rfl), h⟩

private theorem step_none {ow : Bool} {s : Config × Bool} {l : Str} (h : parseLine l = none) :
    stepLine ow s l = s := by unfold stepLine; rw [h]

private theorem step_some {ow : Bool} {s : Config × Bool} {l n v : Str}
    (h : parseLine l = some (n, v)) :
    ∃ v' f, stepLine ow s l = (s.1.add2map n v' ow, f) := by
  unfold stepLine; rw [h]; exact ⟨_, _, rfl⟩

private theorem step_ne_nz {ow : Bool} {s : Config × Bool} {l n v : Str}
    (h : parseLine l = some (n, v)) (hne : n ≠ "nz".toList) :
    (stepLine ow s l).1 = s.1.add2map n v ow := by
  unfold stepLine; rw [h]
  simp only [decide_eq_false hne, Bool.false_and]
  rfl

/-- C08: reading a further file without overwrite never changes an existing entry. -/
theorem C08_read_keeps_existing (c : Config) (lines : List Str) {k v : Str}
    (h : c.find k = some v) : (c.readFromFile lines false).find k = some v := by
  unfold Config.readFromFile
  suffices ∀ (ls : List Str) (s : Config × Bool), s.1.find k = some v →
      (ls.foldl (stepLine false) s).1.find k = some v from this lines (c, false) h
  intro ls
  induction ls with
  | nil => intro s hs; exact hs
  | cons l ls ih =>
    intro s hs
    apply ih
    cases hp : parseLine l with
    | none => rw [step_none hp]; exact hs
    | some p =>
      obtain ⟨v', f, e⟩ := step_some (ow := false) (s := s) hp
      rw [e, find_add2map]
      unfold AMap.set
      split
      · rename_i hk; subst hk; simp [hs]
      · exact hs

/-! ### Parsing documented lines -/

private theorem firstPos_append {ch : Char} {a b : Str} (h : ch ∉ a) :
    firstPos ch (a ++ ch :: b) = some a.length := by
  unfold firstPos
  induction a with
  | nil => simp [List.findIdx?_cons]
  | cons x a ih =>
    have hx : x ≠ ch := fun e => h (by simp [e])
    have := ih (fun e => h (List.mem_cons_of_mem _ e))
    simp [List.findIdx?_cons, hx, this]

private theorem firstPos_none {ch : Char} {a : Str} (h : ch ∉ a) : firstPos ch a = none := by
  unfold firstPos
  rw [List.findIdx?_eq_none_iff]
  intro x hx
  simp
  intro e; subst e; exact h hx

private theorem take_name (n r : Str) : (n ++ '=' :: r).take n.length = n := by simp

private theorem drop_name (n r : Str) : (n ++ '=' :: r).drop (n.length + 1) = r := by
  have : n ++ '=' :: r = (n ++ ['=']) ++ r := by simp
  rw [this]
  have h : (n ++ ['=']).length = n.length + 1 := by simp
  rw [← h, List.drop_left]

private theorem parse_item (it : Item) (hv : it.Valid) : parseLine it.render = it.binding := by
  cases it with
  | comment t => simp [Item.render, Item.binding, parseLine, firstPos, List.findIdx?_cons]
  | blank t =>
    simp only [Item.render, Item.binding, parseLine, firstPos_none hv]
    cases firstPos '#' t with
    | none => rfl
    | some p => cases p <;> rfl
  | assign n v cm =>
    obtain ⟨h1, h2, h3⟩ := hv
    cases cm with
    | none =>
      have hh : firstPos '#' (n ++ '=' :: v) = none := by
        apply firstPos_none
        simp only [List.mem_append, List.mem_cons, not_or]
        exact ⟨h2, by decide, h3⟩
      unfold Item.render Item.binding parseLine
      simp only [hh, firstPos_append h1]
      have e : (n ++ '=' :: v).length = n.length + 1 + v.length := by simp; omega
      rw [take_name, drop_name, e, if_pos (by omega)]
      have e3 : n.length + 1 + v.length - (n.length + 1) = v.length := by omega
      rw [e3, List.take_length]
    | some t =>
      have he : n ++ '=' :: (v ++ '#' :: t) = (n ++ '=' :: v) ++ '#' :: t := by simp
      have hh : firstPos '#' (n ++ '=' :: (v ++ '#' :: t)) = some (n.length + 1 + v.length) := by
        rw [he, firstPos_append]
        · simp; omega
        · simp only [List.mem_append, List.mem_cons, not_or]
          exact ⟨h2, by decide, h3⟩
      have e2 : n.length + 1 + v.length = (n.length + v.length) + 1 := by omega
      rw [e2] at hh
      simp only [Item.render, Item.binding, parseLine, hh, firstPos_append h1]
      rw [if_pos (by omega)]
      have e3 : n.length + v.length + 1 - (n.length + 1) = v.length := by omega
      rw [e3, take_name, drop_name, List.take_left]

private theorem lastBinding_append (k : Str) (bs : List (Str × Str)) (p : Str × Str) :
    lastBinding k (bs ++ [p]) = if p.1 = k then some p.2 else lastBinding k bs := by
  unfold lastBinding
  simp only [List.reverse_append, List.reverse_cons, List.reverse_nil, List.nil_append,
    List.singleton_append, List.find?_cons]
  by_cases h : p.1 = k <;> simp [h]

/-- C08: a configuration constructed from a documented file answers a lookup of any name
other than `NZ`, in any letter case, with the value of the last line assigning that name
(and reports it missing if there is none). `parse` is the conversion to the requested type. -/
theorem C08_last_wins {R : Type} (parse : Str → R) (items : List Item) (hv : ∀ it ∈ items, it.Valid)
    (name : Str) (hnz : lower name ≠ "nz".toList) :
    (ofFile (items.map Item.render)).get parse name =
      match lastBinding (lower name) (items.filterMap Item.binding) with
      | none => .err
      | some v => .ok (parse v) := by
  have key : ∀ (items : List Item), (∀ it ∈ items, it.Valid) →
      ((items.map Item.render).foldl (stepLine true) (({} : Config), false)).1.find (lower name)
        = lastBinding (lower name) (items.filterMap Item.binding) := by
    intro items
    induction items using List.reverseRecOn with
    | nil => intro _; rfl
    | append_singleton items it ih =>
      intro hv
      have ih := ih (fun i hi => hv i (by simp [hi]))
      rw [List.map_append, List.foldl_append, List.filterMap_append]
      simp only [List.map_cons, List.map_nil, List.foldl_cons, List.foldl_nil]
      generalize hs : (items.map Item.render).foldl (stepLine true) (({} : Config), false) = s at *
      have hp := parse_item it (hv it (by simp))
      cases hb : it.binding with
      | none =>
        rw [hb] at hp
        rw [step_none hp]
        simp only [List.filterMap_cons, hb, List.filterMap_nil, List.append_nil]
        exact ih
      | some p =>
        rw [hb] at hp
        simp only [List.filterMap_cons, hb, List.filterMap_nil]
        rw [lastBinding_append]
        by_cases hk : lower name = p.1
        · rw [if_pos hk.symm, step_ne_nz hp (by rw [← hk]; exact hnz), find_add2map]
          unfold AMap.set
          rw [if_pos hk, if_pos rfl]
        · obtain ⟨v', f, e⟩ := step_some (ow := true) (s := s) hp
          rw [if_neg (fun e => hk e.symm), e, find_add2map]
          unfold AMap.set
          rw [if_neg hk]
          exact ih
  have := key items hv
  unfold ofFile Config.readFromFile Config.get
  rw [this]
  rfl

/-- Case: `NX=5 # columns`, a comment, `nx=7` and a blank line; lookup of `Nx`. -/
example :
    let items : List Item := [.assign "NX".toList "5 ".toList (some " columns".toList),
      .comment " x=1".toList, .assign "nx".toList "7".toList none, .blank []]
    (∀ it ∈ items, it.Valid) ∧
    (ofFile (items.map Item.render)).get token "Nx".toList = .ok "7".toList := by
  refine ⟨?_, by decide⟩
  intro it hit
  simp at hit
  rcases hit with rfl | rfl | rfl | rfl <;> simp [Item.Valid] <;> decide

/-! ### C09: comments -/

/-- C09 fails: two lines that differ only after the `#` give different configurations; the
comment text `see a=b` becomes an entry of its own. -/
theorem C09_comment_violated :
    (ofFile ["NX #see a=b".toList]).get token "nx #see a".toList = .ok "b".toList ∧
    (ofFile ["NX #see a".toList]).get token "nx #see a".toList = .err := by decide

/-- C09, what holds: if the text before the `#` is empty or contains the `=`, then the text
after the `#` has no influence. Missing for the full property: lines with text but no `=`
before the comment. -/
theorem C09_comment_ignored_partial (pre t₁ t₂ : Str) (h : pre = [] ∨ '=' ∈ pre) (hp : '#' ∉ pre)
    (c : Config) (before after : List Str) (ow : Bool) :
    c.readFromFile (before ++ (pre ++ '#' :: t₁) :: after) ow =
      c.readFromFile (before ++ (pre ++ '#' :: t₂) :: after) ow := by
  have hline : parseLine (pre ++ '#' :: t₁) = parseLine (pre ++ '#' :: t₂) := by
    rcases h with rfl | h
    · simp [parseLine, firstPos, List.findIdx?_cons]
    · obtain ⟨n, v, rfl, hn⟩ : ∃ n v, pre = n ++ '=' :: v ∧ '=' ∉ n := by
        have := List.append_of_mem h
        clear hp
        induction pre with
        | nil => simp at h
        | cons x pre ih =>
          by_cases hx : x = '='
          · exact ⟨[], pre, by simp [hx], by simp⟩
          · have h' : '=' ∈ pre := by
              rcases List.mem_cons.mp h with e | e
              · exact absurd e.symm hx
              · exact e
            obtain ⟨n, v, e, hn⟩ := ih h' (List.append_of_mem h')
            refine ⟨x :: n, v, by simp [e], ?_⟩
            simp only [List.mem_cons, not_or]
            exact ⟨fun e => hx e.symm, hn⟩
      have h2 : '#' ∉ n := fun e => hp (by simp [e])
      have h3 : '#' ∉ v := fun e => hp (by simp [e])
      have a := parse_item (.assign n v (some t₁)) ⟨hn, h2, h3⟩
      have b := parse_item (.assign n v (some t₂)) ⟨hn, h2, h3⟩
      simp only [Item.render, Item.binding] at a b
      have e : ∀ t, n ++ '=' :: v ++ '#' :: t = n ++ '=' :: (v ++ '#' :: t) := by intro t; simp
      rw [e, e, a, b]
  unfold Config.readFromFile
  rw [List.foldl_append, List.foldl_append, List.foldl_cons, List.foldl_cons]
  have : ∀ s, stepLine ow s (pre ++ '#' :: t₁) = stepLine ow s (pre ++ '#' :: t₂) := by
    intro s; unfold stepLine; rw [hline]
  rw [this]

example : (ofFile ["NX=5 # first".toList]).get token "NX".toList =
    (ofFile ["NX=5 # b=3".toList]).get token "NX".toList := by decide

/-! ### C10: defaults -/

/-- The operation assigns the lower-case name `k`. -/
def Op.assigns (k : Str) : Op → Prop
  | .add key _ _ => lower key = k
  | .read lines _ => ∃ l ∈ lines, ∃ v, parseLine l = some (k, v)

private theorem read_isSome (c : Config) (ls : List Str) (ow : Bool) (k : Str) :
    ((c.readFromFile ls ow).find k).isSome ↔
      (c.find k).isSome ∨ ∃ l ∈ ls, ∃ v, parseLine l = some (k, v) := by
  unfold Config.readFromFile
  suffices ∀ (ls : List Str) (s : Config × Bool),
      ((ls.foldl (stepLine ow) s).1.find k).isSome ↔
        (s.1.find k).isSome ∨ ∃ l ∈ ls, ∃ v, parseLine l = some (k, v) from this ls (c, false)
  intro ls
  induction ls with
  | nil => intro s; simp
  | cons l ls ih =>
    intro s
    rw [List.foldl_cons, ih]
    cases hp : parseLine l with
    | none => rw [step_none hp]; simp [hp]
    | some p =>
      obtain ⟨n, v⟩ := p
      obtain ⟨v', f, e⟩ := step_some (ow := ow) (s := s) hp
      rw [e]
      simp only [find_add2map, AMap.set, List.mem_cons, exists_eq_or_imp, hp, Option.some.injEq,
        Prod.mk.injEq]
      by_cases hk : k = n
      · subst hk
        simp
        left
        cases ow <;> cases s.1.find k <;> simp
      · simp [hk, fun e => hk (Eq.symm e), Ne.symm hk]

/-- A name is present exactly if some operation of the history assigned it. -/
theorem C10_present_iff_assigned (ops : List Op) (k : Str) :
    ((run ops).find k).isSome ↔ ∃ op ∈ ops, op.assigns k := by
  unfold run
  suffices ∀ (ops : List Op) (c : Config), ((ops.foldl (fun c op => match op with
      | .add k v ow => c.add2config k v ow
      | .read ls ow => c.readFromFile ls ow) c).find k).isSome ↔
        (c.find k).isSome ∨ ∃ op ∈ ops, op.assigns k by
    have := this ops {}
    rw [this]
    simp [Config.find]
  intro ops
  induction ops with
  | nil => intro c; simp
  | cons op ops ih =>
    intro c
    rw [List.foldl_cons, ih]
    cases op with
    | add key v ow =>
      simp only [Config.add2config, find_add2map, AMap.set, List.mem_cons, exists_eq_or_imp,
        Op.assigns]
      by_cases hk : k = lower key
      · subst hk
        cases ow <;> cases c.find (lower key) <;> simp
      · simp [hk, fun e => hk (Eq.symm e), Ne.symm hk]
    | read ls ow =>
      simp only [read_isSome, List.mem_cons, exists_eq_or_imp, Op.assigns, or_assoc]

/-- C10: for every history, `get` raises an error and `getAndCatch` returns the caller's
default exactly if no operation assigned the name in any letter case; otherwise both return
the same converted value, whatever the default is. -/
theorem C10_default_iff_absent {R : Type} (parse : Str → R) (ops : List Op) (name : Str) :
    ((¬ ∃ op ∈ ops, op.assigns (lower name)) →
      (run ops).get parse name = .err ∧ ∀ d, (run ops).getAndCatch parse name d = d) ∧
    ((∃ op ∈ ops, op.assigns (lower name)) →
      ∃ r, (run ops).get parse name = .ok r ∧ ∀ d, (run ops).getAndCatch parse name d = r) := by
  have hp := C10_present_iff_assigned ops (lower name)
  unfold Config.get Config.getAndCatch
  constructor
  · intro h
    have : (run ops).find (lower name) = none := by
      cases hf : (run ops).find (lower name) with
      | none => rfl
      | some v => exact absurd (hp.mp (by simp [hf])) h
    rw [this]; exact ⟨rfl, fun _ => rfl⟩
  · intro h
    obtain ⟨v, hv⟩ := Option.isSome_iff_exists.mp (hp.mpr h)
    rw [hv]; exact ⟨_, rfl, fun _ => rfl⟩

example : (run [.add "A".toList "1".toList false]).getAndCatch token "a".toList "9".toList
      = "1".toList ∧
    (run [.add "A".toList "1".toList false]).getAndCatch token "b".toList "9".toList
      = "9".toList := by decide

/-! ### C11: two-dimensional configurations -/

/-- C11 fails: a file that declares dimension 2D in the documented form `KEY=VALUE` keeps its
NZ, because the value is compared with `2D` followed by exactly 14 blanks. -/
theorem C11_2D_violated :
    (ofFile ["dimension=2D".toList, "NZ=100".toList]).get token "dimension".toList = .ok "2D".toList ∧
    (ofFile ["dimension=2D".toList, "NZ=100".toList]).get token "NZ".toList = .ok "100".toList := by
  decide

/-- C11, what holds: with exactly 14 blanks after `2D`, every NZ line behind the dimension
line yields 1, whatever else the file contains. Missing for the full property: other
spacings. -/
theorem C11_2D_partial (before mid after : List Str) (dimLine nzLine : Str) {w : Str}
    (hd : parseLine dimLine = some ("dimension".toList, lit2D))
    (hz : parseLine nzLine = some ("nz".toList, w)) :
    (ofFile (before ++ dimLine :: (mid ++ nzLine :: after))).get token "NZ".toList
      = .ok "1".toList := by
  have hflag : ∀ (ls : List Str) (s : Config × Bool), s.2 = true →
      (ls.foldl (stepLine true) s).2 = true ∧
      (s.1.find "nz".toList = some ['1'] → (ls.foldl (stepLine true) s).1.find "nz".toList = some ['1']) := by
    intro ls
    induction ls with
    | nil => intro s hs; exact ⟨hs, fun h => h⟩
    | cons l ls ih =>
      intro s hs
      rw [List.foldl_cons]
      have h1 : (stepLine true s l).2 = true := by
        unfold stepLine
        cases parseLine l with
        | none => exact hs
        | some p => simp [hs]
      refine ⟨(ih _ h1).1, fun h => (ih _ h1).2 ?_⟩
      unfold stepLine
      cases parseLine l with
      | none => exact h
      | some p =>
        simp only [find_add2map, AMap.set, hs, Bool.true_or, Bool.and_true]
        by_cases hk : "nz".toList = p.1
        · rw [if_pos hk]; simp [hk.symm]
        · rw [if_neg hk]; exact h
  have : (ofFile (before ++ dimLine :: (mid ++ nzLine :: after))).find "nz".toList = some ['1'] := by
    unfold ofFile Config.readFromFile
    rw [List.foldl_append, List.foldl_cons, List.foldl_append, List.foldl_cons]
    generalize before.foldl (stepLine true) (({} : Config), false) = s
    have h1 : (stepLine true s dimLine).2 = true := by simp [stepLine, hd]
    have h2 := (hflag mid _ h1).1
    generalize mid.foldl (stepLine true) (stepLine true s dimLine) = s2 at *
    have h3 : (stepLine true s2 nzLine).2 = true := by simp [stepLine, hz, h2]
    apply (hflag after _ h3).2
    simp [stepLine, hz, h2, find_add2map, AMap.set]
  unfold Config.get
  have e : lower "NZ".toList = "nz".toList := by decide
  rw [e, this]
  decide

example : parseLine "dimension=2D              # 2D or 3D".toList
      = some ("dimension".toList, lit2D) ∧
    parseLine "NZ=100".toList = some ("nz".toList, "100".toList) := by decide

/-! ### C74: string values -/

private theorem token_word {pre w post : Str} (hpre : ∀ ch ∈ pre, ch.isWhitespace = true)
    (hw : ∀ ch ∈ w, ch.isWhitespace = false) (hne : w ≠ [])
    (hpost : ∀ ch ∈ post.head?, ch.isWhitespace = true) : token (pre ++ (w ++ post)) = w := by
  unfold token
  rw [List.dropWhile_append_of_pos hpre]
  obtain ⟨a, w', rfl⟩ := List.exists_cons_of_ne_nil hne
  rw [List.cons_append, List.dropWhile_cons_of_neg (by simp [hw a List.mem_cons_self]),
    ← List.cons_append, List.takeWhile_append_of_pos (by intro ch h; simp [hw ch h])]
  cases post with
  | nil => simp
  | cons b post =>
    rw [List.takeWhile_cons_of_neg (by simp [hpost b (by simp)])]
    simp

/-- C74, what holds: a word stored as value of a parameter, with any blanks around it, is read back
exactly, under every spelling of the name, by both getters. Missing for the full property: values
that contain blanks. -/
theorem C74_word_partial (ops : List Op) (k k' : Str) (hk : lower k' = lower k) (pre w post : Str)
    (hpre : ∀ ch ∈ pre, ch.isWhitespace = true) (hw : ∀ ch ∈ w, ch.isWhitespace = false)
    (hne : w ≠ []) (hpost : ∀ ch ∈ post.head?, ch.isWhitespace = true) (dflt : Str) :
    (run (ops ++ [.add k (pre ++ (w ++ post)) true])).get token k' = .ok w ∧
    (run (ops ++ [.add k (pre ++ (w ++ post)) true])).getAndCatch token k' dflt = w := by
  have e : (run (ops ++ [.add k (pre ++ (w ++ post)) true])).find (lower k') =
      some (pre ++ (w ++ post)) := by
    unfold run
    rw [List.foldl_append]
    simp only [List.foldl_cons, List.foldl_nil, Config.add2config, find_add2map, AMap.set, hk, if_true]
  unfold Config.get Config.getAndCatch
  rw [e]
  simp only [token_word hpre hw hne hpost, and_self]

example : (run ([] ++ [.add "File".toList (" ".toList ++ ("data".toList ++ " ".toList)) true])).get token
    "FILE".toList = .ok "data".toList := by decide

/-- C74 fails for values with a blank inside, which are cut at the blank without any message, and
for names followed by a blank, which are not found. -/
theorem C74_blank_violated :
    (run [.add "filename".toList "my data".toList true]).get token "filename".toList
      = .ok "my".toList ∧
    (ofFile ["filename=my data".toList]).get token "filename".toList = .ok "my".toList ∧
    (ofFile ["NX =5".toList]).get token "NX".toList = .err := by decide

end Verif.Config
