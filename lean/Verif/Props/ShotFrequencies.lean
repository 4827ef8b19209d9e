import Verif.Model.ShotFrequencies
import Verif.Props.ShotSelection
import Mathlib.Tactic.FieldSimp
import Mathlib.Tactic.LinearCombination
import Mathlib.Tactic.Linarith
/-!
# C161: frequencies of encoded shots
-/
namespace Verif.ShotFreq
open Verif.Shots

/-- Indices of the shots with number `t`. -/
private def mem (t : Int) (nos : List (Nat × Int)) : List Nat := (nos.filter fun x => x.2 = t).map Prod.fst

private theorem draw_spec (hist : List Nat) : ∀ (rs : List Nat) {k : Nat} {rs' : List Nat},
    draw hist rs = .ok (some (k, rs')) → hist[k]? = some 0 := by
  intro rs
  induction rs with
  | nil => intro k rs' h; simp [draw] at h
  | cons r rs ih =>
    intro k rs' h
    unfold draw at h
    by_cases h0 : hist.length = 0
    · rw [if_pos h0] at h; cases h
    · rw [if_neg h0] at h
      cases hc : hist[r % hist.length]? with
      | none => rw [hc] at h; cases h
      | some c =>
        rw [hc] at h
        simp only at h
        by_cases hp : c > 0
        · rw [if_pos hp] at h; exact ih h
        · rw [if_neg hp] at h
          injection h with h; injection h with h; injection h with h1 h2
          subst h1
          rw [hc]; congr 1; omega

private theorem draw_safe {hist : List Nat} (hh : 0 < hist.length) : ∀ rs : List Nat,
    ∃ o, draw hist rs = .ok o := by
  intro rs
  induction rs with
  | nil => exact ⟨none, rfl⟩
  | cons r rs ih =>
    unfold draw
    rw [if_neg (by omega), List.getElem?_eq_getElem (Nat.mod_lt _ hh)]
    simp only
    by_cases hp : hist[r % hist.length]'(Nat.mod_lt _ hh) > 0
    · rw [if_pos hp]; exact ih
    · rw [if_neg hp]; exact ⟨_, rfl⟩

private theorem members_spec (f : Nat → ℚ) (t : Int) : ∀ (l : List (Nat × Int)) (st st' : State),
    members f t l st = .ok (some st') → (l.map Prod.fst).Nodup → st.jf ≤ st.uniq.length →
    ∃ ks : List Nat, ks.Nodup ∧ (∀ k ∈ ks, st.hist[k]? = some 0) ∧ (mem t l).map st'.fc = ks.map f ∧
      (∀ i ∉ mem t l, st'.fc i = st.fc i) ∧
      st'.uniq = st.uniq.take st.jf ++ ks.map f ++ st.uniq.drop (st.jf + ks.length) ∧
      st.jf + ks.length ≤ st.uniq.length := by
  intro l
  induction l with
  | nil =>
    intro st st' h _ hj
    simp only [members] at h
    injection h with h; injection h with h; subst h
    exact ⟨[], by simp, by simp, by simp [mem], by simp, by simp, by simpa using hj⟩
  | cons x l ih =>
    obtain ⟨i, no⟩ := x
    intro st st' h hn hj
    rw [List.map_cons, List.nodup_cons] at hn
    unfold members at h
    by_cases e : no = t
    · rw [if_pos e] at h
      cases hd : draw st.hist st.rands with
      | err => rw [hd] at h; cases h
      | ub => rw [hd] at h; cases h
      | ok o =>
        rw [hd] at h
        cases o with
        | none => simp at h
        | some kr =>
          obtain ⟨k, rs⟩ := kr
          simp only at h
          by_cases hl : st.jf < st.uniq.length
          · rw [if_pos hl] at h
            obtain ⟨ks, a, b, c, d, g, q⟩ := ih _ _ h hn.2 (by simpa using Nat.succ_le_of_lt hl)
            have hk := draw_spec _ _ hd
            have hm : mem t ((i, no) :: l) = i :: mem t l := by simp [mem, e]
            have hi : i ∉ mem t l := by
              intro hi
              apply hn.1
              simp only [mem, List.mem_map, List.mem_filter] at hi ⊢
              obtain ⟨y, hy, rfl⟩ := hi
              exact ⟨y, hy.1, rfl⟩
            have hne : ∀ k' ∈ ks, k ≠ k' ∧ st.hist[k']? = some 0 := by
              intro k' hk'
              have := b k' hk'
              simp only [List.getElem?_set] at this
              by_cases e' : k = k'
              · subst e'
                rw [if_pos rfl] at this
                split at this <;> simp at this
              · rw [if_neg e'] at this; exact ⟨e', this⟩
            refine ⟨k :: ks, ?_, ?_, ?_, ?_, ?_, ?_⟩
            · exact List.nodup_cons.mpr ⟨fun hh => (hne k hh).1 rfl, a⟩
            · intro k' hk'
              rcases List.mem_cons.mp hk' with rfl | hk'
              · exact hk
              · exact (hne k' hk').2
            · rw [hm, List.map_cons, List.map_cons, c, d i hi]; simp
            · intro i' hi'
              rw [hm, List.mem_cons, not_or] at hi'
              rw [d i' hi'.2]
              exact Function.update_of_ne hi'.1 _ _
            · rw [g]
              simp only [List.map_cons, List.length_cons]
              rw [List.take_add_one, List.getElem?_set_self hl, List.take_set_of_le (le_refl _),
                List.drop_set_of_lt (by omega)]
              simp [Nat.add_assoc, Nat.add_comm 1]
            · simp only [List.length_set] at q
              simp only [List.length_cons]
              omega
          · rw [if_neg hl] at h; cases h
    · rw [if_neg e] at h
      have hm : mem t ((i, no) :: l) = mem t l := by simp [mem, e]
      rw [hm]
      exact ih _ _ h hn.2 hj

/-- Result for one supershot. -/
private def Good (f : Nat → ℚ) (nfc per : Nat) (nos : List (Nat × Int)) (u : List Int) (fc : Nat → ℚ) (k : Nat)
    (L : List ℚ) : Prop :=
  ∃ t, u[k]? = some t ∧ ∃ ks : List Nat, ks.Nodup ∧ (∀ k ∈ ks, k < nfc) ∧ (mem t nos).map fc = ks.map f ∧
    L.take ks.length = ks.map f ∧ L.length = per

private theorem supershots_spec (f : Nat → ℚ) (nfc : Nat) (nos : List (Nat × Int)) (u : List Int) (hu : u.Nodup)
    (hn : (nos.map Prod.fst).Nodup) : ∀ (todo : List Nat) (st : State) (acc : List (List ℚ)) (fc : Nat → ℚ)
    (L : List (List ℚ)), supershots f nfc nos u todo st acc = .ok (some (fc, L)) → todo.Nodup →
    ∃ L', L = acc ++ L' ∧ List.Forall₂ (Good f nfc st.uniq.length nos u fc) todo L' ∧
      ∀ i, (∀ k ∈ todo, ∀ t, u[k]? = some t → i ∉ mem t nos) → fc i = st.fc i := by
  intro todo
  induction todo with
  | nil =>
    intro st acc fc L h _
    simp only [supershots] at h
    injection h with h; injection h with h; injection h with h1 h2
    subst h1; subst h2
    exact ⟨[], by simp, by simp, by simp⟩
  | cons k todo ih =>
    intro st acc fc L h hnd
    rw [List.nodup_cons] at hnd
    unfold supershots at h
    cases ht : u[k]? with
    | none => rw [ht] at h; cases h
    | some t =>
      rw [ht] at h
      simp only at h
      cases hm : members f t nos { st with hist := List.replicate nfc 0, jf := 0 } with
      | err => rw [hm] at h; cases h
      | ub => rw [hm] at h; cases h
      | ok o =>
        rw [hm] at h
        cases o with
        | none => simp at h
        | some st' =>
          simp only at h
          obtain ⟨ks, a, b, c, d, g, q⟩ := members_spec f t nos _ _ hm hn (by simp)
          simp only [List.take_zero, List.nil_append, Nat.zero_add] at g q
          have hlen : st'.uniq.length = st.uniq.length := by
            rw [g]; simp; omega
          obtain ⟨L', e1, e2, e3⟩ := ih _ _ _ _ h hnd.2
          have hb : ∀ k ∈ ks, k < nfc := by
            intro k hk
            have := b k hk
            simp only [List.getElem?_replicate] at this
            by_contra hc
            rw [if_neg hc] at this; cases this
          have hfin : ∀ i ∈ mem t nos, fc i = st'.fc i := by
            intro i hi
            apply e3
            intro k' hk' t' ht' hi'
            have hkk : k ≠ k' := by rintro rfl; exact hnd.1 hk'
            have htt : t = t' := by
              simp only [mem, List.mem_map, List.mem_filter, decide_eq_true_eq] at hi hi'
              obtain ⟨x, hx, hxi⟩ := hi
              obtain ⟨y, hy, hyi⟩ := hi'
              have := List.inj_on_of_nodup_map hn hx.1 hy.1 (hxi.trans hyi.symm)
              rw [← hx.2, ← hy.2, this]
            subst htt
            obtain ⟨h1, h1'⟩ := List.getElem?_eq_some_iff.mp ht
            obtain ⟨h2, h2'⟩ := List.getElem?_eq_some_iff.mp ht'
            exact hkk ((List.Nodup.getElem_inj_iff hu).mp (h1'.trans h2'.symm))
          refine ⟨st'.uniq :: L', by rw [e1]; simp, ?_, ?_⟩
          · refine List.Forall₂.cons ⟨t, ht, ks, a, hb, ?_, ?_, hlen⟩ (hlen ▸ e2)
            · rw [← c]; exact List.map_congr_left hfin
            · rw [g, List.take_left' (by simp)]
          · intro i hi
            rw [e3 i fun k' hk' => hi k' (List.mem_cons_of_mem _ hk')]
            exact d i (hi k (List.mem_cons_self ..) t ht)

private theorem firstInd_spec {fc1 df : ℚ} (hf : 0 ≤ fc1) (hdf : 0 < df) :
    ∃ m : Nat, 0 < m ∧ firstInd fc1 df = 2 * (m : Int) ∧ ⌈fc1 / df⌉ ≤ firstInd fc1 df ∧
      ∀ m' : Nat, 0 < m' → ⌈fc1 / df⌉ ≤ 2 * (m' : Int) → firstInd fc1 df ≤ 2 * (m' : Int) := by
  have h0 : 0 ≤ ⌈fc1 / df⌉ := Int.ceil_nonneg (div_nonneg hf hdf.le)
  have key : 0 < firstInd fc1 df ∧ firstInd fc1 df % 2 = 0 ∧ ⌈fc1 / df⌉ ≤ firstInd fc1 df ∧
      ∀ m' : Nat, 0 < m' → ⌈fc1 / df⌉ ≤ 2 * (m' : Int) → firstInd fc1 df ≤ 2 * (m' : Int) := by
    unfold firstInd
    simp only
    generalize ⌈fc1 / df⌉ = i at *
    by_cases e : i = 0
    · subst e; simp; omega
    · rw [if_neg e, Int.tmod_eq_emod_of_nonneg h0]
      by_cases e' : i % 2 = 1
      · rw [if_pos e']; exact ⟨by omega, by omega, by omega, fun _ _ _ => by omega⟩
      · rw [if_neg e']; exact ⟨by omega, by omega, by omega, fun _ _ _ => by omega⟩
  exact ⟨(firstInd fc1 df / 2).toNat, by omega, by omega, key.2.2⟩

private theorem freq_band {fc1 fc2 df : ℚ} (hf : 0 ≤ fc1) (hdf : 0 < df) {k : Nat}
    (hk : k < (numFreq fc1 fc2 df).toNat) :
    (∃ m : Nat, 0 < m ∧ freq fc1 df k = 2 * m * df) ∧ fc1 ≤ freq fc1 df k ∧ freq fc1 df k < fc2 + df := by
  obtain ⟨m, hm, e, hle, _⟩ := firstInd_spec hf hdf
  have e' : freq fc1 df k = 2 * ((m + k : Nat) : ℚ) * df := by
    unfold freq; rw [e]; push_cast; ring
  have hk' : (k : Int) < numFreq fc1 fc2 df := by omega
  unfold numFreq at hk'
  rw [Int.lt_ceil, lt_div_iff₀ (by norm_num)] at hk'
  have h2 : (k : Int) * 2 < ⌈fc2 / df⌉ - firstInd fc1 df + 1 := by exact_mod_cast hk'
  refine ⟨⟨m + k, by omega, e'⟩, ?_, ?_⟩
  · have : fc1 / df ≤ (2 * ((m + k : Nat) : ℚ)) := by
      refine (Int.le_ceil _).trans ?_
      have : ⌈fc1 / df⌉ ≤ 2 * ((m + k : Nat) : Int) := by push_cast; omega
      exact_mod_cast this
    rw [div_le_iff₀ hdf] at this
    rw [e']; exact this
  · have h3 : (2 * ((m + k : Nat) : Int)) ≤ ⌈fc2 / df⌉ := by push_cast; omega
    have h4 : (2 * ((m + k : Nat) : ℚ)) ≤ (⌈fc2 / df⌉ : ℚ) := by exact_mod_cast h3
    have h5 := Int.ceil_lt_add_one (fc2 / df)
    have h6 : 2 * ((m + k : Nat) : ℚ) < fc2 / df + 1 := lt_of_le_of_lt h4 h5
    rw [e']
    calc 2 * ((m + k : Nat) : ℚ) * df < (fc2 / df + 1) * df := mul_lt_mul_of_pos_right h6 hdf
      _ = fc2 + df := by field_simp

/-- The available frequencies `2 m df`: positive even multiples of the sampling between the limits of the band, each rounded up to a
multiple of the sampling. -/
def avail (fc1 fc2 df : ℚ) : Finset Nat :=
  (Finset.range (⌈fc2 / df⌉.toNat + 1)).filter fun m => 0 < m ∧ ⌈fc1 / df⌉ ≤ 2 * (m : Int) ∧ 2 * (m : Int) ≤ ⌈fc2 / df⌉

private theorem numFreq_card {fc1 fc2 df : ℚ} (hf : 0 ≤ fc1) (hdf : 0 < df) :
    (numFreq fc1 fc2 df).toNat = (avail fc1 fc2 df).card := by
  obtain ⟨m0, hm, e, hle, hmin⟩ := firstInd_spec hf hdf
  have hk : ∀ k : Nat, k < (numFreq fc1 fc2 df).toNat ↔ 2 * ((m0 + k : Nat) : Int) ≤ ⌈fc2 / df⌉ := by
    intro k
    have h1 : k < (numFreq fc1 fc2 df).toNat ↔ (k : Int) < numFreq fc1 fc2 df := by omega
    rw [h1]
    unfold numFreq
    rw [Int.lt_ceil, lt_div_iff₀ (by norm_num)]
    have h2 : ((k : Int) : ℚ) * 2 < ((⌈fc2 / df⌉ - firstInd fc1 df + 1 : Int) : ℚ) ↔
        (k : Int) * 2 < ⌈fc2 / df⌉ - firstInd fc1 df + 1 := by
      constructor
      · intro h; exact_mod_cast h
      · intro h; exact_mod_cast h
    rw [h2, e]
    omega
  have : avail fc1 fc2 df = (Finset.range (numFreq fc1 fc2 df).toNat).image (m0 + ·) := by
    ext m
    simp only [avail, Finset.mem_filter, Finset.mem_image, Finset.mem_range]
    constructor
    · rintro ⟨_, h1, h2, h3⟩
      have := hmin m h1 h2
      refine ⟨m - m0, (hk _).mpr ?_, by omega⟩
      rw [show m0 + (m - m0) = m by omega]; exact h3
    · rintro ⟨k, h, rfl⟩
      have := (hk k).mp h
      omega
  rw [this, Finset.card_image_of_injective _ (fun a b h => by simpa using h), Finset.card_range]

private theorem freq_inj {fc1 df : ℚ} (hdf : 0 < df) : Function.Injective (freq fc1 df) := by
  intro a b h
  unfold freq at h
  have h1 : ((a : ℚ) - b) * (2 * df) = 0 := by linear_combination h
  rcases mul_eq_zero.mp h1 with h2 | h2
  · exact_mod_cast sub_eq_zero.mp h2
  · linarith

/-- The shots of supershot `x` in increasing order. -/
def shotsOf (g : List Nat) (x : Nat) : List Nat := (List.range g.length).filter fun i => g[i]? = some x

private theorem zip_range {α : Type} (l : List α) (e : α) :
    (List.range l.length).zip l = (List.range l.length).map fun i => (i, l.getD i e) := by
  apply List.ext_getElem (by simp)
  intro i h1 h2
  simp only [List.length_map, List.length_range] at h2
  simp [h2]

private theorem shot_eq {d : Nat} {g : List Nat} :
    (encodedSources d g).map Acq.Source.shot = g.map fun x : Nat => (d : Int) * 10 ^ 4 + 1 + (x : Int) := by
  unfold encodedSources
  rw [List.map_map]
  apply List.map_congr_left
  intro x _
  simp only [Function.comp, Acq.Source.shot]
  omega

private theorem mem_eq {d : Nat} {g : List Nat} {x : Nat} :
    mem ((d : Int) * 10 ^ 4 + 1 + x) ((List.range (encodedSources d g).length).zip
      ((encodedSources d g).map Acq.Source.shot)) = shotsOf g x := by
  have hl : (encodedSources d g).length = (g.map fun x : Nat => (d : Int) * 10 ^ 4 + 1 + (x : Int)).length := by
    simp [encodedSources]
  rw [shot_eq, hl, zip_range _ 0]
  unfold mem shotsOf
  rw [List.filter_map, List.map_map]
  rw [show (Prod.fst ∘ fun i : Nat => (i, (g.map fun x : Nat => (d : Int) * 10 ^ 4 + 1 + (x : Int)).getD i 0)) = id from rfl,
    List.map_id, List.length_map]
  apply List.filter_congr
  intro i hi
  have hi' : i < g.length := by simpa using hi
  have hv : (g.map fun x : Nat => (d : Int) * 10 ^ 4 + 1 + (x : Int)).getD i 0 = (d : Int) * 10 ^ 4 + 1 + (g[i] : Int) := by
    rw [List.getD_eq_getElem _ _ (by simpa using hi'), List.getElem_map]
  refine decide_eq_decide.mpr ?_
  simp only [hv, List.getElem?_eq_getElem hi', Option.some.injEq]
  omega

private theorem assigned_of_encode {mode n d : Nat} (hm : mode = 1 ∨ mode = 2 ∨ mode = 3) {rands g : List Nat}
    (h : encode mode n d rands = .ok (some g)) : 0 < d ∧ Assigned n d g := by
  have hd : 0 < d := by
    rcases Nat.eq_zero_or_pos d with rfl | hd
    · unfold encode at h; rw [if_pos rfl] at h; cases h
    · exact hd
  refine ⟨hd, ?_⟩
  rcases hm with rfl | rfl | rfl
  · exact (C37_mode1 hd h).1
  · obtain ⟨g', e, a, _⟩ := C37_mode2 (n := n) hd rands
    rw [h] at e; injection e with e; injection e with e; subst e; exact a
  · obtain ⟨g', e, a, _⟩ := C37_mode3_partial (n := n) hd rands
    rw [h] at e; injection e with e; injection e with e; subst e; exact a

private theorem core {fc1 fc2 df : ℚ} {d : Nat} {g rands : List Nat} {fc0 fc : Nat → ℚ} {L : List (List ℚ)}
    (h : frequencies fc1 fc2 df d (encodedSources d g) fc0 rands = .ok (some (fc, L))) :
    ∃ u, Acq.uniqueShotNos (encodedSources d g) = .ok u ∧
      Acq.FirstAppearance ((encodedSources d g).map fun s => |s.no|) u ∧
      List.Forall₂ (Good (freq fc1 df) (numFreq fc1 fc2 df).toNat (ceilDiv g.length d)
        ((List.range (encodedSources d g).length).zip ((encodedSources d g).map Acq.Source.shot)) u fc) (List.range d) L := by
  unfold frequencies at h
  by_cases hd : d = 0
  · rw [if_pos hd] at h; cases h
  rw [if_neg hd] at h
  split at h
  · cases h
  by_cases hne : encodedSources d g = []
  · rw [hne] at h; cases h
  obtain ⟨u, hu, hf⟩ := Acq.C33_unique hne
  rw [hu, Out.bind_ok] at h
  obtain ⟨L', e1, e2, _⟩ := supershots_spec _ _ _ u hf.nodup (by
    rw [List.map_fst_zip (by simp)]; exact List.nodup_range) _ _ _ _ _ h List.nodup_range
  rw [List.nil_append] at e1
  subst e1
  refine ⟨u, hu, hf, ?_⟩
  simpa [encodedSources] using e2

private theorem forall₂_get {α β : Type} {R : α → β → Prop} {l : List α} {m : List β} (h : List.Forall₂ R l m)
    {k : Nat} {a : α} (ha : l[k]? = some a) : ∃ b, m[k]? = some b ∧ R a b := by
  induction h generalizing k with
  | nil => simp at ha
  | cons r _ ih =>
    cases k with
    | zero => simp only [List.getElem?_cons_zero, Option.some.injEq] at ha; subst ha; exact ⟨_, rfl, r⟩
    | succ k => simp only [List.getElem?_cons_succ] at ha ⊢; exact ih ha

/-- Result for the supershot with number `x`. -/
private theorem core_shot {mode n d : Nat} (hm : mode = 1 ∨ mode = 2 ∨ mode = 3) {r0 g : List Nat}
    (hg : encode mode n d r0 = .ok (some g)) {fc1 fc2 df : ℚ} {rands : List Nat} {fc0 fc : Nat → ℚ} {L : List (List ℚ)}
    (h : frequencies fc1 fc2 df d (encodedSources d g) fc0 rands = .ok (some (fc, L))) {x : Nat} (hx : x ∈ g) :
    ∃ ks : List Nat, ks.Nodup ∧ (∀ k ∈ ks, k < (numFreq fc1 fc2 df).toNat) ∧
      (shotsOf g x).map fc = ks.map (freq fc1 df) := by
  obtain ⟨hd, ha⟩ := assigned_of_encode hm hg
  obtain ⟨u, hu, hf, hall⟩ := core h
  have hmem : ((d : Int) * 10 ^ 4 + 1 + x) ∈ u := by
    rw [hf.mem]
    simp only [encodedSources, List.map_map, List.mem_map, Function.comp]
    exact ⟨x, hx, abs_of_nonneg (by positivity)⟩
  have hlen : u.length ≤ d := by
    have hp : u.Subperm ((List.range d).map fun x : Nat => ((d : Int) * 10 ^ 4 + 1 + x)) := by
      apply List.subperm_of_subset hf.nodup
      intro y hy
      rw [hf.mem] at hy
      simp only [encodedSources, List.map_map, List.mem_map, Function.comp] at hy ⊢
      obtain ⟨x, hx, rfl⟩ := hy
      exact ⟨x, by simpa using ha.exist x hx, (abs_of_nonneg (by positivity)).symm⟩
    simpa using hp.length_le
  obtain ⟨k, hk, e⟩ := List.getElem_of_mem hmem
  obtain ⟨l, hl, t, ht, ks, a, b, c, _⟩ := forall₂_get hall (k := k) (a := k) (by
    rw [List.getElem?_range (by omega)])
  rw [List.getElem?_eq_getElem hk, e] at ht
  injection ht with ht
  subst ht
  rw [mem_eq] at c
  exact ⟨ks, a, b, c⟩

/-- C161: shots of the same supershot have different frequencies. -/
theorem C161_distinct {mode n d : Nat} (hm : mode = 1 ∨ mode = 2 ∨ mode = 3) {r0 g : List Nat}
    (hg : encode mode n d r0 = .ok (some g)) {fc1 fc2 df : ℚ} (hdf : 0 < df) {rands : List Nat} {fc0 fc : Nat → ℚ}
    {L : List (List ℚ)} (h : frequencies fc1 fc2 df d (encodedSources d g) fc0 rands = .ok (some (fc, L)))
    {i j x : Nat} (hi : g[i]? = some x) (hj : g[j]? = some x) (hij : i ≠ j) : fc i ≠ fc j := by
  obtain ⟨ks, a, _, c⟩ := core_shot hm hg h (List.mem_of_getElem? hi)
  have hn : ((shotsOf g x).map fc).Nodup := by
    rw [c]; exact a.map (freq_inj hdf)
  have hin : ∀ {i : Nat}, g[i]? = some x → i ∈ shotsOf g x := by
    intro i hi
    obtain ⟨hl, e⟩ := List.getElem?_eq_some_iff.mp hi
    simp [shotsOf, hl, e]
  intro e
  exact hij (List.inj_on_of_nodup_map hn (hin hi) (hin hj) e)

/-- C161: every shot gets a positive even multiple of the frequency sampling, not below the lower limit of the band and above the upper
limit by less than the frequency sampling. -/
theorem C161_band {mode n d : Nat} (hm : mode = 1 ∨ mode = 2 ∨ mode = 3) {r0 g : List Nat}
    (hg : encode mode n d r0 = .ok (some g)) {fc1 fc2 df : ℚ} (hfc : 0 ≤ fc1) (hdf : 0 < df) {rands : List Nat}
    {fc0 fc : Nat → ℚ} {L : List (List ℚ)}
    (h : frequencies fc1 fc2 df d (encodedSources d g) fc0 rands = .ok (some (fc, L))) {i : Nat} (hi : i < n) :
    (∃ m : Nat, 0 < m ∧ fc i = 2 * m * df) ∧ fc1 ≤ fc i ∧ fc i < fc2 + df := by
  obtain ⟨_, ha⟩ := assigned_of_encode hm hg
  have hi' : i < g.length := by rw [ha.len]; exact hi
  obtain ⟨ks, _, b, c⟩ := core_shot hm hg h (List.getElem_mem hi')
  have : fc i ∈ (shotsOf g g[i]).map fc := List.mem_map_of_mem (by
    simp [shotsOf, hi'])
  rw [c, List.mem_map] at this
  obtain ⟨k, hk, e⟩ := this
  rw [← e]
  exact freq_band hfc hdf (b k hk)

/-- C161, frequencies of the supershots: the entry of a supershot begins with the frequencies of its shots, and these are the whole entry
if the supershot has the largest possible size. Missing: smaller supershots, see `C161_stale_violated`. -/
theorem C161_listed_partial {fc1 fc2 df : ℚ} {d : Nat} {g rands : List Nat} {fc0 fc : Nat → ℚ} {L : List (List ℚ)}
    (h : frequencies fc1 fc2 df d (encodedSources d g) fc0 rands = .ok (some (fc, L))) :
    L.length = d ∧ ∃ u, Acq.uniqueShotNos (encodedSources d g) = .ok u ∧
      ∀ k < d, ∃ x ∈ g, ∃ l, u[k]? = some ((d : Int) * 10 ^ 4 + 1 + x) ∧ L[k]? = some l ∧ l.length = ceilDiv g.length d ∧
        (shotsOf g x).map fc <+: l ∧ ((shotsOf g x).length = ceilDiv g.length d → l = (shotsOf g x).map fc) := by
  obtain ⟨u, hu, hf, hall⟩ := core h
  refine ⟨by rw [← hall.length_eq]; simp, u, hu, ?_⟩
  intro k hk
  obtain ⟨l, hl, t, ht, ks, _, _, c, e1, e2⟩ := forall₂_get hall (k := k) (a := k) (by
    rw [List.getElem?_range hk])
  have htm := List.mem_of_getElem? ht
  rw [hf.mem] at htm
  simp only [encodedSources, List.map_map, List.mem_map, Function.comp] at htm
  obtain ⟨x, hx, e⟩ := htm
  rw [abs_of_nonneg (by positivity)] at e
  subst e
  rw [mem_eq] at c
  refine ⟨x, hx, l, ht, hl, e2, ?_, ?_⟩
  · rw [c, ← e1]; exact List.take_prefix _ _
  · intro hs
    have : ks.length = l.length := by
      rw [e2, ← hs]; simpa using (congrArg List.length c).symm
    rw [c, ← e1, this, List.take_length]

/-- What is seen of the result for the first `n` shots. -/
private def seen (n : Nat) : Out (Option ((Nat → ℚ) × List (List ℚ))) → Option (List ℚ × List (List ℚ))
  | .ok (some (fc, L)) => some ((List.range n).map fc, L)
  | _ => none

private theorem of_seen {n : Nat} {o : Out (Option ((Nat → ℚ) × List (List ℚ)))} {a : List ℚ} {L : List (List ℚ)}
    (h : seen n o = some (a, L)) : ∃ fc, o = .ok (some (fc, L)) ∧ (List.range n).map fc = a := by
  match o, h with
  | .ok (some (fc, L')), h =>
    simp only [seen, Option.some.injEq, Prod.mk.injEq] at h
    exact ⟨fc, by rw [h.2], h.1⟩

/-- C161 fails for the list of a supershot with fewer shots than others: three shots in two supershots; the second supershot has
the single frequency 2 and its list also has the frequency 6 of the first supershot. -/
theorem C161_stale_violated : ∃ g fc L, encode 2 3 2 [] = .ok (some g) ∧
    frequencies 2 8 1 2 (encodedSources 2 g) (fun _ => 0) [0, 2, 0] = .ok (some (fc, L)) ∧
    shotsOf g 0 = [0, 2] ∧ shotsOf g 1 = [1] ∧ (List.range 3).map fc = [2, 2, 6] ∧ L = [[2, 6], [2, 6]] := by
  obtain ⟨fc, h1, h2⟩ := of_seen (n := 3) (a := [2, 2, 6]) (L := [[2, 6], [2, 6]])
    (o := frequencies 2 8 1 2 (encodedSources 2 [0, 1, 0]) (fun _ => 0) [0, 2, 0]) (by decide +kernel)
  exact ⟨[0, 1, 0], fc, _, by decide, h1, by decide, by decide, h2, rfl⟩

private theorem members_safe (f : Nat → ℚ) (t : Int) : ∀ (l : List (Nat × Int)) (st : State), 0 < st.hist.length →
    st.jf + (mem t l).length ≤ st.uniq.length →
    ∃ o, members f t l st = .ok o ∧ ∀ st', o = some st' → st'.uniq.length = st.uniq.length := by
  intro l
  induction l with
  | nil => intro st _ _; exact ⟨some st, rfl, by rintro st' h; injection h with h; rw [h]⟩
  | cons x l ih =>
    obtain ⟨i, no⟩ := x
    intro st hh hj
    unfold members
    by_cases e : no = t
    · have hm : mem t ((i, no) :: l) = i :: mem t l := by simp [mem, e]
      rw [hm, List.length_cons] at hj
      rw [if_pos e]
      obtain ⟨o, ho⟩ := draw_safe hh st.rands
      rw [ho]
      cases o with
      | none => exact ⟨none, rfl, by simp⟩
      | some kr =>
        obtain ⟨k, rs⟩ := kr
        simp only
        rw [if_pos (by omega)]
        obtain ⟨o, a, b⟩ := ih ⟨rs, st.hist.set k 1, st.jf + 1, Function.update st.fc i (f k), st.uniq.set st.jf (f k)⟩
          (by simpa using hh) (by simp only [List.length_set]; omega)
        exact ⟨o, a, by simpa using b⟩
    · have hm : mem t ((i, no) :: l) = mem t l := by simp [mem, e]
      rw [hm] at hj
      rw [if_neg e]
      exact ih st hh hj

private theorem supershots_safe (f : Nat → ℚ) {nfc per : Nat} (hn : 0 < nfc) (nos : List (Nat × Int)) (u : List Int)
    (hs : ∀ t ∈ u, (mem t nos).length ≤ per) : ∀ (todo : List Nat) (st : State) (acc : List (List ℚ)),
    st.uniq.length = per → (∀ k ∈ todo, k < u.length) → ∃ o, supershots f nfc nos u todo st acc = .ok o := by
  intro todo
  induction todo with
  | nil => intro st acc _ _; exact ⟨_, rfl⟩
  | cons k todo ih =>
    intro st acc hp hk
    unfold supershots
    have hk0 := hk k (List.mem_cons_self ..)
    rw [List.getElem?_eq_getElem hk0]
    simp only
    obtain ⟨o, a, b⟩ := members_safe f u[k] nos { st with hist := List.replicate nfc 0, jf := 0 } (by simpa using hn)
      (by simpa [hp] using hs _ (List.getElem_mem hk0))
    rw [a]
    cases o with
    | none => exact ⟨none, rfl⟩
    | some st' =>
      exact ih _ _ ((b st' rfl).trans hp) fun k' hk' => hk k' (List.mem_cons_of_mem _ hk')

private theorem shotsOf_length (g : List Nat) (x : Nat) : (shotsOf g x).length = g.count x := by
  unfold shotsOf
  induction g using List.reverseRecOn with
  | nil => simp
  | append_singleton g a ih =>
    rw [List.length_append, List.length_singleton, List.range_succ, List.filter_append, List.length_append, List.count_append,
      ← ih]
    congr 1
    · congr 1
      apply List.filter_congr
      intro i hi
      rw [List.getElem?_append_left (by simpa using hi)]
    · by_cases e : a = x
      · simp [e]
      · simp [e]

private theorem setup {mode n d : Nat} (hm : mode = 1 ∨ mode = 2 ∨ mode = 3) {r0 g : List Nat}
    (hg : encode mode n d r0 = .ok (some g)) (hne : NoneEmpty d g) :
    0 < d ∧ 0 < ceilDiv n d ∧ (encodedSources d g).length = n ∧ ∃ u, Acq.uniqueShotNos (encodedSources d g) = .ok u ∧
      d ≤ u.length ∧ ∀ t ∈ u, (mem t ((List.range n).zip ((encodedSources d g).map Acq.Source.shot))).length ≤
        ceilDiv n d := by
  obtain ⟨hd, ha⟩ := assigned_of_encode hm hg
  have hl : (encodedSources d g).length = n := by simp [encodedSources, ha.len]
  have h0 := hne 0 hd
  have hper : 0 < ceilDiv n d := lt_of_lt_of_le (List.count_pos_iff.mpr h0) (ha.size 0)
  obtain ⟨u, hu, hr⟩ := C37_all_supershots_readable hd ha hne
  obtain ⟨u', hu', hf⟩ := Acq.C33_unique (all := encodedSources d g) (by
    intro e; rw [e] at hu; cases hu)
  rw [hu] at hu'; injection hu' with hu'; subst hu'
  have hdu : d ≤ u.length := by
    have hp : ((List.range d).map fun x : Nat => ((d : Int) * 10 ^ 4 + 1 + x)).Subperm u := by
      apply List.subperm_of_subset
      · refine List.Nodup.map ?_ List.nodup_range
        intro a b hab
        simp only at hab
        omega
      · intro y hy
        rw [hf.mem]
        simp only [encodedSources, List.map_map, List.mem_map, Function.comp] at hy ⊢
        obtain ⟨x, hx, rfl⟩ := hy
        exact ⟨x, hne x (by simpa using hx), abs_of_nonneg (by positivity)⟩
    simpa using hp.length_le
  refine ⟨hd, hper, hl, u, hu, hdu, ?_⟩
  intro t ht
  rw [hf.mem] at ht
  simp only [encodedSources, List.map_map, List.mem_map, Function.comp] at ht
  obtain ⟨x, hx, e⟩ := ht
  rw [abs_of_nonneg (by positivity)] at e
  subst e
  rw [show List.range n = List.range (encodedSources d g).length by rw [hl], mem_eq, shotsOf_length]
  exact ha.size x

/-- The random numbers `rs` begin with `m` rounds, in each of which every remainder modulo `nfc` occurs. -/
def Rounds (nfc : Nat) : Nat → List Nat → Prop
  | 0, _ => True
  | m + 1, rs => ∃ b rest, rs = b ++ rest ∧ (∀ k < nfc, ∃ r ∈ b, r % nfc = k) ∧ Rounds nfc m rest

private theorem rounds_append {nfc m : Nat} {rs : List Nat} (c : List Nat) (h : Rounds nfc m rs) : Rounds nfc m (c ++ rs) := by
  cases m with
  | zero => trivial
  | succ m =>
    obtain ⟨b, rest, rfl, hb, hr⟩ := h
    refine ⟨c ++ b, rest, by simp, fun k hk => ?_, hr⟩
    obtain ⟨r, h1, h2⟩ := hb k hk
    exact ⟨r, by simp [h1], h2⟩

private theorem rounds_le {nfc : Nat} : ∀ {m m' : Nat} {rs : List Nat}, m ≤ m' → Rounds nfc m' rs → Rounds nfc m rs := by
  intro m m'
  induction m' generalizing m with
  | zero => intro rs h hr; obtain rfl : m = 0 := by omega
            exact hr
  | succ m' ih =>
    intro rs h hr
    cases m with
    | zero => trivial
    | succ m =>
      obtain ⟨b, rest, e, hb, hr⟩ := hr
      exact ⟨b, rest, e, hb, ih (by omega) hr⟩

private theorem draw_block {hist : List Nat} {k0 : Nat} (hk : hist[k0]? = some 0) (rest : List Nat) : ∀ b : List Nat,
    (∃ r ∈ b, r % hist.length = k0) →
    ∃ k c, draw hist (b ++ rest) = .ok (some (k, c ++ rest)) := by
  have hh : 0 < hist.length := by
    obtain ⟨h, _⟩ := List.getElem?_eq_some_iff.mp hk; omega
  intro b
  induction b with
  | nil => rintro ⟨r, hr, _⟩; cases hr
  | cons r b ih =>
    rintro ⟨r', hr', e⟩
    rw [List.cons_append]
    unfold draw
    rw [if_neg (by omega), List.getElem?_eq_getElem (Nat.mod_lt _ hh)]
    simp only
    by_cases hp : hist[r % hist.length]'(Nat.mod_lt _ hh) > 0
    · rw [if_pos hp]
      apply ih
      rcases List.mem_cons.mp hr' with rfl | hr'
      · obtain ⟨h1, h2⟩ := List.getElem?_eq_some_iff.mp hk
        subst e
        omega
      · exact ⟨r', hr', e⟩
    · rw [if_neg hp]; exact ⟨_, b, rfl⟩

private theorem draw_rounds {hist : List Nat} (hz : 0 < hist.count 0) {m : Nat} {rs : List Nat}
    (h : Rounds hist.length (m + 1) rs) : ∃ k rs', draw hist rs = .ok (some (k, rs')) ∧ Rounds hist.length m rs' := by
  obtain ⟨k0, hk0, e⟩ := List.getElem_of_mem (List.count_pos_iff.mp hz)
  obtain ⟨b, rest, rfl, hb, hr⟩ := h
  obtain ⟨k, c, hd⟩ := draw_block (k0 := k0) (by rw [List.getElem?_eq_getElem hk0, e]) rest b (hb k0 hk0)
  exact ⟨k, c ++ rest, hd, rounds_append c hr⟩

private theorem members_finish (f : Nat → ℚ) (t : Int) (M : Nat) : ∀ (l : List (Nat × Int)) (st : State),
    (mem t l).length ≤ st.hist.count 0 → st.jf + (mem t l).length ≤ st.uniq.length →
    Rounds st.hist.length ((mem t l).length + M) st.rands →
    ∃ st', members f t l st = .ok (some st') ∧ st'.uniq.length = st.uniq.length ∧ Rounds st.hist.length M st'.rands := by
  intro l
  induction l with
  | nil => intro st _ _ hr; exact ⟨st, rfl, rfl, by simpa [mem] using hr⟩
  | cons x l ih =>
    obtain ⟨i, no⟩ := x
    intro st hz hj hr
    unfold members
    by_cases e : no = t
    · have hm : mem t ((i, no) :: l) = i :: mem t l := by simp [mem, e]
      rw [hm, List.length_cons] at hj hz hr
      rw [if_pos e]
      obtain ⟨k, rs, hd, hr'⟩ := draw_rounds (hist := st.hist) (by omega) (m := (mem t l).length + M) (by
        rw [show (mem t l).length + M + 1 = (mem t l).length + 1 + M by omega]; exact hr)
      rw [hd]
      simp only
      rw [if_pos (by omega)]
      have hk := draw_spec _ _ hd
      obtain ⟨hkl, hke⟩ := List.getElem?_eq_some_iff.mp hk
      have hc : (st.hist.set k 1).count 0 = st.hist.count 0 - 1 := by
        rw [List.count_set hkl, hke]; simp
      obtain ⟨st', a, b, c⟩ := ih ⟨rs, st.hist.set k 1, st.jf + 1, Function.update st.fc i (f k), st.uniq.set st.jf (f k)⟩
        (by simp only [hc]; omega) (by simp only [List.length_set]; omega) (by simpa using hr')
      exact ⟨st', a, by simpa using b, by simpa using c⟩
    · have hm : mem t ((i, no) :: l) = mem t l := by simp [mem, e]
      rw [hm] at hj hz hr
      rw [if_neg e]
      exact ih st hz hj hr

private theorem supershots_finish (f : Nat → ℚ) {nfc per : Nat} (hn : per ≤ nfc) (nos : List (Nat × Int)) (u : List Int)
    (hs : ∀ t ∈ u, (mem t nos).length ≤ per) : ∀ (todo : List Nat) (st : State) (acc : List (List ℚ)),
    st.uniq.length = per → (∀ k ∈ todo, k < u.length) → Rounds nfc (todo.length * per) st.rands →
    ∃ r, supershots f nfc nos u todo st acc = .ok (some r) := by
  intro todo
  induction todo with
  | nil => intro st acc _ _ _; exact ⟨_, rfl⟩
  | cons k todo ih =>
    intro st acc hp hk hr
    unfold supershots
    have hk0 := hk k (List.mem_cons_self ..)
    rw [List.getElem?_eq_getElem hk0]
    simp only
    have hs0 := hs _ (List.getElem_mem hk0)
    rw [List.length_cons, Nat.succ_mul] at hr
    obtain ⟨st', a, b, c⟩ := members_finish f u[k] (todo.length * per) nos
      { st with hist := List.replicate nfc 0, jf := 0 } (by simpa using hs0.trans hn) (by simpa [hp] using hs0)
      (by simpa using rounds_le (by omega) hr)
    rw [a]
    exact ih _ _ (b.trans hp) (fun k' hk' => hk k' (List.mem_cons_of_mem _ hk')) (by simpa using c)

/-- C161: with enough frequencies and no empty supershot nothing outside an array is used, whatever random numbers are drawn. -/
theorem C161_safe {mode n d : Nat} (hm : mode = 1 ∨ mode = 2 ∨ mode = 3) {r0 g : List Nat}
    (hg : encode mode n d r0 = .ok (some g)) (hne : NoneEmpty d g) {fc1 fc2 df : ℚ} (hfc : 0 ≤ fc1) (hdf : 0 < df)
    (hnum : ceilDiv n d ≤ (avail fc1 fc2 df).card) (fc0 : Nat → ℚ) (rands : List Nat) :
    ∃ o, frequencies fc1 fc2 df d (encodedSources d g) fc0 rands = .ok o := by
  obtain ⟨hd, hper, hl, u, hu, hdu, hs⟩ := setup hm hg hne
  have hc := numFreq_card (fc2 := fc2) hfc hdf
  unfold frequencies
  rw [if_neg (by omega), hl, if_neg (by omega), hu, Out.bind_ok]
  exact supershots_safe _ (by omega) _ u hs _ _ _ (by simp) fun k hk => by
    have := List.mem_range.mp hk; omega

/-- C161: the random choice comes to an end: a round of random numbers with all remainders is enough for each place in the supershots. -/
theorem C161_finishes {mode n d : Nat} (hm : mode = 1 ∨ mode = 2 ∨ mode = 3) {r0 g : List Nat}
    (hg : encode mode n d r0 = .ok (some g)) (hne : NoneEmpty d g) {fc1 fc2 df : ℚ} (hfc : 0 ≤ fc1) (hdf : 0 < df)
    (hnum : ceilDiv n d ≤ (avail fc1 fc2 df).card) (fc0 : Nat → ℚ) {rands : List Nat}
    (hr : Rounds (avail fc1 fc2 df).card (d * ceilDiv n d) rands) :
    ∃ r, frequencies fc1 fc2 df d (encodedSources d g) fc0 rands = .ok (some r) := by
  obtain ⟨hd, hper, hl, u, hu, hdu, hs⟩ := setup hm hg hne
  have hc := numFreq_card (fc2 := fc2) hfc hdf
  unfold frequencies
  rw [if_neg (by omega), hl, if_neg (by omega), hu, Out.bind_ok]
  exact supershots_finish _ (by omega) _ u hs _ _ _ (by simp) (fun k hk => by
    have := List.mem_range.mp hk; omega) (by rw [hc]; simpa using hr)

/-- C161: fewer available frequencies than shots in a supershot are rejected. -/
theorem C161_reject {fc1 fc2 df : ℚ} (hfc : 0 ≤ fc1) (hdf : 0 < df) {d : Nat} (hd : 0 < d) (srcs : List Acq.Source)
    (fc0 : Nat → ℚ) (rands : List Nat) (h : (avail fc1 fc2 df).card * d < srcs.length) :
    frequencies fc1 fc2 df d srcs fc0 rands = .err := by
  have hc := numFreq_card (fc2 := fc2) hfc hdf
  unfold frequencies
  rw [if_neg (by omega), if_pos]
  by_contra hn
  have h1 : ceilDiv srcs.length d ≤ (avail fc1 fc2 df).card := by omega
  have h2 : srcs.length ≤ ceilDiv srcs.length d * d := by
    unfold ceilDiv
    have := Nat.div_add_mod (srcs.length + d - 1) d
    have := Nat.mod_lt (srcs.length + d - 1) hd
    rw [Nat.mul_comm]
    omega
  have := Nat.mul_le_mul_right d h1
  omega

/-- C161 without encoding: the frequencies are the multiples of the sampling from half the lower to twice the upper limit, without 0. -/
theorem C161_plain {fc1 fc2 df : ℚ} (hfc : 0 ≤ fc1) (hdf : 0 < df) {l : List ℚ} (h : plainFreqs fc1 fc2 df = .ok l) (f : ℚ) :
    f ∈ l ↔ ∃ m : Int, f = m * df ∧ 1 ≤ m ∧ ⌈fc1 / df⌉ ≤ 2 * m ∧ m ≤ 2 * ⌈fc2 / df⌉ := by
  have h0 : 0 ≤ ⌈fc1 / df⌉ := Int.ceil_nonneg (div_nonneg hfc hdf.le)
  unfold plainFreqs at h
  simp only at h
  generalize ⌈fc1 / df⌉ = a at *
  generalize ⌈fc2 / df⌉ = b at *
  have hi : ∀ m : Int, ⌈((a : Int) : ℚ) / 2⌉ ≤ m ↔ a ≤ 2 * m := by
    intro m
    rw [Int.ceil_le, div_le_iff₀ (by norm_num)]
    constructor
    · intro h; have : a ≤ m * 2 := by exact_mod_cast h
      omega
    · intro h; have : a ≤ m * 2 := by omega
      exact_mod_cast this
  generalize ⌈((a : Int) : ℚ) / 2⌉ = i at *
  have hi0 : 0 ≤ i := by
    have := (hi i).mp le_rfl; omega
  obtain ⟨i1, hi1⟩ : ∃ i1, i1 = if i = 0 then 1 else i := ⟨_, rfl⟩
  rw [← hi1] at h
  have hspec : ∀ m : Int, i1 ≤ m ↔ 1 ≤ m ∧ a ≤ 2 * m := by
    intro m
    rw [← hi m, hi1]
    by_cases e : i = 0
    · rw [if_pos e]; omega
    · rw [if_neg e]; omega
  by_cases hneg : b * 2 - i1 + 1 < 0
  · rw [if_pos hneg] at h; cases h
  rw [if_neg hneg] at h
  injection h with h
  subst h
  simp only [List.mem_map, List.mem_range]
  constructor
  · rintro ⟨k, hk, rfl⟩
    have := (hspec (i1 + k)).mp (by omega)
    exact ⟨i1 + k, by push_cast; ring, this.1, this.2, by omega⟩
  · rintro ⟨m, rfl, h1, h2, h3⟩
    have h4 := (hspec m).mpr ⟨h1, h2⟩
    refine ⟨(m - i1).toNat, by omega, ?_⟩
    have h5 : (((m - i1).toNat : Nat) : ℚ) = (m : ℚ) - i1 := by
      have : (((m - i1).toNat : Nat) : Int) = m - i1 := by omega
      exact_mod_cast this
    rw [h5]; ring

/-- Five shots in two supershots, frequencies 4, 6, 8 (in multiples of the sampling). -/
example : ∃ fc, encode 2 5 2 [] = .ok (some [0, 1, 0, 1, 0]) ∧
    frequencies 3 8 1 2 (encodedSources 2 [0, 1, 0, 1, 0]) (fun _ => 0) [5, 2, 3, 4, 1, 1, 0] =
      .ok (some (fc, [[8, 4, 6], [6, 4, 6]])) ∧ (List.range 5).map fc = [8, 6, 4, 4, 6] := by
  obtain ⟨fc, h1, h2⟩ := of_seen (n := 5) (a := [8, 6, 4, 4, 6]) (L := [[8, 4, 6], [6, 4, 6]])
    (o := frequencies 3 8 1 2 (encodedSources 2 [0, 1, 0, 1, 0]) (fun _ => 0) [5, 2, 3, 4, 1, 1, 0]) (by decide +kernel)
  exact ⟨fc, by decide, h1, h2⟩

/-- The hypotheses of `C161_safe`, `C161_finishes`, `C161_reject` and `C161_plain`. -/
example : NoneEmpty 2 [0, 1, 0, 1, 0] ∧ ceilDiv 5 2 ≤ (avail 3 8 1).card ∧
    (avail 3 6 1).card * 2 < (encodedSources 2 [0, 1, 0, 1, 0]).length ∧
    plainFreqs 3 2 1 = .ok [2, 3, 4] ∧ Rounds 3 2 [7, 2, 4, 6, 8, 0, 1] := by
  refine ⟨by unfold NoneEmpty; decide, by decide +kernel, by decide +kernel, by decide +kernel, [7, 2, 4, 6], [8, 0, 1], rfl, by decide,
    [8, 0, 1], [], rfl, by decide, trivial⟩

end Verif.ShotFreq
