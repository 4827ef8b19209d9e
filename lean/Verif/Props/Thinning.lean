import Verif.Model.Thinning
import Mathlib.Tactic.Linarith
import Mathlib.Tactic.Ring
import Mathlib.Tactic.IntervalCases
import Mathlib.Tactic.FieldSimp
import Mathlib.Data.Rat.Floor
import Mathlib.Algebra.Order.Floor.Ring
import Mathlib.Data.List.Nodup
import Mathlib.Data.List.Pairwise
/-!
# C132–C134: selection of shots with a spatial increment
-/
namespace Verif.Acq
open Verif.Grid (Coord)

/-- The sources lie on a line that starts along the x axis (`f` = x coordinate) or the y axis. -/
def OnLine (all : List Source) (f : Source → Int) : Prop :=
  ∃ a b rest, all = a :: b :: rest ∧
    ((f = fun s => s.coords.x) ∧ |a.coords.y - b.coords.y| < |a.coords.x - b.coords.x| ∨
      (f = fun s => s.coords.y) ∧ |a.coords.x - b.coords.x| < |a.coords.y - b.coords.y|)

/-- Position of the `i`-th source. -/
def place (all : List Source) (f : Source → Int) (i : ℕ) : Int := ((all.map f)[i]?).getD 0

/-- The `k`-th place at which a shot is wanted: `k` increments from the first source, rounded to a grid point. -/
def wanted (shotIncr DH : ℚ) (all : List Source) (f : Source → Int) (k : ℕ) : Int :=
  place all f 0 + ⌊shotIncr * k / DH + 1 / 2⌋

private theorem linePositions_of {all : List Source} {f : Source → Int} (h : OnLine all f) :
    linePositions all = all.map f ∧ 1 < all.length := by
  obtain ⟨a, b, rest, rfl, h⟩ := h
  refine ⟨?_, by simp⟩
  unfold linePositions
  dsimp only
  simp only [Int.abs_eq_natAbs] at h
  rcases h with ⟨rfl, h⟩ | ⟨rfl, h⟩
  · rw [if_pos]
    omega
  · rw [if_neg, if_pos] <;> omega

private theorem shotInds_loop {all : List Source} {f : Source → Int} (h : OnLine all f) {shotIncr DH : ℚ}
    (hi : DH < shotIncr) (fuel : ℕ) :
    shotInds shotIncr DH all fuel = .ok (thinLoop all.length (place all f) (incrStep shotIncr DH) fuel
      ⟨0, place all f 0, [0]⟩) := by
  obtain ⟨h1, h2⟩ := linePositions_of h
  unfold shotInds
  rw [if_pos ⟨h2, hi⟩, h1]
  obtain ⟨a, b, rest, rfl, h⟩ := h
  rfl

private theorem incrStep_eq {shotIncr DH : ℚ} (hD : 0 < DH) (hi : DH < shotIncr) (k : ℕ) :
    incrStep shotIncr DH k = ⌊shotIncr * k / DH + 1 / 2⌋ := by
  unfold incrStep SU.roundQ
  rw [if_pos]
  have : 0 < shotIncr := hD.trans hi
  positivity

private theorem incrStep_succ {shotIncr DH : ℚ} (hD : 0 < DH) (hi : DH < shotIncr) (k : ℕ) :
    incrStep shotIncr DH k + ⌊shotIncr / DH⌋ ≤ incrStep shotIncr DH (k + 1) := by
  rw [incrStep_eq hD hi, incrStep_eq hD hi, ← Int.floor_add_intCast]
  refine Int.floor_le_floor ?_
  have := Int.floor_le (shotIncr / DH)
  push_cast
  have e : shotIncr * (k + 1) / DH = shotIncr * k / DH + shotIncr / DH := by ring
  linarith

private theorem incr_pos {shotIncr DH : ℚ} (hD : 0 < DH) (hi : DH < shotIncr) : 1 ≤ ⌊shotIncr / DH⌋ := by
  rw [Int.le_floor]
  push_cast
  rw [le_div_iff₀ hD]
  linarith

section Loop
variable {n : ℕ} {s g : ℕ → Int} {m : Int}

/-- What holds before each round: the list of selected sources is in order, each of them next to the place
wanted, and the next place wanted is beyond the current source. -/
private structure Inv (n : ℕ) (s g : ℕ → Int) (m : Int) (st : ThinState) : Prop where
  pos : st.pos ≤ n - 1
  target : st.target = s 0 + g st.sel.length
  beyond : s st.pos ≤ st.target
  ended : st.pos = n - 1 → s (n - 1) < st.target
  last : ∃ h t, st.sel = h :: t ∧ h ≤ st.pos + 1 ∧ -m ≤ 2 * (s 0 + g t.length - s h)
  first : st.sel.getLast? = some 0
  sorted : st.sel.Pairwise (· > ·)
  bound : ∀ h ∈ st.sel, h < n
  near : ∀ k h, st.sel.reverse[k]? = some h → ∀ i < n, |s h - (s 0 + g k)| ≤ |s i - (s 0 + g k)|

/-- What holds at the end. -/
private structure Fin' (n : ℕ) (s g : ℕ → Int) (sel : List ℕ) : Prop where
  first : sel.head? = some 0
  sorted : sel.Pairwise (· < ·)
  bound : ∀ h ∈ sel, h < n
  near : ∀ k h, sel[k]? = some h → ∀ i < n, |s h - (s 0 + g k)| ≤ |s i - (s 0 + g k)|
  all : ∀ k, s 0 + g k ≤ s (n - 1) → k < sel.length

private theorem mono_of (hs : ∀ i, i + 1 < n → s i < s (i + 1)) {i j : ℕ} (h : i ≤ j) (hj : j < n) : s i ≤ s j := by
  induction j, h using Nat.le_induction with
  | base => exact le_refl _
  | succ j hij ih => exact (ih (by omega)).trans (hs j hj).le

private theorem gmono (hg : ∀ k, g k + m ≤ g (k + 1)) (hm : 1 ≤ m) {j k : ℕ} (h : j ≤ k) : g j ≤ g k := by
  induction k, h using Nat.le_induction with
  | base => exact le_refl _
  | succ k _ ih => linarith [hg k]

private theorem near_cons {n : ℕ} {s g : ℕ → Int} {sel : List ℕ} {c : ℕ}
    (h : ∀ k h, sel.reverse[k]? = some h → ∀ i < n, |s h - (s 0 + g k)| ≤ |s i - (s 0 + g k)|)
    (hc : ∀ i < n, |s c - (s 0 + g sel.length)| ≤ |s i - (s 0 + g sel.length)|) :
    ∀ k h, (c :: sel).reverse[k]? = some h → ∀ i < n, |s h - (s 0 + g k)| ≤ |s i - (s 0 + g k)| := by
  intro k h' hk
  rw [List.reverse_cons] at hk
  by_cases hlt : k < sel.length
  · rw [List.getElem?_append_left (by simpa using hlt)] at hk
    exact h k h' hk
  · rw [List.getElem?_append_right (by simpa using hlt)] at hk
    simp only [List.length_reverse] at hk
    by_cases he : k - sel.length = 0
    · rw [he] at hk
      simp only [List.getElem?_cons_zero, Option.some.injEq] at hk
      have : k = sel.length := by omega
      subst this hk
      exact hc
    · rw [List.getElem?_eq_none (by simp; omega)] at hk
      exact absurd hk (by simp)

private theorem thin_spec (hn : 2 ≤ n) (hs : ∀ i, i + 1 < n → s i < s (i + 1) ∧ s (i + 1) - s i ≤ m) (hm : 1 ≤ m)
    (hg : ∀ k, g k + m ≤ g (k + 1)) :
    ∀ (r : ℕ) (st : ThinState), Inv n s g m st → (n - 1 - st.pos) + (s (n - 1) + 1 - st.target).toNat ≤ r →
      ∃ fuel sel, thinLoop n s g fuel st = some sel ∧ Fin' n s g sel := by
  have hmono : ∀ {i j : ℕ}, i ≤ j → j < n → s i ≤ s j := mono_of fun i hi => (hs i hi).1
  intro r
  induction r using Nat.strong_induction_on with
  | _ r ih =>
  rintro ⟨i, T, sel⟩ inv hr
  obtain ⟨hpos, htar, hbey, hend, ⟨h, t, rfl, hh, hlow⟩, hfirst, hsort, hbound, hnear⟩ := inv
  simp only at hpos htar hbey hend hh hr
  have hlen : T = s 0 + g (t.length + 1) := by rw [htar, List.length_cons]
  have hnext := hg t.length
  by_cases hi : i < n - 1
  · have h1 := hs i (by omega)
    by_cases hb : T ≤ s (i + 1)
    · -- a place between two sources
      have hne : h ≠ i + 1 := by
        rintro rfl
        omega
      have hlt : h ≤ i := by omega
      have hsh := hmono hlt (by omega)
      obtain ⟨c, hc, hch, hci, hcn, hcl, hstep⟩ : ∃ c, c < n ∧ h < c ∧ c ≤ i + 1 ∧
          (∀ j < n, |s c - T| ≤ |s j - T|) ∧ -m ≤ 2 * (T - s c) ∧
          thinStep n s g ⟨i, T, h :: t⟩ = ⟨i, s 0 + g (t.length + 2), c :: h :: t⟩ := by
        have hout : ∀ j < n, j ≤ i ∨ i + 1 ≤ j := fun j _ => by omega
        by_cases hcmp : (T - s i).natAbs < (T - s (i + 1)).natAbs
        · have hni : h ≠ i := by
            rintro rfl
            omega
          refine ⟨i, by omega, by omega, by omega, ?_, by omega, ?_⟩
          · intro j hj
            rcases hout j hj with hj' | hj'
            · have := hmono hj' (by omega)
              rw [abs_le]
              have := abs_le.mp (le_refl |s j - T|)
              omega
            · have := hmono hj' hj
              rw [abs_le]
              have := abs_le.mp (le_refl |s j - T|)
              omega
          · simp [thinStep, hbey, hb, hni, hcmp]
        · refine ⟨i + 1, by omega, by omega, le_refl _, ?_, by omega, ?_⟩
          · intro j hj
            rcases hout j hj with hj' | hj'
            · have := hmono hj' (by omega)
              rw [abs_le]
              have := abs_le.mp (le_refl |s j - T|)
              omega
            · have := hmono hj' hj
              rw [abs_le]
              have := abs_le.mp (le_refl |s j - T|)
              omega
          · simp [thinStep, hbey, hb, hne, hcmp, not_lt.mp hcmp]
      have hg2 : g (t.length + 1) + m ≤ g (t.length + 2) := hg (t.length + 1)
      have hend' := hmono (show i + 1 ≤ n - 1 by omega) (by omega)
      obtain ⟨fuel, res, hf, hres⟩ := ih (n - 1 - i + (s (n - 1) + 1 - (s 0 + g (t.length + 2))).toNat)
        (by omega) ⟨i, s 0 + g (t.length + 2), c :: h :: t⟩
        { pos := hpos
          target := rfl
          beyond := by simp only; omega
          ended := fun e => by simp only at e; omega
          last := ⟨c, h :: t, rfl, hci, by rw [List.length_cons, ← hlen]; exact hcl⟩
          first := by rw [List.getLast?_cons_cons]; exact hfirst
          sorted := by
            refine List.pairwise_cons.mpr ⟨fun x hx => ?_, hsort⟩
            rcases List.mem_cons.mp hx with rfl | hx
            · exact hch
            · exact ((List.pairwise_cons.mp hsort).1 x hx).trans hch
          bound := fun x hx => by
            rcases List.mem_cons.mp hx with rfl | hx
            · exact hc
            · exact hbound x hx
          near := near_cons hnear (by rw [← htar]; exact hcn) } (le_refl _)
      refine ⟨fuel + 1, res, ?_, hres⟩
      rw [thinLoop, if_pos hi, hstep]
      exact hf
    · by_cases hq : i = n - 2 ∧ h ≠ i + 1 ∧ (s (i + 1) - s i).natAbs > (T - s (i + 1)).natAbs
      · -- the last source
        have hstep : thinStep n s g ⟨i, T, h :: t⟩ = ⟨i + 1, T, (i + 1) :: h :: t⟩ := by
          exact (if_neg fun q => hb q.2).trans (if_pos hq)
        have hi1 : i + 1 = n - 1 := by omega
        refine ⟨2, ((i + 1) :: h :: t).reverse, ?_, ?_⟩
        · rw [thinLoop, if_pos hi, hstep, thinLoop, if_neg (by simp only; omega)]
        · refine ⟨?_, ?_, ?_, ?_, ?_⟩
          · rw [List.head?_reverse, List.getLast?_cons_cons]
            exact hfirst
          · rw [List.pairwise_reverse]
            refine List.pairwise_cons.mpr ⟨fun x hx => ?_, hsort⟩
            have : x ≤ h := by
              rcases List.mem_cons.mp hx with rfl | hx
              · exact le_refl _
              · exact ((List.pairwise_cons.mp hsort).1 x hx).le
            omega
          · intro x hx
            rcases List.mem_cons.mp (List.mem_reverse.mp hx) with rfl | hx
            · omega
            · exact hbound x hx
          · refine near_cons hnear fun j hj => ?_
            rw [← htar]
            have := hmono (show j ≤ i + 1 by omega) (by omega)
            rw [abs_le]
            have := abs_le.mp (le_refl |s j - T|)
            omega
          · intro k hk
            by_contra hlt
            simp only [List.length_reverse, List.length_cons] at hlt
            have := gmono hg hm (show t.length + 1 ≤ k by omega)
            rw [← hi1] at hk
            omega
      · have hstep : thinStep n s g ⟨i, T, h :: t⟩ = ⟨i + 1, T, h :: t⟩ := by
          exact (if_neg fun q => hb q.2).trans (if_neg hq)
        obtain ⟨fuel, res, hf, hres⟩ := ih (n - 1 - (i + 1) + (s (n - 1) + 1 - T).toNat)
          (by omega) ⟨i + 1, T, h :: t⟩
          { pos := by simp only; omega
            target := htar
            beyond := by simp only; omega
            ended := fun e => by simp only at e ⊢; rw [← e]; omega
            last := ⟨h, t, rfl, by simp only; omega, hlow⟩
            first := hfirst
            sorted := hsort
            bound := hbound
            near := hnear } (le_refl _)
        refine ⟨fuel + 1, res, ?_, hres⟩
        rw [thinLoop, if_pos hi, hstep]
        exact hf
  · refine ⟨1, (h :: t).reverse, ?_, ?_⟩
    · rw [thinLoop, if_neg hi]
    · refine ⟨?_, ?_, ?_, ?_, ?_⟩
      · rw [List.head?_reverse]
        exact hfirst
      · rw [List.pairwise_reverse]
        exact hsort
      · exact fun x hx => hbound x (List.mem_reverse.mp hx)
      · exact hnear
      · intro k hk
        by_contra hlt
        simp only [List.length_reverse, List.length_cons] at hlt
        have := gmono hg hm (show t.length + 1 ≤ k by omega)
        have := hend (by omega)
        omega

/-- The first round selects nothing. -/
private theorem thin_first (hs : s 0 < s 1) : thinStep n s g ⟨0, s 0, [0]⟩ = ⟨0, s 0 + g 1, [0]⟩ := by
  have h : ¬ (s 0 - s 1).natAbs ≤ 0 := by omega
  have h2 : s 0 - s 1 ≠ 0 := by omega
  simp [thinStep, hs.le, h2]

private theorem thin_all (hn : 2 ≤ n) (hs : ∀ i, i + 1 < n → s i < s (i + 1) ∧ s (i + 1) - s i ≤ m) (hm : 1 ≤ m)
    (h0 : g 0 = 0) (hg : ∀ k, g k + m ≤ g (k + 1)) :
    ∃ fuel sel, thinLoop n s g fuel ⟨0, s 0, [0]⟩ = some sel ∧ Fin' n s g sel := by
  obtain ⟨fuel, sel, h, hf⟩ := thin_spec hn hs hm hg _ ⟨0, s 0 + g 1, [0]⟩
    { pos := by simp
      target := rfl
      beyond := by simp only; have := hg 0; simp only [h0, zero_add] at this; omega
      ended := fun e => by simp only at e; omega
      last := ⟨0, [], rfl, by simp, by simp only [List.length_nil, h0]; omega⟩
      first := rfl
      sorted := by simp
      bound := by simp; omega
      near := by
        intro k h hk i hi
        have : k = 0 ∧ h = 0 := by
          rcases k with _ | k
          · simp at hk
            exact ⟨rfl, hk.symm⟩
          · simp at hk
        obtain ⟨rfl, rfl⟩ := this
        simp [h0] } (le_refl _)
  refine ⟨fuel + 1, sel, ?_, hf⟩
  rw [thinLoop, if_pos (by simp only; omega), thin_first (hs 0 (by omega)).1]
  exact h

/-- A round that changes nothing is repeated for ever. -/
private theorem stuck {st : ThinState} (hp : st.pos < n - 1) (h : thinStep n s g st = st) (fuel : ℕ) :
    thinLoop n s g fuel st = none := by
  induction fuel with
  | zero => rfl
  | succ k ih => rw [thinLoop, if_pos hp, h, ih]

end Loop

/-- C132: the selection ends if no two neighbouring sources are further apart than the increment.
`partial`: with larger gaps it may run for ever, see `C132_violated`. -/
theorem C132_ends_partial {all : List Source} {f : Source → Int} (h : OnLine all f) {shotIncr DH : ℚ} (hD : 0 < DH)
    (hi : DH < shotIncr)
    (hgap : ∀ i, i + 1 < all.length → place all f i < place all f (i + 1) ∧
      (place all f (i + 1) - place all f i : ℤ) ≤ shotIncr / DH) :
    ∃ fuel inds, shotInds shotIncr DH all fuel = .ok (some inds) := by
  obtain ⟨fuel, sel, h1, -⟩ := thin_all (n := all.length) (s := place all f) (g := incrStep shotIncr DH)
    (m := ⌊shotIncr / DH⌋) (linePositions_of h).2
    (fun i hi' => ⟨(hgap i hi').1, by rw [Int.le_floor]; exact (hgap i hi').2⟩)
    (incr_pos hD hi) (by rw [incrStep_eq hD hi]; norm_num) (incrStep_succ hD hi)
  exact ⟨fuel, sel, by rw [shotInds_loop h hi, h1]⟩

/-- More rounds do not change the result. -/
private theorem thinLoop_mono {n : ℕ} {s g : ℕ → Int} {a : ℕ} {st : ThinState} {r : List ℕ} :
    thinLoop n s g a st = some r → ∀ b, a ≤ b → thinLoop n s g b st = some r := by
  induction a generalizing st with
  | zero => intro h; exact absurd h (by simp [thinLoop])
  | succ a ih =>
    intro h b hb
    obtain ⟨b, rfl⟩ : ∃ c, b = c + 1 := ⟨b - 1, by omega⟩
    rw [thinLoop] at h ⊢
    split_ifs at h ⊢ with hp
    · exact ih h b (by omega)
    · exact h

/-- C133: the selected shots, for sources in increasing order without large gaps: the first source is among
them, they are in order and different, the `k`-th of them is the source closest to the `k`-th place wanted, and
there is one for each place wanted up to the last source.
`partial`: other orders of the sources are treated differently, see `C133_direction_violated`. -/
theorem C133_selection_partial {all : List Source} {f : Source → Int} (h : OnLine all f) {shotIncr DH : ℚ} (hD : 0 < DH)
    (hi : DH < shotIncr)
    (hgap : ∀ i, i + 1 < all.length → place all f i < place all f (i + 1) ∧
      (place all f (i + 1) - place all f i : ℤ) ≤ shotIncr / DH)
    {fuel : ℕ} {inds : List ℕ} (hr : shotInds shotIncr DH all fuel = .ok (some inds)) :
    inds.head? = some 0 ∧ inds.Pairwise (· < ·) ∧ (∀ i ∈ inds, i < all.length) ∧
    (∀ k i, inds[k]? = some i → ∀ j < all.length,
      |place all f i - wanted shotIncr DH all f k| ≤ |place all f j - wanted shotIncr DH all f k|) ∧
    (∀ k, wanted shotIncr DH all f k ≤ place all f (all.length - 1) → k < inds.length) := by
  obtain ⟨fuel', sel, h1, h2⟩ := thin_all (n := all.length) (s := place all f) (g := incrStep shotIncr DH)
    (m := ⌊shotIncr / DH⌋) (linePositions_of h).2
    (fun i hi' => ⟨(hgap i hi').1, by rw [Int.le_floor]; exact (hgap i hi').2⟩)
    (incr_pos hD hi) (by rw [incrStep_eq hD hi]; norm_num) (incrStep_succ hD hi)
  rw [shotInds_loop h hi] at hr
  have e : sel = inds := by
    have a := thinLoop_mono h1 (max fuel fuel') (le_max_right _ _)
    have b := thinLoop_mono (Out.ok.inj hr) (max fuel fuel') (le_max_left _ _)
    exact Option.some.inj (a.symm.trans b)
  subst e
  refine ⟨h2.first, h2.sorted, h2.bound, ?_, ?_⟩
  · intro k i hk j hj
    have := h2.near k i hk j hj
    rwa [incrStep_eq hD hi] at this
  · intro k hk
    refine h2.all k ?_
    rwa [incrStep_eq hD hi]

/-- C133: without a usable increment all sources are kept. -/
theorem C133_all {all : List Source} {shotIncr DH : ℚ} (h : shotIncr ≤ DH ∨ all.length ≤ 1) (fuel : ℕ) :
    shotInds shotIncr DH all fuel = .ok (some (List.range all.length)) ∧
      thinned all (List.range all.length) = all := by
  constructor
  · unfold shotInds
    rw [if_neg]
    rintro ⟨a, b⟩
    rcases h with h | h
    · exact absurd b (not_lt.mpr h)
    · omega
  · unfold thinned
    have e : (List.range all.length).filterMap (all[·]?) = ((List.range all.length).map (all[·]?)).filterMap id := by
      rw [List.filterMap_map]
      rfl
    rw [e, show (List.range all.length).map (all[·]?) = all.map some from ?_, List.filterMap_map]
    · simp
    · apply List.ext_getElem
      · simp
      · intro i h1 h2
        simp

/-- C132 is violated: if the increment is less than half the distance of the first two sources, the selection
never ends. -/
theorem C132_violated {all : List Source} {f : Source → Int} (h : OnLine all f) {shotIncr DH : ℚ} (hD : 0 < DH)
    (hi : DH < shotIncr) (hgap : 2 * ⌊shotIncr / DH + 1 / 2⌋ < place all f 1 - place all f 0) (fuel : ℕ) :
    shotInds shotIncr DH all fuel = .ok none := by
  have hn := (linePositions_of h).2
  rw [shotInds_loop h hi]
  have h1 : incrStep shotIncr DH 1 = ⌊shotIncr / DH + 1 / 2⌋ := by
    rw [incrStep_eq hD hi]
    norm_num
  have hp : 1 ≤ incrStep shotIncr DH 1 := by
    have := incrStep_succ hD hi 0
    have := incr_pos hD hi
    have : incrStep shotIncr DH 0 = 0 := by rw [incrStep_eq hD hi]; norm_num
    simp only [zero_add] at *
    omega
  rw [← h1] at hgap
  cases fuel with
  | zero => rfl
  | succ fuel =>
    rw [thinLoop, if_pos (by simp only; omega), thin_first (by omega)]
    congr 1
    refine stuck (by simp only; omega) ?_ fuel
    generalize incrStep shotIncr DH = g at *
    have a1 : place all f 0 ≤ place all f 0 + g 1 := by omega
    have a2 : place all f 0 + g 1 ≤ place all f 1 := by omega
    have a3 : ¬ (g 1).natAbs ≥ (place all f 0 + g 1 - place all f 1).natAbs := by omega
    have a4 : ¬ (place all f 0 + g 1 - place all f 1).natAbs ≤ (g 1).natAbs := by omega
    simp [thinStep, a1, a2, a4]

private theorem none_of_step {n : ℕ} {s g : ℕ → Int} {st : ThinState}
    (h : ∀ fuel, thinLoop n s g fuel (thinStep n s g st) = none) (hp : st.pos < n - 1) (fuel : ℕ) :
    thinLoop n s g fuel st = none := by
  cases fuel with
  | zero => rfl
  | succ k => rw [thinLoop, if_pos hp, h]

/-- C132 is violated by a gap in a line of equidistant sources: if the increment is the distance of the sources,
the selection stops at the gap and never ends. -/
theorem C132_gap_violated {all : List Source} {f : Source → Int} (h : OnLine all f) {DH : ℚ} (hD : 0 < DH) {d q : ℕ}
    (hd : 2 ≤ d) (hq : q + 1 < all.length) (hreg : ∀ i ≤ q, place all f i = place all f 0 + i * d)
    (hgap : 2 * (d : ℤ) < place all f (q + 1) - place all f q) (fuel : ℕ) :
    shotInds (d * DH) DH all fuel = .ok none := by
  have hi : DH < d * DH := by
    have : (2 : ℚ) ≤ d := by exact_mod_cast hd
    nlinarith
  rw [shotInds_loop h hi]
  congr 1
  have hg : ∀ k : ℕ, incrStep (d * DH) DH k = k * d := by
    intro k
    rw [incrStep_eq hD hi, show (d * DH * k / DH : ℚ) = ((k * d : ℤ) : ℚ) by push_cast; field_simp,
      Int.floor_intCast_add]
    norm_num
  generalize incrStep (d * DH) DH = g at *
  generalize place all f = s at *
  have key : ∀ r i sel, i + r = q → sel.headD 0 = i → sel.length = i + 1 → ∀ fuel,
      thinLoop all.length s g fuel ⟨i, s 0 + (i + 1 : ℕ) * d, sel⟩ = none := by
    intro r
    induction r with
    | zero =>
      intro i sel hr h1 h2 fuel
      obtain rfl : i = q := by omega
      have hi' := hreg i (le_refl _)
      refine stuck (by simp only; omega) ?_ fuel
      have a1 : s i ≤ s 0 + (i + 1 : ℕ) * d := by rw [hi']; push_cast; nlinarith
      have a2 : s 0 + (i + 1 : ℕ) * d ≤ s (i + 1) := by push_cast; linarith
      have a3 : (s 0 + (i + 1 : ℕ) * d - s i).natAbs < (s 0 + (i + 1 : ℕ) * d - s (i + 1)).natAbs := by
        have e : s 0 + (i + 1 : ℕ) * d - s i = d := by rw [hi']; push_cast; ring
        rw [e]
        have : s 0 + ((i + 1 : ℕ) : ℤ) * d = s i + d := by linarith
        rw [this]
        omega
      unfold thinStep
      simp only [h1, ge_iff_le, a1, a2, and_self, if_true, ne_eq, not_true, false_and, if_false,
        not_le.mpr a3, and_false, h2, hg]
    | succ r ih =>
      intro i sel hr h1 h2 fuel
      have e0 := hreg i (by omega)
      have e1 := hreg (i + 1) (by omega)
      have e2 : s i ≤ s (i + 1) := by rw [e0, e1]; push_cast; nlinarith
      have s1 : thinStep all.length s g ⟨i, s 0 + (i + 1 : ℕ) * d, sel⟩ = ⟨i, s 0 + (i + 2 : ℕ) * d, (i + 1) :: sel⟩ := by
        rw [← e1]
        unfold thinStep
        simp only [h1, ge_iff_le, e2, le_refl, and_self, if_true, ne_eq, not_true, false_and, if_false, sub_self,
          Int.natAbs_zero, Nat.zero_le, and_true, hg]
        rw [if_pos (by omega)]
        simp only [List.length_cons, h2]
      have s2 : thinStep all.length s g ⟨i, s 0 + (i + 2 : ℕ) * d, (i + 1) :: sel⟩ =
          ⟨i + 1, s 0 + (i + 2 : ℕ) * d, (i + 1) :: sel⟩ := by
        refine (if_neg fun w => ?_).trans (if_neg fun w => w.2.1 rfl)
        have := w.2
        simp only [e1] at this
        push_cast at this
        nlinarith
      refine none_of_step (fun fuel => ?_) (by simp only; omega) fuel
      rw [s1]
      refine none_of_step (fun fuel => ?_) (by simp only; omega) fuel
      rw [s2]
      exact ih (i + 1) ((i + 1) :: sel) (by omega) rfl (by simp [h2]) fuel
  have hs1 : s 0 < s 1 := by
    rcases Nat.eq_zero_or_pos q with rfl | hq0
    · simp only [zero_add] at hgap
      omega
    · have := hreg 1 hq0
      push_cast at this
      omega
  refine none_of_step (fun fuel => ?_) (by simp only; omega) fuel
  rw [thin_first hs1, hg]
  exact key q 0 [0] (by omega) rfl rfl fuel

/-- C132 is violated in another way: if the first two sources are equally far apart in x and y (sources along z
or along a diagonal), an empty vector is read. -/
theorem C132_direction_violated {a b : Source} {rest : List Source} {shotIncr DH : ℚ} (hi : DH < shotIncr)
    (h : |a.coords.x - b.coords.x| = |a.coords.y - b.coords.y|) (fuel : ℕ) :
    shotInds shotIncr DH (a :: b :: rest) fuel = .ub := by
  have e : linePositions (a :: b :: rest) = [] := by
    simp only [Int.abs_eq_natAbs] at h
    unfold linePositions
    dsimp only
    rw [if_neg, if_neg] <;> omega
  unfold shotInds
  rw [if_pos ⟨by simp, hi⟩, e]

/-- C133 is violated: of sources in decreasing order only the first is kept, whatever the increment. -/
theorem C133_direction_violated {all : List Source} {f : Source → Int} (h : OnLine all f) {shotIncr DH : ℚ}
    (hi : DH < shotIncr) (hdec : ∀ i, i + 1 < all.length → place all f (i + 1) < place all f i) :
    ∃ fuel, shotInds shotIncr DH all fuel = .ok (some [0]) := by
  have hn := (linePositions_of h).2
  have key : ∀ r i, i + r = all.length - 1 → ∃ fuel, thinLoop all.length (place all f) (incrStep shotIncr DH) fuel
      ⟨i, place all f 0, [0]⟩ = some [0] := by
    intro r
    induction r with
    | zero =>
      intro i hr
      exact ⟨1, by rw [thinLoop, if_neg (by simp only; omega)]; rfl⟩
    | succ r ih =>
      intro i hr
      obtain ⟨fuel, hf⟩ := ih (i + 1) (by omega)
      refine ⟨fuel + 1, ?_⟩
      have hle : ∀ j, j ≤ i → place all f i ≤ place all f (i - j) := by
        intro j
        induction j with
        | zero => intro _; exact le_refl _
        | succ j ihj =>
          intro hj
          have h1 := ihj (by omega)
          have h2 := hdec (i - (j + 1)) (by omega)
          have : i - (j + 1) + 1 = i - j := by omega
          rw [this] at h2
          omega
      have h0 := hle i (le_refl _)
      rw [Nat.sub_self] at h0
      have h1 := hdec i (by omega)
      rw [thinLoop, if_pos (by simp only; omega)]
      rw [show thinStep all.length (place all f) (incrStep shotIncr DH) ⟨i, place all f 0, [0]⟩ =
        ⟨i + 1, place all f 0, [0]⟩ from (if_neg fun q => by have := q.2; simp only at this; omega).trans
          (if_neg fun q => by have := q.2.2; simp only at this; omega)]
      exact hf
  obtain ⟨fuel, hf⟩ := key (all.length - 1) 0 (by omega)
  exact ⟨fuel, by rw [shotInds_loop h hi, hf]⟩

/-- C134: if every source is a shot of its own, a kept shot has its source. `partial`: see `C134_violated`. -/
theorem C134_complete_partial {all : List Source} (hd : all.Pairwise fun a b => a.shot ≠ b.shot) {inds : List ℕ}
    (hi : inds.Nodup) {s : Source} (hs : s ∈ thinned all inds) :
    createSettingsForShot (thinned all inds) s.shot = createSettingsForShot all s.shot := by
  have hnd : all.Nodup := hd.imp fun h e => h (by rw [e])
  have hmem : ∀ {x}, x ∈ thinned all inds → x ∈ all := by
    intro x hx
    obtain ⟨i, -, hi⟩ := List.mem_filterMap.mp hx
    exact List.mem_of_getElem? hi
  have htd : (thinned all inds).Nodup := by
    refine List.Nodup.filterMap (fun i j b hb hb' => ?_) hi
    obtain ⟨hl, -⟩ := List.getElem?_eq_some_iff.mp (Option.mem_def.mp hb)
    exact (List.getElem?_inj hl hnd).mp ((Option.mem_def.mp hb).trans (Option.mem_def.mp hb').symm)
  have hone : ∀ {l : List Source}, l.Nodup → (∀ x ∈ l, x ∈ all) → s ∈ l → createSettingsForShot l s.shot = [s] := by
    intro l hl hsub hsl
    have e : createSettingsForShot l s.shot = l.filter (fun t => t.shot = s.shot) := by
      have : ∀ (l acc : List Source), l.foldl (fun r t => if t.shot = s.shot then r ++ [t] else r) acc =
          acc ++ l.filter (fun t => t.shot = s.shot) := by
        intro l
        induction l with
        | nil => simp
        | cons a l ih =>
          intro acc
          simp only [List.foldl_cons, ih, List.filter_cons]
          split_ifs <;> simp_all
      exact (this l []).trans (List.nil_append _)
    rw [e]
    refine List.perm_singleton.mp ((List.perm_ext_iff_of_nodup (hl.filter _) (by simp)).mpr fun x => ?_)
    simp only [List.mem_filter, decide_eq_true_eq, List.mem_singleton]
    constructor
    · rintro ⟨h1, h2⟩
      by_contra hne
      have : Std.Symm fun a b : Source => a.shot ≠ b.shot := ⟨fun _ _ h => h.symm⟩
      exact hd.forall (hsub x h1) (hsub s hsl) hne h2
    · rintro rfl
      exact ⟨hsl, rfl⟩
  rw [hone htd (fun x hx => hmem hx) hs, hone hnd (fun _ h => h) (hmem hs)]

/-- C134 is violated: sources, not shots, are selected. Of two shots with two sources each, the first source of
each is kept. -/
theorem C134_violated : ∃ (all : List Source) (fuel : ℕ) (inds : List ℕ), shotInds 20 1 all fuel = .ok (some inds) ∧
    ∃ s ∈ thinned all inds, createSettingsForShot (thinned all inds) s.shot ≠ createSettingsForShot all s.shot := by
  refine ⟨[⟨1, ⟨10, 5, 0⟩, 1, 1, 1, 0⟩, ⟨1, ⟨20, 5, 0⟩, 1, 1, 1, 1⟩, ⟨2, ⟨30, 5, 0⟩, 1, 1, 1, 2⟩,
    ⟨2, ⟨40, 5, 0⟩, 1, 1, 1, 3⟩], 20, [0, 2], ?_, ?_⟩
  · decide +kernel
  · exact ⟨⟨1, ⟨10, 5, 0⟩, 1, 1, 1, 0⟩, by simp [thinned], by decide +kernel⟩

/-! ### Cases that meet the hypotheses -/

private def srcAt (k : ℕ) (x : Int) : Source := ⟨k + 1, ⟨x, 5, 0⟩, 1, 1, 1, k⟩

/-- Eight sources, 10 to 14 grid points apart; a shot is wanted every 25 grid points. -/
example :
    let all := [srcAt 0 10, srcAt 1 20, srcAt 2 33, srcAt 3 43, srcAt 4 53, srcAt 5 67, srcAt 6 77, srcAt 7 87]
    OnLine all (fun s => s.coords.x) ∧ (∀ i, i + 1 < all.length →
      place all (fun s => s.coords.x) i < place all (fun s => s.coords.x) (i + 1) ∧
      (place all (fun s => s.coords.x) (i + 1) - place all (fun s => s.coords.x) i : ℤ) ≤ (25 / 2 : ℚ) / (1 / 2)) ∧
    shotInds (25 / 2) (1 / 2) all 30 = .ok (some [0, 2, 5, 7]) := by
  refine ⟨⟨_, _, _, rfl, Or.inl ⟨rfl, by decide⟩⟩, ?_, by decide +kernel⟩
  intro i hi
  have : i < 7 := by simp at hi; omega
  interval_cases i <;> simp [place, srcAt] <;> norm_num

/-- Sources 30 grid points apart, increment of 5 grid points: `C132_violated` applies. -/
example : 2 * ⌊(5 : ℚ) / 1 + 1 / 2⌋ < place [srcAt 0 10, srcAt 1 40] (fun s => s.coords.x) 1 -
    place [srcAt 0 10, srcAt 1 40] (fun s => s.coords.x) 0 := by
  simp [place, srcAt]
  norm_num

/-- Sources at 10, 20, 30 and after a gap at 60: `C132_gap_violated` applies with the increment 10. -/
example (fuel : ℕ) : shotInds ((10 : ℕ) * 2) 2 [srcAt 0 10, srcAt 1 20, srcAt 2 30, srcAt 3 60] fuel = .ok none := by
  refine C132_gap_violated (f := fun s => s.coords.x) (q := 2) ⟨_, _, _, rfl, Or.inl ⟨rfl, by decide⟩⟩ (by norm_num)
    (by norm_num) (by simp) ?_ (by simp [place, srcAt]) fuel
  intro i hi
  interval_cases i <;> simp [place, srcAt]

/-- Sources in decreasing order. -/
example : ∀ i, i + 1 < [srcAt 0 60, srcAt 1 40, srcAt 2 20].length →
    place [srcAt 0 60, srcAt 1 40, srcAt 2 20] (fun s => s.coords.x) (i + 1) <
      place [srcAt 0 60, srcAt 1 40, srcAt 2 20] (fun s => s.coords.x) i := by
  intro i hi
  have : i < 2 := by simp at hi; omega
  interval_cases i <;> simp [place, srcAt]

end Verif.Acq
