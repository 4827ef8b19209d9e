import Verif.Lemmas.Grid
import Verif.Lemmas.GridInit
import Verif.Model.Interpolation
import Mathlib.Tactic.LinearCombination
import Mathlib.Tactic.Ring
import Mathlib.Tactic.FieldSimp
/-!
# Lemmas about interfaces of variable grids
-/
namespace Verif.Interp
open Verif.Grid

/-- `N ≡ 1 + D/2 (mod D)` for a power of three `D` carries over to smaller powers. -/
theorem fit_smaller {a b : Nat} {N : Int} (hab : a ≤ b)
    (hN : N % (3 ^ b) = 1 + (3 ^ b) / 2) : a = 0 ∨ N % (3 ^ a) = 1 + (3 ^ a) / 2 := by
  by_cases ha : a = 0
  · exact .inl ha
  right
  obtain ⟨c, rfl⟩ := Nat.exists_eq_add_of_le hab
  obtain ⟨p, hp⟩ := pow3_odd a
  obtain ⟨q, hq⟩ := pow3_odd c
  have h3 : (3 : Int) ≤ 3 ^ a := by
    calc (3 : Int) = 3 ^ 1 := by norm_num
    _ ≤ 3 ^ a := pow_le_pow_right₀ (by norm_num) (by omega)
  have e : (3 : Int) ^ (a + c) = 2 * (q * 3 ^ a + p) + 1 := by
    rw [pow_add, hq]; linear_combination hp
  have hdvd2 : (3 : Int) ^ a ∣ 3 ^ (a + c) := pow_dvd_pow _ (by omega)
  have h1 : N % 3 ^ a = (N % 3 ^ (a + c)) % 3 ^ a := (Int.emod_emod_of_dvd N hdvd2).symm
  have h2 : 1 + (3 : Int) ^ (a + c) / 2 = (1 + p) + 3 ^ a * q := by
    have : (3 : Int) ^ (a + c) / 2 = q * 3 ^ a + p := by rw [e]; omega
    rw [this]; ring
  rw [h1, hN, h2, Int.add_mul_emod_self_left]
  have h4 : (3 : Int) ^ a / 2 = p := by omega
  rw [h4]
  exact Int.emod_eq_of_lt (by omega) (by omega)

/-- What the constructor of a roomy variable grid produces. -/
theorem initVar_struct {NX NY NZ : Int} {dhs ifs : List Int} {g : Grid}
    (h : initVar NX NY NZ dhs ifs = .ok g)
    (hgap : ∃ d ds j js, dhs = d :: ds ∧ ifs ++ [NY - 1] = j :: js ∧ 0 ≤ j ∧ gapsFrom j ds js) :
    (∀ e ∈ dhs, ∃ k : Nat, e = 3 ^ k) ∧
    ∃ d ds i is, dhs = d :: ds ∧ 0 ≤ i ∧ alignedFrom i ds is ∧ g.interfaces = -1 :: i :: is ∧
      g.NY = (i :: is).getLastD 0 + 1 ∧
      g.layers = buildLayers g.NX g.NZ 0 dhs (i :: is) ∧
      (∀ e ∈ dhs, e = 1 ∨ g.NX % e = 1 + e / 2) ∧
      (g.NZ = 1 ∨ ∀ e ∈ dhs, e = 1 ∨ g.NZ % e = 1 + e / 2) := by
  obtain ⟨d, ds, j, js, rfl, hj, hj0, hgap⟩ := hgap
  unfold initVar at h
  simp only [hj] at h
  split at h; · cases h
  split at h; · cases h
  split at h; · cases h
  rename_i hsz
  split at h; · cases h
  rename_i hacc
  split at h; · cases h
  rename_i h0
  have hacc : ∀ e ∈ d :: ds, ∃ k : Nat, e = 3 ^ k := by
    intro e he
    have h1 : (d :: ds).all acceptFactor = true := by simpa using hacc
    have h2 := List.all_eq_true.mp h1 e he
    rcases (acceptFactor_iff e).mp h2 with h3 | h3
    · subst h3
      exact absurd (List.contains_iff_mem.mpr he) (by simpa using h0)
    · exact h3
  refine ⟨hacc, ?_⟩
  have hpos : ∀ e ∈ d :: ds, 0 < e := by
    intro e he; obtain ⟨k, rfl⟩ := hacc e he; positivity
  have hsz : NX > 0 ∧ NY > 0 ∧ NZ > 0 := by simpa using hsz
  by_cases h1 : maxFactor (d :: ds) = 1
  · rw [if_neg (by simpa using h1)] at h
    injection h with h; subst h
    have hone : ∀ e ∈ d :: ds, e = 1 := by
      intro e he
      have := le_maxFactor he; have := hpos e he; omega
    have hal : ∀ (ds js : List Int) (b : Int), (∀ e ∈ ds, e = 1) → gapsFrom b ds js →
        alignedFrom b ds js := by
      intro ds
      induction ds with
      | nil => intro js b _ h; cases js <;> simp_all [gapsFrom, alignedFrom]
      | cons e ds ih =>
        intro js b he h
        cases js with
        | nil => simp [gapsFrom] at h
        | cons j js =>
          refine ⟨h.1, ?_, ih js j (fun e' h' => he e' (List.mem_cons_of_mem _ h')) h.2⟩
          rw [he e List.mem_cons_self]; exact one_dvd _
    exact ⟨d, ds, j, js, rfl, hj0, hal ds js j (fun e he => hone e (List.mem_cons_of_mem _ he)) hgap,
      rfl, by simp only [List.getLastD_cons], rfl, fun e he => .inl (hone e he), .inr fun e he => .inl (hone e he)⟩
  · rw [if_pos (by simpa using h1)] at h
    obtain ⟨b, hb⟩ := hacc _ (maxFactor_mem (by simp) hpos)
    have hb1 : 1 ≤ b := by
      by_contra hb1
      have : b = 0 := by omega
      subst this; exact h1 (by simpa using hb)
    have hDpos : 0 < maxFactor (d :: ds) := by rw [hb]; positivity
    have hfits : ∀ N : Int, N % maxFactor (d :: ds) = 1 + maxFactor (d :: ds) / 2 →
        ∀ e ∈ d :: ds, e = 1 ∨ N % e = 1 + e / 2 := by
      intro N hc e he
      obtain ⟨a, ha⟩ := hacc e he
      have hle := le_maxFactor he
      rw [hb, ha] at hle
      have hab : a ≤ b := (pow_le_pow_iff_right₀ (by norm_num : (1:Int) < 3)).mp hle
      rw [hb] at hc
      rcases fit_smaller hab hc with h | h
      · left; rw [ha, h]; norm_num
      · right; rw [ha]; exact h
    cases hx : fitDown (maxFactor (d :: ds)) NX.toNat with
    | none => simp [hx] at h
    | some NX' =>
      cases hz : (if NZ = 1 then some 1 else fitDown (maxFactor (d :: ds)) NZ.toNat) with
      | none => simp [hx, hz] at h
      | some NZ' =>
        have hX : NX' % maxFactor (d :: ds) = 1 + maxFactor (d :: ds) / 2 := by
          have := fitDown_spec hDpos NX.toNat
          rw [hx] at this
          exact this.2.2.1
        have hZ : NZ' = 1 ∨ NZ' % maxFactor (d :: ds) = 1 + maxFactor (d :: ds) / 2 := by
          split at hz
          · injection hz with hz; omega
          · have := fitDown_spec hDpos NZ.toNat
            rw [hz] at this
            exact .inr this.2.2.1
        have hd : 0 < d := hpos d List.mem_cons_self
        have hnn := Int.emod_nonneg (j - 0) (by omega : d ≠ 0)
        have hemod : (j - 0) % d ≤ j := by
          have h1 := Int.emod_add_mul_ediv (j - 0) d
          have h2 := mul_nonneg hd.le (Int.ediv_nonneg (by omega : 0 ≤ j - 0) hd.le)
          omega
        obtain ⟨is, ha, hal, _, _⟩ := adjust_spec ds js (j - (j - 0) % d) j
          (fun e he => hpos e (List.mem_cons_of_mem _ he)) (by omega) hgap
        have hadj : adjust 0 (d :: ds) (j :: js) = some ((j - (j - 0) % d) :: is) := by
          simp only [adjust, decLoop_init hd, ha, Option.map_some]
        rw [hx, hz, hadj] at h
        injection h with h; subst h
        exact ⟨d, ds, j - (j - 0) % d, is, rfl, by omega, hal, rfl, by simp only [List.getLastD_cons], rfl, hfits NX' hX,
          hZ.imp id (hfits NZ')⟩

/-- Every layer starts at or below the given start, and all but the first at or below the first
interface. -/
theorem buildLayers_start {NX NZ : Int} : ∀ (ds is : List Int) (s d i : Int),
    (∀ e ∈ ds, 0 < e) → s ≤ i → alignedFrom i ds is →
    (∀ l ∈ buildLayers NX NZ s (d :: ds) (i :: is), s ≤ l.start) := by
  intro ds
  induction ds with
  | nil =>
    intro is s d i _ _ hal l hl
    cases is with
    | cons i' is => exact absurd hal (by simp [alignedFrom])
    | nil =>
      simp only [buildLayers, List.mem_singleton] at hl
      subst hl; simp [mkLayer]
  | cons d' ds ih =>
    intro is s d i hpos hsi hal l hl
    cases is with
    | nil => exact absurd hal (by simp [alignedFrom])
    | cons i' is =>
      obtain ⟨hg, hdv, hal'⟩ := hal
      have hd' : 0 < d' := hpos d' List.mem_cons_self
      have hpos' : ∀ e ∈ ds, 0 < e := fun e he => hpos e (List.mem_cons_of_mem _ he)
      simp only [buildLayers] at hl
      split at hl
      · rcases List.mem_cons.mp hl with rfl | hl
        · simp [mkLayer]
        · have := ih is (i + d') d' i' hpos' hg hal' l hl
          omega
      · split at hl
        all_goals
          rcases List.mem_cons.mp hl with rfl | hl
          · simp [mkLayer]
          · have := ih is i d' i' hpos' (by omega) hal' l hl
            omega

theorem buildLayers_head {NX NZ : Int} {s d i : Int} {ds is : List Int}
    (h : alignedFrom i ds is) :
    ∃ l ls, buildLayers NX NZ s (d :: ds) (i :: is) = l :: ls ∧ l.dh = d ∧ l.start = s := by
  cases ds with
  | nil => exact ⟨_, _, rfl, rfl, rfl⟩
  | cons d' ds =>
    cases is with
    | nil => exact absurd h (by simp [alignedFrom])
    | cons i' is =>
      simp only [buildLayers]
      split
      · exact ⟨_, _, rfl, rfl, rfl⟩
      · split <;> exact ⟨_, _, rfl, rfl, rfl⟩

/-- What the layer queries return at an inner interface `y`: the layer found has the factor `d`, the
finer of the two neighbouring layers the factor `fine`, and only a layer with that factor has points
at the depth `y`. -/
structure AtInterface (layers : List Layer) (k : Nat) (lay : Nat) (t y d fine : Int) : Prop where
  ge : k ≤ lay
  d_at : (layers[lay - k]?).map Layer.dh = some d
  fine_at : (t = 1 ∧ k < lay ∧ (layers[lay - 1 - k]?).map Layer.dh = some fine) ∨
    (t = -1 ∧ (layers[lay + 1 - k]?).map Layer.dh = some fine) ∨ (t = 0 ∧ fine = d)
  own : ∀ l ∈ layers, l.start ≤ y → y ≤ l.stop → l.dh = fine
  le : fine ≤ d

theorem atInterface_build {NX NZ y a b : Int} : ∀ (ds is : List Int) (s d i lo : Int) (k n : Nat),
    (∀ e ∈ d :: ds, 0 < e) → s ≤ i → alignedFrom i ds is →
    (i :: is)[n]? = some y → (d :: ds)[n]? = some a → (d :: ds)[n + 1]? = some b →
    AtInterface (buildLayers NX NZ s (d :: ds) (i :: is)) k
      (getLayerFrom y k lo (buildLayers NX NZ s (d :: ds) (i :: is)) (i :: is))
      (((buildLayers NX NZ s (d :: ds) (i :: is)).zip (i :: is)).foldl
        (fun t p => if y = p.2 then p.1.transition else t) 0) y (max a b) (min a b) := by
  intro ds
  induction ds with
  | nil =>
    intro is s d i lo k n _ _ hal hy ha hb
    simp at hb
  | cons d' ds ih =>
    intro is s d i lo k n hpos hsi hal hy ha hb
    cases is with
    | nil => exact absurd hal (by simp [alignedFrom])
    | cons i' is =>
      obtain ⟨hg, hdv, hal'⟩ := hal
      have hd : 0 < d := hpos d List.mem_cons_self
      have hd' : 0 < d' := hpos d' (by simp)
      have hpos' : ∀ e ∈ d' :: ds, 0 < e := fun e he => hpos e (List.mem_cons_of_mem _ he)
      have hpos'' : ∀ e ∈ ds, 0 < e := fun e he => hpos' e (List.mem_cons_of_mem _ he)
      have inc : ∀ (ds is : List Int) (b : Int), (∀ e ∈ ds, 0 < e) → alignedFrom b ds is →
          ∀ j ∈ is, b < j := by
        intro ds
        induction ds with
        | nil => intro is b _ h j hj; cases is <;> simp_all [alignedFrom]
        | cons e ds ih =>
          intro is b hp h j hj
          cases is with
          | nil => simp at hj
          | cons j0 is =>
            obtain ⟨h1, _, h2⟩ := h
            have := hp e List.mem_cons_self
            rcases List.mem_cons.mp hj with rfl | hj
            · omega
            · have := ih is j0 (fun e' he' => hp e' (List.mem_cons_of_mem _ he')) h2 j hj
              omega
      have hinc := inc ds is i' hpos'' hal'
      -- the fold keeps its value on later interfaces
      have fold_skip : ∀ (ls : List Layer) (js : List Int) (t : Int), (∀ j ∈ js, y ≠ j) →
          (ls.zip js).foldl (fun t p => if y = p.2 then p.1.transition else t) t = t := by
        intro ls js
        induction js generalizing ls with
        | nil => intro t _; simp
        | cons j js ih =>
          intro t hne
          cases ls with
          | nil => simp
          | cons l ls =>
            simp only [List.zip_cons_cons, List.foldl_cons]
            rw [if_neg (hne j List.mem_cons_self)]
            exact ih ls t (fun j' hj' => hne j' (List.mem_cons_of_mem _ hj'))
      have hne : ∀ j ∈ i' :: is, i ≠ j := by
        intro j hj
        rcases List.mem_cons.mp hj with rfl | hj
        · omega
        · have := hinc j hj; omega
      cases n with
      | zero => -- first interface
        obtain rfl : i = y := by simpa using hy
        obtain rfl : d = a := by simpa using ha
        obtain rfl : d' = b := by simpa using hb
        simp only [buildLayers]
        split
        · rename_i hlt
          obtain ⟨l1, ls1, e1, dh1, st1⟩ := buildLayers_head (NX := NX) (NZ := NZ) (s := i + d')
            (d := d') hal'
          have hst := buildLayers_start (NX := NX) (NZ := NZ) ds is (i + d') d' i' hpos'' hg hal'
          rw [e1] at hst ⊢
          simp only [getLayerFrom, List.zip_cons_cons, List.foldl_cons]
          rw [max_eq_right (by omega), min_eq_left (by omega)]
          refine ⟨?_, ?_, ?_, ?_, by omega⟩
          · simp [mkLayer]
          · simp [mkLayer, dh1]
          · left
            refine ⟨?_, by simp [mkLayer], by simp [mkLayer]⟩
            have h2 : i ≠ i' := hne i' List.mem_cons_self
            rw [if_neg h2, if_pos trivial, fold_skip _ _ _ (fun j hj => hne j (List.mem_cons_of_mem _ hj))]
            rfl
          · intro l hl h1 h2
            rcases List.mem_cons.mp hl with rfl | hl
            · rfl
            · have := hst l hl; omega
        · rename_i hnlt
          obtain ⟨l1, ls1, e1, dh1, st1⟩ := buildLayers_head (NX := NX) (NZ := NZ) (s := i)
            (d := d') hal'
          have hst2 : ∀ l ∈ ls1, i < l.start := by
            intro l hl
            cases ds with
            | nil =>
              cases is with
              | cons _ _ => exact absurd hal' (by simp [alignedFrom])
              | nil => simp only [buildLayers] at e1; injection e1 with _ e1; subst e1; simp at hl
            | cons d2 ds2 =>
              cases is with
              | nil => exact absurd hal' (by simp [alignedFrom])
              | cons i2 is2 =>
                obtain ⟨hg2, hdv2, hal2⟩ := hal'
                have hd2 : 0 < d2 := hpos'' d2 List.mem_cons_self
                have hp2 : ∀ e ∈ ds2, 0 < e := fun e he => hpos'' e (List.mem_cons_of_mem _ he)
                simp only [buildLayers] at e1
                split at e1
                · injection e1 with _ e1; subst e1
                  have := buildLayers_start ds2 is2 (i' + d2) d2 i2 hp2 hg2 hal2 l hl
                  omega
                · split at e1
                  all_goals
                    injection e1 with _ e1; subst e1
                    have := buildLayers_start ds2 is2 i' d2 i2 hp2 (by omega) hal2 l hl
                    omega
          split
          · rename_i hgt
            rw [e1]
            simp only [getLayerFrom, List.zip_cons_cons, List.foldl_cons]
            rw [max_eq_left (by omega), min_eq_right (by omega)]
            refine ⟨?_, ?_, ?_, ?_, by omega⟩
            · simp [mkLayer]
            · simp [mkLayer]
            · right; left
              refine ⟨?_, by simp [mkLayer, dh1]⟩
              have h2 : i ≠ i' := hne i' List.mem_cons_self
              rw [if_neg h2, if_pos trivial,
                fold_skip _ _ _ (fun j hj => hne j (List.mem_cons_of_mem _ hj))]
              rfl
            · intro l hl h1 h2
              rcases List.mem_cons.mp hl with rfl | hl
              · simp [mkLayer] at h2; omega
              · rcases List.mem_cons.mp hl with rfl | hl
                · exact dh1
                · have := hst2 l hl; omega
          · rename_i hngt
            rw [e1]
            simp only [getLayerFrom, List.zip_cons_cons, List.foldl_cons]
            rw [max_eq_left (by omega), min_eq_right (by omega)]
            refine ⟨?_, ?_, ?_, ?_, by omega⟩
            · simp [mkLayer]
            · simp [mkLayer]
            · right; right
              refine ⟨?_, by omega⟩
              have h2 : i ≠ i' := hne i' List.mem_cons_self
              rw [if_neg h2, if_pos trivial,
                fold_skip _ _ _ (fun j hj => hne j (List.mem_cons_of_mem _ hj))]
              rfl
            · intro l hl h1 h2
              rcases List.mem_cons.mp hl with rfl | hl
              · simp [mkLayer] at h2; omega
              · rcases List.mem_cons.mp hl with rfl | hl
                · exact dh1
                · have := hst2 l hl; omega
      | succ n => -- later interface
        simp only [List.getElem?_cons_succ] at hy ha hb
        have hyi : i < y := by
          have : y ∈ i' :: is := List.mem_of_getElem? hy
          rcases List.mem_cons.mp this with rfl | h
          · omega
          · have := hinc y h; omega
        have step : ∀ (l0 : Layer) (s' : Int), l0.stop ≤ i → s' ≤ i' →
            AtInterface (l0 :: buildLayers NX NZ s' (d' :: ds) (i' :: is)) k
              (getLayerFrom y k lo (l0 :: buildLayers NX NZ s' (d' :: ds) (i' :: is)) (i :: i' :: is))
              (((l0 :: buildLayers NX NZ s' (d' :: ds) (i' :: is)).zip (i :: i' :: is)).foldl
                (fun t p => if y = p.2 then p.1.transition else t) 0) y (max a b) (min a b) := by
          intro l0 s' hst hs'
          have hA := ih is s' d' i' i (k + 1) n hpos' hs' hal' hy ha hb
          have eL : getLayerFrom y k lo (l0 :: buildLayers NX NZ s' (d' :: ds) (i' :: is))
              (i :: i' :: is) =
              getLayerFrom y (k + 1) i (buildLayers NX NZ s' (d' :: ds) (i' :: is)) (i' :: is) := by
            simp only [getLayerFrom]
            rw [if_neg (by omega), if_neg (by omega)]
          rw [eL, List.zip_cons_cons, List.foldl_cons, if_neg (by simp; omega)]
          generalize getLayerFrom y (k + 1) i (buildLayers NX NZ s' (d' :: ds) (i' :: is)) (i' :: is)
            = lay at hA
          have hge := hA.ge
          obtain ⟨m, rfl⟩ := Nat.exists_eq_add_of_le hge
          refine ⟨by omega, ?_, ?_, ?_, hA.le⟩
          · have := hA.d_at
            rw [show k + 1 + m - (k + 1) = m by omega] at this
            rw [show k + 1 + m - k = m + 1 by omega, List.getElem?_cons_succ]; exact this
          · rcases hA.fine_at with ⟨e1, e2, e3⟩ | ⟨e1, e2⟩ | e
            · left
              refine ⟨e1, by omega, ?_⟩
              obtain ⟨m', rfl⟩ : ∃ m', m = m' + 1 := ⟨m - 1, by omega⟩
              rw [show k + 1 + (m' + 1) - 1 - (k + 1) = m' by omega] at e3
              rw [show k + 1 + (m' + 1) - 1 - k = m' + 1 by omega, List.getElem?_cons_succ]; exact e3
            · right; left
              refine ⟨e1, ?_⟩
              rw [show k + 1 + m + 1 - (k + 1) = m + 1 by omega] at e2
              rw [show k + 1 + m + 1 - k = m + 1 + 1 by omega, List.getElem?_cons_succ]; exact e2
            · exact .inr (.inr e)
          · intro l hl h3 h4
            rcases List.mem_cons.mp hl with rfl | hl
            · omega
            · exact hA.own l hl h3 h4
        simp only [buildLayers]
        split
        · exact step _ _ (by simp [mkLayer]) hg
        · split
          · exact step _ _ (by simp [mkLayer]; omega) (by omega)
          · exact step _ _ (by simp [mkLayer]; omega) (by omega)

end Verif.Interp

namespace Verif.Interp
open Verif.Grid

/-- Off the inner interfaces the layer query finds a layer of the grid. -/
theorem layer_off {NX NZ y : Int} : ∀ (ds is : List Int) (s d i lo : Int) (k : Nat),
    alignedFrom i ds is → lo < y → y ≤ (i :: is).getLastD 0 → y ∉ (i :: is).dropLast →
    (∀ e ∈ ds, 0 < e) →
    ∃ m l, getLayerFrom y k lo (buildLayers NX NZ s (d :: ds) (i :: is)) (i :: is) = k + m ∧
      (buildLayers NX NZ s (d :: ds) (i :: is))[m]? = some l ∧ l.dh ∈ d :: ds := by
  intro ds
  induction ds with
  | nil =>
    intro is s d i lo k hal hlo hy hn _
    cases is with
    | cons i' is => exact absurd hal (by simp [alignedFrom])
    | nil =>
      refine ⟨0, mkLayer NX NZ d s i 0, ?_, rfl, by simp [mkLayer]⟩
      simp only [List.getLastD_cons, List.getLastD_nil] at hy
      simp only [buildLayers, getLayerFrom]
      by_cases h : y = i
      · rw [if_neg (by omega), if_pos h]; simp [mkLayer]
      · rw [if_pos (by omega)]; rfl
  | cons d' ds ih =>
    intro is s d i lo k hal hlo hy hn hpos
    cases is with
    | nil => exact absurd hal (by simp [alignedFrom])
    | cons i' is =>
      obtain ⟨hg, hdv, hal'⟩ := hal
      rw [List.dropLast_cons_cons, List.mem_cons, not_or] at hn
      have hy' : y ≤ (i' :: is).getLastD 0 := by simpa [List.getLastD_cons] using hy
      have step : ∀ (l0 : Layer) (s' : Int), l0.dh = d →
          ∃ m l, getLayerFrom y k lo (l0 :: buildLayers NX NZ s' (d' :: ds) (i' :: is))
              (i :: i' :: is) = k + m ∧
            (l0 :: buildLayers NX NZ s' (d' :: ds) (i' :: is))[m]? = some l ∧
            l.dh ∈ d :: d' :: ds := by
        intro l0 s' hd0
        simp only [getLayerFrom]
        by_cases h : y < i
        · rw [if_pos ⟨h, hlo⟩]
          exact ⟨0, l0, rfl, rfl, by simp [hd0]⟩
        · rw [if_neg (by omega), if_neg hn.1]
          obtain ⟨m, l, h1, h2, h3⟩ := ih is s' d' i' i (k + 1) hal' (by omega) hy' hn.2
            (fun e he => hpos e (List.mem_cons_of_mem _ he))
          exact ⟨m + 1, l, by rw [h1]; omega, by simpa using h2, List.mem_cons_of_mem _ h3⟩
      simp only [buildLayers]
      split
      · exact step _ _ rfl
      · split <;> exact step _ _ rfl

theorem buildLayers_dh {NX NZ : Int} : ∀ (ds is : List Int) (s d i : Int), alignedFrom i ds is →
    (buildLayers NX NZ s (d :: ds) (i :: is)).map Layer.dh = d :: ds := by
  intro ds
  induction ds with
  | nil =>
    intro is s d i hal
    cases is with
    | cons i' is => exact absurd hal (by simp [alignedFrom])
    | nil => rfl
  | cons d' ds ih =>
    intro is s d i hal
    cases is with
    | nil => exact absurd hal (by simp [alignedFrom])
    | cons i' is =>
      have h := fun s' => ih is s' d' i' hal.2.2
      simp only [buildLayers]
      split
      · simp [h, mkLayer]
      · split <;> simp [h, mkLayer]

theorem buildLayers_length {NX NZ : Int} : ∀ (ds is : List Int) (s d i : Int), alignedFrom i ds is →
    (buildLayers NX NZ s (d :: ds) (i :: is)).length = (i :: is).length := by
  intro ds
  induction ds with
  | nil =>
    intro is s d i hal
    cases is with
    | cons i' is => exact absurd hal (by simp [alignedFrom])
    | nil => rfl
  | cons d' ds ih =>
    intro is s d i hal
    cases is with
    | nil => exact absurd hal (by simp [alignedFrom])
    | cons i' is =>
      have h := fun s' => ih is s' d' i' hal.2.2
      simp only [buildLayers]
      split
      · simpa using h _
      · split <;> simpa using h _

/-- Facts about one direction of the interpolation: `m` is the distance to the coarse point below,
`k` the safety distance in fine cells. -/
structure AxisOK (N d fine k x m : Int) : Prop where
  lo : 0 ≤ x - m ∧ x - m < N ∧ fine ∣ x - m
  hi : x + k * fine < N → 0 ≤ x + d - m ∧ x + d - m < N ∧ fine ∣ x + d - m
  ge : m ≤ x

/-- Points of a list of coordinates that all belong to the layer of factor `fine` at depth `y`. -/
theorem toColumns_ok {g : Grid} {P : Coord → Prop}
    (hP : ∀ c, P c → ∃ j, index2coordinate g j = .ok c ∧ coordinate2index g c = .ok j) :
    ∀ pts : List (Coord × ℚ), (∀ p ∈ pts, P p.1) →
      ∃ row, toColumns g pts = .ok row ∧ row.map Prod.snd = pts.map Prod.snd ∧
        ∀ (f : Int → ℚ) (F : Coord → ℚ), (∀ j c, P c → index2coordinate g j = .ok c → f j = F c) →
          rowValue row f = (pts.map fun p => p.2 * F p.1).sum := by
  intro pts
  induction pts with
  | nil => intro _; exact ⟨[], rfl, rfl, fun _ _ _ => rfl⟩
  | cons p ps ih =>
    intro h
    obtain ⟨row, h1, h2, h3⟩ := ih fun q hq => h q (List.mem_cons_of_mem _ hq)
    obtain ⟨j, hj, hc⟩ := hP p.1 (h p List.mem_cons_self)
    refine ⟨(j, p.2) :: row, ?_, by simp [h2], ?_⟩
    · simp [toColumns, hc, h1]
    · intro f F hf
      have := h3 f F hf
      simp only [rowValue, List.map_cons, List.sum_cons] at this ⊢
      rw [this, hf j p.1 (h p List.mem_cons_self) hj]

/-- The four weights are products of the one-dimensional ones. -/
theorem points_sum {NX NZ d fine : Int} {stX stZ : Bool} {c : Coord} (hd : 0 < d) {mx mz : Int}
    (hmx : mx = (if stX then c.x - d.tdiv 2 else c.x).tmod d)
    (hmz : mz = (if stZ then c.z - d.tdiv 2 else c.z).tmod d) (hgx : mx ≤ c.x) (hgz : mz ≤ c.z)
    (a b : ℚ → ℚ) :
    ((interfacePoints NX NZ d fine stX stZ c).map fun p => p.2 * (a p.1.x * b p.1.z)).sum =
      (((d - mx : ℚ) * a (c.x - mx) +
        (if c.x + (if stX then 1 else 2) * fine < NX then mx * a (c.x + d - mx) else 0)) / d) *
      (((d - mz : ℚ) * b (c.z - mz) +
        (if c.z + (if stZ then 1 else 2) * fine < NZ then mz * b (c.z + d - mz) else 0)) / d) := by
  unfold interfacePoints
  simp only
  rw [← hmx, ← hmz]
  have hd' : (d : ℚ) ≠ 0 := by exact_mod_cast hd.ne'
  generalize (if stX then (1 : Int) else 2) = kx
  generalize (if stZ then (1 : Int) else 2) = kz
  rw [if_pos ⟨fun _ => hgx, fun _ => hgz⟩]
  by_cases h1 : c.x + kx * fine < NX <;> by_cases h2 : c.z + kz * fine < NZ <;>
    simp [h1, h2, hgx] <;> field_simp <;> ring

theorem interfacePoints_mem {NX NZ d fine : Int} {stX stZ : Bool} {c : Coord} {mx mz : Int}
    (hmx : mx = (if stX then c.x - d.tdiv 2 else c.x).tmod d)
    (hmz : mz = (if stZ then c.z - d.tdiv 2 else c.z).tmod d)
    (hX : AxisOK NX d fine (if stX then 1 else 2) c.x mx)
    (hZ : AxisOK NZ d fine (if stZ then 1 else 2) c.z mz) :
    ∀ p ∈ interfacePoints NX NZ d fine stX stZ c, p.1.y = c.y ∧ (0 ≤ p.1.x ∧ p.1.x < NX) ∧
      (0 ≤ p.1.z ∧ p.1.z < NZ) ∧ fine ∣ p.1.x ∧ fine ∣ p.1.z := by
  unfold interfacePoints
  simp only
  rw [← hmx, ← hmz]
  obtain ⟨x1, x2, x3⟩ := hX.lo
  obtain ⟨z1, z2, z3⟩ := hZ.lo
  have hxhi := hX.hi
  have hzhi := hZ.hi
  generalize (if stX then (1 : Int) else 2) = kx at *
  generalize (if stZ then (1 : Int) else 2) = kz at *
  intro p hp
  simp only [List.mem_append] at hp
  rcases hp with ((hp | hp) | hp) | hp
  · split at hp
    · simp only [List.mem_singleton] at hp; subst hp
      exact ⟨rfl, ⟨x1, x2⟩, ⟨z1, z2⟩, x3, z3⟩
    · simp at hp
  · split at hp
    · rename_i h
      simp only [List.mem_singleton] at hp; subst hp
      obtain ⟨a, b, e⟩ := hxhi h
      exact ⟨rfl, ⟨a, b⟩, ⟨z1, z2⟩, e, z3⟩
    · simp at hp
  · split at hp
    · rename_i h
      simp only [List.mem_singleton] at hp; subst hp
      obtain ⟨a, b, e⟩ := hzhi h.2
      exact ⟨rfl, ⟨x1, x2⟩, ⟨a, b⟩, x3, e⟩
    · simp at hp
  · split at hp
    · rename_i h
      simp only [List.mem_singleton] at hp; subst hp
      obtain ⟨a, b, e⟩ := hzhi h.2
      obtain ⟨a', b', e'⟩ := hxhi h.1
      exact ⟨rfl, ⟨a', b'⟩, ⟨a, b⟩, e', e⟩
    · simp at hp

/-- The non-staggered direction. -/
theorem axis_plain {N d fine x : Int} (hf : 0 < fine) (hd : d = fine ∨ d = 3 * fine)
    (hodd : ∃ p, fine = 2 * p + 1) (hx0 : 0 ≤ x) (hxN : x < N) (hdv : fine ∣ x)
    (hN : N = 1 ∨ d = 1 ∨ N % d = 1 + d / 2) :
    AxisOK N d fine 2 x (x.tmod d) ∧ 0 ≤ x.tmod d ∧ x.tmod d < d ∧
      (¬ x + 2 * fine < N → x.tmod d = 0 ∨ (d = 3 * fine ∧ x.tmod d = fine ∧ N ≤ x + d - fine)) ∧
      (x + 2 * fine < N → x.tmod d = 0 ∨ x + d - x.tmod d < N) := by
  have hdpos : 0 < d := by omega
  rw [Int.tmod_eq_emod_of_nonneg hx0]
  obtain ⟨p, hp⟩ := hodd
  have em := Int.emod_add_mul_ediv x d
  have e0 := Int.emod_nonneg x hdpos.ne'
  have e1 := Int.emod_lt_of_pos x hdpos
  have q0 := Int.ediv_nonneg hx0 hdpos.le
  have hdf : fine ∣ d := by rcases hd with h | h <;> rw [h]; exact dvd_mul_left _ _
  have hm : fine ∣ x % d := (Int.dvd_iff_emod_eq_zero.mpr (by
    rw [Int.emod_emod_of_dvd x hdf]; exact Int.emod_eq_zero_of_dvd hdv))
  obtain ⟨r, hr⟩ := hm
  have hq : x - x % d = d * (x / d) := by omega
  have hqn : 0 ≤ d * (x / d) := mul_nonneg hdpos.le q0
  have hnext : x + d - x % d = d * (x / d + 1) := by rw [mul_add]; omega
  have key : x + 2 * fine < N → x + d - x % d < N := by
    intro h
    rcases hN with h1 | h1 | h1
    · omega
    · omega
    · have en := Int.emod_add_mul_ediv N d
      rw [h1] at en
      by_contra hc
      -- then N / d ≤ x / d
      have hle : N / d ≤ x / d := by
        by_contra hlt
        have : d * (x / d + 1) ≤ d * (N / d) := mul_le_mul_of_nonneg_left (by omega) hdpos.le
        have : 0 ≤ d / 2 := Int.ediv_nonneg hdpos.le (by norm_num)
        omega
      have : d * (N / d) ≤ d * (x / d) := mul_le_mul_of_nonneg_left hle hdpos.le
      rcases hd with h2 | h2 <;> omega
  refine ⟨⟨⟨by omega, by omega, ?_⟩, ?_, by omega⟩, e0, e1, ?_, fun h => .inr (key h)⟩
  · exact Int.dvd_sub hdv ⟨r, hr⟩
  · intro h
    exact ⟨by omega, key h, Int.dvd_sub (Int.dvd_add hdv hdf) ⟨r, hr⟩⟩
  · intro h
    rcases hd with h2 | h2
    · left
      rw [h2]; exact Int.emod_eq_zero_of_dvd hdv
    · have hr3 : r = 0 ∨ r = 1 ∨ r = 2 := by
        have h3 : fine * r < fine * 3 := by omega
        have h4 : r < 3 := lt_of_mul_lt_mul_left h3 hf.le
        have h5 : 0 ≤ r := by
          by_contra h5
          have : fine * r < 0 := mul_neg_of_pos_of_neg hf (by omega)
          omega
        omega
      rcases hr3 with rfl | rfl | rfl
      · left; omega
      · right; exact ⟨h2, by omega, by omega⟩
      · exfalso
        rcases hN with h1 | h1 | h1
        · omega
        · omega
        · have en := Int.emod_add_mul_ediv N d
          rw [h1] at en
          have hle : x / d < N / d := by
            by_contra hlt
            have : d * (N / d) ≤ d * (x / d) := mul_le_mul_of_nonneg_left (by omega) hdpos.le
            omega
          have : d * (x / d + 1) ≤ d * (N / d) := mul_le_mul_of_nonneg_left (by omega) hdpos.le
          rw [mul_add] at this
          omega

/-- The staggered direction between a layer of factor three and one of factor one. -/
theorem axis_staggered {N x : Int} (hx0 : 0 ≤ x) (hxN : x < N) (h5 : 5 ≤ N) (hN : N % 3 = 2) :
    AxisOK N 3 1 1 x ((x - Int.tdiv 3 2).tmod 3) ∧
      (¬ x + 1 * 1 < N → (x - Int.tdiv 3 2).tmod 3 = 0) := by
  rw [show Int.tdiv 3 2 = 1 from rfl]
  have : (x - 1).tmod 3 = if x = 0 then -1 else (x - 1) % 3 := by
    split
    · subst_vars; rfl
    · rw [Int.tmod_eq_emod_of_nonneg (by omega)]
  rw [this]
  split
  · subst_vars
    exact ⟨⟨⟨by omega, by omega, one_dvd _⟩, fun _ => ⟨by omega, by omega, one_dvd _⟩, by omega⟩,
      by omega⟩
  · refine ⟨⟨⟨by omega, by omega, one_dvd _⟩, fun _ => ⟨by omega, by omega, one_dvd _⟩, by omega⟩, ?_⟩
    omega

end Verif.Interp
