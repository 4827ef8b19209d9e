import Verif.Props.Interpolation
import Verif.Lemmas.Averaging
/-!
# C75, C76: queries by depth and validation of variable grids
-/
namespace Verif.Interp
open Verif.Grid

/-! ### Helpers -/

private theorem inc_lt : ∀ (lo : Int) (his : List Int) (m : Nat) (h : Int),
    List.Pairwise (· < ·) (lo :: his) → his[m]? = some h → lo < h := by
  intro lo his m h hp hm
  exact (List.pairwise_cons.mp hp).1 h (List.mem_of_getElem? hm)

private theorem layer_between {y : Int} : ∀ (ls : List Layer) (his : List Int) (lo : Int) (k m : Nat)
    (a b : Int), ls.length = his.length → List.Pairwise (· < ·) (lo :: his) →
    (lo :: his)[m]? = some a → his[m]? = some b → a < y → y < b →
    getLayerFrom y k lo ls his = k + m := by
  intro ls
  induction ls with
  | nil =>
    intro his lo k m a b hlen _ _ hb _ _
    cases his with
    | nil => simp at hb
    | cons _ _ => simp at hlen
  | cons l ls ih =>
    intro his lo k m a b hlen hp ha hb h1 h2
    cases his with
    | nil => simp at hlen
    | cons hi his =>
      have hlo := (List.pairwise_cons.mp hp).1
      have hp' := (List.pairwise_cons.mp hp).2
      simp only [getLayerFrom]
      cases m with
      | zero =>
        simp only [List.getElem?_cons_zero, Option.some.injEq] at ha hb
        subst ha; subst hb
        rw [if_pos ⟨h2, h1⟩]; rfl
      | succ m =>
        simp only [List.getElem?_cons_succ] at ha hb
        have hge : hi ≤ a := by
          cases m with
          | zero => simp at ha; omega
          | succ m =>
            simp only [List.getElem?_cons_succ] at ha
            exact (inc_lt hi his m a hp' ha).le
        rw [if_neg (by omega), if_neg (by omega)]
        rw [ih his hi (k + 1) m a b (by simpa using hlen) hp' ha hb h1 h2]
        omega

private theorem layer_at {y : Int} : ∀ (ls : List Layer) (his : List Int) (lo : Int) (k m : Nat)
    (l : Layer), ls.length = his.length → List.Pairwise (· < ·) (lo :: his) →
    his[m]? = some y → ls[m]? = some l →
    getLayerFrom y k lo ls his = if l.transition > 0 then k + m + 1 else k + m := by
  intro ls
  induction ls with
  | nil =>
    intro his lo k m l _ _ _ hl
    simp at hl
  | cons l0 ls ih =>
    intro his lo k m l hlen hp hy hl
    cases his with
    | nil => simp at hlen
    | cons hi his =>
      have hp' := (List.pairwise_cons.mp hp).2
      simp only [getLayerFrom]
      cases m with
      | zero =>
        simp only [List.getElem?_cons_zero, Option.some.injEq] at hy hl
        subst hl; subst hy
        rw [if_neg (by omega), if_pos rfl]
        rfl
      | succ m =>
        simp only [List.getElem?_cons_succ] at hy hl
        have hlt := inc_lt hi his m y hp' hy
        rw [if_neg (by omega), if_neg (by omega)]
        rw [ih his hi (k + 1) m l (by simpa using hlen) hp' hy hl]
        split <;> omega

private theorem trans_at {y : Int} : ∀ (ls : List Layer) (his : List Int) (lo t : Int) (m : Nat)
    (l : Layer), List.Pairwise (· < ·) (lo :: his) → his[m]? = some y → ls[m]? = some l →
    (ls.zip his).foldl (fun t p => if y = p.2 then p.1.transition else t) t = l.transition := by
  intro ls
  induction ls with
  | nil => intro his lo t m l _ _ hl; simp at hl
  | cons l0 ls ih =>
    intro his lo t m l hp hy hl
    cases his with
    | nil => simp at hy
    | cons hi his =>
      have hp' := (List.pairwise_cons.mp hp).2
      rw [List.zip_cons_cons, List.foldl_cons]
      cases m with
      | zero =>
        simp only [List.getElem?_cons_zero, Option.some.injEq] at hy hl
        subst hl; subst hy
        rw [if_pos rfl, Avg.trans_skip]
        intro j hj
        have := (List.pairwise_cons.mp hp').1 j hj
        omega
      | succ m =>
        simp only [List.getElem?_cons_succ] at hy hl
        exact ih his hi _ m l hp' hy hl

/-- Transitions of the layers built. -/
private theorem build_transition {NX NZ : Int} : ∀ (ds is : List Int) (s d i : Int) (m : Nat)
    (la lb : Layer), alignedFrom i ds is →
    (buildLayers NX NZ s (d :: ds) (i :: is))[m]? = some la →
    (buildLayers NX NZ s (d :: ds) (i :: is))[m + 1]? = some lb →
    la.transition = if la.dh < lb.dh then 1 else if la.dh > lb.dh then -1 else 0 := by
  intro ds
  induction ds with
  | nil =>
    intro is s d i m la lb hal _ hb
    cases is with
    | cons _ _ => exact absurd hal (by simp [alignedFrom])
    | nil => simp [buildLayers] at hb
  | cons d' ds ih =>
    intro is s d i m la lb hal ha hb
    cases is with
    | nil => exact absurd hal (by simp [alignedFrom])
    | cons i' is =>
      obtain ⟨_, _, hal'⟩ := hal
      have step : ∀ (l0 : Layer) (s' : Int), l0.dh = d →
          l0.transition = (if d < d' then 1 else if d > d' then -1 else 0) →
          (l0 :: buildLayers NX NZ s' (d' :: ds) (i' :: is))[m]? = some la →
          (l0 :: buildLayers NX NZ s' (d' :: ds) (i' :: is))[m + 1]? = some lb →
          la.transition = if la.dh < lb.dh then 1 else if la.dh > lb.dh then -1 else 0 := by
        intro l0 s' h0 ht ha hb
        cases m with
        | zero =>
          obtain ⟨l1, ls1, e1, dh1, _⟩ := buildLayers_head (NX := NX) (NZ := NZ) (s := s') (d := d') hal'
          rw [e1] at hb
          simp only [List.getElem?_cons_zero, List.getElem?_cons_succ, Option.some.injEq] at ha hb
          subst ha; subst hb
          rw [ht, h0, dh1]
        | succ m =>
          simp only [List.getElem?_cons_succ] at ha hb
          exact ih is s' d' i' m la lb hal' ha hb
      simp only [buildLayers] at ha hb
      split at ha
      · rename_i h
        rw [if_pos h] at hb
        exact step _ _ rfl (by rw [if_pos h]; rfl) ha hb
      · rename_i h
        rw [if_neg h] at hb
        split at ha
        · rename_i h'
          rw [if_pos h'] at hb
          exact step _ _ rfl (by rw [if_neg h, if_pos h']; rfl) ha hb
        · rename_i h'
          rw [if_neg h'] at hb
          exact step _ _ rfl (by rw [if_neg h, if_neg h']; rfl) ha hb

private theorem last_transition {NX NZ : Int} : ∀ (ds is : List Int) (s d i : Int) (l : Layer),
    alignedFrom i ds is →
    (buildLayers NX NZ s (d :: ds) (i :: is))[ds.length]? = some l → l.transition = 0 := by
  intro ds
  induction ds with
  | nil =>
    intro is s d i l hal h
    cases is with
    | cons _ _ => exact absurd hal (by simp [alignedFrom])
    | nil =>
      simp only [buildLayers, List.length_nil, List.getElem?_cons_zero, Option.some.injEq] at h
      subst h; rfl
  | cons d' ds ih =>
    intro is s d i l hal h
    cases is with
    | nil => exact absurd hal (by simp [alignedFrom])
    | cons i' is =>
      obtain ⟨_, _, hal'⟩ := hal
      simp only [buildLayers, List.length_cons] at h
      split at h
      · exact ih is _ d' i' l hal' (by simpa using h)
      · split at h <;> exact ih is _ d' i' l hal' (by simpa using h)

/-- The structure of an accepted grid that the queries use. -/
private structure Struct (g : Grid) where
  his : List Int
  ifs : g.interfaces = -1 :: his
  len : g.layers.length = his.length
  inc : List.Pairwise (· < ·) (-1 :: his)
  last : his.getLast? = some (g.NY - 1)
  tr : ∀ m la lb, g.layers[m]? = some la → g.layers[m + 1]? = some lb →
    la.transition = if la.dh < lb.dh then 1 else if la.dh > lb.dh then -1 else 0
  trLast : ∀ l, g.layers[g.layers.length - 1]? = some l → l.transition = 0

private theorem pairwise_of_inc : ∀ (ds is : List Int) (b : Int), (∀ e ∈ ds, 0 < e) →
    alignedFrom b ds is → List.Pairwise (· < ·) (b :: is) := by
  intro ds
  induction ds with
  | nil => intro is b _ h; cases is <;> simp_all [alignedFrom]
  | cons e ds ih =>
    intro is b hp h
    cases is with
    | nil => simp
    | cons j is =>
      have hinc := Avg.aligned_inc (e :: ds) (j :: is) b hp h
      obtain ⟨_, _, h2⟩ := h
      exact List.pairwise_cons.mpr ⟨hinc, ih is j (fun e' he' => hp e' (List.mem_cons_of_mem _ he')) h2⟩

private theorem struct_of {NX NY NZ : Int} {dhs ifs : List Int} {g : Grid}
    (h : initVar NX NY NZ dhs ifs = .ok g) (hr : Roomy NY dhs ifs) : Nonempty (Struct g) := by
  obtain ⟨hpow, d, ds, i0, is, rfl, hi0, hal, hif, hNY, hlay, _, _⟩ :=
    initVar_struct h (hr.gaps (initVar_len h))
  have hpos : ∀ e ∈ ds, 0 < e := by
    intro e he; obtain ⟨k, rfl⟩ := hpow e (List.mem_cons_of_mem _ he); positivity
  have hp := pairwise_of_inc ds is i0 hpos hal
  have hlen : g.layers.length = (i0 :: is).length := by
    rw [hlay]; exact buildLayers_length ds is 0 d i0 hal
  have hds : ds.length = is.length := by
    have := congrArg List.length (buildLayers_dh (NX := g.NX) (NZ := g.NZ) ds is 0 d i0 hal)
    rw [List.length_map, ← hlay, hlen] at this
    simpa using this.symm
  refine ⟨⟨i0 :: is, hif, hlen, ?_, ?_, ?_, ?_⟩⟩
  · refine List.pairwise_cons.mpr ⟨?_, hp⟩
    intro j hj
    rcases List.mem_cons.mp hj with rfl | hj
    · omega
    · have := (List.pairwise_cons.mp hp).1 j hj; omega
  · rw [hNY]
    rw [List.getLastD_eq_getLast?]
    cases hl : (i0 :: is).getLast? with
    | none => simp at hl
    | some v => simp
  · intro m la lb ha hb
    rw [hlay] at ha hb
    exact build_transition ds is 0 d i0 m la lb hal ha hb
  · intro l hl
    have : g.layers.length - 1 = ds.length := by rw [hlen, hds]; simp
    rw [this, hlay] at hl
    exact last_transition ds is 0 d i0 l hal hl

/-! ### C75: queries by depth -/

/-- C75: the layer query. Strictly between two interfaces it returns the layer between them; on an
interface between two layers it returns the coarser one (the upper one for equal factors); at the
bottom of the model it returns the last layer. -/
theorem C75_layer {NX NY NZ : Int} {dhs ifs : List Int} {g : Grid}
    (h : initVar NX NY NZ dhs ifs = .ok g) (hr : Roomy NY dhs ifs) (y : Int) :
    (∀ k a b, g.interfaces[k]? = some a → g.interfaces[k + 1]? = some b → a < y → y < b →
      getLayer g y = k) ∧
    (∀ k la lb, g.layers[k]? = some la → g.layers[k + 1]? = some lb →
      g.interfaces[k + 1]? = some y → getLayer g y = if la.dh < lb.dh then k + 1 else k) ∧
    (y = g.NY - 1 → getLayer g y = g.layers.length - 1) := by
  obtain ⟨S⟩ := struct_of h hr
  have hL : getLayer g y = getLayerFrom y 0 (-1) g.layers S.his := by
    unfold getLayer; rw [S.ifs]
  rw [hL]
  refine ⟨?_, ?_, ?_⟩
  · intro k a b ha hb h1 h2
    rw [S.ifs] at ha hb
    rw [layer_between g.layers S.his (-1) 0 k a b S.len S.inc ha (by simpa using hb) h1 h2]
    omega
  · intro k la lb ha hb hy
    rw [S.ifs] at hy
    rw [layer_at g.layers S.his (-1) 0 k la S.len S.inc (by simpa using hy) ha, S.tr k la lb ha hb]
    by_cases h1 : la.dh < lb.dh
    · simp [h1]
    · by_cases h2 : la.dh > lb.dh
      · simp [h1, h2]
      · simp [h1, h2]
  · rintro rfl
    have hlast := S.last
    rw [List.getLast?_eq_getElem?] at hlast
    rw [← S.len] at hlast
    have hne : g.layers.length - 1 < g.layers.length := by
      have := (List.getElem?_eq_some_iff.mp hlast).1
      rw [← S.len] at this; exact this
    have hget := List.getElem?_eq_getElem hne
    rw [layer_at g.layers S.his (-1) 0 _ _ S.len S.inc hlast hget, S.trLast _ hget]
    simp

/-- C75: a depth in the model is reported to lie on an interface exactly if it separates two
layers, and the transition reported there says which side is finer. -/
theorem C75_interface {NX NY NZ : Int} {dhs ifs : List Int} {g : Grid}
    (h : initVar NX NY NZ dhs ifs = .ok g) (hr : Roomy NY dhs ifs) {y : Int} (h0 : 0 ≤ y) :
    (locatedOnInterface g y = true ↔ ∃ a b, Adjacent g y a b) ∧
    (∀ a b, Adjacent g y a b →
      getTransition g y = .ok (if a < b then 1 else if a > b then -1 else 0)) ∧
    ((¬ ∃ a b, Adjacent g y a b) → getTransition g y = .err) := by
  obtain ⟨S⟩ := struct_of h hr
  have hiff : locatedOnInterface g y = true ↔ ∃ a b, Adjacent g y a b := by
    unfold locatedOnInterface
    rw [List.contains_iff_mem]
    constructor
    · intro hm
      obtain ⟨n, hn⟩ := List.getElem?_of_mem hm
      rw [List.getElem?_take] at hn
      split at hn
      · rename_i hlt
        rw [S.ifs] at hn
        cases n with
        | zero => simp at hn; omega
        | succ n =>
          refine ⟨_, _, n, g.layers[n], g.layers[n + 1], List.getElem?_eq_getElem (by omega),
            List.getElem?_eq_getElem hlt, ?_, rfl, rfl⟩
          rw [S.ifs]; exact hn
      · cases hn
    · rintro ⟨a, b, k, la, lb, _, hb, hy, _, _⟩
      apply List.mem_of_getElem? (i := k + 1)
      rw [List.getElem?_take, if_pos (List.getElem?_eq_some_iff.mp hb).1]
      exact hy
  refine ⟨hiff, ?_, ?_⟩
  · rintro a b ⟨k, la, lb, ha, hb, hy, rfl, rfl⟩
    have hon := hiff.mpr ⟨_, _, k, la, lb, ha, hb, hy, rfl, rfl⟩
    unfold getTransition
    rw [if_pos hon, S.ifs]
    rw [S.ifs] at hy
    simp only [List.tail_cons]
    rw [trans_at g.layers S.his (-1) 0 k la S.inc (by simpa using hy) ha, S.tr k la lb ha hb]
  · intro hn
    unfold getTransition
    rw [if_neg (fun hon => hn (hiff.mp hon))]

private theorem fold_min (y : Int) : ∀ (is : List Int) (d : Int),
    let r := is.foldl (fun dist i => if ((y - i).natAbs : Int) < dist then ((y - i).natAbs : Int) else dist) d
    r ≤ d ∧ (∀ i ∈ is, r ≤ |y - i|) ∧ (r = d ∨ ∃ i ∈ is, r = |y - i|) := by
  intro is
  induction is with
  | nil => intro d; simp
  | cons i is ih =>
    intro d
    simp only [List.foldl_cons]
    have e : ((y - i).natAbs : Int) = |y - i| := Int.natCast_natAbs _
    obtain ⟨h1, h2, h3⟩ := ih (if ((y - i).natAbs : Int) < d then ((y - i).natAbs : Int) else d)
    generalize is.foldl (fun dist i => if ((y - i).natAbs : Int) < dist then ((y - i).natAbs : Int)
      else dist) (if ((y - i).natAbs : Int) < d then ((y - i).natAbs : Int) else d) = r at *
    rw [e] at h1 h3
    by_cases hc : |y - i| < d
    · rw [if_pos hc] at h1 h3
      refine ⟨by omega, ?_, ?_⟩
      · intro j hj
        rcases List.mem_cons.mp hj with rfl | hj
        · exact h1
        · exact h2 j hj
      · rcases h3 with h3 | ⟨j, hj, h3⟩
        · exact .inr ⟨i, List.mem_cons_self, h3⟩
        · exact .inr ⟨j, List.mem_cons_of_mem _ hj, h3⟩
    · rw [if_neg hc] at h1 h3
      refine ⟨h1, ?_, ?_⟩
      · intro j hj
        rcases List.mem_cons.mp hj with rfl | hj
        · omega
        · exact h2 j hj
      · rcases h3 with h3 | ⟨j, hj, h3⟩
        · exact .inl h3
        · exact .inr ⟨j, List.mem_cons_of_mem _ hj, h3⟩

/-- C75: the distance to the interfaces is the smallest distance in depth to an interface between
two layers, and NY if the grid has only one layer. -/
theorem C75_distance {NX NY NZ : Int} {dhs ifs : List Int} {g : Grid}
    (h : initVar NX NY NZ dhs ifs = .ok g) (hr : Roomy NY dhs ifs) {y : Int} (h0 : 0 ≤ y)
    (hy : y < g.NY) :
    (∀ i a b, Adjacent g i a b → distToInterface g y ≤ |y - i|) ∧
    ((∃ i a b, Adjacent g i a b ∧ distToInterface g y = |y - i|) ∨
      (distToInterface g y = g.NY ∧ ¬ ∃ i a b, Adjacent g i a b)) := by
  obtain ⟨S⟩ := struct_of h hr
  have hmem : ∀ i, i ∈ g.interfaces.tail.dropLast ↔ ∃ a b, Adjacent g i a b := by
    intro i
    rw [S.ifs, List.tail_cons, List.dropLast_eq_take, ← S.len]
    constructor
    · intro hm
      obtain ⟨n, hn⟩ := List.getElem?_of_mem hm
      rw [List.getElem?_take] at hn
      split at hn
      · rename_i hlt
        exact ⟨_, _, n, g.layers[n], g.layers[n + 1], List.getElem?_eq_getElem (by omega),
            List.getElem?_eq_getElem (by omega), by rw [S.ifs]; exact hn, rfl, rfl⟩
      · cases hn
    · rintro ⟨a, b, k, la, lb, _, hb, hi, _, _⟩
      rw [S.ifs] at hi
      apply List.mem_of_getElem? (i := k)
      have := (List.getElem?_eq_some_iff.mp hb).1
      rw [List.getElem?_take, if_pos (by omega)]
      simpa using hi
  obtain ⟨_, h2, h3⟩ := fold_min y g.interfaces.tail.dropLast g.NY
  refine ⟨fun i a b hA => h2 i ((hmem i).mpr ⟨a, b, hA⟩), ?_⟩
  by_cases hex : ∃ i a b, Adjacent g i a b
  · left
    rcases h3 with h3 | ⟨i, hi, h3⟩
    · -- not attained by the start value, as every interface is nearer than NY
      exfalso
      obtain ⟨i, a, b, hA⟩ := hex
      have := h2 i ((hmem i).mpr ⟨a, b, hA⟩)
      rw [h3] at this
      have hin : i ∈ S.his := by
        have := (hmem i).mpr ⟨a, b, hA⟩
        rw [S.ifs, List.tail_cons] at this
        exact List.mem_of_mem_dropLast this
      have hlo := (List.pairwise_cons.mp S.inc).1 i hin
      have hhi : i ≤ g.NY - 1 := by
        have hp := (List.pairwise_cons.mp S.inc).2
        have hl := S.last
        obtain ⟨ys, hys⟩ := List.getLast?_eq_some_iff.mp hl
        rw [hys] at hp hin
        rcases List.mem_append.mp hin with hin | hin
        · have := (List.pairwise_append.mp hp).2.2 i hin (g.NY - 1) (by simp)
          omega
        · have := List.mem_singleton.mp hin; omega
      have := abs_lt.mpr (show -g.NY < y - i ∧ y - i < g.NY by omega)
      omega
    · obtain ⟨a, b, hA⟩ := (hmem i).mp hi
      exact ⟨i, a, b, hA, h3⟩
  · right
    refine ⟨?_, hex⟩
    rcases h3 with h3 | ⟨i, hi, _⟩
    · exact h3
    · obtain ⟨a, b, hA⟩ := (hmem i).mp hi
      exact absurd ⟨i, a, b, hA⟩ hex

/-- C75: on a regular grid the points reported at the surface are the first NX·NZ indices. -/
theorem C75_surface {NX NY NZ : Int} {g : Grid} (h : initRegular NX NY NZ = .ok g)
    {i : Int} (h0 : 0 ≤ i) (hi : i < NX * NY * NZ) :
    locatedOnSurface g i = .ok (decide (i < NX * NZ)) := by
  obtain ⟨c, hc, ⟨x0, xN, y0, yN, z0, zN⟩, hl, _⟩ := C01_index_roundtrip h h0 hi
  unfold locatedOnSurface
  rw [hc]
  simp only [Out.bind_ok, Out.pure_eq]
  congr 1
  apply decide_eq_decide.mpr
  unfold Linear at hl
  have e : c.x + NX * (c.z + NZ * c.y) = (c.x + NX * c.z) + NX * NZ * c.y := by ring
  have hXZ : 0 < NX * NZ := mul_pos (by omega) (by omega)
  have hlt : c.x + NX * c.z < NX * NZ := by
    have : NX * c.z ≤ NX * (NZ - 1) := mul_le_mul_of_nonneg_left (by omega) (by omega)
    have e2 : NX * (NZ - 1) = NX * NZ - NX := by ring
    omega
  have h1 : 0 ≤ NX * c.z := mul_nonneg (by omega) z0
  constructor
  · intro hy
    have : NX * NZ * c.y = 0 := by rw [hy, mul_zero]
    omega
  · intro hlt2
    by_contra hne
    have : NX * NZ * 1 ≤ NX * NZ * c.y := mul_le_mul_of_nonneg_left (by omega) hXZ.le
    omega

/-- A concrete grid: layers of factor 1, 3 and 1. -/
example : ∃ g, initVar 8 20 1 [1, 3, 1] [6, 12] = .ok g ∧ Roomy 20 [1, 3, 1] [6, 12] ∧
    getLayer g 5 = 0 ∧ getLayer g 6 = 1 ∧ getLayer g 12 = 1 ∧ getLayer g 19 = 2 ∧
    locatedOnInterface g 6 = true ∧ locatedOnInterface g 19 = false ∧ distToInterface g 8 = 2 := by
  refine ⟨_, rfl, ⟨by decide, ?_⟩, by decide, by decide, by decide, by decide, by decide, by decide,
    by decide⟩
  intro k hk
  match k, hk with
  | 0, _ => decide
  | 1, _ => decide

/-! ### C76: validation of variable grids -/

/-- C76: a configured variable grid is accepted only if the first interface is at depth zero, the
interfaces are strictly increasing, every factor is a power of three, neighbouring factors are equal
or a factor three apart, and there is one interface per layer. -/
theorem C76_accepted {NX NY NZ : Int} {dhs col0 : List Int} {g : Grid}
    (h : initVarConfig NX NY NZ dhs col0 = .ok g) :
    col0.head? = some 0 ∧ col0.length = dhs.length ∧
    (∀ k a b, col0.tail[k]? = some a → col0.tail[k + 1]? = some b → a < b) ∧
    (∀ d ∈ dhs, ∃ k : Nat, d = 3 ^ k) ∧
    (∀ k a b, dhs[k]? = some a → dhs[k + 1]? = some b → b = a ∨ b = 3 * a ∨ a = 3 * b) := by
  unfold initVarConfig at h
  cases col0 with
  | nil => cases h
  | cons i0 ifs =>
    simp only at h
    split at h
    · cases h
    · rename_i hi0
      split at h
      · cases h
      · rename_i hc
        have hc : checkGridConfig dhs ifs = true := by simpa using hc
        unfold checkGridConfig at hc
        rw [Bool.and_eq_true] at hc
        have hlen := initVar_len h
        have hpow : ∀ e ∈ dhs, ∃ k : Nat, e = 3 ^ k := by
          intro e he
          unfold initVar at h
          split at h; · cases h
          split at h; · cases h
          split at h; · cases h
          split at h; · cases h
          rename_i hacc
          split at h; · cases h
          rename_i h0
          have h1 : dhs.all acceptFactor = true := by simpa using hacc
          rcases (acceptFactor_iff e).mp (List.all_eq_true.mp h1 e he) with h3 | h3
          · subst h3
            exact absurd (List.contains_iff_mem.mpr he) (by simpa using h0)
          · exact h3
        refine ⟨by simp; omega, by simp [hlen], ?_, hpow, ?_⟩
        · intro k a b ha hb
          have := List.all_eq_true.mp hc.1 (a, b) (by
            apply List.mem_of_getElem? (i := k)
            rw [List.getElem?_zip_eq_some]
            exact ⟨ha, by rw [List.getElem?_drop, Nat.add_comm]; exact hb⟩)
          simpa using this
        · intro k a b ha hb
          have h2 := List.all_eq_true.mp hc.2 (a, b) (by
            apply List.mem_of_getElem? (i := k)
            rw [List.getElem?_zip_eq_some]
            exact ⟨ha, by rw [List.getElem?_drop, Nat.add_comm]; exact hb⟩)
          simp only [Bool.or_eq_true, decide_eq_true_eq] at h2
          obtain ⟨ka, hka⟩ := hpow a (List.mem_of_getElem? ha)
          obtain ⟨kb, hkb⟩ := hpow b (List.mem_of_getElem? hb)
          have hb0 : 0 < b := by rw [hkb]; positivity
          rcases h2 with (h2 | h2) | h2
          · right; left; omega
          · right; right
            have ha0 : 0 ≤ a := by rw [hka]; positivity
            rw [Int.tdiv_eq_ediv_of_nonneg ha0] at h2
            cases ka with
            | zero => rw [hka] at h2; norm_num at h2; omega
            | succ ka =>
              rw [pow_succ] at hka
              generalize (3 : Int) ^ ka = q at hka
              omega
          · left; exact h2

/-- A concrete accepted configuration, and rejected ones. -/
example : (∃ g, initVarConfig 8 20 1 [1, 3, 1] [0, 6, 12] = .ok g) ∧
    initVarConfig 8 20 1 [1, 3, 1] [1, 6, 12] = .err ∧
    initVarConfig 8 20 1 [1, 3, 1] [0, 12, 6] = .err ∧
    initVarConfig 8 20 1 [1, 9, 1] [0, 6, 12] = .err := by
  exact ⟨⟨_, rfl⟩, by decide, by decide, by decide⟩

end Verif.Interp
