import Verif.Model.Averaging
import Verif.Lemmas.Interpolation
import Mathlib.Tactic.Positivity
import Mathlib.Tactic.NormNum
import Mathlib.Algebra.Order.Field.Rat
/-! Helper lemmas for `Verif.Model.Averaging`. -/
namespace Verif.Avg
open Verif.Grid Verif.Interp

/-! ### Columns -/

theorem lookup_range {NX NZ hi : Int} (ls : List Layer) : ∀ (lo acc i X Y Z : Int),
    WF NX NZ hi lo ls → 0 ≤ X → X < NX → 0 ≤ Z → Z < NZ → lookup X Y Z ls acc = .ok i →
    acc ≤ i ∧ i < acc + (ls.map Layer.n).sum := by
  induction ls with
  | nil => intro lo acc i X Y Z _ _ _ _ _ h; cases h
  | cons l ls ih =>
    intro lo acc i X Y Z hwf hX0 hXN hZ0 hZN h
    obtain ⟨hl, hlo, hhi, hrest⟩ := hwf
    have hs := sum_nonneg hrest
    simp only [List.map_cons, List.sum_cons]
    simp only [lookup] at h
    by_cases hin : Y ≤ l.stop ∧ Y ≥ l.start
    · rw [if_pos hin, if_neg (by have := hl.dh_pos; omega)] at h
      have hdh := hl.dh_pos
      have hst := hl.stop_eq
      have e := Out.ok.inj h
      rw [Int.tdiv_eq_ediv_of_nonneg hX0, Int.tdiv_eq_ediv_of_nonneg hZ0,
        Int.tdiv_eq_ediv_of_nonneg (by omega)] at e
      have x0 := Int.ediv_nonneg hX0 (by omega : 0 ≤ l.dh)
      have z0 := Int.ediv_nonneg hZ0 (by omega : 0 ≤ l.dh)
      have y0 := Int.ediv_nonneg (by omega : 0 ≤ Y - l.start) (by omega : 0 ≤ l.dh)
      have x1 : X / l.dh < l.nx := Int.ediv_lt_of_lt_mul (by omega) (by have := hl.coverX; omega)
      have z1 : Z / l.dh < l.nz := Int.ediv_lt_of_lt_mul (by omega) (by have := hl.coverZ; omega)
      have y1 : (Y - l.start) / l.dh < l.ny := Int.ediv_lt_of_lt_mul (by omega) (by
        have : l.ny * l.dh = (l.ny - 1) * l.dh + l.dh := by ring
        omega)
      have hlt := idx_lt x1 y1 z1 (by have := hl.nx_pos; omega) (by have := hl.nz_pos; omega)
      have hnx := hl.nx_pos
      have hnz := hl.nz_pos
      have h0 : 0 ≤ X / l.dh + Z / l.dh * l.nx + (Y - l.start) / l.dh * l.nx * l.nz := by positivity
      have hn : l.n = l.nx * l.ny * l.nz := rfl
      constructor
      · omega
      · omega
    · rw [if_neg hin] at h
      obtain ⟨a, b⟩ := ih _ _ _ _ _ _ hrest hX0 hXN hZ0 hZN h
      have := n_nonneg hl
      omega

/-- Columns found for coordinates are inside the grid. -/
theorem toColumns_range {g : Grid} (hw : WF g.NX g.NZ (g.NY - 1) 0 g.layers) :
    ∀ (pts : List (Coord × ℚ)) (row : List (Int × ℚ)), toColumns g pts = .ok row →
      row.map Prod.snd = pts.map Prod.snd ∧ ∀ e ∈ row, 0 ≤ e.1 ∧ e.1 < g.n := by
  intro pts
  induction pts with
  | nil => intro row h; cases h; simp
  | cons p ps ih =>
    intro row h
    simp only [toColumns] at h
    cases hc : coordinate2index g p.1 with
    | err => rw [hc] at h; cases h
    | ub => rw [hc] at h; cases h
    | ok i =>
      rw [hc] at h
      cases hr : toColumns g ps with
      | err => rw [hr] at h; cases h
      | ub => rw [hr] at h; cases h
      | ok r =>
        rw [hr] at h
        simp only [Out.bind_ok] at h
        have e := Out.ok.inj h
        subst e
        obtain ⟨h1, h2⟩ := ih r hr
        refine ⟨by simp [h1], ?_⟩
        intro e he
        rcases List.mem_cons.mp he with rfl | he
        · unfold coordinate2index at hc
          split at hc
          · rename_i hin
            simp [inRange] at hin
            have := lookup_range g.layers 0 0 i p.1.x p.1.y p.1.z hw (by omega) (by omega) (by omega)
              (by omega) hc
            simpa [Grid.n] using this
          · cases hc
        · exact h2 e he

/-- A row is a convex combination of grid points. -/
def Convex (g : Grid) (row : List (Int × ℚ)) : Prop :=
  (∀ e ∈ row, 1 / 4 ≤ e.2 ∧ e.2 ≤ 1 ∧ 0 ≤ e.1 ∧ e.1 < g.n) ∧ (row.map Prod.snd).sum = 1

theorem cols_range {g : Grid} (hw : WF g.NX g.NZ (g.NY - 1) 0 g.layers) {w : ℚ} {cs : List Coord}
    {row : List (Int × ℚ)} (h : cols g w cs = .ok row) :
    (row.map Prod.snd).sum = cs.length * w ∧ ∀ e ∈ row, e.2 = w ∧ 0 ≤ e.1 ∧ e.1 < g.n := by
  obtain ⟨h1, h2⟩ := toColumns_range hw _ _ h
  have h3 : row.map Prod.snd = List.replicate cs.length w := by
    rw [h1, List.map_map]
    exact List.eq_replicate_iff.mpr ⟨by simp, by simp⟩
  refine ⟨by rw [h3]; simp, fun e he => ⟨?_, h2 e he⟩⟩
  have : e.2 ∈ row.map Prod.snd := List.mem_map_of_mem he
  rw [h3] at this
  exact List.eq_of_mem_replicate this

theorem cols_ok {g : Grid} {P : Coord → Prop}
    (hP : ∀ c, P c → ∃ j, index2coordinate g j = .ok c ∧ coordinate2index g c = .ok j)
    {cs : List Coord} (w : ℚ) (h : ∀ c ∈ cs, P c) :
    ∃ row, cols g w cs = .ok row ∧ ∀ (f : Int → ℚ) (F : Coord → ℚ),
      (∀ j c, P c → index2coordinate g j = .ok c → f j = F c) →
      rowValue row f = w * (cs.map F).sum := by
  have hsum : ∀ (F : Coord → ℚ) (cs : List Coord),
      ((cs.map fun c => (c, w)).map fun p => p.2 * F p.1).sum = w * (cs.map F).sum := by
    intro F cs
    induction cs with
    | nil => simp
    | cons c cs ih => simp only [List.map_cons, List.sum_cons, mul_add, ih]
  obtain ⟨row, h1, _, h3⟩ := toColumns_ok hP (cs.map fun c => (c, w)) (by
    intro p hp
    obtain ⟨c, hc, rfl⟩ := List.mem_map.mp hp
    exact h c hc)
  refine ⟨row, h1, fun f F hf => ?_⟩
  rw [h3 f F hf, hsum]

theorem twoPoint_convex {g : Grid} (hw : WF g.NX g.NZ (g.NY - 1) 0 g.layers) {i : Int}
    (h0 : 0 ≤ i) (hi : i < g.n) {b : Bool} {n : Coord} {row : List (Int × ℚ)}
    (h : twoPoint g i b n = .ok row) : Convex g row := by
  unfold twoPoint at h
  split at h
  · cases hc : cols g (1 / 2) [n] with
    | err => rw [hc] at h; cases h
    | ub => rw [hc] at h; cases h
    | ok r =>
      rw [hc] at h
      have e := Out.ok.inj h
      subst e
      obtain ⟨h1, h2⟩ := cols_range hw hc
      refine ⟨?_, by simp [h1]; norm_num⟩
      intro e he
      rcases List.mem_cons.mp he with rfl | he
      · exact ⟨by norm_num, by norm_num, h0, hi⟩
      · obtain ⟨a, b, c⟩ := h2 e he
        exact ⟨by rw [a]; norm_num, by rw [a]; norm_num, b, c⟩
  · have e := Out.ok.inj h
    subst e
    exact ⟨by simp [h0, hi]; norm_num, by simp⟩

theorem fourPoint_convex {g : Grid} (hw : WF g.NX g.NZ (g.NY - 1) 0 g.layers) {i : Int}
    (h0 : 0 ≤ i) (hi : i < g.n) {p1 p2 p3 p4 : Coord} {row : List (Int × ℚ)}
    (hin : (0 ≤ p1.x ∧ p1.x < g.NX ∧ p2.x = p1.x ∧ p3.x = p1.x ∧ p4.x = p1.x) ∨
      (0 ≤ p1.y ∧ p1.y < g.NY ∧ p2.y = p1.y ∧ p3.y = p1.y ∧ p4.y = p1.y) ∨
      (0 ≤ p1.z ∧ p1.z < g.NZ ∧ p2.z = p1.z ∧ p3.z = p1.z ∧ p4.z = p1.z))
    (h : fourPoint g i p1 p2 p3 p4 = .ok row) : Convex g row := by
  unfold fourPoint at h
  simp only at h
  have side : ∀ p : Coord, (do
      let r ← cols g (1 / 2) [p]
      Out.ok (r ++ [(i, 1 / 2)])) = .ok row → Convex g row := by
    intro p h
    cases hc : cols g (1 / 2) [p] with
    | err => rw [hc] at h; cases h
    | ub => rw [hc] at h; cases h
    | ok r =>
      rw [hc] at h
      have e := Out.ok.inj h
      subst e
      obtain ⟨h1, h2⟩ := cols_range hw hc
      refine ⟨?_, by simp [h1]; norm_num⟩
      intro e he
      rcases List.mem_append.mp he with he | he
      · obtain ⟨a, b, c⟩ := h2 e he
        exact ⟨by rw [a]; norm_num, by rw [a]; norm_num, b, c⟩
      · obtain rfl := List.mem_singleton.mp he
        exact ⟨by norm_num, by norm_num, h0, hi⟩
  have self : Out.ok [(i, (1 : ℚ))] = .ok row → Convex g row := by
    intro h
    have e := Out.ok.inj h
    subst e
    exact ⟨by simp [h0, hi]; norm_num, by simp⟩
  split at h
  · cases hc : cols g (1 / 4) [p2, p3, p4] with
    | err => rw [hc] at h; cases h
    | ub => rw [hc] at h; cases h
    | ok r =>
      rw [hc] at h
      have e := Out.ok.inj h
      subst e
      obtain ⟨h1, h2⟩ := cols_range hw hc
      refine ⟨?_, by simp [h1]; norm_num⟩
      intro e he
      rcases List.mem_cons.mp he with rfl | he
      · exact ⟨by norm_num, by norm_num, h0, hi⟩
      · obtain ⟨a, b, c⟩ := h2 e he
        exact ⟨by rw [a], by rw [a]; norm_num, b, c⟩
  · exact side _ h
  · exact side _ h
  · exact side _ h
  · exact self h
  · exact self h
  · exact self h
  · rename_i a b c
    simp only [decide_eq_false_iff_not] at a b c
    exfalso
    rcases hin with ⟨h1, h2, h3, h4, h5⟩ | ⟨h1, h2, h3, h4, h5⟩ | ⟨h1, h2, h3, h4, h5⟩
    · rw [h3, h4, h5, max_eq_right h1, max_self, max_self, max_self] at a
      exact a h2
    · rw [h3, h4, h5, max_eq_right h1, max_self, max_self, max_self] at b
      exact b h2
    · rw [h3, h4, h5, max_eq_right h1, max_self, max_self, max_self] at c
      exact c h2

theorem averageRow_convex {g : Grid} (hw : WF g.NX g.NZ (g.NY - 1) 0 g.layers) {i : Int}
    (h0 : 0 ≤ i) (hi : i < g.n) {dir : Dir} {row : List (Int × ℚ)}
    (h : averageRow g dir i = .ok row) : Convex g row := by
  obtain ⟨c, hc, hp, _⟩ := mapIndex_lookup g.layers 0 i hw h0 hi
  unfold averageRow at h
  rw [show index2coordinate g i = .ok c from hc] at h
  simp only [Out.bind_ok] at h
  have dhcase : ∀ (n : Nat) (F : Int → Out (List (Int × ℚ))),
      (∀ d, F d = .ok row → Convex g row) → (dhAt g n >>= F) = .ok row → Convex g row := by
    intro n F hF h
    cases hd : dhAt g n with
    | err => rw [hd] at h; cases h
    | ub => rw [hd] at h; cases h
    | ok d => rw [hd] at h; exact hF d h
  have bx := And.intro hp.x0 hp.xN
  have bz := And.intro hp.z0 hp.zN
  have by' := And.intro hp.y0 (show c.y < g.NY by have := hp.yhi; omega)
  cases dir with
  | x => exact dhcase _ _ (fun d hd => twoPoint_convex hw h0 hi hd) h
  | z => exact dhcase _ _ (fun d hd => twoPoint_convex hw h0 hi hd) h
  | y =>
    simp only at h
    cases ht : (if locatedOnInterface g c.y then getTransition g c.y else .ok 1 : Out Int) with
    | err => rw [ht] at h; cases h
    | ub => rw [ht] at h; cases h
    | ok t =>
      rw [ht] at h
      exact dhcase _ _ (fun d hd => twoPoint_convex hw h0 hi hd) h
  | xy =>
    refine dhcase _ _ ?_ h
    intro d hd
    refine fourPoint_convex hw h0 hi ?_ hd
    exact .inr (.inr ⟨bz.1, bz.2, rfl, rfl, rfl⟩)
  | xz =>
    refine dhcase _ _ ?_ h
    intro d hd
    refine fourPoint_convex hw h0 hi ?_ hd
    exact .inr (.inl ⟨by'.1, by'.2, rfl, rfl, rfl⟩)
  | yz =>
    refine dhcase _ _ ?_ h
    intro d hd
    refine fourPoint_convex hw h0 hi ?_ hd
    exact .inl ⟨bx.1, bx.2, rfl, rfl, rfl⟩

/-! ### Sums over convex rows -/

theorem rowValue_le {g : Grid} {row : List (Int × ℚ)} (hc : Convex g row) {f : Int → ℚ} {M : ℚ}
    (h : ∀ e ∈ row, f e.1 ≤ M) : rowValue row f ≤ M := by
  have key : ∀ r : List (Int × ℚ), (∀ e ∈ r, 0 ≤ e.2 ∧ f e.1 ≤ M) →
      rowValue r f ≤ M * (r.map Prod.snd).sum := by
    intro r
    induction r with
    | nil => intro _; simp [rowValue]
    | cons e r ih =>
      intro h
      have h1 := ih fun e' he' => h e' (List.mem_cons_of_mem _ he')
      obtain ⟨h2, h3⟩ := h e List.mem_cons_self
      simp only [rowValue, List.map_cons, List.sum_cons] at h1 ⊢
      have := mul_le_mul_of_nonneg_left h3 h2
      linarith [mul_comm e.2 M, mul_add M e.2 (List.map Prod.snd r).sum]
  have := key row fun e he => ⟨by have := (hc.1 e he).1; linarith, h e he⟩
  rw [hc.2] at this
  linarith

theorem rowValue_neg (row : List (Int × ℚ)) (f : Int → ℚ) :
    rowValue row (fun i => - f i) = - rowValue row f := by
  induction row with
  | nil => simp [rowValue]
  | cons e r ih =>
    simp only [rowValue, List.map_cons, List.sum_cons] at ih ⊢
    rw [ih]; ring

theorem le_rowValue {g : Grid} {row : List (Int × ℚ)} (hc : Convex g row) {f : Int → ℚ} {m : ℚ}
    (h : ∀ e ∈ row, m ≤ f e.1) : m ≤ rowValue row f := by
  have := rowValue_le hc (f := fun i => - f i) (M := -m) fun e he => by have := h e he; linarith
  rw [rowValue_neg] at this
  linarith

/-- One entry is a lower bound of a sum of non-negative entries, strictly if another one is
positive. -/
theorem rowValue_ge_entry {row : List (Int × ℚ)} {f : Int → ℚ}
    (h : ∀ e ∈ row, 0 < e.2 * f e.1) {e : Int × ℚ} (he : e ∈ row) :
    e.2 * f e.1 ≤ rowValue row f ∧ (row ≠ [e] → e.2 * f e.1 < rowValue row f) := by
  have nonneg : ∀ r : List (Int × ℚ), (∀ e ∈ r, 0 < e.2 * f e.1) → 0 ≤ rowValue r f ∧
      (r ≠ [] → 0 < rowValue r f) := by
    intro r
    induction r with
    | nil => intro _; simp [rowValue]
    | cons e r ih =>
      intro h
      have h1 := (ih fun e' he' => h e' (List.mem_cons_of_mem _ he')).1
      have h2 := h e List.mem_cons_self
      simp only [rowValue, List.map_cons, List.sum_cons] at h1 ⊢
      exact ⟨by linarith, fun _ => by linarith⟩
  induction row with
  | nil => simp at he
  | cons a r ih =>
    have hr : ∀ e' ∈ r, 0 < e'.2 * f e'.1 := fun e' he' => h e' (List.mem_cons_of_mem _ he')
    have ha := h a List.mem_cons_self
    have hn := nonneg r hr
    rcases List.mem_cons.mp he with rfl | he
    · simp only [rowValue, List.map_cons, List.sum_cons] at hn ⊢
      refine ⟨by linarith [hn.1], fun hne => ?_⟩
      have := hn.2 (fun h => hne (by rw [h]))
      linarith
    · have h1 := (ih hr he).1
      simp only [rowValue, List.map_cons, List.sum_cons] at h1 ⊢
      exact ⟨by linarith, fun _ => by linarith⟩

/-! ### Neighbours in depth -/

/-- The layer with points at the depth `y` (off the interfaces where the factor changes) has a next
row of points one of its spacings deeper, in a layer that is not coarser. -/
theorem next_row {NX NZ y : Int} : ∀ (ds is : List Int) (s d i : Int) (l : Layer),
    (∀ e ∈ d :: ds, ∃ k : Nat, e = 3 ^ k) → s ≤ i → d ∣ i - s → alignedFrom i ds is →
    (∀ n a b, (i :: is)[n]? = some y → (d :: ds)[n]? = some a → (d :: ds)[n + 1]? = some b → a = b) →
    l ∈ buildLayers NX NZ s (d :: ds) (i :: is) → l.start ≤ y → y ≤ l.stop → l.dh ∣ y - l.start →
    y + l.dh ≤ (i :: is).getLastD 0 →
    ∃ l' ∈ buildLayers NX NZ s (d :: ds) (i :: is), l'.start ≤ y + l.dh ∧ y + l.dh ≤ l'.stop ∧
      l'.dh ∣ l.dh ∧ l'.dh ∣ y + l.dh - l'.start := by
  intro ds
  induction ds with
  | nil =>
    intro is s d i l hpow hsi hdv hal hsm hl h1 h2 h3 h4
    cases is with
    | cons i' is => exact absurd hal (by simp [alignedFrom])
    | nil =>
      have hl' := hl
      simp only [buildLayers, List.mem_singleton] at hl'
      refine ⟨l, hl, ?_, ?_, dvd_refl _, ?_⟩
      · subst hl'
        simp only [mkLayer] at *
        obtain ⟨k, hk⟩ := hpow d List.mem_cons_self
        have : 0 < d := by rw [hk]; positivity
        omega
      · subst hl'
        simpa [mkLayer, List.getLastD_cons] using h4
      · rw [show y + l.dh - l.start = (y - l.start) + l.dh by ring]
        exact Int.dvd_add h3 (dvd_refl _)
  | cons d' ds ih =>
    intro is s d i l hpow hsi hdv hal hsm hl h1 h2 h3 h4
    cases is with
    | nil => exact absurd hal (by simp [alignedFrom])
    | cons i' is =>
      obtain ⟨hg, hdv', hal'⟩ := hal
      have hpow' : ∀ e ∈ d' :: ds, ∃ k : Nat, e = 3 ^ k := fun e he =>
        hpow e (List.mem_cons_of_mem _ he)
      obtain ⟨kd, hkd⟩ := hpow d List.mem_cons_self
      obtain ⟨kd', hkd'⟩ := hpow' d' List.mem_cons_self
      have hd : 0 < d := by rw [hkd]; positivity
      have hd' : 0 < d' := by rw [hkd']; positivity
      have hpos : ∀ e ∈ ds, 0 < e := by
        intro e he
        obtain ⟨k, rfl⟩ := hpow' e (List.mem_cons_of_mem _ he)
        positivity
      have hlast : (i :: i' :: is).getLastD 0 = (i' :: is).getLastD 0 := by simp
      rw [hlast] at h4
      have hsm' : ∀ n a b, (i' :: is)[n]? = some y → (d' :: ds)[n]? = some a →
          (d' :: ds)[n + 1]? = some b → a = b := by
        intro n a b h5 h6 h7
        exact hsm (n + 1) a b (by simpa using h5) (by simpa using h6) (by simpa using h7)
      have tail : ∀ (l0 : Layer) (s' : Int), s' ≤ i' → d' ∣ i' - s' →
          l ∈ buildLayers NX NZ s' (d' :: ds) (i' :: is) →
          ∃ l' ∈ l0 :: buildLayers NX NZ s' (d' :: ds) (i' :: is), l'.start ≤ y + l.dh ∧
            y + l.dh ≤ l'.stop ∧ l'.dh ∣ l.dh ∧ l'.dh ∣ y + l.dh - l'.start := by
        intro l0 s' hs' hdvs hl
        obtain ⟨l', hl', h⟩ := ih is s' d' i' l hpow' hs' hdvs hal' hsm' hl h1 h2 h3 h4
        exact ⟨l', List.mem_cons_of_mem _ hl', h⟩
      -- a point of the head layer above the interface
      have head : ∀ (l0 : Layer) (s' : Int), l0.start = s → l0.dh = d →
          (l0.stop = i ∨ (l0.stop = i - d ∧ s' = i ∧ d' ≤ d)) → y < i → s ≤ y → d ∣ y - s →
          ∃ l' ∈ l0 :: buildLayers NX NZ s' (d' :: ds) (i' :: is), l'.start ≤ y + d ∧
            y + d ≤ l'.stop ∧ l'.dh ∣ d ∧ l'.dh ∣ y + d - l'.start := by
        intro l0 s' e1 e2 e3 hyi hys hdy
        have hle : y + d ≤ i := by
          obtain ⟨p, hp⟩ := hdv
          obtain ⟨q, hq⟩ := hdy
          have : d * q < d * p := by omega
          have : q < p := lt_of_mul_lt_mul_left this hd.le
          have : d * (q + 1) ≤ d * p := mul_le_mul_of_nonneg_left (by omega) hd.le
          rw [mul_add] at this
          omega
        have hself : y + d ≤ l0.stop → ∃ l' ∈ l0 :: buildLayers NX NZ s' (d' :: ds) (i' :: is),
            l'.start ≤ y + d ∧ y + d ≤ l'.stop ∧ l'.dh ∣ d ∧ l'.dh ∣ y + d - l'.start := by
          intro h
          refine ⟨l0, List.mem_cons_self, by omega, h, by rw [e2], ?_⟩
          rw [e1, e2, show y + d - s = (y - s) + d by ring]
          exact Int.dvd_add hdy (dvd_refl _)
        rcases e3 with e3 | ⟨e3, e4, e5⟩
        · exact hself (by omega)
        · by_cases h : y + d ≤ l0.stop
          · exact hself h
          · have hyd : y + d = i := by
              obtain ⟨p, hp⟩ := hdv
              obtain ⟨q, hq⟩ := hdy
              have h5 : d * (p - 2) < d * q := by rw [mul_sub]; omega
              have : p - 2 < q := lt_of_mul_lt_mul_left h5 hd.le
              have : d * (p - 1) ≤ d * q := mul_le_mul_of_nonneg_left (by omega) hd.le
              rw [mul_sub] at this
              omega
            obtain ⟨lh, lt, eh, edh, est⟩ := buildLayers_head (NX := NX) (NZ := NZ) (s := s')
              (d := d') hal'
            have hstop : i ≤ lh.stop := by
              cases ds with
              | nil =>
                cases is with
                | cons _ _ => exact absurd hal' (by simp [alignedFrom])
                | nil =>
                  simp only [buildLayers] at eh
                  injection eh with eh _
                  subst eh; simp only [mkLayer]; omega
              | cons d2 ds2 =>
                cases is with
                | nil => exact absurd hal' (by simp [alignedFrom])
                | cons i2 is2 =>
                  simp only [buildLayers] at eh
                  split at eh
                  · injection eh with eh _
                    subst eh; simp only [mkLayer]; omega
                  · split at eh <;>
                    · injection eh with eh _
                      subst eh; simp only [mkLayer]; omega
            refine ⟨lh, ?_, by omega, by omega, ?_, ?_⟩
            · rw [eh]; exact List.mem_cons_of_mem _ List.mem_cons_self
            · rw [edh, hkd, hkd']
              rw [hkd, hkd'] at e5
              exact pow_dvd_pow _ ((pow_le_pow_iff_right₀ (by norm_num : (1:Int) < 3)).mp e5)
            · rw [est, e4, hyd, sub_self]; exact dvd_zero _
      simp only [buildLayers] at hl ⊢
      split at hl
      · rename_i hlt
        rw [if_pos hlt]
        rcases List.mem_cons.mp hl with rfl | hl
        · have hne : y ≠ i := by
            intro he
            have := hsm 0 d d' (by simp [he]) rfl rfl
            omega
          have h2' : y ≤ i := h2
          exact head _ _ rfl rfl (.inl rfl) (by omega) h1 h3
        · exact tail _ _ hg (by
            rw [show i' - (i + d') = (i' - i) - d' by ring]
            exact Int.dvd_sub hdv' (dvd_refl _)) hl
      · rename_i hnlt
        rw [if_neg hnlt]
        split at hl
        · rename_i hgt
          rw [if_pos hgt]
          rcases List.mem_cons.mp hl with rfl | hl
          · have h2' : y ≤ i - d := h2
            exact head _ _ rfl rfl (.inr ⟨rfl, rfl, by omega⟩) (by omega) h1 h3
          · exact tail _ _ (by omega) hdv' hl
        · rename_i hngt
          rw [if_neg hngt]
          rcases List.mem_cons.mp hl with rfl | hl
          · have h2' : y ≤ i - d := h2
            exact head _ _ rfl rfl (.inr ⟨rfl, rfl, by omega⟩) (by omega) h1 h3
          · exact tail _ _ (by omega) hdv' hl

theorem aligned_inc : ∀ (ds is : List Int) (b : Int), (∀ e ∈ ds, 0 < e) → alignedFrom b ds is →
    ∀ j ∈ is, b < j := by
  intro ds
  induction ds with
  | nil => intro is b _ h j hj; cases is <;> simp_all [alignedFrom]
  | cons e ds ih =>
    intro is b hp h j hj
    cases is with
    | nil => simp at hj
    | cons j0 is =>
      obtain ⟨h1, _, h2⟩ := h
      have := hp e List.mem_cons_self
      rcases List.mem_cons.mp hj with rfl | hj
      · omega
      · have := ih is j0 (fun e' he' => hp e' (List.mem_cons_of_mem _ he')) h2 j hj
        omega

theorem trans_skip {y : Int} (ls : List Layer) (js : List Int) (t : Int) (h : ∀ j ∈ js, y ≠ j) :
    (ls.zip js).foldl (fun t p => if y = p.2 then p.1.transition else t) t = t := by
  induction js generalizing ls with
  | nil => simp
  | cons j js ih =>
    cases ls with
    | nil => simp
    | cons l ls =>
      simp only [List.zip_cons_cons, List.foldl_cons]
      rw [if_neg (h j List.mem_cons_self)]
      exact ih ls (fun j' hj' => h j' (List.mem_cons_of_mem _ hj'))

set_option maxHeartbeats 1000000 in
/-- Off the interfaces where the factor changes, the layer query finds a layer with the factor of
the layer that has points at the depth `y`; on an interface between layers of the same factor the
transition is 0 and the next layer has that factor too. -/
theorem layer_factor {NX NZ y : Int} : ∀ (ds is : List Int) (s d i lo : Int) (k : Nat) (l : Layer),
    (∀ e ∈ ds, 0 < e) → s ≤ i → alignedFrom i ds is → 0 < d →
    (∀ n a b, (i :: is)[n]? = some y → (d :: ds)[n]? = some a → (d :: ds)[n + 1]? = some b → a = b) →
    l ∈ buildLayers NX NZ s (d :: ds) (i :: is) → l.start ≤ y → y ≤ l.stop → lo < y →
    ∃ m, getLayerFrom y k lo (buildLayers NX NZ s (d :: ds) (i :: is)) (i :: is) = k + m ∧
      ((buildLayers NX NZ s (d :: ds) (i :: is))[m]?).map Layer.dh = some l.dh ∧
      (y ∈ (i :: is).dropLast →
        ((buildLayers NX NZ s (d :: ds) (i :: is)).zip (i :: is)).foldl
          (fun t p => if y = p.2 then p.1.transition else t) 0 = 0 ∧
        ((buildLayers NX NZ s (d :: ds) (i :: is))[m + 1]?).map Layer.dh = some l.dh) := by
  intro ds
  induction ds with
  | nil =>
    intro is s d i lo k l _ hsi hal _ hsm hl h1 h2 hlo
    cases is with
    | cons i' is => exact absurd hal (by simp [alignedFrom])
    | nil =>
      simp only [buildLayers, List.mem_singleton] at hl
      subst hl
      refine ⟨0, ?_, rfl, by simp⟩
      simp only [mkLayer] at h1 h2
      simp only [buildLayers, getLayerFrom]
      by_cases h : y = i
      · rw [if_neg (by omega), if_pos h]; simp [mkLayer]
      · rw [if_pos (by omega)]; rfl
  | cons d' ds ih =>
    intro is s d i lo k l hpos hsi hal hd hsm hl h1 h2 hlo
    cases is with
    | nil => exact absurd hal (by simp [alignedFrom])
    | cons i' is =>
      obtain ⟨hg, hdv', hal'⟩ := hal
      have hd' : 0 < d' := hpos d' List.mem_cons_self
      have hpos' : ∀ e ∈ ds, 0 < e := fun e he => hpos e (List.mem_cons_of_mem _ he)
      have hsm' : ∀ n a b, (i' :: is)[n]? = some y → (d' :: ds)[n]? = some a →
          (d' :: ds)[n + 1]? = some b → a = b := by
        intro n a b h5 h6 h7
        exact hsm (n + 1) a b (by simpa using h5) (by simpa using h6) (by simpa using h7)
      have hinc : ∀ j ∈ i' :: is, i < j := by
        intro j hj
        rcases List.mem_cons.mp hj with rfl | hj
        · omega
        · have := aligned_inc ds is i' hpos' hal' j hj; omega
      -- above the interface
      have head : ∀ (l0 : Layer) (s' : Int), l0.dh = d → y < i →
          ∃ m, getLayerFrom y k lo (l0 :: buildLayers NX NZ s' (d' :: ds) (i' :: is))
              (i :: i' :: is) = k + m ∧
            ((l0 :: buildLayers NX NZ s' (d' :: ds) (i' :: is))[m]?).map Layer.dh = some d ∧
            (y ∈ (i :: i' :: is).dropLast →
              ((l0 :: buildLayers NX NZ s' (d' :: ds) (i' :: is)).zip (i :: i' :: is)).foldl
                (fun t p => if y = p.2 then p.1.transition else t) 0 = 0 ∧
              ((l0 :: buildLayers NX NZ s' (d' :: ds) (i' :: is))[m + 1]?).map Layer.dh = some d) := by
        intro l0 s' e1 hyi
        refine ⟨0, ?_, by simp [e1], ?_⟩
        · simp only [getLayerFrom]
          rw [if_pos ⟨hyi, hlo⟩]; rfl
        · intro hmem
          exfalso
          have := List.mem_of_mem_dropLast hmem
          rcases List.mem_cons.mp this with h | h
          · omega
          · have := hinc y h; omega
      -- below the interface
      have tail : ∀ (l0 : Layer) (s' : Int), s' ≤ i' → i < y →
          l ∈ buildLayers NX NZ s' (d' :: ds) (i' :: is) →
          ∃ m, getLayerFrom y k lo (l0 :: buildLayers NX NZ s' (d' :: ds) (i' :: is))
              (i :: i' :: is) = k + m ∧
            ((l0 :: buildLayers NX NZ s' (d' :: ds) (i' :: is))[m]?).map Layer.dh = some l.dh ∧
            (y ∈ (i :: i' :: is).dropLast →
              ((l0 :: buildLayers NX NZ s' (d' :: ds) (i' :: is)).zip (i :: i' :: is)).foldl
                (fun t p => if y = p.2 then p.1.transition else t) 0 = 0 ∧
              ((l0 :: buildLayers NX NZ s' (d' :: ds) (i' :: is))[m + 1]?).map Layer.dh =
                some l.dh) := by
        intro l0 s' hs' hyi hl
        obtain ⟨m, e1, e2, e3⟩ := ih is s' d' i' i (k + 1) l hpos' hs' hal' hd' hsm' hl h1 h2 hyi
        refine ⟨m + 1, ?_, by simpa using e2, ?_⟩
        · simp only [getLayerFrom]
          rw [if_neg (by omega), if_neg (by omega), e1]; omega
        · intro hmem
          rw [List.dropLast_cons_cons, List.mem_cons] at hmem
          obtain ⟨e4, e5⟩ := e3 (hmem.resolve_left (by omega))
          refine ⟨?_, by simpa using e5⟩
          rw [List.zip_cons_cons, List.foldl_cons, if_neg (by simp; omega)]
          exact e4
      have hst : ∀ s', s' ≤ i' → ∀ l ∈ buildLayers NX NZ s' (d' :: ds) (i' :: is), s' ≤ l.start :=
        fun s' hs' => buildLayers_start ds is s' d' i' hpos' hs' hal'
      simp only [buildLayers] at hl ⊢
      split at hl
      · rename_i hlt
        rw [if_pos hlt]
        rcases List.mem_cons.mp hl with rfl | hl
        · have hne : y ≠ i := by
            intro he
            have := hsm 0 d d' (by simp [he]) rfl rfl
            omega
          have h2' : y ≤ i := h2
          exact head _ _ rfl (by omega)
        · have := hst _ hg l hl
          exact tail _ _ hg (by omega) hl
      · rename_i hnlt
        rw [if_neg hnlt]
        split at hl
        · rename_i hgt
          rw [if_pos hgt]
          rcases List.mem_cons.mp hl with rfl | hl
          · have h2' : y ≤ i - d := h2
            exact head _ _ rfl (by omega)
          · have := hst _ (by omega) l hl
            have hne : y ≠ i := by
              intro he
              have := hsm 0 d d' (by simp [he]) rfl rfl
              omega
            exact tail _ _ (by omega) (by omega) hl
        · rename_i hngt
          rw [if_neg hngt]
          rcases List.mem_cons.mp hl with rfl | hl
          · have h2' : y ≤ i - d := h2
            exact head _ _ rfl (by omega)
          · have h5 := hst _ (by omega) l hl
            by_cases hyi : y = i
            · -- on the interface between two layers of the same factor
              have hdd : d = d' := by omega
              obtain ⟨lh, lt, eh, edh, est⟩ := buildLayers_head (NX := NX) (NZ := NZ) (s := i)
                (d := d') hal'
              have hldh : l.dh = d := by
                have hA := atInterface_build (NX := NX) (NZ := NZ) (y := y) (a := d) (b := d')
                  (d' :: ds) (i' :: is) s d i lo k 0
                  (by
                    intro e he
                    rcases List.mem_cons.mp he with rfl | he
                    · exact hd
                    · exact hpos e he) hsi ⟨hg, hdv', hal'⟩ (by simp [hyi]) rfl rfl
                have := hA.own l (by
                  simp only [buildLayers]
                  rw [if_neg hnlt, if_neg hngt]
                  exact List.mem_cons_of_mem _ hl) h1 h2
                rw [this]; omega
              refine ⟨0, ?_, by simp [mkLayer, hldh], ?_⟩
              · simp only [getLayerFrom]
                rw [if_neg (by omega), if_pos hyi]
                simp [mkLayer]
              · intro _
                refine ⟨?_, by rw [eh]; simp [edh, hldh, hdd]⟩
                rw [List.zip_cons_cons, List.foldl_cons, if_pos (by simp [hyi]), trans_skip]
                · rfl
                · intro j hj
                  have := hinc j hj; omega
            · exact tail _ _ (by omega) (by omega) hl

end Verif.Avg
