import Verif.Model.ShotWeights
import Verif.Props.Subset

/-!
# C143: weights of a shot window in the big model
-/
set_option linter.dupNamespace false
set_option linter.unusedSimpArgs false

namespace Verif.Sub
open Verif.Grid

/-- The weight that the column `x` of the big model gets from a window of width `nx` at `x0`: nothing outside, one inside,
squared sines over the borders of `left` and `right` points. -/
noncomputable def Weight (x0 nx : Int) (left right : ℕ) (x : Int) : ℝ :=
  if x < x0 ∨ x0 + nx ≤ x then 0
  else if x - x0 < left then Real.sin (Real.pi / 2 * ((x - x0 : Int) / left)) ^ 2
  else if x0 + nx - 1 - x < right then Real.sin (Real.pi / 2 * ((x0 + nx - 1 - x : Int) / right)) ^ 2
  else 1

/-! ### Helper lemmas -/

private theorem regular_n {NX NY NZ : Int} {g : Grid} (h : initRegular NX NY NZ = .ok g) :
    g.n = NX * NY * NZ ∧ 0 < NX ∧ 0 < NY ∧ 0 < NZ ∧ g.NX = NX ∧ g.NY = NY := by
  unfold initRegular at h
  split at h
  · rename_i hp
    cases h
    exact ⟨by simp [Grid.n, Layer.n], hp.1, hp.2.1, hp.2.2, rfl, rfl⟩
  · cases h

private theorem coord_eq {c d : Coord} (hx : c.x = d.x) (hy : c.y = d.y) (hz : c.z = d.z) : c = d := by
  cases c; cases d; simp_all

private theorem linear_inj {NX NY NZ : Int} {g : Grid} (h : initRegular NX NY NZ = .ok g) {c d : Coord}
    (hc : InBox NX NY NZ c) (hd : InBox NX NY NZ d) (e : Linear NX NZ c = Linear NX NZ d) : c = d := by
  obtain ⟨i, -, h2, -, -, h5⟩ := C01_coordinate_roundtrip h hc
  obtain ⟨j, -, g2, -, -, g5⟩ := C01_coordinate_roundtrip h hd
  have : i = j := by rw [h2, g2, e]
  subst this
  rw [h5] at g5
  exact Out.ok.inj g5

private theorem fold_writes {NX NY NZ : Int} {big : Grid} (hg : initRegular NX NY NZ = .ok big) :
    ∀ (ws : List (Coord × ℝ)) (v : Int → ℝ), (∀ w ∈ ws, InBox NX NY NZ w.1) →
    ∃ v', ws.foldlM (writeAt big) v = .ok v' ∧ ∀ c, InBox NX NY NZ c →
      ((∀ w ∈ ws, w.1 ≠ c) → v' (Linear NX NZ c) = v (Linear NX NZ c)) ∧
      ∀ t, (∀ w ∈ ws, w.1 = c → w.2 = t) → (v (Linear NX NZ c) = t ∨ ∃ w ∈ ws, w.1 = c) →
        v' (Linear NX NZ c) = t := by
  intro ws
  induction ws with
  | nil =>
    intro v _
    exact ⟨v, rfl, fun c _ => ⟨fun _ => rfl, fun t _ h => by simpa using h⟩⟩
  | cons w ws ih =>
    intro v h
    obtain ⟨k, h1, h2, -⟩ := C01_coordinate_roundtrip hg (h w (by simp))
    obtain ⟨v', g1, g2⟩ := ih (Function.update v k w.2) fun x hx => h x (List.mem_cons_of_mem _ hx)
    refine ⟨v', ?_, fun c hc => ⟨fun hne => ?_, fun t ht hex => ?_⟩⟩
    · rw [List.foldlM_cons]
      have : writeAt big v w = .ok (Function.update v k w.2) := by
        unfold writeAt
        rw [h1]
        rfl
      rw [this]
      exact g1
    · rw [(g2 c hc).1 fun x hx => hne x (List.mem_cons_of_mem _ hx), Function.update_of_ne]
      rw [h2]
      intro e
      exact hne w (by simp) (linear_inj hg hc (h w (by simp)) e).symm
    · apply (g2 c hc).2 t fun x hx => ht x (List.mem_cons_of_mem _ hx)
      by_cases hw : w.1 = c
      · left
        rw [h2, hw, Function.update_self]
        exact ht w (by simp) hw
      · rcases hex with hv | ⟨x, hx, hxc⟩
        · left
          rw [Function.update_of_ne, hv]
          rw [h2]
          intro e
          exact hw (linear_inj hg hc (h w (by simp)) e).symm
        · rcases List.mem_cons.mp hx with rfl | hx
          · exact absurd hxc hw
          · exact .inr ⟨x, hx, hxc⟩

private theorem mem_damp {nx : Int} {NY : ℕ} {cut : Coord} {left right : ℕ} {w : Coord × ℝ} :
    w ∈ dampWrites nx NY cut left right ↔ ∃ y < NY,
      (∃ i < left, w = (⟨cut.x + i, y, 0⟩, ramp left i)) ∨
      ∃ i < right, w = (⟨cut.x + nx - 1 - i, y, 0⟩, ramp right i) := by
  simp only [dampWrites, List.mem_flatMap, List.mem_append, List.mem_map, List.mem_range]
  constructor
  · rintro ⟨y, hy, ⟨i, hi, rfl⟩ | ⟨i, hi, rfl⟩⟩
    · exact ⟨y, hy, .inl ⟨i, hi, rfl⟩⟩
    · exact ⟨y, hy, .inr ⟨i, hi, rfl⟩⟩
  · rintro ⟨y, hy, ⟨i, hi, rfl⟩ | ⟨i, hi, rfl⟩⟩
    · exact ⟨y, hy, .inl ⟨i, hi, rfl⟩⟩
    · exact ⟨y, hy, .inr ⟨i, hi, rfl⟩⟩

private theorem ramp_eq (w : ℕ) (i : ℕ) :
    ramp w i = Real.sin (Real.pi / 2 * ((i : ℝ) / w)) ^ 2 := by
  unfold ramp
  congr 2
  by_cases h : (w : ℝ) = 0
  · simp [h]
  · field_simp

/-- The points of the window as indices of the big grid. -/
private theorem window_points {small big : Grid} {nx ny nz NX NY NZ : Int} {cut : Coord}
    (hs : initRegular nx ny nz = .ok small) (hg : initRegular NX NY NZ = .ok big)
    (hf : Fits nx ny nz NX NY NZ cut) :
    ∃ ks, (List.range small.n.toNat).mapM (shrinkRow small big cut) = .ok ks ∧
      ∀ c, InBox NX NY NZ c → (Linear NX NZ c ∈ ks ↔
        (cut.x ≤ c.x ∧ c.x < cut.x + nx) ∧ (cut.y ≤ c.y ∧ c.y < cut.y + ny) ∧ cut.z ≤ c.z ∧ c.z < cut.z + nz) := by
  classical
  obtain ⟨hn, px, py, pz, -⟩ := regular_n hs
  have hrow : ∀ i < small.n.toNat, ∃ c, index2coordinate small i = .ok c ∧ InBox nx ny nz c ∧
      Linear nx nz c = i ∧ InBox NX NY NZ (moved c cut) ∧
      shrinkRow small big cut i = .ok (Linear NX NZ (moved c cut)) := by
    intro i hi
    obtain ⟨c, h1, h2, h3, -⟩ := C01_index_roundtrip hs (i := i) (by omega) (by omega)
    have hb : InBox NX NY NZ (moved c cut) := by
      obtain ⟨a, b, c, d, e, f⟩ := h2
      obtain ⟨a', b', c', d', e', f'⟩ := hf
      refine ⟨?_, ?_, ?_, ?_, ?_, ?_⟩ <;> simp only [moved] <;> omega
    refine ⟨c, h1, h2, h3, hb, ?_⟩
    obtain ⟨k, g1, g2, -⟩ := C01_coordinate_roundtrip hg hb
    unfold shrinkRow
    rw [h1]
    simp only [Out.bind_ok]
    rw [← g2]
    exact g1
  haveI : Nonempty Coord := ⟨⟨0, 0, 0⟩⟩
  choose! cf r1 r2 r3 r4 r5 using hrow
  refine ⟨(List.range small.n.toNat).map fun i => Linear NX NZ (moved (cf i) cut), ?_, fun c hc => ?_⟩
  · rw [SU.mapM_eq_ok, List.map_map]
    apply List.map_congr_left
    intro i hi
    rw [r5 i (List.mem_range.mp hi)]
    rfl
  · rw [List.mem_map]
    constructor
    · rintro ⟨i, hi, he⟩
      have hi := List.mem_range.mp hi
      have := linear_inj hg (r4 i hi) hc he
      obtain ⟨a, b, c', d, e, f⟩ := r2 i hi
      rw [← this]
      simp only [moved]
      omega
    · rintro ⟨⟨a, b⟩, ⟨a', b'⟩, a'', b''⟩
      have hd : InBox nx ny nz ⟨c.x - cut.x, c.y - cut.y, c.z - cut.z⟩ := by
        refine ⟨?_, ?_, ?_, ?_, ?_, ?_⟩ <;> simp only <;> omega
      obtain ⟨i, -, h2, h3, h4, h5⟩ := C01_coordinate_roundtrip hs hd
      have hi : i.toNat < small.n.toNat := by omega
      refine ⟨i.toNat, List.mem_range.mpr hi, ?_⟩
      have h1 := r1 i.toNat hi
      rw [Int.toNat_of_nonneg h3, h5] at h1
      rw [← Out.ok.inj h1]
      simp [moved]

private theorem mapM_stops {α β : Type} {f : α → Out β} : ∀ {l : List α},
    (∀ a ∈ l, f a = .err ∨ ∃ b, f a = .ok b) → (∃ a ∈ l, f a = .err) → l.mapM f = .err := by
  intro l
  induction l with
  | nil => simp
  | cons a l ih =>
    intro h hex
    rw [List.mapM_cons]
    rcases h a (by simp) with ha | ⟨b, hb⟩
    · rw [ha]; rfl
    · rw [hb]
      simp only [Out.bind_ok]
      obtain ⟨a', ha', he⟩ := hex
      rcases List.mem_cons.mp ha' with rfl | ha'
      · rw [hb] at he; cases he
      · rw [ih (fun x hx => h x (List.mem_cons_of_mem _ hx)) ⟨a', ha', he⟩]; rfl

/-- All weights on a regular big grid. -/
private theorem weights_all {small big : Grid} {nx ny nz NX NY NZ : Int} {cut : Coord} {left right : ℕ}
    (hs : initRegular nx ny nz = .ok small) (hg : initRegular NX NY NZ = .ok big)
    (hf : Fits nx ny nz NX NY NZ cut) (hw : (left + right : Int) ≤ nx) :
    ∃ v, shrinkVector small big cut left right = .ok v ∧ ∀ c, InBox NX NY NZ c → v (Linear NX NZ c) =
      if c.z = 0 ∧ cut.x ≤ c.x ∧ c.x < cut.x + left then Weight cut.x nx left right c.x
      else if c.z = 0 ∧ cut.x + nx - right ≤ c.x ∧ c.x < cut.x + nx then Weight cut.x nx left right c.x
      else if (cut.x ≤ c.x ∧ c.x < cut.x + nx) ∧ (cut.y ≤ c.y ∧ c.y < cut.y + ny) ∧ cut.z ≤ c.z ∧ c.z < cut.z + nz
        then 1 else 0 := by
  obtain ⟨-, px, py, pz, eX, -⟩ := regular_n hs
  obtain ⟨-, Px, Py, Pz, -, eY⟩ := regular_n hg
  obtain ⟨ks, k1, k2⟩ := window_points hs hg hf
  obtain ⟨f1, f2, f3, f4, f5, f6⟩ := hf
  obtain ⟨v, h1, h2⟩ := fold_writes hg (dampWrites nx NY.toNat cut left right) (fun k => if k ∈ ks then 1 else 0) (by
    intro w hw'
    rw [mem_damp] at hw'
    obtain ⟨y, hy, ⟨i, hi, rfl⟩ | ⟨i, hi, rfl⟩⟩ := hw'
    · refine ⟨?_, ?_, ?_, ?_, ?_, ?_⟩ <;> simp only <;> omega
    · refine ⟨?_, ?_, ?_, ?_, ?_, ?_⟩ <;> simp only <;> omega)
  refine ⟨v, ?_, fun c hc => ?_⟩
  · unfold shrinkVector
    rw [k1]
    simp only [Out.bind_ok]
    rw [eX, eY]
    exact h1
  · obtain ⟨g1, g2⟩ := h2 c hc
    obtain ⟨c1, c2, c3, c4, c5, c6⟩ := hc
    split_ifs with q1 q2 q3
    · apply g2
      · intro w hm he
        rw [mem_damp] at hm
        obtain ⟨y, hy, ⟨i, hi, rfl⟩ | ⟨i, hi, rfl⟩⟩ := hm
        · subst he
          rw [ramp_eq]
          unfold Weight
          simp only at *
          rw [if_neg (by omega), if_pos (by omega)]
          simp
        · subst he
          simp only at *
          omega
      · right
        refine ⟨_, mem_damp.mpr ⟨c.y.toNat, by omega, .inl ⟨(c.x - cut.x).toNat, by omega, rfl⟩⟩, ?_⟩
        exact coord_eq (by simp only; omega) (by simp only; omega) (by simp only; omega)
    · apply g2
      · intro w hm he
        rw [mem_damp] at hm
        obtain ⟨y, hy, ⟨i, hi, rfl⟩ | ⟨i, hi, rfl⟩⟩ := hm
        · subst he
          simp only at *
          omega
        · subst he
          rw [ramp_eq]
          unfold Weight
          simp only at *
          rw [if_neg (by omega), if_neg (by omega), if_pos (by omega)]
          congr 4
          push_cast
          ring
      · right
        refine ⟨_, mem_damp.mpr ⟨c.y.toNat, by omega, .inr ⟨(cut.x + nx - 1 - c.x).toNat, by omega, rfl⟩⟩, ?_⟩
        exact coord_eq (by simp only; omega) (by simp only; omega) (by simp only; omega)
    all_goals
      rw [g1]
      · simp only [k2 c ⟨c1, c2, c3, c4, c5, c6⟩]
        first
          | exact if_pos q3
          | exact if_neg q3
      · intro w hm he
        rw [mem_damp] at hm
        obtain ⟨y, hy, ⟨i, hi, rfl⟩ | ⟨i, hi, rfl⟩⟩ := hm
        all_goals
          subst he
          simp only [true_and, not_and, not_lt] at q1 q2
          omega

/-! ### C143 -/

/-- C143: in two dimensions, for a window over the full depth whose borders do not overlap, the weights are zero outside the
window, one inside, and squared sines over the borders. Missing: three dimensions, windows that do not reach from
the top to the bottom, and borders that overlap (`C143_volume_violated`, `C143_depth_violated`,
`C143_overlap_violated`). -/
theorem C143_weights_partial {small big : Grid} {nx NX NY : Int} {cut : Coord} {left right : ℕ}
    (hs : initRegular nx NY 1 = .ok small) (hg : initRegular NX NY 1 = .ok big)
    (hf : Fits nx NY 1 NX NY 1 cut) (hw : (left + right : Int) ≤ nx) :
    ∃ v, shrinkVector small big cut left right = .ok v ∧
      ∀ c, InBox NX NY 1 c → v (Linear NX 1 c) = Weight cut.x nx left right c.x := by
  obtain ⟨v, h1, h2⟩ := weights_all hs hg hf hw
  refine ⟨v, h1, fun c hc => ?_⟩
  rw [h2 c hc]
  obtain ⟨f1, f2, f3, f4, f5, f6⟩ := hf
  obtain ⟨c1, c2, c3, c4, c5, c6⟩ := hc
  split_ifs with q1 q2 q3
  · rfl
  · rfl
  · unfold Weight
    rw [if_neg (by omega), if_neg (by omega), if_neg (by omega)]
  · unfold Weight
    rw [if_pos (by omega)]

/-- C143: a window that sticks out of the big model is rejected. -/
theorem C143_outside_rejected {small big : Grid} {nx ny nz NX NY NZ : Int} {cut : Coord} (left right : ℕ)
    (hs : initRegular nx ny nz = .ok small) (hg : initRegular NX NY NZ = .ok big)
    (hf : ¬ Fits nx ny nz NX NY NZ cut) : shrinkVector small big cut left right = .err := by
  obtain ⟨hn, px, py, pz, -⟩ := regular_n hs
  have hm : (List.range small.n.toNat).mapM (shrinkRow small big cut) = .err := by
    apply mapM_stops
    · intro i hi
      have hi := List.mem_range.mp hi
      obtain ⟨c, h1, -⟩ := C01_index_roundtrip hs (i := i) (by omega) (by omega)
      unfold shrinkRow
      rw [h1]
      simp only [Out.bind_ok]
      by_cases hb : InBox NX NY NZ (moved c cut)
      · obtain ⟨k, h3, -⟩ := C01_coordinate_roundtrip hg hb
        exact .inr ⟨k, h3⟩
      · exact .inl ((C02_regular_iff hg _).mpr hb)
    · obtain ⟨c, hc, hb⟩ : ∃ c, InBox nx ny nz c ∧ ¬ InBox NX NY NZ (moved c cut) := by
        by_contra hall
        push Not at hall
        apply hf
        obtain ⟨a, -, c, -, e, -⟩ := hall ⟨0, 0, 0⟩ ⟨by simp, px, by simp, py, by simp, pz⟩
        obtain ⟨-, b, -, d, -, f⟩ := hall ⟨nx - 1, ny - 1, nz - 1⟩
          ⟨by simp only; omega, by simp only; omega, by simp only; omega, by simp only; omega,
            by simp only; omega, by simp only; omega⟩
        simp only [moved] at a b c d e f
        exact ⟨by omega, by omega, by omega, by omega, by omega, by omega⟩
      obtain ⟨i, -, -, h6, h7, h8⟩ := C01_coordinate_roundtrip hs hc
      refine ⟨i.toNat, List.mem_range.mpr (by omega), ?_⟩
      unfold shrinkRow
      rw [Int.toNat_of_nonneg h6, h8]
      simp only [Out.bind_ok]
      exact (C02_regular_iff hg _).mpr hb
  unfold shrinkVector
  rw [hm]
  rfl

/-- C143: neighbouring windows whose borders of `w` points lie over each other share each point between the two windows: the
weights add up to one from the end of the left border of the first window to the start of the right border of the
second. So a model put together from the windows is the model that they were cut from. -/
theorem C143_sum_partial {small big : Grid} {nx NX NY : Int} {cut : Coord} {left w right : ℕ}
    (hs : initRegular nx NY 1 = .ok small) (hg : initRegular NX NY 1 = .ok big) (hpos : 0 < w)
    (hf : Fits nx NY 1 NX NY 1 cut) (hf' : Fits nx NY 1 NX NY 1 ⟨cut.x + nx - 1 - w, cut.y, cut.z⟩)
    (hw : (left + w : Int) < nx) (hw' : (w + right : Int) < nx) :
    ∃ v v', shrinkVector small big cut left w = .ok v ∧
      shrinkVector small big ⟨cut.x + nx - 1 - w, cut.y, cut.z⟩ w right = .ok v' ∧
      ∀ c, InBox NX NY 1 c → cut.x + left ≤ c.x → c.x < cut.x + nx - 1 - w + nx - right →
        v (Linear NX 1 c) + v' (Linear NX 1 c) = 1 := by
  obtain ⟨v, h1, h2⟩ := C143_weights_partial hs hg hf hw.le
  obtain ⟨v', h1', h2'⟩ := C143_weights_partial hs hg hf' hw'.le
  refine ⟨v, v', h1, h1', fun c hc hl hr => ?_⟩
  rw [h2 c hc, h2' c hc]
  have hwpos : (w : ℝ) ≠ 0 := by positivity
  rcases lt_trichotomy c.x (cut.x + nx - 1 - w) with h | h | h
  · unfold Weight
    rw [if_neg (by omega), if_neg (by omega), if_neg (by omega), if_pos (by simp only; omega)]
    norm_num
  · unfold Weight
    rw [if_neg (by omega), if_neg (by omega), if_neg (by omega), if_neg (by simp only; omega),
      if_pos (by simp only; omega), h]
    simp
  · by_cases h' : c.x < cut.x + nx - 1
    · unfold Weight
      rw [if_neg (by omega), if_neg (by omega), if_pos (by omega), if_neg (by simp only; omega),
        if_pos (by simp only; omega)]
      have : Real.pi / 2 * (((c.x - (cut.x + nx - 1 - w) : Int) : ℝ) / w) =
          Real.pi / 2 - Real.pi / 2 * (((cut.x + nx - 1 - c.x : Int) : ℝ) / w) := by
        push_cast
        field_simp
        ring
      rw [this, Real.sin_pi_div_two_sub, Real.sin_sq_add_cos_sq]
    · by_cases h'' : c.x = cut.x + nx - 1
      · unfold Weight
        rw [if_neg (by omega), if_neg (by omega), if_pos (by omega), if_neg (by simp only; omega),
          if_neg (by simp only; omega), if_neg (by simp only; omega), h'']
        simp
      · unfold Weight
        rw [if_pos (by omega), if_neg (by simp only; omega),
          if_neg (by simp only; omega), if_neg (by simp only; omega)]
        norm_num

/-- C143 fails in three dimensions: only the plane `z = 0` of the big model has the borders; in every other plane of the window
the weight jumps from zero to one. -/
theorem C143_volume_violated {small big : Grid} {nx ny nz NX NY NZ : Int} {cut : Coord} {left right : ℕ}
    (hs : initRegular nx ny nz = .ok small) (hg : initRegular NX NY NZ = .ok big)
    (hf : Fits nx ny nz NX NY NZ cut) (hw : (left + right : Int) ≤ nx) (hl : 0 < left) :
    ∃ v, shrinkVector small big cut left right = .ok v ∧ ∀ y z, cut.y ≤ y → y < cut.y + ny → cut.z ≤ z →
      z < cut.z + nz → 0 < z → v (Linear NX NZ ⟨cut.x, y, z⟩) = 1 ∧ Weight cut.x nx left right cut.x = 0 := by
  obtain ⟨v, h1, h2⟩ := weights_all hs hg hf hw
  refine ⟨v, h1, fun y z a b c d e => ⟨?_, ?_⟩⟩
  · obtain ⟨f1, f2, f3, f4, f5, f6⟩ := hf
    rw [h2 ⟨cut.x, y, z⟩ ⟨f1, by simp only; omega, by simp only; omega, by simp only; omega, by simp only; omega,
      by simp only; omega⟩]
    simp only
    rw [if_neg (by omega), if_neg (by omega), if_pos (by omega)]
  · unfold Weight
    rw [if_neg (by omega), if_pos (by omega)]
    simp

/-- C143 fails for windows that do not reach from the top to the bottom: with a border of at least two points, places above and
below the window have a weight. -/
theorem C143_depth_violated {small big : Grid} {nx ny nz NX NY NZ : Int} {cut : Coord} {left right : ℕ}
    (hs : initRegular nx ny nz = .ok small) (hg : initRegular NX NY NZ = .ok big)
    (hf : Fits nx ny nz NX NY NZ cut) (hw : (left + right : Int) ≤ nx) (hl : 2 ≤ left) :
    ∃ v, shrinkVector small big cut left right = .ok v ∧ ∀ y, 0 ≤ y → y < NY → ¬ (cut.y ≤ y ∧ y < cut.y + ny) →
      0 < v (Linear NX NZ ⟨cut.x + 1, y, 0⟩) := by
  obtain ⟨-, -, -, pz, -⟩ := regular_n hg
  obtain ⟨v, h1, h2⟩ := weights_all hs hg hf hw
  refine ⟨v, h1, fun y a b _ => ?_⟩
  obtain ⟨f1, f2, f3, f4, f5, f6⟩ := hf
  rw [h2 ⟨cut.x + 1, y, 0⟩ ⟨by simp only; omega, by simp only; omega, a, b, le_refl _, pz⟩]
  simp only
  rw [if_pos (by simp only [true_and]; omega)]
  unfold Weight
  rw [if_neg (by omega), if_pos (by omega)]
  have hr : (2 : ℝ) ≤ left := by exact_mod_cast hl
  have hp := Real.pi_pos
  have : 0 < Real.sin (Real.pi / 2 * ((cut.x + 1 - cut.x : Int) / left)) := by
    apply Real.sin_pos_of_pos_of_lt_pi
    · have : (0 : ℝ) < ((cut.x + 1 - cut.x : Int) : ℝ) := by push_cast; linarith
      positivity
    · have e : (((cut.x + 1 - cut.x : Int) : ℝ)) = 1 := by push_cast; ring
      rw [e]
      have : (1 : ℝ) / left ≤ 1 / 2 := by
        apply one_div_le_one_div_of_le <;> linarith
      nlinarith
  positivity

/-- C143 fails for borders that overlap: with borders as wide as the window, of two columns, the left edge has the weight 1/2
instead of 0, as the second loop overwrites what the first one has written. -/
theorem C143_overlap_violated {small big : Grid} (hs : initRegular 2 1 1 = .ok small)
    (hg : initRegular 4 1 1 = .ok big) :
    ∃ v, shrinkVector small big ⟨1, 0, 0⟩ 2 2 = .ok v ∧ v (Linear 4 1 ⟨1, 0, 0⟩) = 1 / 2 ∧ Weight 1 2 2 2 1 = 0 := by
  obtain ⟨ks, k1, -⟩ := window_points (cut := ⟨1, 0, 0⟩) hs hg (by simp [Fits])
  obtain ⟨-, -, -, -, eX, -⟩ := regular_n hs
  obtain ⟨-, -, -, -, -, eY⟩ := regular_n hg
  have hr : ramp 2 1 = 1 / 2 := by
    unfold ramp
    have : ((1 : ℕ) : ℝ) * Real.pi / (((2 : ℕ) : ℝ) * 2) = Real.pi / 4 := by push_cast; ring
    rw [this, Real.sin_pi_div_four, div_pow, Real.sq_sqrt (by norm_num)]
    norm_num
  have hw : dampWrites 2 (Int.toNat 1) ⟨1, 0, 0⟩ 2 2 =
      [(⟨1, 0, 0⟩, ramp 2 0), (⟨2, 0, 0⟩, ramp 2 1), (⟨2, 0, 0⟩, ramp 2 0)] ++ [(⟨1, 0, 0⟩, ramp 2 1)] := by
    simp [dampWrites, List.range_succ]
  obtain ⟨v1, h1, -⟩ := fold_writes hg
    [(⟨1, 0, 0⟩, ramp 2 0), (⟨2, 0, 0⟩, ramp 2 1), (⟨2, 0, 0⟩, ramp 2 0)] (fun k => if k ∈ ks then 1 else 0)
    (by simp [InBox])
  obtain ⟨v2, h2, h3⟩ := fold_writes hg [(⟨1, 0, 0⟩, ramp 2 1)] v1 (by simp [InBox])
  refine ⟨v2, ?_, ?_, by simp [Weight]⟩
  · unfold shrinkVector
    rw [k1]
    simp only [Out.bind_ok]
    rw [eX, eY, hw, List.foldlM_append, h1]
    exact h2
  · rw [← hr]
    exact (h3 ⟨1, 0, 0⟩ (by simp [InBox])).2 _ (by simp) (.inr (by simp))

/-- Two windows of six columns with borders of two columns in a model of nine columns and two rows: the second starts at
column three, and at column four each of them has the weight 1/2. -/
example : ∃ small big, initRegular 6 2 1 = .ok small ∧ initRegular 9 2 1 = .ok big ∧
    Fits 6 2 1 9 2 1 ⟨0, 0, 0⟩ ∧ Fits 6 2 1 9 2 1 ⟨0 + 6 - 1 - (2 : ℕ), 0, 0⟩ ∧ ((2 : ℕ) + (2 : ℕ) : Int) < 6 ∧
    InBox 9 2 1 ⟨4, 1, 0⟩ ∧ Weight 0 6 2 2 4 = 1 / 2 ∧ Weight (0 + 6 - 1 - (2 : ℕ)) 6 2 2 4 = 1 / 2 := by
  have h : Real.sin (Real.pi / 4) ^ 2 = 1 / 2 := by
    rw [Real.sin_pi_div_four, div_pow, Real.sq_sqrt (by norm_num)]
    norm_num
  have e : Real.pi / 2 * (1 / 2) = Real.pi / 4 := by ring
  refine ⟨_, _, rfl, rfl, by simp [Fits], by simp [Fits], by norm_num, by simp [InBox], ?_, ?_⟩
  · unfold Weight
    norm_num
    rw [e, h]
  · unfold Weight
    norm_num
    rw [e, h]

end Verif.Sub
