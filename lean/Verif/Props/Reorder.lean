import Verif.Model.Reorder
import Verif.Lemmas.SU
import Verif.Props.Grid
import Mathlib.Data.List.Nodup
import Mathlib.Data.List.Count

/-!
# C152, C153: order of the grid points and files with coordinates
-/
namespace Verif.Reorder
open Verif Verif.Grid

/-- Each grid point belongs to exactly one process. -/
def Dist (n : Int) (owned : List (List Int)) : Prop := owned.flatten.Perm ((List.range n.toNat).map Int.ofNat)

/-- The position of a point in y-fastest, then x, then z order. -/
def YXZ (NX NY : Int) (c : Coord) : Int := c.y + NY * (c.x + NX * c.z)

private theorem mem_of_dist {n : Int} {owned : List (List Int)} (hd : Dist n owned) {i : Int} :
    i ∈ owned.flatten ↔ 0 ≤ i ∧ i < n := by
  rw [hd.mem_iff, List.mem_map]
  constructor
  · rintro ⟨k, hk, rfl⟩
    rw [List.mem_range] at hk
    simp only [Int.ofNat_eq_natCast]
    omega
  · intro h
    exact ⟨i.toNat, List.mem_range.mpr (by omega), by simp only [Int.ofNat_eq_natCast]; omega⟩

private theorem nodup_of_dist {n : Int} {owned : List (List Int)} (hd : Dist n owned) : owned.flatten.Nodup :=
  hd.nodup_iff.mpr (List.nodup_range.map fun a b h => by simpa using h)

private theorem filter_self {l : List Int} (hl : l.Nodup) {i : Int} (hi : i ∈ l) (p : Int → Bool)
    (hp : ∀ j ∈ l, p j = true ↔ j = i) : l.filter p = [i] := by
  rw [List.filter_congr (q := fun j => j == i), List.filter_beq, List.count_eq_one_of_mem hl hi]
  · rfl
  · intro j hj
    rw [Bool.eq_iff_iff, hp j hj]
    simp

private theorem mapM_map {α β : Type} {f : α → Out β} {h : α → β} {l : List α} (hf : ∀ a ∈ l, f a = .ok (h a)) :
    l.mapM f = .ok (l.map h) := by
  induction l with
  | nil => rfl
  | cons a l ih =>
    rw [List.mapM_cons, hf a (by simp), Out.bind_ok, ih fun b hb => hf b (by simp [hb])]
    rfl

private theorem yxz_unique {NX NY NZ : Int} {c d : Coord} (hc : InBox NX NY NZ c) (hd : InBox NX NY NZ d)
    (h : YXZ NX NY c = YXZ NX NY d) : c = d := by
  obtain ⟨a0, a1, b0, b1, c0, c1⟩ := hc
  obtain ⟨a0', a1', b0', b1', c0', c1'⟩ := hd
  have hg : initRegular NY NZ NX = .ok _ := if_pos (show NY > 0 ∧ NZ > 0 ∧ NX > 0 by omega)
  obtain ⟨i, -, hi, -, -, h1⟩ := C01_coordinate_roundtrip hg (c := ⟨c.y, c.z, c.x⟩) ⟨b0, b1, c0, c1, a0, a1⟩
  obtain ⟨j, -, hj, -, -, h2⟩ := C01_coordinate_roundtrip hg (c := ⟨d.y, d.z, d.x⟩) ⟨b0', b1', c0', c1', a0', a1'⟩
  have hij : i = j := by rw [hi, hj]; exact h
  rw [hij, h2] at h1
  injection h1 with h1
  cases c
  cases d
  simp_all

private theorem yxz_range {NX NY NZ : Int} {c : Coord} (hc : InBox NX NY NZ c) :
    0 ≤ YXZ NX NY c ∧ YXZ NX NY c < NX * NY * NZ := by
  obtain ⟨a0, a1, b0, b1, c0, c1⟩ := hc
  have hg : initRegular NY NZ NX = .ok _ := if_pos (show NY > 0 ∧ NZ > 0 ∧ NX > 0 by omega)
  obtain ⟨i, -, hi, h0, h1, -⟩ := C01_coordinate_roundtrip hg (c := ⟨c.y, c.z, c.x⟩) ⟨b0, b1, c0, c1, a0, a1⟩
  have e : YXZ NX NY c = i := hi.symm
  rw [e]
  exact ⟨h0, by rw [show NX * NY * NZ = NY * NZ * NX by ring]; exact h1⟩

private theorem yxz_surj {NX NY NZ : Int} (h : 0 < NX ∧ 0 < NY ∧ 0 < NZ) {k : Int} (h0 : 0 ≤ k) (hk : k < NX * NY * NZ) :
    ∃ c, InBox NX NY NZ c ∧ YXZ NX NY c = k := by
  have hg : initRegular NY NZ NX = .ok _ := if_pos (show NY > 0 ∧ NZ > 0 ∧ NX > 0 by omega)
  obtain ⟨c, -, ⟨a0, a1, b0, b1, c0, c1⟩, hc, -⟩ := C01_index_roundtrip hg h0
    (by rw [show NY * NZ * NX = NX * NY * NZ by ring]; exact hk)
  exact ⟨⟨c.z, c.x, c.y⟩, ⟨c0, c1, a0, a1, b0, b1⟩, hc⟩

/-- C152: the matrix exists for each distribution, `transformMatrixYXZ * v` has the values of `v` in y-fastest order, and
`transformMatrixXZY * v` goes back. -/
theorem C152_order {NX NY NZ : Int} {g : Grid} (hg : initRegular NX NY NZ = .ok g) {owned : List (List Int)}
    (hd : Dist (NX * NY * NZ) owned) : ∃ m, matrix g owned = .ok m ∧
      ∀ (v : Int → ℝ) (c : Coord), InBox NX NY NZ c →
        mulYXZ m v (YXZ NX NY c) = v (Linear NX NZ c) ∧ mulXZY m v (Linear NX NZ c) = v (YXZ NX NY c) := by
  have hN : g.NX = NX ∧ g.NY = NY ∧ g.n = NX * NY * NZ := by
    unfold initRegular at hg
    split at hg
    · cases hg
      exact ⟨rfl, rfl, by simp [Grid.n, Layer.n]⟩
    · cases hg
  have hcol : ∀ c, column g c = YXZ NX NY c := by
    intro c
    unfold column YXZ
    rw [hN.1, hN.2.1]
    ring
  have hpt : ∀ i, ∃ c, 0 ≤ i ∧ i < NX * NY * NZ → index2coordinate g i = .ok c ∧ InBox NX NY NZ c ∧ Linear NX NZ c = i := by
    intro i
    by_cases h : 0 ≤ i ∧ i < NX * NY * NZ
    · obtain ⟨c, h1, h2, h3, -⟩ := C01_index_roundtrip hg h.1 h.2
      exact ⟨c, fun _ => ⟨h1, h2, h3⟩⟩
    · exact ⟨⟨0, 0, 0⟩, fun h' => absurd h' h⟩
  choose pt hpt using hpt
  have hm : matrix g owned = .ok (owned.flatten.map fun i => (i, YXZ NX NY (pt i))) := by
    unfold matrix
    rw [mapM_map (h := fun l => l.map fun i => (i, YXZ NX NY (pt i)))]
    · simp only [Out.bind_ok, ← List.map_flatten]
      rw [if_pos]
      rw [List.all_eq_true]
      intro e he
      obtain ⟨i, hi, rfl⟩ := List.mem_map.mp he
      have hr := yxz_range (hpt i ((mem_of_dist hd).mp hi)).2.1
      rw [hN.2.2]
      simpa using hr
    · intro l hl
      refine mapM_map fun i hi => ?_
      rw [(hpt i ((mem_of_dist hd).mp (List.mem_flatten.mpr ⟨l, hl, hi⟩))).1, Out.bind_ok, hcol]
  refine ⟨_, hm, fun v c hc => ?_⟩
  obtain ⟨i, -, hi, h0, h1, -⟩ := C01_coordinate_roundtrip hg hc
  have hpi : pt i = c := by
    have h := C01_coordinate_roundtrip hg hc
    obtain ⟨j, -, hj, -, -, h2⟩ := h
    have h3 := (hpt i ⟨h0, h1⟩).1
    rw [← hi] at hj
    rw [hj, h3] at h2
    injection h2
  have hmem : i ∈ owned.flatten := (mem_of_dist hd).mpr ⟨h0, h1⟩
  have hnd := nodup_of_dist hd
  constructor
  · unfold mulYXZ
    rw [List.filter_map, filter_self hnd hmem]
    · simp [hi]
    · intro j hj
      have hj := hpt j ((mem_of_dist hd).mp hj)
      simp only [Function.comp_apply, decide_eq_true_eq]
      constructor
      · intro h
        rw [← hj.2.2, yxz_unique hj.2.1 hc h, hi]
      · rintro rfl
        rw [hpi]
  · unfold mulXZY
    rw [List.filter_map, ← hi, filter_self hnd hmem]
    · simp [hpi]
    · intro j _
      simp

/-- C152: the two matrices are inverse to each other. -/
theorem C152_inverse {NX NY NZ : Int} {g : Grid} (hg : initRegular NX NY NZ = .ok g) {owned : List (List Int)}
    (hd : Dist (NX * NY * NZ) owned) : ∃ m, matrix g owned = .ok m ∧
      ∀ (v : Int → ℝ) (k : Int), 0 ≤ k → k < NX * NY * NZ →
        mulXZY m (mulYXZ m v) k = v k ∧ mulYXZ m (mulXZY m v) k = v k := by
  obtain ⟨m, hm, h⟩ := C152_order hg hd
  refine ⟨m, hm, fun v k h0 hk => ⟨?_, ?_⟩⟩
  · obtain ⟨c, -, hc, rfl, -⟩ := C01_index_roundtrip hg h0 hk
    rw [(h _ c hc).2, (h _ c hc).1]
  · have hp : 0 < NX ∧ 0 < NY ∧ 0 < NZ := by
      unfold initRegular at hg
      split at hg
      · assumption
      · cases hg
    obtain ⟨c, hc, rfl⟩ := yxz_surj hp h0 hk
    rw [(h _ c hc).1, (h _ c hc).2]

/-- C152, why grids without layers are needed, as the comment in Wavefields.cpp:112 says: a coarse layer below a fine one has points behind the last column. -/
theorem C152_layers_rejected : ∃ g, initVar 5 11 5 [1, 3] [4] = .ok g ∧ Roomy 11 [1, 3] [4] ∧
    matrix g [(List.range g.n.toNat).map Int.ofNat] = .err := by
  refine ⟨_, rfl, ?_, by decide +kernel⟩
  refine ⟨by decide, fun k hk => ?_⟩
  have hk : k + 1 < 2 := by simpa using hk
  obtain rfl : k = 0 := by omega
  decide

/-- C153: the files with coordinates have one entry for each grid point, whatever the distribution. A source at the written
coordinates is at this grid point, and no other point has the same coordinates. -/
theorem C153_coordinate_files {NX NY NZ : Int} {dhs ifs : List Int} {g : Grid}
    (hg : initRegular NX NY NZ = .ok g ∨ initVar NX NY NZ dhs ifs = .ok g ∧ Roomy NY dhs ifs) {owned : List (List Int)}
    (hd : Dist g.n owned) : ∃ X Y Z, coordinateFiles g owned = .ok (X, Y, Z) ∧
      (∀ F ∈ [X, Y, Z], (F.map fun e => e.1).Perm ((List.range g.n.toNat).map Int.ofNat)) ∧
      ∀ i x y z, (i, x) ∈ X → (i, y) ∈ Y → (i, z) ∈ Z → coordinate2index g ⟨x, y, z⟩ = .ok i := by
  have hpt : ∀ i, ∃ c, 0 ≤ i ∧ i < g.n → index2coordinate g i = .ok c ∧ coordinate2index g c = .ok i := by
    intro i
    by_cases h : 0 ≤ i ∧ i < g.n
    · rcases hg with hg | ⟨hg, hr⟩
      · have hN : g.n = NX * NY * NZ := by
          unfold initRegular at hg
          split at hg
          · cases hg
            simp [Grid.n, Layer.n]
          · cases hg
        rw [hN] at h
        obtain ⟨c, h1, -, -, h2⟩ := C01_index_roundtrip hg h.1 h.2
        exact ⟨c, fun _ => ⟨h1, h2⟩⟩
      · obtain ⟨c, h1, h2⟩ := C03_index_roundtrip hg hr h.1 h.2
        exact ⟨c, fun _ => ⟨h1, h2⟩⟩
    · exact ⟨⟨0, 0, 0⟩, fun h' => absurd h' h⟩
  choose pt hpt using hpt
  have hm : coordinateFiles g owned = .ok (owned.flatten.map fun i => (i, (pt i).x), owned.flatten.map fun i => (i, (pt i).y),
      owned.flatten.map fun i => (i, (pt i).z)) := by
    unfold coordinateFiles
    rw [mapM_map (h := fun l => l.map fun i => (i, pt i))]
    · simp only [Out.bind_ok, ← List.map_flatten, List.map_map]
      rfl
    · intro l hl
      refine mapM_map fun i hi => ?_
      rw [(hpt i ((mem_of_dist hd).mp (List.mem_flatten.mpr ⟨l, hl, hi⟩))).1, Out.bind_ok]
  refine ⟨_, _, _, hm, ?_, ?_⟩
  · intro F hF
    have : F.map (fun e => e.1) = owned.flatten := by
      simp only [List.mem_cons, List.not_mem_nil, or_false] at hF
      rcases hF with rfl | rfl | rfl <;> rw [List.map_map] <;> exact List.map_id _
    rw [this]
    exact hd
  · intro i x y z hx hy hz
    simp only [List.mem_map, Prod.mk.injEq] at hx hy hz
    obtain ⟨i, hi, rfl, rfl⟩ := hx
    obtain ⟨_, _, rfl, rfl⟩ := hy
    obtain ⟨_, _, rfl, rfl⟩ := hz
    exact (hpt _ ((mem_of_dist hd).mp hi)).2

/-! ### Examples -/

/-- A grid of 4 x 3 x 2 points on two processes that own every other point. -/
example : ∃ g, initRegular 4 3 2 = .ok g ∧
    Dist 24 [(List.range 12).map fun k => 2 * Int.ofNat k, (List.range 12).map fun k => 2 * Int.ofNat k + 1] :=
  ⟨_, rfl, by unfold Dist; decide⟩

/-- Files of a grid with two layers. -/
example : ∃ g, initVar 5 11 5 [1, 3] [4] = .ok g ∧
    ∃ X Y Z, coordinateFiles g [(List.range g.n.toNat).map Int.ofNat] = .ok (X, Y, Z) ∧ (132, 10) ∈ Y := by
  refine ⟨_, rfl, _, _, _, rfl, by decide +kernel⟩

end Verif.Reorder
