import Verif.Model.PartitionGraph
import Verif.Props.Stencil

/-!
# C160: the graph for the partitioning tools
-/
namespace Verif.Graph
open Verif Verif.Solver Verif.Stencil Matrix

variable {NX NY NZ : ℕ}

/-- The matrix row has an entry in the column. -/
def HasEntry (row : Out (List (Int × ℚ))) (c : Int) : Prop := ∃ r, row = .ok r ∧ ∃ w, (c, w) ∈ r

/-- The directions of a grid. -/
def axes : Bool → List Axis
  | false => [.x, .y]
  | true => [.x, .y, .z]

/-- The backward derivative at `i` uses the value at `j`. -/
def Backward (threeD : Bool) (s : Int) (i j : Pt NX NY NZ) : Prop :=
  ∃ a ∈ axes threeD, moveTo a i (along a j) = j ∧ HasEntry (bwdRow (axisSize NX NY NZ a) 1 0 (along a i : ℕ) s) (along a j : ℕ)

/-- The forward derivative at `i` uses the value at `j`. -/
def Forward (threeD : Bool) (s : Int) (i j : Pt NX NY NZ) : Prop :=
  ∃ a ∈ axes threeD, moveTo a i (along a j) = j ∧ HasEntry (fwdRow (axisSize NX NY NZ a) 1 0 (along a i : ℕ) s) (along a j : ℕ)

/-- Entries of a stencil. -/
private def co (s k : Int) : ℚ := if 0 ≤ k then (((fd s).getD [])[k.toNat]?).getD 0 else 0

private theorem co_finite : ∀ s ∈ [(2 : Int), 4, 6, 8, 10, 12], ∀ t ∈ [(2 : Int), 4, 6, 8, 10, 12], ∀ k ∈ [(1 : Int), 2, 3, 4, 5, 6],
    (co s (s / 2 - k) - co t (t / 2 + k) ≠ 0 ↔ (k ≤ s / 2 ∨ k < t / 2)) := by decide +kernel

private theorem valid_mem {s : Int} (h : ValidOrder s) : s ∈ [(2 : Int), 4, 6, 8, 10, 12] := by
  unfold ValidOrder at h
  simpa using h

private theorem co_right {s k : Int} (hs : ValidOrder s) (hk : s ≤ k) : co s k = 0 := by
  obtain ⟨cs, hcs, hl⟩ := fd_length hs
  obtain ⟨_, h2, _⟩ := hs.even
  unfold co
  rw [if_pos (by omega), hcs, Option.getD_some, List.getElem?_eq_none (by omega)]
  rfl

private theorem co_pair {s t k : Int} (hs : ValidOrder s) (ht : ValidOrder t) (hk : 1 ≤ k) :
    co s (s / 2 - k) - co t (t / 2 + k) ≠ 0 ↔ (k ≤ s / 2 ∨ k < t / 2) := by
  obtain ⟨h1, h2, h3⟩ := hs.even
  obtain ⟨g1, g2, g3⟩ := ht.even
  by_cases h6 : k ≤ 6
  · exact co_finite s (valid_mem hs) t (valid_mem ht) k (by simp only [List.mem_cons, List.not_mem_nil, or_false]; omega)
  · rw [co_right ht (by omega)]
    unfold co
    rw [if_neg (by omega)]
    constructor
    · intro h
      exact absurd (by norm_num) h
    · omega

private theorem entry_co {s st c : Int} (hs : ValidOrder s) : entry (plain s 1 st) c = co s (c - st) := by
  obtain ⟨cs, hcs, _⟩ := fd_length hs
  rw [entry_plain hcs]
  unfold co
  rw [hcs, Option.getD_some]
  by_cases h : st ≤ c
  · rw [if_pos h, if_pos (by omega)]
  · rw [if_neg h, if_neg (by omega)]

private theorem mem_plain {s st c : Int} (hs : ValidOrder s) : (∃ w, (c, w) ∈ plain s 1 st) ↔ st ≤ c ∧ c < st + s := by
  obtain ⟨cs, hcs, hl⟩ := fd_length hs
  unfold plain
  rw [hcs, Option.getD_some]
  constructor
  · rintro ⟨w, hw⟩
    obtain ⟨⟨v, k⟩, hk, he⟩ := List.mem_map.mp hw
    have := List.mem_zipIdx hk
    injection he with h1 h2
    simp only at h1
    omega
  · rintro ⟨h1, h2⟩
    have hlt : (c - st).toNat < cs.length := by omega
    refine ⟨cs[(c - st).toNat], List.mem_map.mpr ⟨(cs[(c - st).toNat], (c - st).toNat), ?_, ?_⟩⟩
    · rw [List.mem_zipIdx_iff_getElem?]
      exact List.getElem?_eq_getElem hlt
    · simp only [Prod.mk.injEq, and_true]
      omega

private theorem has_bwd {N s r c : Int} (hs : ValidOrder s) (hN : 2 ≤ N) (h0 : 0 ≤ r) (hr : r < N) :
    HasEntry (bwdRow N 1 0 r s) c ↔ bwdBase r - bwdOrder N r s / 2 ≤ c ∧ c < bwdBase r - bwdOrder N r s / 2 + bwdOrder N r s := by
  rw [← mem_plain (bwdOrder_valid hs h0 hr)]
  unfold HasEntry
  rw [bwdRow_eq hs hN h0 hr]
  exact ⟨fun ⟨_, h, hw⟩ => by injection h with h; rw [h]; exact hw, fun h => ⟨_, rfl, h⟩⟩

private theorem has_fwd {N s r c : Int} (hs : ValidOrder s) (hN : 2 ≤ N) (h0 : 0 ≤ r) (hr : r < N) :
    HasEntry (fwdRow N 1 0 r s) c ↔
      fwdBase N r + 1 - fwdOrder N r s / 2 ≤ c ∧ c < fwdBase N r + 1 - fwdOrder N r s / 2 + fwdOrder N r s := by
  rw [← mem_plain (fwdOrder_valid hs h0 hr)]
  unfold HasEntry
  rw [fwdRow_eq hs hN h0 hr]
  exact ⟨fun ⟨_, h, hw⟩ => by injection h with h; rw [h]; exact hw, fun h => ⟨_, rfl, h⟩⟩

private theorem sub_lt {N s x y : Int} (hs : ValidOrder s) (hN : 2 ≤ N) (h0 : 0 ≤ x) (hxy : x < y) (hy : y < N) :
    surfaceEntry (bwdRow N 1 0 y s) x - surfaceEntry (bwdRow N 1 0 x s) y ≠ 0 ↔
      HasEntry (bwdRow N 1 0 x s) y ∨ HasEntry (bwdRow N 1 0 y s) x := by
  rw [has_bwd hs hN h0 (by omega), has_bwd hs hN (by omega) hy, bwdRow_eq hs hN h0 (by omega), bwdRow_eq hs hN (by omega) hy]
  have v1 := bwdOrder_valid hs h0 (by omega : x < N)
  have v2 := bwdOrder_valid hs (by omega : 0 ≤ y) hy
  unfold surfaceEntry
  simp only
  rw [entry_co v1, entry_co v2]
  obtain ⟨a1, a2, a3⟩ := v1.even
  obtain ⟨b1, b2, b3⟩ := v2.even
  have hby : bwdBase y = y := by unfold bwdBase; rw [if_neg (by omega)]
  rw [hby]
  by_cases hx : x = 0
  · subst hx
    have ho : bwdOrder N 0 s = 2 := by unfold bwdOrder; rw [if_pos rfl]
    have hb : bwdBase 0 = 1 := by unfold bwdBase; rw [if_pos rfl]
    rw [ho, hb]
    obtain ⟨_, s2, _⟩ := hs.even
    by_cases h1 : y = 1
    · subst h1
      have ho : bwdOrder N 1 s = 2 := by unfold bwdOrder; rw [if_neg (by omega)]; omega
      rw [ho]
      exact ⟨fun _ => Or.inl (by decide), fun _ => by decide +kernel⟩
    · have e : co 2 (y - (1 - 2 / 2)) = co 2 (2 / 2 + y) := by
        rw [co_right (by decide) (by omega), co_right (by decide) (by omega)]
      rw [e, show (0 : Int) - (y - bwdOrder N y s / 2) = bwdOrder N y s / 2 - y by omega, co_pair v2 (by decide) (by omega)]
      omega
  · have hbx : bwdBase x = x := by unfold bwdBase; rw [if_neg hx]
    rw [hbx, show x - (y - bwdOrder N y s / 2) = bwdOrder N y s / 2 - (y - x) by omega,
      show y - (x - bwdOrder N x s / 2) = bwdOrder N x s / 2 + (y - x) by omega, co_pair v2 v1 (by omega)]
    omega

private theorem sub_ne {N s x y : Int} (hs : ValidOrder s) (hN : 2 ≤ N) (h0 : 0 ≤ x) (hx : x < N) (h0' : 0 ≤ y) (hy : y < N) (hne : x ≠ y) :
    surfaceEntry (bwdRow N 1 0 y s) x - surfaceEntry (bwdRow N 1 0 x s) y ≠ 0 ↔
      HasEntry (bwdRow N 1 0 x s) y ∨ HasEntry (bwdRow N 1 0 y s) x := by
  rcases lt_or_gt_of_ne hne with h | h
  · exact sub_lt hs hN h0 h hy
  · rw [or_comm, ← sub_lt hs hN h0' h hx, sub_ne_zero, sub_ne_zero, ne_comm]

private theorem line_arith {N s x y : Int} (hs : ValidOrder s) (h0 : 0 ≤ x) (hx : x < N) (h0' : 0 ≤ y) (hy : y < N) (hne : x ≠ y)
    (h : fwdBase N x + 1 - fwdOrder N x s / 2 ≤ y ∧ y < fwdBase N x + 1 - fwdOrder N x s / 2 + fwdOrder N x s) :
    ((bwdBase x - bwdOrder N x s / 2 ≤ y ∧ y < bwdBase x - bwdOrder N x s / 2 + bwdOrder N x s) ∨
      (bwdBase y - bwdOrder N y s / 2 ≤ x ∧ x < bwdBase y - bwdOrder N y s / 2 + bwdOrder N y s)) ↔
      ¬ (N - y < y - x ∧ (y - x = s / 2 ∨ x ≤ y - x)) := by
  obtain ⟨s1, s2, s3⟩ := hs.even
  unfold fwdBase fwdOrder at h
  unfold bwdBase bwdOrder
  by_cases hl : x + 1 = N
  · rw [if_pos hl, if_pos hl] at h
    rw [if_neg (by omega), if_neg (by omega)]
    by_cases y0 : y = 0
    · rw [if_pos y0, if_pos y0]; omega
    · rw [if_neg y0, if_neg y0]; omega
  · rw [if_neg hl, if_neg hl] at h
    by_cases x0 : x = 0
    · rw [if_pos x0, if_pos x0]
      by_cases y0 : y = 0
      · omega
      · rw [if_neg y0, if_neg y0]; omega
    · rw [if_neg x0, if_neg x0]
      by_cases y0 : y = 0
      · rw [if_pos y0, if_pos y0]; omega
      · rw [if_neg y0, if_neg y0]; omega

private theorem line_symm (a : Axis) (i j : Pt NX NY NZ) : moveTo a i (along a j) = j ↔ moveTo a j (along a i) = i := by
  obtain ⟨x, y, z⟩ := i
  obtain ⟨x', y', z'⟩ := j
  cases a <;> simp [moveTo, along, eq_comm]

private theorem line_unique {a b : Axis} {i j : Pt NX NY NZ} (hij : i ≠ j) (ha : moveTo a i (along a j) = j)
    (hb : moveTo b i (along b j) = j) : a = b := by
  obtain ⟨x, y, z⟩ := i
  obtain ⟨x', y', z'⟩ := j
  cases a <;> cases b <;> simp [moveTo, along] at ha hb hij ⊢ <;> tauto

private theorem line_ne {a : Axis} {i j : Pt NX NY NZ} (hij : i ≠ j) (ha : moveTo a i (along a j) = j) :
    ((along a i : ℕ) : Int) ≠ (along a j : ℕ) := by
  intro h
  have h' : along a i = along a j := Fin.ext (by exact_mod_cast h)
  refine hij ?_
  rw [← ha, ← h']
  obtain ⟨x, y, z⟩ := i
  cases a <;> rfl

private theorem graph_sum (threeD : Bool) (s : Int) (DH : ℚ) (i j : Pt NX NY NZ) :
    graph threeD s DH i j = ((axes threeD).map fun a => backwardSparse s DH a j i - backwardSparse s DH a i j).sum := by
  unfold graph axes
  cases threeD <;> simp [Matrix.transpose_apply, Matrix.sub_apply, Matrix.add_apply] <;> ring

private theorem diff_axis (s : Int) (DH : ℚ) (a : Axis) (i j : Pt NX NY NZ) :
    backwardSparse s DH a j i - backwardSparse s DH a i j = if moveTo a i (along a j) = j then
      (surfaceEntry (bwdRow (axisSize NX NY NZ a) 1 0 (along a j : ℕ) s) (along a i : ℕ) -
        surfaceEntry (bwdRow (axisSize NX NY NZ a) 1 0 (along a i : ℕ) s) (along a j : ℕ)) / DH else 0 := by
  unfold backwardSparse
  by_cases h : moveTo a i (along a j) = j
  · rw [if_pos h, if_pos h, if_pos ((line_symm a i j).mp h), sub_div]
  · rw [if_neg h, if_neg h, if_neg fun h' => h ((line_symm a i j).mpr h'), sub_zero]

/-- C160: the graph connects two points exactly if the backward derivative at one of them uses the value at the other. -/
theorem C160_connected (threeD : Bool) {s : Int} (hs : ValidOrder s) {DH : ℚ} (hDH : 0 < DH)
    (hN : ∀ a ∈ axes threeD, 2 ≤ axisSize NX NY NZ a) {i j : Pt NX NY NZ} (hij : i ≠ j) :
    graph threeD s DH i j ≠ 0 ↔ Backward threeD s i j ∨ Backward threeD s j i := by
  rw [graph_sum]
  have key : ∀ a ∈ axes threeD, backwardSparse s DH a j i - backwardSparse s DH a i j ≠ 0 ↔ moveTo a i (along a j) = j ∧
      (HasEntry (bwdRow (axisSize NX NY NZ a) 1 0 (along a i : ℕ) s) (along a j : ℕ) ∨
        HasEntry (bwdRow (axisSize NX NY NZ a) 1 0 (along a j : ℕ) s) (along a i : ℕ)) := by
    intro a ha
    rw [diff_axis]
    by_cases h : moveTo a i (along a j) = j
    · rw [if_pos h, ← sub_ne hs (by exact_mod_cast hN a ha) (by omega) (by have := (along a i).2; omega) (by omega)
        (by have := (along a j).2; omega) (line_ne hij h)]
      simp [h, hDH.ne']
    · rw [if_neg h]
      simp [h]
  have hsum : ((axes threeD).map fun a => backwardSparse s DH a j i - backwardSparse s DH a i j).sum ≠ 0 ↔
      ∃ a ∈ axes threeD, backwardSparse s DH a j i - backwardSparse s DH a i j ≠ 0 := by
    by_cases hex : ∃ a ∈ axes threeD, backwardSparse s DH a j i - backwardSparse s DH a i j ≠ 0
    · refine ⟨fun _ => hex, fun _ => ?_⟩
      obtain ⟨a, ha, hne⟩ := hex
      have hz : ∀ b, b ≠ a → backwardSparse s DH b j i - backwardSparse s DH b i j = 0 := by
        intro b hb
        rw [diff_axis, if_neg fun h => hb (line_unique hij h ((key a ha).mp hne).1)]
      have : ∀ L : List Axis, L.Nodup → a ∈ L → (L.map fun a => backwardSparse s DH a j i - backwardSparse s DH a i j).sum =
          backwardSparse s DH a j i - backwardSparse s DH a i j := by
        intro L
        induction L with
        | nil => intro _ h; simp at h
        | cons b L ih =>
          intro hd hm
          rw [List.map_cons, List.sum_cons]
          rcases List.mem_cons.mp hm with rfl | hm
          · rw [List.sum_eq_zero, add_zero]
            intro v hv
            obtain ⟨c, hc, rfl⟩ := List.mem_map.mp hv
            exact hz c fun e => (List.nodup_cons.mp hd).1 (e ▸ hc)
          · rw [ih (List.nodup_cons.mp hd).2 hm, hz b fun e => (List.nodup_cons.mp hd).1 (e ▸ hm), zero_add]
      rw [this _ (by cases threeD <;> decide) ha]
      exact hne
    · refine ⟨fun h => absurd (List.sum_eq_zero fun v hv => ?_) h, fun h => absurd h hex⟩
      obtain ⟨c, hc, rfl⟩ := List.mem_map.mp hv
      by_contra hne
      exact hex ⟨c, hc, hne⟩
  rw [hsum]
  unfold Backward
  constructor
  · rintro ⟨a, ha, h⟩
    obtain ⟨h1, h2⟩ := (key a ha).mp h
    rcases h2 with h2 | h2
    · exact Or.inl ⟨a, ha, h1, h2⟩
    · exact Or.inr ⟨a, ha, (line_symm a i j).mp h1, h2⟩
  · rintro (⟨a, ha, h1, h2⟩ | ⟨a, ha, h1, h2⟩)
    · exact ⟨a, ha, (key a ha).mpr ⟨h1, Or.inl h2⟩⟩
    · exact ⟨a, ha, (key a ha).mpr ⟨(line_symm a i j).mpr h1, Or.inr h2⟩⟩

/-- C160: the graph is symmetric, as the partitioning tools require, and no point is connected with itself. -/
theorem C160_symmetric (threeD : Bool) (s : Int) (DH : ℚ) (i j : Pt NX NY NZ) :
    (graph threeD s DH i j ≠ 0 ↔ graph threeD s DH j i ≠ 0) ∧ graph threeD s DH i i = 0 := by
  have h : graph threeD s DH j i = - graph threeD s DH i j := by
    unfold graph
    cases threeD <;> simp [Matrix.transpose_apply, Matrix.sub_apply, Matrix.add_apply] <;> ring
  refine ⟨by rw [h, neg_ne_zero], ?_⟩
  unfold graph
  cases threeD
  · simp [Matrix.transpose_apply, Matrix.sub_apply, Matrix.add_apply]
  · simp [Matrix.transpose_apply, Matrix.sub_apply, Matrix.add_apply]
    ring

/-- C160 for the forward derivatives: if the forward derivative at `i` uses the value at another point `j`, these points are connected
unless `j` is closer to the end of the axis than to `i`, and `i` is half a stencil away or closer to the begin of the axis than to `j`.
Missing: these exceptions, see `C160_edge_violated`. -/
theorem C160_forward_partial (threeD : Bool) {s : Int} (hs : ValidOrder s) {DH : ℚ} (hDH : 0 < DH)
    (hN : ∀ a ∈ axes threeD, 2 ≤ axisSize NX NY NZ a) {i j : Pt NX NY NZ} (hij : i ≠ j) {a : Axis} (ha : a ∈ axes threeD)
    (h1 : moveTo a i (along a j) = j) (h2 : HasEntry (fwdRow (axisSize NX NY NZ a) 1 0 (along a i : ℕ) s) (along a j : ℕ)) :
    graph threeD s DH i j ≠ 0 ↔ ¬ ((axisSize NX NY NZ a : Int) - (along a j : ℕ) < (along a j : ℕ) - (along a i : ℕ) ∧
      (((along a j : ℕ) : Int) - (along a i : ℕ) = s / 2 ∨ ((along a i : ℕ) : Int) ≤ (along a j : ℕ) - (along a i : ℕ))) := by
  rw [C160_connected threeD hs hDH hN hij]
  have hN' : (2 : Int) ≤ axisSize NX NY NZ a := by exact_mod_cast hN a ha
  have li := (along a i).2
  have lj := (along a j).2
  have hne := line_ne hij h1
  obtain ⟨s1, s2, s3⟩ := hs.even
  have e : Backward threeD s i j ∨ Backward threeD s j i ↔ HasEntry (bwdRow (axisSize NX NY NZ a) 1 0 (along a i : ℕ) s) (along a j : ℕ) ∨
      HasEntry (bwdRow (axisSize NX NY NZ a) 1 0 (along a j : ℕ) s) (along a i : ℕ) := by
    constructor
    · rintro (⟨b, hb, g1, g2⟩ | ⟨b, hb, g1, g2⟩)
      · obtain rfl := line_unique hij g1 h1
        exact Or.inl g2
      · obtain rfl := line_unique hij ((line_symm b i j).mpr g1) h1
        exact Or.inr g2
    · rintro (h | h)
      · exact Or.inl ⟨a, ha, h1, h⟩
      · exact Or.inr ⟨a, ha, (line_symm a i j).mp h1, h⟩
  rw [e]
  rw [has_fwd hs hN' (by omega) (by omega)] at h2
  rw [has_bwd hs hN' (by omega) (by omega), has_bwd hs hN' (by omega) (by omega)]
  exact line_arith hs (by omega) (by omega) (by omega) (by omega) hne h2

/-- C160 fails at the end of each axis for all orders from four on: the forward derivative half a stencil before the last point uses the
last point, and the graph does not connect them. -/
theorem C160_edge_violated (threeD : Bool) {s : Int} (hs : ValidOrder s) (h4 : 4 ≤ s) {DH : ℚ} (hDH : 0 < DH)
    (hN : ∀ a ∈ axes threeD, 2 ≤ axisSize NX NY NZ a) {a : Axis} (ha : a ∈ axes threeD) (hl : s ≤ axisSize NX NY NZ a) {i j : Pt NX NY NZ}
    (hij : moveTo a i (along a j) = j) (hi : (along a i : ℕ) + s / 2 = (along a j : ℕ)) (hj : (along a j : ℕ) + 1 = axisSize NX NY NZ a) :
    Forward threeD s i j ∧ graph threeD s DH i j = 0 := by
  have hne : i ≠ j := by
    rintro rfl
    omega
  have hN' : (2 : Int) ≤ axisSize NX NY NZ a := by omega
  obtain ⟨s1, s2, s3⟩ := hs.even
  have hf : HasEntry (fwdRow (axisSize NX NY NZ a) 1 0 (along a i : ℕ) s) (along a j : ℕ) := by
    rw [has_fwd hs hN' (by omega) (by omega)]
    unfold fwdBase fwdOrder
    rw [if_neg (by omega), if_neg (by omega)]
    omega
  refine ⟨⟨a, ha, hij, hf⟩, ?_⟩
  by_contra hg
  have := (C160_forward_partial threeD hs hDH hN hne ha hij hf).mp hg
  omega

/-- A 2D grid of ten by eight points: points near each other on a line are connected, diagonal neighbours and the points of
`C160_edge_violated` are not; order four. -/
example : (∀ a ∈ axes false, 2 ≤ axisSize 10 8 1 a) ∧ graph (NX := 10) (NY := 8) (NZ := 1) false 4 1 (3, 3, 0) (4, 3, 0) ≠ 0 ∧
    graph (NX := 10) (NY := 8) (NZ := 1) false 4 1 (3, 3, 0) (3, 5, 0) ≠ 0 ∧
    graph (NX := 10) (NY := 8) (NZ := 1) false 4 1 (3, 3, 0) (4, 4, 0) = 0 ∧
    moveTo .x ((7, 3, 0) : Pt 10 8 1) (along .x ((9, 3, 0) : Pt 10 8 1)) = (9, 3, 0) ∧ graph (NX := 10) (NY := 8) (NZ := 1) false 4 1 (7, 3, 0) (9, 3, 0) = 0 := by
  refine ⟨?_, by decide +kernel, by decide +kernel, by decide +kernel, by decide, by decide +kernel⟩
  intro a ha
  simp only [axes, List.mem_cons, List.not_mem_nil, or_false] at ha
  rcases ha with rfl | rfl <;> decide

end Verif.Graph
