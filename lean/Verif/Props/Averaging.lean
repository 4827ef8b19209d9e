import Verif.Lemmas.Averaging
import Verif.Props.Interpolation
/-!
# C71–C73: averaging of the model parameters to the staggered grid
-/
namespace Verif.Avg
open Verif.Grid Verif.Interp

/-! ### Specification -/

/-- A grid the library can build: regular, or variable with room for one cell in every layer. -/
def Built (g : Grid) : Prop :=
  (∃ NX NY NZ, initRegular NX NY NZ = .ok g) ∨
  (∃ NX NY NZ dhs ifs, initVar NX NY NZ dhs ifs = .ok g ∧ Roomy NY dhs ifs)

instance (NX NY NZ : Int) (c : Coord) : Decidable (InBox NX NY NZ c) := by
  unfold InBox; infer_instance

/-- Corners of the cell of size `d` that starts at `c` and extends in the directions averaged. -/
def corners (d : Int) (c : Coord) : Dir → List Coord
  | .x => [c, ⟨c.x + d, c.y, c.z⟩]
  | .y => [c, ⟨c.x, c.y + d, c.z⟩]
  | .z => [c, ⟨c.x, c.y, c.z + d⟩]
  | .xy => [c, ⟨c.x + d, c.y, c.z⟩, ⟨c.x, c.y + d, c.z⟩, ⟨c.x + d, c.y + d, c.z⟩]
  | .xz => [c, ⟨c.x + d, c.y, c.z⟩, ⟨c.x, c.y, c.z + d⟩, ⟨c.x + d, c.y, c.z + d⟩]
  | .yz => [c, ⟨c.x, c.y + d, c.z⟩, ⟨c.x, c.y, c.z + d⟩, ⟨c.x, c.y + d, c.z + d⟩]

/-- Arithmetic mean over the points of a list that lie in the model. -/
def meanInside (g : Grid) (pts : List Coord) (F : Coord → ℚ) : ℚ :=
  let inside := pts.filter fun p => decide (InBox g.NX g.NY g.NZ p)
  (inside.map F).sum / inside.length

/-- The vector `f` holds the values of `F` at the grid points. -/
def HoldsValues (g : Grid) (f : Int → ℚ) (F : Coord → ℚ) : Prop :=
  ∀ j c, index2coordinate g j = .ok c → f j = F c

/-! ### Helpers -/

private theorem built_wf {g : Grid} (h : Built g) : WF g.NX g.NZ (g.NY - 1) 0 g.layers := by
  rcases h with ⟨NX, NY, NZ, h⟩ | ⟨NX, NY, NZ, dhs, ifs, h, hr⟩
  · unfold initRegular at h
    split at h
    · rename_i hp
      have e := Out.ok.inj h
      subst e
      refine ⟨⟨by simp, by simp; omega, by simp; omega, by simp; omega, by simp, by simp, by simp,
        by simp, by simp, by simp⟩, by simp, by simp, trivial⟩
    · cases h
  · exact (initVar_wf h (hr.gaps (initVar_len h))).1

/-- What the row of a point looks like once the spacing is known. -/
private def rowWith (g : Grid) (i d : Int) (c : Coord) : Dir → Out (List (Int × ℚ))
  | .x => twoPoint g i (decide (c.x + d < g.NX)) ⟨c.x + d, c.y, c.z⟩
  | .y => twoPoint g i (decide (c.y + d < g.NY)) ⟨c.x, c.y + d, c.z⟩
  | .z => twoPoint g i (decide (c.z + d < g.NZ)) ⟨c.x, c.y, c.z + d⟩
  | .xy => fourPoint g i c ⟨c.x + d, c.y, c.z⟩ ⟨c.x, c.y + d, c.z⟩ ⟨c.x + d, c.y + d, c.z⟩
  | .xz => fourPoint g i c ⟨c.x + d, c.y, c.z⟩ ⟨c.x, c.y, c.z + d⟩ ⟨c.x + d, c.y, c.z + d⟩
  | .yz => fourPoint g i c ⟨c.x, c.y + d, c.z⟩ ⟨c.x, c.y, c.z + d⟩ ⟨c.x, c.y + d, c.z + d⟩

private theorem max4 {x d : Int} (hx : 0 ≤ x) (hd : 0 < d) :
    max (max (max (max 0 x) (x + d)) x) (x + d) = x + d ∧
    max (max (max (max 0 x) x) (x + d)) (x + d) = x + d ∧
    max (max (max (max 0 x) x) x) x = x := by
  omega

private theorem two_ok {g : Grid} {P : Coord → Prop}
    (hP : ∀ c, P c → ∃ j, index2coordinate g j = .ok c ∧ coordinate2index g c = .ok j)
    {i : Int} {c n : Coord} {b : Bool} (hc : index2coordinate g i = .ok c)
    (hb : b = decide (InBox g.NX g.NY g.NZ n)) (hin : InBox g.NX g.NY g.NZ c)
    (hn : InBox g.NX g.NY g.NZ n → P n) :
    ∃ row, twoPoint g i b n = .ok row ∧
      ∀ f F, HoldsValues g f F → averaged row f = meanInside g [c, n] F := by
  unfold twoPoint meanInside
  by_cases h : InBox g.NX g.NY g.NZ n
  · obtain ⟨r, h1, h2⟩ := cols_ok hP (cs := [n]) (1 / 2) (by simpa using hn h)
    refine ⟨(i, 1 / 2) :: r, by rw [hb, if_pos (by simpa using h), h1]; rfl, fun f F hf => ?_⟩
    have := h2 f F fun j c' _ hc' => hf j c' hc'
    simp only [averaged, rowValue, List.map_cons, List.sum_cons] at this ⊢
    rw [this, hf i c hc]
    simp [hin, h]
    ring
  · refine ⟨[(i, 1)], by simp [hb, h], fun f F hf => ?_⟩
    simp [averaged, rowValue, hin, h, hf i c hc]

private theorem four_ok {g : Grid} {P : Coord → Prop}
    (hP : ∀ c, P c → ∃ j, index2coordinate g j = .ok c ∧ coordinate2index g c = .ok j)
    {i d : Int} {c : Coord} (hc : index2coordinate g i = .ok c) (hd : 0 < d)
    (hin : InBox g.NX g.NY g.NZ c) (dir : Dir) (hdir : dir = .xy ∨ dir = .xz ∨ dir = .yz)
    (hn : ∀ p ∈ corners d c dir, InBox g.NX g.NY g.NZ p → P p) :
    ∃ row, rowWith g i d c dir = .ok row ∧
      ∀ f F, HoldsValues g f F → averaged row f = meanInside g (corners d c dir) F := by
  obtain ⟨x0, xN, y0, yN, z0, zN⟩ := hin
  obtain ⟨mx1, mx2, mx3⟩ := max4 x0 hd
  obtain ⟨my1, my2, my3⟩ := max4 y0 hd
  obtain ⟨mz1, mz2, mz3⟩ := max4 z0 hd
  have hPc : P c := hn c (by rcases hdir with rfl | rfl | rfl <;> simp [corners])
    ⟨x0, xN, y0, yN, z0, zN⟩
  have ic : InBox g.NX g.NY g.NZ c := ⟨x0, xN, y0, yN, z0, zN⟩
  -- the row for two inside points
  have side : ∀ p : Coord, P p → ∃ row, (do
      let r ← cols g (1 / 2) [p]
      Out.ok (r ++ [(i, 1 / 2)])) = .ok row ∧
      ∀ f F, HoldsValues g f F → averaged row f = (F c + F p) / 2 := by
    intro p hp
    obtain ⟨r, h1, h2⟩ := cols_ok hP (cs := [p]) (1 / 2) (by simpa using hp)
    refine ⟨r ++ [(i, 1 / 2)], by rw [h1]; rfl, fun f F hf => ?_⟩
    have := h2 f F fun j c' _ hc' => hf j c' hc'
    simp only [averaged, rowValue, List.map_append, List.sum_append, List.map_cons, List.map_nil,
      List.sum_cons, List.sum_nil] at this ⊢
    rw [this, hf i c hc]
    ring
  have self : ∀ f F, HoldsValues g f F → averaged [(i, 1)] f = F c := by
    intro f F hf
    simp [averaged, rowValue, hf i c hc]
  have full : ∀ p q r : Coord, P p → P q → P r → ∃ row, (do
      let s ← cols g (1 / 4) [p, q, r]
      Out.ok ((i, 1 / 4) :: s)) = .ok row ∧
      ∀ f F, HoldsValues g f F → averaged row f = (F c + (F p + (F q + F r))) / 4 := by
    intro p q r hp hq hr
    obtain ⟨s, h1, h2⟩ := cols_ok hP (cs := [p, q, r]) (1 / 4) (by simp [hp, hq, hr])
    refine ⟨(i, 1 / 4) :: s, by rw [h1]; rfl, fun f F hf => ?_⟩
    have := h2 f F fun j c' _ hc' => hf j c' hc'
    simp only [averaged, rowValue, List.map_cons, List.map_nil, List.sum_cons,
      List.sum_nil] at this ⊢
    rw [this, hf i c hc]
    ring
  rcases hdir with rfl | rfl | rfl
  · simp only [corners, List.mem_cons, List.not_mem_nil, or_false, forall_eq_or_imp,
      forall_eq] at hn
    obtain ⟨_, n2, n3, n4⟩ := hn
    simp only [rowWith, fourPoint, mx1, my2, mz3]
    by_cases hx : c.x + d < g.NX <;> by_cases hy : c.y + d < g.NY
    · have i2 : InBox g.NX g.NY g.NZ ⟨c.x + d, c.y, c.z⟩ := ⟨by simp; omega, hx, y0, yN, z0, zN⟩
      have i3 : InBox g.NX g.NY g.NZ ⟨c.x, c.y + d, c.z⟩ := ⟨x0, xN, by simp; omega, hy, z0, zN⟩
      have i4 : InBox g.NX g.NY g.NZ ⟨c.x + d, c.y + d, c.z⟩ :=
        ⟨by simp; omega, hx, by simp; omega, hy, z0, zN⟩
      simp only [hx, hy, zN, decide_true]
      obtain ⟨row, h1, h2⟩ := full _ _ _ (n2 i2) (n3 i3) (n4 i4)
      refine ⟨row, h1, fun f F hf => ?_⟩
      rw [h2 f F hf]
      simp [meanInside, corners, ic, i2, i3, i4]
    · have i2 : InBox g.NX g.NY g.NZ ⟨c.x + d, c.y, c.z⟩ := ⟨by simp; omega, hx, y0, yN, z0, zN⟩
      have i3 : ¬ InBox g.NX g.NY g.NZ ⟨c.x, c.y + d, c.z⟩ := by simp [InBox]; omega
      have i4 : ¬ InBox g.NX g.NY g.NZ ⟨c.x + d, c.y + d, c.z⟩ := by simp [InBox]; omega
      simp only [hx, hy, zN, decide_true, decide_false]
      obtain ⟨row, h1, h2⟩ := side _ (n2 i2)
      refine ⟨row, h1, fun f F hf => ?_⟩
      rw [h2 f F hf]
      simp [meanInside, corners, ic, i2, i3, i4]
    · have i2 : ¬ InBox g.NX g.NY g.NZ ⟨c.x + d, c.y, c.z⟩ := by simp [InBox]; omega
      have i3 : InBox g.NX g.NY g.NZ ⟨c.x, c.y + d, c.z⟩ := ⟨x0, xN, by simp; omega, hy, z0, zN⟩
      have i4 : ¬ InBox g.NX g.NY g.NZ ⟨c.x + d, c.y + d, c.z⟩ := by simp [InBox]; omega
      simp only [hx, hy, zN, decide_true, decide_false]
      obtain ⟨row, h1, h2⟩ := side _ (n3 i3)
      refine ⟨row, h1, fun f F hf => ?_⟩
      rw [h2 f F hf]
      simp [meanInside, corners, ic, i2, i3, i4]
    · have i2 : ¬ InBox g.NX g.NY g.NZ ⟨c.x + d, c.y, c.z⟩ := by simp [InBox]; omega
      have i3 : ¬ InBox g.NX g.NY g.NZ ⟨c.x, c.y + d, c.z⟩ := by simp [InBox]; omega
      have i4 : ¬ InBox g.NX g.NY g.NZ ⟨c.x + d, c.y + d, c.z⟩ := by simp [InBox]; omega
      simp only [hx, hy, zN, decide_true, decide_false]
      refine ⟨_, rfl, fun f F hf => ?_⟩
      rw [self f F hf]
      simp [meanInside, corners, ic, i2, i3, i4]
  · simp only [corners, List.mem_cons, List.not_mem_nil, or_false, forall_eq_or_imp,
      forall_eq] at hn
    obtain ⟨_, n2, n3, n4⟩ := hn
    simp only [rowWith, fourPoint, mx1, my3, mz2]
    by_cases hx : c.x + d < g.NX <;> by_cases hz : c.z + d < g.NZ
    · have i2 : InBox g.NX g.NY g.NZ ⟨c.x + d, c.y, c.z⟩ := ⟨by simp; omega, hx, y0, yN, z0, zN⟩
      have i3 : InBox g.NX g.NY g.NZ ⟨c.x, c.y, c.z + d⟩ := ⟨x0, xN, y0, yN, by simp; omega, hz⟩
      have i4 : InBox g.NX g.NY g.NZ ⟨c.x + d, c.y, c.z + d⟩ :=
        ⟨by simp; omega, hx, y0, yN, by simp; omega, hz⟩
      simp only [hx, hz, yN, decide_true]
      obtain ⟨row, h1, h2⟩ := full _ _ _ (n2 i2) (n3 i3) (n4 i4)
      refine ⟨row, h1, fun f F hf => ?_⟩
      rw [h2 f F hf]
      simp [meanInside, corners, ic, i2, i3, i4]
    · have i2 : InBox g.NX g.NY g.NZ ⟨c.x + d, c.y, c.z⟩ := ⟨by simp; omega, hx, y0, yN, z0, zN⟩
      have i3 : ¬ InBox g.NX g.NY g.NZ ⟨c.x, c.y, c.z + d⟩ := by simp [InBox]; omega
      have i4 : ¬ InBox g.NX g.NY g.NZ ⟨c.x + d, c.y, c.z + d⟩ := by simp [InBox]; omega
      simp only [hx, hz, yN, decide_true, decide_false]
      obtain ⟨row, h1, h2⟩ := side _ (n2 i2)
      refine ⟨row, h1, fun f F hf => ?_⟩
      rw [h2 f F hf]
      simp [meanInside, corners, ic, i2, i3, i4]
    · have i2 : ¬ InBox g.NX g.NY g.NZ ⟨c.x + d, c.y, c.z⟩ := by simp [InBox]; omega
      have i3 : InBox g.NX g.NY g.NZ ⟨c.x, c.y, c.z + d⟩ := ⟨x0, xN, y0, yN, by simp; omega, hz⟩
      have i4 : ¬ InBox g.NX g.NY g.NZ ⟨c.x + d, c.y, c.z + d⟩ := by simp [InBox]; omega
      simp only [hx, hz, yN, decide_true, decide_false]
      obtain ⟨row, h1, h2⟩ := side _ (n3 i3)
      refine ⟨row, h1, fun f F hf => ?_⟩
      rw [h2 f F hf]
      simp [meanInside, corners, ic, i2, i3, i4]
    · have i2 : ¬ InBox g.NX g.NY g.NZ ⟨c.x + d, c.y, c.z⟩ := by simp [InBox]; omega
      have i3 : ¬ InBox g.NX g.NY g.NZ ⟨c.x, c.y, c.z + d⟩ := by simp [InBox]; omega
      have i4 : ¬ InBox g.NX g.NY g.NZ ⟨c.x + d, c.y, c.z + d⟩ := by simp [InBox]; omega
      simp only [hx, hz, yN, decide_true, decide_false]
      refine ⟨_, rfl, fun f F hf => ?_⟩
      rw [self f F hf]
      simp [meanInside, corners, ic, i2, i3, i4]
  · simp only [corners, List.mem_cons, List.not_mem_nil, or_false, forall_eq_or_imp,
      forall_eq] at hn
    obtain ⟨_, n2, n3, n4⟩ := hn
    simp only [rowWith, fourPoint, mx3, my1, mz2]
    by_cases hy : c.y + d < g.NY <;> by_cases hz : c.z + d < g.NZ
    · have i2 : InBox g.NX g.NY g.NZ ⟨c.x, c.y + d, c.z⟩ := ⟨x0, xN, by simp; omega, hy, z0, zN⟩
      have i3 : InBox g.NX g.NY g.NZ ⟨c.x, c.y, c.z + d⟩ := ⟨x0, xN, y0, yN, by simp; omega, hz⟩
      have i4 : InBox g.NX g.NY g.NZ ⟨c.x, c.y + d, c.z + d⟩ :=
        ⟨x0, xN, by simp; omega, hy, by simp; omega, hz⟩
      simp only [hy, hz, xN, decide_true]
      obtain ⟨row, h1, h2⟩ := full _ _ _ (n2 i2) (n3 i3) (n4 i4)
      refine ⟨row, h1, fun f F hf => ?_⟩
      rw [h2 f F hf]
      simp [meanInside, corners, ic, i2, i3, i4]
    · have i2 : InBox g.NX g.NY g.NZ ⟨c.x, c.y + d, c.z⟩ := ⟨x0, xN, by simp; omega, hy, z0, zN⟩
      have i3 : ¬ InBox g.NX g.NY g.NZ ⟨c.x, c.y, c.z + d⟩ := by simp [InBox]; omega
      have i4 : ¬ InBox g.NX g.NY g.NZ ⟨c.x, c.y + d, c.z + d⟩ := by simp [InBox]; omega
      simp only [hy, hz, xN, decide_true, decide_false]
      obtain ⟨row, h1, h2⟩ := side _ (n2 i2)
      refine ⟨row, h1, fun f F hf => ?_⟩
      rw [h2 f F hf]
      simp [meanInside, corners, ic, i2, i3, i4]
    · have i2 : ¬ InBox g.NX g.NY g.NZ ⟨c.x, c.y + d, c.z⟩ := by simp [InBox]; omega
      have i3 : InBox g.NX g.NY g.NZ ⟨c.x, c.y, c.z + d⟩ := ⟨x0, xN, y0, yN, by simp; omega, hz⟩
      have i4 : ¬ InBox g.NX g.NY g.NZ ⟨c.x, c.y + d, c.z + d⟩ := by simp [InBox]; omega
      simp only [hy, hz, xN, decide_true, decide_false]
      obtain ⟨row, h1, h2⟩ := side _ (n3 i3)
      refine ⟨row, h1, fun f F hf => ?_⟩
      rw [h2 f F hf]
      simp [meanInside, corners, ic, i2, i3, i4]
    · have i2 : ¬ InBox g.NX g.NY g.NZ ⟨c.x, c.y + d, c.z⟩ := by simp [InBox]; omega
      have i3 : ¬ InBox g.NX g.NY g.NZ ⟨c.x, c.y, c.z + d⟩ := by simp [InBox]; omega
      have i4 : ¬ InBox g.NX g.NY g.NZ ⟨c.x, c.y + d, c.z + d⟩ := by simp [InBox]; omega
      simp only [hy, hz, xN, decide_true, decide_false]
      refine ⟨_, rfl, fun f F hf => ?_⟩
      rw [self f F hf]
      simp [meanInside, corners, ic, i2, i3, i4]

private theorem row_ok {g : Grid} {P : Coord → Prop}
    (hP : ∀ c, P c → ∃ j, index2coordinate g j = .ok c ∧ coordinate2index g c = .ok j)
    {i d : Int} {c : Coord} (hc : index2coordinate g i = .ok c) (hd : 0 < d)
    (hin : InBox g.NX g.NY g.NZ c) (dir : Dir)
    (hn : ∀ p ∈ corners d c dir, InBox g.NX g.NY g.NZ p → P p) :
    ∃ row, rowWith g i d c dir = .ok row ∧
      ∀ f F, HoldsValues g f F → averaged row f = meanInside g (corners d c dir) F := by
  have hin' := hin
  obtain ⟨x0, xN, y0, yN, z0, zN⟩ := hin'
  cases dir with
  | x =>
    exact two_ok hP hc (decide_eq_decide.mpr (by simp only [InBox]; omega)) hin
      (hn _ (by simp [corners]))
  | y =>
    exact two_ok hP hc (decide_eq_decide.mpr (by simp only [InBox]; omega)) hin
      (hn _ (by simp [corners]))
  | z =>
    exact two_ok hP hc (decide_eq_decide.mpr (by simp only [InBox]; omega)) hin
      (hn _ (by simp [corners]))
  | xy => exact four_ok hP hc hd hin .xy (.inl rfl) hn
  | xz => exact four_ok hP hc hd hin .xz (.inr (.inl rfl)) hn
  | yz => exact four_ok hP hc hd hin .yz (.inr (.inr rfl)) hn

private theorem dh_of {g : Grid} {n : Nat} {v : Int}
    (h : (g.layers[n]?).map Layer.dh = some v) : dhAt g n = .ok v := by
  unfold dhAt
  cases hg : g.layers[n]? with
  | none => rw [hg] at h; cases h
  | some l => rw [hg] at h; simp at h; simp [h]

/-! ### C71: averages are convex combinations -/

/-- C71: every assembled row of an averaging matrix has weights between 1/4 and 1 that sum to one,
and all its columns are grid points. -/
theorem C71_convex_partial {g : Grid} (hg : Built g) (dir : Dir) {i : Int} (h0 : 0 ≤ i) (hi : i < g.n)
    {row : List (Int × ℚ)} (h : averageRow g dir i = .ok row) :
    (∀ e ∈ row, 1 / 4 ≤ e.2 ∧ e.2 ≤ 1 ∧ 0 ≤ e.1 ∧ e.1 < g.n) ∧ (row.map Prod.snd).sum = 1 :=
  averageRow_convex (built_wf hg) h0 hi h

/-- C71: averaged parameters stay between the bounds of the model, and averaged inverse parameters
between the reciprocals of these bounds. -/
theorem C71_bounds_partial {g : Grid} (hg : Built g) (dir : Dir) {i : Int} (h0 : 0 ≤ i) (hi : i < g.n)
    {row : List (Int × ℚ)} (h : averageRow g dir i = .ok row) {f : Int → ℚ} {lo hi' : ℚ}
    (hf : ∀ j, 0 ≤ j → j < g.n → lo ≤ f j ∧ f j ≤ hi') :
    (lo ≤ averaged row f ∧ averaged row f ≤ hi') ∧
    (0 < lo → 1 / hi' ≤ inverseAveraged row f ∧ inverseAveraged row f ≤ 1 / lo) := by
  have hc := averageRow_convex (built_wf hg) h0 hi h
  have hl : lo ≤ rowValue row f := le_rowValue hc fun e he =>
    (hf e.1 (hc.1 e he).2.2.1 (hc.1 e he).2.2.2).1
  have hu : rowValue row f ≤ hi' := rowValue_le hc fun e he =>
    (hf e.1 (hc.1 e he).2.2.1 (hc.1 e he).2.2.2).2
  refine ⟨⟨hl, hu⟩, fun hp => ?_⟩
  unfold inverseAveraged
  exact ⟨one_div_le_one_div_of_le (by linarith) hu, one_div_le_one_div_of_le hp hl⟩

/-- C71: a homogeneous model is unchanged by averaging. -/
theorem C71_homogeneous_partial {g : Grid} (hg : Built g) (dir : Dir) {i : Int} (h0 : 0 ≤ i)
    (hi : i < g.n) {row : List (Int × ℚ)} (h : averageRow g dir i = .ok row) (v : ℚ) :
    averaged row (fun _ => v) = v ∧ inverseAveraged row (fun _ => v) = 1 / v := by
  obtain ⟨⟨h1, h2⟩, _⟩ := C71_bounds_partial hg dir h0 hi h (f := fun _ => v)
    (fun _ _ _ => ⟨le_refl v, le_refl v⟩)
  have e : averaged row (fun _ => v) = v := le_antisymm h2 h1
  refine ⟨e, ?_⟩
  unfold inverseAveraged
  unfold averaged at e
  rw [e]

/-- A concrete case: a variable grid with three layers. -/
example : ∃ g, initVarConfig 8 20 1 [3, 1, 3] [0, 6, 12] = .ok g ∧ Built g ∧
    ∃ row, averageRow g .xy 20 = .ok row ∧ row.length = 4 := by
  refine ⟨_, rfl, .inr ⟨8, 20, 1, [3, 1, 3], [6, 12], rfl, ?_, ?_⟩, _, rfl, by decide +kernel⟩
  · decide
  · intro k hk
    match k, hk with
    | 0, _ => decide
    | 1, _ => decide

/-- What is missing for the variable grids: a row need not be assembled at all. The grid below is
accepted and every layer has room for a cell, but the averages in depth at the interface look for
points at a depth that belongs to no layer, which runs off the list of layers. -/
theorem C71_thin_layer_violated :
    ∃ g, initVarConfig 8 20 1 [3, 1, 3] [0, 6, 7] = .ok g ∧ Roomy 20 [3, 1, 3] [6, 7] ∧
      ∃ i c, 0 ≤ i ∧ i < g.n ∧ index2coordinate g i = .ok c ∧
        averageRow g .y i = .ub ∧ averageRow g .xy i = .ub := by
  refine ⟨_, rfl, ⟨by decide, ?_⟩, 6, ⟨0, 6, 0⟩, by decide, by decide, by decide, by decide, by decide⟩
  intro k hk
  match k, hk with
  | 0, _ => decide
  | 1, _ => decide

/-! ### C72: averages use the neighbouring points -/

/-- C72: on a regular grid every averaging matrix is assembled completely, and the averaged value is
the arithmetic mean over the corners of the staggered cell that lie in the model. -/
theorem C72_regular {NX NY NZ : Int} {g : Grid} (h : initRegular NX NY NZ = .ok g) (dir : Dir)
    {i : Int} (h0 : 0 ≤ i) (hi : i < NX * NY * NZ) :
    ∃ c row, index2coordinate g i = .ok c ∧ averageRow g dir i = .ok row ∧
      ∀ f F, HoldsValues g f F → averaged row f = meanInside g (corners 1 c dir) F := by
  obtain ⟨c, hc, hin, _, _⟩ := C01_index_roundtrip h h0 hi
  have hh := h
  unfold initRegular at hh
  split at hh
  swap; · cases hh
  have e := Out.ok.inj hh
  have eNX : g.NX = NX := by rw [← e]
  have eNY : g.NY = NY := by rw [← e]
  have eNZ : g.NZ = NZ := by rw [← e]
  have hin' : InBox g.NX g.NY g.NZ c := by rw [eNX, eNY, eNZ]; exact hin
  obtain ⟨row, h1, h2⟩ := row_ok (g := g) (P := InBox g.NX g.NY g.NZ) (i := i) (d := 1) (c := c)
    (by
      intro c' hc'
      rw [eNX, eNY, eNZ] at hc'
      obtain ⟨j, a, _, _, _, b⟩ := C01_coordinate_roundtrip h hc'
      exact ⟨j, b, a⟩) hc (by omega) hin' dir (fun _ _ h => h)
  refine ⟨c, row, hc, ?_, h2⟩
  rw [← h1]
  have hlayer : getLayer g c.y = 0 := by
    obtain ⟨_, _, y0, yN, _, _⟩ := hin
    rw [← e]
    simp only [getLayer, getLayerFrom]
    by_cases hy : c.y < NY - 1
    · rw [if_pos ⟨hy, by omega⟩]
    · rw [if_neg (by omega), if_pos (by omega)]; rfl
  have hdh : dhAt g 0 = .ok 1 := by rw [← e]; rfl
  have hon : locatedOnInterface g c.y = false := by
    obtain ⟨_, _, y0, yN, _, _⟩ := hin
    rw [← e]
    simp [locatedOnInterface]
    omega
  unfold averageRow rowWith
  rw [hc]
  simp only [Out.bind_ok, hlayer, hdh, hon]
  cases dir <;> simp [hdh]

/-- C72 for variable grids: away from the interfaces where the grid factor changes, the averaged
value is the mean over the corners of the cell of the local spacing that lie in the model. -/
theorem C72_variable_partial {NX NY NZ : Int} {dhs ifs : List Int} {g : Grid}
    (h : initVar NX NY NZ dhs ifs = .ok g) (hr : Roomy NY dhs ifs) (dir : Dir)
    {i : Int} (h0 : 0 ≤ i) (hi : i < g.n) {c : Coord} (hc : index2coordinate g i = .ok c)
    (hsm : ∀ a b, Adjacent g c.y a b → a = b) :
    ∃ l ∈ g.layers, l.start ≤ c.y ∧ c.y ≤ l.stop ∧
      ∃ row, averageRow g dir i = .ok row ∧
        ∀ f F, HoldsValues g f F → averaged row f = meanInside g (corners l.dh c dir) F := by
  obtain ⟨c', hc', hin, l, hl, hl1, hl2, hlx, hlz, hly⟩ := C04_points_in_domain h hr h0 hi
  rw [hc] at hc'
  have := Out.ok.inj hc'
  subst this
  obtain ⟨hpow, d, ds, i0, is, rfl, hi0, hal, hif, hNY, hlay, _, _⟩ :=
    initVar_struct h (hr.gaps (initVar_len h))
  have hpos : ∀ e ∈ d :: ds, 0 < e := by
    intro e he; obtain ⟨k, rfl⟩ := hpow e he; positivity
  have hdh : g.layers.map Layer.dh = d :: ds := by rw [hlay]; exact buildLayers_dh ds is 0 d i0 hal
  have hNpos : 0 < NX ∧ 0 < NY ∧ 0 < NZ := by
    unfold initVar at h
    split at h; · cases h
    split at h; · cases h
    split at h; · cases h
    rename_i hsz
    simpa using hsz
  have hdvd : d ∣ i0 - 0 := by
    have := (C05_interfaces (initVar_len h) hpow hNpos h 0 (by simp)).2.2.1
    simpa [hif] using this
  have hsm' : ∀ n a b, (i0 :: is)[n]? = some c.y → (d :: ds)[n]? = some a →
      (d :: ds)[n + 1]? = some b → a = b := by
    intro n a b e1 e2 e3
    rw [← hdh, List.getElem?_map] at e2 e3
    cases e4 : g.layers[n]? with
    | none => rw [e4] at e2; cases e2
    | some la =>
      cases e5 : g.layers[n + 1]? with
      | none => rw [e5] at e3; cases e3
      | some lb =>
        rw [e4] at e2; rw [e5] at e3
        exact hsm a b ⟨n, la, lb, e4, e5, by rw [hif]; simpa using e1,
          (Option.some.inj e2).symm, (Option.some.inj e3).symm⟩
  have hldh : 0 < l.dh := hpos _ (by rw [← hdh]; exact List.mem_map_of_mem hl)
  -- corners inside the model are grid points
  have hpt : ∀ p, InBox g.NX g.NY g.NZ p → (p.y = c.y ∨ p.y = c.y + l.dh) →
      l.dh ∣ p.x → l.dh ∣ p.z →
      ∃ j, index2coordinate g j = .ok p ∧ coordinate2index g p = .ok j := by
    intro p hp hpy hpx hpz
    obtain ⟨x0, xN, y0, yN, z0, zN⟩ := hp
    rcases hpy with hpy | hpy
    · obtain ⟨j, _, _, a, b⟩ := C03_coordinate_roundtrip h hr (c := p) ⟨x0, xN⟩ ⟨z0, zN⟩
        ⟨l, hl, by omega, by omega, hpx, hpz, by rw [hpy]; exact hly⟩
      exact ⟨j, a, b⟩
    · obtain ⟨l', h1, h2, h3, h4, h5⟩ := next_row (NX := g.NX) (NZ := g.NZ) ds is 0 d i0 l hpow hi0
        hdvd hal hsm' (hlay ▸ hl) hl1 hl2 hly (by rw [hNY, hpy] at yN; omega)
      obtain ⟨j, _, _, a, b⟩ := C03_coordinate_roundtrip h hr (c := p) ⟨x0, xN⟩ ⟨z0, zN⟩
        ⟨l', hlay ▸ h1, by omega, by omega, dvd_trans h4 hpx, dvd_trans h4 hpz,
          by rw [hpy]; exact h5⟩
      exact ⟨j, a, b⟩
  obtain ⟨row, h1, h2⟩ := row_ok (g := g)
    (P := fun p => InBox g.NX g.NY g.NZ p ∧ (p.y = c.y ∨ p.y = c.y + l.dh) ∧ l.dh ∣ p.x ∧ l.dh ∣ p.z)
    (i := i) (d := l.dh) (c := c) (fun p hp => hpt p hp.1 hp.2.1 hp.2.2.1 hp.2.2.2) hc hldh hin dir
    (by
      have dx : l.dh ∣ c.x + l.dh := Int.dvd_add hlx (dvd_refl _)
      have dz : l.dh ∣ c.z + l.dh := Int.dvd_add hlz (dvd_refl _)
      intro p hp hpin
      refine ⟨hpin, ?_⟩
      cases dir <;> simp only [corners, List.mem_cons, List.not_mem_nil, or_false] at hp <;>
        rcases hp with rfl | hp <;> try exact ⟨.inl rfl, hlx, hlz⟩
      all_goals first
        | (subst hp; exact ⟨by simp, by assumption, by assumption⟩)
        | (rcases hp with rfl | rfl | rfl <;> exact ⟨by simp, by assumption, by assumption⟩))
  refine ⟨l, hl, hl1, hl2, row, ?_, h2⟩
  rw [← h1]
  obtain ⟨m, m1, m2, m3⟩ := layer_factor (NX := g.NX) (NZ := g.NZ) ds is 0 d i0 (-1) 0 l
    (fun e he => hpos e (List.mem_cons_of_mem _ he)) hi0 hal (hpos d List.mem_cons_self) hsm'
    (hlay ▸ hl) hl1 hl2 (by have := hin.2.2.1; omega)
  rw [← hlay] at m1 m2 m3
  have hL : getLayer g c.y = m := by
    unfold getLayer; rw [hif]; simpa using m1
  have hD := dh_of m2
  have hlen : g.layers.length = (i0 :: is).length := by
    rw [hlay]; exact buildLayers_length ds is 0 d i0 hal
  unfold averageRow rowWith
  rw [hc]
  simp only [Out.bind_ok, hL]
  cases dir with
  | y =>
    simp only
    by_cases hon : locatedOnInterface g c.y = true
    · have hmem : c.y ∈ (i0 :: is).dropLast := by
        unfold locatedOnInterface at hon
        rw [List.contains_iff_mem, hif, hlen, List.length_cons, List.take_succ_cons] at hon
        rcases List.mem_cons.mp hon with h | h
        · have := hin.2.2.1; omega
        · rw [List.dropLast_eq_take]; simpa using h
      obtain ⟨t0, d1⟩ := m3 hmem
      have hT : getTransition g c.y = .ok 0 := by
        unfold getTransition; rw [if_pos hon, hif]; simp only [List.tail_cons]; rw [t0]
      rw [if_pos hon, hT]
      simp only [Out.bind_ok]
      rw [if_pos ⟨hon, trivial⟩, dh_of d1]
      rfl
    · rw [if_neg hon]
      simp only [Out.bind_ok]
      rw [if_neg (fun h => hon h.1), hD]
      rfl
  | x => simp only [hD]; rfl
  | z => simp only [hD]; rfl
  | xy => simp only [hD]; rfl
  | xz => simp only [hD]; rfl
  | yz => simp only [hD]; rfl

/-- A concrete case: a point of the fine layer of a variable grid, whose cell reaches the
interface to the coarse layer. -/
example : ∃ g, initVar 8 20 1 [1, 3] [6] = .ok g ∧ Roomy 20 [1, 3] [6] ∧
    index2coordinate g 42 = .ok ⟨2, 5, 0⟩ ∧ ∀ a b, Adjacent g 5 a b → a = b := by
  refine ⟨_, rfl, ⟨by decide, ?_⟩, by decide, ?_⟩
  · intro k hk
    match k, hk with
    | 0, _ => decide
  · rintro a b ⟨k, la, lb, h1, h2, h3, _⟩
    match k with
    | 0 => simp at h3
    | 1 => simp [buildLayers] at h2
    | k + 2 => simp [buildLayers] at h2

/-- What is missing for variable grids: at the interface from a fine to a coarse layer the vertical
neighbour of a fine point may be looked up in another column, and the horizontal neighbour is taken
three fine points away. -/
theorem C72_interface_violated :
    ∃ g, initVarConfig 8 20 1 [1, 3] [0, 6] = .ok g ∧ Roomy 20 [1, 3] [6] ∧
      ∃ i c, 0 ≤ i ∧ i < g.n ∧ index2coordinate g i = .ok c ∧ c = ⟨1, 6, 0⟩ ∧
        -- vertical average: the other point is in column 0
        (∃ j, averageRow g .y i = .ok [(i, mkRat 1 2), (j, mkRat 1 2)] ∧
          index2coordinate g j = .ok ⟨0, 9, 0⟩) ∧
        -- horizontal average: the point at distance one exists but the one at distance three is used
        (∃ j k, averageRow g .x i = .ok [(i, mkRat 1 2), (j, mkRat 1 2)] ∧
          index2coordinate g j = .ok ⟨4, 6, 0⟩ ∧ index2coordinate g k = .ok ⟨2, 6, 0⟩) := by
  refine ⟨_, rfl, ⟨by decide, ?_⟩, 49, ⟨1, 6, 0⟩, by decide, by decide, by decide, rfl,
    ⟨56, by decide +kernel, by decide⟩, ⟨52, 50, by decide +kernel, by decide, by decide⟩⟩
  intro k hk
  match k, hk with
  | 0, _ => decide

/-! ### C73: averaged shear modulus -/

/-- C73: one vacuum point (modulus below 1) among the averaged points makes the averaged shear
modulus exactly zero. -/
theorem C73_vacuum {g : Grid} (hg : Built g) (dir : Dir) {i : Int} (h0 : 0 ≤ i) (hi : i < g.n)
    {row : List (Int × ℚ)} (h : averageRow g dir i = .ok row) (f : Int → ℚ)
    {e : Int × ℚ} (he : e ∈ row) (hv : f e.1 < 1) : averagedSWaveModulus row f = 0 := by
  have hc := averageRow_convex (built_wf hg) h0 hi h
  have hpos : ∀ e ∈ row, 0 < e.2 * (fun i => 1 / (if f i < 1 then 1 else f i)) e.1 := by
    intro e he
    have := (hc.1 e he).1
    apply mul_pos (by linarith)
    simp only
    split
    · norm_num
    · apply one_div_pos.mpr; linarith
  obtain ⟨h1, h2⟩ := rowValue_ge_entry (f := fun i => 1 / (if f i < 1 then 1 else f i)) hpos he
  have hw := (hc.1 e he).1
  simp only [if_pos hv] at h1 h2
  unfold averagedSWaveModulus
  simp only
  rw [if_pos]
  have hgt : 1 / 4 < rowValue row fun i => 1 / (if f i < 1 then 1 else f i) := by
    by_cases hrow : row = [e]
    · have := hc.2
      rw [hrow] at this
      simp at this
      rw [this] at h1
      linarith
    · have := h2 hrow
      linarith
  rw [div_lt_iff₀ (by linarith)]
  linarith

/-- C73: where the whole model has a shear modulus of at least 4 the averaged modulus is the
harmonic mean and lies between the bounds of the model. -/
theorem C73_bounds {g : Grid} (hg : Built g) (dir : Dir) {i : Int} (h0 : 0 ≤ i) (hi : i < g.n)
    {row : List (Int × ℚ)} (h : averageRow g dir i = .ok row) {f : Int → ℚ} {lo hi' : ℚ}
    (h4 : 4 ≤ lo) (hf : ∀ j, 0 ≤ j → j < g.n → lo ≤ f j ∧ f j ≤ hi') :
    averagedSWaveModulus row f = 1 / averaged row (fun j => 1 / f j) ∧
      lo ≤ averagedSWaveModulus row f ∧ averagedSWaveModulus row f ≤ hi' := by
  have hc := averageRow_convex (built_wf hg) h0 hi h
  have hfe : ∀ e ∈ row, lo ≤ f e.1 ∧ f e.1 ≤ hi' := fun e he =>
    hf e.1 (hc.1 e he).2.2.1 (hc.1 e he).2.2.2
  have hrow : rowValue row (fun i => 1 / (if f i < 1 then 1 else f i)) =
      rowValue row (fun i => 1 / f i) := by
    unfold rowValue
    congr 1
    apply List.map_congr_left
    intro e he
    simp only
    rw [if_neg (by have := (hfe e he).1; linarith)]
  have hne : row ≠ [] := by
    intro h
    have := hc.2
    rw [h] at this
    simp at this
  obtain ⟨e0, he0⟩ := List.exists_mem_of_ne_nil row hne
  have hhi : 0 < hi' := by have := hfe e0 he0; linarith
  have hu : rowValue row (fun i => 1 / f i) ≤ 1 / lo := rowValue_le hc fun e he =>
    one_div_le_one_div_of_le (by linarith) (hfe e he).1
  have hl : 1 / hi' ≤ rowValue row (fun i => 1 / f i) := le_rowValue hc fun e he =>
    one_div_le_one_div_of_le (by have := (hfe e he).1; linarith) (hfe e he).2
  have hp : 0 < rowValue row (fun i => 1 / f i) := lt_of_lt_of_le (one_div_pos.mpr hhi) hl
  have h1 : lo ≤ 1 / rowValue row (fun i => 1 / f i) := by
    rw [le_div_iff₀ hp]
    calc lo * rowValue row (fun i => 1 / f i) ≤ lo * (1 / lo) :=
          mul_le_mul_of_nonneg_left hu (by linarith)
      _ = 1 := by field_simp
  have h2 : 1 / rowValue row (fun i => 1 / f i) ≤ hi' := by
    rw [div_le_iff₀ hp]
    calc (1 : ℚ) = hi' * (1 / hi') := by field_simp
      _ ≤ hi' * rowValue row (fun i => 1 / f i) := mul_le_mul_of_nonneg_left hl hhi.le
  unfold averagedSWaveModulus
  simp only
  rw [hrow, if_neg (by linarith)]
  exact ⟨rfl, h1, h2⟩

/-- Concrete case: a regular grid with a vacuum point next to rock. -/
example : ∃ g row, initRegular 3 3 1 = .ok g ∧ averageRow g .xy 0 = .ok row ∧
    (1, mkRat 1 4) ∈ row ∧ (fun j : Int => if j = 1 then (0 : ℚ) else 4000000) 1 < 1 := by
  refine ⟨_, _, rfl, rfl, by decide +kernel, by decide +kernel⟩

end Verif.Avg
