import Verif.Model.GridDistribution
import Verif.Props.Grid
import Mathlib.Tactic.Ring
import Mathlib.Tactic.Linarith
/-!
# C162: the distribution of the grid fits the coordinates
-/
namespace Verif.GridDist
open Verif
open Verif.Grid (Coord InBox Linear)

private theorem sizes_of_ok {NX NY NZ : Int} {g : Grid.Grid} (h : Grid.initRegular NX NY NZ = .ok g) :
    g.NX = NX ∧ g.NY = NY ∧ g.NZ = NZ ∧ g.n = NX * NY * NZ := by
  unfold Grid.initRegular at h
  split at h
  · injection h with h; subst h; simp [Grid.Grid.n, Grid.Layer.n]
  · cases h

private theorem pos_eq {NX NY NZ : Int} {g : Grid.Grid} (h : Grid.initRegular NX NY NZ = .ok g) {c : Coord}
    (hc : InBox NX NY NZ c) : Grid.coordinate2index g c = .ok ((⟨NY, NZ, NX⟩ : Sizes).linearPos c.y c.z c.x) := by
  obtain ⟨i, h1, h2, _⟩ := Grid.C01_coordinate_roundtrip h hc
  rw [h1, h2]
  congr 1
  simp only [Linear, Sizes.linearPos]
  ring

private theorem coordinates_eq {NX NY NZ D : Int} {per : ℚ} (hD : D ≠ 0) :
    coordinates NX NY NZ D per = Grid.initRegular (if per < NX then ⌈(NX : ℚ) / D⌉ else ⌈per / D⌉) ⌈(NY : ℚ) / D⌉ ⌈(NZ : ℚ) / D⌉ := by
  unfold coordinates ceilQuot
  simp only [if_neg hD]
  by_cases h : per < NX
  · simp only [if_pos h, Out.bind_ok]
  · simp only [if_neg h, Out.bind_ok]

private theorem width_eq (NX w D : Int) :
    (if (w : ℚ) < NX then ⌈(NX : ℚ) / D⌉ else ⌈(w : ℚ) / D⌉) = ⌈((max NX w : Int) : ℚ) / D⌉ := by
  by_cases h : w < NX
  · rw [if_pos (by exact_mod_cast h), max_eq_left h.le]
  · rw [if_neg (by exact_mod_cast h), max_eq_right (by omega)]

/-- C162: the distributed grid has as many points as the coordinates, and the position of each point in the distribution is the index of
its coordinate. The width is the larger one of the configured width and the width for the shots. -/
theorem C162_fits {NX NY NZ w : Int} {g : Grid.Grid} (h : coordinates NX NY NZ 1 w = .ok g) :
    g.NX = max NX w ∧ g.NY = NY ∧ g.NZ = NZ ∧ (gridPartition NX NY NZ w).size = g.n ∧
      ∀ c, InBox (max NX w) NY NZ c →
        Grid.coordinate2index g c = .ok ((gridPartition NX NY NZ w).linearPos c.y c.z c.x) := by
  rw [coordinates_eq (by decide), width_eq] at h
  simp only [Int.cast_one, div_one, Int.ceil_intCast] at h
  have hp : gridPartition NX NY NZ w = ⟨NY, NZ, max NX w⟩ := by
    unfold gridPartition trunc
    by_cases hw : w < NX
    · rw [if_pos (by exact_mod_cast hw), max_eq_left hw.le]
    · rw [if_neg (by exact_mod_cast hw), max_eq_right (by omega)]
      simp
  obtain ⟨e1, e2, e3, e4⟩ := sizes_of_ok h
  refine ⟨e1, e2, e3, ?_, fun c hc => ?_⟩
  · rw [hp, e4]; simp only [Sizes.size]; ring
  · rw [hp]; exact pos_eq h hc

/-- C162 for the grid of the inversion, whatever its factor and width. -/
theorem C162_fits_inversion {NX NY NZ D : Int} {per : ℚ} {g : Grid.Grid} (h : coordinates NX NY NZ D per = .ok g) :
    ∃ s, gridPartitionInversion NX NY NZ D per = .ok s ∧ s.size = g.n ∧
      ∀ c, InBox g.NX g.NY g.NZ c → Grid.coordinate2index g c = .ok (s.linearPos c.y c.z c.x) := by
  have hD : D ≠ 0 := by
    rintro rfl
    unfold coordinates ceilQuot at h
    simp at h
  rw [coordinates_eq hD] at h
  obtain ⟨e1, e2, e3, e4⟩ := sizes_of_ok h
  refine ⟨⟨⌈(NY : ℚ) / D⌉, ⌈(NZ : ℚ) / D⌉, if per < NX then ⌈(NX : ℚ) / D⌉ else ⌈per / D⌉⟩, ?_, ?_, ?_⟩
  · unfold gridPartitionInversion ceilQuot
    simp only [if_neg hD]
    by_cases hp : per < NX
    · simp only [if_pos hp, Out.bind_ok]
    · simp only [if_neg hp, Out.bind_ok]
  · rw [e4]; simp only [Sizes.size]; ring
  · intro c hc
    rw [e1, e2, e3] at hc
    exact pos_eq h hc

private theorem lt_ceil_iff {D : Int} (hD : 0 < D) (i N : Int) : i < ⌈(N : ℚ) / D⌉ ↔ i * D < N := by
  rw [Int.lt_ceil, lt_div_iff₀ (by exact_mod_cast hD)]
  constructor
  · intro h; exact_mod_cast h
  · intro h; exact_mod_cast h

/-- C162: the points of the grid of the inversion are exactly the points of the model at multiples of its factor, at the same position in
metres; next to each point of the model, less than the factor away in each direction, there is one. -/
theorem C162_reduced {NX NY NZ D w : Int} (hD : 0 < D) {g : Grid.Grid} (h : coordinates NX NY NZ D w = .ok g) (DH : ℚ) :
    (∀ c : Coord, InBox g.NX g.NY g.NZ c ↔ InBox (max NX w) NY NZ ⟨c.x * D, c.y * D, c.z * D⟩) ∧
    (∀ i : Int, i * spacing DH D = (i * D : Int) * DH) ∧
    ∀ c : Coord, InBox (max NX w) NY NZ c → ∃ r : Coord, InBox g.NX g.NY g.NZ r ∧
      (r.x * D ≤ c.x ∧ c.x < r.x * D + D) ∧ (r.y * D ≤ c.y ∧ c.y < r.y * D + D) ∧ (r.z * D ≤ c.z ∧ c.z < r.z * D + D) := by
  rw [coordinates_eq (by omega), width_eq] at h
  obtain ⟨e1, e2, e3, _⟩ := sizes_of_ok h
  have hiff : ∀ c : Coord, InBox g.NX g.NY g.NZ c ↔ InBox (max NX w) NY NZ ⟨c.x * D, c.y * D, c.z * D⟩ := by
    intro c
    have hz : ∀ i : Int, 0 ≤ i * D ↔ 0 ≤ i := fun i => mul_nonneg_iff_of_pos_right hD
    unfold InBox
    rw [e1, e2, e3, lt_ceil_iff hD, lt_ceil_iff hD, lt_ceil_iff hD]
    simp only [hz]
  refine ⟨hiff, fun i => by unfold spacing; push_cast; ring, fun c hc => ?_⟩
  have hd : ∀ a : Int, a / D * D ≤ a ∧ a < a / D * D + D := by
    intro a
    have h1 := Int.emod_add_mul_ediv a D
    have h2 := Int.emod_nonneg a hD.ne'
    have h3 := Int.emod_lt_of_pos a hD
    have h4 : a / D * D = D * (a / D) := mul_comm _ _
    constructor <;> omega
  refine ⟨⟨c.x / D, c.y / D, c.z / D⟩, (hiff _).mpr ?_, hd _, hd _, hd _⟩
  obtain ⟨a0, a1, b0, b1, c0, c1⟩ := hc
  have hz : ∀ a : Int, 0 ≤ a → 0 ≤ a / D * D := fun a ha => mul_nonneg (Int.ediv_nonneg ha hD.le) hD.le
  exact ⟨hz _ a0, lt_of_le_of_lt (hd _).1 a1, hz _ b0, lt_of_le_of_lt (hd _).1 b1, hz _ c0, lt_of_le_of_lt (hd _).1 c1⟩

/-- A configured grid is accepted exactly if it has points. -/
theorem C162_accept {NX NY NZ D w : Int} (hD : 0 < D) :
    (∃ g, coordinates NX NY NZ D w = .ok g) ↔ 0 < max NX w ∧ 0 < NY ∧ 0 < NZ := by
  have hc : ∀ N : Int, 0 < ⌈(N : ℚ) / D⌉ ↔ 0 < N := fun N => by simpa using lt_ceil_iff hD 0 N
  rw [coordinates_eq (by omega), width_eq, ← hc (max NX w), ← hc NY, ← hc NZ]
  unfold Grid.initRegular
  split
  · rename_i h; exact ⟨fun _ => h, fun _ => ⟨_, rfl⟩⟩
  · rename_i h; exact ⟨fun ⟨_, e⟩ => (by cases e), fun e => absurd e h⟩

/-- A grid with 10 × 7 × 4 points, 13 points wide for the shots, and its grid with three times the spacing. -/
example : coordinates 10 7 4 3 13 = Grid.initRegular 5 3 2 ∧ coordinates 10 7 4 1 13 = Grid.initRegular 13 7 4 ∧
    gridPartitionInversion 10 7 4 3 13 = .ok ⟨3, 2, 5⟩ ∧ gridPartition 10 7 4 13 = ⟨7, 4, 13⟩ ∧
    (coordinates 10 7 4 1 13 >>= fun g => Grid.coordinate2index g ⟨12, 1, 2⟩) = .ok 90 := by
  refine ⟨by decide +kernel, by decide +kernel, by decide +kernel, by decide +kernel, by decide +kernel⟩

end Verif.GridDist
