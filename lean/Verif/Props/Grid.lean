import Verif.Lemmas.GridInit
import Mathlib.Data.List.GetD
/-!
# C01–C07, C53: the grid

Properties of `Acquisition::Coordinates`. Specification vocabulary used below:
`InBox`, `Linear`, `Roomy` – all defined here, independently of the model's helpers.
-/
namespace Verif.Grid

/-! ### Specification -/

/-- The coordinate lies inside an `NX × NY × NZ` box. -/
def InBox (NX NY NZ : Int) (c : Coord) : Prop :=
  0 ≤ c.x ∧ c.x < NX ∧ 0 ≤ c.y ∧ c.y < NY ∧ 0 ≤ c.z ∧ c.z < NZ

/-- The index of a coordinate in x-fastest, then z, then y order. -/
def Linear (NX NZ : Int) (c : Coord) : Int := c.x + NX * (c.z + NZ * c.y)

/-- Every requested layer has room for one of its cells: the first interface (or the
bottom, for a single layer) is not negative and every further interface, and finally
the bottom `NY - 1`, is at least one coarse spacing below the one before. -/
def Roomy (NY : Int) (dhs ifs : List Int) : Prop :=
  let js := ifs ++ [NY - 1]
  0 ≤ js.getD 0 0 ∧ ∀ k, k + 1 < js.length → js.getD k 0 + dhs.getD (k + 1) 0 ≤ js.getD (k + 1) 0

theorem Roomy.gaps {NY : Int} {dhs ifs : List Int} (hlen : dhs.length = ifs.length + 1)
    (h : Roomy NY dhs ifs) :
    ∃ d ds j js, dhs = d :: ds ∧ ifs ++ [NY - 1] = j :: js ∧ 0 ≤ j ∧ gapsFrom j ds js := by
  obtain ⟨h0, h1⟩ := h
  have hl : dhs.length = (ifs ++ [NY - 1]).length := by simp [hlen]
  generalize ifs ++ [NY - 1] = J at *
  cases dhs with
  | nil => simp at hlen
  | cons d ds =>
    cases J with
    | nil => simp at hl
    | cons j js =>
      refine ⟨d, ds, j, js, rfl, rfl, by simpa using h0, ?_⟩
      have hl' : ds.length = js.length := by simpa using hl
      have key : ∀ (ds js : List Int) (j : Int), ds.length = js.length →
          (∀ k, k + 1 < (j :: js).length → (j :: js).getD k 0 + ds.getD k 0 ≤ (j :: js).getD (k + 1) 0) →
          gapsFrom j ds js := by
        intro ds
        induction ds with
        | nil => intro js j h _; cases js <;> simp_all [gapsFrom]
        | cons e ds ih =>
          intro js j h hh
          cases js with
          | nil => simp at h
          | cons j' js =>
            refine ⟨by simpa using hh 0 (by simp), ih js j' (by simpa using h) ?_⟩
            intro k hk
            have := hh (k + 1) (by simpa using hk)
            simpa using this
      exact key ds js j hl' (fun k hk => by simpa using h1 k hk)

/-! ### C01, C02: regular grids -/

private theorem regular_ok {NX NY NZ : Int} {g : Grid} (h : initRegular NX NY NZ = .ok g) :
    0 < NX ∧ 0 < NY ∧ 0 < NZ ∧ g.NX = NX ∧ g.NY = NY ∧ g.NZ = NZ ∧
    g.layers = [{ dh := 1, nx := NX, ny := NY, nz := NZ, start := 0, stop := NY - 1,
                  transition := 0 }] := by
  unfold initRegular at h
  split at h
  · injection h with h; subst h; simp_all
  · cases h

/-- C01, first half: every in-range index of a regular grid has exactly the coordinate
that the row-major formula gives, and converting that coordinate gives the index back. -/
theorem C01_index_roundtrip {NX NY NZ : Int} {g : Grid} (h : initRegular NX NY NZ = .ok g)
    {i : Int} (h0 : 0 ≤ i) (hi : i < NX * NY * NZ) :
    ∃ c, index2coordinate g i = .ok c ∧ InBox NX NY NZ c ∧ Linear NX NZ c = i ∧
      coordinate2index g c = .ok i := by
  obtain ⟨px, py, pz, e1, e2, e3, el⟩ := regular_ok h
  obtain ⟨ix, iy, iz, a0, a1, b0, b1, c0, c1, rfl⟩ := exists_split px pz h0 hi
  refine ⟨⟨ix, iy, iz⟩, ?_, ⟨a0, a1, b0, b1, c0, c1⟩, by simp [Linear]; ring, ?_⟩
  · unfold index2coordinate
    rw [el]
    have hn : ¬ (ix + iz * NX + iy * NX * NZ ≥ NX * NY * NZ) := by omega
    unfold mapIndex
    rw [if_neg (by simpa only [Layer.n] using hn)]
    have := coordInLayer_of (l := ⟨1, NX, NY, NZ, 0, NY - 1, 0⟩) a0 a1 b0 c0 c1
    simpa using this
  · unfold coordinate2index inRange
    rw [e1, e2, e3, el, if_pos (by simp; omega)]
    have : iy ≤ NY - 1 := by omega
    simp [lookup, this, b0]

/-- C01, second half: every coordinate in the box has an index in `[0, NX*NY*NZ)`, and
converting that index gives the coordinate back. -/
theorem C01_coordinate_roundtrip {NX NY NZ : Int} {g : Grid} (h : initRegular NX NY NZ = .ok g)
    {c : Coord} (hc : InBox NX NY NZ c) :
    ∃ i, coordinate2index g c = .ok i ∧ i = Linear NX NZ c ∧ 0 ≤ i ∧ i < NX * NY * NZ ∧
      index2coordinate g i = .ok c := by
  obtain ⟨px, py, pz, e1, e2, e3, el⟩ := regular_ok h
  obtain ⟨a0, a1, b0, b1, c0, c1⟩ := hc
  refine ⟨c.x + c.z * NX + c.y * NX * NZ, ?_, by simp [Linear]; ring, by positivity,
    idx_lt a1 b1 c1 px pz, ?_⟩
  · unfold coordinate2index inRange
    rw [e1, e2, e3, el, if_pos (by simp; omega)]
    have : c.y ≤ NY - 1 := by omega
    simp [lookup, this, b0]
  · unfold index2coordinate
    rw [el]
    have hn : ¬ (c.x + c.z * NX + c.y * NX * NZ ≥ NX * NY * NZ) := by
      have := idx_lt a1 b1 c1 px pz; omega
    unfold mapIndex
    rw [if_neg (by simpa only [Layer.n] using hn)]
    have := coordInLayer_of (l := ⟨1, NX, NY, NZ, 0, NY - 1, 0⟩) a0 a1 b0 c0 c1
    simpa using this

/-- The constructor accepts exactly the positive sizes. -/
theorem C01_constructor_total (NX NY NZ : Int) :
    (∃ g, initRegular NX NY NZ = .ok g ∧ g.n = NX * NY * NZ) ↔ 0 < NX ∧ 0 < NY ∧ 0 < NZ := by
  constructor
  · rintro ⟨g, h, _⟩
    obtain ⟨a, b, c, _⟩ := regular_ok h
    exact ⟨a, b, c⟩
  · rintro ⟨a, b, c⟩
    unfold initRegular
    rw [if_pos ⟨a, b, c⟩]
    exact ⟨_, rfl, by simp [Grid.n, Layer.n]⟩

/-- Case: a 4 × 3 × 2 grid, index 17. -/
example : ∃ g, initRegular 4 3 2 = .ok g ∧ index2coordinate g 17 = .ok ⟨1, 2, 0⟩ ∧
    coordinate2index g ⟨1, 2, 0⟩ = .ok 17 := ⟨_, rfl, by decide, by decide⟩

/-- C02: a coordinate outside the box is an error on every grid (regular or layered). -/
theorem C02_out_of_range_rejected (g : Grid) (c : Coord) (h : ¬ InBox g.NX g.NY g.NZ c) :
    coordinate2index g c = .err ∧ edgeDistance g c = .err := by
  have hf : inRange g c = false := by
    rw [Bool.eq_false_iff]
    intro ht
    apply h
    simp [inRange] at ht
    unfold InBox; omega
  simp [coordinate2index, edgeDistance, hf]

/-- C02: on a regular grid the error is raised exactly for coordinates outside the box. -/
theorem C02_regular_iff {NX NY NZ : Int} {g : Grid} (h : initRegular NX NY NZ = .ok g) (c : Coord) :
    coordinate2index g c = .err ↔ ¬ InBox NX NY NZ c := by
  constructor
  · intro he hc
    obtain ⟨i, hi, _⟩ := C01_coordinate_roundtrip h hc
    rw [he] at hi; cases hi
  · intro hc
    obtain ⟨_, _, _, e1, e2, e3, _⟩ := regular_ok h
    exact (C02_out_of_range_rejected g c (by rw [e1, e2, e3]; exact hc)).1

example : ∃ g, initRegular 4 3 2 = .ok g ∧ coordinate2index g ⟨4, 0, 0⟩ = .err ∧
    coordinate2index g ⟨0, -1, 0⟩ = .err := ⟨_, rfl, by decide, by decide⟩

/-! ### C03, C04: layered grids -/

theorem initVar_len {NX NY NZ : Int} {dhs ifs : List Int} {g : Grid}
    (h : initVar NX NY NZ dhs ifs = .ok g) : dhs.length = ifs.length + 1 := by
  unfold initVar at h
  split at h; · cases h
  rename_i h1
  split at h; · cases h
  rename_i h2
  have : dhs.length ≠ 0 := by simpa using h1
  omega

/-- C03: on every layered grid the constructor accepts, whose layers have room for their
own spacing, each index `0 … n-1` has a coordinate, and that coordinate maps back to the
same index. -/
theorem C03_index_roundtrip {NX NY NZ : Int} {dhs ifs : List Int} {g : Grid}
    (h : initVar NX NY NZ dhs ifs = .ok g) (hr : Roomy NY dhs ifs)
    {i : Int} (h0 : 0 ≤ i) (hi : i < g.n) :
    ∃ c, index2coordinate g i = .ok c ∧ coordinate2index g c = .ok i := by
  obtain ⟨hw, _⟩ := initVar_wf h (hr.gaps (initVar_len h))
  obtain ⟨c, h1, hp, h2⟩ := mapIndex_lookup g.layers 0 i hw h0 hi
  refine ⟨c, h1, ?_⟩
  unfold coordinate2index
  rw [if_pos]
  · simpa using h2 0
  · have := hp.x0; have := hp.xN; have := hp.z0; have := hp.zN; have := hp.y0; have := hp.yhi
    simp [inRange]; omega

/-- C03: distinct grid points have distinct coordinates. -/
theorem C03_injective {NX NY NZ : Int} {dhs ifs : List Int} {g : Grid}
    (h : initVar NX NY NZ dhs ifs = .ok g) (hr : Roomy NY dhs ifs)
    {i j : Int} (hi0 : 0 ≤ i) (hi : i < g.n) (hj0 : 0 ≤ j) (hj : j < g.n)
    (he : index2coordinate g i = index2coordinate g j) : i = j := by
  obtain ⟨c, h1, h2⟩ := C03_index_roundtrip h hr hi0 hi
  obtain ⟨d, h3, h4⟩ := C03_index_roundtrip h hr hj0 hj
  rw [h1, h3] at he
  injection he with he
  subst he
  rw [h2] at h4
  injection h4

/-- C03, converse direction: every coordinate that sits on a grid point of some layer has
an index in range that maps back to it. -/
theorem C03_coordinate_roundtrip {NX NY NZ : Int} {dhs ifs : List Int} {g : Grid}
    (h : initVar NX NY NZ dhs ifs = .ok g) (hr : Roomy NY dhs ifs) {c : Coord}
    (hx : 0 ≤ c.x ∧ c.x < g.NX) (hz : 0 ≤ c.z ∧ c.z < g.NZ)
    (hl : ∃ l ∈ g.layers, l.start ≤ c.y ∧ c.y ≤ l.stop ∧ l.dh ∣ c.x ∧ l.dh ∣ c.z ∧
      l.dh ∣ c.y - l.start) :
    ∃ i, 0 ≤ i ∧ i < g.n ∧ index2coordinate g i = .ok c ∧ coordinate2index g c = .ok i := by
  obtain ⟨hw, _⟩ := initVar_wf h (hr.gaps (initVar_len h))
  obtain ⟨i, h0, hi, h1, _, _⟩ := lookup_mapIndex g.layers 0 c hw hx.1 hx.2 hz.1 hz.2 hl
  obtain ⟨c', h3, h4⟩ := C03_index_roundtrip h hr h0 hi
  have : index2coordinate g i = .ok c := h1
  rw [this] at h3; injection h3 with h3; subst h3
  exact ⟨i, h0, hi, h1, h4⟩

/-- C04: every grid point lies inside the reported box; its x and z are multiples of the
coarsening factor of a layer whose y range contains it, and it sits on that layer's rows. -/
theorem C04_points_in_domain {NX NY NZ : Int} {dhs ifs : List Int} {g : Grid}
    (h : initVar NX NY NZ dhs ifs = .ok g) (hr : Roomy NY dhs ifs)
    {i : Int} (h0 : 0 ≤ i) (hi : i < g.n) :
    ∃ c, index2coordinate g i = .ok c ∧ InBox g.NX g.NY g.NZ c ∧
      ∃ l ∈ g.layers, l.start ≤ c.y ∧ c.y ≤ l.stop ∧ l.dh ∣ c.x ∧ l.dh ∣ c.z ∧
        l.dh ∣ c.y - l.start := by
  obtain ⟨hw, _⟩ := initVar_wf h (hr.gaps (initVar_len h))
  obtain ⟨c, h1, hp, _⟩ := mapIndex_lookup g.layers 0 i hw h0 hi
  refine ⟨c, h1, ?_, hp.layer⟩
  have := hp.yhi
  exact ⟨hp.x0, hp.xN, hp.y0, by omega, hp.z0, hp.zN⟩

/-- C04: the layers of an accepted grid are ordered in depth without overlap. -/
theorem C04_layers_disjoint {NX NY NZ : Int} {dhs ifs : List Int} {g : Grid}
    (h : initVar NX NY NZ dhs ifs = .ok g) (hr : Roomy NY dhs ifs) :
    g.layers.Pairwise (fun l m => l.stop < m.start) := by
  obtain ⟨hw, _⟩ := initVar_wf h (hr.gaps (initVar_len h))
  have key : ∀ (ls : List Layer) (lo : Int), WF g.NX g.NZ (g.NY - 1) lo ls →
      (∀ l ∈ ls, lo ≤ l.start) ∧ ls.Pairwise (fun l m => l.stop < m.start) := by
    intro ls
    induction ls with
    | nil => intro lo _; simp
    | cons l ls ih =>
      intro lo hwf
      obtain ⟨_, h1, _, h3⟩ := hwf
      obtain ⟨h4, h5⟩ := ih _ h3
      refine ⟨?_, List.pairwise_cons.mpr ⟨?_, h5⟩⟩
      · intro m hm
        rcases List.mem_cons.mp hm with rfl | hm
        · exact h1
        · have := h4 m hm; omega
      · intro m hm
        have := h4 m hm; omega
  exact (key _ _ hw).2

/-- Case: three layers with factors 1, 3, 1 on a requested 12 × 20 × 1 grid. -/
example : ∃ g, initVar 12 20 1 [1, 3, 1] [5, 12] = .ok g ∧ Roomy 20 [1, 3, 1] [5, 12] ∧
    g.NX = 11 ∧ g.n = 169 ∧ index2coordinate g 67 = .ok ⟨3, 8, 0⟩ ∧
    coordinate2index g ⟨3, 8, 0⟩ = .ok 67 :=
  ⟨_, rfl, ⟨by decide, by
    intro k hk
    simp at hk
    have : k = 0 ∨ k = 1 := by omega
    rcases this with rfl | rfl <;> decide⟩, by decide, by decide, by decide, by decide⟩

/-! ### C53: layers too thin for their spacing -/

/-- C53 fails: a configuration that passes every check of the configuration reader
(first interface 0, interfaces increasing, neighbouring factors a factor 3 apart) and of
the constructor, whose middle layer is thinner than its spacing. The middle layer then
has a negative number of points and two different indices share one coordinate. -/
theorem C53_thin_layer_violated :
    ∃ g, initVarConfig 8 20 1 [1, 3, 1] [0, 4, 5] = .ok g ∧
      (∃ l ∈ g.layers, l.n < 0) ∧
      ∃ i j : Int, 0 ≤ i ∧ i < g.n ∧ 0 ≤ j ∧ j < g.n ∧ i ≠ j ∧
        index2coordinate g i = index2coordinate g j ∧
        ∃ c, index2coordinate g i = .ok c :=
  ⟨_, rfl, by decide, 35, 40, by decide, by decide, by decide, by decide, by decide, by decide,
    ⟨3, 4, 0⟩, by decide⟩

/-! ### C05: size adjustment -/

/-- The sizes a coarsest factor `D` fits: `D` columns per coarse cell with the last coarse
point inside, i.e. remainder `1 + D/2`. -/
def FitsCoarsest (D N : Int) : Prop := N % D = 1 + D / 2

/-- Factors that a layer may have. -/
def PowersOfThree (dhs : List Int) : Prop := ∀ d ∈ dhs, ∃ k : Nat, d = 3 ^ k

private theorem pow3_pos {dhs : List Int} (h : PowersOfThree dhs) : ∀ d ∈ dhs, 0 < d := by
  intro d hd; obtain ⟨k, rfl⟩ := h d hd; positivity

private theorem initVar_open {NX NY NZ : Int} {dhs ifs : List Int}
    (hlen : dhs.length = ifs.length + 1) (hpow : PowersOfThree dhs)
    (hN : 0 < NX ∧ 0 < NY ∧ 0 < NZ) :
    initVar NX NY NZ dhs ifs =
      (if maxFactor dhs ≠ 1 then
        match fitDown (maxFactor dhs) NX.toNat,
            (if NZ = 1 then some 1 else fitDown (maxFactor dhs) NZ.toNat),
            adjust 0 dhs (ifs ++ [NY - 1]) with
        | some NX', some NZ', some is =>
          .ok { NX := NX', NY := is.getLastD (-1) + 1, NZ := NZ', interfaces := -1 :: is,
                layers := buildLayers NX' NZ' 0 dhs is }
        | _, _, _ => .ub
      else .ok { NX, NY := (ifs ++ [NY - 1]).getLastD (-1) + 1, NZ,
                 interfaces := -1 :: (ifs ++ [NY - 1]),
                 layers := buildLayers NX NZ 0 dhs (ifs ++ [NY - 1]) }) := by
  unfold initVar
  rw [if_neg (by intro h; rw [h] at hlen; simp at hlen), if_neg (by omega),
    if_neg (by simpa using hN), if_neg, if_neg]
  · rfl
  · intro h
    have := pow3_pos hpow 0 (List.contains_iff_mem.mp h)
    omega
  · have := List.all_eq_true.mpr (fun d hd => (acceptFactor_iff d).mpr (.inr (hpow d hd)))
    simpa using this

/-- C05: initialisation with positive requested sizes and powers of three terminates
normally exactly if the requested NX (and NZ, unless it is 1) is at least `1 + dhMax/2`;
otherwise the search for a fitting size runs past zero and never stops. -/
theorem C05_terminates_iff {NX NY NZ : Int} {dhs ifs : List Int}
    (hlen : dhs.length = ifs.length + 1) (hpow : PowersOfThree dhs)
    (hN : 0 < NX ∧ 0 < NY ∧ 0 < NZ) :
    (∃ g, initVar NX NY NZ dhs ifs = .ok g) ↔
      (∀ d ∈ dhs, 1 + d / 2 ≤ NX ∧ (NZ = 1 ∨ 1 + d / 2 ≤ NZ)) := by
  have hpos := pow3_pos hpow
  have hne : dhs ≠ [] := by intro h; rw [h] at hlen; simp at hlen
  have hmem := maxFactor_mem hne hpos
  rw [initVar_open hlen hpow hN]
  by_cases h1 : maxFactor dhs = 1
  · rw [if_neg (by simpa using h1)]
    refine ⟨fun _ d hd => ?_, fun _ => ⟨_, rfl⟩⟩
    have := le_maxFactor hd; have := hpos d hd
    have hd1 : d = 1 := by omega
    subst hd1; omega
  · rw [if_pos h1]
    have hD : 3 ≤ maxFactor dhs := by
      obtain ⟨b, hb⟩ := hpow _ hmem
      have : b ≠ 0 := by intro h0; subst h0; exact h1 (by simpa using hb)
      rw [hb]
      calc (3 : Int) = 3 ^ 1 := by norm_num
        _ ≤ 3 ^ b := pow_le_pow_right₀ (by norm_num) (by omega)
    obtain ⟨is, ha, _⟩ := adjust_total dhs (ifs ++ [NY - 1]) 0 hpos (by simp [hlen])
    have hx := fitDown_isSome hD NX.toNat
    have hz := fitDown_isSome hD NZ.toNat
    have ex : ((NX.toNat : Nat) : Int) = NX := Int.toNat_of_nonneg hN.1.le
    have ez : ((NZ.toNat : Nat) : Int) = NZ := Int.toNat_of_nonneg hN.2.2.le
    rw [ex] at hx; rw [ez] at hz
    rw [ha]
    constructor
    · rintro ⟨g, h⟩ d hd
      have hle := le_maxFactor hd
      cases hfx : fitDown (maxFactor dhs) NX.toNat with
      | none => simp [hfx] at h
      | some NX' =>
        have := hx.mp (by simp [hfx])
        refine ⟨by omega, ?_⟩
        by_cases hz1 : NZ = 1
        · exact .inl hz1
        · cases hfz : fitDown (maxFactor dhs) NZ.toNat with
          | none => simp [hfx, hfz, hz1] at h
          | some NZ' =>
            have := hz.mp (by simp [hfz])
            right; omega
    · intro h
      obtain ⟨hX, hZ⟩ := h _ hmem
      obtain ⟨NX', hfx⟩ := Option.isSome_iff_exists.mp (hx.mpr hX)
      rw [hfx]
      by_cases hz1 : NZ = 1
      · rw [if_pos hz1]; exact ⟨_, rfl⟩
      · rw [if_neg hz1]
        obtain ⟨NZ', hfz⟩ := Option.isSome_iff_exists.mp (hz.mpr (hZ.resolve_left hz1))
        rw [hfz]; exact ⟨_, rfl⟩

/-- C05: the adjusted NX is the largest fitting size not above the requested one, so it
shrinks by less than the coarsest factor; the same for NZ unless it is 1; without
coarsening nothing changes. -/
theorem C05_largest_fit {NX NY NZ : Int} {dhs ifs : List Int} {g : Grid} {D : Int}
    (hlen : dhs.length = ifs.length + 1) (hpow : PowersOfThree dhs)
    (hN : 0 < NX ∧ 0 < NY ∧ 0 < NZ) (h : initVar NX NY NZ dhs ifs = .ok g)
    (hD : D ∈ dhs) (hmax : ∀ d ∈ dhs, d ≤ D) :
    (D = 1 → g.NX = NX ∧ g.NZ = NZ) ∧
    (1 < D →
      (FitsCoarsest D g.NX ∧ g.NX ≤ NX ∧ NX < g.NX + D ∧
        ∀ m, FitsCoarsest D m → m ≤ NX → m ≤ g.NX) ∧
      (NZ = 1 → g.NZ = 1) ∧
      (NZ ≠ 1 → FitsCoarsest D g.NZ ∧ g.NZ ≤ NZ ∧ NZ < g.NZ + D ∧
        ∀ m, FitsCoarsest D m → m ≤ NZ → m ≤ g.NZ)) := by
  have hpos := pow3_pos hpow
  have hne : dhs ≠ [] := by intro h; rw [h] at hlen; simp at hlen
  have hmem := maxFactor_mem hne hpos
  have hDm : maxFactor dhs = D := le_antisymm (hmax _ hmem) (le_maxFactor hD)
  rw [initVar_open hlen hpow hN, hDm] at h
  have hD0 := hpos D hD
  have fit : ∀ (N N' : Int), 0 < N → fitDown D N.toNat = some N' →
      FitsCoarsest D N' ∧ N' ≤ N ∧ N < N' + D ∧ ∀ m, FitsCoarsest D m → m ≤ N → m ≤ N' := by
    intro N N' hN hf
    have hs := fitDown_spec hD0 N.toNat
    rw [hf] at hs
    have en : ((N.toNat : Nat) : Int) = N := Int.toNat_of_nonneg hN.le
    rw [en] at hs
    obtain ⟨s0, s1, s2, s3⟩ := hs
    refine ⟨s2, s1, ?_, ?_⟩
    · by_contra hc
      exact s3 (N' + D) (by omega) (by omega) (by rw [Int.add_emod_right]; exact s2)
    · intro m hm hmN
      by_contra hc
      exact s3 m (by omega) hmN hm
  constructor
  · intro h1
    rw [if_neg (by simpa using h1)] at h
    injection h with h; subst h; exact ⟨rfl, rfl⟩
  · intro h1
    rw [if_pos (by omega)] at h
    cases hfx : fitDown D NX.toNat with
    | none => simp [hfx] at h
    | some NX' =>
      cases ha : adjust 0 dhs (ifs ++ [NY - 1]) with
      | none =>
        obtain ⟨is, ha', _⟩ := adjust_total dhs (ifs ++ [NY - 1]) 0 hpos (by simp [hlen])
        rw [ha] at ha'; cases ha'
      | some is =>
        by_cases hz1 : NZ = 1
        · simp only [hfx, hz1, if_true, ha] at h
          injection h with h; subst h
          exact ⟨fit NX NX' hN.1 hfx, fun _ => rfl, fun hc => absurd hz1 hc⟩
        · cases hfz : fitDown D NZ.toNat with
          | none => simp [hfx, hfz, hz1] at h
          | some NZ' =>
            simp only [hfx, hz1, if_false, ha, hfz] at h
            injection h with h; subst h
            exact ⟨fit NX NX' hN.1 hfx, fun hc => absurd hc hz1, fun _ => fit NZ NZ' hN.2.2 hfz⟩

/-- C05: interface `k` of the result is at most one coarse spacing (exclusive) above the
requested one, never below it, and each layer is a whole number of its own cells thick.
(`interfaces` has an extra first entry `-1`.) -/
theorem C05_interfaces {NX NY NZ : Int} {dhs ifs : List Int} {g : Grid}
    (hlen : dhs.length = ifs.length + 1) (hpow : PowersOfThree dhs)
    (hN : 0 < NX ∧ 0 < NY ∧ 0 < NZ) (h : initVar NX NY NZ dhs ifs = .ok g)
    (k : Nat) (hk : k < dhs.length) :
    let requested := (ifs ++ [NY - 1]).getD k 0
    let result := g.interfaces.getD (k + 1) 0
    let above := if k = 0 then 0 else g.interfaces.getD k 0
    let d := dhs.getD k 0
    result ≤ requested ∧ requested < result + d ∧ d ∣ result - above ∧
      (k + 1 = dhs.length → g.NY = result + 1) := by
  have hpos := pow3_pos hpow
  have hne : dhs ≠ [] := by intro h; rw [h] at hlen; simp at hlen
  rw [initVar_open hlen hpow hN] at h
  have hkl : k < (ifs ++ [NY - 1]).length := by simp; omega
  by_cases h1 : maxFactor dhs = 1
  · rw [if_neg (by simpa using h1)] at h
    injection h with h; subst h
    have hd1 : dhs.getD k 0 = 1 := by
      rw [List.getD_eq_getElem _ _ hk]
      have hm := List.getElem_mem hk
      have := le_maxFactor hm; have := hpos _ hm; omega
    simp only [hd1, List.getD_cons_succ]
    refine ⟨le_refl _, by omega, one_dvd _, ?_⟩
    intro hlast
    rw [getLastD_eq_getD _ _ (by simp)]
    have : (ifs ++ [NY - 1]).length - 1 = k := by simp; omega
    rw [this]
  · rw [if_pos h1] at h
    obtain ⟨is, ha, hl, hp⟩ := adjust_total dhs (ifs ++ [NY - 1]) 0 hpos (by simp [hlen])
    rw [ha] at h
    have hg : g.interfaces = -1 :: is ∧ g.NY = is.getLastD (-1) + 1 := by
      split at h
      · injection h with h; subst h
        rename_i heq
        injection heq with heq; subst heq
        exact ⟨rfl, rfl⟩
      · cases h
    rw [hg.1, hg.2]
    have hki : k < is.length := by omega
    obtain ⟨p1, p2, p3⟩ := hp k hki hkl hk
    simp only [List.getD_cons_succ]
    rw [List.getD_eq_getElem _ _ hki, List.getD_eq_getElem _ _ hk, List.getD_eq_getElem _ _ hkl]
    refine ⟨p1, p2, ?_, ?_⟩
    · cases k with
      | zero => simpa using p3
      | succ k => simpa using p3
    · intro hlast
      have hne' : is ≠ [] := by intro h0; rw [h0] at hki; simp at hki
      rw [getLastD_eq_getD _ _ hne']
      have : is.length - 1 = k := by simp at hl; omega
      rw [this, List.getD_eq_getElem _ _ hki]

/-- Case: NX = 13, factors 1, 3, 9 → coarsest 9, largest fitting size 5; NX = 4 never
terminates. -/
example : (∃ g, initVar 13 40 1 [1, 3, 9] [5, 16] = .ok g ∧ g.NX = 5) ∧
    initVar 4 40 1 [1, 3, 9] [5, 16] = .ub := ⟨⟨_, rfl, by decide⟩, by decide⟩

/-! ### C06: coordinates between layers -/

/-- C06 fails: an accepted grid and an in-range coordinate for which the lookup reads the
layer tables out of bounds (`y = 6` lies between the end of the fine layer, 5, and the
start of the coarse layer, 8). -/
theorem C06_gap_violated :
    ∃ g, initVarConfig 11 20 1 [1, 3, 1] [0, 5, 12] = .ok g ∧
      InBox g.NX g.NY g.NZ ⟨0, 6, 0⟩ ∧ coordinate2index g ⟨0, 6, 0⟩ = .ub :=
  ⟨_, rfl, by unfold InBox; decide, by decide⟩

/-- C06, what holds: on an accepted roomy grid an in-range coordinate is looked up without
undefined behaviour exactly if its depth lies in the range of some layer. Missing for the
full property: the depths between layers. -/
theorem C06_safe_iff_partial {NX NY NZ : Int} {dhs ifs : List Int} {g : Grid}
    (h : initVar NX NY NZ dhs ifs = .ok g) (hr : Roomy NY dhs ifs) {c : Coord}
    (hc : InBox g.NX g.NY g.NZ c) :
    coordinate2index g c ≠ .ub ↔ ∃ l ∈ g.layers, l.start ≤ c.y ∧ c.y ≤ l.stop := by
  obtain ⟨hw, _⟩ := initVar_wf h (hr.gaps (initVar_len h))
  obtain ⟨a0, a1, b0, b1, c0, c1⟩ := hc
  have hin : inRange g c = true := by simp [inRange]; omega
  unfold coordinate2index
  rw [if_pos hin]
  constructor
  · intro hub
    by_contra hn
    push Not at hn
    exact hub (lookup_gap g.layers (fun l hl hy => absurd hy.2 (by have := hn l hl hy.1; omega)) 0)
  · rintro ⟨l, hl, hy⟩
    have key : ∀ (ls : List Layer) (lo acc : Int), WF g.NX g.NZ (g.NY - 1) lo ls →
        (∃ l ∈ ls, l.start ≤ c.y ∧ c.y ≤ l.stop) → lookup c.x c.y c.z ls acc ≠ .ub := by
      intro ls
      induction ls with
      | nil => rintro lo acc _ ⟨l, hl, _⟩; simp at hl
      | cons m ls ih =>
        rintro lo acc hwf ⟨l, hl, hy⟩
        unfold lookup
        by_cases hm : c.y ≤ m.stop ∧ c.y ≥ m.start
        · rw [if_pos hm, if_neg (by have := hwf.1.dh_pos; omega)]
          simp
        · rw [if_neg hm]
          rcases List.mem_cons.mp hl with rfl | hl
          · exact absurd ⟨hy.2, hy.1⟩ hm
          · exact ih _ _ hwf.2.2.2 ⟨l, hl, hy⟩
    exact key _ _ _ hw ⟨l, hl, hy⟩

/-! ### C07: distance to the edges -/

/-- C07: per axis the smaller of the distances to the two edges. -/
theorem C07_edge_distance (g : Grid) (c : Coord) (hc : InBox g.NX g.NY g.NZ c) :
    edgeDistance g c = .ok ⟨min c.x (g.NX - 1 - c.x), min c.y (g.NY - 1 - c.y),
      min c.z (g.NZ - 1 - c.z)⟩ := by
  obtain ⟨a0, a1, b0, b1, c0, c1⟩ := hc
  have hin : inRange g c = true := by simp [inRange]; omega
  unfold edgeDistance
  rw [if_pos hin]
  congr 2 <;> split <;> omega

/-- C07: the distance is never negative, zero exactly on an edge, and unchanged when the
coordinate is mirrored. -/
theorem C07_edge_distance_laws (g : Grid) (c : Coord) (hc : InBox g.NX g.NY g.NZ c) :
    ∃ d, edgeDistance g c = .ok d ∧ 0 ≤ d.x ∧ 0 ≤ d.y ∧ 0 ≤ d.z ∧
      (d.x = 0 ↔ c.x = 0 ∨ c.x = g.NX - 1) ∧ (d.y = 0 ↔ c.y = 0 ∨ c.y = g.NY - 1) ∧
      (d.z = 0 ↔ c.z = 0 ∨ c.z = g.NZ - 1) ∧
      edgeDistance g ⟨g.NX - 1 - c.x, g.NY - 1 - c.y, g.NZ - 1 - c.z⟩ = .ok d := by
  have hc' := hc
  obtain ⟨a0, a1, b0, b1, c0, c1⟩ := hc
  refine ⟨_, C07_edge_distance g c hc', by simp only; omega, by simp only; omega, by simp only; omega,
    by simp only; omega, by simp only; omega, by simp only; omega, ?_⟩
  rw [C07_edge_distance]
  · congr 2 <;> simp only <;> omega
  · unfold InBox; simp only; omega

example : ∃ g, initRegular 7 5 1 = .ok g ∧ edgeDistance g ⟨5, 1, 0⟩ = .ok ⟨1, 1, 0⟩ :=
  ⟨_, rfl, by decide⟩

end Verif.Grid
