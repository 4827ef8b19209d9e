import Verif.Model.Grid
import Mathlib.Tactic.Ring
import Mathlib.Tactic.Linarith
import Mathlib.Tactic.Push
/-! Helper lemmas for `Verif.Model.Grid`. -/
namespace Verif.Grid

/-- What the mapping needs of one layer of a grid with `NX × NZ` columns. -/
structure LayerOK (NX NZ : Int) (l : Layer) : Prop where
  dh_pos : 1 ≤ l.dh
  nx_pos : 1 ≤ l.nx
  nz_pos : 1 ≤ l.nz
  ny_nonneg : 0 ≤ l.ny
  start_nonneg : 0 ≤ l.start
  stop_eq : l.stop = l.start + (l.ny - 1) * l.dh
  fitX : (l.nx - 1) * l.dh < NX
  fitZ : (l.nz - 1) * l.dh < NZ
  coverX : NX ≤ l.nx * l.dh
  coverZ : NZ ≤ l.nz * l.dh

/-- Layers are well formed, ordered in depth and do not overlap. -/
def WF (NX NZ hi : Int) : Int → List Layer → Prop
  | _, [] => True
  | lo, l :: ls => LayerOK NX NZ l ∧ lo ≤ l.start ∧ l.stop ≤ hi ∧
      WF NX NZ hi (max lo (l.stop + 1)) ls

theorem coordInLayer_of {l : Layer} {ix iy iz : Int}
    (hx0 : 0 ≤ ix) (hx : ix < l.nx) (hy0 : 0 ≤ iy) (hz0 : 0 ≤ iz) (hz : iz < l.nz) :
    coordInLayer l (ix + iz * l.nx + iy * l.nx * l.nz)
      = .ok ⟨ix * l.dh, iy * l.dh + l.start, iz * l.dh⟩ := by
  have hnx : 0 < l.nx := by omega
  have hnz : 0 < l.nz := by omega
  have hm : 0 < l.nx * l.nz := Int.mul_pos hnx hnz
  have h1 : ix + iz * l.nx < l.nx * l.nz := by nlinarith
  have h0 : 0 ≤ ix + iz * l.nx := by positivity
  have e1 : (ix + iz * l.nx + iy * l.nx * l.nz).tdiv (l.nx * l.nz) = iy := by
    rw [Int.tdiv_eq_ediv_of_nonneg (by positivity)]
    have : ix + iz * l.nx + iy * l.nx * l.nz = (ix + iz * l.nx) + iy * (l.nx * l.nz) := by ring
    rw [this, Int.add_mul_ediv_right _ _ (by omega), Int.ediv_eq_zero_of_lt h0 h1]; simp
  have e2 : (ix + iz * l.nx).tdiv l.nx = iz := by
    rw [Int.tdiv_eq_ediv_of_nonneg h0, Int.add_mul_ediv_right _ _ (by omega),
      Int.ediv_eq_zero_of_lt hx0 hx]; simp
  have e3 : ix + iz * l.nx + iy * l.nx * l.nz - iy * (l.nx * l.nz) = ix + iz * l.nx := by ring
  unfold coordInLayer
  rw [if_neg (by omega)]
  simp only [e1, e3, e2]
  congr 2
  ring

theorem exists_split {nx ny nz i : Int} (hnx : 0 < nx) (hnz : 0 < nz)
    (h0 : 0 ≤ i) (hi : i < nx * ny * nz) :
    ∃ ix iy iz, 0 ≤ ix ∧ ix < nx ∧ 0 ≤ iy ∧ iy < ny ∧ 0 ≤ iz ∧ iz < nz ∧
      i = ix + iz * nx + iy * nx * nz := by
  have hm : 0 < nx * nz := Int.mul_pos hnx hnz
  refine ⟨i % (nx * nz) % nx, i / (nx * nz), i % (nx * nz) / nx, Int.emod_nonneg _ (by omega),
    Int.emod_lt_of_pos _ hnx, Int.ediv_nonneg h0 hm.le, ?_, ?_, ?_, ?_⟩
  · apply Int.ediv_lt_of_lt_mul hm
    calc i < nx * ny * nz := hi
      _ = ny * (nx * nz) := by ring
  · exact Int.ediv_nonneg (Int.emod_nonneg _ (by omega)) hnx.le
  · apply Int.ediv_lt_of_lt_mul hnx
    rw [mul_comm nz nx]
    exact Int.emod_lt_of_pos _ hm
  · have a := Int.emod_add_mul_ediv i (nx * nz)
    have b := Int.emod_add_mul_ediv (i % (nx * nz)) nx
    linarith [mul_comm nx (i % (nx * nz) / nx), mul_comm (nx * nz) (i / (nx * nz)),
      mul_assoc (i / (nx * nz)) nx nz]

theorem idx_lt {nx ny nz ix iy iz : Int} (hx : ix < nx) (hy : iy < ny)
    (hz : iz < nz) (hnx : 0 < nx) (hnz : 0 < nz) :
    ix + iz * nx + iy * nx * nz < nx * ny * nz := by
  have h1 : ix + iz * nx + nx ≤ nx * nz + ix := by nlinarith
  have hm : 0 < nx * nz := Int.mul_pos hnx hnz
  have h2 : (iy + 1) * (nx * nz) ≤ ny * (nx * nz) := by
    apply Int.mul_le_mul_of_nonneg_right _ hm.le; omega
  nlinarith

/-- Everything about one grid point of a well-formed layered grid. -/
structure PointOK (NX NZ lo hi : Int) (ls : List Layer) (c : Coord) : Prop where
  x0 : 0 ≤ c.x
  xN : c.x < NX
  z0 : 0 ≤ c.z
  zN : c.z < NZ
  ylo : lo ≤ c.y
  y0 : 0 ≤ c.y
  yhi : c.y ≤ hi
  layer : ∃ l ∈ ls, l.start ≤ c.y ∧ c.y ≤ l.stop ∧ l.dh ∣ c.x ∧ l.dh ∣ c.z ∧ l.dh ∣ c.y - l.start

theorem n_nonneg {NX NZ : Int} {l : Layer} (h : LayerOK NX NZ l) : 0 ≤ l.n := by
  unfold Layer.n
  have := h.nx_pos; have := h.nz_pos; have := h.ny_nonneg
  positivity

theorem sum_nonneg {NX NZ hi lo : Int} {ls : List Layer} (h : WF NX NZ hi lo ls) :
    0 ≤ (ls.map Layer.n).sum := by
  induction ls generalizing lo with
  | nil => simp
  | cons l ls ih =>
    simp only [List.map_cons, List.sum_cons]
    have := n_nonneg h.1
    have := ih h.2.2.2
    omega

/-- Index → coordinate → index. -/
theorem mapIndex_lookup {NX NZ hi : Int} (ls : List Layer) :
    ∀ (lo i : Int), WF NX NZ hi lo ls → 0 ≤ i → i < (ls.map Layer.n).sum →
      ∃ c, mapIndex ls i = .ok c ∧ PointOK NX NZ lo hi ls c ∧
        ∀ acc, lookup c.x c.y c.z ls acc = .ok (i + acc) := by
  induction ls with
  | nil => intro lo i _ h0 hisum; simp at hisum; omega
  | cons l ls ih =>
    intro lo i hwf h0 hisum
    obtain ⟨hl, hlo, hhi, hrest⟩ := hwf
    simp only [List.map_cons, List.sum_cons] at hisum
    by_cases hge : i ≥ l.n
    · obtain ⟨c, hc, hp, hlk⟩ := ih _ (i - l.n) hrest (by omega) (by omega)
      refine ⟨c, ?_, ?_, ?_⟩
      · simp only [mapIndex]; rw [if_pos hge]; exact hc
      · obtain ⟨l', hl', h'⟩ := hp.layer
        exact { hp with
          ylo := le_trans (le_max_left _ _) hp.ylo
          layer := ⟨l', List.mem_cons_of_mem _ hl', h'⟩ }
      · intro acc
        have : l.stop + 1 ≤ c.y := le_trans (le_max_right _ _) hp.ylo
        simp only [lookup]
        rw [if_neg (by omega), hlk]
        congr 1; ring
    · have hnx := hl.nx_pos; have hnz := hl.nz_pos; have hdh := hl.dh_pos
      obtain ⟨ix, iy, iz, hx0, hx, hy0, hy, hz0, hz, rfl⟩ :=
        exists_split (nx := l.nx) (ny := l.ny) (nz := l.nz) (by omega) (by omega) h0
          (by unfold Layer.n at hge; omega)
      have hst := hl.start_nonneg
      have hystop : iy * l.dh + l.start ≤ l.stop := by
        rw [hl.stop_eq]
        have : iy * l.dh ≤ (l.ny - 1) * l.dh := by
          apply Int.mul_le_mul_of_nonneg_right <;> omega
        omega
      have hiy : 0 ≤ iy * l.dh := by positivity
      refine ⟨⟨ix * l.dh, iy * l.dh + l.start, iz * l.dh⟩, ?_, ?_, ?_⟩
      · simp only [mapIndex]; rw [if_neg hge]
        exact coordInLayer_of hx0 hx hy0 hz0 hz
      · have hfx := hl.fitX; have hfz := hl.fitZ
        have a1 : ix * l.dh ≤ (l.nx - 1) * l.dh := by
          apply Int.mul_le_mul_of_nonneg_right <;> omega
        have a2 : iz * l.dh ≤ (l.nz - 1) * l.dh := by
          apply Int.mul_le_mul_of_nonneg_right <;> omega
        exact {
          x0 := by show 0 ≤ ix * l.dh; positivity
          xN := by show ix * l.dh < NX; omega
          z0 := by show 0 ≤ iz * l.dh; positivity
          zN := by show iz * l.dh < NZ; omega
          ylo := by show lo ≤ iy * l.dh + l.start; omega
          y0 := by show 0 ≤ iy * l.dh + l.start; omega
          yhi := by show iy * l.dh + l.start ≤ hi; omega
          layer := ⟨l, List.mem_cons_self, by show l.start ≤ iy * l.dh + l.start; omega,
            hystop, Dvd.intro_left _ rfl, Dvd.intro_left _ rfl,
            by show l.dh ∣ iy * l.dh + l.start - l.start; simp⟩ }
      · intro acc
        simp only [lookup]
        rw [if_pos (by constructor <;> omega), if_neg (by omega)]
        have e : iy * l.dh + l.start - l.start = iy * l.dh := by ring
        rw [e, Int.mul_tdiv_cancel _ (by omega), Int.mul_tdiv_cancel _ (by omega),
          Int.mul_tdiv_cancel _ (by omega)]

/-- Coordinate → index → coordinate, for coordinates that are grid points. -/
theorem lookup_mapIndex {NX NZ hi : Int} (ls : List Layer) :
    ∀ (lo : Int) (c : Coord), WF NX NZ hi lo ls →
      0 ≤ c.x → c.x < NX → 0 ≤ c.z → c.z < NZ →
      (∃ l ∈ ls, l.start ≤ c.y ∧ c.y ≤ l.stop ∧ l.dh ∣ c.x ∧ l.dh ∣ c.z ∧ l.dh ∣ c.y - l.start) →
      ∃ i, 0 ≤ i ∧ i < (ls.map Layer.n).sum ∧ mapIndex ls i = .ok c ∧ lo ≤ c.y ∧
        ∀ acc, lookup c.x c.y c.z ls acc = .ok (i + acc) := by
  induction ls with
  | nil => intro lo c _ _ _ _ _ ⟨l, hl, _⟩; simp at hl
  | cons l ls ih =>
    intro lo c hwf hx0 hxN hz0 hzN ⟨l', hl', hs, he, dx, dz, dy⟩
    obtain ⟨hl, hlo, hhi, hrest⟩ := hwf
    have hsum := sum_nonneg hrest
    rcases List.mem_cons.mp hl' with rfl | hmem
    · obtain ⟨ix, hix⟩ := dx
      obtain ⟨iz, hiz⟩ := dz
      obtain ⟨iy, hiy⟩ := dy
      have hdh := hl.dh_pos; have hnx := hl.nx_pos; have hnz := hl.nz_pos
      have cx := hl.coverX; have cz := hl.coverZ; have hst := hl.stop_eq
      have bx0 : 0 ≤ ix := by by_contra h; nlinarith
      have bz0 : 0 ≤ iz := by by_contra h; nlinarith
      have by0 : 0 ≤ iy := by by_contra h; nlinarith
      have bx : ix < l'.nx := by by_contra h; nlinarith
      have bz : iz < l'.nz := by by_contra h; nlinarith
      have by1 : iy < l'.ny := by by_contra h; nlinarith
      have hlt := idx_lt bx by1 bz (by omega) (by omega)
      refine ⟨ix + iz * l'.nx + iy * l'.nx * l'.nz, by positivity, ?_, ?_, by omega, ?_⟩
      · simp only [List.map_cons, List.sum_cons]
        unfold Layer.n at *; omega
      · simp only [mapIndex]
        rw [if_neg (by unfold Layer.n; omega), coordInLayer_of bx0 bx by0 bz0 bz]
        obtain ⟨x, y, z⟩ := c
        simp only at hix hiy hiz
        congr 2
        · rw [hix]; ring
        · have : y = l'.dh * iy + l'.start := by omega
          rw [this]; ring
        · rw [hiz]; ring
      · intro acc
        simp only [lookup]
        rw [if_pos ⟨he, hs⟩, if_neg (by omega), hix, hiz, hiy, Int.mul_tdiv_cancel_left _ (by omega),
          Int.mul_tdiv_cancel_left _ (by omega), Int.mul_tdiv_cancel_left _ (by omega)]
    · obtain ⟨i, h0, hlt, hm, hy, hlk⟩ := ih _ c hrest hx0 hxN hz0 hzN ⟨l', hmem, hs, he, dx, dz, dy⟩
      have hn := n_nonneg hl
      refine ⟨i + l.n, by omega, ?_, ?_, le_trans (le_max_left _ _) hy, ?_⟩
      · simp only [List.map_cons, List.sum_cons]; omega
      · simp only [mapIndex]
        rw [if_pos (by omega)]
        rw [show i + l.n - l.n = i by omega]; exact hm
      · intro acc
        have : l.stop + 1 ≤ c.y := le_trans (le_max_right _ _) hy
        simp only [lookup]
        rw [if_neg (by omega), hlk]; congr 1; ring

/-- A `Y` covered by no layer makes the lookup run off the layer list. -/
theorem lookup_gap {X Y Z : Int} (ls : List Layer)
    (h : ∀ l ∈ ls, ¬ (l.start ≤ Y ∧ Y ≤ l.stop)) : ∀ acc, lookup X Y Z ls acc = .ub := by
  induction ls with
  | nil => intro acc; rfl
  | cons l ls ih =>
    intro acc
    have := h l List.mem_cons_self
    simp only [lookup]
    rw [if_neg (by omega)]
    exact ih (fun l' hl' => h l' (List.mem_cons_of_mem _ hl')) _

end Verif.Grid
