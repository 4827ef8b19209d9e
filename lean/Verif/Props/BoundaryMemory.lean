import Verif.Model.BoundaryMemory
import Verif.Props.NodeWeights

/-!
# C149: estimate of the memory of absorbing boundaries
-/
namespace Verif.BMem
open Verif Verif.Grid Verif.Solver
open Verif.MatSetup (Kind)
open Verif.Boundary (AxisCoef CPMLPar cpml2D damping2D damping3D)

/-! ### What the boundaries store -/

/-- The processes own each grid point once. -/
def Distributes (g : Grid) (owned : List (List ℕ)) : Prop := owned.flatten.Perm (List.range g.n.toNat)

/-- A damping frame stores a value at each point that is damped. -/
noncomputable def dampedPoints (n : ℕ) (factor : ℕ → ℝ) : ℕ := by
  classical exact ((List.range n).filter fun i => decide (factor i ≠ 1)).length

/-- Values that a CPML stores for an axis: at each point with coefficients the four coefficients and a memory variable for
each derivative that the solver corrects. -/
noncomputable def axisValues {ι : Type} (p : List (Stmt ι)) (a : Axis) (k : AxisCoef) : ℕ :=
  if k.b = 0 then 0 else 4 + Part.corrections a p

/-- Values that a CPML stores in 2D. -/
noncomputable def values2D {ι : Type} (n : ℕ) (p : List (Stmt ι)) (kx ky : ℕ → AxisCoef) : ℕ :=
  ((List.range n).map fun i => axisValues p .x (kx i) + axisValues p .y (ky i)).sum

/-- Values that a CPML stores in 3D. -/
noncomputable def values3D {ι : Type} (n : ℕ) (p : List (Stmt ι)) (kx ky kz : ℕ → AxisCoef) : ℕ :=
  ((List.range n).map fun i => axisValues p .x (kx i) + axisValues p .y (ky i) + axisValues p .z (kz i)).sum

/-! ### Helper lemmas -/

private theorem counter_eq {count : ℕ → Out ℕ} {f : ℕ → ℕ} {n : ℕ} {owned : List (List ℕ)}
    (h : owned.flatten.Perm (List.range n)) (hc : ∀ i < n, count i = .ok (f i)) :
    counter count owned = .ok ((List.range n).map f).sum := by
  have h1 : ∀ l ∈ owned, (do let ns ← l.mapM count; pure ns.sum : Out ℕ) = .ok (l.map f).sum := by
    intro l hl
    have : l.mapM count = .ok (l.map f) := by
      rw [SU.mapM_eq_ok, List.map_map]
      apply List.map_congr_left
      intro i hi
      exact hc i (List.mem_range.mp (h.mem_iff.mp (List.mem_flatten.mpr ⟨l, hl, hi⟩)))
    simp [this]
  have h2 : (owned.mapM fun (l : List ℕ) => (do let ns ← l.mapM count; pure ns.sum : Out ℕ)) =
      .ok (owned.map fun l => (l.map f).sum) := by
    rw [SU.mapM_eq_ok, List.map_map]
    exact List.map_congr_left h1
  unfold counter
  rw [h2]
  simp only [Out.bind_ok, Out.pure_eq]
  congr 1
  rw [← (h.map f).sum_eq, List.map_flatten, List.sum_flatten, List.map_map]
  rfl

private theorem sum_ite {l : List ℕ} {P : ℕ → Prop} [DecidablePred P] :
    (l.map fun i => if P i then 1 else 0).sum = (l.filter fun i => decide (P i)).length := by
  induction l with
  | nil => rfl
  | cons a l ih =>
    by_cases h : P a <;> simp [h, ih]; omega

private theorem absCoeffAt_ne {W : Int} {D : ℝ} (h0 : 0 < D) (h1 : D < 100) {j : Int} {v : ℝ}
    (h : Boundary.absCoeffAt W D j = .ok v) : v ≠ 1 := by
  unfold Boundary.absCoeffAt at h
  split at h
  · rename_i hj
    cases h
    unfold Boundary.absCoeff
    have hl : Real.log (1 - D / 100) < 0 := Real.log_neg (by linarith) (by linarith)
    have hW : (0 : ℝ) < W := by exact_mod_cast (by omega : 0 < W)
    have hq : 0 < -Real.log (1 - D / 100) / ((W : ℝ) * W) := by
      apply div_pos (by linarith) (by positivity)
    have hs := Real.sqrt_pos.mpr hq
    have hd : (0 : ℝ) < ((W - j : Int) : ℝ) := by exact_mod_cast (by omega : 0 < W - j)
    dsimp only
    intro he
    rw [Real.exp_eq_one_iff] at he
    have : 0 < √(-Real.log (1 - D / 100) / ((W : ℝ) * W)) * √(-Real.log (1 - D / 100) / ((W : ℝ) * W)) *
      ((W - j : Int) : ℝ) * ((W - j : Int) : ℝ) := by positivity
    linarith
  · cases h

private theorem abs2D {g : Grid} {W fs : Int} {D : ℝ} (h0 : 0 < D) (h1 : D < 100) {i : ℕ} {c : Coord} {v : ℝ}
    (hc : index2coordinate g i = .ok c) (hv : damping2D g W D fs c = .ok v) [Decidable (v ≠ 1)] :
    absCount2D g W fs i = .ok (if v ≠ 1 then 1 else 0) := by
  unfold damping2D at hv
  unfold absCount2D
  rw [hc]
  cases he : edgeDistance g c with
  | err => rw [he] at hv; cases hv
  | ub => rw [he] at hv; cases hv
  | ok dist =>
  simp only [he, Out.bind_ok, Out.pure_eq] at hv ⊢
  split_ifs at hv ⊢ <;> first
    | rfl
    | (exfalso; have := absCoeffAt_ne h0 h1 hv; tauto)
    | (exfalso; cases hv; tauto)

private theorem abs3D {g : Grid} {W fs : Int} {D : ℝ} (h0 : 0 < D) (h1 : D < 100) {i : ℕ} {c : Coord} {v : ℝ}
    (hc : index2coordinate g i = .ok c) (hv : damping3D g W D fs c = .ok v) [Decidable (v ≠ 1)] :
    absCount3D g W fs i = .ok (if v ≠ 1 then 1 else 0) := by
  unfold damping3D at hv
  unfold absCount3D
  rw [hc]
  cases he : edgeDistance g c with
  | err => rw [he] at hv; cases hv
  | ub => rw [he] at hv; cases hv
  | ok dist =>
  simp only [he, Out.bind_ok, Out.pure_eq] at hv ⊢
  generalize Boundary.coordMin dist = m at hv ⊢
  split_ifs at hv ⊢ <;> first
    | rfl
    | (exfalso; have := absCoeffAt_ne h0 h1 hv; tauto)
    | (exfalso; cases hv; tauto)

/-- Axes of a point with coefficients. -/
private noncomputable def one (k : AxisCoef) : ℕ := if k.b = 0 then 0 else 1

private theorem count2D {g : Grid} {par : ℕ → CPMLPar} {W fs : Int} {i : ℕ} {c : Coord} {kx ky : AxisCoef}
    (hc : index2coordinate g i = .ok c) (h : cpml2D g par W fs c = .ok (kx, ky)) :
    cpmlCount false g W fs i = .ok (one kx + one ky) := by
  unfold Boundary.cpml2D at h
  unfold cpmlCount
  rw [hc]
  cases he : edgeDistance g c with
  | err => rw [he] at h; cases h
  | ub => rw [he] at h; cases h
  | ok dist =>
  cases hl : g.layers[getLayer g c.y]? with
  | none => simp [he, hl] at h
  | some l =>
  simp only [he, hl, Out.bind_ok] at h ⊢
  cases hx : Boundary.axisCoef (par (getLayer g c.y)) W l.dh c.x dist.x false with
  | err => simp [hx] at h
  | ub => simp [hx] at h
  | ok kx' =>
  cases hy : Boundary.axisCoef (par (getLayer g c.y)) W l.dh c.y dist.y (fs != 0) with
  | err => simp [hx, hy] at h
  | ub => simp [hx, hy] at h
  | ok ky' =>
  simp only [hx, hy, Out.bind_ok, Out.pure_eq] at h
  obtain ⟨rfl, rfl⟩ := Prod.mk.inj (Out.ok.inj h)
  have k1 := Part.axisCoef_pushed _ _ _ _ _ _ _ hx
  have k2 := Part.axisCoef_pushed _ _ _ _ _ _ _ hy
  simp only [Bool.false_eq_true, and_false, not_false_eq_true, and_true] at k1
  simp only [Out.pure_eq, Bool.false_eq_true, if_false, one]
  congr 1
  simp only [k1, k2, bne_iff_ne, ne_eq]
  split_ifs <;> first | rfl | (exfalso; tauto)

private theorem count3D {g : Grid} {par : ℕ → CPMLPar} {W fs : Int} {i : ℕ} {c : Coord} {kx ky kz : AxisCoef}
    (hc : index2coordinate g i = .ok c) (h : cpml3D g par W fs c = .ok (kx, ky, kz)) :
    cpmlCount true g W fs i = .ok (one kx + one ky + one kz) := by
  unfold cpml3D at h
  cases h2 : cpml2D g par W fs c with
  | err => rw [h2] at h; cases h
  | ub => rw [h2] at h; cases h
  | ok p =>
  obtain ⟨kx', ky'⟩ := p
  have hxy := count2D hc h2
  rw [h2] at h
  unfold cpmlCount at hxy ⊢
  rw [hc] at hxy ⊢
  cases he : edgeDistance g c with
  | err => rw [he] at h; cases h
  | ub => rw [he] at h; cases h
  | ok dist =>
  cases hl : g.layers[getLayer g c.y]? with
  | none => simp [he, hl] at h
  | some l =>
  simp only [he, hl, Out.bind_ok] at h hxy ⊢
  cases hz : Boundary.axisCoef (par (getLayer g c.y)) W l.dh c.z dist.z false with
  | err => simp [hz] at h
  | ub => simp [hz] at h
  | ok kz' =>
  simp only [hz, Out.bind_ok, Out.pure_eq] at h
  obtain ⟨rfl, h'⟩ := Prod.mk.inj (Out.ok.inj h)
  obtain ⟨rfl, rfl⟩ := Prod.mk.inj h'
  have k1 := Part.axisCoef_pushed _ _ _ _ _ _ _ hz
  simp only [Bool.false_eq_true, and_false, not_false_eq_true, and_true] at k1
  simp only [Out.pure_eq, Bool.false_eq_true, if_false, if_true] at hxy ⊢
  have := Out.ok.inj hxy
  congr 1
  rw [Nat.add_zero] at this
  rw [this]
  congr 1
  unfold one
  simp only [k1]
  split_ifs <;> rfl

private theorem sum_mul {l : List ℕ} {f h : ℕ → ℕ} {v : ℕ} (e : ∀ i, h i = f i * v) :
    (l.map h).sum = (l.map f).sum * v := by
  induction l with
  | nil => simp
  | cons a l ih => simp [ih, e, Nat.add_mul]

variable {ι : Type} [Fintype ι]

private theorem values2D_eq (k : Kind) (h3 : k.threeD = false) {D : Deriv ι}
    (hD : D.interFull = none ∧ D.interSX = none ∧ D.interSZ = none ∧ D.interSXZ = none) (m : Solver.Mod ι)
    (e : EMod ι) {b : BC ι} (hb : b.pml ≠ none) (n : ℕ) (kx ky : ℕ → AxisCoef) :
    values2D n (k.solver D m e b).prog kx ky =
      ((List.range n).map fun i => one (kx i) + one (ky i)).sum * (4 + (Part.counted k).2) := by
  have hn : ∀ a ∈ [Axis.x, .y], Part.corrections a (k.solver D m e b).prog = (Part.counted k).2 := by
    intro a ha
    exact Part.count_corrections k hD m e hb (by unfold Part.axes; rw [h3]; exact ha)
  unfold values2D
  apply sum_mul
  intro i
  unfold axisValues one
  rw [hn .x (by simp), hn .y (by simp)]
  split_ifs <;> ring

private theorem values3D_eq (k : Kind) (h3 : k.threeD = true) {D : Deriv ι}
    (hD : D.interFull = none ∧ D.interSX = none ∧ D.interSZ = none ∧ D.interSXZ = none) (m : Solver.Mod ι)
    (e : EMod ι) {b : BC ι} (hb : b.pml ≠ none) (n : ℕ) (kx ky kz : ℕ → AxisCoef) :
    values3D n (k.solver D m e b).prog kx ky kz =
      ((List.range n).map fun i => one (kx i) + one (ky i) + one (kz i)).sum * (4 + (Part.counted k).2) := by
  have hn : ∀ a ∈ [Axis.x, .y, .z], Part.corrections a (k.solver D m e b).prog = (Part.counted k).2 := by
    intro a ha
    exact Part.count_corrections k hD m e hb (by unfold Part.axes; rw [h3]; exact ha)
  unfold values3D
  apply sum_mul
  intro i
  unfold axisValues one
  rw [hn .x (by simp), hn .y (by simp), hn .z (by simp)]
  split_ifs <;> ring

private theorem counter2D (k : Kind) (h3 : k.threeD = false) {g : Grid} {W fs : Int} {par : ℕ → CPMLPar}
    {owned : List (List ℕ)} (ho : Distributes g owned) {kx ky : ℕ → AxisCoef}
    (hf : ∀ i < g.n.toNat, ∃ c, index2coordinate g i = .ok c ∧ cpml2D g par W fs c = .ok (kx i, ky i)) :
    counter (cpmlCount k.threeD g W fs) owned =
      .ok ((List.range g.n.toNat).map fun i => one (kx i) + one (ky i)).sum := by
  apply counter_eq ho
  intro i hi
  obtain ⟨c, hc, h⟩ := hf i hi
  rw [h3]
  exact count2D hc h

private theorem counter3D (k : Kind) (h3 : k.threeD = true) {g : Grid} {W fs : Int} {par : ℕ → CPMLPar}
    {owned : List (List ℕ)} (ho : Distributes g owned) {kx ky kz : ℕ → AxisCoef}
    (hf : ∀ i < g.n.toNat, ∃ c, index2coordinate g i = .ok c ∧ cpml3D g par W fs c = .ok (kx i, ky i, kz i)) :
    counter (cpmlCount k.threeD g W fs) owned =
      .ok ((List.range g.n.toNat).map fun i => one (kx i) + one (ky i) + one (kz i)).sum := by
  apply counter_eq ho
  intro i hi
  obtain ⟨c, hc, h⟩ := hf i hi
  rw [h3]
  exact count3D hc h

private theorem estimate_bounds {k : Kind} {g : Grid} {size : ℕ} {W fs : Int} {owned : List (List ℕ)} {S V : ℕ}
    (hc : counter (cpmlCount k.threeD g W fs) owned = .ok S) (hV : V = S * numVectorsPerDim k) :
    ∃ v : ℕ, estimate k size 2 W fs g owned = .ok v ∧ v * 2 ^ 20 ≤ V * size ∧ V * size < (v + 1) * 2 ^ 20 := by
  refine ⟨S * size * numVectorsPerDim k / (1024 * 1024), ?_, ?_⟩
  · unfold estimate
    rw [if_neg (by decide), if_pos rfl, hc]
    rfl
  · have : V * size = S * size * numVectorsPerDim k := by rw [hV]; ring
    rw [this]
    generalize S * size * numVectorsPerDim k = T
    omega

/-! ### Theorems -/

/-- Damping frame: on any grid and for any distribution of the points, the estimate is the size of the damping factors
that differ from one in units of 2^20 bytes, without rounding. -/
theorem C149_damping (k : Kind) (g : Grid) (size : ℕ) (W fs : Int) (D : ℝ) (h0 : 0 < D) (h1 : D < 100)
    (owned : List (List ℕ)) (ho : Distributes g owned) (factor : ℕ → ℝ)
    (hf : ∀ i < g.n.toNat, ∃ c, index2coordinate g i = .ok c ∧
      (if k.threeD then damping3D g W D fs c else damping2D g W D fs c) = .ok (factor i)) :
    estimate k size 1 W fs g owned = .ok ((dampedPoints g.n.toNat factor * size : ℕ) / 2 ^ 20) := by
  classical
  have key : counter (if k.threeD then absCount3D g W fs else absCount2D g W fs) owned =
      .ok ((List.range g.n.toNat).map fun i => if factor i ≠ 1 then 1 else 0).sum := by
    apply counter_eq ho
    intro i hi
    obtain ⟨c, hc, hv⟩ := hf i hi
    by_cases hk : k.threeD = true
    · simp only [hk, if_true] at hv ⊢
      exact abs3D h0 h1 hc hv
    · simp only [hk] at hv ⊢
      exact abs2D h0 h1 hc hv
  unfold estimate
  rw [if_pos rfl, key, sum_ite]
  simp only [Out.bind_ok, Out.pure_eq, dampedPoints]
  norm_num

/-- CPML in 2D: for the acoustic and the (visco)elastic equations the estimate is the size of all values that the CPML
stores, in whole units of 2^20 bytes, rounded down. Missing: the positions of the values in the sparse vectors are not
counted, the rest of the unit is dropped, and the other equations (`C149_unused_violated`). -/
theorem C149_cpml2D_partial (k : Kind) (hk : k ∈ [Kind.acoustic2D, .elastic2D, .viscoelastic2D])
    {D : Deriv ι} (hD : D.interFull = none ∧ D.interSX = none ∧ D.interSZ = none ∧ D.interSXZ = none) (m : Solver.Mod ι)
    (e : EMod ι) (b : BC ι) (hb : b.pml ≠ none)
    (g : Grid) (size : ℕ) (W fs : Int) (par : ℕ → CPMLPar) (owned : List (List ℕ)) (ho : Distributes g owned)
    (kx ky : ℕ → AxisCoef)
    (hf : ∀ i < g.n.toNat, ∃ c, index2coordinate g i = .ok c ∧ cpml2D g par W fs c = .ok (kx i, ky i)) :
    ∃ v : ℕ, estimate k size 2 W fs g owned = .ok v ∧
      v * 2 ^ 20 ≤ values2D g.n.toNat (k.solver D m e b).prog kx ky * size ∧
      values2D g.n.toNat (k.solver D m e b).prog kx ky * size < (v + 1) * 2 ^ 20 := by
  have h3 : k.threeD = false := by revert hk; cases k <;> simp [Kind.threeD]
  have hn : 4 + (Part.counted k).2 = numVectorsPerDim k := by
    revert hk; cases k <;> simp [numVectorsPerDim, Part.counted]
  have hv := values2D_eq k h3 hD m e hb g.n.toNat kx ky
  rw [hn] at hv
  exact estimate_bounds (counter2D k h3 ho hf) hv

/-- CPML in 3D, as `C149_cpml2D_partial`. -/
theorem C149_cpml3D_partial (k : Kind) (hk : k ∈ [Kind.acoustic3D, .elastic3D, .viscoelastic3D])
    {D : Deriv ι} (hD : D.interFull = none ∧ D.interSX = none ∧ D.interSZ = none ∧ D.interSXZ = none) (m : Solver.Mod ι)
    (e : EMod ι) (b : BC ι) (hb : b.pml ≠ none)
    (g : Grid) (size : ℕ) (W fs : Int) (par : ℕ → CPMLPar) (owned : List (List ℕ)) (ho : Distributes g owned)
    (kx ky kz : ℕ → AxisCoef)
    (hf : ∀ i < g.n.toNat, ∃ c, index2coordinate g i = .ok c ∧ cpml3D g par W fs c = .ok (kx i, ky i, kz i)) :
    ∃ v : ℕ, estimate k size 2 W fs g owned = .ok v ∧
      v * 2 ^ 20 ≤ values3D g.n.toNat (k.solver D m e b).prog kx ky kz * size ∧
      values3D g.n.toNat (k.solver D m e b).prog kx ky kz * size < (v + 1) * 2 ^ 20 := by
  have h3 : k.threeD = true := by revert hk; cases k <;> simp [Kind.threeD]
  have hn : 4 + (Part.counted k).2 = numVectorsPerDim k := by
    revert hk; cases k <;> simp [numVectorsPerDim, Part.counted]
  have hv := values3D_eq k h3 hD m e hb g.n.toNat kx ky kz
  rw [hn] at hv
  exact estimate_bounds (counter3D k h3 ho hf) hv

/-- C149 fails in 2D for the SH and the electromagnetic equations: two of the eight values counted per point and axis are
never stored. When the values take 3 units of memory or more, the estimate is larger than what is stored. -/
theorem C149_unused_violated (k : Kind)
    (hk : k ∈ [Kind.sh2D, .viscosh2D, .tmem2D, .emem2D, .viscotmem2D, .viscoemem2D])
    {D : Deriv ι} (hD : D.interFull = none ∧ D.interSX = none ∧ D.interSZ = none ∧ D.interSXZ = none) (m : Solver.Mod ι)
    (e : EMod ι) (b : BC ι) (hb : b.pml ≠ none)
    (g : Grid) (size : ℕ) (W fs : Int) (par : ℕ → CPMLPar) (owned : List (List ℕ)) (ho : Distributes g owned)
    (kx ky : ℕ → AxisCoef)
    (hf : ∀ i < g.n.toNat, ∃ c, index2coordinate g i = .ok c ∧ cpml2D g par W fs c = .ok (kx i, ky i))
    (hl : 3 * 2 ^ 20 ≤ values2D g.n.toNat (k.solver D m e b).prog kx ky * size) :
    ∃ v : ℕ, estimate k size 2 W fs g owned = .ok v ∧
      values2D g.n.toNat (k.solver D m e b).prog kx ky * size < v * 2 ^ 20 := by
  have h3 : k.threeD = false := by revert hk; cases k <;> simp [Kind.threeD]
  have hn : numVectorsPerDim k = 8 ∧ (Part.counted k).2 = 2 := by
    revert hk; cases k <;> simp [numVectorsPerDim, Part.counted]
  have hv := values2D_eq k h3 hD m e hb g.n.toNat kx ky
  rw [hn.2] at hv
  obtain ⟨v, h1, -, h2⟩ := estimate_bounds (size := size) (counter2D k h3 ho hf) rfl
  refine ⟨v, h1, ?_⟩
  rw [hn.1] at h2
  rw [hv] at hl ⊢
  generalize ((List.range g.n.toNat).map fun i => one (kx i) + one (ky i)).sum = S at h2 hl ⊢
  have e1 : S * 8 * size = 8 * (S * size) := by ring
  have e2 : S * (4 + 2) * size = 6 * (S * size) := by ring
  rw [e1] at h2
  rw [e2] at hl ⊢
  omega

/-- The same in 3D: two of the ten values are never stored. -/
theorem C149_unused3D_violated (k : Kind) (hk : k ∈ [Kind.emem3D, .viscoemem3D])
    {D : Deriv ι} (hD : D.interFull = none ∧ D.interSX = none ∧ D.interSZ = none ∧ D.interSXZ = none) (m : Solver.Mod ι)
    (e : EMod ι) (b : BC ι) (hb : b.pml ≠ none)
    (g : Grid) (size : ℕ) (W fs : Int) (par : ℕ → CPMLPar) (owned : List (List ℕ)) (ho : Distributes g owned)
    (kx ky kz : ℕ → AxisCoef)
    (hf : ∀ i < g.n.toNat, ∃ c, index2coordinate g i = .ok c ∧ cpml3D g par W fs c = .ok (kx i, ky i, kz i))
    (hl : 4 * 2 ^ 20 ≤ values3D g.n.toNat (k.solver D m e b).prog kx ky kz * size) :
    ∃ v : ℕ, estimate k size 2 W fs g owned = .ok v ∧
      values3D g.n.toNat (k.solver D m e b).prog kx ky kz * size < v * 2 ^ 20 := by
  have h3 : k.threeD = true := by revert hk; cases k <;> simp [Kind.threeD]
  have hn : numVectorsPerDim k = 10 ∧ (Part.counted k).2 = 4 := by
    revert hk; cases k <;> simp [numVectorsPerDim, Part.counted]
  have hv := values3D_eq k h3 hD m e hb g.n.toNat kx ky kz
  rw [hn.2] at hv
  obtain ⟨v, h1, -, h2⟩ := estimate_bounds (size := size) (counter3D k h3 ho hf) rfl
  refine ⟨v, h1, ?_⟩
  rw [hn.1] at h2
  rw [hv] at hl ⊢
  generalize ((List.range g.n.toNat).map fun i => one (kx i) + one (ky i) + one (kz i)).sum = S at h2 hl ⊢
  have e1 : S * 10 * size = 10 * (S * size) := by ring
  have e2 : S * (4 + 4) * size = 8 * (S * size) := by ring
  rw [e1] at h2
  rw [e2] at hl ⊢
  omega

/-- C149 fails for small models: a CPML that stores less than a unit of 2^20 bytes is estimated at zero. -/
theorem C149_small_violated (k : Kind) (hk : k ∈ [Kind.acoustic2D, .elastic2D, .viscoelastic2D])
    {D : Deriv ι} (hD : D.interFull = none ∧ D.interSX = none ∧ D.interSZ = none ∧ D.interSXZ = none) (m : Solver.Mod ι)
    (e : EMod ι) (b : BC ι) (hb : b.pml ≠ none)
    (g : Grid) (size : ℕ) (W fs : Int) (par : ℕ → CPMLPar) (owned : List (List ℕ)) (ho : Distributes g owned)
    (kx ky : ℕ → AxisCoef)
    (hf : ∀ i < g.n.toNat, ∃ c, index2coordinate g i = .ok c ∧ cpml2D g par W fs c = .ok (kx i, ky i))
    (hl : values2D g.n.toNat (k.solver D m e b).prog kx ky * size < 2 ^ 20) :
    estimate k size 2 W fs g owned = .ok 0 := by
  obtain ⟨v, h1, h2, -⟩ := C149_cpml2D_partial k hk hD m e b hb g size W fs par owned ho kx ky hf
  have : v = 0 := by omega
  rw [h1, this]
  rfl

/-- Without an absorbing frame (`DampingBoundary` neither 1 nor 2) no memory is estimated. -/
theorem C149_no_boundary (k : Kind) (g : Grid) (size : ℕ) {db : Int} (h1 : db ≠ 1) (h2 : db ≠ 2) (W fs : Int)
    (owned : List (List ℕ)) : estimate k size db W fs g owned = .ok 0 := by
  unfold estimate
  rw [if_neg h1, if_neg h2]
  rfl

/-! ### The hypotheses hold on regular grids -/

private theorem axisCoef_ok (q : CPMLPar) (W x N : Int) (hx : 0 ≤ x) (hN : x < N) (skip : Bool) :
    ∃ k, Boundary.axisCoef q W 1 x (if ¬ (N - 1 - x < x) then x else N - 1 - x) skip = .ok k := by
  have h0 : 0 ≤ if ¬ (N - 1 - x < x) then x else N - 1 - x := by split <;> omega
  generalize (if ¬ (N - 1 - x < x) then x else N - 1 - x) = t at h0 ⊢
  unfold Boundary.axisCoef
  dsimp only
  rw [Int.tdiv_one, Int.tdiv_one]
  split_ifs
  · omega
  all_goals exact ⟨_, rfl⟩

/-- On a regular grid each point has coefficients. -/
theorem coefficients_regular {NX NY NZ : Int} {g : Grid} (hg : initRegular NX NY NZ = .ok g) (par : ℕ → CPMLPar)
    (W fs : Int) : ∃ kx ky kz : ℕ → AxisCoef, ∀ i < g.n.toNat, ∃ c, index2coordinate g i = .ok c ∧
      cpml2D g par W fs c = .ok (kx i, ky i) ∧ cpml3D g par W fs c = .ok (kx i, ky i, kz i) := by
  have hn : g.n = NX * NY * NZ := by
    have hpos : 0 < NX ∧ 0 < NY ∧ 0 < NZ := by
      unfold initRegular at hg
      split at hg
      · assumption
      · cases hg
    exact (Part.layer_regular hg (c := ⟨0, 0, 0⟩) ⟨le_rfl, hpos.1, le_rfl, hpos.2.1, le_rfl, hpos.2.2⟩).2.2.2.1
  have : ∀ i : ℕ, ∃ kx ky kz : AxisCoef, i < g.n.toNat → ∃ c, index2coordinate g i = .ok c ∧
      cpml2D g par W fs c = .ok (kx, ky) ∧ cpml3D g par W fs c = .ok (kx, ky, kz) := by
    intro i
    by_cases hi : i < g.n.toNat
    · obtain ⟨c, h1, h2, -, -⟩ := C01_index_roundtrip hg (i := i) (by omega) (by omega)
      obtain ⟨e1, e2, e3, -, -, l, hl, hd⟩ := Part.layer_regular hg h2
      obtain ⟨a0, a1, b0, b1, c0, c1⟩ := h2
      obtain ⟨kx, hx⟩ := axisCoef_ok (par (getLayer g c.y)) W c.x NX a0 a1 false
      obtain ⟨ky, hy⟩ := axisCoef_ok (par (getLayer g c.y)) W c.y NY b0 b1 (fs != 0)
      obtain ⟨kz, hz⟩ := axisCoef_ok (par (getLayer g c.y)) W c.z NZ c0 c1 false
      have hr : inRange g c = true := by simp [inRange, e1, e2, e3]; omega
      have h2D : cpml2D g par W fs c = .ok (kx, ky) := by
        unfold cpml2D edgeDistance
        rw [if_pos hr, e1, e2, e3]
        simp only [Out.bind_ok, hl, hd, hx, hy, Out.pure_eq]
      refine ⟨kx, ky, kz, fun _ => ⟨c, h1, h2D, ?_⟩⟩
      unfold cpml3D edgeDistance
      rw [h2D, if_pos hr, e1, e2, e3]
      simp only [Out.bind_ok, hl, hd, hz, Out.pure_eq]
    · exact ⟨.none, .none, .none, fun h => absurd h hi⟩
  choose kx ky kz h using this
  exact ⟨kx, ky, kz, h⟩

/-- 2D elastic, 30 x 20 points owned by two processes, frame of 10 points: the estimate is zero. -/
example (D : Deriv ι) (hD : D.interFull = none ∧ D.interSX = none ∧ D.interSZ = none ∧ D.interSXZ = none)
    (m : Solver.Mod ι) (e : EMod ι) (b : BC ι) (hb : b.pml ≠ none) (par : ℕ → CPMLPar) :
    ∃ g, initRegular 30 20 1 = .ok g ∧
      estimate .elastic2D 4 2 10 0 g [List.range' 300 300, List.range 300] = .ok 0 := by
  obtain ⟨g, hg, hn⟩ := (C01_constructor_total 30 20 1).mpr ⟨by norm_num, by norm_num, by norm_num⟩
  obtain ⟨kx, ky, kz, h⟩ := coefficients_regular hg par 10 0
  have hn' : g.n.toNat = 600 := by rw [hn]; rfl
  refine ⟨g, hg, C149_small_violated .elastic2D (by simp) hD m e b hb g 4 10 0 par _ ?_ kx ky
    (fun i hi => (h i hi).imp fun c h => ⟨h.1, h.2.1⟩) ?_⟩
  · unfold Distributes
    rw [hn']
    show (List.range' 300 300 ++ (List.range 300 ++ [])).Perm _
    rw [List.append_nil]
    refine List.perm_append_comm.trans ?_
    rw [List.range_eq_range', List.range_eq_range']
    have := List.range'_append (s := 0) (m := 300) (n := 300) (step := 1)
    simp only [Nat.zero_add, Nat.one_mul] at this
    rw [this]
  · rw [values2D_eq _ rfl hD m e hb, hn']
    have : ((List.range 600).map fun i => one (kx i) + one (ky i)).sum ≤ 600 * 2 := by
      have := List.sum_le_card_nsmul ((List.range 600).map fun i => one (kx i) + one (ky i)) 2 (by
        intro x hx
        obtain ⟨i, -, rfl⟩ := List.mem_map.mp hx
        unfold one
        split_ifs <;> omega)
      simpa using this
    simp only [Part.counted]
    omega

end Verif.BMem
