import Verif.Model.Boundary
import Mathlib.Tactic.Ring
import Mathlib.Tactic.Linarith
import Mathlib.Tactic.Positivity
import Mathlib.Tactic.FieldSimp
import Mathlib.Tactic.NormNum
/-!
# Properties of the absorbing boundaries (C30, C31, C66)
-/
namespace Verif.Boundary
open Verif.Grid

/-! ### C30: the damping frame -/

private noncomputable def prof (W : Int) (D : ℝ) (j : Int) : ℝ :=
  if j < W then absCoeff W D j else 1

private theorem log_amp {D : ℝ} (h0 : 0 ≤ D) (h1 : D < 100) : Real.log (1 - D / 100) ≤ 0 :=
  Real.log_nonpos (by linarith) (by linarith)

private theorem absCoeff_eq {W : Int} {D : ℝ} {j : Int} (h0 : 0 ≤ D) (h1 : D < 100) :
    absCoeff W D j =
      Real.exp (Real.log (1 - D / 100) / ((W : ℝ) * W) * ((W - j : Int) : ℝ) ^ 2) := by
  have hq : 0 ≤ -Real.log (1 - D / 100) / ((W : ℝ) * W) :=
    div_nonneg (by linarith [log_amp h0 h1]) (mul_self_nonneg _)
  simp only [absCoeff]
  rw [Real.mul_self_sqrt hq]
  congr 1
  ring

private theorem absCoeff_pos {W : Int} {D : ℝ} {j : Int} : 0 < absCoeff W D j := Real.exp_pos _

private theorem absCoeff_le_one {W : Int} {D : ℝ} {j : Int} (h0 : 0 ≤ D) (h1 : D < 100) :
    absCoeff W D j ≤ 1 := by
  rw [absCoeff_eq h0 h1, Real.exp_le_one_iff]
  exact mul_nonpos_of_nonpos_of_nonneg
    (div_nonpos_of_nonpos_of_nonneg (log_amp h0 h1) (mul_self_nonneg _)) (sq_nonneg _)

private theorem absCoeff_mono {W : Int} {D : ℝ} {i j : Int} (h0 : 0 ≤ D) (h1 : D < 100)
    (hij : i ≤ j) (hj : j ≤ W) : absCoeff W D i ≤ absCoeff W D j := by
  rw [absCoeff_eq h0 h1, absCoeff_eq h0 h1, Real.exp_le_exp]
  apply mul_le_mul_of_nonpos_left
  · apply pow_le_pow_left₀
    · exact_mod_cast (by omega : (0 : Int) ≤ W - j)
    · exact_mod_cast (by omega : W - j ≤ W - i)
  · exact div_nonpos_of_nonpos_of_nonneg (log_amp h0 h1) (mul_self_nonneg _)

private theorem prof_pos {W : Int} {D : ℝ} {j : Int} : 0 < prof W D j := by
  unfold prof; split
  · exact absCoeff_pos
  · exact one_pos

private theorem prof_le_one {W : Int} {D : ℝ} {j : Int} (h0 : 0 ≤ D) (h1 : D < 100) :
    prof W D j ≤ 1 := by
  unfold prof; split
  · exact absCoeff_le_one h0 h1
  · exact le_refl _

private theorem prof_mono {W : Int} {D : ℝ} {i j : Int} (h0 : 0 ≤ D) (h1 : D < 100)
    (hij : i ≤ j) : prof W D i ≤ prof W D j := by
  unfold prof
  by_cases hj : j < W
  · rw [if_pos hj, if_pos (by omega)]
    exact absCoeff_mono h0 h1 hij (by omega)
  · rw [if_neg hj]
    exact prof_le_one (j := i) h0 h1

private theorem prof_zero {W : Int} {D : ℝ} (h0 : 0 ≤ D) (h1 : D < 100) (hW : 0 < W) :
    prof W D 0 = 1 - D / 100 := by
  have hW' : (W : ℝ) ≠ 0 := by exact_mod_cast hW.ne'
  rw [prof, if_pos hW, absCoeff_eq h0 h1]
  have : Real.log (1 - D / 100) / ((W : ℝ) * W) * ((W - 0 : Int) : ℝ) ^ 2
      = Real.log (1 - D / 100) := by
    push_cast
    field_simp
    ring
  rw [this, Real.exp_log (by linarith)]

private def eff2 (g : Grid) (W fs : Int) (c : Coord) : Int :=
  if fs ≠ 0 ∧ c.y < W then min c.x (g.NX - 1 - c.x)
  else min (min c.x (g.NX - 1 - c.x)) (min c.y (g.NY - 1 - c.y))

private def eff3 (g : Grid) (W fs : Int) (c : Coord) : Int :=
  if fs ≠ 0 ∧ c.y < W then min (min c.x (g.NX - 1 - c.x)) (min c.z (g.NZ - 1 - c.z))
  else min (min (min c.x (g.NX - 1 - c.x)) (min c.y (g.NY - 1 - c.y)))
    (min c.z (g.NZ - 1 - c.z))

private theorem at_prof {W : Int} {D : ℝ} {i j : Int} (hi : 0 ≤ i) (hij : j = i) (h : j < W) :
    absCoeffAt W D j = .ok (prof W D i) := by
  subst hij; simp [absCoeffAt, prof, hi, h]

private theorem one_prof {W : Int} {D : ℝ} {i : Int} (h : W ≤ i) :
    (pure 1 : Out ℝ) = .ok (prof W D i) := by
  simp [prof, not_lt.2 h, Out.pure_eq]

private theorem damping2D_eq {g : Grid} {W fs : Int} {D : ℝ} {c : Coord} (hc : inRange g c) :
    damping2D g W D fs c = .ok (prof W D (eff2 g W fs c)) := by
  have hr := hc
  simp only [inRange, Bool.and_eq_true, decide_eq_true_eq, ge_iff_le] at hr
  simp only [damping2D, edgeDistance, hc, if_true, Out.bind_ok]
  generalize hex : (if ¬ (g.NX - 1 - c.x < c.x) then c.x else g.NX - 1 - c.x) = ex
  generalize hey : (if ¬ (g.NY - 1 - c.y < c.y) then c.y else g.NY - 1 - c.y) = ey
  have hx : ex = min c.x (g.NX - 1 - c.x) := by omega
  have hy : ey = min c.y (g.NY - 1 - c.y) := by omega
  have key : ∀ i j : Int, 0 ≤ i → j = i →
      (if j < W then absCoeffAt W D j else pure 1) = .ok (prof W D i) := by
    intro i j hi hij
    split
    · exact at_prof hi hij ‹_›
    · exact one_prof (by omega)
  split
  · apply key <;> simp only [eff2, *] <;> split <;> omega
  · split
    · apply key <;> simp only [eff2] <;> split <;> omega
    · apply key <;> simp only [eff2] <;> split <;> omega

private theorem damping3D_eq {g : Grid} {W fs : Int} {D : ℝ} {c : Coord} (hc : inRange g c) :
    damping3D g W D fs c = .ok (prof W D (eff3 g W fs c)) := by
  have hr := hc
  simp only [inRange, Bool.and_eq_true, decide_eq_true_eq, ge_iff_le] at hr
  simp only [damping3D, edgeDistance, hc, if_true, Out.bind_ok]
  generalize hex : (if ¬ (g.NX - 1 - c.x < c.x) then c.x else g.NX - 1 - c.x) = ex
  generalize hey : (if ¬ (g.NY - 1 - c.y < c.y) then c.y else g.NY - 1 - c.y) = ey
  generalize hez : (if ¬ (g.NZ - 1 - c.z < c.z) then c.z else g.NZ - 1 - c.z) = ez
  have hx : ex = min c.x (g.NX - 1 - c.x) := by omega
  have hy : ey = min c.y (g.NY - 1 - c.y) := by omega
  have hz : ez = min c.z (g.NZ - 1 - c.z) := by omega
  have key : ∀ i j : Int, 0 ≤ i → j = i →
      (if j < W then absCoeffAt W D j else pure 1) = .ok (prof W D i) := by
    intro i j hi hij
    split
    · exact at_prof hi hij ‹_›
    · exact one_prof (by omega)
  split
  · apply key <;> simp only [eff3, coordMin] <;> (repeat' split) <;> omega
  · split
    · split
      · exact at_prof (by simp only [eff3]; split <;> omega)
          (by simp only [eff3]; (repeat' split) <;> omega) (by split <;> omega)
      · exact one_prof (by simp only [eff3]; split <;> omega)
    · apply key <;> simp only [eff3, coordMin] <;> (repeat' split) <;> omega

/-- The damping factor of every grid point is defined, positive and at most one, in two and three
dimensions, with and without free surface. -/
theorem C30_range (g : Grid) (W fs : Int) (D : ℝ) (c : Coord) (hD : 0 ≤ D) (hD' : D < 100)
    (hc : inRange g c) :
    (∃ f, damping2D g W D fs c = .ok f ∧ 0 < f ∧ f ≤ 1) ∧
    (∃ f, damping3D g W D fs c = .ok f ∧ 0 < f ∧ f ≤ 1) :=
  ⟨⟨_, damping2D_eq hc, prof_pos, prof_le_one hD hD'⟩,
   ⟨_, damping3D_eq hc, prof_pos, prof_le_one hD hD'⟩⟩

/-- Damping never amplifies: a damped value is not larger in magnitude, and keeps its sign. -/
theorem C30_contracts (g : Grid) (W fs : Int) (D v f : ℝ) (c : Coord) (hD : 0 ≤ D)
    (hD' : D < 100) (hf : damping2D g W D fs c = .ok f ∨ damping3D g W D fs c = .ok f) :
    |f * v| ≤ |v| ∧ (0 ≤ v ↔ 0 ≤ f * v) := by
  have hc : inRange g c = true := by
    by_contra h
    rcases hf with hf | hf
    · simp [damping2D, edgeDistance, h, Out.bind_err] at hf
    · simp [damping3D, edgeDistance, h, Out.bind_err] at hf
  have hf' : 0 < f ∧ f ≤ 1 := by
    obtain ⟨⟨f2, e2, p2⟩, ⟨f3, e3, p3⟩⟩ := C30_range g W fs D c hD hD' hc
    rcases hf with hf | hf
    · rw [e2] at hf; exact Out.ok.inj hf ▸ p2
    · rw [e3] at hf; exact Out.ok.inj hf ▸ p3
  constructor
  · rw [abs_mul, abs_of_pos hf'.1]
    exact mul_le_of_le_one_left (abs_nonneg v) hf'.2
  · exact (mul_nonneg_iff_of_pos_left hf'.1).symm

/-- At least `W` points away from the damped edges nothing is damped; with a free surface the top
is not a damped edge. -/
theorem C30_interior (g : Grid) (W fs : Int) (D : ℝ) (c : Coord) (hc : inRange g c)
    (hx : W ≤ c.x) (hx' : c.x + W < g.NX) (hy : c.y + W < g.NY) (hy' : fs ≠ 0 ∨ W ≤ c.y) :
    damping2D g W D fs c = .ok 1 ∧
    (W ≤ c.z → c.z + W < g.NZ → damping3D g W D fs c = .ok 1) := by
  constructor
  · rw [damping2D_eq hc, prof, if_neg]
    simp only [eff2]; split <;> omega
  · intro hz hz'
    rw [damping3D_eq hc, prof, if_neg]
    simp only [eff3]; split <;> omega

/-- On a damped edge the factor is `1 - D/100`. -/
theorem C30_edge (g : Grid) (W fs : Int) (D : ℝ) (c : Coord) (hD : 0 ≤ D) (hD' : D < 100)
    (hW : 0 < W) (hc : inRange g c)
    (he : c.x = 0 ∨ c.x = g.NX - 1 ∨ (c.y = g.NY - 1 ∧ (fs = 0 ∨ W < g.NY)) ∨
      (c.y = 0 ∧ fs = 0)) :
    damping2D g W D fs c = .ok (1 - D / 100) ∧ damping3D g W D fs c = .ok (1 - D / 100) := by
  have hr := hc
  simp only [inRange, Bool.and_eq_true, decide_eq_true_eq, ge_iff_le] at hr
  have h2 : eff2 g W fs c = 0 := by simp only [eff2]; split <;> omega
  have h3 : eff3 g W fs c = 0 := by simp only [eff3]; split <;> omega
  rw [damping2D_eq hc, damping3D_eq hc, h2, h3, prof_zero hD hD' hW]
  exact ⟨rfl, rfl⟩

/-- The factor does not increase towards a damped edge, without free surface. -/
theorem C30_monotone (g : Grid) (W : Int) (D : ℝ) (c c' : Coord) (hD : 0 ≤ D) (hD' : D < 100)
    (hc : inRange g c) (hc' : inRange g c')
    (hx : min c.x (g.NX - 1 - c.x) ≤ min c'.x (g.NX - 1 - c'.x))
    (hy : min c.y (g.NY - 1 - c.y) ≤ min c'.y (g.NY - 1 - c'.y)) :
    (∃ f f', damping2D g W D 0 c = .ok f ∧ damping2D g W D 0 c' = .ok f' ∧ f ≤ f') ∧
    (min c.z (g.NZ - 1 - c.z) ≤ min c'.z (g.NZ - 1 - c'.z) →
      ∃ f f', damping3D g W D 0 c = .ok f ∧ damping3D g W D 0 c' = .ok f' ∧ f ≤ f') := by
  refine ⟨⟨_, _, damping2D_eq hc, damping2D_eq hc', prof_mono hD hD' ?_⟩, fun hz =>
    ⟨_, _, damping3D_eq hc, damping3D_eq hc', prof_mono hD hD' ?_⟩⟩
  · simp only [eff2]; (repeat' split) <;> omega
  · simp only [eff3]; (repeat' split) <;> omega

/-- With a free surface the factor does not increase towards the sides and the bottom. -/
theorem C30_monotone_free_surface (g : Grid) (W fs : Int) (D : ℝ) (c c' : Coord) (hD : 0 ≤ D)
    (hD' : D < 100) (hfs : fs ≠ 0) (hc : inRange g c) (hc' : inRange g c')
    (hx : min c.x (g.NX - 1 - c.x) ≤ min c'.x (g.NX - 1 - c'.x)) (hy : c'.y ≤ c.y) :
    (∃ f f', damping2D g W D fs c = .ok f ∧ damping2D g W D fs c' = .ok f' ∧ f ≤ f') ∧
    (min c.z (g.NZ - 1 - c.z) ≤ min c'.z (g.NZ - 1 - c'.z) →
      ∃ f f', damping3D g W D fs c = .ok f ∧ damping3D g W D fs c' = .ok f' ∧ f ≤ f') := by
  have mono2 : ∀ i j : Int, (j < W → i ≤ j) → prof W D i ≤ prof W D j := by
    intro i j h
    by_cases hj : j < W
    · exact prof_mono hD hD' (h hj)
    · rw [show prof W D j = 1 by rw [prof, if_neg hj]]
      exact prof_le_one hD hD'
  refine ⟨⟨_, _, damping2D_eq hc, damping2D_eq hc', mono2 _ _ ?_⟩, fun hz =>
    ⟨_, _, damping3D_eq hc, damping3D_eq hc', mono2 _ _ ?_⟩⟩
  · simp only [eff2]; (repeat' split) <;> omega
  · simp only [eff3]; (repeat' split) <;> omega

/-- A 2D grid of 10 x 8 points with a boundary of 3 points: hypotheses of the C30 theorems hold
for a corner point and an interior point. -/
example : ∃ g : Grid, g.NX = 10 ∧ g.NY = 8 ∧ inRange g ⟨0, 0, 0⟩ ∧ inRange g ⟨4, 4, 0⟩ ∧
    (3 : Int) ≤ 4 ∧ (4 : Int) + 3 < g.NX ∧ (4 : Int) + 3 < g.NY :=
  ⟨{ NX := 10, NY := 8, NZ := 1, layers := [], interfaces := [] }, by decide⟩

/-- With a free surface on a grid no higher than the boundary, the bottom edge is not damped
(excluded from `C30_edge` by `W < NY`). -/
example : ∃ g : Grid, g.NX = 10 ∧ g.NY = 3 ∧ inRange g ⟨4, 2, 0⟩ ∧
    damping2D g 3 8 1 ⟨4, 2, 0⟩ = .ok 1 := by
  refine ⟨{ NX := 10, NY := 3, NZ := 1, layers := [], interfaces := [] }, rfl, rfl, rfl, ?_⟩
  rw [damping2D_eq rfl]
  simp [eff2, prof]

/-! ### C31: CPML coefficients and memory -/

/-- Admissible CPML parameters. -/
def CPMLPar.Admissible (q : CPMLPar) : Prop :=
  -1 < q.NPower ∧ 0 ≤ q.fc ∧ 0 < q.vmax ∧ 0 < q.DT ∧ 0 < q.DH

private theorem log_rcoef : Real.log 0.0008 < 0 := Real.log_neg (by norm_num) (by norm_num)

private theorem pos_pos {W i : Nat} (hi : i < W) (s : Bool) :
    0 < ((W : ℝ) - i - (if s then 0.5 else 0)) / W := by
  have hW : (0 : ℝ) < W := by exact_mod_cast (by omega : 0 < W)
  have h : (i : ℝ) + 1 ≤ W := by exact_mod_cast hi
  apply div_pos _ hW
  split <;> norm_num <;> linarith

private theorem pos_le {W i : Nat} (hi : i < W) (s : Bool) :
    ((W : ℝ) - i - (if s then 0.5 else 0)) / W ≤ 1 := by
  have hW : (0 : ℝ) < W := by exact_mod_cast (by omega : 0 < W)
  have h : (0 : ℝ) ≤ i := Nat.cast_nonneg _
  rw [div_le_one hW]
  split <;> norm_num <;> linarith

private theorem cpmlD_pos {q : CPMLPar} {W i : Nat} (hq : q.Admissible) (hi : i < W) (s : Bool) :
    0 < cpmlD q W i s := by
  obtain ⟨h1, _, h3, _, h5⟩ := hq
  have hW : (0 : ℝ) < W := by exact_mod_cast (by omega : 0 < W)
  simp only [cpmlD]
  apply mul_pos
  · apply div_pos
    · have := mul_pos (mul_pos (by linarith : 0 < q.NPower + 1) h3) (neg_pos.2 log_rcoef)
      nlinarith
    · positivity
  · exact Real.rpow_pos_of_pos (pos_pos hi s) _

private theorem cpmlAlpha_nonneg {q : CPMLPar} {W i : Nat} (hq : q.Admissible) (hi : i < W)
    (s : Bool) : 0 ≤ cpmlAlpha q W i s := by
  obtain ⟨_, h2, _⟩ := hq
  simp only [cpmlAlpha]
  apply mul_nonneg
  · have := Real.pi_pos
    positivity
  · linarith [pos_le hi s]

/-- The coefficients of the CPML: `0 < b < 1`, `-1 < a ≤ 0` and `|a| ≤ 1 - b`, at full and at
staggered grid points. -/
theorem C31_coefficients (q : CPMLPar) (W i : Nat) (s : Bool) (hq : q.Admissible) (hi : i < W) :
    0 < cpmlB q W i s ∧ cpmlB q W i s < 1 ∧ -1 < cpmlA q W i s ∧ cpmlA q W i s ≤ 0 ∧
      |cpmlA q W i s| ≤ 1 - cpmlB q W i s := by
  have hd := cpmlD_pos hq hi s
  have ha := cpmlAlpha_nonneg hq hi s
  have hb0 : 0 < cpmlB q W i s := Real.exp_pos _
  have hb1 : cpmlB q W i s < 1 := by
    rw [cpmlB, Real.exp_lt_one_iff]
    have := mul_pos (by linarith : 0 < cpmlD q W i s + cpmlAlpha q W i s) hq.2.2.2.1
    linarith
  have hA : cpmlA q W i s ≤ 0 ∧ -(1 - cpmlB q W i s) ≤ cpmlA q W i s := by
    unfold cpmlA
    split
    · have hs : 0 < cpmlD q W i s + cpmlAlpha q W i s := by linarith
      constructor
      · apply div_nonpos_of_nonpos_of_nonneg _ hs.le
        exact mul_nonpos_of_nonneg_of_nonpos hd.le (by linarith)
      · rw [le_div_iff₀ hs]
        nlinarith [mul_nonneg ha (by linarith : 0 ≤ 1 - cpmlB q W i s)]
    · exact ⟨le_refl _, by linarith⟩
  refine ⟨hb0, hb1, by linarith [hA.2], hA.1, ?_⟩
  rw [abs_of_nonpos hA.1]
  linarith [hA.2]

/-- Coefficient pairs for which the memory variable cannot grow: those of the CPML and the zero
pair of grid points outside the boundary. -/
private theorem memory_step {a b M psi v : ℝ} (hb : 0 ≤ b) (hab : |a| ≤ 1 - b) (hp : |psi| ≤ M)
    (hv : |v| ≤ M) : |(applyCPML a b psi v).2| ≤ M ∧ |(applyCPML a b psi v).1| ≤ 2 * M := by
  have h1 : |b * psi + a * v| ≤ M := by
    calc |b * psi + a * v| ≤ |b * psi| + |a * v| := abs_add_le _ _
      _ = b * |psi| + |a| * |v| := by rw [abs_mul, abs_mul, abs_of_nonneg hb]
      _ ≤ b * M + (1 - b) * M := by
        apply add_le_add (mul_le_mul_of_nonneg_left hp hb)
        exact mul_le_mul hab hv (abs_nonneg _) (le_trans (abs_nonneg _) hab)
      _ = M := by ring
  refine ⟨h1, ?_⟩
  calc |v + (b * psi + a * v)| ≤ |v| + |b * psi + a * v| := abs_add_le _ _
    _ ≤ M + M := add_le_add hv h1
    _ = 2 * M := by ring

private theorem memory_bound {a b M : ℝ} (hb : 0 ≤ b) (hab : |a| ≤ 1 - b) :
    ∀ (vs : List ℝ) (psi : ℝ), |psi| ≤ M → (∀ v ∈ vs, |v| ≤ M) → |cpmlMemory a b psi vs| ≤ M
  | [], _, hp, _ => hp
  | v :: vs, _, hp, hv =>
    memory_bound hb hab vs _ (memory_step hb hab hp (hv v (by simp))).1
      (fun w hw => hv w (by simp [hw]))

private theorem coef_ok {q : CPMLPar} (hq : q.Admissible) {W d x dist : Int} {skip : Bool}
    {k : AxisCoef} (h : axisCoef q W d x dist skip = .ok k) :
    (0 ≤ k.b ∧ |k.a| ≤ 1 - k.b) ∧ (0 ≤ k.b_half ∧ |k.a_half| ≤ 1 - k.b_half) := by
  unfold axisCoef at h
  dsimp only at h
  split at h
  · split at h
    · exact absurd h (by simp)
    · have hi : (dist.tdiv d).toNat < (layerWidth W d).toNat := by omega
      have c0 := C31_coefficients q _ _ false hq hi
      have c1 := C31_coefficients q _ _ true hq hi
      split at h
      · split at h
        · cases h; simp [AxisCoef.none]
        · cases h
          exact ⟨⟨c0.1.le, c0.2.2.2.2⟩, ⟨c1.1.le, c1.2.2.2.2⟩⟩
      · cases h
        exact ⟨⟨c1.1.le, c1.2.2.2.2⟩, ⟨c0.1.le, c0.2.2.2.2⟩⟩
  · cases h; simp [AxisCoef.none]

/-- Whatever derivatives of magnitude at most `M` are fed to the CPML at a grid point, for any
number of time steps and starting from the reset memory, the memory variable stays below `M` and
the corrected derivative of the next step below `2 M`. -/
theorem C31_memory_bounded (q : CPMLPar) (W d x dist : Int) (skip : Bool) (k : AxisCoef)
    (M psi0 v : ℝ) (vs : List ℝ) (hq : q.Admissible)
    (hk : axisCoef q W d x dist skip = .ok k) (hvs : ∀ w ∈ vs, |w| ≤ M) (hv : |v| ≤ M) :
    (|cpmlMemory k.a k.b (resetCPML psi0) vs| ≤ M ∧
      |(applyCPML k.a k.b (cpmlMemory k.a k.b (resetCPML psi0) vs) v).1| ≤ 2 * M) ∧
    (|cpmlMemory k.a_half k.b_half (resetCPML psi0) vs| ≤ M ∧
      |(applyCPML k.a_half k.b_half (cpmlMemory k.a_half k.b_half (resetCPML psi0) vs) v).1|
        ≤ 2 * M) := by
  obtain ⟨⟨hb, hab⟩, ⟨hb', hab'⟩⟩ := coef_ok hq hk
  have h0 : |resetCPML psi0| ≤ M := by
    simp only [resetCPML, abs_zero]; exact le_trans (abs_nonneg _) hv
  have m := memory_bound hb hab vs _ h0 hvs
  have m' := memory_bound hb' hab' vs _ h0 hvs
  exact ⟨⟨m, (memory_step hb hab m hv).2⟩, ⟨m', (memory_step hb' hab' m' hv).2⟩⟩

/-- The same for a whole 2D grid, regular or variable: the coefficients set up for any grid point
and both axes keep the memory variables and the corrected derivatives bounded. -/
theorem C31_grid (g : Grid) (par : Nat → CPMLPar) (W fs : Int) (c : Coord)
    (kx ky : AxisCoef) (M psi0 v : ℝ) (vs : List ℝ) (hq : ∀ l, (par l).Admissible)
    (hk : cpml2D g par W fs c = .ok (kx, ky)) (hvs : ∀ w ∈ vs, |w| ≤ M) (hv : |v| ≤ M) :
    ∀ ab ∈ [(kx.a, kx.b), (kx.a_half, kx.b_half), (ky.a, ky.b), (ky.a_half, ky.b_half)],
      |cpmlMemory ab.1 ab.2 (resetCPML psi0) vs| ≤ M ∧
      |(applyCPML ab.1 ab.2 (cpmlMemory ab.1 ab.2 (resetCPML psi0) vs) v).1| ≤ 2 * M := by
  unfold cpml2D at hk
  cases he : edgeDistance g c with
  | err => simp [he, Out.bind_err] at hk
  | ub => simp [he, Out.bind_ub] at hk
  | ok dist =>
  cases hl : g.layers[getLayer g c.y]? with
  | none => simp [he, hl, Out.bind_ok, Out.bind_ub] at hk
  | some l =>
  simp only [he, hl, Out.bind_ok] at hk
  cases hx : axisCoef (par (getLayer g c.y)) W l.dh c.x dist.x false with
  | err => simp [hx, Out.bind_err] at hk
  | ub => simp [hx, Out.bind_ub] at hk
  | ok kx' =>
  cases hy : axisCoef (par (getLayer g c.y)) W l.dh c.y dist.y (fs != 0) with
  | err => simp [hx, hy, Out.bind_ok, Out.bind_err] at hk
  | ub => simp [hx, hy, Out.bind_ok, Out.bind_ub] at hk
  | ok ky' =>
  simp only [hx, hy, Out.bind_ok, Out.pure_eq] at hk
  obtain ⟨rfl, rfl⟩ := Prod.mk.inj (Out.ok.inj hk)
  have bx := C31_memory_bounded _ _ _ _ _ _ _ M psi0 v vs (hq _) hx hvs hv
  have bY := C31_memory_bounded _ _ _ _ _ _ _ M psi0 v vs (hq _) hy hvs hv
  intro ab hab
  simp only [List.mem_cons, List.not_mem_nil, or_false] at hab
  rcases hab with rfl | rfl | rfl | rfl
  · exact bx.1
  · exact bx.2
  · exact bY.1
  · exact bY.2

/-- After the sources and waves are gone (derivatives vanish) the memory variable decays: after
`n` further steps it is at most `b^n` times what it was. -/
theorem C31_memory_decays (a b psi : ℝ) (n : Nat) :
    cpmlMemory a b psi (List.replicate n 0) = b ^ n * psi := by
  induction n generalizing psi with
  | zero => simp [cpmlMemory]
  | succ n ih =>
    rw [List.replicate_succ, cpmlMemory, ih]
    simp only [applyCPML]
    ring

/-- Typical parameters (order 4, 5 Hz, 3500 m/s, 2 ms, 50 m) are admissible. -/
example : CPMLPar.Admissible { NPower := 4, fc := 5, vmax := 3500, DT := 0.002, DH := 50 } := by
  norm_num [CPMLPar.Admissible]

/-! ### C66: where the CPML acts -/

/-- Outside the boundary frame, and at the top under a free surface, the CPML changes no
derivative: from a reset memory the corrected derivative is the derivative itself, at every time
step. -/
theorem C66_inactive (q : CPMLPar) (W d N x : Int) (skip : Bool) (psi0 v : ℝ) (vs : List ℝ)
    (hd : 0 < d) (hx : 0 ≤ x) (hxN : x < N)
    (h : (layerWidth W d * d ≤ x ∧ layerWidth W d * d ≤ N - 1 - x) ∨
      (skip = true ∧ x < layerWidth W d * d)) :
    ∃ k, axisCoef q W d x (min x (N - 1 - x)) skip = .ok k ∧
      (applyCPML k.a k.b (cpmlMemory k.a k.b (resetCPML psi0) vs) v).1 = v ∧
      (applyCPML k.a_half k.b_half (cpmlMemory k.a_half k.b_half (resetCPML psi0) vs) v).1
        = v := by
  have hk : axisCoef q W d x (min x (N - 1 - x)) skip = .ok AxisCoef.none := by
    unfold axisCoef
    dsimp only
    have hm : 0 ≤ min x (N - 1 - x) := by omega
    rcases h with ⟨h1, h2⟩ | ⟨hs, h1⟩
    · rw [if_neg]
      rw [not_lt, Int.tdiv_eq_ediv_of_nonneg hm]
      exact (Int.le_ediv_iff_mul_le hd).2 (by omega)
    · have : x.tdiv d < layerWidth W d := by
        rw [Int.tdiv_eq_ediv_of_nonneg hx]
        exact Int.ediv_lt_of_lt_mul hd h1
      split
      · have h0 : ¬ (min x (N - 1 - x)).tdiv d < 0 := by
          rw [not_lt, Int.tdiv_eq_ediv_of_nonneg hm]
          exact Int.ediv_nonneg hm hd.le
        simp only [if_neg h0, if_pos hs, ite_self]
      · rfl
  have hz : ∀ us : List ℝ, cpmlMemory 0 0 0 us = 0 := by
    intro us
    induction us with
    | nil => rfl
    | cons u us ih => simpa [cpmlMemory, applyCPML] using ih
  exact ⟨_, hk, by simp [AxisCoef.none, resetCPML, hz, applyCPML],
    by simp [AxisCoef.none, resetCPML, hz, applyCPML]⟩

/-- The same for a whole 2D grid: at a grid point outside the frame the setup succeeds and no
derivative is changed; with a free surface the frame has no top part. -/
theorem C66_grid (g : Grid) (par : Nat → CPMLPar) (W fs : Int) (c : Coord) (l : Layer)
    (psi0 v : ℝ) (vs : List ℝ) (hc : inRange g c) (hl : g.layers[getLayer g c.y]? = some l)
    (hd : 0 < l.dh) (hx : layerWidth W l.dh * l.dh ≤ c.x)
    (hx' : layerWidth W l.dh * l.dh ≤ g.NX - 1 - c.x)
    (hy : (layerWidth W l.dh * l.dh ≤ c.y ∧ layerWidth W l.dh * l.dh ≤ g.NY - 1 - c.y) ∨
      (fs ≠ 0 ∧ c.y < layerWidth W l.dh * l.dh)) :
    ∃ kx ky, cpml2D g par W fs c = .ok (kx, ky) ∧
      ∀ ab ∈ [(kx.a, kx.b), (kx.a_half, kx.b_half), (ky.a, ky.b), (ky.a_half, ky.b_half)],
        (applyCPML ab.1 ab.2 (cpmlMemory ab.1 ab.2 (resetCPML psi0) vs) v).1 = v := by
  have hr := hc
  simp only [inRange, Bool.and_eq_true, decide_eq_true_eq, ge_iff_le] at hr
  obtain ⟨kx, ex, ax⟩ := C66_inactive (par (getLayer g c.y)) W l.dh g.NX c.x false psi0 v vs hd
    (by omega) (by omega) (Or.inl ⟨hx, hx'⟩)
  obtain ⟨ky, ey, ay⟩ := C66_inactive (par (getLayer g c.y)) W l.dh g.NY c.y (fs != 0) psi0 v vs
    hd (by omega) (by omega) (by
      rcases hy with h | ⟨h, h'⟩
      · exact Or.inl h
      · exact Or.inr ⟨by simpa using h, h'⟩)
  refine ⟨kx, ky, ?_, ?_⟩
  · have h1 : (if ¬ (g.NX - 1 - c.x < c.x) then c.x else g.NX - 1 - c.x)
        = min c.x (g.NX - 1 - c.x) := by omega
    have h2 : (if ¬ (g.NY - 1 - c.y < c.y) then c.y else g.NY - 1 - c.y)
        = min c.y (g.NY - 1 - c.y) := by omega
    simp only [cpml2D, edgeDistance, hc, if_true, Out.bind_ok, hl, h1, h2, ex, ey, Out.pure_eq]
  · intro ab hab
    simp only [List.mem_cons, List.not_mem_nil, or_false] at hab
    rcases hab with rfl | rfl | rfl | rfl
    · exact ax.1
    · exact ax.2
    · exact ay.1
    · exact ay.2

/-- Opposite sides are treated alike: on a regular grid wide enough for both frames, the full grid
point `x` and the staggered point of the mirrored index `N-1-x` have the same coefficients. -/
theorem C66_mirror (q : CPMLPar) (W N x : Int) (hW : 2 * W ≤ N) (hx : 0 ≤ x) (hxN : x < N) :
    ∃ k k', axisCoef q W 1 x (min x (N - 1 - x)) false = .ok k ∧
      axisCoef q W 1 (N - 1 - x) (min (N - 1 - x) x) false = .ok k' ∧
      k.a = k'.a_half ∧ k.b = k'.b_half ∧ k.a_half = k'.a ∧ k.b_half = k'.b := by
  have hw : layerWidth W 1 = W := by simp [layerWidth]
  rw [min_comm (N - 1 - x) x]
  unfold axisCoef
  simp only [hw, Int.tdiv_one]
  by_cases h : min x (N - 1 - x) < W
  · have h0 : ¬ min x (N - 1 - x) < 0 := by omega
    simp only [if_pos h, if_neg h0, Bool.false_eq_true, if_false]
    by_cases h2 : x < W
    · rw [if_pos h2, if_neg (by omega)]
      exact ⟨_, _, rfl, rfl, rfl, rfl, rfl, rfl⟩
    · rw [if_neg h2, if_pos (by omega)]
      exact ⟨_, _, rfl, rfl, rfl, rfl, rfl, rfl⟩
  · rw [if_neg h, if_neg h]
    exact ⟨_, _, rfl, rfl, rfl, rfl, rfl, rfl⟩

/-- Inside the frame the CPML does act: the coefficient `b` is positive there. -/
theorem C66_active (q : CPMLPar) (W d N x : Int) (hq : q.Admissible) (hd : 0 < d) (hx : 0 ≤ x)
    (hxN : x < N) (h : x < layerWidth W d * d ∨ N - 1 - x < layerWidth W d * d) :
    ∃ k, axisCoef q W d x (min x (N - 1 - x)) false = .ok k ∧ 0 < k.b ∧ 0 < k.b_half := by
  have hm : 0 ≤ min x (N - 1 - x) := by omega
  have h1 : (min x (N - 1 - x)).tdiv d < layerWidth W d := by
    rw [Int.tdiv_eq_ediv_of_nonneg hm]
    exact Int.ediv_lt_of_lt_mul hd (by omega)
  have h2 : 0 ≤ (min x (N - 1 - x)).tdiv d := by
    rw [Int.tdiv_eq_ediv_of_nonneg hm]; exact Int.ediv_nonneg hm hd.le
  have hi : ((min x (N - 1 - x)).tdiv d).toNat < (layerWidth W d).toNat := by omega
  unfold axisCoef
  dsimp only
  rw [if_pos h1, if_neg (by omega)]
  split
  · exact ⟨_, rfl, (C31_coefficients q _ _ _ hq hi).1, (C31_coefficients q _ _ _ hq hi).1⟩
  · exact ⟨_, rfl, (C31_coefficients q _ _ _ hq hi).1, (C31_coefficients q _ _ _ hq hi).1⟩

/-- C66 in terms of the configured width: in a layer with grid factor `d` the CPML acts at every point
less than `W` fine points from an edge, and at no point that is `W + d - 1` or more fine points away
from both edges. -/
theorem C66_width (q : CPMLPar) (W d N x : Int) (hq : q.Admissible) (hW : 0 ≤ W) (hd : 0 < d) (hx : 0 ≤ x)
    (hxN : x < N) :
    ((x < W ∨ N - 1 - x < W) →
      ∃ k, axisCoef q W d x (min x (N - 1 - x)) false = .ok k ∧ 0 < k.b ∧ 0 < k.b_half) ∧
    (W + d - 1 ≤ x → W + d - 1 ≤ N - 1 - x → ∀ psi0 v vs, ∃ k,
      axisCoef q W d x (min x (N - 1 - x)) false = .ok k ∧
      (applyCPML k.a k.b (cpmlMemory k.a k.b (resetCPML psi0) vs) v).1 = v ∧
      (applyCPML k.a_half k.b_half (cpmlMemory k.a_half k.b_half (resetCPML psi0) vs) v).1 = v) := by
  have e : layerWidth W d * d = W + d - 1 - (W + d - 1) % d := by
    unfold layerWidth
    rw [Int.tdiv_eq_ediv_of_nonneg (by omega)]
    have := Int.emod_add_mul_ediv (W + d - 1) d
    rw [mul_comm]
    omega
  have h0 := Int.emod_nonneg (W + d - 1) (by omega : d ≠ 0)
  have h1 := Int.emod_lt_of_pos (W + d - 1) hd
  constructor
  · intro h
    exact C66_active q W d N x hq hd hx hxN (by omega)
  · intro h2 h3 psi0 v vs
    exact C66_inactive q W d N x false psi0 v vs hd hx hxN (.inl (by omega))

/-- A layer with grid factor 3 and a frame of 10 fine points: point 9 is in the frame. -/
example : (0 : Int) ≤ 10 ∧ (0 : Int) < 3 ∧ (9 : Int) < 10 ∧ (9 : Int) < 100 := by decide

/-- A line of 100 points with a frame of 10: point 50 is outside the frame, point 3 inside. -/
example : layerWidth 10 1 * 1 ≤ 50 ∧ layerWidth 10 1 * 1 ≤ 100 - 1 - 50 ∧
    (3 : Int) < layerWidth 10 1 * 1 ∧ 2 * (10 : Int) ≤ 100 := by decide

end Verif.Boundary
