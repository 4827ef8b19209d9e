import Verif.Props.Energy
import Verif.Props.ReciprocitySurface
import Verif.Lemmas.EnergySurface
/-!
# C138: energy below a free surface

Without sources and absorbing boundary the solvers keep the energy of the wavefield below the free
surface of order 2. The energies are those of C27 and C68; quantities that live on the surface
itself belong to half a cell and count half.
-/
set_option linter.dupNamespace false
set_option linter.unusedSectionVars false
set_option linter.unusedSimpArgs false

namespace Verif.Solver
open Matrix

section Generic
variable {ι : Type} [Fintype ι] [DecidableEq ι]

private theorem kept {S : Solver ι} (I : State ι → Prop) (E : State ι → ℝ)
    (h : ∀ s, I s → I (exec S.prog s) ∧ E (exec S.prog s) = E s) (s : State ι)
    (h0 : I s) (n : ℕ) : E (run S [] s n) = E s := by
  have : I (run S [] s n) ∧ E (run S [] s n) = E s := by
    induction n with
    | zero => exact ⟨h0, rfl⟩
    | succ n ih => rw [run_succ_nil]; exact ⟨(h _ ih.1).1, (h _ ih.1).2.trans ih.2⟩
  exact this.2

private theorem quad {K p d : ℝ} (h : K = 0 → p = 0) :
    (p + d * K) ^ 2 / K = p ^ 2 / K + (p + (p + d * K)) * d := by
  by_cases hK : K = 0
  · simp [hK, h hK]
  · field_simp
    ring

private theorem plane2 {M μ x y a b : ℝ} (h1 : M = μ → x + y = 0) (h2 : μ = 0 → x = y) :
    let x' := x + ((a + b) * M + -(2 * (b * μ)))
    let y' := y + ((a + b) * M + -(2 * (a * μ)))
    (x' + y') ^ 2 / (4 * (M - μ)) + (x' - y') ^ 2 / (4 * μ) =
      (x + y) ^ 2 / (4 * (M - μ)) + (x - y) ^ 2 / (4 * μ) + ((x + x') * a + (y + y') * b) := by
  intro x' y'
  have e1 := quad (K := 4 * (M - μ)) (p := x + y) (d := (a + b) / 2)
    (fun h => h1 (by linarith))
  have e2 := quad (K := 4 * μ) (p := x - y) (d := (a - b) / 2)
    (fun h => sub_eq_zero.mpr (h2 (by linarith)))
  rw [show x + y + (a + b) / 2 * (4 * (M - μ)) = x' + y' by simp only [x', y']; ring] at e1
  rw [show x - y + (a - b) / 2 * (4 * μ) = x' - y' by simp only [x', y']; ring] at e2
  rw [e1, e2]
  ring

/-- On the surface: plane stress in 2D. -/
private theorem free2 {M μ x a : ℝ} (hM : M ≠ 0) (h1 : M = μ → x = 0) (h2 : μ = 0 → x = 0) :
    let x' := x + (M - (M - 2 * μ) * (M - 2 * μ) / M) * a
    x' ^ 2 / (4 * (M - μ)) + x' ^ 2 / (4 * μ) =
      x ^ 2 / (4 * (M - μ)) + x ^ 2 / (4 * μ) + (x + x') * a := by
  intro x'
  have e : M - (M - 2 * μ) * (M - 2 * μ) / M = 4 * μ * (M - μ) / M := by field_simp; ring
  have hx : x' = x + 4 * μ * (M - μ) / M * a := by rw [← e]
  by_cases hμ : μ = 0
  · simp [hx, hμ, h2 hμ]
  by_cases hd : M - μ = 0
  · simp [hx, hd, h1 (sub_eq_zero.mp hd)]
  rw [hx]
  field_simp
  ring

private theorem solid3 {M μ x y z a b c : ℝ} (h1 : 3 * M = 4 * μ → x + y + z = 0)
    (h2 : μ = 0 → x = y ∧ y = z) :
    let x' := x + ((a + (b + c)) * M + -(2 * ((b + c) * μ)))
    let y' := y + ((a + (b + c)) * M + -(2 * ((a + c) * μ)))
    let z' := z + ((a + (b + c)) * M + -(2 * ((a + b) * μ)))
    (x' + y' + z') ^ 2 / (3 * (3 * M - 4 * μ)) +
        ((x' - y') ^ 2 / (6 * μ) + (y' - z') ^ 2 / (6 * μ) + (z' - x') ^ 2 / (6 * μ)) =
      (x + y + z) ^ 2 / (3 * (3 * M - 4 * μ)) +
        ((x - y) ^ 2 / (6 * μ) + (y - z) ^ 2 / (6 * μ) + (z - x) ^ 2 / (6 * μ)) +
        ((x + x') * a + (y + y') * b + (z + z') * c) := by
  intro x' y' z'
  have e1 := quad (K := 3 * (3 * M - 4 * μ)) (p := x + y + z) (d := (a + b + c) / 3)
    (fun h => h1 (by linarith))
  have e2 := quad (K := 6 * μ) (p := x - y) (d := (a - b) / 3)
    (fun h => sub_eq_zero.mpr (h2 (by linarith)).1)
  have e3 := quad (K := 6 * μ) (p := y - z) (d := (b - c) / 3)
    (fun h => sub_eq_zero.mpr (h2 (by linarith)).2)
  have e4 := quad (K := 6 * μ) (p := z - x) (d := (c - a) / 3)
    (fun h => sub_eq_zero.mpr ((h2 (by linarith)).1.trans (h2 (by linarith)).2).symm)
  rw [show x + y + z + (a + b + c) / 3 * (3 * (3 * M - 4 * μ)) = x' + y' + z' by
    simp only [x', y', z']; ring] at e1
  rw [show x - y + (a - b) / 3 * (6 * μ) = x' - y' by simp only [x', y']; ring] at e2
  rw [show y - z + (b - c) / 3 * (6 * μ) = y' - z' by simp only [z', y']; ring] at e3
  rw [show z - x + (c - a) / 3 * (6 * μ) = z' - x' by simp only [x', z']; ring] at e4
  rw [e1, e2, e3, e4]
  ring

/-- On the surface: plane stress in 3D. -/
private theorem free3 {M μ x z a c : ℝ} (hM : M ≠ 0) (h1 : 3 * M = 4 * μ → x + z = 0)
    (h2 : μ = 0 → x = 0 ∧ z = 0) :
    let P := M - (M - 2 * μ) * (M - 2 * μ) / M
    let x' := x + (P * (a + c) - 2 * (c * μ))
    let z' := z + (P * (a + c) - 2 * (a * μ))
    (x' + z') ^ 2 / (3 * (3 * M - 4 * μ)) +
        (x' ^ 2 / (6 * μ) + z' ^ 2 / (6 * μ) + (z' - x') ^ 2 / (6 * μ)) =
      (x + z) ^ 2 / (3 * (3 * M - 4 * μ)) +
        (x ^ 2 / (6 * μ) + z ^ 2 / (6 * μ) + (z - x) ^ 2 / (6 * μ)) +
        ((x + x') * a + (z + z') * c) := by
  intro P x' z'
  have e : P = 4 * μ * (M - μ) / M := by simp only [P]; field_simp; ring
  by_cases hμ : μ = 0
  · simp [x', z', e, hμ, h2 hμ]
  by_cases hd : 3 * M - 4 * μ = 0
  · have hz : z = -x := by linarith [h1 (by linarith)]
    have hP : P = μ := by
      rw [e, show M = 4 * μ / 3 by linarith]; field_simp; ring
    simp only [x', z', hz, hP, hd]
    field_simp
    ring
  simp only [x', z', e]
  generalize hN : 3 * M - 4 * μ = N at hd ⊢
  field_simp
  rw [← hN]
  ring

private theorem hlf_dbl (c : BC ι) (i : ι) : c.hlf i * c.dbl i = 1 := by
  unfold BC.hlf BC.dbl; split <;> norm_num

private theorem div_dbl (c : BC ι) (i : ι) (x r : ℝ) : x / (r * c.dbl i) = c.hlf i * (x / r) := by
  unfold BC.hlf BC.dbl; split <;> ring

/-! ### Acoustic waves -/

/-- A field vanishes on the surface. -/
def BC.freeOf (c : BC ι) (p : ι → ℝ) : Prop := ∀ i, c.onSurface i = true → p i = 0

private theorem freeOf_zero (c : BC ι) (q : ι → ℝ) : c.freeOf (fun i => q i * c.setZero i) := by
  intro i h; simp [BC.setZero, h]

theorem acoustic2D_surface_energy {D : Deriv ι} {m : Mod ι} {c : BC ι} (hc : c.surfaceOnly)
    (hD : D.Surfaced c) (s : State ι) (h : acousticRest2D m s ∧ c.freeOf (s (.fld .p))) :
    (acousticRest2D m (exec (acoustic2D D m c) s) ∧
      c.freeOf (exec (acoustic2D D m c) s (.fld .p))) ∧
    acousticEnergy2D D m (exec (acoustic2D D m c) s) = acousticEnergy2D D m s := by
  obtain ⟨e1, e2, e3⟩ := acoustic2D_surface (m := m) hc hD s
  generalize exec (acoustic2D D m c) s = s' at e1 e2 e3 ⊢
  obtain ⟨h, hp⟩ := h
  have hp' : c.freeOf (s' (.fld .p)) := e3 ▸ freeOf_zero c _
  refine ⟨⟨fun i => ?_, hp'⟩, ?_⟩
  · obtain ⟨h1, h2, h3⟩ := h i
    refine ⟨fun hz => ?_, fun hz => ?_, fun hz => ?_⟩
    · rw [e3]; simp [hz, h1 hz]
    · rw [e1]; simp [hz, h2 hz]
    · rw [e2]; simp [hz, h3 hz]
  · have := energy_step (A := Fin 2) (B := Fin 1) (fun i s => s 0 i ^ 2 / m.pMod i)
      ![m.invRhoX, m.invRhoY] ![![D.Dxf], ![D.Dyf]]
      ![s (.fld .vX), s (.fld .vY)] ![s' (.fld .vX), s' (.fld .vY)] ![s (.fld .p)] ![s' (.fld .p)]
      (fun _ => 0)
      (by intro a i; fin_cases a <;> simpa using by simp_all [acousticRest2D])
      (by intro a i; fin_cases a <;> simp [gSum, e1, e2, cut_mulVec_of_zero hp])
      (by
        intro i
        simp only [dSum, Fin.sum_univ_two, Fin.sum_univ_one, Matrix.cons_val]
        by_cases hs : c.onSurface i = true
        · rw [hp i hs, hp' i hs]; simp
        have e3i := congrFun e3 i
        rw [hD.reg.adjX, hD.reg.adjY] at e3i
        simp only [neg_mulVec, Pi.neg_apply, BC.setZero, hs, Bool.false_eq_true, if_false,
          mul_one] at e3i
        have := quad (d := -(D.Dxf.transpose.mulVec (s' (.fld .vX)) i) +
          -(D.Dyf.transpose.mulVec (s' (.fld .vY)) i)) (h i).1
        rw [← e3i] at this
        linear_combination this)
    simpa [energy, gSum, Fin.sum_univ_two, acousticEnergy2D] using this

theorem acoustic3D_surface_energy {D : Deriv ι} {m : Mod ι} {c : BC ι} (hc : c.surfaceOnly)
    (hD : D.Surfaced c) (s : State ι) (h : acousticRest3D m s ∧ c.freeOf (s (.fld .p))) :
    (acousticRest3D m (exec (acoustic3D D m c) s) ∧
      c.freeOf (exec (acoustic3D D m c) s (.fld .p))) ∧
    acousticEnergy3D D m (exec (acoustic3D D m c) s) = acousticEnergy3D D m s := by
  obtain ⟨e1, e2, e3, e4⟩ := acoustic3D_surface (m := m) hc hD s
  generalize exec (acoustic3D D m c) s = s' at e1 e2 e3 e4 ⊢
  obtain ⟨h, hp⟩ := h
  have hp' : c.freeOf (s' (.fld .p)) := e4 ▸ freeOf_zero c _
  refine ⟨⟨fun i => ?_, hp'⟩, ?_⟩
  · obtain ⟨h1, h2, h3, h4⟩ := h i
    refine ⟨fun hz => ?_, fun hz => ?_, fun hz => ?_, fun hz => ?_⟩
    · rw [e4]; simp [hz, h1 hz]
    · rw [e1]; simp [hz, h2 hz]
    · rw [e2]; simp [hz, h3 hz]
    · rw [e3]; simp [hz, h4 hz]
  · have := energy_step (A := Fin 3) (B := Fin 1) (fun i s => s 0 i ^ 2 / m.pMod i)
      ![m.invRhoX, m.invRhoY, m.invRhoZ] ![![D.Dxf], ![D.Dyf], ![D.Dzf]]
      ![s (.fld .vX), s (.fld .vY), s (.fld .vZ)] ![s' (.fld .vX), s' (.fld .vY), s' (.fld .vZ)]
      ![s (.fld .p)] ![s' (.fld .p)] (fun _ => 0)
      (by intro a i; fin_cases a <;> simpa using by simp_all [acousticRest3D])
      (by intro a i; fin_cases a <;> simp [gSum, e1, e2, e3, cut_mulVec_of_zero hp])
      (by
        intro i
        simp only [dSum, Fin.sum_univ_three, Fin.sum_univ_one, Matrix.cons_val]
        by_cases hs : c.onSurface i = true
        · rw [hp i hs, hp' i hs]; simp
        have e3i := congrFun e4 i
        rw [hD.reg.adjX, hD.reg.adjY, hD.reg.adjZ] at e3i
        simp only [neg_mulVec, Pi.neg_apply, BC.setZero, hs, Bool.false_eq_true, if_false,
          mul_one] at e3i
        have := quad (d := -(D.Dxf.transpose.mulVec (s' (.fld .vX)) i) +
          (-(D.Dyf.transpose.mulVec (s' (.fld .vY)) i) +
          -(D.Dzf.transpose.mulVec (s' (.fld .vZ)) i))) (h i).1
        rw [← e3i] at this
        linear_combination this)
    simpa [energy, gSum, Fin.sum_univ_three, acousticEnergy3D] using this

/-! ### SH waves -/

/-- Energy of an SH wavefield; `vZ` and `Sxz` on the surface belong to half a cell. -/
noncomputable def shSurfaceEnergy (D : Deriv ι) (m : Mod ι) (c : BC ι) (s : State ι) : ℝ :=
  (∑ i, c.hlf i * (s (.fld .Sxz) i ^ 2 / m.sModXZ i) + ∑ i, s (.fld .Syz) i ^ 2 / m.sModYZ i) +
  ∑ i, c.hlf i * (s (.fld .vZ) i ^ 2 / m.invRho i) +
  ∑ i, s (.fld .vZ) i * (c.hlf i * D.Dxb.mulVec (s (.fld .Sxz)) i + D.Dyb.mulVec (s (.fld .Syz)) i)

theorem sh_surface_energy {D : Deriv ι} {m : Mod ι} {c : BC ι} (hc : c.surfaceOnly)
    (hD : D.Surfaced c) (s : State ι) (h : shRest m s) :
    shRest m (exec (sh2D D m c) s) ∧
      shSurfaceEnergy D m c (exec (sh2D D m c) s) = shSurfaceEnergy D m c s := by
  obtain ⟨e1, e2, e3⟩ := sh2D_surface (m := m) hc hD s
  generalize exec (sh2D D m c) s = s' at e1 e2 e3 ⊢
  refine ⟨fun i => ?_, ?_⟩
  · obtain ⟨h1, h2, h3⟩ := h i
    refine ⟨fun hz => ?_, fun hz => ?_, fun hz => ?_⟩
    · rw [e2]; simp [hz, h1 hz]
    · rw [e3]; simp [hz, h2 hz]
    · rw [e1]; simp [hz, h3 hz]
  · have := energy_step (A := Fin 1) (B := Fin 2)
      (fun i s => c.hlf i * (s 0 i ^ 2 / m.sModXZ i) + s 1 i ^ 2 / m.sModYZ i)
      ![fun i => m.invRho i * c.dbl i] ![![c.halve D.Dxb, D.Dyb]]
      ![s (.fld .vZ)] ![s' (.fld .vZ)] ![s (.fld .Sxz), s (.fld .Syz)]
      ![s' (.fld .Sxz), s' (.fld .Syz)] (fun _ => 0)
      (by
        intro a i h0
        fin_cases a
        refine (h i).2.2 ?_
        have h0 : m.invRho i * c.dbl i = 0 := h0
        have := hlf_dbl c i
        calc m.invRho i = m.invRho i * c.dbl i * c.hlf i := by linear_combination - m.invRho i * this
          _ = 0 := by rw [h0, zero_mul])
      (by
        intro a i; fin_cases a
        simp only [gSum, e1, Fin.sum_univ_two, Matrix.cons_val, halve_mulVec, dbl_mulVec,
          Fin.zero_eta]
        linear_combination - D.Dxb.mulVec (s (.fld .Sxz)) i * m.invRho i * hlf_dbl c i)
      (by
        intro i
        have t1 := quad (d := D.Dxf.mulVec (s' (.fld .vZ)) i) (h i).1
        have t2 := quad (d := D.Dyf.mulVec (s' (.fld .vZ)) i) (h i).2.1
        rw [← congrFun e2 i] at t1
        rw [← congrFun e3 i] at t2
        simp only [dSum, Fin.sum_univ_two, Fin.sum_univ_one, Matrix.cons_val, hD.reg.adjX,
          hD.reg.adjY, halve_back_transpose_mulVec hD.alongX,
          transpose_neg, transpose_transpose, neg_mulVec, Pi.neg_apply]
        linear_combination c.hlf i * t1 + t2)
    simpa [energy, gSum, Fin.sum_univ_two, shSurfaceEnergy, Finset.sum_add_distrib, div_dbl,
      halve_mulVec] using this

/-! ### Elastic waves -/

/-- Energy of a 2D elastic wavefield; `vX` and the normal stresses on the surface belong to half a
cell. -/
noncomputable def elasticSurfaceEnergy2D (D : Deriv ι) (m : Mod ι) (c : BC ι) (s : State ι) : ℝ :=
  ∑ i, (c.hlf i * ((s (.fld .Sxx) i + s (.fld .Syy) i) ^ 2 / (4 * (m.pMod i - m.sMod i)) +
    (s (.fld .Sxx) i - s (.fld .Syy) i) ^ 2 / (4 * m.sMod i)) +
    s (.fld .Sxy) i ^ 2 / m.sModXY i) +
  (∑ i, c.hlf i * (s (.fld .vX) i ^ 2 / m.invRhoX i) + ∑ i, s (.fld .vY) i ^ 2 / m.invRhoY i) +
  (∑ i, s (.fld .vX) i * (c.hlf i * D.Dxf.mulVec (s (.fld .Sxx)) i + D.Dyb.mulVec (s (.fld .Sxy)) i) +
   ∑ i, s (.fld .vY) i * (D.Dxb.mulVec (s (.fld .Sxy)) i + D.Dyf.mulVec (s (.fld .Syy)) i))

theorem elastic2D_surface_energy {D : Deriv ι} {m : Mod ι} {c : BC ι} (hc : c.surfaceOnly)
    (hD : D.Surfaced c) (hM : ∀ i, c.onSurface i = true → m.pMod i ≠ 0) (s : State ι)
    (h : elasticRest2D m s ∧ c.freeOf (s (.fld .Syy))) :
    (elasticRest2D m (exec (elastic2D D m c) s) ∧
      c.freeOf (exec (elastic2D D m c) s (.fld .Syy))) ∧
      elasticSurfaceEnergy2D D m c (exec (elastic2D D m c) s) = elasticSurfaceEnergy2D D m c s := by
  obtain ⟨e1, e2, e3, e4, e5⟩ := elastic2D_surface (m := m) hc hD s
  generalize exec (elastic2D D m c) s = s' at e1 e2 e3 e4 e5 ⊢
  obtain ⟨h, hp⟩ := h
  have hp' : c.freeOf (s' (.fld .Syy)) := e4 ▸ freeOf_zero c _
  have on : ∀ i, c.onSurface i = true → s' (.fld .Sxx) i = s (.fld .Sxx) i +
      (m.pMod i - (m.pMod i - 2 * m.sMod i) * (m.pMod i - 2 * m.sMod i) / m.pMod i) *
        D.Dxb.mulVec (s' (.fld .vX)) i := by
    intro i hs
    have := congrFun e3 i
    simp only [scaleHor, scaleVert, BC.select, hs, if_true] at this
    rw [this]
    ring
  have off : ∀ i, ¬ c.onSurface i = true →
      s' (.fld .Sxx) i = s (.fld .Sxx) i + ((D.Dxb.mulVec (s' (.fld .vX)) i +
        D.Dyb.mulVec (s' (.fld .vY)) i) * m.pMod i +
          (-(2 * (D.Dyb.mulVec (s' (.fld .vY)) i * m.sMod i)))) ∧
      s' (.fld .Syy) i = s (.fld .Syy) i + ((D.Dxb.mulVec (s' (.fld .vX)) i +
        D.Dyb.mulVec (s' (.fld .vY)) i) * m.pMod i +
          (-(2 * (D.Dxb.mulVec (s' (.fld .vX)) i * m.sMod i)))) := by
    intro i hs
    have h3 := congrFun e3 i
    have h4 := congrFun e4 i
    simp only [scaleHor, scaleVert, BC.select, BC.setZero, hs, Bool.false_eq_true, if_false] at h3 h4
    constructor
    · rw [h3]; ring
    · rw [h4]; ring
  refine ⟨⟨fun i => ?_, hp'⟩, ?_⟩
  · obtain ⟨h1, h2, h3, h4, h5⟩ := h i
    refine ⟨fun hz => ?_, fun hz => ?_, fun hz => ?_, fun hz => ?_, fun hz => ?_⟩
    · by_cases hs : c.onSurface i = true
      · have hx := h1 hz
        have := hM i hs
        rw [hp i hs, add_zero] at hx
        rw [hp' i hs, on i hs, hx, ← hz]
        field_simp
        ring
      · rw [(off i hs).1, (off i hs).2]; simp only [hz]; linear_combination h1 hz
    · by_cases hs : c.onSurface i = true
      · have hx := h2 hz
        have := hM i hs
        rw [hp i hs] at hx
        rw [hp' i hs, on i hs, hx, hz]
        field_simp
        ring
      · rw [(off i hs).1, (off i hs).2]; simp [hz, h2 hz]
    · rw [e5]; simp [hz, h3 hz]
    · rw [e1]; simp [hz, h4 hz]
    · rw [e2]; simp [hz, h5 hz]
  · have := energy_step (A := Fin 2) (B := Fin 3)
      (fun i s => c.hlf i * ((s 0 i + s 1 i) ^ 2 / (4 * (m.pMod i - m.sMod i)) +
        (s 0 i - s 1 i) ^ 2 / (4 * m.sMod i)) + s 2 i ^ 2 / m.sModXY i)
      ![fun i => m.invRhoX i * c.dbl i, m.invRhoY]
      ![![c.halve D.Dxf, 0, D.Dyb], ![0, D.Dyf, D.Dxb]]
      ![s (.fld .vX), s (.fld .vY)] ![s' (.fld .vX), s' (.fld .vY)]
      ![s (.fld .Sxx), s (.fld .Syy), s (.fld .Sxy)]
      ![s' (.fld .Sxx), s' (.fld .Syy), s' (.fld .Sxy)] (fun _ => 0)
      (by
        intro a i h0
        fin_cases a
        · refine (h i).2.2.2.1 ?_
          have h0 : m.invRhoX i * c.dbl i = 0 := h0
          have := hlf_dbl c i
          calc m.invRhoX i = m.invRhoX i * c.dbl i * c.hlf i := by
                linear_combination - m.invRhoX i * this
            _ = 0 := by rw [h0, zero_mul]
        · exact (h i).2.2.2.2 h0)
      (by
        intro a i; fin_cases a
        · simp only [gSum, e1, Fin.sum_univ_three, Matrix.cons_val, halve_mulVec, dbl_mulVec,
            Fin.zero_eta, zero_mulVec, Pi.zero_apply]
          linear_combination - D.Dxf.mulVec (s (.fld .Sxx)) i * m.invRhoX i * hlf_dbl c i
        · simp [gSum, e2, Fin.sum_univ_three, cut_mulVec_of_zero hp, add_comm])
      (by
        intro i
        have t2 := quad (d := D.Dyf.mulVec (s' (.fld .vX)) i + D.Dxf.mulVec (s' (.fld .vY)) i)
          (h i).2.2.1
        rw [← congrFun e5 i] at t2
        simp only [dSum, Fin.sum_univ_two, Fin.sum_univ_three, Matrix.cons_val,
          halve_transpose_mulVec hD.alongX,
          transpose_neg, transpose_transpose, neg_mulVec, Pi.neg_apply, transpose_zero, zero_mulVec,
          Pi.zero_apply]
        by_cases hs : c.onSurface i = true
        · have t1 := free2 (a := D.Dxb.mulVec (s' (.fld .vX)) i) (x := s (.fld .Sxx) i) (hM i hs)
            (fun h0 => by have := (h i).1 h0; rwa [hp i hs, add_zero] at this)
            (fun h0 => by have := (h i).2.1 h0; rwa [hp i hs] at this)
          simp only at t1
          rw [← on i hs] at t1
          simp only [hD.reg.adjX, hD.reg.adjY, neg_mulVec, Pi.neg_apply, transpose_neg,
            transpose_transpose] at t1 t2 ⊢
          rw [hp i hs, hp' i hs]
          simp only [BC.hlf, hs, if_true, add_zero, sub_zero]
          linear_combination 1 / 2 * t1 + t2
        · have t1 := plane2 (a := D.Dxb.mulVec (s' (.fld .vX)) i)
            (b := D.Dyb.mulVec (s' (.fld .vY)) i) (h i).1 (h i).2.1
          simp only at t1
          rw [← (off i hs).1, ← (off i hs).2] at t1
          simp only [hD.reg.adjX, hD.reg.adjY, neg_mulVec, Pi.neg_apply, transpose_neg,
            transpose_transpose] at t1 t2 ⊢
          simp only [BC.hlf, hs, Bool.false_eq_true, if_false]
          linear_combination t1 + t2)
    simpa [energy, gSum, Fin.sum_univ_two, Fin.sum_univ_three, elasticSurfaceEnergy2D, div_dbl,
      halve_mulVec, add_comm, add_left_comm] using this

/-- Energy of a 3D elastic wavefield; `vX`, `vZ`, the normal stresses and `Sxz` on the surface belong
to half a cell. -/
noncomputable def elasticSurfaceEnergy3D (D : Deriv ι) (m : Mod ι) (c : BC ι) (s : State ι) : ℝ :=
  ∑ i, (c.hlf i * ((s (.fld .Sxx) i + s (.fld .Syy) i + s (.fld .Szz) i) ^ 2 /
      (3 * (3 * m.pMod i - 4 * m.sMod i)) +
    ((s (.fld .Sxx) i - s (.fld .Syy) i) ^ 2 / (6 * m.sMod i) +
     (s (.fld .Syy) i - s (.fld .Szz) i) ^ 2 / (6 * m.sMod i) +
     (s (.fld .Szz) i - s (.fld .Sxx) i) ^ 2 / (6 * m.sMod i))) +
    s (.fld .Sxy) i ^ 2 / m.sModXY i + c.hlf i * (s (.fld .Sxz) i ^ 2 / m.sModXZ i) +
    s (.fld .Syz) i ^ 2 / m.sModYZ i) +
  (∑ i, c.hlf i * (s (.fld .vX) i ^ 2 / m.invRhoX i) + ∑ i, s (.fld .vY) i ^ 2 / m.invRhoY i +
    ∑ i, c.hlf i * (s (.fld .vZ) i ^ 2 / m.invRhoZ i)) +
  (∑ i, s (.fld .vX) i * (c.hlf i * D.Dxf.mulVec (s (.fld .Sxx)) i + D.Dyb.mulVec (s (.fld .Sxy)) i +
      c.hlf i * D.Dzb.mulVec (s (.fld .Sxz)) i) +
   ∑ i, s (.fld .vY) i * (D.Dyf.mulVec (s (.fld .Syy)) i + D.Dxb.mulVec (s (.fld .Sxy)) i +
      D.Dzb.mulVec (s (.fld .Syz)) i) +
   ∑ i, s (.fld .vZ) i * (c.hlf i * D.Dzf.mulVec (s (.fld .Szz)) i +
      c.hlf i * D.Dxb.mulVec (s (.fld .Sxz)) i + D.Dyb.mulVec (s (.fld .Syz)) i))

private theorem rho_zero {c : BC ι} {i : ι} {r : ℝ} (h : r * c.dbl i = 0) : r = 0 := by
  have := hlf_dbl c i
  calc r = r * c.dbl i * c.hlf i := by linear_combination - r * this
    _ = 0 := by rw [h, zero_mul]

theorem elastic3D_surface_energy {D : Deriv ι} {m : Mod ι} {c : BC ι} (hc : c.surfaceOnly)
    (hD : D.Surfaced c) (hM : ∀ i, c.onSurface i = true → m.pMod i ≠ 0) (s : State ι)
    (h : elasticRest3D m s ∧ c.freeOf (s (.fld .Syy))) :
    (elasticRest3D m (exec (elastic3D D m c) s) ∧
      c.freeOf (exec (elastic3D D m c) s (.fld .Syy))) ∧
      elasticSurfaceEnergy3D D m c (exec (elastic3D D m c) s) = elasticSurfaceEnergy3D D m c s := by
  obtain ⟨e1, e2, e3, e4, e5, e6, e7, e8, e9⟩ := elastic3D_surface (m := m) hc hD s
  generalize exec (elastic3D D m c) s = s' at e1 e2 e3 e4 e5 e6 e7 e8 e9 ⊢
  obtain ⟨h, hp⟩ := h
  have hp' : c.freeOf (s' (.fld .Syy)) := e5 ▸ freeOf_zero c _
  have on : ∀ i, c.onSurface i = true →
      s' (.fld .Sxx) i = s (.fld .Sxx) i +
        ((m.pMod i - (m.pMod i - 2 * m.sMod i) * (m.pMod i - 2 * m.sMod i) / m.pMod i) *
          (D.Dxb.mulVec (s' (.fld .vX)) i + D.Dzb.mulVec (s' (.fld .vZ)) i) -
          2 * (D.Dzb.mulVec (s' (.fld .vZ)) i * m.sMod i)) ∧
      s' (.fld .Szz) i = s (.fld .Szz) i +
        ((m.pMod i - (m.pMod i - 2 * m.sMod i) * (m.pMod i - 2 * m.sMod i) / m.pMod i) *
          (D.Dxb.mulVec (s' (.fld .vX)) i + D.Dzb.mulVec (s' (.fld .vZ)) i) -
          2 * (D.Dxb.mulVec (s' (.fld .vX)) i * m.sMod i)) := by
    intro i hs
    have h4 := congrFun e4 i
    have h6 := congrFun e6 i
    simp only [scaleHor, scaleVert, BC.select, hs, if_true] at h4 h6
    constructor
    · rw [h4]; ring
    · rw [h6]; ring
  have off : ∀ i, ¬ c.onSurface i = true →
      s' (.fld .Sxx) i = s (.fld .Sxx) i + ((D.Dxb.mulVec (s' (.fld .vX)) i +
        (D.Dyb.mulVec (s' (.fld .vY)) i + D.Dzb.mulVec (s' (.fld .vZ)) i)) * m.pMod i +
          (-(2 * ((D.Dyb.mulVec (s' (.fld .vY)) i + D.Dzb.mulVec (s' (.fld .vZ)) i) *
            m.sMod i)))) ∧
      s' (.fld .Syy) i = s (.fld .Syy) i + ((D.Dxb.mulVec (s' (.fld .vX)) i +
        (D.Dyb.mulVec (s' (.fld .vY)) i + D.Dzb.mulVec (s' (.fld .vZ)) i)) * m.pMod i +
          (-(2 * ((D.Dxb.mulVec (s' (.fld .vX)) i + D.Dzb.mulVec (s' (.fld .vZ)) i) *
            m.sMod i)))) ∧
      s' (.fld .Szz) i = s (.fld .Szz) i + ((D.Dxb.mulVec (s' (.fld .vX)) i +
        (D.Dyb.mulVec (s' (.fld .vY)) i + D.Dzb.mulVec (s' (.fld .vZ)) i)) * m.pMod i +
          (-(2 * ((D.Dxb.mulVec (s' (.fld .vX)) i + D.Dyb.mulVec (s' (.fld .vY)) i) *
            m.sMod i)))) := by
    intro i hs
    have h4 := congrFun e4 i
    have h5 := congrFun e5 i
    have h6 := congrFun e6 i
    simp only [scaleHor, scaleVert, BC.select, BC.setZero, hs, Bool.false_eq_true, if_false]
      at h4 h5 h6
    refine ⟨?_, ?_, ?_⟩
    · rw [h4]; ring
    · rw [h5]; ring
    · rw [h6]; ring
  refine ⟨⟨fun i => ?_, hp'⟩, ?_⟩
  · obtain ⟨h1, h2, h3, h4, h5, h6, h7, h8⟩ := h i
    refine ⟨fun hz => ?_, fun hz => ?_, fun hz => ?_, fun hz => ?_, fun hz => ?_, fun hz => ?_,
      fun hz => ?_, fun hz => ?_⟩
    · by_cases hs : c.onSurface i = true
      · have hx := h1 hz
        have := hM i hs
        rw [hp i hs, add_zero] at hx
        rw [hp' i hs, (on i hs).1, (on i hs).2, show m.sMod i = 3 * m.pMod i / 4 by linarith]
        field_simp
        linear_combination 16 * hx
      · rw [(off i hs).1, (off i hs).2.1, (off i hs).2.2]
        linear_combination h1 hz + (D.Dxb.mulVec (s' (.fld .vX)) i +
          D.Dyb.mulVec (s' (.fld .vY)) i + D.Dzb.mulVec (s' (.fld .vZ)) i) * hz
    · by_cases hs : c.onSurface i = true
      · have hx := h2 hz
        have := hM i hs
        rw [hp i hs] at hx
        rw [hp' i hs, (on i hs).1, (on i hs).2, hx.1, ← hx.2, hz]
        constructor <;> (field_simp; ring)
      · rw [(off i hs).1, (off i hs).2.1, (off i hs).2.2]; simp [hz, (h2 hz).1, (h2 hz).2]
    · rw [e7]; simp [hz, h3 hz]
    · rw [e8]; simp [hz, h4 hz]
    · rw [e9]; simp [hz, h5 hz]
    · rw [e1]; simp [hz, h6 hz]
    · rw [e2]; simp [hz, h7 hz]
    · rw [e3]; simp [hz, h8 hz]
  · have := energy_step (A := Fin 3) (B := Fin 6)
      (fun i s => c.hlf i * ((s 0 i + s 1 i + s 2 i) ^ 2 / (3 * (3 * m.pMod i - 4 * m.sMod i)) +
        ((s 0 i - s 1 i) ^ 2 / (6 * m.sMod i) + (s 1 i - s 2 i) ^ 2 / (6 * m.sMod i) +
         (s 2 i - s 0 i) ^ 2 / (6 * m.sMod i))) +
        s 3 i ^ 2 / m.sModXY i + c.hlf i * (s 4 i ^ 2 / m.sModXZ i) + s 5 i ^ 2 / m.sModYZ i)
      ![fun i => m.invRhoX i * c.dbl i, m.invRhoY, fun i => m.invRhoZ i * c.dbl i]
      ![![c.halve D.Dxf, 0, 0, D.Dyb, c.halve D.Dzb, 0], ![0, D.Dyf, 0, D.Dxb, 0, D.Dzb],
        ![0, 0, c.halve D.Dzf, 0, c.halve D.Dxb, D.Dyb]]
      ![s (.fld .vX), s (.fld .vY), s (.fld .vZ)] ![s' (.fld .vX), s' (.fld .vY), s' (.fld .vZ)]
      ![s (.fld .Sxx), s (.fld .Syy), s (.fld .Szz), s (.fld .Sxy), s (.fld .Sxz), s (.fld .Syz)]
      ![s' (.fld .Sxx), s' (.fld .Syy), s' (.fld .Szz), s' (.fld .Sxy), s' (.fld .Sxz),
        s' (.fld .Syz)] (fun _ => 0)
      (by
        intro a i h0
        obtain ⟨h1, h2, h3, h4, h5, h6, h7, h8⟩ := h i
        fin_cases a
        · exact h6 (rho_zero h0)
        · exact h7 h0
        · exact h8 (rho_zero h0))
      (by
        intro a i
        fin_cases a
        · simp only [gSum, e1, Fin.sum_univ_six, Matrix.cons_val, zero_mulVec, Pi.zero_apply,
            Fin.zero_eta, Fin.mk_one, Fin.reduceFinMk, halve_mulVec, dbl_mulVec]
          linear_combination -(D.Dxf.mulVec (s (.fld .Sxx)) i + D.Dzb.mulVec (s (.fld .Sxz)) i) *
            m.invRhoX i * hlf_dbl c i
        · simp only [gSum, e2, Fin.sum_univ_six, Matrix.cons_val, zero_mulVec, Pi.zero_apply,
            Fin.zero_eta, Fin.mk_one, Fin.reduceFinMk, cut_mulVec_of_zero hp]
          ring
        · simp only [gSum, e3, Fin.sum_univ_six, Matrix.cons_val, zero_mulVec, Pi.zero_apply,
            Fin.zero_eta, Fin.mk_one, Fin.reduceFinMk, halve_mulVec, dbl_mulVec]
          linear_combination -(D.Dxb.mulVec (s (.fld .Sxz)) i + D.Dzf.mulVec (s (.fld .Szz)) i) *
            m.invRhoZ i * hlf_dbl c i)
      (by
        intro i
        obtain ⟨h1, h2, h3, h4, h5, h6, h7, h8⟩ := h i
        have t2 := quad (d := D.Dyf.mulVec (s' (.fld .vX)) i + D.Dxf.mulVec (s' (.fld .vY)) i) h3
        have t3 := quad (d := D.Dzf.mulVec (s' (.fld .vX)) i + D.Dxf.mulVec (s' (.fld .vZ)) i) h4
        have t4 := quad (d := D.Dzf.mulVec (s' (.fld .vY)) i + D.Dyf.mulVec (s' (.fld .vZ)) i) h5
        rw [← congrFun e7 i] at t2
        rw [← congrFun e8 i] at t3
        rw [← congrFun e9 i] at t4
        simp only [dSum, Fin.sum_univ_six, Fin.sum_univ_three, Matrix.cons_val,
          halve_transpose_mulVec hD.alongX, halve_transpose_mulVec hD.alongZ, hD.reg.adjX,
          hD.reg.adjY, hD.reg.adjZ, halve_back_transpose_mulVec hD.alongX,
          halve_back_transpose_mulVec hD.alongZ,
          transpose_neg, transpose_transpose, neg_mulVec, Pi.neg_apply, transpose_zero, zero_mulVec,
          Pi.zero_apply]
        by_cases hs : c.onSurface i = true
        · have t1 := free3 (a := D.Dxb.mulVec (s' (.fld .vX)) i) (c := D.Dzb.mulVec (s' (.fld .vZ)) i)
            (x := s (.fld .Sxx) i) (z := s (.fld .Szz) i) (hM i hs)
            (fun h0 => by have := h1 h0; rwa [hp i hs, add_zero] at this)
            (fun h0 => by have := h2 h0; rw [hp i hs] at this; exact ⟨this.1, this.2.symm⟩)
          simp only at t1
          rw [← (on i hs).1, ← (on i hs).2] at t1
          simp only [hD.reg.adjX, hD.reg.adjY, hD.reg.adjZ, neg_mulVec, Pi.neg_apply] at t1
          rw [hp i hs, hp' i hs]
          simp only [BC.hlf, hs, if_true, add_zero, sub_zero, zero_sub, neg_sq]
          linear_combination 1 / 2 * t1 + t2 + 1 / 2 * t3 + t4
        · have t1 := solid3 (a := D.Dxb.mulVec (s' (.fld .vX)) i)
            (b := D.Dyb.mulVec (s' (.fld .vY)) i) (c := D.Dzb.mulVec (s' (.fld .vZ)) i) h1 h2
          simp only at t1
          rw [← (off i hs).1, ← (off i hs).2.1, ← (off i hs).2.2] at t1
          simp only [hD.reg.adjX, hD.reg.adjY, hD.reg.adjZ, neg_mulVec, Pi.neg_apply] at t1
          simp only [BC.hlf, hs, Bool.false_eq_true, if_false]
          linear_combination t1 + t2 + t3 + t4)
    simpa [energy, gSum, Fin.sum_univ_six, Fin.sum_univ_three, elasticSurfaceEnergy3D, div_dbl,
      halve_mulVec, add_assoc] using this

end Generic

/-! ### C138 -/

variable {NX NY NZ : ℕ} {DT DH : ℝ} {c : BC (Pt NX NY NZ)} {m : Mod (Pt NX NY NZ)}

/-- The free surface of the grid is the only boundary condition. -/
def BC.TopSurfaceOnly (c : BC (Pt NX NY NZ)) : Prop :=
  c.TopSurface ∧ c.damping = none ∧ c.pml = none

theorem BC.TopSurfaceOnly.only (h : c.TopSurfaceOnly) : c.surfaceOnly := ⟨h.1.1, h.2.1, h.2.2⟩

/-- Acoustic waves in 2D: the energy of C27 is kept below a free surface if the wavefield has no
pressure on the surface. -/
theorem C138_acoustic2D_partial (hc : c.TopSurfaceOnly) (s : State (Pt NX NY NZ))
    (h : acousticRest2D m s) (hp : ∀ i : Pt NX NY NZ, (i.2.1 : ℕ) = 0 → s (.fld .p) i = 0) (n : ℕ) :
    acousticEnergy2D (surfaceDeriv NX NY NZ 2 DT DH) m
      (run (acoustic2DSolver (surfaceDeriv NX NY NZ 2 DT DH) m c) [] s n) =
    acousticEnergy2D (surfaceDeriv NX NY NZ 2 DT DH) m s :=
  kept (fun s => acousticRest2D m s ∧ c.freeOf (s (.fld .p))) _
    (fun s hs => acoustic2D_surface_energy hc.only (surfaceDeriv_surfaced hc.1.2) s hs) s
    ⟨h, fun i hi => hp i (by simpa [hc.1.2] using hi)⟩ n

/-- Acoustic waves in 3D. -/
theorem C138_acoustic3D_partial (hc : c.TopSurfaceOnly) (s : State (Pt NX NY NZ))
    (h : acousticRest3D m s) (hp : ∀ i : Pt NX NY NZ, (i.2.1 : ℕ) = 0 → s (.fld .p) i = 0) (n : ℕ) :
    acousticEnergy3D (surfaceDeriv NX NY NZ 2 DT DH) m
      (run (acoustic3DSolver (surfaceDeriv NX NY NZ 2 DT DH) m c) [] s n) =
    acousticEnergy3D (surfaceDeriv NX NY NZ 2 DT DH) m s :=
  kept (fun s => acousticRest3D m s ∧ c.freeOf (s (.fld .p))) _
    (fun s hs => acoustic3D_surface_energy hc.only (surfaceDeriv_surfaced hc.1.2) s hs) s
    ⟨h, fun i hi => hp i (by simpa [hc.1.2] using hi)⟩ n

/-- SH waves. -/
theorem C138_sh2D_partial (hc : c.TopSurfaceOnly) (s : State (Pt NX NY NZ)) (h : shRest m s) (n : ℕ) :
    shSurfaceEnergy (surfaceDeriv NX NY NZ 2 DT DH) m c
      (run (sh2DSolver (surfaceDeriv NX NY NZ 2 DT DH) m c) [] s n) =
    shSurfaceEnergy (surfaceDeriv NX NY NZ 2 DT DH) m c s :=
  kept (shRest m) _
    (fun s hs => sh_surface_energy hc.only (surfaceDeriv_surfaced hc.1.2) s hs) s h n

/-- Elastic waves in 2D; the P-wave modulus of the surface points must not vanish (the code divides by
it). -/
theorem C138_elastic2D_partial (hc : c.TopSurfaceOnly)
    (hM : ∀ i : Pt NX NY NZ, (i.2.1 : ℕ) = 0 → m.pMod i ≠ 0) (s : State (Pt NX NY NZ))
    (h : elasticRest2D m s) (hp : ∀ i : Pt NX NY NZ, (i.2.1 : ℕ) = 0 → s (.fld .Syy) i = 0) (n : ℕ) :
    elasticSurfaceEnergy2D (surfaceDeriv NX NY NZ 2 DT DH) m c
      (run (elastic2DSolver (surfaceDeriv NX NY NZ 2 DT DH) m c) [] s n) =
    elasticSurfaceEnergy2D (surfaceDeriv NX NY NZ 2 DT DH) m c s :=
  kept (fun s => elasticRest2D m s ∧ c.freeOf (s (.fld .Syy))) _
    (fun s hs => elastic2D_surface_energy hc.only (surfaceDeriv_surfaced hc.1.2)
      (fun i hi => hM i (by simpa [hc.1.2] using hi)) s hs) s
    ⟨h, fun i hi => hp i (by simpa [hc.1.2] using hi)⟩ n

/-- Elastic waves in 3D. -/
theorem C138_elastic3D_partial (hc : c.TopSurfaceOnly)
    (hM : ∀ i : Pt NX NY NZ, (i.2.1 : ℕ) = 0 → m.pMod i ≠ 0) (s : State (Pt NX NY NZ))
    (h : elasticRest3D m s) (hp : ∀ i : Pt NX NY NZ, (i.2.1 : ℕ) = 0 → s (.fld .Syy) i = 0) (n : ℕ) :
    elasticSurfaceEnergy3D (surfaceDeriv NX NY NZ 2 DT DH) m c
      (run (elastic3DSolver (surfaceDeriv NX NY NZ 2 DT DH) m c) [] s n) =
    elasticSurfaceEnergy3D (surfaceDeriv NX NY NZ 2 DT DH) m c s :=
  kept (fun s => elasticRest3D m s ∧ c.freeOf (s (.fld .Syy))) _
    (fun s hs => elastic3D_surface_energy hc.only (surfaceDeriv_surfaced hc.1.2)
      (fun i hi => hM i (by simpa [hc.1.2] using hi)) s hs) s
    ⟨h, fun i hi => hp i (by simpa [hc.1.2] using hi)⟩ n

/-- Free surface on top of a grid. -/
def surfaceExBC (NX NY NZ : ℕ) : BC (Pt NX NY NZ) :=
  ⟨1, none, none, fun i => decide ((i.2.1 : ℕ) = 0)⟩

theorem surfaceExBC_only : (surfaceExBC NX NY NZ).TopSurfaceOnly := ⟨⟨rfl, fun _ => rfl⟩, rfl, rfl⟩

/-- A solid with a fluid at x = 1 below the surface. -/
noncomputable def surfaceExM (NX NY NZ : ℕ) : Mod (Pt NX NY NZ) where
  invRho := 1; invRhoX := fun i => 1 + (i.1 : ℕ); invRhoY := 1; invRhoZ := 1
  pMod := 3
  sMod := fun i => if (i.1 : ℕ) = 1 ∧ 0 < (i.2.1 : ℕ) then 0 else 1
  sModXY := 1; sModXZ := 1; sModYZ := 1
  tauP := 0; tauS := 0; tauSXY := 0; tauSXZ := 0; tauSYZ := 0
  L := 0; relaxTime := fun _ => 1; DT := 1

/-- Wavefield that stretches the surface: every component is 1, without stress across the surface. -/
def surfaceExW (NX NY NZ : ℕ) : State (Pt NX NY NZ) := fun v i =>
  if (i.2.1 : ℕ) = 0 ∧ (v = .fld .Syy ∨ v = .fld .p) then 0 else 1

theorem surfaceEx_rest : elasticRest2D (surfaceExM NX NY NZ) (surfaceExW NX NY NZ) := by
  intro i
  have e : ∀ i : Pt NX NY NZ, (1 : ℝ) + ((i.1 : ℕ) : ℝ) ≠ 0 := fun i => by positivity
  have : (3 : ℝ) ≠ if (i.1 : ℕ) = 1 ∧ 0 < (i.2.1 : ℕ) then 0 else 1 := by split <;> norm_num
  simp only [surfaceExM, Pi.one_apply, one_ne_zero, false_implies, e, this, Pi.ofNat_apply, true_and,
    and_true]
  intro h
  have h1 : (i.1 : ℕ) = 1 ∧ 0 < (i.2.1 : ℕ) := by by_contra hh; simp [hh] at h
  simp [surfaceExW, h1.2.ne']

example : acousticRest2D (surfaceExM NX NY NZ) (surfaceExW NX NY NZ) ∧
    shRest (surfaceExM NX NY NZ) (surfaceExW NX NY NZ) ∧
    elasticRest2D (surfaceExM NX NY NZ) (surfaceExW NX NY NZ) ∧
    elasticRest3D (surfaceExM NX NY NZ) (surfaceExW NX NY NZ) ∧
    ∀ i : Pt NX NY NZ, (i.2.1 : ℕ) = 0 → (surfaceExM NX NY NZ).pMod i ≠ 0 ∧
      surfaceExW NX NY NZ (.fld .Syy) i = 0 ∧ surfaceExW NX NY NZ (.fld .p) i = 0 ∧
      surfaceExW NX NY NZ (.fld .Sxx) i = 1 := by
  have e : ∀ i : Pt NX NY NZ, (1 : ℝ) + ((i.1 : ℕ) : ℝ) ≠ 0 := fun i => by positivity
  refine ⟨fun i => ?_, fun i => ?_, fun i => ?_, fun i => ?_, fun i hi => ?_⟩
  · simp [surfaceExM, e]
  · simp [surfaceExM]
  · exact surfaceEx_rest i
  · have : (3 * 3 : ℝ) ≠ 4 * if (i.1 : ℕ) = 1 ∧ 0 < (i.2.1 : ℕ) then 0 else 1 := by
      split <;> norm_num
    simp only [surfaceExM, Pi.one_apply, one_ne_zero, false_implies, e, this, Pi.ofNat_apply, true_and,
      and_true]
    intro h
    have h1 : (i.1 : ℕ) = 1 ∧ 0 < (i.2.1 : ℕ) := by by_contra hh; simp [hh] at h
    simp [surfaceExW, h1.2.ne']
  · simp [surfaceExM, surfaceExW, hi]

end Verif.Solver
