import Verif.Lemmas.RecipSamples
/-! Reciprocity below a free surface: the solvers as symmetric schemes if the matrices of the free
surface are the plain ones with the surface row scaled. -/
set_option linter.dupNamespace false
set_option linter.unusedSectionVars false
set_option linter.constructorNameAsVariable false
set_option linter.unusedSimpArgs false
set_option linter.unusedTactic false
set_option linter.unreachableTactic false

namespace Verif.Solver
open Matrix Verif.Recip

variable {ι : Type} [Fintype ι] [DecidableEq ι]

/-- 2 on the surface, 1 below. -/
noncomputable def BC.dbl (c : BC ι) (i : ι) : ℝ := if c.onSurface i then 2 else 1

/-- 1/2 on the surface, 1 below. -/
noncomputable def BC.hlf (c : BC ι) (i : ι) : ℝ := if c.onSurface i then 1 / 2 else 1

/-- The matrix with every row halved that belongs to the surface. -/
noncomputable def BC.halve (c : BC ι) (M : Matrix ι ι ℝ) : Matrix ι ι ℝ := diagonal c.hlf * M

/-- The matrix with every row doubled that belongs to the surface. -/
noncomputable def BC.double (c : BC ι) (M : Matrix ι ι ℝ) : Matrix ι ι ℝ := diagonal c.dbl * M

/-- The matrix without the columns of the surface. -/
noncomputable def BC.cut (c : BC ι) (M : Matrix ι ι ℝ) : Matrix ι ι ℝ := M * diagonal c.setZero

/-- The matrices of the free surface in terms of the plain ones. -/
structure Deriv.Surfaced (D : Deriv ι) (c : BC ι) : Prop where
  reg : D.regular
  fwd : D.DyfFS = c.cut D.Dyf
  bwd : D.DybFS = c.double D.Dyb
  bwdSX : D.DybSXFS = c.double D.Dyb
  bwdSZ : D.DybSZFS = c.double D.Dyb
  alongX : ∀ i j, D.Dxf i j ≠ 0 → c.onSurface i = c.onSurface j
  alongZ : ∀ i j, D.Dzf i j ≠ 0 → c.onSurface i = c.onSurface j

theorem halve_mulVec (c : BC ι) (M : Matrix ι ι ℝ) (v : ι → ℝ) (i : ι) :
    (c.halve M).mulVec v i = c.hlf i * M.mulVec v i := by
  unfold BC.halve
  rw [← Matrix.mulVec_mulVec, Matrix.mulVec_diagonal]

theorem halve_transpose_mulVec {c : BC ι} {M : Matrix ι ι ℝ}
    (h : ∀ i j, M i j ≠ 0 → c.onSurface i = c.onSurface j) (v : ι → ℝ) (i : ι) :
    (c.halve M).transpose.mulVec v i = c.hlf i * M.transpose.mulVec v i := by
  simp only [Matrix.mulVec, dotProduct, Finset.mul_sum, Matrix.transpose_apply, BC.halve,
    Matrix.diagonal_mul]
  refine Finset.sum_congr rfl fun j _ => ?_
  by_cases hz : M j i = 0
  · simp [hz]
  · have : c.hlf j = c.hlf i := by
      unfold BC.hlf
      rw [h j i hz]
    rw [this]
    ring

theorem halve_back_transpose_mulVec {c : BC ι} {M : Matrix ι ι ℝ}
    (h : ∀ i j, M i j ≠ 0 → c.onSurface i = c.onSurface j) (v : ι → ℝ) (i : ι) :
    (c.halve (-M.transpose)).transpose.mulVec v i = c.hlf i * (-M.mulVec v i) := by
  rw [halve_transpose_mulVec (fun i j hij => (h j i (by simpa using hij)).symm)]
  simp [Matrix.neg_mulVec]

theorem dbl_mulVec (c : BC ι) (M : Matrix ι ι ℝ) (v : ι → ℝ) (i : ι) :
    (c.double M).mulVec v i = c.dbl i * M.mulVec v i := by
  unfold BC.double
  rw [← Matrix.mulVec_mulVec, Matrix.mulVec_diagonal]

theorem zero_transpose_mulVec (c : BC ι) (M : Matrix ι ι ℝ) (v : ι → ℝ) (i : ι) :
    (c.cut M).transpose.mulVec v i = c.setZero i * M.transpose.mulVec v i := by
  unfold BC.cut
  rw [Matrix.transpose_mul, Matrix.diagonal_transpose, ← Matrix.mulVec_mulVec, Matrix.mulVec_diagonal]

section Layout
variable {A B : Type} [Fintype A] [Fintype B] [DecidableEq A] [DecidableEq B]
variable {S : Solver ι} {L : Lay A B} {c : BC ι} {R : A → ι → ℝ} {D : A → B → Matrix ι ι ℝ}
  {Az Q : ι → Matrix B B ℝ} {gV : B → Var} {ty : SType} {pos : ι}

/-- Reciprocity in terms of weights; the memory variables of the solver are multiples of those of
the scheme. -/
theorem recip_scaled {κ μ : A → B → ι → ℝ}
    (hs : Steps (layout L c R D Az Q) S.prog L.gA gV (fun s a b i => κ a b i * L.mψ c s a b i)
      (fun s a b i => μ a b i * L.mφ c s a b i))
    (hu : ∀ h x i, 1 + c.ca h x i ≠ 0)
    (hD : ∀ a b i j, D a b i j ≠ 0 → ∃ x, L.ax a b = some x ∧ c.Across x i j ∧
      ∀ y, y ≠ x → half (L.gA a) y = half (L.gB b) y)
    (hQh : ∀ i b b', Q i b b' ≠ 0 → half (L.gB b) = half (L.gB b'))
    (hAh : ∀ i b b', Az i b b' ≠ 0 → half (L.gB b) = half (L.gB b'))
    (hQ : ∀ i, (Q i).transpose = Q i)
    (hAQ : ∀ i, (Az i * Q i).transpose = Az i * Q i)
    {ty ty' : SType} {pos pos' : ι} {W W' : ℝ}
    (hp : HasPort S (layout L c R D Az Q) L.gA gV ty pos W)
    (hp' : HasPort S (layout L c R D Az Q) L.gA gV ty' pos' W')
    (hi : c.Inside pos) (hi' : c.Inside pos') (sig : ℕ → ℝ) (t : ℕ) :
    W * sample S [⟨ty, pos, sig⟩] 0 ⟨ty', pos'⟩ t = W' * sample S [⟨ty', pos', sig⟩] 0 ⟨ty, pos⟩ t := by
  obtain ⟨u, v, hp, h1, h2⟩ := hp
  obtain ⟨u', v', hp', h1', h2'⟩ := hp'
  refine recip_solver hs (fun a b i => ?_) (fun a b i => ?_)
    (fun srcs t s => ?_) (fun srcs t s => ?_) (fun a => omega c (L.gA a)) (fun b => omega c (L.gB b))
    (fun a i => omega_unit hu _ _) (fun a b i j h => ?_) (fun i b b' h => omega_congr (hQh i b b' h) i)
    (fun i b b' h => omega_congr (hAh i b b' h) i) hQ hAQ hp hp' (fun a i h => ?_) (fun b i h => ?_) sig t
  · show κ a b i * memOf _ _ _ _ _ _ = 0
    rw [memOf_zero, mul_zero]
  · show μ a b i * memOf _ _ _ _ _ _ = 0
    rw [memOf_zero, mul_zero]
  · funext a b i
    show κ a b i * memOf _ _ _ _ _ _ = κ a b i * memOf _ _ _ _ _ _
    rw [memOf_applySource]
  · funext a b i
    show μ a b i * memOf _ _ _ _ _ _ = μ a b i * memOf _ _ _ _ _ _
    rw [memOf_applySource]
  · obtain ⟨x, hx, hac, hh⟩ := hD a b i j h
    have := omega_rel hac hh
    simpa [layout, coefA, coefB, hx, stretchAt] using this
  · rcases h with h | h
    · exact h1 a i h ▸ omega_inside hi _
    · exact h1' a i h ▸ omega_inside hi' _
  · rcases h with h | h
    · exact h2 b i h ▸ omega_inside hi _
    · exact h2' b i h ▸ omega_inside hi' _

theorem none_ψ {a : A} {b : B} (h : L.ax a b = none) (k : ℝ) (s : State ι) (z : B → ι → ℝ)
    (ψ : A → B → ι → ℝ) (i : ι) :
    k * L.mψ c s a b i = nextψ (layout L c R D Az Q) z ψ a b i := by
  simp [Lay.mψ, nextψ, layout, coefA, coefB, memOf, h]

theorem none_φ {a : A} {b : B} (h : L.ax a b = none) (k : ℝ) (s : State ι) (t : A → ι → ℝ)
    (φ : A → B → ι → ℝ) (i : ι) :
    k * L.mφ c s a b i = nextφ (layout L c R D Az Q) t φ a b i := by
  simp [Lay.mφ, nextφ, layout, coefA, coefB, memOf, h]

theorem none_mψ {a : A} {b : B} (h : L.ax a b = none) (k : ℝ) (s s' : State ι) (i : ι) :
    k * L.mψ c s a b i = k * L.mψ c s' a b i := by
  simp [Lay.mψ, memOf, h]

theorem none_mφ {a : A} {b : B} (h : L.ax a b = none) (k : ℝ) (s s' : State ι) (i : ι) :
    k * L.mφ c s a b i = k * L.mφ c s' a b i := by
  simp [Lay.mφ, memOf, h]

end Layout

/-! ### The solvers -/

/-- Evaluate one half step. -/
macro "surface_half_step" d:ident l:ident c:ident : tactic => `(tactic| (
  rename_i hc hr f1 f2 f3 f4 hx hz g1 g2 g3 g4 k1 k2 k3 k4 a1 a2 a3 x1 x2 z1 z2 s
  refine ⟨fun a i => ?_, fun b => ?_, fun a b i => ?_, fun a b i => ?_⟩ <;>
    (try fin_cases a) <;> (try fin_cases b) <;> (try intro i) <;>
    first
    | exact none_ψ rfl _ _ _ _ _
    | exact none_φ rfl _ _ _ _ _
    | exact none_mψ rfl _ _ _ _
    | exact none_mφ rfl _ _ _ _
    | skip <;>
    simp [interp, ifFS, selFS, hc, g1, g2, g3, g4, k1, k2, k3, k4, cpmlHalf_fld, cpmlHalf_scr,
      cpmlHalf_rel, cpmlFull_fld, cpmlFull_scr, cpmlFull_rel, mem_cpmlHalf, mem_cpmlFull, damp_fld,
      damp_mem, damp_rel, mem_set_fld, mem_set_scr, mem_set_rel, Stmt.exec, set_ne, BC.upd,
      nextT, nextZ, nextψ, nextφ, layout, Lay.mψ, Lay.mφ, coefA, coefB, memOf, half, $d:ident,
      $l:ident, f1, f2, f3, f4, halve_mulVec, x1, x2, z1, z2, dbl_mulVec, zero_transpose_mulVec,
      a1, a2, a3, Matrix.neg_mulVec, Fin.sum_univ_two, Fin.sum_univ_three, Fin.sum_univ_six,
      surfaceZero, exchange2D, exchange3D, scaleHor, scaleVert] <;>
    (try rcases Bool.eq_false_or_eq_true (BC.onSurface $c i) with hs | hs) <;>
    (try simp [BC.dbl, BC.hlf, BC.setZero, BC.select, hs]) <;> (try ring1)))

/-- Names for the facts about the matrices. -/
macro "surface_half_steps" k:num d:ident l:ident c:ident : tactic => `(tactic| (
  rename_i hD hc
  obtain ⟨hr, f1, f2, f3, f4, hx, hz⟩ := hD
  obtain ⟨g1, g2, g3, g4, k1, k2, k3, k4⟩ := hr.getters
  have a1 := hr.adjX
  have a2 := hr.adjY
  have a3 := hr.adjZ
  have x1 := halve_transpose_mulVec hx
  have x2 := halve_back_transpose_mulVec hx
  have z1 := halve_transpose_mulVec hz
  have z2 := halve_back_transpose_mulVec hz
  refine Steps.split rfl $k (fun s => ?_) (fun s => ?_)
  · surface_half_step $d $l $c
  · surface_half_step $d $l $c))

/-- The 2D acoustic solver below a free surface as a scheme. -/
noncomputable def acoustic2DSurface (D : Deriv ι) (m : Mod ι) (c : BC ι) : Scheme (Fin 2) (Fin 1) ι :=
  layout layA2 c ![m.invRhoX, m.invRhoY] ![![D.Dxf], ![c.cut D.Dyf]]
    (fun i => !![c.wt i * c.setZero i]) (fun i => !![c.wt i * c.setZero i * m.pMod i])

theorem acoustic2D_surface_steps {D : Deriv ι} {m : Mod ι} {c : BC ι} (hD : D.Surfaced c)
    (hc : c.useFreeSurface = 1) :
    Steps (acoustic2DSurface D m c) (acoustic2D D m c) layA2.gA (fun b => .fld (layA2.gB b))
      (fun s a b i => 1 * layA2.mψ c s a b i)
      (fun s a b i => ![![1], ![c.setZero]] a b i * layA2.mφ c s a b i) := by
  surface_half_steps 8 acoustic2DSurface layA2 c

/-- The SH solver below a free surface as a scheme. -/
noncomputable def sh2DSurface (D : Deriv ι) (m : Mod ι) (c : BC ι) : Scheme (Fin 1) (Fin 2) ι :=
  layout layS2 c ![fun i => m.invRho i * c.dbl i] ![![c.halve D.Dxb, D.Dyb]] (fun i => c.wt i • 1)
    (fun i => c.wt i • !![c.dbl i * m.sModXZ i, 0; 0, m.sModYZ i])

theorem sh2D_surface_steps {D : Deriv ι} {m : Mod ι} {c : BC ι} (hD : D.Surfaced c)
    (hc : c.useFreeSurface = 1) :
    Steps (sh2DSurface D m c) (sh2D D m c) layS2.gA (fun b => .fld (layS2.gB b))
      (fun s a b i => ![![c.hlf, c.hlf]] a b i * layS2.mψ c s a b i)
      (fun s a b i => ![![c.hlf, 1]] a b i * layS2.mφ c s a b i) := by
  surface_half_steps 4 sh2DSurface layS2 c

/-- The 2D elastic solver below a free surface as a scheme. -/
noncomputable def elastic2DSurface (D : Deriv ι) (m : Mod ι) (c : BC ι) : Scheme (Fin 2) (Fin 3) ι :=
  layout layE2 c ![fun i => m.invRhoX i * c.dbl i, m.invRhoY]
    ![![c.halve D.Dxf, 0, D.Dyb], ![0, c.cut D.Dyf, D.Dxb]]
    (fun i => c.wt i • !![1, 0, 0; 0, c.setZero i, 0; 0, 0, 1])
    (fun i => c.wt i • if c.onSurface i then
      !![2 * (m.pMod i - (m.pMod i - 2 * m.sMod i) ^ 2 / m.pMod i), 0, 0;
        0, 0, 0; 0, 0, m.sModXY i]
      else !![m.pMod i, m.pMod i - 2 * m.sMod i, 0;
        m.pMod i - 2 * m.sMod i, m.pMod i, 0; 0, 0, m.sModXY i])

set_option maxHeartbeats 2000000 in
theorem elastic2D_surface_steps {D : Deriv ι} {m : Mod ι} {c : BC ι} (hD : D.Surfaced c)
    (hc : c.useFreeSurface = 1) :
    Steps (elastic2DSurface D m c) (elastic2D D m c) layE2.gA (fun b => .fld (layE2.gB b))
      (fun s a b i => ![![c.hlf, 1, c.hlf], ![1, 1, 1]] a b i * layE2.mψ c s a b i)
      (fun s a b i => ![![c.hlf, 1, 1], ![1, c.setZero, 1]] a b i * layE2.mφ c s a b i) := by
  surface_half_steps 12 elastic2DSurface layE2 c

/-- The 3D acoustic solver below a free surface as a scheme. -/
noncomputable def acoustic3DSurface (D : Deriv ι) (m : Mod ι) (c : BC ι) : Scheme (Fin 3) (Fin 1) ι :=
  layout layA3 c ![m.invRhoX, m.invRhoY, m.invRhoZ] ![![D.Dxf], ![c.cut D.Dyf], ![D.Dzf]]
    (fun i => !![c.wt i * c.setZero i]) (fun i => !![c.wt i * c.setZero i * m.pMod i])

theorem acoustic3D_surface_steps {D : Deriv ι} {m : Mod ι} {c : BC ι} (hD : D.Surfaced c)
    (hc : c.useFreeSurface = 1) :
    Steps (acoustic3DSurface D m c) (acoustic3D D m c) layA3.gA (fun b => .fld (layA3.gB b))
      (fun s a b i => 1 * layA3.mψ c s a b i)
      (fun s a b i => ![![1], ![c.setZero], ![1]] a b i * layA3.mφ c s a b i) := by
  surface_half_steps 12 acoustic3DSurface layA3 c

end Verif.Solver
