import Verif.Lemmas.RecipSurfaceSamples
import Verif.Lemmas.SurfaceOrder2
import Verif.Props.Reciprocity
/-!
# C137: exchange of source and receiver below a free surface

With the free surface of the code (`FreeSurface = 1`), spatial order 2 and any model, the
seismograms of the two shots agree up to one factor per point. The factor is that of C99, doubled for
horizontal velocities on the surface, which belong to half a cell. Explosions and pressure
receivers have to be below the surface. For order 4 no choice of factors works: the free surface
changes one matrix of each pair but not the other.
-/
set_option linter.dupNamespace false
set_option linter.constructorNameAsVariable false
set_option linter.unusedSimpArgs false

namespace Verif.Solver
open Matrix Verif.Recip

variable {NX NY NZ : ℕ} {DT DH : ℝ} {c : BC (Pt NX NY NZ)} {A B : Pt NX NY NZ} {ty ty' : SType}

/-- The free surface is the plane `y = 0` of the regular grid. -/
def BC.TopSurface (c : BC (Pt NX NY NZ)) : Prop :=
  c.useFreeSurface = 1 ∧ ∀ i : Pt NX NY NZ, c.onSurface i = decide ((i.2.1 : ℕ) = 0)

/-- Pressure is injected and recorded below the surface. -/
def Submerged (ty : SType) (i : Pt NX NY NZ) : Prop := ty = .P → 0 < (i.2.1 : ℕ)

private theorem aligned (hx : c.AxisWise) : c.Aligned (surfaceDeriv NX NY NZ 2 DT DH) :=
  have h := hx.aligned 2 DT DH
  ⟨h.unit, h.acrossX, h.acrossY, h.acrossZ⟩

private theorem Submerged.off (hc : c.TopSurface) (h : Submerged ty A) (ht : ty = .P) :
    c.onSurface A = false := by
  rw [hc.2]
  simpa using (h ht).ne'

/-- Acoustic waves in 2D. -/
theorem C137_acoustic2D_partial (m : Mod (Pt NX NY NZ)) (hc : c.TopSurface) (hx : c.AxisWise)
    (hA : c.Untouched A) (hB : c.Untouched B)
    (hty : ty ∈ [SType.P, .VX, .VY]) (hty' : ty' ∈ [SType.P, .VX, .VY])
    (hs : Submerged ty A) (hs' : Submerged ty' B) :
    Reciprocal (acoustic2DSolver (surfaceDeriv NX NY NZ 2 DT DH) m c) (acousticWeight m) ty ty' A B := by
  have q : ∀ ty ∈ [SType.P, .VX, .VY],
      ((acoustic2DSolver (surfaceDeriv NX NY NZ 2 DT DH) m c).src ty).isSome ∧
      ((acoustic2DSolver (surfaceDeriv NX NY NZ 2 DT DH) m c).recv ty).isSome := by
    intro ty h; fin_cases h <;> exact ⟨rfl, rfl⟩
  exact fun s sig nt h0 => recip_shots (.acoustic2D m) s h0 rfl (q ty hty).1 (q ty hty).2
    (q ty' hty').1 (q ty' hty').2 nt fun t => acoustic2D_surface_sample m (surfaceDeriv_surfaced hc.2)
      hc.1 (aligned hx) hA.inside hB.inside hty hty' (hs.off hc) (hs'.off hc) sig t

/-- Acoustic waves in 3D. -/
theorem C137_acoustic3D_partial (m : Mod (Pt NX NY NZ)) (hc : c.TopSurface) (hx : c.AxisWise)
    (hA : c.Untouched A) (hB : c.Untouched B)
    (hty : ty ∈ [SType.P, .VX, .VY, .VZ]) (hty' : ty' ∈ [SType.P, .VX, .VY, .VZ])
    (hs : Submerged ty A) (hs' : Submerged ty' B) :
    Reciprocal (acoustic3DSolver (surfaceDeriv NX NY NZ 2 DT DH) m c) (acousticWeight m) ty ty' A B := by
  have q : ∀ ty ∈ [SType.P, .VX, .VY, .VZ],
      ((acoustic3DSolver (surfaceDeriv NX NY NZ 2 DT DH) m c).src ty).isSome ∧
      ((acoustic3DSolver (surfaceDeriv NX NY NZ 2 DT DH) m c).recv ty).isSome := by
    intro ty h; fin_cases h <;> exact ⟨rfl, rfl⟩
  exact fun s sig nt h0 => recip_shots (.acoustic3D m) s h0 rfl (q ty hty).1 (q ty hty).2
    (q ty' hty').1 (q ty' hty').2 nt fun t => acoustic3D_surface_sample m (surfaceDeriv_surfaced hc.2)
      hc.1 (aligned hx) hA.inside hB.inside hty hty' (hs.off hc) (hs'.off hc) sig t

/-- Elastic waves in 2D. -/
theorem C137_elastic2D_partial (m : Mod (Pt NX NY NZ)) (hc : c.TopSurface) (hx : c.AxisWise)
    (hA : c.Untouched A) (hB : c.Untouched B)
    (hty : ty ∈ [SType.P, .VX, .VY]) (hty' : ty' ∈ [SType.P, .VX, .VY])
    (hs : Submerged ty A) (hs' : Submerged ty' B) :
    Reciprocal (elastic2DSolver (surfaceDeriv NX NY NZ 2 DT DH) m c)
      (surfaceWeight c (elastic2DWeight m)) ty ty' A B := by
  have q : ∀ ty ∈ [SType.P, .VX, .VY],
      ((elastic2DSolver (surfaceDeriv NX NY NZ 2 DT DH) m c).src ty).isSome ∧
      ((elastic2DSolver (surfaceDeriv NX NY NZ 2 DT DH) m c).recv ty).isSome := by
    intro ty h; fin_cases h <;> exact ⟨rfl, rfl⟩
  exact fun s sig nt h0 => recip_shots (.elastic2D m) s h0 rfl (q ty hty).1 (q ty hty).2
    (q ty' hty').1 (q ty' hty').2 nt fun t => elastic2D_surface_sample m (surfaceDeriv_surfaced hc.2)
      hc.1 (aligned hx) hA.inside hB.inside hty hty' (hs.off hc) (hs'.off hc) sig t

/-- Elastic waves in 3D. -/
theorem C137_elastic3D_partial (m : Mod (Pt NX NY NZ)) (hc : c.TopSurface) (hx : c.AxisWise)
    (hA : c.Untouched A) (hB : c.Untouched B)
    (hty : ty ∈ [SType.P, .VX, .VY, .VZ]) (hty' : ty' ∈ [SType.P, .VX, .VY, .VZ])
    (hs : Submerged ty A) (hs' : Submerged ty' B) :
    Reciprocal (elastic3DSolver (surfaceDeriv NX NY NZ 2 DT DH) m c)
      (surfaceWeight c (elastic3DWeight m)) ty ty' A B := by
  have q : ∀ ty ∈ [SType.P, .VX, .VY, .VZ],
      ((elastic3DSolver (surfaceDeriv NX NY NZ 2 DT DH) m c).src ty).isSome ∧
      ((elastic3DSolver (surfaceDeriv NX NY NZ 2 DT DH) m c).recv ty).isSome := by
    intro ty h; fin_cases h <;> exact ⟨rfl, rfl⟩
  exact fun s sig nt h0 => recip_shots (.elastic3D m) s h0 rfl (q ty hty).1 (q ty hty).2
    (q ty' hty').1 (q ty' hty').2 nt fun t => elastic3D_surface_sample m (surfaceDeriv_surfaced hc.2)
      hc.1 (aligned hx) hA.inside hB.inside hty hty' (hs.off hc) (hs'.off hc) sig t

/-- SH waves. -/
theorem C137_sh2D_partial (m : Mod (Pt NX NY NZ)) (hc : c.TopSurface) (hx : c.AxisWise)
    (hA : c.Untouched A) (hB : c.Untouched B) :
    Reciprocal (sh2DSolver (surfaceDeriv NX NY NZ 2 DT DH) m c) (surfaceWeight c (shWeight m))
      .VZ .VZ A B :=
  fun s sig nt h0 => recip_shots (.sh2D m) s h0 rfl rfl rfl rfl rfl nt fun t =>
    sh2D_surface_sample m (surfaceDeriv_surfaced hc.2) hc.1 (aligned hx) hA.inside hB.inside sig t

/-- Rock with layers of ten points on all sides but the top. -/
noncomputable def recipTopBC : BC (Pt 40 50 1) :=
  ⟨1, none, some (regularPML ⟨2, 5, 3000, 1 / 1000, 10⟩ 10 1 false), fun i => decide ((i.2.1 : ℕ) = 0)⟩

/-- A vibrator on the surface, an explosion at depth. -/
example (m : Mod (Pt 40 50 1)) (sig : ℕ → ℝ) (nt : ℕ) : ∃ g g' : List ℝ,
    runShots (elastic2DSolver (surfaceDeriv 40 50 1 2 (1 / 1000) 10) m recipTopBC) 0
      [⟨[⟨.VX, (12, 0, 0), sig⟩], [⟨.P, (29, 39, 0)⟩], nt⟩,
       ⟨[⟨.P, (29, 39, 0), sig⟩], [⟨.VX, (12, 0, 0)⟩], nt⟩] = .ok [[g], [g']] ∧ g.length = nt ∧
      g.map (-(2 * m.invRhoX (12, 0, 0)) * ·) =
        g'.map ((m.pMod (29, 39, 0) - m.sMod (29, 39, 0)) * ·) := by
  have hq : (⟨2, 5, 3000, 1 / 1000, 10⟩ : Boundary.CPMLPar).Admissible := by
    refine ⟨?_, ?_, ?_, ?_, ?_⟩ <;> norm_num
  have h := C99_layers (c := recipTopBC) hq 10 false rfl rfl
  have := C137_elastic2D_partial (DT := 1 / 1000) (DH := 10) (c := recipTopBC) (A := (12, 0, 0))
    (B := (29, 39, 0)) (ty := .VX) (ty' := .P) m ⟨rfl, fun _ => rfl⟩ h.1
    (h.2 (12, 0, 0) (by decide) (by decide) (.inr (by decide)) (by decide) (by simp))
    (h.2 (29, 39, 0) (by decide) (by decide) (.inl (by decide)) (by decide) (by simp))
    (by simp) (by simp) (fun h => by cases h) (fun _ => by decide) 0 sig nt fun _ _ => rfl
  simpa [surfaceWeight, elastic2DWeight, recipTopBC, BC.dbl] using this

/-! ### Order 4 -/

/-- The state with value 1 of one component at one point. -/
noncomputable def unitAt {ι : Type} [DecidableEq ι] (f : Fld) (i : ι) : State ι := fun v j =>
  if v = .fld f ∧ j = i then 1 else 0

/-- Reciprocity for the samples after an impulse. -/
private theorem balance {ι : Type} [Fintype ι] [DecidableEq ι] {D : Deriv ι} {c : BC ι} {S : Solver ι}
    (hS : IsSolver D c S) (hr : S.ready = true) {ty : SType} {f : Fld} (h1 : S.src ty = some [f])
    (h2 : S.recv ty = some (1, [f])) {weight : SType → ι → ℝ} {A B : ι}
    (h : Reciprocal S weight ty ty A B) (n : ℕ) :
    weight ty A * (exec S.prog)^[n] (unitAt f A) (.fld f) B =
      weight ty B * (exec S.prog)^[n] (unitAt f B) (.fld f) A := by
  obtain ⟨g, g', e, -, hg⟩ := h 0 (fun t => if t = 0 then 1 else 0) (n + 1) fun _ _ => rfl
  rw [exchanged_shots hS 0 (fun _ _ => rfl) hr (by rw [h1]; rfl) (by rw [h2]; rfl) (by rw [h1]; rfl)
    (by rw [h2]; rfl)] at e
  have e := Out.ok.inj e
  simp only [List.cons.injEq, and_true] at e
  obtain ⟨rfl, rfl⟩ := e
  have k : ∀ A B : ι, sample S [⟨ty, A, fun t => if t = 0 then 1 else 0⟩] 0 ⟨ty, B⟩ n =
      (exec S.prog)^[n] (unitAt f A) (.fld f) B := by
    intro A B
    have r : ∀ n, run S [⟨ty, A, fun t => if t = 0 then 1 else 0⟩] 0 (n + 1) =
        (exec S.prog)^[n] (unitAt f A) := by
      intro n
      induction n with
      | zero =>
        show applySource S _ 0 (exec S.prog 0) = _
        rw [exec_zero]
        funext v j
        unfold applySource
        cases v <;> simp [Solver.srcFlds, h1, eq_comm, unitAt]
      | succ n ih =>
        rw [Function.iterate_succ_apply', ← ih]
        show applySource S _ (n + 1) (exec S.prog (run S _ 0 (n + 1))) = _
        funext v j
        unfold applySource
        cases v <;> simp
    unfold sample
    rw [r]
    simp [gather, h2]
  have := congrArg (fun l : List ℝ => l[n]?) hg
  simpa [k] using this

/-- A homogeneous column with unit parameters. -/
noncomputable def columnM : Mod (Pt 1 4 1) :=
  { invRho := 1, invRhoX := 1, invRhoY := 1, invRhoZ := 1, pMod := 1, sMod := 1, sModXY := 1
    sModXZ := 1, sModYZ := 1, tauP := 0, tauS := 0, tauSXY := 0, tauSXZ := 0, tauSYZ := 0, L := 0
    relaxTime := 0, DT := 1 }

/-- The free surface of the column, no absorbing boundary. -/
noncomputable def columnBC : BC (Pt 1 4 1) := ⟨1, none, none, fun i => decide ((i.2.1 : ℕ) = 0)⟩

private theorem column_sum (g : Pt 1 4 1 → ℝ) :
    ∑ i, g i = g (0, 0, 0) + g (0, 1, 0) + g (0, 2, 0) + g (0, 3, 0) := by
  rw [Fintype.sum_prod_type, Fin.sum_univ_one, Fintype.sum_prod_type, Fin.sum_univ_four]
  simp

/-- `Dyf` of order 4 in the column. -/
def rowsY : Fin 4 → Fin 4 → ℚ :=
  ![![-9 / 8, 9 / 8, -1 / 24, 0], ![1 / 24, -9 / 8, 9 / 8, -1 / 24], ![0, 1 / 24, -9 / 8, 9 / 8],
    ![0, 0, 1 / 24, -9 / 8]]

/-- `DyfFreeSurface` of order 4 in the column. -/
def rowsYfs : Fin 4 → Fin 4 → ℚ :=
  ![![0, 9 / 8 - 1 / 24, -1 / 24, 0], ![0, -9 / 8, 9 / 8, -1 / 24], ![0, 1 / 24, -9 / 8, 9 / 8],
    ![0, 0, 1 / 24, -9 / 8]]

/-- `DybFreeSurface` of order 4 in the column. -/
def rowsYbs : Fin 4 → Fin 4 → ℚ :=
  ![![9 / 4, -1 / 12, 0, 0], ![-9 / 8 - 1 / 24, 9 / 8, -1 / 24, 0], ![1 / 24, -9 / 8, 9 / 8, -1 / 24],
    ![0, 1 / 24, -9 / 8, 9 / 8]]

private theorem plain4 (r c : Fin 4) : Verif.Stencil.fwdStencilEntry 4 4 (r : ℕ) (c : ℕ) =
    rowsY r c := by
  revert r c
  decide +kernel

private theorem fwd4 (r c : Fin 4) :
    surfaceEntry (Verif.Stencil.fwdFreeSurfaceRow 4 1 (r : ℕ) 4) (c : ℕ) =
    rowsYfs r c := by
  revert r c
  decide +kernel

private theorem bwd4 (r c : Fin 4) :
    surfaceEntry (Verif.Stencil.bwdFreeSurfaceRow 4 1 (r : ℕ) 4) (c : ℕ) =
    rowsYbs r c := by
  revert r c
  decide +kernel

private theorem plain4_apply (r c : Fin 4) :
    (forwardMatrix 4 1 1 .y : Matrix (Pt 1 4 1) (Pt 1 4 1) ℝ) (0, r, 0) (0, c, 0) =
      ((rowsY r c : ℚ) : ℝ) := by
  rw [← plain4]
  simp [forwardMatrix, moveTo, along, axisSize]

private theorem fwd4_apply (r c : Fin 4) :
    (surfaceForward 4 1 1 : Matrix (Pt 1 4 1) (Pt 1 4 1) ℝ) (0, r, 0) (0, c, 0) =
      ((rowsYfs r c : ℚ) : ℝ) := by
  rw [← fwd4]
  simp [surfaceForward, moveTo, along, axisSize]

private theorem bwd4_apply (r c : Fin 4) :
    (surfaceBackward 4 1 1 : Matrix (Pt 1 4 1) (Pt 1 4 1) ℝ) (0, r, 0) (0, c, 0) =
      ((rowsYbs r c : ℚ) : ℝ) := by
  rw [← bwd4]
  simp [surfaceBackward, moveTo, along, axisSize]

private theorem across_zero {i j : Pt 1 4 1} (h : i.2.1 ≠ j.2.1) :
    (forwardMatrix 4 1 1 .x : Matrix (Pt 1 4 1) (Pt 1 4 1) ℝ) i j = 0 := by
  refine if_neg fun e => h ?_
  rw [← e]
  rfl

private theorem horizontal {i j : Pt 1 4 1} (h : i.2.1 ≠ j.2.1) :
    (backwardMatrix 4 1 1 .x * forwardMatrix 4 1 1 .x : Matrix (Pt 1 4 1) (Pt 1 4 1) ℝ) i j = 0 := by
  rw [Matrix.mul_apply]
  refine Finset.sum_eq_zero fun k _ => ?_
  by_cases hk : i.2.1 = k.2.1
  · rw [across_zero (i := k) (hk ▸ h), mul_zero]
  · rw [backwardMatrix, neg_apply, transpose_apply, across_zero (Ne.symm hk), neg_zero, zero_mul]

private theorem column_unit (M : Matrix (Pt 1 4 1) (Pt 1 4 1) ℝ) (f : Fld) (A B : Pt 1 4 1) :
    M.mulVec (unitAt f A (.fld f)) B = M B A := by
  have : unitAt f A (.fld f) = Pi.single A 1 := by
    funext j
    by_cases h : j = A
    · subst h
      simp [unitAt]
    · simp [unitAt, h]
  rw [this]
  simp

/-- One time step in the acoustic column. -/
private theorem acoustic_column {A B : Pt 1 4 1} (h : A.2.1 ≠ B.2.1) (hB : (B.2.1 : ℕ) ≠ 0) :
    (exec (acoustic2D (surfaceDeriv 1 4 1 4 1 1) columnM columnBC))^[1] (unitAt .p A) (.fld .p) B =
      (backwardMatrix 4 1 1 .y * surfaceForward 4 1 1 : Matrix (Pt 1 4 1) (Pt 1 4 1) ℝ) B A := by
  have hx : unitAt .p A (.fld .vX) = 0 := by funext j; simp [unitAt]
  have hy : unitAt .p A (.fld .vY) = 0 := by funext j; simp [unitAt]
  have hp : unitAt .p A (.fld .p) B = 0 := by
    have : B ≠ A := fun e => h (by rw [e])
    simp [unitAt, this]
  have e : exec (acoustic2D (surfaceDeriv 1 4 1 4 1 1) columnM columnBC) (unitAt .p A) (.fld .p) B =
      (unitAt .p A (.fld .p) B +
        ((backwardMatrix 4 1 1 .x * forwardMatrix 4 1 1 .x).mulVec (unitAt .p A (.fld .p)) B +
        (backwardMatrix 4 1 1 .y * surfaceForward 4 1 1).mulVec (unitAt .p A (.fld .p)) B)) *
      columnBC.setZero B := by
    simp [acoustic2D, surfaceDeriv, regularDeriv, interp, ifFS, selFS, cpmlHalf, cpmlFull, damp, columnBC,
      columnM, Stmt.exec, set_ne, hx, hy, surfaceZero, exec_cons]
  have z : columnBC.setZero B = 1 := by simpa [columnBC, BC.setZero] using hB
  rw [Function.iterate_one, e, hp, z, column_unit, column_unit, horizontal h.symm]
  simp

/-- Two time steps in the SH column. -/
private theorem sh_column {A B : Pt 1 4 1} (h : A.2.1 ≠ B.2.1) :
    (exec (sh2D (surfaceDeriv 1 4 1 4 1 1) columnM columnBC))^[2] (unitAt .vZ A) (.fld .vZ) B =
      (surfaceBackward 4 1 1 * forwardMatrix 4 1 1 .y : Matrix (Pt 1 4 1) (Pt 1 4 1) ℝ) B A := by
  have hx : unitAt .vZ A (.fld .Sxz) = 0 := by funext j; simp [unitAt]
  have hy : unitAt .vZ A (.fld .Syz) = 0 := by funext j; simp [unitAt]
  have hp : unitAt .vZ A (.fld .vZ) B = 0 := by
    have : B ≠ A := fun e => h (by rw [e])
    simp [unitAt, this]
  have e : (exec (sh2D (surfaceDeriv 1 4 1 4 1 1) columnM columnBC))^[2] (unitAt .vZ A) (.fld .vZ) B =
      unitAt .vZ A (.fld .vZ) B +
        ((backwardMatrix 4 1 1 .x * forwardMatrix 4 1 1 .x).mulVec (unitAt .vZ A (.fld .vZ)) B +
        (surfaceBackward 4 1 1 * forwardMatrix 4 1 1 .y).mulVec (unitAt .vZ A (.fld .vZ)) B) := by
    simp [sh2D, surfaceDeriv, regularDeriv, interp, ifFS, selFS, cpmlHalf, cpmlFull, damp, columnBC,
      columnM, Stmt.exec, set_ne, hx, hy, surfaceZero, exec_cons, Function.iterate_succ_apply']
  rw [e, hp, column_unit, column_unit, horizontal h.symm]
  simp

private theorem null_mulVec {ι : Type} [Fintype ι] (M : Matrix ι ι ℝ) : M.mulVec (fun _ => (0 : ℝ)) = 0 :=
  M.mulVec_zero

section Parts
variable {ι : Type} [Fintype ι] {D : Deriv ι} {m : Mod ι} {k : BC ι} {s : State ι}
  (hi1 : D.interFull = none) (hi2 : D.interSX = none) (h1 : k.useFreeSurface = 1) (h2 : k.damping = none)
  (h3 : k.pml = none)
include hi1 hi2 h1 h2 h3

private theorem elastic_second (i : ι) :
    exec (elastic2D D m k) s (.fld .vX) i = s (.fld .vX) i +
      (D.Dxf.mulVec (s (.fld .Sxx)) i + D.DybSXFS.mulVec (s (.fld .Sxy)) i) * m.invRhoX i := by
  simp [elastic2D, interp, ifFS, selFS, cpmlHalf, cpmlFull, damp, Stmt.exec, set_ne, h1, h2, h3, hi1, hi2,
    surfaceZero, exchange2D, exec_cons]

private theorem elastic_first (z1 : s (.fld .Sxx) = 0) (z2 : s (.fld .Syy) = 0) (z3 : s (.fld .Sxy) = 0)
    (z4 : s (.fld .vY) = 0) :
    exec (elastic2D D m k) s (.fld .vX) = s (.fld .vX) ∧
    (∀ i, exec (elastic2D D m k) s (.fld .Sxy) i = D.DyfSX.mulVec (s (.fld .vX)) i * m.sModXY i) ∧
    ∀ i, exec (elastic2D D m k) s (.fld .Sxx) i =
      (m.pMod i + scaleHor m k i) * D.Dxb.mulVec (s (.fld .vX)) i := by
  refine ⟨?_, ?_, ?_⟩
  · funext i
    simp [elastic2D, interp, ifFS, selFS, cpmlHalf, cpmlFull, damp, Stmt.exec, set_ne, h1, h2, h3, hi1, hi2,
      surfaceZero, exchange2D, exec_cons, z1, z2, z3, z4, null_mulVec]
  · intro i
    simp [elastic2D, interp, ifFS, selFS, cpmlHalf, cpmlFull, damp, Stmt.exec, set_ne, h1, h2, h3, hi1, hi2,
      surfaceZero, exchange2D, exec_cons, z1, z2, z3, z4, null_mulVec]
  · intro i
    simp [elastic2D, interp, ifFS, selFS, cpmlHalf, cpmlFull, damp, Stmt.exec, set_ne, h1, h2, h3, hi1, hi2,
      surfaceZero, exchange2D, exec_cons, z1, z2, z3, z4, null_mulVec]
    ring

end Parts

private theorem column_Dxf : (surfaceDeriv 1 4 1 4 1 1).Dxf = forwardMatrix 4 1 1 .x := by
  simp [surfaceDeriv, regularDeriv]

private theorem column_Dxb : (surfaceDeriv 1 4 1 4 1 1).Dxb = backwardMatrix 4 1 1 .x := by
  simp [surfaceDeriv, regularDeriv]

private theorem column_DyfSX : (surfaceDeriv 1 4 1 4 1 1).DyfSX = forwardMatrix 4 1 1 .y := by
  simp [surfaceDeriv, regularDeriv]

private theorem column_DybSXFS : (surfaceDeriv 1 4 1 4 1 1).DybSXFS = surfaceBackward 4 1 1 := by
  simp [surfaceDeriv, regularDeriv]

private theorem elastic_abstract {k : BC (Pt 1 4 1)} {D : Deriv (Pt 1 4 1)} {m : Mod (Pt 1 4 1)}
    (hi1 : D.interFull = none) (hi2 : D.interSX = none) (h1 : k.useFreeSurface = 1)
    (h2 : k.damping = none) (h3 : k.pml = none) (hm : m.sModXY = 1) (hr : m.invRhoX = 1)
    {A B : Pt 1 4 1} (h : A.2.1 ≠ B.2.1)
    (hf : ∀ i j : Pt 1 4 1, i.2.1 ≠ j.2.1 → D.Dxf i j = 0)
    (hb : ∀ i j : Pt 1 4 1, i.2.1 ≠ j.2.1 → D.Dxb i j = 0) :
    (exec (elastic2D D m k))^[2] (unitAt .vX A) (.fld .vX) B = (D.DybSXFS * D.DyfSX) B A := by
  obtain ⟨e1, e2, e3⟩ := elastic_first (m := m) (s := unitAt .vX A) hi1 hi2 h1 h2 h3
    (by funext j; simp [unitAt]) (by funext j; simp [unitAt])
    (by funext j; simp [unitAt]) (by funext j; simp [unitAt])
  have hp : unitAt .vX A (.fld .vX) B = 0 := by
    have : B ≠ A := fun e => h (by rw [e])
    simp [unitAt, this]
  have e4 : exec (elastic2D D m k) (unitAt .vX A) (.fld .Sxy) =
      D.DyfSX.mulVec (unitAt .vX A (.fld .vX)) := by
    funext i
    rw [e2, hm, Pi.one_apply, mul_one]
  have e5 : D.Dxf.mulVec (exec (elastic2D D m k) (unitAt .vX A) (.fld .Sxx)) B = 0 := by
    show ∑ k, D.Dxf B k * _ = 0
    refine Finset.sum_eq_zero fun k _ => ?_
    rw [e3]
    by_cases hk : B.2.1 = k.2.1
    · rw [column_unit, hb k A (hk ▸ h.symm), mul_zero, mul_zero]
    · rw [hf _ _ hk, zero_mul]
  rw [Function.iterate_succ_apply', Function.iterate_one, elastic_second hi1 hi2 h1 h2 h3,
    e5, e1, e4, hp, mulVec_mulVec, column_unit, hr, Pi.one_apply, mul_one, zero_add, zero_add]

/-- Two time steps in the elastic column. -/
private theorem elastic_column {A B : Pt 1 4 1} (h : A.2.1 ≠ B.2.1) :
    (exec (elastic2D (surfaceDeriv 1 4 1 4 1 1) columnM columnBC))^[2] (unitAt .vX A) (.fld .vX) B =
      (surfaceBackward 4 1 1 * forwardMatrix 4 1 1 .y : Matrix (Pt 1 4 1) (Pt 1 4 1) ℝ) B A := by
  rw [elastic_abstract rfl rfl rfl rfl rfl rfl rfl h, column_DyfSX, column_DybSXFS]
  · intro i j hij
    rw [column_Dxf, across_zero hij]
  · intro i j hij
    rw [column_Dxb, backwardMatrix, Matrix.neg_apply, transpose_apply, across_zero hij.symm, neg_zero]

private theorem acoustic_values (A B : Fin 4) :
    (backwardMatrix 4 1 1 .y * surfaceForward 4 1 1 : Matrix (Pt 1 4 1) (Pt 1 4 1) ℝ) (0, B, 0) (0, A, 0) =
      ((∑ k, -rowsY k B *
        rowsYfs k A : ℚ) : ℝ) := by
  rw [Matrix.mul_apply, column_sum]
  simp only [backwardMatrix, Matrix.neg_apply, transpose_apply, plain4_apply, fwd4_apply, Fin.sum_univ_four]
  push_cast
  rfl

private theorem shear_values (A B : Fin 4) :
    (surfaceBackward 4 1 1 * forwardMatrix 4 1 1 .y : Matrix (Pt 1 4 1) (Pt 1 4 1) ℝ) (0, B, 0) (0, A, 0) =
      ((∑ k, rowsYbs B k *
        rowsY k A : ℚ) : ℝ) := by
  rw [Matrix.mul_apply, column_sum]
  simp only [plain4_apply, bwd4_apply, Fin.sum_univ_four]
  push_cast
  rfl

/-- The responses between three points cannot be balanced. -/
private theorem unbalanced {G : Fin 4 → Fin 4 → ℚ} {w : Fin 4 → ℝ} (hw : ∀ i, w i ≠ 0)
    (h23 : G 2 3 = G 3 2) (h13 : G 1 3 = G 3 1) (n23 : G 2 3 ≠ 0) (n13 : G 1 3 ≠ 0)
    (h12 : G 1 2 ≠ G 2 1)
    (b : ∀ A B : Fin 4, A ≠ 0 → B ≠ 0 → A ≠ B → w A * (G A B : ℝ) = w B * (G B A : ℝ)) : False := by
  have b12 := b 1 2 (by decide) (by decide) (by decide)
  have b23 := b 2 3 (by decide) (by decide) (by decide)
  have b13 := b 1 3 (by decide) (by decide) (by decide)
  rw [← h23] at b23
  rw [← h13] at b13
  have q1 : w 2 = w 3 := mul_right_cancel₀ (by exact_mod_cast n23) b23
  have q2 : w 1 = w 3 := mul_right_cancel₀ (by exact_mod_cast n13) b13
  rw [q1, q2] at b12
  exact h12 (by exact_mod_cast mul_left_cancel₀ (hw 3) b12)

/-- C137: for order 4 no factors make pressure seismograms below a free surface reciprocal, not even
in a homogeneous medium. -/
theorem C137_acoustic2D_violated {weight : SType → Pt 1 4 1 → ℝ} (hw : ∀ i, weight .P i ≠ 0) :
    ∃ A B : Pt 1 4 1, Submerged .P A ∧ Submerged .P B ∧
      ¬ Reciprocal (acoustic2DSolver (surfaceDeriv 1 4 1 4 1 1) columnM columnBC) weight .P .P A B := by
  by_contra hn
  push Not at hn
  refine unbalanced (w := fun i => weight .P (0, i, 0)) (fun i => hw _) ?_ ?_ ?_ ?_ ?_
    (fun A B hA hB hAB => ?_) (G := fun A B => ∑ k,
      -rowsY k B *
        rowsYfs k A)
  · decide +kernel
  · decide +kernel
  · decide +kernel
  · decide +kernel
  · decide +kernel
  · have := balance (.acoustic2D columnM) rfl rfl rfl
      (hn (0, A, 0) (0, B, 0) (fun _ => Fin.pos_iff_ne_zero.2 hA) fun _ => Fin.pos_iff_ne_zero.2 hB) 1
    rw [show (acoustic2DSolver (surfaceDeriv 1 4 1 4 1 1) columnM columnBC).prog =
      acoustic2D (surfaceDeriv 1 4 1 4 1 1) columnM columnBC from rfl,
      acoustic_column hAB (Fin.val_ne_of_ne hB), acoustic_column hAB.symm (Fin.val_ne_of_ne hA),
      acoustic_values, acoustic_values] at this
    exact this

/-- C137: SH waves of order 4. -/
theorem C137_sh2D_violated {weight : SType → Pt 1 4 1 → ℝ} (hw : ∀ i, weight .VZ i ≠ 0) :
    ∃ A B : Pt 1 4 1,
      ¬ Reciprocal (sh2DSolver (surfaceDeriv 1 4 1 4 1 1) columnM columnBC) weight .VZ .VZ A B := by
  by_contra hn
  push Not at hn
  refine unbalanced (w := fun i => weight .VZ (0, i, 0)) (fun i => hw _) ?_ ?_ ?_ ?_ ?_
    (fun A B hA hB hAB => ?_) (G := fun A B => ∑ k,
      rowsYbs B k *
        rowsY k A)
  · decide +kernel
  · decide +kernel
  · decide +kernel
  · decide +kernel
  · decide +kernel
  · have := balance (.sh2D columnM) rfl rfl rfl (hn (0, A, 0) (0, B, 0)) 2
    rw [show (sh2DSolver (surfaceDeriv 1 4 1 4 1 1) columnM columnBC).prog =
      sh2D (surfaceDeriv 1 4 1 4 1 1) columnM columnBC from rfl,
      sh_column hAB, sh_column hAB.symm, shear_values, shear_values] at this
    exact this

/-- C137: horizontal forces in elastic media, order 4. -/
theorem C137_elastic2D_violated {weight : SType → Pt 1 4 1 → ℝ} (hw : ∀ i, weight .VX i ≠ 0) :
    ∃ A B : Pt 1 4 1,
      ¬ Reciprocal (elastic2DSolver (surfaceDeriv 1 4 1 4 1 1) columnM columnBC) weight .VX .VX A B := by
  by_contra hn
  push Not at hn
  refine unbalanced (w := fun i => weight .VX (0, i, 0)) (fun i => hw _) ?_ ?_ ?_ ?_ ?_
    (fun A B hA hB hAB => ?_) (G := fun A B => ∑ k,
      rowsYbs B k *
        rowsY k A)
  · decide +kernel
  · decide +kernel
  · decide +kernel
  · decide +kernel
  · decide +kernel
  · have := balance (.elastic2D columnM) rfl rfl rfl (hn (0, A, 0) (0, B, 0)) 2
    rw [show (elastic2DSolver (surfaceDeriv 1 4 1 4 1 1) columnM columnBC).prog =
      elastic2D (surfaceDeriv 1 4 1 4 1 1) columnM columnBC from rfl,
      elastic_column hAB, elastic_column hAB.symm, shear_values, shear_values] at this
    exact this

end Verif.Solver
