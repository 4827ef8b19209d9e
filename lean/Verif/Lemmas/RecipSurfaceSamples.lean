import Verif.Lemmas.RecipSurface3D
/-! Reciprocity below a free surface: exchange of source and receiver for one sample. -/
set_option linter.dupNamespace false
set_option linter.constructorNameAsVariable false
set_option linter.unusedSectionVars false
set_option linter.unusedTactic false
set_option linter.unreachableTactic false
set_option linter.unusedSimpArgs false

namespace Verif.Solver
open Matrix Verif.Recip

variable {ι : Type} [Fintype ι] [DecidableEq ι]

/-- Weights below a free surface: the horizontal velocities on the surface belong to half a cell. -/
noncomputable def surfaceWeight (c : BC ι) (W : SType → ι → ℝ) : SType → ι → ℝ
  | .VX, i => c.dbl i * W .VX i
  | .VZ, i => c.dbl i * W .VZ i
  | ty, i => W ty i

private theorem bwd {M N : Matrix ι ι ℝ} {c : BC ι} {x : Axis} (hN : N = -M.transpose)
    (h : ∀ i j, M i j ≠ 0 → c.Across x i j) (i j : ι) (hij : N i j ≠ 0) : c.Across x i j := by
  rw [hN] at hij
  exact (h j i (by simpa using hij)).symm

private theorem hlv {M : Matrix ι ι ℝ} {c : BC ι} {x : Axis}
    (h : ∀ i j, M i j ≠ 0 → c.Across x i j) (i j : ι) (hij : c.halve M i j ≠ 0) : c.Across x i j := by
  unfold BC.halve at hij
  rw [diagonal_mul] at hij
  exact h i j (right_ne_zero_of_mul hij)

private theorem cutd {M : Matrix ι ι ℝ} {c : BC ι} {x : Axis}
    (h : ∀ i j, M i j ≠ 0 → c.Across x i j) (i j : ι) (hij : c.cut M i j ≠ 0) : c.Across x i j := by
  unfold BC.cut at hij
  rw [mul_diagonal] at hij
  exact h i j (left_ne_zero_of_mul hij)

/-- Every coupling of two components is along one axis. -/
local macro "couplings" hD:ident hal:ident a:ident b:ident h:ident : tactic => `(tactic| (
  obtain ⟨-, h1, h2, h3⟩ := $hal
  have b1 := bwd (Deriv.regular.adjX (Deriv.Surfaced.reg $hD)) h1
  have b2 := bwd (Deriv.regular.adjY (Deriv.Surfaced.reg $hD)) h2
  have b3 := bwd (Deriv.regular.adjZ (Deriv.Surfaced.reg $hD)) h3
  have n1 := hlv h1
  have n3 := hlv h3
  have m1 := hlv b1
  have m3 := hlv b3
  have k2 := cutd h2
  fin_cases $a:ident <;> fin_cases $b:ident <;>
    first
    | exact absurd rfl $h
    | exact ⟨.x, rfl, h1 _ _ $h, fun y hy => by cases y <;> first | rfl | exact absurd rfl hy⟩
    | exact ⟨.x, rfl, b1 _ _ $h, fun y hy => by cases y <;> first | rfl | exact absurd rfl hy⟩
    | exact ⟨.y, rfl, b2 _ _ $h, fun y hy => by cases y <;> first | rfl | exact absurd rfl hy⟩
    | exact ⟨.y, rfl, k2 _ _ $h, fun y hy => by cases y <;> first | rfl | exact absurd rfl hy⟩
    | exact ⟨.z, rfl, h3 _ _ $h, fun y hy => by cases y <;> first | rfl | exact absurd rfl hy⟩
    | exact ⟨.z, rfl, b3 _ _ $h, fun y hy => by cases y <;> first | rfl | exact absurd rfl hy⟩
    | exact ⟨.x, rfl, n1 _ _ $h, fun y hy => by cases y <;> first | rfl | exact absurd rfl hy⟩
    | exact ⟨.x, rfl, m1 _ _ $h, fun y hy => by cases y <;> first | rfl | exact absurd rfl hy⟩
    | exact ⟨.z, rfl, n3 _ _ $h, fun y hy => by cases y <;> first | rfl | exact absurd rfl hy⟩
    | exact ⟨.z, rfl, m3 _ _ $h, fun y hy => by cases y <;> first | rfl | exact absurd rfl hy⟩))

theorem acoustic2D_surface_sample {D : Deriv ι} (m : Mod ι) {c : BC ι} (hD : D.Surfaced c)
    (hc : c.useFreeSurface = 1) (hal : c.Aligned D) {A B : ι} (hA : c.Inside A) (hB : c.Inside B)
    {ty ty' : SType} (hty : ty ∈ [SType.P, .VX, .VY]) (hty' : ty' ∈ [SType.P, .VX, .VY])
    (hs : ty = .P → c.onSurface A = false) (hs' : ty' = .P → c.onSurface B = false)
    (sig : ℕ → ℝ) (t : ℕ) :
    acousticWeight m ty A * sample (acoustic2DSolver D m c) [⟨ty, A, sig⟩] 0 ⟨ty', B⟩ t =
      acousticWeight m ty' B * sample (acoustic2DSolver D m c) [⟨ty', B, sig⟩] 0 ⟨ty, A⟩ t := by
  have port : ∀ ty ∈ [SType.P, .VX, .VY], ∀ i, c.Inside i → (ty = .P → c.onSurface i = false) →
      HasPort (acoustic2DSolver D m c) (acoustic2DSurface D m c) layA2.gA (fun b => .fld (layA2.gB b))
        ty i (acousticWeight m ty i) := by
    intro ty hty i hi hs
    simp only [List.mem_cons, List.not_mem_nil, or_false] at hty
    rcases hty with rfl | rfl | rfl
    · have := port_B (S := acoustic2DSolver D m c) (L := layA2) (c := c) (ty := .P) (pos := i)
        (R := ![m.invRhoX, m.invRhoY]) (D := ![![D.Dxf], ![c.cut D.Dyf]])
        (Az := fun i => !![c.wt i * c.setZero i])
        (Q := fun i => !![c.wt i * c.setZero i * m.pMod i]) (gV := fun b => .fld (layA2.gB b)) 0 .p rfl rfl rfl
        (by intro b _; fin_cases b; rfl) (by intro a; fin_cases a <;> simp [layA2])
        (by intro b hb; fin_cases b; exact absurd rfl hb)
      simpa [hi.1, acousticWeight, acoustic2DSurface, BC.setZero, hs rfl] using this
    · exact port_A 0 rfl rfl (by intro a; fin_cases a <;> simp [layA2])
        (by intro b; fin_cases b; simp [layA2]) hi
    · exact port_A 1 rfl rfl (by intro a; fin_cases a <;> simp [layA2])
        (by intro b; fin_cases b; simp [layA2]) hi
  refine recip_scaled (S := acoustic2DSolver D m c) (acoustic2D_surface_steps hD hc) hal.unit (fun a b i j h => ?_) (fun i b b' _ => ?_)
    (fun i b b' _ => ?_) (fun i => ?_) (fun i => ?_) (port ty hty A hA hs) (port ty' hty' B hB hs') hA hB sig t
  · couplings hD hal a b h
  · fin_cases b; fin_cases b'; rfl
  · fin_cases b; fin_cases b'; rfl
  · ext b b'; fin_cases b; fin_cases b'; rfl
  · ext b b'; fin_cases b; fin_cases b'; rfl

theorem acoustic3D_surface_sample {D : Deriv ι} (m : Mod ι) {c : BC ι} (hD : D.Surfaced c)
    (hc : c.useFreeSurface = 1) (hal : c.Aligned D) {A B : ι} (hA : c.Inside A) (hB : c.Inside B)
    {ty ty' : SType} (hty : ty ∈ [SType.P, .VX, .VY, .VZ]) (hty' : ty' ∈ [SType.P, .VX, .VY, .VZ])
    (hs : ty = .P → c.onSurface A = false) (hs' : ty' = .P → c.onSurface B = false)
    (sig : ℕ → ℝ) (t : ℕ) :
    acousticWeight m ty A * sample (acoustic3DSolver D m c) [⟨ty, A, sig⟩] 0 ⟨ty', B⟩ t =
      acousticWeight m ty' B * sample (acoustic3DSolver D m c) [⟨ty', B, sig⟩] 0 ⟨ty, A⟩ t := by
  have port : ∀ ty ∈ [SType.P, .VX, .VY, .VZ], ∀ i, c.Inside i → (ty = .P → c.onSurface i = false) →
      HasPort (acoustic3DSolver D m c) (acoustic3DSurface D m c) layA3.gA (fun b => .fld (layA3.gB b))
        ty i (acousticWeight m ty i) := by
    intro ty hty i hi hs
    simp only [List.mem_cons, List.not_mem_nil, or_false] at hty
    rcases hty with rfl | rfl | rfl | rfl
    · have := port_B (S := acoustic3DSolver D m c) (L := layA3) (c := c) (ty := .P) (pos := i)
        (R := ![m.invRhoX, m.invRhoY, m.invRhoZ]) (D := ![![D.Dxf], ![c.cut D.Dyf], ![D.Dzf]])
        (Az := fun i => !![c.wt i * c.setZero i])
        (Q := fun i => !![c.wt i * c.setZero i * m.pMod i]) (gV := fun b => .fld (layA3.gB b)) 0 .p rfl rfl rfl
        (by intro b _; fin_cases b; rfl) (by intro a; fin_cases a <;> simp [layA3])
        (by intro b hb; fin_cases b; exact absurd rfl hb)
      simpa [hi.1, acousticWeight, acoustic3DSurface, BC.setZero, hs rfl] using this
    · exact port_A 0 rfl rfl (by intro a; fin_cases a <;> simp [layA3])
        (by intro b; fin_cases b; simp [layA3]) hi
    · exact port_A 1 rfl rfl (by intro a; fin_cases a <;> simp [layA3])
        (by intro b; fin_cases b; simp [layA3]) hi
    · exact port_A 2 rfl rfl (by intro a; fin_cases a <;> simp [layA3])
        (by intro b; fin_cases b; simp [layA3]) hi
  refine recip_scaled (S := acoustic3DSolver D m c) (acoustic3D_surface_steps hD hc) hal.unit (fun a b i j h => ?_) (fun i b b' _ => ?_)
    (fun i b b' _ => ?_) (fun i => ?_) (fun i => ?_) (port ty hty A hA hs) (port ty' hty' B hB hs') hA hB sig t
  · couplings hD hal a b h
  · fin_cases b; fin_cases b'; rfl
  · fin_cases b; fin_cases b'; rfl
  · ext b b'; fin_cases b; fin_cases b'; rfl
  · ext b b'; fin_cases b; fin_cases b'; rfl

theorem sh2D_surface_sample {D : Deriv ι} (m : Mod ι) {c : BC ι} (hD : D.Surfaced c)
    (hc : c.useFreeSurface = 1) (hal : c.Aligned D) {A B : ι} (hA : c.Inside A) (hB : c.Inside B)
    (sig : ℕ → ℝ) (t : ℕ) :
    surfaceWeight c (shWeight m) .VZ A * sample (sh2DSolver D m c) [⟨.VZ, A, sig⟩] 0 ⟨.VZ, B⟩ t =
      surfaceWeight c (shWeight m) .VZ B * sample (sh2DSolver D m c) [⟨.VZ, B, sig⟩] 0 ⟨.VZ, A⟩ t := by
  have port : ∀ i, c.Inside i →
      HasPort (sh2DSolver D m c) (sh2DSurface D m c) layS2.gA (fun b => .fld (layS2.gB b))
        .VZ i (surfaceWeight c (shWeight m) .VZ i) := by
    intro i hi
    have := port_A (S := sh2DSolver D m c) (L := layS2) (c := c) (ty := .VZ) (pos := i)
      (R := ![fun i => m.invRho i * c.dbl i]) (D := ![![c.halve D.Dxb, D.Dyb]])
      (Az := fun i => c.wt i • 1) (gV := fun b => .fld (layS2.gB b))
      (Q := fun i => c.wt i • !![c.dbl i * m.sModXZ i, 0; 0, m.sModYZ i])
      0 rfl rfl (by intro a; fin_cases a <;> simp [layS2])
        (by intro b; fin_cases b <;> simp [layS2]) hi
    have e : surfaceWeight c (shWeight m) .VZ i = -(m.invRho i * c.dbl i) := by
      simp [surfaceWeight, shWeight]
      ring
    rw [e]
    exact this
  refine recip_scaled (S := sh2DSolver D m c) (sh2D_surface_steps hD hc) hal.unit (fun a b i j h => ?_) (fun i b b' h => ?_)
    (fun i b b' h => ?_) (fun i => ?_) (fun i => ?_) (port A hA) (port B hB) hA hB sig t
  · couplings hD hal a b h
  · fin_cases b <;> fin_cases b' <;> simp [layS2] at h ⊢ <;> (funext x; cases x <;> rfl)
  · fin_cases b <;> fin_cases b' <;> simp [layS2] at h ⊢
  · ext b b'; fin_cases b <;> fin_cases b' <;> simp
  · ext b b'; fin_cases b <;> fin_cases b' <;> simp

theorem elastic2D_surface_sample {D : Deriv ι} (m : Mod ι) {c : BC ι} (hD : D.Surfaced c)
    (hc : c.useFreeSurface = 1) (hal : c.Aligned D) {A B : ι} (hA : c.Inside A) (hB : c.Inside B)
    {ty ty' : SType} (hty : ty ∈ [SType.P, .VX, .VY]) (hty' : ty' ∈ [SType.P, .VX, .VY])
    (hs : ty = .P → c.onSurface A = false) (hs' : ty' = .P → c.onSurface B = false)
    (sig : ℕ → ℝ) (t : ℕ) :
    surfaceWeight c (elastic2DWeight m) ty A * sample (elastic2DSolver D m c) [⟨ty, A, sig⟩] 0 ⟨ty', B⟩ t =
      surfaceWeight c (elastic2DWeight m) ty' B * sample (elastic2DSolver D m c) [⟨ty', B, sig⟩] 0 ⟨ty, A⟩ t := by
  have port : ∀ ty ∈ [SType.P, .VX, .VY], ∀ i, c.Inside i → (ty = .P → c.onSurface i = false) →
      HasPort (elastic2DSolver D m c) (elastic2DSurface D m c) layE2.gA (fun b => .fld (layE2.gB b))
        ty i (surfaceWeight c (elastic2DWeight m) ty i) := by
    intro ty hty i hi hs
    simp only [List.mem_cons, List.not_mem_nil, or_false] at hty
    rcases hty with rfl | rfl | rfl
    · have hs := hs rfl
      refine ⟨0, fun b j => if j = i then ![1 / 2, 1 / 2, 0] b else 0, ⟨fun s => ?_, fun a j => ?_,
        fun b j => ?_⟩, fun a j h => absurd rfl h, fun b j h => ?_⟩
      · simp [gather, elastic2DSolver, rec2Delastic, Fin.sum_univ_three, layE2]
        ring
      · fin_cases a <;> simp [Solver.srcFlds, elastic2DSolver, src2Delastic, layE2]
      · by_cases hj : j = i
        · subst hj
          fin_cases b <;> simp [Solver.srcFlds, elastic2DSolver, src2Delastic, layE2, hi.1, hs,
            elastic2DSurface, layout, Fin.sum_univ_three, elastic2DWeight, surfaceWeight] <;> ring
        · simp [hj, Ne.symm hj]
      · by_contra hn
        simp [hn] at h
    · have : surfaceWeight c (elastic2DWeight m) .VX i = -(m.invRhoX i * c.dbl i) := by
        simp [surfaceWeight, elastic2DWeight]
        ring
      rw [this]
      exact port_A 0 rfl rfl (by intro a; fin_cases a <;> simp [layE2])
        (by intro b; fin_cases b <;> simp [layE2]) hi
    · exact port_A 1 rfl rfl (by intro a; fin_cases a <;> simp [layE2])
        (by intro b; fin_cases b <;> simp [layE2]) hi
  refine recip_scaled (S := elastic2DSolver D m c) (elastic2D_surface_steps hD hc) hal.unit (fun a b i j h => ?_) (fun i b b' h => ?_)
    (fun i b b' h => ?_) (fun i => ?_) (fun i => ?_) (port ty hty A hA hs) (port ty' hty' B hB hs') hA hB sig t
  · couplings hD hal a b h
  · rcases Bool.eq_false_or_eq_true (c.onSurface i) with q | q <;>
    fin_cases b <;> fin_cases b' <;> simp [layE2, q] at h ⊢ <;> (funext x; cases x <;> rfl)
  · fin_cases b <;> fin_cases b' <;> simp [layE2] at h ⊢
  · rcases Bool.eq_false_or_eq_true (c.onSurface i) with q | q <;>
    ext b b' <;> fin_cases b <;> fin_cases b' <;> simp [q]
  · rcases Bool.eq_false_or_eq_true (c.onSurface i) with q | q <;>
    ext b b' <;> fin_cases b <;> fin_cases b' <;> simp [q, BC.setZero]

theorem elastic3D_surface_sample {D : Deriv ι} (m : Mod ι) {c : BC ι} (hD : D.Surfaced c)
    (hc : c.useFreeSurface = 1) (hal : c.Aligned D) {A B : ι} (hA : c.Inside A) (hB : c.Inside B)
    {ty ty' : SType} (hty : ty ∈ [SType.P, .VX, .VY, .VZ]) (hty' : ty' ∈ [SType.P, .VX, .VY, .VZ])
    (hs : ty = .P → c.onSurface A = false) (hs' : ty' = .P → c.onSurface B = false)
    (sig : ℕ → ℝ) (t : ℕ) :
    surfaceWeight c (elastic3DWeight m) ty A * sample (elastic3DSolver D m c) [⟨ty, A, sig⟩] 0 ⟨ty', B⟩ t =
      surfaceWeight c (elastic3DWeight m) ty' B * sample (elastic3DSolver D m c) [⟨ty', B, sig⟩] 0 ⟨ty, A⟩ t := by
  have port : ∀ ty ∈ [SType.P, .VX, .VY, .VZ], ∀ i, c.Inside i → (ty = .P → c.onSurface i = false) →
      HasPort (elastic3DSolver D m c) (elastic3DSurface D m c) layE3.gA (fun b => .fld (layE3.gB b))
        ty i (surfaceWeight c (elastic3DWeight m) ty i) := by
    intro ty hty i hi hs
    simp only [List.mem_cons, List.not_mem_nil, or_false] at hty
    rcases hty with rfl | rfl | rfl | rfl
    · have hs := hs rfl
      refine ⟨0, fun b j => if j = i then ![1 / 3, 1 / 3, 1 / 3, 0, 0, 0] b else 0, ⟨fun s => ?_,
        fun a j => ?_, fun b j => ?_⟩, fun a j h => absurd rfl h, fun b j h => ?_⟩
      · simp [gather, elastic3DSolver, rec3Delastic, Fin.sum_univ_six, layE3]
        ring
      · fin_cases a <;> simp [Solver.srcFlds, elastic3DSolver, src3Delastic, layE3]
      · by_cases hj : j = i
        · subst hj
          fin_cases b <;> simp [Solver.srcFlds, elastic3DSolver, src3Delastic, layE3, hi.1, hs,
            elastic3DSurface, elastic3DModuli, layout, Fin.sum_univ_six, elastic3DWeight, surfaceWeight,
            BC.setZero, BC.dbl, BC.select] <;> ring
        · simp [hj, Ne.symm hj]
      · by_contra hn
        simp [hn] at h
    · have : surfaceWeight c (elastic3DWeight m) .VX i = -(m.invRhoX i * c.dbl i) := by
        simp [surfaceWeight, elastic3DWeight]
        ring
      rw [this]
      exact port_A 0 rfl rfl (by intro a; fin_cases a <;> simp [layE3])
        (by intro b; fin_cases b <;> simp [layE3]) hi
    · exact port_A 1 rfl rfl (by intro a; fin_cases a <;> simp [layE3])
        (by intro b; fin_cases b <;> simp [layE3]) hi
    · have : surfaceWeight c (elastic3DWeight m) .VZ i = -(m.invRhoZ i * c.dbl i) := by
        simp [surfaceWeight, elastic3DWeight]
        ring
      rw [this]
      exact port_A 2 rfl rfl (by intro a; fin_cases a <;> simp [layE3])
        (by intro b; fin_cases b <;> simp [layE3]) hi
  refine recip_scaled (S := elastic3DSolver D m c) (elastic3D_surface_steps hD hc) hal.unit (fun a b i j h => ?_) (fun i b b' h => ?_)
    (fun i b b' h => ?_) (fun i => ?_) (fun i => ?_) (port ty hty A hA hs) (port ty' hty' B hB hs') hA hB sig t
  · couplings hD hal a b h
  · fin_cases b <;> fin_cases b' <;> simp [layE3, elastic3DModuli] at h ⊢ <;> (funext x; cases x <;> rfl)
  · fin_cases b <;> fin_cases b' <;> simp [layE3] at h ⊢
  · ext b b'; fin_cases b <;> fin_cases b' <;> simp [elastic3DModuli]
  · rcases Bool.eq_false_or_eq_true (c.onSurface i) with q | q <;>
    ext b b' <;> fin_cases b <;> fin_cases b' <;> simp [elastic3DModuli, q, BC.setZero, BC.dbl, BC.select]

end Verif.Solver
