import Verif.Lemmas.RecipPorts
/-! Reciprocity: exchange of source and receiver for one sample of the seismogram. -/
set_option linter.dupNamespace false
set_option linter.constructorNameAsVariable false
set_option linter.unusedSectionVars false
set_option linter.unusedTactic false
set_option linter.unreachableTactic false

namespace Verif.Solver
open Matrix Verif.Recip

variable {ι : Type} [Fintype ι] [DecidableEq ι]

/-! ### Strength of sources and receivers -/

/-- Change of the recorded quantity caused by a unit strain increment (pressure, electric field) or
a unit force increment (velocity, magnetic field; with opposite sign) at the point: acoustic
solvers. -/
def acousticWeight (m : Mod ι) : SType → ι → ℝ
  | .P, i => m.pMod i
  | .VX, i => -m.invRhoX i
  | .VY, i => -m.invRhoY i
  | .VZ, i => -m.invRhoZ i
  | _, _ => 0

/-- 2D elastic solver: pressure sources and receivers see the bulk modulus in the plane. -/
def elastic2DWeight (m : Mod ι) : SType → ι → ℝ
  | .P, i => m.pMod i - m.sMod i
  | .VX, i => -m.invRhoX i
  | .VY, i => -m.invRhoY i
  | _, _ => 0

/-- 3D elastic solver: pressure sources and receivers see the bulk modulus. -/
noncomputable def elastic3DWeight (m : Mod ι) : SType → ι → ℝ
  | .P, i => m.pMod i - 4 / 3 * m.sMod i
  | .VX, i => -m.invRhoX i
  | .VY, i => -m.invRhoY i
  | .VZ, i => -m.invRhoZ i
  | _, _ => 0

/-- SH solvers. -/
def shWeight (m : Mod ι) : SType → ι → ℝ
  | .VZ, i => -m.invRho i
  | _, _ => 0

/-- Electromagnetic solvers. -/
noncomputable def emWeight (m : EMod ι) : SType → ι → ℝ
  | .EX, i => m.cb .x i
  | .EY, i => m.cb .y i
  | .EZ, i => m.cb .z i
  | .HZ, i => -m.invMuXY i
  | _, _ => 0

/-! ### The solvers -/

private theorem bwd {M N : Matrix ι ι ℝ} {c : BC ι} {x : Axis} (hN : N = -M.transpose)
    (h : ∀ i j, M i j ≠ 0 → c.Across x i j) (i j : ι) (hij : N i j ≠ 0) : c.Across x i j := by
  rw [hN] at hij
  exact (h j i (by simpa using hij)).symm

private theorem neg {M : Matrix ι ι ℝ} {c : BC ι} {x : Axis}
    (h : ∀ i j, M i j ≠ 0 → c.Across x i j) (i j : ι) (hij : (-M) i j ≠ 0) : c.Across x i j :=
  h i j (by simpa using hij)

/-- Every coupling of two components is along one axis. -/
local macro "couplings" hD:ident hal:ident a:ident b:ident h:ident : tactic => `(tactic| (
  obtain ⟨-, h1, h2, h3⟩ := $hal
  have b1 := bwd (Deriv.regular.adjX $hD) h1
  have b2 := bwd (Deriv.regular.adjY $hD) h2
  have b3 := bwd (Deriv.regular.adjZ $hD) h3
  have n1 := neg h1
  have n2 := neg h2
  have n3 := neg h3
  fin_cases $a:ident <;> fin_cases $b:ident <;>
    first
    | exact absurd rfl $h
    | exact ⟨.x, rfl, h1 _ _ $h, fun y hy => by cases y <;> first | rfl | exact absurd rfl hy⟩
    | exact ⟨.y, rfl, h2 _ _ $h, fun y hy => by cases y <;> first | rfl | exact absurd rfl hy⟩
    | exact ⟨.z, rfl, h3 _ _ $h, fun y hy => by cases y <;> first | rfl | exact absurd rfl hy⟩
    | exact ⟨.x, rfl, b1 _ _ $h, fun y hy => by cases y <;> first | rfl | exact absurd rfl hy⟩
    | exact ⟨.y, rfl, b2 _ _ $h, fun y hy => by cases y <;> first | rfl | exact absurd rfl hy⟩
    | exact ⟨.z, rfl, b3 _ _ $h, fun y hy => by cases y <;> first | rfl | exact absurd rfl hy⟩
    | exact ⟨.x, rfl, n1 _ _ $h, fun y hy => by cases y <;> first | rfl | exact absurd rfl hy⟩
    | exact ⟨.y, rfl, n2 _ _ $h, fun y hy => by cases y <;> first | rfl | exact absurd rfl hy⟩
    | exact ⟨.z, rfl, n3 _ _ $h, fun y hy => by cases y <;> first | rfl | exact absurd rfl hy⟩))

theorem acoustic2D_sample {D : Deriv ι} (m : Mod ι) {c : BC ι} (hD : D.regular)
    (hc : c.useFreeSurface ≠ 1) (hal : c.Aligned D) {A B : ι} (hA : c.Inside A) (hB : c.Inside B)
    {ty ty' : SType} (hty : ty ∈ [SType.P, .VX, .VY]) (hty' : ty' ∈ [SType.P, .VX, .VY])
    (sig : ℕ → ℝ) (t : ℕ) :
    acousticWeight m ty A * sample (acoustic2DSolver D m c) [⟨ty, A, sig⟩] 0 ⟨ty', B⟩ t =
      acousticWeight m ty' B * sample (acoustic2DSolver D m c) [⟨ty', B, sig⟩] 0 ⟨ty, A⟩ t := by
  have port : ∀ ty ∈ [SType.P, .VX, .VY], ∀ i, c.Inside i →
      HasPort (acoustic2DSolver D m c) (acoustic2DScheme D m c) layA2.gA (fun b => .fld (layA2.gB b))
        ty i (acousticWeight m ty i) := by
    intro ty hty i hi
    simp only [List.mem_cons, List.not_mem_nil, or_false] at hty
    rcases hty with rfl | rfl | rfl
    · have := port_B (S := acoustic2DSolver D m c) (L := layA2) (c := c) (ty := .P) (pos := i)
        (R := ![m.invRhoX, m.invRhoY]) (D := ![![D.Dxf], ![D.Dyf]]) (Az := fun i => c.wt i • 1)
        (Q := fun i => !![c.wt i * m.pMod i]) (gV := fun b => .fld (layA2.gB b)) 0 .p rfl rfl rfl
        (by intro b _; fin_cases b; rfl) (by intro a; fin_cases a <;> simp [layA2])
        (by intro b hb; fin_cases b; exact absurd rfl hb)
      simpa [hi.1, acousticWeight, acoustic2DScheme] using this
    · exact port_A 0 rfl rfl (by intro a; fin_cases a <;> simp [layA2])
        (by intro b; fin_cases b; simp [layA2]) hi
    · exact port_A 1 rfl rfl (by intro a; fin_cases a <;> simp [layA2])
        (by intro b; fin_cases b; simp [layA2]) hi
  refine recip_ports (S := acoustic2DSolver D m c) (acoustic2D_steps hD hc) hal.unit (fun a b i j h => ?_) (fun i b b' _ => ?_)
    (fun i b b' _ => ?_) (fun i => ?_) (fun i => ?_) (port ty hty A hA) (port ty' hty' B hB) hA hB sig t
  · couplings hD hal a b h
  · fin_cases b; fin_cases b'; rfl
  · fin_cases b; fin_cases b'; rfl
  · ext b b'; fin_cases b; fin_cases b'; rfl
  · ext b b'; fin_cases b; fin_cases b'; rfl

theorem elastic2D_sample {D : Deriv ι} (m : Mod ι) {c : BC ι} (hD : D.regular)
    (hc : c.useFreeSurface ≠ 1) (hal : c.Aligned D) {A B : ι} (hA : c.Inside A) (hB : c.Inside B)
    {ty ty' : SType} (hty : ty ∈ [SType.P, .VX, .VY]) (hty' : ty' ∈ [SType.P, .VX, .VY])
    (sig : ℕ → ℝ) (t : ℕ) :
    elastic2DWeight m ty A * sample (elastic2DSolver D m c) [⟨ty, A, sig⟩] 0 ⟨ty', B⟩ t =
      elastic2DWeight m ty' B * sample (elastic2DSolver D m c) [⟨ty', B, sig⟩] 0 ⟨ty, A⟩ t := by
  have port : ∀ ty ∈ [SType.P, .VX, .VY], ∀ i, c.Inside i →
      HasPort (elastic2DSolver D m c) (elastic2DScheme D m c) layE2.gA (fun b => .fld (layE2.gB b))
        ty i (elastic2DWeight m ty i) := by
    intro ty hty i hi
    simp only [List.mem_cons, List.not_mem_nil, or_false] at hty
    rcases hty with rfl | rfl | rfl
    · refine ⟨0, fun b j => if j = i then ![1 / 2, 1 / 2, 0] b else 0, ⟨fun s => ?_, fun a j => ?_,
        fun b j => ?_⟩, fun a j h => absurd rfl h, fun b j h => ?_⟩
      · simp [gather, elastic2DSolver, rec2Delastic, Fin.sum_univ_three, layE2]
        ring
      · fin_cases a <;> simp [Solver.srcFlds, elastic2DSolver, src2Delastic, layE2]
      · by_cases hj : j = i
        · subst hj
          fin_cases b <;> simp [Solver.srcFlds, elastic2DSolver, src2Delastic, layE2, hi.1,
            elastic2DScheme, layout, Fin.sum_univ_three, elastic2DWeight] <;> ring
        · simp [hj, Ne.symm hj]
      · by_contra hn
        simp [hn] at h
    · exact port_A 0 rfl rfl (by intro a; fin_cases a <;> simp [layE2])
        (by intro b; fin_cases b <;> simp [layE2]) hi
    · exact port_A 1 rfl rfl (by intro a; fin_cases a <;> simp [layE2])
        (by intro b; fin_cases b <;> simp [layE2]) hi
  refine recip_ports (S := elastic2DSolver D m c) (elastic2D_steps hD hc) hal.unit (fun a b i j h => ?_) (fun i b b' h => ?_)
    (fun i b b' h => ?_) (fun i => ?_) (fun i => ?_) (port ty hty A hA) (port ty' hty' B hB) hA hB sig t
  · couplings hD hal a b h
  · fin_cases b <;> fin_cases b' <;> simp [layE2] at h ⊢ <;> (funext x; cases x <;> rfl)
  · fin_cases b <;> fin_cases b' <;> simp [layE2] at h ⊢
  · ext b b'; fin_cases b <;> fin_cases b' <;> simp
  · ext b b'; fin_cases b <;> fin_cases b' <;> simp


theorem acoustic3D_sample {D : Deriv ι} (m : Mod ι) {c : BC ι} (hD : D.regular)
    (hc : c.useFreeSurface ≠ 1) (hal : c.Aligned D) {A B : ι} (hA : c.Inside A) (hB : c.Inside B)
    {ty ty' : SType} (hty : ty ∈ [SType.P, .VX, .VY, .VZ]) (hty' : ty' ∈ [SType.P, .VX, .VY, .VZ])
    (sig : ℕ → ℝ) (t : ℕ) :
    acousticWeight m ty A * sample (acoustic3DSolver D m c) [⟨ty, A, sig⟩] 0 ⟨ty', B⟩ t =
      acousticWeight m ty' B * sample (acoustic3DSolver D m c) [⟨ty', B, sig⟩] 0 ⟨ty, A⟩ t := by
  have port : ∀ ty ∈ [SType.P, .VX, .VY, .VZ], ∀ i, c.Inside i →
      HasPort (acoustic3DSolver D m c) (acoustic3DScheme D m c) layA3.gA (fun b => .fld (layA3.gB b))
        ty i (acousticWeight m ty i) := by
    intro ty hty i hi
    simp only [List.mem_cons, List.not_mem_nil, or_false] at hty
    rcases hty with rfl | rfl | rfl | rfl
    · have := port_B (S := acoustic3DSolver D m c) (L := layA3) (c := c) (ty := .P) (pos := i)
        (R := ![m.invRhoX, m.invRhoY, m.invRhoZ]) (D := ![![D.Dxf], ![D.Dyf], ![D.Dzf]])
        (Az := fun i => c.wt i • 1) (Q := fun i => !![c.wt i * m.pMod i]) (gV := fun b => .fld (layA3.gB b)) 0 .p rfl rfl rfl
        (by intro b; fin_cases b <;> simp [layA3]) (by intro a; fin_cases a <;> simp [layA3])
        (by intro b; fin_cases b <;> simp)
      simpa [hi.1, acousticWeight, acoustic3DScheme] using this
    · exact port_A 0 rfl rfl (by intro a; fin_cases a <;> simp [layA3])
        (by intro b; fin_cases b <;> simp [layA3]) hi
    · exact port_A 1 rfl rfl (by intro a; fin_cases a <;> simp [layA3])
        (by intro b; fin_cases b <;> simp [layA3]) hi
    · exact port_A 2 rfl rfl (by intro a; fin_cases a <;> simp [layA3])
        (by intro b; fin_cases b <;> simp [layA3]) hi
  refine recip_ports (S := acoustic3DSolver D m c) (acoustic3D_steps hD hc) hal.unit (fun a b i j h => ?_) (fun i b b' h => ?_)
    (fun i b b' h => ?_) (fun i => ?_) (fun i => ?_) (port ty hty A hA) (port ty' hty' B hB) hA hB sig t
  · couplings hD hal a b h
  · fin_cases b <;> fin_cases b' <;> simp [layA3] at h ⊢ <;> (funext x; cases x <;> rfl)
  · fin_cases b <;> fin_cases b' <;> simp [layA3] at h ⊢
  · ext b b'; fin_cases b <;> fin_cases b' <;> simp
  · ext b b'; fin_cases b <;> fin_cases b' <;> simp

theorem elastic3D_sample {D : Deriv ι} (m : Mod ι) {c : BC ι} (hD : D.regular)
    (hc : c.useFreeSurface ≠ 1) (hal : c.Aligned D) {A B : ι} (hA : c.Inside A) (hB : c.Inside B)
    {ty ty' : SType} (hty : ty ∈ [SType.P, .VX, .VY, .VZ]) (hty' : ty' ∈ [SType.P, .VX, .VY, .VZ])
    (sig : ℕ → ℝ) (t : ℕ) :
    elastic3DWeight m ty A * sample (elastic3DSolver D m c) [⟨ty, A, sig⟩] 0 ⟨ty', B⟩ t =
      elastic3DWeight m ty' B * sample (elastic3DSolver D m c) [⟨ty', B, sig⟩] 0 ⟨ty, A⟩ t := by
  have port : ∀ ty ∈ [SType.P, .VX, .VY, .VZ], ∀ i, c.Inside i →
      HasPort (elastic3DSolver D m c) (elastic3DScheme D m c) layE3.gA (fun b => .fld (layE3.gB b))
        ty i (elastic3DWeight m ty i) := by
    intro ty hty i hi
    simp only [List.mem_cons, List.not_mem_nil, or_false] at hty
    rcases hty with rfl | rfl | rfl | rfl
    · refine ⟨0, fun b j => if j = i then ![1 / 3, 1 / 3, 1 / 3, 0, 0, 0] b else 0, ⟨fun s => ?_,
        fun a j => ?_, fun b j => ?_⟩, fun a j h => absurd rfl h, fun b j h => ?_⟩
      · simp [gather, elastic3DSolver, rec3Delastic, Fin.sum_univ_six, layE3]
        ring
      · fin_cases a <;> simp [Solver.srcFlds, elastic3DSolver, src3Delastic, layE3]
      · by_cases hj : j = i
        · subst hj
          fin_cases b <;> simp [Solver.srcFlds, elastic3DSolver, src3Delastic, layE3, hi.1,
            elastic3DScheme, layout, Fin.sum_univ_six, elastic3DWeight] <;> ring
        · simp [hj, Ne.symm hj]
      · by_contra hn
        simp [hn] at h
    · exact port_A 0 rfl rfl (by intro a; fin_cases a <;> simp [layE3])
        (by intro b; fin_cases b <;> simp [layE3]) hi
    · exact port_A 1 rfl rfl (by intro a; fin_cases a <;> simp [layE3])
        (by intro b; fin_cases b <;> simp [layE3]) hi
    · exact port_A 2 rfl rfl (by intro a; fin_cases a <;> simp [layE3])
        (by intro b; fin_cases b <;> simp [layE3]) hi
  refine recip_ports (S := elastic3DSolver D m c) (elastic3D_steps hD hc) hal.unit (fun a b i j h => ?_) (fun i b b' h => ?_)
    (fun i b b' h => ?_) (fun i => ?_) (fun i => ?_) (port ty hty A hA) (port ty' hty' B hB) hA hB sig t
  · couplings hD hal a b h
  · fin_cases b <;> fin_cases b' <;> simp [layE3] at h ⊢ <;> (funext x; cases x <;> rfl)
  · fin_cases b <;> fin_cases b' <;> simp [layE3] at h ⊢
  · ext b b'; fin_cases b <;> fin_cases b' <;> simp
  · ext b b'; fin_cases b <;> fin_cases b' <;> simp

theorem sh2D_sample {D : Deriv ι} (m : Mod ι) {c : BC ι} (hD : D.regular)
    (hc : c.useFreeSurface ≠ 1) (hal : c.Aligned D) {A B : ι} (hA : c.Inside A) (hB : c.Inside B)
    {ty ty' : SType} (hty : ty ∈ [SType.VZ]) (hty' : ty' ∈ [SType.VZ])
    (sig : ℕ → ℝ) (t : ℕ) :
    shWeight m ty A * sample (sh2DSolver D m c) [⟨ty, A, sig⟩] 0 ⟨ty', B⟩ t =
      shWeight m ty' B * sample (sh2DSolver D m c) [⟨ty', B, sig⟩] 0 ⟨ty, A⟩ t := by
  have port : ∀ ty ∈ [SType.VZ], ∀ i, c.Inside i →
      HasPort (sh2DSolver D m c) (sh2DScheme D m c) layS2.gA (fun b => .fld (layS2.gB b))
        ty i (shWeight m ty i) := by
    intro ty hty i hi
    simp only [List.mem_cons, List.not_mem_nil, or_false] at hty
    subst hty
    · exact port_A 0 rfl rfl (by intro a; fin_cases a <;> simp [layS2])
        (by intro b; fin_cases b <;> simp [layS2]) hi
  refine recip_ports (S := sh2DSolver D m c) (sh2D_steps hD hc) hal.unit (fun a b i j h => ?_) (fun i b b' h => ?_)
    (fun i b b' h => ?_) (fun i => ?_) (fun i => ?_) (port ty hty A hA) (port ty' hty' B hB) hA hB sig t
  · couplings hD hal a b h
  · fin_cases b <;> fin_cases b' <;> simp [layS2] at h ⊢ <;> (funext x; cases x <;> rfl)
  · fin_cases b <;> fin_cases b' <;> simp [layS2] at h ⊢
  · ext b b'; fin_cases b <;> fin_cases b' <;> simp
  · ext b b'; fin_cases b <;> fin_cases b' <;> simp

theorem emem2D_sample {D : Deriv ι} (m : EMod ι) {c : BC ι} (hD : D.regular)
    (hal : c.Aligned D) {A B : ι} (hA : c.Inside A) (hB : c.Inside B)
    {ty ty' : SType} (hty : ty ∈ [SType.EX, .EY, .HZ]) (hty' : ty' ∈ [SType.EX, .EY, .HZ])
    (sig : ℕ → ℝ) (t : ℕ) :
    emWeight m ty A * sample (emem2DSolver D m c) [⟨ty, A, sig⟩] 0 ⟨ty', B⟩ t =
      emWeight m ty' B * sample (emem2DSolver D m c) [⟨ty', B, sig⟩] 0 ⟨ty, A⟩ t := by
  have port : ∀ ty ∈ [SType.EX, .EY, .HZ], ∀ i, c.Inside i →
      HasPort (emem2DSolver D m c) (emem2DScheme D m c) layEM2.gA (fun b => .fld (layEM2.gB b))
        ty i (emWeight m ty i) := by
    intro ty hty i hi
    simp only [List.mem_cons, List.not_mem_nil, or_false] at hty
    rcases hty with rfl | rfl | rfl
    · have := port_B (S := emem2DSolver D m c) (L := layEM2) (c := c) (ty := .EX) (pos := i)
        (R := ![m.invMuXY]) (D := ![![D.Dyf, -D.Dxf]])
        (Az := fun i => c.wt i • !![m.ca .x i, 0; 0, m.ca .y i])
        (Q := fun i => c.wt i • !![m.cb .x i, 0; 0, m.cb .y i]) (gV := fun b => .fld (layEM2.gB b)) 0 .eX rfl rfl rfl
        (by intro b; fin_cases b <;> simp [layEM2]) (by intro a; fin_cases a <;> simp [layEM2])
        (by intro b; fin_cases b <;> simp)
      simpa [hi.1, emWeight, emem2DScheme] using this
    · have := port_B (S := emem2DSolver D m c) (L := layEM2) (c := c) (ty := .EY) (pos := i)
        (R := ![m.invMuXY]) (D := ![![D.Dyf, -D.Dxf]])
        (Az := fun i => c.wt i • !![m.ca .x i, 0; 0, m.ca .y i])
        (Q := fun i => c.wt i • !![m.cb .x i, 0; 0, m.cb .y i]) (gV := fun b => .fld (layEM2.gB b)) 1 .eY rfl rfl rfl
        (by intro b; fin_cases b <;> simp [layEM2]) (by intro a; fin_cases a <;> simp [layEM2])
        (by intro b; fin_cases b <;> simp)
      simpa [hi.1, emWeight, emem2DScheme] using this
    · exact port_A 0 rfl rfl (by intro a; fin_cases a <;> simp [layEM2])
        (by intro b; fin_cases b <;> simp [layEM2]) hi
  refine recip_ports (S := emem2DSolver D m c) (emem2D_steps hD) hal.unit (fun a b i j h => ?_) (fun i b b' h => ?_)
    (fun i b b' h => ?_) (fun i => ?_) (fun i => ?_) (port ty hty A hA) (port ty' hty' B hB) hA hB sig t
  · couplings hD hal a b h
  · fin_cases b <;> fin_cases b' <;> simp [layEM2] at h ⊢ <;> (funext x; cases x <;> rfl)
  · fin_cases b <;> fin_cases b' <;> simp [layEM2] at h ⊢
  · ext b b'; fin_cases b <;> fin_cases b' <;> simp
  · ext b b'; fin_cases b <;> fin_cases b' <;> simp

theorem tmem2D_sample {D : Deriv ι} (m : EMod ι) {c : BC ι} (hD : D.regular)
    (hal : c.Aligned D) {A B : ι} (hA : c.Inside A) (hB : c.Inside B)
    {ty ty' : SType} (hty : ty ∈ [SType.EZ]) (hty' : ty' ∈ [SType.EZ])
    (sig : ℕ → ℝ) (t : ℕ) :
    emWeight m ty A * sample (tmem2DSolver D m c) [⟨ty, A, sig⟩] 0 ⟨ty', B⟩ t =
      emWeight m ty' B * sample (tmem2DSolver D m c) [⟨ty', B, sig⟩] 0 ⟨ty, A⟩ t := by
  have port : ∀ ty ∈ [SType.EZ], ∀ i, c.Inside i →
      HasPort (tmem2DSolver D m c) (tmem2DScheme D m c) layTM2.gA (fun b => .fld (layTM2.gB b))
        ty i (emWeight m ty i) := by
    intro ty hty i hi
    simp only [List.mem_cons, List.not_mem_nil, or_false] at hty
    subst hty
    · have := port_B (S := tmem2DSolver D m c) (L := layTM2) (c := c) (ty := .EZ) (pos := i)
        (R := ![m.invMuYZ, m.invMuXZ]) (D := ![![-D.Dyf], ![D.Dxf]])
        (Az := fun i => c.wt i • !![m.ca .z i]) (Q := fun i => c.wt i • !![m.cb .z i]) (gV := fun b => .fld (layTM2.gB b)) 0 .eZ rfl rfl rfl
        (by intro b; fin_cases b <;> simp [layTM2]) (by intro a; fin_cases a <;> simp [layTM2])
        (by intro b; fin_cases b <;> simp)
      simpa [hi.1, emWeight, tmem2DScheme] using this
  refine recip_ports (S := tmem2DSolver D m c) (tmem2D_steps hD) hal.unit (fun a b i j h => ?_) (fun i b b' h => ?_)
    (fun i b b' h => ?_) (fun i => ?_) (fun i => ?_) (port ty hty A hA) (port ty' hty' B hB) hA hB sig t
  · couplings hD hal a b h
  · fin_cases b <;> fin_cases b' <;> simp [layTM2] at h ⊢ <;> (funext x; cases x <;> rfl)
  · fin_cases b <;> fin_cases b' <;> simp [layTM2] at h ⊢
  · ext b b'; fin_cases b <;> fin_cases b' <;> simp
  · ext b b'; fin_cases b <;> fin_cases b' <;> simp

theorem emem3D_sample {D : Deriv ι} (m : EMod ι) {c : BC ι} (hD : D.regular)
    (hc : c.pml = none) (hal : c.Aligned D) {A B : ι} (hA : c.Inside A) (hB : c.Inside B)
    {ty ty' : SType} (hty : ty ∈ [SType.EX, .EY, .EZ, .HZ]) (hty' : ty' ∈ [SType.EX, .EY, .EZ, .HZ])
    (sig : ℕ → ℝ) (t : ℕ) :
    emWeight m ty A * sample (emem3DSolver D m c) [⟨ty, A, sig⟩] 0 ⟨ty', B⟩ t =
      emWeight m ty' B * sample (emem3DSolver D m c) [⟨ty', B, sig⟩] 0 ⟨ty, A⟩ t := by
  have port : ∀ ty ∈ [SType.EX, .EY, .EZ, .HZ], ∀ i, c.Inside i →
      HasPort (emem3DSolver D m c) (emem3DScheme D m c) layEM3.gA (fun b => .fld (layEM3.gB b))
        ty i (emWeight m ty i) := by
    intro ty hty i hi
    simp only [List.mem_cons, List.not_mem_nil, or_false] at hty
    rcases hty with rfl | rfl | rfl | rfl
    · have := port_B (S := emem3DSolver D m c) (L := layEM3) (c := c) (ty := .EX) (pos := i)
        (R := ![m.invMuYZ, m.invMuXZ, m.invMuXY])
        (D := ![![0, D.Dzf, -D.Dyf], ![-D.Dzf, 0, D.Dxf], ![D.Dyf, -D.Dxf, 0]])
        (Az := fun i => c.wt i • !![m.ca .x i, 0, 0; 0, m.ca .y i, 0; 0, 0, m.ca .z i])
        (Q := fun i => c.wt i • !![m.cb .x i, 0, 0; 0, m.cb .y i, 0; 0, 0, m.cb .z i]) (gV := fun b => .fld (layEM3.gB b)) 0 .eX rfl rfl rfl
        (by intro b; fin_cases b <;> simp [layEM3]) (by intro a; fin_cases a <;> simp [layEM3])
        (by intro b; fin_cases b <;> simp)
      simpa [hi.1, emWeight, emem3DScheme] using this
    · have := port_B (S := emem3DSolver D m c) (L := layEM3) (c := c) (ty := .EY) (pos := i)
        (R := ![m.invMuYZ, m.invMuXZ, m.invMuXY])
        (D := ![![0, D.Dzf, -D.Dyf], ![-D.Dzf, 0, D.Dxf], ![D.Dyf, -D.Dxf, 0]])
        (Az := fun i => c.wt i • !![m.ca .x i, 0, 0; 0, m.ca .y i, 0; 0, 0, m.ca .z i])
        (Q := fun i => c.wt i • !![m.cb .x i, 0, 0; 0, m.cb .y i, 0; 0, 0, m.cb .z i]) (gV := fun b => .fld (layEM3.gB b)) 1 .eY rfl rfl rfl
        (by intro b; fin_cases b <;> simp [layEM3]) (by intro a; fin_cases a <;> simp [layEM3])
        (by intro b; fin_cases b <;> simp)
      simpa [hi.1, emWeight, emem3DScheme] using this
    · have := port_B (S := emem3DSolver D m c) (L := layEM3) (c := c) (ty := .EZ) (pos := i)
        (R := ![m.invMuYZ, m.invMuXZ, m.invMuXY])
        (D := ![![0, D.Dzf, -D.Dyf], ![-D.Dzf, 0, D.Dxf], ![D.Dyf, -D.Dxf, 0]])
        (Az := fun i => c.wt i • !![m.ca .x i, 0, 0; 0, m.ca .y i, 0; 0, 0, m.ca .z i])
        (Q := fun i => c.wt i • !![m.cb .x i, 0, 0; 0, m.cb .y i, 0; 0, 0, m.cb .z i]) (gV := fun b => .fld (layEM3.gB b)) 2 .eZ rfl rfl rfl
        (by intro b; fin_cases b <;> simp [layEM3]) (by intro a; fin_cases a <;> simp [layEM3])
        (by intro b; fin_cases b <;> simp)
      simpa [hi.1, emWeight, emem3DScheme] using this
    · exact port_A 2 rfl rfl (by intro a; fin_cases a <;> simp [layEM3])
        (by intro b; fin_cases b <;> simp [layEM3]) hi
  refine recip_ports (S := emem3DSolver D m c) (emem3D_steps hD hc) hal.unit (fun a b i j h => ?_) (fun i b b' h => ?_)
    (fun i b b' h => ?_) (fun i => ?_) (fun i => ?_) (port ty hty A hA) (port ty' hty' B hB) hA hB sig t
  · couplings hD hal a b h
  · fin_cases b <;> fin_cases b' <;> simp [layEM3] at h ⊢ <;> (funext x; cases x <;> rfl)
  · fin_cases b <;> fin_cases b' <;> simp [layEM3] at h ⊢
  · ext b b'; fin_cases b <;> fin_cases b' <;> simp
  · ext b b'; fin_cases b <;> fin_cases b' <;> simp

end Verif.Solver
