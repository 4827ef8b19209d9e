import Verif.Lemmas.RecipRelaxEM
import Verif.Lemmas.RecipRelax3D
import Verif.Lemmas.RecipSamples
/-! Reciprocity: exchange of source and receiver in media with relaxation. -/
set_option linter.dupNamespace false
set_option linter.constructorNameAsVariable false
set_option linter.unusedSectionVars false
set_option linter.unusedTactic false
set_option linter.unreachableTactic false
set_option linter.unusedSimpArgs false

namespace Verif.Solver
open Matrix Verif.Recip

variable {ι : Type} [Fintype ι] [DecidableEq ι]

/-- Electromagnetic solvers with relaxation. -/
noncomputable def viscoEMWeight (m : EMod ι) : SType → ι → ℝ
  | .EX, i => m.cbV .x i
  | .EY, i => m.cbV .y i
  | .EZ, i => m.cbV .z i
  | .HZ, i => -m.invMuXY i
  | _, _ => 0

section Ports
variable {A B : Type} [Fintype A] [Fintype B] [DecidableEq A] [DecidableEq B] {N : ℕ} {S : Solver ι}
  {L : Lay A B} {c : BC ι} {x : Relax (Fin N) B ι} {R : A → ι → ℝ} {D : A → B → Matrix ι ι ℝ}
  {Az Q : ι → Matrix B B ℝ} {ty : SType} {pos : ι}

/-- A component of the first half step. -/
theorem portR_A (a0 : A) (hsrc : S.src ty = some [L.gA a0]) (hrec : S.recv ty = some (1, [L.gA a0]))
    (hinj : ∀ a, L.gA a = L.gA a0 → a = a0) (hV : ∀ b, L.gB b ≠ L.gA a0) (hi : c.Inside pos) :
    HasPortR S (layout L c R D Az Q) x L.gA L.gB ty pos (-(R a0 pos)) := by
  refine ⟨fun a i => if a = a0 ∧ i = pos then 1 else 0, 0, ⟨fun s => ?_, fun a i => ?_, fun b i => ?_⟩,
    fun a i h => ?_, fun b i h => absurd rfl h, by simp⟩
  · simp only [gather, hrec, List.map_cons, List.map_nil, List.sum_cons, List.sum_nil]
    simp [ite_and]
  · simp only [Solver.srcFlds, hsrc, Option.getD_some, List.mem_singleton, layout]
    by_cases ha : a = a0
    · subst ha
      by_cases hp : i = pos
      · subst hp
        simp [hi.1]
      · simp [hp, Ne.symm hp]
    · have : ¬ L.gA a = L.gA a0 := fun h => ha (hinj a h)
      simp [ha, this]
  · simp [Solver.srcFlds, hsrc, hV b]
  · by_contra hn
    simp [hn] at h

/-- Mechanisms that are not driven by the derivatives. -/
theorem HasPort.relax {W : ℝ}
    (h : HasPort S (layout L c R D Az Q) L.gA (fun b => .fld (L.gB b)) ty pos W)
    (hG : ∀ l i, x.Ge l i = 0) : HasPortR S (layout L c R D Az Q) x L.gA L.gB ty pos W := by
  obtain ⟨u, v, h1, h2, h3⟩ := h
  exact ⟨u, v, h1, h2, h3, fun l i b b' => by simp [hG]⟩

end Ports

/-! ### The solvers -/

private theorem bwd {M N : Matrix ι ι ℝ} {c : BC ι} {x : Axis} (hN : N = -M.transpose)
    (h : ∀ i j, M i j ≠ 0 → c.Across x i j) (i j : ι) (hij : N i j ≠ 0) : c.Across x i j := by
  rw [hN] at hij
  exact (h j i (by simpa using hij)).symm

private theorem neg {M : Matrix ι ι ℝ} {c : BC ι} {x : Axis}
    (h : ∀ i j, M i j ≠ 0 → c.Across x i j) (i j : ι) (hij : (-M) i j ≠ 0) : c.Across x i j :=
  h i j (by simpa using hij)

/-- Every coupling of two components is along one axis. -/
local macro "couplings" hD:ident hal:ident a:ident b:ident h:ident : tactic => `(tactic| (
  obtain ⟨-, h1, h2, h3⟩ := $hal
  have b1 := bwd (Deriv.regular.adjX $hD) h1
  have b2 := bwd (Deriv.regular.adjY $hD) h2
  have b3 := bwd (Deriv.regular.adjZ $hD) h3
  have n1 := neg h1
  have n2 := neg h2
  have n3 := neg h3
  fin_cases $a:ident <;> fin_cases $b:ident <;>
    first
    | exact absurd rfl $h
    | exact ⟨.x, rfl, h1 _ _ $h, fun y hy => by cases y <;> first | rfl | exact absurd rfl hy⟩
    | exact ⟨.y, rfl, h2 _ _ $h, fun y hy => by cases y <;> first | rfl | exact absurd rfl hy⟩
    | exact ⟨.z, rfl, h3 _ _ $h, fun y hy => by cases y <;> first | rfl | exact absurd rfl hy⟩
    | exact ⟨.x, rfl, b1 _ _ $h, fun y hy => by cases y <;> first | rfl | exact absurd rfl hy⟩
    | exact ⟨.y, rfl, b2 _ _ $h, fun y hy => by cases y <;> first | rfl | exact absurd rfl hy⟩
    | exact ⟨.z, rfl, b3 _ _ $h, fun y hy => by cases y <;> first | rfl | exact absurd rfl hy⟩
    | exact ⟨.x, rfl, n1 _ _ $h, fun y hy => by cases y <;> first | rfl | exact absurd rfl hy⟩
    | exact ⟨.y, rfl, n2 _ _ $h, fun y hy => by cases y <;> first | rfl | exact absurd rfl hy⟩
    | exact ⟨.z, rfl, n3 _ _ $h, fun y hy => by cases y <;> first | rfl | exact absurd rfl hy⟩))

theorem viscosh2D_sample {D : Deriv ι} (m : Mod ι) {c : BC ι} (hD : D.regular)
    (hc : c.useFreeSurface ≠ 1)
    (hal : c.Aligned D) {A B : ι} (hA : c.Inside A) (hB : c.Inside B)
    {ty ty' : SType} (hty : ty ∈ [SType.VZ]) (hty' : ty' ∈ [SType.VZ])
    (sig : ℕ → ℝ) (t : ℕ) :
    shWeight m ty A * sample (viscosh2DSolver D m c) [⟨ty, A, sig⟩] 0 ⟨ty', B⟩ t =
      shWeight m ty' B * sample (viscosh2DSolver D m c) [⟨ty', B, sig⟩] 0 ⟨ty, A⟩ t := by
  have port : ∀ ty ∈ [SType.VZ], ∀ i, c.Inside i →
      HasPortR (viscosh2DSolver D m c) (viscosh2DScheme D m c) (m.relax c (viscoshG m)) layS2.gA layS2.gB
        ty i (shWeight m ty i) := by
    intro ty hty i hi
    simp only [List.mem_cons, List.not_mem_nil, or_false] at hty
    subst hty
    · exact portR_A 0 rfl rfl (by intro a; fin_cases a <;> simp [layS2])
        (by intro b; fin_cases b <;> simp [layS2]) hi
  refine recip_portsR (S := viscosh2DSolver D m c) (x := m.relax c (viscoshG m)) (viscosh2D_steps hD hc) hal.unit (fun a b i j h => ?_)
    (fun i b b' h => ?_) (fun i b b' h => ?_) (fun i b b' => ?_) (fun l i b b' => ?_)
    (port ty hty A hA) (port ty' hty' B hB) hA hB sig t
  · couplings hD hal a b h
  · fin_cases b <;> fin_cases b' <;> simp at h ⊢
  · fin_cases b <;> fin_cases b' <;> simp [layS2, Mod.relax, viscoshG] at h ⊢ <;>
      (funext x; cases x <;> rfl)
  · fin_cases b <;> fin_cases b' <;> simp
  · fin_cases b <;> fin_cases b' <;> simp [Mod.relax, viscoshG]

theorem viscoelastic2D_sample {D : Deriv ι} (m : Mod ι) {c : BC ι} (hD : D.regular)
    (hc : c.useFreeSurface = 0)
    (hal : c.Aligned D) {A B : ι} (hA : c.Inside A) (hB : c.Inside B)
    {ty ty' : SType} (hty : ty ∈ [SType.P, .VX, .VY]) (hty' : ty' ∈ [SType.P, .VX, .VY])
    (hPA : ty = .P → m.tauP A = 0 ∧ m.tauS A = 0) (hPB : ty' = .P → m.tauP B = 0 ∧ m.tauS B = 0)
    (sig : ℕ → ℝ) (t : ℕ) :
    elastic2DWeight m ty A * sample (viscoelastic2DSolver D m c) [⟨ty, A, sig⟩] 0 ⟨ty', B⟩ t =
      elastic2DWeight m ty' B * sample (viscoelastic2DSolver D m c) [⟨ty', B, sig⟩] 0 ⟨ty, A⟩ t := by
  have port : ∀ ty ∈ [SType.P, .VX, .VY], ∀ i, c.Inside i → (ty = .P → m.tauP i = 0 ∧ m.tauS i = 0) →
      HasPortR (viscoelastic2DSolver D m c) (viscoelastic2DScheme D m c) (m.relax c (viscoelastic2DG m)) layE2.gA layE2.gB
        ty i (elastic2DWeight m ty i) := by
    intro ty hty i hi hτ
    simp only [List.mem_cons, List.not_mem_nil, or_false] at hty
    rcases hty with rfl | rfl | rfl
    · obtain ⟨t1, t2⟩ := hτ rfl
      refine ⟨0, fun b j => if j = i then ![1 / 2, 1 / 2, 0] b else 0, ⟨fun s => ?_, fun a j => ?_,
        fun b j => ?_⟩, fun a j h => absurd rfl h, fun b j h => ?_, fun l j b b' => ?_⟩
      · simp [gather, viscoelastic2DSolver, rec2Delastic, Fin.sum_univ_three, layE2]
        ring
      · fin_cases a <;> simp [Solver.srcFlds, viscoelastic2DSolver, src2Delastic, layE2]
      · by_cases hj : j = i
        · subst hj
          fin_cases b <;> simp [Solver.srcFlds, viscoelastic2DSolver, src2Delastic, layE2, hi.1,
            viscoelastic2DScheme, layout, Fin.sum_univ_three, elastic2DWeight, Mod.onePlusLtauP,
            Mod.onePlusLtauS, t1, t2] <;> ring
        · simp [hj, Ne.symm hj]
      · by_contra hn
        simp [hn] at h
      · by_cases hj : j = i
        · subst hj
          fin_cases b <;> fin_cases b' <;> simp [Mod.relax, viscoelastic2DG, t1, t2]
        · simp [hj]
    · exact portR_A 0 rfl rfl (by intro a; fin_cases a <;> simp [layE2])
        (by intro b; fin_cases b <;> simp [layE2]) hi
    · exact portR_A 1 rfl rfl (by intro a; fin_cases a <;> simp [layE2])
        (by intro b; fin_cases b <;> simp [layE2]) hi
  refine recip_portsR (S := viscoelastic2DSolver D m c) (x := m.relax c (viscoelastic2DG m)) (viscoelastic2D_steps hD hc) hal.unit (fun a b i j h => ?_)
    (fun i b b' h => ?_) (fun i b b' h => ?_) (fun i b b' => ?_) (fun l i b b' => ?_)
    (port ty hty A hA hPA) (port ty' hty' B hB hPB) hA hB sig t
  · couplings hD hal a b h
  · fin_cases b <;> fin_cases b' <;> simp at h ⊢
  · fin_cases b <;> fin_cases b' <;> simp [layE2, Mod.relax, viscoelastic2DG] at h ⊢ <;>
      (funext x; cases x <;> rfl)
  · fin_cases b <;> fin_cases b' <;> simp
  · fin_cases b <;> fin_cases b' <;> simp [Mod.relax, viscoelastic2DG]

theorem viscoelastic3D_sample {D : Deriv ι} (m : Mod ι) {c : BC ι} (hD : D.regular)
    (hc : c.useFreeSurface ≠ 1)
    (hal : c.Aligned D) {A B : ι} (hA : c.Inside A) (hB : c.Inside B)
    {ty ty' : SType} (hty : ty ∈ [SType.P, .VX, .VY, .VZ]) (hty' : ty' ∈ [SType.P, .VX, .VY, .VZ])
    (hPA : ty = .P → m.tauP A = 0 ∧ m.tauS A = 0) (hPB : ty' = .P → m.tauP B = 0 ∧ m.tauS B = 0)
    (sig : ℕ → ℝ) (t : ℕ) :
    elastic3DWeight m ty A * sample (viscoelastic3DSolver D m c) [⟨ty, A, sig⟩] 0 ⟨ty', B⟩ t =
      elastic3DWeight m ty' B * sample (viscoelastic3DSolver D m c) [⟨ty', B, sig⟩] 0 ⟨ty, A⟩ t := by
  have port : ∀ ty ∈ [SType.P, .VX, .VY, .VZ], ∀ i, c.Inside i → (ty = .P → m.tauP i = 0 ∧ m.tauS i = 0) →
      HasPortR (viscoelastic3DSolver D m c) (viscoelastic3DScheme D m c) (m.relax c (viscoelastic3DG m)) layE3.gA layE3.gB
        ty i (elastic3DWeight m ty i) := by
    intro ty hty i hi hτ
    simp only [List.mem_cons, List.not_mem_nil, or_false] at hty
    rcases hty with rfl | rfl | rfl | rfl
    · obtain ⟨t1, t2⟩ := hτ rfl
      refine ⟨0, fun b j => if j = i then ![1 / 3, 1 / 3, 1 / 3, 0, 0, 0] b else 0, ⟨fun s => ?_, fun a j => ?_,
        fun b j => ?_⟩, fun a j h => absurd rfl h, fun b j h => ?_, fun l j b b' => ?_⟩
      · simp [gather, viscoelastic3DSolver, rec3Delastic, Fin.sum_univ_six, layE3]
        ring
      · fin_cases a <;> simp [Solver.srcFlds, viscoelastic3DSolver, src3Delastic, layE3]
      · by_cases hj : j = i
        · subst hj
          fin_cases b <;> simp [Solver.srcFlds, viscoelastic3DSolver, src3Delastic, layE3, hi.1,
            viscoelastic3DScheme, layout, Fin.sum_univ_six, elastic3DWeight, Mod.onePlusLtauP,
            Mod.onePlusLtauS, t1, t2] <;> ring
        · simp [hj, Ne.symm hj]
      · by_contra hn
        simp [hn] at h
      · by_cases hj : j = i
        · subst hj
          fin_cases b <;> fin_cases b' <;> simp [Mod.relax, viscoelastic3DG, t1, t2]
        · simp [hj]
    · exact portR_A 0 rfl rfl (by intro a; fin_cases a <;> simp [layE3])
        (by intro b; fin_cases b <;> simp [layE3]) hi
    · exact portR_A 1 rfl rfl (by intro a; fin_cases a <;> simp [layE3])
        (by intro b; fin_cases b <;> simp [layE3]) hi
    · exact portR_A 2 rfl rfl (by intro a; fin_cases a <;> simp [layE3])
        (by intro b; fin_cases b <;> simp [layE3]) hi
  refine recip_portsR (S := viscoelastic3DSolver D m c) (x := m.relax c (viscoelastic3DG m)) (viscoelastic3D_steps hD hc) hal.unit (fun a b i j h => ?_)
    (fun i b b' h => ?_) (fun i b b' h => ?_) (fun i b b' => ?_) (fun l i b b' => ?_)
    (port ty hty A hA hPA) (port ty' hty' B hB hPB) hA hB sig t
  · couplings hD hal a b h
  · fin_cases b <;> fin_cases b' <;> simp at h ⊢
  · fin_cases b <;> fin_cases b' <;> simp [layE3, Mod.relax, viscoelastic3DG] at h ⊢ <;>
      (funext x; cases x <;> rfl)
  · fin_cases b <;> fin_cases b' <;> simp
  · fin_cases b <;> fin_cases b' <;> simp [Mod.relax, viscoelastic3DG]

theorem viscoemem2D_sample {D : Deriv ι} (m : EMod ι) {c : BC ι} (hD : D.regular)
    (hal : c.Aligned D) {A B : ι} (hA : c.Inside A) (hB : c.Inside B)
    {ty ty' : SType} (hty : ty ∈ [SType.EX, .EY, .HZ]) (hty' : ty' ∈ [SType.EX, .EY, .HZ])
    (sig : ℕ → ℝ) (t : ℕ) :
    viscoEMWeight m ty A * sample (viscoemem2DSolver D m c) [⟨ty, A, sig⟩] 0 ⟨ty', B⟩ t =
      viscoEMWeight m ty' B * sample (viscoemem2DSolver D m c) [⟨ty', B, sig⟩] 0 ⟨ty, A⟩ t := by
  have port : ∀ ty ∈ [SType.EX, .EY, .HZ], ∀ i, c.Inside i →
      HasPortR (viscoemem2DSolver D m c) (viscoemem2DScheme D m c) (m.relax c ![.x, .y]) layEM2.gA layEM2.gB
        ty i (viscoEMWeight m ty i) := by
    intro ty hty i hi
    simp only [List.mem_cons, List.not_mem_nil, or_false] at hty
    rcases hty with rfl | rfl | rfl
    · have := port_B (S := viscoemem2DSolver D m c) (L := layEM2) (c := c) (ty := .EX) (pos := i)
        (R := ![m.invMuXY]) (D := ![![D.Dyf, -D.Dxf]])
        (Az := fun i => c.wt i • !![m.caV .x i, 0; 0, m.caV .y i])
        (Q := fun i => c.wt i • !![m.cbV .x i, 0; 0, m.cbV .y i]) (gV := fun b => .fld (layEM2.gB b)) 0 .eX rfl rfl rfl
        (by intro b; fin_cases b <;> simp [layEM2]) (by intro a; fin_cases a <;> simp [layEM2])
        (by intro b; fin_cases b <;> simp)
      have := HasPort.relax (x := m.relax c ![.x, .y]) this (fun l i => rfl)
      simpa [hi.1, viscoEMWeight, viscoemem2DScheme] using this
    · have := port_B (S := viscoemem2DSolver D m c) (L := layEM2) (c := c) (ty := .EY) (pos := i)
        (R := ![m.invMuXY]) (D := ![![D.Dyf, -D.Dxf]])
        (Az := fun i => c.wt i • !![m.caV .x i, 0; 0, m.caV .y i])
        (Q := fun i => c.wt i • !![m.cbV .x i, 0; 0, m.cbV .y i]) (gV := fun b => .fld (layEM2.gB b)) 1 .eY rfl rfl rfl
        (by intro b; fin_cases b <;> simp [layEM2]) (by intro a; fin_cases a <;> simp [layEM2])
        (by intro b; fin_cases b <;> simp)
      have := HasPort.relax (x := m.relax c ![.x, .y]) this (fun l i => rfl)
      simpa [hi.1, viscoEMWeight, viscoemem2DScheme] using this
    · exact portR_A 0 rfl rfl (by intro a; fin_cases a <;> simp [layEM2])
        (by intro b; fin_cases b <;> simp [layEM2]) hi
  refine recip_portsR (S := viscoemem2DSolver D m c) (x := m.relax c ![.x, .y]) (viscoemem2D_steps hD) hal.unit (fun a b i j h => ?_)
    (fun i b b' h => ?_) (fun i b b' h => ?_) (fun i b b' => ?_) (fun l i b b' => ?_)
    (port ty hty A hA) (port ty' hty' B hB) hA hB sig t
  · couplings hD hal a b h
  · fin_cases b <;> fin_cases b' <;> simp at h ⊢
  · fin_cases b <;> fin_cases b' <;> simp [layEM2, EMod.relax] at h ⊢ <;>
      (funext x; cases x <;> rfl)
  · fin_cases b <;> fin_cases b' <;> simp
  · fin_cases b <;> fin_cases b' <;> simp [EMod.relax]

theorem viscotmem2D_sample {D : Deriv ι} (m : EMod ι) {c : BC ι} (hD : D.regular)
    (hal : c.Aligned D) {A B : ι} (hA : c.Inside A) (hB : c.Inside B)
    {ty ty' : SType} (hty : ty ∈ [SType.EZ]) (hty' : ty' ∈ [SType.EZ])
    (sig : ℕ → ℝ) (t : ℕ) :
    viscoEMWeight m ty A * sample (viscotmem2DSolver D m c) [⟨ty, A, sig⟩] 0 ⟨ty', B⟩ t =
      viscoEMWeight m ty' B * sample (viscotmem2DSolver D m c) [⟨ty', B, sig⟩] 0 ⟨ty, A⟩ t := by
  have port : ∀ ty ∈ [SType.EZ], ∀ i, c.Inside i →
      HasPortR (viscotmem2DSolver D m c) (viscotmem2DScheme D m c) (m.relax c ![.z]) layTM2.gA layTM2.gB
        ty i (viscoEMWeight m ty i) := by
    intro ty hty i hi
    simp only [List.mem_cons, List.not_mem_nil, or_false] at hty
    subst hty
    · have := port_B (S := viscotmem2DSolver D m c) (L := layTM2) (c := c) (ty := .EZ) (pos := i)
        (R := ![m.invMuYZ, m.invMuXZ]) (D := ![![-D.Dyf], ![D.Dxf]])
        (Az := fun i => c.wt i • !![m.caV .z i])
        (Q := fun i => c.wt i • !![m.cbV .z i]) (gV := fun b => .fld (layTM2.gB b)) 0 .eZ rfl rfl rfl
        (by intro b; fin_cases b <;> simp [layTM2]) (by intro a; fin_cases a <;> simp [layTM2])
        (by intro b; fin_cases b <;> simp)
      have := HasPort.relax (x := m.relax c ![.z]) this (fun l i => rfl)
      simpa [hi.1, viscoEMWeight, viscotmem2DScheme] using this
  refine recip_portsR (S := viscotmem2DSolver D m c) (x := m.relax c ![.z]) (viscotmem2D_steps hD) hal.unit (fun a b i j h => ?_)
    (fun i b b' h => ?_) (fun i b b' h => ?_) (fun i b b' => ?_) (fun l i b b' => ?_)
    (port ty hty A hA) (port ty' hty' B hB) hA hB sig t
  · couplings hD hal a b h
  · fin_cases b <;> fin_cases b' <;> simp at h ⊢
  · fin_cases b <;> fin_cases b' <;> simp [layTM2, EMod.relax] at h ⊢ <;>
      (funext x; cases x <;> rfl)
  · fin_cases b <;> fin_cases b' <;> simp
  · fin_cases b <;> fin_cases b' <;> simp [EMod.relax]

theorem viscoemem3D_sample {D : Deriv ι} (m : EMod ι) {c : BC ι} (hD : D.regular)
    (hc : c.pml = none)
    (hal : c.Aligned D) {A B : ι} (hA : c.Inside A) (hB : c.Inside B)
    {ty ty' : SType} (hty : ty ∈ [SType.EX, .EY, .EZ, .HZ]) (hty' : ty' ∈ [SType.EX, .EY, .EZ, .HZ])
    (sig : ℕ → ℝ) (t : ℕ) :
    viscoEMWeight m ty A * sample (viscoemem3DSolver D m c) [⟨ty, A, sig⟩] 0 ⟨ty', B⟩ t =
      viscoEMWeight m ty' B * sample (viscoemem3DSolver D m c) [⟨ty', B, sig⟩] 0 ⟨ty, A⟩ t := by
  have port : ∀ ty ∈ [SType.EX, .EY, .EZ, .HZ], ∀ i, c.Inside i →
      HasPortR (viscoemem3DSolver D m c) (viscoemem3DScheme D m c) (m.relax c ![.x, .y, .z]) layEM3.gA layEM3.gB
        ty i (viscoEMWeight m ty i) := by
    intro ty hty i hi
    simp only [List.mem_cons, List.not_mem_nil, or_false] at hty
    rcases hty with rfl | rfl | rfl | rfl
    · have := port_B (S := viscoemem3DSolver D m c) (L := layEM3) (c := c) (ty := .EX) (pos := i)
        (R := ![m.invMuYZ, m.invMuXZ, m.invMuXY]) (D := ![![0, D.Dzf, -D.Dyf], ![-D.Dzf, 0, D.Dxf], ![D.Dyf, -D.Dxf, 0]])
        (Az := fun i => c.wt i • !![m.caV .x i, 0, 0; 0, m.caV .y i, 0; 0, 0, m.caV .z i])
        (Q := fun i => c.wt i • !![m.cbV .x i, 0, 0; 0, m.cbV .y i, 0; 0, 0, m.cbV .z i]) (gV := fun b => .fld (layEM3.gB b)) 0 .eX rfl rfl rfl
        (by intro b; fin_cases b <;> simp [layEM3]) (by intro a; fin_cases a <;> simp [layEM3])
        (by intro b; fin_cases b <;> simp)
      have := HasPort.relax (x := m.relax c ![.x, .y, .z]) this (fun l i => rfl)
      simpa [hi.1, viscoEMWeight, viscoemem3DScheme] using this
    · have := port_B (S := viscoemem3DSolver D m c) (L := layEM3) (c := c) (ty := .EY) (pos := i)
        (R := ![m.invMuYZ, m.invMuXZ, m.invMuXY]) (D := ![![0, D.Dzf, -D.Dyf], ![-D.Dzf, 0, D.Dxf], ![D.Dyf, -D.Dxf, 0]])
        (Az := fun i => c.wt i • !![m.caV .x i, 0, 0; 0, m.caV .y i, 0; 0, 0, m.caV .z i])
        (Q := fun i => c.wt i • !![m.cbV .x i, 0, 0; 0, m.cbV .y i, 0; 0, 0, m.cbV .z i]) (gV := fun b => .fld (layEM3.gB b)) 1 .eY rfl rfl rfl
        (by intro b; fin_cases b <;> simp [layEM3]) (by intro a; fin_cases a <;> simp [layEM3])
        (by intro b; fin_cases b <;> simp)
      have := HasPort.relax (x := m.relax c ![.x, .y, .z]) this (fun l i => rfl)
      simpa [hi.1, viscoEMWeight, viscoemem3DScheme] using this
    · have := port_B (S := viscoemem3DSolver D m c) (L := layEM3) (c := c) (ty := .EZ) (pos := i)
        (R := ![m.invMuYZ, m.invMuXZ, m.invMuXY]) (D := ![![0, D.Dzf, -D.Dyf], ![-D.Dzf, 0, D.Dxf], ![D.Dyf, -D.Dxf, 0]])
        (Az := fun i => c.wt i • !![m.caV .x i, 0, 0; 0, m.caV .y i, 0; 0, 0, m.caV .z i])
        (Q := fun i => c.wt i • !![m.cbV .x i, 0, 0; 0, m.cbV .y i, 0; 0, 0, m.cbV .z i]) (gV := fun b => .fld (layEM3.gB b)) 2 .eZ rfl rfl rfl
        (by intro b; fin_cases b <;> simp [layEM3]) (by intro a; fin_cases a <;> simp [layEM3])
        (by intro b; fin_cases b <;> simp)
      have := HasPort.relax (x := m.relax c ![.x, .y, .z]) this (fun l i => rfl)
      simpa [hi.1, viscoEMWeight, viscoemem3DScheme] using this
    · exact portR_A 2 rfl rfl (by intro a; fin_cases a <;> simp [layEM3])
        (by intro b; fin_cases b <;> simp [layEM3]) hi
  refine recip_portsR (S := viscoemem3DSolver D m c) (x := m.relax c ![.x, .y, .z]) (viscoemem3D_steps hD hc) hal.unit (fun a b i j h => ?_)
    (fun i b b' h => ?_) (fun i b b' h => ?_) (fun i b b' => ?_) (fun l i b b' => ?_)
    (port ty hty A hA) (port ty' hty' B hB) hA hB sig t
  · couplings hD hal a b h
  · fin_cases b <;> fin_cases b' <;> simp at h ⊢
  · fin_cases b <;> fin_cases b' <;> simp [layEM3, EMod.relax] at h ⊢ <;>
      (funext x; cases x <;> rfl)
  · fin_cases b <;> fin_cases b' <;> simp
  · fin_cases b <;> fin_cases b' <;> simp [EMod.relax]

end Verif.Solver
