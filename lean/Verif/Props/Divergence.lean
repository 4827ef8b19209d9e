import Verif.Lemmas.PotentialRun

/-!
# C119, C120: the divergence of the magnetic flux density and the charge; what the "div" snapshots show

The magnetic flux density is `H / invMu`, the electric displacement `eps E`. Both divergences are taken at the
points where the staggered grid has them: forward derivatives for the magnetic, backward derivatives for the electric
field. The conservation laws are in `Props/DivergenceLocal.lean`.
-/
set_option linter.dupNamespace false

namespace Verif.Solver
open Matrix Verif.Views

variable {NX NY NZ : ℕ} (sp : Int) (DT DH : ℝ) {c : BC (Pt NX NY NZ)}
  {m : EMod (Pt NX NY NZ)} (srcs : List (Source (Pt NX NY NZ))) (s : State (Pt NX NY NZ))

local notation "D₀" => surfaceDeriv NX NY NZ sp DT DH
local notation "G₀" => regularGrids NX NY NZ sp DT DH

/-- Time step times the divergence of the magnetic flux density with the components `axes`. -/
noncomputable def fluxDivergence (axes : List Axis) (m : EMod (Pt NX NY NZ)) (s : State (Pt NX NY NZ)) :
    Pt NX NY NZ → ℝ :=
  (axes.map fun a => (forwardMatrix sp DT DH a).mulVec fun i => s (.fld (magn a)) i / m.invMuAt a i).sum

/-- Time step times the divergence of the electric field with the components `axes`, weighted with `k`. -/
noncomputable def elecDivergence (axes : List Axis) (k : Axis → Pt NX NY NZ → ℝ) (E : Axis → Pt NX NY NZ → ℝ) :
    Pt NX NY NZ → ℝ :=
  (axes.map fun a => (backwardMatrix sp DT DH a).mulVec fun i => k a i * E a i).sum

/-- The electric field of a state. -/
def elecField (s : State (Pt NX NY NZ)) (a : Axis) : Pt NX NY NZ → ℝ := s (.fld (elec a))

private theorem slope_none (hp : c.pml = none) (s : State (Pt NX NY NZ)) (a : Axis) (f : Fld)
    (v : Pt NX NY NZ → ℝ) (i : Pt NX NY NZ) : slope sp DT DH c s a f v i = centred sp DT DH a f v i := by
  simp [slope, hp]

private theorem frame_none (hd : c.damping = none) (i : Pt NX NY NZ) : frame c i = 1 := by
  simp [frame, hd]

private theorem fld2 (a : Axis) (ha : a ≠ .z) : magn a ∈ [Axis.x, .y].map magn ++ [Axis.z].map elec := by
  cases a <;> first | decide | exact absurd rfl ha

/-- The field with only a component along `z`. -/
private def alongZ (v : Pt NX NY NZ → ℝ) : Axis → Pt NX NY NZ → ℝ
  | .z => v
  | _ => 0

private theorem tmem2D_step (hd : c.damping = none) (hp : c.pml = none) (s : State (Pt NX NY NZ)) :
    ∀ a, a ≠ .z → ∀ i, exec (tmem2D D₀ m c) s (.fld (magn a)) i = s (.fld (magn a)) i -
      m.invMuAt a i * (G₀).flat.rot (alongZ (s (.fld .eZ))) a i := by
  obtain ⟨u, h1, h2, h3, -⟩ := (C106_tmem2D_partial sp DT DH c s m).step
  intro a ha i
  have hin : a ∈ [Axis.x, .y] := by cases a <;> first | decide | exact absurd rfl ha
  rw [h3 _ (fld2 a ha) i, frame_none hd, one_mul, h1 a hin i]
  simp only [old, curl, slope_none sp DT DH hp]
  cases a <;> first | exact absurd rfl ha |
    (simp [levi, centred, halfway, Grids.rot, Grids.flat, alongZ, regularGrids, elec, magn])

private theorem tmem2D_elec (hd : c.damping = none) (hp : c.pml = none) (s : State (Pt NX NY NZ)) (i : Pt NX NY NZ) :
    exec (tmem2D D₀ m c) s (.fld .eZ) i = m.ca .z i * s (.fld .eZ) i + m.cb .z i *
      ((backwardMatrix sp DT DH .x).mulVec (exec (tmem2D D₀ m c) s (.fld .hY)) i -
        (backwardMatrix sp DT DH .y).mulVec (exec (tmem2D D₀ m c) s (.fld .hX)) i) := by
  obtain ⟨u, h1, h2, h3, -⟩ := (C106_tmem2D_partial sp DT DH c s m).step
  have hf : ∀ a, a ≠ .z → exec (tmem2D D₀ m c) s (.fld (magn a)) = u (magn a) := by
    intro a ha
    funext i
    rw [h3 _ (fld2 a ha) i, frame_none hd, one_mul]
  have hx := hf .x (by decide)
  have hy := hf .y (by decide)
  simp only [magn] at hx hy
  have hz := h3 .eZ (by decide) i
  rw [frame_none hd, one_mul] at hz
  rw [hz, hx, hy, show Fld.eZ = elec .z from rfl, h2 .z (by simp) i]
  simp only [old, curl, slope_none sp DT DH hp]
  simp [levi, centred, halfway, magn, elec]
  ring_nf
  simp

private theorem flux2_eq (t : State (Pt NX NY NZ)) : fluxDivergence sp DT DH [.x, .y] m t =
    (G₀).flat.divF (fun a i => t (.fld (magn a)) i / m.invMuAt a i) := by
  simp [fluxDivergence, Grids.divF, Grids.flat, regularGrids]

private theorem noH (n : ℕ) (a : Axis) (ha : a ≠ .z) : injected (tmem2DSolver D₀ m c) srcs n (magn a) = 0 := by
  funext i
  unfold injected
  apply List.sum_eq_zero
  intro x hx
  obtain ⟨q, hq, rfl⟩ := List.mem_map.mp hx
  rw [if_neg]
  rintro ⟨e, -⟩
  revert e
  cases a <;> first | exact absurd rfl ha | (cases q.ty <;> simp [Solver.srcFlds, tmem2DSolver, src2Dtmem, magn])

private theorem tmem2D_flux (hd : c.damping = none) (hp : c.pml = none) (hm : ∀ a i, m.invMuAt a i ≠ 0) (n : ℕ) :
    fluxDivergence sp DT DH [.x, .y] m (run (tmem2DSolver D₀ m c) srcs s n) =
      fluxDivergence sp DT DH [.x, .y] m s := by
  induction n with
  | zero => rfl
  | succ n ih =>
    rw [← ih, flux2_eq, flux2_eq]
    have key : ∀ v w : Axis → Pt NX NY NZ → ℝ, v .x = w .x → v .y = w .y → (G₀).flat.divF v = (G₀).flat.divF w := by
      intro v w hx hy
      simp [Grids.divF, Grids.flat, hx, hy]
    have e : ∀ a, a ≠ .z →
        (fun i => run (tmem2DSolver D₀ m c) srcs s (n + 1) (.fld (magn a)) i / m.invMuAt a i) =
        ((fun a i => run (tmem2DSolver D₀ m c) srcs s n (.fld (magn a)) i / m.invMuAt a i) -
          (G₀).flat.rot (alongZ (run (tmem2DSolver D₀ m c) srcs s n (.fld .eZ)))) a := by
      intro a ha
      funext i
      rw [run_succ_fld, noH sp DT DH srcs n a ha, add_zero]
      change exec (tmem2D D₀ m c) _ _ _ / _ = _
      rw [tmem2D_step sp DT DH hd hp _ a ha i]
      simp only [Pi.sub_apply]
      field_simp [hm a i]
    rw [key _ _ (e .x (by decide)) (e .y (by decide)), Grids.divF_sub, Grids.divF_rot, sub_zero]

/-- C119: the "div" snapshots of electromagnetic simulations do not show this divergence: they use the backward
derivatives, which belong to the electric field. Already two time steps after a source at rest in a homogeneous
medium they are not zero, although the flux density has no divergence. -/
theorem C119_snapshot_violated :
    ∃ (m : EMod (Pt 2 1 1)) (c : BC (Pt 2 1 1)) (srcs : List (Source (Pt 2 1 1))), c.plain ∧
      (∀ a i, m.invMuAt a i = 1) ∧ (∀ a i, m.eps a i = 1) ∧ (∀ a i, m.sig a i = 0) ∧
      ∃ i, div2D (surfaceDeriv 2 1 1 2 1 1) emVec (fun _ => 1)
        (run (tmem2DSolver (surfaceDeriv 2 1 1 2 1 1) m c) srcs 0 2) i ≠ 0 ∧
      fluxDivergence 2 1 1 [.x, .y] m (run (tmem2DSolver (surfaceDeriv 2 1 1 2 1 1) m c) srcs 0 2) = 0 := by
  let m : EMod (Pt 2 1 1) := ⟨fun _ => 1, fun _ => 1, fun _ => 1, fun _ _ => 1, fun _ _ => 0, fun _ _ => 0,
    fun _ _ => 0, 1, 0, fun _ => 1, 1⟩
  let c : BC (Pt 2 1 1) := ⟨0, none, none, fun _ => false⟩
  let srcs : List (Source (Pt 2 1 1)) := [⟨.EZ, (0, 0, 0), fun n => if n = 0 then 1 else 0⟩]
  have hmu : ∀ a i, m.invMuAt a i = 1 := by intro a i; cases a <;> rfl
  refine ⟨m, c, srcs, ⟨rfl, rfl, rfl⟩, hmu, fun _ _ => rfl, fun _ _ => rfl, (1, 0, 0), ?_, ?_⟩
  · have k : ∀ a, a ≠ Axis.z → exec (tmem2D (surfaceDeriv 2 1 1 2 1 1) m c) 0 (.fld (magn a)) = 0 := by
      intro a ha
      funext i
      rw [tmem2D_step 2 1 1 rfl rfl 0 a ha i]
      cases a <;> simp [Grids.rot, Grids.flat, alongZ, regularGrids]
    have kz : exec (tmem2D (surfaceDeriv 2 1 1 2 1 1) m c) 0 (.fld .eZ) = 0 := by
      funext i
      have hx := k .x (by decide)
      have hy := k .y (by decide)
      simp only [magn] at hx hy
      rw [tmem2D_elec 2 1 1 rfl rfl 0 i, hx, hy]
      simp
    have r1 : ∀ a, a ≠ Axis.z → run (tmem2DSolver (surfaceDeriv 2 1 1 2 1 1) m c) srcs 0 1 (.fld (magn a)) = 0 := by
      intro a ha
      rw [run_succ_fld, noH 2 1 1 srcs 0 a ha, add_zero]
      exact k a ha
    have rz : run (tmem2DSolver (surfaceDeriv 2 1 1 2 1 1) m c) srcs 0 1 (.fld .eZ) =
        fun i => if i = (0, 0, 0) then 1 else 0 := by
      rw [run_succ_fld]
      change exec (tmem2D (surfaceDeriv 2 1 1 2 1 1) m c) 0 (.fld .eZ) + _ = _
      rw [kz]
      funext i
      simp [injected, srcs, Solver.srcFlds, tmem2DSolver, src2Dtmem, eq_comm]
    have r2 : ∀ a, a ≠ Axis.z → run (tmem2DSolver (surfaceDeriv 2 1 1 2 1 1) m c) srcs 0 2 (.fld (magn a)) =
        fun i => -(regularGrids 2 1 1 2 1 1).flat.rot (alongZ fun i => if i = (0, 0, 0) then 1 else 0) a i := by
      intro a ha
      rw [run_succ_fld, noH 2 1 1 srcs 1 a ha, add_zero]
      funext i
      change exec (tmem2D (surfaceDeriv 2 1 1 2 1 1) m c) _ _ _ = _
      rw [tmem2D_step 2 1 1 rfl rfl _ a ha i, r1 a ha, rz, hmu]
      simp
    have hx := r2 .x (by decide)
    have hy := r2 .y (by decide)
    simp only [magn] at hx hy
    have e01 : Verif.Stencil.fwdStencilEntry 2 2 0 1 = 1 := by decide +kernel
    have e10 : Verif.Stencil.fwdStencilEntry 2 2 1 0 = 0 := by decide +kernel
    have e11 : Verif.Stencil.fwdStencilEntry 2 2 1 1 = -1 := by decide +kernel
    have f00 : Verif.Stencil.fwdStencilEntry 1 2 0 0 = -1 := by decide +kernel
    have s2 : ∀ g : Fin (axisSize 2 1 1 .x) → ℝ, ∑ k, g k = g (0 : Fin 2) + g (1 : Fin 2) := fun g => Fin.sum_univ_two g
    have s1 : ∀ g : Fin (axisSize 2 1 1 .y) → ℝ, ∑ k, g k = g (0 : Fin 1) := fun g => Fin.sum_univ_one g
    have bx : ∀ v : Pt 2 1 1 → ℝ, (backwardMatrix 2 1 1 .x).mulVec v (1, 0, 0) = v (1, 0, 0) - v (0, 0, 0) := by
      intro v
      rw [backwardMatrix_line, lineMatrix_mulVec, s2]
      simp [axisSize, along, moveTo, e01, e11]
      ring
    have by' : ∀ v : Pt 2 1 1 → ℝ, (backwardMatrix 2 1 1 .y).mulVec v (1, 0, 0) = v (1, 0, 0) := by
      intro v
      rw [backwardMatrix_line, lineMatrix_mulVec, s1]
      simp [axisSize, along, moveTo, f00]
    have fy : ∀ (v : Pt 2 1 1 → ℝ) (k : Fin 2), (forwardMatrix 2 1 1 .y).mulVec v (k, 0, 0) = -v (k, 0, 0) := by
      intro v k
      rw [forwardMatrix_line, lineMatrix_mulVec, s1]
      simp [axisSize, along, moveTo, f00]
    have fx : ∀ v : Pt 2 1 1 → ℝ, (forwardMatrix 2 1 1 .x).mulVec v (1, 0, 0) = -v (1, 0, 0) := by
      intro v
      rw [forwardMatrix_line, lineMatrix_mulVec, s2]
      simp [axisSize, along, moveTo, e10, e11]
    change ((backwardMatrix 2 1 1 .x).mulVec _ (1, 0, 0) + (backwardMatrix 2 1 1 .y).mulVec _ (1, 0, 0)) * _ ≠ 0
    rw [bx, by']
    simp only [emVec, hx, hy]
    simp [Grids.rot, Grids.flat, alongZ, regularGrids, fx, fy]
  · rw [tmem2D_flux 2 1 1 srcs 0 rfl rfl (fun a i => by rw [hmu]; exact one_ne_zero)]
    simp [fluxDivergence, ← Pi.zero_def]

/-! ### Charge -/

/-- What the sources add to the electric field. -/
noncomputable def addedElectric {ι : Type} [DecidableEq ι] (srcs : List (Source ι)) (n : ℕ) (a : Axis) (i : ι) : ℝ :=
  (srcs.map fun q => if q.ty = (match a with | .x => SType.EX | .y => .EY | .z => .EZ) ∧ q.pos = i
    then q.signal n else 0).sum

end Verif.Solver
