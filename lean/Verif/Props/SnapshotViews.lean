import Verif.Lemmas.PotentialRun
import Mathlib.Tactic.FinCases

/-!
# C118: div and curl snapshots show P and S waves

In a homogeneous medium the div snapshot is that of an acoustic simulation and the curl snapshot depends neither
on the pressure sources nor on the P-wave modulus.
-/
set_option linter.dupNamespace false

namespace Verif.Solver
open Verif.Views
open Matrix

variable {NX NY NZ : ℕ} (sp : Int) (DT DH : ℝ) {c : BC (Pt NX NY NZ)} (hc : c.plain)
  {m m' : Mod (Pt NX NY NZ)} {r M M' μ μ' : ℝ} (srcs : List (Source (Pt NX NY NZ))) (s : State (Pt NX NY NZ))

local notation "D₀" => surfaceDeriv NX NY NZ sp DT DH
local notation "G₀" => regularGrids NX NY NZ sp DT DH

private theorem div3D_eq (w : Pt NX NY NZ → ℝ) (t : State (Pt NX NY NZ)) :
    div3D D₀ seisVec w t = fun i => Real.sqrt ((G₀).div (vel3 t) i ^ 2 * w i) := rfl

private theorem curl3D_eq (w : Pt NX NY NZ → ℝ) (t : State (Pt NX NY NZ)) :
    curl3D D₀ seisVec w t = fun i => Real.sqrt (((G₀).rot (vel3 t) .x i ^ 2 + (G₀).rot (vel3 t) .y i ^ 2 +
      (G₀).rot (vel3 t) .z i ^ 2) * w i) := rfl

private theorem div2D_eq (w : Pt NX NY NZ → ℝ) (t : State (Pt NX NY NZ)) :
    div2D D₀ seisVec w t = fun i => (G₀).flat.div (vel2 t) i * Real.sqrt (w i) := by
  funext i
  simp [div2D, Grids.div, Grids.flat, vel2, seisVec, vel, regularGrids, surfaceDeriv, regularDeriv]

private theorem curl2D_eq (w : Pt NX NY NZ → ℝ) (t : State (Pt NX NY NZ)) :
    curl2D D₀ seisVec w t = fun i => -(G₀).flat.rot (vel2 t) .z i * Real.sqrt (w i) := by
  funext i
  simp [curl2D, Grids.rot, Grids.flat, vel2, seisVec, vel, regularGrids, surfaceDeriv, regularDeriv]

private theorem vel3_rest {fs : List Var} (h : ∀ a, Var.fld (vel a) ∈ fs) : vel3 (clear fs s) = 0 := by
  funext a
  simp [vel3, clear, h]

private theorem stress3_rest {fs : List Var} (h : ∀ a b, Var.fld (stress a b) ∈ fs) : stress3 (clear fs s) = 0 := by
  funext a b
  simp [stress3, clear, h]

private theorem vel2_rest {fs : List Var} (h : ∀ a, a ≠ .z → Var.fld (vel a) ∈ fs) : vel2 (clear fs s) = 0 := by
  funext a
  by_cases ha : a = .z <;> simp [vel2, clear, ha, h]

private theorem stress2_rest {fs : List Var} (h : ∀ a b, a ≠ .z → b ≠ .z → Var.fld (stress a b) ∈ fs) :
    stress2 (clear fs s) = 0 := by
  funext a b
  by_cases ha : a = .z <;> by_cases hb : b = .z <;> simp [stress2, clear, ha, hb, h]

private theorem force_zero (G : Grids (Pt NX NY NZ → ℝ)) : G.force 0 = 0 := by
  funext a
  cases a <;> simp [Grids.force]

private theorem rest3 (a : Axis) : Var.fld (vel a) ∈ (elastic3DSolver D₀ m c).fields := by
  cases a <;> simp [elastic3DSolver, vel]

private theorem rest3' (a b : Axis) : Var.fld (stress a b) ∈ (elastic3DSolver D₀ m c).fields := by
  cases a <;> cases b <;> simp [elastic3DSolver, stress]

private theorem rest2 (a : Axis) (ha : a ≠ .z) : Var.fld (vel a) ∈ (elastic2DSolver D₀ m c).fields := by
  cases a <;> first | exact absurd rfl ha | simp [elastic2DSolver, vel]

private theorem rest2' (a b : Axis) (ha : a ≠ .z) (hb : b ≠ .z) :
    Var.fld (stress a b) ∈ (elastic2DSolver D₀ m c).fields := by
  cases a <;> cases b <;> first | exact absurd rfl ha | exact absurd rfl hb | simp [elastic2DSolver, stress]

include hc in
/-- C118: in a homogeneous medium the divergence of the velocities in a 3D elastic simulation is, at every point and
time and for all sources, that of an acoustic simulation with the same density and P-wave modulus. -/
theorem C118_div3D_acoustic (hm : Homogeneous m r M μ) (hm' : Homogeneous m' r M μ') (w : Pt NX NY NZ → ℝ) (n : ℕ) :
    div3D D₀ seisVec w (run (elastic3DSolver D₀ m c) srcs (clear (elastic3DSolver D₀ m c).fields s) n) =
      div3D D₀ seisVec w (run (acoustic3DSolver D₀ m' c) srcs (clear (acoustic3DSolver D₀ m' c).fields s) n) := by
  have hl : M - 2 * μ + 2 * μ = M := by ring
  have h := (elastic3D_run (sp := sp) (DT := DT) (DH := DH) hc hm srcs
    (clear (elastic3DSolver D₀ m c).fields s)).div_acoustic
    (w := fun n => vel3 (run (acoustic3DSolver D₀ m' c) srcs (clear (acoustic3DSolver D₀ m' c).fields s) n))
    (p := fun n => run (acoustic3DSolver D₀ m' c) srcs (clear (acoustic3DSolver D₀ m' c).fields s) n (.fld .p))
    (fun n => (acoustic3D_run hc hm' srcs _ n).1)
    (fun n => by rw [hl]; exact (acoustic3D_run hc hm' srcs _ n).2)
    (by
      simp only [run]
      rw [vel3_rest s (rest3 sp DT DH),
        vel3_rest s (fun a => by cases a <;> simp [acoustic3DSolver, vel])])
    (by
      simp only [run]
      rw [stress3_rest s (rest3' sp DT DH), force_zero]
      simp [clear, acoustic3DSolver, Grids.div, Grids.lap]) n
  rw [div3D_eq, div3D_eq, h.1]

include hc in
/-- C118: the same in two dimensions. -/
theorem C118_div2D_acoustic (hm : Homogeneous m r M μ) (hm' : Homogeneous m' r M μ') (w : Pt NX NY NZ → ℝ) (n : ℕ) :
    div2D D₀ seisVec w (run (elastic2DSolver D₀ m c) srcs (clear (elastic2DSolver D₀ m c).fields s) n) =
      div2D D₀ seisVec w (run (acoustic2DSolver D₀ m' c) srcs (clear (acoustic2DSolver D₀ m' c).fields s) n) := by
  have hl : M - 2 * μ + 2 * μ = M := by ring
  have h := (elastic2D_run (sp := sp) (DT := DT) (DH := DH) hc hm srcs
    (clear (elastic2DSolver D₀ m c).fields s)).div_acoustic
    (w := fun n => vel2 (run (acoustic2DSolver D₀ m' c) srcs (clear (acoustic2DSolver D₀ m' c).fields s) n))
    (p := fun n => run (acoustic2DSolver D₀ m' c) srcs (clear (acoustic2DSolver D₀ m' c).fields s) n (.fld .p))
    (fun n => (acoustic2D_run hc hm' srcs _ n).1)
    (fun n => by rw [hl]; exact (acoustic2D_run hc hm' srcs _ n).2)
    (by
      simp only [run]
      rw [vel2_rest s (rest2 sp DT DH),
        vel2_rest s (fun a ha => by cases a <;> first | exact absurd rfl ha | simp [acoustic2DSolver, vel])])
    (by
      simp only [run]
      rw [stress2_rest s (rest2' sp DT DH), force_zero]
      simp [clear, acoustic2DSolver, Grids.div, Grids.lap]) n
  rw [div2D_eq, div2D_eq, h.1]

/-- Leaving out the pressure sources. -/
def shearSources {ι : Type} (srcs : List (Source ι)) : List (Source ι) := srcs.filter fun q => q.ty ≠ .P

private theorem pushes_shear : pushes (shearSources srcs) = pushes srcs := by
  funext n a i
  unfold pushes shearSources
  induction srcs with
  | nil => rfl
  | cons q l ih =>
    by_cases hq : q.ty = .P
    · rw [List.filter_cons_of_neg (by simp [hq]), ih, List.map_cons, List.sum_cons, hq]
      cases a <;> simp
    · rw [List.filter_cons_of_pos (by simp [hq])]
      simp only [List.map_cons, List.sum_cons, ih]

private theorem pushes2_shear : pushes2 (shearSources srcs) = pushes2 srcs := by
  funext n a
  rw [pushes2, pushes2, pushes_shear]

private theorem pushes_none (h : ∀ q ∈ srcs, q.ty = .P) : pushes srcs = 0 := by
  have e : shearSources srcs = [] := by
    rw [shearSources, List.filter_eq_nil_iff]
    intro q hq
    simp [h q hq]
  rw [← pushes_shear, e]
  rfl

private theorem presses_none (h : ∀ q ∈ srcs, q.ty ≠ .P) : presses srcs = 0 := by
  funext n i
  unfold presses
  apply List.sum_eq_zero
  intro x hx
  obtain ⟨q, hq, rfl⟩ := List.mem_map.mp hx
  rw [if_neg fun e => h q hq e.1]

private theorem zero_elastic (G : Grids (Pt NX NY NZ → ℝ)) (r l μ : ℝ) : G.Elastic r l μ 0 0 0 0 := by
  constructor
  · intro n
    simp
  · intro n
    have h : G.hooke l μ 0 = 0 := by
      funext a b
      cases a <;> cases b <;> simp [Grids.hooke, Grids.div]
    have h' : (Grids.iso (0 : Pt NX NY NZ → ℝ)) = 0 := by
      funext a b
      simp [Grids.iso]
    simp [h, h', force_zero]

include hc in
/-- C118: in a homogeneous medium the curl of the velocities in a 3D elastic simulation does not depend on the
pressure sources and the P-wave modulus. -/
theorem C118_curl3D_shear (hm : Homogeneous m r M μ) (hm' : Homogeneous m' r M' μ) (w : Pt NX NY NZ → ℝ) (n : ℕ) :
    curl3D D₀ seisVec w (run (elastic3DSolver D₀ m c) srcs (clear (elastic3DSolver D₀ m c).fields s) n) =
      curl3D D₀ seisVec w
        (run (elastic3DSolver D₀ m' c) (shearSources srcs) (clear (elastic3DSolver D₀ m' c).fields s) n) := by
  have h := fun a => ((elastic3D_run (sp := sp) (DT := DT) (DH := DH) hc hm srcs
    (clear (elastic3DSolver D₀ m c).fields s)).rot_eq (elastic3D_run hc hm' (shearSources srcs)
    (clear (elastic3DSolver D₀ m' c).fields s)) a (fun n => by rw [pushes_shear]) (by rfl) (by rfl) n).1
  rw [curl3D_eq, curl3D_eq, h, h, h]

include hc in
/-- C118: the same in two dimensions. -/
theorem C118_curl2D_shear (hm : Homogeneous m r M μ) (hm' : Homogeneous m' r M' μ) (w : Pt NX NY NZ → ℝ) (n : ℕ) :
    curl2D D₀ seisVec w (run (elastic2DSolver D₀ m c) srcs (clear (elastic2DSolver D₀ m c).fields s) n) =
      curl2D D₀ seisVec w
        (run (elastic2DSolver D₀ m' c) (shearSources srcs) (clear (elastic2DSolver D₀ m' c).fields s) n) := by
  have h := ((elastic2D_run (sp := sp) (DT := DT) (DH := DH) hc hm srcs
    (clear (elastic2DSolver D₀ m c).fields s)).rot_eq (elastic2D_run hc hm' (shearSources srcs)
    (clear (elastic2DSolver D₀ m' c).fields s)) .z (fun n => by rw [pushes2_shear])
    (by rfl) (by rfl) n).1
  rw [curl2D_eq, curl2D_eq, h]

include hc in
/-- C118: explosions in a homogeneous medium produce no shear waves: the curl snapshots stay exactly zero. -/
theorem C118_curl3D_explosion (hm : Homogeneous m r M μ) (h : ∀ q ∈ srcs, q.ty = .P) (n : ℕ) :
    curl3D D₀ seisVec m.sMod (run (elastic3DSolver D₀ m c) srcs (clear (elastic3DSolver D₀ m c).fields s) n) = 0 := by
  have e := fun a => ((elastic3D_run (sp := sp) (DT := DT) (DH := DH) hc hm srcs
    (clear (elastic3DSolver D₀ m c).fields s)).rot_eq (zero_elastic G₀ r 0 μ) a
    (fun n => by rw [pushes_none srcs h])
    (by simp only [run]; rw [vel3_rest s (rest3 sp DT DH)]; rfl)
    (by simp only [run]; rw [stress3_rest s (rest3' sp DT DH), force_zero]; rfl) n).1
  rw [curl3D_eq]
  funext i
  simp only [e]
  simp [Grids.rot]

include hc in
/-- C118: the same in two dimensions. -/
theorem C118_curl2D_explosion (hm : Homogeneous m r M μ) (h : ∀ q ∈ srcs, q.ty = .P) (n : ℕ) :
    curl2D D₀ seisVec m.sMod (run (elastic2DSolver D₀ m c) srcs (clear (elastic2DSolver D₀ m c).fields s) n) = 0 := by
  have hp : pushes2 srcs = 0 := by
    funext n a
    rw [pushes2, pushes_none srcs h]
    simp
  have e := ((elastic2D_run (sp := sp) (DT := DT) (DH := DH) hc hm srcs
    (clear (elastic2DSolver D₀ m c).fields s)).rot_eq (zero_elastic (G₀).flat r 0 μ) .z
    (fun n => by rw [hp])
    (by simp only [run]; rw [vel2_rest s (rest2 sp DT DH)]; rfl)
    (by simp only [run]; rw [stress2_rest s (rest2' sp DT DH), force_zero]; rfl) n).1
  rw [curl2D_eq]
  funext i
  simp only [e]
  simp [Grids.rot]

/-- The velocity that the sources of one type add at a grid point in time step `n`. -/
noncomputable def addedVelocity {ι : Type} [DecidableEq ι] (srcs : List (Source ι)) (ty : SType) (n : ℕ) (i : ι) : ℝ :=
  (srcs.map fun q => if q.ty = ty ∧ q.pos = i then q.signal n else 0).sum

include hc in
/-- C118: sources that add a velocity field without divergence produce no P waves in a homogeneous medium: the div
snapshots stay exactly zero. -/
theorem C118_div3D_shear (hm : Homogeneous m r M μ) (h : ∀ q ∈ srcs, q.ty ≠ .P)
    (hd : ∀ n, (backwardMatrix sp DT DH .x).mulVec (addedVelocity srcs .VX n) +
      (backwardMatrix sp DT DH .y).mulVec (addedVelocity srcs .VY n) +
      (backwardMatrix sp DT DH .z).mulVec (addedVelocity srcs .VZ n) = 0) (n : ℕ) :
    div3D D₀ seisVec m.pMod (run (elastic3DSolver D₀ m c) srcs (clear (elastic3DSolver D₀ m c).fields s) n) = 0 := by
  have e := elastic3D_run (sp := sp) (DT := DT) (DH := DH) hc hm srcs (clear (elastic3DSolver D₀ m c).fields s)
  rw [presses_none srcs h] at e
  have e' := (e.div_zero (fun n => hd n)
    (by simp only [run]; rw [vel3_rest s (rest3 sp DT DH)]; simp [Grids.div])
    (by simp only [run]; rw [stress3_rest s (rest3' sp DT DH), force_zero]; simp [Grids.div]) n).1
  rw [div3D_eq, e']
  funext i
  simp

include hc in
/-- C118: the same in two dimensions. -/
theorem C118_div2D_shear (hm : Homogeneous m r M μ) (h : ∀ q ∈ srcs, q.ty ≠ .P)
    (hd : ∀ n, (backwardMatrix sp DT DH .x).mulVec (addedVelocity srcs .VX n) +
      (backwardMatrix sp DT DH .y).mulVec (addedVelocity srcs .VY n) = 0) (n : ℕ) :
    div2D D₀ seisVec m.pMod (run (elastic2DSolver D₀ m c) srcs (clear (elastic2DSolver D₀ m c).fields s) n) = 0 := by
  have e := elastic2D_run (sp := sp) (DT := DT) (DH := DH) hc hm srcs (clear (elastic2DSolver D₀ m c).fields s)
  rw [presses_none srcs h] at e
  have e' := (e.div_zero (fun n => by
      have e : (G₀).flat.div (pushes2 srcs n) = (backwardMatrix sp DT DH .x).mulVec (pushes srcs n .x) +
          (backwardMatrix sp DT DH .y).mulVec (pushes srcs n .y) := by
        simp [Grids.div, Grids.flat, pushes2, regularGrids]
      exact e.trans (hd n))
    (by simp only [run]; rw [vel2_rest s (rest2 sp DT DH)]; simp [Grids.div])
    (by simp only [run]; rw [stress2_rest s (rest2' sp DT DH), force_zero]; simp [Grids.div]) n).1
  rw [div2D_eq, e']
  funext i
  simp

/-- The hypothesis of `C118_div2D_shear` for two opposite sources in a corner of a grid with 2 × 2 points. -/
example (g : ℕ → ℝ) (n : ℕ) :
    let p : Pt 2 2 1 := (1, 1, 0)
    let srcs : List (Source (Pt 2 2 1)) := [⟨.VX, p, g⟩, ⟨.VY, p, fun n => -g n⟩]
    (backwardMatrix 2 1 1 .x).mulVec (addedVelocity srcs .VX n) +
      (backwardMatrix 2 1 1 .y).mulVec (addedVelocity srcs .VY n) = 0 ∧ ∀ q ∈ srcs, q.ty ≠ .P := by
  intro p srcs
  constructor
  · funext i
    simp only [backwardMatrix_line, Pi.add_apply, lineMatrix_mulVec, addedVelocity, srcs]
    have e10 : Verif.Stencil.fwdStencilEntry 2 2 1 0 = 0 := by decide +kernel
    have e11 : Verif.Stencil.fwdStencilEntry 2 2 1 1 = -1 := by decide +kernel
    obtain ⟨a, b, d⟩ := i
    erw [Fin.sum_univ_two, Fin.sum_univ_two]
    fin_cases a <;> fin_cases b <;> fin_cases d <;> simp [axisSize, along, moveTo, p, e10, e11]
  · simp [srcs]

end Verif.Solver
