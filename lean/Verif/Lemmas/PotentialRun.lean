import Verif.Lemmas.Potential
import Verif.Props.Leapfrog
import Verif.Model.WavefieldViews

/-!
# Runs of the elastic and acoustic solvers in homogeneous media as recursions for divergence and curl
-/
set_option linter.dupNamespace false
set_option linter.unusedSimpArgs false

namespace Verif.Solver
open Matrix

variable {NX NY NZ : ℕ} {sp : Int} {DT DH : ℝ}

theorem run_succ_fld {ι : Type} [DecidableEq ι] [Fintype ι] (S : Solver ι) (srcs : List (Source ι)) (s : State ι) (n : ℕ)
    (f : Fld) : run S srcs s (n + 1) (.fld f) = exec S.prog (run S srcs s n) (.fld f) + injected S srcs n f := rfl

theorem slope_plain {c : BC (Pt NX NY NZ)} (hc : c.plain) (s : State (Pt NX NY NZ)) (a : Axis) (f : Fld)
    (v : Pt NX NY NZ → ℝ) (i : Pt NX NY NZ) : slope sp DT DH c s a f v i = centred sp DT DH a f v i := by
  simp [slope, hc.2.2]

theorem frame_plain {c : BC (Pt NX NY NZ)} (hc : c.plain) (i : Pt NX NY NZ) : frame c i = 1 := by
  simp [frame, hc.2.1]

/-- Velocities along the axes of a 3D simulation. -/
def vel3 (s : State (Pt NX NY NZ)) (a : Axis) : Pt NX NY NZ → ℝ := s (.fld (vel a))
/-- Stresses of a 3D simulation. -/
def stress3 (s : State (Pt NX NY NZ)) (a b : Axis) : Pt NX NY NZ → ℝ := s (.fld (stress a b))
/-- Velocities of a 2D simulation. -/
def vel2 (s : State (Pt NX NY NZ)) (a : Axis) : Pt NX NY NZ → ℝ := if a = .z then 0 else s (.fld (vel a))
/-- Stresses of a 2D simulation. -/
def stress2 (s : State (Pt NX NY NZ)) (a b : Axis) : Pt NX NY NZ → ℝ :=
  if a = .z ∨ b = .z then 0 else s (.fld (stress a b))

/-- The same density, P-wave modulus and S-wave modulus everywhere. -/
structure Homogeneous {ι : Type} (m : Mod ι) (r M μ : ℝ) : Prop where
  invRhoX : ∀ i, m.invRhoX i = r
  invRhoY : ∀ i, m.invRhoY i = r
  invRhoZ : ∀ i, m.invRhoZ i = r
  pMod : ∀ i, m.pMod i = M
  sMod : ∀ i, m.sMod i = μ
  sModXY : ∀ i, m.sModXY i = μ
  sModXZ : ∀ i, m.sModXZ i = μ
  sModYZ : ∀ i, m.sModYZ i = μ

theorem Homogeneous.invRhoAt {ι : Type} {m : Mod ι} {r M μ : ℝ} (h : Homogeneous m r M μ) (a : Axis) (i : ι) :
    m.invRhoAt a i = r := by
  cases a
  exacts [h.invRhoX i, h.invRhoY i, h.invRhoZ i]

theorem Homogeneous.muAt {ι : Type} {m : Mod ι} {r M μ : ℝ} (h : Homogeneous m r M μ) (a b : Axis) (i : ι) :
    m.muAt a b i = μ := by
  cases a <;> cases b <;> first | exact h.sMod i | exact h.sModXY i | exact h.sModXZ i | exact h.sModYZ i

section
variable {c : BC (Pt NX NY NZ)} (hc : c.plain) {m : Mod (Pt NX NY NZ)} {r M μ : ℝ} (hm : Homogeneous m r M μ)
  (srcs : List (Source (Pt NX NY NZ))) (s : State (Pt NX NY NZ))

local notation "G₃" => regularGrids NX NY NZ sp DT DH
local notation "D₃" => surfaceDeriv NX NY NZ sp DT DH

include hc hm in
private theorem step3 (s : State (Pt NX NY NZ)) :
    vel3 (exec (elastic3D D₃ m c) s) = vel3 s + r • (G₃).force (stress3 s) ∧
    stress3 (exec (elastic3D D₃ m c) s) = stress3 s +
      (G₃).hooke (M - 2 * μ) μ (vel3 s + r • (G₃).force (stress3 s)) := by
  obtain ⟨u, h1, h2, h3, -⟩ := (C106_elastic3D_partial sp DT DH c s (by rw [hc.1]; decide) m).step
  have hv : vel3 (exec (elastic3D D₃ m c) s) = vel3 s + r • (G₃).force (stress3 s) := by
    funext a i
    have e := (h3 a (by cases a <;> simp) a (by cases a <;> simp) i).1
    rw [frame_plain hc, one_mul, h1 a (by cases a <;> simp) i, hm.invRhoAt] at e
    refine e.trans ?_
    simp only [slope_plain hc, List.map_cons, List.map_nil, List.sum_cons, List.sum_nil]
    cases a <;> simp [centred, halfway, vel3, stress3, Grids.force, regularGrids, old, vel, stress] <;> ring
  have hu : ∀ a, u (vel a) = (vel3 s + r • (G₃).force (stress3 s)) a := by
    intro a
    rw [← hv]
    funext i
    have e := (h3 a (by cases a <;> simp) a (by cases a <;> simp) i).1
    rw [frame_plain hc, one_mul] at e
    exact e.symm
  refine ⟨hv, ?_⟩
  funext a b i
  have e := (h3 a (by cases a <;> simp) b (by cases b <;> simp) i).2
  rw [frame_plain hc, one_mul, h2 a (by cases a <;> simp) b (by cases b <;> simp) i, hm.muAt, hm.pMod, hm.sMod] at e
  refine e.trans ?_
  simp only [slope_plain hc, List.map_cons, List.map_nil, List.sum_cons, List.sum_nil, hu]
  cases a <;> cases b <;>
    simp [centred, halfway, stress3, Grids.hooke, Grids.div, regularGrids, old, vel, stress] <;> ring

include hc hm in
private theorem step2 (s : State (Pt NX NY NZ)) :
    vel2 (exec (elastic2D D₃ m c) s) = vel2 s + r • (G₃).flat.force (stress2 s) ∧
    ∀ a b, a ≠ .z → b ≠ .z → stress2 (exec (elastic2D D₃ m c) s) a b = stress2 s a b +
      (G₃).flat.hooke (M - 2 * μ) μ (vel2 s + r • (G₃).flat.force (stress2 s)) a b := by
  obtain ⟨u, h1, h2, h3, -⟩ := (C106_elastic2D_partial sp DT DH c s (by rw [hc.1]; decide) m).step
  have hin : ∀ a, a ≠ Axis.z → a ∈ [Axis.x, .y] := by intro a ha; cases a <;> simp at ha ⊢
  have hv : vel2 (exec (elastic2D D₃ m c) s) = vel2 s + r • (G₃).flat.force (stress2 s) := by
    funext a i
    by_cases ha : a = .z
    · subst ha
      simp [vel2, Grids.force, Grids.flat, stress2]
    have e := (h3 a (hin a ha) a (hin a ha) i).1
    rw [frame_plain hc, one_mul, h1 a (hin a ha) i, hm.invRhoAt] at e
    simp only [vel2, if_neg ha]
    refine e.trans ?_
    simp only [slope_plain hc, List.map_cons, List.map_nil, List.sum_cons, List.sum_nil]
    cases a <;> first | exact absurd rfl ha |
      (simp [centred, halfway, vel2, stress2, Grids.force, Grids.flat, regularGrids, old, vel, stress] <;> ring)
  have hu : ∀ a, a ≠ .z → u (vel a) = (vel2 s + r • (G₃).flat.force (stress2 s)) a := by
    intro a ha
    rw [← hv]
    funext i
    have e := (h3 a (hin a ha) a (hin a ha) i).1
    rw [frame_plain hc, one_mul] at e
    simp only [vel2, if_neg ha]
    exact e.symm
  refine ⟨hv, ?_⟩
  intro a b ha hb
  funext i
  have e := (h3 a (hin a ha) b (hin b hb) i).2
  rw [frame_plain hc, one_mul, h2 a (hin a ha) b (hin b hb) i, hm.muAt, hm.pMod, hm.sMod] at e
  simp only [stress2, ha, hb, or_self, if_false]
  refine e.trans ?_
  simp only [slope_plain hc, List.map_cons, List.map_nil, List.sum_cons, List.sum_nil, hu .x (by decide),
    hu .y (by decide), hu a ha, hu b hb]
  cases a <;> cases b <;> first | exact absurd rfl ha | exact absurd rfl hb |
    (simp [centred, halfway, stress2, Grids.hooke, Grids.div, Grids.flat, regularGrids, old, vel, stress] <;> ring)

include hc hm in
private theorem stepA3 (s : State (Pt NX NY NZ)) :
    vel3 (exec (acoustic3D D₃ m c) s) = vel3 s + (r • fun a => (G₃).F a (s (.fld .p))) ∧
    exec (acoustic3D D₃ m c) s (.fld .p) = s (.fld .p) +
      M • (G₃).div (vel3 s + r • fun a => (G₃).F a (s (.fld .p))) := by
  obtain ⟨u, h1, h2, h3, -⟩ := (C106_acoustic3D_partial sp DT DH c s (by rw [hc.1]; decide) m).step
  have hin : ∀ a : Axis, vel a ∈ Fld.p :: [Axis.x, .y, .z].map vel := by intro a; cases a <;> decide
  have hv : vel3 (exec (acoustic3D D₃ m c) s) = vel3 s + r • fun a => (G₃).F a (s (.fld .p)) := by
    funext a i
    have e := h3 (vel a) (hin a) i
    rw [frame_plain hc, one_mul, h1 a (by cases a <;> simp) i, hm.invRhoAt] at e
    refine e.trans ?_
    simp [slope_plain hc, centred, halfway, vel3, regularGrids, old]
  have hu : ∀ a, u (vel a) = (vel3 s + r • fun a => (G₃).F a (s (.fld .p))) a := by
    intro a
    rw [← hv]
    funext i
    have e := h3 (vel a) (hin a) i
    rw [frame_plain hc, one_mul] at e
    exact e.symm
  refine ⟨hv, ?_⟩
  funext i
  have e := h3 .p (by decide) i
  rw [frame_plain hc, one_mul, h2 i, hm.pMod] at e
  refine e.trans ?_
  simp only [slope_plain hc, List.map_cons, List.map_nil, List.sum_cons, List.sum_nil, hu]
  simp [centred, halfway, Grids.div, regularGrids, old, vel]
  ring

include hc hm in
private theorem stepA2 (s : State (Pt NX NY NZ)) :
    vel2 (exec (acoustic2D D₃ m c) s) = vel2 s + (r • fun a => (G₃).flat.F a (s (.fld .p))) ∧
    exec (acoustic2D D₃ m c) s (.fld .p) = s (.fld .p) +
      M • (G₃).flat.div (vel2 s + r • fun a => (G₃).flat.F a (s (.fld .p))) := by
  obtain ⟨u, h1, h2, h3, -⟩ := (C106_acoustic2D_partial sp DT DH c s (by rw [hc.1]; decide) m).step
  have hin : ∀ a : Axis, a ≠ .z → vel a ∈ Fld.p :: [Axis.x, .y].map vel := by
    intro a ha; cases a <;> first | decide | exact absurd rfl ha
  have hin' : ∀ a, a ≠ Axis.z → a ∈ [Axis.x, .y] := by intro a ha; cases a <;> simp at ha ⊢
  have hv : vel2 (exec (acoustic2D D₃ m c) s) = vel2 s + r • fun a => (G₃).flat.F a (s (.fld .p)) := by
    funext a i
    by_cases ha : a = .z
    · subst ha
      simp [vel2, Grids.flat]
    have e := h3 (vel a) (hin a ha) i
    rw [frame_plain hc, one_mul, h1 a (hin' a ha) i, hm.invRhoAt] at e
    simp only [vel2, if_neg ha]
    refine e.trans ?_
    simp [slope_plain hc, centred, halfway, vel2, ha, Grids.flat, regularGrids, old]
  have hu : ∀ a, a ≠ .z → u (vel a) = (vel2 s + r • fun a => (G₃).flat.F a (s (.fld .p))) a := by
    intro a ha
    rw [← hv]
    funext i
    have e := h3 (vel a) (hin a ha) i
    rw [frame_plain hc, one_mul] at e
    simp only [vel2, if_neg ha]
    exact e.symm
  refine ⟨hv, ?_⟩
  funext i
  have e := h3 .p (by decide) i
  rw [frame_plain hc, one_mul, h2 i, hm.pMod] at e
  refine e.trans ?_
  simp only [slope_plain hc, List.map_cons, List.map_nil, List.sum_cons, List.sum_nil, hu .x (by decide),
    hu .y (by decide)]
  simp [centred, halfway, Grids.div, Grids.flat, regularGrids, old, vel]
  try ring

/-- Velocities added by the sources. -/
noncomputable def pushes (srcs : List (Source (Pt NX NY NZ))) (n : ℕ) (a : Axis) (i : Pt NX NY NZ) : ℝ :=
  (srcs.map fun q => if q.ty = (match a with | .x => SType.VX | .y => .VY | .z => .VZ) ∧ q.pos = i
    then q.signal n else 0).sum

/-- Pressures added by the sources. -/
noncomputable def presses (srcs : List (Source (Pt NX NY NZ))) (n : ℕ) (i : Pt NX NY NZ) : ℝ :=
  (srcs.map fun q => if q.ty = .P ∧ q.pos = i then q.signal n else 0).sum

private theorem injected_congr {ι : Type} [DecidableEq ι] (S : Solver ι) (srcs : List (Source ι)) (n : ℕ) (f : Fld)
    (ty : SType) (h : ∀ t, f ∈ S.srcFlds t ↔ t = ty) :
    injected S srcs n f = fun i => (srcs.map fun q => if q.ty = ty ∧ q.pos = i then q.signal n else 0).sum := by
  funext i
  simp only [injected, h]

private theorem injected_none {ι : Type} [DecidableEq ι] (S : Solver ι) (srcs : List (Source ι)) (n : ℕ) (f : Fld)
    (h : ∀ t, f ∉ S.srcFlds t) : injected S srcs n f = 0 := by
  funext i
  simp [injected, h]

include hc hm in
theorem elastic3D_run : (G₃).Elastic r (M - 2 * μ) μ (presses srcs) (pushes srcs)
    (fun n => vel3 (run (elastic3DSolver D₃ m c) srcs s n))
    (fun n => (G₃).force (stress3 (run (elastic3DSolver D₃ m c) srcs s n))) := by
  have hS : ∀ n, stress3 (run (elastic3DSolver D₃ m c) srcs s (n + 1)) =
      stress3 (exec (elastic3D D₃ m c) (run (elastic3DSolver D₃ m c) srcs s n)) + Grids.iso (presses srcs n) := by
    intro n
    funext a b
    simp only [stress3, Pi.add_apply, run_succ_fld, elastic3DSolver]
    congr 1
    cases a <;> cases b <;> first
      | exact injected_congr _ _ _ _ .P (by intro t; cases t <;> simp [Solver.srcFlds, src3Delastic, stress])
      | exact injected_none _ _ _ _ (by intro t; cases t <;> simp [Solver.srcFlds, src3Delastic, stress])
  constructor
  · intro n
    rw [← (step3 hc hm _).1]
    funext a
    simp only [vel3, Pi.add_apply, run_succ_fld, elastic3DSolver]
    congr 1
    cases a
    exacts [injected_congr _ _ _ _ .VX (by intro t; cases t <;> simp [Solver.srcFlds, src3Delastic, vel]),
      injected_congr _ _ _ _ .VY (by intro t; cases t <;> simp [Solver.srcFlds, src3Delastic, vel]),
      injected_congr _ _ _ _ .VZ (by intro t; cases t <;> simp [Solver.srcFlds, src3Delastic, vel])]
  · intro n
    simp only [hS, (step3 hc hm _).2, Grids.force_add]

include hc hm in
theorem acoustic3D_run (n : ℕ) :
    vel3 (run (acoustic3DSolver D₃ m c) srcs s (n + 1)) = vel3 (run (acoustic3DSolver D₃ m c) srcs s n) +
      (r • fun a => (G₃).F a (run (acoustic3DSolver D₃ m c) srcs s n (.fld .p))) + pushes srcs n ∧
    run (acoustic3DSolver D₃ m c) srcs s (n + 1) (.fld .p) = run (acoustic3DSolver D₃ m c) srcs s n (.fld .p) +
      M • (G₃).div (vel3 (run (acoustic3DSolver D₃ m c) srcs s n) +
        r • fun a => (G₃).F a (run (acoustic3DSolver D₃ m c) srcs s n (.fld .p))) + presses srcs n := by
  constructor
  · rw [← (stepA3 hc hm _).1]
    funext a
    simp only [vel3, Pi.add_apply, run_succ_fld, acoustic3DSolver]
    congr 1
    cases a
    exacts [injected_congr _ _ _ _ .VX (by intro t; cases t <;> simp [Solver.srcFlds, src3Dacoustic, vel]),
      injected_congr _ _ _ _ .VY (by intro t; cases t <;> simp [Solver.srcFlds, src3Dacoustic, vel]),
      injected_congr _ _ _ _ .VZ (by intro t; cases t <;> simp [Solver.srcFlds, src3Dacoustic, vel])]
  · rw [← (stepA3 hc hm _).2, run_succ_fld]
    congr 1
    exact injected_congr _ _ _ _ .P (by intro t; cases t <;> simp [Solver.srcFlds, acoustic3DSolver, src3Dacoustic])

/-- Velocities added by the sources of a 2D simulation. -/
noncomputable def pushes2 (srcs : List (Source (Pt NX NY NZ))) (n : ℕ) (a : Axis) : Pt NX NY NZ → ℝ :=
  if a = .z then 0 else pushes srcs n a

private theorem flat_force_congr {S T : Axis → Axis → Pt NX NY NZ → ℝ} (h : ∀ a b, a ≠ .z → b ≠ .z → S a b = T a b)
    (hz : ∀ a, a ≠ .z → S .z a = T .z a) : (G₃).flat.force S = (G₃).flat.force T := by
  funext a
  cases a <;> simp [Grids.force, Grids.flat, h, hz]

include hc hm in
theorem elastic2D_run : (G₃).flat.Elastic r (M - 2 * μ) μ (presses srcs) (pushes2 srcs)
    (fun n => vel2 (run (elastic2DSolver D₃ m c) srcs s n))
    (fun n => (G₃).flat.force (stress2 (run (elastic2DSolver D₃ m c) srcs s n))) := by
  have hS : ∀ n, ∀ a b, a ≠ .z → b ≠ .z → stress2 (run (elastic2DSolver D₃ m c) srcs s (n + 1)) a b =
      stress2 (exec (elastic2D D₃ m c) (run (elastic2DSolver D₃ m c) srcs s n)) a b +
        Grids.iso (presses srcs n) a b := by
    intro n a b ha hb
    simp only [stress2, ha, hb, or_self, if_false, run_succ_fld, elastic2DSolver]
    congr 1
    cases a <;> cases b <;> first
      | exact absurd rfl ha
      | exact absurd rfl hb
      | exact injected_congr _ _ _ _ .P (by intro t; cases t <;> simp [Solver.srcFlds, src2Delastic, stress])
      | exact injected_none _ _ _ _ (by intro t; cases t <;> simp [Solver.srcFlds, src2Delastic, stress])
  constructor
  · intro n
    rw [← (step2 hc hm _).1]
    funext a
    by_cases ha : a = .z
    · subst ha
      simp [vel2, pushes2]
    simp only [vel2, pushes2, if_neg ha, Pi.add_apply, run_succ_fld, elastic2DSolver]
    congr 1
    cases a
    exacts [injected_congr _ _ _ _ .VX (by intro t; cases t <;> simp [Solver.srcFlds, src2Delastic, vel]),
      injected_congr _ _ _ _ .VY (by intro t; cases t <;> simp [Solver.srcFlds, src2Delastic, vel]), absurd rfl ha]
  · intro n
    simp only [← Grids.force_add]
    apply flat_force_congr
    · intro a b ha hb
      rw [hS n a b ha hb, (step2 hc hm _).2 a b ha hb]
      rfl
    · intro a ha
      cases a <;> first | exact absurd rfl ha | simp [stress2, Grids.hooke, Grids.iso, Grids.flat, vel2, Grids.force]

include hc hm in
theorem acoustic2D_run (n : ℕ) :
    vel2 (run (acoustic2DSolver D₃ m c) srcs s (n + 1)) = vel2 (run (acoustic2DSolver D₃ m c) srcs s n) +
      (r • fun a => (G₃).flat.F a (run (acoustic2DSolver D₃ m c) srcs s n (.fld .p))) + pushes2 srcs n ∧
    run (acoustic2DSolver D₃ m c) srcs s (n + 1) (.fld .p) = run (acoustic2DSolver D₃ m c) srcs s n (.fld .p) +
      M • (G₃).flat.div (vel2 (run (acoustic2DSolver D₃ m c) srcs s n) +
        r • fun a => (G₃).flat.F a (run (acoustic2DSolver D₃ m c) srcs s n (.fld .p))) + presses srcs n := by
  constructor
  · rw [← (stepA2 hc hm _).1]
    funext a
    by_cases ha : a = .z
    · subst ha
      simp [vel2, pushes2]
    simp only [vel2, pushes2, if_neg ha, Pi.add_apply, run_succ_fld, acoustic2DSolver]
    congr 1
    cases a
    exacts [injected_congr _ _ _ _ .VX (by intro t; cases t <;> simp [Solver.srcFlds, src2Dacoustic, vel]),
      injected_congr _ _ _ _ .VY (by intro t; cases t <;> simp [Solver.srcFlds, src2Dacoustic, vel]), absurd rfl ha]
  · rw [← (stepA2 hc hm _).2, run_succ_fld]
    congr 1
    exact injected_congr _ _ _ _ .P (by intro t; cases t <;> simp [Solver.srcFlds, acoustic2DSolver, src2Dacoustic])

end
end Verif.Solver
