import Verif.Lemmas.LocalityGrid
import Mathlib.Tactic.Module
import Mathlib.LinearAlgebra.Matrix.ToLin
/-!
# Derivatives along different axes commute, and what follows for divergence and curl

`F a` and `B a` stand for the forward and backward derivative along `a`.
-/
set_option linter.dupNamespace false
set_option linter.unusedSimpArgs false

namespace Verif.Solver
open Matrix

variable {NX NY NZ : ℕ}

theorem moveTo_comm {a b : Axis} (h : a ≠ b) (i : Pt NX NY NZ) (k : Fin (axisSize NX NY NZ a))
    (l : Fin (axisSize NX NY NZ b)) : moveTo b (moveTo a i k) l = moveTo a (moveTo b i l) k := by
  cases a <;> cases b <;> first | exact absurd rfl h | rfl

theorem along_moveTo_ne {a b : Axis} (h : a ≠ b) (i : Pt NX NY NZ) (k : Fin (axisSize NX NY NZ a)) :
    along b (moveTo a i k) = along b i := by
  cases a <;> cases b <;> first | exact absurd rfl h | rfl

theorem lineMatrix_comm {a b : Axis} (h : a ≠ b) (E E' : ℤ → ℤ → ℝ) (v : Pt NX NY NZ → ℝ) :
    (lineMatrix a E).mulVec ((lineMatrix b E').mulVec v) =
      (lineMatrix b E').mulVec ((lineMatrix a E).mulVec v) := by
  funext i
  simp only [lineMatrix_mulVec, Finset.mul_sum, along_moveTo_ne h, along_moveTo_ne h.symm]
  rw [Finset.sum_comm]
  refine Finset.sum_congr rfl fun l _ => Finset.sum_congr rfl fun k _ => ?_
  rw [moveTo_comm h]
  ring

/-- Operators for the two derivatives along every axis; those along different axes commute. -/
structure Grids (V : Type) [AddCommGroup V] [Module ℝ V] where
  F : Axis → V →ₗ[ℝ] V
  B : Axis → V →ₗ[ℝ] V
  ff : ∀ a b, a ≠ b → ∀ v, F a (F b v) = F b (F a v)
  fb : ∀ a b, a ≠ b → ∀ v, F a (B b v) = B b (F a v)
  bb : ∀ a b, a ≠ b → ∀ v, B a (B b v) = B b (B a v)

/-- The matrices of a regular grid. -/
noncomputable def regularGrids (NX NY NZ : ℕ) (sp : ℤ) (DT DH : ℝ) : Grids (Pt NX NY NZ → ℝ) where
  F a := (forwardMatrix sp DT DH a).mulVecLin
  B a := (backwardMatrix sp DT DH a).mulVecLin
  ff a b h v := by
    simp only [mulVecLin_apply, forwardMatrix_line]; exact lineMatrix_comm h _ _ v
  fb a b h v := by
    simp only [mulVecLin_apply, forwardMatrix_line, backwardMatrix_line]; exact lineMatrix_comm h _ _ v
  bb a b h v := by
    simp only [mulVecLin_apply, backwardMatrix_line]; exact lineMatrix_comm h _ _ v

namespace Grids
variable {V : Type} [AddCommGroup V] [Module ℝ V] (G : Grids V)

/-- Divergence of the velocities. -/
def div (v : Axis → V) : V := G.B .x (v .x) + G.B .y (v .y) + G.B .z (v .z)

/-- Laplacian at the pressure points. -/
def lap (p : V) : V := G.B .x (G.F .x p) + G.B .y (G.F .y p) + G.B .z (G.F .z p)

/-- Force along an axis. -/
def force (S : Axis → Axis → V) : Axis → V
  | .x => G.F .x (S .x .x) + G.B .y (S .x .y) + G.B .z (S .x .z)
  | .y => G.B .x (S .y .x) + G.F .y (S .y .y) + G.B .z (S .y .z)
  | .z => G.B .x (S .z .x) + G.B .y (S .z .y) + G.F .z (S .z .z)

/-- Hooke's law in a homogeneous medium with Lamé parameters. -/
def hooke (l μ : ℝ) (v : Axis → V) : Axis → Axis → V
  | .x, .x => l • G.div v + (2 * μ) • G.B .x (v .x)
  | .y, .y => l • G.div v + (2 * μ) • G.B .y (v .y)
  | .z, .z => l • G.div v + (2 * μ) • G.B .z (v .z)
  | a, b => μ • (G.F b (v a) + G.F a (v b))

/-- Isotropic stress. -/
def iso (p : V) : Axis → Axis → V := fun a b => if a = b then p else 0

theorem order (v : V) :
    G.F .y (G.F .x v) = G.F .x (G.F .y v) ∧ G.F .z (G.F .x v) = G.F .x (G.F .z v) ∧
    G.F .z (G.F .y v) = G.F .y (G.F .z v) ∧ G.F .y (G.B .x v) = G.B .x (G.F .y v) ∧
    G.F .z (G.B .x v) = G.B .x (G.F .z v) ∧ G.F .z (G.B .y v) = G.B .y (G.F .z v) ∧
    G.B .y (G.F .x v) = G.F .x (G.B .y v) ∧ G.B .z (G.F .x v) = G.F .x (G.B .z v) ∧
    G.B .z (G.F .y v) = G.F .y (G.B .z v) ∧ G.B .y (G.B .x v) = G.B .x (G.B .y v) ∧
    G.B .z (G.B .x v) = G.B .x (G.B .z v) ∧ G.B .z (G.B .y v) = G.B .y (G.B .z v) :=
  ⟨G.ff _ _ (by decide) v, G.ff _ _ (by decide) v, G.ff _ _ (by decide) v, G.fb _ _ (by decide) v,
   G.fb _ _ (by decide) v, G.fb _ _ (by decide) v, (G.fb _ _ (by decide) v).symm, (G.fb _ _ (by decide) v).symm,
   (G.fb _ _ (by decide) v).symm, G.bb _ _ (by decide) v, G.bb _ _ (by decide) v, G.bb _ _ (by decide) v⟩

/-- Components of the curl of the velocities. -/
def rot (v : Axis → V) : Axis → V
  | .x => G.F .y (v .z) - G.F .z (v .y)
  | .y => G.F .z (v .x) - G.F .x (v .z)
  | .z => G.F .x (v .y) - G.F .y (v .x)

/-- Laplacian at the points of the curl component. -/
def rotLap : Axis → V → V
  | .x, w => G.B .x (G.F .x w) + G.F .y (G.B .y w) + G.F .z (G.B .z w)
  | .y, w => G.F .x (G.B .x w) + G.B .y (G.F .y w) + G.F .z (G.B .z w)
  | .z, w => G.F .x (G.B .x w) + G.F .y (G.B .y w) + G.B .z (G.F .z w)

set_option hygiene false in
local macro "orders" : tactic => `(tactic| (
  have h1 := fun v => (G.order v).1
  have h2 := fun v => (G.order v).2.1
  have h3 := fun v => (G.order v).2.2.1
  have h4 := fun v => (G.order v).2.2.2.1
  have h5 := fun v => (G.order v).2.2.2.2.1
  have h6 := fun v => (G.order v).2.2.2.2.2.1
  have h7 := fun v => (G.order v).2.2.2.2.2.2.1
  have h8 := fun v => (G.order v).2.2.2.2.2.2.2.1
  have h9 := fun v => (G.order v).2.2.2.2.2.2.2.2.1
  have h10 := fun v => (G.order v).2.2.2.2.2.2.2.2.2.1
  have h11 := fun v => (G.order v).2.2.2.2.2.2.2.2.2.2.1
  have h12 := fun v => (G.order v).2.2.2.2.2.2.2.2.2.2.2
  simp only [rot, rotLap, div, force, hooke, lap, iso, map_add, map_sub, map_smul, map_zero, smul_add, smul_sub,
    if_true, if_false, reduceCtorEq, h1, h2, h3, h4, h5, h6, h7, h8, h9, h10, h11, h12]))

/-- The divergence of the elastic force is that of an acoustic medium. -/
theorem div_force_hooke (l μ : ℝ) (v : Axis → V) :
    G.div (G.force (G.hooke l μ v)) = (l + 2 * μ) • G.lap (G.div v) := by
  orders; module

/-- The curl of the elastic force only depends on the curl of the velocities. -/
theorem rot_force_hooke (l μ : ℝ) (v : Axis → V) (a : Axis) :
    G.rot (G.force (G.hooke l μ v)) a = μ • G.rotLap a (G.rot v a) := by
  cases a <;> orders <;> module

theorem div_force_iso (p : V) : G.div (G.force (iso p)) = G.lap p := by
  orders; module

theorem rot_force_iso (p : V) (a : Axis) : G.rot (G.force (iso p)) a = 0 := by
  cases a <;> orders <;> module

theorem div_add (v w : Axis → V) : G.div (v + w) = G.div v + G.div w := by
  simp only [div, Pi.add_apply, map_add]; module
theorem div_smul (r : ℝ) (v : Axis → V) : G.div (r • v) = r • G.div v := by
  simp only [div, Pi.smul_apply, map_smul]; module
theorem rot_add (v w : Axis → V) (a : Axis) : G.rot (v + w) a = G.rot v a + G.rot w a := by
  cases a <;> simp only [rot, Pi.add_apply, map_add] <;> module
theorem rot_smul (r : ℝ) (v : Axis → V) (a : Axis) : G.rot (r • v) a = r • G.rot v a := by
  cases a <;> simp only [rot, Pi.smul_apply, map_smul] <;> module
theorem force_add (S T : Axis → Axis → V) : G.force (S + T) = G.force S + G.force T := by
  funext a; cases a <;> simp only [force, Pi.add_apply, map_add] <;> module
theorem lap_add (p q : V) : G.lap (p + q) = G.lap p + G.lap q := by
  simp only [lap, map_add]; module
theorem lap_smul (r : ℝ) (p : V) : G.lap (r • p) = r • G.lap p := by
  simp only [lap, map_smul]; module
theorem rotLap_zero (a : Axis) : G.rotLap a 0 = 0 := by
  cases a <;> simp only [rotLap, map_zero, add_zero]

/-- The elastic equations in a homogeneous medium for the velocities `v` and the forces `Q` with sources `f` of
velocity and `q` of isotropic stress, added at the end of the time step. -/
structure Elastic (r l μ : ℝ) (q : ℕ → V) (f v Q : ℕ → Axis → V) : Prop where
  motion : ∀ n, v (n + 1) = v n + r • Q n + f n
  law : ∀ n, Q (n + 1) = Q n + G.force (G.hooke l μ (v n + r • Q n)) + G.force (iso (q n))

variable {G} {r l μ : ℝ} {q : ℕ → V} {f v Q : ℕ → Axis → V}

/-- The curl neither depends on the isotropic sources nor on the first Lamé parameter. -/
theorem Elastic.rot_eq (h : G.Elastic r l μ q f v Q) {l' : ℝ} {q' : ℕ → V} {f' v' Q' : ℕ → Axis → V}
    (h' : G.Elastic r l' μ q' f' v' Q') (a : Axis) (hf : ∀ n, G.rot (f n) a = G.rot (f' n) a)
    (hv : G.rot (v 0) a = G.rot (v' 0) a) (hQ : G.rot (Q 0) a = G.rot (Q' 0) a) (n : ℕ) :
    G.rot (v n) a = G.rot (v' n) a ∧ G.rot (Q n) a = G.rot (Q' n) a := by
  induction n with
  | zero => exact ⟨hv, hQ⟩
  | succ n ih =>
    constructor
    · simp only [h.motion, h'.motion, rot_add, rot_smul, ih.1, ih.2, hf]
    · simp only [h.law, h'.law, rot_add, rot_force_hooke, rot_force_iso, rot_smul, ih.1, ih.2]

/-- The divergence evolves like that of an acoustic medium. -/
theorem Elastic.div_acoustic (h : G.Elastic r l μ q f v Q) {w : ℕ → Axis → V} {p : ℕ → V}
    (hw : ∀ n, w (n + 1) = w n + (r • fun a => G.F a (p n)) + f n)
    (hp : ∀ n, p (n + 1) = p n + (l + 2 * μ) • G.div (w n + (r • fun a => G.F a (p n))) + q n)
    (h0 : G.div (v 0) = G.div (w 0)) (h0' : G.div (Q 0) = G.lap (p 0)) (n : ℕ) :
    G.div (v n) = G.div (w n) ∧ G.div (Q n) = G.lap (p n) := by
  induction n with
  | zero => exact ⟨h0, h0'⟩
  | succ n ih =>
    have hl : G.div (fun a => G.F a (p n)) = G.lap (p n) := rfl
    constructor
    · simp only [h.motion, hw, div_add, div_smul, ih.1, ih.2, hl]
    · simp only [h.law, hp, div_add, div_smul, div_force_hooke, div_force_iso, lap_add, lap_smul, ih.1, ih.2, hl]

/-- Without divergence in the sources there is none in the velocities. -/
theorem Elastic.div_zero (h : G.Elastic r l μ 0 f v Q) (hf : ∀ n, G.div (f n) = 0) (hv : G.div (v 0) = 0)
    (hQ : G.div (Q 0) = 0) (n : ℕ) : G.div (v n) = 0 ∧ G.div (Q n) = 0 := by
  induction n with
  | zero => exact ⟨hv, hQ⟩
  | succ n ih =>
    constructor
    · simp only [h.motion, div_add, div_smul, ih.1, ih.2, hf, smul_zero, add_zero]
    · simp only [h.law, div_add, div_smul, div_force_hooke, div_force_iso, ih.1, ih.2, lap, map_add, map_smul, map_zero,
        smul_zero, add_zero, Pi.zero_apply]

variable (G) in
/-- Divergence with forward derivatives. -/
def divF (v : Axis → V) : V := G.F .x (v .x) + G.F .y (v .y) + G.F .z (v .z)

variable (G) in
/-- Curl with backward derivatives. -/
def rotB (v : Axis → V) : Axis → V
  | .x => G.B .y (v .z) - G.B .z (v .y)
  | .y => G.B .z (v .x) - G.B .x (v .z)
  | .z => G.B .x (v .y) - G.B .y (v .x)

variable (G) in
theorem divF_rot (v : Axis → V) : G.divF (G.rot v) = 0 := by
  simp only [divF, rot, map_sub, G.ff .y .x (by decide), G.ff .z .x (by decide), G.ff .z .y (by decide)]
  module

variable (G) in
theorem div_rotB (v : Axis → V) : G.div (G.rotB v) = 0 := by
  simp only [div, rotB, map_sub, G.bb .y .x (by decide), G.bb .z .x (by decide), G.bb .z .y (by decide)]
  module

variable (G) in
theorem divF_add (v w : Axis → V) : G.divF (v + w) = G.divF v + G.divF w := by
  simp only [divF, Pi.add_apply, map_add]; module

variable (G) in
theorem divF_sub (v w : Axis → V) : G.divF (v - w) = G.divF v - G.divF w := by
  simp only [divF, Pi.sub_apply, map_sub]; module

/-- The same operators without the third axis. -/
def flat (G : Grids V) : Grids V where
  F a := if a = .z then 0 else G.F a
  B a := if a = .z then 0 else G.B a
  ff a b h v := by
    cases a <;> cases b <;> simp [G.ff .x .y (by decide)] at h ⊢
  fb a b h v := by
    cases a <;> cases b <;> simp [G.fb .x .y (by decide), G.fb .y .x (by decide)] at h ⊢
  bb a b h v := by
    cases a <;> cases b <;> simp [G.bb .x .y (by decide)] at h ⊢

end Grids
end Verif.Solver
