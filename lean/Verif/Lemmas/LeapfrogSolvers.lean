import Verif.Lemmas.Leapfrog
import Verif.Model.SolverEM

/-!
# The solvers as leapfrog schemes
-/
set_option linter.dupNamespace false
set_option linter.unusedSectionVars false

namespace Verif.Solver
open Matrix

variable {ι : Type} [Fintype ι]

private theorem exec_surf (c : BC ι) (g : Fld) (s : State ι) (f : Fld) (i : ι) :
    exec (ifFS c (surfaceZero c (.fld g))) s (.fld f) i =
      if f = g then surfW c i * s (.fld f) i else s (.fld f) i := by
  unfold ifFS surfW surfaceZero
  split <;> by_cases h : f = g <;> simp [exec, Stmt.exec, State.set, h, mul_comm]

private theorem exec_surf_psi (c : BC ι) (g : Fld) (s : State ι) (f : Fld) (a : Axis) :
    exec (ifFS c (surfaceZero c (.fld g))) s (.psi f a) = s (.psi f a) := by
  unfold ifFS surfaceZero
  split <;> simp [exec, Stmt.exec, State.set]

private theorem exec_cpmlHalf (c : BC ι) (v : Scr) (f : Fld) (a : Axis) (s : State ι) :
    exec (cpmlHalf c (.scr v) f a) s =
      (s.set (.scr v) (grad c true a (s (.psi f a)) (s (.scr v)))).set (.psi f a)
        (newPsi c true a (s (.psi f a)) (s (.scr v))) := by
  unfold cpmlHalf
  cases hp : c.pml with
  | none =>
    funext w
    simp only [exec, List.foldl, State.set, grad, newPsi, hp]
    split_ifs <;> simp_all
  | some q =>
    funext w
    simp only [exec, List.foldl, Stmt.exec, State.set, grad, newPsi, hp, PML.at, Boundary.applyCPML, if_true]

private theorem exec_cpmlFull (c : BC ι) (v : Scr) (f : Fld) (a : Axis) (s : State ι) :
    exec (cpmlFull c (.scr v) f a) s =
      (s.set (.scr v) (grad c false a (s (.psi f a)) (s (.scr v)))).set (.psi f a)
        (newPsi c false a (s (.psi f a)) (s (.scr v))) := by
  unfold cpmlFull
  cases hp : c.pml with
  | none =>
    funext w
    simp only [exec, List.foldl, State.set, grad, newPsi, hp]
    split_ifs <;> simp_all
  | some q =>
    funext w
    simp only [exec, List.foldl, Stmt.exec, State.set, grad, newPsi, hp, PML.at, Boundary.applyCPML,
      Bool.false_eq_true, if_false]

/-- The scheme of the 2D acoustic solver. -/
def acoustic2DRows (D : Deriv ι) (m : Mod ι) (c : BC ι) : Scheme ι
  | .vX => some (mkRow false 1 (dampW c) (some ⟨.p, D.Dxf, true, m.invRhoX⟩) none none)
  | .vY => some (mkRow false 1 (dampW c) none (some ⟨.p, selFS c D.DyfFS D.Dyf, true, m.invRhoY⟩) none)
  | .p => some (mkRow true 1 (fun i => surfW c i * dampW c i) (some ⟨.vX, D.Dxb, false, m.pMod⟩)
      (some ⟨.vY, D.Dyb, false, m.pMod⟩) none)
  | _ => none

private def acoustic2DA (D : Deriv ι) (m : Mod ι) (c : BC ι) : List (Stmt ι) :=
  List.flatten [
  [.mul U D.Dxf (.fld .p)], cpmlHalf c U .p .x,
  [.scale U m.invRhoX, .add (.fld .vX) U],
  [.mul U (selFS c D.DyfFS D.Dyf) (.fld .p)], cpmlHalf c U .p .y,
  [.scale U m.invRhoY, .add (.fld .vY) U]]

private def acoustic2DB (D : Deriv ι) (m : Mod ι) (c : BC ι) : List (Stmt ι) :=
  List.flatten [
  [.mul U D.Dxb (.fld .vX)], cpmlFull c U .vX .x,
  [.mul UT D.Dyb (.fld .vY)], cpmlFull c UT .vY .y,
  [.add U UT, .scale U m.pMod, .add (.fld .p) U]]

private theorem acoustic2D_split (D : Deriv ι) (hD : NoInterp D) (m : Mod ι) (c : BC ι) (s : State ι) :
    exec (acoustic2D D m c) s = exec (ifFS c (surfaceZero c (.fld .p)))
      (exec (damp c [.p, .vX, .vY]) (exec (acoustic2DB D m c) (exec (acoustic2DA D m c) s))) := by
  obtain ⟨h1, h2, h3, h4⟩ := hD
  rw [← exec_append', ← exec_append', ← exec_append']
  simp only [acoustic2D, acoustic2DA, acoustic2DB, h1, h2, interp, List.flatten_cons, List.flatten_nil,
    List.append_nil, List.nil_append, List.append_assoc]

set_option hygiene false in
local macro "split_rows" sch:ident : tactic => `(tactic| (
  constructor <;> intro f r hr hl <;>
  cases f <;> simp only [$sch:ident, Option.some.injEq, reduceCtorEq] at hr <;> subst hr <;>
  (first | (exfalso; simp [mkRow] at hl; done) | clear hl) <;>
  (refine ⟨fun i => ?_, fun a t ht => ?_⟩ <;>
    first
    | (cases a <;> simp [mkRow] at ht <;> subst ht)
    | skip)))

set_option hygiene false in
local macro "staggered_tac" sch:ident : tactic => `(tactic| (
  intro f r a t hf hl ht
  cases f <;> simp only [$sch:ident, Option.some.injEq, reduceCtorEq] at hf <;> subst hf <;>
    (first | (exfalso; simp [mkRow] at hl; done) | skip) <;>
    cases a <;> simp [mkRow] at ht <;> subst ht <;> exact ⟨_, rfl, rfl⟩))

set_option hygiene false in
local macro "eval_half" A:ident : tactic => `(tactic| (
  (try simp (disch := decide) only [exec_damp, exec_damp_psi, exec_surf, exec_surf_psi]) <;>
  simp only [$A:ident, List.flatten_cons, List.flatten_nil, List.append_nil, exec_append', exec_cons, exec_nil,
    exec_cpmlHalf, exec_cpmlFull, Stmt.exec, eUpdate] <;>
  simp [-mul_eq_mul_left_iff, -mul_eq_mul_right_iff, mkRow, Row.value, Term.value, sum3, State.set] <;>
  try ring1))

private theorem acoustic2D_first (D : Deriv ι) (m : Mod ι) (c : BC ι) (s : State ι) :
    FirstHalf (acoustic2DRows D m c) c s (exec (acoustic2DA D m c) s) := by
  split_rows acoustic2DRows <;> eval_half acoustic2DA

private theorem acoustic2D_second (D : Deriv ι) (m : Mod ι) (c : BC ι) (s : State ι) :
    SecondHalf (acoustic2DRows D m c) c s (exec (ifFS c (surfaceZero c (.fld .p)))
      (exec (damp c [.p, .vX, .vY]) (exec (acoustic2DB D m c) s))) := by
  split_rows acoustic2DRows <;> eval_half acoustic2DB

theorem acoustic2DRows_staggered (D : Deriv ι) (m : Mod ι) (c : BC ι) : (acoustic2DRows D m c).Staggered := by
  staggered_tac acoustic2DRows

theorem acoustic2D_isStep (D : Deriv ι) (hD : NoInterp D) (m : Mod ι) (c : BC ι) (s : State ι) :
    IsStep (acoustic2DRows D m c) c s (exec (acoustic2D D m c) s) := by
  rw [acoustic2D_split D hD]
  exact isStep_of_halves (acoustic2DRows_staggered D m c) (acoustic2D_first D m c s)
    (acoustic2D_second D m c _)

/-! ### Acoustic, 3D -/

/-- The scheme of the 3D acoustic solver. -/
def acoustic3DRows (D : Deriv ι) (m : Mod ι) (c : BC ι) : Scheme ι
  | .vX => some (mkRow false 1 (dampW c) (some ⟨.p, D.Dxf, true, m.invRhoX⟩) none none)
  | .vY => some (mkRow false 1 (dampW c) none (some ⟨.p, selFS c D.DyfFS D.Dyf, true, m.invRhoY⟩) none)
  | .vZ => some (mkRow false 1 (dampW c) none none (some ⟨.p, D.Dzf, true, m.invRhoZ⟩))
  | .p => some (mkRow true 1 (fun i => surfW c i * dampW c i) (some ⟨.vX, D.Dxb, false, m.pMod⟩)
      (some ⟨.vY, D.Dyb, false, m.pMod⟩) (some ⟨.vZ, D.Dzb, false, m.pMod⟩))
  | _ => none

private def acoustic3DA (D : Deriv ι) (m : Mod ι) (c : BC ι) : List (Stmt ι) :=
  List.flatten [
  [.mul U D.Dxf (.fld .p)], cpmlHalf c U .p .x,
  [.scale U m.invRhoX, .add (.fld .vX) U],
  [.mul U (selFS c D.DyfFS D.Dyf) (.fld .p)], cpmlHalf c U .p .y,
  [.scale U m.invRhoY, .add (.fld .vY) U],
  [.mul U D.Dzf (.fld .p)], cpmlHalf c U .p .z,
  [.scale U m.invRhoZ, .add (.fld .vZ) U]]

private def acoustic3DB (D : Deriv ι) (m : Mod ι) (c : BC ι) : List (Stmt ι) :=
  List.flatten [
  [.mul U D.Dxb (.fld .vX)], cpmlFull c U .vX .x,
  [.mul UT D.Dyb (.fld .vY)], cpmlFull c UT .vY .y,
  [.add U UT],
  [.mul UT D.Dzb (.fld .vZ)], cpmlFull c UT .vZ .z,
  [.add U UT, .scale U m.pMod, .add (.fld .p) U]]

private theorem acoustic3D_split (D : Deriv ι) (hD : NoInterp D) (m : Mod ι) (c : BC ι) (s : State ι) :
    exec (acoustic3D D m c) s = exec (ifFS c (surfaceZero c (.fld .p)))
      (exec (damp c [.p, .vX, .vY, .vZ]) (exec (acoustic3DB D m c) (exec (acoustic3DA D m c) s))) := by
  obtain ⟨h1, h2, h3, h4⟩ := hD
  rw [← exec_append', ← exec_append', ← exec_append']
  simp only [acoustic3D, acoustic3DA, acoustic3DB, h1, h2, h3, interp, List.flatten_cons,
    List.flatten_nil, List.append_nil, List.nil_append, List.append_assoc]

private theorem acoustic3D_first (D : Deriv ι) (m : Mod ι) (c : BC ι) (s : State ι) :
    FirstHalf (acoustic3DRows D m c) c s (exec (acoustic3DA D m c) s) := by
  split_rows acoustic3DRows <;> eval_half acoustic3DA

private theorem acoustic3D_second (D : Deriv ι) (m : Mod ι) (c : BC ι) (s : State ι) :
    SecondHalf (acoustic3DRows D m c) c s (exec (ifFS c (surfaceZero c (.fld .p)))
      (exec (damp c [.p, .vX, .vY, .vZ]) (exec (acoustic3DB D m c) s))) := by
  split_rows acoustic3DRows <;> eval_half acoustic3DB

theorem acoustic3DRows_staggered (D : Deriv ι) (m : Mod ι) (c : BC ι) : (acoustic3DRows D m c).Staggered := by
  staggered_tac acoustic3DRows

theorem acoustic3D_isStep (D : Deriv ι) (hD : NoInterp D) (m : Mod ι) (c : BC ι) (s : State ι) :
    IsStep (acoustic3DRows D m c) c s (exec (acoustic3D D m c) s) := by
  rw [acoustic3D_split D hD]
  exact isStep_of_halves (acoustic3DRows_staggered D m c) (acoustic3D_first D m c s)
    (acoustic3D_second D m c _)

/-! ### SH -/

/-- The scheme of the SH solver. -/
def sh2DRows (D : Deriv ι) (m : Mod ι) (c : BC ι) : Scheme ι
  | .vZ => some (mkRow false 1 (dampW c) (some ⟨.Sxz, D.Dxb, false, m.invRho⟩)
      (some ⟨.Syz, selFS c D.DybFS D.Dyb, false, m.invRho⟩) none)
  | .Sxz => some (mkRow true 1 (dampW c) (some ⟨.vZ, D.Dxf, true, m.sModXZ⟩) none none)
  | .Syz => some (mkRow true 1 (dampW c) none (some ⟨.vZ, D.Dyf, true, m.sModYZ⟩) none)
  | _ => none

private def sh2DA (D : Deriv ι) (m : Mod ι) (c : BC ι) : List (Stmt ι) :=
  List.flatten [
  [.mul U D.Dxb (.fld .Sxz), .mul UT (selFS c D.DybFS D.Dyb) (.fld .Syz)],
  cpmlFull c U .Sxz .x, cpmlFull c UT .Syz .y,
  [.add U UT, .scale U m.invRho, .add (.fld .vZ) U]]

private def sh2DB (D : Deriv ι) (m : Mod ι) (c : BC ι) : List (Stmt ι) :=
  List.flatten [
  [.mul U D.Dxf (.fld .vZ)], cpmlHalf c U .vZ .x,
  [.scale U m.sModXZ, .add (.fld .Sxz) U],
  [.mul U D.Dyf (.fld .vZ)], cpmlHalf c U .vZ .y,
  [.scale U m.sModYZ, .add (.fld .Syz) U]]

private theorem sh2D_split (D : Deriv ι) (m : Mod ι) (c : BC ι) (s : State ι) :
    exec (sh2D D m c) s = 
      exec (damp c [.Sxz, .Syz, .vZ]) (exec (sh2DB D m c) (exec (sh2DA D m c) s)) := by
  rw [← exec_append', ← exec_append']
  simp only [sh2D, sh2DA, sh2DB, List.flatten_cons, List.flatten_nil, List.append_nil, List.append_assoc]

private theorem sh2D_first (D : Deriv ι) (m : Mod ι) (c : BC ι) (s : State ι) :
    FirstHalf (sh2DRows D m c) c s (exec (sh2DA D m c) s) := by
  split_rows sh2DRows <;> eval_half sh2DA

private theorem sh2D_second (D : Deriv ι) (m : Mod ι) (c : BC ι) (s : State ι) :
    SecondHalf (sh2DRows D m c) c s (exec (damp c [.Sxz, .Syz, .vZ]) (exec (sh2DB D m c) s)) := by
  split_rows sh2DRows <;> eval_half sh2DB

theorem sh2DRows_staggered (D : Deriv ι) (m : Mod ι) (c : BC ι) : (sh2DRows D m c).Staggered := by
  staggered_tac sh2DRows

theorem sh2D_isStep (D : Deriv ι) (m : Mod ι) (c : BC ι) (s : State ι) :
    IsStep (sh2DRows D m c) c s (exec (sh2D D m c) s) := by
  rw [sh2D_split]
  exact isStep_of_halves (sh2DRows_staggered D m c) (sh2D_first D m c s) (sh2D_second D m c _)

/-! ### Elastic -/

/-- A coefficient that is only present with the free surface. -/
def fsW (c : BC ι) (w : ι → ℝ) (i : ι) : ℝ := if c.useFreeSurface = 1 then w i else 0

private theorem exec_surface2 (m : Mod ι) (c : BC ι) (s : State ι) (f : Fld) (i : ι) :
    exec (ifFS c (exchange2D m c Vxx ++ surfaceZero c (.fld .Syy))) s (.fld f) i =
      if f = .Sxx then s (.fld f) i + fsW c (scaleHor m c) i * s Vxx i - fsW c (scaleVert m c) i * s Vyy i
      else if f = .Syy then surfW c i * s (.fld f) i else s (.fld f) i := by
  unfold ifFS surfW fsW exchange2D surfaceZero
  split
  · cases f <;> simp [exec, Stmt.exec, State.set, mul_comm]
  · simp [exec]

private theorem exec_surface2_psi (m : Mod ι) (c : BC ι) (s : State ι) (f : Fld) (a : Axis) :
    exec (ifFS c (exchange2D m c Vxx ++ surfaceZero c (.fld .Syy))) s (.psi f a) = s (.psi f a) := by
  unfold ifFS exchange2D surfaceZero
  split <;> simp [exec, Stmt.exec, State.set]

private theorem exec_surface3 (m : Mod ι) (c : BC ι) (s : State ι) (f : Fld) (i : ι) :
    exec (ifFS c ([.sum U Vxx Vzz] ++ surfaceZero c (.fld .Syy) ++ exchange3D m c U)) s (.fld f) i =
      if f = .Sxx ∨ f = .Szz then s (.fld f) i + fsW c (scaleHor m c) i * (s Vxx i + s Vzz i) -
        fsW c (scaleVert m c) i * s Vyy i
      else if f = .Syy then surfW c i * s (.fld f) i else s (.fld f) i := by
  unfold ifFS surfW fsW exchange3D surfaceZero
  split
  · cases f <;> simp [exec, Stmt.exec, State.set, mul_comm]
  · simp [exec]

private theorem exec_surface3_psi (m : Mod ι) (c : BC ι) (s : State ι) (f : Fld) (a : Axis) :
    exec (ifFS c ([.sum U Vxx Vzz] ++ surfaceZero c (.fld .Syy) ++ exchange3D m c U)) s (.psi f a) =
      s (.psi f a) := by
  unfold ifFS exchange3D surfaceZero
  split <;> simp [exec, Stmt.exec, State.set]

/-- Update of a shear stress. -/
private def shear (c : BC ι) (f : Fld) (D₁ : Matrix ι ι ℝ) (g₁ : Fld) (a₁ : Axis) (D₂ : Matrix ι ι ℝ)
    (g₂ : Fld) (a₂ : Axis) (w : ι → ℝ) : List (Stmt ι) :=
  List.flatten [[.mul U D₁ (.fld g₁)], cpmlHalf c U g₁ a₁, [.mul UT D₂ (.fld g₂)], cpmlHalf c UT g₂ a₂,
    [.add U UT, .scale U w, .add (.fld f) U]]

section
variable (c : BC ι) (f : Fld) (D₁ : Matrix ι ι ℝ) (g₁ : Fld) (a₁ : Axis) (D₂ : Matrix ι ι ℝ)
    (g₂ : Fld) (a₂ : Axis) (w : ι → ℝ) (s : State ι)

private theorem shear_fld (ha : a₁ ≠ a₂) (h : Fld) : exec (shear c f D₁ g₁ a₁ D₂ g₂ a₂ w) s (.fld h) =
    if h = f then fun i => s (.fld f) i + (grad c true a₁ (s (.psi g₁ a₁)) (D₁.mulVec (s (.fld g₁))) i +
      grad c true a₂ (s (.psi g₂ a₂)) (D₂.mulVec (s (.fld g₂))) i) * w i else s (.fld h) := by
  by_cases hf : h = f
  · subst hf
    simp only [shear, List.flatten_cons, List.flatten_nil, List.append_nil, exec_append', exec_cons, exec_nil,
      exec_cpmlHalf, Stmt.exec]
    simp [State.set, ha.symm]
  · simp only [shear, List.flatten_cons, List.flatten_nil, List.append_nil, exec_append', exec_cons, exec_nil,
      exec_cpmlHalf, Stmt.exec]
    simp [State.set, hf]

private theorem shear_psi (ha : a₁ ≠ a₂) (h : Fld) (a : Axis) :
    exec (shear c f D₁ g₁ a₁ D₂ g₂ a₂ w) s (.psi h a) =
    if h = g₁ ∧ a = a₁ then newPsi c true a₁ (s (.psi g₁ a₁)) (D₁.mulVec (s (.fld g₁)))
    else if h = g₂ ∧ a = a₂ then newPsi c true a₂ (s (.psi g₂ a₂)) (D₂.mulVec (s (.fld g₂)))
    else s (.psi h a) := by
  simp only [shear, List.flatten_cons, List.flatten_nil, List.append_nil, exec_append', exec_cons, exec_nil,
    exec_cpmlHalf, Stmt.exec]
  by_cases h1 : h = g₁ ∧ a = a₁
  · obtain ⟨rfl, rfl⟩ := h1
    simp [State.set, ha]
  · by_cases h2 : h = g₂ ∧ a = a₂
    · obtain ⟨rfl, rfl⟩ := h2
      simp [State.set, ha.symm]
    · simp [State.set, h1, h2]

private theorem shear_scr (v : Scr) (h1 : v ≠ .update) (h2 : v ≠ .updateTemp) :
    exec (shear c f D₁ g₁ a₁ D₂ g₂ a₂ w) s (.scr v) = s (.scr v) := by
  simp only [shear, List.flatten_cons, List.flatten_nil, List.append_nil, exec_append', exec_cons, exec_nil,
    exec_cpmlHalf, Stmt.exec]
  simp [State.set, h1, h2]

private theorem shear_Vxx : exec (shear c f D₁ g₁ a₁ D₂ g₂ a₂ w) s Vxx = s Vxx :=
  shear_scr c f D₁ g₁ a₁ D₂ g₂ a₂ w s .vxx (by decide) (by decide)

private theorem shear_Vyy : exec (shear c f D₁ g₁ a₁ D₂ g₂ a₂ w) s Vyy = s Vyy :=
  shear_scr c f D₁ g₁ a₁ D₂ g₂ a₂ w s .vyy (by decide) (by decide)

private theorem shear_Vzz : exec (shear c f D₁ g₁ a₁ D₂ g₂ a₂ w) s Vzz = s Vzz :=
  shear_scr c f D₁ g₁ a₁ D₂ g₂ a₂ w s .vzz (by decide) (by decide)
end

set_option hygiene false in
local macro "eval_surface" A:ident : tactic => `(tactic| (
  (try simp (disch := decide) only [exec_damp, exec_damp_psi]) <;>
  (try simp only [exec_surface2, exec_surface2_psi, exec_surface3, exec_surface3_psi]) <;>
  (try simp (disch := decide) only [shear_fld, shear_psi, shear_Vxx, shear_Vyy, shear_Vzz, ↓reduceIte,
    reduceCtorEq, false_and, and_false, and_self, or_false, or_true, true_or]) <;>
  simp only [$A:ident, List.flatten_cons, List.flatten_nil, List.append_nil, exec_append', exec_cons, exec_nil,
    exec_cpmlHalf, exec_cpmlFull, Stmt.exec] <;>
  simp [-mul_eq_mul_left_iff, -mul_eq_mul_right_iff, mkRow, Row.value, Term.value, sum3, State.set] <;>
  try ring1))

/-- The scheme of the 2D elastic solver. -/
noncomputable def elastic2DRows (D : Deriv ι) (m : Mod ι) (c : BC ι) : Scheme ι
  | .vX => some (mkRow false 1 (dampW c) (some ⟨.Sxx, D.Dxf, true, m.invRhoX⟩)
      (some ⟨.Sxy, selFS c D.DybSXFS D.DybSX, false, m.invRhoX⟩) none)
  | .vY => some (mkRow false 1 (dampW c) (some ⟨.Sxy, D.Dxb, false, m.invRhoY⟩)
      (some ⟨.Syy, selFS c D.DyfFS D.Dyf, true, m.invRhoY⟩) none)
  | .Sxx => some (mkRow true 1 (dampW c)
      (some ⟨.vX, D.Dxb, false, fun i => m.pMod i + fsW c (scaleHor m c) i⟩)
      (some ⟨.vY, D.Dyb, false, fun i => m.pMod i - 2 * m.sMod i - fsW c (scaleVert m c) i⟩) none)
  | .Syy => some (mkRow true 1 (fun i => dampW c i * surfW c i)
      (some ⟨.vX, D.Dxb, false, fun i => m.pMod i - 2 * m.sMod i⟩) (some ⟨.vY, D.Dyb, false, m.pMod⟩) none)
  | .Sxy => some (mkRow true 1 (dampW c) (some ⟨.vY, D.Dxf, true, m.sModXY⟩)
      (some ⟨.vX, D.DyfSX, true, m.sModXY⟩) none)
  | _ => none

private def elastic2DA (D : Deriv ι) (m : Mod ι) (c : BC ι) : List (Stmt ι) :=
  List.flatten [
  [.mul U D.Dxf (.fld .Sxx)], cpmlHalf c U .Sxx .x,
  [.mul UT (selFS c D.DybSXFS D.DybSX) (.fld .Sxy)], cpmlFull c UT .Sxy .y,
  [.add U UT, .scale U m.invRhoX, .add (.fld .vX) U],
  [.mul U D.Dxb (.fld .Sxy)], cpmlFull c U .Sxy .x,
  [.mul UT (selFS c D.DyfFS D.Dyf) (.fld .Syy)], cpmlHalf c UT .Syy .y,
  [.add U UT, .scale U m.invRhoY, .add (.fld .vY) U]]

private noncomputable def elastic2DB (D : Deriv ι) (m : Mod ι) (c : BC ι) : List (Stmt ι) :=
  List.flatten [
  [.mul Vxx D.Dxb (.fld .vX), .mul Vyy D.Dyb (.fld .vY)],
  cpmlFull c Vxx .vX .x, cpmlFull c Vyy .vY .y,
  [.copy U Vxx, .add U Vyy, .scale U m.pMod, .add (.fld .Sxx) U, .add (.fld .Syy) U,
   .copy U Vyy, .scale U m.sMod, .axpy (.fld .Sxx) (-2) U,
   .copy U Vxx, .scale U m.sMod, .axpy (.fld .Syy) (-2) U],
  [.mul U D.DyfSX (.fld .vX)], cpmlHalf c U .vX .y,
  [.mul UT D.Dxf (.fld .vY)], cpmlHalf c UT .vY .x,
  [.add U UT, .scale U m.sModXY, .add (.fld .Sxy) U]]

private theorem elastic2D_split (D : Deriv ι) (hD : NoInterp D) (m : Mod ι) (c : BC ι) (s : State ι) :
    exec (elastic2D D m c) s = exec (damp c [.Sxx, .Syy, .Sxy, .vX, .vY])
      (exec (ifFS c (exchange2D m c Vxx ++ surfaceZero c (.fld .Syy)))
      (exec (elastic2DB D m c) (exec (elastic2DA D m c) s))) := by
  obtain ⟨h1, h2, h3, h4⟩ := hD
  rw [← exec_append', ← exec_append', ← exec_append']
  simp only [elastic2D, elastic2DA, elastic2DB, h1, h2, interp, List.flatten_cons, List.flatten_nil,
    List.append_nil, List.nil_append, List.append_assoc]

private theorem elastic2D_first (D : Deriv ι) (m : Mod ι) (c : BC ι) (s : State ι) :
    FirstHalf (elastic2DRows D m c) c s (exec (elastic2DA D m c) s) := by
  split_rows elastic2DRows <;> eval_half elastic2DA

private theorem elastic2D_second (D : Deriv ι) (m : Mod ι) (c : BC ι) (s : State ι) :
    SecondHalf (elastic2DRows D m c) c s
      (exec (damp c [.Sxx, .Syy, .Sxy, .vX, .vY]) (exec (ifFS c (exchange2D m c Vxx ++ surfaceZero c (.fld .Syy)))
      (exec (elastic2DB D m c) s))) := by
  split_rows elastic2DRows <;> eval_surface elastic2DB

theorem elastic2DRows_staggered (D : Deriv ι) (m : Mod ι) (c : BC ι) : (elastic2DRows D m c).Staggered := by
  staggered_tac elastic2DRows

theorem elastic2D_isStep (D : Deriv ι) (hD : NoInterp D) (m : Mod ι) (c : BC ι) (s : State ι) :
    IsStep (elastic2DRows D m c) c s (exec (elastic2D D m c) s) := by
  rw [elastic2D_split D hD]
  exact isStep_of_halves (elastic2DRows_staggered D m c) (elastic2D_first D m c s) (elastic2D_second D m c _)

/-- The scheme of the 3D elastic solver. -/
noncomputable def elastic3DRows (D : Deriv ι) (m : Mod ι) (c : BC ι) : Scheme ι
  | .vX => some (mkRow false 1 (dampW c) (some ⟨.Sxx, D.Dxf, true, m.invRhoX⟩)
      (some ⟨.Sxy, selFS c D.DybSXFS D.DybSX, false, m.invRhoX⟩) (some ⟨.Sxz, D.Dzb, false, m.invRhoX⟩))
  | .vY => some (mkRow false 1 (dampW c) (some ⟨.Sxy, D.Dxb, false, m.invRhoY⟩)
      (some ⟨.Syy, selFS c D.DyfFS D.Dyf, true, m.invRhoY⟩) (some ⟨.Syz, D.Dzb, false, m.invRhoY⟩))
  | .vZ => some (mkRow false 1 (dampW c) (some ⟨.Sxz, D.Dxb, false, m.invRhoZ⟩)
      (some ⟨.Syz, selFS c D.DybSZFS D.DybSZ, false, m.invRhoZ⟩) (some ⟨.Szz, D.Dzf, true, m.invRhoZ⟩))
  | .Sxx => some (mkRow true 1 (dampW c)
      (some ⟨.vX, D.Dxb, false, fun i => m.pMod i + fsW c (scaleHor m c) i⟩)
      (some ⟨.vY, D.Dyb, false, fun i => m.pMod i - 2 * m.sMod i - fsW c (scaleVert m c) i⟩)
      (some ⟨.vZ, D.Dzb, false, fun i => m.pMod i - 2 * m.sMod i + fsW c (scaleHor m c) i⟩))
  | .Syy => some (mkRow true 1 (fun i => dampW c i * surfW c i)
      (some ⟨.vX, D.Dxb, false, fun i => m.pMod i - 2 * m.sMod i⟩) (some ⟨.vY, D.Dyb, false, m.pMod⟩)
      (some ⟨.vZ, D.Dzb, false, fun i => m.pMod i - 2 * m.sMod i⟩))
  | .Szz => some (mkRow true 1 (dampW c)
      (some ⟨.vX, D.Dxb, false, fun i => m.pMod i - 2 * m.sMod i + fsW c (scaleHor m c) i⟩)
      (some ⟨.vY, D.Dyb, false, fun i => m.pMod i - 2 * m.sMod i - fsW c (scaleVert m c) i⟩)
      (some ⟨.vZ, D.Dzb, false, fun i => m.pMod i + fsW c (scaleHor m c) i⟩))
  | .Sxy => some (mkRow true 1 (dampW c) (some ⟨.vY, D.Dxf, true, m.sModXY⟩)
      (some ⟨.vX, D.DyfSX, true, m.sModXY⟩) none)
  | .Sxz => some (mkRow true 1 (dampW c) (some ⟨.vZ, D.Dxf, true, m.sModXZ⟩) none
      (some ⟨.vX, D.Dzf, true, m.sModXZ⟩))
  | .Syz => some (mkRow true 1 (dampW c) none (some ⟨.vZ, D.DyfSZ, true, m.sModYZ⟩)
      (some ⟨.vY, D.Dzf, true, m.sModYZ⟩))
  | _ => none

private def elastic3DA (D : Deriv ι) (m : Mod ι) (c : BC ι) : List (Stmt ι) :=
  List.flatten [
  [.mul U D.Dxf (.fld .Sxx)], cpmlHalf c U .Sxx .x,
  [.mul UT (selFS c D.DybSXFS D.DybSX) (.fld .Sxy)], cpmlFull c UT .Sxy .y,
  [.add U UT, .mul UT D.Dzb (.fld .Sxz)], cpmlFull c UT .Sxz .z,
  [.add U UT, .scale U m.invRhoX, .add (.fld .vX) U],
  [.mul U D.Dxb (.fld .Sxy)], cpmlFull c U .Sxy .x,
  [.mul UT (selFS c D.DyfFS D.Dyf) (.fld .Syy)], cpmlHalf c UT .Syy .y,
  [.add U UT, .mul UT D.Dzb (.fld .Syz)], cpmlFull c UT .Syz .z,
  [.add U UT, .scale U m.invRhoY, .add (.fld .vY) U],
  [.mul U D.Dxb (.fld .Sxz)], cpmlFull c U .Sxz .x,
  [.mul UT (selFS c D.DybSZFS D.DybSZ) (.fld .Syz)], cpmlFull c UT .Syz .y,
  [.add U UT, .mul UT D.Dzf (.fld .Szz)], cpmlHalf c UT .Szz .z,
  [.add U UT, .scale U m.invRhoZ, .add (.fld .vZ) U]]

private noncomputable def elastic3DB (D : Deriv ι) (m : Mod ι) (c : BC ι) : List (Stmt ι) :=
  List.flatten [
  [.mul Vxx D.Dxb (.fld .vX), .mul Vyy D.Dyb (.fld .vY), .mul Vzz D.Dzb (.fld .vZ)],
  cpmlFull c Vxx .vX .x, cpmlFull c Vyy .vY .y, cpmlFull c Vzz .vZ .z,
  [.copy U Vxx, .add U Vyy, .add U Vzz, .scale U m.pMod,
   .add (.fld .Sxx) U, .add (.fld .Syy) U, .add (.fld .Szz) U,
   .sum U Vyy Vzz, .scale U m.sMod, .axpy (.fld .Sxx) (-2) U,
   .sum U Vxx Vzz, .scale U m.sMod, .axpy (.fld .Syy) (-2) U,
   .sum U Vxx Vyy, .scale U m.sMod, .axpy (.fld .Szz) (-2) U]]

private theorem elastic3D_split (D : Deriv ι) (hD : NoInterp D) (m : Mod ι) (c : BC ι) (s : State ι) :
    exec (elastic3D D m c) s = exec (damp c [.Sxx, .Syy, .Szz, .Sxy, .Sxz, .Syz, .vX, .vY, .vZ])
      (exec (ifFS c ([.sum U Vxx Vzz] ++ surfaceZero c (.fld .Syy) ++ exchange3D m c U))
      (exec (shear c .Syz D.Dzf .vY .z D.DyfSZ .vZ .y m.sModYZ)
      (exec (shear c .Sxz D.Dzf .vX .z D.Dxf .vZ .x m.sModXZ)
      (exec (shear c .Sxy D.DyfSX .vX .y D.Dxf .vY .x m.sModXY)
      (exec (elastic3DB D m c) (exec (elastic3DA D m c) s)))))) := by
  obtain ⟨h1, h2, h3, h4⟩ := hD
  rw [← exec_append', ← exec_append', ← exec_append', ← exec_append', ← exec_append', ← exec_append']
  simp only [elastic3D, elastic3DA, elastic3DB, shear, h1, h2, h3, h4, interp, List.flatten_cons,
    List.flatten_nil, List.append_nil, List.nil_append, List.append_assoc]

set_option maxHeartbeats 2000000 in
private theorem elastic3D_first (D : Deriv ι) (m : Mod ι) (c : BC ι) (s : State ι) :
    FirstHalf (elastic3DRows D m c) c s (exec (elastic3DA D m c) s) := by
  split_rows elastic3DRows <;> eval_half elastic3DA

set_option maxHeartbeats 2000000 in
private theorem elastic3D_second (D : Deriv ι) (m : Mod ι) (c : BC ι) (s : State ι) :
    SecondHalf (elastic3DRows D m c) c s
      (exec (damp c [.Sxx, .Syy, .Szz, .Sxy, .Sxz, .Syz, .vX, .vY, .vZ]) (exec (ifFS c ([.sum U Vxx Vzz] ++ surfaceZero c (.fld .Syy) ++ exchange3D m c U))
      (exec (shear c .Syz D.Dzf .vY .z D.DyfSZ .vZ .y m.sModYZ)
      (exec (shear c .Sxz D.Dzf .vX .z D.Dxf .vZ .x m.sModXZ)
      (exec (shear c .Sxy D.DyfSX .vX .y D.Dxf .vY .x m.sModXY)
      (exec (elastic3DB D m c) s)))))) := by
  split_rows elastic3DRows <;> eval_surface elastic3DB

theorem elastic3DRows_staggered (D : Deriv ι) (m : Mod ι) (c : BC ι) : (elastic3DRows D m c).Staggered := by
  staggered_tac elastic3DRows

theorem elastic3D_isStep (D : Deriv ι) (hD : NoInterp D) (m : Mod ι) (c : BC ι) (s : State ι) :
    IsStep (elastic3DRows D m c) c s (exec (elastic3D D m c) s) := by
  rw [elastic3D_split D hD]
  exact isStep_of_halves (elastic3DRows_staggered D m c) (elastic3D_first D m c s) (elastic3D_second D m c _)

/-! ### Electromagnetic -/

/-- The scheme of the 2D EMEM solver. -/
noncomputable def emem2DRows (D : Deriv ι) (m : EMod ι) (c : BC ι) : Scheme ι
  | .hZ => some (mkRow false 1 (dampW c) (some ⟨.eY, D.Dxf, true, -m.invMuXY⟩)
      (some ⟨.eX, D.Dyf, true, m.invMuXY⟩) none)
  | .eX => some (mkRow true (m.ca .x) (dampW c) none (some ⟨.hZ, D.DybSX, false, m.cb .x⟩) none)
  | .eY => some (mkRow true (m.ca .y) (dampW c) (some ⟨.hZ, D.Dxb, false, -m.cb .y⟩) none none)
  | _ => none

private def emem2DA (D : Deriv ι) (m : EMod ι) (c : BC ι) : List (Stmt ι) :=
  List.flatten [
  [.mul U D.Dxf (.fld .eY), .mul UT D.Dyf (.fld .eX)],
  cpmlHalf c U .eY .x, cpmlHalf c UT .eX .y,
  [.sub U UT, .scale U m.invMuXY, .sub (.fld .hZ) U]]

private noncomputable def emem2DB (D : Deriv ι) (m : EMod ι) (c : BC ι) : List (Stmt ι) :=
  List.flatten [
  [.mul U D.DybSX (.fld .hZ)], cpmlFull c U .hZ .y, eUpdate .eX (m.ca .x) (m.cb .x),
  [.mul U D.Dxb (.fld .hZ)], cpmlFull c U .hZ .x,
  [.scale U (m.cb .y), .wmul UT (m.ca .y) (.fld .eY), .diff (.fld .eY) UT U]]

private theorem emem2D_split (D : Deriv ι) (m : EMod ι) (c : BC ι) (s : State ι) :
    exec (emem2D D m c) s =
      exec (damp c [.eY, .eX, .hZ]) (exec (emem2DB D m c) (exec (emem2DA D m c) s)) := by
  rw [← exec_append', ← exec_append']
  simp only [emem2D, emem2DA, emem2DB, List.flatten_cons, List.flatten_nil, List.append_nil,
    List.append_assoc]

private theorem emem2D_first (D : Deriv ι) (m : EMod ι) (c : BC ι) (s : State ι) :
    FirstHalf (emem2DRows D m c) c s (exec (emem2DA D m c) s) := by
  split_rows emem2DRows <;> eval_half emem2DA

private theorem emem2D_second (D : Deriv ι) (m : EMod ι) (c : BC ι) (s : State ι) :
    SecondHalf (emem2DRows D m c) c s
      (exec (damp c [.eY, .eX, .hZ]) (exec (emem2DB D m c) s)) := by
  split_rows emem2DRows <;> eval_half emem2DB

theorem emem2DRows_staggered (D : Deriv ι) (m : EMod ι) (c : BC ι) : (emem2DRows D m c).Staggered := by
  staggered_tac emem2DRows

theorem emem2D_isStep (D : Deriv ι) (m : EMod ι) (c : BC ι) (s : State ι) :
    IsStep (emem2DRows D m c) c s (exec (emem2D D m c) s) := by
  rw [emem2D_split]
  exact isStep_of_halves (emem2DRows_staggered D m c) (emem2D_first D m c s) (emem2D_second D m c _)

/-- The scheme of the 2D TMEM solver. -/
noncomputable def tmem2DRows (D : Deriv ι) (m : EMod ι) (c : BC ι) : Scheme ι
  | .hX => some (mkRow false 1 (dampW c) none (some ⟨.eZ, D.Dyf, true, -m.invMuYZ⟩) none)
  | .hY => some (mkRow false 1 (dampW c) (some ⟨.eZ, D.Dxf, true, m.invMuXZ⟩) none none)
  | .eZ => some (mkRow true (m.ca .z) (dampW c) (some ⟨.hY, D.Dxb, false, m.cb .z⟩)
      (some ⟨.hX, D.Dyb, false, -m.cb .z⟩) none)
  | _ => none

private def tmem2DA (D : Deriv ι) (m : EMod ι) (c : BC ι) : List (Stmt ι) :=
  List.flatten [
  [.mul U D.Dyf (.fld .eZ)], cpmlHalf c U .eZ .y, [.scale U m.invMuYZ, .sub (.fld .hX) U],
  [.mul UT D.Dxf (.fld .eZ)], cpmlHalf c UT .eZ .x,
  [.neg U UT, .scale U m.invMuXZ, .sub (.fld .hY) U]]

private noncomputable def tmem2DB (D : Deriv ι) (m : EMod ι) (c : BC ι) : List (Stmt ι) :=
  List.flatten [
  [.mul U D.Dxb (.fld .hY), .mul UT D.Dyb (.fld .hX)], cpmlFull c U .hY .x, cpmlFull c UT .hX .y,
  [.sub U UT], eUpdate .eZ (m.ca .z) (m.cb .z)]

private theorem tmem2D_split (D : Deriv ι) (m : EMod ι) (c : BC ι) (s : State ι) :
    exec (tmem2D D m c) s =
      exec (damp c [.eZ, .hX, .hY]) (exec (tmem2DB D m c) (exec (tmem2DA D m c) s)) := by
  rw [← exec_append', ← exec_append']
  simp only [tmem2D, tmem2DA, tmem2DB, List.flatten_cons, List.flatten_nil, List.append_nil,
    List.append_assoc]

private theorem tmem2D_first (D : Deriv ι) (m : EMod ι) (c : BC ι) (s : State ι) :
    FirstHalf (tmem2DRows D m c) c s (exec (tmem2DA D m c) s) := by
  split_rows tmem2DRows <;> eval_half tmem2DA

private theorem tmem2D_second (D : Deriv ι) (m : EMod ι) (c : BC ι) (s : State ι) :
    SecondHalf (tmem2DRows D m c) c s
      (exec (damp c [.eZ, .hX, .hY]) (exec (tmem2DB D m c) s)) := by
  split_rows tmem2DRows <;> eval_half tmem2DB

theorem tmem2DRows_staggered (D : Deriv ι) (m : EMod ι) (c : BC ι) : (tmem2DRows D m c).Staggered := by
  staggered_tac tmem2DRows

theorem tmem2D_isStep (D : Deriv ι) (m : EMod ι) (c : BC ι) (s : State ι) :
    IsStep (tmem2DRows D m c) c s (exec (tmem2D D m c) s) := by
  rw [tmem2D_split]
  exact isStep_of_halves (tmem2DRows_staggered D m c) (tmem2D_first D m c s) (tmem2D_second D m c _)

/-- The scheme of the 3D EMEM solver. -/
noncomputable def emem3DRows (D : Deriv ι) (m : EMod ι) (c : BC ι) : Scheme ι
  | .hX => some (mkRow false 1 (dampW c) none (some ⟨.eZ, D.DyfSZ, true, -m.invMuYZ⟩)
      (some ⟨.eY, D.Dzf, true, m.invMuYZ⟩))
  | .hY => some (mkRow false 1 (dampW c) (some ⟨.eZ, D.Dxf, true, m.invMuXZ⟩) none
      (some ⟨.eX, D.Dzf, true, -m.invMuXZ⟩))
  | .hZ => some (mkRow false 1 (dampW c) (some ⟨.eY, D.Dxf, true, -m.invMuXY⟩)
      (some ⟨.eX, D.DyfSX, true, m.invMuXY⟩) none)
  | .eX => some (mkRow true (m.ca .x) (dampW c) none (some ⟨.hZ, D.DybSX, false, m.cb .x⟩)
      (some ⟨.hY, D.Dzb, false, -m.cb .x⟩))
  | .eY => some (mkRow true (m.ca .y) (dampW c) (some ⟨.hZ, D.Dxb, false, -m.cb .y⟩) none
      (some ⟨.hX, D.Dzb, false, m.cb .y⟩))
  | .eZ => some (mkRow true (m.ca .z) (dampW c) (some ⟨.hY, D.Dxb, true, m.cb .z⟩)
      (some ⟨.hX, D.DybSZ, false, -m.cb .z⟩) none)
  | _ => none

private noncomputable def emem3DB (D : Deriv ι) (m : EMod ι) (c : BC ι) : List (Stmt ι) :=
  List.flatten [
  [.mul U D.DybSX (.fld .hZ), .mul UT D.Dzb (.fld .hY)],
  cpmlFull c U .hZ .y, cpmlFull c UT .hY .z,
  [.sub U UT], eUpdate .eX (m.ca .x) (m.cb .x),
  [.mul U D.Dzb (.fld .hX), .mul UT D.Dxb (.fld .hZ)],
  cpmlFull c U .hX .z, cpmlFull c UT .hZ .x,
  [.sub U UT], eUpdate .eY (m.ca .y) (m.cb .y),
  [.mul U D.Dxb (.fld .hY), .mul UT D.DybSZ (.fld .hX)],
  cpmlHalf c U .hY .x, cpmlFull c UT .hX .y,
  [.sub U UT], eUpdate .eZ (m.ca .z) (m.cb .z)]

private theorem emem3D_split (D : Deriv ι) (m : EMod ι) (c : BC ι) (s : State ι) :
    exec (emem3D D m c) s = exec (damp c [.eZ, .eY, .eX, .hX, .hY, .hZ])
      (exec (emem3DB D m c) (exec (magnetic3D D m c) s)) := by
  rw [← exec_append', ← exec_append']
  simp only [emem3D, emem3DB, List.flatten_cons, List.flatten_nil, List.append_nil, List.append_assoc]

private theorem emem3D_first (D : Deriv ι) (m : EMod ι) (c : BC ι) (s : State ι) :
    FirstHalf (emem3DRows D m c) c s (exec (magnetic3D D m c) s) := by
  split_rows emem3DRows <;> eval_half magnetic3D

private theorem emem3D_second (D : Deriv ι) (m : EMod ι) (c : BC ι) (s : State ι) :
    SecondHalf (emem3DRows D m c) c s
      (exec (damp c [.eZ, .eY, .eX, .hX, .hY, .hZ]) (exec (emem3DB D m c) s)) := by
  split_rows emem3DRows <;> eval_half emem3DB

theorem emem3DRows_staggered (D : Deriv ι) (m : EMod ι) (c : BC ι) : (emem3DRows D m c).Staggered := by
  staggered_tac emem3DRows

theorem emem3D_isStep (D : Deriv ι) (m : EMod ι) (c : BC ι) (s : State ι) :
    IsStep (emem3DRows D m c) c s (exec (emem3D D m c) s) := by
  rw [emem3D_split]
  exact isStep_of_halves (emem3DRows_staggered D m c) (emem3D_first D m c s) (emem3D_second D m c _)

end Verif.Solver
