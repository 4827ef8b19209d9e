import Verif.Lemmas.LeapfrogSolvers
import Verif.Lemmas.UnitEM

/-!
# C106: one time step is the staggered-grid discretisation of the wave equations

The specification says where every component lives inside a cell. From this alone follow the direction
of each difference quotient (it has to be centred at the updated component) and the place at which the
CPML coefficients are taken (the updated component). The equations are the equation of motion and
Hooke's law, or Maxwell's equations, written with sums over the axes.
-/
set_option linter.dupNamespace false

namespace Verif.Solver
open Matrix

/-- Positions inside a cell (user guide, section on the staggered grid): `true` if the component is
shifted by half a grid spacing along the axis. -/
def halfway : Fld → Axis → Bool
  | .vX, .x | .eX, .x | .vY, .y | .eY, .y | .vZ, .z | .eZ, .z => true
  | .Sxy, .x | .Sxy, .y | .hZ, .x | .hZ, .y => true
  | .Sxz, .x | .Sxz, .z | .hY, .x | .hY, .z => true
  | .Syz, .y | .Syz, .z | .hX, .y | .hX, .z => true
  | _, _ => false

/-- The component along an axis. -/
def vel : Axis → Fld
  | .x => .vX | .y => .vY | .z => .vZ
/-- Stress tensor. -/
def stress : Axis → Axis → Fld
  | .x, .x => .Sxx | .y, .y => .Syy | .z, .z => .Szz
  | .x, .y | .y, .x => .Sxy
  | .x, .z | .z, .x => .Sxz
  | .y, .z | .z, .y => .Syz
/-- Electric field. -/
def elec : Axis → Fld
  | .x => .eX | .y => .eY | .z => .eZ
/-- Magnetic field. -/
def magn : Axis → Fld
  | .x => .hX | .y => .hY | .z => .hZ

/-- Inverse density at the position of the velocity component. -/
def Mod.invRhoAt {ι : Type} (m : Mod ι) : Axis → ι → ℝ
  | .x => m.invRhoX | .y => m.invRhoY | .z => m.invRhoZ
/-- Shear modulus at the position of the stress component. -/
def Mod.muAt {ι : Type} (m : Mod ι) : Axis → Axis → ι → ℝ
  | .x, .y | .y, .x => m.sModXY
  | .x, .z | .z, .x => m.sModXZ
  | .y, .z | .z, .y => m.sModYZ
  | _, _ => m.sMod
/-- Inverse permeability at the position of the magnetic component. -/
def EMod.invMuAt {ι : Type} (m : EMod ι) : Axis → ι → ℝ
  | .x => m.invMuYZ | .y => m.invMuXZ | .z => m.invMuXY

/-- Totally antisymmetric symbol. -/
def levi : Axis → Axis → Axis → ℝ
  | .x, .y, .z | .y, .z, .x | .z, .x, .y => 1
  | .x, .z, .y | .z, .y, .x | .y, .x, .z => -1
  | _, _, _ => 0

section
variable {NX NY NZ : ℕ} (sp : Int) (DT DH : ℝ) (c : BC (Pt NX NY NZ)) (s : State (Pt NX NY NZ))

/-- Time step times the difference quotient along `a` of the component `f` with the values `v`,
centred half a grid spacing away from `f`. -/
noncomputable def centred (a : Axis) (f : Fld) (v : Pt NX NY NZ → ℝ) : Pt NX NY NZ → ℝ :=
  if halfway f a then (backwardMatrix sp DT DH a).mulVec v else (forwardMatrix sp DT DH a).mulVec v

/-- The CPML memory variable after the step; the coefficients belong to the place of the derivative, a
half point if the component itself is at a full point. -/
noncomputable def memory (a : Axis) (f : Fld) (v : Pt NX NY NZ → ℝ) (i : Pt NX NY NZ) : ℝ :=
  match c.pml with
  | none => s (.psi f a) i
  | some q =>
    (if halfway f a then q.b a i else q.bHalf a i) * s (.psi f a) i +
      (if halfway f a then q.a a i else q.aHalf a i) * centred sp DT DH a f v i

/-- The derivative that enters the equations: inside a CPML the memory variable is added. -/
noncomputable def slope (a : Axis) (f : Fld) (v : Pt NX NY NZ → ℝ) (i : Pt NX NY NZ) : ℝ :=
  centred sp DT DH a f v i + if c.pml.isSome then memory sp DT DH c s a f v i else 0

/-- Damping factor of the absorbing frame. -/
def frame (i : Pt NX NY NZ) : ℝ := (c.damping.map fun w => w i).getD 1

/-- The old value of a wavefield. -/
abbrev old (f : Fld) : Pt NX NY NZ → ℝ := s (.fld f)

/-- One step of an acoustic medium with the axes `dims`: `v' = v - ∇p / ρ` and `p' = p - M div v'` up to the
sign convention of the pressure. -/
structure AcousticStep (dims : List Axis) (m : Mod (Pt NX NY NZ)) (s' : State (Pt NX NY NZ)) : Prop where
  step : ∃ u : Fld → Pt NX NY NZ → ℝ,
    (∀ a ∈ dims, ∀ i, u (vel a) i = old s (vel a) i + m.invRhoAt a i * slope sp DT DH c s a .p (old s .p) i) ∧
    (∀ i, u .p i = old s .p i + m.pMod i * (dims.map fun a => slope sp DT DH c s a (vel a) (u (vel a)) i).sum) ∧
    (∀ f ∈ .p :: dims.map vel, ∀ i, s' (.fld f) i = frame c i * u f i) ∧
    (∀ a ∈ dims, ∀ i, s' (.psi .p a) i = memory sp DT DH c s a .p (old s .p) i ∧
      s' (.psi (vel a) a) i = memory sp DT DH c s a (vel a) (u (vel a)) i)

/-- One step of an elastic medium with the axes `dims`: equation of motion with the old stresses, Hooke's
law with the new velocities. -/
structure ElasticStep (dims : List Axis) (m : Mod (Pt NX NY NZ)) (s' : State (Pt NX NY NZ)) : Prop where
  step : ∃ u : Fld → Pt NX NY NZ → ℝ,
    (∀ a ∈ dims, ∀ i, u (vel a) i = old s (vel a) i + m.invRhoAt a i *
      (dims.map fun b => slope sp DT DH c s b (stress a b) (old s (stress a b)) i).sum) ∧
    (∀ a ∈ dims, ∀ b ∈ dims, ∀ i, u (stress a b) i = old s (stress a b) i +
      (if a = b then (m.pMod i - 2 * m.sMod i) *
        (dims.map fun k => slope sp DT DH c s k (vel k) (u (vel k)) i).sum else 0) +
      m.muAt a b i * (slope sp DT DH c s b (vel a) (u (vel a)) i + slope sp DT DH c s a (vel b) (u (vel b)) i)) ∧
    (∀ a ∈ dims, ∀ b ∈ dims, ∀ i, s' (.fld (vel a)) i = frame c i * u (vel a) i ∧
      s' (.fld (stress a b)) i = frame c i * u (stress a b) i) ∧
    (∀ a ∈ dims, ∀ b ∈ dims, ∀ i,
      s' (.psi (stress a b) b) i = memory sp DT DH c s b (stress a b) (old s (stress a b)) i ∧
      s' (.psi (vel a) b) i = memory sp DT DH c s b (vel a) (u (vel a)) i)

/-- One step of SH waves: movement along `z`, shear stresses on the two vertical planes. -/
structure SHStep (m : Mod (Pt NX NY NZ)) (s' : State (Pt NX NY NZ)) : Prop where
  step : ∃ u : Fld → Pt NX NY NZ → ℝ,
    (∀ i, u .vZ i = old s .vZ i + m.invRho i *
      (slope sp DT DH c s .x .Sxz (old s .Sxz) i + slope sp DT DH c s .y .Syz (old s .Syz) i)) ∧
    (∀ a ∈ [Axis.x, .y], ∀ i, u (stress a .z) i = old s (stress a .z) i +
      m.muAt a .z i * slope sp DT DH c s a .vZ (u .vZ) i) ∧
    (∀ f ∈ [Fld.vZ, .Sxz, .Syz], ∀ i, s' (.fld f) i = frame c i * u f i) ∧
    (∀ a ∈ [Axis.x, .y], ∀ i,
      s' (.psi (stress a .z) a) i = memory sp DT DH c s a (stress a .z) (old s (stress a .z)) i ∧
      s' (.psi .vZ a) i = memory sp DT DH c s a .vZ (u .vZ) i)

/-- Component `a` of the curl of a vector field whose components are `F`; only derivatives along `dims`. -/
noncomputable def curl (dims : List Axis) (F : Axis → Fld) (v : Fld → Pt NX NY NZ → ℝ) (a : Axis)
    (i : Pt NX NY NZ) : ℝ :=
  (dims.map fun b => ([Axis.x, .y, .z].map fun d => levi a b d * slope sp DT DH c s b (F d) (v (F d)) i).sum).sum

/-- One step of Maxwell's equations with derivatives along `dims`, magnetic components `hs` and electric
components `es`: Faraday's law with the old electric field, Ampère's law with the new magnetic field. -/
structure MaxwellStep (dims hs es : List Axis) (m : EMod (Pt NX NY NZ)) (s' : State (Pt NX NY NZ)) : Prop where
  step : ∃ u : Fld → Pt NX NY NZ → ℝ,
    (∀ a ∈ hs, ∀ i, u (magn a) i = old s (magn a) i -
      m.invMuAt a i * curl sp DT DH c s dims elec (old s) a i) ∧
    (∀ a ∈ es, ∀ i, u (elec a) i = m.ca a i * old s (elec a) i +
      m.cb a i * curl sp DT DH c s dims magn u a i) ∧
    (∀ f ∈ hs.map magn ++ es.map elec, ∀ i, s' (.fld f) i = frame c i * u f i) ∧
    (∀ a ∈ dims, ∀ b, b ≠ a → ∀ i,
      (b ∈ es → s' (.psi (elec b) a) i = memory sp DT DH c s a (elec b) (old s (elec b)) i) ∧
      (b ∈ hs → s' (.psi (magn b) a) i = memory sp DT DH c s a (magn b) (u (magn b)) i))

end

section
variable {NX NY NZ : ℕ} (sp : Int) (DT DH : ℝ) (c : BC (Pt NX NY NZ)) (s : State (Pt NX NY NZ))

private theorem frame_eq (i : Pt NX NY NZ) : frame c i = dampW c i := by
  unfold frame dampW
  cases c.damping <;> rfl

private theorem slope_eq (a : Axis) (f : Fld) (v : Pt NX NY NZ → ℝ) (i : Pt NX NY NZ) :
    slope sp DT DH c s a f v i = grad c (!halfway f a) a (s (.psi f a))
      ((if halfway f a then backwardMatrix sp DT DH a else forwardMatrix sp DT DH a).mulVec v) i := by
  unfold grad slope memory newPsi centred PML.at
  cases c.pml <;> cases halfway f a <;> simp

private theorem memory_eq (a : Axis) (f : Fld) (v : Pt NX NY NZ → ℝ) (i : Pt NX NY NZ) :
    memory sp DT DH c s a f v i = newPsi c (!halfway f a) a (s (.psi f a))
      ((if halfway f a then backwardMatrix sp DT DH a else forwardMatrix sp DT DH a).mulVec v) i := by
  unfold memory newPsi centred PML.at
  cases c.pml <;> cases halfway f a <;> simp

set_option hygiene false in
local macro "pick" : tactic => `(tactic| first
  | exact (hu .p _ rfl).1 i
  | exact (hu .vX _ rfl).1 i
  | exact (hu .vY _ rfl).1 i
  | exact (hu .vZ _ rfl).1 i
  | exact (hu .Sxx _ rfl).1 i
  | exact (hu .Syy _ rfl).1 i
  | exact (hu .Szz _ rfl).1 i
  | exact (hu .Sxy _ rfl).1 i
  | exact (hu .Sxz _ rfl).1 i
  | exact (hu .Syz _ rfl).1 i
  | exact (hu .eX _ rfl).1 i
  | exact (hu .eY _ rfl).1 i
  | exact (hu .eZ _ rfl).1 i
  | exact (hu .hX _ rfl).1 i
  | exact (hu .hY _ rfl).1 i
  | exact (hu .hZ _ rfl).1 i)

set_option hygiene false in
local macro "pick_fin" : tactic => `(tactic| first
  | exact (hu .p _ rfl).2.1 i
  | exact (hu .vX _ rfl).2.1 i
  | exact (hu .vY _ rfl).2.1 i
  | exact (hu .vZ _ rfl).2.1 i
  | exact (hu .Sxx _ rfl).2.1 i
  | exact (hu .Syy _ rfl).2.1 i
  | exact (hu .Szz _ rfl).2.1 i
  | exact (hu .Sxy _ rfl).2.1 i
  | exact (hu .Sxz _ rfl).2.1 i
  | exact (hu .Syz _ rfl).2.1 i
  | exact (hu .eX _ rfl).2.1 i
  | exact (hu .eY _ rfl).2.1 i
  | exact (hu .eZ _ rfl).2.1 i
  | exact (hu .hX _ rfl).2.1 i
  | exact (hu .hY _ rfl).2.1 i
  | exact (hu .hZ _ rfl).2.1 i)

set_option hygiene false in
local macro "pick_psi" : tactic => `(tactic| first
  | exact congrFun ((hu .p _ rfl).2.2 .x _ rfl) i
  | exact congrFun ((hu .p _ rfl).2.2 .y _ rfl) i
  | exact congrFun ((hu .p _ rfl).2.2 .z _ rfl) i
  | exact congrFun ((hu .vX _ rfl).2.2 .x _ rfl) i
  | exact congrFun ((hu .vX _ rfl).2.2 .y _ rfl) i
  | exact congrFun ((hu .vX _ rfl).2.2 .z _ rfl) i
  | exact congrFun ((hu .vY _ rfl).2.2 .x _ rfl) i
  | exact congrFun ((hu .vY _ rfl).2.2 .y _ rfl) i
  | exact congrFun ((hu .vY _ rfl).2.2 .z _ rfl) i
  | exact congrFun ((hu .vZ _ rfl).2.2 .x _ rfl) i
  | exact congrFun ((hu .vZ _ rfl).2.2 .y _ rfl) i
  | exact congrFun ((hu .vZ _ rfl).2.2 .z _ rfl) i
  | exact congrFun ((hu .Sxx _ rfl).2.2 .x _ rfl) i
  | exact congrFun ((hu .Sxx _ rfl).2.2 .y _ rfl) i
  | exact congrFun ((hu .Sxx _ rfl).2.2 .z _ rfl) i
  | exact congrFun ((hu .Syy _ rfl).2.2 .x _ rfl) i
  | exact congrFun ((hu .Syy _ rfl).2.2 .y _ rfl) i
  | exact congrFun ((hu .Syy _ rfl).2.2 .z _ rfl) i
  | exact congrFun ((hu .Szz _ rfl).2.2 .x _ rfl) i
  | exact congrFun ((hu .Szz _ rfl).2.2 .y _ rfl) i
  | exact congrFun ((hu .Szz _ rfl).2.2 .z _ rfl) i
  | exact congrFun ((hu .Sxy _ rfl).2.2 .x _ rfl) i
  | exact congrFun ((hu .Sxy _ rfl).2.2 .y _ rfl) i
  | exact congrFun ((hu .Sxy _ rfl).2.2 .z _ rfl) i
  | exact congrFun ((hu .Sxz _ rfl).2.2 .x _ rfl) i
  | exact congrFun ((hu .Sxz _ rfl).2.2 .y _ rfl) i
  | exact congrFun ((hu .Sxz _ rfl).2.2 .z _ rfl) i
  | exact congrFun ((hu .Syz _ rfl).2.2 .x _ rfl) i
  | exact congrFun ((hu .Syz _ rfl).2.2 .y _ rfl) i
  | exact congrFun ((hu .Syz _ rfl).2.2 .z _ rfl) i
  | exact congrFun ((hu .eX _ rfl).2.2 .x _ rfl) i
  | exact congrFun ((hu .eX _ rfl).2.2 .y _ rfl) i
  | exact congrFun ((hu .eX _ rfl).2.2 .z _ rfl) i
  | exact congrFun ((hu .eY _ rfl).2.2 .x _ rfl) i
  | exact congrFun ((hu .eY _ rfl).2.2 .y _ rfl) i
  | exact congrFun ((hu .eY _ rfl).2.2 .z _ rfl) i
  | exact congrFun ((hu .eZ _ rfl).2.2 .x _ rfl) i
  | exact congrFun ((hu .eZ _ rfl).2.2 .y _ rfl) i
  | exact congrFun ((hu .eZ _ rfl).2.2 .z _ rfl) i
  | exact congrFun ((hu .hX _ rfl).2.2 .x _ rfl) i
  | exact congrFun ((hu .hX _ rfl).2.2 .y _ rfl) i
  | exact congrFun ((hu .hX _ rfl).2.2 .z _ rfl) i
  | exact congrFun ((hu .hY _ rfl).2.2 .x _ rfl) i
  | exact congrFun ((hu .hY _ rfl).2.2 .y _ rfl) i
  | exact congrFun ((hu .hY _ rfl).2.2 .z _ rfl) i
  | exact congrFun ((hu .hZ _ rfl).2.2 .x _ rfl) i
  | exact congrFun ((hu .hZ _ rfl).2.2 .y _ rfl) i
  | exact congrFun ((hu .hZ _ rfl).2.2 .z _ rfl) i)

set_option hygiene false in
local macro "rows" : tactic => `(tactic| (
  try simp only [vel, stress, elec, magn]
  refine Eq.trans (by pick) ?_
  simp only [mkRow, Row.value, Term.value, sum3, selFS, if_neg hc, surfaceDeriv, regularDeriv, vel, stress, elec, magn,
    Mod.invRhoAt, Mod.muAt, EMod.invMuAt, fsW, curl, Bool.false_eq_true, if_false, if_true, List.map_cons, List.map_nil,
    List.sum_cons, List.sum_nil, reduceCtorEq]
  simp [slope_eq, halfway, old, levi]
  try ring))

set_option hygiene false in
local macro "finals" : tactic => `(tactic| (
  try simp only [vel, stress, elec, magn]
  refine Eq.trans (by pick_fin) ?_
  simp [mkRow, surfW, if_neg hc, frame_eq]))

set_option hygiene false in
local macro "memories" : tactic => `(tactic| (
  try simp only [vel, stress, elec, magn]
  refine Eq.trans (by pick_psi) ?_
  simp [mkRow, surfaceDeriv, regularDeriv, selFS, if_neg hc, halfway, memory_eq, old]))

/-- C106: one step of the 3D elastic solver on a regular grid is the staggered-grid scheme, with and without
CPML and damping frame. `partial`: without free surface (see C102, C103 for the surface), not for grids with
variable spacing and attenuating media. -/
theorem C106_elastic3D_partial (hc : c.useFreeSurface ≠ 1) (m : Mod (Pt NX NY NZ)) :
    ElasticStep sp DT DH c s [.x, .y, .z] m (exec (elastic3D (surfaceDeriv NX NY NZ sp DT DH) m c) s) := by
  obtain ⟨u, hu⟩ := elastic3D_isStep (surfaceDeriv NX NY NZ sp DT DH) ⟨rfl, rfl, rfl, rfl⟩ m c s
  refine ⟨u, ?_, ?_, ?_, ?_⟩
  · intro a _ i
    cases a <;> rows
  · intro a _ b _ i
    cases a <;> cases b <;> rows
  · intro a _ b _ i
    constructor <;> cases a <;> cases b <;> finals
  · intro a _ b _ i
    constructor <;> cases a <;> cases b <;> memories

/-- C106: the same for the 2D elastic solver. -/
theorem C106_elastic2D_partial (hc : c.useFreeSurface ≠ 1) (m : Mod (Pt NX NY NZ)) :
    ElasticStep sp DT DH c s [.x, .y] m (exec (elastic2D (surfaceDeriv NX NY NZ sp DT DH) m c) s) := by
  obtain ⟨u, hu⟩ := elastic2D_isStep (surfaceDeriv NX NY NZ sp DT DH) ⟨rfl, rfl, rfl, rfl⟩ m c s
  refine ⟨u, ?_, ?_, ?_, ?_⟩
  · intro a ha i
    cases a <;> first | (exfalso; revert ha; decide) | rows
  · intro a ha b hb i
    cases a <;> first | (exfalso; revert ha; decide) | (cases b <;> first | (exfalso; revert hb; decide) | rows)
  · intro a ha b hb i
    constructor <;> cases a <;> first | (exfalso; revert ha; decide) |
      (cases b <;> first | (exfalso; revert hb; decide) | finals)
  · intro a ha b hb i
    constructor <;> cases a <;> first | (exfalso; revert ha; decide) |
      (cases b <;> first | (exfalso; revert hb; decide) | memories)

/-- C106: the same for the 3D acoustic solver. -/
theorem C106_acoustic3D_partial (hc : c.useFreeSurface ≠ 1) (m : Mod (Pt NX NY NZ)) :
    AcousticStep sp DT DH c s [.x, .y, .z] m (exec (acoustic3D (surfaceDeriv NX NY NZ sp DT DH) m c) s) := by
  obtain ⟨u, hu⟩ := acoustic3D_isStep (surfaceDeriv NX NY NZ sp DT DH) ⟨rfl, rfl, rfl, rfl⟩ m c s
  refine ⟨u, ?_, ?_, ?_, ?_⟩
  · intro a ha i
    cases a <;> rows
  · intro i
    rows
  · simp only [List.map_cons, List.map_nil, List.forall_mem_cons, List.not_mem_nil, false_imp_iff, implies_true,
      and_true]
    refine ⟨?_, ?_, ?_, ?_⟩ <;> intro i <;> finals
  · intro a ha i
    constructor <;> cases a <;> memories

/-- C106: the same for the 2D acoustic solver. -/
theorem C106_acoustic2D_partial (hc : c.useFreeSurface ≠ 1) (m : Mod (Pt NX NY NZ)) :
    AcousticStep sp DT DH c s [.x, .y] m (exec (acoustic2D (surfaceDeriv NX NY NZ sp DT DH) m c) s) := by
  obtain ⟨u, hu⟩ := acoustic2D_isStep (surfaceDeriv NX NY NZ sp DT DH) ⟨rfl, rfl, rfl, rfl⟩ m c s
  refine ⟨u, ?_, ?_, ?_, ?_⟩
  · intro a ha i
    cases a <;> first | (exfalso; revert ha; decide) | rows
  · intro i
    rows
  · simp only [List.map_cons, List.map_nil, List.forall_mem_cons, List.not_mem_nil, false_imp_iff, implies_true,
      and_true]
    refine ⟨?_, ?_, ?_⟩ <;> intro i <;> finals
  · intro a ha i
    constructor <;> cases a <;> first | (exfalso; revert ha; decide) | memories

/-- C106: the same for SH waves. -/
theorem C106_sh2D_partial (hc : c.useFreeSurface ≠ 1) (m : Mod (Pt NX NY NZ)) :
    SHStep sp DT DH c s m (exec (sh2D (surfaceDeriv NX NY NZ sp DT DH) m c) s) := by
  obtain ⟨u, hu⟩ := sh2D_isStep (surfaceDeriv NX NY NZ sp DT DH) m c s
  refine ⟨u, ?_, ?_, ?_, ?_⟩
  · intro i
    rows
  · intro a ha i
    cases a <;> first | (exfalso; revert ha; decide) | rows
  · simp only [List.forall_mem_cons, List.not_mem_nil, false_imp_iff, implies_true, and_true]
    refine ⟨?_, ?_, ?_⟩ <;> intro i <;> finals
  · intro a ha i
    constructor <;> cases a <;> first | (exfalso; revert ha; decide) | memories

/-- C106: one step of the 2D EMEM solver (magnetic field along `z`) is Yee's scheme. The electromagnetic solvers
ignore the free surface. -/
theorem C106_emem2D_partial (m : EMod (Pt NX NY NZ)) :
    MaxwellStep sp DT DH c s [.x, .y] [.z] [.x, .y] m
      (exec (emem2D (surfaceDeriv NX NY NZ sp DT DH) m c) s) := by
  have hc : (0 : ℕ) ≠ 1 := by decide
  obtain ⟨u, hu⟩ := emem2D_isStep (surfaceDeriv NX NY NZ sp DT DH) m c s
  refine ⟨u, ?_, ?_, ?_, ?_⟩
  · intro a ha i
    cases a <;> first | (exfalso; revert ha; decide) | rows
  · intro a ha i
    cases a <;> first | (exfalso; revert ha; decide) | rows
  · simp only [List.map_cons, List.map_nil, List.cons_append, List.nil_append, List.forall_mem_cons, List.not_mem_nil,
      false_imp_iff, implies_true, and_true]
    refine ⟨?_, ?_, ?_⟩ <;> intro i <;> finals
  · intro a ha b hb i
    constructor <;> intro h <;> cases a <;> cases b <;> first | (exfalso; revert ha hb h; decide) | memories

/-- C106: the same for the 2D TMEM solver (electric field along `z`). -/
theorem C106_tmem2D_partial (m : EMod (Pt NX NY NZ)) :
    MaxwellStep sp DT DH c s [.x, .y] [.x, .y] [.z] m
      (exec (tmem2D (surfaceDeriv NX NY NZ sp DT DH) m c) s) := by
  have hc : (0 : ℕ) ≠ 1 := by decide
  obtain ⟨u, hu⟩ := tmem2D_isStep (surfaceDeriv NX NY NZ sp DT DH) m c s
  refine ⟨u, ?_, ?_, ?_, ?_⟩
  · intro a ha i
    cases a <;> first | (exfalso; revert ha; decide) | rows
  · intro a ha i
    cases a <;> first | (exfalso; revert ha; decide) | rows
  · simp only [List.map_cons, List.map_nil, List.cons_append, List.nil_append, List.forall_mem_cons, List.not_mem_nil,
      false_imp_iff, implies_true, and_true]
    refine ⟨?_, ?_, ?_⟩ <;> intro i <;> finals
  · intro a ha b hb i
    constructor <;> intro h <;> cases a <;> cases b <;> first | (exfalso; revert ha hb h; decide) | memories

/-- C106: the same for the 3D electromagnetic solver, if there is no CPML. -/
theorem C106_emem3D_partial (hp : c.pml = none) (m : EMod (Pt NX NY NZ)) :
    MaxwellStep sp DT DH c s [.x, .y, .z] [.x, .y, .z] [.x, .y, .z] m
      (exec (emem3D (surfaceDeriv NX NY NZ sp DT DH) m c) s) := by
  have hc : (0 : ℕ) ≠ 1 := by decide
  have hg : ∀ k a (psi d : Pt NX NY NZ → ℝ), grad c k a psi d = d := by
    intro k a psi d
    simp [grad, hp]
  have hn : ∀ k a (psi d : Pt NX NY NZ → ℝ), newPsi c k a psi d = psi := by
    intro k a psi d
    simp [newPsi, hp]
  obtain ⟨u, hu⟩ := emem3D_isStep (surfaceDeriv NX NY NZ sp DT DH) m c s
  refine ⟨u, ?_, ?_, ?_, ?_⟩
  · intro a ha i
    cases a <;> rows
  · intro a ha i
    cases a <;>
    · simp only [elec]
      refine Eq.trans (by pick) ?_
      simp only [mkRow, Row.value, Term.value, sum3, surfaceDeriv, regularDeriv, curl, slope_eq, hg, magn,
        List.map_cons, List.map_nil, List.sum_cons, List.sum_nil]
      simp [halfway, levi, old]
      try ring
  · simp only [List.map_cons, List.map_nil, List.cons_append, List.nil_append, List.forall_mem_cons, List.not_mem_nil,
      false_imp_iff, implies_true, and_true]
    refine ⟨?_, ?_, ?_, ?_, ?_, ?_⟩ <;> intro i <;> finals
  · intro a ha b hb i
    simp only [memory_eq, hn]
    constructor <;> intro h <;> cases a <;> cases b <;> first | (exfalso; revert ha hb h; decide) |
      (simp only [elec, magn]; refine Eq.trans (by pick_psi) ?_; simp [mkRow, hn])
end

open Verif.Boundary in
/-- C106: with CPML the 3D electromagnetic solver is not this scheme: the derivative along `x` in the equation
for the electric field along `z` takes the CPML coefficients of the half points although it is centred at full
points (CPMLEM3D.cpp:67-70). Shown for a grid of one point and every CPML frequency. -/
theorem C106_emem3D_cpml_violated (fc : ℝ) (hfc : 0 ≤ fc) :
    ¬ ∀ s : State (Pt 1 1 1), MaxwellStep 2 1 1 (unitBC fc) s [.x, .y, .z] [.x, .y, .z] [.x, .y, .z] unitEMod
      (exec (emem3D (surfaceDeriv 1 1 1 2 1 1) unitEMod (unitBC fc)) s) := by
  intro h
  set s : State (Pt 1 1 1) := fun v => if v = .fld .eZ then fun _ => 1 else 0 with hs
  have h1 := (unit_step fc s (by simp [hs]) (by simp [hs]) (by simp [hs])
      (by simp [hs]) 0 1 (by simp [hs]) (by simp [hs]) (by simp [hs])).2
  obtain ⟨u, hH, hE, hF, -⟩ := h s
  have k0 := hF .eZ (by simp [elec, magn]) 0
  have k1 := hH .x (by simp) 0
  have k2 := hH .y (by simp) 0
  have k3 := hE .z (by simp) 0
  rw [h1] at k0
  simp [curl, levi, slope, memory, centred, halfway, unitBC, regularPML, unit_coef, unit_mulVec, unit_fwd, unit_bwd, hs,
    old, elec, magn, EMod.invMuAt, unitEMod, EMod.ca, EMod.cb, Ca, Cb, Cinv, frame] at k0 k1 k2 k3
  have hc := unit_coef_lt fc hfc
  rw [k1, k2] at k3
  rw [k3] at k0
  nlinarith [mul_pos (sub_pos.2 hc.1) (show 0 < 1 + cpmlA (unitPar fc) 1 0 true by linarith [hc.2])]

/-- The elastic theorem applied: an elastic medium with point-dependent parameters, CPML and damping frame. -/
example (s : State (Pt 2 3 4)) (w : Pt 2 3 4 → ℝ) :
    let m : Mod (Pt 2 3 4) := ⟨fun i => 1 + i.1.val, fun i => 2 + i.1.val, fun i => 3 + i.2.1.val,
      fun i => 4 + i.2.2.val, fun i => 9 + i.1.val, fun i => 1 + i.2.1.val, fun _ => 1, fun _ => 2,
      fun i => 3 + i.2.2.val, 0, 0, 0, 0, 0, 0, fun _ => 1, 1⟩
    let c : BC (Pt 2 3 4) := ⟨0, some w, some (regularPML ⟨4, 10, 3, 1, 1⟩ 1 0 true), fun _ => false⟩
    ElasticStep 4 1 1 c s [.x, .y, .z] m (exec (elastic3D (surfaceDeriv 2 3 4 4 1 1) m c) s) :=
  C106_elastic3D_partial 4 1 1 _ s (show (0 : ℕ) ≠ 1 by decide) _

/-- Written out for one component: the shear stress `Sxy` of a 2D elastic medium without absorbing boundaries. -/
example (s : State (Pt 5 5 1)) (m : Mod (Pt 5 5 1)) (i : Pt 5 5 1) :
    let s' := exec (elastic2D (surfaceDeriv 5 5 1 2 1 1) m ⟨0, none, none, fun _ => false⟩) s
    s' (.fld .Sxy) i = s (.fld .Sxy) i + m.sModXY i *
      ((forwardMatrix 2 1 1 .y).mulVec (s' (.fld .vX)) i + (forwardMatrix 2 1 1 .x).mulVec (s' (.fld .vY)) i) := by
  intro s'
  obtain ⟨u, -, h2, h3, -⟩ := C106_elastic2D_partial 2 1 1 (⟨0, none, none, fun _ => false⟩ : BC (Pt 5 5 1)) s (by decide) m
  have e : ∀ f, f = .vX ∨ f = .vY → s' (.fld f) = u f := by
    rintro f (rfl | rfl) <;> funext j
    · simpa [frame, vel, s'] using (h3 .x (by simp) .x (by simp) j).1
    · simpa [frame, vel, s'] using (h3 .y (by simp) .x (by simp) j).1
  have k := (h3 .x (by simp) .y (by simp) i).2
  have k' : s' (.fld .Sxy) i = u .Sxy i := by simpa [frame, stress, s'] using k
  rw [e _ (.inl rfl), e _ (.inr rfl), k']
  simpa [stress, slope, centred, halfway, vel, Mod.muAt] using h2 .x (by simp) .y (by simp) i

end Verif.Solver
