import Verif.Lemmas.Relabel
import Verif.Lemmas.LeapfrogSolvers
import Verif.Model.RegularDeriv

/-!
# Exchanging two axes of a set-up
-/
set_option linter.dupNamespace false

namespace Verif.Solver
open Matrix

variable {ι ι' : Type}

/-- Exchange of two axes: the axis `y` takes part or the axis `z`, always with `x`. -/
inductive Exch
  | xz
  | xy
  deriving DecidableEq

namespace Exch

/-- The axes. -/
def axis : Exch → Axis → Axis
  | xz, .x => .z
  | xz, .y => .y
  | xz, .z => .x
  | xy, .x => .y
  | xy, .y => .x
  | xy, .z => .z

/-- The wavefields. -/
def fld : Exch → Fld → Fld
  | xz, .vX => .vZ
  | xz, .vZ => .vX
  | xz, .Sxx => .Szz
  | xz, .Szz => .Sxx
  | xz, .Sxy => .Syz
  | xz, .Syz => .Sxy
  | xz, .hX => .hZ
  | xz, .hZ => .hX
  | xz, .eX => .eZ
  | xz, .eZ => .eX
  | xy, .vX => .vY
  | xy, .vY => .vX
  | xy, .Sxx => .Syy
  | xy, .Syy => .Sxx
  | xy, .Sxz => .Syz
  | xy, .Syz => .Sxz
  | xy, .hX => .hY
  | xy, .hY => .hX
  | xy, .eX => .eY
  | xy, .eY => .eX
  | _, f => f

/-- The magnetic field changes its sign when two axes are exchanged. -/
def sign : Fld → ℝ
  | .hX | .hY | .hZ => -1
  | _ => 1

/-- Types of sources and receivers. -/
def stype : Exch → SType → SType
  | xz, .VX => .VZ
  | xz, .VZ => .VX
  | xz, .EX => .EZ
  | xz, .EZ => .EX
  | xy, .VX => .VY
  | xy, .VY => .VX
  | xy, .EX => .EY
  | xy, .EY => .EX
  | _, t => t

/-- Sign of a source or receiver type. -/
def tsign : SType → ℝ
  | .HZ => -1
  | _ => 1

/-- The relabelling that belongs to the exchange. -/
def relabel (k : Exch) (e : ι' ≃ ι) : Relabel ι' ι where
  e := e
  φ := k.fld
  π := k.axis
  σ := sign
  perm := by
    intro g
    cases k <;> simp only [sum3, axis] <;> ring

/-- The exchanged seismic model. -/
def mod (k : Exch) (e : ι' → ι) (m : Mod ι) : Mod ι' where
  invRho := m.invRho ∘ e
  invRhoX := (match k with | xz => m.invRhoZ | xy => m.invRhoY) ∘ e
  invRhoY := (match k with | xz => m.invRhoY | xy => m.invRhoX) ∘ e
  invRhoZ := (match k with | xz => m.invRhoX | xy => m.invRhoZ) ∘ e
  pMod := m.pMod ∘ e
  sMod := m.sMod ∘ e
  sModXY := (match k with | xz => m.sModYZ | xy => m.sModXY) ∘ e
  sModXZ := (match k with | xz => m.sModXZ | xy => m.sModYZ) ∘ e
  sModYZ := (match k with | xz => m.sModXY | xy => m.sModXZ) ∘ e
  tauP := m.tauP ∘ e
  tauS := m.tauS ∘ e
  tauSXY := (match k with | xz => m.tauSYZ | xy => m.tauSXY) ∘ e
  tauSXZ := (match k with | xz => m.tauSXZ | xy => m.tauSYZ) ∘ e
  tauSYZ := (match k with | xz => m.tauSXY | xy => m.tauSXZ) ∘ e
  L := m.L
  relaxTime := m.relaxTime
  DT := m.DT

/-- The exchanged electromagnetic model. -/
def emod (k : Exch) (e : ι' → ι) (m : EMod ι) : EMod ι' where
  invMuXY := (match k with | xz => m.invMuYZ | xy => m.invMuXY) ∘ e
  invMuXZ := (match k with | xz => m.invMuXZ | xy => m.invMuYZ) ∘ e
  invMuYZ := (match k with | xz => m.invMuXY | xy => m.invMuXZ) ∘ e
  eps := fun a => m.eps (k.axis a) ∘ e
  sig := fun a => m.sig (k.axis a) ∘ e
  tauEps := fun a => m.tauEps (k.axis a) ∘ e
  tauSig := fun a => m.tauSig (k.axis a) ∘ e
  epsVac := m.epsVac
  L := m.L
  relaxTime := m.relaxTime
  DT := m.DT

/-- The exchanged boundaries. -/
def bc (k : Exch) (e : ι' → ι) (c : BC ι) : BC ι' where
  useFreeSurface := c.useFreeSurface
  damping := c.damping.map (· ∘ e)
  pml := c.pml.map fun q => ⟨fun a => q.a (k.axis a) ∘ e, fun a => q.b (k.axis a) ∘ e,
    fun a => q.aHalf (k.axis a) ∘ e, fun a => q.bHalf (k.axis a) ∘ e⟩
  onSurface := c.onSurface ∘ e

theorem axis_axis (k : Exch) (a : Axis) : k.axis (k.axis a) = a := by
  cases k <;> cases a <;> rfl

theorem pmls (k : Exch) (e : ι' ≃ ι) (c : BC ι) : (k.relabel e).PMLs (k.bc e c) c := by
  unfold Relabel.PMLs bc
  cases c.pml with
  | none => trivial
  | some q =>
    intro a i
    simp only [relabel, axis_axis, Function.comp_apply, and_self]

theorem dampW_bc (k : Exch) (e : ι' → ι) (c : BC ι) (i : ι') : dampW (k.bc e c) i = dampW c (e i) := by
  unfold dampW bc
  cases c.damping <;> rfl

theorem surfW_bc (k : Exch) (e : ι' → ι) (c : BC ι) (i : ι') : surfW (k.bc e c) i = surfW c (e i) := by
  unfold surfW
  by_cases hs : c.useFreeSurface = 1
  · rw [if_pos hs, if_pos (show (k.bc e c).useFreeSurface = 1 from hs)]
    rfl
  · rw [if_neg hs, if_neg (show ¬(k.bc e c).useFreeSurface = 1 from hs)]

end Exch

/-- Derivative matrices of the exchanged grid. The matrices of the free surface only matter if the `y`
axis stays. -/
structure DerivExch (k : Exch) (e : ι' → ι) (D' : Deriv ι') (D : Deriv ι) : Prop where
  plain' : NoInterp D'
  plain : NoInterp D
  staggered' : D'.DyfSX = D'.Dyf ∧ D'.DyfSZ = D'.Dyf ∧ D'.DybSX = D'.Dyb ∧ D'.DybSZ = D'.Dyb ∧
    D'.DybSXFS = D'.DybFS ∧ D'.DybSZFS = D'.DybFS
  staggered : D.DyfSX = D.Dyf ∧ D.DyfSZ = D.Dyf ∧ D.DybSX = D.Dyb ∧ D.DybSZ = D.Dyb ∧
    D.DybSXFS = D.DybFS ∧ D.DybSZFS = D.DybFS
  fwd : ∀ a i j, (match a with | .x => D'.Dxf | .y => D'.Dyf | .z => D'.Dzf) i j =
    (match k.axis a with | .x => D.Dxf | .y => D.Dyf | .z => D.Dzf) (e i) (e j)
  bwd : ∀ a i j, (match a with | .x => D'.Dxb | .y => D'.Dyb | .z => D'.Dzb) i j =
    (match k.axis a with | .x => D.Dxb | .y => D.Dyb | .z => D.Dzb) (e i) (e j)
  surface : k = .xz → ∀ i j, D'.DyfFS i j = D.DyfFS (e i) (e j) ∧ D'.DybFS i j = D.DybFS (e i) (e j)

theorem Exch.fsW_hor (k : Exch) (e : ι' → ι) (m : Mod ι) (c : BC ι) (i : ι') :
    fsW (k.bc e c) (scaleHor (k.mod e m) (k.bc e c)) i = fsW c (scaleHor m c) (e i) := by
  unfold fsW
  by_cases hs : c.useFreeSurface = 1
  · rw [if_pos hs, if_pos (show (k.bc e c).useFreeSurface = 1 from hs)]
    rfl
  · rw [if_neg hs, if_neg (show ¬(k.bc e c).useFreeSurface = 1 from hs)]

theorem Exch.fsW_vert (k : Exch) (e : ι' → ι) (m : Mod ι) (c : BC ι) (i : ι') :
    fsW (k.bc e c) (scaleVert (k.mod e m) (k.bc e c)) i = fsW c (scaleVert m c) (e i) := by
  unfold fsW
  by_cases hs : c.useFreeSurface = 1
  · rw [if_pos hs, if_pos (show (k.bc e c).useFreeSurface = 1 from hs)]
    rfl
  · rw [if_neg hs, if_neg (show ¬(k.bc e c).useFreeSurface = 1 from hs)]

theorem fsW_zero {c : BC ι} (h : c.useFreeSurface ≠ 1) (w : ι → ℝ) (i : ι) : fsW c w i = 0 := by
  simp [fsW, h]

namespace DerivExch

section XZ
variable {e : ι' ≃ ι} {D' : Deriv ι'} {D : Deriv ι} (h : DerivExch .xz e D' D) (c : BC ι)
include h

theorem selF (i j : ι') : selFS (Exch.xz.bc e c) D'.DyfFS D'.Dyf i j =
    selFS c D.DyfFS D.Dyf (e i) (e j) := by
  unfold selFS
  by_cases hs : c.useFreeSurface = 1
  · rw [if_pos hs, if_pos (show (Exch.xz.bc e c).useFreeSurface = 1 from hs)]
    exact (h.surface rfl i j).1
  · rw [if_neg hs, if_neg (show ¬(Exch.xz.bc e c).useFreeSurface = 1 from hs)]
    exact h.fwd .y i j

theorem selB (i j : ι') : selFS (Exch.xz.bc e c) D'.DybFS D'.Dyb i j =
    selFS c D.DybFS D.Dyb (e i) (e j) := by
  unfold selFS
  by_cases hs : c.useFreeSurface = 1
  · rw [if_pos hs, if_pos (show (Exch.xz.bc e c).useFreeSurface = 1 from hs)]
    exact (h.surface rfl i j).2
  · rw [if_neg hs, if_neg (show ¬(Exch.xz.bc e c).useFreeSurface = 1 from hs)]
    exact h.bwd .y i j

end XZ
end DerivExch

theorem surfW_one {c : BC ι} (h : c.useFreeSurface ≠ 1) (i : ι) : surfW c i = 1 := by
  simp [surfW, h]

theorem selFS_none {c : BC ι} (h : c.useFreeSurface ≠ 1) (A B : Matrix ι ι ℝ) : selFS c A B = B := by
  simp [selFS, h]

set_option hygiene false in
local macro "rows_tac" sch:ident : tactic => `(tactic| (
  obtain ⟨s1, s2, s3, s4, s5, s6⟩ := h.staggered'
  obtain ⟨t1, t2, t3, t4, t5, t6⟩ := h.staggered
  have f1 := h.fwd .x
  have f2 := h.fwd .y
  have f3 := h.fwd .z
  have b1 := h.bwd .x
  have b2 := h.bwd .y
  have b3 := h.bwd .z
  simp only [Exch.axis] at f1 f2 f3 b1 b2 b3
  intro f r hr
  cases f <;> simp only [$sch:ident, Option.some.injEq, reduceCtorEq] at hr <;> subst hr <;>
  (refine ⟨_, rfl, ⟨rfl, fun i => ?_, fun i => ?_, fun a => ?_⟩⟩ <;>
   first
   | (cases a <;> simp only [mkRow, Exch.relabel, Exch.axis] <;>
      (try (refine ⟨rfl, ?_, fun i j => ?_, fun i => ?_⟩ <;>
       first
       | exact .inr rfl
       | exact .inl hp
       | (try simp only [Exch.fsW_hor, Exch.fsW_vert]) <;> simp [s1, s2, s3, s4, s5, s6, t1, t2, t3, t4, t5, t6, f1, f2, f3, b1, b2, b3, sF, sB,
          Exch.sign, Exch.mod, Exch.emod, Exch.relabel, zS, zF, zG, EMod.cb,
          Exch.axis])))
   | simp [mkRow, Exch.dampW_bc, Exch.surfW_bc, Exch.relabel, zS', Exch.emod, EMod.ca, Exch.axis]
   | rfl)))

variable {e : ι' ≃ ι} {D' : Deriv ι'} {D : Deriv ι}

theorem acoustic3D_xz (h : DerivExch .xz e D' D) (m : Mod ι) (c : BC ι) :
    (Exch.xz.relabel e).Schemes c (acoustic3DRows D' (Exch.xz.mod e m) (Exch.xz.bc e c))
      (acoustic3DRows D m c) := by
  have sF := h.selF c
  have sB := h.selB c
  have zS := True.intro
  have zS' := True.intro
  have zF := True.intro
  have zG := True.intro
  rows_tac acoustic3DRows

theorem acoustic3D_xy (h : DerivExch .xy e D' D) (m : Mod ι) (c : BC ι) (hs : c.useFreeSurface ≠ 1) :
    (Exch.xy.relabel e).Schemes c (acoustic3DRows D' (Exch.xy.mod e m) (Exch.xy.bc e c))
      (acoustic3DRows D m c) := by
  have sF := @selFS_none _ c hs
  have sB := @selFS_none _ (Exch.xy.bc e c) hs
  have zS' := @surfW_one _ c hs
  have zS := True.intro
  have zF := @fsW_zero _ c hs
  have zG := True.intro
  rows_tac acoustic3DRows

theorem elastic3D_xz (h : DerivExch .xz e D' D) (m : Mod ι) (c : BC ι) :
    (Exch.xz.relabel e).Schemes c (elastic3DRows D' (Exch.xz.mod e m) (Exch.xz.bc e c))
      (elastic3DRows D m c) := by
  have sF := h.selF c
  have sB := h.selB c
  have zS := True.intro
  have zS' := True.intro
  have zF := True.intro
  have zG := True.intro
  rows_tac elastic3DRows

theorem elastic3D_xy (h : DerivExch .xy e D' D) (m : Mod ι) (c : BC ι) (hs : c.useFreeSurface ≠ 1) :
    (Exch.xy.relabel e).Schemes c (elastic3DRows D' (Exch.xy.mod e m) (Exch.xy.bc e c))
      (elastic3DRows D m c) := by
  have sF := @selFS_none _ c hs
  have sB := @selFS_none _ (Exch.xy.bc e c) hs
  have zS' := @surfW_one _ c hs
  have zS := True.intro
  have zF := @fsW_zero _ c hs
  have zG := True.intro
  rows_tac elastic3DRows

theorem emem3D_xz (h : DerivExch .xz e D' D) (m : EMod ι) (c : BC ι) (hp : c.pml = none) :
    (Exch.xz.relabel e).Schemes c (emem3DRows D' (Exch.xz.emod e m) (Exch.xz.bc e c))
      (emem3DRows D m c) := by
  have sF := True.intro
  have sB := True.intro
  have zS := True.intro
  have zS' := True.intro
  have zF := True.intro
  have zG := True.intro
  rows_tac emem3DRows

theorem emem3D_xy (h : DerivExch .xy e D' D) (m : EMod ι) (c : BC ι) (hp : c.pml = none) :
    (Exch.xy.relabel e).Schemes c (emem3DRows D' (Exch.xy.emod e m) (Exch.xy.bc e c))
      (emem3DRows D m c) := by
  have sF := True.intro
  have sB := True.intro
  have zS := True.intro
  have zS' := True.intro
  have zF := True.intro
  have zG := True.intro
  rows_tac emem3DRows

theorem acoustic2D_xy (h : DerivExch .xy e D' D) (m : Mod ι) (c : BC ι) (hs : c.useFreeSurface ≠ 1) :
    (Exch.xy.relabel e).Schemes c (acoustic2DRows D' (Exch.xy.mod e m) (Exch.xy.bc e c))
      (acoustic2DRows D m c) := by
  have sF := @selFS_none _ c hs
  have sB := @selFS_none _ (Exch.xy.bc e c) hs
  have zS' := @surfW_one _ c hs
  have zS := True.intro
  have zF := @fsW_zero _ c hs
  have zG := True.intro
  rows_tac acoustic2DRows

theorem elastic2D_xy (h : DerivExch .xy e D' D) (m : Mod ι) (c : BC ι) (hs : c.useFreeSurface ≠ 1) :
    (Exch.xy.relabel e).Schemes c (elastic2DRows D' (Exch.xy.mod e m) (Exch.xy.bc e c))
      (elastic2DRows D m c) := by
  have sF := @selFS_none _ c hs
  have sB := @selFS_none _ (Exch.xy.bc e c) hs
  have zS' := @surfW_one _ c hs
  have zS := True.intro
  have zF := @fsW_zero _ c hs
  have zG := True.intro
  rows_tac elastic2DRows

theorem sh2D_xy (h : DerivExch .xy e D' D) (m : Mod ι) (c : BC ι) (hs : c.useFreeSurface ≠ 1) :
    (Exch.xy.relabel e).Schemes c (sh2DRows D' (Exch.xy.mod e m) (Exch.xy.bc e c))
      (sh2DRows D m c) := by
  have sF := @selFS_none _ c hs
  have sB := @selFS_none _ (Exch.xy.bc e c) hs
  have zS' := @surfW_one _ c hs
  have zS := True.intro
  have zF := @fsW_zero _ c hs
  have zG := True.intro
  rows_tac sh2DRows

theorem emem2D_xy (h : DerivExch .xy e D' D) (m : EMod ι) (c : BC ι) :
    (Exch.xy.relabel e).Schemes c (emem2DRows D' (Exch.xy.emod e m) (Exch.xy.bc e c))
      (emem2DRows D m c) := by
  have sF := True.intro
  have sB := True.intro
  have zS := True.intro
  have zS' := True.intro
  have zF := True.intro
  have zG := True.intro
  rows_tac emem2DRows

theorem tmem2D_xy (h : DerivExch .xy e D' D) (m : EMod ι) (c : BC ι) :
    (Exch.xy.relabel e).Schemes c (tmem2DRows D' (Exch.xy.emod e m) (Exch.xy.bc e c))
      (tmem2DRows D m c) := by
  have sF := True.intro
  have sB := True.intro
  have zS := True.intro
  have zS' := True.intro
  have zF := True.intro
  have zG := True.intro
  rows_tac tmem2DRows

/-! ### Solvers -/

/-- A solver with a set-up and the same solver with the exchanged set-up. Two-dimensional solvers have
no `z` axis to exchange. The 3D electromagnetic solver without CPML. -/
inductive ExchPair (k : Exch) (e : ι' ≃ ι) (D' : Deriv ι') (D : Deriv ι) (c : BC ι) :
    Solver ι' → Solver ι → Prop
  | acoustic2D (m : Mod ι) (hk : k = .xy) :
      ExchPair k e D' D c (acoustic2DSolver D' (k.mod e m) (k.bc e c)) (acoustic2DSolver D m c)
  | acoustic3D (m : Mod ι) :
      ExchPair k e D' D c (acoustic3DSolver D' (k.mod e m) (k.bc e c)) (acoustic3DSolver D m c)
  | elastic2D (m : Mod ι) (hk : k = .xy) :
      ExchPair k e D' D c (elastic2DSolver D' (k.mod e m) (k.bc e c)) (elastic2DSolver D m c)
  | elastic3D (m : Mod ι) :
      ExchPair k e D' D c (elastic3DSolver D' (k.mod e m) (k.bc e c)) (elastic3DSolver D m c)
  | sh2D (m : Mod ι) (hk : k = .xy) :
      ExchPair k e D' D c (sh2DSolver D' (k.mod e m) (k.bc e c)) (sh2DSolver D m c)
  | emem2D (m : EMod ι) (hk : k = .xy) :
      ExchPair k e D' D c (emem2DSolver D' (k.emod e m) (k.bc e c)) (emem2DSolver D m c)
  | tmem2D (m : EMod ι) (hk : k = .xy) :
      ExchPair k e D' D c (tmem2DSolver D' (k.emod e m) (k.bc e c)) (tmem2DSolver D m c)
  | emem3D (m : EMod ι) (hp : c.pml = none) :
      ExchPair k e D' D c (emem3DSolver D' (k.emod e m) (k.bc e c)) (emem3DSolver D m c)

/-- Everything needed about a pair of solvers. -/
structure ExchFacts [Fintype ι] [Fintype ι'] (k : Exch) (e : ι' ≃ ι) (c : BC ι) (S' : Solver ι') (S : Solver ι)
    (R' : Scheme ι') (R : Scheme ι) : Prop where
  schemes : (k.relabel e).Schemes c R' R
  staggered : R.Staggered
  closed : ∀ f r a t, R f = some r → r.term a = some t → ∃ q, R t.src = some q
  step' : ∀ s, IsStep R' (k.bc e c) s (exec S'.prog s)
  step : ∀ s, IsStep R c s (exec S.prog s)
  src : ∀ ty, (k = .xz → ty ≠ .HZ) → ∀ f r, R f = some r →
    (k.fld f ∈ S'.srcFlds (k.stype ty) ↔ f ∈ S.srcFlds ty) ∧ (f ∈ S.srcFlds ty → Exch.tsign ty = Exch.sign f)
  recv : ∀ ty, (k = .xz → ty ≠ .HZ) → match S'.recv (k.stype ty), S.recv ty with
      | none, none => True
      | some (q', fs'), some (q, fs) => q' = q ∧ fs'.Perm (fs.map k.fld) ∧
          ∀ f ∈ fs, (R f).isSome ∧ Exch.sign f = Exch.tsign ty
      | _, _ => False
  zero : ∀ f r, R f = some r → .fld f ∈ S.fields ∧ .fld (k.fld f) ∈ S'.fields ∧
    ∀ a t, r.term a = some t → .psi t.src a ∈ S.memory ∧ .psi (k.fld t.src) (k.axis a) ∈ S'.memory

set_option hygiene false in
local macro "facts_tac" sch:ident S:ident : tactic => `(tactic| (
  refine ⟨h1, h2, ?_, h3, h4, ?_, ?_, ?_⟩
  · intro f r a t hf ht
    cases f <;> simp only [$sch:ident, Option.some.injEq, reduceCtorEq] at hf <;> subst hf <;>
      cases a <;> simp [mkRow] at ht <;> subst ht <;> exact ⟨_, rfl⟩
  · intro ty hty f r hf
    cases f <;> simp only [$sch:ident, Option.some.injEq, reduceCtorEq] at hf <;> clear hf <;>
      cases ty <;>
      first
      | exact absurd rfl (hty rfl)
      | simp [$S:ident, Solver.srcFlds, src2Dacoustic, src3Dacoustic, src2Delastic, src3Delastic, srcSH,
          src2Demem, src2Dtmem, src3Demem, Exch.fld, Exch.stype, Exch.tsign, Exch.sign]
  · intro ty hty
    cases ty <;>
      first
      | exact absurd rfl (hty rfl)
      | (simp [$S:ident, single, src2Dacoustic, src3Dacoustic, rec2Delastic, rec3Delastic, srcSH,
          src2Demem, src2Dtmem, src3Demem, Exch.fld, Exch.stype, Exch.tsign, Exch.sign, $sch:ident] <;> decide)
  · intro f r hf
    cases f <;> simp only [$sch:ident, Option.some.injEq, reduceCtorEq] at hf <;> subst hf <;>
      (refine ⟨by simp [$S:ident], by simp [$S:ident, Exch.fld], fun a t ht => ?_⟩ <;>
       cases a <;> simp [mkRow] at ht <;> subst ht <;>
       simp [$S:ident, Exch.fld, Exch.axis, psi2Dacoustic, psi3Dacoustic, psi2D, psi3D, psi2DEM, psi3DEM])))

variable [Fintype ι] [Fintype ι']

private theorem facts_acoustic2D_xy (h : DerivExch .xy e D' D) (m : Mod ι) (c : BC ι) (hs : c.useFreeSurface ≠ 1) :
    ExchFacts .xy e c (acoustic2DSolver D' (Exch.xy.mod e m) (Exch.xy.bc e c)) (acoustic2DSolver D m c)
      (acoustic2DRows D' (Exch.xy.mod e m) (Exch.xy.bc e c)) (acoustic2DRows D m c) := by
  have h1 := acoustic2D_xy h m c hs
  have h2 := acoustic2DRows_staggered D m c
  have h3 := acoustic2D_isStep D' h.plain' (Exch.xy.mod e m) (Exch.xy.bc e c)
  have h4 := acoustic2D_isStep D h.plain m c
  facts_tac acoustic2DRows acoustic2DSolver

private theorem facts_acoustic3D_xz (h : DerivExch .xz e D' D) (m : Mod ι) (c : BC ι) :
    ExchFacts .xz e c (acoustic3DSolver D' (Exch.xz.mod e m) (Exch.xz.bc e c)) (acoustic3DSolver D m c)
      (acoustic3DRows D' (Exch.xz.mod e m) (Exch.xz.bc e c)) (acoustic3DRows D m c) := by
  have h1 := acoustic3D_xz h m c
  have h2 := acoustic3DRows_staggered D m c
  have h3 := acoustic3D_isStep D' h.plain' (Exch.xz.mod e m) (Exch.xz.bc e c)
  have h4 := acoustic3D_isStep D h.plain m c
  facts_tac acoustic3DRows acoustic3DSolver

private theorem facts_acoustic3D_xy (h : DerivExch .xy e D' D) (m : Mod ι) (c : BC ι) (hs : c.useFreeSurface ≠ 1) :
    ExchFacts .xy e c (acoustic3DSolver D' (Exch.xy.mod e m) (Exch.xy.bc e c)) (acoustic3DSolver D m c)
      (acoustic3DRows D' (Exch.xy.mod e m) (Exch.xy.bc e c)) (acoustic3DRows D m c) := by
  have h1 := acoustic3D_xy h m c hs
  have h2 := acoustic3DRows_staggered D m c
  have h3 := acoustic3D_isStep D' h.plain' (Exch.xy.mod e m) (Exch.xy.bc e c)
  have h4 := acoustic3D_isStep D h.plain m c
  facts_tac acoustic3DRows acoustic3DSolver

private theorem facts_elastic2D_xy (h : DerivExch .xy e D' D) (m : Mod ι) (c : BC ι) (hs : c.useFreeSurface ≠ 1) :
    ExchFacts .xy e c (elastic2DSolver D' (Exch.xy.mod e m) (Exch.xy.bc e c)) (elastic2DSolver D m c)
      (elastic2DRows D' (Exch.xy.mod e m) (Exch.xy.bc e c)) (elastic2DRows D m c) := by
  have h1 := elastic2D_xy h m c hs
  have h2 := elastic2DRows_staggered D m c
  have h3 := elastic2D_isStep D' h.plain' (Exch.xy.mod e m) (Exch.xy.bc e c)
  have h4 := elastic2D_isStep D h.plain m c
  facts_tac elastic2DRows elastic2DSolver

private theorem facts_elastic3D_xz (h : DerivExch .xz e D' D) (m : Mod ι) (c : BC ι) :
    ExchFacts .xz e c (elastic3DSolver D' (Exch.xz.mod e m) (Exch.xz.bc e c)) (elastic3DSolver D m c)
      (elastic3DRows D' (Exch.xz.mod e m) (Exch.xz.bc e c)) (elastic3DRows D m c) := by
  have h1 := elastic3D_xz h m c
  have h2 := elastic3DRows_staggered D m c
  have h3 := elastic3D_isStep D' h.plain' (Exch.xz.mod e m) (Exch.xz.bc e c)
  have h4 := elastic3D_isStep D h.plain m c
  facts_tac elastic3DRows elastic3DSolver

private theorem facts_elastic3D_xy (h : DerivExch .xy e D' D) (m : Mod ι) (c : BC ι) (hs : c.useFreeSurface ≠ 1) :
    ExchFacts .xy e c (elastic3DSolver D' (Exch.xy.mod e m) (Exch.xy.bc e c)) (elastic3DSolver D m c)
      (elastic3DRows D' (Exch.xy.mod e m) (Exch.xy.bc e c)) (elastic3DRows D m c) := by
  have h1 := elastic3D_xy h m c hs
  have h2 := elastic3DRows_staggered D m c
  have h3 := elastic3D_isStep D' h.plain' (Exch.xy.mod e m) (Exch.xy.bc e c)
  have h4 := elastic3D_isStep D h.plain m c
  facts_tac elastic3DRows elastic3DSolver

private theorem facts_sh2D_xy (h : DerivExch .xy e D' D) (m : Mod ι) (c : BC ι) (hs : c.useFreeSurface ≠ 1) :
    ExchFacts .xy e c (sh2DSolver D' (Exch.xy.mod e m) (Exch.xy.bc e c)) (sh2DSolver D m c)
      (sh2DRows D' (Exch.xy.mod e m) (Exch.xy.bc e c)) (sh2DRows D m c) := by
  have h1 := sh2D_xy h m c hs
  have h2 := sh2DRows_staggered D m c
  have h3 := sh2D_isStep D' (Exch.xy.mod e m) (Exch.xy.bc e c)
  have h4 := sh2D_isStep D m c
  facts_tac sh2DRows sh2DSolver

private theorem facts_emem2D_xy (h : DerivExch .xy e D' D) (m : EMod ι) (c : BC ι) :
    ExchFacts .xy e c (emem2DSolver D' (Exch.xy.emod e m) (Exch.xy.bc e c)) (emem2DSolver D m c)
      (emem2DRows D' (Exch.xy.emod e m) (Exch.xy.bc e c)) (emem2DRows D m c) := by
  have h1 := emem2D_xy h m c
  have h2 := emem2DRows_staggered D m c
  have h3 := emem2D_isStep D' (Exch.xy.emod e m) (Exch.xy.bc e c)
  have h4 := emem2D_isStep D m c
  facts_tac emem2DRows emem2DSolver

private theorem facts_tmem2D_xy (h : DerivExch .xy e D' D) (m : EMod ι) (c : BC ι) :
    ExchFacts .xy e c (tmem2DSolver D' (Exch.xy.emod e m) (Exch.xy.bc e c)) (tmem2DSolver D m c)
      (tmem2DRows D' (Exch.xy.emod e m) (Exch.xy.bc e c)) (tmem2DRows D m c) := by
  have h1 := tmem2D_xy h m c
  have h2 := tmem2DRows_staggered D m c
  have h3 := tmem2D_isStep D' (Exch.xy.emod e m) (Exch.xy.bc e c)
  have h4 := tmem2D_isStep D m c
  facts_tac tmem2DRows tmem2DSolver

private theorem facts_emem3D_xz (h : DerivExch .xz e D' D) (m : EMod ι) (c : BC ι) (hp : c.pml = none) :
    ExchFacts .xz e c (emem3DSolver D' (Exch.xz.emod e m) (Exch.xz.bc e c)) (emem3DSolver D m c)
      (emem3DRows D' (Exch.xz.emod e m) (Exch.xz.bc e c)) (emem3DRows D m c) := by
  have h1 := emem3D_xz h m c hp
  have h2 := emem3DRows_staggered D m c
  have h3 := emem3D_isStep D' (Exch.xz.emod e m) (Exch.xz.bc e c)
  have h4 := emem3D_isStep D m c
  facts_tac emem3DRows emem3DSolver

private theorem facts_emem3D_xy (h : DerivExch .xy e D' D) (m : EMod ι) (c : BC ι) (hp : c.pml = none) :
    ExchFacts .xy e c (emem3DSolver D' (Exch.xy.emod e m) (Exch.xy.bc e c)) (emem3DSolver D m c)
      (emem3DRows D' (Exch.xy.emod e m) (Exch.xy.bc e c)) (emem3DRows D m c) := by
  have h1 := emem3D_xy h m c hp
  have h2 := emem3DRows_staggered D m c
  have h3 := emem3D_isStep D' (Exch.xy.emod e m) (Exch.xy.bc e c)
  have h4 := emem3D_isStep D m c
  facts_tac emem3DRows emem3DSolver

theorem ExchPair.facts {k : Exch} {c : BC ι} (h : DerivExch k e D' D)
    (hs : k = .xy → c.useFreeSurface ≠ 1) {S' : Solver ι'} {S : Solver ι} (hS : ExchPair k e D' D c S' S) :
    ∃ R' R, ExchFacts k e c S' S R' R := by
  cases hS with
  | acoustic2D m hk => subst hk; exact ⟨_, _, facts_acoustic2D_xy h m c (hs rfl)⟩
  | acoustic3D m =>
    cases k with
    | xz => exact ⟨_, _, facts_acoustic3D_xz h m c⟩
    | xy => exact ⟨_, _, facts_acoustic3D_xy h m c (hs rfl)⟩
  | elastic2D m hk => subst hk; exact ⟨_, _, facts_elastic2D_xy h m c (hs rfl)⟩
  | elastic3D m =>
    cases k with
    | xz => exact ⟨_, _, facts_elastic3D_xz h m c⟩
    | xy => exact ⟨_, _, facts_elastic3D_xy h m c (hs rfl)⟩
  | sh2D m hk => subst hk; exact ⟨_, _, facts_sh2D_xy h m c (hs rfl)⟩
  | emem2D m hk => subst hk; exact ⟨_, _, facts_emem2D_xy h m c⟩
  | tmem2D m hk => subst hk; exact ⟨_, _, facts_tmem2D_xy h m c⟩
  | emem3D m hp =>
    cases k with
    | xz => exact ⟨_, _, facts_emem3D_xz h m c hp⟩
    | xy => exact ⟨_, _, facts_emem3D_xy h m c hp⟩

variable [DecidableEq ι] [DecidableEq ι']

/-- Samples of the exchanged set-up. -/
theorem ExchPair.sample_eq {k : Exch} {c : BC ι} (h : DerivExch k e D' D)
    (hs : k = .xy → c.useFreeSurface ≠ 1) {S' : Solver ι'} {S : Solver ι} (hS : ExchPair k e D' D c S' S)
    {s' : State ι'} {s : State ι} (hs' : ∀ v ∈ S'.fields ++ S'.memory, s' v = 0)
    (hs0 : ∀ v ∈ S.fields ++ S.memory, s v = 0) {srcs : List (Source ι)} {r : Receiver ι}
    (hq : k = .xz → ∀ q ∈ srcs, q.ty ≠ .HZ) (hr : k = .xz → r.ty ≠ .HZ) (t : ℕ) :
    sample S' (srcs.map ((k.relabel e).source k.stype Exch.tsign)) s' ((k.relabel e).receiver k.stype r) t =
      Exch.tsign r.ty * sample S srcs s r t := by
  obtain ⟨R', R, hf⟩ := hS.facts h hs
  have h0 : (k.relabel e).States R s' s := by
    intro f row hrow
    obtain ⟨z1, z2, z3⟩ := hf.zero f row hrow
    refine ⟨fun i => ?_, fun a t ht i => ?_⟩
    · change s' (.fld (k.fld f)) i = _
      rw [hs' _ (List.mem_append_left _ z2), hs0 _ (List.mem_append_left _ z1)]
      simp
    · obtain ⟨z4, z5⟩ := z3 a t ht
      change s' (.psi (k.fld t.src) (k.axis a)) i = _
      rw [hs' _ (List.mem_append_right _ z5), hs0 _ (List.mem_append_right _ z4)]
      simp
  exact Relabel.gather_eq (hf.recv r.ty hr) (Relabel.run_eq hf.schemes hf.staggered hf.closed (k.pmls e c)
    hf.step' hf.step (fun q hm f row hrow => hf.src q.ty (fun hk => hq hk q hm) f row hrow) h0 (t + 1))

/-! ### Regular grids -/

/-- The points of the exchanged grid. -/
def ptXZ (NX NY NZ : ℕ) : Pt NZ NY NX ≃ Pt NX NY NZ where
  toFun p := (p.2.2, p.2.1, p.1)
  invFun p := (p.2.2, p.2.1, p.1)
  left_inv _ := rfl
  right_inv _ := rfl

/-- The points of the exchanged grid. -/
def ptXY (NX NY NZ : ℕ) : Pt NY NX NZ ≃ Pt NX NY NZ where
  toFun p := (p.2.1, p.1, p.2.2)
  invFun p := (p.2.1, p.1, p.2.2)
  left_inv _ := rfl
  right_inv _ := rfl

end Verif.Solver
