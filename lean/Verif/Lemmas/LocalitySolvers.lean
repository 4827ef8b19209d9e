import Verif.Lemmas.Locality
/-!
# How far a time step of each solver looks
-/
set_option linter.dupNamespace false
set_option linter.unusedSectionVars false

namespace Verif.Solver
open Matrix

variable {ι ι' : Type} [Fintype ι] [Fintype ι']

/-! ### Two simulations that agree on a region

`φ` embeds the points of the first grid in the second one, `R` are the points of the first grid
where the settings agree. -/

/-- Values that agree on the region. -/
def OnRegion (φ : ι' → ι) (R : ι' → Prop) {α : Type} (w' : ι' → α) (w : ι → α) : Prop :=
  ∀ i, R i → w' i = w (φ i)

/-- Seismic models that agree on the region. -/
structure Mod.Same (φ : ι' → ι) (R : ι' → Prop) (m' : Mod ι') (m : Mod ι) : Prop where
  invRho : OnRegion φ R m'.invRho m.invRho
  invRhoX : OnRegion φ R m'.invRhoX m.invRhoX
  invRhoY : OnRegion φ R m'.invRhoY m.invRhoY
  invRhoZ : OnRegion φ R m'.invRhoZ m.invRhoZ
  pMod : OnRegion φ R m'.pMod m.pMod
  sMod : OnRegion φ R m'.sMod m.sMod
  sModXY : OnRegion φ R m'.sModXY m.sModXY
  sModXZ : OnRegion φ R m'.sModXZ m.sModXZ
  sModYZ : OnRegion φ R m'.sModYZ m.sModYZ
  tauP : OnRegion φ R m'.tauP m.tauP
  tauS : OnRegion φ R m'.tauS m.tauS
  tauSXY : OnRegion φ R m'.tauSXY m.tauSXY
  tauSXZ : OnRegion φ R m'.tauSXZ m.tauSXZ
  tauSYZ : OnRegion φ R m'.tauSYZ m.tauSYZ
  L : m'.L = m.L
  relaxTime : m'.relaxTime = m.relaxTime
  DT : m'.DT = m.DT

/-- Electromagnetic models that agree on the region. -/
structure EMod.Same (φ : ι' → ι) (R : ι' → Prop) (m' : EMod ι') (m : EMod ι) : Prop where
  invMuXY : OnRegion φ R m'.invMuXY m.invMuXY
  invMuXZ : OnRegion φ R m'.invMuXZ m.invMuXZ
  invMuYZ : OnRegion φ R m'.invMuYZ m.invMuYZ
  eps : ∀ a, OnRegion φ R (m'.eps a) (m.eps a)
  sig : ∀ a, OnRegion φ R (m'.sig a) (m.sig a)
  tauEps : ∀ a, OnRegion φ R (m'.tauEps a) (m.tauEps a)
  tauSig : ∀ a, OnRegion φ R (m'.tauSig a) (m.tauSig a)
  epsVac : m'.epsVac = m.epsVac
  L : m'.L = m.L
  relaxTime : m'.relaxTime = m.relaxTime
  DT : m'.DT = m.DT

/-- CPML coefficients that agree on the region. -/
structure PML.Same (φ : ι' → ι) (R : ι' → Prop) (q' : PML ι') (q : PML ι) : Prop where
  a : ∀ ax, OnRegion φ R (q'.a ax) (q.a ax)
  b : ∀ ax, OnRegion φ R (q'.b ax) (q.b ax)
  aHalf : ∀ ax, OnRegion φ R (q'.aHalf ax) (q.aHalf ax)
  bHalf : ∀ ax, OnRegion φ R (q'.bHalf ax) (q.bHalf ax)

/-- The factor by which the damping boundary multiplies the wavefields at a point. -/
def BC.factor (c : BC ι) (i : ι) : ℝ := (c.damping.getD fun _ => 1) i

/-- Boundary settings that agree on the region: the same free surface, the same damping factor
(1 if there is no damping boundary), the same CPML coefficients. -/
structure BC.Same (φ : ι' → ι) (R : ι' → Prop) (c' : BC ι') (c : BC ι) : Prop where
  useFreeSurface : c'.useFreeSurface = c.useFreeSurface
  damping : OnRegion φ R c'.factor c.factor
  pml : match c'.pml, c.pml with
    | none, none => True
    | some q', some q => PML.Same φ R q' q
    | _, _ => False
  onSurface : OnRegion φ R c'.onSurface c.onSurface

/-- The same forward solver on two grids with models that agree on the region. -/
inductive Pair (φ : ι' → ι) (R : ι' → Prop) (D' : Deriv ι') (D : Deriv ι) (c' : BC ι') (c : BC ι) :
    Solver ι' → Solver ι → Prop
  | acoustic2D {m' m} (h : Mod.Same φ R m' m) :
      Pair φ R D' D c' c (acoustic2DSolver D' m' c') (acoustic2DSolver D m c)
  | acoustic3D {m' m} (h : Mod.Same φ R m' m) :
      Pair φ R D' D c' c (acoustic3DSolver D' m' c') (acoustic3DSolver D m c)
  | elastic2D {m' m} (h : Mod.Same φ R m' m) :
      Pair φ R D' D c' c (elastic2DSolver D' m' c') (elastic2DSolver D m c)
  | elastic3D {m' m} (h : Mod.Same φ R m' m) :
      Pair φ R D' D c' c (elastic3DSolver D' m' c') (elastic3DSolver D m c)
  | sh2D {m' m} (h : Mod.Same φ R m' m) :
      Pair φ R D' D c' c (sh2DSolver D' m' c') (sh2DSolver D m c)
  | viscosh2D {m' m} (h : Mod.Same φ R m' m) :
      Pair φ R D' D c' c (viscosh2DSolver D' m' c') (viscosh2DSolver D m c)
  | viscoelastic2D {m' m} (h : Mod.Same φ R m' m) :
      Pair φ R D' D c' c (viscoelastic2DSolver D' m' c') (viscoelastic2DSolver D m c)
  | viscoelastic3D {m' m} (h : Mod.Same φ R m' m) :
      Pair φ R D' D c' c (viscoelastic3DSolver D' m' c') (viscoelastic3DSolver D m c)
  | emem2D {m' m} (h : EMod.Same φ R m' m) :
      Pair φ R D' D c' c (emem2DSolver D' m' c') (emem2DSolver D m c)
  | tmem2D {m' m} (h : EMod.Same φ R m' m) :
      Pair φ R D' D c' c (tmem2DSolver D' m' c') (tmem2DSolver D m c)
  | viscoemem2D {m' m} (h : EMod.Same φ R m' m) :
      Pair φ R D' D c' c (viscoemem2DSolver D' m' c') (viscoemem2DSolver D m c)
  | viscotmem2D {m' m} (h : EMod.Same φ R m' m) :
      Pair φ R D' D c' c (viscotmem2DSolver D' m' c') (viscotmem2DSolver D m c)
  | emem3D {m' m} (h : EMod.Same φ R m' m) :
      Pair φ R D' D c' c (emem3DSolver D' m' c') (emem3DSolver D m c)
  | viscoemem3D {m' m} (h : EMod.Same φ R m' m) :
      Pair φ R D' D c' c (viscoemem3DSolver D' m' c') (viscoemem3DSolver D m c)

/-- Derivative matrices without interpolation that look at most one region further; those of the
free surface matter only if there is one. -/
structure Deriv.Loc (F : Emb ι' ι) (fs : ℕ) (D' : Deriv ι') (D : Deriv ι) : Prop where
  Dxf : MatLoc F .x true D'.Dxf D.Dxf
  Dxb : MatLoc F .x false D'.Dxb D.Dxb
  Dyf : MatLoc F .y true D'.Dyf D.Dyf
  Dyb : MatLoc F .y false D'.Dyb D.Dyb
  Dzf : MatLoc F .z true D'.Dzf D.Dzf
  Dzb : MatLoc F .z false D'.Dzb D.Dzb
  DyfFS : fs = 1 → MatLoc F .y true D'.DyfFS D.DyfFS
  DybFS : fs = 1 → MatLoc F .y false D'.DybFS D.DybFS
  DyfSX : MatLoc F .y true D'.DyfSX D.DyfSX
  DybSX : MatLoc F .y false D'.DybSX D.DybSX
  DyfSZ : MatLoc F .y true D'.DyfSZ D.DyfSZ
  DybSZ : MatLoc F .y false D'.DybSZ D.DybSZ
  DybSXFS : fs = 1 → MatLoc F .y false D'.DybSXFS D.DybSXFS
  DybSZFS : fs = 1 → MatLoc F .y false D'.DybSZFS D.DybSZFS
  inter' : D'.interFull = none ∧ D'.interSX = none ∧ D'.interSZ = none ∧ D'.interSXZ = none
  inter : D.interFull = none ∧ D.interSX = none ∧ D.interSZ = none ∧ D.interSXZ = none

/-! ### Segments of programs -/

variable {F : Emb ι' ι} {W : List Fld} {e e' : Env}

theorem Env.put_self {s : Scr} {π : Pos} (h : e s = some π) : e.put s π = e := by
  funext t
  by_cases ht : t = s
  · subst ht
    simp [Env.put, h]
  · simp [Env.put, ht]

theorem Env.drop_le {s : Scr} (t : Scr) (π : Pos) (h : (e.drop s) t = some π) : e t = some π := by
  by_cases ht : t = s
  · simp [Env.drop, ht] at h
  · simpa [Env.drop, ht] using h

theorem Env.drop_put {s : Scr} {ρ : Pos} (t : Scr) (π : Pos) (h : (e.drop s) t = some π) :
    ((e.drop s).put s ρ) t = some π := by
  by_cases ht : t = s
  · simp [Env.drop, ht] at h
  · simpa [Env.drop, Env.put, ht] using h

section boundary
variable {c' : BC ι'} {c : BC ι} (h : BC.Same F.φ F.R c' c)
include h

theorem tr_cpmlHalf {s : Scr} (f : Fld) (ax : Axis) (hd : e s = some ((fldPos f).toggle ax)) :
    Tr F W e (cpmlHalf c' (.scr s) f ax) (cpmlHalf c (.scr s) f ax) e := by
  have hp := h.pml
  unfold cpmlHalf
  rcases hq' : c'.pml with _ | q' <;> rcases hq : c.pml with _ | q <;> rw [hq', hq] at hp
  · exact .nil
  · exact hp.elim
  · exact hp.elim
  · refine .cpml (hp.aHalf ax) (hp.bHalf ax) hd rfl trivial rfl rfl ?_
    rw [Env.out, Env.put_self hd]
    exact .nil

theorem tr_cpmlFull {s : Scr} (f : Fld) (ax : Axis) (hd : e s = some ((fldPos f).toggle ax)) :
    Tr F W e (cpmlFull c' (.scr s) f ax) (cpmlFull c (.scr s) f ax) e := by
  have hp := h.pml
  unfold cpmlFull
  rcases hq' : c'.pml with _ | q' <;> rcases hq : c.pml with _ | q <;> rw [hq', hq] at hp
  · exact .nil
  · exact hp.elim
  · exact hp.elim
  · refine .cpml (hp.a ax) (hp.b ax) hd rfl trivial rfl rfl ?_
    rw [Env.out, Env.put_self hd]
    exact .nil

theorem tr_damp (fs : List Fld) : Tr F [] e (damp c' fs) (damp c fs) e := by
  have hd := h.damping
  unfold BC.factor at hd
  unfold damp
  rcases hq' : c'.damping with _ | w' <;> rcases hq : c.damping with _ | w <;>
    simp only [hq', hq, Option.getD_none, Option.getD_some] at hd
  · exact .nil
  · induction fs with
    | nil => exact .nil
    | cons f fs ih => exact .scale_right (fun i hi => (hd i hi).symm) ih
  · induction fs with
    | nil => exact .nil
    | cons f fs ih => exact .scale_left (fun i hi => hd i hi) ih
  · induction fs with
    | nil => exact .nil
    | cons f fs ih => exact .scale hd rfl ⟨List.not_mem_nil, rfl⟩ ih

theorem tr_ifFS {p' : List (Stmt ι')} {p : List (Stmt ι)} (hp : Tr F W e p' p e') :
    Tr F W e (ifFS c' p') (ifFS c p) Env.empty := by
  unfold ifFS
  rw [h.useFreeSurface]
  split
  · exact hp.weaken (fun _ _ h => by cases h)
  · exact .done

theorem loc_selFS {ax : Axis} {b : Bool} {D1' D0'} {D1 D0}
    (h1 : c.useFreeSurface = 1 → MatLoc F ax b D1' D1) (h0 : MatLoc F ax b D0' D0) :
    MatLoc F ax b (selFS c' D1' D0') (selFS c D1 D0) := by
  unfold selFS
  rw [h.useFreeSurface]
  split
  · exact h1 ‹_›
  · exact h0

theorem loc_setZero : VecLoc F c'.setZero c.setZero := fun i hi => by
  simp only [BC.setZero, h.onSurface i hi]

theorem loc_select : VecLoc F c'.select c.select := fun i hi => by
  simp only [BC.select, h.onSurface i hi]

end boundary

theorem tr_interp {D' : Option (Matrix ι' ι' ℝ)} {D : Option (Matrix ι ι ℝ)} (h' : D' = none)
    (h : D = none) (f : Fld) : Tr F W e (interp D' f) (interp D f) e := by
  subst h' h
  exact .nil

/-- Side conditions of the statement rules. -/
macro "dest" : tactic => `(tactic| first
  | exact trivial
  | exact ⟨by decide, rfl⟩
  | exact rfl
  | exact ⟨by assumption, by assumption⟩
  | exact ⟨by assumption, rfl⟩)

section seismic
variable {m' : Mod ι'} {m : Mod ι} (hm : Mod.Same F.φ F.R m' m)
include hm

theorem loc_vc1 (l : ℕ) : m'.vc1 l = m.vc1 l := by simp [Mod.vc1, hm.DT, hm.relaxTime]
theorem loc_vc2 (l : ℕ) : m'.vc2 l = m.vc2 l := by simp [Mod.vc2, hm.DT, hm.relaxTime]
theorem loc_invRelax (l : ℕ) : m'.invRelax l = m.invRelax l := by
  simp [Mod.invRelax, hm.relaxTime]
theorem loc_DThalf : m'.DThalf = m.DThalf := by simp [Mod.DThalf, hm.DT]
theorem loc_onePlusLtauP : VecLoc F m'.onePlusLtauP m.onePlusLtauP := fun i hi => by
  simp only [Mod.onePlusLtauP, hm.L, hm.tauP i hi]
theorem loc_onePlusLtauS : VecLoc F m'.onePlusLtauS m.onePlusLtauS := fun i hi => by
  simp only [Mod.onePlusLtauS, hm.L, hm.tauS i hi]

theorem tr_relaxShear {f : Fld} {tau' : ι' → ℝ} {tau : ι → ℝ} (ht : VecLoc F tau' tau)
    (hU : e .update = some (fldPos f)) (hf : f ∉ W) :
    Tr F W e (relaxShear m' f tau') (relaxShear m f tau) (e.drop .update2) := by
  have hU' : (e.drop .update2) .update = some (fldPos f) := hU
  unfold relaxShear
  refine Tr.append (Tr.pre (Tr.forLoop (e := e.drop .update2) hm.L fun l _ => Tr.weaken ?_
    (Env.drop_put (ρ := fldPos f))) Env.drop_le) ?_
  · refine .axpy (π := fldPos f) (loc_DThalf hm) rfl rfl (by dest) ?_
    refine .smul (π := fldPos f) (loc_vc1 hm l) rfl (by dest) ?_
    refine .cmul (π := fldPos f) (loc_invRelax hm l) hU' (by dest) ?_
    refine .scale (π := fldPos f) ht rfl (by dest) ?_
    refine .sub (π := fldPos f) rfl rfl (by dest) ?_
    refine .smul (π := fldPos f) (loc_vc2 hm l) rfl (by dest) ?_
    refine .axpy (π := fldPos f) (loc_DThalf hm) rfl rfl (by dest) ?_
    simp only [Env.out]
    rw [Env.put_self (e := (e.drop _).put _ _) (by rfl)]
    exact .nil
  · refine .scale (π := fldPos f) (loc_onePlusLtauS hm) hU' (by dest) ?_
    refine .add (π := fldPos f) rfl rfl (by dest) ?_
    simp only [Env.out]
    rw [Env.put_self hU']
    exact .nil

theorem tr_add_all {s : Scr} {π : Pos} (hs : e s = some π) (fs : List Fld)
    (hf : ∀ f ∈ fs, f ∉ W ∧ fldPos f = π) :
    Tr F W e (fs.map fun f => .add (.fld f) (.scr s)) (fs.map fun f => .add (.fld f) (.scr s)) e := by
  induction fs with
  | nil => exact .nil
  | cons f fs ih =>
    have h := hf f List.mem_cons_self
    exact .add (π := π) hs (congrArg some h.2) h (ih fun g hg => hf g (List.mem_cons_of_mem _ hg))

theorem tr_sub_all {s : Scr} {π : Pos} (hs : e s = some π) (fs : List Fld)
    (hf : ∀ f ∈ fs, f ∉ W ∧ fldPos f = π) :
    Tr F W e (fs.map fun f => .sub (.fld f) (.scr s)) (fs.map fun f => .sub (.fld f) (.scr s)) e := by
  induction fs with
  | nil => exact .nil
  | cons f fs ih =>
    have h := hf f List.mem_cons_self
    exact .sub (π := π) hs (congrArg some h.2) h (ih fun g hg => hf g (List.mem_cons_of_mem _ hg))

theorem tr_add_rel {s : Scr} {π : Pos} (hs : e s = some π) (fs : List Fld) (l : ℕ)
    (hf : ∀ f ∈ fs, fldPos f = π) :
    Tr F W e (fs.map fun f => .add (.rel f l) (.scr s)) (fs.map fun f => .add (.rel f l) (.scr s)) e := by
  induction fs with
  | nil => exact .nil
  | cons f fs ih =>
    have h := hf f List.mem_cons_self
    exact .add (π := π) hs (congrArg some h) h (ih fun g hg => hf g (List.mem_cons_of_mem _ hg))

theorem tr_sub_rel {s : Scr} {π : Pos} (hs : e s = some π) (fs : List Fld) (l : ℕ)
    (hf : ∀ f ∈ fs, fldPos f = π) :
    Tr F W e (fs.map fun f => .sub (.rel f l) (.scr s)) (fs.map fun f => .sub (.rel f l) (.scr s)) e := by
  induction fs with
  | nil => exact .nil
  | cons f fs ih =>
    have h := hf f List.mem_cons_self
    exact .sub (π := π) hs (congrArg some h) h (ih fun g hg => hf g (List.mem_cons_of_mem _ hg))

theorem tr_relaxNormal {π : Pos} (fs : List Fld) (hU : e .update = some π)
    (hf : ∀ f ∈ fs, f ∉ W ∧ fldPos f = π) :
    Tr F W e (relaxNormal m' fs) (relaxNormal m fs) (e.drop .update2) := by
  have hU' : (e.drop .update2) .update = some π := hU
  unfold relaxNormal
  refine Tr.append (Tr.append (Tr.pre (Tr.forLoop (e := e.drop .update2) hm.L fun l _ => Tr.weaken
    (Tr.append (e' := (e.drop .update2).put .update2 π) ?_ (Tr.flatMap _ fun f hfs => ?_))
    Env.drop_put) Env.drop_le) (e' := e.drop .update2) ?_) (tr_add_all hm hU' fs hf)
  · refine .cmul (π := π) (loc_invRelax hm l) hU' (by dest) ?_
    refine .scale (π := π) hm.tauP rfl (by dest) ?_
    simp only [Env.out]
    rw [Env.put_self (e := (e.drop _).put _ _) (by rfl)]
    exact .nil
  · have h := hf f hfs
    have hk : ∀ e : Env, e.look (.fld f) = some π := fun _ => congrArg some h.2
    have hk' : ∀ e : Env, e.look (.rel f l) = some π := fun _ => congrArg some h.2
    refine .axpy (π := π) (loc_DThalf hm) (hk' _) (hk _) h ?_
    refine .smul (π := π) (loc_vc1 hm l) (hk' _) h.2 ?_
    exact .sub (π := π) rfl (hk' _) h.2 .nil
  · refine .scale (π := π) (loc_onePlusLtauP hm) hU' (by dest) ?_
    rw [Env.out, Env.put_self hU']
    exact .nil

theorem tr_relaxTrans {f : Fld} (hU : e .update = some (fldPos f)) (hf : f ∉ W) :
    Tr F W e (relaxTrans m' f) (relaxTrans m f) (e.drop .update2) := by
  have hU' : (e.drop .update2) .update = some (fldPos f) := hU
  unfold relaxTrans
  refine Tr.append (Tr.append (e' := e) ?_ (Tr.pre (Tr.forLoop (e := e.drop .update2) hm.L fun l _ =>
    Tr.weaken ?_ (Env.drop_put (ρ := fldPos f))) Env.drop_le)) ?_
  · refine .scale (π := fldPos f) hm.sMod hU (by dest) ?_
    refine .smul (π := fldPos f) rfl rfl (by dest) ?_
    simp only [Env.out]
    rw [Env.put_self hU, Env.put_self hU]
    exact .nil
  · refine .cmul (π := fldPos f) (loc_invRelax hm l) hU' (by dest) ?_
    refine .scale (π := fldPos f) hm.tauS rfl (by dest) ?_
    refine .add (π := fldPos f) rfl rfl (by dest) ?_
    refine .smul (π := fldPos f) (loc_vc2 hm l) rfl (by dest) ?_
    refine .axpy (π := fldPos f) (loc_DThalf hm) rfl rfl (by dest) ?_
    simp only [Env.out]
    rw [Env.put_self (e := (e.drop _).put _ _) (by rfl)]
    exact .nil
  · refine .scale (π := fldPos f) (loc_onePlusLtauS hm) hU' (by dest) ?_
    refine .sub (π := fldPos f) rfl rfl (by dest) ?_
    simp only [Env.out]
    rw [Env.put_self hU']
    exact .nil

variable {c' : BC ι'} {c : BC ι} (hc : BC.Same F.φ F.R c' c)
include hc

theorem loc_scaleHor : VecLoc F (scaleHor m' c') (scaleHor m c) := fun i hi => by
  simp only [scaleHor, loc_select hc i hi, hm.pMod i hi, hm.sMod i hi]

theorem loc_scaleVert : VecLoc F (scaleVert m' c') (scaleVert m c) := fun i hi => by
  simp only [scaleVert, loc_select hc i hi, hm.pMod i hi, hm.sMod i hi]

theorem tr_exchangeVisco {π : Pos} {fs : List Fld} {v : Var} (hv : (e.drop .temp).look v = some π)
    (hy : (e.drop .temp).look Vyy = some π) (hf : ∀ f ∈ fs, f ∉ W ∧ fldPos f = π) :
    Tr F W e (exchangeVisco m' c' fs v) (exchangeVisco m c fs v) (e.drop .temp) := by
  have h1 : VecLoc F (scaleStressHor m' c') (scaleStressHor m c) := fun i hi => by
    simp only [scaleStressHor, loc_select hc i hi, hm.pMod i hi, hm.sMod i hi,
      loc_onePlusLtauS hm i hi, loc_onePlusLtauP hm i hi]
  have h2 : VecLoc F (scaleStressVert m' c') (scaleStressVert m c) := fun i hi => by
    simp only [scaleStressVert, loc_select hc i hi, hm.pMod i hi, hm.sMod i hi,
      loc_onePlusLtauS hm i hi, loc_onePlusLtauP hm i hi]
  have h3 : ∀ l, VecLoc F (scaleRelHor m' c' l) (scaleRelHor m c l) := fun l i hi => by
    simp only [scaleRelHor, loc_select hc i hi, hm.pMod i hi, hm.sMod i hi, hm.tauP i hi,
      hm.tauS i hi, loc_onePlusLtauS hm i hi, loc_onePlusLtauP hm i hi, loc_vc2 hm, hm.relaxTime]
  have h4 : ∀ l, VecLoc F (scaleRelVert m' c' l) (scaleRelVert m c l) := fun l i hi => by
    simp only [scaleRelVert, loc_select hc i hi, hm.pMod i hi, hm.sMod i hi, hm.tauP i hi,
      hm.tauS i hi, loc_vc2 hm, hm.relaxTime]
  have hD := loc_DThalf hm
  have ht : ((e.drop .temp).put .temp π) .temp = some π := rfl
  have hone : ∀ {w' : ι' → ℝ} {w : ι → ℝ} {u : Var}, VecLoc F w' w → (e.drop .temp).look u = some π →
      Tr F W (e.drop .temp) [.wmul TMP w' u] [.wmul TMP w u] ((e.drop .temp).put .temp π) :=
    fun hw hu => .wmul (π := π) hw hu trivial .nil
  have htwo : ∀ {w' : ι' → ℝ} {w : ι → ℝ} {u : Var}, VecLoc F w' w → (e.drop .temp).look u = some π →
      Tr F W ((e.drop .temp).put .temp π) [.wmul TMP w' u] [.wmul TMP w u]
        ((e.drop .temp).put .temp π) :=
    fun hw hu => (hone hw hu).pre Env.drop_put
  have hsel : ∀ {a' a : ℝ} (l : ℕ), a' = a → Tr F W (e.drop .temp)
      (fs.flatMap fun f => [.wmul TMP c'.select (.rel f l), .axpy (.fld f) a' TMP])
      (fs.flatMap fun f => [.wmul TMP c.select (.rel f l), .axpy (.fld f) a TMP]) (e.drop .temp) := by
    intro a' a l ha
    refine Tr.flatMap _ fun f hfs => ?_
    have h := hf f hfs
    have hk : ∀ e : Env, e.look (.fld f) = some π := fun _ => congrArg some h.2
    have hk' : ∀ e : Env, e.look (.rel f l) = some π := fun _ => congrArg some h.2
    exact Tr.weaken (.wmul (π := π) (loc_select hc) (hk' _) trivial
      (.axpy (π := π) ha rfl (hk _) h .nil)) Env.drop_put
  unfold exchangeVisco
  refine Tr.append ?_ (Tr.forLoop hm.L fun l _ => ?_)
  · refine Tr.weaken ?_ (Env.drop_put (ρ := π))
    refine ((((Tr.pre (Tr.forLoop (e := e.drop .temp) hm.L fun l _ => ?_) Env.drop_le).append
      (hone h1 hv)).append (tr_add_all hm ht fs hf)).append (htwo h2 hy)).append
      (tr_sub_all hm ht fs hf)
    exact hsel l (by rw [hD])
  · refine Tr.append ?_ (hsel l hD)
    refine Tr.weaken ?_ (Env.drop_put (ρ := π))
    exact (((hone (h3 l) hv).append (tr_add_rel hm ht fs l fun f h => (hf f h).2)).append
      (htwo (h4 l) hy)).append (tr_sub_rel hm ht fs l fun f h => (hf f h).2)

end seismic

section em
variable {m' : EMod ι'} {m : EMod ι} (hm : EMod.Same F.φ F.R m' m)
include hm

theorem loc_ca (a : Axis) : VecLoc F (m'.ca a) (m.ca a) := fun i hi => by
  simp only [EMod.ca, hm.eps a i hi, hm.sig a i hi, hm.DT]
theorem loc_cb (a : Axis) : VecLoc F (m'.cb a) (m.cb a) := fun i hi => by
  simp only [EMod.cb, hm.eps a i hi, hm.sig a i hi, hm.DT]
theorem loc_sigEff (a : Axis) : VecLoc F (m'.sigEff a) (m.sigEff a) := fun i hi => by
  simp only [EMod.sigEff, hm.eps a i hi, hm.sig a i hi, hm.tauEps a i hi, hm.L, hm.relaxTime]
theorem loc_epsEff (a : Axis) : VecLoc F (m'.epsEff a) (m.epsEff a) := fun i hi => by
  simp only [EMod.epsEff, hm.eps a i hi, hm.sig a i hi, hm.tauEps a i hi, hm.tauSig a i hi,
    hm.epsVac]
theorem loc_caV (a : Axis) : VecLoc F (m'.caV a) (m.caV a) := fun i hi => by
  simp only [EMod.caV, loc_epsEff hm a i hi, loc_sigEff hm a i hi, hm.DT]
theorem loc_cbV (a : Axis) : VecLoc F (m'.cbV a) (m.cbV a) := fun i hi => by
  simp only [EMod.cbV, loc_epsEff hm a i hi, loc_sigEff hm a i hi, hm.DT]
theorem loc_cc (l : ℕ) : m'.cc l = m.cc l := by simp only [EMod.cc, hm.DT, hm.relaxTime]
theorem loc_cd (a : Axis) (l : ℕ) : VecLoc F (m'.cd a l) (m.cd a l) := fun i hi => by
  simp only [EMod.cd, hm.eps a i hi, hm.tauEps a i hi, hm.L, hm.relaxTime, hm.DT]

theorem tr_rUpdate (f : Fld) (a : Axis) (l : ℕ) :
    Tr F W e (rUpdate m' f a l) (rUpdate m f a l)
      ((e.put .update (fldPos f)).put .updateTemp (fldPos f)) := by
  unfold rUpdate
  refine .cmul (π := fldPos f) (loc_cc hm l) rfl trivial ?_
  refine .wmul (π := fldPos f) (loc_cd hm a l) rfl trivial ?_
  exact .sum (π := fldPos f) rfl rfl rfl .nil

theorem tr_rSubtract {f : Fld} (hU : e .update = some (fldPos f)) :
    Tr F W e (rSubtract m' f) (rSubtract m f) e := by
  refine Tr.forLoop hm.L fun l _ => ?_
  refine .axpy (π := fldPos f) (by rw [hm.DT]) rfl hU trivial ?_
  rw [Env.out, Env.put_self hU]
  exact .nil

end em

theorem tr_eUpdate {f : Fld} {ca' cb' : ι' → ℝ} {ca cb : ι → ℝ} (h1 : VecLoc F ca' ca)
    (h2 : VecLoc F cb' cb) (hU : e .update = some (fldPos f)) (hf : f ∉ W) :
    Tr F W e (eUpdate f ca' cb') (eUpdate f ca cb)
      ((e.put .update (fldPos f)).put .updateTemp (fldPos f)) := by
  unfold eUpdate
  refine .scale (π := fldPos f) h2 hU trivial ?_
  refine .wmul (π := fldPos f) h1 rfl trivial ?_
  exact .sum (π := fldPos f) rfl rfl ⟨hf, rfl⟩ .nil

theorem OnRegion.vec {w' : ι' → ℝ} {w : ι → ℝ} (h : OnRegion F.φ F.R w' w) : VecLoc F w' w := h

theorem Tr.axpy_same {p' : List (Stmt ι')} {p : List (Stmt ι)} {π : Pos} {d a : Var} {c : ℝ}
    {e'' : Env} (ha : Known e a π) (hb : Known e d π) (hd : Dest W d π)
    (hr : Tr F W (e.out d π) p' p e'') :
    Tr F W e (.axpy d c a :: p') (.axpy d c a :: p) e'' := .axpy rfl ha hb hd hr

theorem Tr.loop_empty {L' L : ℕ} (hL : L' = L) {f' : ℕ → List (Stmt ι')} {f : ℕ → List (Stmt ι)}
    {g : ℕ → Env} (h : ∀ l, Tr F W Env.empty (f' l) (f l) (g l)) :
    Tr F W e (Verif.Solver.forLoop L' f') (Verif.Solver.forLoop L f) Env.empty :=
  Tr.pre (Tr.forLoop hL fun l _ => (h l).weaken fun _ _ h => by cases h) fun _ _ h => by cases h

/-- Derivative matrices. -/
macro "trmat" hD:ident hc:ident : tactic => `(tactic|
  repeat' first
    | with_reducible apply loc_selFS $hc
    | with_reducible exact ($hD).Dxf
    | with_reducible exact ($hD).Dxb
    | with_reducible exact ($hD).Dyf
    | with_reducible exact ($hD).Dyb
    | with_reducible exact ($hD).Dzf
    | with_reducible exact ($hD).Dzb
    | with_reducible exact ($hD).DyfSX
    | with_reducible exact ($hD).DybSX
    | with_reducible exact ($hD).DyfSZ
    | with_reducible exact ($hD).DybSZ
    | with_reducible exact ($hD).DyfFS
    | with_reducible exact ($hD).DybFS
    | with_reducible exact ($hD).DybSXFS
    | with_reducible exact ($hD).DybSZFS)

/-- Walk through two programs. -/
macro "tr" hD:ident hc:ident hm:ident : tactic => `(tactic|
  repeat' first
    | with_reducible exact Tr.nil
    | with_reducible exact Tr.fnil
    | with_reducible apply Tr.fseg
    | ((with_reducible apply Tr.mul) <;> [(trmat $hD $hc; done); decide; exact rfl; dest; skip; skip; skip])
    | ((with_reducible apply Tr.add) <;> [exact rfl; exact rfl; dest; skip; skip])
    | ((with_reducible apply Tr.sub) <;> [exact rfl; exact rfl; dest; skip; skip])
    | ((with_reducible apply Tr.axpy_same) <;> [exact rfl; exact rfl; dest; skip; skip])
    | ((with_reducible apply Tr.sum) <;> [exact rfl; exact rfl; dest; skip; skip])
    | ((with_reducible apply Tr.diff) <;> [exact rfl; exact rfl; dest; skip; skip])
    | ((with_reducible apply Tr.copy) <;> [exact rfl; dest; skip; skip])
    | ((with_reducible apply Tr.neg) <;> [exact rfl; dest; skip; skip])
    | ((with_reducible apply Tr.scale) <;> [skip; exact rfl; dest; skip; skip])
    | ((with_reducible apply Tr.wmul) <;> [skip; exact rfl; dest; skip; skip])
    | ((with_reducible refine tr_cpmlHalf $hc _ _ ?_) <;> exact rfl)
    | ((with_reducible refine tr_cpmlFull $hc _ _ ?_) <;> exact rfl)
    | with_reducible exact OnRegion.vec ($hm).invRho
    | with_reducible exact OnRegion.vec ($hm).invRhoX
    | with_reducible exact OnRegion.vec ($hm).invRhoY
    | with_reducible exact OnRegion.vec ($hm).invRhoZ
    | with_reducible exact OnRegion.vec ($hm).pMod
    | with_reducible exact OnRegion.vec ($hm).sMod
    | with_reducible exact OnRegion.vec ($hm).sModXY
    | with_reducible exact OnRegion.vec ($hm).sModXZ
    | with_reducible exact OnRegion.vec ($hm).sModYZ
    | with_reducible exact OnRegion.vec ($hm).invMuXY
    | with_reducible exact OnRegion.vec ($hm).invMuXZ
    | with_reducible exact OnRegion.vec ($hm).invMuYZ
    | with_reducible exact loc_setZero $hc
    | with_reducible exact loc_scaleHor $hm $hc
    | with_reducible exact loc_scaleVert $hm $hc
    | with_reducible exact loc_ca $hm _
    | with_reducible exact loc_cb $hm _
    | with_reducible exact tr_damp $hc _
    | with_reducible exact tr_interp ($hD).inter'.1 ($hD).inter.1 _
    | with_reducible exact tr_interp ($hD).inter'.2.1 ($hD).inter.2.1 _
    | with_reducible exact tr_interp ($hD).inter'.2.2.1 ($hD).inter.2.2.1 _
    | with_reducible exact tr_interp ($hD).inter'.2.2.2 ($hD).inter.2.2.2 _
    | ((with_reducible refine tr_relaxShear $hm (OnRegion.vec ($hm).tauSXY) ?_ ?_) <;> [exact rfl; decide])
    | ((with_reducible refine tr_relaxShear $hm (OnRegion.vec ($hm).tauSXZ) ?_ ?_) <;> [exact rfl; decide])
    | ((with_reducible refine tr_relaxShear $hm (OnRegion.vec ($hm).tauSYZ) ?_ ?_) <;> [exact rfl; decide])
    | ((with_reducible apply tr_relaxNormal $hm) <;> [exact rfl; decide; skip])
    | ((with_reducible refine tr_relaxTrans $hm ?_ ?_) <;> [exact rfl; decide])
    | ((with_reducible apply tr_exchangeVisco $hm $hc) <;> [exact rfl; exact rfl; decide; skip])
    | with_reducible exact tr_rUpdate $hm _ _ _
    | ((with_reducible refine tr_rSubtract $hm ?_) <;> exact rfl)
    | ((with_reducible refine tr_eUpdate (loc_ca $hm _) (loc_cb $hm _) ?_ ?_) <;> [exact rfl; decide])
    | ((with_reducible refine tr_eUpdate (loc_caV $hm _) (loc_cbV $hm _) ?_ ?_) <;> [exact rfl; decide])
    | with_reducible apply tr_ifFS $hc
    | (with_reducible apply Tr.loop_empty ($hm).L; intro _)
    | with_reducible apply Tr.append
    | unfold surfaceZero
    | unfold exchange2D
    | unfold exchange3D)

theorem flatten_three {α : Type} (a b : ℕ) (l : List (List α)) :
    l.flatten = (l.take a).flatten ++ (((l.drop a).take b).flatten ++ ((l.drop a).drop b).flatten) := by
  rw [← List.flatten_append, ← List.flatten_append, List.take_append_drop, List.take_append_drop]

/-- Programs whose segments form two stages. -/
theorem step_of {segs' : List (List (Stmt ι'))} {segs : List (List (Stmt ι))} (a b : ℕ)
    (W1 W2 : List Fld)
    (h1 : Tr F W1 Env.empty (segs'.take a).flatten (segs.take a).flatten Env.empty)
    (h2 : Tr F W2 Env.empty ((segs'.drop a).take b).flatten ((segs.drop a).take b).flatten Env.empty)
    (h3 : Tr F [] Env.empty ((segs'.drop a).drop b).flatten ((segs.drop a).drop b).flatten Env.empty) :
    ∀ (k : ℕ) (s' : State ι') (s : State ι), AgreeOn F k s' s →
      AgreeOn F (k + 2) (exec segs'.flatten s') (exec segs.flatten s) := fun k s' s ha => by
  rw [flatten_three a b segs', flatten_three a b segs]
  exact two_stages h1 h2 h3 ha

/-- A time step moves the region of agreement by two. -/
def StepLoc (F : Emb ι' ι) (p' : List (Stmt ι')) (p : List (Stmt ι)) : Prop :=
  ∀ (k : ℕ) (s' : State ι') (s : State ι), AgreeOn F k s' s →
    AgreeOn F (k + 2) (exec p' s') (exec p s)

theorem tr_magnetic3D {D' : Deriv ι'} {D : Deriv ι} {c' : BC ι'} {c : BC ι}
    (hD : Deriv.Loc F c.useFreeSurface D' D) (hc : BC.Same F.φ F.R c' c) {m' : EMod ι'} {m : EMod ι}
    (hm : EMod.Same F.φ F.R m' m) :
    Tr F [.eX, .eY, .eZ] Env.empty (magnetic3D D' m' c') (magnetic3D D m c) Env.empty := by
  unfold magnetic3D
  tr hD hc hm

theorem step_acoustic2D {D' : Deriv ι'} {D : Deriv ι} {c' : BC ι'} {c : BC ι}
    (hD : Deriv.Loc F c.useFreeSurface D' D) (hc : BC.Same F.φ F.R c' c) {m' : Mod ι'} {m : Mod ι}
    (hm : Mod.Same F.φ F.R m' m) :
    StepLoc F (acoustic2D D' m' c') (acoustic2D D m c) := by
  unfold acoustic2D
  refine step_of 8 5 [.p] [.vX, .vY] ?_ ?_ ?_
  all_goals
    simp only [List.take, List.drop]
    tr hD hc hm

theorem step_acoustic3D {D' : Deriv ι'} {D : Deriv ι} {c' : BC ι'} {c : BC ι}
    (hD : Deriv.Loc F c.useFreeSurface D' D) (hc : BC.Same F.φ F.R c' c) {m' : Mod ι'} {m : Mod ι}
    (hm : Mod.Same F.φ F.R m' m) :
    StepLoc F (acoustic3D D' m' c') (acoustic3D D m c) := by
  unfold acoustic3D
  refine step_of 12 8 [.p] [.vX, .vY, .vZ] ?_ ?_ ?_
  all_goals
    simp only [List.take, List.drop]
    tr hD hc hm

theorem step_elastic2D {D' : Deriv ι'} {D : Deriv ι} {c' : BC ι'} {c : BC ι}
    (hD : Deriv.Loc F c.useFreeSurface D' D) (hc : BC.Same F.φ F.R c' c) {m' : Mod ι'} {m : Mod ι}
    (hm : Mod.Same F.φ F.R m' m) :
    StepLoc F (elastic2D D' m' c') (elastic2D D m c) := by
  unfold elastic2D
  refine step_of 12 13 [.Sxx, .Sxy, .Syy] [.vX, .vY] ?_ ?_ ?_
  all_goals
    simp only [List.take, List.drop]
    tr hD hc hm

theorem step_elastic3D {D' : Deriv ι'} {D : Deriv ι} {c' : BC ι'} {c : BC ι}
    (hD : Deriv.Loc F c.useFreeSurface D' D) (hc : BC.Same F.φ F.R c' c) {m' : Mod ι'} {m : Mod ι}
    (hm : Mod.Same F.φ F.R m' m) :
    StepLoc F (elastic3D D' m' c') (elastic3D D m c) := by
  unfold elastic3D
  refine step_of 24 28 [.Sxx, .Sxy, .Syy, .Sxz, .Syz, .Szz] [.vX, .vY, .vZ] ?_ ?_ ?_
  all_goals
    simp only [List.take, List.drop]
    tr hD hc hm

theorem step_sh2D {D' : Deriv ι'} {D : Deriv ι} {c' : BC ι'} {c : BC ι}
    (hD : Deriv.Loc F c.useFreeSurface D' D) (hc : BC.Same F.φ F.R c' c) {m' : Mod ι'} {m : Mod ι}
    (hm : Mod.Same F.φ F.R m' m) :
    StepLoc F (sh2D D' m' c') (sh2D D m c) := by
  unfold sh2D
  refine step_of 4 6 [.Sxz, .Syz] [.vZ] ?_ ?_ ?_
  all_goals
    simp only [List.take, List.drop]
    tr hD hc hm

theorem step_viscosh2D {D' : Deriv ι'} {D : Deriv ι} {c' : BC ι'} {c : BC ι}
    (hD : Deriv.Loc F c.useFreeSurface D' D) (hc : BC.Same F.φ F.R c' c) {m' : Mod ι'} {m : Mod ι}
    (hm : Mod.Same F.φ F.R m' m) :
    StepLoc F (viscosh2D D' m' c') (viscosh2D D m c) := by
  unfold viscosh2D
  refine step_of 4 8 [.Sxz, .Syz] [.vZ] ?_ ?_ ?_
  all_goals
    simp only [List.take, List.drop]
    tr hD hc hm

theorem step_viscoelastic2D {D' : Deriv ι'} {D : Deriv ι} {c' : BC ι'} {c : BC ι}
    (hD : Deriv.Loc F c.useFreeSurface D' D) (hc : BC.Same F.φ F.R c' c) {m' : Mod ι'} {m : Mod ι}
    (hm : Mod.Same F.φ F.R m' m) :
    StepLoc F (viscoelastic2D D' m' c') (viscoelastic2D D m c) := by
  simp only [viscoelastic2D, hc.useFreeSurface]
  refine step_of 10 16 [.Sxx, .Sxy, .Syy] [.vX, .vY] ?_ ?_ ?_
  · simp only [List.take]
    tr hD hc hm
  · simp only [List.take, List.drop]
    by_cases h0 : c.useFreeSurface ≠ 0
    · simp only [if_pos h0]
      tr hD hc hm
    · simp only [if_neg h0]
      tr hD hc hm
  · simp only [List.drop]
    tr hD hc hm

theorem step_viscoelastic3D {D' : Deriv ι'} {D : Deriv ι} {c' : BC ι'} {c : BC ι}
    (hD : Deriv.Loc F c.useFreeSurface D' D) (hc : BC.Same F.φ F.R c' c) {m' : Mod ι'} {m : Mod ι}
    (hm : Mod.Same F.φ F.R m' m) :
    StepLoc F (viscoelastic3D D' m' c') (viscoelastic3D D m c) := by
  unfold viscoelastic3D
  refine step_of 21 31 [.Sxx, .Sxy, .Syy, .Sxz, .Syz, .Szz] [.vX, .vY, .vZ] ?_ ?_ ?_
  all_goals
    simp only [List.take, List.drop]
    tr hD hc hm

theorem step_emem2D {D' : Deriv ι'} {D : Deriv ι} {c' : BC ι'} {c : BC ι}
    (hD : Deriv.Loc F c.useFreeSurface D' D) (hc : BC.Same F.φ F.R c' c) {m' : EMod ι'} {m : EMod ι}
    (hm : EMod.Same F.φ F.R m' m) :
    StepLoc F (emem2D D' m' c') (emem2D D m c) := by
  unfold emem2D
  refine step_of 4 6 [.eX, .eY] [.hZ] ?_ ?_ ?_
  all_goals
    simp only [List.take, List.drop]
    tr hD hc hm

theorem step_tmem2D {D' : Deriv ι'} {D : Deriv ι} {c' : BC ι'} {c : BC ι}
    (hD : Deriv.Loc F c.useFreeSurface D' D) (hc : BC.Same F.φ F.R c' c) {m' : EMod ι'} {m : EMod ι}
    (hm : EMod.Same F.φ F.R m' m) :
    StepLoc F (tmem2D D' m' c') (tmem2D D m c) := by
  unfold tmem2D
  refine step_of 6 5 [.eZ] [.hX, .hY] ?_ ?_ ?_
  all_goals
    simp only [List.take, List.drop]
    tr hD hc hm

theorem step_viscoemem2D {D' : Deriv ι'} {D : Deriv ι} {c' : BC ι'} {c : BC ι}
    (hD : Deriv.Loc F c.useFreeSurface D' D) (hc : BC.Same F.φ F.R c' c) {m' : EMod ι'} {m : EMod ι}
    (hm : EMod.Same F.φ F.R m' m) :
    StepLoc F (viscoemem2D D' m' c') (viscoemem2D D m c) := by
  unfold viscoemem2D
  refine step_of 4 10 [.eX, .eY] [.hZ] ?_ ?_ ?_
  all_goals
    simp only [List.take, List.drop]
    tr hD hc hm

theorem step_viscotmem2D {D' : Deriv ι'} {D : Deriv ι} {c' : BC ι'} {c : BC ι}
    (hD : Deriv.Loc F c.useFreeSurface D' D) (hc : BC.Same F.φ F.R c' c) {m' : EMod ι'} {m : EMod ι}
    (hm : EMod.Same F.φ F.R m' m) :
    StepLoc F (viscotmem2D D' m' c') (viscotmem2D D m c) := by
  unfold viscotmem2D
  refine step_of 6 7 [.eZ] [.hX, .hY] ?_ ?_ ?_
  all_goals
    simp only [List.take, List.drop]
    tr hD hc hm

theorem step_emem3D {D' : Deriv ι'} {D : Deriv ι} {c' : BC ι'} {c : BC ι}
    (hD : Deriv.Loc F c.useFreeSurface D' D) (hc : BC.Same F.φ F.R c' c) {m' : EMod ι'} {m : EMod ι}
    (hm : EMod.Same F.φ F.R m' m) :
    StepLoc F (emem3D D' m' c') (emem3D D m c) := by
  unfold emem3D
  refine step_of 1 15 [.eX, .eY, .eZ] [.hX, .hY, .hZ] ?_ ?_ ?_
  · simp only [List.take]
    exact Tr.fseg (tr_magnetic3D hD hc hm) .fnil
  all_goals
    simp only [List.take, List.drop]
    tr hD hc hm

theorem step_viscoemem3D {D' : Deriv ι'} {D : Deriv ι} {c' : BC ι'} {c : BC ι}
    (hD : Deriv.Loc F c.useFreeSurface D' D) (hc : BC.Same F.φ F.R c' c) {m' : EMod ι'} {m : EMod ι}
    (hm : EMod.Same F.φ F.R m' m) :
    StepLoc F (viscoemem3D D' m' c') (viscoemem3D D m c) := by
  unfold viscoemem3D
  refine step_of 1 19 [.eX, .eY, .eZ] [.hX, .hY, .hZ] ?_ ?_ ?_
  · simp only [List.take]
    exact Tr.fseg (tr_magnetic3D hD hc hm) .fnil
  all_goals
    simp only [List.take, List.drop]
    tr hD hc hm

theorem pair_step {D' : Deriv ι'} {D : Deriv ι} {c' : BC ι'} {c : BC ι}
    (hD : Deriv.Loc F c.useFreeSurface D' D) (hc : BC.Same F.φ F.R c' c) {S' : Solver ι'}
    {S : Solver ι} (h : Pair F.φ F.R D' D c' c S' S) : StepLoc F S'.prog S.prog := by
  cases h with
  | acoustic2D hm => exact step_acoustic2D hD hc hm
  | acoustic3D hm => exact step_acoustic3D hD hc hm
  | elastic2D hm => exact step_elastic2D hD hc hm
  | elastic3D hm => exact step_elastic3D hD hc hm
  | sh2D hm => exact step_sh2D hD hc hm
  | viscosh2D hm => exact step_viscosh2D hD hc hm
  | viscoelastic2D hm => exact step_viscoelastic2D hD hc hm
  | viscoelastic3D hm => exact step_viscoelastic3D hD hc hm
  | emem2D hm => exact step_emem2D hD hc hm
  | tmem2D hm => exact step_tmem2D hD hc hm
  | viscoemem2D hm => exact step_viscoemem2D hD hc hm
  | viscotmem2D hm => exact step_viscotmem2D hD hc hm
  | emem3D hm => exact step_emem3D hD hc hm
  | viscoemem3D hm => exact step_viscoemem3D hD hc hm

end Verif.Solver
