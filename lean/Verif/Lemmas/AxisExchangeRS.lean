import Verif.Lemmas.AxisExchangeR

/-!
# Exchanging two axes: the attenuating solvers
-/
set_option linter.dupNamespace false
set_option linter.unusedSimpArgs false
set_option linter.unusedTactic false
set_option linter.unreachableTactic false

namespace Verif.Solver
open Matrix Recip
variable {ι ι' : Type} [Fintype ι] [Fintype ι'] [DecidableEq ι] [DecidableEq ι']

/-- Mechanisms of the elastic solvers. -/
theorem Mod.relax_exch {n : ℕ} (k : Exch) (e : ι' ≃ ι) (m : Mod ι) (c : BC ι) {pB : Fin n → Fin n}
    {sB : Fin n → ℝ} {G' : ι' → Matrix (Fin n) (Fin n) ℝ} {G : ι → Matrix (Fin n) (Fin n) ℝ}
    (hG : ∀ i b b', G' i (pB b) (pB b') = sB b * sB b' * G (e i) b b') :
    RelExch (N := m.L) e pB sB ((k.mod e m).relax (k.bc e c) G') (m.relax c G) where
  c _ _ _ := rfl
  Gz _ _ _ := rfl
  Ge l i b b' := by
    simp only [Mod.relax, Matrix.smul_apply, smul_eq_mul, hG]
    have h1 : (k.mod e m).invRelax l = m.invRelax l := rfl
    have h2 : (k.mod e m).vc2 l = m.vc2 l := rfl
    rw [h1, h2]
    ring
  h0 l b i := by
    simp only [Mod.relax, wt_exch]
    rfl
  h1 l b i := by
    simp only [Mod.relax, wt_exch]
    rfl

omit [Fintype ι] [Fintype ι'] [DecidableEq ι] [DecidableEq ι'] in
/-- Coefficients of the exchanged medium. -/
theorem EMod.coef_exch (k : Exch) (e : ι' ≃ ι) (m : EMod ι) (a : Axis) (i : ι') :
    (k.emod e m).caV (k.axis a) i = m.caV a (e i) ∧ (k.emod e m).cbV (k.axis a) i = m.cbV a (e i) ∧
      ∀ l, (k.emod e m).cd (k.axis a) l i = m.cd a l (e i) := by
  cases k <;> cases a <;> exact ⟨rfl, rfl, fun _ => rfl⟩

/-- Mechanisms of the electromagnetic solvers. -/
theorem EMod.relax_exch {n : ℕ} (k : Exch) (e : ι' ≃ ι) (m : EMod ι) (c : BC ι) {pB : Fin n → Fin n}
    {sB : Fin n → ℝ} {ax : Fin n → Axis} (hax : ∀ b, ax (pB b) = k.axis (ax b)) :
    RelExch (N := m.L) e pB sB ((k.emod e m).relax (k.bc e c) ax) (m.relax c ax) where
  c _ _ _ := rfl
  Gz l b i := by simp only [EMod.relax, hax, (EMod.coef_exch k e m (ax b) i).2.2]
  Ge l i b b' := by simp [EMod.relax]
  h0 l b i := rfl
  h1 l b i := by
    simp only [EMod.relax, wt_exch, hax, (EMod.coef_exch k e m (ax b) i).2.1]
    rfl

/-- Components of a layout that are exchanged. -/
local macro "lay_exch" l:ident : tactic => `(tactic| (
  constructor
  · intro a; fin_cases a <;> rfl
  · intro a; fin_cases a <;> rfl
  · intro a; fin_cases a <;> rfl
  · intro a; fin_cases a <;> rfl
  · intro a b; fin_cases a <;> fin_cases b <;> rfl
  · intro a b; fin_cases a <;> fin_cases b <;> simp [$l:ident, Exch.sign]))

theorem layS2_xy : LayExch .xy layS2 ![0] ![1, 0] := by lay_exch layS2
theorem layE2_xy : LayExch .xy layE2 ![1, 0] ![1, 0, 2] := by lay_exch layE2
theorem layEM2_xy : LayExch .xy layEM2 ![0] ![1, 0] := by lay_exch layEM2
theorem layTM2_xy : LayExch .xy layTM2 ![1, 0] ![0] := by lay_exch layTM2
theorem layE3_xy : LayExch .xy layE3 ![1, 0, 2] ![1, 0, 2, 3, 5, 4] := by lay_exch layE3
theorem layE3_xz : LayExch .xz layE3 ![2, 1, 0] ![2, 1, 0, 5, 4, 3] := by lay_exch layE3
theorem layEM3_xy : LayExch .xy layEM3 ![1, 0, 2] ![1, 0, 2] := by lay_exch layEM3
theorem layEM3_xz : LayExch .xz layEM3 ![2, 1, 0] ![2, 1, 0] := by lay_exch layEM3

theorem viscosh2D_facts {e : ι' ≃ ι} {D' : Deriv ι'} {D : Deriv ι} (hx : DerivExch .xy e D' D)
    (hD' : D'.regular) (hD : D.regular) (m : Mod ι) (c : BC ι) (hc : c.useFreeSurface ≠ 1) :
    FactsR m.L .xy e c (viscosh2DSolver D' (Exch.xy.mod e m) (Exch.xy.bc e c)) (viscosh2DSolver D m c) layS2
      ![0] ![1, 0] (viscosh2DScheme D' (Exch.xy.mod e m) (Exch.xy.bc e c)) (viscosh2DScheme D m c)
      ((Exch.xy.mod e m).relax (Exch.xy.bc e c) (viscoshG (Exch.xy.mod e m))) (m.relax c (viscoshG m)) where
  lay := layS2_xy
  corr := by
    have fx := hx.fwd .x
    have fy := hx.fwd .y
    have fz := hx.fwd .z
    have bx := hx.bwd .x
    have bY := hx.bwd .y
    have bz := hx.bwd .z
    simp only [Exch.axis] at fx fy fz bx bY bz
    refine LayExch.corr layS2_xy ?_ ?_ ?_ ?_ (Mod.relax_exch .xy e m c ?_)
    · intro a i; fin_cases a <;> rfl
    · intro a b i j; fin_cases a <;> fin_cases b <;> simp [layS2, Exch.sign] <;>
        first | exact fx i j | exact fy i j | exact fz i j | exact bx i j | exact bY i j | exact bz i j
    · intro i b b'; fin_cases b <;> fin_cases b' <;> simp [wt_exch, layS2, Exch.sign, Exch.mod, Mod.onePlusLtauS, Mod.onePlusLtauP]
    · intro i b b'; fin_cases b <;> fin_cases b' <;> simp [wt_exch, layS2, Exch.sign, Exch.mod, Mod.onePlusLtauS, Mod.onePlusLtauP]
    · intro i b b'; fin_cases b <;> fin_cases b' <;> simp [viscoshG, layS2, Exch.sign, Exch.mod]
  step' := viscosh2D_steps hD' hc
  step := viscosh2D_steps hD hc
  src ty hty f hf := by
    rcases hf with ⟨a, rfl⟩ | ⟨a, rfl⟩ <;> fin_cases a <;> cases ty <;>
      simp [Solver.srcFlds, viscosh2DSolver, layS2, Exch.fld, Exch.stype, Exch.tsign, Exch.sign, srcSH] at hty ⊢
  recv ty hty := by
    cases ty <;> simp [viscosh2DSolver, layS2, Exch.fld, Exch.stype, Exch.tsign, Exch.sign, srcSH, single] at hty ⊢ <;>
      decide
  zero f hf := by
    rcases hf with ⟨a, rfl⟩ | ⟨a, rfl⟩ <;> fin_cases a <;> simp [viscosh2DSolver, layS2]
  zrel b l hl := by
    fin_cases b <;> simp [viscosh2DSolver, layS2, rels, hl, Exch.mod]
  zmem a b α h := by
    fin_cases a <;> fin_cases b <;> simp [layS2] at h <;> subst h <;> simp [viscosh2DSolver, layS2] <;> decide

theorem viscoelastic2D_facts {e : ι' ≃ ι} {D' : Deriv ι'} {D : Deriv ι} (hx : DerivExch .xy e D' D)
    (hD' : D'.regular) (hD : D.regular) (m : Mod ι) (c : BC ι) (hc : c.useFreeSurface = 0) :
    FactsR m.L .xy e c (viscoelastic2DSolver D' (Exch.xy.mod e m) (Exch.xy.bc e c)) (viscoelastic2DSolver D m c) layE2
      ![1, 0] ![1, 0, 2] (viscoelastic2DScheme D' (Exch.xy.mod e m) (Exch.xy.bc e c)) (viscoelastic2DScheme D m c)
      ((Exch.xy.mod e m).relax (Exch.xy.bc e c) (viscoelastic2DG (Exch.xy.mod e m))) (m.relax c (viscoelastic2DG m)) where
  lay := layE2_xy
  corr := by
    have fx := hx.fwd .x
    have fy := hx.fwd .y
    have fz := hx.fwd .z
    have bx := hx.bwd .x
    have bY := hx.bwd .y
    have bz := hx.bwd .z
    simp only [Exch.axis] at fx fy fz bx bY bz
    refine LayExch.corr layE2_xy ?_ ?_ ?_ ?_ (Mod.relax_exch .xy e m c ?_)
    · intro a i; fin_cases a <;> rfl
    · intro a b i j; fin_cases a <;> fin_cases b <;> simp [layE2, Exch.sign] <;>
        first | exact fx i j | exact fy i j | exact fz i j | exact bx i j | exact bY i j | exact bz i j
    · intro i b b'; fin_cases b <;> fin_cases b' <;> simp [wt_exch, layE2, Exch.sign, Exch.mod, Mod.onePlusLtauS, Mod.onePlusLtauP]
    · intro i b b'; fin_cases b <;> fin_cases b' <;> simp [wt_exch, layE2, Exch.sign, Exch.mod, Mod.onePlusLtauS, Mod.onePlusLtauP]
    · intro i b b'; fin_cases b <;> fin_cases b' <;> simp [viscoelastic2DG, layE2, Exch.sign, Exch.mod]
  step' := viscoelastic2D_steps hD' hc
  step := viscoelastic2D_steps hD hc
  src ty hty f hf := by
    rcases hf with ⟨a, rfl⟩ | ⟨a, rfl⟩ <;> fin_cases a <;> cases ty <;>
      simp [Solver.srcFlds, viscoelastic2DSolver, layE2, Exch.fld, Exch.stype, Exch.tsign, Exch.sign, src2Delastic, rec2Delastic] at hty ⊢
  recv ty hty := by
    cases ty <;> simp [viscoelastic2DSolver, layE2, Exch.fld, Exch.stype, Exch.tsign, Exch.sign, src2Delastic, rec2Delastic, single] at hty ⊢ <;>
      decide
  zero f hf := by
    rcases hf with ⟨a, rfl⟩ | ⟨a, rfl⟩ <;> fin_cases a <;> simp [viscoelastic2DSolver, layE2]
  zrel b l hl := by
    fin_cases b <;> simp [viscoelastic2DSolver, layE2, rels, hl, Exch.mod]
  zmem a b α h := by
    fin_cases a <;> fin_cases b <;> simp [layE2] at h <;> subst h <;> simp [viscoelastic2DSolver, layE2] <;> decide

theorem viscoemem2D_facts {e : ι' ≃ ι} {D' : Deriv ι'} {D : Deriv ι} (hx : DerivExch .xy e D' D)
    (hD' : D'.regular) (hD : D.regular) (m : EMod ι) (c : BC ι) :
    FactsR m.L .xy e c (viscoemem2DSolver D' (Exch.xy.emod e m) (Exch.xy.bc e c)) (viscoemem2DSolver D m c) layEM2
      ![0] ![1, 0] (viscoemem2DScheme D' (Exch.xy.emod e m) (Exch.xy.bc e c)) (viscoemem2DScheme D m c)
      ((Exch.xy.emod e m).relax (Exch.xy.bc e c) ![.x, .y]) (m.relax c ![.x, .y]) where
  lay := layEM2_xy
  corr := by
    have fx := hx.fwd .x
    have fy := hx.fwd .y
    have fz := hx.fwd .z
    have bx := hx.bwd .x
    have bY := hx.bwd .y
    have bz := hx.bwd .z
    simp only [Exch.axis] at fx fy fz bx bY bz
    have cx := EMod.coef_exch .xy e m .x
    have cy := EMod.coef_exch .xy e m .y
    have cz := EMod.coef_exch .xy e m .z
    simp only [Exch.axis] at cx cy cz
    refine LayExch.corr layEM2_xy ?_ ?_ ?_ ?_ (EMod.relax_exch .xy e m c ?_)
    · intro a i; fin_cases a <;> rfl
    · intro a b i j; fin_cases a <;> fin_cases b <;> simp [layEM2, Exch.sign] <;>
        first | exact fx i j | exact fy i j | exact fz i j | exact bx i j | exact bY i j | exact bz i j
    · intro i b b'; fin_cases b <;> fin_cases b' <;> simp [wt_exch, layEM2, Exch.sign, (cx _).1, (cx _).2.1, (cy _).1, (cy _).2.1, (cz _).1, (cz _).2.1]
    · intro i b b'; fin_cases b <;> fin_cases b' <;> simp [wt_exch, layEM2, Exch.sign, (cx _).1, (cx _).2.1, (cy _).1, (cy _).2.1, (cz _).1, (cz _).2.1]
    · intro b; fin_cases b <;> rfl
  step' := viscoemem2D_steps hD'
  step := viscoemem2D_steps hD
  src ty hty f hf := by
    rcases hf with ⟨a, rfl⟩ | ⟨a, rfl⟩ <;> fin_cases a <;> cases ty <;>
      simp [Solver.srcFlds, viscoemem2DSolver, layEM2, Exch.fld, Exch.stype, Exch.tsign, Exch.sign, src2Demem] at hty ⊢
  recv ty hty := by
    cases ty <;> simp [viscoemem2DSolver, layEM2, Exch.fld, Exch.stype, Exch.tsign, Exch.sign, src2Demem, single] at hty ⊢ <;>
      decide
  zero f hf := by
    rcases hf with ⟨a, rfl⟩ | ⟨a, rfl⟩ <;> fin_cases a <;> simp [viscoemem2DSolver, layEM2]
  zrel b l hl := by
    fin_cases b <;> simp [viscoemem2DSolver, layEM2, rels, hl, Exch.emod]
  zmem a b α h := by
    fin_cases a <;> fin_cases b <;> simp [layEM2] at h <;> subst h <;> simp [viscoemem2DSolver, layEM2] <;> decide

theorem viscotmem2D_facts {e : ι' ≃ ι} {D' : Deriv ι'} {D : Deriv ι} (hx : DerivExch .xy e D' D)
    (hD' : D'.regular) (hD : D.regular) (m : EMod ι) (c : BC ι) :
    FactsR m.L .xy e c (viscotmem2DSolver D' (Exch.xy.emod e m) (Exch.xy.bc e c)) (viscotmem2DSolver D m c) layTM2
      ![1, 0] ![0] (viscotmem2DScheme D' (Exch.xy.emod e m) (Exch.xy.bc e c)) (viscotmem2DScheme D m c)
      ((Exch.xy.emod e m).relax (Exch.xy.bc e c) ![.z]) (m.relax c ![.z]) where
  lay := layTM2_xy
  corr := by
    have fx := hx.fwd .x
    have fy := hx.fwd .y
    have fz := hx.fwd .z
    have bx := hx.bwd .x
    have bY := hx.bwd .y
    have bz := hx.bwd .z
    simp only [Exch.axis] at fx fy fz bx bY bz
    have cx := EMod.coef_exch .xy e m .x
    have cy := EMod.coef_exch .xy e m .y
    have cz := EMod.coef_exch .xy e m .z
    simp only [Exch.axis] at cx cy cz
    refine LayExch.corr layTM2_xy ?_ ?_ ?_ ?_ (EMod.relax_exch .xy e m c ?_)
    · intro a i; fin_cases a <;> rfl
    · intro a b i j; fin_cases a <;> fin_cases b <;> simp [layTM2, Exch.sign] <;>
        first | exact fx i j | exact fy i j | exact fz i j | exact bx i j | exact bY i j | exact bz i j
    · intro i b b'; fin_cases b <;> fin_cases b' <;> simp [wt_exch, layTM2, Exch.sign, (cx _).1, (cx _).2.1, (cy _).1, (cy _).2.1, (cz _).1, (cz _).2.1]
    · intro i b b'; fin_cases b <;> fin_cases b' <;> simp [wt_exch, layTM2, Exch.sign, (cx _).1, (cx _).2.1, (cy _).1, (cy _).2.1, (cz _).1, (cz _).2.1]
    · intro b; fin_cases b <;> rfl
  step' := viscotmem2D_steps hD'
  step := viscotmem2D_steps hD
  src ty hty f hf := by
    rcases hf with ⟨a, rfl⟩ | ⟨a, rfl⟩ <;> fin_cases a <;> cases ty <;>
      simp [Solver.srcFlds, viscotmem2DSolver, layTM2, Exch.fld, Exch.stype, Exch.tsign, Exch.sign, src2Dtmem] at hty ⊢
  recv ty hty := by
    cases ty <;> simp [viscotmem2DSolver, layTM2, Exch.fld, Exch.stype, Exch.tsign, Exch.sign, src2Dtmem, single] at hty ⊢ <;>
      decide
  zero f hf := by
    rcases hf with ⟨a, rfl⟩ | ⟨a, rfl⟩ <;> fin_cases a <;> simp [viscotmem2DSolver, layTM2]
  zrel b l hl := by
    fin_cases b <;> simp [viscotmem2DSolver, layTM2, rels, hl, Exch.emod]
  zmem a b α h := by
    fin_cases a <;> fin_cases b <;> simp [layTM2] at h <;> subst h <;> simp [viscotmem2DSolver, layTM2] <;> decide

theorem viscoelastic3D_facts_xy {e : ι' ≃ ι} {D' : Deriv ι'} {D : Deriv ι} (hx : DerivExch .xy e D' D)
    (hD' : D'.regular) (hD : D.regular) (m : Mod ι) (c : BC ι) (hc : c.useFreeSurface ≠ 1) :
    FactsR m.L .xy e c (viscoelastic3DSolver D' (Exch.xy.mod e m) (Exch.xy.bc e c)) (viscoelastic3DSolver D m c) layE3
      ![1, 0, 2] ![1, 0, 2, 3, 5, 4] (viscoelastic3DScheme D' (Exch.xy.mod e m) (Exch.xy.bc e c)) (viscoelastic3DScheme D m c)
      ((Exch.xy.mod e m).relax (Exch.xy.bc e c) (viscoelastic3DG (Exch.xy.mod e m))) (m.relax c (viscoelastic3DG m)) where
  lay := layE3_xy
  corr := by
    have fx := hx.fwd .x
    have fy := hx.fwd .y
    have fz := hx.fwd .z
    have bx := hx.bwd .x
    have bY := hx.bwd .y
    have bz := hx.bwd .z
    simp only [Exch.axis] at fx fy fz bx bY bz
    refine LayExch.corr layE3_xy ?_ ?_ ?_ ?_ (Mod.relax_exch .xy e m c ?_)
    · intro a i; fin_cases a <;> rfl
    · have q : ∀ u v : ℝ, u = v → u = 1 * 1 * v := fun u v h => by rw [h]; ring
      intro a b i j
      fin_cases a <;> fin_cases b <;>
        first | exact q _ _ (fx i j) | exact q _ _ (fy i j) | exact q _ _ (fz i j) |
          exact q _ _ (bx i j) | exact q _ _ (bY i j) | exact q _ _ (bz i j) | exact q 0 0 rfl
    · intro i b b'; fin_cases b <;> fin_cases b' <;> simp [wt_exch, layE3, Exch.sign, Exch.mod, Mod.onePlusLtauS, Mod.onePlusLtauP]
    · intro i b b'; fin_cases b <;> fin_cases b' <;> simp [wt_exch, layE3, Exch.sign, Exch.mod, Mod.onePlusLtauS, Mod.onePlusLtauP]
    · intro i b b'; fin_cases b <;> fin_cases b' <;> simp [viscoelastic3DG, layE3, Exch.sign, Exch.mod]
  step' := viscoelastic3D_steps hD' hc
  step := viscoelastic3D_steps hD hc
  src ty hty f hf := by
    rcases hf with ⟨a, rfl⟩ | ⟨a, rfl⟩ <;> fin_cases a <;> cases ty <;>
      simp [Solver.srcFlds, viscoelastic3DSolver, layE3, Exch.fld, Exch.stype, Exch.tsign, Exch.sign, src3Delastic, rec3Delastic] at hty ⊢
  recv ty hty := by
    cases ty <;> simp [viscoelastic3DSolver, layE3, Exch.fld, Exch.stype, Exch.tsign, Exch.sign, src3Delastic, rec3Delastic, single] at hty ⊢ <;>
      decide
  zero f hf := by
    rcases hf with ⟨a, rfl⟩ | ⟨a, rfl⟩ <;> fin_cases a <;> simp [viscoelastic3DSolver, layE3]
  zrel b l hl := by
    fin_cases b <;> simp [viscoelastic3DSolver, layE3, rels, hl, Exch.mod]
  zmem a b α h := by
    fin_cases a <;> fin_cases b <;> simp [layE3] at h <;> subst h <;> simp [viscoelastic3DSolver, layE3] <;> decide

theorem viscoemem3D_facts_xy {e : ι' ≃ ι} {D' : Deriv ι'} {D : Deriv ι} (hx : DerivExch .xy e D' D)
    (hD' : D'.regular) (hD : D.regular) (m : EMod ι) (c : BC ι) (hc : c.pml = none) :
    FactsR m.L .xy e c (viscoemem3DSolver D' (Exch.xy.emod e m) (Exch.xy.bc e c)) (viscoemem3DSolver D m c) layEM3
      ![1, 0, 2] ![1, 0, 2] (viscoemem3DScheme D' (Exch.xy.emod e m) (Exch.xy.bc e c)) (viscoemem3DScheme D m c)
      ((Exch.xy.emod e m).relax (Exch.xy.bc e c) ![.x, .y, .z]) (m.relax c ![.x, .y, .z]) where
  lay := layEM3_xy
  corr := by
    have fx := hx.fwd .x
    have fy := hx.fwd .y
    have fz := hx.fwd .z
    have bx := hx.bwd .x
    have bY := hx.bwd .y
    have bz := hx.bwd .z
    simp only [Exch.axis] at fx fy fz bx bY bz
    have cx := EMod.coef_exch .xy e m .x
    have cy := EMod.coef_exch .xy e m .y
    have cz := EMod.coef_exch .xy e m .z
    simp only [Exch.axis] at cx cy cz
    refine LayExch.corr layEM3_xy ?_ ?_ ?_ ?_ (EMod.relax_exch .xy e m c ?_)
    · intro a i; fin_cases a <;> rfl
    · have q : ∀ u v : ℝ, u = v → -u = -1 * 1 * v := fun u v h => by rw [h]; ring
      have q' : ∀ u v : ℝ, u = v → u = -1 * 1 * (-v) := fun u v h => by rw [h]; ring
      have q0 : (0 : ℝ) = -1 * 1 * 0 := by ring
      intro a b i j
      fin_cases a <;> fin_cases b <;>
        first | exact q0 | exact q _ _ (fx i j) | exact q _ _ (fy i j) | exact q _ _ (fz i j) |
          exact q' _ _ (fx i j) | exact q' _ _ (fy i j) | exact q' _ _ (fz i j)
    · intro i b b'; fin_cases b <;> fin_cases b' <;> simp [wt_exch, layEM3, Exch.sign, (cx _).1, (cx _).2.1, (cy _).1, (cy _).2.1, (cz _).1, (cz _).2.1]
    · intro i b b'; fin_cases b <;> fin_cases b' <;> simp [wt_exch, layEM3, Exch.sign, (cx _).1, (cx _).2.1, (cy _).1, (cy _).2.1, (cz _).1, (cz _).2.1]
    · intro b; fin_cases b <;> rfl
  step' := viscoemem3D_steps hD' (by simp [Exch.bc, hc])
  step := viscoemem3D_steps hD hc
  src ty hty f hf := by
    rcases hf with ⟨a, rfl⟩ | ⟨a, rfl⟩ <;> fin_cases a <;> cases ty <;>
      simp [Solver.srcFlds, viscoemem3DSolver, layEM3, Exch.fld, Exch.stype, Exch.tsign, Exch.sign, src3Demem] at hty ⊢
  recv ty hty := by
    cases ty <;> simp [viscoemem3DSolver, layEM3, Exch.fld, Exch.stype, Exch.tsign, Exch.sign, src3Demem, single] at hty ⊢ <;>
      decide
  zero f hf := by
    rcases hf with ⟨a, rfl⟩ | ⟨a, rfl⟩ <;> fin_cases a <;> simp [viscoemem3DSolver, layEM3]
  zrel b l hl := by
    fin_cases b <;> simp [viscoemem3DSolver, layEM3, rels, hl, Exch.emod]
  zmem a b α h := by
    fin_cases a <;> fin_cases b <;> simp [layEM3] at h <;> subst h <;> simp [viscoemem3DSolver, layEM3] <;> decide

theorem viscoelastic3D_facts_xz {e : ι' ≃ ι} {D' : Deriv ι'} {D : Deriv ι} (hx : DerivExch .xz e D' D)
    (hD' : D'.regular) (hD : D.regular) (m : Mod ι) (c : BC ι) (hc : c.useFreeSurface ≠ 1) :
    FactsR m.L .xz e c (viscoelastic3DSolver D' (Exch.xz.mod e m) (Exch.xz.bc e c)) (viscoelastic3DSolver D m c) layE3
      ![2, 1, 0] ![2, 1, 0, 5, 4, 3] (viscoelastic3DScheme D' (Exch.xz.mod e m) (Exch.xz.bc e c)) (viscoelastic3DScheme D m c)
      ((Exch.xz.mod e m).relax (Exch.xz.bc e c) (viscoelastic3DG (Exch.xz.mod e m))) (m.relax c (viscoelastic3DG m)) where
  lay := layE3_xz
  corr := by
    have fx := hx.fwd .x
    have fy := hx.fwd .y
    have fz := hx.fwd .z
    have bx := hx.bwd .x
    have bY := hx.bwd .y
    have bz := hx.bwd .z
    simp only [Exch.axis] at fx fy fz bx bY bz
    refine LayExch.corr layE3_xz ?_ ?_ ?_ ?_ (Mod.relax_exch .xz e m c ?_)
    · intro a i; fin_cases a <;> rfl
    · have q : ∀ u v : ℝ, u = v → u = 1 * 1 * v := fun u v h => by rw [h]; ring
      intro a b i j
      fin_cases a <;> fin_cases b <;>
        first | exact q _ _ (fx i j) | exact q _ _ (fy i j) | exact q _ _ (fz i j) |
          exact q _ _ (bx i j) | exact q _ _ (bY i j) | exact q _ _ (bz i j) | exact q 0 0 rfl
    · intro i b b'; fin_cases b <;> fin_cases b' <;> simp [wt_exch, layE3, Exch.sign, Exch.mod, Mod.onePlusLtauS, Mod.onePlusLtauP]
    · intro i b b'; fin_cases b <;> fin_cases b' <;> simp [wt_exch, layE3, Exch.sign, Exch.mod, Mod.onePlusLtauS, Mod.onePlusLtauP]
    · intro i b b'; fin_cases b <;> fin_cases b' <;> simp [viscoelastic3DG, layE3, Exch.sign, Exch.mod]
  step' := viscoelastic3D_steps hD' hc
  step := viscoelastic3D_steps hD hc
  src ty hty f hf := by
    rcases hf with ⟨a, rfl⟩ | ⟨a, rfl⟩ <;> fin_cases a <;> cases ty <;>
      simp [Solver.srcFlds, viscoelastic3DSolver, layE3, Exch.fld, Exch.stype, Exch.tsign, Exch.sign, src3Delastic, rec3Delastic] at hty ⊢
  recv ty hty := by
    cases ty <;> simp [viscoelastic3DSolver, layE3, Exch.fld, Exch.stype, Exch.tsign, Exch.sign, src3Delastic, rec3Delastic, single] at hty ⊢ <;>
      decide
  zero f hf := by
    rcases hf with ⟨a, rfl⟩ | ⟨a, rfl⟩ <;> fin_cases a <;> simp [viscoelastic3DSolver, layE3]
  zrel b l hl := by
    fin_cases b <;> simp [viscoelastic3DSolver, layE3, rels, hl, Exch.mod]
  zmem a b α h := by
    fin_cases a <;> fin_cases b <;> simp [layE3] at h <;> subst h <;> simp [viscoelastic3DSolver, layE3] <;> decide

theorem viscoemem3D_facts_xz {e : ι' ≃ ι} {D' : Deriv ι'} {D : Deriv ι} (hx : DerivExch .xz e D' D)
    (hD' : D'.regular) (hD : D.regular) (m : EMod ι) (c : BC ι) (hc : c.pml = none) :
    FactsR m.L .xz e c (viscoemem3DSolver D' (Exch.xz.emod e m) (Exch.xz.bc e c)) (viscoemem3DSolver D m c) layEM3
      ![2, 1, 0] ![2, 1, 0] (viscoemem3DScheme D' (Exch.xz.emod e m) (Exch.xz.bc e c)) (viscoemem3DScheme D m c)
      ((Exch.xz.emod e m).relax (Exch.xz.bc e c) ![.x, .y, .z]) (m.relax c ![.x, .y, .z]) where
  lay := layEM3_xz
  corr := by
    have fx := hx.fwd .x
    have fy := hx.fwd .y
    have fz := hx.fwd .z
    have bx := hx.bwd .x
    have bY := hx.bwd .y
    have bz := hx.bwd .z
    simp only [Exch.axis] at fx fy fz bx bY bz
    have cx := EMod.coef_exch .xz e m .x
    have cy := EMod.coef_exch .xz e m .y
    have cz := EMod.coef_exch .xz e m .z
    simp only [Exch.axis] at cx cy cz
    refine LayExch.corr layEM3_xz ?_ ?_ ?_ ?_ (EMod.relax_exch .xz e m c ?_)
    · intro a i; fin_cases a <;> rfl
    · have q : ∀ u v : ℝ, u = v → -u = -1 * 1 * v := fun u v h => by rw [h]; ring
      have q' : ∀ u v : ℝ, u = v → u = -1 * 1 * (-v) := fun u v h => by rw [h]; ring
      have q0 : (0 : ℝ) = -1 * 1 * 0 := by ring
      intro a b i j
      fin_cases a <;> fin_cases b <;>
        first | exact q0 | exact q _ _ (fx i j) | exact q _ _ (fy i j) | exact q _ _ (fz i j) |
          exact q' _ _ (fx i j) | exact q' _ _ (fy i j) | exact q' _ _ (fz i j)
    · intro i b b'; fin_cases b <;> fin_cases b' <;> simp [wt_exch, layEM3, Exch.sign, (cx _).1, (cx _).2.1, (cy _).1, (cy _).2.1, (cz _).1, (cz _).2.1]
    · intro i b b'; fin_cases b <;> fin_cases b' <;> simp [wt_exch, layEM3, Exch.sign, (cx _).1, (cx _).2.1, (cy _).1, (cy _).2.1, (cz _).1, (cz _).2.1]
    · intro b; fin_cases b <;> rfl
  step' := viscoemem3D_steps hD' (by simp [Exch.bc, hc])
  step := viscoemem3D_steps hD hc
  src ty hty f hf := by
    rcases hf with ⟨a, rfl⟩ | ⟨a, rfl⟩ <;> fin_cases a <;> cases ty <;>
      simp [Solver.srcFlds, viscoemem3DSolver, layEM3, Exch.fld, Exch.stype, Exch.tsign, Exch.sign, src3Demem] at hty ⊢
  recv ty hty := by
    cases ty <;> simp [viscoemem3DSolver, layEM3, Exch.fld, Exch.stype, Exch.tsign, Exch.sign, src3Demem, single] at hty ⊢ <;>
      decide
  zero f hf := by
    rcases hf with ⟨a, rfl⟩ | ⟨a, rfl⟩ <;> fin_cases a <;> simp [viscoemem3DSolver, layEM3]
  zrel b l hl := by
    fin_cases b <;> simp [viscoemem3DSolver, layEM3, rels, hl, Exch.emod]
  zmem a b α h := by
    fin_cases a <;> fin_cases b <;> simp [layEM3] at h <;> subst h <;> simp [viscoemem3DSolver, layEM3] <;> decide

end Verif.Solver
