import Verif.Model.MatrixSetup

/-!
# C104, C105: the matrices that the time step applies are the matrices that were built
-/

namespace Verif.MatSetup
open Verif Verif.Solver

variable {ι : Type}

/-- Two stores with the same contents in all members that have been built and not purged when the time
stepping starts. -/
def Agree (g : Cfg) (s s' : Store ι) : Prop := ∀ m, prepare g m = true → s m = s' m

/-- The solver that is used with configuration `g` and stored matrices `s`. -/
noncomputable def solverFor (g : Cfg) (s : Store ι) (m : Solver.Mod ι) (e : EMod ι) (c : BC ι) :
    Solver ι := g.kind.solver (getters g s) m e c

/-- The configurations with which the time step needs a matrix that is not there: a free surface
with an electromagnetic equation, or a free surface on a variable grid with a shear wave or
viscoelastic equation. -/
def Lacking (g : Cfg) : Prop :=
  g.freeSurface = 1 ∧
  (g.kind ∈ [.tmem2D, .emem2D, .viscotmem2D, .viscoemem2D, .emem3D, .viscoemem3D] ∨
   g.useVariableGrid = true ∧ g.kind ∈ [.sh2D, .viscosh2D, .viscoelastic2D, .viscoelastic3D])

/-! ### What `prepare` leaves -/

theorem getGraph_fresh (g : Cfg) : getGraph g fresh = fresh := by
  funext m
  simp only [getGraph, purge, build, fresh]
  split <;> simp_all

theorem prepare_eq (g : Cfg) : prepare g =
    let h := if g.kind.threeD then initialize3D g fresh else initialize2D g fresh
    if g.freeSurface == 1 then (if g.kind.threeD then freeSurface3D g h else freeSurface2D g h)
    else h := by
  simp only [prepare, getGraph_fresh, ite_self]

/-- The member behind a plain getter. -/
def cur (g : Cfg) (b : Base) : Member := if g.useStencilMatrix then .stencil b else .sparse b

theorem plain_eq (g : Cfg) (s : Store ι) (b : Base) : plain g s b = s (cur g b) := by
  unfold plain cur; split <;> rfl

/-- `simp` set that evaluates `prepare`. -/
macro "evalHeld" : tactic => `(tactic|
  simp_all [prepare_eq, initialize2D, initialize3D, freeSurface2D, freeSurface3D, build, purge, fresh,
    dyfMember, calcDyfFreeSurface, calcDybFreeSurface, cur, Cfg.accepted, Kind.threeD, Kind.isElastic] <;> omega)

theorem held_x (g : Cfg) : prepare g (cur g .Dxf) = true ∧ prepare g (cur g .Dxb) = true := by
  obtain ⟨k, fs, vg, p, st, hy, vf⟩ := g
  by_cases h1 : fs = 1 <;> cases k <;> cases vg <;> cases st <;> cases hy <;> evalHeld

theorem held_yb (g : Cfg) : prepare g (cur g .Dyb) = true := by
  obtain ⟨k, fs, vg, p, st, hy, vf⟩ := g
  by_cases h1 : fs = 1 <;> cases k <;> cases vg <;> cases st <;> cases hy <;> evalHeld

theorem held_z (g : Cfg) (h3 : g.kind.threeD = true) :
    prepare g (cur g .Dzf) = true ∧ prepare g (cur g .Dzb) = true := by
  obtain ⟨k, fs, vg, p, st, hy, vf⟩ := g
  by_cases h1 : fs = 1 <;> cases k <;> cases vg <;> cases st <;> cases hy <;> evalHeld

theorem held_yf (g : Cfg) (ha : g.accepted = true) :
    prepare g (cur g .Dyf) = true ↔
      (g.freeSurface = 1 → g.kind.isElastic = true ∧ g.useVariableGrid = false) := by
  obtain ⟨k, fs, vg, p, st, hy, vf⟩ := g
  by_cases h1 : fs = 1 <;> cases k <;> cases vg <;> cases st <;> cases hy <;> evalHeld

private theorem held_fs (g : Cfg) (h1 : g.freeSurface = 1) :
    prepare g .DyfFreeSurfaceSparse = true ∧
    (g.useHybridFreeSurface = true → prepare g .DyfFreeSurfaceStencil = true) ∧
    (g.kind.isElastic = true → g.useVariableGrid = false → prepare g .DybFreeSurfaceSparse = true ∧
      (g.useHybridFreeSurface = true → prepare g .DybFreeSurfaceStencil = true)) := by
  obtain ⟨k, fs, vg, p, st, hy, vf⟩ := g
  cases k <;> cases vg <;> cases st <;> cases hy <;> evalHeld

private theorem held_staggered (g : Cfg) (ha : g.accepted = true) (he : g.kind.isElastic = true)
    (hv : g.useVariableGrid = true) :
    prepare g .DyfStaggeredX = true ∧
    (g.kind.threeD = true → prepare g .DyfStaggeredZ = true) ∧
    (g.freeSurface ≠ 1 → prepare g .DybStaggeredX = true ∧
      (g.kind.threeD = true → prepare g .DybStaggeredZ = true)) ∧
    (g.freeSurface = 1 → prepare g .DybStaggeredXFreeSurface = true ∧
      (g.kind.threeD = true → prepare g .DybStaggeredZFreeSurface = true)) := by
  obtain ⟨k, fs, vg, p, st, hy, vf⟩ := g
  by_cases h1 : fs = 1 <;> cases k <;> cases st <;> cases hy <;> evalHeld

/-! ### The getters on agreeing stores -/

section
variable {g : Cfg} {s s' : Store ι} (h : Agree g s s')
include h

theorem eq_x : (getters g s).Dxf = (getters g s').Dxf ∧
    (getters g s).Dxb = (getters g s').Dxb := by
  simp only [getters, plain_eq]
  exact ⟨h _ (held_x g).1, h _ (held_x g).2⟩

theorem eq_yb : (getters g s).Dyb = (getters g s').Dyb := by
  simp only [getters, plain_eq]
  exact h _ (held_yb g)

theorem eq_z (h3 : g.kind.threeD = true) : (getters g s).Dzf = (getters g s').Dzf ∧
    (getters g s).Dzb = (getters g s').Dzb := by
  simp only [getters, plain_eq]
  exact ⟨h _ (held_z g h3).1, h _ (held_z g h3).2⟩

theorem eq_yf (ha : g.accepted = true)
    (hf : g.freeSurface = 1 → g.kind.isElastic = true ∧ g.useVariableGrid = false) :
    (getters g s).Dyf = (getters g s').Dyf := by
  simp only [getters, plain_eq]
  exact h _ ((held_yf g ha).2 hf)

private theorem eq_yfFS (h1 : g.freeSurface = 1) : (getters g s).DyfFS = (getters g s').DyfFS := by
  simp only [getters, dyfFree]
  rw [h _ (held_fs g h1).1]
  split
  · rfl
  · rw [h _ ((held_fs g h1).2.1 (by simpa using ‹¬(!g.useHybridFreeSurface) = true›))]

private theorem eq_ybFS (h1 : g.freeSurface = 1) (he : g.kind.isElastic = true)
    (hv : g.useVariableGrid = false) : (getters g s).DybFS = (getters g s').DybFS := by
  obtain ⟨ha, hb⟩ := (held_fs g h1).2.2 he hv
  simp only [getters, dybFree]
  rw [h _ ha]
  split
  · rfl
  · rw [h _ (hb (by simpa using ‹¬(!g.useHybridFreeSurface) = true›))]

private theorem eq_inter : (getters g s).interFull = (getters g s').interFull ∧
    (getters g s).interSX = (getters g s').interSX ∧
    (getters g s).interSZ = (getters g s').interSZ ∧
    (getters g s).interSXZ = (getters g s').interSXZ := by
  refine ⟨?_, ?_, ?_, ?_⟩ <;>
  · simp only [getters, inter]
    split
    · rw [h _ ‹_›]
    · rfl

/-- The forward derivative of the points staggered in x. -/
private theorem eq_yfSX (ha : g.accepted = true)
    (hf : g.freeSurface = 1 → g.kind.isElastic = true) :
    (getters g s).DyfSX = (getters g s').DyfSX := by
  simp only [getters, staggered, plain_eq]
  split
  · rename_i hh
    rw [Bool.and_eq_true] at hh
    exact h _ (held_staggered g ha hh.1 hh.2).1
  · rename_i hh
    exact h _ ((held_yf g ha).2 fun h1 => ⟨hf h1, by simpa [hf h1] using hh⟩)

private theorem eq_yfSZ (ha : g.accepted = true) (h3 : g.kind.threeD = true)
    (hf : g.freeSurface = 1 → g.kind.isElastic = true) :
    (getters g s).DyfSZ = (getters g s').DyfSZ := by
  simp only [getters, staggered, plain_eq]
  split
  · rename_i hh
    rw [Bool.and_eq_true] at hh
    exact h _ ((held_staggered g ha hh.1 hh.2).2.1 h3)
  · rename_i hh
    exact h _ ((held_yf g ha).2 fun h1 => ⟨hf h1, by simpa [hf h1] using hh⟩)

private theorem eq_ybSX (ha : g.accepted = true) (hf : g.freeSurface ≠ 1) :
    (getters g s).DybSX = (getters g s').DybSX := by
  simp only [getters, staggered, plain_eq]
  split
  · rename_i hh
    rw [Bool.and_eq_true] at hh
    exact h _ ((held_staggered g ha hh.1 hh.2).2.2.1 hf).1
  · exact h _ (held_yb g)

private theorem eq_ybSZ (ha : g.accepted = true) (h3 : g.kind.threeD = true)
    (hf : g.freeSurface ≠ 1) : (getters g s).DybSZ = (getters g s').DybSZ := by
  simp only [getters, staggered, plain_eq]
  split
  · rename_i hh
    rw [Bool.and_eq_true] at hh
    exact h _ (((held_staggered g ha hh.1 hh.2).2.2.1 hf).2 h3)
  · exact h _ (held_yb g)

private theorem eq_ybSXFS (ha : g.accepted = true) (he : g.kind.isElastic = true)
    (hf : g.freeSurface = 1) : (getters g s).DybSXFS = (getters g s').DybSXFS := by
  have hb := eq_ybFS h hf he
  simp only [getters, staggered] at hb ⊢
  split
  · rename_i hh
    rw [Bool.and_eq_true] at hh
    exact h _ ((held_staggered g ha hh.1 hh.2).2.2.2 hf).1
  · rename_i hh
    exact hb (by simpa [he] using hh)

private theorem eq_ybSZFS (ha : g.accepted = true) (he : g.kind.isElastic = true)
    (h3 : g.kind.threeD = true) (hf : g.freeSurface = 1) :
    (getters g s).DybSZFS = (getters g s').DybSZFS := by
  have hb := eq_ybFS h hf he
  simp only [getters, staggered] at hb ⊢
  split
  · rename_i hh
    rw [Bool.and_eq_true] at hh
    exact h _ (((held_staggered g ha hh.1 hh.2).2.2.2 hf).2 h3)
  · rename_i hh
    exact hb (by simpa [he] using hh)

end

private theorem selFS_congr {c : BC ι} {A B A' B' : Matrix ι ι ℝ}
    (h1 : c.useFreeSurface = 1 → A = A') (h0 : c.useFreeSurface ≠ 1 → B = B') :
    selFS c A B = selFS c A' B' := by
  unfold selFS
  split
  · exact h1 ‹_›
  · exact h0 ‹_›

/-! ### The property theorems -/

/-- **C104** (accepted configurations other than those of `Lacking`). The whole solver, and so every
seismogram and wavefield it ever computes, is determined by the matrices that have been built and not
purged: a matrix without contents is never applied. -/
theorem C104_applies_only_built_matrices_partial (g : Cfg) (ha : g.accepted = true)
    (hl : ¬ Lacking g) (s s' : Store ι) (h : Agree g s s') (m : Solver.Mod ι) (e : EMod ι) (c : BC ι)
    (hc : c.useFreeSurface = g.freeSurface) :
    solverFor g s m e c = solverFor g s' m e c := by
  obtain ⟨hxf, hxb⟩ := eq_x h
  have hyb := eq_yb h
  obtain ⟨hi1, hi2, hi3, hi4⟩ := eq_inter h
  have hz := eq_z h
  have hem : g.kind ∈ [.tmem2D, .emem2D, .viscotmem2D, .viscoemem2D, .emem3D, .viscoemem3D] →
      g.freeSurface ≠ 1 := fun hk h1 => hl ⟨h1, Or.inl hk⟩
  have hsh : g.kind ∈ [.sh2D, .viscosh2D, .viscoelastic2D, .viscoelastic3D] →
      g.freeSurface = 1 → g.useVariableGrid = false := fun hk h1 => by
    by_contra hv
    exact hl ⟨h1, Or.inr ⟨by simpa using hv, hk⟩⟩
  have hyf0 : c.useFreeSurface ≠ 1 → (getters g s).Dyf = (getters g s').Dyf := fun h0 =>
    eq_yf h ha fun h1 => absurd (hc ▸ h1) h0
  have hselF : selFS c (getters g s).DyfFS (getters g s).Dyf =
      selFS c (getters g s').DyfFS (getters g s').Dyf :=
    selFS_congr (fun h1 => eq_yfFS h (hc ▸ h1)) hyf0
  unfold solverFor
  match hk : g.kind with
  | .acoustic2D =>
    simp only [Kind.solver, acoustic2DSolver, acoustic2D, hselF, hxf, hxb, hyb, hi1, hi2]
  | .acoustic3D =>
    obtain ⟨hzf, hzb⟩ := hz (by rw [hk]; rfl)
    simp only [Kind.solver, acoustic3DSolver, acoustic3D, hxf, hxb, hyb, hzf, hzb, hi1, hi2, hi3, hselF]
  | .elastic2D =>
    have he : g.kind.isElastic = true := by rw [hk]; rfl
    have hselB : selFS c (getters g s).DybSXFS (getters g s).DybSX =
        selFS c (getters g s').DybSXFS (getters g s').DybSX :=
      selFS_congr (fun h1 => eq_ybSXFS h ha he (hc ▸ h1)) (fun h0 => eq_ybSX h ha (hc ▸ h0))
    have hyfx := eq_yfSX h ha (fun _ => he)
    simp only [Kind.solver, elastic2DSolver, elastic2D, hxf, hxb, hyb, hi1, hi2, hselF, hselB, hyfx]
  | .elastic3D =>
    have he : g.kind.isElastic = true := by rw [hk]; rfl
    have h3 : g.kind.threeD = true := by rw [hk]; rfl
    obtain ⟨hzf, hzb⟩ := hz h3
    have hselB : selFS c (getters g s).DybSXFS (getters g s).DybSX =
        selFS c (getters g s').DybSXFS (getters g s').DybSX :=
      selFS_congr (fun h1 => eq_ybSXFS h ha he (hc ▸ h1)) (fun h0 => eq_ybSX h ha (hc ▸ h0))
    have hselZ : selFS c (getters g s).DybSZFS (getters g s).DybSZ =
        selFS c (getters g s').DybSZFS (getters g s').DybSZ :=
      selFS_congr (fun h1 => eq_ybSZFS h ha he h3 (hc ▸ h1)) (fun h0 => eq_ybSZ h ha h3 (hc ▸ h0))
    have hyfx := eq_yfSX h ha (fun _ => he)
    have hyfz := eq_yfSZ h ha h3 (fun _ => he)
    simp only [Kind.solver, elastic3DSolver, elastic3D, hxf, hxb, hyb, hzf, hzb, hi1, hi2, hi3, hi4,
      hselF, hselB, hselZ, hyfx, hyfz]
  | .sh2D =>
    have he : g.kind.isElastic = true := by rw [hk]; rfl
    have hv := hsh (by rw [hk]; decide)
    have hselB : selFS c (getters g s).DybFS (getters g s).Dyb =
        selFS c (getters g s').DybFS (getters g s').Dyb :=
      selFS_congr (fun h1 => eq_ybFS h (hc ▸ h1) he (hv (hc ▸ h1))) (fun _ => hyb)
    have hyf := eq_yf h ha (fun h1 => ⟨he, hv h1⟩)
    simp only [Kind.solver, sh2DSolver, sh2D, hxf, hxb, hselB, hyf]
  | .viscosh2D =>
    have he : g.kind.isElastic = true := by rw [hk]; rfl
    have hv := hsh (by rw [hk]; decide)
    have hselB : selFS c (getters g s).DybFS (getters g s).Dyb =
        selFS c (getters g s').DybFS (getters g s').Dyb :=
      selFS_congr (fun h1 => eq_ybFS h (hc ▸ h1) he (hv (hc ▸ h1))) (fun _ => hyb)
    have hyf := eq_yf h ha (fun h1 => ⟨he, hv h1⟩)
    simp only [Kind.solver, viscosh2DSolver, viscosh2D, hxf, hxb, hselB, hyf]
  | .viscoelastic2D =>
    have he : g.kind.isElastic = true := by rw [hk]; rfl
    have hv := hsh (by rw [hk]; decide)
    have hselB : selFS c (getters g s).DybFS (getters g s).Dyb =
        selFS c (getters g s').DybFS (getters g s').Dyb :=
      selFS_congr (fun h1 => eq_ybFS h (hc ▸ h1) he (hv (hc ▸ h1))) (fun _ => hyb)
    have hyf := eq_yf h ha (fun h1 => ⟨he, hv h1⟩)
    simp only [Kind.solver, viscoelastic2DSolver, viscoelastic2D, hselF, hselB]
    simp only [hxf, hxb, hyb, hyf]
  | .viscoelastic3D =>
    have he : g.kind.isElastic = true := by rw [hk]; rfl
    have hv := hsh (by rw [hk]; decide)
    obtain ⟨hzf, hzb⟩ := hz (by rw [hk]; rfl)
    have hselB : selFS c (getters g s).DybFS (getters g s).Dyb =
        selFS c (getters g s').DybFS (getters g s').Dyb :=
      selFS_congr (fun h1 => eq_ybFS h (hc ▸ h1) he (hv (hc ▸ h1))) (fun _ => hyb)
    have hyf := eq_yf h ha (fun h1 => ⟨he, hv h1⟩)
    simp only [Kind.solver, viscoelastic3DSolver, viscoelastic3D, hselF, hselB]
    simp only [hxf, hxb, hyb, hzf, hzb, hyf]
  | .tmem2D =>
    have h0 := hem (by rw [hk]; decide)
    have hyf := hyf0 (by rwa [hc])
    simp only [Kind.solver, tmem2DSolver, tmem2D, hxf, hxb, hyb, hyf]
  | .viscotmem2D =>
    have h0 := hem (by rw [hk]; decide)
    have hyf := hyf0 (by rwa [hc])
    simp only [Kind.solver, viscotmem2DSolver, viscotmem2D, hxf, hxb, hyb, hyf]
  | .emem2D =>
    have h0 := hem (by rw [hk]; decide)
    have hyf := hyf0 (by rwa [hc])
    simp only [Kind.solver, emem2DSolver, emem2D, hxf, hxb, hyf, eq_ybSX h ha h0]
  | .viscoemem2D =>
    have h0 := hem (by rw [hk]; decide)
    have hyf := hyf0 (by rwa [hc])
    simp only [Kind.solver, viscoemem2DSolver, viscoemem2D, hxf, hxb, hyf, eq_ybSX h ha h0]
  | .emem3D =>
    have h0 := hem (by rw [hk]; decide)
    have h3 : g.kind.threeD = true := by rw [hk]; rfl
    obtain ⟨hzf, hzb⟩ := hz h3
    simp only [Kind.solver, emem3DSolver, emem3D, magnetic3D, hxf, hxb, hzf, hzb, eq_ybSX h ha h0,
      eq_ybSZ h ha h3 h0, eq_yfSX h ha (fun h1 => absurd h1 h0), eq_yfSZ h ha h3 (fun h1 => absurd h1 h0)]
  | .viscoemem3D =>
    have h0 := hem (by rw [hk]; decide)
    have h3 : g.kind.threeD = true := by rw [hk]; rfl
    obtain ⟨hzf, hzb⟩ := hz h3
    simp only [Kind.solver, viscoemem3DSolver, viscoemem3D, magnetic3D, hxf, hxb, hzf, hzb,
      eq_ybSX h ha h0, eq_ybSZ h ha h3 h0, eq_yfSX h ha (fun h1 => absurd h1 h0),
      eq_yfSZ h ha h3 (fun h1 => absurd h1 h0)]

/-- **C104 is violated** in exactly the remaining accepted configurations: whatever the contents of the
matrices, the model and the absorbing boundaries, every time step multiplies by a matrix that was
purged or never built. -/
theorem C104_applies_missing_matrix_violated (g : Cfg) (ha : g.accepted = true) (hl : Lacking g)
    (s : Store ι) (m : Solver.Mod ι) (e : EMod ι) (c : BC ι) (_hc : c.useFreeSurface = g.freeSurface) :
    ∃ mem, prepare g mem = false ∧ ∃ d v, Stmt.mul d (s mem) v ∈ (solverFor g s m e c).prog := by
  obtain ⟨h1, hk⟩ := hl
  have hel : g.kind.isElastic = true → g.useVariableGrid = true := by
    intro he
    rcases hk with hk | hk
    · simp only [List.mem_cons, List.not_mem_nil, or_false] at hk
      rcases hk with hk | hk | hk | hk | hk | hk <;> simp [hk, Kind.isElastic] at he
    · exact hk.1
  refine ⟨cur g .Dyf, ?_, ?_⟩
  · rw [← Bool.not_eq_true, held_yf g ha]
    intro hh
    have := hh h1
    simp [hel this.1] at this
  rw [← plain_eq g s .Dyf]
  unfold solverFor
  rcases hk with hk | ⟨-, hk⟩ <;> simp only [List.mem_cons, List.not_mem_nil, or_false] at hk
  · rcases hk with hk | hk | hk | hk | hk | hk
    · exact ⟨U, .fld .eZ, by simp [hk, Kind.solver, tmem2DSolver, tmem2D, getters]⟩
    · exact ⟨UT, .fld .eX, by simp [hk, Kind.solver, emem2DSolver, emem2D, getters]⟩
    · exact ⟨U, .fld .eZ, by simp [hk, Kind.solver, viscotmem2DSolver, viscotmem2D, getters]⟩
    · exact ⟨UT, .fld .eX, by simp [hk, Kind.solver, viscoemem2DSolver, viscoemem2D, getters]⟩
    · exact ⟨U, .fld .eZ, by
        simp [hk, Kind.solver, emem3DSolver, emem3D, magnetic3D, getters, staggered, Kind.isElastic]⟩
    · exact ⟨U, .fld .eZ, by
        simp [hk, Kind.solver, viscoemem3DSolver, viscoemem3D, magnetic3D, getters, staggered,
          Kind.isElastic]⟩
  · rcases hk with hk | hk | hk | hk
    · exact ⟨U, .fld .vZ, by simp [hk, Kind.solver, sh2DSolver, sh2D, getters]⟩
    · exact ⟨U, .fld .vZ, by simp [hk, Kind.solver, viscosh2DSolver, viscosh2D, getters]⟩
    · exact ⟨U, .fld .vX, by simp [hk, Kind.solver, viscoelastic2DSolver, viscoelastic2D, getters]⟩
    · exact ⟨U, .fld .vX, by simp [hk, Kind.solver, viscoelastic3DSolver, viscoelastic3D, getters]⟩

/-- A model of one grid point without relaxation mechanism. -/
private def mod1 : Solver.Mod Unit where
  invRho := 1
  invRhoX := 1
  invRhoY := 1
  invRhoZ := 1
  pMod := 1
  sMod := 1
  sModXY := 1
  sModXZ := 1
  sModYZ := 1
  tauP := 0
  tauS := 0
  tauSXY := 0
  tauSXZ := 0
  tauSYZ := 0
  L := 0
  relaxTime := 1
  DT := 1

private def emod1 : EMod Unit where
  invMuXY := 1
  invMuXZ := 1
  invMuYZ := 1
  eps := 1
  sig := 0
  tauEps := 0
  tauSig := 0
  epsVac := 1
  L := 0
  relaxTime := 1
  DT := 1

private def bc1 (n : ℕ) : BC Unit where
  useFreeSurface := n
  damping := none
  pml := none
  onSurface := fun _ => true

/-- A 3D elastic simulation with free surface on a variable grid: accepted, all matrices there, although
`Dyf` and `DybStaggeredX` are not. -/
example : (⟨.elastic3D, 1, true, 2, false, false, true⟩ : Cfg).accepted = true ∧
    ¬ Lacking ⟨.elastic3D, 1, true, 2, false, false, true⟩ ∧
    prepare ⟨.elastic3D, 1, true, 2, false, false, true⟩ (.sparse .Dyf) = false ∧
    prepare ⟨.elastic3D, 1, true, 2, false, false, true⟩ .DybStaggeredX = false := by
  refine ⟨by decide, ?_, by decide, by decide⟩
  simp [Lacking]

/-- An electromagnetic simulation with `FreeSurface=1` on a regular grid is accepted and lacks `Dyf`. -/
example : (⟨.emem2D, 1, false, 1, true, false, false⟩ : Cfg).accepted = true ∧
    Lacking ⟨.emem2D, 1, false, 1, true, false, false⟩ ∧
    prepare ⟨.emem2D, 1, false, 1, true, false, false⟩ (.stencil .Dyf) = false := by
  refine ⟨by decide, ?_, by decide⟩
  simp [Lacking]

/-- A viscoelastic simulation with free surface on a variable grid is accepted and lacks `Dyf`. -/
example : (⟨.viscoelastic3D, 1, true, 0, false, false, false⟩ : Cfg).accepted = true ∧
    Lacking ⟨.viscoelastic3D, 1, true, 0, false, false, false⟩ ∧
    prepare ⟨.viscoelastic3D, 1, true, 0, false, false, false⟩ (.sparse .Dyf) = false ∧
    prepare ⟨.viscoelastic3D, 1, true, 0, false, false, false⟩ .DybFreeSurfaceSparse = false := by
  refine ⟨by decide, ?_, by decide, by decide⟩
  simp [Lacking]

/-- **C104, exact extent.** For every accepted configuration: the solver is determined by the matrices
that exist if and only if the configuration is not one of `Lacking`. -/
theorem C104_exactly_these_configurations (g : Cfg) (ha : g.accepted = true) :
    (∀ (s s' : Store Unit), Agree g s s' → ∀ (m : Solver.Mod Unit) (e : EMod Unit) (c : BC Unit),
      c.useFreeSurface = g.freeSurface → solverFor g s m e c = solverFor g s' m e c) ↔
    ¬ Lacking g := by
  refine ⟨fun h hl => ?_, fun hl s s' h m e c hc =>
    C104_applies_only_built_matrices_partial g ha hl s s' h m e c hc⟩
  obtain ⟨mem, hm, d, v, hmem⟩ := C104_applies_missing_matrix_violated g ha hl
    (fun x => if prepare g x then (0 : Matrix Unit Unit ℝ) else 1) mod1 emod1 (bc1 g.freeSurface) rfl
  rw [← h (fun _ => 0) _ (fun x hx => by simp [hx]) mod1 emod1 (bc1 g.freeSurface) rfl] at hmem
  simp only [hm, Bool.false_eq_true, if_false] at hmem
  obtain ⟨h1, hk⟩ := hl
  unfold solverFor at hmem
  have hg : ∀ D : Deriv Unit, D = getters g (fun _ => (0 : Matrix Unit Unit ℝ)) →
      D.Dxf = 0 ∧ D.Dxb = 0 ∧ D.Dyf = 0 ∧ D.Dyb = 0 ∧ D.Dzf = 0 ∧ D.Dzb = 0 ∧ D.DyfFS = 0 ∧
      D.DybFS = 0 ∧ D.DyfSX = 0 ∧ D.DybSX = 0 ∧ D.DyfSZ = 0 ∧ D.DybSZ = 0 := by
    rintro D rfl
    simp [getters, plain, dyfFree, dybFree, staggered]
  generalize hD : getters g (fun _ => (0 : Matrix Unit Unit ℝ)) = D at hmem
  obtain ⟨a1, a2, a3, a4, a5, a6, a7, a8, a9, a10, a11, a12⟩ := hg D hD.symm
  have hone : (1 : Matrix Unit Unit ℝ) ≠ 0 := one_ne_zero
  rcases hk with hk | ⟨-, hk⟩ <;> simp only [List.mem_cons, List.not_mem_nil, or_false] at hk
  · rcases hk with hk | hk | hk | hk | hk | hk <;> rw [hk] at hmem
    · simp [Kind.solver, tmem2DSolver, tmem2D, cpmlHalf, cpmlFull, damp, bc1, eUpdate, a1, a2, a3, a4] at hmem
    · simp [Kind.solver, emem2DSolver, emem2D, cpmlHalf, cpmlFull, damp, bc1, eUpdate, a1, a2, a3, a10] at hmem
    · simp [Kind.solver, viscotmem2DSolver, viscotmem2D, cpmlHalf, cpmlFull, damp, bc1, eUpdate, forLoop,
        rSubtract, emod1, a1, a2, a3, a4] at hmem
    · simp [Kind.solver, viscoemem2DSolver, viscoemem2D, cpmlHalf, cpmlFull, damp, bc1, eUpdate, forLoop,
        rSubtract, emod1, a1, a2, a3, a10] at hmem
    · simp [Kind.solver, emem3DSolver, emem3D, magnetic3D, cpmlHalf, cpmlFull, damp, bc1, eUpdate,
        a1, a2, a5, a6, a9, a10, a11, a12] at hmem
    · simp [Kind.solver, viscoemem3DSolver, viscoemem3D, magnetic3D, cpmlHalf, cpmlFull, damp, bc1, eUpdate,
        forLoop, rSubtract, emod1, a1, a2, a5, a6, a9, a10, a11, a12] at hmem
  · rcases hk with hk | hk | hk | hk <;> rw [hk] at hmem
    · simp [Kind.solver, sh2DSolver, sh2D, cpmlHalf, cpmlFull, damp, bc1, selFS, h1, a1, a2, a3, a8] at hmem
    · simp [Kind.solver, viscosh2DSolver, viscosh2D, cpmlHalf, cpmlFull, damp, bc1, selFS, h1, forLoop,
        relaxShear, mod1, a1, a2, a3, a8] at hmem
    · simp [Kind.solver, viscoelastic2DSolver, viscoelastic2D, cpmlHalf, cpmlFull, damp, bc1, selFS, h1,
        forLoop, relaxShear, relaxNormal, relaxTrans, exchangeVisco, surfaceZero, mod1, a1, a2, a3, a4,
        a7, a8] at hmem
    · simp [Kind.solver, viscoelastic3DSolver, viscoelastic3D, cpmlHalf, cpmlFull, damp, bc1, selFS, h1,
        forLoop, relaxShear, relaxNormal, relaxTrans, exchangeVisco, surfaceZero, mod1, ifFS, a1, a2, a3,
        a4, a5, a6, a7, a8] at hmem

/-- The members that hold derivative matrices; the stencil parts of the two hybrid matrices belong to
the same matrix as the sparse parts. -/
private def derivMembers : List Member :=
  [.stencil .Dxf, .stencil .Dyf, .stencil .Dzf, .stencil .Dxb, .stencil .Dyb, .stencil .Dzb,
   .sparse .Dxf, .sparse .Dyf, .sparse .Dzf, .sparse .Dxb, .sparse .Dyb, .sparse .Dzb,
   .DyfStaggeredX, .DybStaggeredX, .DyfStaggeredZ, .DybStaggeredZ, .DyfFreeSurfaceSparse,
   .DybFreeSurfaceSparse, .DybStaggeredXFreeSurface, .DybStaggeredZFreeSurface]

private def interMembers : List Member :=
  [.interFull, .interStaggeredX, .interStaggeredZ, .interStaggeredXZ]

/-- `prepare` depends on `FreeSurface` only through the comparison with 1, and not on the partitioning. -/
private def prepareB (k : Kind) (fs vg st hy : Bool) : Held :=
  prepare ⟨k, if fs then 1 else 0, vg, 0, st, hy, false⟩

private theorem prepare_eq_prepareB (g : Cfg) : prepare g =
    prepareB g.kind (g.freeSurface == 1) g.useVariableGrid g.useStencilMatrix g.useHybridFreeSurface := by
  obtain ⟨k, fs, vg, p, st, hy, vf⟩ := g
  unfold prepareB
  rw [prepare_eq, prepare_eq]
  by_cases h1 : fs = 1
  · subst h1
    rfl
  · have h2 : (fs == 1) = false := by simpa using h1
    simp only [h2, initialize2D, initialize3D, bne]
    rfl

private theorem count_prepareB : ∀ (k : Kind) (b vg st hy : Bool), (st && vg) = false →
    (derivMembers.countP (prepareB k b vg st hy) =
      if k.threeD then
        6 + (if vg && k.isElastic then 4 else 0) + (if b && k.isElastic && !vg then 2 else 0)
      else 4 + (if (vg || b) && k.isElastic then 2 else 0)) ∧
    interMembers.countP (prepareB k b vg st hy) =
      if k.threeD then (if vg then 3 + (if k.isElastic then 1 else 0) else 0)
      else (if vg then 2 else 0) := by
  intro k
  cases k <;> decide +kernel

/-- **C105.** In every accepted configuration the memory estimate that is printed before the run counts
exactly the derivative and interpolation matrices that are held when the time stepping starts. -/
theorem C105_estimate_counts_held_matrices (g : Cfg) (ha : g.accepted = true) :
    derivMembers.countP (prepare g) = numDMatrices g ∧
    interMembers.countP (prepare g) = numInterpMatrices g := by
  have hs : (g.useStencilMatrix && g.useVariableGrid) = false := by
    simp only [Cfg.accepted, Bool.and_eq_true, Bool.or_eq_true, beq_iff_eq, Bool.not_eq_true',
      Bool.and_eq_false_iff, bne_eq_false_iff_eq] at ha ⊢
    obtain ⟨⟨⟨h1, h2⟩, -⟩, -⟩ := ha
    rcases h2 with h2 | h2
    · rcases h1 with h1 | h1
      · omega
      · exact Or.inr h1.2
    · exact Or.inl h2
  rw [prepare_eq_prepareB]
  exact count_prepareB _ _ _ _ _ hs

/-- 3D elastic, free surface, variable grid: 10 derivative matrices and 4 interpolation matrices. -/
example : (⟨.elastic3D, 1, true, 3, false, false, false⟩ : Cfg).accepted = true ∧
    numDMatrices ⟨.elastic3D, 1, true, 3, false, false, false⟩ = 10 ∧
    numInterpMatrices ⟨.elastic3D, 1, true, 3, false, false, false⟩ = 4 := by decide

end Verif.MatSetup
