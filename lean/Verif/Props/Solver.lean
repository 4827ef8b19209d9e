import Verif.Lemmas.SolverShots
import Verif.Lemmas.SU
import Mathlib.Data.Fintype.Basic
import Mathlib.Tactic.NormNum
/-!
# Linearity, independence of shots and the free surface
-/
set_option linter.dupNamespace false
set_option linter.unusedSectionVars false

namespace Verif.Solver
open Matrix

variable {ι : Type} [Fintype ι] [DecidableEq ι]

/-! ### Examples used below -/

/-- Two grid points with simple derivatives. -/
noncomputable def exD : Deriv (Fin 2) :=
  let F : Matrix (Fin 2) (Fin 2) ℝ := !![-1, 1; 0, -1]
  let B : Matrix (Fin 2) (Fin 2) ℝ := !![1, 0; -1, 1]
  ⟨F, B, F, B, F, B, F, B, F, B, F, B, B, B, none, none, none, none⟩

/-- Model with all parameters 1 and one relaxation mechanism. -/
noncomputable def exM : Mod (Fin 2) :=
  ⟨1, 1, 1, 1, 1, 1, 1, 1, 1, 1, 1, 1, 1, 1, 1, fun _ => 1, 1⟩

/-- Free surface at the first point, CPML and no damping. -/
noncomputable def exBC : BC (Fin 2) := ⟨1, none, some ⟨1, 1, 1, 1⟩, fun i => i = 0⟩

/-- A shot with a pressure source and a receiver. -/
def exShot : Shot (Fin 2) := ⟨[⟨.P, 1, fun _ => 1⟩], [⟨.P, 1⟩], 3⟩

/-! ### C29 -/

/-- Any sequence of shots in one process gives exactly the seismograms each shot gives alone; an
exception occurs exactly if one of the shots alone throws. The memory variables start at zero
(`CPML*::init`), everything else may start with any contents. -/
theorem C29_shots_independent {D : Deriv ι} {c : BC ι} {S : Solver ι} (h : IsSolver D c S)
    (s : State ι) (hs : ∀ v ∈ S.memory, s v = 0) (shots : List (Shot ι)) :
    runShots S s shots = shots.mapM (fun sh => do
      let r ← runShot S sh 0
      pure r.1) := by
  induction shots generalizing s with
  | nil => simp [runShots, Out.pure_eq]
  | cons sh rest ih =>
    rw [runShots, List.mapM_cons]
    rcases h.runShot_eq hs (s' := 0) (fun _ _ => rfl) sh with ⟨h1, h2⟩ | ⟨g, t, t', h1, h2, h3⟩
    · simp [h1, h2]
    · rw [h1, h2]
      simp only [Out.bind_ok]
      rw [ih t h3]
      simp only [Out.pure_eq, Out.bind_ok]

/-- The seismogram of a shot in the middle of a sequence is the one the shot gives alone. -/
theorem C29_history_irrelevant {D : Deriv ι} {c : BC ι} {S : Solver ι} (h : IsSolver D c S)
    (s : State ι) (hs : ∀ v ∈ S.memory, s v = 0) (before after : List (Shot ι)) (sh : Shot ι)
    (gs : List Gather) (hr : runShots S s (before ++ sh :: after) = .ok gs) :
    ∃ g, runShots S 0 [sh] = .ok [g] ∧ gs[before.length]? = some g := by
  rw [C29_shots_independent h s hs, SU.mapM_eq_ok] at hr
  rw [C29_shots_independent h 0 (fun _ _ => rfl)]
  have h1 := congrArg (fun l => l[before.length]?) hr
  simp only [List.map_append, List.map_cons, List.getElem?_map] at h1
  rw [List.getElem?_append_right (by simp)] at h1
  simp only [List.length_map, Nat.sub_self, List.getElem?_cons_zero] at h1
  cases hg : gs[before.length]? with
  | none => simp [hg] at h1
  | some g =>
    refine ⟨g, ?_, rfl⟩
    rw [SU.mapM_eq_ok, List.map_cons, List.map_nil, List.map_cons, List.map_nil]
    rw [hg] at h1
    exact congrArg (· :: []) (Option.some.inj h1)

/-- Repeating the same shot repeats its seismogram exactly, whatever ran in between. -/
theorem C29_repeatable {D : Deriv ι} {c : BC ι} {S : Solver ι} (h : IsSolver D c S)
    (s : State ι) (hs : ∀ v ∈ S.memory, s v = 0) (between : List (Shot ι)) (sh : Shot ι)
    (gs : List Gather) (hr : runShots S s (sh :: between ++ [sh]) = .ok gs) :
    gs.head? = gs.getLast? := by
  obtain ⟨g, h1, h2⟩ := C29_history_irrelevant h s hs [] (between ++ [sh]) sh gs (by simpa using hr)
  obtain ⟨g', h1', h2'⟩ := C29_history_irrelevant h s hs (sh :: between) [] sh gs (by simpa using hr)
  rw [h1] at h1'
  have hl : gs.length = (sh :: between ++ [sh]).length := by
    rw [C29_shots_independent h s hs, SU.mapM_eq_ok] at hr
    simpa using (congrArg List.length hr).symm
  have e : g = g' := by simpa using h1'
  rw [List.head?_eq_getElem?, List.getLast?_eq_getElem?, hl]
  simp only [List.length_nil] at h2
  simp only [List.length_cons, List.length_append, List.length_nil] at h2' ⊢
  rw [h2, e, ← h2']
  simp

/-- Example: acoustic modelling with CPML, the same shot three times. -/
example : ∃ gs, runShots (acoustic2DSolver exD exM exBC) 0 [exShot, exShot, exShot] = .ok gs :=
  ⟨_, by
    simp [runShots, runShot, acoustic2DSolver, exShot, Shot.supported, single, src2Dacoustic,
      Out.pure_eq]
    rfl⟩

/-! ### C28 -/

/-- Seismograms combined sample by sample. -/
def combine (a b : ℝ) (g g' : Gather) : Gather :=
  List.zipWith (List.zipWith fun x y => a * x + b * y) g g'

private theorem runShots_single {S : Solver ι} {sh : Shot ι} {g : Gather}
    (h : runShots S 0 [sh] = .ok [g]) :
    (sh.nt = 0 ∨ (S.ready = true ∧ sh.supported S = true)) ∧
    g = sh.receivers.map fun r => (List.range sh.nt).map fun t =>
      sample S sh.sources (clear S.fields 0) r t := by
  simp only [runShots, runShot] at h
  split at h
  · simp at h
  · rename_i hn
    simp only [Out.bind_ok, Out.pure_eq] at h
    refine ⟨?_, ?_⟩
    · by_cases h0 : sh.nt = 0
      · exact .inl h0
      · right
        simpa [h0] using hn
    · have := Out.ok.inj h
      simp only [List.cons.injEq, and_true] at this
      exact this.symm

private theorem clear_zero (vs : List Var) : clear vs (0 : State ι) = 0 := by
  funext v
  simp [clear]

/-- Seismograms depend linearly on the sources: exciting all sources of `A`, with signals multiplied
by `a`, together with all sources of `B`, multiplied by `b`, gives `a` times the seismogram of `A`
plus `b` times the seismogram of `B`. Holds for all solvers, with free surface, damping, CPML and
variable grids. -/
theorem C28_superposition (S : Solver ι) (a b : ℝ) (A B : List (Source ι)) (recs : List (Receiver ι)) (nt : ℕ) (gA gB : Gather)
    (hA : runShots S 0 [⟨A, recs, nt⟩] = .ok [gA]) (hB : runShots S 0 [⟨B, recs, nt⟩] = .ok [gB]) :
    runShots S 0 [⟨A.map (fun q => { q with signal := fun t => a * q.signal t }) ++
        B.map (fun q => { q with signal := fun t => b * q.signal t }), recs, nt⟩] =
      .ok [combine a b gA gB] := by
  obtain ⟨hA1, rfl⟩ := runShots_single hA
  obtain ⟨hB1, rfl⟩ := runShots_single hB
  have hg : ¬(nt ≠ 0 ∧ (S.ready && Shot.supported S ⟨weighted a A ++ weighted b B, recs, nt⟩) =
      false) := by
    rintro ⟨h0, h1⟩
    obtain ⟨hr, hA2⟩ := hA1.resolve_left h0
    obtain ⟨-, hB2⟩ := hB1.resolve_left h0
    simp only [Shot.supported, Bool.and_eq_true, List.all_eq_true] at hA2 hB2
    rw [hr, Bool.true_and] at h1
    have : Shot.supported S ⟨weighted a A ++ weighted b B, recs, nt⟩ = true := by
      simp only [Shot.supported, weighted, Bool.and_eq_true, List.all_eq_true, List.mem_append,
        List.mem_map]
      refine ⟨?_, hA2.2⟩
      rintro q (⟨q, hq, rfl⟩ | ⟨q, hq, rfl⟩)
      · exact hA2.1 q hq
      · exact hB2.1 q hq
    rw [this] at h1
    cases h1
  change runShots S 0 [⟨weighted a A ++ weighted b B, recs, nt⟩] = _
  simp only [runShots, runShot, if_neg hg, Out.bind_ok, Out.pure_eq, combine, clear_zero]
  congr 2
  rw [List.zipWith_map, List.zipWith_self]
  refine List.map_congr_left fun r _ => ?_
  rw [List.zipWith_map, List.zipWith_self]
  refine List.map_congr_left fun t _ => ?_
  have := sample_lin S a b A B 0 0 r t
  simpa using this

/-- The same for sources at the same places: combining the signals source by source combines the
seismograms. -/
theorem C28_linear_in_signals (S : Solver ι) (a b : ℝ) (srcs : List (SType × ι × (ℕ → ℝ) × (ℕ → ℝ))) (recs : List (Receiver ι)) (nt : ℕ)
    (gA gB : Gather)
    (hA : runShots S 0 [⟨srcs.map fun q => ⟨q.1, q.2.1, q.2.2.1⟩, recs, nt⟩] = .ok [gA])
    (hB : runShots S 0 [⟨srcs.map fun q => ⟨q.1, q.2.1, q.2.2.2⟩, recs, nt⟩] = .ok [gB]) :
    runShots S 0 [⟨srcs.map fun q => ⟨q.1, q.2.1, fun t => a * q.2.2.1 t + b * q.2.2.2 t⟩, recs,
        nt⟩] =
      .ok [combine a b gA gB] := by
  have key := C28_superposition S a b _ _ recs nt gA gB hA hB
  obtain ⟨hC1, hC⟩ := runShots_single key
  have hg : ¬(nt ≠ 0 ∧ (S.ready && Shot.supported S ⟨srcs.map fun q => ⟨q.1, q.2.1, fun t =>
      a * q.2.2.1 t + b * q.2.2.2 t⟩, recs, nt⟩) = false) := by
    rintro ⟨h0, h1⟩
    obtain ⟨hr, hC2⟩ := hC1.resolve_left h0
    simp only [Shot.supported, Bool.and_eq_true, List.all_eq_true, List.mem_append,
      List.mem_map] at hC2
    rw [hr, Bool.true_and] at h1
    have : Shot.supported S ⟨srcs.map fun q => ⟨q.1, q.2.1, fun t =>
      a * q.2.2.1 t + b * q.2.2.2 t⟩, recs, nt⟩ = true := by
      simp only [Shot.supported, Bool.and_eq_true, List.all_eq_true, List.mem_map]
      refine ⟨?_, hC2.2⟩
      rintro q ⟨q, hq, rfl⟩
      exact hC2.1 ⟨q.1, q.2.1, fun t => a * q.2.2.1 t⟩ (.inl ⟨⟨q.1, q.2.1, q.2.2.1⟩, ⟨q, hq, rfl⟩, rfl⟩)
    rw [this] at h1
    cases h1
  simp only [runShots, runShot, if_neg hg, Out.bind_ok, Out.pure_eq, hC]
  have hsrc : ∀ t (s : State ι), applySource S (srcs.map fun q => (⟨q.1, q.2.1, fun t =>
      a * q.2.2.1 t + b * q.2.2.2 t⟩ : Source ι)) t s =
      applySource S ((srcs.map fun q => (⟨q.1, q.2.1, q.2.2.1⟩ : Source ι)).map
        (fun q => { q with signal := fun t => a * q.signal t }) ++
        (srcs.map fun q => (⟨q.1, q.2.1, q.2.2.2⟩ : Source ι)).map
        (fun q => { q with signal := fun t => b * q.signal t })) t s := by
    intro t s
    funext v
    cases v with
    | fld f =>
      funext i
      simp only [applySource, List.map_append, List.sum_append, List.map_map]
      congr 1
      clear hA hB key hC1 hC hg
      induction srcs with
      | nil => simp
      | cons q srcs ih =>
        simp only [List.map_cons, List.sum_cons, Function.comp_apply, ih]
        split <;> ring
    | _ => rfl
  have hrun : ∀ n, run S (srcs.map fun q => (⟨q.1, q.2.1, fun t =>
      a * q.2.2.1 t + b * q.2.2.2 t⟩ : Source ι)) (clear S.fields 0) n =
      run S ((srcs.map fun q => (⟨q.1, q.2.1, q.2.2.1⟩ : Source ι)).map
        (fun q => { q with signal := fun t => a * q.signal t }) ++
        (srcs.map fun q => (⟨q.1, q.2.1, q.2.2.2⟩ : Source ι)).map
        (fun q => { q with signal := fun t => b * q.signal t })) (clear S.fields 0) n := by
    intro n
    induction n with
    | zero => rfl
    | succ n ih => rw [run, run, step, step, ih, hsrc]
  simp only [sample, hrun]

/-- Example: two pressure sources with different weights. -/
example : ∃ gA, runShots (elastic2DSolver exD exM exBC) 0 [exShot] = .ok [gA] :=
  ⟨_, by
    simp [runShots, runShot, elastic2DSolver, exShot, Shot.supported, rec2Delastic, src2Delastic,
      Out.pure_eq]
    rfl⟩

/-! ### C32 -/

private theorem exec_acoustic2D_p {D : Deriv ι} {m : Mod ι} {c : BC ι} (hfs : c.useFreeSurface = 1)
    {i : ι} (hi : c.onSurface i = true) (s : State ι) : exec (acoustic2D D m c) s (.fld .p) i = 0 := by
  rw [acoustic2D, exec_flatten_last _ (by simp)]
  simp only [List.getLast_cons, List.getLast_singleton, ne_eq, reduceCtorEq, not_false_eq_true, ifFS,
    hfs, if_true]
  exact exec_surfaceZero c _ _ hi

private theorem exec_acoustic3D_p {D : Deriv ι} {m : Mod ι} {c : BC ι} (hfs : c.useFreeSurface = 1)
    {i : ι} (hi : c.onSurface i = true) (s : State ι) : exec (acoustic3D D m c) s (.fld .p) i = 0 := by
  rw [acoustic3D, exec_flatten_last _ (by simp)]
  simp only [List.getLast_cons, List.getLast_singleton, ne_eq, reduceCtorEq, not_false_eq_true, ifFS,
    hfs, if_true]
  exact exec_surfaceZero c _ _ hi

/-- 2D acoustic modelling with a free surface: after every time step the pressure at a surface point
is the sum of the samples of the pressure sources at that very point. -/
theorem C32_surface_pressure_2D (D : Deriv ι) (m : Mod ι) (c : BC ι) (hfs : c.useFreeSurface = 1)
    {i : ι} (hi : c.onSurface i = true) (srcs : List (Source ι)) (s : State ι) (n : ℕ) :
    run (acoustic2DSolver D m c) srcs s (n + 1) (.fld .p) i =
      (srcs.map fun q => if q.ty = .P ∧ q.pos = i then q.signal n else 0).sum := by
  have h0 := exec_acoustic2D_p (D := D) (m := m) hfs hi (run (acoustic2DSolver D m c) srcs s n)
  rw [run, step, applySource]
  change exec (acoustic2D D m c) _ _ _ + _ = _
  rw [h0, zero_add]
  congr 1
  refine List.map_congr_left fun q _ => ?_
  have : Fld.p ∈ (acoustic2DSolver D m c).srcFlds q.ty ↔ q.ty = .P := by
    cases q.ty <;> simp [Solver.srcFlds, acoustic2DSolver, src2Dacoustic]
  simp only [this]

/-- 3D acoustic modelling with a free surface. -/
theorem C32_surface_pressure_3D (D : Deriv ι) (m : Mod ι) (c : BC ι) (hfs : c.useFreeSurface = 1)
    {i : ι} (hi : c.onSurface i = true) (srcs : List (Source ι)) (s : State ι) (n : ℕ) :
    run (acoustic3DSolver D m c) srcs s (n + 1) (.fld .p) i =
      (srcs.map fun q => if q.ty = .P ∧ q.pos = i then q.signal n else 0).sum := by
  have h0 := exec_acoustic3D_p (D := D) (m := m) hfs hi (run (acoustic3DSolver D m c) srcs s n)
  rw [run, step, applySource]
  change exec (acoustic3D D m c) _ _ _ + _ = _
  rw [h0, zero_add]
  congr 1
  refine List.map_congr_left fun q _ => ?_
  have : Fld.p ∈ (acoustic3DSolver D m c).srcFlds q.ty ↔ q.ty = .P := by
    cases q.ty <;> simp [Solver.srcFlds, acoustic3DSolver, src3Dacoustic]
  simp only [this]

/-- A pressure receiver on the free surface records zero if no source is there. -/
theorem C32_surface_receiver (D : Deriv ι) (m : Mod ι) (c : BC ι) (hfs : c.useFreeSurface = 1)
    {i : ι} (hi : c.onSurface i = true) (srcs : List (Source ι)) (hq : ∀ q ∈ srcs, q.pos ≠ i)
    (s : State ι) (t : ℕ) :
    sample (acoustic2DSolver D m c) srcs s ⟨.P, i⟩ t = 0 ∧
    sample (acoustic3DSolver D m c) srcs s ⟨.P, i⟩ t = 0 := by
  have h0 : (srcs.map fun q => if q.ty = .P ∧ q.pos = i then q.signal t else 0).sum = 0 := by
    apply List.sum_eq_zero
    intro x hx
    obtain ⟨q, hm, rfl⟩ := List.mem_map.mp hx
    simp [hq q hm]
  have h2 := C32_surface_pressure_2D D m c hfs hi srcs s t
  have h3 := C32_surface_pressure_3D D m c hfs hi srcs s t
  rw [h0] at h2 h3
  constructor
  · simp only [sample, gather, acoustic2DSolver, single, src2Dacoustic, Option.map_some,
      List.map_cons, List.map_nil, List.sum_cons, List.sum_nil, add_zero, mul_one]
    exact h2
  · simp only [sample, gather, acoustic3DSolver, single, src3Dacoustic, Option.map_some,
      List.map_cons, List.map_nil, List.sum_cons, List.sum_nil, add_zero, mul_one]
    exact h3

/-- Example: the model `exBC` has a surface point, and the shot's source is elsewhere. -/
example : exBC.useFreeSurface = 1 ∧ exBC.onSurface 0 = true ∧ ∀ q ∈ exShot.sources, q.pos ≠ 0 := by
  simp [exBC, exShot]

/-! ### C67: vertical stress at the free surface -/

section
variable {D : Deriv ι} {m : Mod ι} {c : BC ι}

local macro "last_two" : tactic => `(tactic| (
  rw [exec_flatten_last _ (by simp)]
  simp only [List.getLast_cons, List.getLast_singleton, ne_eq, reduceCtorEq, not_false_eq_true]
  apply exec_damp_zero
  rw [exec_flatten_last _ (by simp)]
  simp only [List.dropLast_cons₂, List.dropLast_singleton, List.getLast_cons,
    List.getLast_singleton, ne_eq, reduceCtorEq, not_false_eq_true]))

private theorem forLoop_surfaceZero (c : BC ι) (L : ℕ) (f : Fld) (s : State ι) {v : Var} {i : ι}
    (h : s v i = 0) : exec (forLoop L fun l => surfaceZero c (.rel f l)) s v i = 0 := by
  induction L with
  | zero => exact h
  | succ L ih =>
    simp only [forLoop, List.range_succ, List.flatMap_append, exec_append, surfaceZero] at ih ⊢
    simp only [List.flatMap_cons, List.flatMap_nil, List.append_nil, exec_cons, exec_nil,
      Stmt.exec]
    by_cases hv : v = .rel f L
    · subst hv
      rw [set_self, ih, zero_mul]
    · rw [set_ne _ _ hv]
      exact ih

private theorem forLoop_surfaceZero_rel (c : BC ι) (L : ℕ) (f : Fld) (s : State ι) {l : ℕ}
    (hl : l < L) {i : ι} (hi : c.onSurface i = true) :
    exec (forLoop L fun l => surfaceZero c (.rel f l)) s (.rel f l) i = 0 := by
  induction L with
  | zero => omega
  | succ L ih =>
    simp only [forLoop, List.range_succ, List.flatMap_append, exec_append, surfaceZero] at ih ⊢
    simp only [List.flatMap_cons, List.flatMap_nil, List.append_nil, exec_cons, exec_nil,
      Stmt.exec]
    by_cases hv : l = L
    · subst hv
      rw [set_self, BC.setZero, if_pos hi, mul_zero]
    · rw [set_ne _ _ (by simpa using hv)]
      exact ih (by omega)

private theorem surf_elastic2D (hfs : c.useFreeSurface = 1)
    {i : ι} (hi : c.onSurface i = true) (s : State ι) :
    exec (elastic2D D m c) s (.fld .Syy) i = 0 := by
  rw [elastic2D]
  last_two
  simp only [ifFS, hfs, if_true, exec_append]
  exact exec_surfaceZero c _ _ hi

private theorem surf_elastic3D (hfs : c.useFreeSurface = 1)
    {i : ι} (hi : c.onSurface i = true) (s : State ι) :
    exec (elastic3D D m c) s (.fld .Syy) i = 0 := by
  rw [elastic3D]
  last_two
  simp only [ifFS, hfs, if_true, exec_append]
  rw [show ∀ t : State ι, exec (exchange3D m c U) t (.fld .Syy) = t (.fld .Syy) from fun t =>
    exec_frame _ _ (by simp [exchange3D, Stmt.writes])]
  exact exec_surfaceZero c _ _ hi

private theorem surf_viscoelastic2D (hfs : c.useFreeSurface = 1)
    {i : ι} (hi : c.onSurface i = true) (s : State ι) :
    exec (viscoelastic2D D m c) s (.fld .Syy) i = 0 := by
  rw [viscoelastic2D]
  last_two
  simp only [hfs, ne_eq, one_ne_zero, not_false_eq_true, if_true, exec_append]
  exact forLoop_surfaceZero c _ _ _ (exec_surfaceZero c _ _ hi)

private theorem surf_viscoelastic3D (hfs : c.useFreeSurface = 1)
    {i : ι} (hi : c.onSurface i = true) (s : State ι) :
    exec (viscoelastic3D D m c) s (.fld .Syy) i = 0 := by
  rw [viscoelastic3D]
  last_two
  simp only [ifFS, hfs, if_true, exec_append]
  exact forLoop_surfaceZero c _ _ _ (exec_surfaceZero c _ _ hi)

private theorem surf_rel2D (hfs : c.useFreeSurface = 1)
    {i : ι} (hi : c.onSurface i = true) (s : State ι) {l : ℕ} (hl : l < m.L) :
    exec (viscoelastic2D D m c) s (.rel .Syy l) i = 0 := by
  rw [viscoelastic2D]
  last_two
  simp only [hfs, ne_eq, one_ne_zero, not_false_eq_true, if_true, exec_append]
  exact forLoop_surfaceZero_rel c _ _ _ hl hi

private theorem surf_rel3D (hfs : c.useFreeSurface = 1)
    {i : ι} (hi : c.onSurface i = true) (s : State ι) {l : ℕ} (hl : l < m.L) :
    exec (viscoelastic3D D m c) s (.rel .Syy l) i = 0 := by
  rw [viscoelastic3D]
  last_two
  simp only [ifFS, hfs, if_true, exec_append]
  exact forLoop_surfaceZero_rel c _ _ _ hl hi
end

/-- The four solvers with normal stresses. -/
def IsElastic (D : Deriv ι) (m : Mod ι) (c : BC ι) (S : Solver ι) : Prop :=
  S = elastic2DSolver D m c ∨ S = elastic3DSolver D m c ∨ S = viscoelastic2DSolver D m c ∨
    S = viscoelastic3DSolver D m c

/-- Elastic and viscoelastic modelling with a free surface: after every time step the vertical normal
stress at a surface point is the sum of the samples of the pressure sources at that very point. -/
theorem C67_surface_stress (D : Deriv ι) (m : Mod ι) (c : BC ι) {S : Solver ι}
    (hS : IsElastic D m c S) (hfs : c.useFreeSurface = 1)
    {i : ι} (hi : c.onSurface i = true) (srcs : List (Source ι)) (s : State ι) (n : ℕ) :
    run S srcs s (n + 1) (.fld .Syy) i =
      (srcs.map fun q => if q.ty = .P ∧ q.pos = i then q.signal n else 0).sum := by
  have h0 : ∀ s, exec S.prog s (.fld .Syy) i = 0 := by
    intro s
    rcases hS with rfl | rfl | rfl | rfl
    · exact surf_elastic2D hfs hi s
    · exact surf_elastic3D hfs hi s
    · exact surf_viscoelastic2D hfs hi s
    · exact surf_viscoelastic3D hfs hi s
  have h1 : ∀ ty, Fld.Syy ∈ S.srcFlds ty ↔ ty = .P := by
    intro ty
    rcases hS with rfl | rfl | rfl | rfl <;> cases ty <;>
      simp [Solver.srcFlds, elastic2DSolver, elastic3DSolver, viscoelastic2DSolver,
        viscoelastic3DSolver, src2Delastic, src3Delastic]
  rw [run, step, applySource]
  simp only [h0, zero_add, h1]

/-- The memory variables of the vertical stress vanish on the free surface after every step. -/
theorem C67_surface_memory (D : Deriv ι) (m : Mod ι) (c : BC ι) (hfs : c.useFreeSurface = 1)
    {i : ι} (hi : c.onSurface i = true) (srcs : List (Source ι)) (s : State ι) (n : ℕ) {l : ℕ}
    (hl : l < m.L) :
    run (viscoelastic2DSolver D m c) srcs s (n + 1) (.rel .Syy l) i = 0 ∧
    run (viscoelastic3DSolver D m c) srcs s (n + 1) (.rel .Syy l) i = 0 :=
  ⟨surf_rel2D hfs hi _ hl, surf_rel3D hfs hi _ hl⟩

/-- Example: the hypotheses are met by `exBC` with the viscoelastic solver. -/
example : IsElastic exD exM exBC (viscoelastic2DSolver exD exM exBC) ∧ exBC.useFreeSurface = 1 ∧
    exBC.onSurface 0 = true ∧ 0 < exM.L := by
  simp [exBC, exM, IsElastic]

end Verif.Solver
