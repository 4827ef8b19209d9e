import Verif.Lemmas.SimFluid
import Verif.Props.Solver
/-!
# Simulations of different equations that have to agree

C97: without relaxation strength the attenuating solvers give the seismograms of the solvers without
attenuation. C98: without shear modulus the elastic solvers give the seismograms of the acoustic
solvers. The seismograms of whole runs (`runShots`) are compared, with any absorbing boundary, free
surface, sources, receivers and sequence of shots.
-/
set_option linter.dupNamespace false
set_option linter.unusedSectionVars false

namespace Verif.Solver
open Matrix

variable {ι : Type} [Fintype ι] [DecidableEq ι]

/-! ### From time steps to seismograms -/

/-- Two solvers that accept the same shots and record the same samples from zero wavefields give the
same seismograms for every sequence of shots. -/
private theorem runShots_congr {D D' : Deriv ι} {c c' : BC ι} {S S' : Solver ι}
    (hS : IsSolver D c S) (hS' : IsSolver D' c' S') (P : Shot ι → Prop)
    (hacc : ∀ sh : Shot ι, (S.ready && sh.supported S) = (S'.ready && sh.supported S'))
    (hsam : ∀ sh, P sh → sh.supported S = true → ∀ r ∈ sh.receivers, ∀ t,
      sample S sh.sources 0 r t = sample S' sh.sources 0 r t)
    (shots : List (Shot ι)) (hP : ∀ sh ∈ shots, P sh) (s s' : State ι)
    (hs : ∀ v ∈ S.memory, s v = 0) (hs' : ∀ v ∈ S'.memory, s' v = 0) :
    runShots S s shots = runShots S' s' shots := by
  rw [C29_shots_independent hS s hs, C29_shots_independent hS' s' hs']
  have key : ∀ sh, P sh → (do let r ← runShot S sh 0; pure r.1 : Out Gather) =
      (do let r ← runShot S' sh 0; pure r.1 : Out Gather) := by
    intro sh hp
    have z : ∀ vs : List Var, clear vs (0 : State ι) = 0 := fun vs => by
      funext v; simp [clear]
    unfold runShot
    rw [← hacc sh]
    split
    · rfl
    · rename_i hn
      simp only [z]
      show Out.ok _ = Out.ok _
      congr 1
      by_cases h0 : sh.nt = 0
      · simp [h0]
      · have hsup : sh.supported S = true := by
          rcases hb : (S.ready && sh.supported S) with _ | _
          · exact absurd ⟨h0, hb⟩ hn
          · exact (Bool.and_eq_true_iff.1 hb).2
        exact List.map_congr_left fun r hr => List.map_congr_left fun t _ => hsam sh hp hsup r hr t
  induction shots with
  | nil => rfl
  | cons sh rest ih =>
    rw [List.mapM_cons, List.mapM_cons, key sh (hP sh List.mem_cons_self),
      ih fun x hx => hP x (List.mem_cons_of_mem _ hx)]

/-- Time steps in parallel. -/
private theorem run_rz {S S' : Solver ι} {X : List Var} {L : ℕ} {fs : List Fld}
    (h : Sim L fs X X S.prog S'.prog) (hsrc : S.src = S'.src) (srcs : List (Source ι)) (n : ℕ) :
    Rz X L fs (run S srcs 0 n) (run S' srcs 0 n) := by
  induction n with
  | zero => exact ⟨fun _ _ => rfl, fun _ _ _ _ => rfl⟩
  | succ n ih =>
    have h1 := h _ _ ih
    refine ⟨fun v hv => ?_, fun f hf l hl => ?_⟩
    · have := h1.1 v hv
      have hs : S.srcFlds = S'.srcFlds := by funext ty; simp only [Solver.srcFlds, hsrc]
      cases v <;> simp_all [run, step, applySource]
    · have := h1.2 f hf l hl
      simpa [run, step, applySource] using this

private theorem runShots_rz {D D' : Deriv ι} {c c' : BC ι} {S S' : Solver ι}
    (hS : IsSolver D c S) (hS' : IsSolver D' c' S') {X : List Var} {L : ℕ} {fs : List Fld}
    (h : Sim L fs X X S.prog S'.prog) (hX : ∀ f, Var.fld f ∉ X) (hsrc : S.src = S'.src)
    (hrec : S.recv = S'.recv) (hready : S.ready = S'.ready) (shots : List (Shot ι))
    (s s' : State ι) (hs : ∀ v ∈ S.memory, s v = 0) (hs' : ∀ v ∈ S'.memory, s' v = 0) :
    runShots S s shots = runShots S' s' shots := by
  refine runShots_congr hS hS' (fun _ => True) (fun sh => ?_) (fun sh _ _ r _ t => ?_) shots
    (fun _ _ => trivial) s s' hs hs'
  · simp only [Shot.supported, hsrc, hrec, hready]
  · have h1 := run_rz h hsrc sh.sources (t + 1)
    unfold sample gather
    rw [hrec]
    split
    · rfl
    · congr 2
      exact List.map_congr_left fun f _ => by
        rw [h1.1 (.fld f) ⟨hX f, by simp⟩]

/-! ### C97 -/

/-- What the getters of the derivatives return on a regular grid: no interpolation and no separate
matrices for the staggered variables (Derivatives.cpp:1772-1997). -/
structure RegularGetters (D : Deriv ι) : Prop where
  interFull : D.interFull = none
  interSX : D.interSX = none
  interSZ : D.interSZ = none
  interSXZ : D.interSXZ = none
  DyfSX : D.DyfSX = D.Dyf
  DybSX : D.DybSX = D.Dyb
  DyfSZ : D.DyfSZ = D.Dyf
  DybSZ : D.DybSZ = D.Dyb
  DybSXFS : D.DybSXFS = D.DybFS
  DybSZFS : D.DybSZFS = D.DybFS

/-- No attenuation in the model: all relaxation strengths, also the averaged ones, are zero. -/
structure Mod.NoLoss (m : Mod ι) : Prop where
  tauP : ∀ i, m.tauP i = 0
  tauS : ∀ i, m.tauS i = 0
  tauSXY : ∀ i, m.tauSXY i = 0
  tauSXZ : ∀ i, m.tauSXZ i = 0
  tauSYZ : ∀ i, m.tauSYZ i = 0

/-- Viscoelastic SH waves without relaxation strength are SH waves, for every grid. -/
theorem C97_viscosh2D (D : Deriv ι) (m : Mod ι) (c : BC ι) (hm : m.NoLoss) (shots : List (Shot ι))
    (s s' : State ι) (hs : ∀ v ∈ psi2D, s v = 0) (hs' : ∀ v ∈ psi2D, s' v = 0) :
    runShots (viscosh2DSolver D m c) s shots = runShots (sh2DSolver D m c) s' shots :=
  runShots_rz (.viscosh2D (D := D) (c := c) m) (.sh2D (D := D) (c := c) m)
    (sim_viscosh2D D m c hm.tauS hm.tauSXZ hm.tauSYZ) (by simp) rfl rfl rfl shots s s' hs hs'

/-- 2D viscoelastic waves without relaxation strength are elastic waves on regular grids. Missing:
`FreeSurface=2`, see `C97_viscoelastic2D_violated`, and variable grids, where only the elastic
solver interpolates and uses the staggered derivatives. -/
theorem C97_viscoelastic2D_partial (D : Deriv ι) (hD : RegularGetters D) (m : Mod ι) (c : BC ι)
    (hfs : c.useFreeSurface = 0 ∨ c.useFreeSurface = 1) (hm : m.NoLoss) (shots : List (Shot ι))
    (s s' : State ι) (hs : ∀ v ∈ psi2D, s v = 0) (hs' : ∀ v ∈ psi2D, s' v = 0) :
    runShots (viscoelastic2DSolver D m c) s shots = runShots (elastic2DSolver D m c) s' shots :=
  runShots_rz (.viscoelastic2D (D := D) (c := c) m) (.elastic2D (D := D) (c := c) m)
    (sim_viscoelastic2D D m c ⟨hD.interFull, hD.interSX, hD.DyfSX, hD.DybSX, hD.DybSXFS⟩
      (by omega) hm.tauP hm.tauS hm.tauSXY) (by simp) rfl rfl
    (by simpa [viscoelastic2DSolver, elastic2DSolver] using hfs) shots s s' hs hs'

/-- With `FreeSurface=2` every 2D viscoelastic simulation throws although the elastic one with the
same settings runs. -/
theorem C97_viscoelastic2D_violated (D : Deriv ι) (m : Mod ι) (c : BC ι)
    (hfs : c.useFreeSurface = 2) (i : ι) (s : State ι) :
    ∃ sh : Shot ι, runShots (viscoelastic2DSolver D m c) s [sh] = .err ∧
      ∃ g, runShots (elastic2DSolver D m c) s [sh] = .ok g := by
  refine ⟨⟨[⟨.P, i, fun _ => 1⟩], [⟨.P, i⟩], 1⟩, ?_, ?_⟩
  · simp [runShots, runShot, viscoelastic2DSolver, hfs]
  · rw [runShots, runShot, if_neg (by
      simp [elastic2DSolver, Shot.supported, src2Delastic, rec2Delastic])]
    exact ⟨_, rfl⟩

/-- 3D viscoelastic waves without relaxation strength are elastic waves on regular grids. -/
theorem C97_viscoelastic3D (D : Deriv ι) (hD : RegularGetters D) (m : Mod ι) (c : BC ι)
    (hm : m.NoLoss) (shots : List (Shot ι))
    (s s' : State ι) (hs : ∀ v ∈ psi3D, s v = 0) (hs' : ∀ v ∈ psi3D, s' v = 0) :
    runShots (viscoelastic3DSolver D m c) s shots = runShots (elastic3DSolver D m c) s' shots :=
  runShots_rz (.viscoelastic3D (D := D) (c := c) m) (.elastic3D (D := D) (c := c) m)
    (sim_viscoelastic3D D m c ⟨hD.interFull, hD.interSX, hD.interSZ, hD.interSXZ, hD.DyfSX,
      hD.DybSX, hD.DybSXFS, hD.DyfSZ, hD.DybSZ, hD.DybSZFS⟩ hm.tauP hm.tauS hm.tauSXY hm.tauSXZ
      hm.tauSYZ) (by simp) rfl rfl rfl shots s s' hs hs'

/-- No relaxation in an electromagnetic model whose permittivity is not below the vacuum. At least
one relaxation mechanism: for `L = 0` the source divides 0 by 0. -/
structure EMod.NoLoss (m : EMod ι) : Prop where
  tauEps : ∀ a i, m.tauEps a i = 0
  tauSig : ∀ a i, m.tauSig a i = 0
  vacuum : ∀ a i, m.epsVac ≤ m.eps a i
  L : 0 < m.L

/-- EMEM waves, for every grid. -/
theorem C97_viscoemem2D (D : Deriv ι) (m : EMod ι) (c : BC ι) (hm : m.NoLoss)
    (shots : List (Shot ι)) (s s' : State ι) (hs : ∀ v ∈ psi2DEM, s v = 0)
    (hs' : ∀ v ∈ psi2DEM, s' v = 0) :
    runShots (viscoemem2DSolver D m c) s shots = runShots (emem2DSolver D m c) s' shots :=
  runShots_rz (.viscoemem2D (D := D) (c := c) m) (.emem2D (D := D) (c := c) m)
    (sim_viscoemem2D D m c hm.tauEps hm.tauSig hm.vacuum) (by simp) rfl rfl rfl shots s s' hs hs'

/-- TMEM waves, for every grid. -/
theorem C97_viscotmem2D (D : Deriv ι) (m : EMod ι) (c : BC ι) (hm : m.NoLoss)
    (shots : List (Shot ι)) (s s' : State ι) (hs : ∀ v ∈ psi2DEM, s v = 0)
    (hs' : ∀ v ∈ psi2DEM, s' v = 0) :
    runShots (viscotmem2DSolver D m c) s shots = runShots (tmem2DSolver D m c) s' shots :=
  runShots_rz (.viscotmem2D (D := D) (c := c) m) (.tmem2D (D := D) (c := c) m)
    (sim_viscotmem2D D m c hm.tauEps hm.tauSig hm.vacuum) (by simp) rfl rfl rfl shots s s' hs hs'

/-- 3D electromagnetic waves, for every grid. -/
theorem C97_viscoemem3D (D : Deriv ι) (m : EMod ι) (c : BC ι) (hm : m.NoLoss)
    (shots : List (Shot ι)) (s s' : State ι) (hs : ∀ v ∈ psi3DEM, s v = 0)
    (hs' : ∀ v ∈ psi3DEM, s' v = 0) :
    runShots (viscoemem3DSolver D m c) s shots = runShots (emem3DSolver D m c) s' shots :=
  runShots_rz (.viscoemem3D (D := D) (c := c) m) (.emem3D (D := D) (c := c) m)
    (sim_viscoemem3D D m c hm.tauEps hm.tauSig hm.vacuum) (by simp) rfl rfl rfl shots s s' hs hs'

/-- Elastic parameters 1, one relaxation mechanism with relaxation time 1/10, no relaxation
strength. -/
noncomputable def compareM : Mod (Fin 2) :=
  ⟨1, 1, 1, 1, 1, 1, 1, 1, 1, 0, 0, 0, 0, 0, 1, fun _ => 1 / 10, 1⟩

example : compareM.NoLoss ∧ RegularGetters exD ∧ (exBC.useFreeSurface = 0 ∨ exBC.useFreeSurface = 1)
    ∧ exShot.supported (viscoelastic2DSolver exD compareM exBC) = true :=
  ⟨⟨fun _ => rfl, fun _ => rfl, fun _ => rfl, fun _ => rfl, fun _ => rfl⟩,
   ⟨rfl, rfl, rfl, rfl, rfl, rfl, rfl, rfl, rfl, rfl⟩, .inr rfl, by
    simp [Shot.supported, exShot, viscoelastic2DSolver, src2Delastic, rec2Delastic]⟩

/-- Soil with permittivity 4 times that of the vacuum, conducting, with one relaxation mechanism
without strength. -/
noncomputable def compareE : EMod (Fin 2) :=
  ⟨1, 1, 1, fun _ _ => 4, fun _ _ => 1 / 100, 0, 0, 1, 1, fun _ => 1, 1⟩

example : compareE.NoLoss :=
  ⟨fun _ _ => rfl, fun _ _ => rfl, fun _ _ => by norm_num [compareE], by norm_num [compareE]⟩

/-! ### C98 -/

/-- No shear modulus, also not after averaging. -/
structure Mod.IsFluid (m : Mod ι) : Prop where
  sMod : ∀ i, m.sMod i = 0
  sModXY : ∀ i, m.sModXY i = 0
  sModXZ : ∀ i, m.sModXZ i = 0
  sModYZ : ∀ i, m.sModYZ i = 0

/-- With a free surface, no pressure source is placed on it. -/
def Shot.offSurface (c : BC ι) (sh : Shot ι) : Prop :=
  c.useFreeSurface = 1 → ∀ q ∈ sh.sources, q.ty = .P → c.onSurface q.pos = false

private theorem srcSum_congr {A B : Solver ι} {f g : Fld} {srcs : List (Source ι)} {t : ℕ} {i : ι}
    (h : ∀ ty, f ∈ A.srcFlds ty ↔ g ∈ B.srcFlds ty) :
    (srcs.map fun q => if f ∈ A.srcFlds q.ty ∧ q.pos = i then q.signal t else 0).sum =
    (srcs.map fun q => if g ∈ B.srcFlds q.ty ∧ q.pos = i then q.signal t else 0).sum := by
  simp only [h]

private theorem srcSum_zero {A : Solver ι} {f : Fld} {srcs : List (Source ι)} {t : ℕ} {i : ι}
    (h : ∀ q ∈ srcs, ¬(f ∈ A.srcFlds q.ty ∧ q.pos = i)) :
    (srcs.map fun q => if f ∈ A.srcFlds q.ty ∧ q.pos = i then q.signal t else 0).sum = 0 := by
  refine List.sum_eq_zero fun x hx => ?_
  obtain ⟨q, hq, rfl⟩ := List.mem_map.1 hx
  exact if_neg (h q hq)

private theorem run_fluid2D (D : Deriv ι) (hD : RegularGetters D) (m : Mod ι) (c : BC ι)
    (hm : m.IsFluid) (sh : Shot ι) (hsh : sh.offSurface c) (n : ℕ) :
    Fluid2D c (run (elastic2DSolver D m c) sh.sources 0 n)
      (run (acoustic2DSolver D m c) sh.sources 0 n) := by
  induction n with
  | zero => constructor <;> first | rfl | exact fun _ _ _ => rfl
  | succ n ih =>
    have h := fluid2D_step D m c ⟨hD.interFull, hD.interSX, hD.DyfSX⟩ _ _ ih hm.sMod hm.sModXY
    have e1 : ∀ ty, Fld.Sxx ∈ (elastic2DSolver D m c).srcFlds ty ↔
        Fld.p ∈ (acoustic2DSolver D m c).srcFlds ty := by
      intro ty; cases ty <;> simp [Solver.srcFlds, elastic2DSolver, acoustic2DSolver,
        src2Delastic, src2Dacoustic]
    have e2 : ∀ ty, Fld.Syy ∈ (elastic2DSolver D m c).srcFlds ty ↔
        Fld.p ∈ (acoustic2DSolver D m c).srcFlds ty := by
      intro ty; cases ty <;> simp [Solver.srcFlds, elastic2DSolver, acoustic2DSolver,
        src2Delastic, src2Dacoustic]
    have e3 : ∀ ty, Fld.vX ∈ (elastic2DSolver D m c).srcFlds ty ↔
        Fld.vX ∈ (acoustic2DSolver D m c).srcFlds ty := by
      intro ty; cases ty <;> simp [Solver.srcFlds, elastic2DSolver, acoustic2DSolver,
        src2Delastic, src2Dacoustic]
    have e4 : ∀ ty, Fld.vY ∈ (elastic2DSolver D m c).srcFlds ty ↔
        Fld.vY ∈ (acoustic2DSolver D m c).srcFlds ty := by
      intro ty; cases ty <;> simp [Solver.srcFlds, elastic2DSolver, acoustic2DSolver,
        src2Delastic, src2Dacoustic]
    have e5 : ∀ ty, Fld.Sxy ∉ (elastic2DSolver D m c).srcFlds ty := by
      intro ty; cases ty <;> simp [Solver.srcFlds, elastic2DSolver, src2Delastic]
    have e6 : ∀ ty, Fld.p ∈ (acoustic2DSolver D m c).srcFlds ty → ty = .P := by
      intro ty; cases ty <;> simp [Solver.srcFlds, acoustic2DSolver, src2Dacoustic]
    refine ⟨?_, ?_, ?_, ?_, ?_, h.vXx, h.vYy, h.Sxxx, h.Syyy, h.Sxyx, h.Sxyy, ?_⟩
    · funext i
      show _ + _ = _ + _
      rw [srcSum_congr e3]; exact congrArg (· + _) (congrFun h.vX i)
    · funext i
      show _ + _ = _ + _
      rw [srcSum_congr e4]; exact congrArg (· + _) (congrFun h.vY i)
    · funext i
      show _ + _ = _ + _
      rw [srcSum_congr e1]; exact congrArg (· + _) (congrFun h.Sxx i)
    · funext i
      show _ + _ = _ + _
      rw [srcSum_congr e2]; exact congrArg (· + _) (congrFun h.Syy i)
    · funext i
      show _ + _ = _
      rw [srcSum_zero fun q _ hq => e5 _ hq.1, add_zero]; exact congrFun h.Sxy i
    · intro hfs i hi
      show _ + _ = _
      rw [srcSum_zero fun q hq hqi => ?_, add_zero]
      · exact h.surf hfs i hi
      · have := hsh hfs q hq (e6 _ hqi.1)
        rw [hqi.2, hi] at this
        exact absurd this (by simp)

/-- 2D elastic waves in a model without shear modulus are acoustic waves on regular grids: with a
pressure receiver (mean of the normal stresses) or a velocity receiver the elastic solver records
what the acoustic one records. -/
theorem C98_elastic2D (D : Deriv ι) (hD : RegularGetters D) (m : Mod ι) (c : BC ι)
    (hm : m.IsFluid) (shots : List (Shot ι)) (hsh : ∀ sh ∈ shots, sh.offSurface c)
    (s s' : State ι) (hs : ∀ v ∈ psi2D, s v = 0) (hs' : ∀ v ∈ psi2Dacoustic, s' v = 0) :
    runShots (elastic2DSolver D m c) s shots = runShots (acoustic2DSolver D m c) s' shots := by
  refine runShots_congr (.elastic2D (D := D) (c := c) m) (.acoustic2D (D := D) (c := c) m)
    (fun sh => sh.offSurface c) (fun sh => ?_) (fun sh hp _ r _ t => ?_) shots hsh s s' hs hs'
  · have h1 : ∀ ty, ((elastic2DSolver D m c).src ty).isSome =
        ((acoustic2DSolver D m c).src ty).isSome := by
      intro ty; cases ty <;> rfl
    have h2 : ∀ ty, ((elastic2DSolver D m c).recv ty).isSome =
        ((acoustic2DSolver D m c).recv ty).isSome := by
      intro ty; cases ty <;> rfl
    simp only [Shot.supported, h1, h2]
    rfl
  · have h := run_fluid2D D hD m c hm sh hp (t + 1)
    unfold sample
    generalize run (elastic2DSolver D m c) sh.sources 0 (t + 1) = a at h
    generalize run (acoustic2DSolver D m c) sh.sources 0 (t + 1) = b at h
    rcases r with ⟨ty, i⟩
    cases ty <;> simp [gather, elastic2DSolver, acoustic2DSolver, rec2Delastic, single,
      src2Dacoustic, h.Sxx, h.Syy, h.vX, h.vY]
    ring

private theorem run_fluid3D (D : Deriv ι) (hD : RegularGetters D) (m : Mod ι) (c : BC ι)
    (hm : m.IsFluid) (sh : Shot ι) (hsh : sh.offSurface c) (n : ℕ) :
    Fluid3D c (run (elastic3DSolver D m c) sh.sources 0 n)
      (run (acoustic3DSolver D m c) sh.sources 0 n) := by
  induction n with
  | zero => constructor <;> first | rfl | exact fun _ _ _ => rfl
  | succ n ih =>
    have h := fluid3D_step D m c ⟨hD.interFull, hD.interSX, hD.interSZ, hD.interSXZ, hD.DyfSX,
      hD.DyfSZ⟩ _ _ ih hm.sMod hm.sModXY hm.sModXZ hm.sModYZ
    have e : ∀ ty, (Fld.Sxx ∈ (elastic3DSolver D m c).srcFlds ty ↔
        Fld.p ∈ (acoustic3DSolver D m c).srcFlds ty) ∧
        (Fld.Syy ∈ (elastic3DSolver D m c).srcFlds ty ↔
        Fld.p ∈ (acoustic3DSolver D m c).srcFlds ty) ∧
        (Fld.Szz ∈ (elastic3DSolver D m c).srcFlds ty ↔
        Fld.p ∈ (acoustic3DSolver D m c).srcFlds ty) ∧
        (Fld.vX ∈ (elastic3DSolver D m c).srcFlds ty ↔
        Fld.vX ∈ (acoustic3DSolver D m c).srcFlds ty) ∧
        (Fld.vY ∈ (elastic3DSolver D m c).srcFlds ty ↔
        Fld.vY ∈ (acoustic3DSolver D m c).srcFlds ty) ∧
        (Fld.vZ ∈ (elastic3DSolver D m c).srcFlds ty ↔
        Fld.vZ ∈ (acoustic3DSolver D m c).srcFlds ty) ∧
        Fld.Sxy ∉ (elastic3DSolver D m c).srcFlds ty ∧
        Fld.Sxz ∉ (elastic3DSolver D m c).srcFlds ty ∧
        Fld.Syz ∉ (elastic3DSolver D m c).srcFlds ty ∧
        (Fld.p ∈ (acoustic3DSolver D m c).srcFlds ty → ty = .P) := by
      intro ty; cases ty <;> simp [Solver.srcFlds, elastic3DSolver, acoustic3DSolver,
        src3Delastic, src3Dacoustic]
    refine ⟨?_, ?_, ?_, ?_, ?_, ?_, ?_, ?_, ?_, h.vXx, h.vYy, h.vZz, h.Sxxx, h.Syyy, h.Szzz,
      h.Sxyx, h.Sxyy, h.Sxzx, h.Sxzz, h.Syzy, h.Syzz, ?_⟩
    · funext i
      show _ + _ = _ + _
      rw [srcSum_congr fun ty => (e ty).2.2.2.1]; exact congrArg (· + _) (congrFun h.vX i)
    · funext i
      show _ + _ = _ + _
      rw [srcSum_congr fun ty => (e ty).2.2.2.2.1]; exact congrArg (· + _) (congrFun h.vY i)
    · funext i
      show _ + _ = _ + _
      rw [srcSum_congr fun ty => (e ty).2.2.2.2.2.1]; exact congrArg (· + _) (congrFun h.vZ i)
    · funext i
      show _ + _ = _ + _
      rw [srcSum_congr fun ty => (e ty).1]; exact congrArg (· + _) (congrFun h.Sxx i)
    · funext i
      show _ + _ = _ + _
      rw [srcSum_congr fun ty => (e ty).2.1]; exact congrArg (· + _) (congrFun h.Syy i)
    · funext i
      show _ + _ = _ + _
      rw [srcSum_congr fun ty => (e ty).2.2.1]; exact congrArg (· + _) (congrFun h.Szz i)
    · funext i
      show _ + _ = _
      rw [srcSum_zero fun q _ hq => (e _).2.2.2.2.2.2.1 hq.1, add_zero]; exact congrFun h.Sxy i
    · funext i
      show _ + _ = _
      rw [srcSum_zero fun q _ hq => (e _).2.2.2.2.2.2.2.1 hq.1, add_zero]; exact congrFun h.Sxz i
    · funext i
      show _ + _ = _
      rw [srcSum_zero fun q _ hq => (e _).2.2.2.2.2.2.2.2.1 hq.1, add_zero]
      exact congrFun h.Syz i
    · intro hfs i hi
      show _ + _ = _
      rw [srcSum_zero fun q hq hqi => ?_, add_zero]
      · exact h.surf hfs i hi
      · have := hsh hfs q hq ((e _).2.2.2.2.2.2.2.2.2 hqi.1)
        rw [hqi.2, hi] at this
        exact absurd this (by simp)

/-- 3D elastic waves in a model without shear modulus are acoustic waves on regular grids. -/
theorem C98_elastic3D (D : Deriv ι) (hD : RegularGetters D) (m : Mod ι) (c : BC ι)
    (hm : m.IsFluid) (shots : List (Shot ι)) (hsh : ∀ sh ∈ shots, sh.offSurface c)
    (s s' : State ι) (hs : ∀ v ∈ psi3D, s v = 0) (hs' : ∀ v ∈ psi3Dacoustic, s' v = 0) :
    runShots (elastic3DSolver D m c) s shots = runShots (acoustic3DSolver D m c) s' shots := by
  refine runShots_congr (.elastic3D (D := D) (c := c) m) (.acoustic3D (D := D) (c := c) m)
    (fun sh => sh.offSurface c) (fun sh => ?_) (fun sh hp _ r _ t => ?_) shots hsh s s' hs hs'
  · have h1 : ∀ ty, ((elastic3DSolver D m c).src ty).isSome =
        ((acoustic3DSolver D m c).src ty).isSome := by
      intro ty; cases ty <;> rfl
    have h2 : ∀ ty, ((elastic3DSolver D m c).recv ty).isSome =
        ((acoustic3DSolver D m c).recv ty).isSome := by
      intro ty; cases ty <;> rfl
    simp only [Shot.supported, h1, h2]
    rfl
  · have h := run_fluid3D D hD m c hm sh hp (t + 1)
    unfold sample
    generalize run (elastic3DSolver D m c) sh.sources 0 (t + 1) = a at h
    generalize run (acoustic3DSolver D m c) sh.sources 0 (t + 1) = b at h
    rcases r with ⟨ty, i⟩
    cases ty <;> simp [gather, elastic3DSolver, acoustic3DSolver, rec3Delastic, single,
      src3Dacoustic, h.Sxx, h.Syy, h.Szz, h.vX, h.vY, h.vZ]
    ring

/-- Water: density and P-wave modulus 1, no shear modulus. -/
noncomputable def compareWater : Mod (Fin 2) :=
  ⟨1, 1, 1, 1, 1, 0, 0, 0, 0, 0, 0, 0, 0, 0, 0, fun _ => 0, 1⟩

example : compareWater.IsFluid ∧ exShot.offSurface exBC ∧ exBC.useFreeSurface = 1 :=
  ⟨⟨fun _ => rfl, fun _ => rfl, fun _ => rfl, fun _ => rfl⟩,
   fun _ q hq _ => by
     simp only [exShot, List.mem_singleton] at hq
     subst hq
     simp [exBC], rfl⟩

end Verif.Solver
