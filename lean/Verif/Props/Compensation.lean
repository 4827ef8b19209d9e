import Verif.Props.DivergenceLocal
import Verif.Model.WavefieldViews

/-!
# C125: compensation of the energy loss
-/
set_option linter.dupNamespace false
set_option linter.unusedSectionVars false

namespace Verif.Solver
open Matrix Verif Verif.Views

variable {ι : Type} [Fintype ι] [DecidableEq ι]

/-- The sources with everything but their emission at step `j` removed. -/
def emittedAt (j : ℕ) (srcs : List (Source ι)) : List (Source ι) :=
  srcs.map fun q => { q with signal := fun t => if t = j then q.signal t else 0 }

private theorem injected_emittedAt (S : Solver ι) (srcs : List (Source ι)) (j t : ℕ) (f : Fld) (i : ι) :
    injected S (emittedAt j srcs) t f i = if t = j then injected S srcs t f i else 0 := by
  unfold injected emittedAt
  rw [List.map_map]
  by_cases h : t = j
  · simp [h, Function.comp_def]
  · simp [h, Function.comp_def]

/-- The electromagnetic solvers. -/
inductive IsEM (D : Deriv ι) (c : BC ι) : Solver ι → Prop
  | emem2D (m : EMod ι) : IsEM D c (emem2DSolver D m c)
  | tmem2D (m : EMod ι) : IsEM D c (tmem2DSolver D m c)
  | viscoemem2D (m : EMod ι) : IsEM D c (viscoemem2DSolver D m c)
  | viscotmem2D (m : EMod ι) : IsEM D c (viscotmem2DSolver D m c)
  | emem3D (m : EMod ι) : IsEM D c (emem3DSolver D m c)
  | viscoemem3D (m : EMod ι) : IsEM D c (viscoemem3DSolver D m c)

private theorem IsEM.isSolver {D : Deriv ι} {c : BC ι} {S : Solver ι} (h : IsEM D c S) : IsSolver D c S := by
  cases h <;> constructor

private theorem IsEM.memory_psi {D : Deriv ι} {c : BC ι} {S : Solver ι} (h : IsEM D c S) :
    ∀ v ∈ S.memory, ∃ f a, v = .psi f a := by
  cases h <;> simp [emem2DSolver, tmem2DSolver, viscoemem2DSolver, viscotmem2DSolver, emem3DSolver, viscoemem3DSolver,
    psi2DEM, psi3DEM]

private theorem IsEM.fields_psi {D : Deriv ι} {c : BC ι} {S : Solver ι} (h : IsEM D c S) (f : Fld) (a : Axis) :
    Var.psi f a ∉ S.fields := by
  cases h <;> simp [emem2DSolver, tmem2DSolver, viscoemem2DSolver, viscotmem2DSolver, emem3DSolver, viscoemem3DSolver,
    mem_rels]

private theorem IsEM.psi_untouched {D : Deriv ι} {c : BC ι} {S : Solver ι} (h : IsEM D c S) (hp : c.pml = none)
    (s : State ι) (f : Fld) (a : Axis) : exec S.prog s (.psi f a) = s (.psi f a) := by
  apply exec_frame
  have hd : ∀ fs, ∀ st ∈ damp c fs, Var.psi f a ∉ st.writes := by
    intro fs st hst
    unfold damp at hst
    split at hst
    · cases hst
    · obtain ⟨g, -, rfl⟩ := List.mem_map.mp hst
      simp [Stmt.writes]
  have hh : ∀ u g b, cpmlHalf c u g b = [] := fun u g b => by simp [cpmlHalf, hp]
  have hf : ∀ u g b, cpmlFull c u g b = [] := fun u g b => by simp [cpmlFull, hp]
  have l1 : ∀ (n : ℕ) (g : ℕ → List (Stmt ι)), (∀ l, ∀ st ∈ g l, Var.psi f a ∉ st.writes) →
      ∀ st ∈ forLoop n g, Var.psi f a ∉ st.writes := by
    intro n g hg st hst
    obtain ⟨l, -, hl⟩ := List.mem_flatMap.mp hst
    exact hg l st hl
  cases h <;>
    simp only [emem2DSolver, tmem2DSolver, viscoemem2DSolver, viscotmem2DSolver, emem3DSolver, viscoemem3DSolver,
      Solver.emem2D, Solver.tmem2D, Solver.viscoemem2D, Solver.viscotmem2D, Solver.emem3D, Solver.viscoemem3D, magnetic3D,
      hh, hf, List.flatten_cons, List.flatten_nil, List.append_nil, List.nil_append, List.forall_mem_append, eUpdate,
      List.forall_mem_cons]
  all_goals
    repeat' refine And.intro ?_ ?_
    all_goals
      first
      | exact hd _
      | (simp [Stmt.writes, U, UT]; done)
      | (refine l1 _ _ fun l => ?_; simp [Stmt.writes, U, UT, rUpdate])

/-- State after `n` steps as the sum of what was emitted at each step. -/
private noncomputable def amplified (S : Solver ι) (srcs : List (Source ι)) (κ : ℝ) (s : State ι) (n : ℕ) : State ι :=
  κ ^ n • run S [] s n + ∑ j ∈ Finset.range n, κ ^ (n - j) • run S (emittedAt j srcs) 0 n

private theorem exec_smul' (p : List (Stmt ι)) (a : ℝ) (s : State ι) : exec p (a • s) = a • exec p s := by
  have := exec_lin p a 0 s 0
  simpa using this

private theorem exec_add' (p : List (Stmt ι)) (s t : State ι) : exec p (s + t) = exec p s + exec p t := by
  have := exec_lin p 1 1 s t
  simpa using this

private theorem exec_sum' (p : List (Stmt ι)) (n : ℕ) (g : ℕ → State ι) :
    exec p (∑ j ∈ Finset.range n, g j) = ∑ j ∈ Finset.range n, exec p (g j) := by
  induction n with
  | zero => simp [exec_zero]
  | succ n ih => rw [Finset.sum_range_succ, Finset.sum_range_succ, exec_add', ih]

private theorem applySource_fld (S : Solver ι) (srcs : List (Source ι)) (t : ℕ) (s : State ι) (f : Fld) (i : ι) :
    applySource S srcs t s (.fld f) i = s (.fld f) i + injected S srcs t f i := rfl

private theorem amplified_succ (S : Solver ι) (srcs : List (Source ι)) (κ : ℝ) (s : State ι) (n : ℕ) :
    amplified S srcs κ s (n + 1) = κ • applySource S srcs n (exec S.prog (amplified S srcs κ s n)) := by
  have h0 : ∀ t : State ι, applySource S [] n t = t := by
    intro t
    funext v i
    cases v <;> simp [applySource]
  have hj : ∀ j < n, ∀ t : State ι, applySource S (emittedAt j srcs) n t = t := by
    intro j hj t
    funext v i
    cases v with
    | fld f => rw [applySource_fld, injected_emittedAt, if_neg (by omega), add_zero]
    | _ => rfl
  have hn : run S (emittedAt n srcs) 0 n = 0 := run_zero fun t ht f i => by
    rw [injected_emittedAt, if_neg (by omega)]
  have e1 : amplified S srcs κ s (n + 1) = κ • exec S.prog (amplified S srcs κ s n) +
      κ • applySource S srcs n 0 := by
    unfold amplified
    rw [exec_add', exec_sum', exec_smul', Finset.sum_range_succ, smul_add, Finset.smul_sum, smul_smul, ← pow_succ',
      add_assoc]
    congr 1
    · rw [run, step, h0]
    congr 1
    · refine Finset.sum_congr rfl fun j hj' => ?_
      have hlt := Finset.mem_range.mp hj'
      rw [run, step, hj j hlt, exec_smul', smul_smul, ← pow_succ']
      congr 2
      omega
    · rw [run, step, hn, exec_zero, Nat.add_sub_cancel_left, pow_one]
      congr 1
      funext v i
      cases v with
      | fld f => rw [applySource_fld, applySource_fld, injected_emittedAt, if_pos rfl]
      | _ => rfl
  rw [e1, ← smul_add]
  congr 1
  funext v i
  cases v with
  | fld f => simp [applySource_fld]
  | _ => simp [applySource]

private theorem run_psi {D : Deriv ι} {c : BC ι} {S : Solver ι} (h : IsEM D c S) (hp : c.pml = none)
    (srcs : List (Source ι)) (κ : ℝ) (s : State ι) (f : Fld) (a : Axis) (hs : s (.psi f a) = 0) (n : ℕ) :
    amplified S srcs κ s n (.psi f a) = 0 := by
  induction n with
  | zero => simp [amplified, run, hs]
  | succ n ih =>
    rw [amplified_succ]
    have := h.psi_untouched hp (amplified S srcs κ s n) f a
    change κ • exec S.prog _ (.psi f a) = 0
    rw [this, ih, smul_zero]

private theorem comp_psi {D : Deriv ι} {c : BC ι} {S : Solver ι} (h : IsEM D c S) (hp : c.pml = none)
    (srcs : List (Source ι)) (κ : ι → ℝ) (s : State ι) (f : Fld) (a : Axis) (n : ℕ) :
    runCompensated S srcs κ s n (.psi f a) = s (.psi f a) := by
  induction n with
  | zero => rfl
  | succ n ih =>
    funext i
    rw [runCompensated, timesAssign, if_neg (h.fields_psi f a), step]
    change exec S.prog _ (.psi f a) i = _
    rw [h.psi_untouched hp, ih]

/-- C125: with constant conductivity and permittivity and without CPML, compensation multiplies the field emitted at every
step `j` with exactly the documented factor `exp(σ t / ε)`, where `t` is the time since the emission; the initial
wavefield is multiplied with the factor of the whole time. For all six electromagnetic equations, heterogeneous
permeability and relaxation, any sources and any number of steps. `partial`: not for heterogeneous `σ / ε`, and not with
CPML, whose memory is not compensated. -/
theorem C125_factor_partial {D : Deriv ι} {c : BC ι} {S : Solver ι} (h : IsEM D c S) (hp : c.pml = none) (σ ε DT : ℝ)
    {κ : ι → ℝ} (hκ : getCompensation false (fun _ => σ) (fun _ => ε) DT 1 = .ok κ) (srcs : List (Source ι))
    (s : State ι) (hs : ∀ v ∈ S.memory, s v = 0) (n : ℕ) :
    ∀ v ∈ S.fields, ∀ i, runCompensated S srcs κ s n v i =
      Real.exp (σ / ε * (n * DT)) * run S [] s n v i +
      ∑ j ∈ Finset.range n, Real.exp (σ / ε * ((n - j) * DT)) * run S (emittedAt j srcs) 0 n v i := by
  set k := Real.exp (σ / ε * DT) with hk
  have hκ' : κ = fun _ => k := by
    have := Out.ok.inj hκ
    rw [← this]
    funext i
    simp [hk]
  have key : Agree S.live (runCompensated S srcs κ s n) (amplified S srcs k s n) := by
    induction n with
    | zero => intro v _; simp [runCompensated, amplified, run]
    | succ n ih =>
      intro v hv
      by_cases hf : v ∈ S.fields
      · funext i
        rw [runCompensated, timesAssign, if_pos hf, amplified_succ, step]
        have := applySource_agree (S := S) (srcs := srcs) (t := n) (h.isSolver.flow.agree ih) v hv
        rw [this, hκ', mul_comm]
        rfl
      · have hm := hv.resolve_left hf
        obtain ⟨f, a, rfl⟩ := h.memory_psi v hm
        rw [comp_psi h hp, run_psi h hp _ _ _ _ _ (hs _ hm), hs _ hm]
  intro v hv i
  rw [key v (.inl hv)]
  have hpow : ∀ q : ℕ, k ^ q = Real.exp (σ / ε * (q * DT)) := by
    intro q
    rw [hk, ← Real.exp_nat_mul]
    congr 1
    ring
  simp only [amplified, Pi.add_apply, Pi.smul_apply, smul_eq_mul, Finset.sum_apply, hpow]
  congr 1
  refine Finset.sum_congr rfl fun j hj => ?_
  rw [Nat.cast_sub (Finset.mem_range.mp hj).le]

section Growth

variable {NX NY NZ : ℕ} (sp : Int) (DT DH : ℝ) {c : BC (Pt NX NY NZ)} {m : EMod (Pt NX NY NZ)}

local notation "D₀" => surfaceDeriv NX NY NZ sp DT DH

private theorem flux_sum (n : ℕ) (a : ℝ) (b : ℕ → ℝ) (t : State (Pt NX NY NZ)) (u : ℕ → State (Pt NX NY NZ))
    (w : State (Pt NX NY NZ))
    (h : ∀ q i, w (.fld (magn q)) i = a * t (.fld (magn q)) i + ∑ j ∈ Finset.range n, b j * u j (.fld (magn q)) i) :
    fluxDivergence sp DT DH [.x, .y, .z] m w = a • fluxDivergence sp DT DH [.x, .y, .z] m t +
      ∑ j ∈ Finset.range n, b j • fluxDivergence sp DT DH [.x, .y, .z] m (u j) := by
  have e : ∀ q, (fun i => w (.fld (magn q)) i / m.invMuAt q i) = a • (fun i => t (.fld (magn q)) i / m.invMuAt q i) +
      ∑ j ∈ Finset.range n, b j • fun i => u j (.fld (magn q)) i / m.invMuAt q i := by
    intro q
    funext i
    simp only [h, Pi.add_apply, Pi.smul_apply, smul_eq_mul, Finset.sum_apply, div_eq_mul_inv, add_mul,
      Finset.sum_mul, mul_assoc]
  simp only [fluxDivergence, List.map_cons, List.map_nil, List.sum_cons, List.sum_nil, add_zero, e, mulVec_add,
    mulVec_smul, Matrix.mulVec_sum, smul_add, Finset.sum_add_distrib]
  abel

/-- C125 is violated when it comes to energy: compensation multiplies also what is not attenuated at all. The divergence
of the magnetic flux density, which no electric source and no conductivity changes (C119), grows with `exp(σ t / ε)`, for
all electric sources and all heterogeneous permeabilities. -/
theorem C125_flux_violated (hd : c.damping = none) (hp : c.pml = none) (hm : ∀ a i, m.invMuAt a i ≠ 0) (σ ε : ℝ)
    {κ : Pt NX NY NZ → ℝ} (hκ : getCompensation false (fun _ => σ) (fun _ => ε) DT 1 = .ok κ)
    (srcs : List (Source (Pt NX NY NZ))) (hq : ∀ q ∈ srcs, q.ty ≠ .HZ) (s : State (Pt NX NY NZ))
    (hs : ∀ v ∈ (emem3DSolver D₀ m c).memory, s v = 0) (n : ℕ) :
    fluxDivergence sp DT DH [.x, .y, .z] m (runCompensated (emem3DSolver D₀ m c) srcs κ s n) =
      Real.exp (σ / ε * (n * DT)) • fluxDivergence sp DT DH [.x, .y, .z] m s := by
  have hf : ∀ q : Axis, Var.fld (magn q) ∈ (emem3DSolver D₀ m c).fields := by
    intro q
    cases q <;> simp [emem3DSolver, magn]
  rw [flux_sum sp DT DH (m := m) n _ _ _ _ _ fun q i =>
    C125_factor_partial (IsEM.emem3D m) hp σ ε DT hκ srcs s hs n _ (hf q) i]
  have off : ∀ i, c.Off i := fun i => ⟨fun w h => by simp [hd] at h, fun q h => by simp [hp] at h⟩
  have flux : ∀ (srcs : List (Source (Pt NX NY NZ))) (s : State (Pt NX NY NZ)), (∀ q ∈ srcs, q.ty ≠ .HZ) →
      fluxDivergence sp DT DH [.x, .y, .z] m (run (emem3DSolver D₀ m c) srcs s n) =
        fluxDivergence sp DT DH [.x, .y, .z] m s := fun srcs s h =>
    funext fun i => C119_emem3D sp DT DH srcs s (fun _ j _ => off j) hm h n
  rw [flux [] s (by simp)]
  rw [Finset.sum_eq_zero, add_zero]
  intro j _
  rw [flux _ 0 ?_]
  · have : fluxDivergence sp DT DH [.x, .y, .z] m 0 = 0 := by
      have h0 : ∀ q : Axis, (fun i : Pt NX NY NZ => (0 : State (Pt NX NY NZ)) (.fld (magn q)) i / m.invMuAt q i) = 0 := by
        intro q
        funext i
        simp
      simp only [fluxDivergence, h0, List.map_cons, List.map_nil, mulVec_zero, List.sum_cons, List.sum_nil, add_zero]
    rw [this, smul_zero]
  · intro q hq'
    obtain ⟨q', h', rfl⟩ := List.mem_map.mp hq'
    exact hq q' h'

/-- So in a conductive medium the compensated simulation diverges as soon as a magnetic source has acted, although the
uncompensated one is at rest there. -/
theorem C125_divergence_violated (hd : c.damping = none) (hp : c.pml = none) (hm : ∀ a i, m.invMuAt a i ≠ 0) (σ ε : ℝ)
    (hσ : 0 < σ) (hε : 0 < ε) (hT : 0 < DT) {κ : Pt NX NY NZ → ℝ}
    (hκ : getCompensation false (fun _ => σ) (fun _ => ε) DT 1 = .ok κ)
    (srcs : List (Source (Pt NX NY NZ))) (hq : ∀ q ∈ srcs, q.ty ≠ .HZ) (s : State (Pt NX NY NZ))
    (hs : ∀ v ∈ (emem3DSolver D₀ m c).memory, s v = 0) (i : Pt NX NY NZ)
    (h : fluxDivergence sp DT DH [.x, .y, .z] m s i ≠ 0) :
    Filter.Tendsto (fun n =>
      |fluxDivergence sp DT DH [.x, .y, .z] m (runCompensated (emem3DSolver D₀ m c) srcs κ s n) i|)
      Filter.atTop Filter.atTop := by
  have e : ∀ n : ℕ, |fluxDivergence sp DT DH [.x, .y, .z] m (runCompensated (emem3DSolver D₀ m c) srcs κ s n) i| =
      Real.exp (σ / ε * DT) ^ n * |fluxDivergence sp DT DH [.x, .y, .z] m s i| := by
    intro n
    rw [C125_flux_violated sp DT DH hd hp hm σ ε hκ srcs hq s hs n, Pi.smul_apply, smul_eq_mul, abs_mul, Real.abs_exp,
      ← Real.exp_nat_mul]
    congr 2
    ring
  simp only [e]
  exact (tendsto_pow_atTop_atTop_of_one_lt (Real.one_lt_exp_iff.mpr (by positivity))).atTop_mul_const (abs_pos.mpr h)

/-- Example: one point, a magnetic source at rest before. The state after the first time step has a flux divergence. -/
example : ∃ (m : EMod (Pt 1 1 1)) (c : BC (Pt 1 1 1)) (s : State (Pt 1 1 1)), c.damping = none ∧ c.pml = none ∧
    (∀ a i, m.invMuAt a i ≠ 0) ∧ (∀ v ∈ (emem3DSolver (surfaceDeriv 1 1 1 2 1 1) m c).memory, s v = 0) ∧
    s = step (emem3DSolver (surfaceDeriv 1 1 1 2 1 1) m c) [⟨.HZ, (0, 0, 0), fun _ => 1⟩] 0 0 ∧
    fluxDivergence 2 1 1 [.x, .y, .z] m s (0, 0, 0) ≠ 0 := by
  let m : EMod (Pt 1 1 1) := ⟨fun _ => 1, fun _ => 1, fun _ => 1, fun _ _ => 1, fun _ _ => 1, fun _ _ => 0,
    fun _ _ => 0, 1, 0, fun _ => 1, 1⟩
  let c : BC (Pt 1 1 1) := ⟨0, none, none, fun _ => false⟩
  refine ⟨m, c, _, rfl, rfl, ?_, ?_, rfl, ?_⟩
  · intro a i
    cases a <;> exact one_ne_zero
  · intro v hv
    obtain ⟨f, a, rfl⟩ := (IsEM.emem3D m).memory_psi v hv
    rw [step, exec_zero]
    rfl
  · have f00 : Verif.Stencil.fwdStencilEntry 1 2 0 0 = -1 := by decide +kernel
    have s1 : ∀ (b : Axis) (g : Fin (axisSize 1 1 1 b) → ℝ), ∑ k, g k = g (by cases b <;> exact (0 : Fin 1)) := by
      intro b g
      cases b <;> exact Fin.sum_univ_one _
    have fd : ∀ (b : Axis) (v : Pt 1 1 1 → ℝ), (forwardMatrix 2 1 1 b).mulVec v (0, 0, 0) = -v (0, 0, 0) := by
      intro b v
      rw [forwardMatrix_line, lineMatrix_mulVec, s1]
      cases b <;> simp [axisSize, along, moveTo, f00]
    rw [step, exec_zero]
    simp only [fluxDivergence, List.map_cons, List.map_nil, List.sum_cons, List.sum_nil, add_zero, Pi.add_apply, fd]
    simp [applySource, Solver.srcFlds, emem3DSolver, src3Demem, magn, m, EMod.invMuAt]

end Growth

end Verif.Solver
