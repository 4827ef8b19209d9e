import Mathlib.Tactic.Linarith
import Mathlib.Tactic.Ring
import Mathlib.Tactic.FieldSimp
import Mathlib.Tactic.NormNum
import Mathlib.Analysis.Complex.Basic
import Mathlib.Data.Complex.BigOperators
import Mathlib.Algebra.BigOperators.Fin
import Verif.Model.ModelParam
/-!
# C77–C80: seismic model parameters
-/
namespace Verif.MP
open Verif.Avg (Dir)
open Verif.Common (FP)

variable {ι : Type}

/-! ### Specification -/

/-- Attenuation factor at the reference frequency: 1 + τ Σ (f_c/f_l)² / (1 + (f_c/f_l)²). -/
noncomputable def attenuation (b : Base ι) (tau : ℝ) : ℝ :=
  1 + (∑ l ∈ Finset.range b.numRelax,
    (b.centerFreq / b.freq.getD l 0) ^ 2 / (1 + (b.centerFreq / b.freq.getD l 0) ^ 2)) * tau

/-- The P-wave modulus that belongs to the parameters. -/
noncomputable def specP (e : Eqn) (b : Base ι) (x : ι) : ℝ :=
  match e with
  | .viscoelastic | .viscosh => b.density x * b.velocityP x ^ 2 / attenuation b (b.tauP x)
  | _ => b.density x * b.velocityP x ^ 2

/-- The S-wave modulus that belongs to the parameters. -/
noncomputable def specS (e : Eqn) (b : Base ι) (x : ι) : ℝ :=
  match e with
  | .viscoelastic | .viscosh => b.density x * b.velocityS x ^ 2 / attenuation b (b.tauS x)
  | _ => b.density x * b.velocityS x ^ 2

/-- The matrix for the position of a shear stress: SH stresses lie between two points. -/
def planeDir (e : Eqn) (d : Dir) : Dir :=
  match e, d with
  | .sh, .xz => .x
  | .viscosh, .xz => .x
  | .sh, .yz => .y
  | .viscosh, .yz => .y
  | _, d => d

/-- What the getters should return for given parameters. -/
noncomputable def Current (e : Eqn) (A : Averages ι) (b : Base ι) : Getter → ι → FP ℝ → Prop
  | .pWaveModulus, x, v => v = .fin (specP e b x)
  | .sWaveModulus, x, v => v = .fin (specS e b x)
  | .inverseDensity, x, v => b.density x ≠ 0 → v = .fin (1 / b.density x)
  | .inverseDensityAverage d, x, v => v = .fin (A d b.density x)⁻¹
  | .sWaveModulusAverage d, x, v =>
    let h := (A (planeDir e d) (fun i => (max 1 (specS e b i))⁻¹) x)⁻¹
    v = .fin (if 4 ≤ h then h else 0)
  | .tauSAverage d, x, v => v = .fin (A (planeDir e d) b.tauS x)

/-- The getters that the solver of an equation may use. -/
def Used : Eqn → Getter → Prop
  | .acoustic, q => q = .pWaveModulus ∨ ∃ d, q = .inverseDensityAverage d
  | .elastic, q => q = .pWaveModulus ∨ q = .sWaveModulus ∨ (∃ d, q = .inverseDensityAverage d) ∨
      ∃ d, q = .sWaveModulusAverage d
  | .viscoelastic, q => q = .pWaveModulus ∨ q = .sWaveModulus ∨ (∃ d, q = .inverseDensityAverage d) ∨
      (∃ d, q = .sWaveModulusAverage d) ∨ ∃ d, q = .tauSAverage d
  | .sh, q => q = .sWaveModulus ∨ q = .inverseDensity ∨ ∃ d, q = .sWaveModulusAverage d
  | .viscosh, q => q = .sWaveModulus ∨ q = .inverseDensity ∨ (∃ d, q = .sWaveModulusAverage d) ∨
      ∃ d, q = .tauSAverage d

/-- The operation is not the initialisation of an object that is already in use. -/
def NotInit : Op ι → Prop
  | .init _ => False
  | _ => True

/-! ### Helpers -/

private theorem relaxSum_eq (n : Nat) (freq : List ℝ) (fc : ℝ) :
    relaxSum n freq fc = ∑ l ∈ Finset.range n,
      (fc / freq.getD l 0) ^ 2 / (1 + (fc / freq.getD l 0) ^ 2) := by
  unfold relaxSum
  rw [Finset.sum_eq_multiset_sum, Finset.range_val, Multiset.range, Multiset.map_coe, Multiset.sum_coe]
  congr 1
  apply List.map_congr_left
  intro l _
  have hpi := Real.pi_ne_zero
  have e : 2 * Real.pi * fc * (2 * Real.pi * fc) * (1 / (2 * Real.pi * freq.getD l 0)) *
      (1 / (2 * Real.pi * freq.getD l 0)) = (fc / freq.getD l 0) ^ 2 := by
    by_cases h : freq.getD l 0 = 0
    · rw [h]; simp
    · field_simp
  simp only [e]

private theorem calcP_eq (e : Eqn) (b : Base ι) (x : ι) : calcP e b x = specP e b x := by
  unfold calcP specP modulusFromVelocity attenuation
  rw [relaxSum_eq]
  cases e <;> simp only [Eqn.visco, if_true, if_false, Bool.false_eq_true] <;> ring

private theorem calcS_eq (e : Eqn) (b : Base ι) (x : ι) : calcS e b x = specS e b x := by
  unfold calcS specS modulusFromVelocity attenuation
  rw [relaxSum_eq]
  cases e <;> simp only [Eqn.visco, if_true, if_false, Bool.false_eq_true] <;> ring

private theorem floorOne_eq (v : ℝ) : floorOne v = max 1 v := by
  unfold floorOne
  rw [max_def]
  split_ifs <;> linarith

private theorem shearDir_eq (e : Eqn) (d : Dir) : shearDir e d = planeDir e d := by
  cases e <;> cases d <;> rfl

private theorem harmonic_eq (A : (ι → ℝ) → ι → ℝ) (s : ι → ℝ) (x : ι) :
    harmonic A s x = if 4 ≤ (A (fun i => (s i)⁻¹) x)⁻¹ then (A (fun i => (s i)⁻¹) x)⁻¹ else 0 := by
  unfold harmonic
  simp only [one_div]
  split_ifs with h1 h2 h2
  · linarith
  · rfl
  · rfl
  · exact absurd (not_lt.mp h1) h2

/-- The invariant: every clean cache belongs to the current parameters. -/
private structure Inv (e : Eqn) (A : Averages ι) (m : Model ι) : Prop where
  p : e.hasP = true → m.dirtyP = false → m.pWaveModulus = specP e m.toBase
  s : e.hasS = true → m.dirtyS = false →
    ∀ x, m.sWaveModulus x = specS e m.toBase x ∨ (specS e m.toBase x < 1 ∧ m.sWaveModulus x = 1)
  i : m.dirtyInverseDensity = false → m.inverseDensity = fun x => calcInverseDensity (m.density x)
  aI : e.isSH = false → m.dirtyAveraging = false →
    m.inverseDensityAverage = fun d x => (A d m.density x)⁻¹
  aS : e.hasS = true → m.dirtyAveraging = false → m.sWaveModulusAverage =
    fun d => harmonic (A (planeDir e d)) (fun i => max 1 (specS e m.toBase i))
  aT : e.visco = true → m.dirtyAveraging = false → m.tauSAverage = fun d => A (planeDir e d) m.tauS

private theorem inv_fresh (e : Eqn) (A : Averages ι) (b : Base ι) : Inv e A (Model.fresh b) := by
  constructor <;> intros <;> simp_all [Model.fresh]

private theorem specP_irrel {e : Eqn} {b c : Base ι} (h1 : b.density = c.density)
    (h2 : b.velocityP = c.velocityP) (h3 : b.tauP = c.tauP) (h4 : b.numRelax = c.numRelax)
    (h5 : b.freq = c.freq) (h6 : b.centerFreq = c.centerFreq) : specP e b = specP e c := by
  funext x
  unfold specP attenuation
  rw [h1, h2, h3, h4, h5, h6]

private theorem specS_irrel {e : Eqn} {b c : Base ι} (h1 : b.density = c.density)
    (h2 : b.velocityS = c.velocityS) (h3 : b.tauS = c.tauS) (h4 : b.numRelax = c.numRelax)
    (h5 : b.freq = c.freq) (h6 : b.centerFreq = c.centerFreq) : specS e b = specS e c := by
  funext x
  unfold specS attenuation
  rw [h1, h2, h3, h4, h5, h6]

private theorem inv_touch (e : Eqn) (A : Averages ι) (m : Model ι) (b : Base ι) :
    Inv e A (touch e (setBase m b)) := by
  constructor
  · intro h1 h2; simp [touch, h1] at h2
  · intro h1 h2; simp [touch, h1] at h2
  · intro h2; simp [touch] at h2
  · intro h1 h2; simp [touch] at h2
  · intro h1 h2; simp [touch] at h2
  · intro h1 h2; simp [touch] at h2

private theorem inv_getP {e : Eqn} {A : Averages ι} {m m' : Model ι} (h : Inv e A m)
    (hs : getP e m = .ok m') : Inv e A m' ∧ m'.toBase = m.toBase ∧ m'.dirtyP = false ∧
      m'.dirtyS = m.dirtyS ∧ m'.dirtyInverseDensity = m.dirtyInverseDensity := by
  unfold getP at hs
  split at hs
  swap; · cases hs
  have hs := Out.ok.inj hs
  by_cases hd : m.dirtyP = true
  · rw [if_pos hd] at hs
    subst hs
    refine ⟨⟨?_, h.s, h.i, h.aI, h.aS, h.aT⟩, rfl, rfl, rfl, rfl⟩
    intro _ _
    funext x
    exact calcP_eq e m.toBase x
  · rw [if_neg hd] at hs
    subst hs
    exact ⟨h, rfl, by simpa using hd, rfl, rfl⟩

private theorem inv_getS {e : Eqn} {A : Averages ι} {m m' : Model ι} (h : Inv e A m)
    (hs : getS e m = .ok m') : Inv e A m' ∧ m'.toBase = m.toBase ∧ m'.dirtyP = m.dirtyP ∧
      m'.dirtyS = false ∧ m'.dirtyInverseDensity = m.dirtyInverseDensity := by
  unfold getS at hs
  split at hs
  swap; · cases hs
  have hs := Out.ok.inj hs
  by_cases hd : m.dirtyS = true
  · rw [if_pos hd] at hs
    subst hs
    refine ⟨⟨h.p, ?_, h.i, h.aI, h.aS, h.aT⟩, rfl, rfl, rfl, rfl⟩
    intro _ _ x
    exact .inl (calcS_eq e m.toBase x)
  · rw [if_neg hd] at hs
    subst hs
    exact ⟨h, rfl, rfl, by simpa using hd, rfl⟩

private theorem inv_getInv {e : Eqn} {A : Averages ι} {m m' : Model ι} (h : Inv e A m)
    (hs : getInv e m = .ok m') : Inv e A m' ∧ m'.toBase = m.toBase ∧ m'.dirtyP = m.dirtyP ∧
      m'.dirtyS = m.dirtyS ∧ m'.dirtyInverseDensity = false := by
  unfold getInv at hs
  split at hs
  swap; · cases hs
  have hs := Out.ok.inj hs
  by_cases hd : m.dirtyInverseDensity = true
  · rw [if_pos hd] at hs
    subst hs
    exact ⟨⟨h.p, h.s, fun _ => rfl, h.aI, h.aS, h.aT⟩, rfl, rfl, rfl, rfl⟩
  · rw [if_neg hd] at hs
    subst hs
    exact ⟨h, rfl, rfl, rfl, by simpa using hd⟩

private theorem inv_averaging {e : Eqn} {A : Averages ι} {m : Model ι} (h : Inv e A m)
    (hS : e.hasS = true → m.dirtyS = false) :
    Inv e A (calculateAveraging e A m) ∧ (calculateAveraging e A m).toBase = m.toBase ∧
      (calculateAveraging e A m).dirtyP = m.dirtyP ∧ (calculateAveraging e A m).dirtyS = m.dirtyS ∧
      (calculateAveraging e A m).dirtyInverseDensity = m.dirtyInverseDensity ∧
      (calculateAveraging e A m).dirtyAveraging = false := by
  unfold calculateAveraging
  by_cases hd : m.dirtyAveraging = true
  swap
  · rw [if_neg hd]
    exact ⟨h, rfl, rfl, rfl, rfl, by simpa using hd⟩
  rw [if_pos hd]
  refine ⟨⟨h.p, ?_, h.i, ?_, ?_, ?_⟩, rfl, rfl, rfl, rfl, rfl⟩
  · intro h1 h2 x
    simp only [h1, if_true]
    rw [floorOne_eq]
    rcases h.s h1 h2 x with h3 | ⟨h3, h4⟩
    · by_cases hlt : specS e m.toBase x < 1
      · right
        refine ⟨hlt, ?_⟩
        rw [h3]; exact max_eq_left hlt.le
      · left
        rw [h3]; exact max_eq_right (not_lt.mp hlt)
    · right
      refine ⟨h3, ?_⟩
      rw [h4]; exact max_self 1
  · intro h1 _
    simp only [h1, Bool.false_eq_true, if_false]
    funext d x
    unfold inverseAverage
    rw [one_div]
  · intro h1 _
    simp only [h1, if_true]
    funext d
    rw [shearDir_eq]
    congr 1
    funext x
    rw [floorOne_eq]
    rcases h.s h1 (hS h1) x with h3 | ⟨h3, h4⟩
    · rw [h3]
    · rw [h4, max_self, max_eq_left h3.le]
  · intro h1 _
    simp only [h1, if_true]
    funext d
    rw [shearDir_eq]

private theorem inv_prepare {e : Eqn} {A : Averages ι} {m : Model ι} (h : Inv e A m) :
    ∃ m', prepare e A m = .ok m' ∧ Inv e A m' ∧ m'.toBase = m.toBase ∧
      (e.hasP = true → m'.dirtyP = false) ∧ (e.hasS = true → m'.dirtyS = false) ∧
      (e.isSH = true → m'.dirtyInverseDensity = false) ∧ m'.dirtyAveraging = false := by
  have stepP : ∃ m1, (if e.hasP then getP e m else .ok m : Out (Model ι)) = .ok m1 ∧ Inv e A m1 ∧
      m1.toBase = m.toBase ∧ (e.hasP = true → m1.dirtyP = false) := by
    by_cases hp : e.hasP = true
    · rw [if_pos hp]
      have e1 : ∃ m1, getP e m = .ok m1 := by unfold getP; rw [if_pos hp]; exact ⟨_, rfl⟩
      obtain ⟨m1, e1⟩ := e1
      obtain ⟨i1, b1, d1, _⟩ := inv_getP h e1
      exact ⟨m1, e1, i1, b1, fun _ => d1⟩
    · rw [if_neg hp]; exact ⟨m, rfl, h, rfl, fun h' => absurd h' hp⟩
  obtain ⟨m1, e1, i1, b1, d1⟩ := stepP
  have stepS : ∃ m2, (if e.hasS then getS e m1 else .ok m1 : Out (Model ι)) = .ok m2 ∧ Inv e A m2 ∧
      m2.toBase = m1.toBase ∧ m2.dirtyP = m1.dirtyP ∧ (e.hasS = true → m2.dirtyS = false) := by
    by_cases hp : e.hasS = true
    · rw [if_pos hp]
      have e2 : ∃ m2, getS e m1 = .ok m2 := by unfold getS; rw [if_pos hp]; exact ⟨_, rfl⟩
      obtain ⟨m2, e2⟩ := e2
      obtain ⟨i2, b2, p2, d2, _⟩ := inv_getS i1 e2
      exact ⟨m2, e2, i2, b2, p2, fun _ => d2⟩
    · rw [if_neg hp]; exact ⟨m1, rfl, i1, rfl, rfl, fun h' => absurd h' hp⟩
  obtain ⟨m2, e2, i2, b2, p2, d2⟩ := stepS
  have stepI : ∃ m3, (if e.isSH then getInv e m2 else .ok m2 : Out (Model ι)) = .ok m3 ∧ Inv e A m3 ∧
      m3.toBase = m2.toBase ∧ m3.dirtyP = m2.dirtyP ∧ m3.dirtyS = m2.dirtyS ∧
      (e.isSH = true → m3.dirtyInverseDensity = false) := by
    by_cases hp : e.isSH = true
    · rw [if_pos hp]
      have e3 : ∃ m3, getInv e m2 = .ok m3 := by unfold getInv; rw [if_pos hp]; exact ⟨_, rfl⟩
      obtain ⟨m3, e3⟩ := e3
      obtain ⟨i3, b3, p3, s3, d3⟩ := inv_getInv i2 e3
      exact ⟨m3, e3, i3, b3, p3, s3, fun _ => d3⟩
    · rw [if_neg hp]; exact ⟨m2, rfl, i2, rfl, rfl, rfl, fun h' => absurd h' hp⟩
  obtain ⟨m3, e3, i3, b3, p3, s3, d3⟩ := stepI
  obtain ⟨i4, b4, p4, s4, v4, a4⟩ := inv_averaging (A := A) i3 (fun hs => by rw [s3]; exact d2 hs)
  refine ⟨calculateAveraging e A m3, ?_, i4, by rw [b4, b3, b2, b1], ?_, ?_, ?_, a4⟩
  · unfold prepare
    rw [e1]
    simp only [Out.bind_ok]
    rw [e2]
    simp only [Out.bind_ok]
    rw [e3]
    simp only [Out.bind_ok]
  · intro hp; rw [p4, p3, p2]; exact d1 hp
  · intro hs; rw [s4, s3]; exact d2 hs
  · intro hi; rw [v4]; exact d3 hi

private theorem inv_step {e : Eqn} {A : Averages ι} {m m' : Model ι} {o : Op ι} (h : Inv e A m)
    (ho : NotInit o) (hs : step e A m o = .ok m') : Inv e A m' := by
  cases o with
  | init b => exact absurd ho (by simp [NotInit])
  | setDensity v =>
    have hs := Out.ok.inj hs; subst hs
    constructor <;> intros <;> simp_all
  | setVelocityP v =>
    have hs := Out.ok.inj hs; subst hs
    refine ⟨by intro _ h2; simp at h2, ?_, h.i, h.aI, ?_, h.aT⟩
    · intro h1 h2 x
      exact h.s h1 h2 x
    · exact h.aS
  | setVelocityS v =>
    have hs := Out.ok.inj hs; subst hs
    exact ⟨h.p, by intro _ h2; simp at h2, h.i, by intro _ h2; simp at h2, by intro _ h2; simp at h2,
      by intro _ h2; simp at h2⟩
  | setTauP v =>
    have hs := Out.ok.inj hs; subst hs
    exact ⟨by intro _ h2; simp at h2, h.s, h.i, h.aI, h.aS, h.aT⟩
  | setTauS v =>
    have hs := Out.ok.inj hs; subst hs
    exact ⟨h.p, by intro _ h2; simp at h2, h.i, by intro _ h2; simp at h2, by intro _ h2; simp at h2,
      by intro _ h2; simp at h2⟩
  | setRelaxationFrequency f =>
    have hs := Out.ok.inj hs; subst hs
    exact ⟨by intro _ h2; simp at h2, by intro _ h2; simp at h2, h.i, by intro _ h2; simp at h2,
      by intro _ h2; simp at h2, by intro _ h2; simp at h2⟩
  | setNumRelaxationMechanisms n =>
    have hs := Out.ok.inj hs; subst hs
    exact ⟨by intro _ h2; simp at h2, by intro _ h2; simp at h2, h.i, by intro _ h2; simp at h2,
      by intro _ h2; simp at h2, by intro _ h2; simp at h2⟩
  | scale r => have hs := Out.ok.inj hs; subst hs; exact inv_touch e A m _
  | add c => have hs := Out.ok.inj hs; subst hs; exact inv_touch e A m _
  | sub c => have hs := Out.ok.inj hs; subst hs; exact inv_touch e A m _
  | assign c => have hs := Out.ok.inj hs; subst hs; exact inv_touch e A m _
  | applyThresholds t => have hs := Out.ok.inj hs; subst hs; exact inv_touch e A m _
  | getPWaveModulus => exact (inv_getP h hs).1
  | getSWaveModulus => exact (inv_getS h hs).1
  | getInverseDensity => exact (inv_getInv h hs).1
  | getAverages =>
    simp only [step, getAverages] at hs
    split at hs
    · cases hs
    · have hs := Out.ok.inj hs; subst hs; exact h
  | prepareForModelling =>
    obtain ⟨m1, e1, i1, _⟩ := inv_prepare (A := A) h
    simp only [step] at hs
    rw [e1] at hs
    have hs := Out.ok.inj hs; subst hs; exact i1
  | copyConstruct =>
    have hs := Out.ok.inj hs; subst hs
    exact ⟨h.p, h.s, h.i, by intro _ h2; simp [copy] at h2, by intro _ h2; simp [copy] at h2,
      by intro _ h2; simp [copy] at h2⟩

private theorem inv_run {e : Eqn} {A : Averages ι} : ∀ (ops : List (Op ι)) (m m' : Model ι),
    Inv e A m → (∀ o ∈ ops, NotInit o) → runOps e A m ops = .ok m' → Inv e A m' := by
  intro ops
  induction ops with
  | nil => intro m m' h _ hs; have hs := Out.ok.inj hs; subst hs; exact h
  | cons o ops ih =>
    intro m m' h ho hs
    simp only [runOps] at hs
    cases h1 : step e A m o with
    | err => rw [h1] at hs; cases hs
    | ub => rw [h1] at hs; cases hs
    | ok m1 =>
      rw [h1] at hs
      exact ih m1 m' (inv_step h (ho o List.mem_cons_self) h1)
        (fun o' ho' => ho o' (List.mem_cons_of_mem _ ho')) hs

private theorem run_append {e : Eqn} {A : Averages ι} : ∀ (ops ops' : List (Op ι)) (m m' : Model ι),
    runOps e A m ops = .ok m' → runOps e A m (ops ++ ops') = runOps e A m' ops' := by
  intro ops
  induction ops with
  | nil => intro ops' m m' h; have h := Out.ok.inj h; subst h; rfl
  | cons o ops ih =>
    intro ops' m m' h
    simp only [runOps, List.cons_append] at h ⊢
    cases h1 : step e A m o with
    | err => rw [h1] at h; cases h
    | ub => rw [h1] at h; cases h
    | ok m1 => rw [h1] at h; exact ih ops' m1 m' h

/-! ### C77: cached parameters are never stale -/

/-- C77: whatever operations are applied to a model (except initialising it again), a const getter
either throws or returns the vector that belongs to the current parameters. Missing: the S-wave
modulus itself may have been raised to 1 where it is smaller, and initialising an object twice. -/
theorem C77_never_stale_partial (e : Eqn) (A : Averages ι) (b : Base ι) (ops : List (Op ι))
    (ho : ∀ o ∈ ops, NotInit o) {m : Model ι} (hr : runOps e A (Model.fresh b) ops = .ok m)
    {q : Getter} (hu : Used e q) {v : ι → FP ℝ} (hv : constGet e m q = .ok v) (x : ι)
    (hx : q = .sWaveModulus → 1 ≤ specS e m.toBase x) : Current e A m.toBase q x (v x) := by
  have h := inv_run ops _ m (inv_fresh e A b) ho hr
  cases q with
  | pWaveModulus =>
    simp only [constGet] at hv
    split at hv
    swap; · cases hv
    rename_i hc
    have hv := Out.ok.inj hv; subst hv
    simp only [Current, h.p hc.1 hc.2]
  | sWaveModulus =>
    simp only [constGet] at hv
    split at hv
    swap; · cases hv
    rename_i hc
    have hv := Out.ok.inj hv; subst hv
    simp only [Current]
    rcases h.s hc.1 hc.2 x with h1 | ⟨h1, _⟩
    · rw [h1]
    · exact absurd (hx rfl) (not_le.mpr h1)
  | inverseDensity =>
    simp only [constGet] at hv
    split at hv
    swap; · cases hv
    rename_i hc
    have hv := Out.ok.inj hv; subst hv
    simp only [Current]
    intro hne
    rw [h.i hc]
    simp only [calcInverseDensity, if_neg hne]
  | inverseDensityAverage d =>
    simp only [constGet] at hv
    split at hv
    swap; · cases hv
    rename_i hc
    have hv := Out.ok.inj hv; subst hv
    have hsh : e.isSH = false := by cases e <;> simp [Used] at hu <;> rfl
    simp only [Current]
    rw [h.aI hsh hc]
  | sWaveModulusAverage d =>
    simp only [constGet] at hv
    split at hv
    swap; · cases hv
    rename_i hc
    have hv := Out.ok.inj hv; subst hv
    simp only [Current]
    rw [h.aS hc.1 hc.2]
    simp only []
    rw [harmonic_eq]
  | tauSAverage d =>
    simp only [constGet] at hv
    split at hv
    swap; · cases hv
    rename_i hc
    have hv := Out.ok.inj hv; subst hv
    simp only [Current]
    rw [h.aT hc.1 hc.2]

/-- C77: the S-wave modulus belongs to the current parameters, or is smaller than 1 and was raised to
1. Missing: that nothing is raised (see `C77_fluid_modulus_violated`). -/
theorem C77_s_modulus_partial (e : Eqn) (A : Averages ι) (b : Base ι) (ops : List (Op ι))
    (ho : ∀ o ∈ ops, NotInit o) {m : Model ι} (hr : runOps e A (Model.fresh b) ops = .ok m)
    {v : ι → FP ℝ} (hv : constGet e m .sWaveModulus = .ok v) (x : ι) :
    v x = .fin (specS e m.toBase x) ∨ (specS e m.toBase x < 1 ∧ v x = .fin 1) := by
  have h := inv_run ops _ m (inv_fresh e A b) ho hr
  simp only [constGet] at hv
  split at hv
  swap; · cases hv
  rename_i hc
  have hv := Out.ok.inj hv; subst hv
  rcases h.s hc.1 hc.2 x with h1 | ⟨h1, h2⟩
  · left; simp only [h1]
  · right; exact ⟨h1, by simp only [h2]⟩

/-- C77: after any operations, preparing the model succeeds, keeps the parameters, and makes every
getter the solver uses available. -/
theorem C77_prepared (e : Eqn) (A : Averages ι) (b : Base ι) (ops : List (Op ι))
    (ho : ∀ o ∈ ops, NotInit o) {m : Model ι} (hr : runOps e A (Model.fresh b) ops = .ok m) :
    ∃ m', runOps e A (Model.fresh b) (ops ++ [.prepareForModelling]) = .ok m' ∧
      m'.toBase = m.toBase ∧ ∀ q, Used e q → ∃ v, constGet e m' q = .ok v := by
  have h := inv_run ops _ m (inv_fresh e A b) ho hr
  obtain ⟨m', e1, _, b1, dP, dS, dI, dA⟩ := inv_prepare (A := A) h
  refine ⟨m', ?_, b1, ?_⟩
  · rw [run_append ops _ _ m hr]
    simp only [runOps, step, e1, Out.bind_ok]
  · intro q hu
    cases e <;> simp only [Used] at hu
    · have := dP rfl
      rcases hu with rfl | ⟨d, rfl⟩ <;> exact ⟨_, by simp only [constGet]; rw [if_pos (by simp [*, Eqn.hasP])]⟩
    · have := dP rfl
      have := dS rfl
      rcases hu with rfl | rfl | ⟨d, rfl⟩ | ⟨d, rfl⟩ <;>
        exact ⟨_, by simp only [constGet]; rw [if_pos (by simp [*, Eqn.hasP, Eqn.hasS])]⟩
    · have := dP rfl
      have := dS rfl
      rcases hu with rfl | rfl | ⟨d, rfl⟩ | ⟨d, rfl⟩ | ⟨d, rfl⟩ <;>
        exact ⟨_, by simp only [constGet]; rw [if_pos (by simp [*, Eqn.hasP, Eqn.hasS, Eqn.visco])]⟩
    · have := dI rfl
      have := dS rfl
      rcases hu with rfl | rfl | ⟨d, rfl⟩ <;>
        exact ⟨_, by simp only [constGet]; rw [if_pos (by simp [*, Eqn.hasP, Eqn.hasS])]⟩
    · have := dI rfl
      have := dS rfl
      rcases hu with rfl | rfl | ⟨d, rfl⟩ | ⟨d, rfl⟩ <;>
        exact ⟨_, by simp only [constGet]; rw [if_pos (by simp [*, Eqn.hasP, Eqn.hasS, Eqn.visco])]⟩

/-- A model with one grid point. -/
def onePoint (vp vs rho : ℝ) : Base Unit :=
  { velocityP := fun _ => vp, velocityS := fun _ => vs, density := fun _ => rho,
    tauP := fun _ => 0, tauS := fun _ => 0, numRelax := 0, freq := [], centerFreq := 0 }

/-- The averages of one point. -/
def oneAverage : Averages Unit := fun _ f => f

/-- A concrete run: prepare, change the density, prepare again. -/
example : ∃ m, runOps .elastic oneAverage (Model.fresh (onePoint 2 1 3))
      [.prepareForModelling, .setDensity (fun _ => 5), .prepareForModelling] = .ok m ∧
    ∃ v, constGet .elastic m .pWaveModulus = .ok v ∧ v () = .fin 20 := by
  obtain ⟨m1, h1, _, _⟩ := C77_prepared .elastic oneAverage (onePoint 2 1 3) [] (by simp) rfl
  have h2 : runOps .elastic oneAverage (Model.fresh (onePoint 2 1 3))
      ([.prepareForModelling, .setDensity (fun _ => 5)]) =
        step .elastic oneAverage m1 (.setDensity (fun _ => 5)) := by
    have := run_append (e := .elastic) (A := oneAverage) [.prepareForModelling]
      [.setDensity (fun _ => 5)] _ m1 h1
    rw [show ([.prepareForModelling, .setDensity (fun _ => 5)] : List (Op Unit)) =
      [.prepareForModelling] ++ [.setDensity (fun _ => 5)] from rfl, this]
    rfl
  obtain ⟨m, h3, hb, hg⟩ := C77_prepared .elastic oneAverage (onePoint 2 1 3)
    [.prepareForModelling, .setDensity (fun _ => 5)] (by simp [NotInit]) h2
  obtain ⟨v, hv⟩ := hg .pWaveModulus (.inl rfl)
  refine ⟨m, h3, v, hv, ?_⟩
  have hc := C77_never_stale_partial .elastic oneAverage (onePoint 2 1 3) _ (by simp [NotInit]) h3
    (.inl rfl) hv () (by intro h; cases h)
  simp only [Current, specP, hb] at hc
  rw [hc]
  have hm : m1.toBase = onePoint 2 1 3 := by
    obtain ⟨m', e1, e2, _⟩ := C77_prepared .elastic oneAverage (onePoint 2 1 3) [] (by simp) rfl
    rw [h1] at e1
    have := Out.ok.inj e1
    subst this
    exact e2
  rw [hm]
  norm_num [onePoint]

/-- C77 fails when an object is initialised a second time: the flags are not touched, so preparing
the model changes nothing and the solver works with the moduli of the previous model. -/
theorem C77_reinit_violated :
    ∃ (b b' : Base Unit) (m : Model Unit) (v : Unit → FP ℝ),
      runOps .acoustic oneAverage (Model.fresh b) [.prepareForModelling, .init b', .prepareForModelling] = .ok m ∧
      m.toBase = b' ∧ constGet .acoustic m .pWaveModulus = .ok v ∧
      v () ≠ .fin (specP .acoustic b' ()) := by
  refine ⟨onePoint 1 0 1, onePoint 2 0 1, _, _, rfl, rfl, rfl, ?_⟩
  intro h
  have h : calcP .acoustic (onePoint 1 0 1) () = specP .acoustic (onePoint 2 0 1) () := FP.fin.inj h
  rw [calcP_eq] at h
  norm_num [specP, onePoint] at h

/-- C77 fails for the S-wave modulus of vacuum and fluids: after the preparation the getter returns 1
instead of 0. -/
theorem C77_fluid_modulus_violated :
    ∃ (b : Base Unit) (m : Model Unit) (v : Unit → FP ℝ),
      runOps .elastic oneAverage (Model.fresh b) [.prepareForModelling] = .ok m ∧
      constGet .elastic m .sWaveModulus = .ok v ∧
      v () = .fin 1 ∧ specS .elastic m.toBase () = 0 := by
  refine ⟨onePoint 1500 0 1000, _, _, rfl, rfl, ?_, ?_⟩
  · simp [calculateAveraging, Model.fresh, Eqn.hasS, floorOne, calcS, onePoint,
      modulusFromVelocity, Eqn.visco]
  · simp [specS, calculateAveraging, Model.fresh, onePoint]

end Verif.MP
