import Mathlib.Tactic.Linarith
import Mathlib.Tactic.Ring
import Mathlib.Tactic.FieldSimp
import Mathlib.Tactic.NormNum
import Mathlib.Tactic.Positivity
import Mathlib.Tactic.LinearCombination
import Mathlib.Analysis.Complex.Basic
import Mathlib.Data.Complex.BigOperators
import Mathlib.Algebra.BigOperators.Fin
import Verif.Model.ModelParamEM
/-!
# C81–C85: electromagnetic model parameters
-/
namespace Verif.EMP
open Verif.Avg (Dir)
open Verif.MP (Averages clip mask inverseAverage)

variable {ι : Type}

/-! ### Specification -/

/-- Mean of (f_c/f_l)² / (1 + (f_c/f_l)²) over the relaxation mechanisms. -/
noncomputable def dispersion (b : Base ι) : ℝ :=
  (∑ l ∈ Finset.range b.numRelax,
    (b.centerFreq / b.freq.getD l 0) ^ 2 / (1 + (b.centerFreq / b.freq.getD l 0) ^ 2)) / b.numRelax

/-- Mean of 2π f_c²/f_l / (1 + (f_c/f_l)²) over the relaxation mechanisms. -/
noncomputable def loss (b : Base ι) : ℝ :=
  (∑ l ∈ Finset.range b.numRelax,
    2 * Real.pi * b.centerFreq ^ 2 / b.freq.getD l 0 /
      (1 + (b.centerFreq / b.freq.getD l 0) ^ 2)) / b.numRelax

/-- The permittivity that determines the velocity at the reference frequency. -/
noncomputable def referencePermittivity (e : Eqn) (b : Base ι) (x : ι) : ℝ :=
  match e with
  | .tmem | .emem => b.eps x
  | _ => max epsVac (b.eps x * (1 - dispersion b * b.tauEps x) + b.sigma x * b.tauSigma x)

/-- The matrix for the position of a magnetic field component. -/
def planeDir (e : Eqn) (d : Dir) : Dir :=
  match e, d with
  | .tmem, .xz => .x
  | .viscotmem, .xz => .x
  | .tmem, .yz => .y
  | .viscotmem, .yz => .y
  | _, d => d

/-- What the getters should return for given parameters. -/
noncomputable def Current (e : Eqn) (A : Averages ι) (b : Base ι) : Getter → ι → ℝ
  | .velocity => fun x => (Real.sqrt (referencePermittivity e b x * b.mu x))⁻¹
  | .inverseMuAverage d => fun x => (A (planeDir e d) b.mu x)⁻¹
  | .sigmaAverage d => A d b.sigma
  | .epsAverage d => A d b.eps
  | .tauSigmaAverage d => A d b.tauSigma
  | .tauEpsAverage d => A d b.tauEps

/-- The getters that the solver of an equation may use. -/
def Used : Eqn → Getter → Prop
  | .tmem, q | .viscotmem, q => q = .velocity ∨ ∃ d, q = .inverseMuAverage d
  | .emem, q => q = .velocity ∨ (∃ d, q = .inverseMuAverage d) ∨ (∃ d, q = .sigmaAverage d) ∨
      ∃ d, q = .epsAverage d
  | .viscoemem, _ => True

/-- The operation is not the initialisation of an object that is already in use. -/
def NotInit : Op ι → Prop
  | .init _ => False
  | _ => True

/-! ### Helpers -/

private theorem list_sum (n : Nat) (f : Nat → ℝ) :
    ((List.range n).map f).sum = ∑ l ∈ Finset.range n, f l := by
  rw [Finset.sum_eq_multiset_sum, Finset.range_val, Multiset.range, Multiset.map_coe, Multiset.sum_coe]

private theorem term_eq (fc f : ℝ) :
    2 * Real.pi * fc * (2 * Real.pi * fc) * (1 / (2 * Real.pi * f)) *
      (1 / (2 * Real.pi * f)) = (fc / f) ^ 2 := by
  have hpi := Real.pi_ne_zero
  by_cases h : f = 0
  · rw [h]; simp
  · field_simp

private theorem term_eq' (fc f : ℝ) :
    2 * Real.pi * fc * (2 * Real.pi * fc) * (1 / (2 * Real.pi * f)) =
      2 * Real.pi * fc ^ 2 / f := by
  have hpi := Real.pi_ne_zero
  by_cases h : f = 0
  · rw [h]; simp
  · field_simp

private theorem aMean_eq (b : Base ι) : aMean b = dispersion b := by
  unfold aMean dispersion
  rw [list_sum]
  congr 1
  apply Finset.sum_congr rfl
  intro l _
  simp only [term_eq]

private theorem bMean_eq (b : Base ι) : bMean b = loss b := by
  unfold bMean loss
  rw [list_sum]
  congr 1
  apply Finset.sum_congr rfl
  intro l _
  simp only [term_eq]
  rw [term_eq']

private theorem floorAt_eq (lo v : ℝ) : floorAt lo v = max lo v := by
  unfold floorAt
  rw [max_def]
  split_ifs <;> linarith

private theorem epsEff_eq (b : Base ι) (x : ι) : epsEff b x =
    max epsVac (b.eps x * (1 - dispersion b * b.tauEps x) + b.sigma x * b.tauSigma x) := by
  unfold epsEff
  rw [floorAt_eq, aMean_eq]

private theorem sigmaEff_eq (b : Base ι) (x : ι) : sigmaEff b x =
    max 0 (b.eps x * (loss b * b.tauEps x) + b.sigma x) := by
  unfold sigmaEff
  rw [floorAt_eq, bMean_eq]

private theorem epsStatic_eq (b : Base ι) (e s : ι → ℝ) (x : ι) : epsStatic b e s x =
    max epsVac ((e x - s x * b.tauSigma x) /
      ((1 - dispersion b * b.tauEps x) - loss b * b.tauEps x * b.tauSigma x)) := by
  unfold epsStatic
  rw [floorAt_eq, bMean_eq, aMean_eq]

private theorem sigmaStatic_eq (b : Base ι) (e s : ι → ℝ) (x : ι) : sigmaStatic b e s x =
    max 0 (s x - loss b * b.tauEps x * epsStatic b e s x) := by
  unfold sigmaStatic
  rw [floorAt_eq, bMean_eq]

private theorem calcVelocity_eq (e : Eqn) (b : Base ι) (x : ι) :
    calcVelocity e b x = (Real.sqrt (referencePermittivity e b x * b.mu x))⁻¹ := by
  have h : (if e.visco then epsEff b x else b.eps x) = referencePermittivity e b x := by
    cases e <;> simp only [Eqn.visco, referencePermittivity, if_true, if_false, Bool.false_eq_true]
    · exact epsEff_eq b x
    · exact epsEff_eq b x
  unfold calcVelocity velocityOf
  rw [h]
  split_ifs with h1
  · rw [Real.sqrt_eq_zero_of_nonpos h1, inv_zero]
  · rw [one_div]

private theorem muDir_eq (e : Eqn) (d : Dir) : muDir e d = planeDir e d := by
  cases e <;> cases d <;> rfl

theorem epsVac_pos : 0 < epsVac := by unfold epsVac; norm_num
theorem muVac_pos : 0 < muVac := by unfold muVac; norm_num

/-- The invariant: every clean cache belongs to the current parameters. -/
private structure Inv (e : Eqn) (A : Averages ι) (m : Model ι) : Prop where
  v : m.dirtyVelocity = false → m.velocity = calcVelocity e m.toBase
  mu : m.dirtyAveraging = false → m.inverseMuAverage = fun d => inverseAverage (A (planeDir e d)) m.mu
  s : e.isTM = false → m.dirtyAveraging = false → m.sigmaAverage = fun d => A d m.sigma
  p : e.isTM = false → m.dirtyAveraging = false → m.epsAverage = fun d => A d m.eps
  ts : e = .viscoemem → m.dirtyAveraging = false → m.tauSigmaAverage = fun d => A d m.tauSigma
  te : e = .viscoemem → m.dirtyAveraging = false → m.tauEpsAverage = fun d => A d m.tauEps

private theorem inv_dirty {e : Eqn} {A : Averages ι} {m : Model ι} (h1 : m.dirtyVelocity = true)
    (h2 : m.dirtyAveraging = true) : Inv e A m := by
  constructor <;> intros <;> simp_all

private theorem inv_velocity {e : Eqn} {A : Averages ι} {m : Model ι} (h : Inv e A m) :
    Inv e A (getVelocity e m) ∧ (getVelocity e m).toBase = m.toBase ∧
      (getVelocity e m).dirtyVelocity = false := by
  unfold getVelocity
  by_cases hd : m.dirtyVelocity = true
  · rw [if_pos hd]
    exact ⟨⟨fun _ => rfl, h.mu, h.s, h.p, h.ts, h.te⟩, rfl, rfl⟩
  · rw [if_neg hd]
    exact ⟨h, rfl, by simpa using hd⟩

private theorem inv_averaging {e : Eqn} {A : Averages ι} {m : Model ι} (h : Inv e A m) :
    Inv e A (calculateAveraging e A m) ∧ (calculateAveraging e A m).toBase = m.toBase ∧
      (calculateAveraging e A m).dirtyVelocity = m.dirtyVelocity ∧
      (calculateAveraging e A m).dirtyAveraging = false := by
  unfold calculateAveraging
  by_cases hd : m.dirtyAveraging = true
  swap
  · rw [if_neg hd]
    exact ⟨h, rfl, rfl, by simpa using hd⟩
  rw [if_pos hd]
  refine ⟨⟨h.v, ?_, ?_, ?_, ?_, ?_⟩, rfl, rfl, rfl⟩
  · intro _
    funext d
    simp only [muDir_eq]
  · intro h1 _; simp only [h1, Bool.false_eq_true, if_false]
  · intro h1 _; simp only [h1, Bool.false_eq_true, if_false]
  · intro h1 _; simp only [h1, if_true]
  · intro h1 _; simp only [h1, if_true]

private theorem inv_step {e : Eqn} {A : Averages ι} {m m' : Model ι} {o : Op ι} (h : Inv e A m)
    (ho : NotInit o) (hs : step e A m o = .ok m') : Inv e A m' := by
  cases o with
  | init b => exact absurd ho (by simp [NotInit])
  | getVelocityEM => have hs := Out.ok.inj hs; subst hs; exact (inv_velocity h).1
  | getAverages =>
    simp only [step, getAverages] at hs
    split at hs
    · cases hs
    · have hs := Out.ok.inj hs; subst hs; exact h
  | prepareForModelling =>
    have hs := Out.ok.inj hs; subst hs
    exact (inv_averaging (inv_velocity h).1).1
  | copyConstruct =>
    have hs := Out.ok.inj hs; subst hs
    refine ⟨h.v, ?_, ?_, ?_, ?_, ?_⟩
    · intro h2; simp [copy] at h2
    all_goals intro _ h2; simp [copy] at h2
  | _ => have hs := Out.ok.inj hs; subst hs; exact inv_dirty rfl rfl

private theorem inv_run {e : Eqn} {A : Averages ι} : ∀ (ops : List (Op ι)) (m m' : Model ι),
    Inv e A m → (∀ o ∈ ops, NotInit o) → runOps e A m ops = .ok m' → Inv e A m' := by
  intro ops
  induction ops with
  | nil => intro m m' h _ hs; have hs := Out.ok.inj hs; subst hs; exact h
  | cons o ops ih =>
    intro m m' h ho hs
    simp only [runOps] at hs
    cases h1 : step e A m o with
    | err => rw [h1] at hs; cases hs
    | ub => rw [h1] at hs; cases hs
    | ok m1 =>
      rw [h1] at hs
      exact ih m1 m' (inv_step h (ho o List.mem_cons_self) h1)
        (fun o' ho' => ho o' (List.mem_cons_of_mem _ ho')) hs

private theorem run_append {e : Eqn} {A : Averages ι} : ∀ (ops ops' : List (Op ι)) (m m' : Model ι),
    runOps e A m ops = .ok m' → runOps e A m (ops ++ ops') = runOps e A m' ops' := by
  intro ops
  induction ops with
  | nil => intro ops' m m' h; have h := Out.ok.inj h; subst h; rfl
  | cons o ops ih =>
    intro ops' m m' h
    simp only [runOps, List.cons_append] at h ⊢
    cases h1 : step e A m o with
    | err => rw [h1] at h; cases h
    | ub => rw [h1] at h; cases h
    | ok m1 => rw [h1] at h; exact ih ops' m1 m' h

/-! ### C81: cached parameters are never stale -/

/-- C81: whatever operations are applied to a model (except initialising it again), a const getter
that the solver uses either throws or returns the vector that belongs to the current parameters.
Missing: initialising an object twice. -/
theorem C81_never_stale_partial (e : Eqn) (A : Averages ι) (b : Base ι) (ops : List (Op ι))
    (ho : ∀ o ∈ ops, NotInit o) {m : Model ι} (hr : runOps e A (Model.fresh b) ops = .ok m)
    {q : Getter} (hu : Used e q) {v : ι → ℝ} (hv : constGet m q = .ok v) :
    v = Current e A m.toBase q := by
  have h := inv_run ops _ m (inv_dirty rfl rfl) ho hr
  cases q with
  | velocity =>
    simp only [constGet] at hv
    split at hv
    · cases hv
    rename_i hc
    have hv := Out.ok.inj hv; subst hv
    funext x
    rw [h.v (by simpa using hc), calcVelocity_eq]
    rfl
  | inverseMuAverage d =>
    simp only [constGet] at hv
    split at hv
    · cases hv
    rename_i hc
    have hv := Out.ok.inj hv; subst hv
    funext x
    rw [h.mu (by simpa using hc)]
    simp only [Current, inverseAverage, one_div]
  | sigmaAverage d =>
    simp only [constGet] at hv
    split at hv
    · cases hv
    rename_i hc
    have hv := Out.ok.inj hv; subst hv
    have ht : e.isTM = false := by cases e <;> simp [Used] at hu <;> rfl
    rw [h.s ht (by simpa using hc)]
    rfl
  | epsAverage d =>
    simp only [constGet] at hv
    split at hv
    · cases hv
    rename_i hc
    have hv := Out.ok.inj hv; subst hv
    have ht : e.isTM = false := by cases e <;> simp [Used] at hu <;> rfl
    rw [h.p ht (by simpa using hc)]
    rfl
  | tauSigmaAverage d =>
    simp only [constGet] at hv
    split at hv
    · cases hv
    rename_i hc
    have hv := Out.ok.inj hv; subst hv
    have ht : e = .viscoemem := by cases e <;> simp [Used] at hu <;> rfl
    rw [h.ts ht (by simpa using hc)]
    rfl
  | tauEpsAverage d =>
    simp only [constGet] at hv
    split at hv
    · cases hv
    rename_i hc
    have hv := Out.ok.inj hv; subst hv
    have ht : e = .viscoemem := by cases e <;> simp [Used] at hu <;> rfl
    rw [h.te ht (by simpa using hc)]
    rfl

/-- C81: after any operations, preparing the model succeeds, keeps the parameters and makes every
getter available. -/
theorem C81_prepared (e : Eqn) (A : Averages ι) (b : Base ι) (ops : List (Op ι))
    (ho : ∀ o ∈ ops, NotInit o) {m : Model ι} (hr : runOps e A (Model.fresh b) ops = .ok m) :
    ∃ m', runOps e A (Model.fresh b) (ops ++ [.prepareForModelling]) = .ok m' ∧
      m'.toBase = m.toBase ∧ ∀ q, ∃ v, constGet m' q = .ok v := by
  have h := inv_run ops _ m (inv_dirty rfl rfl) ho hr
  obtain ⟨h1, b1, d1⟩ := inv_velocity h
  obtain ⟨_, b2, d2, d3⟩ := inv_averaging h1
  refine ⟨prepare e A m, ?_, ?_, ?_⟩
  · rw [run_append ops _ _ m hr]
    rfl
  · unfold prepare; rw [b2, b1]
  · intro q
    cases q <;> simp only [constGet, prepare, d3, d2, d1, Bool.false_eq_true, if_false] <;>
      exact ⟨_, rfl⟩

/-- A model with one grid point and one relaxation mechanism, whose relaxation frequency and reference
frequency are 1/(2π). -/
noncomputable def onePoint (mu sigma eps tauSigma tauEps : ℝ) : Base Unit :=
  { mu := fun _ => mu, sigma := fun _ => sigma, eps := fun _ => eps
    tauSigma := fun _ => tauSigma, tauEps := fun _ => tauEps
    numRelax := 1, freq := [1 / (2 * Real.pi)], centerFreq := 1 / (2 * Real.pi) }

/-- The averages of one point. -/
def oneAverage : Averages Unit := fun _ f => f

/-- A concrete run: prepare, change the permittivity, prepare again. -/
example : ∃ m, runOps .tmem oneAverage (Model.fresh (onePoint 1 0 1 0 0))
      [.prepareForModelling, .setDielectricPermittivity (fun _ => 4), .prepareForModelling] = .ok m ∧
    ∃ v, constGet m .velocity = .ok v ∧ v () = 1 / 2 := by
  refine ⟨_, rfl, _, rfl, ?_⟩
  show velocityOf 4 1 = 1 / 2
  unfold velocityOf
  rw [show (4 : ℝ) * 1 = 2 ^ 2 by norm_num, Real.sqrt_sq (by norm_num)]
  norm_num

/-- C81 fails when an object is initialised a second time: the flags are not touched, so preparing
the model changes nothing and the solver works with the averages of the previous model. -/
theorem C81_reinit_violated :
    ∃ (b b' : Base Unit) (m : Model Unit) (v : Unit → ℝ),
      runOps .emem oneAverage (Model.fresh b) [.prepareForModelling, .init b', .prepareForModelling] = .ok m ∧
      m.toBase = b' ∧ constGet m (.epsAverage .x) = .ok v ∧
      v ≠ Current .emem oneAverage b' (.epsAverage .x) := by
  refine ⟨onePoint 1 0 1 0 0, onePoint 1 0 4 0 0, _, _, rfl, rfl, rfl, ?_⟩
  intro h
  have h : (1 : ℝ) = 4 := congrFun h ()
  norm_num at h

/-! ### C82: the effective values are the response at the reference frequency -/

/-- The response of the medium described by the visco-electromagnetic equations of the guide
(section "Theory of visco-EM wave equation") to a field e^{iωt}: iω ε∞ + σ∞ from the optical values
and -ε τ_ε/(L τ_l²)/(iω + 1/τ_l) from each memory variable. -/
noncomputable def response (b : Base ι) (w : ℝ) (x : ι) : ℂ :=
  let t : Nat → ℝ := fun l => 1 / (2 * Real.pi * b.freq.getD l 0)
  let optEps : ℝ := b.eps x * (1 - b.tauEps x) + b.sigma x * b.tauSigma x
  let optSigma : ℝ := b.sigma x + b.eps x * (b.tauEps x / b.numRelax) * ∑ l ∈ Finset.range b.numRelax, 1 / t l
  Complex.I * w * optEps + optSigma +
    ∑ l ∈ Finset.range b.numRelax,
      -((b.eps x * b.tauEps x / (b.numRelax * t l ^ 2) : ℝ) : ℂ) / (Complex.I * w + ((1 / t l : ℝ) : ℂ))

private theorem memory_term (c w t : ℝ) (ht : 0 < t) :
    -((c / t ^ 2 : ℝ) : ℂ) / (Complex.I * w + ((1 / t : ℝ) : ℂ)) =
      ((-(c / t / (1 + w ^ 2 * t ^ 2)) : ℝ) : ℂ) + Complex.I * ((c * w / (1 + w ^ 2 * t ^ 2) : ℝ) : ℂ) := by
  have hd : Complex.I * (w : ℂ) + ((1 / t : ℝ) : ℂ) ≠ 0 := by
    intro h
    have := congrArg Complex.re h
    simp at this
    exact ht.ne' this
  have h1 : (0 : ℝ) < 1 + w ^ 2 * t ^ 2 := by positivity
  rw [div_eq_iff hd]
  have hI : Complex.I * Complex.I = -1 := Complex.I_mul_I
  have r1 : -(c / t ^ 2) = -(c / t / (1 + w ^ 2 * t ^ 2)) * (1 / t) - c * w / (1 + w ^ 2 * t ^ 2) * w := by
    field_simp
    ring
  have r2 : (0 : ℝ) = -(c / t / (1 + w ^ 2 * t ^ 2)) * w + c * w / (1 + w ^ 2 * t ^ 2) * (1 / t) := by
    field_simp
    ring
  have c1 := congrArg (fun z : ℝ => (z : ℂ)) r1
  have c2 := congrArg (fun z : ℝ => (z : ℂ)) r2
  simp only [Complex.ofReal_neg, Complex.ofReal_sub, Complex.ofReal_add, Complex.ofReal_mul,
    Complex.ofReal_zero] at c1 c2 ⊢
  linear_combination c1 + Complex.I * c2 - ((c * w / (1 + w ^ 2 * t ^ 2) : ℝ) : ℂ) * w * hI

private theorem response_eq (b : Base ι) (x : ι) (hL : 0 < b.numRelax)
    (hf : ∀ l, l < b.numRelax → 0 < b.freq.getD l 0) :
    response b (2 * Real.pi * b.centerFreq) x =
      ((b.sigma x + b.eps x * (loss b * b.tauEps x) : ℝ) : ℂ) +
      Complex.I * ((2 * Real.pi * b.centerFreq *
        (b.eps x * (1 - dispersion b * b.tauEps x) + b.sigma x * b.tauSigma x) : ℝ) : ℂ) := by
  have hpi := Real.pi_pos
  have hn : (b.numRelax : ℝ) ≠ 0 := by exact_mod_cast hL.ne'
  unfold response
  simp only []
  set w := 2 * Real.pi * b.centerFreq with hw
  have hterm : ∀ l ∈ Finset.range b.numRelax,
      -((b.eps x * b.tauEps x / (b.numRelax * (1 / (2 * Real.pi * b.freq.getD l 0)) ^ 2) : ℝ) : ℂ) /
        (Complex.I * w + ((1 / (1 / (2 * Real.pi * b.freq.getD l 0)) : ℝ) : ℂ)) =
      ((b.eps x * (b.tauEps x / b.numRelax) *
        (2 * Real.pi * b.centerFreq ^ 2 / b.freq.getD l 0 / (1 + (b.centerFreq / b.freq.getD l 0) ^ 2) -
          1 / (1 / (2 * Real.pi * b.freq.getD l 0))) : ℝ) : ℂ) +
      Complex.I * ((w * (b.eps x * (b.tauEps x / b.numRelax) *
        (1 - (b.centerFreq / b.freq.getD l 0) ^ 2 / (1 + (b.centerFreq / b.freq.getD l 0) ^ 2))) : ℝ) : ℂ) := by
    intro l hl
    have hfl := hf l (Finset.mem_range.mp hl)
    have ht : 0 < 1 / (2 * Real.pi * b.freq.getD l 0) := by positivity
    have e0 : b.eps x * b.tauEps x / (b.numRelax * (1 / (2 * Real.pi * b.freq.getD l 0)) ^ 2) =
        b.eps x * (b.tauEps x / b.numRelax) / (1 / (2 * Real.pi * b.freq.getD l 0)) ^ 2 := by
      field_simp
    rw [e0, memory_term _ _ _ ht]
    have e1 : w ^ 2 * (1 / (2 * Real.pi * b.freq.getD l 0)) ^ 2 = (b.centerFreq / b.freq.getD l 0) ^ 2 := by
      rw [hw]; field_simp
    rw [e1]
    have hpos : (0 : ℝ) < 1 + (b.centerFreq / b.freq.getD l 0) ^ 2 := by positivity
    congr 2
    · congr 1
      rw [div_div, one_div_one_div]
      set s := b.centerFreq / b.freq.getD l 0 with hs
      have e2 : 2 * Real.pi * b.centerFreq ^ 2 / b.freq.getD l 0 = 2 * Real.pi * b.freq.getD l 0 * s ^ 2 := by
        rw [hs]; field_simp
      rw [e2]
      field_simp
      ring
    · congr 1
      field_simp
      ring
  rw [Finset.sum_congr rfl hterm, Finset.sum_add_distrib, ← Finset.mul_sum]
  rw [← Complex.ofReal_sum, ← Complex.ofReal_sum]
  have s1 : ∑ l ∈ Finset.range b.numRelax, (b.eps x * (b.tauEps x / b.numRelax) *
        (2 * Real.pi * b.centerFreq ^ 2 / b.freq.getD l 0 / (1 + (b.centerFreq / b.freq.getD l 0) ^ 2) -
          1 / (1 / (2 * Real.pi * b.freq.getD l 0)))) =
      b.eps x * (loss b * b.tauEps x) - b.eps x * (b.tauEps x / b.numRelax) *
        ∑ l ∈ Finset.range b.numRelax, 1 / (1 / (2 * Real.pi * b.freq.getD l 0)) := by
    rw [← Finset.mul_sum, Finset.sum_sub_distrib]
    unfold loss
    ring
  have s2 : ∑ l ∈ Finset.range b.numRelax, (w * (b.eps x * (b.tauEps x / b.numRelax) *
        (1 - (b.centerFreq / b.freq.getD l 0) ^ 2 / (1 + (b.centerFreq / b.freq.getD l 0) ^ 2)))) =
      w * (b.eps x * (b.tauEps x - dispersion b * b.tauEps x)) := by
    rw [← Finset.mul_sum, ← Finset.mul_sum, Finset.sum_sub_distrib, Finset.sum_const, Finset.card_range,
      nsmul_eq_mul, mul_one]
    unfold dispersion
    field_simp
  rw [s1, s2]
  push_cast
  ring

/-- C82: at every point whose response at the reference frequency is not below that of vacuum, the
effective permittivity and conductivity that are written to files and used for velocities are the two
parts of the response of the medium that the visco-electromagnetic equations describe. -/
theorem C82_effective_values (b : Base ι) (x : ι) (hL : 0 < b.numRelax)
    (hf : ∀ l, l < b.numRelax → 0 < b.freq.getD l 0) (hc : 0 < b.centerFreq)
    (h1 : 0 ≤ (response b (2 * Real.pi * b.centerFreq) x).re)
    (h2 : 2 * Real.pi * b.centerFreq * epsVac ≤ (response b (2 * Real.pi * b.centerFreq) x).im) :
    response b (2 * Real.pi * b.centerFreq) x =
      (sigmaEff b x : ℂ) + Complex.I * ((2 * Real.pi * b.centerFreq : ℝ) : ℂ) * (epsEff b x : ℂ) := by
  have hw : 0 < 2 * Real.pi * b.centerFreq := by have := Real.pi_pos; positivity
  rw [response_eq b x hL hf] at h1 h2 ⊢
  simp only [Complex.add_re, Complex.ofReal_re, Complex.mul_re, Complex.I_re, Complex.I_im,
    Complex.ofReal_im, Complex.add_im, Complex.mul_im, zero_mul, mul_zero, sub_zero, add_zero,
    one_mul, zero_add] at h1 h2
  have h2' : epsVac ≤ b.eps x * (1 - dispersion b * b.tauEps x) + b.sigma x * b.tauSigma x :=
    le_of_mul_le_mul_left h2 hw
  rw [sigmaEff_eq, epsEff_eq, max_eq_right h2', max_eq_right (by linarith)]
  push_cast
  ring

/-- C82: without relaxation (τ_ε = τ_σ = 0) the effective values are the stored values. -/
theorem C82_no_dispersion (b : Base ι) (x : ι) (h1 : b.tauEps x = 0) (h2 : b.tauSigma x = 0)
    (h3 : 0 ≤ b.sigma x) (h4 : epsVac ≤ b.eps x) : epsEff b x = b.eps x ∧ sigmaEff b x = b.sigma x := by
  rw [epsEff_eq, sigmaEff_eq, h1, h2]
  constructor
  · rw [show b.eps x * (1 - dispersion b * 0) + b.sigma x * 0 = b.eps x by ring]
    exact max_eq_right h4
  · rw [show b.eps x * (loss b * 0) + b.sigma x = b.sigma x by ring]
    exact max_eq_right h3

private theorem one_div_self_pi : (1 / (2 * Real.pi)) / (1 / (2 * Real.pi)) = 1 :=
  div_self (by have := Real.pi_ne_zero; positivity)

private theorem dispersion_one (mu s e ts te : ℝ) : dispersion (onePoint mu s e ts te) = 1 / 2 := by
  unfold dispersion onePoint
  simp only [Finset.sum_range_one, List.getD_cons_zero, one_div_self_pi]
  norm_num

private theorem loss_one (mu s e ts te : ℝ) : loss (onePoint mu s e ts te) = 1 / 2 := by
  unfold loss onePoint
  simp only [Finset.sum_range_one, List.getD_cons_zero, one_div_self_pi]
  have := Real.pi_ne_zero
  field_simp
  norm_num

private theorem onePoint_w (mu s e ts te : ℝ) :
    2 * Real.pi * (onePoint mu s e ts te).centerFreq = 1 := by
  have := Real.pi_ne_zero
  show 2 * Real.pi * (1 / (2 * Real.pi)) = 1
  field_simp

private theorem onePoint_freq (mu s e ts te : ℝ) :
    ∀ l, l < (onePoint mu s e ts te).numRelax → 0 < (onePoint mu s e ts te).freq.getD l 0 := by
  intro l hl
  have hl : l < 1 := hl
  have : l = 0 := by omega
  subst this
  show 0 < 1 / (2 * Real.pi)
  have := Real.pi_pos
  positivity

/-- A point that meets the hypotheses of `C82_effective_values`: ε = 4 ε₀, τ_ε = 1. -/
example : response (onePoint 1 0 (4 * epsVac) 0 1)
      (2 * Real.pi * (onePoint 1 0 (4 * epsVac) 0 1).centerFreq) () =
    ((2 * epsVac : ℝ) : ℂ) + Complex.I * ((2 * epsVac : ℝ) : ℂ) := by
  have hv := epsVac_pos
  have hr := response_eq (onePoint 1 0 (4 * epsVac) 0 1) () (Nat.one_pos) (onePoint_freq _ _ _ _ _)
  rw [loss_one, dispersion_one, onePoint_w] at hr
  have e1 : (0 : ℝ) + 4 * epsVac * (1 / 2 * 1) = 2 * epsVac := by ring
  have e2 : (1 : ℝ) * (4 * epsVac * (1 - 1 / 2 * 1) + 0 * 0) = 2 * epsVac := by ring
  have hr' : response (onePoint 1 0 (4 * epsVac) 0 1) 1 () =
      ((2 * epsVac : ℝ) : ℂ) + Complex.I * ((2 * epsVac : ℝ) : ℂ) := by
    rw [hr]
    simp only [onePoint]
    rw [e1, e2]
  have h := C82_effective_values (onePoint 1 0 (4 * epsVac) 0 1) () Nat.one_pos (onePoint_freq _ _ _ _ _)
    (by show 0 < 1 / (2 * Real.pi); have := Real.pi_pos; positivity)
    (by rw [onePoint_w, hr']; simp; linarith) (by rw [onePoint_w, hr']; simp; linarith)
  rw [onePoint_w, hr']

/-! ### C83: writing a model and reading it again -/

/-- The relaxation settings of a model. -/
def relaxation (b : Base ι) : Relaxation := ⟨b.numRelax, b.freq, b.centerFreq⟩

/-- C83: without relaxation, a written model read again is the same model. -/
theorem C83_roundtrip (e : Eqn) (b : Base ι) (he : e = .tmem ∨ e = .emem)
    (h1 : b.tauSigma = fun _ => 0) (h2 : b.tauEps = fun _ => 0) :
    initFiles e (relaxation b) (write e b) = b := by
  have hv := epsVac_pos
  have hm := muVac_pos
  have hvis : e.visco = false := by rcases he with rfl | rfl <;> rfl
  unfold initFiles write
  simp only [hvis, Bool.false_eq_true, if_false]
  ext1 <;> simp only [relaxation, h1, h2]
  · funext x; field_simp
  · funext x; field_simp

/-- Static values computed from the effective values of a model are its static values where no value is
raised to that of vacuum. -/
theorem static_of_effective {b c : Base ι} (h1 : ∀ x, 0 ≤ b.sigma x) (h2 : ∀ x, epsVac ≤ b.eps x)
    (h3 : ∀ x, epsVac ≤ b.eps x * (1 - dispersion b * b.tauEps x) + b.sigma x * b.tauSigma x)
    (h4 : ∀ x, 0 ≤ b.eps x * (loss b * b.tauEps x) + b.sigma x)
    (h5 : ∀ x, 1 - dispersion b * b.tauEps x - loss b * b.tauEps x * b.tauSigma x ≠ 0)
    (c1 : c.tauSigma = b.tauSigma) (c2 : c.tauEps = b.tauEps) (c3 : c.numRelax = b.numRelax)
    (c4 : c.freq = b.freq) (c5 : c.centerFreq = b.centerFreq) :
    epsStatic c (epsEff b) (sigmaEff b) = b.eps ∧ sigmaStatic c (epsEff b) (sigmaEff b) = b.sigma := by
  have d1 : dispersion c = dispersion b := by unfold dispersion; rw [c3, c4, c5]
  have d2 : loss c = loss b := by unfold loss; rw [c3, c4, c5]
  have k1 : epsStatic c (epsEff b) (sigmaEff b) = b.eps := by
    funext x
    rw [epsStatic_eq, d1, d2, c1, c2, epsEff_eq, sigmaEff_eq, max_eq_right (h3 x), max_eq_right (h4 x)]
    have : (b.eps x * (1 - dispersion b * b.tauEps x) + b.sigma x * b.tauSigma x -
        (b.eps x * (loss b * b.tauEps x) + b.sigma x) * b.tauSigma x) /
        (1 - dispersion b * b.tauEps x - loss b * b.tauEps x * b.tauSigma x) = b.eps x := by
      rw [div_eq_iff (h5 x)]; ring
    rw [this, max_eq_right (h2 x)]
  refine ⟨k1, ?_⟩
  funext x
  rw [sigmaStatic_eq, k1, d2, c2, sigmaEff_eq, max_eq_right (h4 x)]
  rw [show b.eps x * (loss b * b.tauEps x) + b.sigma x - loss b * b.tauEps x * b.eps x = b.sigma x by ring]
  exact max_eq_right (h1 x)

/-- C83: with relaxation, a written model read again is the same model where no value is raised to that
of vacuum. Missing: points where an effective value is below that of vacuum. -/
theorem C83_roundtrip_partial (e : Eqn) (b : Base ι) (he : e.visco = true) (hc : b.centerFreq ≠ 0)
    (h1 : ∀ x, 0 ≤ b.sigma x) (h2 : ∀ x, epsVac ≤ b.eps x)
    (h3 : ∀ x, epsVac ≤ b.eps x * (1 - dispersion b * b.tauEps x) + b.sigma x * b.tauSigma x)
    (h4 : ∀ x, 0 ≤ b.eps x * (loss b * b.tauEps x) + b.sigma x)
    (h5 : ∀ x, 1 - dispersion b * b.tauEps x - loss b * b.tauEps x * b.tauSigma x ≠ 0) :
    initFiles e (relaxation b) (write e b) = b := by
  have hv := epsVac_pos
  have hm := muVac_pos
  have htr : tauRef b.centerFreq ≠ 0 := by
    unfold tauRef
    have := Real.pi_ne_zero
    positivity
  unfold initFiles write
  simp only [he, if_true]
  have hts : (fun x => b.tauSigma x / tauRef b.centerFreq * tauRef b.centerFreq) = b.tauSigma := by
    funext x; field_simp
  have hee : (fun x => epsEff b x / epsVac * epsVac) = epsEff b := by
    funext x; field_simp
  have hmu : (fun x => b.mu x / muVac * muVac) = b.mu := by
    funext x; field_simp
  simp only [relaxation, hts, hee, hmu]
  ext1 <;> simp only [fromEffective]
  · exact (static_of_effective (c := _) h1 h2 h3 h4 h5 rfl rfl rfl rfl rfl).2
  · exact (static_of_effective (c := _) h1 h2 h3 h4 h5 rfl rfl rfl rfl rfl).1

/-- A dispersive point that meets the hypotheses. -/
example : initFiles .viscotmem (relaxation (onePoint muVac 0 (4 * epsVac) 0 1))
    (write .viscotmem (onePoint muVac 0 (4 * epsVac) 0 1)) = onePoint muVac 0 (4 * epsVac) 0 1 := by
  have hv := epsVac_pos
  have hpi := Real.pi_pos
  refine C83_roundtrip_partial .viscotmem _ rfl ?_ ?_ ?_ ?_ ?_ ?_
  · show 1 / (2 * Real.pi) ≠ 0
    positivity
  · intro x; exact le_refl (0 : ℝ)
  · intro x; show epsVac ≤ 4 * epsVac; linarith
  · intro x; rw [dispersion_one]; simp only [onePoint]; linarith
  · intro x; rw [loss_one]; simp only [onePoint]; linarith
  · intro x; rw [loss_one, dispersion_one]; simp only [onePoint]; norm_num

/-- C83 fails where the effective permittivity is below that of vacuum: a dispersive point with the
static permittivity of vacuum comes back with a larger one. -/
theorem C83_roundtrip_violated :
    ∃ b : Base Unit, b.eps () = epsVac ∧ b.sigma () = 0 ∧ b.tauEps () = 1 / 2 ∧
      (initFiles .viscotmem (relaxation b) (write .viscotmem b)).eps () = 4 / 3 * epsVac := by
  have hv := epsVac_pos
  refine ⟨onePoint muVac 0 epsVac 0 (1 / 2), rfl, rfl, rfl, ?_⟩
  have key : ∀ c : Base Unit, c.tauSigma () = 0 → c.tauEps () = 1 / 2 → dispersion c = 1 / 2 →
      ∀ f g : Unit → ℝ, f () = epsVac → epsStatic c f g () = 4 / 3 * epsVac := by
    intro c c1 c2 c3 f g hf
    rw [epsStatic_eq, c1, c2, c3, hf]
    rw [show (epsVac - g () * 0) / (1 - 1 / 2 * (1 / 2) - loss c * (1 / 2) * 0) = 4 / 3 * epsVac by ring]
    exact max_eq_right (by linarith)
  unfold initFiles
  simp only [Eqn.visco, if_true, fromEffective]
  apply key
  · simp [write, Eqn.visco, onePoint]
  · rfl
  · exact dispersion_one muVac 0 epsVac 0 (1 / 2)
  · simp only [write, Eqn.visco, if_true]
    rw [epsEff_eq, dispersion_one]
    simp only [onePoint]
    rw [max_eq_left (by linarith)]
    field_simp

/-! ### C84: homogeneous models and files -/

/-- Files filled with constant values. -/
def constantFiles (mur sigma epsilonr tauSigmar tauEpsilon : ℝ) : Files ι :=
  { mur := fun _ => mur, sigma := fun _ => sigma, epsilonr := fun _ => epsilonr
    tauSigmar := fun _ => tauSigmar, tauEpsilon := fun _ => tauEpsilon }

/-- C84: without relaxation, the homogeneous model of the configuration is the model read from files
with the same values. -/
theorem C84_homogeneous (e : Eqn) (he : e = .tmem ∨ e = .emem) (r : Relaxation) (mur sigma epsilonr ts te : ℝ) :
    (initHomogeneous e r mur sigma epsilonr ts te : Base ι) =
      initFiles e r (constantFiles mur sigma epsilonr ts te) := by
  rcases he with rfl | rfl <;> rfl

/-- C84: with relaxation this holds if both tau values are zero and the values are not below those of
vacuum. Missing: dispersive models. -/
theorem C84_homogeneous_partial (e : Eqn) (r : Relaxation) (mur sigma epsilonr : ℝ) (hs : 0 ≤ sigma)
    (h1 : 1 ≤ epsilonr) : (initHomogeneous e r mur sigma epsilonr 0 0 : Base ι) =
      initFiles e r (constantFiles mur sigma epsilonr 0 0) := by
  have hv := epsVac_pos
  have hge : epsVac ≤ epsilonr * epsVac := by nlinarith
  by_cases he : e.visco = true
  swap
  · refine C84_homogeneous e ?_ r mur sigma epsilonr 0 0
    cases e <;> simp_all [Eqn.visco]
  unfold initFiles
  simp only [he, if_true, fromEffective]
  have k : ∀ (c : Base ι) (x : ι), c.tauSigma x = 0 → c.tauEps x = 0 → ∀ f g : ι → ℝ,
      f x = epsilonr * epsVac → g x = sigma →
        epsStatic c f g x = epsilonr * epsVac ∧ sigmaStatic c f g x = sigma := by
    intro c x c1 c2 f g hf hg
    have k1 : epsStatic c f g x = epsilonr * epsVac := by
      rw [epsStatic_eq, c1, c2, hf]
      rw [show (epsilonr * epsVac - g x * 0) / (1 - dispersion c * 0 - loss c * 0 * 0) =
        epsilonr * epsVac by ring]
      exact max_eq_right hge
    refine ⟨k1, ?_⟩
    rw [sigmaStatic_eq, c2, hg, show sigma - loss c * 0 * epsStatic c f g x = sigma by ring]
    exact max_eq_right hs
  ext1 <;> simp only [initHomogeneous, constantFiles, he, if_true]
  · funext x
    exact ((k _ x (by simp) rfl _ _ rfl rfl).2).symm
  · funext x
    exact ((k _ x (by simp) rfl _ _ rfl rfl).1).symm

/-- C84 fails for dispersive models: the configuration values are used as static values, the values of
the files as effective values. Here the permittivity differs by a factor of 2. -/
theorem C84_homogeneous_violated :
    ∃ (r : Relaxation) (epsilonr te : ℝ),
      (initHomogeneous .viscotmem r 1 0 epsilonr 0 te : Base Unit).eps () = 4 * epsVac ∧
      (initFiles .viscotmem r (constantFiles 1 0 epsilonr 0 te) : Base Unit).eps () = 8 * epsVac := by
  have hv := epsVac_pos
  refine ⟨⟨1, [1 / (2 * Real.pi)], 1 / (2 * Real.pi)⟩, 4, 1, rfl, ?_⟩
  have key : ∀ c : Base Unit, c.tauSigma () = 0 → c.tauEps () = 1 → dispersion c = 1 / 2 →
      ∀ f g : Unit → ℝ, f () = 4 * epsVac → epsStatic c f g () = 8 * epsVac := by
    intro c c1 c2 c3 f g hf
    rw [epsStatic_eq, c1, c2, c3, hf]
    rw [show (4 * epsVac - g () * 0) / (1 - 1 / 2 * 1 - loss c * 1 * 0) = 8 * epsVac by ring]
    exact max_eq_right (by linarith)
  unfold initFiles
  simp only [Eqn.visco, if_true, fromEffective]
  apply key
  · simp [constantFiles]
  · rfl
  · exact dispersion_one 1 0 1 0 1
  · rfl

/-! ### C85: thresholds -/

/-- The thresholds are ordered. -/
structure Thresholds.Ordered (t : Thresholds) : Prop where
  sigma : t.lowerSigma ≤ t.upperSigma
  epsilonr : t.lowerEpsilonr ≤ t.upperEpsilonr
  tauSigmar : t.lowerTauSigmar ≤ t.upperTauSigmar
  tauEpsilon : t.lowerTauEpsilon ≤ t.upperTauEpsilon

private theorem clip_mem {lo hi : ℝ} (h : lo ≤ hi) (v : ℝ) : lo ≤ clip lo hi v ∧ clip lo hi v ≤ hi := by
  unfold clip
  simp only []
  split_ifs <;> constructor <;> linarith

private theorem clip_id {lo hi v : ℝ} (h1 : lo ≤ v) (h2 : v ≤ hi) : clip lo hi v = v := by
  unfold clip
  simp only []
  split_ifs <;> linarith

private theorem mask_zero : mask 0 = 0 := by simp [mask]

private theorem mask_ne {v : ℝ} (h : v ≠ 0) : mask v = 1 := by
  unfold mask
  rcases lt_or_gt_of_ne h with h1 | h1
  · rw [if_pos h1]; norm_num
  · rw [if_neg (by linarith), if_pos h1]; norm_num

private theorem ratio_ne {v : ℝ} (h : v ≠ epsVac) : v / epsVac - 1 ≠ 0 := by
  have hv := epsVac_pos
  intro hc
  apply h
  field_simp at hc
  linarith

/-- C85: without relaxation, after applying the thresholds every point that is not vacuum has its
conductivity and relative permittivity between the thresholds. -/
theorem C85_bounds (e : Eqn) (he : e = .tmem ∨ e = .emem) (t : Thresholds) (ht : t.Ordered) (b : Base ι)
    (x : ι) (hx : b.eps x ≠ epsVac) :
    t.lowerSigma ≤ (thresholdValues e t b).sigma x ∧ (thresholdValues e t b).sigma x ≤ t.upperSigma ∧
    t.lowerEpsilonr ≤ (thresholdValues e t b).eps x / epsVac ∧
    (thresholdValues e t b).eps x / epsVac ≤ t.upperEpsilonr := by
  have hv := epsVac_pos
  have hvis : e.visco = false := by rcases he with rfl | rfl <;> rfl
  unfold thresholdValues
  simp only [hvis, Bool.false_eq_true, if_false, mask_ne (ratio_ne hx), mul_one]
  rw [mul_div_assoc, div_self hv.ne', mul_one, sub_add_cancel]
  exact ⟨(clip_mem ht.sigma _).1, (clip_mem ht.sigma _).2, (clip_mem ht.epsilonr _).1,
    (clip_mem ht.epsilonr _).2⟩

/-- C85: vacuum stays vacuum without conductivity, whatever the thresholds are. -/
theorem C85_vacuum (e : Eqn) (t : Thresholds) (b : Base ι) (x : ι)
    (hx : (if e.visco then epsEff b x else b.eps x) = epsVac) :
    (thresholdValues e t b).eps x = epsVac ∧ (thresholdValues e t b).sigma x = 0 ∧
      (e.visco = true → (thresholdValues e t b).tauSigma x = 0 ∧ (thresholdValues e t b).tauEps x = 0) := by
  have hv := epsVac_pos
  unfold thresholdValues
  by_cases he : e.visco = true
  · simp only [he, if_true] at hx ⊢
    have hm : mask (epsEff b x / epsVac - 1) = 0 := by rw [hx, div_self hv.ne', sub_self, mask_zero]
    have k : ∀ (c : Base ι), c.tauSigma x = 0 → c.tauEps x = 0 → ∀ f g : ι → ℝ,
        f x = epsVac → g x = 0 → epsStatic c f g x = epsVac ∧ sigmaStatic c f g x = 0 := by
      intro c c1 c2 f g hf hg
      constructor
      · rw [epsStatic_eq, c1, c2, hf, hg]
        rw [show (epsVac - 0 * 0) / (1 - dispersion c * 0 - loss c * 0 * 0) = epsVac by ring]
        exact max_self _
      · rw [sigmaStatic_eq, c2, hg]
        rw [show 0 - loss c * 0 * epsStatic c f g x = 0 by ring]
        exact max_self _
    have kk := k { b with
        tauSigma := fun x => clip t.lowerTauSigmar t.upperTauSigmar (b.tauSigma x / tauRef b.centerFreq) *
          mask (epsEff b x / epsVac - 1) * tauRef b.centerFreq
        tauEps := fun x => clip t.lowerTauEpsilon t.upperTauEpsilon (b.tauEps x) *
          mask (epsEff b x / epsVac - 1) } (by simp [hm]) (by simp [hm])
      (fun x => ((clip t.lowerEpsilonr t.upperEpsilonr (epsEff b x / epsVac) - 1) *
          mask (epsEff b x / epsVac - 1) + 1) * epsVac)
      (fun x => clip t.lowerSigma t.upperSigma (sigmaEff b x) * mask (epsEff b x / epsVac - 1))
      (by simp [hm]) (by simp [hm])
    refine ⟨kk.1, kk.2, fun _ => ⟨?_, ?_⟩⟩
    · simp only [fromEffective, hm]; ring
    · simp only [fromEffective, hm]; ring
  · simp only [he, Bool.false_eq_true, if_false] at hx ⊢
    have hm : mask (b.eps x / epsVac - 1) = 0 := by rw [hx, div_self hv.ne', sub_self, mask_zero]
    refine ⟨?_, ?_, fun h => absurd h (by simp)⟩
    · simp only [hm]; ring
    · simp only [hm]; ring

/-- C85: without relaxation, a point that meets the thresholds (or is vacuum without conductivity) is
not changed. -/
theorem C85_admissible_unchanged (e : Eqn) (he : e = .tmem ∨ e = .emem) (t : Thresholds) (b : Base ι) (x : ι)
    (hx : (b.eps x = epsVac ∧ b.sigma x = 0) ∨ (t.lowerSigma ≤ b.sigma x ∧ b.sigma x ≤ t.upperSigma ∧
      t.lowerEpsilonr ≤ b.eps x / epsVac ∧ b.eps x / epsVac ≤ t.upperEpsilonr ∧ b.eps x ≠ epsVac)) :
    (thresholdValues e t b).eps x = b.eps x ∧ (thresholdValues e t b).sigma x = b.sigma x ∧
      (thresholdValues e t b).mu x = b.mu x := by
  have hv := epsVac_pos
  have hvis : e.visco = false := by rcases he with rfl | rfl <;> rfl
  rcases hx with ⟨h1, h2⟩ | ⟨h1, h2, h3, h4, h5⟩
  · obtain ⟨k1, k2, _⟩ := C85_vacuum e t b x (by simp only [hvis, Bool.false_eq_true, if_false]; exact h1)
    refine ⟨by rw [k1, h1], by rw [k2, h2], ?_⟩
    unfold thresholdValues
    simp only [hvis, Bool.false_eq_true, if_false]
  · unfold thresholdValues
    simp only [hvis, Bool.false_eq_true, if_false, mask_ne (ratio_ne h5), mul_one, clip_id h1 h2,
      clip_id h3 h4, and_true]
    rw [sub_add_cancel]
    field_simp

/-- C85: without relaxation, applying the thresholds twice is the same as applying them once, if the
lower threshold of the relative permittivity is above that of vacuum. Missing: thresholds that allow
the permittivity of vacuum. -/
theorem C85_idempotent_partial (e : Eqn) (he : e = .tmem ∨ e = .emem) (t : Thresholds) (ht : t.Ordered)
    (h1 : 1 < t.lowerEpsilonr) (b : Base ι) :
    thresholdValues e t (thresholdValues e t b) = thresholdValues e t b := by
  have hv := epsVac_pos
  have hvis : e.visco = false := by rcases he with rfl | rfl <;> rfl
  have hpt : ∀ x, (thresholdValues e t (thresholdValues e t b)).eps x = (thresholdValues e t b).eps x ∧
      (thresholdValues e t (thresholdValues e t b)).sigma x = (thresholdValues e t b).sigma x ∧ True := by
    intro x
    have := C85_admissible_unchanged e he t (thresholdValues e t b) x ?_
    · exact ⟨this.1, this.2.1, trivial⟩
    by_cases hx : b.eps x = epsVac
    · left
      obtain ⟨k1, k2, _⟩ := C85_vacuum e t b x (by simp only [hvis, Bool.false_eq_true, if_false]; exact hx)
      exact ⟨k1, k2⟩
    · right
      obtain ⟨k1, k2, k3, k4⟩ := C85_bounds e he t ht b x hx
      refine ⟨k1, k2, k3, k4, ?_⟩
      intro hc
      rw [hc, div_self hv.ne'] at k3
      linarith
  have hrest : ∀ c : Base ι, (thresholdValues e t c).mu = c.mu ∧ (thresholdValues e t c).tauSigma = c.tauSigma ∧
      (thresholdValues e t c).tauEps = c.tauEps ∧ (thresholdValues e t c).numRelax = c.numRelax ∧
      (thresholdValues e t c).freq = c.freq ∧ (thresholdValues e t c).centerFreq = c.centerFreq := by
    intro c
    unfold thresholdValues
    simp only [hvis, Bool.false_eq_true, if_false, and_self]
  obtain ⟨r1, r2, r3, r4, r5, r6⟩ := hrest (thresholdValues e t b)
  exact Base.ext r1 (funext fun x => (hpt x).2.1) (funext fun x => (hpt x).1) r2 r3 r4 r5 r6

/-- Thresholds of the kind found in configuration files. -/
def usualThresholds : Thresholds := ⟨0, 1, 1, 81, 0, 10, 0, 1⟩

/-- A point that is changed by the thresholds, and one that is not. -/
example : (thresholdValues .tmem usualThresholds (onePoint 1 2 (100 * epsVac) 0 0)).sigma () = 1 ∧
    (thresholdValues .tmem usualThresholds (onePoint 1 (1 / 2) (9 * epsVac) 0 0)).sigma () = 1 / 2 := by
  have hv := epsVac_pos
  constructor
  · have hx : (onePoint 1 2 (100 * epsVac) 0 0).eps () ≠ epsVac := by
      show 100 * epsVac ≠ epsVac
      linarith
    unfold thresholdValues
    simp only [Eqn.visco, Bool.false_eq_true, if_false, mask_ne (ratio_ne hx), mul_one]
    norm_num [clip, usualThresholds, onePoint]
  · have h9 : 9 * epsVac / epsVac = 9 := by field_simp
    exact (C85_admissible_unchanged .tmem (.inl rfl) usualThresholds _ () (.inr
      ⟨by norm_num [usualThresholds, onePoint], by norm_num [usualThresholds, onePoint],
       by simp only [onePoint, h9]; norm_num [usualThresholds],
       by simp only [onePoint, h9]; norm_num [usualThresholds],
       by show 9 * epsVac ≠ epsVac; linarith⟩)).2.1

/-- C85 fails with the usual lower threshold 1 of the relative permittivity: a point raised to the
permittivity of vacuum keeps its conductivity, and loses it when the thresholds are applied again. -/
theorem C85_idempotent_violated :
    ∃ b : Base Unit, (thresholdValues .tmem usualThresholds b).sigma () = 1 ∧
      (thresholdValues .tmem usualThresholds (thresholdValues .tmem usualThresholds b)).sigma () = 0 := by
  have hv := epsVac_pos
  refine ⟨onePoint 1 1 0 0 0, ?_, ?_⟩
  · unfold thresholdValues
    simp only [Eqn.visco, Bool.false_eq_true, if_false]
    norm_num [clip, usualThresholds, onePoint, mask]
  · refine (C85_vacuum .tmem usualThresholds _ () ?_).2.1
    simp only [Eqn.visco, Bool.false_eq_true, if_false]
    unfold thresholdValues
    simp only [Eqn.visco, Bool.false_eq_true, if_false]
    norm_num [clip, usualThresholds, onePoint, mask]

/-- C85: with relaxation, after applying the thresholds the effective values and the tau values of every
point that is not vacuum are between the thresholds, if the new static values are above those of
vacuum. Missing: points where a static value is raised to that of vacuum. -/
theorem C85_visco_bounds_partial (e : Eqn) (he : e.visco = true) (t : Thresholds) (ht : t.Ordered)
    (h1 : 1 ≤ t.lowerEpsilonr) (h0 : 0 ≤ t.lowerSigma) (b : Base ι) (hc : b.centerFreq ≠ 0)
    (x : ι) (hx : epsEff b x ≠ epsVac)
    (he' : epsVac < (thresholdValues e t b).eps x) (hs' : 0 < (thresholdValues e t b).sigma x) :
    let b' := thresholdValues e t b
    (t.lowerSigma ≤ sigmaEff b' x ∧ sigmaEff b' x ≤ t.upperSigma) ∧
    (t.lowerEpsilonr ≤ epsEff b' x / epsVac ∧ epsEff b' x / epsVac ≤ t.upperEpsilonr) ∧
    (t.lowerTauSigmar ≤ b'.tauSigma x / tauRef b.centerFreq ∧
      b'.tauSigma x / tauRef b.centerFreq ≤ t.upperTauSigmar) ∧
    t.lowerTauEpsilon ≤ b'.tauEps x ∧ b'.tauEps x ≤ t.upperTauEpsilon := by
  have hv := epsVac_pos
  have htr : tauRef b.centerFreq ≠ 0 := by
    unfold tauRef
    have := Real.pi_ne_zero
    positivity
  have hm : mask (epsEff b x / epsVac - 1) = 1 := mask_ne (ratio_ne hx)
  set c : Base ι := { b with
        tauSigma := fun x => clip t.lowerTauSigmar t.upperTauSigmar (b.tauSigma x / tauRef b.centerFreq) *
          mask (epsEff b x / epsVac - 1) * tauRef b.centerFreq
        tauEps := fun x => clip t.lowerTauEpsilon t.upperTauEpsilon (b.tauEps x) *
          mask (epsEff b x / epsVac - 1) } with hcdef
  set f : ι → ℝ := fun x => ((clip t.lowerEpsilonr t.upperEpsilonr (epsEff b x / epsVac) - 1) *
          mask (epsEff b x / epsVac - 1) + 1) * epsVac with hf
  set g : ι → ℝ := fun x => clip t.lowerSigma t.upperSigma (sigmaEff b x) *
    mask (epsEff b x / epsVac - 1) with hg
  have hT : thresholdValues e t b = fromEffective c f g := by
    unfold thresholdValues
    simp only [he, if_true]
    rfl
  have hfx : f x = clip t.lowerEpsilonr t.upperEpsilonr (epsEff b x / epsVac) * epsVac := by
    rw [hf]; simp only [hm]; ring
  have hgx : g x = clip t.lowerSigma t.upperSigma (sigmaEff b x) := by
    rw [hg]; simp only [hm]; ring
  have hk1 := clip_mem ht.epsilonr (epsEff b x / epsVac)
  have hk2 := clip_mem ht.sigma (sigmaEff b x)
  rw [hT] at he' hs' ⊢
  have heps : (fromEffective c f g).eps x = epsStatic c f g x := rfl
  have hsig : (fromEffective c f g).sigma x = sigmaStatic c f g x := rfl
  rw [heps, epsStatic_eq] at he'
  have hq : epsVac < (f x - g x * c.tauSigma x) /
      ((1 - dispersion c * c.tauEps x) - loss c * c.tauEps x * c.tauSigma x) := by
    rcases lt_max_iff.mp he' with h | h
    · exact absurd h (lt_irrefl _)
    · exact h
  have hES : epsStatic c f g x = (f x - g x * c.tauSigma x) /
      ((1 - dispersion c * c.tauEps x) - loss c * c.tauEps x * c.tauSigma x) := by
    rw [epsStatic_eq, max_eq_right hq.le]
  have hden : (1 - dispersion c * c.tauEps x) - loss c * c.tauEps x * c.tauSigma x ≠ 0 := by
    intro h
    rw [h, div_zero] at hq
    linarith
  rw [hsig, sigmaStatic_eq] at hs'
  have hSS : sigmaStatic c f g x = g x - loss c * c.tauEps x * epsStatic c f g x := by
    rw [sigmaStatic_eq]
    rcases lt_max_iff.mp hs' with h | h
    · exact absurd h (lt_irrefl _)
    · exact max_eq_right h.le
  have hdisp : dispersion (fromEffective c f g) = dispersion c := rfl
  have hloss : loss (fromEffective c f g) = loss c := rfl
  have hmul : epsStatic c f g x * ((1 - dispersion c * c.tauEps x) - loss c * c.tauEps x * c.tauSigma x) =
      f x - g x * c.tauSigma x := by
    rw [hES]; exact div_mul_cancel₀ _ hden
  have hsigE : sigmaEff (fromEffective c f g) x = g x := by
    rw [sigmaEff_eq, hloss, heps, hsig, hSS]
    rw [show epsStatic c f g x * (loss c * (fromEffective c f g).tauEps x) +
      (g x - loss c * c.tauEps x * epsStatic c f g x) = g x by
        rw [show (fromEffective c f g).tauEps x = c.tauEps x from rfl]; ring]
    rw [hgx]
    exact max_eq_right (le_trans h0 hk2.1)
  have hepsE : epsEff (fromEffective c f g) x = f x := by
    rw [epsEff_eq, hdisp, heps, hsig, hSS]
    rw [show epsStatic c f g x * (1 - dispersion c * (fromEffective c f g).tauEps x) +
      (g x - loss c * c.tauEps x * epsStatic c f g x) * (fromEffective c f g).tauSigma x = f x by
        rw [show (fromEffective c f g).tauEps x = c.tauEps x from rfl,
          show (fromEffective c f g).tauSigma x = c.tauSigma x from rfl]
        linear_combination hmul]
    apply max_eq_right
    rw [hfx]
    nlinarith [hk1.1]
  refine ⟨by rw [hsigE, hgx]; exact hk2, ?_, ?_, ?_⟩
  · rw [hepsE, hfx, mul_div_assoc, div_self hv.ne', mul_one]
    exact hk1
  · have : (fromEffective c f g).tauSigma x / tauRef b.centerFreq =
        clip t.lowerTauSigmar t.upperTauSigmar (b.tauSigma x / tauRef b.centerFreq) := by
      show clip t.lowerTauSigmar t.upperTauSigmar (b.tauSigma x / tauRef b.centerFreq) *
          mask (epsEff b x / epsVac - 1) * tauRef b.centerFreq / tauRef b.centerFreq = _
      rw [hm]
      field_simp
    rw [this]
    exact clip_mem ht.tauSigmar _
  · have : (fromEffective c f g).tauEps x = clip t.lowerTauEpsilon t.upperTauEpsilon (b.tauEps x) := by
      show clip t.lowerTauEpsilon t.upperTauEpsilon (b.tauEps x) * mask (epsEff b x / epsVac - 1) = _
      rw [hm, mul_one]
    rw [this]
    exact clip_mem ht.tauEpsilon _

/-- C85 fails with relaxation where the static permittivity is raised to that of vacuum: with the upper
threshold 2 the effective relative permittivity after applying the thresholds is 4. -/
theorem C85_visco_bounds_violated :
    ∃ (t : Thresholds) (b : Base Unit), t.Ordered ∧ t.lowerEpsilonr = 1 ∧ t.upperEpsilonr = 2 ∧
      epsEff b () ≠ epsVac ∧ epsEff (thresholdValues .viscotmem t b) () / epsVac = 4 := by
  have hv := epsVac_pos
  have hv1 : epsVac * 3 ≤ 1 := by unfold epsVac; norm_num
  have htr : tauRef (1 / (2 * Real.pi)) = 1 := by
    unfold tauRef
    have := Real.pi_ne_zero
    field_simp
  have hE : epsEff (onePoint 1 (3 * epsVac) epsVac 1 0) () = 4 * epsVac := by
    rw [epsEff_eq]
    simp only [onePoint]
    rw [max_eq_right] <;> linarith
  have hS : sigmaEff (onePoint 1 (3 * epsVac) epsVac 1 0) () = 3 * epsVac := by
    rw [sigmaEff_eq]
    simp only [onePoint]
    rw [max_eq_right] <;> linarith
  refine ⟨⟨0, 1, 1, 2, 0, 10, 0, 1⟩, onePoint 1 (3 * epsVac) epsVac 1 0,
    ⟨by norm_num, by norm_num, by norm_num, by norm_num⟩, rfl, rfl, ?_, ?_⟩
  · rw [hE]; linarith
  · have hk : ∀ (c : Base Unit) (f g : Unit → ℝ), c.tauSigma () = 1 → c.tauEps () = 0 →
        f () = 2 * epsVac → g () = 3 * epsVac → epsEff (fromEffective c f g) () = 4 * epsVac := by
      intro c f g c1 c2 hf hg
      have e1 : epsStatic c f g () = epsVac := by
        rw [epsStatic_eq, c1, c2, hf, hg]
        rw [show (2 * epsVac - 3 * epsVac * 1) / (1 - dispersion c * 0 - loss c * 0 * 1) = -epsVac by ring]
        exact max_eq_left (by linarith)
      have e2 : sigmaStatic c f g () = 3 * epsVac := by
        rw [sigmaStatic_eq, c2, hg, e1]
        rw [show 3 * epsVac - loss c * 0 * epsVac = 3 * epsVac by ring]
        exact max_eq_right (by linarith)
      rw [epsEff_eq]
      show max epsVac (epsStatic c f g () * (1 - dispersion c * c.tauEps ()) +
        sigmaStatic c f g () * c.tauSigma ()) = _
      rw [e1, e2, c1, c2, max_eq_right] <;> linarith
    have hm : mask (4 * epsVac / epsVac - 1) = 1 := mask_ne (by
      rw [mul_div_assoc, div_self hv.ne']; norm_num)
    have h4 : 4 * epsVac / epsVac = 4 := by field_simp
    unfold thresholdValues
    simp only [Eqn.visco, if_true]
    rw [hk]
    · exact h4
    · simp only [hE, hm]
      rw [show (onePoint 1 (3 * epsVac) epsVac 1 0).centerFreq = 1 / (2 * Real.pi) from rfl, htr]
      norm_num [clip, onePoint]
    · norm_num [clip, onePoint]
    · have hm' : mask 3 = 1 := mask_ne (by norm_num)
      simp only [hE, h4]
      norm_num [clip, hm']
    · simp only [hE, hS, hm]
      have : clip 0 1 (3 * epsVac) = 3 * epsVac := clip_id (by linarith) (by linarith)
      rw [this]; ring

end Verif.EMP
