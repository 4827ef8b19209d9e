import Mathlib.Data.Real.Basic
import Mathlib.Analysis.SpecialFunctions.Trigonometric.Basic
import Verif.Model.Outcome
import Verif.Model.Common
import Verif.Model.Averaging
/-!
# Model of the seismic model parameters

`/repo/src/Modelparameter/{Modelparameter,ModelparameterSeismic,Acoustic,Elastic,Viscoelastic,SH,ViscoSH}`.

Vectors are functions on a set `ι` of grid points. Values are exact reals. The averaging matrices of
the grid are given as linear operators (their rows are modelled in `Model/Averaging.lean`). Porosity,
saturation, reflectivity and the rock matrix parameters are left out of the state: no cached
quantity that the solvers read depends on them.
-/
namespace Verif.MP
open Verif.Avg (Dir)
open Verif.Common (FP)

/-- The five wave equation types of the seismic library (`ModelparameterFactory.cpp`:13-40). -/
inductive Eqn | acoustic | elastic | viscoelastic | sh | viscosh
  deriving DecidableEq, Repr

/-- The equation has P-wave parameters. -/
def Eqn.hasP : Eqn → Bool
  | .acoustic | .elastic | .viscoelastic => true
  | _ => false

/-- The equation has S-wave parameters. -/
def Eqn.hasS : Eqn → Bool
  | .acoustic => false
  | _ => true

/-- The equation has relaxation mechanisms. -/
def Eqn.visco : Eqn → Bool
  | .viscoelastic | .viscosh => true
  | _ => false

/-- The equation is one of the two SH equations. -/
def Eqn.isSH : Eqn → Bool
  | .sh | .viscosh => true
  | _ => false

variable {ι : Type}

/-- The parameters a user sets, Modelparameter.hpp:292-325. `numRelax` and `freq` may disagree, as
they have separate setters. -/
@[ext] structure Base (ι : Type) where
  velocityP : ι → ℝ
  velocityS : ι → ℝ
  density : ι → ℝ
  tauP : ι → ℝ
  tauS : ι → ℝ
  numRelax : Nat
  freq : List ℝ
  centerFreq : ℝ

/-- A model object: the parameters, the cached vectors and the four dirty flags
(Modelparameter.hpp:284, 302-349). The averaging matrices exist only inside
`prepareForModelling`, which builds and purges them. -/
structure Model (ι : Type) extends Base ι where
  pWaveModulus : ι → ℝ
  sWaveModulus : ι → ℝ
  inverseDensity : ι → FP ℝ
  inverseDensityAverage : Dir → ι → ℝ
  sWaveModulusAverage : Dir → ι → ℝ
  tauSAverage : Dir → ι → ℝ
  dirtyP : Bool
  dirtyS : Bool
  dirtyInverseDensity : Bool
  dirtyAveraging : Bool

/-- A default constructed object filled by `init`: all flags have their default value `true`
(Modelparameter.hpp:284, 312-314), the cached vectors are empty (here: zero). -/
def Model.fresh (b : Base ι) : Model ι :=
  { b with
    pWaveModulus := fun _ => 0, sWaveModulus := fun _ => 0, inverseDensity := fun _ => .fin 0
    inverseDensityAverage := fun _ _ => 0, sWaveModulusAverage := fun _ _ => 0
    tauSAverage := fun _ _ => 0
    dirtyP := true, dirtyS := true, dirtyInverseDensity := true, dirtyAveraging := true }

/-- The averaging matrices of a grid as operators. -/
abbrev Averages (ι : Type) := Dir → (ι → ℝ) → ι → ℝ

/-! ### Formulas -/

/-- `calcModulusFromVelocity`, ModelparameterSeismic.cpp:127-132. -/
def modulusFromVelocity (v rho : ℝ) : ℝ := rho * v * v

/-- `calcVelocityFromModulus`, ModelparameterSeismic.cpp:142-153, as a value that may be invalid:
division by zero and roots of negative numbers are invalid and replaced by 0. -/
noncomputable def velocityFromModulus (m rho : ℝ) : ℝ :=
  if rho = 0 then 0 else if m / rho < 0 then 0 else Real.sqrt (m / rho)

/-- The sum over the relaxation mechanisms, Viscoelastic.cpp:658-665, 699-706, ViscoSH.cpp:562-569.
Reading a frequency beyond the list is undefined behaviour in the code; here it is a zero. -/
noncomputable def relaxSum (n : Nat) (freq : List ℝ) (fc : ℝ) : ℝ :=
  ((List.range n).map fun l =>
    let w := 2 * Real.pi * fc
    let tauSigma := 1 / (2 * Real.pi * freq.getD l 0)
    w * w * tauSigma * tauSigma / (1 + w * w * tauSigma * tauSigma)).sum

/-- The P-wave modulus computed by `getPWaveModulus`: ModelparameterSeismic.cpp:208-219 and
Viscoelastic.cpp:648-675. -/
noncomputable def calcP (e : Eqn) (b : Base ι) (x : ι) : ℝ :=
  if e.visco then
    modulusFromVelocity (b.velocityP x) (b.density x) /
      (1 + relaxSum b.numRelax b.freq b.centerFreq * b.tauP x)
  else modulusFromVelocity (b.velocityP x) (b.density x)

/-- The S-wave modulus computed by `getSWaveModulus`: ModelparameterSeismic.cpp:234-246,
Viscoelastic.cpp:689-715, ViscoSH.cpp:552-578. -/
noncomputable def calcS (e : Eqn) (b : Base ι) (x : ι) : ℝ :=
  if e.visco then
    modulusFromVelocity (b.velocityS x) (b.density x) /
      (1 + relaxSum b.numRelax b.freq b.centerFreq * b.tauS x)
  else modulusFromVelocity (b.velocityS x) (b.density x)

/-- `inverseDensity = 1 / density`, ModelparameterSeismic.cpp:168: IEEE division, without
`replaceInvalid`. -/
noncomputable def calcInverseDensity (rho : ℝ) : FP ℝ := if rho = 0 then .inf else .fin (1 / rho)

/-- In-place `searchAndReplace(…, 1.0, 1.0, 1)` of `calcAveragedSWaveModulus`,
ModelparameterSeismic.cpp:424. -/
noncomputable def floorOne (v : ℝ) : ℝ := if v < 1 then 1 else v

/-- `calcAveragedSWaveModulus` after the in-place replacement, ModelparameterSeismic.cpp:426-431. -/
noncomputable def harmonic (A : (ι → ℝ) → ι → ℝ) (s : ι → ℝ) (x : ι) : ℝ :=
  let r := 1 / A (fun i => 1 / s i) x
  if r < 4 then 0 else r

/-- `calcInverseAveragedParameter`, Modelparameter.cpp:633-639. Infinite results are replaced by 0,
which is the value of exact division by zero. -/
noncomputable def inverseAverage (A : (ι → ℝ) → ι → ℝ) (v : ι → ℝ) (x : ι) : ℝ := 1 / A v x

/-- The averaging matrix used for the averaged S-wave modulus and tauS of a plane: the four-point
matrices, but the two-point matrices for the SH equations (SH.cpp:427-436, ViscoSH.cpp:447-459,
Elastic.cpp:575-588, Viscoelastic.cpp:561-577). -/
def shearDir (e : Eqn) : Dir → Dir
  | .xz => if e.isSH then .x else .xz
  | .yz => if e.isSH then .y else .yz
  | d => d

/-! ### Operations -/

/-- `getPWaveModulus()` (non-const), ModelparameterSeismic.cpp:208-219, Viscoelastic.cpp:648-675;
throws for the SH equations (SH.cpp:494-498, ViscoSH.cpp:529-533). -/
noncomputable def getP (e : Eqn) (m : Model ι) : Out (Model ι) :=
  if e.hasP then
    .ok (if m.dirtyP then { m with pWaveModulus := calcP e m.toBase, dirtyP := false } else m)
  else .err

/-- `getSWaveModulus()` (non-const), ModelparameterSeismic.cpp:234-246, Viscoelastic.cpp:689-715,
ViscoSH.cpp:552-578; throws for the acoustic equation (Acoustic.cpp:433-438). -/
noncomputable def getS (e : Eqn) (m : Model ι) : Out (Model ι) :=
  if e.hasS then
    .ok (if m.dirtyS then { m with sWaveModulus := calcS e m.toBase, dirtyS := false } else m)
  else .err

/-- `getInverseDensity()` (non-const), ModelparameterSeismic.cpp:163-172; throws unless the equation
is an SH equation (Acoustic.cpp:424-428, Elastic.cpp:624-628, Viscoelastic.cpp:637-641). -/
noncomputable def getInv (e : Eqn) (m : Model ι) : Out (Model ι) :=
  if e.isSH then
    .ok (if m.dirtyInverseDensity then
      { m with inverseDensity := fun x => calcInverseDensity (m.density x), dirtyInverseDensity := false }
    else m)
  else .err

/-- `calculateAveraging` with the matrices `A` built: Acoustic.cpp:381-390, Elastic.cpp:575-588,
Viscoelastic.cpp:561-577, SH.cpp:427-436, ViscoSH.cpp:447-459. The averaged S-wave modulus is
computed from the cached modulus, which is changed in place first. -/
noncomputable def calculateAveraging (e : Eqn) (A : Averages ι) (m : Model ι) : Model ι :=
  if m.dirtyAveraging then
    let s := if e.hasS then (fun x => floorOne (m.sWaveModulus x)) else m.sWaveModulus
    { m with
      inverseDensityAverage := if e.isSH then m.inverseDensityAverage else
        fun d => inverseAverage (A d) m.density
      sWaveModulus := s
      sWaveModulusAverage := if e.hasS then fun d => harmonic (A (shearDir e d)) s
        else m.sWaveModulusAverage
      tauSAverage := if e.visco then fun d => A (shearDir e d) m.tauS else m.tauSAverage
      dirtyAveraging := false }
  else m

/-- `prepareForModelling`: Acoustic.cpp:28-43, Elastic.cpp:28-45, Viscoelastic.cpp:27-45,
SH.cpp:27-45, ViscoSH.cpp:27-45. -/
noncomputable def prepare (e : Eqn) (A : Averages ι) (m : Model ι) : Out (Model ι) := do
  let m ← (if e.hasP then getP e m else .ok m : Out (Model ι))
  let m ← (if e.hasS then getS e m else .ok m : Out (Model ι))
  let m ← (if e.isSH then getInv e m else .ok m : Out (Model ι))
  .ok (calculateAveraging e A m)

/-- Non-const getters of averaged vectors, ModelparameterSeismic.cpp:437-541: if the averages are
dirty they call `calculateAveraging`, but the matrices have been purged (or never built), so the
product with a vector fails with the size check of the matrix library. -/
def getAverages (m : Model ι) : Out (Model ι) :=
  if m.dirtyAveraging then .err else .ok m

/-- Thresholds of the configuration (Elastic.cpp:61-73). -/
structure Thresholds where
  lowerVP : ℝ
  upperVP : ℝ
  lowerVS : ℝ
  upperVS : ℝ
  lowerDensity : ℝ
  upperDensity : ℝ
  lowerRatio : ℝ
  upperRatio : ℝ

/-- `searchAndReplace(v, lo, lo, 1); searchAndReplace(v, hi, hi, 2)` for one value. -/
noncomputable def clip (lo hi v : ℝ) : ℝ :=
  let v1 := if v < lo then lo else v
  if v1 > hi then hi else v1

/-- `replaceVpwithVs(…, lower, 1); replaceVpwithVs(…, upper, 2)` for one value, Common.hpp:149-181. -/
noncomputable def clipRatio (lo hi vs vp : ℝ) : ℝ :=
  let v1 := if vp < lo * vs then lo * vs else vp
  if v1 > hi * vs then hi * vs else v1

/-- Unary operations SIGN and ABS: 0 for a zero, 1 otherwise. -/
noncomputable def mask (v : ℝ) : ℝ := |(if v < 0 then -1 else if v > 0 then 1 else 0 : ℝ)|

/-- The values of `applyThresholds`: Acoustic.cpp:49-83, Elastic.cpp:51-95, Viscoelastic.cpp:50-94,
SH.cpp:51-82, ViscoSH.cpp:51-82. -/
noncomputable def thresholdValues (e : Eqn) (t : Thresholds) (b : Base ι) : Base ι :=
  let vp := fun x => if e.hasP then
      clip t.lowerVP t.upperVP (if e.hasS then clipRatio t.lowerRatio t.upperRatio (b.velocityS x) (b.velocityP x)
        else b.velocityP x) * mask (b.velocityP x)
    else b.velocityP x
  let vs := fun x => if e.hasS then clip t.lowerVS t.upperVS (b.velocityS x) * mask (b.velocityS x)
    else b.velocityS x
  let rho := fun x => clip t.lowerDensity t.upperDensity (b.density x) *
    mask (if e.hasP then b.velocityP x else b.velocityS x)
  { b with velocityP := vp, velocityS := vs, density := rho }

/-- Flags set by `applyThresholds` and by the arithmetic and assignment operators: all flags the
equation uses (e.g. Elastic.cpp:66-75, 763-766, SH.cpp:62-67, 645-647). -/
def touch (e : Eqn) (m : Model ι) : Model ι :=
  { m with
    dirtyP := m.dirtyP || e.hasP
    dirtyS := m.dirtyS || e.hasS
    dirtyInverseDensity := true
    dirtyAveraging := true }

/-- Replace the parameters. -/
def setBase (m : Model ι) (b : Base ι) : Model ι := { m with toBase := b }

/-- Combine the vectors of two models entry by entry: `+=` and `-=` (Acoustic.cpp:666-730,
Elastic.cpp:787-858, Viscoelastic.cpp:767-833, SH.cpp:668-727, ViscoSH.cpp:700-763; the versions of
the base class are the same). Only the parameters of the equation are changed. -/
noncomputable def combine (e : Eqn) (op : ℝ → ℝ → ℝ) (b c : Base ι) : Base ι :=
  { b with
    density := fun x => op (b.density x) (c.density x)
    velocityP := fun x => if e.hasP then op (b.velocityP x) (c.velocityP x) else b.velocityP x
    velocityS := fun x => if e.hasS then op (b.velocityS x) (c.velocityS x) else b.velocityS x
    tauP := fun x => if e.visco && e.hasP then op (b.tauP x) (c.tauP x) else b.tauP x
    tauS := fun x => if e.visco then op (b.tauS x) (c.tauS x) else b.tauS x }

/-- `=`: Acoustic.cpp:715-731, Elastic.cpp:838-858, Viscoelastic.cpp:840-872, SH.cpp:700-716,
ViscoSH.cpp:735-763. -/
def assignBase (e : Eqn) (b c : Base ι) : Base ι :=
  { velocityP := if e.hasP then c.velocityP else b.velocityP
    velocityS := if e.hasS then c.velocityS else b.velocityS
    density := c.density
    tauP := if e.visco && e.hasP then c.tauP else b.tauP
    tauS := if e.visco then c.tauS else b.tauS
    numRelax := if e.visco then c.numRelax else b.numRelax
    freq := if e.visco then c.freq else b.freq
    centerFreq := if e.visco then c.centerFreq else b.centerFreq }

/-- Copy constructor: Acoustic.cpp:279-293, Elastic.cpp:303-322, Viscoelastic.cpp:293-318,
SH.cpp:239-253, ViscoSH.cpp:254-277: the moduli, the inverse density and their flags are copied; the
averaged vectors and their flag are not (default values). Vectors the equation does not use are
copied here although the code leaves them empty. -/
def copy (m : Model ι) : Model ι :=
  { m with
    inverseDensityAverage := fun _ _ => 0, sWaveModulusAverage := fun _ _ => 0
    tauSAverage := fun _ _ => 0
    dirtyAveraging := true }

/-- Operations of the public interface. -/
inductive Op (ι : Type)
  | setDensity (v : ι → ℝ)
  | setVelocityP (v : ι → ℝ)
  | setVelocityS (v : ι → ℝ)
  | setTauP (v : ι → ℝ)
  | setTauS (v : ι → ℝ)
  | setRelaxationFrequency (f : List ℝ)
  | setNumRelaxationMechanisms (n : Nat)
  | scale (r : ℝ)
  | add (c : Base ι)
  | sub (c : Base ι)
  | assign (c : Base ι)
  | applyThresholds (t : Thresholds)
  | getPWaveModulus
  | getSWaveModulus
  | getInverseDensity
  | getAverages
  | prepareForModelling
  | copyConstruct
  | init (b : Base ι)

/-- One operation. Setters: ModelparameterSeismic.cpp:24-40, 194-201, 269-291, 353-376. `init` of an
existing object replaces the parameters and leaves the flags alone (Acoustic.cpp:133-275,
Elastic.cpp:157-300, Viscoelastic.cpp:166-290, Modelparameter.cpp: `initModelparameter`). -/
noncomputable def step (e : Eqn) (A : Averages ι) (m : Model ι) : Op ι → Out (Model ι)
  | .setDensity v => .ok { m with density := v, dirtyP := true, dirtyS := true,
                                   dirtyInverseDensity := true, dirtyAveraging := true }
  | .setVelocityP v => .ok { m with velocityP := v, dirtyP := true }
  | .setVelocityS v => .ok { m with velocityS := v, dirtyS := true, dirtyAveraging := true }
  | .setTauP v => .ok { m with tauP := v, dirtyP := true }
  | .setTauS v => .ok { m with tauS := v, dirtyS := true, dirtyAveraging := true }
  | .setRelaxationFrequency f => .ok { m with freq := f, dirtyP := true, dirtyS := true, dirtyAveraging := true }
  | .setNumRelaxationMechanisms n =>
      .ok { m with numRelax := n, dirtyP := true, dirtyS := true, dirtyAveraging := true }
  | .scale r => .ok (touch e (setBase m (combine e (fun a _ => a * r) m.toBase m.toBase)))
  | .add c => .ok (touch e (setBase m (combine e (· + ·) m.toBase c)))
  | .sub c => .ok (touch e (setBase m (combine e (· - ·) m.toBase c)))
  | .assign c => .ok (touch e (setBase m (assignBase e m.toBase c)))
  | .applyThresholds t => .ok (touch e (setBase m (thresholdValues e t m.toBase)))
  | .getPWaveModulus => getP e m
  | .getSWaveModulus => getS e m
  | .getInverseDensity => getInv e m
  | .getAverages => getAverages m
  | .prepareForModelling => prepare e A m
  | .copyConstruct => .ok (copy m)
  | .init b => .ok (setBase m b)

/-- A sequence of operations; an exception ends it. -/
noncomputable def runOps (e : Eqn) (A : Averages ι) : Model ι → List (Op ι) → Out (Model ι)
  | m, [] => .ok m
  | m, o :: os => do
    let m ← step e A m o
    runOps e A m os

/-! ### Const getters, which the forward solvers use -/

/-- Const getters of cached vectors. -/
inductive Getter
  | pWaveModulus | sWaveModulus | inverseDensity
  | inverseDensityAverage (d : Dir) | sWaveModulusAverage (d : Dir) | tauSAverage (d : Dir)
  deriving DecidableEq

/-- Const getters: ModelparameterSeismic.cpp:177-181, 223-227, 251-255, 545-621. They throw if the
vector is dirty; the overrides that always throw are Acoustic.cpp:424-560, Elastic.cpp:624-719,
SH.cpp:480-605, ViscoSH.cpp:515-640. The averages over a single direction are those of
the inverse density, the averages over a plane those of the S-wave modulus and tauS. -/
def constGet (e : Eqn) (m : Model ι) : Getter → Out (ι → FP ℝ)
  | .pWaveModulus => if e.hasP ∧ m.dirtyP = false then .ok (fun x => .fin (m.pWaveModulus x)) else .err
  | .sWaveModulus => if e.hasS ∧ m.dirtyS = false then .ok (fun x => .fin (m.sWaveModulus x)) else .err
  | .inverseDensity => if m.dirtyInverseDensity = false then .ok m.inverseDensity else .err
  | .inverseDensityAverage d =>
    if m.dirtyAveraging = false then .ok (fun x => .fin (m.inverseDensityAverage d x)) else .err
  | .sWaveModulusAverage d =>
    if e.hasS ∧ m.dirtyAveraging = false then .ok (fun x => .fin (m.sWaveModulusAverage d x)) else .err
  | .tauSAverage d =>
    if e.visco ∧ m.dirtyAveraging = false then .ok (fun x => .fin (m.tauSAverage d x)) else .err

end Verif.MP
