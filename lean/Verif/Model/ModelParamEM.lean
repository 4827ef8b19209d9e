import Mathlib.Data.Real.Basic
import Mathlib.Analysis.SpecialFunctions.Trigonometric.Basic
import Verif.Model.Outcome
import Verif.Model.ModelParam
/-!
# Model of the electromagnetic model parameters

`/repo/src/ModelparameterEM/{ModelparameterEM,TMEM,EMEM,ViscoTMEM,ViscoEMEM}`.

Vectors are functions on a set `ι` of grid points, values are exact reals, and the averaging matrices
are linear operators, as in `Model/ModelParam.lean`. Porosity, saturation, reflectivity and the rock
matrix parameters are left out: nothing modelled here depends on them.
-/
namespace Verif.EMP
open Verif.Avg (Dir)
open Verif.MP (Averages clip mask inverseAverage)

/-- The four wave equation types of the electromagnetic library (`ModelparameterFactory.cpp`). -/
inductive Eqn | tmem | emem | viscotmem | viscoemem
  deriving DecidableEq, Repr

/-- The equation has relaxation mechanisms. -/
def Eqn.visco : Eqn → Bool
  | .viscotmem | .viscoemem => true
  | _ => false

/-- The equation is one of the two TM equations. -/
def Eqn.isTM : Eqn → Bool
  | .tmem | .viscotmem => true
  | _ => false

variable {ι : Type}

/-- `DielectricPermittivityVacuum`, Modelparameter.hpp:360. -/
noncomputable def epsVac : ℝ := 88541878176 / 10 ^ 22

/-- `MagneticPermeabilityVacuum`, Modelparameter.hpp:359. -/
noncomputable def muVac : ℝ := 12566370614 / 10 ^ 16

/-- The parameters, Modelparameter.hpp:325-353. The stored permittivity and conductivity are the
static values. -/
@[ext] structure Base (ι : Type) where
  mu : ι → ℝ
  sigma : ι → ℝ
  eps : ι → ℝ
  tauSigma : ι → ℝ
  tauEps : ι → ℝ
  numRelax : Nat
  freq : List ℝ
  centerFreq : ℝ

/-- A model object: the parameters, the cached vectors and the two dirty flags
(Modelparameter.hpp:284, 325-354). -/
structure Model (ι : Type) extends Base ι where
  velocity : ι → ℝ
  inverseMuAverage : Dir → ι → ℝ
  sigmaAverage : Dir → ι → ℝ
  epsAverage : Dir → ι → ℝ
  tauSigmaAverage : Dir → ι → ℝ
  tauEpsAverage : Dir → ι → ℝ
  dirtyVelocity : Bool
  dirtyAveraging : Bool

/-- A new object filled by `init`: the flags are `true` (Modelparameter.hpp:284, 354). -/
def Model.fresh (b : Base ι) : Model ι :=
  { b with
    velocity := fun _ => 0, inverseMuAverage := fun _ _ => 0, sigmaAverage := fun _ _ => 0
    epsAverage := fun _ _ => 0, tauSigmaAverage := fun _ _ => 0, tauEpsAverage := fun _ _ => 0
    dirtyVelocity := true, dirtyAveraging := true }

/-! ### Static and effective values -/

/-- `a_average`, ModelparameterEM.cpp:448-454, 520-527. -/
noncomputable def aMean (b : Base ι) : ℝ :=
  ((List.range b.numRelax).map fun l =>
    let w := 2 * Real.pi * b.centerFreq
    let t := 1 / (2 * Real.pi * b.freq.getD l 0)
    w * w * t * t / (1 + w * w * t * t)).sum / b.numRelax

/-- `b_average`, ModelparameterEM.cpp:417-423, 481-487, 521-528. -/
noncomputable def bMean (b : Base ι) : ℝ :=
  ((List.range b.numRelax).map fun l =>
    let w := 2 * Real.pi * b.centerFreq
    let t := 1 / (2 * Real.pi * b.freq.getD l 0)
    w * w * t / (1 + w * w * t * t)).sum / b.numRelax

/-- `searchAndReplace(v, lo, lo, 1)` for one value. -/
noncomputable def floorAt (lo v : ℝ) : ℝ := if v < lo then lo else v

/-- `getDielectricPermittivityRealEffective`, ModelparameterEM.cpp:443-471. -/
noncomputable def epsEff (b : Base ι) (x : ι) : ℝ :=
  floorAt epsVac (b.eps x * (1 - aMean b * b.tauEps x) + b.sigma x * b.tauSigma x)

/-- `getElectricConductivityRealEffective`, ModelparameterEM.cpp:412-438. -/
noncomputable def sigmaEff (b : Base ι) (x : ι) : ℝ :=
  floorAt 0 (b.eps x * (bMean b * b.tauEps x) + b.sigma x)

/-- `getDielectricPermittivityStatic` with `calculateType == 2`, ModelparameterEM.cpp:512-556. The
code divides in floating point: where the divisor is zero the result is infinite or NaN, here 0
(before the floor). -/
noncomputable def epsStatic (b : Base ι) (eEff sEff : ι → ℝ) (x : ι) : ℝ :=
  floorAt epsVac ((eEff x - sEff x * b.tauSigma x) /
    ((1 - aMean b * b.tauEps x) - bMean b * b.tauEps x * b.tauSigma x))

/-- `getElectricConductivityStatic` with `calculateType == 2`, ModelparameterEM.cpp:476-507. -/
noncomputable def sigmaStatic (b : Base ι) (eEff sEff : ι → ℝ) (x : ι) : ℝ :=
  floorAt 0 (sEff x - bMean b * b.tauEps x * epsStatic b eEff sEff x)

/-- `relaxationTime_ref`, e.g. ViscoTMEM.cpp:49. -/
noncomputable def tauRef (fc : ℝ) : ℝ := 1 / (2 * Real.pi * fc)

/-- Replace permittivity and conductivity by static values computed from effective ones:
ViscoTMEM.cpp:93-95, 348-350, ViscoEMEM.cpp:92-94, 303-305. -/
noncomputable def fromEffective (b : Base ι) (eEff sEff : ι → ℝ) : Base ι :=
  { b with eps := epsStatic b eEff sEff, sigma := sigmaStatic b eEff sEff }

/-! ### Cached quantities -/

/-- `calcVelocityFromModulus`, ModelparameterEM.cpp:318-329: invalid values are replaced by 0. -/
noncomputable def velocityOf (eps mu : ℝ) : ℝ :=
  if eps * mu ≤ 0 then 0 else 1 / Real.sqrt (eps * mu)

/-- The velocity computed by `getVelocityEM`: ModelparameterEM.cpp:336-346, ViscoTMEM.cpp:483-494,
ViscoEMEM.cpp:468-479. -/
noncomputable def calcVelocity (e : Eqn) (b : Base ι) (x : ι) : ℝ :=
  velocityOf (if e.visco then epsEff b x else b.eps x) (b.mu x)

/-- `getVelocityEM()` (non-const). -/
noncomputable def getVelocity (e : Eqn) (m : Model ι) : Model ι :=
  if m.dirtyVelocity then { m with velocity := calcVelocity e m.toBase, dirtyVelocity := false } else m

/-- The averaging matrix for the inverse permeability of a plane: TMEM.cpp:370-371,
ViscoTMEM.cpp:446-447 use the two-point matrices, EMEM.cpp:382-384, ViscoEMEM.cpp:413-415 the
four-point matrices. -/
def muDir (e : Eqn) : Dir → Dir
  | .xz => if e.isTM then .x else .xz
  | .yz => if e.isTM then .y else .yz
  | d => d

/-- `calculateAveraging` with the matrices `A` built: TMEM.cpp:366-374, EMEM.cpp:378-395,
ViscoTMEM.cpp:442-450, ViscoEMEM.cpp:409-435. The averages over a plane are those of the inverse
permeability, the averages over a direction those of the other parameters. -/
noncomputable def calculateAveraging (e : Eqn) (A : Averages ι) (m : Model ι) : Model ι :=
  if m.dirtyAveraging then
    { m with
      inverseMuAverage := fun d => inverseAverage (A (muDir e d)) m.mu
      sigmaAverage := if e.isTM then m.sigmaAverage else fun d => A d m.sigma
      epsAverage := if e.isTM then m.epsAverage else fun d => A d m.eps
      tauSigmaAverage := if e = .viscoemem then fun d => A d m.tauSigma else m.tauSigmaAverage
      tauEpsAverage := if e = .viscoemem then fun d => A d m.tauEps else m.tauEpsAverage
      dirtyAveraging := false }
  else m

/-- `prepareForModelling`: TMEM.cpp:28-38, EMEM.cpp:28-38, ViscoTMEM.cpp:28-38, ViscoEMEM.cpp:27-37. -/
noncomputable def prepare (e : Eqn) (A : Averages ι) (m : Model ι) : Model ι :=
  calculateAveraging e A (getVelocity e m)

/-- Non-const getters of averaged vectors: they call `calculateAveraging` if the averages are dirty,
but the matrices have been purged, so the product fails with the size check of the matrix library. -/
def getAverages (m : Model ι) : Out (Model ι) :=
  if m.dirtyAveraging then .err else .ok m

/-! ### Thresholds -/

/-- Thresholds of the configuration (ViscoTMEM.cpp:57-64). -/
structure Thresholds where
  lowerSigma : ℝ
  upperSigma : ℝ
  lowerEpsilonr : ℝ
  upperEpsilonr : ℝ
  lowerTauSigmar : ℝ
  upperTauSigmar : ℝ
  lowerTauEpsilon : ℝ
  upperTauEpsilon : ℝ

/-- The values of `applyThresholds`: TMEM.cpp:44-82, EMEM.cpp:44-82 (first branch),
ViscoTMEM.cpp:44-96, ViscoEMEM.cpp:43-95 (second branch). -/
noncomputable def thresholdValues (e : Eqn) (t : Thresholds) (b : Base ι) : Base ι :=
  if e.visco then
    let er := fun x => epsEff b x / epsVac
    let k := fun x => mask (er x - 1)
    let s := fun x => clip t.lowerSigma t.upperSigma (sigmaEff b x) * k x
    let ts := fun x => clip t.lowerTauSigmar t.upperTauSigmar (b.tauSigma x / tauRef b.centerFreq) * k x
    let te := fun x => clip t.lowerTauEpsilon t.upperTauEpsilon (b.tauEps x) * k x
    let ee := fun x => ((clip t.lowerEpsilonr t.upperEpsilonr (er x) - 1) * k x + 1) * epsVac
    fromEffective { b with tauSigma := fun x => ts x * tauRef b.centerFreq, tauEps := te } ee s
  else
    let er := fun x => b.eps x / epsVac
    let k := fun x => mask (er x - 1)
    { b with
      sigma := fun x => clip t.lowerSigma t.upperSigma (b.sigma x) * k x
      eps := fun x => ((clip t.lowerEpsilonr t.upperEpsilonr (er x) - 1) * k x + 1) * epsVac }

/-! ### Files -/

/-- The vectors of the model files. -/
structure Files (ι : Type) where
  mur : ι → ℝ
  sigma : ι → ℝ
  epsilonr : ι → ℝ
  tauSigmar : ι → ℝ
  tauEpsilon : ι → ℝ

/-- The relaxation settings of the configuration, ViscoTMEM.cpp:166-183. -/
structure Relaxation where
  num : Nat
  freq : List ℝ
  centerFreq : ℝ

/-- `write`: TMEM.cpp:313-335, EMEM.cpp:313-335, ViscoTMEM.cpp:382-409, ViscoEMEM.cpp:337-364. The
equations without relaxation do not write the two tau files (here: zero). -/
noncomputable def write (e : Eqn) (b : Base ι) : Files ι :=
  if e.visco then
    { mur := fun x => b.mu x / muVac
      sigma := sigmaEff b
      epsilonr := fun x => epsEff b x / epsVac
      tauSigmar := fun x => b.tauSigma x / tauRef b.centerFreq
      tauEpsilon := b.tauEps }
  else
    { mur := fun x => b.mu x / muVac
      sigma := b.sigma
      epsilonr := fun x => b.eps x / epsVac
      tauSigmar := fun _ => 0
      tauEpsilon := fun _ => 0 }

/-- `init` from files, into an object with the relaxation settings `r`: TMEM.cpp:262-288,
EMEM.cpp:262-288, ViscoTMEM.cpp:316-352, ViscoEMEM.cpp:271-307. -/
noncomputable def initFiles (e : Eqn) (r : Relaxation) (f : Files ι) : Base ι :=
  if e.visco then
    let b : Base ι :=
      { mu := fun x => f.mur x * muVac, sigma := fun _ => 0, eps := fun _ => 0
        tauSigma := fun x => f.tauSigmar x * tauRef r.centerFreq
        tauEps := f.tauEpsilon, numRelax := r.num, freq := r.freq, centerFreq := r.centerFreq }
    fromEffective b (fun x => f.epsilonr x * epsVac) f.sigma
  else
    { mu := fun x => f.mur x * muVac, sigma := f.sigma, eps := fun x => f.epsilonr x * epsVac
      tauSigma := fun _ => 0, tauEps := fun _ => 0, numRelax := r.num, freq := r.freq
      centerFreq := r.centerFreq }

/-- `init` of a homogeneous model from the values of the configuration: TMEM.cpp:229-242,
EMEM.cpp:225-239, ViscoTMEM.cpp:275-296, ViscoEMEM.cpp:230-251. -/
noncomputable def initHomogeneous (e : Eqn) (r : Relaxation) (mur sigma epsilonr tauSigmar tauEpsilon : ℝ) :
    Base ι :=
  { mu := fun _ => mur * muVac
    sigma := fun _ => sigma
    eps := fun _ => epsilonr * epsVac
    tauSigma := fun _ => if e.visco then tauSigmar * tauRef r.centerFreq else 0
    tauEps := fun _ => if e.visco then tauEpsilon else 0
    numRelax := r.num, freq := r.freq, centerFreq := r.centerFreq }

/-! ### Operations -/

/-- Flags set by `applyThresholds`, the setters, and the arithmetic and assignment operators
(e.g. ModelparameterEM.cpp:26-44, 355-408, 563-587, ViscoTMEM.cpp:66-67, 542-543, 638-639). -/
def touch (m : Model ι) : Model ι := { m with dirtyVelocity := true, dirtyAveraging := true }

/-- Replace the parameters. -/
def setBase (m : Model ι) (b : Base ι) : Model ι := { m with toBase := b }

/-- `+=`, `-=`, `*=`: TMEM.cpp:448-522, EMEM.cpp:469-543, ViscoTMEM.cpp:533-619, ViscoEMEM.cpp:518-604. -/
noncomputable def combine (e : Eqn) (op : ℝ → ℝ → ℝ) (b c : Base ι) : Base ι :=
  { b with
    mu := fun x => op (b.mu x) (c.mu x)
    sigma := fun x => op (b.sigma x) (c.sigma x)
    eps := fun x => op (b.eps x) (c.eps x)
    tauSigma := fun x => if e.visco then op (b.tauSigma x) (c.tauSigma x) else b.tauSigma x
    tauEps := fun x => if e.visco then op (b.tauEps x) (c.tauEps x) else b.tauEps x }

/-- `=`: TMEM.cpp:529-569, EMEM.cpp:550-588, ViscoTMEM.cpp:626-676, ViscoEMEM.cpp:611-661. -/
def assignBase (e : Eqn) (b c : Base ι) : Base ι :=
  { mu := c.mu, sigma := c.sigma, eps := c.eps
    tauSigma := if e.visco then c.tauSigma else b.tauSigma
    tauEps := if e.visco then c.tauEps else b.tauEps
    numRelax := if e.visco then c.numRelax else b.numRelax
    freq := if e.visco then c.freq else b.freq
    centerFreq := if e.visco then c.centerFreq else b.centerFreq }

/-- Copy constructor: TMEM.cpp:292-306, EMEM.cpp:292-306, ViscoTMEM.cpp:355-374,
ViscoEMEM.cpp:310-329: the velocity and its flag are copied, the averages are not. -/
def copy (m : Model ι) : Model ι :=
  { m with
    inverseMuAverage := fun _ _ => 0, sigmaAverage := fun _ _ => 0, epsAverage := fun _ _ => 0
    tauSigmaAverage := fun _ _ => 0, tauEpsAverage := fun _ _ => 0, dirtyAveraging := true }

/-- Operations of the public interface. -/
inductive Op (ι : Type)
  | setMagneticPermeability (v : ι → ℝ)
  | setElectricConductivity (v : ι → ℝ)
  | setDielectricPermittivity (v : ι → ℝ)
  | setTauElectricConductivity (v : ι → ℝ)
  | setTauDielectricPermittivity (v : ι → ℝ)
  | setRelaxationFrequency (f : List ℝ)
  | setNumRelaxationMechanisms (n : Nat)
  | scale (r : ℝ)
  | add (c : Base ι)
  | sub (c : Base ι)
  | assign (c : Base ι)
  | applyThresholds (t : Thresholds)
  | getVelocityEM
  | getAverages
  | prepareForModelling
  | copyConstruct
  | init (b : Base ι)

/-- One operation. `init` of an existing object replaces the parameters and leaves the flags alone
(TMEM.cpp:130-288, EMEM.cpp:130-288, ViscoTMEM.cpp:163-352, ViscoEMEM.cpp:150-307). -/
noncomputable def step (e : Eqn) (A : Averages ι) (m : Model ι) : Op ι → Out (Model ι)
  | .setMagneticPermeability v => .ok (touch { m with mu := v })
  | .setElectricConductivity v => .ok (touch { m with sigma := v })
  | .setDielectricPermittivity v => .ok (touch { m with eps := v })
  | .setTauElectricConductivity v => .ok (touch { m with tauSigma := v })
  | .setTauDielectricPermittivity v => .ok (touch { m with tauEps := v })
  | .setRelaxationFrequency f => .ok (touch { m with freq := f })
  | .setNumRelaxationMechanisms n => .ok (touch { m with numRelax := n })
  | .scale r => .ok (touch (setBase m (combine e (fun a _ => a * r) m.toBase m.toBase)))
  | .add c => .ok (touch (setBase m (combine e (· + ·) m.toBase c)))
  | .sub c => .ok (touch (setBase m (combine e (· - ·) m.toBase c)))
  | .assign c => .ok (touch (setBase m (assignBase e m.toBase c)))
  | .applyThresholds t => .ok (touch (setBase m (thresholdValues e t m.toBase)))
  | .getVelocityEM => .ok (getVelocity e m)
  | .getAverages => getAverages m
  | .prepareForModelling => .ok (prepare e A m)
  | .copyConstruct => .ok (copy m)
  | .init b => .ok (setBase m b)

/-- A sequence of operations; an exception ends it. -/
noncomputable def runOps (e : Eqn) (A : Averages ι) : Model ι → List (Op ι) → Out (Model ι)
  | m, [] => .ok m
  | m, o :: os => do
    let m ← step e A m o
    runOps e A m os

/-- Const getters of cached vectors. -/
inductive Getter
  | velocity
  | inverseMuAverage (d : Dir) | sigmaAverage (d : Dir) | epsAverage (d : Dir)
  | tauSigmaAverage (d : Dir) | tauEpsAverage (d : Dir)
  deriving DecidableEq

/-- Const getters: they throw if the vector is dirty (ModelparameterEM.cpp:349-354, ViscoTMEM.cpp:499-503,
ViscoEMEM.cpp:484-488 and the averages ModelparameterEM.cpp). -/
def constGet (m : Model ι) : Getter → Out (ι → ℝ)
  | .velocity => if m.dirtyVelocity then .err else .ok m.velocity
  | .inverseMuAverage d => if m.dirtyAveraging then .err else .ok (m.inverseMuAverage d)
  | .sigmaAverage d => if m.dirtyAveraging then .err else .ok (m.sigmaAverage d)
  | .epsAverage d => if m.dirtyAveraging then .err else .ok (m.epsAverage d)
  | .tauSigmaAverage d => if m.dirtyAveraging then .err else .ok (m.tauSigmaAverage d)
  | .tauEpsAverage d => if m.dirtyAveraging then .err else .ok (m.tauEpsAverage d)

end Verif.EMP
