import Verif.Model.MatrixSetup
import Verif.Model.Snapshot
import Mathlib.Analysis.SpecialFunctions.Pow.Real
import Mathlib.Data.Real.Sign

/-!
# What snapshots show: `write`, `getCurl`, `getDiv`, `decompose` of the wavefield classes

`/repo/src/Wavefields/Wavefields*.cpp`, `/repo/src/WavefieldsEM/Wavefields*.cpp`. Numbers are real, vectors are
functions on the grid points; the square root of a negative number (NaN in the code) is 0 here. Writing of the
files is not modelled, only which vector goes to which file.
-/
set_option linter.dupNamespace false

namespace Verif.Views
open Verif Verif.Solver Verif.MatSetup
open Matrix

variable {ι : Type} [Fintype ι]

/-- A travel direction of the decomposition. -/
inductive Way
  | up | down | left | right
  deriving DecidableEq, Repr

/-- A vector that is written to a snapshot. -/
inductive View
  | fld (f : Fld)
  | rel (f : Fld) (l : ℕ)
  | curl
  | div
  | part (f : Fld) (w : Way)
  deriving DecidableEq, Repr

/-- `getCurl` in two dimensions: Wavefields2Delastic.cpp:218-233, Wavefields2Dviscoelastic.cpp:217-231 with the
velocities and the S-wave modulus, Wavefields2Dtmem.cpp:237-252, Wavefields2Dviscotmem.cpp:176-190 with the
magnetic field and the permittivity. -/
noncomputable def curl2D (D : Deriv ι) (f : Axis → Fld) (w : ι → ℝ) (s : State ι) (i : ι) : ℝ :=
  (D.Dyf.mulVec (s (.fld (f .x))) i - D.Dxf.mulVec (s (.fld (f .y))) i) * Real.sqrt (w i)

/-- `getDiv` in two dimensions: Wavefields2Delastic.cpp:235-249, Wavefields2Dviscoelastic.cpp:233-247,
Wavefields2Dtmem.cpp:254-268, Wavefields2Dviscotmem.cpp:192-206. -/
noncomputable def div2D (D : Deriv ι) (f : Axis → Fld) (w : ι → ℝ) (s : State ι) (i : ι) : ℝ :=
  (D.Dxb.mulVec (s (.fld (f .x))) i + D.Dyb.mulVec (s (.fld (f .y))) i) * Real.sqrt (w i)

/-- `getCurl` in three dimensions: Wavefields3Delastic.cpp:196-223, Wavefields3Dviscoelastic.cpp:174-201,
Wavefields3Demem.cpp:150-177, Wavefields3Dviscoemem.cpp:151-178. -/
noncomputable def curl3D (D : Deriv ι) (f : Axis → Fld) (w : ι → ℝ) (s : State ι) (i : ι) : ℝ :=
  Real.sqrt (((D.Dyf.mulVec (s (.fld (f .z))) i - D.Dzf.mulVec (s (.fld (f .y))) i) ^ 2 +
    (D.Dzf.mulVec (s (.fld (f .x))) i - D.Dxf.mulVec (s (.fld (f .z))) i) ^ 2 +
    (D.Dxf.mulVec (s (.fld (f .y))) i - D.Dyf.mulVec (s (.fld (f .x))) i) ^ 2) * w i)

/-- `getDiv` in three dimensions: Wavefields3Delastic.cpp:225-239, Wavefields3Dviscoelastic.cpp:203-217,
Wavefields3Demem.cpp:179-193, Wavefields3Dviscoemem.cpp:180-194. -/
noncomputable def div3D (D : Deriv ι) (f : Axis → Fld) (w : ι → ℝ) (s : State ι) (i : ι) : ℝ :=
  Real.sqrt ((D.Dxb.mulVec (s (.fld (f .x))) i + D.Dyb.mulVec (s (.fld (f .y))) i +
    D.Dzb.mulVec (s (.fld (f .z))) i) ^ 2 * w i)

/-- The velocities, of which curl and divergence are taken in the seismic classes. -/
def seisVec : Axis → Fld
  | .x => .vX | .y => .vY | .z => .vZ

/-- The magnetic field, of which curl and divergence are taken in the electromagnetic classes. -/
def emVec : Axis → Fld
  | .x => .hX | .y => .hY | .z => .hZ

/-! ### `write` -/

/-- The fields that `snapType` 1 writes, in the order of the files. Wavefields2Dacoustic.cpp:76-79,
Wavefields2Delastic.cpp:64-67, Wavefields2Dviscoelastic.cpp:76-79, Wavefields2Dsh.cpp:62-64,
Wavefields2Dviscosh.cpp:72-74, Wavefields3Dacoustic.cpp:63-67, Wavefields3Delastic.cpp:68-72,
Wavefields3Dviscoelastic.cpp:86-90, Wavefields2Dtmem.cpp:70-73, Wavefields2Dviscotmem.cpp:70-73,
Wavefields2Demem.cpp:62-64, Wavefields2Dviscoemem.cpp:72-74, Wavefields3Demem.cpp:65-69,
Wavefields3Dviscoemem.cpp:77-81. -/
def motion : Kind → List Fld
  | .acoustic2D | .elastic2D | .viscoelastic2D => [.vX, .vY]
  | .sh2D | .viscosh2D => [.vZ]
  | .acoustic3D | .elastic3D | .viscoelastic3D => [.vX, .vY, .vZ]
  | .tmem2D | .viscotmem2D => [.hX, .hY]
  | .emem2D | .viscoemem2D => [.hZ]
  | .emem3D | .viscoemem3D => [.hX, .hY, .hZ]

/-- The fields that `snapType` 2 writes, in the order of the files (same functions, `case 2`). -/
def forces : Kind → List Fld
  | .acoustic2D | .acoustic3D => [.p]
  | .elastic2D | .viscoelastic2D => [.Sxx, .Syy, .Sxy]
  | .sh2D | .viscosh2D => [.Sxz, .Syz]
  | .elastic3D | .viscoelastic3D => [.Sxx, .Syy, .Szz, .Sxy, .Sxz, .Syz]
  | .tmem2D | .viscotmem2D => [.eZ]
  | .emem2D => [.eY, .eX]
  | .viscoemem2D => [.eX, .eY]
  | .emem3D | .viscoemem3D => [.eX, .eY, .eZ]

/-- The fields with relaxation functions, which `snapType` 2 writes after the others for each mechanism. -/
def relaxing : Kind → List Fld
  | .viscoelastic2D => [.Sxx, .Syy, .Sxy]
  | .viscosh2D => [.Sxz, .Syz]
  | .viscoelastic3D => [.Sxx, .Syy, .Szz, .Sxy, .Sxz, .Syz]
  | .viscotmem2D => [.eZ]
  | .viscoemem2D => [.eX, .eY]
  | .viscoemem3D => [.eX, .eY, .eZ]
  | _ => []

/-- `snapType` 3 is implemented (otherwise `case 3` throws). -/
def hasCurl : Kind → Bool
  | .elastic2D | .viscoelastic2D | .elastic3D | .viscoelastic3D
  | .tmem2D | .viscotmem2D | .emem3D | .viscoemem3D => true
  | _ => false

/-- The fields that are decomposed; the other classes have a `decompose` without effect
(Wavefields2Delastic.cpp:96-99 and the same in the other files). -/
def decomposed : Kind → List Fld
  | .acoustic2D => [.p, .vX, .vY]
  | .tmem2D => [.eZ]
  | _ => []

/-- Types 4 and 5: the whole fields (Wavefields2Dacoustic.cpp:87-89, 98-100; Wavefields2Dtmem.cpp:90, 95), then
the parts of each field. -/
def withParts (k : Kind) (a b : Way) : List View :=
  (decomposed k).map .fld ++ (decomposed k).flatMap fun f => [.part f a, .part f b]

/-- `write`: the vectors that are written, in the order of the files; `err` is an exception. The functions are
listed at `motion`; `case 0` exists for the 2D acoustic and TMEM classes only. -/
def write (k : Kind) (L : ℕ) (t : Int) : Out (List View) :=
  if t = 0 ∧ decomposed k ≠ [] then .ok []
  else if t = 1 then .ok ((motion k).map .fld)
  else if t = 2 then
    .ok ((forces k).map .fld ++ (List.range L).flatMap fun l => (relaxing k).map fun f => .rel f l)
  else if t = 3 ∧ hasCurl k = true then .ok [.curl, .div]
  else if t = 4 ∧ decomposed k ≠ [] then .ok (withParts k .up .down)
  else if t = 5 ∧ decomposed k ≠ [] then .ok (withParts k .left .right)
  else .err

/-! ### `decompose` -/

/-- `maxNorm()` of a vector. -/
noncomputable def maxNorm (v : ι → ℝ) : ℝ := ⨆ i, |v i|

/-- The energy flux `Poynting1`, Wavefields2Dacoustic.cpp:126-127, 184-185; Wavefields2Dtmem.cpp:115-116, 136-138. -/
def flux (k : Kind) (a : Axis) (s : State ι) (i : ι) : ℝ :=
  match k, a with
  | .acoustic2D, .y => -s (.fld .p) i * s (.fld .vY) i
  | .acoustic2D, _ => -s (.fld .p) i * s (.fld .vX) i
  | .tmem2D, .y => s (.fld .eZ) i * s (.fld .hX) i
  | .tmem2D, _ => s (.fld .eZ) i * s (.fld .hY) i * -1
  | _, _ => 0

/-- The second indicator, `Poynting2` before scaling: Wavefields2Dacoustic.cpp:130-133 and the same for the other
fields. `Dm` is `Dyf` or `Dxf`, `dot` the time derivative of the wavefields. -/
def slant (Dm : Matrix ι ι ℝ) (f : Fld) (s dot : State ι) (i : ι) : ℝ :=
  Dm.mulVec (s (.fld f)) i * dot (.fld f) i * -1

/-- `Poynting2 *= Poynting1.maxNorm() / Poynting2.maxNorm(); Poynting2 += Poynting1;`
Wavefields2Dacoustic.cpp:135-136. A division by zero (infinity or NaN in all entries) is `ub`. -/
noncomputable def indicator (p1 p2 : ι → ℝ) : Out (ι → ℝ) :=
  if maxNorm p2 = 0 then .ub else .ok fun i => p2 i * (maxNorm p1 / maxNorm p2) + p1 i

/-- `Pup` and `Pleft`: sign, minus 1, absolute value, sign, times the field. Wavefields2Dacoustic.cpp:138-142. -/
noncomputable def backPart (ind : ι → ℝ) (v : ι → ℝ) (i : ι) : ℝ := Real.sign |Real.sign (ind i) - 1| * v i

/-- `Pdown` and `Pright`: sign, plus 1, sign, times the field. Wavefields2Dacoustic.cpp:144-147. -/
noncomputable def forthPart (ind : ι → ℝ) (v : ι → ℝ) (i : ι) : ℝ := Real.sign (Real.sign (ind i) + 1) * v i

/-- The parts after `decompose`, Wavefields2Dacoustic.cpp:118-250, Wavefields2Dtmem.cpp:108-160. `old` are the parts
before the call. -/
noncomputable def decompose (k : Kind) (dec : Int) (D : Deriv ι) (s dot : State ι) (old : Fld → Way → Out (ι → ℝ))
    (f : Fld) (w : Way) : Out (ι → ℝ) :=
  if f ∈ decomposed k then
    match w with
    | .up => if dec = 1 then do let p ← indicator (flux k .y s) (slant D.Dyf f s dot); .ok (backPart p (s (.fld f)))
        else old f w
    | .down => if dec = 1 then do let p ← indicator (flux k .y s) (slant D.Dyf f s dot); .ok (forthPart p (s (.fld f)))
        else old f w
    | .left => if dec = 2 then do let p ← indicator (flux k .x s) (slant D.Dxf f s dot); .ok (backPart p (s (.fld f)))
        else old f w
    | .right => if dec = 2 then do let p ← indicator (flux k .x s) (slant D.Dxf f s dot); .ok (forthPart p (s (.fld f)))
        else old f w
  else old f w

/-- `*wavefieldsTemp -= *wavefields; *wavefieldsTemp *= -DTinv;` Simulation.cpp:458-459, 494-495. -/
noncomputable def timeDerivative (DT : ℝ) (before after : State ι) : State ι :=
  fun v i => (before v i - after v i) * -(1 / DT)

/-- The parts after `n` time steps, Simulation.cpp:457-461, 493-497 (run with `randInd` 0). `states n` are the
wavefields after `n` steps; the parts are zero after `init`. -/
noncomputable def partsAfter (k : Kind) (dec : Int) (D : Deriv ι) (DT : ℝ) (states : ℕ → State ι) :
    ℕ → Fld → Way → Out (ι → ℝ)
  | 0 => fun _ _ => .ok 0
  | n + 1 =>
    if dec ≠ 0 then
      decompose k dec D (states (n + 1)) (timeDerivative DT (states n) (states (n + 1))) (partsAfter k dec D DT states n)
    else partsAfter k dec D DT states n

/-- The value of a vector of a snapshot. `cw` and `dw` are the model vectors handed to `getCurl` and `getDiv`. -/
noncomputable def value (k : Kind) (D : Deriv ι) (cw dw : ι → ℝ) (s : State ι) (parts : Fld → Way → Out (ι → ℝ)) :
    View → Out (ι → ℝ)
  | .fld f => .ok (s (.fld f))
  | .rel f l => .ok (s (.rel f l))
  | .curl => .ok (match k with
    | .elastic2D | .viscoelastic2D => curl2D D seisVec cw s
    | .elastic3D | .viscoelastic3D => curl3D D seisVec cw s
    | .tmem2D | .viscotmem2D => curl2D D emVec cw s
    | _ => curl3D D emVec cw s)
  | .div => .ok (match k with
    | .elastic2D | .viscoelastic2D => div2D D seisVec dw s
    | .elastic3D | .viscoelastic3D => div3D D seisVec dw s
    | .tmem2D | .viscotmem2D => div2D D emVec dw s
    | _ => div3D D emVec dw s)
  | .part f w => parts f w

/-- The wavefields that `init` of the classes allocates (Wavefields2Dacoustic.cpp:7-22, Wavefields2Dtmem.cpp:30-38 and
`init` of the other classes): the fields, the relaxation functions and the four parts of each decomposed field. -/
def allocated (k : Kind) (L : ℕ) : List View :=
  (motion k ++ forces k).map .fld ++ ((List.range L).flatMap fun l => (relaxing k).map fun f => .rel f l) ++
    (decomposed k).flatMap fun f => [.part f .up, .part f .down, .part f .left, .part f .right]

/-- `numWavefields` in `estimateMemory`: Wavefields2Dacoustic.cpp:27-32, Wavefields2Delastic.cpp:40-45,
Wavefields2Dsh.cpp:38-43, Wavefields2Dviscoelastic.cpp:52-57, Wavefields2Dviscosh.cpp:48-53,
Wavefields3Dacoustic.cpp:39-44, Wavefields3Delastic.cpp:44-49, Wavefields3Dviscoelastic.cpp:62-67,
Wavefields2Demem.cpp:38-43, Wavefields2Dtmem.cpp:42-47, Wavefields2Dviscoemem.cpp:48-53,
Wavefields2Dviscotmem.cpp:46-51, Wavefields3Demem.cpp:41-46, Wavefields3Dviscoemem.cpp:53-58. -/
def numWavefields : Kind → ℕ → ℕ
  | .acoustic2D, _ => 3
  | .elastic2D, _ => 5
  | .sh2D, _ => 3
  | .viscoelastic2D, L => 5 + 3 * L
  | .viscosh2D, L => 3 + 2 * L
  | .acoustic3D, _ => 4
  | .elastic3D, _ => 9
  | .viscoelastic3D, L => 9 + 6 * L
  | .emem2D, _ => 3
  | .tmem2D, _ => 3
  | .viscoemem2D, L => 3 + 2 * L
  | .viscotmem2D, L => 3 + 1 * L
  | .emem3D, _ => 6
  | .viscoemem3D, L => 6 + 3 * L

/-! ### Compensation -/

/-- `getCompensation`, Modelparameter.cpp:126-143. -/
noncomputable def getCompensation (isSeismic : Bool) (sig eps : ι → ℝ) (DT : ℝ) (tStep : Int) : Out (ι → ℝ) :=
  if isSeismic then .err else .ok fun i => Real.exp (sig i / eps i * (tStep * DT))

/-- `*wavefields *= compensation` (`timesAssign` of the classes): all wavefields, not the CPML memory. -/
def timesAssign (fields : List Var) (κ : ι → ℝ) (s : State ι) : State ι :=
  fun v i => if v ∈ fields then s v i * κ i else s v i

/-- The time loop with compensation, Simulation.cpp:444-455, 480-491. -/
noncomputable def runCompensated [DecidableEq ι] (S : Solver ι) (srcs : List (Source ι)) (κ : ι → ℝ) (s : State ι) :
    ℕ → State ι
  | 0 => s
  | n + 1 => timesAssign S.fields κ (step S srcs n (runCompensated S srcs κ s n))

end Verif.Views
