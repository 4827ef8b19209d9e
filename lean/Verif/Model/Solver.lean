import Verif.Model.Outcome
import Verif.Model.Boundary
import Mathlib.Data.Matrix.Mul
import Mathlib.Data.Real.Basic
/-!
# Time stepping: the vector language of the forward solvers and the shot loop

The `run` functions of the forward solvers (`/repo/src/ForwardSolver/ForwardSolver*.cpp`,
`/repo/src/ForwardSolverEM/ForwardSolver*.cpp`) are straight-line sequences of LAMA vector
statements. They are modelled as lists of statements (`Stmt`) over named vectors, one statement per
statement of the source, with the LAMA semantics given by `Stmt.exec`. The solvers themselves are in
`SolverSeismic.lean` and `SolverEM.lean`.

`ι` is the set of grid points. Values are exact reals. Not modelled: the distribution of the
vectors over processes, rounding, overflow, and the snapshot output of the time loop. `scatter` with
`unique = true` is modelled as an exact sum over all sources, also for coinciding positions.
-/
set_option linter.dupNamespace false

namespace Verif.Solver
open Matrix

/-- The wavefield components (Wavefields/Wavefields.hpp, WavefieldsEM/WavefieldsEM.hpp). -/
inductive Fld
  | p | vX | vY | vZ | Sxx | Syy | Szz | Sxy | Sxz | Syz
  | hX | hY | hZ | eX | eY | eZ
  deriving DecidableEq, Repr

/-- The auxiliary vectors of the solver classes (`update`, `update_temp`, ... are members that keep
their value from one call of `run` to the next; `temp` belongs to the free surface classes). -/
inductive Scr
  | update | updateTemp | update2 | vxx | vyy | vzz | temp
  deriving DecidableEq, Repr

/-- Directions. -/
inductive Axis
  | x | y | z
  deriving DecidableEq, Repr

/-- Named vectors: wavefields, relaxation wavefields (`Rxx[l]` is `rel Sxx l`, `rX[l]` is
`rel eX l`), CPML memory variables (`psi_vxy` is `psi vX y`, `psi_sxy_x` is `psi Sxy x`) and
auxiliary vectors. -/
inductive Var
  | fld (f : Fld)
  | rel (f : Fld) (l : ℕ)
  | psi (f : Fld) (a : Axis)
  | scr (s : Scr)
  deriving DecidableEq, Repr

/-- Contents of all vectors. -/
abbrev State (ι : Type) := Var → ι → ℝ

/-- Assignment of one vector. -/
def State.set {ι : Type} (s : State ι) (d : Var) (v : ι → ℝ) : State ι :=
  fun x => if x = d then v else s x

/-- LAMA vector statements; `*` between vectors is elementwise. -/
inductive Stmt (ι : Type)
  /-- `d = D * s;` -/
  | mul (d : Var) (D : Matrix ι ι ℝ) (s : Var)
  /-- `d = s;` -/
  | copy (d s : Var)
  /-- `d = -s;` -/
  | neg (d s : Var)
  /-- `d = a + b;` -/
  | sum (d a b : Var)
  /-- `d = a - b;` -/
  | diff (d a b : Var)
  /-- `d += s;` -/
  | add (d s : Var)
  /-- `d -= s;` -/
  | sub (d s : Var)
  /-- `d += c * s;` -/
  | axpy (d : Var) (c : ℝ) (s : Var)
  /-- `d *= w;` with a vector that is not changed by the time stepping -/
  | scale (d : Var) (w : ι → ℝ)
  /-- `d *= c;` with a number -/
  | smul (d : Var) (c : ℝ)
  /-- `d = w * s;` (also `d = w; d *= s;`) -/
  | wmul (d : Var) (w : ι → ℝ) (s : Var)
  /-- `d = c * s;` with a number -/
  | cmul (d : Var) (c : ℝ) (s : Var)
  /-- `a.swap(b);` -/
  | swap (a b : Var)
  /-- `applyCPML(d, psi, a, b);` CPML.cpp:84-95 -/
  | cpml (d psi : Var) (a b : ι → ℝ)

variable {ι : Type} [Fintype ι]

/-- Effect of one statement. -/
noncomputable def Stmt.exec (st : Stmt ι) (s : State ι) : State ι :=
  match st with
  | .mul d D v => s.set d (D.mulVec (s v))
  | .copy d v => s.set d (s v)
  | .neg d v => s.set d (fun i => - s v i)
  | .sum d a b => s.set d (fun i => s a i + s b i)
  | .diff d a b => s.set d (fun i => s a i - s b i)
  | .add d v => s.set d (fun i => s d i + s v i)
  | .sub d v => s.set d (fun i => s d i - s v i)
  | .axpy d c v => s.set d (fun i => s d i + c * s v i)
  | .scale d w => s.set d (fun i => s d i * w i)
  | .smul d c => s.set d (fun i => s d i * c)
  | .wmul d w v => s.set d (fun i => w i * s v i)
  | .cmul d c v => s.set d (fun i => c * s v i)
  | .swap a b => (s.set a (s b)).set b (s a)
  | .cpml d ps a b =>
      (s.set d (fun i => (Boundary.applyCPML (a i) (b i) (s ps i) (s d i)).1)).set ps
        (fun i => (Boundary.applyCPML (a i) (b i) (s ps i) (s d i)).2)

/-- Effect of a sequence of statements. -/
noncomputable def exec (p : List (Stmt ι)) (s : State ι) : State ι :=
  p.foldl (fun s st => st.exec s) s

/-- `for (int l = 0; l < L; l++) { ... }` -/
def forLoop (L : ℕ) (body : ℕ → List (Stmt ι)) : List (Stmt ι) :=
  (List.range L).flatMap body

/-! ### Configuration of a solver -/

/-- Derivative and interpolation matrices handed to `run`, named as their getters in
Derivatives.cpp:1772-1997 (`DyfSX` is `getDyfStaggeredX()`, `FS` means `FreeSurface`). A missing
interpolation matrix is the null pointer. All matrices contain the factor `DT`. -/
structure Deriv (ι : Type) where
  Dxf : Matrix ι ι ℝ
  Dxb : Matrix ι ι ℝ
  Dyf : Matrix ι ι ℝ
  Dyb : Matrix ι ι ℝ
  Dzf : Matrix ι ι ℝ
  Dzb : Matrix ι ι ℝ
  DyfFS : Matrix ι ι ℝ
  DybFS : Matrix ι ι ℝ
  DyfSX : Matrix ι ι ℝ
  DybSX : Matrix ι ι ℝ
  DyfSZ : Matrix ι ι ℝ
  DybSZ : Matrix ι ι ℝ
  DybSXFS : Matrix ι ι ℝ
  DybSZFS : Matrix ι ι ℝ
  interFull : Option (Matrix ι ι ℝ)
  interSX : Option (Matrix ι ι ℝ)
  interSZ : Option (Matrix ι ι ℝ)
  interSXZ : Option (Matrix ι ι ℝ)

/-- What the getters return on a regular grid with `useFreeSurface = 0`: no interpolation
(the null pointers of Derivatives.cpp:1954-1997), the staggered getters fall back to
the plain matrices (Derivatives.cpp:1772-1990), and the backward matrices are the negative
transposes of the forward ones (FDTD2D.cpp:150-232, FDTD3D.cpp:220-345). -/
structure Deriv.regular (D : Deriv ι) : Prop where
  getters : D.interFull = none ∧ D.interSX = none ∧ D.interSZ = none ∧ D.interSXZ = none ∧
    D.DyfSX = D.Dyf ∧ D.DyfSZ = D.Dyf ∧ D.DybSX = D.Dyb ∧ D.DybSZ = D.Dyb
  adjX : D.Dxb = -D.Dxf.transpose
  adjY : D.Dyb = -D.Dyf.transpose
  adjZ : D.Dzb = -D.Dzf.transpose

/-- CPML coefficient vectors `a_x`, `b_x`, `a_x_half`, ... (CPML.hpp). -/
structure PML (ι : Type) where
  a : Axis → ι → ℝ
  b : Axis → ι → ℝ
  aHalf : Axis → ι → ℝ
  bHalf : Axis → ι → ℝ

/-- Boundary settings after `prepareBoundaries`, ForwardSolver.cpp:34-54. `onSurface` are the points
with `locatedOnSurface`. -/
structure BC (ι : Type) where
  useFreeSurface : ℕ
  damping : Option (ι → ℝ)
  pml : Option (PML ι)
  onSurface : ι → Bool

/-- Neither absorbing boundary nor free surface condition. -/
def BC.plain (c : BC ι) : Prop := c.useFreeSurface = 0 ∧ c.damping = none ∧ c.pml = none

/-- `setZeroFreeSurface`, FreeSurfaceAcoustic.cpp:22-33, FreeSurfaceElastic.cpp:72-84. -/
def BC.setZero (c : BC ι) (i : ι) : ℝ := if c.onSurface i then 0 else 1

/-- `selectFreeSurface`, FreeSurfaceElastic.cpp:72-84. -/
def BC.select (c : BC ι) (i : ι) : ℝ := if c.onSurface i then 1 else 0

/-- `if (useConvPML) ConvPML.apply_...(d);` with the coefficients of the full points. -/
def cpmlFull (c : BC ι) (d : Var) (f : Fld) (ax : Axis) : List (Stmt ι) :=
  match c.pml with
  | none => []
  | some q => [.cpml d (.psi f ax) (q.a ax) (q.b ax)]

/-- `if (useConvPML) ConvPML.apply_...(d);` with the coefficients of the half points. -/
def cpmlHalf (c : BC ι) (d : Var) (f : Fld) (ax : Axis) : List (Stmt ι) :=
  match c.pml with
  | none => []
  | some q => [.cpml d (.psi f ax) (q.aHalf ax) (q.bHalf ax)]

/-- `if (useDampingBoundary) DampingBoundary.apply(...);` ABS2D.cpp:21-57, ABS3D.cpp:21-75. -/
def damp (c : BC ι) (fs : List Fld) : List (Stmt ι) :=
  match c.damping with
  | none => []
  | some w => fs.map fun f => .scale (.fld f) w

/-- `if (D) { update_temp.swap(f); f = *D * update_temp; }` -/
def interp (D : Option (Matrix ι ι ℝ)) (f : Fld) : List (Stmt ι) :=
  match D with
  | none => []
  | some D => [.swap (.scr .updateTemp) (.fld f), .mul (.fld f) D (.scr .updateTemp)]

/-! ### Sources and receivers -/

/-- Seismogram types (Acquisition.hpp). -/
inductive SType
  | P | VX | VY | VZ | EX | EY | EZ | HZ
  deriving DecidableEq, Repr

/-- A forward solver: its time step and its coupling to sources and receivers. `src ty` are the
vectors a source of type `ty` is added to, `rec ty` the vectors a receiver reads together with the
factor applied to their sum; `none` if the method throws. `fields` are the vectors cleared by
`resetWavefields`, `memory` those cleared by `resetCPML`. `ready` is false if the time step uses a
vector that was never allocated (LAMA refuses to combine vectors of different sizes). -/
structure Solver (ι : Type) where
  prog : List (Stmt ι)
  src : SType → Option (List Fld)
  recv : SType → Option (ℝ × List Fld)
  fields : List Var
  memory : List Var
  ready : Bool

/-- A source: type, grid point, signal (one sample per time step). -/
structure Source (ι : Type) where
  ty : SType
  pos : ι
  signal : ℕ → ℝ

/-- A receiver. -/
structure Receiver (ι : Type) where
  ty : SType
  pos : ι

/-- Vectors a source acts on; none if the method throws (see `Shot.supported`). -/
def Solver.srcFlds (S : Solver ι) (ty : SType) : List Fld := (S.src ty).getD []

/-- `applySource`, SourceReceiverImplSeismic.cpp (applySource), SourceReceiverImpl.cpp
(applySourceSingle), FDTDacoustic.cpp, FDTD2Delastic.cpp, FDTD3Delastic.cpp
(applySourcePressure), SourceReceiverImplEM.cpp: add the samples of time step `t` at the source
positions. -/
noncomputable def applySource [DecidableEq ι] (S : Solver ι) (srcs : List (Source ι)) (t : ℕ)
    (s : State ι) : State ι :=
  fun v => match v with
    | .fld f => fun i => s (.fld f) i +
        (srcs.map fun q => if f ∈ S.srcFlds q.ty ∧ q.pos = i then q.signal t else 0).sum
    | v => s v

/-- `gatherSeismogram` for one receiver (same files). -/
noncomputable def gather (S : Solver ι) (r : Receiver ι) (s : State ι) : ℝ :=
  match S.recv r.ty with
  | none => 0
  | some (c, fs) => (fs.map fun f => s (.fld f) r.pos).sum * c

/-- One call of `run`: update the wavefields, add the sources (the seismogram is read
afterwards). -/
noncomputable def step [DecidableEq ι] (S : Solver ι) (srcs : List (Source ι)) (t : ℕ)
    (s : State ι) : State ι :=
  applySource S srcs t (exec S.prog s)

/-- State after `n` time steps, Simulation.cpp:444-512 without compensation and decomposition. -/
noncomputable def run [DecidableEq ι] (S : Solver ι) (srcs : List (Source ι)) (s : State ι) :
    ℕ → State ι
  | 0 => s
  | n + 1 => step S srcs n (run S srcs s n)

/-- Sample `t` of the seismogram of one receiver. -/
noncomputable def sample [DecidableEq ι] (S : Solver ι) (srcs : List (Source ι)) (s : State ι)
    (r : Receiver ι) (t : ℕ) : ℝ :=
  gather S r (run S srcs s (t + 1))

/-- Set the listed vectors to zero: `resetWavefields` (Wavefields2Dacoustic.cpp:255-260 and the
other wavefield classes), `resetCPML` (CPML2D.cpp:6-22 and the other CPML classes). -/
def clear (vs : List Var) (s : State ι) : State ι :=
  fun v => if v ∈ vs then 0 else s v

/-! ### The shot loop -/

/-- One shot: sources, receivers and number of time steps. -/
structure Shot (ι : Type) where
  sources : List (Source ι)
  receivers : List (Receiver ι)
  nt : ℕ

/-- No source or receiver of the shot has a type the solver refuses. -/
def Shot.supported (S : Solver ι) (sh : Shot ι) : Bool :=
  sh.sources.all (fun q => (S.src q.ty).isSome) && sh.receivers.all (fun r => (S.recv r.ty).isSome)

/-- Seismograms of a shot: one list of samples per receiver. -/
abbrev Gather := List (List ℝ)

/-- One pass of the shot loop, Simulation.cpp:432-514: `resetWavefields`, the time loop,
`resetCPML`. An unsupported source or receiver type, or a vector that was never allocated, throws in
the first time step. -/
noncomputable def runShot [DecidableEq ι] (S : Solver ι) (sh : Shot ι) (s : State ι) :
    Out (Gather × State ι) :=
  if sh.nt ≠ 0 ∧ (S.ready && sh.supported S) = false then .err
  else
    let s0 := clear S.fields s
    let g := sh.receivers.map fun r => (List.range sh.nt).map fun t => sample S sh.sources s0 r t
    .ok (g, clear S.memory (run S sh.sources s0 sh.nt))

/-- The shot loop, Simulation.cpp:337-: the shots one after the other on the same vectors. -/
noncomputable def runShots [DecidableEq ι] (S : Solver ι) (s : State ι) :
    List (Shot ι) → Out (List Gather)
  | [] => .ok []
  | sh :: rest => do
      let (g, s') ← runShot S sh s
      let gs ← runShots S s' rest
      return g :: gs

end Verif.Solver
