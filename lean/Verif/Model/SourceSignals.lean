import Verif.Model.Acquisition
import Verif.Model.Signal
/-!
# Signals of the sources: `Sources::init`, `generateSignals`, `generateSyntheticSignal`, `readSignalFromFile`,
`copySignalsToSeismogramHandler`

`/repo/src/Acquisition/Sources.cpp:14-48, 99-250, 354-387`.

A signal is a function of the sample number, `none` if its samples are not numbers. Left out: SU files (they
take the trace with the number of the row), the conversion between number types, and the distribution of the
signal matrix apart from the question which process owns a source.
-/
namespace Verif.Acq

/-- A source with its signal parameters and the process that owns its grid point. -/
structure SigSource extends Source where
  shape : Int
  fc : ℝ
  amplitude : ℝ
  tShift : ℝ
  owner : ℕ

/-- `generateSyntheticSignal`, Sources.cpp:157-220. -/
noncomputable def synthetic (NT : Int) (DT : ℝ) (s : SigSource) : Out (Option (ℕ → ℝ)) :=
  let lift : Out (ℕ → ℝ) → Out (Option (ℕ → ℝ)) := fun x => do let f ← x; .ok (some f)
  if s.shape = 1 then lift (Signal.ricker NT DT s.fc s.amplitude s.tShift)
  else if s.shape = 2 then lift (Signal.sinW NT DT s.fc s.amplitude s.tShift)
  else if s.shape = 3 then lift (Signal.sinThree NT DT s.fc s.amplitude s.tShift)
  else if s.shape = 4 then lift (Signal.fgaussian NT DT s.fc s.amplitude s.tShift)
  else if s.shape = 5 then lift (Signal.spike NT DT s.amplitude s.tShift)
  else if s.shape = 6 then lift (Signal.intgSinThree NT DT s.fc s.amplitude s.tShift)
  else if s.shape = 7 then lift (Signal.rickerGprMax NT DT s.fc s.amplitude s.tShift)
  else if s.shape = 8 then Signal.berlage NT DT s.fc s.amplitude s.tShift
  else if s.shape = 9 then lift (Signal.sine NT DT s.fc s.amplitude s.tShift)
  else .err

/-- `readSignalFromFile`, Sources.cpp:231-250, with `readMatrix`, IO.hpp:172-195: one row of the file. LAMA
rejects a row that is not in the file; a row of another length than the signal is not checked for. -/
def readSignal (file : List (List ℝ)) (NT : Int) (row : Int) : Out (Option (ℕ → ℝ)) :=
  if row < 0 then .err
  else match file[row.toNat]? with
    | none => .err
    | some r => if (r.length : Int) = NT then .ok (some fun i => r.getD i 0) else .ub

/-- `wavelet_type_flag_2`, `wavelet_type_flag_3` of one process, Sources.hpp:81-82. -/
structure Flags where
  two : Bool := false
  three : Bool := false

/-- One source in the loop of `generateSignals`, Sources.cpp:118-144, with the flags of its process. The flags
are set before they are compared. -/
noncomputable def genSignal (file : List (List ℝ)) (NT : Int) (DT : ℝ) (fl : Flags) (s : SigSource) :
    Out (Flags × Option (ℕ → ℝ)) :=
  if s.waveletType = 1 then do
    let x ← synthetic NT DT s
    .ok (fl, x)
  else if s.waveletType = 2 then
    if fl.three then .err
    else do
      let x ← readSignal file NT 0
      .ok ({ fl with two := true }, x)
  else if s.waveletType = 3 then
    if fl.two then .err
    else do
      let x ← readSignal file NT s.row
      .ok ({ fl with three := true }, x)
  else .err

/-- The factor of `copySignalsToSeismogramHandler`, Sources.cpp:366-370, applied to a signal. -/
def signed (s : SigSource) (x : Option (ℕ → ℝ)) : Option (ℕ → ℝ) := x.map fun f i => signalFactor s.toSource * f i

/-- The sources of one shot. Each process goes through its own sources with its own flags, which has the same
effect as going through all of them; an exception of one process ends the run. -/
noncomputable def shotSignals (file : List (List ℝ)) (NT : Int) (DT : ℝ) :
    (ℕ → Flags) → List SigSource → Out ((ℕ → Flags) × List (Option (ℕ → ℝ)))
  | fl, [] => .ok (fl, [])
  | fl, s :: ss => do
    let (f, x) ← genSignal file NT DT (fl s.owner) s
    let (fl', xs) ← shotSignals file NT DT (Function.update fl s.owner f) ss
    .ok (fl', signed s x :: xs)

/-- The shots of a run one after the other with the same object, Simulation.cpp:236, 383: the flags are kept. -/
noncomputable def runSignals (file : List (List ℝ)) (NT : Int) (DT : ℝ) :
    (ℕ → Flags) → List (List SigSource) → Out (List (List (Option (ℕ → ℝ))))
  | _, [] => .ok []
  | fl, shot :: shots => do
    let (fl', xs) ← shotSignals file NT DT fl shot
    let rest ← runSignals file NT DT fl' shots
    .ok (xs :: rest)

end Verif.Acq
