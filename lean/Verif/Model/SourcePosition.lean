import Mathlib.Analysis.Real.Sqrt
import Mathlib.Algebra.Order.Floor.Ring
import Verif.Model.Grid
import Verif.Model.Acquisition
import Verif.Model.SU
/-!
# The position of the source in the headers of the files of a shot

The coupling of sources and receivers
(`/repo/src/ForwardSolver/SourceReceiverImpl/SourceReceiverImplSeismic.cpp`, the same in
`/repo/src/ForwardSolverEM/SourceReceiverImpl/SourceReceiverImplEM.cpp`), the handlers of the
seismograms (`/repo/src/Acquisition/SeismogramHandler.cpp`, `Seismogram.cpp`) and the order of the
calls in the loop over the shots (`/repo/src/Simulation.cpp`).

Simplifications: only the numbers and coordinates of the traces are kept, not the samples; one
process; a shot has at least one time step (each step builds the coupling again with the same
arguments, ForwardSolver2Dacoustic.cpp:116); files of one shot are written in the SU format, not
as a profile over all shots.
-/
namespace Verif.SrcPos
open Verif.Grid

/-- Position and type of a source or receiver, AcquisitionSettings.hpp (`sourceSettings`,
`receiverSettings`). -/
structure Setting where
  pos : Coord
  type : Int
  deriving DecidableEq, Repr

/-- `coordinates1D` and `sourceCoordinate1D` of a seismogram, Seismogram.hpp:118-126. -/
structure Comp where
  traces : List Int
  src : Int
  deriving DecidableEq, Repr

/-- The types and 1-D coordinates of the traces, AcquisitionGeometry.hpp:76-103 (`setAcquisition`). -/
def indices (g : Grid) : List Setting → Out (List (Int × Int))
  | [] => .ok []
  | s :: ss => do
    let i ← coordinate2index g s.pos
    let r ← indices g ss
    .ok ((s.type, i) :: r)

/-- The handler of the seismograms after `init`, Sources.cpp:14-46 and Receivers.cpp:14-32:
`resetSeismograms` clears the traces and sets the source coordinate to zero
(Seismogram.cpp:935-941), `initSeismogramHandler` sorts the traces by their types
(AcquisitionGeometry.cpp:19-80). -/
def initHandler (ts : List (Int × Int)) : Out (List Comp) := do
  let (a, b, c, d) ← Acq.sortTraces ts
  .ok [⟨a, 0⟩, ⟨b, 0⟩, ⟨c, 0⟩, ⟨d, 0⟩]

/-- `getNumTracesTotal`, SeismogramHandler.cpp:200-207. -/
def numTracesTotal (h : List Comp) : Nat := (h.map fun c => c.traces.length).sum

/-- `setSourceCoordinate`, SeismogramHandler.cpp:340-345 and Seismogram.cpp:561-565. -/
def setSourceCoordinate (h : List Comp) (i : Int) : List Comp := h.map fun c => { c with src := i }

/-- Constructor of the coupling, SourceReceiverImplSeismic.cpp:11-27 and
SourceReceiverImplEM.cpp:11-27. `coords` are the 1-D coordinates of the sources in the order of the
acquisition. -/
def couple (coords : List Int) (sources receivers : List Comp) : Out (List Comp) :=
  if numTracesTotal sources = 1 then
    match coords with
    | [] => .ub
    | i :: _ => .ok (setSourceCoordinate receivers i)
  else .ok (setSourceCoordinate receivers 0)

/-- Positions in the headers of a written file: its component, the source of all traces, the
receiver of each. -/
structure File where
  comp : Nat
  src : Coord
  traces : List Coord
  deriving DecidableEq, Repr

/-- The positions of the traces, SUIO.hpp:218-219. -/
def positions (g : Grid) : List Int → Out (List Coord)
  | [] => .ok []
  | i :: is => do
    let c ← index2coordinate g i
    let r ← positions g is
    .ok (c :: r)

/-- `write` of a handler in the SU format: the components with traces, Seismogram.cpp:94-122, with
the source of SUIO.hpp:205-212. The first component has number `k`. -/
def writeFiles (g : Grid) : Nat → List Comp → Out (List File)
  | _, [] => .ok []
  | k, c :: cs =>
    if c.traces = [] then writeFiles g (k + 1) cs
    else do
      let s ← index2coordinate g c.src
      let t ← positions g c.traces
      let r ← writeFiles g (k + 1) cs
      .ok (⟨k, s, t⟩ :: r)

/-- A shot: its sources, and its receivers unless they are the same for all shots
(`useReceiversPerShot` zero). -/
structure Shot where
  sources : List Setting
  receivers : Option (List Setting)

/-- The outcome of a shot: the handler of the receivers afterwards, the files of the source signals
and of the seismograms. -/
structure Result where
  receivers : List Comp
  sourceFiles : List File
  seismoFiles : List File

/-- The loop over the shots, Simulation.cpp:383 (sources), 410-416 (source signals), 418-420
(receivers), 452/488 (time steps), 531 (seismograms). -/
def shot (g : Grid) (receivers : List Comp) (s : Shot) : Out Result := do
  let st ← indices g s.sources
  let hs ← initHandler st
  let sf ← writeFiles g 0 hs
  let hr ← (match s.receivers with
    | none => .ok receivers
    | some rs => do
      let rt ← indices g rs
      initHandler rt : Out (List Comp))
  let hr' ← couple (st.map Prod.snd) hs hr
  let rf ← writeFiles g 0 hr'
  .ok ⟨hr', sf, rf⟩

/-- All shots in turn, Simulation.cpp:367-560. -/
def shots (g : Grid) : List Comp → List Shot → Out (List Result)
  | _, [] => .ok []
  | r, s :: ss => do
    let o ← shot g r s
    let os ← shots g o.receivers ss
    .ok (o :: os)

/-- The position as an argument of the SU header. -/
def toSU (c : Coord) : SU.Coord := ⟨c.x, c.y, c.z⟩

/-- The `offset` field of the header, SUIO.hpp:231, evaluated exactly; `round` of a number that is
not negative. -/
noncomputable def offset (DH : ℝ) (src rcv : Coord) : Int :=
  ⌊Real.sqrt ((src.x * DH - rcv.x * DH) * (src.x * DH - rcv.x * DH) +
      (src.y * DH - rcv.y * DH) * (src.y * DH - rcv.y * DH) +
      (src.z * DH - rcv.z * DH) * (src.z * DH - rcv.z * DH)) * 1000 + 1 / 2⌋

end Verif.SrcPos
