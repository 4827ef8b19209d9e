import Verif.Model.Outcome
import Mathlib.Data.Real.Basic

/-!
# Copies and arithmetic of seismograms

The copy constructor, `swap`, the assignment and the operators of `/repo/src/Acquisition/Seismogram.cpp`. Values are real numbers.
The operands have the same distribution of traces; the matrix operations of LAMA reject operands of different sizes. The second
index type (`seismoTypeEM`), `outputDT`, `resampleMat`, `outputInstantaneous`, `frequencyAGC`, `isSeismic`, `offsets`, `refTraces`
and `filenameBase` are treated as `DT` in the code and stand for it here.
-/
namespace Verif.SeisArith
open Verif

/-- The members, Seismogram.hpp:121-145. `ns` is the number of columns of `data`. -/
structure Seis where
  DT : ℝ
  type : Int
  coordinates : List Int
  source : Int
  ns : ℕ
  data : List (List ℝ)
  inverseAGC : List (List ℝ)
  cop : List (List ℝ) := []
  inverseAGCCOP : List (List ℝ) := []
  decode : List (List (List ℝ)) := []
  shotInd : Int := 0
  shotIndIncr : Int := 0
  useAGC : Bool := true

/-- The copy constructor, Seismogram.cpp:13-31. Members that it leaves out have the initial values of the header. -/
def copy (r : Seis) : Seis :=
  { DT := r.DT, type := r.type, coordinates := r.coordinates, source := r.source, ns := r.ns, data := r.data,
    inverseAGC := r.inverseAGC }

/-- `swap`, Seismogram.cpp:38-56. -/
def swap (a b : Seis) : Seis × Seis :=
  ({ a with
      DT := b.DT, type := b.type, coordinates := b.coordinates, source := b.source, ns := b.ns, data := b.data,
      inverseAGC := b.inverseAGC },
   { b with
      DT := a.DT, type := a.type, coordinates := a.coordinates, source := a.source, ns := a.ns, data := a.data,
      inverseAGC := a.inverseAGC })

/-- `operator=`, Seismogram.cpp:1182-1191. -/
def assign (a b : Seis) : Seis := (swap a (copy b)).1

/-- Element by element, for matrices of the same size. -/
def elementwise (f : ℝ → ℝ → ℝ) (a b : Seis) : Out Seis :=
  if a.data.length = b.data.length ∧ a.ns = b.ns then .ok { a with data := List.zipWith (List.zipWith f) a.data b.data } else .err

/-- `operator+=`, Seismogram.cpp:1145-1151. -/
def addAssign (a b : Seis) : Out Seis := elementwise (· + ·) a b

/-- `operator-=`, Seismogram.cpp:1170-1176. -/
def subAssign (a b : Seis) : Out Seis := elementwise (· - ·) a b

/-- `operator*=` with a seismogram, Seismogram.cpp:1099-1105. -/
def mulAssign (a b : Seis) : Out Seis := elementwise (· * ·) a b

/-- `operator*=` with a number, Seismogram.cpp:1087-1093. -/
def scaleAssign (a : Seis) (c : ℝ) : Seis := { a with data := a.data.map fun r => r.map fun x => x * c }

/-- `operator*=` with a vector, Seismogram.cpp:1111-1126: a vector with as many elements as there are traces scales the traces,
otherwise it has to fit to the samples. -/
def scaleVector (a : Seis) (v : List ℝ) : Out Seis :=
  if 0 < a.data.length * a.ns then
    if a.data.length = v.length then .ok { a with data := List.zipWith (fun (r : List ℝ) c => r.map fun x => c * x) a.data v }
    else if a.ns = v.length then .ok { a with data := a.data.map fun r => List.zipWith (fun x c => x * c) r v }
    else .err
  else .ok a

/-- `operator+`, Seismogram.cpp:1132-1139. -/
def add (a b : Seis) : Out Seis := addAssign (copy a) b

/-- `operator-`, Seismogram.cpp:1157-1164. -/
def sub (a b : Seis) : Out Seis := subAssign (copy a) b

end Verif.SeisArith
