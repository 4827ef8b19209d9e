import Verif.Model.WavefieldViews

/-!
# Arithmetic of wavefield objects

`Wavefields` and its fourteen concrete classes. An object holds the vectors of its class (`motion`, `forces`), the
directional parts of the 2D acoustic and TMEM classes (`decomposed`), the relaxation functions of the attenuating classes
(`relaxing`) and the number of relaxation mechanisms. Both operands are of the same class `k` (in the simulation they come
from the same factory with the same arguments, Simulation.cpp:327). Vectors that do not belong to the class are not
modelled; reading or writing a `std::vector` out of its range is `ub`.
-/
set_option linter.dupNamespace false

namespace Verif.Wave
open Verif Verif.Solver Verif.Views Verif.MatSetup

variable {ι κ : Type}

/-- A wavefield object, Wavefields.hpp:100-155: `L` is `numRelaxationMechanisms`, `rel` the vectors `Rxx`, ..., `RX`, ... -/
structure Obj (ι : Type) where
  L : ℕ
  fld : Fld → ι → ℝ
  part : Fld → Way → ι → ℝ
  rel : Fld → List (ι → ℝ)

/-- A default constructed object: all vectors of relaxation functions are empty and `numRelaxationMechanisms` is 0,
Wavefields.hpp:155. -/
def Obj.default : Obj ι := ⟨0, fun _ => 0, fun _ _ => 0, fun _ => []⟩

/-- `init` of the classes (Wavefields2Dviscoelastic.cpp:30-50 and the same in the other files): all vectors are allocated
and set to zero, the vectors of relaxation functions get `numRelaxationMechanisms_in` entries. -/
def init (k : Kind) (L : ℕ) : Obj ι where
  L := if relaxing k = [] then 0 else L
  fld _ := 0
  part _ _ := 0
  rel f := if f ∈ relaxing k then List.replicate L 0 else []

/-- The loops `for (int l=0; l<numRelaxationMechanisms; l++) R[l] = op(R[l], rhs.getRefR()[l])` over all relaxation
functions of the class. -/
def relLoop (k : Kind) (n : ℕ) (op : (κ → ℝ) → (ι → ℝ) → κ → ℝ) (dst : Fld → List (κ → ℝ)) (src : Fld → List (ι → ℝ)) :
    Out (Fld → List (κ → ℝ)) :=
  if ∀ f ∈ relaxing k, n ≤ (dst f).length ∧ n ≤ (src f).length then
    .ok fun f => if f ∈ relaxing k then List.zipWith op ((dst f).take n) ((src f).take n) ++ (dst f).drop n else dst f
  else .ub

/-- All components, one after the other: the statements `VX op= rhs.getRefVX(); ...` followed by the loops over the
relaxation functions. -/
def forAll (k : Kind) (op : (κ → ℝ) → (ι → ℝ) → κ → ℝ) (a : Obj κ) (b : Obj ι) : Out (Obj κ) := do
  let r ← relLoop k a.L op a.rel b.rel
  .ok { L := a.L
        fld := fun f => if f ∈ motion k ++ forces k then op (a.fld f) (b.fld f) else a.fld f
        part := fun f w => if f ∈ decomposed k then op (a.part f w) (b.part f w) else a.part f w
        rel := r }

/-- `assign`, called by `operator=` of the base class (Wavefields.cpp:54-59): Wavefields2Dacoustic.cpp:470-487,
Wavefields2Delastic.cpp:318-325, Wavefields2Dsh.cpp:280-285, Wavefields2Dviscoelastic.cpp:331-341 (the other classes alike).
The vectors of relaxation functions are copied as a whole, `numRelaxationMechanisms` is not. -/
def assign (k : Kind) (a b : Obj ι) : Obj ι where
  L := a.L
  fld f := if f ∈ motion k ++ forces k then b.fld f else a.fld f
  part f w := if f ∈ decomposed k then b.part f w else a.part f w
  rel f := if f ∈ relaxing k then b.rel f else a.rel f

/-- `minusAssign`, called by `operator-=` (Wavefields.cpp:66-71): Wavefields2Dacoustic.cpp:494-511,
Wavefields2Dviscoelastic.cpp:348-360, Wavefields3Dviscoelastic.cpp:329-348 (the other classes alike). -/
def minusAssign (k : Kind) (a b : Obj ι) : Out (Obj ι) := forAll k (fun x y i => x i - y i) a b

/-- `plusAssign`, called by `operator+=` (Wavefields.cpp:78-83): Wavefields2Dacoustic.cpp:518-535,
Wavefields2Dviscoelastic.cpp:367-379, Wavefields3Dviscoelastic.cpp:355-374 (the other classes alike). -/
def plusAssign (k : Kind) (a b : Obj ι) : Out (Obj ι) := forAll k (fun x y i => x i + y i) a b

/-- `timesAssign` of a scalar, called by `operator*=` of the base class (Wavefields.cpp:90-95):
Wavefields2Dacoustic.cpp:542-559, Wavefields3Dviscoelastic.cpp:381-401 (the other classes alike). -/
def timesScalar (k : Kind) (r : ℝ) (a : Obj ι) : Out (Obj ι) := forAll k (fun x _ i => x i * r) a a

/-- `timesAssign` of a vector, called by `operator*=` of the base class (Wavefields.cpp:97-102):
Wavefields2Dacoustic.cpp:566-583, Wavefields3Dviscoelastic.cpp:408-428 (the other classes alike). -/
def timesVector (k : Kind) (v : ι → ℝ) (a : Obj ι) : Out (Obj ι) := forAll k (fun x _ i => x i * v i) a a

/-- `applyTransform`: Wavefields2Dacoustic.cpp:590-607, Wavefields3Dviscoelastic.cpp:434-453 (the other classes alike). -/
def applyTransform [Fintype ι] (k : Kind) (M : Matrix κ ι ℝ) (a : Obj κ) (b : Obj ι) : Out (Obj κ) :=
  forAll k (fun _ y => M.mulVec y) a b

/-- `resetWavefields`: Wavefields2Dacoustic.cpp:255-260, Wavefields2Dtmem.cpp:166-171, Wavefields2Dviscoelastic.cpp:121-133
(the other classes alike). The directional parts are not reset. -/
def reset (k : Kind) (a : Obj ι) : Out (Obj ι) := do
  let r ← relLoop k a.L (fun _ _ _ => 0) a.rel a.rel
  .ok { a with fld := fun f => if f ∈ motion k ++ forces k then 0 else a.fld f
               rel := r }

/-- `operator*` of the concrete classes with a scalar: Wavefields2Dacoustic.cpp:387-407, Wavefields2Dviscoelastic.cpp:254-270,
Wavefields2Dviscosh.cpp:224-236, Wavefields3Dviscoelastic.cpp:232-246, Wavefields2Dviscoemem.cpp:165-177,
Wavefields2Dviscotmem.cpp:213-224, Wavefields3Dviscoemem.cpp:201-217 (the other classes alike). The result is default
constructed; its vectors of relaxation functions are indexed without being resized, in the 3D viscoelastic class they are left
out. -/
def product (k : Kind) (r : ℝ) (a : Obj ι) : Out (Obj ι) := do
  let R ← if k = .viscoelastic3D then .ok fun _ => [] else
    relLoop k a.L (fun _ y i => y i * r) (Obj.default (ι := ι)).rel a.rel
  .ok { L := (Obj.default (ι := ι)).L
        fld := fun f => if f ∈ motion k ++ forces k then fun i => a.fld f i * r else 0
        part := fun f w => if f ∈ decomposed k then fun i => a.part f w i * r else 0
        rel := R }

/-- `operator*=` of the concrete classes with a scalar, `return rhs * *this;`: the value returned and the object after the
call. Wavefields2Dacoustic.cpp:424-427, Wavefields2Delastic.cpp:282-285, Wavefields3Dviscoelastic.cpp:264-267 (the other
classes alike). -/
def timesClass (k : Kind) (r : ℝ) (a : Obj ι) : Out (Obj ι × Obj ι) := do
  let p ← product k r a
  .ok (p, a)

/-- The wavefields in the state of the time stepping; everything else (memory of CPML, auxiliary vectors) is that of `s`. -/
def Obj.put (o : Obj ι) (s : State ι) : State ι
  | .fld f => o.fld f
  | .rel f l => (o.rel f).getD l 0
  | v => s v

/-- The statements of the time loop around a time step, Simulation.cpp:450-459, 486-495: `*wavefieldsTemp = *wavefields;`,
the time step from `before` to `after`, `*wavefieldsTemp -= *wavefields; *wavefieldsTemp *= -DTinv;`. `wavefieldsTemp` is
created by the factory and never initialised (Simulation.cpp:327), in later time steps `temp` is what the last step left. -/
noncomputable def derivativeStep (k : Kind) (DT : ℝ) (temp before after : Obj ι) : Out (Obj ι) := do
  let t ← minusAssign k (assign k temp before) after
  timesScalar k (-(1 / DT)) t

/-- `isFinite` of the seismic classes, WavefieldsSeismic.cpp:12-39: the entry in the middle of the local part of `VX` and of
`VZ`, if the vector is allocated. `own` are the points of the process in the order of their local index, `fin` tells whether
a value is finite. -/
def isFiniteSeismic (k : Kind) (own : List ι) (fin : Fld → ι → Bool) : Bool :=
  [Fld.vX, Fld.vZ].all fun f =>
    if f ∈ motion k ++ forces k then (own[own.length / 2]?).all (fin f) else true

/-- `isFinite` of the electromagnetic classes, WavefieldsEM.cpp:12-40: all local entries of `EX` and `EZ`. -/
def isFiniteEM (k : Kind) (own : List ι) (fin : Fld → ι → Bool) : Bool :=
  [Fld.eX, Fld.eZ].all fun f => if f ∈ motion k ++ forces k then own.all (fin f) else true

/-- The classes derived from `WavefieldsSeismic` (the others from `WavefieldsEM`), see the headers of the classes. -/
def isSeismic : Kind → Bool
  | .acoustic2D | .elastic2D | .viscoelastic2D | .sh2D | .viscosh2D | .acoustic3D | .elastic3D | .viscoelastic3D => true
  | _ => false

/-- The check after the time loop of a shot, Simulation.cpp:519: `commShot->all(wavefields->isFinite(dist))`; one list of
points for each process. -/
def checkShot (k : Kind) (own : List (List ι)) (fin : Fld → ι → Bool) : Bool :=
  own.all fun o => if isSeismic k then isFiniteSeismic k o fin else isFiniteEM k o fin

end Verif.Wave
