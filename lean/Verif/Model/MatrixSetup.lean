import Verif.Model.Outcome
import Verif.Model.SolverEM

/-!
# Which derivative matrices exist

Model of the life cycle of the matrices inside `Derivatives`: `setup` reads the configuration and
refuses some combinations, `init` builds matrices, the free surface part of `init` builds further ones
and purges others, and the getters hand one of the stored matrices to the solver. A purged or never
built LAMA matrix has 0 rows; multiplying it with a vector of another size is a run time error.

What is not modelled here: the entries of the matrices (see `Verif.Model.RegularDeriv`), the
distribution over processes, variable FD operators.
-/

namespace Verif.MatSetup
open Verif Verif.Solver

/-- The pairs (dimension, equationType) for which the factory returns a solver,
ForwardSolverFactory.cpp:5-66. -/
inductive Kind
  | acoustic2D | elastic2D | viscoelastic2D | sh2D | viscosh2D
  | acoustic3D | elastic3D | viscoelastic3D
  | tmem2D | emem2D | viscotmem2D | viscoemem2D | emem3D | viscoemem3D
  deriving DecidableEq, Repr

/-- `dimension` is "3d": `DerivativesFactory.cpp:10-26` returns FDTD3D, otherwise FDTD2D. -/
def Kind.threeD : Kind → Bool
  | .acoustic3D | .elastic3D | .viscoelastic3D | .emem3D | .viscoemem3D => true
  | _ => false

/-- `isElastic`, Derivatives.cpp:17-21. -/
def Kind.isElastic : Kind → Bool
  | .sh2D | .viscosh2D | .elastic2D | .elastic3D | .viscoelastic2D | .viscoelastic3D => true
  | _ => false

/-- The keys read by Simulation.cpp:128-150 and `Derivatives::setup`, Derivatives.cpp:12-56. -/
structure Cfg where
  kind : Kind
  freeSurface : ℕ
  useVariableGrid : Bool
  partitioning : ℤ
  useStencilMatrix : Bool
  useHybridFreeSurface : Bool
  useVariableFDoperators : Bool

/-- The checks on the way to `init`: the partitioning switch of Simulation.cpp:133-150, then
`Derivatives::setup`, Derivatives.cpp:27-52. `SCAI_ASSERT` and exceptions stop the program. -/
def Cfg.accepted (g : Cfg) : Bool :=
  (g.partitioning == 0 || g.partitioning == 2 || g.partitioning == 3 ||
    (g.partitioning == 1 && !g.useVariableGrid)) &&
  !(g.partitioning != 1 && g.useStencilMatrix) &&
  !(!g.useStencilMatrix && g.useHybridFreeSurface) &&
  !(g.useStencilMatrix && g.useVariableFDoperators)

/-- The six plain derivatives. -/
inductive Base
  | Dxf | Dyf | Dzf | Dxb | Dyb | Dzb
  deriving DecidableEq, Repr

/-- The matrix members of the class, Derivatives.hpp:226-262. The hybrid matrices are views on a sparse
and a stencil member, they own nothing. -/
inductive Member
  | stencil (b : Base)
  | sparse (b : Base)
  | DyfStaggeredX | DybStaggeredX | DyfStaggeredZ | DybStaggeredZ
  | DyfFreeSurfaceSparse | DyfFreeSurfaceStencil
  | DybFreeSurfaceSparse | DybFreeSurfaceStencil
  | DybStaggeredXFreeSurface | DybStaggeredZFreeSurface
  | interFull | interStaggeredX | interStaggeredZ | interStaggeredXZ
  deriving DecidableEq, Repr

/-- Which members have rows (`getNumRows() > 0`). -/
abbrev Held := Member → Bool

/-- `define`, `fillFromAssembly` or assignment of a transpose: the members `l` now have rows. -/
def build (l : List Member) (h : Held) : Held := fun m => if m ∈ l then true else h m

/-- `purge()` -/
def purge (l : List Member) (h : Held) : Held := fun m => if m ∈ l then false else h m

/-- A freshly constructed object. -/
def fresh : Held := fun _ => false

/-- `getDyf()` as an lvalue, Derivatives.cpp:1848-1856. -/
def dyfMember (g : Cfg) : Member := if g.useStencilMatrix then .stencil .Dyf else .sparse .Dyf

/-- `calcDyfFreeSurface`, Derivatives.cpp:367-440. -/
def calcDyfFreeSurface (g : Cfg) (h : Held) : Held :=
  build (.DyfFreeSurfaceSparse :: if g.useHybridFreeSurface then [.DyfFreeSurfaceStencil] else []) h

/-- `calcDybFreeSurface`, Derivatives.cpp:448-523. -/
def calcDybFreeSurface (g : Cfg) (h : Held) : Held :=
  build (.DybFreeSurfaceSparse :: if g.useHybridFreeSurface then [.DybFreeSurfaceStencil] else []) h

/-- `getGraph` for the partitioners 2 and 3 before `init` (Simulation.cpp:194-208),
FDTD2D.cpp:290-315, FDTD3D.cpp:347-374: builds the backward matrices if they are missing and purges
them at the end. -/
def getGraph (g : Cfg) (h : Held) : Held :=
  let l : List Member := [.sparse .Dxb, .sparse .Dyb] ++ if g.kind.threeD then [.sparse .Dzb] else []
  purge l (build l h)

/-- `FDTD2D::initializeMatrices`, FDTD2D.cpp:156-186 (stencil) and 194-234 (sparse). -/
def initialize2D (g : Cfg) (h : Held) : Held :=
  if g.useStencilMatrix then
    build [.stencil .Dxf, .stencil .Dyf, .stencil .Dxb, .stencil .Dyb] h
  else
    let h := build [.sparse .Dxf, .sparse .Dyf, .sparse .Dxb, .sparse .Dyb] h
    let h := if g.kind.isElastic && g.useVariableGrid then build [.DyfStaggeredX, .DybStaggeredX] h else h
    if g.useVariableGrid then build [.interFull, .interStaggeredX] h else h

/-- `FDTD2D::initializeFreeSurfaceMatrices`, FDTD2D.cpp:243-270. -/
def freeSurface2D (g : Cfg) (h : Held) : Held :=
  let h := calcDyfFreeSurface g h
  if g.kind.isElastic then
    if !g.useVariableGrid then calcDybFreeSurface g h
    else purge [.DybStaggeredX, .sparse .Dyf] (build [.DybStaggeredXFreeSurface] h)
  else purge [dyfMember g] h

/-- `FDTD3D::initializeMatrices`, FDTD3D.cpp:183-221 (stencil) and 230-301 (sparse). -/
def initialize3D (g : Cfg) (h : Held) : Held :=
  if g.useStencilMatrix then
    build [.stencil .Dxf, .stencil .Dyf, .stencil .Dzf, .stencil .Dxb, .stencil .Dyb, .stencil .Dzb] h
  else
    let h := build [.sparse .Dxf, .sparse .Dzf, .sparse .Dxb, .sparse .Dyb, .sparse .Dzb] h
    let h := if !(g.freeSurface == 1 && g.useVariableGrid) then build [.sparse .Dyf] h else h
    let h := if g.kind.isElastic && g.useVariableGrid then
        let h := build [.DyfStaggeredX, .DyfStaggeredZ] h
        if g.freeSurface != 1 then build [.DybStaggeredX, .DybStaggeredZ] h else h
      else h
    if g.useVariableGrid then
      let h := build [.interFull, .interStaggeredX, .interStaggeredZ] h
      if g.kind.isElastic then build [.interStaggeredXZ] h else h
    else h

/-- `FDTD3D::initializeFreeSurfaceMatrices`, FDTD3D.cpp:312-343. -/
def freeSurface3D (g : Cfg) (h : Held) : Held :=
  let h := calcDyfFreeSurface g h
  if g.kind.isElastic then
    if !g.useVariableGrid then calcDybFreeSurface g h
    else build [.DybStaggeredXFreeSurface, .DybStaggeredZFreeSurface] h
  else purge [dyfMember g] h

/-- From the freshly constructed object to the first time step: the graph for the partitioner
(Simulation.cpp:194-208), then `init` (FDTD2D.cpp:50-60, FDTD3D.cpp:52-62; Simulation.cpp:223). -/
def prepare (g : Cfg) : Held :=
  let h := if g.partitioning == 2 || g.partitioning == 3 then getGraph g fresh else fresh
  let h := if g.kind.threeD then initialize3D g h else initialize2D g h
  if g.freeSurface == 1 then (if g.kind.threeD then freeSurface3D g h else freeSurface2D g h) else h

/-- The contents of the members. -/
abbrev Store (ι : Type) := Member → Matrix ι ι ℝ

variable {ι : Type}

/-- The plain getters, Derivatives.cpp:1836-1950. `getDzf` and `getDzb` of FDTD2D throw
(FDTD2D.cpp:273-286); here they return the (never built) members. -/
def plain (g : Cfg) (s : Store ι) (b : Base) : Matrix ι ι ℝ :=
  if g.useStencilMatrix then s (.stencil b) else s (.sparse b)

/-- `getDyfFreeSurface`, Derivatives.cpp:1816-1834; a hybrid matrix is the sum of its parts. -/
def dyfFree (g : Cfg) (s : Store ι) : Matrix ι ι ℝ :=
  if !g.useHybridFreeSurface then s .DyfFreeSurfaceSparse
  else s .DyfFreeSurfaceSparse + s .DyfFreeSurfaceStencil

/-- `getDybFreeSurface`, Derivatives.cpp:1771-1788. -/
def dybFree (g : Cfg) (s : Store ι) : Matrix ι ι ℝ :=
  if !g.useHybridFreeSurface then s .DybFreeSurfaceSparse
  else s .DybFreeSurfaceSparse + s .DybFreeSurfaceStencil

/-- `(isElastic) && (useVarGrid)` of the staggered getters. -/
def staggered (g : Cfg) (a b : Matrix ι ι ℝ) : Matrix ι ι ℝ :=
  if g.kind.isElastic && g.useVariableGrid then a else b

/-- The interpolation getters, Derivatives.cpp:1954-1997: a null pointer for a matrix without rows. -/
def inter (h : Held) (s : Store ι) (m : Member) : Option (Matrix ι ι ℝ) :=
  if h m then some (s m) else none

/-- What the getters return to the solver, Derivatives.cpp:1771-1997. -/
def getters (g : Cfg) (s : Store ι) : Deriv ι where
  Dxf := plain g s .Dxf
  Dxb := plain g s .Dxb
  Dyf := plain g s .Dyf
  Dyb := plain g s .Dyb
  Dzf := plain g s .Dzf
  Dzb := plain g s .Dzb
  DyfFS := dyfFree g s
  DybFS := dybFree g s
  DyfSX := staggered g (s .DyfStaggeredX) (plain g s .Dyf)
  DybSX := staggered g (s .DybStaggeredX) (plain g s .Dyb)
  DyfSZ := staggered g (s .DyfStaggeredZ) (plain g s .Dyf)
  DybSZ := staggered g (s .DybStaggeredZ) (plain g s .Dyb)
  DybSXFS := staggered g (s .DybStaggeredXFreeSurface) (dybFree g s)
  DybSZFS := staggered g (s .DybStaggeredZFreeSurface) (dybFree g s)
  interFull := inter (prepare g) s .interFull
  interSX := inter (prepare g) s .interStaggeredX
  interSZ := inter (prepare g) s .interStaggeredZ
  interSXZ := inter (prepare g) s .interStaggeredXZ

/-- The solver of the factory, ForwardSolverFactory.cpp:5-66. -/
noncomputable def Kind.solver (k : Kind) (D : Deriv ι) (m : Solver.Mod ι) (e : EMod ι) (c : BC ι) : Solver ι :=
  match k with
  | .acoustic2D => acoustic2DSolver D m c
  | .elastic2D => elastic2DSolver D m c
  | .viscoelastic2D => viscoelastic2DSolver D m c
  | .sh2D => sh2DSolver D m c
  | .viscosh2D => viscosh2DSolver D m c
  | .acoustic3D => acoustic3DSolver D m c
  | .elastic3D => elastic3DSolver D m c
  | .viscoelastic3D => viscoelastic3DSolver D m c
  | .tmem2D => tmem2DSolver D e c
  | .emem2D => emem2DSolver D e c
  | .viscotmem2D => viscotmem2DSolver D e c
  | .viscoemem2D => viscoemem2DSolver D e c
  | .emem3D => emem3DSolver D e c
  | .viscoemem3D => viscoemem3DSolver D e c

/-- `getNumDMatrices`, FDTD2D.cpp:107-116, FDTD3D.cpp:119-137. -/
def numDMatrices (g : Cfg) : ℕ :=
  if g.kind.threeD then
    6 + (if g.useVariableGrid && g.kind.isElastic then 4 else 0) +
      (if g.freeSurface == 1 && g.kind.isElastic && !g.useVariableGrid then 2 else 0)
  else
    4 + (if (g.useVariableGrid || g.freeSurface == 1) && g.kind.isElastic then 2 else 0)

/-- `getNumInterpMatrices`, FDTD2D.cpp:118-128, FDTD3D.cpp:139-153. -/
def numInterpMatrices (g : Cfg) : ℕ :=
  if g.kind.threeD then
    (if g.useVariableGrid then 3 + (if g.kind.isElastic then 1 else 0) else 0)
  else
    (if g.useVariableGrid then 2 else 0)

end Verif.MatSetup
