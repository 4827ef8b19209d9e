# WAVE-Simulation: a machine-checked model

Source: `/repo` (WAVE-Toolbox/WAVE-Simulation at a pinned commit), read as text.
Formalisation: Lean 4.33.0 with Mathlib, in `lean/`. Nothing of the C++ is run.

## Trusted base

* The Lean 4 kernel, and the axioms `propext`, `Classical.choice`, `Quot.sound`
  (every property theorem depends on a subset of these; no own axioms, no `sorry`,
  no `native_decide`, no `bv_decide`). `#print axioms` was run on every theorem listed
  in MANIFEST.json. Concrete witnesses use `decide` or `decide +kernel`, which the
  kernel evaluates without extra axioms.
* The reading of the C++ text. Every model definition cites the file and lines it
  follows and names its simplifications.
* Number types. `IndexType` (a 32 bit `int`) is modelled by `Int`/`Nat` without
  overflow unless a definition says otherwise (`unsigned short` in SU headers is
  modelled with wrap-around). `ValueType` (`float`/`double`) is modelled by exact
  rationals or reals: rounding, NaN and infinities are not modelled unless a
  definition says so (`isFinite` models non-finite values as a separate value).
* LAMA (the matrix library), MPI, file systems and `std::` containers are modelled by
  their documented contracts: dense vectors as functions or lists, sparse matrices as
  lists of (row, column, value) triples or linear maps, `fillFromAssembly` as
  entry-wise sum of the pushed triples, `push` order irrelevant. `fft` and `ifft` are the exact sums with
  `exp(-2 pi i j k / n)` and `exp(2 pi i j k / n)` without factors.
* Undefined behaviour (out-of-bounds access, reading uninitialised memory, division by
  zero) is a separate outcome of the model (`Out.ub`), as are thrown exceptions /
  failed asserts (`Out.err`).

## Layout

* `Verif/Model/*.lean` – models, one file per area, each definition with its citation.
* `Verif/Lemmas/*.lean` – helper lemmas.
* `Verif/Props/*.lean` – the property theorems with their specification vocabulary and private
  helpers, each theorem with an `example` showing a
  concrete non-trivial case that meets the hypotheses (labelled as such).
* `MANIFEST.json` – property → theorem names. `seeded/LOG.jsonl` – mutation tests.

Naming: theorem names start with the property id (`C03_...`). `_partial`: proved for
less than the property claims (the comment says what is missing). `_violated`: the
unchanged code breaks the property; the theorem is the negation with a concrete
witness, and a `_partial` theorem states what does hold.

## Properties: model and proof method

| id | modelled | method |
|----|----------|--------|
| C01, C02 | regular index arithmetic, bounds asserts | `Int`/`Nat` division algebra, all sizes |
| C03, C04 | layered index map (loop over layers), constructor loops | induction over layers; constructor establishes the layer invariant |
| C05 | decrement loops of the constructor as well-founded/fuelled recursion | invariants of the loops, existence/maximality of the fitting size |
| C06 | layer lookup returning `numLayers` when nothing matches → `Out.ub` | counterexample (violated) + characterisation of the safe coordinates |
| C07 | min per axis | arithmetic |
| C75, C76 | layer, interface and distance queries, checks on grid configurations | induction over layers with increasing interfaces |
| C08–C11, C74 | line parser over `List Char`, association map + insertion order | refinement to a function map by induction over operations; C09, C11 and C74 violated for special lines |
| C12 | rank → domain | division algebra, counting |
| C13 | check with C++ integer division of the order factors | violated (witness for order ≥ 4) + partial for order 2 |
| C14 | vector loops | list induction |
| C15 | resampling triples | rational arithmetic |
| C16 | next power of two, padding | violated for nt = 2^k+1 + partial |
| C17 | unwrap loop over reals | induction with invariant |
| C18, C19 | selection of the k smallest elements by swaps | loop invariants, permutation argument; even sizes → uninitialised (violated) |
| C20–C24 | row construction with the order-reduction loop | case analysis of the loop, finite coefficient table lifted by lemmas |
| C25 | image method rows | sum reindexing |
| C26, C70 | rows of the interpolation matrices on layered grids | structure theorem for the constructor, induction over layers, rational arithmetic |
| C77 | seismic model parameters with their caches and dirty flags, all public operations | invariant over operation sequences |
| C78–C80 | thresholds, finiteness, relaxed moduli | case analysis of clips and masks; complex arithmetic with sums |
| C81 | EM model parameters with their caches and dirty flags, all public operations | invariant over operation sequences |
| C82–C85 | effective and static EM values, files, homogeneous models, thresholds | complex response of the relaxation sums; algebra of the 2×2 conversion; case analysis of clips |
| C86, C87 | meshing and shrink matrices as one entry per row, model objects as named vectors | grid round trips C01, C04, C05 per row; list algebra |
| C88 | loop that places the shot windows | induction over sources with the block structure of supershots |
| C89–C91 | petrophysical transformations of one point, IEEE special values with one unsigned zero | closed form of the root of the quadratic equation; algebra of Gassmann's formula |
| C92, C93 | Archie's law and the refractive index mixing rule of one point | real powers and square roots; static and effective values as in C83 |
| C94 | the stencil matrices of a regular grid (`Model/RegularDeriv.lean`) in the solver models of C68/C69; discrete energy of C68/C69 bounded below by the sum of squares through row and column sums of the matrices (Schur test), for variable parameters; elastic waves through the identity of strain energy, divergence and curl | `Props/Stability.lean`; partial: elastic waves with variable shear modulus only below the limit divided by √2; not modelled: variable grids, absorbing boundaries, free surface, sources. `Props/Growth.lean`: the limit is sharp (a mode of the grid with the largest eigenvalue, found through the Rayleigh quotient of the checkerboard field, grows geometrically), hence runs accepted with order ≥ 4 blow up: violated |
| C95 | the viscoelastic solvers of C28 as springs parallel to Maxwell elements: anelastic stress = −relaxation time × memory wavefield | exact energy balance by induction over the steps, `Props/Visco.lean`; the loop over the mechanisms by induction on L (`Lemmas/Visco.lean`) |
| C96 | as C94 with the moduli M(1+Lτ); energy of parallel springs bounds the energy of the total stress | `Props/ViscoStability.lean`, partial as C94 for P-SV and 3D; sharp for SH with one mechanism, and violated for accepted runs (`Props/Growth.lean`, growth factor by the intermediate value theorem) |
| C97 | pairs of solvers of C28 on two states in parallel (`Rz`: shared vectors equal, relaxation wavefields zero) | simulation relation preserved by every segment of the two programs (`Lemmas/Sim.lean`, `Lemmas/SimEM.lean`), then induction over time steps and shots, `Props/Compare.lean`. Violated for 2D viscoelastic with FreeSurface=2 |
| C98 | elastic and acoustic solvers in parallel (`Fluid2D`, `Fluid3D`: normal stresses = pressure, shear stresses and their CPML memory zero, pressure zero on a free surface) | as C97, `Lemmas/SimFluid.lean`, `Props/Compare.lean` |
| C99 | the solvers of C28 on a regular grid, the CPML coefficient vectors of a regular grid (`Model/RegularPML.lean`) | abstract staggered scheme as a matrix over power series in the time shift; the CPML is a coordinate stretching there, the transposed scheme is the scheme up to diagonal weights (`Lemmas/Recip.lean`); each solver is shown to be such a scheme (`Lemmas/RecipSolver*.lean`), `Props/Reciprocity.lean`; relaxation mechanisms are an additional power series per component and mechanism (`Lemmas/RecipRelax*.lean`, `Props/ReciprocityVisco.lean`). Partial for 3D EM with CPML and for explosions at points that relax |
| C100 | the operations of C77 and C81 | computation on the operation sequences, `Props/ModelArith.lean` |
| C101 | `writeRockMatrixParameter` (`Model/RockFiles.lean`) | algebra; violated for the P-wave velocity, `Props/ModelArith.lean` |
| C102 | the free surface parts of the elastic and viscoelastic solvers of C28 | symbolic execution of one step, induction over the mechanisms, `Props/FreeSurface.lean` |
| C103 | the solvers of C28 on a regular grid, with the free surface matrices (`Model/RegularDeriv.lean`) | two runs on nested grids, a program logic that tracks the staggered position of every vector (`Lemmas/Locality.lean`, `LocalitySolvers.lean`), reach of the stencils (`LocalityGrid.lean`), induction over time, `Props/Locality.lean` |
| C104, C105 | life cycle of the matrix members: checks, `getGraph`, `init`, purging, getters (`Model/MatrixSetup.lean`), connected to the solvers of C28 | all accepted configurations by cases; the solver as a function of the stored matrices is unchanged if matrices that are not held are exchanged; the exceptions are characterised exactly, `Props/MatrixSetup.lean` |
| C106 | the solver programs of C28 with the regular-grid matrices and CPML coefficients | specification from the positions inside a cell and sums over axes (`centred`, `slope`, `ElasticStep`, `MaxwellStep`, …); proved through a table of rows for each solver (`Lemmas/LeapfrogSolvers.lean`), `Props/Leapfrog.lean`; the attenuating solvers against the implicit (centred in time) equations of the relaxation variables, through the complete description of their steps used for C99, `Props/LeapfrogVisco.lean`. Missing: free surface rows, variable grids |
| C107 | the same | a relabelling of points, fields and axes maps the tables onto each other, hence all states and seismograms (`Lemmas/Relabel.lean`, `Lemmas/AxisExchange.lean`), `Props/AxisExchange.lean`. Attenuating solvers: a permutation of the components with signs maps the abstract schemes with relaxation of C99 onto each other (`Lemmas/AxisExchangeR.lean`, `AxisExchangeRS.lean`), `Props/AxisExchangeVisco.lean`. Missing: attenuating media below a free surface |
| C108–C111 | `Filter` (init, calc, apply) with the Fourier transforms of the library as exact sums, `Model/Spectral.lean` | coefficients through the transform = product polynomial (no aliasing), factorisation of `y^n + 1`, orthogonality, Parseval (`Lemmas/Spectral.lean`, `Lemmas/Butterworth.lean`), `Props/FrequencyFilter.lean`; C111 is violated by every filter |
| C112–C114 | `HilbertFFT`, `calcEnvelope`, `calcInstantaneousPhase`, `calcInstantaneousPhaseResidual` | Hermitian spectra; convexity of the squared norm in the number of cycles, loops with fuel, `Props/Hilbert.lean`; C113 is violated |
| C115–C117 | `calcIdealFilt` and both paths of `apply` | `Props/IdealFilter.lean`; C116 and C117 are violated |
| C118 | `getCurl`, `getDiv`, elastic and acoustic solvers, `Model/WavefieldViews.lean` | discrete vector calculus: the derivative matrices of different axes commute, so div and curl of the force of Hooke's law are those of potentials (`Lemmas/Potential.lean`, `Lemmas/PotentialRun.lean`), induction over time steps, `Props/SnapshotViews.lean` |
| C119, C120 | `run` of the six electromagnetic solvers, `getDiv` | one time step at a point off the absorbing boundaries is Faraday's and Ampère's law, with CPML or damping anywhere else (`Lemmas/MaxwellLocal.lean`, `Lemmas/MaxwellLaws.lean`); div curl = 0 for the derivative matrices; induction, `Props/DivergenceLocal.lean`, `Props/Divergence.lean`; the snapshot part of C119 is violated |
| C121 | `decompose` of the 2D acoustic and TMEM classes, `Model/WavefieldViews.lean` | case analysis on the signs of the indicators, `Props/Decomposition.lean`; first time step and remote influence are violated |
| C122 | `getCurl`, `getDiv`, `decompose` with the getters of `Model/MatrixSetup.lean` | equality of the results for all contents of the matrices that were not set up, `Props/SnapshotMatrices.lean`; violated with free surface in the cases listed there |
| C123, C124 | `write`, `estimateMemory`, `init` of the fourteen wavefield classes | correspondence of the files with the vectors of the fourteen solvers, `Props/WavefieldFiles.lean` |
| C125 | `getCompensation`, `timesAssign`, time loop with compensation | linearity and data flow of the solvers, induction over time steps, `Props/Compensation.lean` |
| C126, C127 | `encode`, `decode` of the receivers (multi-offset data, no frequency filter), `Model/Encoding.lean` | loop invariants by induction over the receivers (`Lemmas/Encoding.lean`), induction over the members, `Props/Encoding.lean`; violated with several receiver types and with shared receivers |
| C128 | `write` of a supershot and of its decoded members | composition of the above, `Props/Encoding.lean`; violated for SU output and for resampled output |
| C129, C130 | `getModelPerShotSize` without source encoding, `shiftChecked` | bounds of running extremes by induction, `Props/PerShotSize.lean`; C129 violated from 20 sources on, C130 violated without streaming |
| C131 | the attenuating solvers of `Model/SolverSeismic.lean`, `Model/SolverEM.lean` and the responses of C80, C82 | amplitudes of harmonic sequences (`Lemmas/Harmonic.lean`) put into the step equations of C106, limit of the time step, `Props/Response.lean`; shear relaxation strength as in C106 |
| C132–C134 | `Model/Thinning.lean`: `shotInds` with fuel, `none` if it runs out; sources on a line in x or y | invariant of the loop (`ThinState`), position within half a step of the place wanted, `Props/Thinning.lean`; non-termination by showing that a state repeats |
| C135, C136 | `Model/SourceSignals.lean`: the loop over the sources of all shots with the flags of each process | induction over sources and shots; formulas of C64; simulation between two distributions, `Props/SourceSignals.lean` |
| C137 | the solvers of C28 with the free surface matrices of a regular grid (`surfaceDeriv`) | the abstract staggered scheme of C99 with half a cell of mass on the surface and the exchanged modulus there (`Lemmas/RecipSurface*.lean`); for order 2 the free surface matrices are the plain ones with a row cut or doubled (`Lemmas/SurfaceOrder2.lean`), `Props/ReciprocitySurface.lean`; for order 4 three points whose responses no factors can balance |
| C138 | the solvers of C28 with the free surface matrices of a regular grid, no absorbing boundary | explicit one-step formulas (`Lemmas/EnergySurface.lean`); the energy identity of C68 with half a cell of mass on the surface (`Props/EnergySurface.lean`); partial: order 2 |
| C139 | as C138 | the energy of C138 is bounded below by the sum of squares through a weighted Schur test (`Props/StabilitySurface.lean`); partial: order 2, 2D and 3D elastic below the limit divided by √2 as in C94 (`Props/StabilitySurface3D.lean`). Order 4: violated; the operator of a 2×3 grid has an eigenvalue that is not real (sign of a symmetric function of the roots), hence a mode grows for every time step (`Lemmas/ComplexMode.lean`, `Props/UnstableSurface.lean`) |
| C140 | operators of the base class and of the fourteen wavefield classes, `resetWavefields`, `applyTransform`, the temporary object of the time loop, `Model/WavefieldArith.lean`. Both operands of the same class; vectors outside of the class are not modelled; an exception in the middle is not modelled | component by component over the list of allocated vectors (C124), then linearity and data flow of the solvers for the seismograms, `Props/WavefieldArith.lean`; `operator*` and `operator*=` of the concrete classes, objects with different numbers of mechanisms and the reset of the directional parts are violated |
| C141 | `isFinite` of the wavefields and its use after the time loop. Values are finite or not; how infinite values spread is not modelled | `Props/WavefieldArith.lean`: no false alarm; only one point of `VX` and `VZ` per process (seismic), `EX` and `EZ` (electromagnetic) are looked at |
| C142 | `HilbertFIR::calcHilbertCoefficient` and both `hilbert`, `Model/HilbertFIR.lean`; NaN is undefined, real numbers | closed form of the kernel by induction over the loop, comparison of the loop with the convolution sum term by term, addition theorems, `Props/HilbertFIR.lean`; the ends of the trace, odd kernel sizes and the last sample are violated |
| C143 | `getShrinkVector`, `Model/ShotWeights.lean`; the writes to the vector in their order, exact sines | every point by the last write to it, addition theorem for neighbouring windows, `Props/ShotWeights.lean`; 3D, windows not over the full depth and overlapping borders are violated |
| C144 | `getVmin`, `Model/MinVelocity.lean`; distributed vectors as lists | least element of the velocities above one, `Props/MinVelocity.lean`; elastic models with fluids and models below 1 m/s are violated |
| C145 | `calcReflectivity` of all model classes, `Model/Reflectivity.lean`; regular grids only, NaN and infinity as `none`, on the derivative matrix of `Model/RegularDeriv.lean` | rows of the derivative and average matrices over the reals, `Props/Reflectivity.lean`; orders above 2, edges, fluids, permeability and thin models are violated |
| C146 | `Weights`, `Model/NodeWeights.lean`; exact values, the prices of single operations and the numbers of vector operations are taken as given | counts of the statements in the programs of all solvers, positions in the frame on regular grids and by the CPML coefficients on variable ones, `Props/NodeWeights.lean`; four electromagnetic solvers are violated |
| C147 | `allocateCOP`, `setShotInd`, `write`, `sumShotDomain`, `assignCOP` and the shot loop, `Model/Profile.lean`; one round, the processes of a domain as one object | invariant over the shots of a domain, sum over the domains, `Props/Profile.lean`; shots of several components and supershots are violated |
| C148 | the tool `TwoLayer` and the files that the simulation reads, `Model/TwoLayer.lean`; a file is a list of values | layout of the grid vector against the index of the coordinates, `Props/TwoLayer.lean`; viscosh, electromagnetic equations and capital letters are violated |
| C149 | `estimateMemory` of the damping frame and the CPML and the coefficients that `init` stores, `Model/BoundaryMemory.lean`; a distribution is a list of owned indices per process | counted points against stored coefficients, and vectors per axis against the corrections in the programs of the solvers, `Props/BoundaryMemory.lean`; SH, electromagnetic equations and small frames are violated |
| C150 | `write` and `read` of a seismogram and of all components, with matrix and SU files on a disk of named files, `Model/SeismogramFile.lean` | file names of components differ, so that writing in turn keeps each file; SU by C46; `Props/SeismogramFile.lean`; SU profiles, resampled output and names with `.shot` are violated |
| C151 | the factories as tables, null pointers as undefined behaviour when used, and the string comparisons of the checks before the first time step, `Model/Factory.lean` | all strings split by their lower case form, `Props/Factory.lean`; planar equations in 3D and spellings in the checks are violated |
| C152, C153 | the matrix entries pushed by each process, products as sums over entries, and the three coordinate vectors as lists of pairs; a distribution is a list of index lists that is a permutation of all indices, `Model/Reorder.lean` | round trips C01 and C03, the y-fastest order as C01 of the permuted grid, `Props/Reorder.lean` |
| C154 | the two files as lists of characters, `std::setw` as padding on the left, `Model/ShotFiles.lean` | round trip through an independent reader, by induction over lines and fields, `Props/ShotFiles.lean`; violated for encoding of ten thousand shots |
| C155 | transfer functions of C108 | factors `1 + c s + s²` with `c > 0` from the sine between 0 and π, `Props/FilterPoles.lean` |
| C156 | copy constructor, swap, operators of `Seismogram` | sample by sample, `Props/SeismogramArith.lean`; partial: factors for samples with as many traces as samples, profiles of copies |
| C157 | `getShotDomain`, the two splits of the communicator, the check of the number of shots, the block of shots of each process | counting of processes, `Props/ShotDomains.lean`; partial: domains of equal size in the same order. `Communicator::split` and `blockDistribution` by their contracts |
| C158 | `write` and `init` from files of the five seismic models, a disk as a map from names to vectors | names are injective (two dots), folds over the files, `Props/SeismicFiles.lean`. Conversion of numbers to text or float is not modelled |
| C159 | `init(config, ...)` of the seismic model classes, with the files of C158 and the meshing of C86 | cases of the settings, `Props/ModelRead.lean`; partial: variable grids for the acoustic and elastic equations with `UseVariableGrid` 0 or 1 |
| C160 | `getGraph` with the rows of the backward matrices at all points, regular grids | entries of stencils of different orders do not cancel, `Props/PartitionGraph.lean`; partial: forward derivatives except at the ends of the axes |
| C161 | `calcSourceSettingsEncode` for a gradient in the frequency domain, random numbers as an arbitrary list, exact frequencies | invariants of the loops over shots and supershots, `Props/ShotFrequencies.lean`; partial: lists of supershots with fewer shots than others |
| C162 | sizes in `Coordinates::init`, `gridPartition` and `gridPartitionInversion`, exact quotients, regular grids; order of points in a `Grid3D` as contract of LAMA; width for the shots an integer (as computed, C129) in `C162_fits`, `C162_reduced` and `C162_accept` | `Props/GridDistribution.lean` |
| C163 | source coordinate of the handlers through `init`, the coupling and `write`, over all shots; regular grids, one process, no profiles, `Model/SourcePosition.lean` | sequence of shots by induction; bytes by C47; `Props/SourcePosition.lean`; several sources at one point and the files of source signals are violated |
| C164 | characters written by `writeSourceFC`; opening the file, its name and the digits of a floating-point number are not modelled, `Model/FrequencyFile.lean` | induction over rows and fields against a reader of words, for every text of numbers of at most 13 characters without white space; `Props/FrequencyFile.lean`; without encoding only the first shot is listed |
| C165 | names of the records and of the inputs (text files, marks; not SU files) for one configured name, `Model/RecordNames.lean` | names split at dots, texts of integers are injective; sequences of writes by induction; `Props/RecordNames.lean`; names with different configured names are not compared |
| C166 | characters written by `writeRandomShotNosToFile` over any sequence of calls; the name of the file is not modelled, `Model/RandomShots.lean` | induction over calls and fields against a reader of words (`Lemmas/TextRows.lean`); `Props/RandomShots.lean`; shot numbers of four digits run together |
| C71–C73 | rows of the six averaging matrices, averages of parameters and shear modulus | convexity of rows, lookup theorems C03/C04, case analysis of corners |
| C27–C29, C32, C67–C69 | the fourteen solvers as statement lists over abstract linear derivative operators | induction over statements and time steps, adjointness of the derivative pairs, inner-product algebra |
| C30, C31, C66 | damping profiles over ℝ, CPML coefficients | monotonicity of exp; induction over time for CPML memory |
| C33–C37, C57 | list functions; random streams as explicit input | list induction, counting |
| C38–C41, C56 | filters over owner functions and mark tables | list lemmas |
| C42–C45, C60, C61 | trace loops, flags of the seismogram object, common offset profile | loop invariants over ℚ/ℝ |
| C46–C48, C62, C63 | byte layout as list of floats/headers, header rounding, file-name parsing | round-trip by induction |
| C49 | condition in time loop | arithmetic; increment 0 is undefined behaviour |
| C50, C51, C64, C65 | signal generators over ℝ | case analysis of the index window, real analysis bounds |
| C52 | sort by type | list induction |
| C53 | constructor of layered grids | concrete witness (violated); C03/C04 prove the positive part |
| C54, C55 | reduction over processes and layers, acquisition check | list induction, case analysis |
| C58 | acquisition file reader over characters | induction over lines and fields |
| C59 | 1-D median filter call | counterexample |

## What is not modelled

* Floating point rounding, overflow of `int` other than where stated, memory exhaustion.
* MPI communication beyond the reductions named in C54, and the partitioning tools.
* The sparse matrix formats and kernels of LAMA, hardware back ends, `hybrid`/sparse format choice.
* Inversion-only code (gradients, wavefield compression) and command line tools other than those cited.
* In the solver models the derivative matrices are abstract linear operators. Their entries are
  modelled in `Model/Stencil.lean` and `Model/Interpolation.lean`.

## Disagreements between code and properties

Each point is a theorem (name in brackets) about the model of the unchanged code.

* Grid: an in-range coordinate between two layers is looked up out of bounds [C06_gap_violated]. Layers thinner than their
  spacing are accepted and give negative sizes and duplicate coordinates [C53_thin_layer_violated].
* Configuration: a comment line containing `=` in the right place changes a value [C09_comment_violated]. A 2-D
  configuration can keep NZ > 1 [C11_2D_violated]. String values are cut at the first blank, and a blank before `=` hides the
  parameter [C74_blank_violated].
* Stability check: the order factors are integer divisions, so for orders 4–12 the bound is too large and accepted time
  steps grow without bound [C13_courant_violated, C13_blow_up_violated].
* Padding for the Fourier transform is one sample short for lengths 2^k + 1 [C16_padding_violated].
* Median filter: even windows compare uninitialised values [C19_even_size_violated]; the 1-D filter ignores the window
  length [C59_window_length_violated].
* Derivative matrices: in coarse layers the last rows can be empty [C24_coarse_edge_violated, C24_last_row_empty].
* Interpolation: negative weights at the left edge for staggered fields [C26_staggered_violated]; weights of sum 2/3 behind
  the last coarse column [C70_edge_violated]; staggered fields are not interpolated linearly between coarse layers
  [C70_coarse_staggered_violated] and are smeared between layers of equal factor [C70_equal_factor_violated].
* Averaging: with a thin fine layer between coarse ones the averages in depth run off the list of layers
  [C71_thin_layer_violated]; at a fine to coarse interface fine points are averaged with points of another column and with
  neighbours three points away [C72_interface_violated].
* Model parameters: initialising a seismic model a second time leaves the moduli of the first model in use
  [C77_reinit_violated]; the S modulus of fluids and vacuum reads 1 after the preparation [C77_fluid_modulus_violated];
  thresholds replace the P velocity of water in elastic models by the lower threshold [C78_fluid_violated] and do not
  guarantee the Vp/Vs ratio [C78_ratio_violated]; vacuum in SH models gives an infinite inverse density
  [C79_sh_vacuum_violated].
* EM model parameters: a second initialisation leaves the old velocity and averages in use [C81_reinit_violated]; files do
  not reproduce a model whose effective permittivity is below that of vacuum [C83_roundtrip_violated]; homogeneous
  dispersive models take the configuration values as static, files as effective values [C84_homogeneous_violated]; with a
  lower permittivity threshold of one a second application of the thresholds removes the conductivity of raised points
  [C85_idempotent_violated]; with relaxation the effective permittivity can exceed the upper threshold
  [C85_visco_bounds_violated].
* Other grids: visco-TMEM models on variable grids keep tau vectors of the size of the regular grid [C86_tau_violated];
  the model of a shot never has relaxation mechanisms, so viscous shots of a stream configuration are simulated without
  attenuation [C87_relaxation_violated].
* Petrophysics: `4 / 3 * mu` is an integer division in elastic and viscoelastic models, so P-wave moduli from porosity and
  saturation are `K + mu` [C91_p_modulus_violated]; both directions share the mistake, so round trips hold [C89_roundtrip_partial]. From
  the critical porosity on the shear velocity is lost [C89_critical_violated]. EM: a negative refractive index of the matrix is
  squared [C92_unexplained_violated], the conductivity of dry points is lost [C92_dry_violated], and equal indices set the
  porosity to zero [C93_equal_index_violated].
* Stability check with attenuation: `checkStabilityCriterion` receives the velocities of the model file, which belong to the
  reference frequency, but a time step has to resolve the unrelaxed velocity, which is larger by √((1+Lτ)/(1+sτ)), s the
  relaxation sum at the reference frequency. Accepted runs can blow up with every spatial order (`C96_viscosh2D_accepted_violated`).
* Viscoelastic shear stresses: the memory wavefields use the averaged tauS (`tauSAverageXY` …), the total stress uses
  `onePlusLtauS` of the grid point. Where tauS varies, the spring that remains after relaxation has the modulus
  μ(1+L(tauS−averaged tauS)) instead of μ (`springModulus` in `Props/Visco.lean`). The energy balance of C95 holds with this modulus.
* Nothing checks that the relaxation of the bulk modulus is not negative (M tauP ≥ μ tauS in 2D, 3 M tauP ≥ 4 μ tauS in 3D);
  without it C95 gives no decrease.
* Viscoelastic P-SV and 3D waves on variable grids: the elastic solvers interpolate at the interfaces of the layers and use the
  derivatives of the staggered variables, the viscoelastic ones do neither, so C97 is stated for regular grids.
* A pressure source on a free surface: the acoustic solver removes it in the next time step, the elastic solver removes it from
  the vertical stress only, so C98 excludes such sources.
* The P-wave velocity of the rock matrix written to file belongs to K + mu instead of K + 4/3 mu [C101_vp_violated].
* C104: `FreeSurface=1` with an electromagnetic equation type passes all checks, but `Dyf` is purged in
  `initializeFreeSurfaceMatrices` (the comment there thinks of acoustic modelling only) and every
  electromagnetic solver multiplies with `Dyf`. The same happens with `FreeSurface=1` and
  `useVariableGrid=1` for SH, viscoSH and viscoelastic equations: `DybFreeSurface` is not built and `Dyf`
  is purged (2D) or not built (3D), but these solvers use the plain matrices and not the staggered ones.
  LAMA stops at the first time step because the sizes do not match. All other accepted configurations
  are fine (`C104_exactly_these_configurations`).
* C106, C107: the 3D electromagnetic solver takes the CPML coefficients of the half points for the derivative
  of `hY` along `x` (`apply_hyx` in CPMLEM3D.cpp:67-70), although this derivative is centred at full points and all
  other magnetic derivatives take the full ones. So the absorbing layers at the left and right side act
  differently on `eZ` than on `eY`, and exchanging `x` and `z` changes the seismograms
  (`C106_emem3D_cpml_violated`, `C107_em3D_cpml_violated`). C99 is stated without CPML there.
* C108: Butterworth filters of order 1 (and 0) write the third coefficient of a factor into a vector of two (one)
  entries (Filter.cpp:84, `C108_first_order_violated`).
* C109: at the Nyquist frequency only the real part of the transfer function acts, so the gain is wrong there
  (`C109_nyquist_violated`).
* C111: the "causal" Butterworth filters work on the periodically continued trace: for traces of `2^m` samples there is no
  padding at all, and the start of every filtered trace contains the response to its end (`C111_causality_violated`).
* C112: for traces of `2^m + 1` samples the Hilbert transform has one sample less than the trace (`calcNextPowTwo(nt - 1)`,
  Common.hpp:278): the last sample is ignored; one sample gives a transform of length 0.
* C113: the call of the Hilbert transform is commented out in `calcInstantaneousPhase` (Common.hpp:301), the negated trace
  is used as imaginary part. The phase then only says which sign a sample has (`C113_phase_is_sign_violated`).
* C114: for traces without samples the loop of `calcInstantaneousPhaseResidual` does not end.
* C115, C116: `calc("ideal", "bp", 0, fc)` relies on a freshly initialised transfer function: calculated twice, the filter
  passes everything. An object that was a single-frequency filter of order 1 keeps the matrices `L`, `Linv`; filters calculated
  later have no effect (`C115_recalculated_violated`, `C116_stale_line_violated`).
* C117: the order 1 variant halves tones when applied to a vector (factor `1/NT`, Filter.cpp:304), and scales sets of
  traces to maximum amplitude 1 (Filter.cpp:340).
* C119: the electromagnetic classes take the divergence of the magnetic field with the backward derivatives, as the seismic
  classes do for velocities. The magnetic field lives on other grid points, its divergence needs the forward derivatives;
  the "div" snapshots are not zero in simulations without magnetic charge (`C119_snapshot_violated`). The weights are odd,
  too: the parameter of `getCurl` is called `InverseDielectricPermittivity` and gets the permittivity, the parameter of
  `getDiv` is called `PWaveModulus` and gets the velocity (the conductivity in 3D viscoemem).
* The user guide (WAVE_Simulation_guide_EN.tex:1302-1316) names the keys `decomposition`, `tLastSnapshot` and `tIncSnapshot`;
  the code reads `decomposeWavefieldType`, `tlastSnapshot` and `tincSnapshot`. A configuration written after the guide
  with `decomposition=1` is silently run without decomposition.
* C121: in the first time step after a source at rest only the source points are not zero and the flux vanishes: the
  scaling of the second indicator then divides by zero or leaves zero, both parts contain the whole field or NaN
  (`C121_first_step_violated`). The two indicators are scaled with maxima over the whole grid, so a remote wave changes the
  direction assigned to a wave elsewhere (`C121_distant_violated`).
* C122: curl snapshots with a free surface use `getDyf`, which is empty with electromagnetic equations and with variable
  grids; the decomposition into up and down parts of acoustic simulations with free surface uses it, too. The acoustic and
  elastic simulations themselves do not need it (`C122_curl_violated`, `C122_vertical_violated`).
* C123: `decomposeWavefieldType` -1 and -2 write types 2 and 1 instead (snapType is decomposition + 3), at most -3 writes
  nothing; 3 and more and other equations fail only at the first snapshot, after the setup. `snapType` 4 or 5 without
  `decomposeWavefieldType` writes zeros as up and down parts. `resetWavefields` of the two classes does not reset the parts.
* C124: `estimateMemory` of the 2D acoustic (TMEM) class counts 3 vectors, 15 (7) are allocated, in every simulation.
* C125: `exp(sigma t / epsilon)` is the factor of the energy; the amplitude of a plane wave is attenuated by its square root.
  The compensated amplitude grows. What is not attenuated, like the static field of a magnetic source, grows exponentially
  (`C125_divergence_violated`). The memory of CPML is not compensated.
* C126: the matrix of a decoded shot is allocated with the number of receivers of all types; with several types the files have
  surplus zero traces (`C126_components_violated`), and files of separately simulated shots are rejected when they are encoded
  (`C127_files_violated`), because `readMatrix` compares the number of rows.
* C127: encoding after decoding multiplies the trace of a receiver by the number of members sharing it.
* C128: decoded shots are written with `IO::writeMatrix` directly: not resampled to `seismoDT`
  (`C128_sampling_violated`), and `SeismogramFormat=4` (SU) ends with an exception after the first supershot was simulated
  (`C128_su_violated`).
* C129: from 20 sources on only every (number/10)-th source is looked at when the width of the grid is chosen; other shots may
  have receivers outside (`C129_violated`).
* C130: without streaming, too, the grid is widened when a receiver lies in the right absorbing frame (`C130_violated`); model
  files of the configured size cannot be read then, and a homogeneous model is simulated on a different grid.
* C99: where the medium relaxes, an explosion and a particle velocity cannot be exchanged: the source is added to
  the stresses without the change of the relaxation variables that the equivalent change of volume brings with it
  (`C99_viscoelastic2D_pressure_violated`). At points without attenuation (water) the exchange holds.
* C106: the attenuating seismic solvers form the unrelaxed shear modulus of a stress between grid points with the relaxation
  strength of the grid point, the relaxation variables with the averaged one; wherever the two differ the step is not the
  discretisation of one medium (`C106_viscosh2D_violated`).
* Shot increment: an increment below half the distance of the first two sources, or a gap in the line, makes the
  selection run for ever (`C132_violated`, `C132_gap_violated`); sources along z or along a diagonal read an empty
  vector (`C132_direction_violated`); of sources in decreasing order only the first is kept
  (`C133_direction_violated`); sources are selected instead of shots, so a shot loses sources (`C134_violated`).
* Source signals: the guide asks for as many lines in the signal file as there are sources of type 3, the code for
  as many as there are lines in the source file (`C135_lines_violated`); the prohibited combination of types 2 and
  3 is noticed only if both are on the same process (`C136_violated`).
* Free surface, spatial order 4: source and receiver below a free surface cannot be exchanged, whatever factors are
  allowed (`C137_acoustic2D_violated`, `C137_sh2D_violated`, `C137_elastic2D_violated`): imaging changes more than
  the surface row of one matrix of each pair, the other one is used unchanged. For order 2 the exchange is exact.
* Free surface, spatial order 4: acoustic waves in a medium with strong contrasts grow without bound for every time
  step, also for time steps far below the Courant limit (`C139_acoustic2D_violated`, a 2×3 grid): the imaged
  derivative of the pressure is not adjoint to the derivative of the velocity. For order 2 the scheme is stable.
* C140: `operator*=` of every concrete wavefield class is `return rhs * *this;` and leaves the object unchanged
  (`C140_class_factor_violated`); only the operator of the base class, which the simulation uses, multiplies. `operator*` of
  the attenuating classes indexes the empty vectors of a default constructed result (`C140_product_violated`), that of the 3D
  viscoelastic class drops them (`C140_product3D_violated`). `assign` does not copy `numRelaxationMechanisms`
  (`C140_mechanisms_violated`); `wavefieldsTemp` of the simulation is never initialised, so its relaxation functions are not
  differentiated (`C140_relaxation_derivative_violated`; only the classes without attenuation are decomposed, so no file is
  wrong). `resetWavefields` leaves the directional parts (`C140_reset_violated`; `decompose` overwrites those that are
  written).
* C141: the seismic `isFinite` looks at the middle point of each process only, contrary to its description and to the
  electromagnetic one (`C141_seismic_violated`), and no class looks at all fields (`C141_field_violated`).
* C142: an odd kernel size gives NaN (`C142_odd_violated`). The inner loop starts at index 0 whatever the parity of the
  output, so samples with an even index at the beginning of the trace get the taps of the sample before
  (`C142_start_violated`); it stops two samples early at the end (`C142_end_violated`); the outer loop leaves out the last
  sample, which the vector version copies and the matrix version sets to zero (`C142_last_violated`).
* C143: the borders are written in the plane `z = 0` of the big model only (`C143_volume_violated`), over the whole depth of
  the big model even where the window does not reach (`C143_depth_violated`), and the right border overwrites the left one
  (`C143_overlap_violated`).
* C144: for the elastic equations only the velocity of shear waves is looked at, so pressure waves in water can be slower
  than the result (`C144_elastic_violated`). If all velocities are at most one, the largest is returned
  (`C144_slow_violated`).
* C145: for orders above 2 the reflectivity of an interface is not the reflection coefficient and is spread over
  neighbouring rows (`C145_order_violated`). Interfaces in the outermost rows have none (`C145_edge_violated`), elastic models
  with fluids get 0/0 (`C145_fluid_violated`), the permeability is left out (`C145_permeability_violated`), and models with
  fewer rows than half the order write before the first element (`C145_thin_violated`).
* C146: the numbers of products and CPML corrections of the electromagnetic solvers with relaxation and in 3D are those of
  the elastic solvers, so the weights are not proportional to the work (`C146_work_violated`).
* C147: each domain contributes the profile of the component of its last shot. With sources of several components signals are
  lost or end up in the file of another component (`C147_components_violated`). With source encoding, a profile of zeros is
  written if a supershot has two traces of a component (`C147_supershots_violated`).
* C148: the tool writes no `tauS` for viscosh (`C148_viscosh_violated`) and none of the files of electromagnetic models
  (`C148_em_violated`). It compares the equation type with lower case letters, the simulation ignores the case
  (`C148_spelling_violated`).
* C149: the CPML estimate counts two vectors per axis too many for SH and electromagnetic equations
  (`C149_unused_violated`, `C149_unused3D_violated`) and is rounded down to whole MiB, so it is zero for small models
  (`C149_small_violated`). The positions in the sparse vectors are not counted.
* C150: a profile cannot be written in the SU format, and each shot would read the trace of the first shot
  (`C150_profile_violated`). Output with another sampling than the simulation cannot be read with the same configuration; in
  the SU format the reader runs beyond the buffer (`C150_resampled_violated`). A name that contains `.shot`, for example a
  directory, makes the shots of a profile look for another file (`C150_name_violated`).
* C151: SH and TM equations with dimension 3D are accepted, and the program goes on with null pointers
  (`C151_planar_violated`). The factories ignore case, the checks before the first time step do not: "2d", "SH" or "Acoustic"
  stop the simulation there, and "Elastic" switches off the check of the velocity ratio (`C151_spelling_violated`).
* C154: the positions in the file with the encoded shots have five columns and no separator, so that from ten thousand shots on
  neighbouring numbers run together (`C154_encoded_violated`).
* Copies of seismograms leave out the profile (`dataCOP`), the position of the shot, the decoded data and `useAGC`; `swap` and
  `operator=` leave these members as they are (`C156_profile_violated`).
* `Seismogram::operator*=` with one factor for each sample scales the traces if there are as many traces as samples
  (`C156_samples_violated`).
* Shot domains by node or by DOMAIN: the shots are distributed over the processes with the same rank inside their domains. If the domains
  have different sizes, as in the settings file of the user guide, processes of one domain simulate different shots, for a number of shots
  that passes the check at the start
  (`C157_sizes_violated` for every such assignment, `C157_guide_violated`); also if the processes of the domains are in another order
  (`C157_order_violated`). The variable WEIGHT of the user guide is not used for the distribution of the shots.
* Model from the configuration: with `ModelRead=1` and a value of `UseVariableGrid` other than 0 and 1 the grid is variable and the model
  is homogeneous without an error (`C159_flag_violated`). Equations with attenuation and SH do not mesh regular models
  (`C159_other_equations_violated`). Porosity, saturation and reflectivity keep the size of the regular grid (`C159_porosity_violated`).
* Partitioning graph: it is built from the backward matrices, whose order is reduced at the end of an axis. From order four on the forward
  derivative half a stencil before the last point uses the last point, and the graph does not connect them (`C160_edge_violated`).
* Frequencies of supershots: the list is not cleared between supershots, so a supershot with fewer shots than the one before it keeps
  frequencies of that one in its list (`C161_stale_violated`).
* C163: two sources at one point, as for a force with two components, are written to the headers as a source at the first
  point of the grid (`C163_one_place_violated`). The headers of written source signals hold the first point of the grid
  even for a single source, because the position is only handed to the receivers (`C163_source_files_violated`); with
  `initSourcesFromSU` such a file puts every source there (`C163_reread_sources`).
* C164: without encoding, the file of shot frequencies has one line, for the first shot, whatever the number of shots
  (`C164_plain_violated`).
* C166: all shots but the first of a line are written in columns of four characters, so that shots 5, 1000, 12000 and
  shots 5, 10001, 2000 give the same log (`C166_violated`).
* Shot selection: a shot can be chosen twice, read out of bounds, or leave a supershot empty [C36_mode2_violated,
  C36_several_sources_violated, C37_mode3_empty_violated, C37_few_shots_violated].
* Encoding truncates amplitudes to integers, so 0.5 inverts the polarity [C38_small_amplitude_violated].
* Receivers of a type can be duplicated [C41_duplicate_violated]; a shot without a row in the mark file takes another
  row [C56_unknown_shot_violated].
* Seismograms: AGC with zero window gives zero gain [C42_zero_window_violated]; the last trace is not checked for NaN
  [C44_last_trace_violated]; integration and differentiation are not inverse [C45_inverse_violated,
  C45_first_sample_violated]; a copy forgets that the AGC was applied [C60_copy_violated]; the common offset profile is
  wrong from the second round on [C61_second_round_violated].
* SU files: files above 2 GB overflow [C46_big_file_violated]; receiver positions are truncated [C47_receivers_violated];
  all source component files must exist [C62_sources_violated]; radar sampling intervals become 0 [C63_radar_violated].
* Snapshots: an increment below half a time step divides by zero [C49_small_increment_violated].
* Signals: negative shifts and a wavelet ending one past the trace write out of range [C50_violated]; non-zero before the
  onset [C51_intgSinThree_violated, C51_spike_violated]; formulas differ from the guide [C64_shift_violated,
  C64_gprMax_violated, C64_berlage_nan_violated]; amplitude exceeded [C65_sinW_violated, C65_gprMax_violated].
* Acquisition: positions between two layers make the check itself undefined [C55_between_layers_violated]; malformed
  numbers in acquisition files are accepted [C58_malformed_accepted_violated].

Smaller remarks (no property depends on them): the CPML comment gives alpha ∝ 1 − pos^N, the code uses 1 − pos. The
absorbing frame with a free surface leaves the bottom undamped on grids not higher than the frame. The model of the frame
uses a real logarithm also for damping values outside [0, 100), where the C++ result would be NaN or infinite. The 2-D EMEM
solver applies Dyf where the 3-D solvers use the staggered Dyf.
