{"id": "C01", "title": "Regular grid: index and coordinate are inverse bijections", "statement": "On a regular grid of NX x NY x NZ points, converting a linear index to a 3-D coordinate and back gives the index again, converting an in-range coordinate to an index and back gives the coordinate again, and every index lies in [0, NX*NY*NZ).", "quantifier": "for all positive NX, NY, NZ, all indices and all in-range coordinates", "why_tests_cant": "the number of grids and points is unbounded; tests sample a few small grids", "anchors": ["src/Acquisition/Coordinates.cpp: index2coordinate, coordinate2index, mapIndex2coordinate, map3Dcoordinate2index"]}
{"id": "C02", "title": "Out-of-range coordinates are rejected", "statement": "Asking for the index of a coordinate whose x, y or z is negative or not below the corresponding grid size raises an error instead of returning an index, and in-range coordinates are never rejected on a regular grid.", "quantifier": "for all grids and all integer coordinates", "why_tests_cant": "infinitely many invalid coordinates", "anchors": ["src/Acquisition/Coordinates.cpp: map3Dcoordinate2index"]}
{"id": "C03", "title": "Variable grid: index to coordinate to index is the identity", "statement": "On every successfully initialised variable grid (layers of 3^n coarsened spacing, each layer at least one of its own spacings thick), the coordinate of each grid point maps back to the same index, and distinct grid points have distinct coordinates.", "quantifier": "for all layer counts, interface positions, coarsening factors, grid sizes accepted by the constructor and all indices", "why_tests_cant": "configurations and sizes are unbounded; unit tests check one configuration", "anchors": ["src/Acquisition/Coordinates.cpp: init(dhFactor, interface), mapIndex2coordinate, map3Dcoordinate2index"]}
{"id": "C04", "title": "Variable grid: every grid point lies inside the reported domain", "statement": "After initialisation of a variable grid (each layer at least one of its own spacings thick), every grid point has 0<=x<getNX(), 0<=y<getNY(), 0<=z<getNZ(), x and z are multiples of its layer's coarsening factor, and its layer is the layer whose y range contains it.", "quantifier": "for all accepted variable grid configurations and all indices", "why_tests_cant": "as above: unbounded configurations", "anchors": ["src/Acquisition/Coordinates.cpp: init(dhFactor, interface), mapIndex2coordinate, getLayer"]}
{"id": "C05", "title": "Variable grid: size adjustment only shrinks the model, by less than the coarsest factor", "statement": "Initialising a variable grid changes NX (and NZ if NZ>1) to the largest value not above the requested one that fits the coarsest layer, moves interfaces only towards smaller y, and terminates whenever NX (and NZ if NZ>1) is at least 1+dhMax/2; for smaller NX the adjustment loop never finds a value.", "quantifier": "for all requested sizes and factors", "why_tests_cant": "termination and maximality concern every input size", "anchors": ["src/Acquisition/Coordinates.cpp: init(dhFactor, interface)"]}
{"id": "C06", "title": "Variable grid: coordinates between layers do not cause undefined behaviour", "statement": "Asking for the index of an in-range coordinate whose y lies in the gap between two layers either raises an error or returns a valid index.", "quantifier": "for all accepted variable grids and in-range coordinates", "why_tests_cant": "needs the exact set of uncovered y positions", "anchors": ["src/Acquisition/Coordinates.cpp: map3Dcoordinate2index, getLayer", "src/CheckParameter/CheckParameter.hpp: checkSources, checkReceivers"]}
{"id": "C07", "title": "Edge distance is the distance to the nearest model edge per axis", "statement": "edgeDistance returns for each axis the minimum of the distances to the two edges, never negative for an in-range coordinate, zero exactly on an edge, and symmetric under mirroring the coordinate.", "quantifier": "for all grids and in-range coordinates", "why_tests_cant": "unbounded domain", "anchors": ["src/Acquisition/Coordinates.cpp: edgeDistance, estimateDistanceToEdges3D"]}
{"id": "C08", "title": "Configuration behaves like a case-insensitive map with last-wins file semantics", "statement": "After constructing a configuration from a file, looking up a name (in any letter case) yields the value of the last line assigning that name; further files read without overwrite never change existing names; the list of names in insertion order has no duplicates and contains exactly the stored names.", "quantifier": "for all files, all sequences of reads and additions with and without overwrite, all names", "why_tests_cant": "the property is over every history of operations", "anchors": ["src/Configuration/Configuration.cpp: readFromFile, add2map", "src/Configuration/Configuration.hpp: get, add2config"]}
{"id": "C09", "title": "Comment text never becomes a configuration entry", "statement": "Text following a '#' on a line has no influence on any configuration name or value.", "quantifier": "for all files", "why_tests_cant": "quantifies over all line contents", "anchors": ["src/Configuration/Configuration.cpp: readFromFile"]}
{"id": "C10", "title": "getAndCatch uses the default exactly when the name is absent", "statement": "getAndCatch returns the caller's default if and only if no entry of that name exists in any letter case; get raises an error in exactly the same situation.", "quantifier": "for all configurations, names and defaults", "why_tests_cant": "over all histories", "anchors": ["src/Configuration/Configuration.hpp: get, getAndCatch"]}
{"id": "C11", "title": "A 2-D configuration always yields NZ=1", "statement": "If a configuration file declares dimension 2D, then the NZ read from that file is 1.", "quantifier": "for all files containing a 2D dimension line before the NZ line", "why_tests_cant": "spelling, spacing and ordering variants are unbounded", "anchors": ["src/Configuration/Configuration.cpp: readFromFile"]}
{"id": "C12", "title": "Shot domains partition the processes evenly", "statement": "With even-block domain definition every process gets a domain number below NumShotDomains, every domain contains exactly size/NumShotDomains consecutive processes, and an error is raised exactly when the process count is not a multiple.", "quantifier": "for all process counts, domain counts and ranks", "why_tests_cant": "process counts are unbounded and parallel runs are rarely tested", "anchors": ["src/Partitioning/Partitioning.hpp: getShotDomain", "src/Common/Common.hpp: checkNumShotDomains"]}
{"id": "C13", "title": "The stability check accepts only stable time steps", "statement": "If the stability check lets a simulation start, then DT satisfies the Courant bound DT <= DH/(gamma*sqrt(D)*vmax) with gamma the sum of absolute stencil coefficients of the chosen FD order.", "quantifier": "for all DT, DH, velocities, dimensions and FD orders 2..12", "why_tests_cant": "real-valued inputs; the boundary of the accepted set matters", "anchors": ["src/CheckParameter/CheckParameter.hpp: checkStabilityCriterion"]}
{"id": "C14", "title": "searchAndReplace changes exactly the matching entries", "statement": "searchAndReplace sets precisely the entries satisfying the comparison to the new value, leaves every other entry and the length untouched, is idempotent, and raises an error for an unknown comparison code.", "quantifier": "for all vectors, values and comparison codes", "why_tests_cant": "unbounded vectors", "anchors": ["src/Common/Common.hpp: searchAndReplace, replaceInvalid, replaceVpwithVs"]}
{"id": "C15", "title": "Seismogram resampling is linear interpolation", "statement": "The resampling matrix for a trace reproduces constant and linear traces exactly, every resampled value is a convex combination of two neighbouring samples, and all accessed samples exist.", "quantifier": "for all trace lengths and resampling coefficients >= 1", "why_tests_cant": "unbounded lengths and real factors", "anchors": ["src/Common/Common.hpp: calcResampleMat", "src/Acquisition/Seismogram.cpp: setSeismoDT"]}
{"id": "C16", "title": "The frequency filter never discards samples", "statement": "The padded length used by a filter initialised for nt samples is at least nt, so that applying the neutral filter keeps every sample.", "quantifier": "for all nt >= 1", "why_tests_cant": "lengths just above a power of two are special", "anchors": ["src/Filter/Filter.cpp: init, apply", "src/Common/Common.hpp: calcNextPowTwo"]}
{"id": "C17", "title": "Unwrapped phase is the wrapped phase modulo 2 pi without jumps", "statement": "Phase unwrapping changes every sample by a multiple of 2 pi and leaves no jump larger than pi between consecutive samples, whenever the wrapped input lies in [-pi, pi].", "quantifier": "for all traces and lengths", "why_tests_cant": "unbounded real traces", "anchors": ["src/Common/Common.hpp: calcInstantaneousPhase"]}
{"id": "C18", "title": "The median filter returns the median of its window", "statement": "Every output sample of the 1-D (window 5) and 2-D (odd ksize) median filter is the element of its extended window that has at least half of the window not above and not below it; every array access is in bounds.", "quantifier": "for all image sizes, odd kernel sizes, contents and fill types", "why_tests_cant": "all permutations of all windows", "anchors": ["src/Common/medianfilter.cpp: _medianfilter, medianfilter"]}
{"id": "C19", "title": "The median filter only reads initialised window entries", "statement": "For every kernel size accepted by the 2-D median filter all window entries it compares have been written before.", "quantifier": "for all kernel sizes >= 1", "why_tests_cant": "parity of the kernel size matters; memory errors need not crash a test", "anchors": ["src/Common/medianfilter.cpp: _medianfilter"]}
{"id": "C20", "title": "Finite-difference rows annihilate constants", "statement": "Applying any of the spatial derivative matrices without free surface to a constant field gives zero at every grid point, including points next to the model edge, for every supported FD order.", "quantifier": "for all regular grids, orders 2,4,...,12 and grid points", "why_tests_cant": "grid sizes unbounded, boundary handling differs per point", "anchors": ["src/ForwardSolver/Derivatives/Derivatives.cpp: setFDCoef, calcDxf, calcDyf, calcDzf, calcDxb, calcDyb, calcDzb"]}
{"id": "C21", "title": "Finite differences are exact on linear fields up to the edges", "statement": "On a regular grid the forward and backward derivative of a linear field equals its slope at every grid point including the model edges (orders 2 to 8 exactly, orders 10 and 12 up to the rounding of the tabulated coefficients); in the interior the derivative of order p is exact for polynomials of degree at most p.", "quantifier": "for all grids with at least 2 points per axis, all orders, all points, all linear (polynomial) fields", "why_tests_cant": "infinitely many fields and points", "anchors": ["src/ForwardSolver/Derivatives/Derivatives.cpp: setFDCoef, calcDxf, calcDxb"]}
{"id": "C22", "title": "FD order reduction at edges terminates with a valid stencil", "statement": "Building a derivative row on a regular grid terminates, uses an even order between 2 and the configured one, and only references grid points of the model.", "quantifier": "for all grid sizes, orders and rows", "why_tests_cant": "row construction mutates its own loop variables", "anchors": ["src/ForwardSolver/Derivatives/Derivatives.cpp: calcDxf, calcDyf, calcDzf, calcDxb, calcDyb, calcDzb"]}
{"id": "C23", "title": "Forward and backward derivatives are negative transposes", "statement": "The stencil-matrix derivatives satisfy Dxb = -Dxf^T exactly; the sparse derivatives satisfy it for all pairs of points further than one stencil from the edge.", "quantifier": "for all grids, orders and pairs of points", "why_tests_cant": "adjointness is a statement about all pairs of entries", "anchors": ["src/ForwardSolver/Derivatives/Derivatives.cpp: calcDxf, calcDxb", "src/ForwardSolver/Derivatives/FDTD3D.cpp: initializeMatrices"]}
{"id": "C24", "title": "Coarse-layer derivative rows near the edge are not empty", "statement": "In layers coarsened by 3^n each point with a neighbour on its axis keeps at least a second-order derivative.", "quantifier": "for all variable grids, points and orders", "why_tests_cant": "depends on the interaction of coarsening and edge distance", "anchors": ["src/ForwardSolver/Derivatives/Derivatives.cpp: calcDxf, calcDxb"]}
{"id": "C25", "title": "Free-surface derivative equals the derivative of the mirrored field", "statement": "The image-method derivative matrices applied to a field give the plain derivative of the field extended antisymmetrically above the free surface.", "quantifier": "for all orders, fields, depths and grid heights", "why_tests_cant": "quantifies over all fields and rows", "anchors": ["src/ForwardSolver/Derivatives/Derivatives.cpp: calcDyfFreeSurface, calcDybFreeSurface"]}
{"id": "C26", "title": "Ghost-point interpolation is the identity off the interfaces and an average on them", "statement": "The interpolation matrices of a variable grid leave values off the interfaces unchanged; on an interface, rows whose four neighbours exist have non-negative weights summing to one.", "quantifier": "for all variable grids and grid points", "why_tests_cant": "unbounded grids", "anchors": ["src/ForwardSolver/Derivatives/Derivatives.cpp: calcInterpolationFull"]}
{"id": "C27", "title": "Acoustic modelling conserves the discrete energy in the absence of sources and absorbing boundaries", "statement": "With forward/backward derivatives that are negative transposes, the staggered discrete energy of the acoustic wavefield is the same after every time step.", "quantifier": "for all grids, models, initial wavefields and numbers of steps", "why_tests_cant": "an invariant of arbitrarily long simulations", "anchors": ["src/ForwardSolver/ForwardSolver2Dacoustic.cpp: run"]}
{"id": "C28", "title": "Modelled seismograms depend linearly on the sources", "statement": "Simulating a weighted sum of two source-signal sets gives the same weighted sum of the two seismograms (including with CPML, damping boundary and free surface).", "quantifier": "for all models, source signals, weights, time steps and boundary settings", "why_tests_cant": "real-valued inputs, unbounded number of time steps", "anchors": ["src/ForwardSolver/ForwardSolver2Dacoustic.cpp: run", "src/ForwardSolver/SourceReceiverImpl/SourceReceiverImpl.cpp", "src/ForwardSolver/BoundaryCondition/CPML.cpp: applyCPML"]}
{"id": "C29", "title": "Shots do not influence each other", "statement": "The seismograms of a shot are the same no matter which shots were simulated before in the same process.", "quantifier": "for all shot sequences, models and sources", "why_tests_cant": "histories of shots are unbounded", "anchors": ["src/Simulation.cpp: shot loop", "src/ForwardSolver/BoundaryCondition/CPML2DAcoustic.cpp: resetCPML"]}
{"id": "C30", "title": "Damping boundary never amplifies and is inactive in the interior", "statement": "Every damping factor lies in (0,1], equals 1 at least BoundaryWidth points away from the damped edges, and does not increase towards the edge.", "quantifier": "for all grids, widths and damping coefficients from 0 to below 100", "why_tests_cant": "real exponent and all points", "anchors": ["src/ForwardSolver/BoundaryCondition/ABS2D.cpp: init", "src/ForwardSolver/BoundaryCondition/ABS3D.cpp: init"]}
{"id": "C31", "title": "CPML memory variables stay bounded by the wavefield gradient", "statement": "For admissible CPML parameters the coefficients satisfy 0<b<1 and -1<a<=0, and if all derivatives fed to the CPML stay below M in magnitude then the memory variable stays below M and the corrected derivative below 2M for all time steps; resetting returns the memory to zero.", "quantifier": "for all parameters, inputs and numbers of time steps", "why_tests_cant": "stability over unbounded time", "anchors": ["src/ForwardSolver/BoundaryCondition/CPML.cpp: calcCoeffCPML, applyCPML"]}
{"id": "C32", "title": "Pressure vanishes on the free surface", "statement": "With a free surface the acoustic pressure at every surface grid point is zero after each time step, except for what a source at that very point adds.", "quantifier": "for all models, wavefields and time steps", "why_tests_cant": "invariant over all time steps", "anchors": ["src/ForwardSolver/ForwardSolver2Dacoustic.cpp: run", "src/ForwardSolver/BoundaryCondition/FreeSurfaceAcoustic.cpp: init"]}
{"id": "C33", "title": "Unique shot numbers: complete, duplicate free, in order of first appearance", "statement": "The list of unique shot numbers contains the absolute source number of each source exactly once, in order of first appearance, and looking up the index of any of them returns its position.", "quantifier": "for all non-empty source lists", "why_tests_cant": "unbounded lists", "anchors": ["src/Acquisition/AcquisitionSettings.hpp: calcuniqueShotNo, getuniqueShotInd"]}
{"id": "C34", "title": "Selecting the sources of a shot partitions the source list", "statement": "createSettingsForShot returns exactly the sources with that absolute number in file order; over all unique shot numbers every source is returned exactly once.", "quantifier": "for all source lists", "why_tests_cant": "unbounded lists", "anchors": ["src/Acquisition/AcquisitionSettings.hpp: createSettingsForShot"]}
{"id": "C35", "title": "Per-shot settings stay inside the absorbing frame", "statement": "getSettingsPerShot returns coordinates shifted by the shot's cut position that keep the distance BoundaryWidth to every edge (in z only if the model is more than two boundary widths deep), or raises an error.", "quantifier": "for all settings, cut positions, grids and widths", "why_tests_cant": "unbounded", "anchors": ["src/Acquisition/AcquisitionSettings.hpp: getSettingsPerShot"]}
{"id": "C36", "title": "Random shot selection picks distinct, fairly used shots", "statement": "Each random selection of NumShotDomains shots contains no shot twice, and over many iterations no shot is used more often than the allowed maximum.", "quantifier": "for all shot counts, domain counts, modes, random streams and iteration histories", "why_tests_cant": "random streams and histories are unbounded", "anchors": ["src/Acquisition/AcquisitionSettings.hpp: getRandomShotInds"]}
{"id": "C37", "title": "Source encoding assigns every shot to an existing supershot", "statement": "With source encoding every shot is assigned to one of NumShotDomains supershots, none of which has more than ceil(numshots/NumShotDomains) members and none of which is empty.", "quantifier": "for all shot counts, domain counts, modes and random streams", "why_tests_cant": "unbounded", "anchors": ["src/Acquisition/Sources.cpp: calcSourceSettingsEncode"]}
{"id": "C38", "title": "The sign of a source read from file follows the configured amplitude", "statement": "A source signal read from file is injected with positive polarity when the configured amplitude is positive and with negative polarity when it is negative.", "quantifier": "for all amplitudes", "why_tests_cant": "real-valued amplitude", "anchors": ["src/Acquisition/Sources.cpp: init, copySignalsToSeismogramHandler"]}
{"id": "C39", "title": "Every trace is stored on exactly one process", "statement": "Mapping global trace coordinates to local ones assigns every trace to exactly the process owning its grid point, in the original relative order; coordinates outside the wavefield raise an error.", "quantifier": "for all distributions, process counts and coordinates", "why_tests_cant": "parallel layouts are unbounded", "anchors": ["src/Acquisition/AcquisitionSettings.hpp: Global2Local, calcDistribution"]}
{"id": "C40", "title": "Marked receivers: a supershot uses the union of its members' receivers", "statement": "The receivers selected for a supershot are exactly those marked for at least one of its member shots, in file order.", "quantifier": "for all mark tables and encodings", "why_tests_cant": "unbounded", "anchors": ["src/Acquisition/Receivers.cpp: getAcquisitionSettings"]}
{"id": "C41", "title": "Whole-space receivers cover every grid point once per receiver type", "statement": "Initialising receivers for the whole space creates exactly one receiver per grid point and distinct receiver type.", "quantifier": "for all receiver files and grids", "why_tests_cant": "depends on the order of types in the file", "anchors": ["src/Acquisition/Receivers.cpp: initWholeSpace"]}
{"id": "C42", "title": "AGC gain is computed over a sliding window", "statement": "The AGC energy at each sample equals the mean square over the window of that sample clipped to the trace, all samples accessed exist, and the gain is non-negative.", "quantifier": "for all trace lengths, window lengths and traces", "why_tests_cant": "incremental window update must be right at every position", "anchors": ["src/Acquisition/Seismogram.cpp: calcInverseAGC, getAGCSum"]}
{"id": "C43", "title": "Trace normalisation", "statement": "Normalising by the maximum scales every non-zero trace to maximum magnitude 1, leaves zero traces unchanged, and is idempotent.", "quantifier": "for all traces", "why_tests_cant": "real-valued traces", "anchors": ["src/Acquisition/Seismogram.cpp: normalizeTrace"]}
{"id": "C44", "title": "Non-finite seismograms are detected", "statement": "isFinite reports false whenever the last sample of any trace is not finite, and true when all samples are finite.", "quantifier": "for all seismogram matrices", "why_tests_cant": "position of the bad trace matters", "anchors": ["src/Acquisition/Seismogram.cpp: isFinite"]}
{"id": "C45", "title": "Differentiation inverts integration", "statement": "differentiateTraces applied after integrateTraces restores all samples but the first, and integrateTraces computes the cumulative sum times DT.", "quantifier": "for all traces and DT>0", "why_tests_cant": "in-place updates depend on order", "anchors": ["src/Acquisition/Seismogram.cpp: integrateTraces, differentiateTraces"]}
{"id": "C46", "title": "SU data round trip", "statement": "Reading back a seismogram file written in SU format returns the same traces, and reading a single trace by number returns exactly that trace.", "quantifier": "for all numbers of traces and samples up to 65535", "why_tests_cant": "unbounded matrices, byte offsets", "anchors": ["src/IO/SUIO.hpp: writeSU, readDataSU, readSingleDataSU"]}
{"id": "C47", "title": "SU header coordinates round trip", "statement": "Source and receiver coordinates written to SU headers are recovered when the acquisition is initialised from the file with the same grid spacing.", "quantifier": "for all coordinates and grid spacings above 1 mm", "why_tests_cant": "rounding for every spacing", "anchors": ["src/IO/SUIO.hpp: writeSU", "src/Acquisition/suHandler.cpp: readAllSettingsFromSUComp"]}
{"id": "C48", "title": "SU component is recovered from the file name", "statement": "For every base name the component derived from base.comp.su is the one written.", "quantifier": "for all base names", "why_tests_cant": "base names may contain dots and component names", "anchors": ["src/Acquisition/suHandler.cpp: getComponentFromName"]}
{"id": "C49", "title": "Snapshots are written exactly at the configured times", "statement": "A snapshot is written at time step t if and only if t lies between the first and last snapshot step and differs from the first by a multiple of the increment; consecutive snapshots are one increment apart.", "quantifier": "for all first, last, increment and simulation lengths", "why_tests_cant": "unbounded time", "anchors": ["src/Simulation.cpp: time loop"]}
{"id": "C50", "title": "Windowed wavelets stay inside the trace", "statement": "Generating a SinThree, SinW, IntgSinThree or Spike signal never writes outside the signal vector.", "quantifier": "for all NT, DT, FC and time shifts passing the checks", "why_tests_cant": "boundary case when the wavelet ends exactly at the trace end", "anchors": ["src/Acquisition/SourceSignal/SinThree.cpp: calc", "src/Acquisition/SourceSignal/SinW.cpp: calc", "src/Acquisition/SourceSignal/IntgSinThree.cpp: calc", "src/Acquisition/SourceSignal/Spike.cpp: calc"]}
{"id": "C51", "title": "Wavelets are quiescent before their onset", "statement": "A windowed wavelet with time shift T is zero at every sample before T.", "quantifier": "for all parameters", "why_tests_cant": "all samples of all traces", "anchors": ["src/Acquisition/SourceSignal/IntgSinThree.cpp: calc", "src/Acquisition/SourceSignal/SinThree.cpp: calc"]}
{"id": "C52", "title": "Traces are grouped by component in acquisition order", "statement": "Initialising the seismogram handler puts each trace into the seismogram of its type, keeping acquisition order, and the trace counts of all components add up to the number of traces.", "quantifier": "for all acquisition geometries with types 1..4", "why_tests_cant": "unbounded", "anchors": ["src/Acquisition/AcquisitionGeometry.cpp: initSeismogramHandler"]}
{"id": "C53", "title": "Variable grid: layers thinner than their spacing are rejected", "statement": "A variable grid configuration that passes all checks never yields a layer with a negative number of points or two grid points with the same coordinate.", "quantifier": "for all accepted variable grid configurations", "why_tests_cant": "degenerate layer combinations are not sampled by tests", "anchors": ["src/Acquisition/Coordinates.cpp: init(config), init(dhFactor, interface)"]}
{"id": "C54", "title": "Parameter check sees every grid point", "statement": "The stability check uses, for each grid layer, the largest velocity of any grid point of that layer on any process of the shot domain; if it lets the simulation start, the tested bound holds at every grid point. The dispersion check uses the smallest positive velocity.", "quantifier": "for all models, distributions over processes and layers", "why_tests_cant": "any number of points, layers and processes", "anchors": ["src/CheckParameter/CheckParameter.hpp: checkNumericalArtefactsAndInstabilities, checkStabilityCriterion"]}
{"id": "C55", "title": "Sources and receivers are accepted exactly on grid points", "statement": "The check of source and receiver positions passes if and only if every position is a grid point, and raises an error otherwise; it never has undefined behaviour.", "quantifier": "for all grids and all lists of positions", "why_tests_cant": "unbounded grids and positions", "anchors": ["src/CheckParameter/CheckParameter.hpp: checkSources, checkReceivers", "src/Acquisition/Coordinates.cpp: coordinate2index"]}
{"id": "C56", "title": "Marked receivers of a single shot come from its own row", "statement": "With useReceiversPerShot, the receivers of a shot are exactly those marked in the row of this shot in the mark file, and a shot without a row is an error.", "quantifier": "for all mark tables, shot increments and shots", "why_tests_cant": "all combinations of increment and table", "anchors": ["src/Acquisition/Receivers.cpp: getAcquisitionSettings"]}
{"id": "C57", "title": "Every shot is simulated exactly once", "statement": "Without random selection and encoding, every shot (and so every source) of the source file is simulated exactly once, by exactly one shot domain, for any number of shot domains.", "quantifier": "for all source files and numbers of shot domains", "why_tests_cant": "unbounded number of shots and domains", "anchors": ["src/Simulation.cpp: shot loop", "src/Acquisition/Sources.cpp: calcUniqueShotInds"]}
{"id": "C58", "title": "Source and receiver files are read back as written", "statement": "Reading a source or receiver file yields one setting per data line, in order, with the numbers of the line; comment and blank lines are ignored and malformed lines raise an error.", "quantifier": "for all files", "why_tests_cant": "unbounded files, malformed input", "anchors": ["src/Acquisition/AcquisitionSettings.hpp: readAllSettings"]}
{"id": "C59", "title": "The 1-D median filter uses the requested window length", "statement": "applyMedianFilterTo1DVector with spatial length L filters with a window of 2L-1 samples; in particular length 1 leaves the vector unchanged.", "quantifier": "for all vectors and lengths", "why_tests_cant": "all lengths", "anchors": ["src/Common/medianfilter.cpp: medianfilter (1-D)", "src/Common/Common.hpp: applyMedianFilterTo1DVector"]}
{"id": "C60", "title": "AGC is applied at most once to a shot", "statement": "After the AGC has been applied by normalizeTrace(3), further normalisation of the same data, also of a copy of the seismogram, does not apply it again.", "quantifier": "for all traces and sequences of copies and normalisations", "why_tests_cant": "state hidden in the object", "anchors": ["src/Acquisition/Seismogram.cpp: normalizeTrace, copy constructor", "src/Acquisition/Seismogram.hpp: useAGC"]}
{"id": "C61", "title": "The common offset profile holds every shot's trace once", "statement": "With one trace per shot, the profile written after each round of the shot loop holds in row s the trace of shot s for all shots simulated so far, for any number of shot domains.", "quantifier": "for all schedules, numbers of domains and rounds", "why_tests_cant": "parallel state over several rounds", "anchors": ["src/Acquisition/Seismogram.cpp: write, sumShotDomain", "src/Acquisition/SeismogramHandler.cpp: assignCOP", "src/Simulation.cpp: shot loop"]}
{"id": "C62", "title": "Initialisation from SU files reads what exists", "statement": "Initialising sources or receivers from SU files reads every component file that exists, in component order, and fails only if none exists.", "quantifier": "for all file systems, sets of component files and headers", "why_tests_cant": "all subsets of existing files", "anchors": ["src/Acquisition/suHandler.cpp: readAllSettingsFromSU"]}
{"id": "C63", "title": "The sampling interval in SU files is that of the seismogram", "statement": "The dt field of every written SU header is the sampling interval of the seismogram in microseconds, to within half a microsecond, so that it is not lost.", "quantifier": "for all sampling intervals representable in the field", "why_tests_cant": "all intervals, including those of radar data", "anchors": ["src/IO/SUIO.hpp: initSegy, writeSU"]}
{"id": "C64", "title": "Synthetic source signals follow their documented formulas", "statement": "Each generated source signal has at sample i the value that the formula of its type in the user guide gives at time i*DT.", "quantifier": "for all numbers of samples, sampling intervals, frequencies, amplitudes and time shifts passing the checks", "why_tests_cant": "real-valued functions, all parameters", "anchors": ["src/Acquisition/SourceSignal/*.cpp: calc", "doc/guide/WAVE_Simulation_guide_EN.tex: source signals"]}
{"id": "C65", "title": "The amplitude parameter bounds the source signal", "statement": "No sample of a generated source signal exceeds the configured amplitude in absolute value.", "quantifier": "for all numbers of samples, sampling intervals, frequencies, amplitudes and time shifts passing the checks", "why_tests_cant": "suprema of real functions", "anchors": ["src/Acquisition/SourceSignal/*.cpp: calc"]}
{"id": "C66", "title": "CPML acts only in the boundary frame and alike on opposite sides", "statement": "Outside the boundary frame, and at the top under a free surface, the CPML changes no derivative at any time step; inside the frame it acts; on a regular grid the frame treats opposite edges as mirror images of the staggered grid.", "quantifier": "for all grids, frame widths, CPML parameters, inputs and numbers of time steps", "why_tests_cant": "all grid points and time steps", "anchors": ["src/ForwardSolver/BoundaryCondition/CPML2DAcoustic.cpp: init", "src/ForwardSolver/BoundaryCondition/CPML.cpp: applyCPML"]}
{"id": "C67", "title": "Vertical stress vanishes on the free surface", "statement": "With a free surface the vertical normal stress of the elastic and viscoelastic solvers, and its relaxation memory, is zero at every surface grid point after each time step, except for what a pressure source at that very point adds to the stress.", "quantifier": "for all models, wavefields, sources and time steps", "why_tests_cant": "invariant over all time steps", "anchors": ["src/ForwardSolver/BoundaryCondition/FreeSurfaceElastic.cpp: setZeroFreeSurface", "src/ForwardSolver/ForwardSolver2Delastic.cpp: run", "src/ForwardSolver/ForwardSolver3Delastic.cpp: run", "src/ForwardSolver/ForwardSolver2Dviscoelastic.cpp: run", "src/ForwardSolver/ForwardSolver3Dviscoelastic.cpp: run"]}
{"id": "C68", "title": "Elastic and SH modelling conserve the discrete energy", "statement": "On a regular grid without sources and absorbing boundaries the staggered discrete energy of the SH, 2-D elastic and 3-D elastic wavefield is the same after every time step, for every heterogeneous model.", "quantifier": "for all grids, spatial orders, models, initial wavefields and numbers of steps", "why_tests_cant": "an invariant of arbitrarily long simulations over all media", "anchors": ["src/ForwardSolver/ForwardSolver2Dsh.cpp: run", "src/ForwardSolver/ForwardSolver2Delastic.cpp: run", "src/ForwardSolver/ForwardSolver3Delastic.cpp: run"]}
{"id": "C69", "title": "Electromagnetic modelling loses energy exactly by Ohmic dissipation", "statement": "On a regular grid without sources and absorbing boundaries each time step changes the discrete electromagnetic energy by exactly the Ohmic loss of that step; with non-negative conductivity the energy never grows and without conductivity it is conserved.", "quantifier": "for all grids, spatial orders, models, initial wavefields and numbers of steps", "why_tests_cant": "an inequality along arbitrarily long simulations over all media", "anchors": ["src/ForwardSolverEM/ForwardSolver2Demem.cpp: run", "src/ForwardSolverEM/ForwardSolver2Dtmem.cpp: run", "src/ForwardSolverEM/ForwardSolver3Demem.cpp: run"]}
{"id": "C70", "title": "Interpolation on an interface is exact for fields that vary linearly along it", "statement": "On an interface of a variable grid the interpolation matrices reproduce every field that is constant or varies (bi)linearly along the interface, and change nothing where the layers on both sides have the same grid factor.", "quantifier": "for all accepted variable grids whose layers have room for their own spacing, all grid points on interfaces, all bilinear fields, for the plain and the staggered matrices", "why_tests_cant": "unbounded grids, coarsening factors and fields", "anchors": ["src/ForwardSolver/Derivatives/Derivatives.cpp: calcInterpolationFull, calcInterpolationStaggeredX, calcInterpolationStaggeredZ, calcInterpolationStaggeredXZ"]}
{"id": "C71", "title": "Averaged parameters are convex combinations of model values", "statement": "For every grid that can be configured, each of the six staggered-grid averaging operators can be assembled, and every averaged value is a combination of values at grid points with weights between 1/4 and 1 that sum to one. Hence averaged densities, permeabilities and attenuation parameters never leave the range of the model, averaged inverse parameters stay between the reciprocals, and a homogeneous model stays homogeneous.", "quantifier": "all grids accepted by the configuration, all grid points, all six averaging directions, all parameter vectors", "why_tests_cant": "The space of grids and parameter fields is infinite; a test compares one averaged vector on one grid.", "anchors": ["src/Modelparameter/Modelparameter.cpp: calcAverageMatrixX/Y/Z/XY/XZ/YZ, calc4PointAverageMatrixRow, calcInverseAveragedParameter, calcAveragedParameter", "src/Acquisition/Coordinates.cpp: coordinate2index, getLayer, getDHFactor"]}
{"id": "C72", "title": "Averages use the neighbouring points of the staggered cell", "statement": "The value of an averaged parameter at a point is the arithmetic mean over the corners of the staggered cell that starts at this point and has the local grid spacing; corners outside the model are left out. This holds on regular and on variable grids.", "quantifier": "all grids, all grid points, all averaging directions, all parameter fields", "why_tests_cant": "Needs every boundary case (right, bottom, back edges, interfaces of all layer patterns); unit tests use one small regular grid.", "anchors": ["src/Modelparameter/Modelparameter.cpp: calcAverageMatrixX/Y/Z/XY/XZ/YZ, calc4PointAverageMatrixRow", "src/Acquisition/Coordinates.cpp: getTransition, getLayer, getDHFactor, locatedOnInterface"]}
{"id": "C73", "title": "Shear modulus at vacuum and its bounds", "statement": "If one of the points averaged for a shear modulus is vacuum (modulus below 1), the averaged modulus is exactly zero (improved vacuum formulation). If the whole model has a modulus of at least 4, the averaged modulus is the harmonic mean and lies between the smallest and largest modulus of the model.", "quantifier": "all grids, all points and averaging directions, all shear modulus fields", "why_tests_cant": "Threshold logic over all combinations of up to four values and weights.", "anchors": ["src/Modelparameter/ModelparameterSeismic.cpp: calcAveragedSWaveModulus", "src/Common/Common.hpp: searchAndReplace"]}
{"id": "C74", "title": "String values come back exactly", "statement": "A string value stored for a parameter, by the API or from a configuration file, is returned unchanged by the string getters, up to blanks around it, whatever the spelling of the name.", "quantifier": "for all histories of operations, names and values", "why_tests_cant": "the values are arbitrary strings; tests use file names without blanks", "anchors": ["src/Configuration/Configuration.hpp: get, getAndCatch, add2config", "src/Configuration/Configuration.cpp: readFromFile"]}
{"id": "C75", "title": "Depth queries agree with the layers of the grid", "statement": "On every variable grid with layers thicker than their spacing: the layer of a depth strictly between two interfaces is the one between them, on an interface the coarser neighbour, at the bottom the last; a depth is reported as interface exactly if it separates two layers, with the sign of the change of spacing; the distance to the interfaces is the smallest distance to such a depth; on regular grids the surface points are the first NX*NZ indices.", "quantifier": "for all accepted grids with enough room, all depths in the model, all indices", "why_tests_cant": "all layer configurations and depths; a test sees one grid", "anchors": ["src/Acquisition/Coordinates.cpp: getLayer, locatedOnInterface, getTransition, distToInterface, locatedOnSurface"]}
{"id": "C76", "title": "Configured variable grids are validated", "statement": "A variable grid read from a configuration is accepted only if its first interface is at depth zero, the interfaces are strictly increasing, there is one interface per layer, every grid factor is a power of three and neighbouring factors are equal or a factor three apart.", "quantifier": "for all grid configurations", "why_tests_cant": "all sequences of interfaces and factors; tests use one valid file", "anchors": ["src/Acquisition/Coordinates.cpp: Coordinates, init"]}
{"id": "C77", "title": "Derived seismic parameters are never stale", "statement": "Whatever sequence of setters, arithmetic, assignments, threshold applications, copies and preparations is applied to a seismic model, a const getter of a derived parameter (P and S modulus, inverse density, averaged inverse density, averaged S modulus, averaged tauS) either throws or returns the values that belong to the current velocities, density and attenuation; after prepareForModelling every parameter the forward solver of the equation reads is available.", "quantifier": "all five seismic equations, all parameter vectors, all averaging operators, all finite sequences of operations", "why_tests_cant": "The number of operation sequences is unbounded and stale caches only show for particular orders of calls; tests try a few orders.", "anchors": ["src/Modelparameter/ModelparameterSeismic.cpp:getPWaveModulus", "src/Modelparameter/ModelparameterSeismic.cpp:getSWaveModulus", "src/Modelparameter/ModelparameterSeismic.cpp:setDensity", "src/Modelparameter/Elastic.cpp:prepareForModelling", "src/Modelparameter/Elastic.cpp:calculateAveraging", "src/Modelparameter/Viscoelastic.cpp:getPWaveModulus", "src/Modelparameter/Modelparameter.cpp:calcAveragedSWaveModulus"]}
{"id": "C78", "title": "Thresholds bound the model and leave admissible values alone", "statement": "After applyThresholds every parameter of a non-vacuum point lies between its lower and upper threshold and the Vp/Vs ratio between the ratio thresholds; vacuum stays vacuum with density zero, a fluid keeps S velocity zero; points whose values obey all thresholds are not changed.", "quantifier": "all models, all points, all thresholds with lower not above upper, all five seismic equations", "why_tests_cant": "Depends on the interplay of the clips at special values (vacuum, fluids); tests sample ordinary rock.", "anchors": ["src/Modelparameter/Elastic.cpp:applyThresholds", "src/Modelparameter/Acoustic.cpp:applyThresholds", "src/Modelparameter/SH.cpp:applyThresholds", "src/Modelparameter/Viscoelastic.cpp:applyThresholds", "src/Common/Common.hpp:searchAndReplace", "src/Common/Common.hpp:replaceVpwithVs"]}
{"id": "C79", "title": "Solver parameters are finite, also in vacuum and fluids", "statement": "The moduli, inverse densities and averages that a prepared seismic model hands to the forward solver are finite numbers at every grid point, including vacuum (zero density and velocities, improved vacuum formulation) and fluids; no divisor used in their computation is zero.", "quantifier": "all models with non-negative attenuation, all points, all operation sequences", "why_tests_cant": "A single infinite entry spoils the whole wavefield after a few steps, but only in models with vacuum in the affected equation.", "anchors": ["src/Modelparameter/ModelparameterSeismic.cpp:getInverseDensity", "src/Modelparameter/Modelparameter.cpp:calcAveragedSWaveModulus", "src/Modelparameter/Modelparameter.cpp:calcInverseAveragedParameter", "src/Modelparameter/SH.cpp:prepareForModelling"]}
{"id": "C80", "title": "Viscous models have their velocities at the reference frequency", "statement": "The relaxed modulus M computed for viscoelastic and viscoSH models from density, velocity, tau and the relaxation frequencies is such that the real part of the complex modulus of the generalised standard linear solid, M(1+tau*sum_l i w/(w_l+i w)), at the reference frequency CenterFrequencyCPML equals density times velocity squared.", "quantifier": "all numbers of mechanisms, all positive relaxation frequencies, all tau >= 0, all densities and velocities", "why_tests_cant": "An identity over the reals for any number of mechanisms; tests compare a few numbers with the same formula.", "anchors": ["src/Modelparameter/Viscoelastic.cpp:getPWaveModulus", "src/Modelparameter/Viscoelastic.cpp:getSWaveModulus", "src/Modelparameter/ViscoSH.cpp:getSWaveModulus"]}
{"id": "C81", "title": "Derived electromagnetic parameters are never stale", "statement": "Whatever sequence of operations (initialise, set parameters, combine, copy, set relaxation data, apply thresholds, prepare) is applied to an electromagnetic model object, the velocity, inverse permeability and averaged parameters that a solver or a later user reads are those of the current parameters, or the read is refused.", "quantifier": "all four EM equation types, all grids, all operation sequences of any length", "why_tests_cant": "Staleness depends on histories of operations; tests exercise a handful of short ones.", "anchors": ["src/ModelparameterEM/ModelparameterEM.cpp:getVelocityEM", "src/ModelparameterEM/EMEM.cpp:prepareForModelling", "src/ModelparameterEM/TMEM.cpp:prepareForModelling", "src/ModelparameterEM/ViscoTMEM.cpp:calculateAveraging", "src/ModelparameterEM/ViscoEMEM.cpp:calculateAveraging"]}
{"id": "C82", "title": "Effective EM values are the response of the medium at the reference frequency", "statement": "The effective permittivity and conductivity computed for dispersive models are the real permittivity and conductivity response of the modelled Debye-type medium (static values, tau values, relaxation frequencies) to a harmonic field with the reference frequency; without relaxation they are the stored values.", "quantifier": "all numbers of relaxation mechanisms, all positive relaxation frequencies, all reference frequencies, all parameter values whose response is not below that of vacuum", "why_tests_cant": "An identity of complex rational functions for any number of mechanisms; tests compare a few numbers with the same formula.", "anchors": ["src/ModelparameterEM/ModelparameterEM.cpp:getDielectricPermittivityRealEffective", "src/ModelparameterEM/ModelparameterEM.cpp:getElectricConductivityRealEffective", "doc/guide/WAVE_Simulation_guide_EN.tex"]}
{"id": "C83", "title": "An EM model written to files and read again is the same model", "statement": "Writing an electromagnetic model to files and initialising a model from these files with the same relaxation settings gives the parameters that were written.", "quantifier": "all EM equation types, all grids, all parameter values", "why_tests_cant": "Files hold effective values while memory holds static ones; whether the two conversions are inverse for every value is an algebraic fact no sample settles.", "anchors": ["src/ModelparameterEM/ViscoTMEM.cpp:write", "src/ModelparameterEM/ViscoTMEM.cpp:init", "src/ModelparameterEM/EMEM.cpp:write", "src/ModelparameterEM/TMEM.cpp:init"]}
{"id": "C84", "title": "A homogeneous EM configuration equals files with the same values", "statement": "A homogeneous electromagnetic model given by values in the configuration is the same model as one read from files filled with these values.", "quantifier": "all EM equation types, all configuration values, all grids", "why_tests_cant": "Two code paths must agree for all values, including the dispersive conversions.", "anchors": ["src/ModelparameterEM/ViscoTMEM.cpp:init", "src/ModelparameterEM/ViscoEMEM.cpp:init", "src/ModelparameterEM/EMEM.cpp:init", "src/ModelparameterEM/TMEM.cpp:init"]}
{"id": "C85", "title": "EM thresholds bound the model, keep vacuum and leave admissible values alone", "statement": "After the thresholds were applied, permeability, conductivity and permittivity (and tau values) of every point that is not vacuum lie between the configured thresholds; vacuum stays vacuum; a point that already meets the thresholds is not changed; applying the thresholds again changes nothing.", "quantifier": "all EM equation types, all ordered thresholds, all models", "why_tests_cant": "The order of clipping, masking and conversions interacts; a test sees only the values it samples.", "anchors": ["src/ModelparameterEM/ViscoTMEM.cpp:applyThresholds", "src/ModelparameterEM/EMEM.cpp:applyThresholds"]}
{"id": "C86", "title": "A regular model on a variable grid keeps its values", "statement": "If a model given on a regular grid is used with a variable grid, every parameter of the wave equation has one value per point of the variable grid, namely the value of the regular model at the same coordinate.", "quantifier": "all wave equations that accept variable grids, all accepted variable grids, all models", "why_tests_cant": "Quantifies over all layerings, sizes and models.", "anchors": ["src/Modelparameter/Acoustic.cpp:init", "src/Modelparameter/Elastic.cpp:init", "src/ModelparameterEM/EMEM.cpp:init", "src/ModelparameterEM/TMEM.cpp:init", "src/ModelparameterEM/ViscoTMEM.cpp:init"]}
{"id": "C87", "title": "The model of a shot is the cut-out of the big model", "statement": "With a stream configuration every shot is simulated with a model that has, at each point of its window, all parameters of the big model at that place (including its relaxation mechanisms); windows that leave the big model are rejected.", "quantifier": "all nine wave equations, all grid sizes, all windows, all models", "why_tests_cant": "Quantifies over all windows and models; a missing member is invisible to tests that compare vectors.", "anchors": ["src/Modelparameter/Modelparameter.cpp:getShrinkMatrix", "src/Modelparameter/Viscoelastic.cpp:getModelPerShot", "src/Modelparameter/ViscoSH.cpp:getModelPerShot", "src/ModelparameterEM/ViscoTMEM.cpp:getModelPerShot", "src/Simulation.cpp"]}
{"id": "C88", "title": "Shot windows follow their sources", "statement": "With a stream configuration every shot has a window, every source has the same horizontal position in its window, the window of the leftmost source begins at the configured origin, and all sources of a supershot share a window.", "quantifier": "all lists of sources, all grid spacings and origins, all numbers of shot domains", "why_tests_cant": "Quantifies over all acquisition geometries.", "anchors": ["src/Acquisition/AcquisitionSettings.hpp:getCutCoord", "src/Acquisition/AcquisitionSettings.hpp:getSettingsPerShot", "src/Acquisition/Sources.cpp:calcSourceSettingsEncode"]}
{"id": "C89", "title": "Seismic rock matrix parameters represent the model", "statement": "Computing the rock matrix parameters of a seismic model from porosity and saturation, and the seismic parameters from these rock matrix parameters again, gives the density and velocities of the model.", "quantifier": "all seismic wave equations, all porosities and saturations, all densities and velocities of physical rocks", "why_tests_cant": "Quantifies over real values; the bulk modulus is a root of a quadratic equation whose branch depends on the values.", "anchors": ["src/Modelparameter/Elastic.cpp:calcRockMatrixParameter", "src/Modelparameter/Elastic.cpp:calcWaveModulusFromPetrophysics", "src/Modelparameter/Viscoelastic.cpp:calcRockMatrixParameter", "src/Modelparameter/SH.cpp:calcRockMatrixParameter", "src/Modelparameter/ViscoSH.cpp:calcRockMatrixParameter"]}
{"id": "C90", "title": "Porosity is recovered from seismic parameters", "statement": "The porosity computed from the seismic parameters of a point is the porosity from which these parameters were computed, up to the critical porosity.", "quantifier": "all seismic wave equations with a shear modulus, all porosities, saturations and rock matrix parameters", "why_tests_cant": "Quantifies over real values.", "anchors": ["src/Modelparameter/Elastic.cpp:calcPetrophysicsFromWaveModulus", "src/Modelparameter/SH.cpp:calcPetrophysicsFromWaveModulus"]}
{"id": "C91", "title": "Seismic parameters from porosity and saturation follow Gassmann", "statement": "The seismic parameters computed from porosity and saturation have the density of the mixture, the shear modulus of the frame, and the P-wave modulus K + 4/3 mu with K from Gassmann's equation.", "quantifier": "elastic and viscoelastic models, all porosities below the critical one, all saturations and rock matrix parameters", "why_tests_cant": "Quantifies over real values; a wrong factor is invisible to round-trip tests because both directions share it.", "anchors": ["src/Modelparameter/Elastic.cpp:calcWaveModulusFromPetrophysics", "src/Modelparameter/Viscoelastic.cpp:calcWaveModulusFromPetrophysics", "src/Modelparameter/ModelparameterSeismic.cpp:getBulkModulusM"]}
{"id": "C92", "title": "EM rock matrix parameters represent the model", "statement": "Computing water conductivity and matrix permittivity of an electromagnetic model from porosity and saturation, and the electromagnetic parameters from these again, gives the conductivity and permittivity of the model.", "quantifier": "all electromagnetic wave equations, all Archie factors, all porosities, saturations and models", "why_tests_cant": "Quantifies over real values and exponents.", "anchors": ["src/ModelparameterEM/ModelparameterEM.cpp:calcRockMatrixParameter", "src/ModelparameterEM/ModelparameterEM.cpp:calcWaveModulusFromPetrophysics"]}
{"id": "C93", "title": "Saturation and porosity are recovered from the permittivity", "statement": "The saturation (or, in every second call with exchange strategy 2, the porosity) computed from the permittivity of a point is the one from which the permittivity was computed.", "quantifier": "all exchange strategies and call numbers, all porosities, saturations and matrix permittivities", "why_tests_cant": "Quantifies over real values and call sequences.", "anchors": ["src/ModelparameterEM/ModelparameterEM.cpp:calcPetrophysicsFromWaveModulus"]}
{"id": "C94", "title": "Below the Courant limit a simulation stays bounded for all times", "statement": "For an acoustic, elastic, SH or electromagnetic simulation on a regular grid without absorbing boundaries, free surface and sources: if the time step is below DH / (gamma * sqrt(dimension) * vMax), where gamma is the sum of the absolute stencil coefficients of the spatial order, the energy norm of the wavefield never exceeds (1+theta)/(1-theta) times its initial value, where theta is the ratio of the time step to the limit. In particular an order-2 simulation that the stability check accepts with a time step different from the limit does not blow up.", "quantifier": "for every grid size, every spatial order, every initial wavefield, every number of time steps, and every heterogeneous model whose velocity is bounded by vMax", "why_tests_cant": "Tests run a few hundred steps of one or two models; slow exponential growth, growth on large grids only, or growth for special contrasts between neighbouring points stays invisible.", "anchors": ["src/CheckParameter/CheckParameter.hpp: checkStabilityCriterion", "src/ForwardSolver/ForwardSolver2Dacoustic.cpp: run", "src/ForwardSolver/ForwardSolver3Delastic.cpp: run", "src/ForwardSolverEM/ForwardSolver3Demem.cpp: run", "src/ForwardSolver/Derivatives/FDTD3D.cpp"]}
{"id": "C95", "title": "Attenuation only takes energy out of a wavefield", "statement": "For a viscoelastic (2D, 3D) or viscoelastic SH simulation without absorbing boundaries, free surface and sources, the energy of the wavefield (springs, Maxwell elements of the relaxation mechanisms, and motion) after n time steps is the initial energy minus the sum of what the relaxation mechanisms dissipated in the n steps. If the relaxation strengths are physical (mu tauS >= 0 and bulk relaxation not negative), each dissipated amount is not negative, so the energy never increases.", "quantifier": "for every grid, every heterogeneous model, every number of relaxation mechanisms, every relaxation time and time step, every initial wavefield and every number of time steps", "why_tests_cant": "Tests compare one trace with a stored one; a memory variable updated with a wrong sign or coefficient feeds energy into the wavefield slowly and only for some models.", "anchors": ["src/ForwardSolver/ForwardSolver2Dviscoelastic.cpp: run", "src/ForwardSolver/ForwardSolver3Dviscoelastic.cpp: run", "src/ForwardSolver/ForwardSolver2Dviscosh.cpp: run"]}
{"id": "C96", "title": "Below the Courant limit of the unrelaxed velocity an attenuating simulation stays bounded", "statement": "For a viscoelastic or viscoelastic SH simulation on a regular grid without absorbing boundaries, free surface and sources: if the time step is below DH / (gamma * sqrt(dimension) * v), where v belongs to the unrelaxed moduli M (1 + L tau), the wavefield including all memory variables stays within a fixed multiple of its initial size. A simulation that the stability check accepts does not blow up.", "quantifier": "for every grid size, every spatial order, every number of relaxation mechanisms, every initial wavefield, every number of time steps and every heterogeneous model", "why_tests_cant": "Blow-up appears after thousands of steps, only on large grids and only when the relaxation strength is large enough compared with the margin of the time step.", "anchors": ["src/CheckParameter/CheckParameter.hpp: checkStabilityCriterion", "src/ForwardSolver/ForwardSolver2Dviscosh.cpp: run", "src/ForwardSolver/ForwardSolver3Dviscoelastic.cpp: run", "src/Modelparameter/ViscoSH.cpp: getSWaveModulus"]}
{"id": "C97", "title": "Without relaxation strength the attenuating equations give the seismograms of the equations without attenuation", "statement": "If all relaxation strengths of a model are zero (tauP = tauS = 0; for electromagnetic models tauDielectricPermittivity = tauElectricConductivity = 0), then a run with the viscoelastic, viscoelastic SH, visco-EMEM or visco-TMEM equations produces exactly the seismograms of the elastic, SH, EMEM or TMEM run with the same configuration.", "quantifier": "for every regular grid (SH and electromagnetic: every grid), every model, every number of relaxation mechanisms and relaxation frequencies, every absorbing boundary and free surface setting, every sequence of shots with any sources and receivers and every number of time steps", "why_tests_cant": "The attenuating solvers are separate copies of the code with their own free surface classes; a test compares a few traces of one model with a tolerance and does not combine all boundary settings.", "anchors": ["src/ForwardSolver/ForwardSolver2Dviscoelastic.cpp: run", "src/ForwardSolver/ForwardSolver3Dviscoelastic.cpp: run", "src/ForwardSolver/ForwardSolver2Dviscosh.cpp: run", "src/ForwardSolver/BoundaryCondition/FreeSurfaceViscoelastic.cpp", "src/ForwardSolverEM/ForwardSolver2Dviscoemem.cpp: run", "src/ForwardSolverEM/ForwardSolver2Dviscotmem.cpp: run", "src/ForwardSolverEM/ForwardSolver3Dviscoemem.cpp: run"]}
{"id": "C98", "title": "Without shear modulus the elastic equations give the seismograms of the acoustic equations", "statement": "If the shear modulus of a model is zero everywhere, a 2D or 3D elastic run records at every pressure and velocity receiver exactly the seismogram of the acoustic run with the same configuration, provided no pressure source lies on a free surface.", "quantifier": "for every regular grid, every heterogeneous model without shear modulus, every absorbing boundary and free surface setting, every sequence of shots and every number of time steps", "why_tests_cant": "The two solvers use different variables, boundary classes, free surface formulas and normalisations of pressure sources and receivers; tests compare a few traces only.", "anchors": ["src/ForwardSolver/ForwardSolver2Delastic.cpp: run", "src/ForwardSolver/ForwardSolver3Delastic.cpp: run", "src/ForwardSolver/ForwardSolver2Dacoustic.cpp: run", "src/ForwardSolver/ForwardSolver3Dacoustic.cpp: run", "src/ForwardSolver/SourceReceiverImpl/FDTD2Delastic.cpp", "src/ForwardSolver/BoundaryCondition/FreeSurfaceElastic.cpp"]}
{"id": "C99", "title": "Exchange of source and receiver", "statement": "A run with a source of one kind at A and a receiver of another kind at B, and a run with the same signal, the source at B and the receiver at A, record the same seismogram sample by sample up to one constant factor per point and kind: the bulk modulus for pressure, the inverse density (with opposite sign) for particle velocity, the electric update coefficient for electric and the inverse permeability for magnetic components. The absorbing boundary does not disturb this as long as A and B lie outside it.", "quantifier": "for every regular grid, every spatial order, every heterogeneous model, every damping frame and every CPML, every pair of points outside the layers, every signal and every number of time steps", "why_tests_cant": "A test compares a few pairs of points in a few models. Reciprocity depends on the forward and backward derivative being transposed, on both half steps being damped alike, on the memory variables of both half steps and on the normalisation of sources and receivers, for every heterogeneous model.", "anchors": ["src/ForwardSolver/ForwardSolver2Dacoustic.cpp: run", "src/ForwardSolver/ForwardSolver3Dacoustic.cpp: run", "src/ForwardSolver/ForwardSolver2Delastic.cpp: run", "src/ForwardSolver/ForwardSolver3Delastic.cpp: run", "src/ForwardSolver/ForwardSolver2Dsh.cpp: run", "src/ForwardSolverEM/ForwardSolver2Demem.cpp: run", "src/ForwardSolverEM/ForwardSolver2Dtmem.cpp: run", "src/ForwardSolverEM/ForwardSolver3Demem.cpp: run", "src/ForwardSolver/BoundaryCondition/CPML.cpp", "src/ForwardSolver/SourceReceiverImpl"]}
{"id": "C100", "title": "Arithmetic of models", "statement": "Assigning a model replaces everything a solver reads: after an assignment and the preparation for modelling every parameter the solver reads is that of a new model with the assigned parameters, whatever was done with the object before. Adding and subtracting the same model restores the parameters, sums do not depend on the order, scaling distributes over sums and is undone by the inverse factor.", "quantifier": "for every equation type (seismic and electromagnetic), every model, every state of the object and every scale factor", "why_tests_cant": "The operators are written out per class and per parameter, twice (operator and virtual function), with cached quantities and dirty flags; a forgotten parameter or flag shows only for one class, one parameter and one order of calls.", "anchors": ["src/Modelparameter/Acoustic.cpp: operator=, operator+=, operator-=, operator*=", "src/Modelparameter/Elastic.cpp: operator=, operator+=, operator-=, operator*=", "src/Modelparameter/Viscoelastic.cpp: operator=, operator+=, operator-=, operator*=", "src/Modelparameter/SH.cpp: operator=", "src/Modelparameter/ViscoSH.cpp: operator=", "src/ModelparameterEM/TMEM.cpp: operator=", "src/ModelparameterEM/ViscoEMEM.cpp: operator="]}
{"id": "C101", "title": "Written rock matrix velocities", "statement": "The P- and S-wave velocities and the density written for the rock matrix are those of the matrix: density times squared S-wave velocity is its shear modulus, density times squared P-wave velocity is its bulk modulus plus four thirds of the shear modulus.", "quantifier": "for every equation type and all rock matrix parameters with positive density", "why_tests_cant": "An integer division in the factor changes the velocities by a few percent only, which looks plausible in any test that compares with stored output.", "anchors": ["src/Modelparameter/Elastic.cpp: writeRockMatrixParameter", "src/Modelparameter/Viscoelastic.cpp: writeRockMatrixParameter", "src/Modelparameter/SH.cpp: writeRockMatrixParameter", "src/Modelparameter/ViscoSH.cpp: writeRockMatrixParameter"]}
{"id": "C102", "title": "Horizontal stresses at the free surface", "statement": "At the points of the free surface the horizontal stresses follow Hooke's law (with attenuation: the law of the standard linear solid) for the horizontal strain of the time step and the vertical strain for which the vertical stress does not change.", "quantifier": "for every elastic and viscoelastic solver, every model with nonzero P-wave modulus, every number of relaxation mechanisms, every state of the wavefields, with and without CPML", "why_tests_cant": "The correction at the surface combines ratios of moduli; a wrong term changes amplitudes of surface waves only slightly, and no analytical value exists for a single time step of a full simulation.", "anchors": ["src/ForwardSolver/BoundaryCondition/FreeSurface2Delastic.cpp: exchangeHorizontalUpdate", "src/ForwardSolver/BoundaryCondition/FreeSurface3Delastic.cpp: exchangeHorizontalUpdate", "src/ForwardSolver/BoundaryCondition/FreeSurfaceElastic.cpp: setModelparameter", "src/ForwardSolver/BoundaryCondition/FreeSurfaceViscoelastic.cpp: setModelparameter", "src/ForwardSolver/BoundaryCondition/FreeSurface3Dviscoelastic.cpp: exchangeHorizontalUpdate", "src/ForwardSolver/ForwardSolver2Dviscoelastic.cpp: run"]}
{"id": "C103", "title": "Finite speed on the grid and domain of dependence", "statement": "A seismogram sample depends only on what is within reach on the grid: with a spatial order of s, nothing travels faster than s-1 points per time step (distances along the axes added up, measured between the staggered positions of source and receiver). Sample t is exactly zero if every source with a nonzero sample tau <= t is more than (t-tau)(s-1) points away. A simulation on a box of the grid gives exactly the samples of the simulation on the whole grid at receivers at least t(s-1) points away from the cut faces and from places where models, boundary settings or sources differ; if the sources are away from these places as well, the samples agree up to the time for the way there and back.", "quantifier": "for all 14 forward solvers, every model, every spatial order offered, regular grids of every size, with and without free surface, damping boundary, CPML and attenuation, all sources, receivers, signals and time steps", "why_tests_cant": "Tests compare single geometries with a tolerance; that the result is exactly independent of everything out of reach, for every geometry and time, is a statement about all dependencies of the time loop.", "anchors": ["src/ForwardSolver/ForwardSolver2Dacoustic.cpp: run", "src/ForwardSolver/ForwardSolver3Dviscoelastic.cpp: run", "src/ForwardSolver/ForwardSolver3Demem.cpp: run", "src/ForwardSolver/Derivatives/Derivatives.cpp: calcDxf, calcDyfFreeSurface, calcDybFreeSurface", "src/ForwardSolver/Derivatives/FDTD2D.cpp: initializeMatrices, initializeFreeSurfaceMatrices", "src/ForwardSolver/SourceReceiverImpl/SourceReceiverImpl.cpp: applySource, gatherSeismogram"]}
{"id": "C104", "title": "A time step applies only matrices that have been built", "statement": "Every derivative matrix that the forward solver multiplies with in a time step has been built during the initialisation and has not been purged again; so a configuration that passes the checks at program start can be simulated, and the results depend only on matrices with contents.", "quantifier": "for all pairs of dimension and equation type that the factory offers and all values of FreeSurface, useVariableGrid, partitioning, useStencilMatrix, useHybridFreeSurface and useVariableFDoperators; all models, boundary settings and matrix contents", "why_tests_cant": "The number of combinations is far larger than the set of example configurations, and a missing matrix only shows in the combination in which it is used; tests never run free surfaces together with electromagnetic equations or attenuation on variable grids.", "anchors": ["src/ForwardSolver/Derivatives/Derivatives.cpp: setup, getDyf, getDybStaggeredX, getDyfFreeSurface", "src/ForwardSolver/Derivatives/FDTD2D.cpp: init, initializeMatrices, initializeFreeSurfaceMatrices, getGraph", "src/ForwardSolver/Derivatives/FDTD3D.cpp: init, initializeMatrices, initializeFreeSurfaceMatrices", "src/ForwardSolver/ForwardSolver2Dviscoelastic.cpp: run", "src/ForwardSolver/ForwardSolver3Demem.cpp: run", "src/Simulation.cpp: main"]}
{"id": "C105", "title": "The memory estimate counts the matrices that are held", "statement": "The memory estimate that is printed before a run is based on the number of derivative matrices and interpolation matrices that are really held when the time stepping starts.", "quantifier": "for all configurations that pass the checks at program start", "why_tests_cant": "The counts are hand written formulas next to the code that builds the matrices; agreement in all combinations of the switches is a statement about both pieces of code.", "anchors": ["src/ForwardSolver/Derivatives/FDTD2D.cpp: getNumDMatrices, getNumInterpMatrices, estimateMemory, init", "src/ForwardSolver/Derivatives/FDTD3D.cpp: getNumDMatrices, getNumInterpMatrices, init"]}
{"id": "C106", "title": "A time step is the staggered-grid discretisation of the wave equations", "statement": "One time step advances the wavefields by the equation of motion and Hooke's law (or Maxwell's equations) on the staggered grid: every difference quotient is centred at the component that it updates, the CPML coefficients belong to that place, material parameters are those of that place, and the second half of the step uses the values of the first half.", "quantifier": "for all regular grids, stencil orders, time steps, grid spacings, material parameters, wavefields, CPML and damping coefficients and all eight non-attenuating solvers, without free surface", "why_tests_cant": "A wrong position of one coefficient or one derivative changes amplitudes only slightly and only in heterogeneous media or inside absorbing layers; comparing with reference seismograms at a tolerance does not show it.", "anchors": ["src/ForwardSolver/ForwardSolver3Delastic.cpp: run", "src/ForwardSolver/ForwardSolver2Dacoustic.cpp: run", "src/ForwardSolver/ForwardSolver2Dsh.cpp: run", "src/ForwardSolver/ForwardSolver3Demem.cpp: run", "src/ForwardSolver/BoundaryCondition/CPMLEM3D.cpp: apply_hyx", "src/ForwardSolver/BoundaryCondition/CPML.cpp: applyCPML"]}
{"id": "C107", "title": "Exchanging two axes of a set-up exchanges the seismograms", "statement": "If the whole set-up (grid, model, boundaries, sources, receivers) is mirrored so that two axes change roles, all seismograms stay the same: the two horizontal axes of 3D simulations also below a free surface, horizontal and vertical axis if there is no free surface. Magnetic components change their sign.", "quantifier": "for all grids, media, boundary coefficients, sources, receivers, signals and numbers of time steps of the eight non-attenuating solvers", "why_tests_cant": "It compares two different simulations for all media and times; only symmetric sample set-ups can be tried, and for these the exchange is invisible in part of the code.", "anchors": ["src/ForwardSolver/ForwardSolver3Delastic.cpp: run", "src/ForwardSolver/ForwardSolver3Demem.cpp: run", "src/ForwardSolver/BoundaryCondition/CPMLEM3D.cpp: apply_hyx", "src/ForwardSolver/BoundaryCondition/FreeSurface3Delastic.cpp: exchangeHorizontalUpdate", "src/ForwardSolver/Derivatives/FDTD3D.cpp: initializeMatrices"]}
{"id": "C108", "title": "Butterworth filters have the Butterworth gain at every frequency", "statement": "After calc(\"butterworth\", type, order, fc1, fc2), the power gain at every frequency f of the spectrum is 1/(1+(f/fc)^(2 order)) for low-pass filters, (f/fc)^(2 order)/(1+(f/fc)^(2 order)) for high-pass filters and the product of both for band-pass filters; half of the power passes at the corner frequency.", "quantifier": "for all trace lengths, sampling intervals, orders, corner frequencies and frequency indices", "why_tests_cant": "the polynomial is built by repeated convolution in the frequency domain and evaluated on all frequencies; a test compares one order on one signal", "anchors": ["src/Filter/Filter.cpp: calcButterPoly, calcFrequencyVector, calcFrequencyMat, calcButterworthLp, calcButterworthHp, calcButterworthBp"]}
{"id": "C109", "title": "Filtered tones keep their frequency and get the gain of the filter", "statement": "A tone with a whole number of periods in a trace of 2^m samples leaves a Butterworth filter as a tone of the same frequency with the amplitude multiplied by the gain at that frequency and a phase shift that depends on the frequency only; constant traces pass low-pass filters and are removed by the others.", "quantifier": "for all lengths 2^m >= 4, filters, amplitudes, phases and numbers of periods below the Nyquist frequency", "why_tests_cant": "holds for a continuum of amplitudes, phases and filters; the highest frequency is special and unlikely to be sampled", "anchors": ["src/Filter/Filter.cpp: apply, calc"]}
{"id": "C110", "title": "Filtering is linear and never adds energy", "statement": "A Butterworth filter maps sums of traces to sums of filtered traces, and the filtered trace has at most the energy of the trace.", "quantifier": "for all filters, trace lengths and traces", "why_tests_cant": "statement about all traces; a test sees single signals", "anchors": ["src/Filter/Filter.cpp: apply"]}
{"id": "C111", "title": "Butterworth filters are causal", "statement": "A sample of a filtered trace does not depend on later samples of the trace.", "quantifier": "for all filters and traces", "why_tests_cant": "the dependence on later samples is small and a test signal that ends with zeros hides it", "anchors": ["src/Filter/Filter.cpp: calcFrequencyMat, apply"]}
{"id": "C112", "title": "Hilbert transform and envelope of a trace", "statement": "The Hilbert transform turns cosines into sines, applied twice it negates traces without mean and without the highest frequency and it keeps their energy; the envelope of a tone is its amplitude, and an envelope is nowhere below the absolute value of its trace.", "quantifier": "for all trace lengths, amplitudes, phases, frequencies and traces", "why_tests_cant": "universal over traces; lengths just above a power of two are special", "anchors": ["src/Common/HilbertFFT.cpp: calcHilbertCoefficient, hilbert", "src/Common/Common.hpp: calcEnvelope"]}
{"id": "C113", "title": "The instantaneous phase is the phase of the analytic signal", "statement": "calcInstantaneousPhase returns the angle of the analytic signal (trace and its Hilbert transform); for a tone it advances by the same angle from sample to sample.", "quantifier": "for all traces and the phase types 1, 2 and 3", "why_tests_cant": "outputs look like phases (values within the documented interval) for every input, so plausibility tests pass", "anchors": ["src/Common/Common.hpp: calcInstantaneousPhase", "src/Acquisition/Seismogram.cpp: write"]}
{"id": "C114", "title": "The phase residual is minimal over all whole cycles", "statement": "calcInstantaneousPhaseResidual returns for each trace the phase difference shifted by a whole number of cycles, and no other number of cycles has a smaller norm; the search ends.", "quantifier": "for all phase differences", "why_tests_cant": "the search is a loop without bound over all integers", "anchors": ["src/Common/Common.hpp: calcInstantaneousPhaseResidual"]}
{"id": "C115", "title": "A single-frequency filter selects its frequency", "statement": "After calc(\"ideal\", \"bp\", 0, fc), the tone of the first resolved frequency not below fc passes unchanged and all other tones with whole numbers of periods are removed.", "quantifier": "for all lengths 2^m, sampling intervals, frequencies fc below the Nyquist frequency, amplitudes and phases, also when the filter object is used again", "why_tests_cant": "universal over tones; repeated use of one object is not covered by unit tests", "anchors": ["src/Filter/Filter.cpp: calcIdealFilt, calcIdealBp, apply"]}
{"id": "C116", "title": "A filter object applies the filter that was calculated last", "statement": "After several calls of calc on the same object, apply uses the filter of the last call.", "quantifier": "for all sequences of calls and all traces", "why_tests_cant": "depends on left-over state of earlier calls", "anchors": ["src/Filter/Filter.cpp: calc, apply", "src/Acquisition/Receivers.cpp: encode"]}
{"id": "C117", "title": "The two ways to calculate a single-frequency filter agree", "statement": "The single-frequency filter calculated with order 1 (sum over one frequency) gives the same result as with order 0 (Fourier transform), for single traces and for sets of traces; in particular it keeps amplitudes.", "quantifier": "for all tones and traces", "why_tests_cant": "both outputs look alike up to a factor, which a comparison of normalised traces does not show", "anchors": ["src/Filter/Filter.cpp: calcIdealBp, apply"]}
{"id": "C118", "title": "Curl and divergence snapshots separate shear and pressure waves", "statement": "In a homogeneous elastic medium without absorbing boundaries and free surface, the divergence snapshots (snapType 3) of an elastic simulation are those of an acoustic simulation with the same density and P-wave modulus, the curl snapshots do not depend on pressure sources and on the P-wave modulus; explosions give curl snapshots that are exactly zero and sources without divergence give divergence snapshots that are exactly zero.", "quantifier": "for all grid sizes, orders of the derivatives, source lists, moduli, densities and numbers of time steps, on regular grids in 2D and 3D", "why_tests_cant": "exact zeros and equality of two simulations at every point and time; a test sees one source, one model and rounding errors", "anchors": ["src/Wavefields/Wavefields2Delastic.cpp: getCurl, getDiv, write", "src/Wavefields/Wavefields3Delastic.cpp: getCurl, getDiv, write", "src/ForwardSolver/ForwardSolver2Delastic.cpp: run", "src/ForwardSolver/ForwardSolver3Delastic.cpp: run"]}
{"id": "C119", "title": "There are no magnetic charges", "statement": "The divergence of the magnetic flux density never changes during an electromagnetic simulation unless a magnetic source is active, and the divergence snapshots show it.", "quantifier": "for all media, electric sources, initial states and numbers of time steps", "why_tests_cant": "an invariant of all executions; violations are small and local and do not change seismograms visibly", "anchors": ["src/ForwardSolver/ForwardSolver3Demem.cpp: run", "src/ForwardSolver/ForwardSolver2Dtmem.cpp: run", "src/WavefieldsEM/Wavefields2Dtmem.cpp: getDiv, write", "src/WavefieldsEM/Wavefields3Demem.cpp: getDiv, write"]}
{"id": "C120", "title": "Electric charge is conserved", "statement": "Without conductivity the divergence of the electric displacement changes only by the sources; in a homogeneous conductive medium it decays by the factor (2 eps - sigma DT)/(2 eps + sigma DT) per time step and vanishes in the long run.", "quantifier": "for all permittivities, magnetic sources, initial states and numbers of time steps", "why_tests_cant": "an invariant of all executions", "anchors": ["src/ForwardSolver/ForwardSolver3Demem.cpp: run", "src/ForwardSolver/ForwardSolverEM.cpp: getAveragedCa, getAveragedCb"]}
{"id": "C121", "title": "Decomposition separates waves by direction", "statement": "With decomposeWavefieldType the up and down (left and right) parts of a snapshot add up to the wavefield, one of the two is zero at each point, and a wave that travels in one direction appears completely in the part of this direction and not in the other.", "quantifier": "for all wavefields, time derivatives, derivative matrices, grids and time steps", "why_tests_cant": "holds at every point for every wavefield; the result of one point depends on the maxima over the whole grid", "anchors": ["src/Wavefields/Wavefields2Dacoustic.cpp: decompose", "src/WavefieldsEM/Wavefields2Dtmem.cpp: decompose", "src/Simulation.cpp: main (time loop)"]}
{"id": "C122", "title": "Snapshots use only derivative matrices that exist", "statement": "Curl and divergence snapshots and the decomposition are calculated with matrices that were set up for the configuration and not purged.", "quantifier": "for all accepted configurations (equation, free surface, grid type, partitioning, stencil or sparse matrices, operators), all wavefields", "why_tests_cant": "a combination of eight settings; the matrices that are missing are empty and fail only in the combinations that nobody tries", "anchors": ["src/Wavefields/Wavefields2Delastic.cpp: getCurl, getDiv", "src/Wavefields/Wavefields2Dacoustic.cpp: decompose", "src/ForwardSolver/Derivatives/FDTD2D.cpp: init", "src/ForwardSolver/Derivatives/FDTD3D.cpp: init", "src/ForwardSolver/Derivatives/Derivatives.cpp: getDyf"]}
{"id": "C123", "title": "Snapshot files contain what was asked for", "statement": "Snapshots of types 1 and 2 together contain each vector the simulation computes with in exactly one file; a decomposition or snapshot type that is not available is refused, all others write the requested vectors with their current values.", "quantifier": "for all equations, numbers of relaxation mechanisms, snapType, decomposeWavefieldType and wavefields", "why_tests_cant": "all integers as settings; wrong requests succeed silently with wrong contents", "anchors": ["src/Wavefields/Wavefields*.cpp: write", "src/WavefieldsEM/Wavefields*.cpp: write", "src/Simulation.cpp: main (snapType, decomposeWavefieldType)"]}
{"id": "C124", "title": "The memory estimate counts all wavefields", "statement": "The memory that is estimated for the wavefields before a simulation is the memory of all vectors they allocate.", "quantifier": "for all equations and numbers of relaxation mechanisms", "why_tests_cant": "the number of relaxation mechanisms is not bounded", "anchors": ["src/Wavefields/Wavefields*.cpp: estimateMemory, init", "src/WavefieldsEM/Wavefields*.cpp: estimateMemory, init"]}
{"id": "C125", "title": "Compensation restores attenuated waves", "statement": "With compensation=1 an electromagnetic wavefield is multiplied with exp(sigma t / epsilon), where t is the time since it was emitted, and does not grow beyond the energy that was emitted; seismic simulations refuse compensation.", "quantifier": "for all electromagnetic equations, sources, permeabilities, initial wavefields and numbers of time steps", "why_tests_cant": "an identity between two simulations for all times", "anchors": ["src/Simulation.cpp: main (compensation)", "src/Modelparameter/Modelparameter.cpp: getCompensation", "src/WavefieldsEM/Wavefields3Demem.cpp: timesAssign"]}
{"id": "C126", "title": "Decoding gives each shot of a supershot its own traces", "statement": "After a supershot was simulated, the decoded seismogram of each member shot holds, for each component, the traces of the supershot at the receivers of this shot, in file order, with the polarity of its source undone, and nothing else. Traces of other members are not removed.", "quantifier": "for all mark tables, numbers of shots, receiver types, amplitudes and traces", "why_tests_cant": "positions in the mark table and in two matrices are counted at the same time; all tables and memberships", "anchors": ["src/Acquisition/Receivers.cpp: encode, decode"]}
{"id": "C127", "title": "Encoding inverts decoding", "statement": "Encoding member shots sums their traces, with the polarity of the source, at the receivers of the supershot. Encoding what was decoded gives the supershot back if no receiver is shared, and files of separately simulated shots can be encoded.", "quantifier": "for all mark tables, numbers of shots, receiver types, amplitudes and traces", "why_tests_cant": "a round trip over all tables", "anchors": ["src/Acquisition/Receivers.cpp: encode, decode", "src/IO/IO.hpp: readMatrix"]}
{"id": "C128", "title": "Decoded shots are written like other seismograms", "statement": "The files of decoded shots have the configured format and sampling interval, like the file of the supershot they come from.", "quantifier": "for all formats, resampling factors, mark tables and traces", "why_tests_cant": "the difference appears only with particular combinations of settings", "anchors": ["src/Acquisition/Receivers.cpp: encode", "src/Acquisition/Seismogram.cpp: write", "src/IO/IO.hpp: writeMatrix", "src/Simulation.cpp: main"]}
{"id": "C129", "title": "The grid of a shot is wide enough", "statement": "With receivers per shot, the width of the grid is chosen such that the source and all receivers of each shot lie outside the absorbing frame, or the run is rejected.", "quantifier": "for all numbers of shots, positions, cut positions and boundary widths", "why_tests_cant": "unbounded number of shots; the choice looks at a sample of the shots", "anchors": ["src/Acquisition/Receivers.cpp: getModelPerShotSize", "src/Acquisition/AcquisitionSettings.hpp: getSettingsPerShot"]}
{"id": "C130", "title": "The grid has the configured width", "statement": "Without streaming a simulation runs on the configured grid with NX points; with streaming the grid of a shot has the configured width if the shots fit into it and is not wider than necessary otherwise.", "quantifier": "for all numbers of shots, positions, cut positions and boundary widths", "why_tests_cant": "depends on the extreme positions over all shots", "anchors": ["src/Acquisition/Receivers.cpp: getModelPerShotSize", "src/Simulation.cpp: main"]}
{"id": "C131", "title": "The simulated medium has the frequency response of its parameters", "statement": "A harmonic oscillation in an attenuating medium sees the material law that the model parameters describe: stresses follow the velocity gradient with the complex moduli of the generalised standard linear solid, currents follow the electric field with the response of the Debye medium, up to an error that vanishes with the time step. These are the laws from which the model classes compute moduli and effective values at the reference frequency.", "quantifier": "for all frequencies, time steps below the sampling limit, numbers of relaxation mechanisms, relaxation times, media, grid points and harmonic fields", "why_tests_cant": "a statement about all frequencies and about a limit; a run shows one medium at one time step with discretisation errors of the derivatives mixed in", "anchors": ["src/ForwardSolver/ForwardSolver3Dviscoelastic.cpp: run", "src/ForwardSolver/ForwardSolver2Dviscoelastic.cpp: run", "src/ForwardSolver/ForwardSolver2Dviscosh.cpp: run", "src/ForwardSolverEM/ForwardSolverEM.cpp: getAveragedCa, getAveragedCb, getCc, getAveragedCd, getElectricConductivityEffectiveOptical, getDielectricPermittivityEffectiveOptical", "src/ForwardSolverEM/ForwardSolver3Dviscoemem.cpp: run"]}
{"id": "C132", "title": "Selecting shots by increment ends", "statement": "With a shot increment larger than the grid spacing the program selects shots from the source line and goes on: the selection ends, without reading outside its data, for every source file.", "quantifier": "for all source files on a line, grid spacings and increments", "why_tests_cant": "non-termination and reads outside a vector depend on the spacing of the sources relative to the increment; a test covers one layout", "anchors": ["src/Acquisition/Sources.cpp: getAcquisitionSettings", "src/Simulation.cpp: main"]}
{"id": "C133", "title": "Selected shots are spaced by the increment", "statement": "The shots selected by the increment are those closest to the places at multiples of the increment from the first source, the first source included, one for each such place up to the last source, in order and without repetition; without a usable increment all sources are kept.", "quantifier": "for all source lines, grid spacings and increments", "why_tests_cant": "the selection depends on all distances between sources and on rounding; only a general argument covers every line", "anchors": ["src/Acquisition/Sources.cpp: getAcquisitionSettings"]}
{"id": "C134", "title": "A kept shot keeps all its sources", "statement": "A shot that is selected by the increment is simulated with all the sources that the source file gives it.", "quantifier": "for all source files, increments and shots", "why_tests_cant": "a statement about all source files with several sources in a shot", "anchors": ["src/Acquisition/Sources.cpp: getAcquisitionSettings", "src/Acquisition/AcquisitionSettings.cpp: createSettingsForShot"]}
{"id": "C135", "title": "Each source emits the signal its line asks for", "statement": "In a run that is accepted every source emits, in every shot, the synthetic signal of its shape and parameters (wavelet type 1), the first line of the signal file (type 2) or the line of the signal file that belongs to it (type 3); a negative amplitude reverses a signal from a file.", "quantifier": "for all source files, signal files, numbers of samples, shots and distributions over processes", "why_tests_cant": "the assignment involves shot selection, row numbers and two conversions of the amplitude; tests look at single wavelets", "anchors": ["src/Acquisition/Sources.cpp: generateSignals, generateSyntheticSignal, readSignalFromFile, copySignalsToSeismogramHandler", "src/IO/IO.hpp: readMatrix"]}
{"id": "C136", "title": "Acceptance of source signals does not depend on the processes", "statement": "Whether a combination of source signals is accepted, and with which signals, does not depend on how many processes there are and which of them owns which source.", "quantifier": "for all source files, signal files and assignments of sources to processes", "why_tests_cant": "needs all distributions of the sources; the tests run on one process", "anchors": ["src/Acquisition/Sources.cpp: generateSignals", "src/Acquisition/Sources.hpp: wavelet_type_flag_2, wavelet_type_flag_3"]}
{"id": "C137", "title": "Exchange of source and receiver below a free surface", "statement": "With the free surface condition switched on, a run with a source at A and a receiver at B, and a run with the same signal, the source at B and the receiver at A, record the same seismogram sample by sample up to one constant factor per point and kind. A factor on the surface may differ from the factor of the same medium inside; nothing else changes.", "quantifier": "for every regular grid, spatial order, heterogeneous model, absorbing boundary on the other sides, every pair of points outside the layers (on or below the surface for forces, below it for explosions), every signal and number of time steps", "why_tests_cant": "needs the adjoint of the rows that image the wavefield at the surface together with the exchanged modulus there, for every model; a test compares a few seismograms with a tolerance that hides an asymmetry of a fraction of a percent", "anchors": ["src/ForwardSolver/Derivatives/Derivatives.cpp: calcDyfFreeSurface, calcDybFreeSurface", "src/ForwardSolver/BoundaryCondition/FreeSurfaceElastic.cpp", "src/ForwardSolver/BoundaryCondition/FreeSurfaceAcoustic.cpp", "src/ForwardSolver/ForwardSolver2Delastic.cpp: run", "src/ForwardSolver/ForwardSolver3Delastic.cpp: run", "src/ForwardSolver/ForwardSolver2Dacoustic.cpp: run", "src/ForwardSolver/ForwardSolver3Dacoustic.cpp: run", "src/ForwardSolver/ForwardSolver2Dsh.cpp: run"]}
{"id": "C138", "title": "Energy below a free surface", "statement": "With the free surface condition switched on and nothing else at the boundary, a wavefield without sources neither gains nor loses energy: a positive quadratic form of the wavefield, in which the points on the surface count for half a cell, has the same value after every time step.", "quantifier": "for every regular grid, spatial order, heterogeneous acoustic, SH or elastic model, every wavefield without traction on the surface and every number of time steps", "why_tests_cant": "needs the sum over all points of the products of the imaged derivatives, an identity for every model and wavefield; a test can watch one run for a limited time and cannot tell a slow gain from rounding", "anchors": ["src/ForwardSolver/Derivatives/Derivatives.cpp: calcDyfFreeSurface, calcDybFreeSurface", "src/ForwardSolver/BoundaryCondition/FreeSurfaceElastic.cpp: setModelparameter, init", "src/ForwardSolver/BoundaryCondition/FreeSurfaceAcoustic.cpp: init", "src/ForwardSolver/ForwardSolver2Delastic.cpp: run", "src/ForwardSolver/ForwardSolver3Delastic.cpp: run", "src/ForwardSolver/ForwardSolver2Dacoustic.cpp: run", "src/ForwardSolver/ForwardSolver2Dsh.cpp: run"]}
{"id": "C139", "title": "Stability below a free surface", "statement": "With the free surface condition switched on, a run whose time step is below the limit for which the same medium is stable without it stays bounded for all times: the sum of squares of the wavefield never exceeds a constant times its initial value, and the constant does not depend on the number of time steps.", "quantifier": "for every regular grid, spatial order, heterogeneous acoustic, SH or elastic model, every wavefield without traction on the surface and every number of time steps", "why_tests_cant": "an unstable surface mode can grow by a fraction of a percent per step and remain invisible in a short test; boundedness for all models and times needs an energy argument", "anchors": ["src/ForwardSolver/Derivatives/Derivatives.cpp: calcDyfFreeSurface, calcDybFreeSurface", "src/ForwardSolver/BoundaryCondition/FreeSurfaceElastic.cpp", "src/ForwardSolver/BoundaryCondition/FreeSurfaceAcoustic.cpp", "src/CheckParameter/CheckParameter.hpp: checkStabilityCriterion"]}
{"id": "C140", "title": "Arithmetic of wavefields", "statement": "Copying, adding, subtracting, scaling, compensating, transforming and resetting a wavefield object acts on every vector the simulation goes on with: a simulation that continues from a copy records the same seismograms, from a sum the sum, from a multiple the multiple; the time derivative formed in the time loop is the difference quotient of every vector; and all operators that are offered under the same name do the same.", "quantifier": "for all fourteen wavefield classes, all objects, all numbers of relaxation mechanisms, all models, boundary conditions, sources and receivers", "why_tests_cant": "every class repeats the operators for its own list of vectors; a forgotten vector shows only in a simulation that continues, and out-of-range accesses may go unnoticed", "anchors": ["src/Wavefields/Wavefields.cpp: operator=, operator-=, operator+=, operator*=", "src/Wavefields/Wavefields2Dacoustic.cpp: assign, minusAssign, plusAssign, timesAssign, applyTransform, resetWavefields, operator*, operator*=", "src/Wavefields/Wavefields3Dviscoelastic.cpp: assign, operator*", "src/WavefieldsEM/Wavefields2Dviscotmem.cpp: operator*", "src/Simulation.cpp: main (wavefieldsTemp)"]}
{"id": "C141", "title": "Infinite wavefields stop the run", "statement": "After the time loop of a shot the run stops with an error if a wavefield contains an infinite or NaN value, and only then.", "quantifier": "for all wavefield classes, all distributions of the points to processes and all positions of the infinite values", "why_tests_cant": "the verdict depends on which point and which vector is infinite; a test tries one blow-up, usually one that has spread everywhere", "anchors": ["src/Simulation.cpp: main (isFinite)", "src/Wavefields/WavefieldsSeismic.cpp: isFinite", "src/WavefieldsEM/WavefieldsEM.cpp: isFinite"]}
{"id": "C142", "title": "Hilbert transform with a finite impulse response", "statement": "The FIR Hilbert transform of a trace is the convolution with the windowed impulse response of the Hilbert transform: it is linear, shifts a harmonic of any frequency, amplitude and phase by exactly a quarter of its period, removes constants, gives the same for a vector and for the row of a matrix, and is defined for every kernel size.", "quantifier": "for all kernel sizes, all traces of any length and all samples of the trace, also at its ends", "why_tests_cant": "the exact quarter period at every frequency and the behaviour of every sample at the ends cannot be sampled; the loops have several boundary cases (parity of the index, last samples)", "anchors": ["src/Common/HilbertFIR.cpp: calcHilbertCoefficient, hilbert", "src/Common/Hilbert.hpp: HilbertFIR"]}
{"id": "C143", "title": "Weights of a shot window", "statement": "The weights that put the model of a shot window back into the big model are 0 outside the window, 1 inside and squared sines over the left and right borders, so that the weights of neighbouring windows whose borders lie over each other add up to 1 at every point.", "quantifier": "for all sizes of the big model and the window, all positions of the window, all widths of the borders and all points of the big model", "why_tests_cant": "a sum of 1 at every point for every size is a statement about infinitely many grids; errors in one plane or at one edge are not seen in a sample of 2D windows", "anchors": ["src/Modelparameter/Modelparameter.cpp: getShrinkVector"]}
{"id": "C144", "title": "Minimum velocity of a model", "statement": "The minimum velocity of a model is the smallest velocity of any wave of the wave equation in the model, disregarding places where the velocity is at most 1 m/s (air or vacuum).", "quantifier": "for all wave equations, all models and all numbers of points", "why_tests_cant": "the smallest value of an arbitrary vector, with replacement of small values, is not determined by samples; the choice of the vector depends on the physics", "anchors": ["src/Modelparameter/Modelparameter.cpp: getVmin", "src/Common/Common.hpp: searchAndReplace"]}
{"id": "C145", "title": "Reflectivity of a model", "statement": "The reflectivity that is computed from a model is, at each point, the reflection coefficient at normal incidence of the interface to the point below: a number between -1 and 1, which is 0 where the model does not change.", "quantifier": "for all wave equations, all models of positive density, velocity, permittivity and permeability, all grid sizes, all spatial orders, all time steps and grid spacings and all points", "why_tests_cant": "the coefficient must be right at every point of every model and must not depend on the time step and grid spacing from which the derivative matrix is scaled; samples of smooth models at the default order do not show what happens at other orders, at the edges or in fluids", "anchors": ["src/Modelparameter/Acoustic.cpp: calcReflectivity", "src/Modelparameter/Elastic.cpp: calcReflectivity", "src/Modelparameter/SH.cpp: calcReflectivity", "src/Modelparameter/Viscoelastic.cpp: calcReflectivity", "src/Modelparameter/ViscoSH.cpp: calcReflectivity", "src/ModelparameterEM/ModelparameterEM.cpp: calcReflectivity", "src/Modelparameter/Modelparameter.cpp: calcAverageMatrixY"]}
{"id": "C146", "title": "Weights of the grid points for the partitioner", "statement": "The weights handed to the graph partitioner are positive, add up to one and are proportional to the work of a time step at each point: the matrix products of the solver at the price of their order, its vector operations, and its CPML corrections along each axis in whose absorbing frame the point lies.", "quantifier": "for all equations, grids (regular and variable), orders, frame widths, free surface settings and grid points", "why_tests_cant": "wrong weights give right seismograms and only a worse load balance, and the operation counts must agree with what the time step really does for all fourteen solvers", "anchors": ["src/Partitioning/Partitioning.hpp: Weights"]}
{"id": "C147", "title": "Profiles collect a trace of each shot", "statement": "If every shot has one source, the file with the source signals of all shots (or the receiver file, if every shot has one receiver) holds in its row for a shot the trace of that shot, under the component of that trace.", "quantifier": "for all numbers of shots, all signals, all components of the sources, all numbers of shot domains and all distributions of the shots over the domains", "why_tests_cant": "a test runs a few shots of one component on one domain; loss or mixing depends on the order of the shots, the components and the domains together", "anchors": ["src/Simulation.cpp: main", "src/Acquisition/Seismogram.cpp: write, sumShotDomain", "src/Acquisition/SeismogramHandler.cpp: setShotInd, sumShotDomain, allocateCOP, assignCOP"]}
{"id": "C148", "title": "The model creation tool writes the model of two layers", "statement": "After the tool TwoLayer has run with a configuration file, a simulation with the same file and ModelRead=1 finds all files it needs and simulates a model whose parameters have one value above a depth of 40 grid points and another from there on.", "quantifier": "for all grid sizes, all equation types that the simulation accepts, in any spelling it accepts, and all grid points", "why_tests_cant": "a test covers one grid and one equation; which files are missing depends on the equation, and the position of a value in the file on all three sizes", "anchors": ["src/Tools/CreateModel/TwoLayer.cpp: main", "src/Modelparameter/ModelparameterFactory.cpp: Create", "src/IO/IO.hpp: readVector"]}
{"id": "C149", "title": "The memory estimate of absorbing boundaries is the size of what they store", "statement": "The memory that a simulation reports for its absorbing boundary before it starts equals the size of the values that the boundary stores while the simulation runs, in MiB.", "quantifier": "for all grids, all distributions of the grid points over processes, all boundary widths, with and without free surface, both kinds of boundaries, all equation types and both floating point types", "why_tests_cant": "the estimate is a printed number; what is stored depends on the equation, the frame and the distribution, and is not observable", "anchors": ["src/ForwardSolver/ForwardSolver.cpp: estimateBoundaryMemory", "src/ForwardSolver/BoundaryCondition/CPML2D.cpp: estimateMemory, init", "src/ForwardSolver/BoundaryCondition/CPML3D.cpp: estimateMemory, init", "src/ForwardSolver/BoundaryCondition/ABS2D.cpp: estimateMemory, init", "src/ForwardSolverEM/BoundaryCondition/CPMLEM2D.cpp: estimateMemory"]}
{"id": "C150", "title": "Seismograms are read back as they were written", "statement": "Seismograms that a simulation writes are read back unchanged, for each component that has traces, by a later run with the same configuration, in each file format; the gains of the automatic gain control are read back too. If the traces of all shots are collected in a profile, each shot reads its own trace from the file of the profile. Writing one component leaves the files of other components alone.", "quantifier": "for all components, numbers of traces and samples, file formats, file names, shot numbers, and numbers of processes that write and that read", "why_tests_cant": "the formats, the name rules and the process counts multiply, and a file with the wrong row or a stale file looks like a seismogram", "anchors": ["src/Acquisition/Seismogram.cpp: write, read", "src/Acquisition/SeismogramHandler.cpp: write, read", "src/IO/IO.hpp: writeMatrix, readMatrix", "src/IO/SUIO.cpp: writeSU, readDataSU"]}
{"id": "C151", "title": "The configuration chooses the equations that are solved", "statement": "With a dimension and an equation type in the configuration, spelled with upper or lower case letters, the simulation works with wavefields, model parameters, derivatives, solver and source coupling of this dimension and this equation, and its checks use the velocities of the waves of this equation. All other values are rejected with an error message before anything is computed.", "quantifier": "for all strings given as dimension and equation type", "why_tests_cant": "the strings are compared in many places, some with and some without regard to case; tests use one spelling and valid combinations", "anchors": ["src/Simulation.cpp: main", "src/Wavefields/WavefieldsFactory.cpp: Create", "src/ForwardSolver/ForwardSolverFactory.cpp: Create", "src/Modelparameter/ModelparameterFactory.cpp: Create", "src/ForwardSolver/Derivatives/DerivativesFactory.cpp: Create", "src/ForwardSolver/SourceReceiverImpl/SourceReceiverImplFactory.cpp: Create", "src/CheckParameter/CheckParameter.hpp: checkNumericalArtefactsAndInstabilities, checkStabilityCriterion", "src/Common/Common.hpp: checkEquationType"]}
{"id": "C152", "title": "Changing the order of the grid points in a vector loses nothing", "statement": "On grids without layers the two matrices of the wavefields that change the order of the grid points exist for each distribution of the points to processes. One gives the values of a vector in the order with y running fastest, then x, then z; the other one goes back from this order. Applied one after the other, in any order, they leave each vector unchanged.", "quantifier": "for all grid sizes, all distributions of the points and all vectors", "why_tests_cant": "a wrong factor in the column is not seen on cubes or planes of equal sides; tests use one process and one size", "anchors": ["src/Wavefields/Wavefields.cpp: calcTransformMatrixXYZ"]}
{"id": "C153", "title": "The files with coordinates say where each grid point is", "statement": "The three files with coordinates that the simulation writes on request have one entry for each grid point, whatever the distribution of the points to processes. A source or receiver at the coordinates written for a point is at this point, so no two points have the same coordinates. This also holds for grids with layers of different spacings.", "quantifier": "for all grids with or without layers that the constructor accepts and whose layers are not cut off, and all distributions", "why_tests_cant": "tests look at a few points of small grids and at one distribution", "anchors": ["src/Acquisition/Coordinates.cpp: getCoordinates, writeCoordinates, index2coordinate, coordinate2index"]}
{"id": "C154", "title": "The lists of selected and encoded shots can be read back", "statement": "Reading the text file with the selected shots, by separating numbers at spaces and lines at line ends and leaving out comments, gives for each selected shot its position in the original list, counted from one, and its shot number. Reading the file with the encoded shots gives for each supershot its number and the positions of exactly the shots it contains, in increasing order.", "quantifier": "for all lists of shots with 32 bit numbers and all assignments of shots to supershots", "why_tests_cant": "the columns have a fixed width without a separator, so that only very long lists run together; tests have few shots", "anchors": ["src/Acquisition/Sources.cpp: writeShotIndsIncr, writeSourceEncode", "src/Acquisition/AcquisitionSettings.hpp: calcuniqueShotNo"]}
{"id": "C155", "title": "Frequency filters are stable and delay", "statement": "The transfer functions of low-pass, high-pass and band-pass filters of one order come from one polynomial with real coefficients whose zeros all have a negative real part, so that the filters are those of a stable system. A low-pass of second order delays each positive frequency and does not advance it.", "quantifier": "for all orders, corner frequencies, sampling intervals and trace lengths for which a filter can be calculated", "why_tests_cant": "a sign error in the polynomial leaves the gain at every frequency unchanged, and tests compare gains", "anchors": ["src/Filter/Filter.cpp: calcButterPoly, calcButterworthLp, calcButterworthHp, calcButterworthBp"]}
{"id": "C156", "title": "Copies and arithmetic of seismograms", "statement": "Sums and differences of seismograms of the same size have the sums and differences of the samples; other sizes are rejected. Subtracting what was added gives the first seismogram back, sums do not depend on the order, and factors are distributive. A vector of factors scales the traces if it has one factor for each trace, and the samples if it has one for each sample. Copies and assigned seismograms have the samples, the header and the role in a profile of the original.", "quantifier": "for all seismograms of any size and all factors", "why_tests_cant": "tests compare a few samples of one sum, and do not look at the members that copies leave out or at sizes where both meanings of a vector are possible", "anchors": ["src/Acquisition/Seismogram.cpp: Seismogram(const Seismogram &), swap, operator=, operator+, operator-, operator+=, operator-=, operator*="]}
{"id": "C157", "title": "All processes of a shot domain work on the same shots", "statement": "In a run with several processes, the processes of one shot domain simulate the same shots in the same order, each shot is simulated, and no shot is simulated by two domains, however the shot domains are defined (by number, by node or by the environment variable DOMAIN).", "quantifier": "for all numbers of processes and shots, all numbers of domains that are accepted, and all assignments of processes to domains", "why_tests_cant": "tests run on one process or with domains of equal size; with other assignments the processes of a domain wait for each other for ever, depending on the number of shots", "anchors": ["src/Partitioning/Partitioning.hpp: getShotDomain", "src/Simulation.cpp: main (commShot, commInterShot, shotDist)"]}
{"id": "C158", "title": "A seismic model written to files and read again is the same model", "statement": "Writing an acoustic, elastic, viscoelastic, sh or viscosh model and reading it with the same settings gives all its parameters back, including porosity, saturation and reflectivity if the settings ask for them. A model is read exactly if all its files exist with one value for each grid point; other file formats are rejected. Models with different names or formats do not overwrite each other. The files can also be read for every equation that needs some of these parameters only.", "quantifier": "for all models, grid sizes, names, file formats, settings and contents of the disk", "why_tests_cant": "a test writes one model of one class; a wrong suffix or condition in another class or setting is not noticed", "anchors": ["src/Modelparameter/Acoustic.cpp: init, write", "src/Modelparameter/Elastic.cpp: init, write", "src/Modelparameter/Viscoelastic.cpp: init, write", "src/Modelparameter/SH.cpp: init, write", "src/Modelparameter/ViscoSH.cpp: init, write", "src/Modelparameter/Modelparameter.cpp: initModelparameter", "src/IO/IO.hpp: readVector, writeVector"]}
{"id": "C159", "title": "The configured model is the one that is simulated", "statement": "With ModelRead=1 a seismic simulation uses the values of the model files at the positions of its grid points, on regular and on variable grids; with ModelRead=2 the files hold one value for each point of the variable grid, and this is rejected on regular grids and for equations without variable grids; with other values the model is homogeneous with the values of the configuration and no file is needed. Files that are missing or have another number of values are rejected.", "quantifier": "for all seismic equations, all settings of ModelRead and UseVariableGrid, all grids that are accepted, all files, and all model objects before", "why_tests_cant": "tests cover single combinations of equation, ModelRead and UseVariableGrid; a wrong combination gives a simulation of another model without an error", "anchors": ["src/Modelparameter/Acoustic.cpp: init", "src/Modelparameter/Elastic.cpp: init", "src/Modelparameter/Viscoelastic.cpp: init", "src/Modelparameter/SH.cpp: init", "src/Modelparameter/ViscoSH.cpp: init"]}
{"id": "C160", "title": "The partitioning graph shows which points exchange values", "statement": "The graph given to the partitioning tools on a regular grid is symmetric, connects no point with itself, and connects two different points exactly if a spatial derivative at one of them uses the value at the other.", "quantifier": "for all regular 2D and 3D grids with at least two points along each used axis, all spatial orders 2 to 12, all spacings and all pairs of points", "why_tests_cant": "the entries are differences of stencil coefficients of different orders at the edges, which could cancel; the effect of a missing or one-sided edge is only the quality of the partition or a failure inside the tool", "anchors": ["src/ForwardSolver/Derivatives/FDTD2D.cpp: getGraph", "src/ForwardSolver/Derivatives/FDTD3D.cpp: getGraph", "src/ForwardSolver/Derivatives/Derivatives.cpp: calcDxb, calcDyb, calcDzb"]}
{"id": "C161", "title": "Encoded shots get different frequencies inside the band", "statement": "With source encoding and a gradient in the frequency domain all shots of a supershot get different frequencies. Each is a positive even multiple of the frequency sampling, not below the lower limit of the band and above the upper limit by less than one sample. The random choice comes to an end and uses no memory outside its arrays. The list of frequencies of a supershot holds exactly the frequencies of its shots. Without encoding all multiples from half the lower to twice the upper limit are used.", "quantifier": "for all numbers of shots and supershots, encoding modes 1 to 3, all bands and frequency samplings and all sequences of random numbers", "why_tests_cant": "the frequencies are drawn at random; two equal frequencies in one supershot are rare and only make the decoded data of two shots inseparable", "anchors": ["src/Acquisition/Sources.cpp: calcSourceSettingsEncode", "src/Acquisition/Sources.cpp: getSourceFC", "src/Acquisition/AcquisitionSettings.hpp: calcuniqueShotNo"]}
{"id": "C162", "title": "The distribution of the grid fits the coordinates", "statement": "The grid that is distributed onto the processes has as many points as the coordinates used for the model, and the position of each point in the distribution is the index of its coordinate. The same holds for the coarser grid of the inversion; its points are exactly the points of the model at multiples of its factor, and each point of the model has one of them less than the factor away.", "quantifier": "for all configured sizes, widths of the grid of the shots, factors of the inversion grid and all points", "why_tests_cant": "sizes are computed in two places with floating-point divisions and the dimensions are given in another order; a mismatch appears only for sizes not divisible by the factor or for shots wider than the configured grid", "anchors": ["src/Partitioning/Partitioning.hpp: gridPartition, gridPartitionInversion", "src/Acquisition/Coordinates.cpp: init, coordinate2index", "src/Simulation.cpp: main"]}
{"id": "C163", "title": "Files of a shot carry the position of its source", "statement": "The SU headers of the seismograms of a shot carry the position of its source and of the receiver of each trace, and the offset between them, whatever shots were simulated before. The files of the source signals carry the positions of the sources, so that they can serve as the sources of another simulation.", "quantifier": "for all grids without layers, acquisitions, sequences of shots, grid spacings and receivers", "why_tests_cant": "the position of the source is handed over when the time steps start and stays in the receivers between shots; a stale or missing position shows only in header fields of later shots and of other kinds of files, which no run compares with the acquisition", "anchors": ["src/ForwardSolver/SourceReceiverImpl/SourceReceiverImplSeismic.cpp: SourceReceiverImplSeismic", "src/ForwardSolverEM/SourceReceiverImpl/SourceReceiverImplEM.cpp: SourceReceiverImplEM", "src/Acquisition/SeismogramHandler.cpp: setSourceCoordinate, resetSeismograms", "src/IO/SUIO.hpp: writeSU", "src/Simulation.cpp: main"]}
{"id": "C164", "title": "The file of shot frequencies lists every shot", "statement": "The file that a simulation in the frequency domain writes beside the sources lists, for each supershot or shot, its number followed by the frequencies it is simulated with. A reader that splits lines at spaces gets back the numbers and the frequencies as printed, each frequency at the supershot it belongs to.", "quantifier": "for all shots, encodings, numbers of supershots, frequencies and lengths of the printed numbers", "why_tests_cant": "the columns have fixed widths and the rows are collected by shot number; whether columns run together or a frequency lands at another supershot depends on the numbers of shots and digits, and a missing shot leaves a well-formed file", "anchors": ["src/Acquisition/Sources.cpp: writeSourceFC", "src/Acquisition/AcquisitionSettings.hpp: calcuniqueShotNo"]}
{"id": "C165", "title": "Records of the choice of shots do not overwrite each other or the input", "statement": "The files that record the selected shots, the supershots, the frequencies and the receivers of each supershot have different names for different stages, iterations, supershots and kinds of records, and none of them is a text file or matrix that the program reads as input, even if sources and receivers are configured with the same file name.", "quantifier": "for all configured file names, stages, iterations, shot numbers and pairs of records", "why_tests_cant": "names are put together from texts of numbers; two records share a file only for particular pairs of numbers, and the loss of the older file is silent", "anchors": ["src/Acquisition/Sources.cpp: writeShotIndsIncr, writeSourceEncode, writeSourceFC, getAcquisitionSettings", "src/Acquisition/Receivers.cpp: writeReceiverMark, getAcquisitionSettings", "src/IO/IO.hpp: writeVector, readMatrix"]}
{"id": "C166", "title": "The log of randomly chosen shots can be read back", "statement": "The log of an inversion with randomly chosen shots holds one line for each iteration since the inversion was started, with stage, iteration and the numbers of the chosen shots in their order, whatever an older inversion left in the file. Different choices of shots give different logs.", "quantifier": "for all shot numbers, choices, stages, iterations, sequences of calls and older contents of the file", "why_tests_cant": "the file is continued over all iterations in columns of fixed width; numbers run together only for shot numbers above a limit and in later columns, and the damaged log still looks like numbers", "anchors": ["src/Acquisition/AcquisitionSettings.hpp: writeRandomShotNosToFile"]}
