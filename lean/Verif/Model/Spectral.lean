import Verif.Model.Common
import Mathlib.Analysis.SpecialFunctions.Complex.Arg
import Mathlib.Analysis.SpecialFunctions.Trigonometric.Arctan
import Mathlib.Algebra.BigOperators.Group.Finset.Basic
/-!
# Frequency filter, Hilbert transform, envelope and instantaneous phase

`/repo/src/Filter/Filter.cpp`, `/repo/src/Common/HilbertFFT.cpp`, `/repo/src/Common/Common.hpp`.

Numbers are exact reals; `M_PI` is π. Traces are lists of samples, spectra are functions of the index
together with their length.
-/
namespace Verif.Spectral
open Finset

/-! ### Fourier transform -/

/-- `exp(2πi m / N)`. -/
noncomputable def cis (N : ℕ) (m : ℤ) : ℂ := Complex.exp (2 * Real.pi * Complex.I * (m / N))

/-- `scai::lama::fft` of a vector of length `N` (library function: the unnormalised sum with negative
exponent is assumed). -/
noncomputable def fft (N : ℕ) (x : ℕ → ℂ) (k : ℕ) : ℂ := ∑ t ∈ range N, x t * cis N (-(k * t))

/-- `scai::lama::ifft` of a vector of length `N` (unnormalised sum with positive exponent; the callers
divide by the length themselves). -/
noncomputable def ifft (N : ℕ) (X : ℕ → ℂ) (t : ℕ) : ℂ := ∑ k ∈ range N, X k * cis N (k * t)

/-- A real trace as complex vector; `resize` to a longer vector fills with zeros. -/
noncomputable def padded (x : List ℝ) (t : ℕ) : ℂ := (x.getD t 0 : ℝ)

/-- `fSignal.resize(signal.getDistributionPtr())` of a vector of length `N` and a function of its entries
(real or imaginary part): cut to, or filled with zeros up to `nt` entries. -/
def cut (nt N : ℕ) (f : ℂ → ℝ) (y : ℕ → ℂ) : List ℝ :=
  (List.range nt).map fun t => if t < N then f (y t) else 0

/-! ### Filter -/

/-- Member variables of `Filter` (Filter.hpp:38-44). `len` is the length of the vector `filter`;
`line` stands for the matrices `L` and `Linv` of one frequency (index `fc1Ind`) or their absence. -/
structure Filter where
  zeroPadding : Int
  len : ℕ
  tf : ℕ → ℂ
  dt : ℝ
  NT : ℕ
  line : Option ℕ

/-- `df`, Filter.cpp:15. -/
noncomputable def Filter.df (F : Filter) : ℝ := 1 / (F.len * F.dt)

/-- `fNyquist`, Filter.cpp:16. -/
noncomputable def Filter.fNyquist (F : Filter) : ℝ := 1 / (2 * F.dt)

/-- `Filter::init`, Filter.cpp:7-18, on a new object. A filter of length 0 (`nt = 1`) divides by zero. -/
noncomputable def init (dt : ℝ) (nt : Int) : Out Filter :=
  if dt = 0 then .err
  else do
    let (pad, len) ← Common.filterLength nt
    if len ≤ 0 then .ub else .ok ⟨pad, len.toNat, fun _ => 1, dt, nt.toNat, none⟩

/-- `calcFrequencyVector`, Filter.cpp:24-30, entry `k`; `nFreq = fNyquist / df` is `len / 2`
(in exact arithmetic). -/
noncomputable def Filter.freq (F : Filter) (k : ℕ) : ℝ :=
  if k ≤ F.len / 2 then k * F.df
  else (-(((F.len / 2 : ℕ) : ℝ) - 1) + ((k - (F.len / 2 + 1) : ℕ) : ℝ)) * F.df

/-- `polyTemp`, Filter.cpp:82-89, 97-98: coefficients of `1 + c s + d s²`. -/
def quadratic (c d : ℝ) (j : ℕ) : ℝ := if j = 0 then 1 else if j = 1 then c else if j = 2 then d else 0

/-- Middle coefficient of a factor of the Butterworth polynomial, Filter.cpp:89. -/
noncomputable def butterCoef (order iOrder : ℕ) : ℝ :=
  -2 * Real.cos ((2 * iOrder + order - 1) / (2 * order) * Real.pi)

/-- The factors that are multiplied, Filter.cpp:88-103: `order / 2` quadratic ones and for odd orders a linear one. -/
noncomputable def butterFactors (order : ℕ) : List (ℕ → ℝ) :=
  ((List.range (order / 2)).map fun j => quadratic (butterCoef order (j + 1)) 1) ++
    if order % 2 ≠ 0 then [quadratic 1 0] else []

/-- `calcButterPoly`, Filter.cpp:66-109: the coefficients are convolved through the Fourier transform of length
`fPolyLen = calcNextPowTwo(order + 1)`. Writing `polyTemp[2]` is out of range if this length is below 3. -/
noncomputable def calcButterPoly (order : ℕ) : Out (ℕ → ℝ) :=
  match Common.calcNextPowTwo (order + 1) with
  | none => .ub
  | some p =>
    let n := p.toNat
    if n < 3 then .ub
    else
      let start : ℕ → ℂ := fft n fun j => if j = 0 then 1 else 0
      let prod : ℕ → ℂ := (butterFactors order).foldl (fun X f k => X k * fft n (fun j => (f j : ℂ)) k) start
      .ok fun j => (ifft n (fun k => prod k / n) j).re

/-- One value of the transfer function, Filter.cpp:175-176: reciprocal of the polynomial at `z`
(`calcFrequencyMat`, Filter.cpp:39-59, holds the powers of `z`). -/
noncomputable def butterValue (order : ℕ) (poly : ℕ → ℝ) (z : ℂ) : ℂ :=
  (∑ j ∈ range (order + 1), z ^ j * poly j)⁻¹

/-- `calcButterworthLp`, Filter.cpp:164-178. The value at index 0 is overwritten. -/
noncomputable def Filter.lowPass (F : Filter) (order : ℕ) (fc : ℝ) : Out (ℕ → ℂ) := do
  let poly ← calcButterPoly order
  .ok fun k => if k = 0 then 1 else butterValue order poly (Complex.I * ((F.freq k / fc : ℝ) : ℂ))

/-- `calcButterworthHp`, Filter.cpp:187-201. -/
noncomputable def Filter.highPass (F : Filter) (order : ℕ) (fc : ℝ) : Out (ℕ → ℂ) := do
  let poly ← calcButterPoly order
  .ok fun k => if k = 0 then 0 else butterValue order poly (Complex.I * ((-fc / F.freq k : ℝ) : ℂ))

/-- `calcButterworthFilt` with `calcButterworthBp`, Filter.cpp:138-155, 211-218 (names of filter
types in lower case). The frequency vector has `2 * (len / 2)` entries, which is `len` for the powers of two that
`init` produces, except for `len = 1`, where `nFreq - 1` is a negative length. -/
noncomputable def Filter.butterworth (F : Filter) (filterType : String) (order : ℕ) (fc1 fc2 : ℝ) : Out Filter :=
  if ¬ 0 < fc1 then .err
  else if F.len / 2 = 0 then .ub
  else if filterType = "lp" then do
    let H ← F.lowPass order fc1
    .ok { F with tf := H }
  else if filterType = "hp" then do
    let H ← F.highPass order fc1
    .ok { F with tf := H }
  else if filterType = "bp" then
    if fc2 = 0 then .err
    else do
      let H ← F.lowPass order fc2
      let G ← F.highPass order fc1
      .ok { F with tf := fun k => H k * G k }
  else .err

/-- `calcIdealFilt` and `calcIdealBp`, Filter.cpp:227-274. Order 0 sets two entries of the stored transfer
function and takes the complement; other orders store the matrices of one frequency. -/
noncomputable def Filter.ideal (F : Filter) (filterType : String) (order : ℕ) (fc : ℝ) : Out Filter :=
  if ¬ 0 < fc then .err
  else if filterType = "bp" then
    let fc1Ind := ⌈fc / F.df⌉.toNat
    if order = 0 then
      if F.len ≤ fc1Ind then .ub
      else .ok { F with tf := fun k => 1 - if k = fc1Ind ∨ k = F.len - fc1Ind then 0 else F.tf k }
    else .ok { F with line := some fc1Ind }
  else .err

/-- `Filter::calc`, Filter.cpp:119-129 (names in lower case). -/
noncomputable def Filter.calc (F : Filter) (family filterType : String) (order : ℕ) (fc1 fc2 : ℝ) : Out Filter :=
  if family = "butterworth" then F.butterworth filterType order fc1 fc2
  else if family = "ideal" then F.ideal filterType order fc1
  else .err

/-- The filtered trace through the Fourier transform, Filter.cpp:289-296 and 322-331. -/
noncomputable def Filter.viaFFT (F : Filter) (x : List ℝ) : List ℝ :=
  cut x.length F.len Complex.re
    (ifft F.len fun k => fft F.len (padded x) k * F.tf k / F.len)

/-- `apply` to a vector, Filter.cpp:280-307. -/
noncomputable def Filter.applyVector (F : Filter) (x : List ℝ) : Out (List ℝ) :=
  if (x.length : Int) + F.zeroPadding ≠ F.len then .err
  else match F.line with
    | none => .ok (F.viaFFT x)
    | some j => .ok ((List.range x.length).map fun t : ℕ =>
        (cis F.len (j * t) * (∑ u ∈ range F.NT, cis F.len (-(j * u)) * padded x u) * (1 / F.NT : ℝ)).re)

/-- One trace of the single-frequency path before the scaling, Filter.cpp:333-338. -/
noncomputable def Filter.viaLine (F : Filter) (j : ℕ) (x : List ℝ) : List ℝ :=
  (List.range x.length).map fun t : ℕ =>
    ((∑ u ∈ range F.NT, padded x u * cis F.len (-(j * u))) * (2 / F.len : ℝ) * cis F.len (j * t)).re

/-- `maxNorm` of a matrix. -/
noncomputable def maxNorm (xs : List (List ℝ)) : ℝ := (xs.flatten.map fun v => |v|).foldl max 0

/-- `apply` to a matrix of traces, Filter.cpp:313-342; the single-frequency path scales all traces to maximum
amplitude 1, which divides by zero if they vanish. -/
noncomputable def Filter.applyMatrix (F : Filter) (nt : ℕ) (xs : List (List ℝ)) : Out (List (List ℝ)) :=
  if (nt : Int) + F.zeroPadding ≠ F.len then .err
  else match F.line with
    | none => .ok (xs.map F.viaFFT)
    | some j =>
      let ys := xs.map (F.viaLine j)
      if maxNorm ys = 0 then .ub
      else .ok (ys.map fun y => y.map fun v => v * (1 / maxNorm ys))

/-! ### Hilbert transform -/

/-- `HilbertFFT::calcHilbertCoefficient`, HilbertFFT.cpp:10-29. -/
def hilbertKernel (N i : ℕ) : ℂ :=
  if 2 * (N / 2) = N then
    if i = 0 ∨ i = N / 2 then 1 else if 1 ≤ i ∧ i < N / 2 then 2 else 0
  else
    if i = 0 then 1 else if 1 ≤ i ∧ i < (N + 1) / 2 then 2 else 0

/-- The analytic signal, HilbertFFT.cpp:39-46, 60-67. -/
noncomputable def analytic (N : ℕ) (x : List ℝ) : ℕ → ℂ :=
  ifft N fun k => fft N (padded x) k * hilbertKernel N k / N

/-- `HilbertFFT::hilbert` of one trace with the kernel length `N`, HilbertFFT.cpp:35-71. A kernel of length 0
is written out of range. -/
noncomputable def hilbert (N : ℕ) (x : List ℝ) : Out (List ℝ) :=
  if N = 0 then .ub else .ok (cut x.length N Complex.im (analytic N x))

/-- The kernel length that the callers choose for traces of `nt` samples, Common.hpp:278:
`calcNextPowTwo(nt - 1)`; `pow(2, -∞) = 0` for `nt = 1`. -/
def kernelSize (nt : ℕ) : Out ℕ :=
  match Common.calcNextPowTwo ((nt : Int) - 1) with
  | some p => .ok p.toNat
  | none => if nt = 1 then .ok 0 else .ub

/-- `calcEnvelope` of one trace, Common.hpp:272-290. -/
noncomputable def envelope (x : List ℝ) : Out (List ℝ) := do
  let N ← kernelSize x.length
  let h ← hilbert N x
  .ok (List.zipWith (fun a b => Real.sqrt (a * a + b * b)) x h)

/-! ### Instantaneous phase -/

/-- `atan2(y, x)` of the C library: angle of the point `(x, y)` (signed zeros are not distinguished). -/
noncomputable def atan2 (y x : ℝ) : ℝ := Complex.arg ⟨x, y⟩

/-- `calcInstantaneousPhase` of one trace, Common.hpp:297-340. `dataImag` is the negated trace itself, the call of the
Hilbert transform is commented out. Type 1 divides the samples by themselves; other types leave the trace as it is. -/
noncomputable def instantaneousPhase (phaseType : Int) (x : List ℝ) : Out (List ℝ) :=
  open Classical in
  if phaseType = 1 then if 0 ∈ x then .ub else .ok (x.map fun d => Real.arctan (-d / d))
  else if phaseType = 2 then .ok (x.map fun d => atan2 (-d) d)
  else if phaseType = 3 then
    if x = [] then .ub else .ok (Common.unwrap (x.map fun d => atan2 (-d) d))
  else .ok x

/-- `l2Norm`. -/
noncomputable def l2Norm (r : List ℝ) : ℝ := Real.sqrt ((r.map fun v => v * v).sum)

/-- `dataResTrace1 + phaseShift * 2 * M_PI`. -/
noncomputable def shifted (r : List ℝ) (k : ℤ) : List ℝ := r.map fun v => v + k * 2 * Real.pi

/-- The `while` loops of `calcInstantaneousPhaseResidual`, Common.hpp:367-371, 378-382: `phaseShift` is increased by
`d` (1 or -1) as long as the norm does not grow. `none` if the loop is still running after `fuel` rounds. -/
noncomputable def residualLoop (r : List ℝ) (d : ℤ) : ℕ → ℤ → List ℝ → Option (List ℝ)
  | 0, _, _ => none
  | fuel + 1, k, best =>
    open Classical in
    if l2Norm (shifted r k) ≤ l2Norm best then residualLoop r d fuel (k + d) (shifted r k) else some best

/-- `calcInstantaneousPhaseResidual` of one trace given the difference `r` of the phases, Common.hpp:362-387. -/
noncomputable def phaseResidual (fuel : ℕ) (r : List ℝ) : Option (List ℝ) :=
  open Classical in
  if l2Norm (shifted r 1) ≤ l2Norm r then residualLoop r 1 fuel 1 r
  else if l2Norm (shifted r (-1)) ≤ l2Norm r then residualLoop r (-1) fuel (-1) r
  else some r

end Verif.Spectral
