import Verif.Model.Outcome
import Mathlib.Analysis.SpecialFunctions.Trigonometric.Basic

/-!
# Hilbert transform with a finite impulse response

`/repo/src/Common/HilbertFIR.cpp`. Values are real numbers; a division of zero by zero (NaN in the kernel) is `ub`.
-/
set_option linter.dupNamespace false

namespace Verif.FIR
open Verif

/-- The factor of the kernel, HilbertFIR.cpp:25-28: `k * w` with the counter `m` and the Blackman window. -/
noncomputable def weight (K n : ℕ) : ℝ :=
  let m : ℝ := -K + 1 + 2 * n
  let k := -(Real.cos (m * Real.pi) - 1) / (m * Real.pi)
  let alpha := Real.pi * n / (K - 1)
  k * (0.42 - 0.5 * Real.cos (2 * alpha) + 0.08 * Real.cos (4 * alpha))

/-- `calcHilbertCoefficient`, HilbertFIR.cpp:10-35. Every pass of the loop writes two entries. With `m = 0` the factor is
`0 / 0`. -/
noncomputable def calcKernel (K : ℕ) : Out (ℕ → ℝ) :=
  if ∃ n < K, (-K + 1 + 2 * n : ℤ) = 0 then .ub
  else .ok ((List.range K).foldl
    (fun h n => Function.update (Function.update h n (weight K n)) (K - n - 1) (-weight K n)) fun _ => 0)

/-- The inner loop of `hilbert`, HilbertFIR.cpp:57-64, 93-100, for the output of index `n - halfklen`. The loop
`for (i = kmin; i < kmax-1; i += 2)` is a sum over its indices, all of which are less than the number of samples. -/
noncomputable def convolve (K : ℕ) (h : ℕ → ℝ) (x : List ℝ) (n : ℕ) : ℝ :=
  let F := 2 * K - 1
  let koffset := if F / 2 = K then 1 else 0
  let kmin := (n - (F - 1)) + koffset
  let kmax := min n (x.length - 1) + koffset
  ∑ i ∈ (Finset.range x.length).filter fun i => kmin ≤ i ∧ i < kmax - 1 ∧ (i - kmin) % 2 = 0,
    x.getD i 0 * h ((n - i) / 2)

/-- `hilbert` of a trace, HilbertFIR.cpp:42-73 (rows of a matrix, `last` is 0) and 80-107 (a vector, `last` is the last
sample): the loop `for (n = halfklen; n < signalSize+halfklen-1; n++)` does not reach the last sample, which keeps the value
that the result was initialised with. -/
noncomputable def outputs (K : ℕ) (h : ℕ → ℝ) (x : List ℝ) (last : ℝ) : List ℝ :=
  (List.range x.length).map fun j => if j + 1 < x.length then convolve K h x (j + (2 * K - 1) / 2) else last

/-- `hilbert` of a vector after `calcHilbertCoefficient` with kernel size `K`. -/
noncomputable def hilbertVector (K : ℕ) (x : List ℝ) : Out (List ℝ) := do
  let h ← calcKernel K
  .ok (outputs K h x (x.getLastD 0))

/-- `hilbert` of a row of a matrix after `calcHilbertCoefficient` with kernel size `K`. -/
noncomputable def hilbertRow (K : ℕ) (x : List ℝ) : Out (List ℝ) := do
  let h ← calcKernel K
  .ok (outputs K h x 0)

end Verif.FIR
