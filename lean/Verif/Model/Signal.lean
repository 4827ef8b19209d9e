import Mathlib.Analysis.SpecialFunctions.Trigonometric.Basic
import Mathlib.Analysis.SpecialFunctions.ExpDeriv
import Verif.Model.Outcome
/-!
# Synthetic source signals (`/repo/src/Acquisition/SourceSignal/*.cpp`) and the snapshot condition
(`/repo/src/Simulation.cpp`)

A signal of `NT` samples is a function of the sample number (only `i < NT` is meant). Values are
exact real numbers. `M_PI` is `π`.
-/
namespace Verif.Signal
open Real

/-- The assertions at the start of every `calc`: `NT > 0`, `DT > 0`, `FC > 0`. -/
noncomputable def checked {α : Type} (NT : Int) (DT FC : ℝ) (x : Out α) : Out α :=
  if 0 < NT ∧ 0 < DT ∧ 0 < FC then x else .err

/-! ### Signals given by a formula -/

/-- `Ricker::calc`, Ricker.cpp:29-53: `help` and `tau` are overwritten in place. -/
noncomputable def ricker (NT : Int) (DT FC AMP Tshift : ℝ) : Out (Nat → ℝ) :=
  checked NT DT FC <| .ok fun i =>
    let t := 0 + i * DT
    let help := 1.5 / FC + Tshift
    let tau := (t - help) * (π * FC)
    let help := tau * tau
    let tau := -1 * help
    let tau := exp tau
    let help := 1 - 2 * help
    AMP * help * tau

/-- `FGaussian::calc`, FGaussian.cpp:29-54. -/
noncomputable def fgaussian (NT : Int) (DT FC AMP Tshift : ℝ) : Out (Nat → ℝ) :=
  checked NT DT FC <| .ok fun i =>
    let t := 0 + i * DT
    let help := 1.2 / FC + Tshift
    let tau := (t - help) * (π * FC)
    let help := -2 * tau
    let tau := -1 * tau * tau
    let tau := exp tau
    AMP * help * tau

/-- `Ricker_GprMax::calc`, Ricker_GprMax.cpp:29-60. -/
noncomputable def rickerGprMax (NT : Int) (DT FC AMP Tshift : ℝ) : Out (Nat → ℝ) :=
  checked NT DT FC <| .ok fun i =>
    let t := 0 + i * DT
    let help := 1 / FC + Tshift
    let tau := t - help
    let zeta := 2 * π * π * FC * FC
    let help := tau * tau
    let help := zeta * help
    let help := -1 * help
    let help := exp help
    let tau := help * tau
    let help := 1 / zeta
    let help := help / 4
    let help := exp help
    let zeta := zeta * help
    let zeta := -2 * zeta
    AMP * zeta * tau

/-- `Sin::calc`, Sin.cpp:29-49. -/
noncomputable def sine (NT : Int) (DT FC AMP Tshift : ℝ) : Out (Nat → ℝ) :=
  checked NT DT FC <| .ok fun i =>
    let tau := (0 + i * DT) - Tshift
    let tau := tau * (2 * π * FC)
    let tau := sin tau
    AMP * tau

/-- The Berlage signal before the final scaling, Berlage.cpp:44-61; `SIGN` of zero is zero. -/
noncomputable def berlageRaw (DT FC Tshift : ℝ) (i : Nat) : ℝ :=
  let t := 0 + i * DT
  let help := 1 / FC + Tshift
  let tau := t - help
  let t := 2 * π * FC * tau
  let signal := cos t
  let heaviside := SignType.sign tau
  let heaviside := (heaviside : ℝ) + 1
  let heaviside := SignType.sign heaviside
  let help := tau ^ 2
  let tau := tau * -(2 * FC)
  let tau := exp tau
  let signal := signal * help
  let signal := signal * tau
  signal * (heaviside : ℝ)

/-- Largest magnitude among the first `n` samples (`maxNorm`). -/
noncomputable def maxNorm (f : Nat → ℝ) (n : Nat) : ℝ :=
  (List.range n).foldl (fun m i => max m |f i|) 0

/-- `Berlage::calc`, Berlage.cpp:29-63. The last line divides by the maximum: for an all-zero
signal the result is not a number (`none`). -/
noncomputable def berlage (NT : Int) (DT FC AMP Tshift : ℝ) : Out (Option (Nat → ℝ)) :=
  checked NT DT FC <| .ok <|
    let m := maxNorm (berlageRaw DT FC Tshift) NT.toNat
    if m = 0 then none else some fun i => berlageRaw DT FC Tshift i * (AMP / m)

/-! ### Windowed signals -/

/-- The loop `for (i = time_index1; i <= time_index2; i++) v.setValue(i, f(count++))`, SinThree.cpp:
60-66 and the like: `n` assignments starting at index `i`, sample `count`. Indices outside the vector
are undefined behaviour (`setValue` checks them in debug builds only). -/
noncomputable def winLoop (NT : Int) (f : Nat → ℝ) : Nat → Int → Nat → (Nat → ℝ) → Out (Nat → ℝ)
  | 0, _, _, v => .ok v
  | n + 1, i, count, v =>
    if 0 ≤ i ∧ i < NT then winLoop NT f n (i + 1) (count + 1) (Function.update v i.toNat (f count))
    else .ub

/-- First and last index of the window, SinThree.cpp:49-56 (same in SinW.cpp:50-56 and
IntgSinThree.cpp:50-56). The signal vector has `NT` samples. -/
noncomputable def window (NT : Int) (DT FC Tshift : ℝ) : Out (Int × Int) :=
  let time_index1 := ⌊Tshift / DT⌋
  let time_index2 := time_index1 + ⌊1 / FC / DT⌋
  if time_index1 < NT then
    .ok (time_index1, if time_index2 > NT then NT - 1 else time_index2)
  else .err

/-- A windowed vector: zero, then the loop. -/
noncomputable def windowed (NT : Int) (DT FC Tshift : ℝ) (f : Nat → ℝ) : Out (Nat → ℝ) := do
  let w ← window NT DT FC Tshift
  winLoop NT f (w.2 - w.1 + 1).toNat w.1 0 (fun _ => 0)

/-- `SinThree::calc`, SinThree.cpp:29-67. -/
noncomputable def sinThree (NT : Int) (DT FC AMP Tshift : ℝ) : Out (Nat → ℝ) :=
  checked NT DT FC <| do
    let zero ← windowed NT DT FC Tshift fun count => sin (count * DT * π * FC) ^ 3
    .ok fun i => AMP * zero i

/-- `SinW::calc`, SinW.cpp:29-73: `help` and `zero` are filled by the same loop. -/
noncomputable def sinW (NT : Int) (DT FC AMP Tshift : ℝ) : Out (Nat → ℝ) :=
  checked NT DT FC <| do
    let help ← windowed NT DT FC Tshift fun count => sin (2 * count * DT * π * FC)
    let zero ← windowed NT DT FC Tshift fun count => sin (2 * (2 * count * DT * π * FC))
    .ok fun i => AMP * (help i - zero i / 2)

/-- `IntgSinThree::calc`, IntgSinThree.cpp:29-77. -/
noncomputable def intgSinThree (NT : Int) (DT FC AMP Tshift : ℝ) : Out (Nat → ℝ) :=
  checked NT DT FC <| do
    let help ← windowed NT DT FC Tshift fun count => cos (count * DT * π * FC)
    let zero ← windowed NT DT FC Tshift fun count => cos (count * DT * π * FC) ^ 3
    .ok fun i =>
      let help := 0.75 * help i
      let zero := 0.25 * zero i
      let zero := zero - help
      let zero := 0.5 + zero
      let zero := zero / FC
      let zero := zero / π
      let zero := zero / 0.75
      AMP * zero

/-- `Spike::calc`, Spike.cpp:29-51 (no check of `FC`). -/
noncomputable def spike (NT : Int) (DT AMP Tshift : ℝ) : Out (Nat → ℝ) :=
  checked NT DT 1 <|
    let time_index := ⌊Tshift / DT⌋
    if time_index < NT then
      if 0 ≤ time_index then
        .ok fun i => AMP * Function.update (fun _ => (0 : ℝ)) time_index.toNat 1 i
      else .ub
    else .err

end Verif.Signal
