import Mathlib.Data.Real.Basic
import Mathlib.Analysis.SpecialFunctions.Pow.Real
import Verif.Model.Common
import Verif.Model.ModelParam
import Verif.Model.ModelParamEM
/-!
# Model of the petrophysical transformations

`/repo/src/Modelparameter/{ModelparameterSeismic,Elastic,Viscoelastic,SH,ViscoSH}.cpp` and
`/repo/src/ModelparameterEM/ModelparameterEM.cpp`.

All these transformations act point by point, so one grid point is modelled. Finite values are exact
reals; division by zero, roots of negative numbers and infinities follow IEEE arithmetic (`FP ℝ`) with
one unsigned zero that counts as positive. Rounding, overflow and the distribution of the vectors are
not modelled. Stored input values are finite.
-/
namespace Verif.Petro
open Verif.Common (FP)

/-! ### IEEE arithmetic with exact finite values -/

/-- Floating-point addition. -/
noncomputable def add : FP ℝ → FP ℝ → FP ℝ
  | .fin a, .fin b => .fin (a + b)
  | .nan, _ | _, .nan => .nan
  | .inf, .ninf | .ninf, .inf => .nan
  | .inf, _ | _, .inf => .inf
  | .ninf, _ | _, .ninf => .ninf

/-- Change of sign. -/
noncomputable def neg : FP ℝ → FP ℝ
  | .fin a => .fin (-a)
  | .inf => .ninf
  | .ninf => .inf
  | .nan => .nan

/-- Floating-point subtraction. -/
noncomputable def sub (a b : FP ℝ) : FP ℝ := add a (neg b)

/-- An infinity with the sign of `a`; NaN for zero. -/
noncomputable def infSign (a : ℝ) : FP ℝ := if a = 0 then .nan else if 0 < a then .inf else .ninf

/-- Floating-point multiplication. -/
noncomputable def mul : FP ℝ → FP ℝ → FP ℝ
  | .fin a, .fin b => .fin (a * b)
  | .nan, _ | _, .nan => .nan
  | .inf, .fin b | .fin b, .inf => infSign b
  | .ninf, .fin b | .fin b, .ninf => infSign (-b)
  | .inf, .inf | .ninf, .ninf => .inf
  | .inf, .ninf | .ninf, .inf => .ninf

/-- Floating-point division; the zero divisor counts as positive. -/
noncomputable def div : FP ℝ → FP ℝ → FP ℝ
  | .fin a, .fin b => if b = 0 then infSign a else .fin (a / b)
  | .nan, _ | _, .nan => .nan
  | .fin _, .inf | .fin _, .ninf => .fin 0
  | .inf, .fin b => if 0 ≤ b then .inf else .ninf
  | .ninf, .fin b => if 0 ≤ b then .ninf else .inf
  | _, _ => .nan

/-- `sqrt`. -/
noncomputable def root : FP ℝ → FP ℝ
  | .fin a => if a < 0 then .nan else .fin (Real.sqrt a)
  | .inf => .inf
  | _ => .nan

/-- `pow(x, y)` of finite values. A negative base gives NaN; this is what C does unless the exponent is
an integer. -/
noncomputable def power (x y : ℝ) : FP ℝ :=
  if 0 < x then .fin (x ^ y)
  else if x < 0 then .nan
  else if y < 0 then .inf
  else if y = 0 then .fin 1
  else .fin 0

/-- `replaceInvalid`, Common.hpp:128-141, for one value. -/
def valid (r : ℝ) : FP ℝ → ℝ
  | .fin a => a
  | _ => r

/-- `searchAndReplace(v, lo, lo, 1)`, Common.hpp:68-83, for one value. -/
noncomputable def atLeast (lo : ℝ) : FP ℝ → FP ℝ
  | .fin a => if a < lo then .fin lo else .fin a
  | .ninf => .fin lo
  | v => v

/-- `searchAndReplace(v, hi, hi, 2)`, Common.hpp:84-90, for one value. -/
noncomputable def atMost (hi : ℝ) : FP ℝ → FP ℝ
  | .fin a => if hi < a then .fin hi else .fin a
  | .inf => .fin hi
  | v => v

/-! ### Seismic parameters -/

/-- `DensityWater`, Modelparameter.hpp:335. -/
def densityWater : ℝ := 1000
/-- `DensityAir`, Modelparameter.hpp:336. -/
noncomputable def densityAir : ℝ := 129 / 100
/-- `CriticalPorosity`, Modelparameter.hpp:339. -/
noncomputable def criticalPorosity : ℝ := 4 / 10
/-- `getBulkModulusWater`, ModelparameterSeismic.cpp:393-397, with Modelparameter.hpp:337. -/
def bulkWater : ℝ := densityWater * 1473 * 1473
/-- `getBulkModulusAir`, ModelparameterSeismic.cpp:401-405, with Modelparameter.hpp:338. -/
noncomputable def bulkAir : ℝ := densityAir * 340 * 340

/-- `4 / 3` as written at Elastic.cpp:354, 385, 496 and Viscoelastic.cpp:351, 382, 482: a division of
integers. -/
def fourThirds : ℝ := ((4 : Int).tdiv 3 : Int)

/-- The seismic parameters of a point. -/
structure Wave where
  density : ℝ
  vs : ℝ
  vp : ℝ

/-- The rock matrix parameters of a point, Modelparameter.hpp:326-328. -/
structure Rock where
  density : ℝ
  mu : ℝ
  K : ℝ

/-- `getBiotCoefficient`, ModelparameterSeismic.cpp:45-53. -/
noncomputable def biot (phi : ℝ) : ℝ :=
  let b := phi / criticalPorosity
  let b := if b < 0 then 0 else b
  if 1 < b then 1 else b

/-- `getBulkModulusKf`, ModelparameterSeismic.cpp:66-80. -/
noncomputable def bulkFluid (S : ℝ) : ℝ :=
  valid 0 (atLeast 0 (.fin (valid 0 (div (.fin 1) (.fin (S / bulkWater + (1 - S) / bulkAir))))))

/-- `getBulkModulusM`, ModelparameterSeismic.cpp:93-116. -/
noncomputable def bulkM (phi S K : ℝ) : ℝ :=
  let m := add (div (.fin phi) (.fin (bulkFluid S))) (div (.fin (biot phi - phi)) (.fin K))
  valid 0 (atLeast 0 (.fin (valid 0 (div (.fin 1) m))))

/-- Density of the pore fluid times porosity: `temp1` at Elastic.cpp:392-396, 465-469 (and the same
lines of the other classes). -/
noncomputable def fluidMass (phi S : ℝ) : ℝ := (S * densityWater + (1 - S) * densityAir) * phi

/-- The clipping at zero which only `Elastic` does (Elastic.cpp:386, 403, 411, 427, 434, 475, 481,
495). -/
noncomputable def clipIf (e : MP.Eqn) (v : FP ℝ) : FP ℝ := if e = .elastic then atLeast 0 v else v

/-- `calcRockMatrixParameter`: density, Elastic.cpp:391-403, Viscoelastic.cpp:387-398, SH.cpp:304-315,
ViscoSH.cpp:330-341. -/
noncomputable def rockDensity (e : MP.Eqn) (phi S rho : ℝ) : ℝ :=
  valid 0 (clipIf e (.fin (valid 0
    (mul (.fin (rho - fluidMass phi S)) (div (.fin 1) (.fin (1 - phi)))))))

/-- `calcRockMatrixParameter`: shear modulus, Elastic.cpp:405-411, Viscoelastic.cpp:400-405,
SH.cpp:317-322, ViscoSH.cpp:343-348. `mu` is `density * vs * vs`. -/
noncomputable def rockMu (e : MP.Eqn) (phi mu : ℝ) : ℝ :=
  valid 0 (clipIf e (.fin (valid 0 (mul (.fin mu) (div (.fin 1) (.fin (1 - biot phi)))))))

/-- `calcRockMatrixParameter`: bulk modulus, Elastic.cpp:383-386, 413-434 and Viscoelastic.cpp:380-382,
407-426. `Ksat` is the bulk modulus of the saturated rock. The radicand is only clipped by `Elastic`. -/
noncomputable def rockK (e : MP.Eqn) (phi S Ksat : ℝ) : ℝ :=
  let Kf := FP.fin (bulkFluid S)
  let beta := biot phi
  let a := div (.fin (1 - beta)) Kf
  let t := 1 / criticalPorosity - 1
  let c := FP.fin (-t * Ksat)
  let b := sub (.fin ((1 - beta) * t + beta / criticalPorosity)) (div (.fin Ksat) Kf)
  let d := clipIf e (sub (mul b b) (mul (mul (.fin 4) a) c))
  let k := div (div (sub (root d) b) a) (.fin 2)
  valid 0 (clipIf e (.fin (valid 0 k)))

/-- `calcRockMatrixParameter` of the five classes: Acoustic.cpp:324-327 (empty), Elastic.cpp:364-440,
Viscoelastic.cpp:361-432, SH.cpp:287-327, ViscoSH.cpp:313-352. Parameters an equation does not have
are kept from `old`. -/
noncomputable def rockMatrix (e : MP.Eqn) (phi S : ℝ) (w : Wave) (old : Rock) : Rock :=
  if e = .acoustic then old else
  let mu := MP.modulusFromVelocity w.vs w.density
  let Ksat := MP.modulusFromVelocity w.vp w.density - fourThirds * mu
  let Ksat := valid 0 (clipIf e (.fin Ksat))
  { density := rockDensity e phi S w.density
    mu := rockMu e phi mu
    K := if e.hasP then rockK e phi S Ksat else old.K }

/-- `calcWaveModulusFromPetrophysics`: the density, Elastic.cpp:465-475, Viscoelastic.cpp:456-465,
SH.cpp:346-355, ViscoSH.cpp:372-381. -/
noncomputable def satDensity (e : MP.Eqn) (phi S : ℝ) (r : Rock) : ℝ :=
  valid 0 (clipIf e (.fin ((1 - phi) * r.density + fluidMass phi S)))

/-- `mu_sat`, Elastic.cpp:479-481, Viscoelastic.cpp:468-469. -/
noncomputable def satMu (e : MP.Eqn) (phi : ℝ) (r : Rock) : ℝ :=
  valid 0 (clipIf e (.fin (r.mu * (1 - biot phi))))

/-- `K_sat`, Elastic.cpp:489-495, Viscoelastic.cpp:476-481. -/
noncomputable def satK (e : MP.Eqn) (phi S : ℝ) (r : Rock) : ℝ :=
  valid 0 (clipIf e (.fin (r.K * (1 - biot phi) + bulkM phi S r.K * biot phi * biot phi)))

/-- A velocity: `sqrt(modulus / density)`, invalid values replaced by 0. -/
noncomputable def velocity (modulus density : ℝ) : ℝ :=
  valid 0 (root (div (.fin modulus) (.fin density)))

/-- `calcWaveModulusFromPetrophysics`: Acoustic.cpp:330-334 (empty), Elastic.cpp:442-507,
Viscoelastic.cpp:434-492, SH.cpp:329-367, ViscoSH.cpp:355-393. -/
noncomputable def waveFromPetro (e : MP.Eqn) (phi S : ℝ) (r : Rock) (old : Wave) : Wave :=
  if e = .acoustic then old else
  { density := satDensity e phi S r
    vs := velocity (satMu e phi r) (satDensity e phi S r)
    vp := if e.hasP then velocity (fourThirds * satMu e phi r + satK e phi S r) (satDensity e phi S r)
      else old.vp }

/-- `calcPetrophysicsFromWaveModulus`: Acoustic.cpp:337-341 (empty), Elastic.cpp:510-529,
Viscoelastic.cpp:495-513, SH.cpp:370-388, ViscoSH.cpp:396-414: the new porosity. -/
noncomputable def porosityFromWave (e : MP.Eqn) (phi : ℝ) (r : Rock) (w : Wave) : ℝ :=
  if e = .acoustic then phi else
  let q := div (.fin (MP.modulusFromVelocity w.vs w.density)) (.fin r.mu)
  valid 0 (mul (sub (.fin 1) q) (.fin criticalPorosity))

/-! ### Electromagnetic parameters -/

/-- `RelativeDielectricPermittivityWater`, Modelparameter.hpp:363. -/
def epsWater : ℝ := 81
/-- `RelativeDielectricPermittivityVacuum`, Modelparameter.hpp:364. -/
def epsAir : ℝ := 1

/-- The factors of Archie's law, Modelparameter.hpp:356-358. -/
structure Archie where
  a : ℝ
  m : ℝ
  n : ℝ

/-- Refractive index of the pore filling times porosity, ModelparameterEM.cpp:159-164, 207-212. -/
noncomputable def poreIndex (phi S : ℝ) : ℝ :=
  (S * Real.sqrt epsWater + (1 - S) * Real.sqrt epsAir) * phi

/-- `calcRockMatrixParameter`, conductivity of the water, ModelparameterEM.cpp:148-156. -/
noncomputable def sigmaWater (A : Archie) (phi S sigma : ℝ) : ℝ :=
  let v := mul (mul (.fin (sigma * A.a)) (power phi (-A.m))) (power S (-A.n))
  valid 0 (atLeast 0 (.fin (valid 0 v)))

/-- `calcRockMatrixParameter`, relative permittivity of the matrix, ModelparameterEM.cpp:145-146,
165-173. -/
noncomputable def epsMatrix (phi S eps : ℝ) : ℝ :=
  let r := root (.fin (eps / EMP.epsVac))
  let r := mul (sub r (.fin (poreIndex phi S))) (div (.fin 1) (.fin (1 - phi)))
  let r := valid epsAir (mul r r)
  valid epsAir (atMost epsWater (atLeast epsAir (.fin r)))

/-- `calcWaveModulusFromPetrophysics`, (effective) conductivity, ModelparameterEM.cpp:200-204, 219. It is
not checked for invalid values. -/
noncomputable def sigmaFromPetro (A : Archie) (phi S sigmaW : ℝ) : FP ℝ :=
  atLeast 0 (mul (mul (div (.fin sigmaW) (.fin A.a)) (power phi A.m)) (power S A.n))

/-- `calcWaveModulusFromPetrophysics`, (effective) permittivity, ModelparameterEM.cpp:213-223. -/
noncomputable def epsFromPetro (phi S epsMa : ℝ) : FP ℝ :=
  let r := add (mul (root (.fin epsMa)) (.fin (1 - phi))) (.fin (poreIndex phi S))
  mul (atMost epsWater (atLeast epsAir (mul r r))) (.fin EMP.epsVac)

/-- `calcPetrophysicsFromWaveModulus`, ModelparameterEM.cpp:237-288: the new porosity and saturation.
`strategy` and `count` are `exchangeStrategy` and `exchangeStrategyCount` (before the call). -/
noncomputable def petroFromEM (strategy count : Int) (phi S epsMa eps : ℝ) : ℝ × ℝ :=
  let n := root (.fin (eps / EMP.epsVac))
  let nMa := root (.fin epsMa)
  if strategy ≠ 2 ∨ count.tmod 2 = 0 then
    let s := div (sub n (mul nMa (.fin (1 - phi)))) (.fin phi)
    let s := div (sub s (.fin (Real.sqrt epsAir)))
      (.fin (Real.sqrt epsWater - Real.sqrt epsAir))
    (phi, valid 0 s)
  else if count.tmod 2 = 1 then
    let d := sub (.fin (S * Real.sqrt epsWater + (1 - S) * Real.sqrt epsAir)) nMa
    (valid 0 (div (sub n nMa) d), S)
  else (phi, S)

variable {ι : Type}

/-- `calcRockMatrixParameter` of the electromagnetic classes, ModelparameterEM.cpp:129-177: water
conductivity and matrix permittivity of every point, from effective values for the equations with
relaxation. -/
noncomputable def rockEM (e : EMP.Eqn) (A : Archie) (phi S : ι → ℝ) (b : EMP.Base ι) :
    (ι → ℝ) × (ι → ℝ) :=
  (fun x => sigmaWater A (phi x) (S x) (if e.visco then EMP.sigmaEff b x else b.sigma x),
   fun x => epsMatrix (phi x) (S x) (if e.visco then EMP.epsEff b x else b.eps x))

open Classical in
/-- `calcWaveModulusFromPetrophysics` of the electromagnetic classes, ModelparameterEM.cpp:187-234. If
some value is not finite the result is `none`: the code stores such values, the model does not follow
them. -/
noncomputable def waveEM (e : EMP.Eqn) (A : Archie) (phi S : ι → ℝ) (r : (ι → ℝ) × (ι → ℝ))
    (b : EMP.Base ι) : Option (EMP.Base ι) :=
  let sg := fun x => sigmaFromPetro A (phi x) (S x) (r.1 x)
  let ep := fun x => epsFromPetro (phi x) (S x) (r.2 x)
  if ∀ x, (∃ v, sg x = .fin v) ∧ ∃ v, ep x = .fin v then
    let sg := fun x => valid 0 (sg x)
    let ep := fun x => valid 0 (ep x)
    some (if e.visco then EMP.fromEffective b ep sg else { b with eps := ep, sigma := sg })
  else none

end Verif.Petro
