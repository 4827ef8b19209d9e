import Verif.Props.Energy
import Verif.Props.CheckParameter
import Verif.Lemmas.Stability
/-!
# C94: below the Courant limit wavefields stay bounded

The derivative matrices are those of a regular grid of any size and order. The theorems bound, for
every number of time steps, the sum of squares that makes up the energy of the wavefield; so
no value of the wavefield can exceed a bound that does not depend on the number of steps.
-/
set_option linter.dupNamespace false
set_option linter.unusedSectionVars false

namespace Verif.Solver
open Matrix Verif.Stencil Verif.Check

/-- `v` bounds the wave velocity along an axis, for a field with the parameter `K` on the grid points
that is coupled to a field with the parameter `R` half a point further. For pressure and
particle velocity `K` is the bulk modulus and `R` the averaged inverse density.

Either the product is at most `v²` for all points that one stencil connects (with a constant density
`ρ` this says `K / ρ ≤ v²` everywhere), or the order is 2, `K / q ≤ v²` in each point for some
parameter `q` (the density), and `R` is the inverse of the mean of `q` over the two neighbours as
`calcInverseAveragedParameter` computes it (`C72_regular`), or 0. -/
def SpeedBound {NX NY NZ : ℕ} (s : Int) (v : ℝ) (a : Axis) (K R : Pt NX NY NZ → ℝ) : Prop :=
  (∀ i j, Near s a i j → K j * R i ≤ v ^ 2) ∨
  (s = 2 ∧ ∃ q : Pt NX NY NZ → ℝ, (∀ i, 0 ≤ q i ∧ K i ≤ q i * v ^ 2) ∧
    ∀ i, R i = 0 ∨ R i = 1 / meanNext a q i)

section Helpers
variable {NX NY NZ : ℕ} {s : Int} {cs : List ℚ} {DT DH v : ℝ}

theorem absSum_gamma (cs : List ℚ) : ((absSum cs : ℚ) : ℝ) = 2 * gamma cs := by
  unfold absSum gamma
  push_cast
  ring

theorem gamma_pos (hs : ValidOrder s) (hcs : fd s = some cs) : 0 < gamma cs := by
  unfold gamma
  have : (0 : ℚ) < (cs.map abs).sum / 2 := by
    rcases hs with rfl | rfl | rfl | rfl | rfl | rfl
    all_goals
      (unfold fd at hcs; norm_num at hcs; subst hcs
       norm_num [abs_div, abs_of_pos, abs_of_neg])
  exact_mod_cast this

/-- One axis. -/
theorem axis_bound (hs : ValidOrder s) (hcs : fd s = some cs) (hDT : 0 < DT) (hDH : 0 < DH)
    (a : Axis) {f p R K : Pt NX NY NZ → ℝ} (hR : ∀ i, 0 ≤ R i) (hK : ∀ i, 0 ≤ K i)
    (hf : ∀ i, R i = 0 → f i = 0) (hp : ∀ i, K i = 0 → p i = 0) (hsp : SpeedBound s v a K R)
    {β : ℝ} (hβ : 0 < β) :
    |∑ i, f i * (forwardMatrix s DT DH a).mulVec p i| ≤
      gamma cs * DT / DH * (β * ∑ i, f i ^ 2 / R i + v ^ 2 / β * ∑ j, p j ^ 2 / K j) := by
  have hB : DT / DH * ((absSum cs : ℚ) : ℝ) = 2 * gamma cs * DT / DH := by
    rw [absSum_gamma]; ring
  have hcol := fun j => hB ▸ forward_col (NX := NX) (NY := NY) (NZ := NZ) hcs hDT.le hDH a j
  have hrow := fun i => hB ▸ forward_row (NX := NX) (NY := NY) (NZ := NZ) hcs hDT.le hDH a i
  have key : |∑ i, f i * (forwardMatrix s DT DH a).mulVec p i| ≤
      β * (2 * gamma cs * DT / DH) / 2 * ∑ i, f i ^ 2 / R i +
        v ^ 2 * (2 * gamma cs * DT / DH) / (2 * β) * ∑ j, p j ^ 2 / K j := by
    rcases hsp with hsp | ⟨rfl, q, hq, hRq⟩
    · refine cross_bound _ f p R K (fun i _ => 1 / R i) hβ hR hK hf hp ?_ ?_ hcol
      · intro i j hi hD
        have hR0 : 0 < R i := lt_of_le_of_ne (hR i) (Ne.symm hi)
        refine ⟨by positivity, ?_⟩
        rw [one_div_mul_eq_div, le_div_iff₀ hR0]
        exact hsp i j (near_of_entry hs hcs hD)
      · intro i hi
        rw [← Finset.sum_mul]
        have : R i * ((∑ j, |forwardMatrix s DT DH a i j|) * (1 / R i)) =
            ∑ j, |forwardMatrix s DT DH a i j| := by field_simp
        rw [this]
        exact hrow i
    · have hg : gamma cs = 1 := by
        unfold fd at hcs; norm_num at hcs; subst hcs
        norm_num [gamma]
      refine cross_bound _ f p R K (fun _ j => q j) hβ hR hK hf hp ?_ ?_ hcol
      · intro i j _ _
        exact hq j
      · intro i hi
        have h := order2_row hDT.le hDH a q (fun i => (hq i).1) i
        rcases hRq i with h0 | h1
        · exact absurd h0 hi
        · have hm : meanNext a q i ≠ 0 := by
            intro h0; rw [h0] at h1; simp at h1; exact hi h1
          calc R i * ∑ j, |forwardMatrix 2 DT DH a i j| * q j
              ≤ R i * (2 * DT / DH * meanNext a q i) := mul_le_mul_of_nonneg_left h (hR i)
            _ = 2 * gamma cs * DT / DH := by rw [h1, hg]; field_simp
  refine key.trans (le_of_eq ?_)
  field_simp

theorem theta_lt {g r : ℝ} (hDH : 0 < DH) (hv : 0 < v) (hg : 0 < g) (hr : 0 < r)
    (h : DT < DH / (g * r * v)) : g * r * v * DT / DH < 1 := by
  rw [lt_div_iff₀ (by positivity)] at h
  rw [div_lt_one hDH]
  linarith

private theorem half_sqrt {d : ℝ} (hv : 0 < v) (hd : 0 < d) : d * (v ^ 2 / (v * √d)) = √d * v := by
  have hr : 0 < √d := Real.sqrt_pos.mpr hd
  field_simp
  rw [Real.sq_sqrt hd.le]

theorem combine2 {g P A B x y : ℝ} (hv : 0 < v)
    (hx : |x| ≤ g * (v * √2 * A + v ^ 2 / (v * √2) * P))
    (hy : |y| ≤ g * (v * √2 * B + v ^ 2 / (v * √2) * P)) :
    |x + y| ≤ g * √2 * v * (P + (A + B)) := by
  have h := half_sqrt (d := 2) hv two_pos
  refine (abs_add_le x y).trans ((add_le_add hx hy).trans (le_of_eq ?_))
  linear_combination g * P * h

theorem combine3 {g P A B C x y z : ℝ} (hv : 0 < v)
    (hx : |x| ≤ g * (v * √3 * A + v ^ 2 / (v * √3) * P))
    (hy : |y| ≤ g * (v * √3 * B + v ^ 2 / (v * √3) * P))
    (hz : |z| ≤ g * (v * √3 * C + v ^ 2 / (v * √3) * P)) :
    |x + y + z| ≤ g * √3 * v * (P + (A + B + C)) := by
  have h := half_sqrt (d := 3) hv three_pos
  refine (abs_add_three x y z).trans ((add_le_add (add_le_add hx hy) hz).trans (le_of_eq ?_))
  linear_combination g * P * h

/-- Two fields `p`, `q` that are both coupled to `f`. -/
private theorem combine2' {g P Q F x y : ℝ} (hv : 0 < v)
    (hx : |x| ≤ g * (v / √2 * F + v ^ 2 / (v / √2) * P))
    (hy : |y| ≤ g * (v / √2 * F + v ^ 2 / (v / √2) * Q)) :
    |x + y| ≤ g * √2 * v * (P + Q + F) := by
  have hr : (0 : ℝ) < √2 := Real.sqrt_pos.mpr two_pos
  have h1 : v ^ 2 / (v / √2) = √2 * v := by field_simp
  have h2 : 2 * (v / √2) = √2 * v := by field_simp; rw [Real.sq_sqrt two_pos.le]
  refine (abs_add_le x y).trans ((add_le_add hx hy).trans (le_of_eq ?_))
  linear_combination g * (P + Q) * h1 + g * F * h2

end Helpers

variable {ι : Type} [Fintype ι] [DecidableEq ι]

/-- An energy that does not grow and differs from a sum of squares by less than this sum keeps the
sum of squares bounded. -/
theorem bounded_of_near {S : Solver ι} (I : State ι → Prop) (E N : State ι → ℝ) {θ : ℝ}
    (h1 : θ < 1)
    (hI : ∀ s, I s → I (exec S.prog s)) (hE : ∀ s, I s → E (exec S.prog s) ≤ E s)
    (hN : ∀ s, I s → |E s - N s| ≤ θ * N s) (s : State ι) (h : I s) (n : ℕ) :
    N (run S [] s n) ≤ (1 + θ) / (1 - θ) * N s := by
  have : I (run S [] s n) ∧ E (run S [] s n) ≤ E s := by
    induction n with
    | zero => exact ⟨h, le_rfl⟩
    | succ n ih => rw [run_succ_nil]; exact ⟨hI _ ih.1, (hE _ ih.1).trans ih.2⟩
  have a1 := abs_le.mp (hN _ this.1)
  have a2 := abs_le.mp (hN _ h)
  rw [div_mul_eq_mul_div, le_div_iff₀ (by linarith)]
  linarith [this.2]

/-! ### Acoustic waves -/

/-- Sum of squares of a 2D acoustic wavefield, weighted with the parameters. -/
noncomputable def acousticNorm2D (m : Mod ι) (s : State ι) : ℝ :=
  ∑ i, s (.fld .p) i ^ 2 / m.pMod i +
  (∑ i, s (.fld .vX) i ^ 2 / m.invRhoX i + ∑ i, s (.fld .vY) i ^ 2 / m.invRhoY i)

/-- Sum of squares of a 3D acoustic wavefield. -/
noncomputable def acousticNorm3D (m : Mod ι) (s : State ι) : ℝ :=
  ∑ i, s (.fld .p) i ^ 2 / m.pMod i +
  (∑ i, s (.fld .vX) i ^ 2 / m.invRhoX i + ∑ i, s (.fld .vY) i ^ 2 / m.invRhoY i +
    ∑ i, s (.fld .vZ) i ^ 2 / m.invRhoZ i)

/-- C94, 2D acoustic: with a time step below the Courant limit of the order and dimension the
wavefield of a simulation without sources and boundary conditions stays bounded for ever. -/
theorem C94_acoustic2D {NX NY : ℕ} {s : Int} {cs : List ℚ} (hs : ValidOrder s) (hcs : fd s = some cs)
    {DT DH v : ℝ} (hDT : 0 < DT) (hDH : 0 < DH) (hv : 0 < v)
    (hC : DT < DH / (gamma cs * √2 * v)) {m : Mod (Pt NX NY 1)}
    (hm : ∀ i, 0 ≤ m.pMod i ∧ 0 ≤ m.invRhoX i ∧ 0 ≤ m.invRhoY i)
    (hx : SpeedBound s v .x m.pMod m.invRhoX) (hy : SpeedBound s v .y m.pMod m.invRhoY)
    {c : BC (Pt NX NY 1)} (hc : c.plain) (w : State (Pt NX NY 1)) (hw : acousticRest2D m w) (n : ℕ) :
    let θ := gamma cs * √2 * v * DT / DH
    acousticNorm2D m (run (acoustic2DSolver (regularDeriv NX NY 1 s DT DH) m c) [] w n) ≤
      (1 + θ) / (1 - θ) * acousticNorm2D m w := by
  intro θ
  have hg := gamma_pos hs hcs
  have h2 : (0 : ℝ) < √2 := Real.sqrt_pos.mpr two_pos
  refine bounded_of_near (S := acoustic2DSolver (regularDeriv NX NY 1 s DT DH) m c) (acousticRest2D m)
    (acousticEnergy2D (regularDeriv NX NY 1 s DT DH) m) _ (θ := θ)
    (theta_lt hDH hv hg h2 hC)
    (fun s hs => (acoustic2D_step hc regularDeriv_regular s hs).1)
    (fun s hs => (acoustic2D_step hc regularDeriv_regular s hs).2.le) ?_ w hw n
  intro u hu
  have bx := axis_bound hs hcs hDT hDH .x (fun i => (hm i).2.1) (fun i => (hm i).1)
    (fun i => (hu i).2.1) (fun i => (hu i).1) hx (mul_pos hv h2)
  have by' := axis_bound hs hcs hDT hDH .y (fun i => (hm i).2.2) (fun i => (hm i).1)
    (fun i => (hu i).2.2) (fun i => (hu i).1) hy (mul_pos hv h2)
  have e : acousticEnergy2D (regularDeriv NX NY 1 s DT DH) m u - acousticNorm2D m u =
      ∑ i, u (.fld .vX) i * (forwardMatrix s DT DH .x).mulVec (u (.fld .p)) i +
      ∑ i, u (.fld .vY) i * (forwardMatrix s DT DH .y).mulVec (u (.fld .p)) i := by
    unfold acousticEnergy2D acousticNorm2D regularDeriv
    ring
  rw [e]
  have := combine2 hv bx by'
  refine this.trans (le_of_eq ?_)
  simp only [θ, acousticNorm2D]
  ring

/-- C94, 3D acoustic. -/
theorem C94_acoustic3D {NX NY NZ : ℕ} {s : Int} {cs : List ℚ} (hs : ValidOrder s)
    (hcs : fd s = some cs) {DT DH v : ℝ} (hDT : 0 < DT) (hDH : 0 < DH) (hv : 0 < v)
    (hC : DT < DH / (gamma cs * √3 * v)) {m : Mod (Pt NX NY NZ)}
    (hm : ∀ i, 0 ≤ m.pMod i ∧ 0 ≤ m.invRhoX i ∧ 0 ≤ m.invRhoY i ∧ 0 ≤ m.invRhoZ i)
    (hx : SpeedBound s v .x m.pMod m.invRhoX) (hy : SpeedBound s v .y m.pMod m.invRhoY)
    (hz : SpeedBound s v .z m.pMod m.invRhoZ)
    {c : BC (Pt NX NY NZ)} (hc : c.plain) (w : State (Pt NX NY NZ)) (hw : acousticRest3D m w)
    (n : ℕ) :
    let θ := gamma cs * √3 * v * DT / DH
    acousticNorm3D m (run (acoustic3DSolver (regularDeriv NX NY NZ s DT DH) m c) [] w n) ≤
      (1 + θ) / (1 - θ) * acousticNorm3D m w := by
  intro θ
  have hg := gamma_pos hs hcs
  have h3 : (0 : ℝ) < √3 := Real.sqrt_pos.mpr three_pos
  refine bounded_of_near (S := acoustic3DSolver (regularDeriv NX NY NZ s DT DH) m c) (acousticRest3D m)
    (acousticEnergy3D (regularDeriv NX NY NZ s DT DH) m) _ (θ := θ)
    (theta_lt hDH hv hg h3 hC)
    (fun s hs => (acoustic3D_step hc regularDeriv_regular s hs).1)
    (fun s hs => (acoustic3D_step hc regularDeriv_regular s hs).2.le) ?_ w hw n
  intro u hu
  have bx := axis_bound hs hcs hDT hDH .x (fun i => (hm i).2.1) (fun i => (hm i).1)
    (fun i => (hu i).2.1) (fun i => (hu i).1) hx (mul_pos hv h3)
  have by' := axis_bound hs hcs hDT hDH .y (fun i => (hm i).2.2.1) (fun i => (hm i).1)
    (fun i => (hu i).2.2.1) (fun i => (hu i).1) hy (mul_pos hv h3)
  have bz := axis_bound hs hcs hDT hDH .z (fun i => (hm i).2.2.2) (fun i => (hm i).1)
    (fun i => (hu i).2.2.2) (fun i => (hu i).1) hz (mul_pos hv h3)
  have e : acousticEnergy3D (regularDeriv NX NY NZ s DT DH) m u - acousticNorm3D m u =
      ∑ i, u (.fld .vX) i * (forwardMatrix s DT DH .x).mulVec (u (.fld .p)) i +
      ∑ i, u (.fld .vY) i * (forwardMatrix s DT DH .y).mulVec (u (.fld .p)) i +
      ∑ i, u (.fld .vZ) i * (forwardMatrix s DT DH .z).mulVec (u (.fld .p)) i := by
    unfold acousticEnergy3D acousticNorm3D regularDeriv
    ring
  rw [e]
  have := combine3 hv bx by' bz
  refine this.trans (le_of_eq ?_)
  simp only [θ, acousticNorm3D]
  ring

/-! ### SH waves -/

/-- Sum of squares of an SH wavefield. -/
noncomputable def shNorm (m : Mod ι) (s : State ι) : ℝ :=
  ∑ i, s (.fld .vZ) i ^ 2 / m.invRho i +
  (∑ i, s (.fld .Sxz) i ^ 2 / m.sModXZ i + ∑ i, s (.fld .Syz) i ^ 2 / m.sModYZ i)

/-- The energy of an SH wavefield is close to its sum of squares. -/
theorem sh_near {NX NY : ℕ} {s : Int} {cs : List ℚ} (hs : ValidOrder s) (hcs : fd s = some cs)
    {DT DH v : ℝ} (hDT : 0 < DT) (hDH : 0 < DH) (hv : 0 < v) {m : Mod (Pt NX NY 1)}
    (hm : ∀ i, 0 ≤ m.invRho i ∧ 0 ≤ m.sModXZ i ∧ 0 ≤ m.sModYZ i)
    (hx : SpeedBound s v .x m.invRho m.sModXZ) (hy : SpeedBound s v .y m.invRho m.sModYZ)
    (u : State (Pt NX NY 1)) (hu : shRest m u) :
    |shEnergy (regularDeriv NX NY 1 s DT DH) m u - shNorm m u| ≤
      gamma cs * √2 * v * DT / DH * shNorm m u := by
  have h2 : (0 : ℝ) < √2 := Real.sqrt_pos.mpr two_pos
  have bx := axis_bound hs hcs hDT hDH .x (fun i => (hm i).2.1) (fun i => (hm i).1)
    (fun i => (hu i).1) (fun i => (hu i).2.2) hx (mul_pos hv h2)
  have by' := axis_bound hs hcs hDT hDH .y (fun i => (hm i).2.2) (fun i => (hm i).1)
    (fun i => (hu i).2.1) (fun i => (hu i).2.2) hy (mul_pos hv h2)
  have ad : ∀ (a : Axis) (f g : Pt NX NY 1 → ℝ), ∑ i, f i * (backwardMatrix s DT DH a).mulVec g i =
      -∑ i, g i * (forwardMatrix s DT DH a).mulVec f i := by
    intro a f g
    rw [adjoint, ← Finset.sum_neg_distrib]
    refine Finset.sum_congr rfl fun i _ => ?_
    rw [backwardMatrix, transpose_neg, transpose_transpose, neg_mulVec, Pi.neg_apply]
    ring
  have e : shEnergy (regularDeriv NX NY 1 s DT DH) m u - shNorm m u =
      -∑ i, u (.fld .Sxz) i * (forwardMatrix s DT DH .x).mulVec (u (.fld .vZ)) i +
      -∑ i, u (.fld .Syz) i * (forwardMatrix s DT DH .y).mulVec (u (.fld .vZ)) i := by
    rw [← ad, ← ad]
    unfold shEnergy shNorm regularDeriv
    simp only [mul_add, Finset.sum_add_distrib]
    ring
  rw [e]
  rw [← abs_neg] at bx by'
  have := combine2 hv bx by'
  refine this.trans (le_of_eq ?_)
  simp only [shNorm]
  ring

/-- C94, 2D SH: here the particle velocity sits on the grid points and the stresses between them, so
the inverse density and the averaged shear modulus change places. -/
theorem C94_sh2D {NX NY : ℕ} {s : Int} {cs : List ℚ} (hs : ValidOrder s) (hcs : fd s = some cs)
    {DT DH v : ℝ} (hDT : 0 < DT) (hDH : 0 < DH) (hv : 0 < v)
    (hC : DT < DH / (gamma cs * √2 * v)) {m : Mod (Pt NX NY 1)}
    (hm : ∀ i, 0 ≤ m.invRho i ∧ 0 ≤ m.sModXZ i ∧ 0 ≤ m.sModYZ i)
    (hx : SpeedBound s v .x m.invRho m.sModXZ) (hy : SpeedBound s v .y m.invRho m.sModYZ)
    {c : BC (Pt NX NY 1)} (hc : c.plain) (w : State (Pt NX NY 1)) (hw : shRest m w) (n : ℕ) :
    let θ := gamma cs * √2 * v * DT / DH
    shNorm m (run (sh2DSolver (regularDeriv NX NY 1 s DT DH) m c) [] w n) ≤
      (1 + θ) / (1 - θ) * shNorm m w := by
  intro θ
  have hg := gamma_pos hs hcs
  have h2 : (0 : ℝ) < √2 := Real.sqrt_pos.mpr two_pos
  refine bounded_of_near (S := sh2DSolver (regularDeriv NX NY 1 s DT DH) m c) (shRest m)
    (shEnergy (regularDeriv NX NY 1 s DT DH) m) _ (θ := θ)
    (theta_lt hDH hv hg h2 hC)
    (fun s hs => (sh_step hc regularDeriv_regular s hs).1)
    (fun s hs => (sh_step hc regularDeriv_regular s hs).2.le) (sh_near hs hcs hDT hDH hv hm hx hy) w hw n

/-! ### Electromagnetic waves -/

private theorem div_inv' (e x : ℝ) : x ^ 2 / (1 / e) = e * x ^ 2 := by
  rw [one_div, div_inv_eq_mul, mul_comm]

/-- Sum of squares of a 2D TMEM wavefield. -/
noncomputable def tmemNorm2D (m : EMod ι) (s : State ι) : ℝ :=
  ∑ i, m.eps .z i * s (.fld .eZ) i ^ 2 +
  (∑ i, s (.fld .hX) i ^ 2 / m.invMuYZ i + ∑ i, s (.fld .hY) i ^ 2 / m.invMuXZ i)

/-- Sum of squares of a 2D EMEM wavefield. -/
noncomputable def ememNorm2D (m : EMod ι) (s : State ι) : ℝ :=
  ∑ i, m.eps .x i * s (.fld .eX) i ^ 2 + ∑ i, m.eps .y i * s (.fld .eY) i ^ 2 +
  ∑ i, s (.fld .hZ) i ^ 2 / m.invMuXY i

/-- C94, 2D TMEM, lossless or conducting. -/
theorem C94_tmem2D {NX NY : ℕ} {s : Int} {cs : List ℚ} (hs : ValidOrder s) (hcs : fd s = some cs)
    {DT DH v : ℝ} (hDT : 0 < DT) (hDH : 0 < DH) (hv : 0 < v)
    (hC : DT < DH / (gamma cs * √2 * v)) {m : EMod (Pt NX NY 1)} (hm : m.physical)
    (hmu : ∀ i, 0 ≤ m.invMuXZ i ∧ 0 ≤ m.invMuYZ i)
    (hx : SpeedBound s v .x (fun i => 1 / m.eps .z i) m.invMuXZ)
    (hy : SpeedBound s v .y (fun i => 1 / m.eps .z i) m.invMuYZ)
    {c : BC (Pt NX NY 1)} (hc : c.plain) (w : State (Pt NX NY 1))
    (hw : ∀ i, (m.invMuYZ i = 0 → w (.fld .hX) i = 0) ∧ (m.invMuXZ i = 0 → w (.fld .hY) i = 0))
    (n : ℕ) :
    let θ := gamma cs * √2 * v * DT / DH
    tmemNorm2D m (run (tmem2DSolver (regularDeriv NX NY 1 s DT DH) m c) [] w n) ≤
      (1 + θ) / (1 - θ) * tmemNorm2D m w := by
  intro θ
  have hg := gamma_pos hs hcs
  have h2 : (0 : ℝ) < √2 := Real.sqrt_pos.mpr two_pos
  refine bounded_of_near (S := tmem2DSolver (regularDeriv NX NY 1 s DT DH) m c)
    (fun w => ∀ i, (m.invMuYZ i = 0 → w (.fld .hX) i = 0) ∧ (m.invMuXZ i = 0 → w (.fld .hY) i = 0))
    (tmemEnergy2D (regularDeriv NX NY 1 s DT DH) m) _ (θ := θ)
    (theta_lt hDH hv hg h2 hC)
    (fun s hs => (tmem2D_step hc regularDeriv_regular hm s hs).1)
    (fun s hs => ((tmem2D_step hc regularDeriv_regular hm s hs).2).trans_le (sub_le_self _
      (Finset.sum_nonneg fun i _ => ohmic_nonneg hm .z .eZ _ _ i))) ?_ w hw n
  intro u hu
  have hK : ∀ i, 0 < 1 / m.eps .z i := fun i => one_div_pos.mpr (hm.eps .z i)
  have bx := axis_bound hs hcs hDT hDH .x (fun i => (hmu i).1) (fun i => (hK i).le)
    (fun i => (hu i).2) (p := u (.fld .eZ)) (fun i h => absurd h (hK i).ne') hx (mul_pos hv h2)
  have by' := axis_bound hs hcs hDT hDH .y (fun i => (hmu i).2) (fun i => (hK i).le)
    (fun i => (hu i).1) (p := u (.fld .eZ)) (fun i h => absurd h (hK i).ne') hy (mul_pos hv h2)
  simp only [div_inv'] at bx by'
  rw [← abs_neg] at by'
  have e : tmemEnergy2D (regularDeriv NX NY 1 s DT DH) m u - tmemNorm2D m u =
      ∑ i, u (.fld .hY) i * (forwardMatrix s DT DH .x).mulVec (u (.fld .eZ)) i +
      -∑ i, u (.fld .hX) i * (forwardMatrix s DT DH .y).mulVec (u (.fld .eZ)) i := by
    unfold tmemEnergy2D tmemNorm2D regularDeriv
    ring
  rw [e]
  refine (combine2 hv bx by').trans (le_of_eq ?_)
  simp only [θ, tmemNorm2D]
  ring

/-- C94, 2D EMEM, lossless or conducting. -/
theorem C94_emem2D {NX NY : ℕ} {s : Int} {cs : List ℚ} (hs : ValidOrder s) (hcs : fd s = some cs)
    {DT DH v : ℝ} (hDT : 0 < DT) (hDH : 0 < DH) (hv : 0 < v)
    (hC : DT < DH / (gamma cs * √2 * v)) {m : EMod (Pt NX NY 1)} (hm : m.physical)
    (hmu : ∀ i, 0 ≤ m.invMuXY i)
    (hx : SpeedBound s v .x (fun i => 1 / m.eps .y i) m.invMuXY)
    (hy : SpeedBound s v .y (fun i => 1 / m.eps .x i) m.invMuXY)
    {c : BC (Pt NX NY 1)} (hc : c.plain) (w : State (Pt NX NY 1))
    (hw : ∀ i, m.invMuXY i = 0 → w (.fld .hZ) i = 0) (n : ℕ) :
    let θ := gamma cs * √2 * v * DT / DH
    ememNorm2D m (run (emem2DSolver (regularDeriv NX NY 1 s DT DH) m c) [] w n) ≤
      (1 + θ) / (1 - θ) * ememNorm2D m w := by
  intro θ
  have hg := gamma_pos hs hcs
  have h2 : (0 : ℝ) < √2 := Real.sqrt_pos.mpr two_pos
  refine bounded_of_near (S := emem2DSolver (regularDeriv NX NY 1 s DT DH) m c)
    (fun w => ∀ i, m.invMuXY i = 0 → w (.fld .hZ) i = 0)
    (ememEnergy2D (regularDeriv NX NY 1 s DT DH) m) _ (θ := θ)
    (theta_lt hDH hv hg h2 hC)
    (fun s hs => (emem2D_step hc regularDeriv_regular hm s hs).1)
    (fun s hs => ((emem2D_step hc regularDeriv_regular hm s hs).2).trans_le (sub_le_self _
      (Finset.sum_nonneg fun i _ => add_nonneg (ohmic_nonneg hm .x .eX _ _ i)
        (ohmic_nonneg hm .y .eY _ _ i)))) ?_ w hw n
  intro u hu
  have hK : ∀ a i, 0 < 1 / m.eps a i := fun a i => one_div_pos.mpr (hm.eps a i)
  have bx := axis_bound hs hcs hDT hDH .x hmu (fun i => (hK .y i).le)
    hu (p := u (.fld .eY)) (fun i h => absurd h (hK .y i).ne') hx (div_pos hv h2)
  have by' := axis_bound hs hcs hDT hDH .y hmu (fun i => (hK .x i).le)
    hu (p := u (.fld .eX)) (fun i h => absurd h (hK .x i).ne') hy (div_pos hv h2)
  simp only [div_inv'] at bx by'
  rw [← abs_neg] at bx
  have e : ememEnergy2D (regularDeriv NX NY 1 s DT DH) m u - ememNorm2D m u =
      ∑ i, u (.fld .hZ) i * (forwardMatrix s DT DH .y).mulVec (u (.fld .eX)) i +
      -∑ i, u (.fld .hZ) i * (forwardMatrix s DT DH .x).mulVec (u (.fld .eY)) i := by
    unfold ememEnergy2D ememNorm2D regularDeriv
    simp only [mul_sub, Finset.sum_sub_distrib, Finset.sum_add_distrib]
    ring
  rw [e]
  refine (combine2' hv by' bx).trans (le_of_eq ?_)
  simp only [θ, ememNorm2D]
  ring

/-- Sum of squares of a 3D electromagnetic wavefield. -/
noncomputable def ememNorm3D (m : EMod ι) (s : State ι) : ℝ :=
  (∑ i, m.eps .x i * s (.fld .eX) i ^ 2 + ∑ i, m.eps .y i * s (.fld .eY) i ^ 2 +
    ∑ i, m.eps .z i * s (.fld .eZ) i ^ 2) +
  (∑ i, s (.fld .hX) i ^ 2 / m.invMuYZ i + ∑ i, s (.fld .hY) i ^ 2 / m.invMuXZ i +
    ∑ i, s (.fld .hZ) i ^ 2 / m.invMuXY i)

/-- Young's inequality for a sum. -/
theorem sum_young_var {R f d : ι → ℝ} {β : ℝ} (hβ : 0 < β) (hR : ∀ i, 0 ≤ R i)
    (hf : ∀ i, R i = 0 → f i = 0) :
    |∑ i, f i * d i| ≤ β / 2 * ∑ i, f i ^ 2 / R i + 1 / (2 * β) * ∑ i, R i * d i ^ 2 := by
  rw [Finset.mul_sum, Finset.mul_sum, ← Finset.sum_add_distrib]
  refine (Finset.abs_sum_le_sum_abs _ _).trans (Finset.sum_le_sum fun i _ => ?_)
  by_cases h : R i = 0
  · rw [hf i h, h]; simp
  have h0 : 0 < R i := lt_of_le_of_ne (hR i) (Ne.symm h)
  rw [abs_le]
  have e1 : β / 2 * (f i ^ 2 / R i) + 1 / (2 * β) * (R i * d i ^ 2) - f i * d i =
      (β * f i - R i * d i) ^ 2 / (2 * β * R i) := by field_simp; ring
  have e2 : β / 2 * (f i ^ 2 / R i) + 1 / (2 * β) * (R i * d i ^ 2) + f i * d i =
      (β * f i + R i * d i) ^ 2 / (2 * β * R i) := by field_simp; ring
  have p1 : 0 ≤ (β * f i - R i * d i) ^ 2 / (2 * β * R i) := by positivity
  have p2 : 0 ≤ (β * f i + R i * d i) ^ 2 / (2 * β * R i) := by positivity
  constructor <;> linarith

/-- The same with a bound of `R`. -/
private theorem sum_young {R f d : ι → ℝ} {r β : ℝ} (hβ : 0 < β) (hR : ∀ i, 0 ≤ R i ∧ R i ≤ r)
    (hf : ∀ i, R i = 0 → f i = 0) :
    |∑ i, f i * d i| ≤ β / 2 * ∑ i, f i ^ 2 / R i + r / (2 * β) * ∑ i, d i ^ 2 := by
  refine (sum_young_var hβ (fun i => (hR i).1) hf).trans ?_
  have : ∑ i, R i * d i ^ 2 ≤ r * ∑ i, d i ^ 2 := by
    rw [Finset.mul_sum]
    exact Finset.sum_le_sum fun i _ => mul_le_mul_of_nonneg_right (hR i).2 (sq_nonneg _)
  have h := mul_le_mul_of_nonneg_left this (by positivity : 0 ≤ 1 / (2 * β))
  have e : r / (2 * β) * ∑ i, d i ^ 2 = 1 / (2 * β) * (r * ∑ i, d i ^ 2) := by ring
  linarith

private theorem absSum_pos {s : Int} {cs : List ℚ} (hs : ValidOrder s) (hcs : fd s = some cs) :
    0 < absSum cs := by
  have h := gamma_pos hs hcs
  have : (0 : ℝ) < ((absSum cs : ℚ) : ℝ) := by rw [absSum_gamma]; linarith
  exact_mod_cast this

/-- The discrete curl and divergence do not enlarge the sum of squares by more than `3 B²`. -/
private theorem curl_div_bound {NX NY NZ : ℕ} {s : Int} {cs : List ℚ} (hs : ValidOrder s)
    (hcs : fd s = some cs) {DT DH : ℝ} (hDT : 0 < DT) (hDH : 0 < DH) (x y z : Pt NX NY NZ → ℝ) :
    let D := fun a => forwardMatrix (NX := NX) (NY := NY) (NZ := NZ) s DT DH a
    ∑ i, ((D .z).mulVec y i + -(D .y).mulVec z i) ^ 2 +
      ∑ i, (-(D .z).mulVec x i + (D .x).mulVec z i) ^ 2 +
      ∑ i, ((D .y).mulVec x i + -(D .x).mulVec y i) ^ 2 +
      ∑ i, ((D .x).transpose.mulVec x i + (D .y).transpose.mulVec y i +
        (D .z).transpose.mulVec z i) ^ 2 ≤
    3 * (2 * gamma cs * DT / DH) ^ 2 * (∑ i, x i ^ 2 + ∑ i, y i ^ 2 + ∑ i, z i ^ 2) := by
  intro D
  have hB : DT / DH * ((absSum cs : ℚ) : ℝ) = 2 * gamma cs * DT / DH := by rw [absSum_gamma]; ring
  have nf : ∀ a f, ∑ i, (D a).mulVec f i ^ 2 ≤ (2 * gamma cs * DT / DH) ^ 2 * ∑ i, f i ^ 2 :=
    fun a f => hB ▸ forward_norm hcs hDT hDH (absSum_pos hs hcs) a f
  have nt : ∀ a f, ∑ i, (D a).transpose.mulVec f i ^ 2 ≤
      (2 * gamma cs * DT / DH) ^ 2 * ∑ i, f i ^ 2 :=
    fun a f => hB ▸ forward_transpose_norm hcs hDT hDH (absSum_pos hs hcs) a f
  have ex : ∀ {a b : Axis}, a ≠ b → ∀ f g, ∑ i, (D a).mulVec f i * (D b).mulVec g i =
      ∑ i, (D b).transpose.mulVec f i * (D a).transpose.mulVec g i :=
    fun hab f g => forward_exchange hab f g
  have sq2 : ∀ p q : Pt NX NY NZ → ℝ, ∑ i, (p i + -q i) ^ 2 =
      ∑ i, p i ^ 2 + ∑ i, q i ^ 2 - 2 * ∑ i, p i * q i := by
    intro p q
    rw [Finset.mul_sum, ← Finset.sum_add_distrib, ← Finset.sum_sub_distrib]
    exact Finset.sum_congr rfl fun i _ => by ring
  have sq2' : ∀ p q : Pt NX NY NZ → ℝ, ∑ i, (-p i + q i) ^ 2 =
      ∑ i, p i ^ 2 + ∑ i, q i ^ 2 - 2 * ∑ i, p i * q i := by
    intro p q
    rw [Finset.mul_sum, ← Finset.sum_add_distrib, ← Finset.sum_sub_distrib]
    exact Finset.sum_congr rfl fun i _ => by ring
  have sq3 : ∀ p q r : Pt NX NY NZ → ℝ, ∑ i, (p i + q i + r i) ^ 2 =
      ∑ i, p i ^ 2 + ∑ i, q i ^ 2 + ∑ i, r i ^ 2 +
        2 * (∑ i, p i * q i + ∑ i, p i * r i + ∑ i, q i * r i) := by
    intro p q r
    simp only [← Finset.sum_add_distrib, Finset.mul_sum]
    exact Finset.sum_congr rfl fun i _ => by ring
  rw [sq3, sq2, sq2, sq2', ex (by decide) y z, ex (by decide) x z, ex (by decide) x y]
  linarith [nf .z y, nf .y z, nf .z x, nf .x z, nf .y x, nf .x y, nt .x x, nt .y y, nt .z z]

/-- C94, 3D electromagnetic waves, lossless or conducting: `v` is the velocity for the smallest
permittivity and the smallest permeability of the model. -/
theorem C94_emem3D {NX NY NZ : ℕ} {s : Int} {cs : List ℚ} (hs : ValidOrder s) (hcs : fd s = some cs)
    {DT DH v : ℝ} (hDT : 0 < DT) (hDH : 0 < DH) (hv : 0 < v)
    (hC : DT < DH / (gamma cs * √3 * v)) {m : EMod (Pt NX NY NZ)} (hm : m.physical)
    {epsMin muMin : ℝ} (he0 : 0 < epsMin) (hmu0 : 0 < muMin) (heps : ∀ a i, epsMin ≤ m.eps a i)
    (hmu : ∀ i, (0 ≤ m.invMuXY i ∧ m.invMuXY i ≤ 1 / muMin) ∧
      (0 ≤ m.invMuXZ i ∧ m.invMuXZ i ≤ 1 / muMin) ∧ (0 ≤ m.invMuYZ i ∧ m.invMuYZ i ≤ 1 / muMin))
    (hvel : 1 / (epsMin * muMin) ≤ v ^ 2)
    {c : BC (Pt NX NY NZ)} (hc : c.plain) (w : State (Pt NX NY NZ)) (hw : ememRest3D m w) (n : ℕ) :
    let θ := gamma cs * √3 * v * DT / DH
    ememNorm3D m (run (emem3DSolver (regularDeriv NX NY NZ s DT DH) m c) [] w n) ≤
      (1 + θ) / (1 - θ) * ememNorm3D m w := by
  intro θ
  have hg := gamma_pos hs hcs
  have h3 : (0 : ℝ) < √3 := Real.sqrt_pos.mpr three_pos
  refine bounded_of_near (S := emem3DSolver (regularDeriv NX NY NZ s DT DH) m c) (ememRest3D m)
    (ememEnergy3D (regularDeriv NX NY NZ s DT DH) m) _ (θ := θ)
    (theta_lt hDH hv hg h3 hC)
    (fun s hs => (emem3D_step hc regularDeriv_regular hm s hs).1)
    (fun s hs => ((emem3D_step hc regularDeriv_regular hm s hs).2).trans_le (sub_le_self _
      (Finset.sum_nonneg fun i _ => add_nonneg (add_nonneg (ohmic_nonneg hm .x .eX _ _ i)
        (ohmic_nonneg hm .y .eY _ _ i)) (ohmic_nonneg hm .z .eZ _ _ i)))) ?_ w hw n
  intro u hu
  set B := 2 * gamma cs * DT / DH with hBdef
  have hB : 0 < B := by positivity
  have hβ : 0 < √3 * v * B := by positivity
  have b1 := sum_young (d := fun i => (forwardMatrix s DT DH .z).mulVec (u (.fld .eY)) i +
    -(forwardMatrix s DT DH .y).mulVec (u (.fld .eZ)) i) hβ (fun i => (hmu i).2.2) (fun i => (hu i).1)
  have b2 := sum_young (d := fun i => -(forwardMatrix s DT DH .z).mulVec (u (.fld .eX)) i +
    (forwardMatrix s DT DH .x).mulVec (u (.fld .eZ)) i) hβ (fun i => (hmu i).2.1) (fun i => (hu i).2.1)
  have b3 := sum_young (d := fun i => (forwardMatrix s DT DH .y).mulVec (u (.fld .eX)) i +
    -(forwardMatrix s DT DH .x).mulVec (u (.fld .eY)) i) hβ (fun i => (hmu i).1) (fun i => (hu i).2.2)
  have cb := curl_div_bound hs hcs hDT hDH (u (.fld .eX)) (u (.fld .eY)) (u (.fld .eZ))
  simp only at cb
  replace cb := (le_add_of_nonneg_right (Finset.sum_nonneg fun i _ => sq_nonneg _)).trans cb
  rw [← hBdef] at cb
  have heq : ∀ a f, epsMin * ∑ i, u (.fld f) i ^ 2 ≤ ∑ i, m.eps a i * u (.fld f) i ^ 2 := by
    intro a f
    rw [Finset.mul_sum]
    exact Finset.sum_le_sum fun i _ => mul_le_mul_of_nonneg_right (heps a i) (sq_nonneg _)
  have hx := heq .x .eX
  have hy := heq .y .eY
  have hz := heq .z .eZ
  have e : ememEnergy3D (regularDeriv NX NY NZ s DT DH) m u - ememNorm3D m u =
      ∑ i, u (.fld .hX) i * ((forwardMatrix s DT DH .z).mulVec (u (.fld .eY)) i +
        -(forwardMatrix s DT DH .y).mulVec (u (.fld .eZ)) i) +
      ∑ i, u (.fld .hY) i * (-(forwardMatrix s DT DH .z).mulVec (u (.fld .eX)) i +
        (forwardMatrix s DT DH .x).mulVec (u (.fld .eZ)) i) +
      ∑ i, u (.fld .hZ) i * ((forwardMatrix s DT DH .y).mulVec (u (.fld .eX)) i +
        -(forwardMatrix s DT DH .x).mulVec (u (.fld .eY)) i) := by
    unfold ememEnergy3D ememNorm3D regularDeriv
    simp only [Finset.sum_add_distrib]
    ring
  rw [e]
  refine (abs_add_three _ _ _).trans ?_
  have hr : 1 / muMin ≤ v ^ 2 * epsMin := by
    have : 1 / muMin = 1 / (epsMin * muMin) * epsMin := by field_simp
    rw [this]
    exact mul_le_mul_of_nonneg_right hvel he0.le
  generalize ∑ i, ((forwardMatrix s DT DH .z).mulVec (u (.fld .eY)) i +
    -(forwardMatrix s DT DH .y).mulVec (u (.fld .eZ)) i) ^ 2 = c1 at b1 cb
  generalize ∑ i, (-(forwardMatrix s DT DH .z).mulVec (u (.fld .eX)) i +
    (forwardMatrix s DT DH .x).mulVec (u (.fld .eZ)) i) ^ 2 = c2 at b2 cb
  generalize ∑ i, ((forwardMatrix s DT DH .y).mulVec (u (.fld .eX)) i +
    -(forwardMatrix s DT DH .x).mulVec (u (.fld .eY)) i) ^ 2 = c3 at b3 cb
  refine (add_le_add (add_le_add b1 b2) b3).trans ?_
  simp only [θ, ememNorm3D]
  have nx : 0 ≤ ∑ i, u (.fld .eX) i ^ 2 := Finset.sum_nonneg fun i _ => sq_nonneg _
  have ny : 0 ≤ ∑ i, u (.fld .eY) i ^ 2 := Finset.sum_nonneg fun i _ => sq_nonneg _
  have nz : 0 ≤ ∑ i, u (.fld .eZ) i ^ 2 := Finset.sum_nonneg fun i _ => sq_nonneg _
  generalize ∑ i, u (.fld .eX) i ^ 2 = sx at hx cb nx
  generalize ∑ i, u (.fld .eY) i ^ 2 = sy at hy cb ny
  generalize ∑ i, u (.fld .eZ) i ^ 2 = sz at hz cb nz
  have hC0 : 1 / muMin / (2 * (√3 * v * B)) * (c1 + c2 + c3) ≤
      √3 * v * B / 2 * (∑ i, m.eps .x i * u (.fld .eX) i ^ 2 + ∑ i, m.eps .y i * u (.fld .eY) i ^ 2 +
        ∑ i, m.eps .z i * u (.fld .eZ) i ^ 2) := by
    have h33 : √3 * √3 = 3 := Real.mul_self_sqrt three_pos.le
    calc 1 / muMin / (2 * (√3 * v * B)) * (c1 + c2 + c3)
        ≤ 1 / muMin / (2 * (√3 * v * B)) * (3 * B ^ 2 * (sx + sy + sz)) :=
          mul_le_mul_of_nonneg_left cb (by positivity)
      _ ≤ v ^ 2 * epsMin / (2 * (√3 * v * B)) * (3 * B ^ 2 * (sx + sy + sz)) := by
          apply mul_le_mul_of_nonneg_right _ (by positivity)
          exact div_le_div_of_nonneg_right hr (by positivity)
      _ = √3 * v * B / 2 * (epsMin * sx + epsMin * sy + epsMin * sz) := by
          field_simp
          rw [Real.sq_sqrt three_pos.le]
      _ ≤ _ := mul_le_mul_of_nonneg_left (by linarith) (by positivity)
  have hθ : gamma cs * √3 * v * DT / DH = √3 * v * B / 2 := by rw [hBdef]; ring
  rw [hθ]
  linarith

/-! ### Elastic waves -/

/-- Sum of squares of a 2D elastic wavefield: stress energy and kinetic energy. -/
noncomputable def elasticNorm2D (m : Mod ι) (s : State ι) : ℝ :=
  ∑ i, ((s (.fld .Sxx) i + s (.fld .Syy) i) ^ 2 / (4 * (m.pMod i - m.sMod i)) +
    (s (.fld .Sxx) i - s (.fld .Syy) i) ^ 2 / (4 * m.sMod i) +
    s (.fld .Sxy) i ^ 2 / m.sModXY i) +
  (∑ i, s (.fld .vX) i ^ 2 / m.invRhoX i + ∑ i, s (.fld .vY) i ^ 2 / m.invRhoY i)

theorem adj_forward {NX NY NZ : ℕ} {s : Int} {DT DH : ℝ} (a : Axis) (f g : Pt NX NY NZ → ℝ) :
    ∑ i, f i * (forwardMatrix s DT DH a).mulVec g i =
      ∑ i, g i * (forwardMatrix s DT DH a).transpose.mulVec f i := by
  rw [adjoint]
  exact Finset.sum_congr rfl fun i _ => mul_comm _ _

theorem adj_backward {NX NY NZ : ℕ} {s : Int} {DT DH : ℝ} (a : Axis) (f g : Pt NX NY NZ → ℝ) :
    ∑ i, f i * (backwardMatrix s DT DH a).mulVec g i =
      -∑ i, g i * (forwardMatrix s DT DH a).mulVec f i := by
  rw [adjoint, ← Finset.sum_neg_distrib]
  refine Finset.sum_congr rfl fun i _ => ?_
  rw [backwardMatrix, transpose_neg, transpose_transpose, neg_mulVec, Pi.neg_apply]
  ring

/-- Strain energy of a 2D motion. -/
private theorem strain2D {NX NY : ℕ} {s : Int} {cs : List ℚ} (hs : ValidOrder s)
    (hcs : fd s = some cs) {DT DH : ℝ} (hDT : 0 < DT) (hDH : 0 < DH) {M μxy : Pt NX NY 1 → ℝ}
    {Mmax μ : ℝ} (hμ : 0 ≤ μ) (hμM : μ ≤ Mmax) (hM : ∀ i, M i ≤ Mmax) (hμxy : ∀ i, μxy i ≤ μ)
    (x y : Pt NX NY 1 → ℝ) :
    let D := fun a => forwardMatrix (NX := NX) (NY := NY) (NZ := 1) s DT DH a
    let a := (D .x).transpose.mulVec x
    let b := (D .y).transpose.mulVec y
    let g := fun i => (D .y).mulVec x i + (D .x).mulVec y i
    ∑ i, (M i - μ) * (a i + b i) ^ 2 + ∑ i, μ * (a i - b i) ^ 2 + ∑ i, μxy i * g i ^ 2 ≤
      Mmax * (2 * (2 * gamma cs * DT / DH) ^ 2 * (∑ i, x i ^ 2 + ∑ i, y i ^ 2)) := by
  intro D a b g
  have hB : DT / DH * ((absSum cs : ℚ) : ℝ) = 2 * gamma cs * DT / DH := by rw [absSum_gamma]; ring
  have nf : ∀ a f, ∑ i, (D a).mulVec f i ^ 2 ≤ (2 * gamma cs * DT / DH) ^ 2 * ∑ i, f i ^ 2 :=
    fun a f => hB ▸ forward_norm hcs hDT hDH (absSum_pos hs hcs) a f
  have nt : ∀ a f, ∑ i, (D a).transpose.mulVec f i ^ 2 ≤
      (2 * gamma cs * DT / DH) ^ 2 * ∑ i, f i ^ 2 :=
    fun a f => hB ▸ forward_transpose_norm hcs hDT hDH (absSum_pos hs hcs) a f
  have ex : ∑ i, (D .y).mulVec x i * (D .x).mulVec y i = ∑ i, a i * b i :=
    forward_exchange (by decide) x y
  have h1 : ∑ i, (M i - μ) * (a i + b i) ^ 2 + ∑ i, μ * (a i - b i) ^ 2 + ∑ i, μxy i * g i ^ 2 ≤
      ∑ i, (Mmax * (a i ^ 2 + b i ^ 2 + (D .y).mulVec x i ^ 2 + (D .x).mulVec y i ^ 2) +
        (2 * Mmax - 4 * μ) * (a i * b i) + (4 * μ - 2 * Mmax) * ((D .y).mulVec x i * (D .x).mulVec y i)) := by
    rw [← Finset.sum_add_distrib, ← Finset.sum_add_distrib]
    refine Finset.sum_le_sum fun i _ => ?_
    have e1 := mul_le_mul_of_nonneg_right (hM i) (sq_nonneg (a i + b i))
    have e2 := mul_le_mul_of_nonneg_right (hμxy i) (sq_nonneg (g i))
    have e3 := mul_le_mul_of_nonneg_right hμM (sq_nonneg ((D .y).mulVec x i - (D .x).mulVec y i))
    simp only [g] at e2 ⊢
    linarith
  refine h1.trans ?_
  simp only [Finset.sum_add_distrib, ← Finset.mul_sum]
  rw [ex]
  have hM0 : 0 ≤ Mmax := hμ.trans hμM
  have k : ∑ i, a i ^ 2 + ∑ i, b i ^ 2 + ∑ i, (D .y).mulVec x i ^ 2 + ∑ i, (D .x).mulVec y i ^ 2 ≤
      2 * (2 * gamma cs * DT / DH) ^ 2 * (∑ i, x i ^ 2 + ∑ i, y i ^ 2) := by
    linarith [nt .x x, nt .y y, nf .y x, nf .x y]
  linarith [mul_le_mul_of_nonneg_left k hM0]

/-- 2D elastic waves with a bound of the strain energy. -/
private theorem elastic2D_near {NX NY : ℕ} {s : Int} {cs : List ℚ} (hs : ValidOrder s)
    (hcs : fd s = some cs) {DT DH v : ℝ} (hDT : 0 < DT) (hDH : 0 < DH) (hv : 0 < v)
    {m : Mod (Pt NX NY 1)} {rhoMin : ℝ}
    (hrho : 0 < rhoMin)
    (hm : ∀ i, 0 ≤ m.sMod i ∧ m.sMod i ≤ m.pMod i ∧ 0 ≤ m.sModXY i ∧
      (0 ≤ m.invRhoX i ∧ m.invRhoX i ≤ 1 / rhoMin) ∧ (0 ≤ m.invRhoY i ∧ m.invRhoY i ≤ 1 / rhoMin))
    (hst : ∀ x y : Pt NX NY 1 → ℝ,
      ∑ i, (m.pMod i - m.sMod i) * ((forwardMatrix s DT DH .x).transpose.mulVec x i +
        (forwardMatrix s DT DH .y).transpose.mulVec y i) ^ 2 +
      ∑ i, m.sMod i * ((forwardMatrix s DT DH .x).transpose.mulVec x i -
        (forwardMatrix s DT DH .y).transpose.mulVec y i) ^ 2 +
      ∑ i, m.sModXY i * ((forwardMatrix s DT DH .y).mulVec x i +
        (forwardMatrix s DT DH .x).mulVec y i) ^ 2 ≤
      v ^ 2 * rhoMin * (2 * (2 * gamma cs * DT / DH) ^ 2 * (∑ i, x i ^ 2 + ∑ i, y i ^ 2)))
    (u : State (Pt NX NY 1)) (hu : elasticRest2D m u) :
    |elasticEnergy2D (regularDeriv NX NY 1 s DT DH) m u - elasticNorm2D m u| ≤
      gamma cs * √2 * v * DT / DH * elasticNorm2D m u := by
  set θ := gamma cs * √2 * v * DT / DH with hθdef
  have hg := gamma_pos hs hcs
  have h2 : (0 : ℝ) < √2 := Real.sqrt_pos.mpr two_pos
  set B := 2 * gamma cs * DT / DH with hBdef
  have hB : 0 < B := by positivity
  have hβ : 0 < √2 * v * B := by positivity
  set X := forwardMatrix (NX := NX) (NY := NY) (NZ := 1) s DT DH .x with hX
  set Y := forwardMatrix (NX := NX) (NY := NY) (NZ := 1) s DT DH .y with hY
  have b1 := sum_young_var (R := fun i => m.pMod i - m.sMod i)
    (f := fun i => (u (.fld .Sxx) i + u (.fld .Syy) i) / 2)
    (d := fun i => X.transpose.mulVec (u (.fld .vX)) i + Y.transpose.mulVec (u (.fld .vY)) i) hβ
    (fun i => sub_nonneg.mpr (hm i).2.1)
    (fun i h => by
      have := (hu i).1 (sub_eq_zero.mp h)
      simp only [this]; norm_num)
  have b2 := sum_young_var (R := m.sMod)
    (f := fun i => (u (.fld .Sxx) i - u (.fld .Syy) i) / 2)
    (d := fun i => X.transpose.mulVec (u (.fld .vX)) i - Y.transpose.mulVec (u (.fld .vY)) i) hβ
    (fun i => (hm i).1)
    (fun i h => by
      have := (hu i).2.1 h
      simp only [this]; norm_num)
  have b3 := sum_young_var (R := m.sModXY) (f := u (.fld .Sxy))
    (d := fun i => Y.mulVec (u (.fld .vX)) i + X.mulVec (u (.fld .vY)) i) hβ
    (fun i => (hm i).2.2.1) (fun i => (hu i).2.2.1)
  rw [← abs_neg] at b3
  have st := hst (u (.fld .vX)) (u (.fld .vY))
  have e : elasticEnergy2D (regularDeriv NX NY 1 s DT DH) m u - elasticNorm2D m u =
      ∑ i, (u (.fld .Sxx) i + u (.fld .Syy) i) / 2 *
        (X.transpose.mulVec (u (.fld .vX)) i + Y.transpose.mulVec (u (.fld .vY)) i) +
      ∑ i, (u (.fld .Sxx) i - u (.fld .Syy) i) / 2 *
        (X.transpose.mulVec (u (.fld .vX)) i - Y.transpose.mulVec (u (.fld .vY)) i) +
      -∑ i, u (.fld .Sxy) i * (Y.mulVec (u (.fld .vX)) i + X.mulVec (u (.fld .vY)) i) := by
    unfold elasticEnergy2D elasticNorm2D regularDeriv
    simp only [mul_add, Finset.sum_add_distrib, adj_forward .x (u (.fld .vX)),
      adj_forward .y (u (.fld .vY)), adj_backward]
    rw [← hX, ← hY]
    have k : ∑ i, u (.fld .Sxx) i * X.transpose.mulVec (u (.fld .vX)) i +
        ∑ i, u (.fld .Syy) i * Y.transpose.mulVec (u (.fld .vY)) i =
      ∑ i, (u (.fld .Sxx) i + u (.fld .Syy) i) / 2 * X.transpose.mulVec (u (.fld .vX)) i +
      ∑ i, (u (.fld .Sxx) i + u (.fld .Syy) i) / 2 * Y.transpose.mulVec (u (.fld .vY)) i +
      ∑ i, (u (.fld .Sxx) i - u (.fld .Syy) i) / 2 *
        (X.transpose.mulVec (u (.fld .vX)) i - Y.transpose.mulVec (u (.fld .vY)) i) := by
      simp only [← Finset.sum_add_distrib]
      exact Finset.sum_congr rfl fun i _ => by ring
    linarith
  rw [e]
  refine (abs_add_three _ _ _).trans ((add_le_add (add_le_add b1 b2) b3).trans ?_)
  have hkin : ∀ (R : Pt NX NY 1 → ℝ) (f : Fld), (∀ i, 0 ≤ R i ∧ R i ≤ 1 / rhoMin) →
      (∀ i, R i = 0 → u (.fld f) i = 0) →
      rhoMin * ∑ i, u (.fld f) i ^ 2 ≤ ∑ i, u (.fld f) i ^ 2 / R i := by
    intro R f hR hf
    rw [Finset.mul_sum]
    refine Finset.sum_le_sum fun i _ => ?_
    by_cases h : R i = 0
    · rw [hf i h]; simp
    · have h0 : 0 < R i := lt_of_le_of_ne (hR i).1 (Ne.symm h)
      rw [le_div_iff₀ h0]
      have := (le_div_iff₀ hrho).mp (hR i).2
      calc rhoMin * u (.fld f) i ^ 2 * R i = R i * rhoMin * u (.fld f) i ^ 2 := by ring
        _ ≤ 1 * u (.fld f) i ^ 2 := mul_le_mul_of_nonneg_right this (sq_nonneg _)
        _ = _ := one_mul _
  have kx := hkin m.invRhoX .vX (fun i => (hm i).2.2.2.1) (fun i => (hu i).2.2.2.1)
  have ky := hkin m.invRhoY .vY (fun i => (hm i).2.2.2.2) (fun i => (hu i).2.2.2.2)
  have n1 : elasticNorm2D m u =
      (∑ i, ((u (.fld .Sxx) i + u (.fld .Syy) i) / 2) ^ 2 / (m.pMod i - m.sMod i) +
        ∑ i, ((u (.fld .Sxx) i - u (.fld .Syy) i) / 2) ^ 2 / m.sMod i +
        ∑ i, u (.fld .Sxy) i ^ 2 / m.sModXY i) +
      (∑ i, u (.fld .vX) i ^ 2 / m.invRhoX i + ∑ i, u (.fld .vY) i ^ 2 / m.invRhoY i) := by
    unfold elasticNorm2D
    simp only [← Finset.sum_add_distrib]
    refine Finset.sum_congr rfl fun i _ => ?_
    rw [div_pow, div_pow, div_div, div_div]
    norm_num
  have nx : 0 ≤ ∑ i, u (.fld .vX) i ^ 2 := Finset.sum_nonneg fun i _ => sq_nonneg _
  have ny : 0 ≤ ∑ i, u (.fld .vY) i ^ 2 := Finset.sum_nonneg fun i _ => sq_nonneg _
  rw [n1]
  have hθ : θ = √2 * v * B / 2 := by rw [hθdef, hBdef]; ring
  rw [hθ]
  have fin : 1 / (2 * (√2 * v * B)) * (∑ i, (m.pMod i - m.sMod i) * (X.transpose.mulVec (u (.fld .vX)) i +
        Y.transpose.mulVec (u (.fld .vY)) i) ^ 2 +
      ∑ i, m.sMod i * (X.transpose.mulVec (u (.fld .vX)) i - Y.transpose.mulVec (u (.fld .vY)) i) ^ 2 +
      ∑ i, m.sModXY i * (Y.mulVec (u (.fld .vX)) i + X.mulVec (u (.fld .vY)) i) ^ 2) ≤
      √2 * v * B / 2 * (∑ i, u (.fld .vX) i ^ 2 / m.invRhoX i +
        ∑ i, u (.fld .vY) i ^ 2 / m.invRhoY i) := by
    calc _ ≤ 1 / (2 * (√2 * v * B)) * (v ^ 2 * rhoMin *
            (2 * B ^ 2 * (∑ i, u (.fld .vX) i ^ 2 + ∑ i, u (.fld .vY) i ^ 2))) :=
          mul_le_mul_of_nonneg_left st (by positivity)
      _ = √2 * v * B / 2 * (rhoMin * ∑ i, u (.fld .vX) i ^ 2 + rhoMin * ∑ i, u (.fld .vY) i ^ 2) := by
          field_simp
          rw [Real.sq_sqrt two_pos.le]
      _ ≤ _ := mul_le_mul_of_nonneg_left (by linarith) (by positivity)
  linarith

/-- See `C94_elastic2D_partial`. -/
theorem elastic2D_near_const {NX NY : ℕ} {s : Int} {cs : List ℚ} (hs : ValidOrder s)
    (hcs : fd s = some cs) {DT DH v : ℝ} (hDT : 0 < DT) (hDH : 0 < DH) (hv : 0 < v)
    {m : Mod (Pt NX NY 1)} {Mmax μ rhoMin : ℝ}
    (hrho : 0 < rhoMin) (hμ : 0 ≤ μ) (hμM : μ ≤ Mmax)
    (hm : ∀ i, m.sMod i = μ ∧ (0 ≤ m.sModXY i ∧ m.sModXY i ≤ μ) ∧ (μ ≤ m.pMod i ∧ m.pMod i ≤ Mmax) ∧
      (0 ≤ m.invRhoX i ∧ m.invRhoX i ≤ 1 / rhoMin) ∧ (0 ≤ m.invRhoY i ∧ m.invRhoY i ≤ 1 / rhoMin))
    (hvel : Mmax / rhoMin ≤ v ^ 2)
    (u : State (Pt NX NY 1)) (hu : elasticRest2D m u) :
    |elasticEnergy2D (regularDeriv NX NY 1 s DT DH) m u - elasticNorm2D m u| ≤
      gamma cs * √2 * v * DT / DH * elasticNorm2D m u := by
  have hMv : Mmax ≤ v ^ 2 * rhoMin := by rwa [div_le_iff₀ hrho] at hvel
  refine elastic2D_near hs hcs hDT hDH hv hrho (fun i => ?_) (fun x y => ?_) u hu
  · obtain ⟨h1, h2, h3, h4, h5⟩ := hm i
    rw [h1]
    exact ⟨hμ, h3.1, h2.1, h4, h5⟩
  · have h := strain2D hs hcs hDT hDH hμ hμM (fun i => (hm i).2.2.1.2) (fun i => (hm i).2.1.2) x y
    simp only at h
    simp only [fun i => (hm i).1]
    exact h.trans (mul_le_mul_of_nonneg_right hMv (by positivity))

/-- C94, 2D elastic: constant shear modulus (zero in a fluid), arbitrary P-wave modulus and density.
`v` is the velocity for the largest P-wave modulus and the smallest density.
Missing: variable shear moduli. -/
theorem C94_elastic2D_partial {NX NY : ℕ} {s : Int} {cs : List ℚ} (hs : ValidOrder s)
    (hcs : fd s = some cs) {DT DH v : ℝ} (hDT : 0 < DT) (hDH : 0 < DH) (hv : 0 < v)
    (hC : DT < DH / (gamma cs * √2 * v)) {m : Mod (Pt NX NY 1)} {Mmax μ rhoMin : ℝ}
    (hrho : 0 < rhoMin) (hμ : 0 ≤ μ) (hμM : μ ≤ Mmax)
    (hm : ∀ i, m.sMod i = μ ∧ (0 ≤ m.sModXY i ∧ m.sModXY i ≤ μ) ∧ (μ ≤ m.pMod i ∧ m.pMod i ≤ Mmax) ∧
      (0 ≤ m.invRhoX i ∧ m.invRhoX i ≤ 1 / rhoMin) ∧ (0 ≤ m.invRhoY i ∧ m.invRhoY i ≤ 1 / rhoMin))
    (hvel : Mmax / rhoMin ≤ v ^ 2)
    {c : BC (Pt NX NY 1)} (hc : c.plain) (w : State (Pt NX NY 1)) (hw : elasticRest2D m w) (n : ℕ) :
    let θ := gamma cs * √2 * v * DT / DH
    elasticNorm2D m (run (elastic2DSolver (regularDeriv NX NY 1 s DT DH) m c) [] w n) ≤
      (1 + θ) / (1 - θ) * elasticNorm2D m w := by
  intro θ
  have hg := gamma_pos hs hcs
  have h2 : (0 : ℝ) < √2 := Real.sqrt_pos.mpr two_pos
  have h3 : (0 : ℝ) < √3 := Real.sqrt_pos.mpr three_pos
  exact bounded_of_near (S := elastic2DSolver (regularDeriv NX NY 1 s DT DH) m c) (elasticRest2D m)
    (elasticEnergy2D (regularDeriv NX NY 1 s DT DH) m) _ (θ := θ)
    (theta_lt hDH hv hg h2 hC)
    (fun s hs => (elastic2D_step hc regularDeriv_regular s hs).1)
    (fun s hs => (elastic2D_step hc regularDeriv_regular s hs).2.le)
    (elastic2D_near_const hs hcs hDT hDH hv hrho hμ hμM hm hvel) w hw n

/-- See `C94_elastic2D_variable_partial`. -/
theorem elastic2D_near_variable {NX NY : ℕ} {s : Int} {cs : List ℚ} (hs : ValidOrder s)
    (hcs : fd s = some cs) {DT DH v : ℝ} (hDT : 0 < DT) (hDH : 0 < DH) (hv : 0 < v)
    {m : Mod (Pt NX NY 1)} {Mmax rhoMin : ℝ}
    (hrho : 0 < rhoMin) (hM : 0 ≤ Mmax)
    (hm : ∀ i, 0 ≤ m.sMod i ∧ m.sMod i ≤ m.pMod i ∧ m.pMod i ≤ Mmax ∧
      (0 ≤ m.sModXY i ∧ m.sModXY i ≤ Mmax) ∧
      (0 ≤ m.invRhoX i ∧ m.invRhoX i ≤ 1 / rhoMin) ∧ (0 ≤ m.invRhoY i ∧ m.invRhoY i ≤ 1 / rhoMin))
    (hvel : Mmax / rhoMin ≤ v ^ 2)
    (u : State (Pt NX NY 1)) (hu : elasticRest2D m u) :
    |elasticEnergy2D (regularDeriv NX NY 1 s DT DH) m u - elasticNorm2D m u| ≤
      gamma cs * 2 * v * DT / DH * elasticNorm2D m u := by
  have hMv : Mmax ≤ v ^ 2 * rhoMin := by rwa [div_le_iff₀ hrho] at hvel
  have h22 : √2 * √2 = (2 : ℝ) := Real.mul_self_sqrt two_pos.le
  have h2 : (0 : ℝ) < √2 := Real.sqrt_pos.mpr two_pos
  have e : gamma cs * √2 * (√2 * v) = gamma cs * 2 * v := by linear_combination gamma cs * v * h22
  have hB : DT / DH * ((absSum cs : ℚ) : ℝ) = 2 * gamma cs * DT / DH := by rw [absSum_gamma]; ring
  have nf : ∀ a f, ∑ i, (forwardMatrix s DT DH a).mulVec f i ^ 2 ≤
      (2 * gamma cs * DT / DH) ^ 2 * ∑ i : Pt NX NY 1, f i ^ 2 :=
    fun a f => hB ▸ forward_norm hcs hDT hDH (absSum_pos hs hcs) a f
  have nt : ∀ a f, ∑ i, (forwardMatrix s DT DH a).transpose.mulVec f i ^ 2 ≤
      (2 * gamma cs * DT / DH) ^ 2 * ∑ i : Pt NX NY 1, f i ^ 2 :=
    fun a f => hB ▸ forward_transpose_norm hcs hDT hDH (absSum_pos hs hcs) a f
  have key := elastic2D_near hs hcs hDT hDH (v := √2 * v) (mul_pos h2 hv) hrho
    (m := m) (fun i => ?_) (fun x y => ?_) u hu
  · rw [e] at key
    exact key
  · obtain ⟨h1, h2, h3, h4, h5, h6⟩ := hm i
    exact ⟨h1, h2, h4.1, h5, h6⟩
  · have h1 : ∑ i, (m.pMod i - m.sMod i) * ((forwardMatrix s DT DH .x).transpose.mulVec x i +
          (forwardMatrix s DT DH .y).transpose.mulVec y i) ^ 2 +
        ∑ i, m.sMod i * ((forwardMatrix s DT DH .x).transpose.mulVec x i -
          (forwardMatrix s DT DH .y).transpose.mulVec y i) ^ 2 +
        ∑ i, m.sModXY i * ((forwardMatrix s DT DH .y).mulVec x i +
          (forwardMatrix s DT DH .x).mulVec y i) ^ 2 ≤
        ∑ i, 2 * Mmax * ((forwardMatrix s DT DH .x).transpose.mulVec x i ^ 2 +
          (forwardMatrix s DT DH .y).transpose.mulVec y i ^ 2 +
          (forwardMatrix s DT DH .y).mulVec x i ^ 2 + (forwardMatrix s DT DH .x).mulVec y i ^ 2) := by
      rw [← Finset.sum_add_distrib, ← Finset.sum_add_distrib]
      refine Finset.sum_le_sum fun i _ => ?_
      obtain ⟨h1, h2, h3, h4, _⟩ := hm i
      generalize (forwardMatrix s DT DH .x).transpose.mulVec x i = a
      generalize (forwardMatrix s DT DH .y).transpose.mulVec y i = b
      generalize (forwardMatrix s DT DH .y).mulVec x i = p
      generalize (forwardMatrix s DT DH .x).mulVec y i = q
      have t1 := mul_nonneg (sub_nonneg.mpr h2) (sq_nonneg (a - b))
      have t2 := mul_nonneg h1 (sq_nonneg (a + b))
      have t3 := mul_le_mul_of_nonneg_right h3 (add_nonneg (sq_nonneg a) (sq_nonneg b))
      have t4 := mul_le_mul_of_nonneg_right h4.2 (sq_nonneg (p + q))
      have t5 := mul_nonneg hM (sq_nonneg (p - q))
      linarith
    refine h1.trans ?_
    simp only [← Finset.mul_sum, Finset.sum_add_distrib]
    have k : ∑ i, (forwardMatrix s DT DH .x).transpose.mulVec x i ^ 2 +
        ∑ i, (forwardMatrix s DT DH .y).transpose.mulVec y i ^ 2 +
        ∑ i, (forwardMatrix s DT DH .y).mulVec x i ^ 2 + ∑ i, (forwardMatrix s DT DH .x).mulVec y i ^ 2 ≤
        2 * (2 * gamma cs * DT / DH) ^ 2 * (∑ i, x i ^ 2 + ∑ i, y i ^ 2) := by
      linarith [nt .x x, nt .y y, nf .y x, nf .x y]
    have n0 : 0 ≤ 2 * (2 * gamma cs * DT / DH) ^ 2 * (∑ i, x i ^ 2 + ∑ i, y i ^ 2) := by positivity
    calc _ ≤ 2 * Mmax * (2 * (2 * gamma cs * DT / DH) ^ 2 * (∑ i, x i ^ 2 + ∑ i, y i ^ 2)) :=
          mul_le_mul_of_nonneg_left k (by positivity)
      _ ≤ 2 * (v ^ 2 * rhoMin) * (2 * (2 * gamma cs * DT / DH) ^ 2 * (∑ i, x i ^ 2 + ∑ i, y i ^ 2)) :=
          mul_le_mul_of_nonneg_right (by linarith) n0
      _ = _ := by rw [mul_pow, Real.sq_sqrt two_pos.le]; ring

/-- C94, 2D elastic with arbitrary moduli and densities: half of the time step is always enough
(the limit below is smaller by the factor `√2` than that of `C94_elastic2D_partial`).
Missing: time steps between the two limits when the shear modulus varies. -/
theorem C94_elastic2D_variable_partial {NX NY : ℕ} {s : Int} {cs : List ℚ} (hs : ValidOrder s)
    (hcs : fd s = some cs) {DT DH v : ℝ} (hDT : 0 < DT) (hDH : 0 < DH) (hv : 0 < v)
    (hC : DT < DH / (gamma cs * 2 * v)) {m : Mod (Pt NX NY 1)} {Mmax rhoMin : ℝ}
    (hrho : 0 < rhoMin) (hM : 0 ≤ Mmax)
    (hm : ∀ i, 0 ≤ m.sMod i ∧ m.sMod i ≤ m.pMod i ∧ m.pMod i ≤ Mmax ∧
      (0 ≤ m.sModXY i ∧ m.sModXY i ≤ Mmax) ∧
      (0 ≤ m.invRhoX i ∧ m.invRhoX i ≤ 1 / rhoMin) ∧ (0 ≤ m.invRhoY i ∧ m.invRhoY i ≤ 1 / rhoMin))
    (hvel : Mmax / rhoMin ≤ v ^ 2)
    {c : BC (Pt NX NY 1)} (hc : c.plain) (w : State (Pt NX NY 1)) (hw : elasticRest2D m w) (n : ℕ) :
    let θ := gamma cs * 2 * v * DT / DH
    elasticNorm2D m (run (elastic2DSolver (regularDeriv NX NY 1 s DT DH) m c) [] w n) ≤
      (1 + θ) / (1 - θ) * elasticNorm2D m w := by
  intro θ
  have hg := gamma_pos hs hcs
  have h2 : (0 : ℝ) < √2 := Real.sqrt_pos.mpr two_pos
  have h3 : (0 : ℝ) < √3 := Real.sqrt_pos.mpr three_pos
  exact bounded_of_near (S := elastic2DSolver (regularDeriv NX NY 1 s DT DH) m c) (elasticRest2D m)
    (elasticEnergy2D (regularDeriv NX NY 1 s DT DH) m) _ (θ := θ)
    (theta_lt hDH hv hg two_pos hC)
    (fun s hs => (elastic2D_step hc regularDeriv_regular s hs).1)
    (fun s hs => (elastic2D_step hc regularDeriv_regular s hs).2.le)
    (elastic2D_near_variable hs hcs hDT hDH hv hrho hM hm hvel) w hw n

/-! #### Three dimensions -/

/-- Sum of squares of a 3D elastic wavefield: stress energy and kinetic energy. -/
noncomputable def elasticNorm3D (m : Mod ι) (s : State ι) : ℝ :=
  ∑ i, ((s (.fld .Sxx) i + s (.fld .Syy) i + s (.fld .Szz) i) ^ 2 /
      (3 * (3 * m.pMod i - 4 * m.sMod i)) +
    ((s (.fld .Sxx) i - s (.fld .Syy) i) ^ 2 / (6 * m.sMod i) +
     (s (.fld .Syy) i - s (.fld .Szz) i) ^ 2 / (6 * m.sMod i) +
     (s (.fld .Szz) i - s (.fld .Sxx) i) ^ 2 / (6 * m.sMod i)) +
    s (.fld .Sxy) i ^ 2 / m.sModXY i + s (.fld .Sxz) i ^ 2 / m.sModXZ i +
    s (.fld .Syz) i ^ 2 / m.sModYZ i) +
  (∑ i, s (.fld .vX) i ^ 2 / m.invRhoX i + ∑ i, s (.fld .vY) i ^ 2 / m.invRhoY i +
    ∑ i, s (.fld .vZ) i ^ 2 / m.invRhoZ i)

/-- Twice the strain energy of a 3D motion, for normal strains `a`, `b`, `c` and shear strains. -/
private noncomputable def strain (M μ μxy μxz μyz : ι → ℝ) (a b c p q r : ι → ℝ) : ℝ :=
  ∑ i, (3 * M i - 4 * μ i) / 3 * (a i + b i + c i) ^ 2 +
  (∑ i, 2 * μ i / 3 * (a i - b i) ^ 2 + ∑ i, 2 * μ i / 3 * (b i - c i) ^ 2 +
    ∑ i, 2 * μ i / 3 * (c i - a i) ^ 2) +
  (∑ i, μxy i * p i ^ 2 + ∑ i, μxz i * q i ^ 2 + ∑ i, μyz i * r i ^ 2)

/-- 3D elastic waves with a bound of the strain energy. -/
private theorem elastic3D_near {NX NY NZ : ℕ} {s : Int} {cs : List ℚ} (hs : ValidOrder s)
    (hcs : fd s = some cs) {DT DH v : ℝ} (hDT : 0 < DT) (hDH : 0 < DH) (hv : 0 < v)
    {m : Mod (Pt NX NY NZ)} {rhoMin : ℝ}
    (hrho : 0 < rhoMin)
    (hm : ∀ i, 0 ≤ m.sMod i ∧ 4 * m.sMod i ≤ 3 * m.pMod i ∧
      (0 ≤ m.sModXY i ∧ 0 ≤ m.sModXZ i ∧ 0 ≤ m.sModYZ i) ∧
      (0 ≤ m.invRhoX i ∧ m.invRhoX i ≤ 1 / rhoMin) ∧ (0 ≤ m.invRhoY i ∧ m.invRhoY i ≤ 1 / rhoMin) ∧
      (0 ≤ m.invRhoZ i ∧ m.invRhoZ i ≤ 1 / rhoMin))
    (hst : ∀ x y z : Pt NX NY NZ → ℝ,
      strain m.pMod m.sMod m.sModXY m.sModXZ m.sModYZ
        ((forwardMatrix s DT DH .x).transpose.mulVec x) ((forwardMatrix s DT DH .y).transpose.mulVec y)
        ((forwardMatrix s DT DH .z).transpose.mulVec z)
        (fun i => (forwardMatrix s DT DH .y).mulVec x i + (forwardMatrix s DT DH .x).mulVec y i)
        (fun i => (forwardMatrix s DT DH .z).mulVec x i + (forwardMatrix s DT DH .x).mulVec z i)
        (fun i => (forwardMatrix s DT DH .z).mulVec y i + (forwardMatrix s DT DH .y).mulVec z i) ≤
      v ^ 2 * rhoMin * (3 * (2 * gamma cs * DT / DH) ^ 2 *
        (∑ i, x i ^ 2 + ∑ i, y i ^ 2 + ∑ i, z i ^ 2)))
    (u : State (Pt NX NY NZ)) (hu : elasticRest3D m u) :
    |elasticEnergy3D (regularDeriv NX NY NZ s DT DH) m u - elasticNorm3D m u| ≤
      gamma cs * √3 * v * DT / DH * elasticNorm3D m u := by
  set θ := gamma cs * √3 * v * DT / DH with hθdef
  have hg := gamma_pos hs hcs
  have h3 : (0 : ℝ) < √3 := Real.sqrt_pos.mpr three_pos
  set B := 2 * gamma cs * DT / DH with hBdef
  have hB : 0 < B := by positivity
  have hβ : 0 < √3 * v * B := by positivity
  set X := forwardMatrix (NX := NX) (NY := NY) (NZ := NZ) s DT DH .x with hX
  set Y := forwardMatrix (NX := NX) (NY := NY) (NZ := NZ) s DT DH .y with hY
  set Z := forwardMatrix (NX := NX) (NY := NY) (NZ := NZ) s DT DH .z with hZ
  set x := u (.fld .vX) with hx
  set y := u (.fld .vY) with hy
  set z := u (.fld .vZ) with hz
  have st := hst x y z
  set a := X.transpose.mulVec x with ha
  set b := Y.transpose.mulVec y with hb
  set d := Z.transpose.mulVec z with hd
  have hμ0 : ∀ i, 2 * m.sMod i / 3 = 0 → m.sMod i = 0 := fun i h => by linarith
  have b1 := sum_young_var (R := fun i => (3 * m.pMod i - 4 * m.sMod i) / 3)
    (f := fun i => (u (.fld .Sxx) i + u (.fld .Syy) i + u (.fld .Szz) i) / 3)
    (d := fun i => a i + b i + d i) hβ
    (fun i => div_nonneg (sub_nonneg.mpr (hm i).2.1) three_pos.le)
    (fun i h => by
      have := (hu i).1 (by linarith)
      simp only [this]; norm_num)
  have b2 := sum_young_var (R := fun i => 2 * m.sMod i / 3)
    (f := fun i => (u (.fld .Sxx) i - u (.fld .Syy) i) / 3) (d := fun i => a i - b i) hβ
    (fun i => by have := (hm i).1; positivity)
    (fun i h => by simp only [((hu i).2.1 (hμ0 i h)).1]; norm_num)
  have b3 := sum_young_var (R := fun i => 2 * m.sMod i / 3)
    (f := fun i => (u (.fld .Syy) i - u (.fld .Szz) i) / 3) (d := fun i => b i - d i) hβ
    (fun i => by have := (hm i).1; positivity)
    (fun i h => by simp only [((hu i).2.1 (hμ0 i h)).2]; norm_num)
  have b4 := sum_young_var (R := fun i => 2 * m.sMod i / 3)
    (f := fun i => (u (.fld .Szz) i - u (.fld .Sxx) i) / 3) (d := fun i => d i - a i) hβ
    (fun i => by have := (hm i).1; positivity)
    (fun i h => by
      have := (hu i).2.1 (hμ0 i h)
      simp only [this.1, this.2]; norm_num)
  have b5 := sum_young_var (R := m.sModXY) (f := u (.fld .Sxy))
    (d := fun i => Y.mulVec x i + X.mulVec y i) hβ (fun i => (hm i).2.2.1.1)
    (fun i => (hu i).2.2.1)
  have b6 := sum_young_var (R := m.sModXZ) (f := u (.fld .Sxz))
    (d := fun i => Z.mulVec x i + X.mulVec z i) hβ (fun i => (hm i).2.2.1.2.1)
    (fun i => (hu i).2.2.2.1)
  have b7 := sum_young_var (R := m.sModYZ) (f := u (.fld .Syz))
    (d := fun i => Z.mulVec y i + Y.mulVec z i) hβ (fun i => (hm i).2.2.1.2.2)
    (fun i => (hu i).2.2.2.2.1)
  have e : elasticEnergy3D (regularDeriv NX NY NZ s DT DH) m u - elasticNorm3D m u =
      (∑ i, (u (.fld .Sxx) i + u (.fld .Syy) i + u (.fld .Szz) i) / 3 * (a i + b i + d i) +
       ∑ i, (u (.fld .Sxx) i - u (.fld .Syy) i) / 3 * (a i - b i) +
       ∑ i, (u (.fld .Syy) i - u (.fld .Szz) i) / 3 * (b i - d i) +
       ∑ i, (u (.fld .Szz) i - u (.fld .Sxx) i) / 3 * (d i - a i)) -
      (∑ i, u (.fld .Sxy) i * (Y.mulVec x i + X.mulVec y i) +
       ∑ i, u (.fld .Sxz) i * (Z.mulVec x i + X.mulVec z i) +
       ∑ i, u (.fld .Syz) i * (Z.mulVec y i + Y.mulVec z i)) := by
    unfold elasticEnergy3D elasticNorm3D regularDeriv
    simp only [mul_add, Finset.sum_add_distrib, adj_forward .x (u (.fld .vX)),
      adj_forward .y (u (.fld .vY)), adj_forward .z (u (.fld .vZ)), adj_backward]
    rw [← hX, ← hY, ← hZ, ← hx, ← hy, ← hz, ← ha, ← hb, ← hd]
    have k : ∑ i, u (.fld .Sxx) i * a i + ∑ i, u (.fld .Syy) i * b i + ∑ i, u (.fld .Szz) i * d i =
       ∑ i, (u (.fld .Sxx) i + u (.fld .Syy) i + u (.fld .Szz) i) / 3 * a i +
       ∑ i, (u (.fld .Sxx) i + u (.fld .Syy) i + u (.fld .Szz) i) / 3 * b i +
       ∑ i, (u (.fld .Sxx) i + u (.fld .Syy) i + u (.fld .Szz) i) / 3 * d i +
       ∑ i, (u (.fld .Sxx) i - u (.fld .Syy) i) / 3 * (a i - b i) +
       ∑ i, (u (.fld .Syy) i - u (.fld .Szz) i) / 3 * (b i - d i) +
       ∑ i, (u (.fld .Szz) i - u (.fld .Sxx) i) / 3 * (d i - a i) := by
      simp only [← Finset.sum_add_distrib]
      exact Finset.sum_congr rfl fun i _ => by ring
    linarith
  rw [e]
  have hkin : ∀ (R f : Pt NX NY NZ → ℝ), (∀ i, 0 ≤ R i ∧ R i ≤ 1 / rhoMin) →
      (∀ i, R i = 0 → f i = 0) → rhoMin * ∑ i, f i ^ 2 ≤ ∑ i, f i ^ 2 / R i := by
    intro R f hR hf
    rw [Finset.mul_sum]
    refine Finset.sum_le_sum fun i _ => ?_
    by_cases h : R i = 0
    · rw [hf i h]; simp
    · have h0 : 0 < R i := lt_of_le_of_ne (hR i).1 (Ne.symm h)
      rw [le_div_iff₀ h0]
      have := (le_div_iff₀ hrho).mp (hR i).2
      calc rhoMin * f i ^ 2 * R i = R i * rhoMin * f i ^ 2 := by ring
        _ ≤ 1 * f i ^ 2 := mul_le_mul_of_nonneg_right this (sq_nonneg _)
        _ = _ := one_mul _
  have kx := hkin m.invRhoX x (fun i => (hm i).2.2.2.1) (fun i => (hu i).2.2.2.2.2.1)
  have ky := hkin m.invRhoY y (fun i => (hm i).2.2.2.2.1) (fun i => (hu i).2.2.2.2.2.2.1)
  have kz := hkin m.invRhoZ z (fun i => (hm i).2.2.2.2.2) (fun i => (hu i).2.2.2.2.2.2.2)
  have n1 : elasticNorm3D m u =
      (∑ i, ((u (.fld .Sxx) i + u (.fld .Syy) i + u (.fld .Szz) i) / 3) ^ 2 /
          ((3 * m.pMod i - 4 * m.sMod i) / 3) +
        ∑ i, ((u (.fld .Sxx) i - u (.fld .Syy) i) / 3) ^ 2 / (2 * m.sMod i / 3) +
        ∑ i, ((u (.fld .Syy) i - u (.fld .Szz) i) / 3) ^ 2 / (2 * m.sMod i / 3) +
        ∑ i, ((u (.fld .Szz) i - u (.fld .Sxx) i) / 3) ^ 2 / (2 * m.sMod i / 3) +
        ∑ i, u (.fld .Sxy) i ^ 2 / m.sModXY i + ∑ i, u (.fld .Sxz) i ^ 2 / m.sModXZ i +
        ∑ i, u (.fld .Syz) i ^ 2 / m.sModYZ i) +
      (∑ i, x i ^ 2 / m.invRhoX i + ∑ i, y i ^ 2 / m.invRhoY i + ∑ i, z i ^ 2 / m.invRhoZ i) := by
    unfold elasticNorm3D
    simp only [← Finset.sum_add_distrib]
    refine Finset.sum_congr rfl fun i _ => ?_
    have t1 : ∀ t K : ℝ, (t / 3) ^ 2 / (K / 3) = t ^ 2 / (3 * K) := by
      intro t K
      by_cases hK : K = 0
      · simp [hK]
      · field_simp
    have t2 : ∀ t : ℝ, t ^ 2 / (3 * (2 * m.sMod i)) = t ^ 2 / (6 * m.sMod i) := by
      intro t; congr 1; ring
    simp only [t1, t2]
    ring
  have nx : 0 ≤ ∑ i, x i ^ 2 := Finset.sum_nonneg fun i _ => sq_nonneg _
  have ny : 0 ≤ ∑ i, y i ^ 2 := Finset.sum_nonneg fun i _ => sq_nonneg _
  have nz : 0 ≤ ∑ i, z i ^ 2 := Finset.sum_nonneg fun i _ => sq_nonneg _
  have hθ : θ = √3 * v * B / 2 := by rw [hθdef, hBdef]; ring
  rw [n1, hθ]
  have fin : 1 / (2 * (√3 * v * B)) * strain m.pMod m.sMod m.sModXY m.sModXZ m.sModYZ a b d
      (fun i => Y.mulVec x i + X.mulVec y i) (fun i => Z.mulVec x i + X.mulVec z i)
      (fun i => Z.mulVec y i + Y.mulVec z i) ≤
      √3 * v * B / 2 * (∑ i, x i ^ 2 / m.invRhoX i + ∑ i, y i ^ 2 / m.invRhoY i +
        ∑ i, z i ^ 2 / m.invRhoZ i) := by
    calc _ ≤ 1 / (2 * (√3 * v * B)) * (v ^ 2 * rhoMin *
            (3 * B ^ 2 * (∑ i, x i ^ 2 + ∑ i, y i ^ 2 + ∑ i, z i ^ 2))) :=
          mul_le_mul_of_nonneg_left st (by positivity)
      _ = √3 * v * B / 2 * (rhoMin * ∑ i, x i ^ 2 + rhoMin * ∑ i, y i ^ 2 + rhoMin * ∑ i, z i ^ 2) := by
          field_simp
          rw [Real.sq_sqrt three_pos.le]
      _ ≤ _ := mul_le_mul_of_nonneg_left (by linarith) (by positivity)
  unfold strain at fin
  rw [abs_le] at b1 b2 b3 b4 b5 b6 b7 ⊢
  constructor
  · linarith [b1.1, b2.1, b3.1, b4.1, b5.2, b6.2, b7.2]
  · linarith [b1.2, b2.2, b3.2, b4.2, b5.1, b6.1, b7.1]

/-- See `C94_elastic3D_partial`. -/
theorem elastic3D_near_const {NX NY NZ : ℕ} {s : Int} {cs : List ℚ} (hs : ValidOrder s)
    (hcs : fd s = some cs) {DT DH v : ℝ} (hDT : 0 < DT) (hDH : 0 < DH) (hv : 0 < v)
    {m : Mod (Pt NX NY NZ)} {Mmax μ rhoMin : ℝ}
    (hrho : 0 < rhoMin) (hμ : 0 ≤ μ) (hμM : μ ≤ Mmax)
    (hm : ∀ i, m.sMod i = μ ∧ ((0 ≤ m.sModXY i ∧ m.sModXY i ≤ μ) ∧ (0 ≤ m.sModXZ i ∧ m.sModXZ i ≤ μ) ∧
        (0 ≤ m.sModYZ i ∧ m.sModYZ i ≤ μ)) ∧ (4 * μ ≤ 3 * m.pMod i ∧ m.pMod i ≤ Mmax) ∧
      (0 ≤ m.invRhoX i ∧ m.invRhoX i ≤ 1 / rhoMin) ∧ (0 ≤ m.invRhoY i ∧ m.invRhoY i ≤ 1 / rhoMin) ∧
      (0 ≤ m.invRhoZ i ∧ m.invRhoZ i ≤ 1 / rhoMin))
    (hvel : Mmax / rhoMin ≤ v ^ 2)
    (u : State (Pt NX NY NZ)) (hu : elasticRest3D m u) :
    |elasticEnergy3D (regularDeriv NX NY NZ s DT DH) m u - elasticNorm3D m u| ≤
      gamma cs * √3 * v * DT / DH * elasticNorm3D m u := by
  have hMv : Mmax ≤ v ^ 2 * rhoMin := by rwa [div_le_iff₀ hrho] at hvel
  have hM0 : 0 ≤ Mmax := hμ.trans hμM
  refine elastic3D_near hs hcs hDT hDH hv hrho (fun i => ?_) (fun x y z => ?_) u hu
  · obtain ⟨h1, ⟨h2, h3, h4⟩, h5, h6⟩ := hm i
    rw [h1]
    exact ⟨hμ, h5.1, ⟨h2.1, h3.1, h4.1⟩, h6⟩
  · have cd := curl_div_bound hs hcs hDT hDH x y z
    simp only at cd
    refine le_trans ?_ ((mul_le_mul_of_nonneg_left cd hM0).trans
      (mul_le_mul_of_nonneg_right hMv (by positivity)))
    have ex1 : ∑ i, (forwardMatrix s DT DH .y).mulVec x i * (forwardMatrix s DT DH .x).mulVec y i =
        ∑ i, (forwardMatrix s DT DH .x).transpose.mulVec x i *
          (forwardMatrix s DT DH .y).transpose.mulVec y i := forward_exchange (by decide) x y
    have ex2 : ∑ i, (forwardMatrix s DT DH .z).mulVec x i * (forwardMatrix s DT DH .x).mulVec z i =
        ∑ i, (forwardMatrix s DT DH .x).transpose.mulVec x i *
          (forwardMatrix s DT DH .z).transpose.mulVec z i := forward_exchange (by decide) x z
    have ex3 : ∑ i, (forwardMatrix s DT DH .z).mulVec y i * (forwardMatrix s DT DH .y).mulVec z i =
        ∑ i, (forwardMatrix s DT DH .y).transpose.mulVec y i *
          (forwardMatrix s DT DH .z).transpose.mulVec z i := forward_exchange (by decide) y z
    have ex : ∑ i, -(4 * μ) * ((forwardMatrix s DT DH .y).mulVec x i * (forwardMatrix s DT DH .x).mulVec y i +
        (forwardMatrix s DT DH .z).mulVec x i * (forwardMatrix s DT DH .x).mulVec z i +
        (forwardMatrix s DT DH .z).mulVec y i * (forwardMatrix s DT DH .y).mulVec z i -
        (forwardMatrix s DT DH .x).transpose.mulVec x i * (forwardMatrix s DT DH .y).transpose.mulVec y i -
        (forwardMatrix s DT DH .x).transpose.mulVec x i * (forwardMatrix s DT DH .z).transpose.mulVec z i -
        (forwardMatrix s DT DH .y).transpose.mulVec y i *
          (forwardMatrix s DT DH .z).transpose.mulVec z i) = 0 := by
      simp only [← Finset.mul_sum, Finset.sum_add_distrib, Finset.sum_sub_distrib]
      rw [ex1, ex2, ex3]
      ring
    rw [← sub_nonneg, ← ex]
    unfold strain
    simp only [mul_add Mmax, Finset.mul_sum Finset.univ _ Mmax, ← Finset.sum_add_distrib,
      ← Finset.sum_sub_distrib]
    refine Finset.sum_le_sum fun i _ => ?_
    obtain ⟨h1, ⟨h2, h3, h4⟩, h5, _⟩ := hm i
    rw [h1]
    generalize (forwardMatrix s DT DH .x).transpose.mulVec x i = a
    generalize (forwardMatrix s DT DH .y).transpose.mulVec y i = b
    generalize (forwardMatrix s DT DH .z).transpose.mulVec z i = d
    generalize (forwardMatrix s DT DH .y).mulVec x i = yx
    generalize (forwardMatrix s DT DH .x).mulVec y i = xy
    generalize (forwardMatrix s DT DH .z).mulVec x i = zx
    generalize (forwardMatrix s DT DH .x).mulVec z i = xz
    generalize (forwardMatrix s DT DH .z).mulVec y i = zy
    generalize (forwardMatrix s DT DH .y).mulVec z i = yz
    have t1 := mul_le_mul_of_nonneg_right h5.2 (sq_nonneg (a + b + d))
    have t2 := mul_le_mul_of_nonneg_right h2.2 (sq_nonneg (yx + xy))
    have t3 := mul_le_mul_of_nonneg_right h3.2 (sq_nonneg (zx + xz))
    have t4 := mul_le_mul_of_nonneg_right h4.2 (sq_nonneg (zy + yz))
    have t5 := mul_le_mul_of_nonneg_right hμM (sq_nonneg (zy + -yz))
    have t6 := mul_le_mul_of_nonneg_right hμM (sq_nonneg (-zx + xz))
    have t7 := mul_le_mul_of_nonneg_right hμM (sq_nonneg (yx + -xy))
    linarith

/-- C94, 3D elastic: constant shear modulus, arbitrary P-wave modulus and density. `v` is the velocity
for the largest P-wave modulus and the smallest density. Missing: variable shear moduli. -/
theorem C94_elastic3D_partial {NX NY NZ : ℕ} {s : Int} {cs : List ℚ} (hs : ValidOrder s)
    (hcs : fd s = some cs) {DT DH v : ℝ} (hDT : 0 < DT) (hDH : 0 < DH) (hv : 0 < v)
    (hC : DT < DH / (gamma cs * √3 * v)) {m : Mod (Pt NX NY NZ)} {Mmax μ rhoMin : ℝ}
    (hrho : 0 < rhoMin) (hμ : 0 ≤ μ) (hμM : μ ≤ Mmax)
    (hm : ∀ i, m.sMod i = μ ∧ ((0 ≤ m.sModXY i ∧ m.sModXY i ≤ μ) ∧ (0 ≤ m.sModXZ i ∧ m.sModXZ i ≤ μ) ∧
        (0 ≤ m.sModYZ i ∧ m.sModYZ i ≤ μ)) ∧ (4 * μ ≤ 3 * m.pMod i ∧ m.pMod i ≤ Mmax) ∧
      (0 ≤ m.invRhoX i ∧ m.invRhoX i ≤ 1 / rhoMin) ∧ (0 ≤ m.invRhoY i ∧ m.invRhoY i ≤ 1 / rhoMin) ∧
      (0 ≤ m.invRhoZ i ∧ m.invRhoZ i ≤ 1 / rhoMin))
    (hvel : Mmax / rhoMin ≤ v ^ 2)
    {c : BC (Pt NX NY NZ)} (hc : c.plain) (w : State (Pt NX NY NZ)) (hw : elasticRest3D m w) (n : ℕ) :
    let θ := gamma cs * √3 * v * DT / DH
    elasticNorm3D m (run (elastic3DSolver (regularDeriv NX NY NZ s DT DH) m c) [] w n) ≤
      (1 + θ) / (1 - θ) * elasticNorm3D m w := by
  intro θ
  have hg := gamma_pos hs hcs
  have h2 : (0 : ℝ) < √2 := Real.sqrt_pos.mpr two_pos
  have h3 : (0 : ℝ) < √3 := Real.sqrt_pos.mpr three_pos
  exact bounded_of_near (S := elastic3DSolver (regularDeriv NX NY NZ s DT DH) m c) (elasticRest3D m)
    (elasticEnergy3D (regularDeriv NX NY NZ s DT DH) m) _ (θ := θ)
    (theta_lt hDH hv hg h3 hC)
    (fun s hs => (elastic3D_step hc regularDeriv_regular s hs).1)
    (fun s hs => (elastic3D_step hc regularDeriv_regular s hs).2.le)
    (elastic3D_near_const hs hcs hDT hDH hv hrho hμ hμM hm hvel) w hw n

/-- See `C94_elastic3D_variable_partial`. -/
theorem elastic3D_near_variable {NX NY NZ : ℕ} {s : Int} {cs : List ℚ} (hs : ValidOrder s)
    (hcs : fd s = some cs) {DT DH v : ℝ} (hDT : 0 < DT) (hDH : 0 < DH) (hv : 0 < v)
    {m : Mod (Pt NX NY NZ)} {Mmax rhoMin : ℝ}
    (hrho : 0 < rhoMin) (hM : 0 ≤ Mmax)
    (hm : ∀ i, 0 ≤ m.sMod i ∧ 4 * m.sMod i ≤ 3 * m.pMod i ∧ m.pMod i ≤ Mmax ∧
      ((0 ≤ m.sModXY i ∧ 4 * m.sModXY i ≤ 3 * Mmax) ∧ (0 ≤ m.sModXZ i ∧ 4 * m.sModXZ i ≤ 3 * Mmax) ∧
        (0 ≤ m.sModYZ i ∧ 4 * m.sModYZ i ≤ 3 * Mmax)) ∧
      (0 ≤ m.invRhoX i ∧ m.invRhoX i ≤ 1 / rhoMin) ∧ (0 ≤ m.invRhoY i ∧ m.invRhoY i ≤ 1 / rhoMin) ∧
      (0 ≤ m.invRhoZ i ∧ m.invRhoZ i ≤ 1 / rhoMin))
    (hvel : Mmax / rhoMin ≤ v ^ 2)
    (u : State (Pt NX NY NZ)) (hu : elasticRest3D m u) :
    |elasticEnergy3D (regularDeriv NX NY NZ s DT DH) m u - elasticNorm3D m u| ≤
      gamma cs * √3 * (√2 * v) * DT / DH * elasticNorm3D m u := by
  have hMv : Mmax ≤ v ^ 2 * rhoMin := by rwa [div_le_iff₀ hrho] at hvel
  have h2 : (0 : ℝ) < √2 := Real.sqrt_pos.mpr two_pos
  have hB : DT / DH * ((absSum cs : ℚ) : ℝ) = 2 * gamma cs * DT / DH := by rw [absSum_gamma]; ring
  have nf : ∀ a f, ∑ i, (forwardMatrix s DT DH a).mulVec f i ^ 2 ≤
      (2 * gamma cs * DT / DH) ^ 2 * ∑ i : Pt NX NY NZ, f i ^ 2 :=
    fun a f => hB ▸ forward_norm hcs hDT hDH (absSum_pos hs hcs) a f
  have nt : ∀ a f, ∑ i, (forwardMatrix s DT DH a).transpose.mulVec f i ^ 2 ≤
      (2 * gamma cs * DT / DH) ^ 2 * ∑ i : Pt NX NY NZ, f i ^ 2 :=
    fun a f => hB ▸ forward_transpose_norm hcs hDT hDH (absSum_pos hs hcs) a f
  refine elastic3D_near hs hcs hDT hDH (v := √2 * v) (mul_pos h2 hv) hrho
    (m := m) (fun i => ?_) (fun x y z => ?_) u hu
  · obtain ⟨h1, h2, h3, ⟨h4, h5, h6⟩, h7⟩ := hm i
    exact ⟨h1, h2, ⟨h4.1, h5.1, h6.1⟩, h7⟩
  · have h1 : strain m.pMod m.sMod m.sModXY m.sModXZ m.sModYZ
        ((forwardMatrix s DT DH .x).transpose.mulVec x) ((forwardMatrix s DT DH .y).transpose.mulVec y)
        ((forwardMatrix s DT DH .z).transpose.mulVec z)
        (fun i => (forwardMatrix s DT DH .y).mulVec x i + (forwardMatrix s DT DH .x).mulVec y i)
        (fun i => (forwardMatrix s DT DH .z).mulVec x i + (forwardMatrix s DT DH .x).mulVec z i)
        (fun i => (forwardMatrix s DT DH .z).mulVec y i + (forwardMatrix s DT DH .y).mulVec z i) ≤
        ∑ i, 3 / 2 * Mmax * (2 * (forwardMatrix s DT DH .x).transpose.mulVec x i ^ 2 +
          2 * (forwardMatrix s DT DH .y).transpose.mulVec y i ^ 2 +
          2 * (forwardMatrix s DT DH .z).transpose.mulVec z i ^ 2 +
          (forwardMatrix s DT DH .y).mulVec x i ^ 2 + (forwardMatrix s DT DH .x).mulVec y i ^ 2 +
          (forwardMatrix s DT DH .z).mulVec x i ^ 2 + (forwardMatrix s DT DH .x).mulVec z i ^ 2 +
          (forwardMatrix s DT DH .z).mulVec y i ^ 2 + (forwardMatrix s DT DH .y).mulVec z i ^ 2) := by
      unfold strain
      simp only [← Finset.sum_add_distrib]
      refine Finset.sum_le_sum fun i _ => ?_
      obtain ⟨h1, h2, h3, ⟨h4, h5, h6⟩, _⟩ := hm i
      generalize (forwardMatrix s DT DH .x).transpose.mulVec x i = a
      generalize (forwardMatrix s DT DH .y).transpose.mulVec y i = b
      generalize (forwardMatrix s DT DH .z).transpose.mulVec z i = d
      generalize (forwardMatrix s DT DH .y).mulVec x i = yx
      generalize (forwardMatrix s DT DH .x).mulVec y i = xy
      generalize (forwardMatrix s DT DH .z).mulVec x i = zx
      generalize (forwardMatrix s DT DH .x).mulVec z i = xz
      generalize (forwardMatrix s DT DH .z).mulVec y i = zy
      generalize (forwardMatrix s DT DH .y).mulVec z i = yz
      have t1 := mul_nonneg (sub_nonneg.mpr h2)
        (add_nonneg (add_nonneg (sq_nonneg (a - b)) (sq_nonneg (b - d))) (sq_nonneg (d - a)))
      have t2 := mul_nonneg h1 (add_nonneg (add_nonneg (sq_nonneg a) (sq_nonneg b)) (sq_nonneg d))
      have t2' := mul_nonneg h1 (sq_nonneg (a + b + d))
      have t3 := mul_le_mul_of_nonneg_right h3
        (add_nonneg (add_nonneg (sq_nonneg a) (sq_nonneg b)) (sq_nonneg d))
      have t4 := mul_le_mul_of_nonneg_right h4.2 (sq_nonneg (yx + xy))
      have t5 := mul_le_mul_of_nonneg_right h5.2 (sq_nonneg (zx + xz))
      have t6 := mul_le_mul_of_nonneg_right h6.2 (sq_nonneg (zy + yz))
      have t7 := mul_nonneg hM (sq_nonneg (yx - xy))
      have t8 := mul_nonneg hM (sq_nonneg (zx - xz))
      have t9 := mul_nonneg hM (sq_nonneg (zy - yz))
      linarith
    refine h1.trans ?_
    simp only [← Finset.mul_sum, Finset.sum_add_distrib]
    have k : 2 * ∑ i, (forwardMatrix s DT DH .x).transpose.mulVec x i ^ 2 +
        2 * ∑ i, (forwardMatrix s DT DH .y).transpose.mulVec y i ^ 2 +
        2 * ∑ i, (forwardMatrix s DT DH .z).transpose.mulVec z i ^ 2 +
        ∑ i, (forwardMatrix s DT DH .y).mulVec x i ^ 2 + ∑ i, (forwardMatrix s DT DH .x).mulVec y i ^ 2 +
        ∑ i, (forwardMatrix s DT DH .z).mulVec x i ^ 2 + ∑ i, (forwardMatrix s DT DH .x).mulVec z i ^ 2 +
        ∑ i, (forwardMatrix s DT DH .z).mulVec y i ^ 2 + ∑ i, (forwardMatrix s DT DH .y).mulVec z i ^ 2 ≤
        4 * (2 * gamma cs * DT / DH) ^ 2 * (∑ i, x i ^ 2 + ∑ i, y i ^ 2 + ∑ i, z i ^ 2) := by
      linarith [nt .x x, nt .y y, nt .z z, nf .y x, nf .x y, nf .z x, nf .x z, nf .z y, nf .y z]
    have n0 : 0 ≤ 4 * (2 * gamma cs * DT / DH) ^ 2 *
        (∑ i, x i ^ 2 + ∑ i, y i ^ 2 + ∑ i, z i ^ 2) := by positivity
    calc _ ≤ 3 / 2 * Mmax * (4 * (2 * gamma cs * DT / DH) ^ 2 *
            (∑ i, x i ^ 2 + ∑ i, y i ^ 2 + ∑ i, z i ^ 2)) :=
          mul_le_mul_of_nonneg_left k (by positivity)
      _ ≤ 3 / 2 * (v ^ 2 * rhoMin) * (4 * (2 * gamma cs * DT / DH) ^ 2 *
            (∑ i, x i ^ 2 + ∑ i, y i ^ 2 + ∑ i, z i ^ 2)) :=
          mul_le_mul_of_nonneg_right (by linarith) n0
      _ = _ := by rw [mul_pow, Real.sq_sqrt two_pos.le]; ring

/-- C94, 3D elastic with arbitrary moduli and densities: the limit is smaller by the factor `√2` than
that of `C94_elastic3D_partial`. Missing: time steps between the two limits when the shear modulus
varies. -/
theorem C94_elastic3D_variable_partial {NX NY NZ : ℕ} {s : Int} {cs : List ℚ} (hs : ValidOrder s)
    (hcs : fd s = some cs) {DT DH v : ℝ} (hDT : 0 < DT) (hDH : 0 < DH) (hv : 0 < v)
    (hC : DT < DH / (gamma cs * √3 * (√2 * v))) {m : Mod (Pt NX NY NZ)} {Mmax rhoMin : ℝ}
    (hrho : 0 < rhoMin) (hM : 0 ≤ Mmax)
    (hm : ∀ i, 0 ≤ m.sMod i ∧ 4 * m.sMod i ≤ 3 * m.pMod i ∧ m.pMod i ≤ Mmax ∧
      ((0 ≤ m.sModXY i ∧ 4 * m.sModXY i ≤ 3 * Mmax) ∧ (0 ≤ m.sModXZ i ∧ 4 * m.sModXZ i ≤ 3 * Mmax) ∧
        (0 ≤ m.sModYZ i ∧ 4 * m.sModYZ i ≤ 3 * Mmax)) ∧
      (0 ≤ m.invRhoX i ∧ m.invRhoX i ≤ 1 / rhoMin) ∧ (0 ≤ m.invRhoY i ∧ m.invRhoY i ≤ 1 / rhoMin) ∧
      (0 ≤ m.invRhoZ i ∧ m.invRhoZ i ≤ 1 / rhoMin))
    (hvel : Mmax / rhoMin ≤ v ^ 2)
    {c : BC (Pt NX NY NZ)} (hc : c.plain) (w : State (Pt NX NY NZ)) (hw : elasticRest3D m w) (n : ℕ) :
    let θ := gamma cs * √3 * (√2 * v) * DT / DH
    elasticNorm3D m (run (elastic3DSolver (regularDeriv NX NY NZ s DT DH) m c) [] w n) ≤
      (1 + θ) / (1 - θ) * elasticNorm3D m w := by
  intro θ
  have hg := gamma_pos hs hcs
  have h2 : (0 : ℝ) < √2 := Real.sqrt_pos.mpr two_pos
  have h3 : (0 : ℝ) < √3 := Real.sqrt_pos.mpr three_pos
  exact bounded_of_near (S := elastic3DSolver (regularDeriv NX NY NZ s DT DH) m c) (elasticRest3D m)
    (elasticEnergy3D (regularDeriv NX NY NZ s DT DH) m) _ (θ := θ)
    (theta_lt hDH (mul_pos h2 hv) hg h3 hC)
    (fun s hs => (elastic3D_step hc regularDeriv_regular s hs).1)
    (fun s hs => (elastic3D_step hc regularDeriv_regular s hs).2.le)
    (elastic3D_near_variable hs hcs hDT hDH hv hrho hM hm hvel) w hw n

/-! ### What an accepted configuration may rely on -/

private theorem gamma_two {cs : List ℚ} (hcs : fd 2 = some cs) : gamma cs = 1 := by
  unfold fd at hcs; norm_num at hcs; subst hcs
  norm_num [gamma]

/-- C94: an acoustic 2D simulation of order 2 that `checkStabilityCriterion` accepts stays bounded,
for every density and P-wave modulus whose velocity is at most the maximum `v` found by the check,
with the averaged densities of `Modelparameter`. Missing: the time step equal to the limit, and the
orders above 2 — there it is false (`C13_blow_up_violated`). -/
theorem C94_accepted2D_partial {NX NY : ℕ} {DT DH v : ℝ} (hDT : 0 < DT) (hDH : 0 < DH) (hv : 0 < v)
    (hacc : checkStability 0 DT DH v "2D" 2 = .ok ()) (hne : DT * (√2 * v) ≠ DH)
    {m : Mod (Pt NX NY 1)} {rho : Pt NX NY 1 → ℝ}
    (hm : ∀ i, 0 < rho i ∧ 0 ≤ m.pMod i ∧ m.pMod i / rho i ≤ v ^ 2)
    (hx : ∀ i, m.invRhoX i = 1 / meanNext .x rho i) (hy : ∀ i, m.invRhoY i = 1 / meanNext .y rho i)
    {c : BC (Pt NX NY 1)} (hc : c.plain) (w : State (Pt NX NY 1)) (hw : acousticRest2D m w) (n : ℕ) :
    let θ := √2 * v * DT / DH
    acousticNorm2D m (run (acoustic2DSolver (regularDeriv NX NY 1 2 DT DH) m c) [] w n) ≤
      (1 + θ) / (1 - θ) * acousticNorm2D m w := by
  obtain ⟨cs, hcs⟩ : ∃ cs, fd 2 = some cs := ⟨_, rfl⟩
  have hg := gamma_two hcs
  have h2 : (0 : ℝ) < √2 := Real.sqrt_pos.mpr two_pos
  have hle : DT ≤ DH / (√2 * v) := by
    rcases ((C13_dimensions (s := 2) (by decide) DT DH v).1).mp hacc with h | h
    · exact absurd h hv.ne'
    · exact h
  have hlt : DT < DH / (gamma cs * √2 * v) := by
    rw [hg, one_mul]
    refine lt_of_le_of_ne hle fun h => hne ?_
    rw [h]; field_simp
  have hmean : ∀ a i, 0 ≤ 1 / meanNext a rho i := fun a i =>
    one_div_nonneg.mpr (meanNext_nonneg a (fun j => (hm j).1.le) i)
  have key := C94_acoustic2D (s := 2) (by decide) hcs hDT hDH hv hlt (m := m)
    (fun i => ⟨(hm i).2.1, hx i ▸ hmean .x i, hy i ▸ hmean .y i⟩)
    (.inr ⟨rfl, rho, fun i => ⟨(hm i).1.le, by
      have := (div_le_iff₀ (hm i).1).mp (hm i).2.2
      linarith⟩, fun i => .inr (hx i)⟩)
    (.inr ⟨rfl, rho, fun i => ⟨(hm i).1.le, by
      have := (div_le_iff₀ (hm i).1).mp (hm i).2.2
      linarith⟩, fun i => .inr (hy i)⟩) hc w hw n
  simp only [hg, one_mul] at key
  exact key

/-- C94: the same in three dimensions. -/
theorem C94_accepted3D_partial {NX NY NZ : ℕ} {DT DH v : ℝ} (hDT : 0 < DT) (hDH : 0 < DH) (hv : 0 < v)
    (hacc : checkStability 0 DT DH v "3D" 2 = .ok ()) (hne : DT * (√3 * v) ≠ DH)
    {m : Mod (Pt NX NY NZ)} {rho : Pt NX NY NZ → ℝ}
    (hm : ∀ i, 0 < rho i ∧ 0 ≤ m.pMod i ∧ m.pMod i / rho i ≤ v ^ 2)
    (hx : ∀ i, m.invRhoX i = 1 / meanNext .x rho i) (hy : ∀ i, m.invRhoY i = 1 / meanNext .y rho i)
    (hz : ∀ i, m.invRhoZ i = 1 / meanNext .z rho i)
    {c : BC (Pt NX NY NZ)} (hc : c.plain) (w : State (Pt NX NY NZ)) (hw : acousticRest3D m w) (n : ℕ) :
    let θ := √3 * v * DT / DH
    acousticNorm3D m (run (acoustic3DSolver (regularDeriv NX NY NZ 2 DT DH) m c) [] w n) ≤
      (1 + θ) / (1 - θ) * acousticNorm3D m w := by
  obtain ⟨cs, hcs⟩ : ∃ cs, fd 2 = some cs := ⟨_, rfl⟩
  have hg := gamma_two hcs
  have h3 : (0 : ℝ) < √3 := Real.sqrt_pos.mpr three_pos
  have hle : DT ≤ DH / (√3 * v) := by
    rcases ((C13_dimensions (s := 2) (by decide) DT DH v).2.1).mp hacc with h | h
    · exact absurd h hv.ne'
    · exact h
  have hlt : DT < DH / (gamma cs * √3 * v) := by
    rw [hg, one_mul]
    refine lt_of_le_of_ne hle fun h => hne ?_
    rw [h]; field_simp
  have hmean : ∀ a i, 0 ≤ 1 / meanNext a rho i := fun a i =>
    one_div_nonneg.mpr (meanNext_nonneg a (fun j => (hm j).1.le) i)
  have hq : ∀ i, 0 ≤ rho i ∧ m.pMod i ≤ rho i * v ^ 2 := fun i => ⟨(hm i).1.le, by
    have := (div_le_iff₀ (hm i).1).mp (hm i).2.2
    linarith⟩
  have key := C94_acoustic3D (s := 2) (by decide) hcs hDT hDH hv hlt (m := m)
    (fun i => ⟨(hm i).2.1, hx i ▸ hmean .x i, hy i ▸ hmean .y i, hz i ▸ hmean .z i⟩)
    (.inr ⟨rfl, rho, hq, fun i => .inr (hx i)⟩) (.inr ⟨rfl, rho, hq, fun i => .inr (hy i)⟩)
    (.inr ⟨rfl, rho, hq, fun i => .inr (hz i)⟩) hc w hw n
  simp only [hg, one_mul] at key
  exact key

/-! ### Concrete cases -/

/-- A density that grows along the first axis, and the modulus of waves of velocity 1. -/
noncomputable def boundedExRho : Pt 3 2 1 → ℝ := fun i => 1 + ((along .x i : ℕ) : ℝ)

noncomputable def boundedExM : Mod (Pt 3 2 1) :=
  { invRho := 1, invRhoX := fun i => 1 / meanNext .x boundedExRho i
    invRhoY := fun i => 1 / meanNext .y boundedExRho i, invRhoZ := 1
    pMod := boundedExRho, sMod := 0, sModXY := 0, sModXZ := 0, sModYZ := 0
    tauP := 0, tauS := 0, tauSXY := 0, tauSXZ := 0, tauSYZ := 0, L := 0, relaxTime := 1, DT := 1 / 2 }

/-- A pressure field everywhere different from zero. -/
def boundedExW {ι : Type} : State ι := fun v _ => if v = .fld .p then 1 else 0

example (n : ℕ) (c : BC (Pt 3 2 1)) (hc : c.plain) :
    acousticNorm2D boundedExM
      (run (acoustic2DSolver (regularDeriv 3 2 1 2 (1 / 2) 1) boundedExM c) [] boundedExW n) ≤
      (1 + √2 * 1 * (1 / 2) / 1) / (1 - √2 * 1 * (1 / 2) / 1) * acousticNorm2D boundedExM boundedExW := by
  have h2 := Real.sqrt_two_lt_three_halves
  have hr : ∀ i, 0 < boundedExRho i := fun i => by unfold boundedExRho; positivity
  refine C94_accepted2D_partial (by norm_num) one_pos one_pos ?_ ?_ (rho := boundedExRho)
    (fun i => ⟨hr i, (hr i).le, ?_⟩) (fun i => rfl) (fun i => rfl) hc _ (fun i => ⟨fun h => ?_, ?_, ?_⟩) n
  · rw [(C13_dimensions (s := 2) (by decide) _ _ _).1, le_div_iff₀ (by positivity)]
    right; linarith
  · linarith
  · show boundedExRho i / boundedExRho i ≤ _
    rw [div_self (hr i).ne']; norm_num
  · exact absurd h (hr i).ne'
  · intro _; rfl
  · intro _; rfl

/-- Solid and fluid points. -/
noncomputable def boundedExS : Mod (Pt 4 3 2) :=
  { invRho := 1, invRhoX := 1, invRhoY := 1, invRhoZ := 1
    pMod := 2, sMod := fun i => if (along .x i : ℕ) = 0 then 0 else 1
    sModXY := 0, sModXZ := fun i => if (along .x i : ℕ) = 0 then 0 else 1, sModYZ := 0
    tauP := 0, tauS := 0, tauSXY := 0, tauSXZ := 0, tauSYZ := 0, L := 0, relaxTime := 1, DT := 1 / 10 }

example (n : ℕ) (c : BC (Pt 4 3 2)) (hc : c.plain) (cs : List ℚ) (hcs : fd 4 = some cs) :
    elasticNorm3D boundedExS (run (elastic3DSolver (regularDeriv 4 3 2 4 (1 / 10) 1) boundedExS c) []
      (fun v _ => if v = .fld .vX then 1 else 0) n) ≤
      (1 + gamma cs * √3 * (√2 * 2) * (1 / 10) / 1) / (1 - gamma cs * √3 * (√2 * 2) * (1 / 10) / 1) *
      elasticNorm3D boundedExS (fun v _ => if v = .fld .vX then 1 else 0) := by
  have h2 := Real.sqrt_two_lt_three_halves
  have h3 : √3 < 2 := by rw [Real.sqrt_lt' two_pos]; norm_num
  have hg : gamma cs = 7 / 6 := by
    unfold fd at hcs; norm_num at hcs; subst hcs
    norm_num [gamma, abs_of_pos, abs_of_neg]
  refine C94_elastic3D_variable_partial (by decide) hcs (by norm_num) one_pos two_pos ?_
    (Mmax := 2) (rhoMin := 1) one_pos two_pos.le (fun i => ?_) (by norm_num) hc _ (fun i => ?_) n
  · rw [hg, lt_div_iff₀ (by positivity)]
    have : √3 * √2 ≤ 2 * (3 / 2) := mul_le_mul h3.le h2.le (Real.sqrt_nonneg _) two_pos.le
    linarith
  · simp only [boundedExS, Pi.zero_apply, Pi.one_apply, Pi.ofNat_apply]
    split <;> norm_num
  · simp [boundedExS]

/-- The first form of `SpeedBound`: constant density, any order. -/
example : SpeedBound 12 (3 : ℝ) .x (NX := 20) (NY := 1) (NZ := 1)
    (fun i => if (along .x i : ℕ) < 7 then 9 else 4) (fun _ => 1) :=
  .inl fun i j _ => by
    simp only
    split <;> norm_num

end Verif.Solver
