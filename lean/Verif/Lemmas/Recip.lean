import Mathlib.RingTheory.PowerSeries.Inverse
import Mathlib.LinearAlgebra.Matrix.NonsingularInverse
import Mathlib.Data.Matrix.Block
import Mathlib.Data.Real.Basic
import Mathlib.Tactic.Ring
import Mathlib.Tactic.LinearCombination
/-!
Reciprocity of linear systems: the response is symmetric if the step is self-adjoint with respect to
a symmetric form. Sequences of time samples are treated as formal power series.
-/
set_option linter.unusedSectionVars false

namespace Verif.Recip
open Matrix

section Ring
variable {K : Type} [CommRing K] {γ : Type} [Fintype γ] [DecidableEq γ]

/-- Two solutions of `x = N x + s Q u` with a symmetric `N Q`. -/
theorem symmetric_response (N Q : Matrix γ γ K) (hNQ : (N * Q).transpose = N * Q)
    (hQ : Q.transpose = Q) (hu : IsUnit (1 - N).det) (x y u w : γ → K) (s : K)
    (hx : x = N.mulVec x + s • Q.mulVec u) (hy : y = N.mulVec y + s • Q.mulVec w) :
    w ⬝ᵥ x = u ⬝ᵥ y := by
  have hsol : ∀ x u : γ → K, x = N.mulVec x + s • Q.mulVec u →
      x = s • ((1 - N)⁻¹ * Q).mulVec u := by
    intro x u hx
    have h1 : (1 - N).mulVec x = s • Q.mulVec u := by
      rw [Matrix.sub_mulVec, Matrix.one_mulVec]
      exact sub_eq_iff_eq_add'.2 hx
    rw [← Matrix.mulVec_mulVec, ← Matrix.mulVec_smul, ← h1, Matrix.mulVec_mulVec,
      Matrix.nonsing_inv_mul _ hu, Matrix.one_mulVec]
  have hsym : ((1 - N)⁻¹ * Q).transpose = (1 - N)⁻¹ * Q := by
    have e : (1 - N) * Q = Q * (1 - N).transpose := by
      rw [Matrix.sub_mul, Matrix.transpose_sub, Matrix.mul_sub, Matrix.transpose_one,
        Matrix.one_mul, Matrix.mul_one, ← hNQ, Matrix.transpose_mul, hQ]
    have hu' : IsUnit (1 - N).transpose.det := by rwa [Matrix.det_transpose]
    rw [Matrix.transpose_mul, hQ, Matrix.transpose_nonsing_inv]
    calc Q * ((1 - N).transpose)⁻¹
        = (1 - N)⁻¹ * ((1 - N) * Q) * ((1 - N).transpose)⁻¹ := by
          rw [← Matrix.mul_assoc, Matrix.nonsing_inv_mul _ hu, Matrix.one_mul]
      _ = (1 - N)⁻¹ * Q := by
          rw [e, Matrix.mul_assoc, Matrix.mul_assoc, Matrix.mul_nonsing_inv _ hu', Matrix.mul_one]
  rw [hsol x u hx, hsol y w hy, dotProduct_smul, dotProduct_smul]
  congr 1
  rw [Matrix.dotProduct_mulVec, ← Matrix.mulVec_transpose, hsym, dotProduct_comm]

end Ring

open PowerSeries in
/-- A matrix of power series times `X` can be subtracted from the identity. -/
theorem isUnit_one_sub {γ : Type} [Fintype γ] [DecidableEq γ] (M : Matrix γ γ (PowerSeries ℝ)) :
    IsUnit (1 - (X : PowerSeries ℝ) • M).det := by
  rw [PowerSeries.isUnit_iff_constantCoeff]
  have : constantCoeff ((1 - (X : PowerSeries ℝ) • M).det) = 1 := by
    rw [RingHom.map_det]
    have e : (constantCoeff (R := ℝ)).mapMatrix (1 - (X : PowerSeries ℝ) • M) = 1 := by
      ext i j
      simp [Matrix.one_apply]
    rw [e, Matrix.det_one]
  rw [this]
  exact isUnit_one

/-- Leapfrog step in matrix form. -/
theorem leapfrog_matrix {α β : Type} [Fintype α] [Fintype β] [DecidableEq α] [DecidableEq β]
    (Av R : Matrix α α (PowerSeries ℝ)) (H : Matrix α β (PowerSeries ℝ))
    (A Q : Matrix β β (PowerSeries ℝ)) (hR : R.transpose = R)
    (hAv : (Av * R).transpose = Av * R) (hQ : Q.transpose = Q) (hA : (A * Q).transpose = A * Q)
    (s : PowerSeries ℝ) (u u' y y' t t' : α → PowerSeries ℝ) (w w' z z' : β → PowerSeries ℝ)
    (ht : t = y + R.mulVec (H.mulVec z))
    (hy : y = (PowerSeries.X : PowerSeries ℝ) • (Av.mulVec t - s • Av.mulVec (R.mulVec u)))
    (hz : z = (PowerSeries.X : PowerSeries ℝ) •
      (A.mulVec z - Q.mulVec (H.transpose.mulVec t) + s • Q.mulVec w))
    (ht' : t' = y' + R.mulVec (H.mulVec z'))
    (hy' : y' = (PowerSeries.X : PowerSeries ℝ) • (Av.mulVec t' - s • Av.mulVec (R.mulVec u')))
    (hz' : z' = (PowerSeries.X : PowerSeries ℝ) •
      (A.mulVec z' - Q.mulVec (H.transpose.mulVec t') + s • Q.mulVec w')) :
    u' ⬝ᵥ y + w' ⬝ᵥ z = u ⬝ᵥ y' + w ⬝ᵥ z' := by
  set X : PowerSeries ℝ := PowerSeries.X
  set S : Matrix (α ⊕ β) (α ⊕ β) (PowerSeries ℝ) :=
    fromBlocks Av (Av * (R * H)) (-(Q * H.transpose)) (A - Q * H.transpose * (R * H))
  set P : Matrix (α ⊕ β) (α ⊕ β) (PowerSeries ℝ) := fromBlocks (-(Av * R)) 0 0 Q
  have hAAR : (Av * (Av * R)).transpose = Av * (Av * R) := by
    have h1 : R * Av.transpose = Av * R := by
      rw [← hR, ← Matrix.transpose_mul, hR, hAv]
    rw [Matrix.transpose_mul, hAv, Matrix.mul_assoc, h1]
  have hSP : (S * P).transpose = S * P := by
    simp only [S, P, fromBlocks_multiply, fromBlocks_transpose, Matrix.mul_zero, add_zero, zero_add]
    congr 1
    · rw [Matrix.mul_neg, Matrix.transpose_neg, hAAR]
    · rw [Matrix.neg_mul, Matrix.mul_neg, neg_neg, Matrix.transpose_mul, hAv,
        Matrix.transpose_mul, hQ, Matrix.transpose_transpose, Matrix.mul_assoc, Matrix.mul_assoc,
        Matrix.mul_assoc]
    · rw [Matrix.neg_mul, Matrix.mul_neg, neg_neg, ← Matrix.mul_assoc, Matrix.transpose_mul,
        Matrix.transpose_mul, hAv, hQ, Matrix.mul_assoc]
    · rw [Matrix.sub_mul, Matrix.transpose_sub, hA]
      congr 1
      simp only [Matrix.transpose_mul, Matrix.transpose_transpose, hQ, hR, Matrix.mul_assoc]
  have hP : P.transpose = P := by
    simp only [P, fromBlocks_transpose, Matrix.transpose_neg, hAv, hQ, Matrix.transpose_zero]
  have key : ∀ (u y t : α → PowerSeries ℝ) (w z : β → PowerSeries ℝ),
      t = y + R.mulVec (H.mulVec z) →
      y = X • (Av.mulVec t - s • Av.mulVec (R.mulVec u)) →
      z = X • (A.mulVec z - Q.mulVec (H.transpose.mulVec t) + s • Q.mulVec w) →
      Sum.elim y z = (X • S).mulVec (Sum.elim y z) + (X * s) • P.mulVec (Sum.elim u w) := by
    intro u y t w z ht hy hz
    have e1 : (X • S).mulVec (Sum.elim y z) + (X * s) • P.mulVec (Sum.elim u w) =
        Sum.elim (X • (Av.mulVec t - s • Av.mulVec (R.mulVec u)))
          (X • (A.mulVec z - Q.mulVec (H.transpose.mulVec t) + s • Q.mulVec w)) := by
      rw [Matrix.smul_mulVec, fromBlocks_mulVec, fromBlocks_mulVec]
      funext x
      cases x with
      | inl a =>
        simp only [ht, Matrix.mulVec_add, Matrix.mulVec_mulVec, Matrix.neg_mulVec,
          Matrix.zero_mulVec, Pi.add_apply, Pi.smul_apply, Sum.elim_inl, smul_eq_mul,
          Pi.sub_apply, Pi.neg_apply, Pi.zero_apply, Function.comp_def, Sum.elim_inr]
        ring
      | inr b =>
        simp only [ht, Matrix.mulVec_add, Matrix.mulVec_mulVec, Matrix.neg_mulVec,
          Matrix.zero_mulVec, Pi.add_apply, Pi.smul_apply, Sum.elim_inl, smul_eq_mul,
          Pi.sub_apply, Pi.neg_apply, Pi.zero_apply, Function.comp_def, Sum.elim_inr,
          Matrix.sub_mulVec, Matrix.mul_assoc]
        ring
    rw [e1, ← hy, ← hz]
  have h := symmetric_response (X • S) P ?_ hP (isUnit_one_sub S) (Sum.elim y z) (Sum.elim y' z')
    (Sum.elim u w) (Sum.elim u' w') (X * s) (key u y t w z ht hy hz) (key u' y' t' w' z' ht' hy' hz')
  · simpa [dotProduct, Fintype.sum_sum_type] using h
  · rw [Matrix.smul_mul, Matrix.transpose_smul, hSP]

section Components
variable {A B ι : Type} [Fintype A] [Fintype B] [Fintype ι] [DecidableEq A] [DecidableEq B]
  [DecidableEq ι]

local notation "K" => PowerSeries ℝ

/-- Pointwise matrix as a matrix on components and points. -/
private def pointwise (M : ι → Matrix B B K) : Matrix (B × ι) (B × ι) K :=
  fun x y => if x.2 = y.2 then M x.2 x.1 y.1 else 0

private theorem pointwise_mulVec (M : ι → Matrix B B K) (v : B × ι → K) (b : B) (i : ι) :
    (pointwise M).mulVec v (b, i) = ∑ b', M i b b' * v (b', i) := by
  simp only [Matrix.mulVec, dotProduct, pointwise, Fintype.sum_prod_type, ite_mul, zero_mul,
    Finset.sum_ite_eq, Finset.mem_univ, if_true]

private theorem pointwise_mul (M N : ι → Matrix B B K) :
    pointwise M * pointwise N = pointwise fun i => M i * N i := by
  ext ⟨b, i⟩ ⟨b', j⟩
  simp only [Matrix.mul_apply, pointwise, Fintype.sum_prod_type, ite_mul, zero_mul,
    Finset.sum_ite_eq, Finset.mem_univ, if_true]
  by_cases h : i = j
  · simp [h]
  · simp [h]

private theorem pointwise_transpose (M : ι → Matrix B B K) :
    (pointwise M).transpose = pointwise fun i => (M i).transpose := by
  ext ⟨b, i⟩ ⟨b', j⟩
  simp only [Matrix.transpose_apply, pointwise]
  by_cases h : i = j
  · simp [h]
  · rw [if_neg h, if_neg (Ne.symm h)]

/-- Leapfrog step by components, with stretching factors. `ωA`, `ωB` are the products of the
stretching factors at the positions of the components. -/
theorem leapfrog_components (Av R : A → ι → K) (D : A → B → Matrix ι ι K) (σA σB : A → B → ι → K)
    (ωA : A → ι → K) (ωB : B → ι → K) (Az Q : ι → Matrix B B K)
    (hω : ∀ a i, IsUnit (ωA a i))
    (hrel : ∀ a b i j, D a b i j * (ωA a i * σB a b j) = D a b i j * (σA a b i * ωB b j))
    (hQω : ∀ i b b', Q i b b' * ωB b i = Q i b b' * ωB b' i)
    (hQ : ∀ i, (Q i).transpose = Q i)
    (hAz : ∀ i b b', Az i b b' * ωB b i = Az i b b' * ωB b' i)
    (hAQ : ∀ i, (Az i * Q i).transpose = Az i * Q i)
    (s : K) (u u' y y' t t' : A → ι → K) (w w' z z' : B → ι → K)
    (ht : ∀ a i, t a i = y a i + R a i * ∑ b, σA a b i * (D a b).mulVec (z b) i)
    (hy : ∀ a i, y a i = PowerSeries.X * (Av a i * t a i - s * (Av a i * (R a i * (ωA a i * u a i)))))
    (hz : ∀ b i, z b i = PowerSeries.X * (∑ b', Az i b b' * z b' i -
      ∑ b', Q i b b' * ∑ a, σB a b' i * (D a b').transpose.mulVec (t a) i +
      s * ∑ b', Q i b b' * (ωB b' i * w b' i)))
    (ht' : ∀ a i, t' a i = y' a i + R a i * ∑ b, σA a b i * (D a b).mulVec (z' b) i)
    (hy' : ∀ a i, y' a i =
      PowerSeries.X * (Av a i * t' a i - s * (Av a i * (R a i * (ωA a i * u' a i)))))
    (hz' : ∀ b i, z' b i = PowerSeries.X * (∑ b', Az i b b' * z' b' i -
      ∑ b', Q i b b' * ∑ a, σB a b' i * (D a b').transpose.mulVec (t' a) i +
      s * ∑ b', Q i b b' * (ωB b' i * w' b' i))) :
    ∑ a, ∑ i, u' a i * y a i + ∑ b, ∑ i, w' b i * z b i =
      ∑ a, ∑ i, u a i * y' a i + ∑ b, ∑ i, w b i * z' b i := by
  let AvM : Matrix (A × ι) (A × ι) K := Matrix.diagonal fun x => Av x.1 x.2
  let RM : Matrix (A × ι) (A × ι) K := Matrix.diagonal fun x => R x.1 x.2 * ωA x.1 x.2
  obtain ⟨HM, hHM⟩ : ∃ HM : Matrix (A × ι) (B × ι) K, ∀ a i b j,
      HM (a, i) (b, j) = Ring.inverse (ωA a i) * σA a b i * D a b i j :=
    ⟨Matrix.of fun x z => Ring.inverse (ωA x.1 x.2) * σA x.1 z.1 x.2 * D x.1 z.1 x.2 z.2,
      fun _ _ _ _ => rfl⟩
  let AM : Matrix (B × ι) (B × ι) K := pointwise Az
  obtain ⟨QW, hQW⟩ : ∃ QW : ι → Matrix B B K, ∀ i b b', QW i b b' = Q i b b' * ωB b' i :=
    ⟨fun i => Matrix.of fun b b' => Q i b b' * ωB b' i, fun _ _ _ => rfl⟩
  let QM : Matrix (B × ι) (B × ι) K := pointwise QW
  have hQs : ∀ i b b', Q i b b' = Q i b' b := fun i b b' => by
    conv_lhs => rw [← hQ i]
    rfl
  have hinv : ∀ a i, ωA a i * Ring.inverse (ωA a i) = 1 := fun a i =>
    Ring.mul_inverse_cancel _ (hω a i)
  -- products with the matrices
  have hRH : ∀ z : B → ι → K, ∀ a i,
      RM.mulVec (HM.mulVec fun x => z x.1 x.2) (a, i) =
        R a i * ∑ b, σA a b i * (D a b).mulVec (z b) i := by
    intro z a i
    simp only [RM, Matrix.mulVec_diagonal]
    simp only [Matrix.mulVec, dotProduct, Fintype.sum_prod_type, hHM]
    rw [mul_assoc]
    congr 1
    rw [Finset.mul_sum]
    refine Finset.sum_congr rfl fun b _ => ?_
    rw [Finset.mul_sum, Finset.mul_sum]
    refine Finset.sum_congr rfl fun j _ => ?_
    linear_combination σA a b i * D a b i j * z b j * hinv a i
  have hQH : ∀ t : A → ι → K, ∀ b i,
      QM.mulVec (HM.transpose.mulVec fun x => t x.1 x.2) (b, i) =
        ∑ b', Q i b b' * ∑ a, σB a b' i * (D a b').transpose.mulVec (t a) i := by
    intro t b i
    simp only [QM, pointwise_mulVec, hQW]
    refine Finset.sum_congr rfl fun b' _ => ?_
    rw [mul_assoc]
    congr 1
    simp only [Matrix.mulVec, dotProduct, Fintype.sum_prod_type, Matrix.transpose_apply, hHM]
    rw [Finset.mul_sum]
    refine Finset.sum_congr rfl fun a _ => ?_
    rw [Finset.mul_sum, Finset.mul_sum]
    refine Finset.sum_congr rfl fun j _ => ?_
    linear_combination (-Ring.inverse (ωA a j) * t a j) * hrel a b' j i +
      (σB a b' i * D a b' j i * t a j) * hinv a j
  have hQw : ∀ w : B → ι → K, ∀ b i,
      QM.mulVec (fun x => w x.1 x.2) (b, i) = ∑ b', Q i b b' * (ωB b' i * w b' i) := by
    intro w b i
    simp only [QM, pointwise_mulVec, hQW]
    exact Finset.sum_congr rfl fun b' _ => by ring
  have hAz' : ∀ z : B → ι → K, ∀ b i,
      AM.mulVec (fun x => z x.1 x.2) (b, i) = ∑ b', Az i b b' * z b' i := by
    intro z b i
    simp only [AM, pointwise_mulVec]
  have hAvm : ∀ t : A × ι → K, ∀ a i, AvM.mulVec t (a, i) = Av a i * t (a, i) := by
    intro t a i
    simp only [AvM, Matrix.mulVec_diagonal]
  have hRm : ∀ t : A → ι → K, ∀ a i,
      RM.mulVec (fun x => t x.1 x.2) (a, i) = R a i * (ωA a i * t a i) := by
    intro t a i
    simp only [RM, Matrix.mulVec_diagonal]
    ring
  have main := leapfrog_matrix AvM RM HM AM QM (by simp [RM])
    (by simp [AvM, RM, Matrix.diagonal_mul_diagonal])
    (by
      simp only [QM, pointwise_transpose]
      congr 1
      funext i
      refine Matrix.ext fun b b' => ?_
      rw [Matrix.transpose_apply, hQW, hQW, hQs i b' b, hQω])
    (by
      simp only [AM, QM, pointwise_mul, pointwise_transpose]
      congr 1
      funext i
      refine Matrix.ext fun b b' => ?_
      have e : ∀ b b', (Az i * QW i) b b' =
          (Az i * Q i) b b' * ωB b' i := by
        intro b b'
        rw [Matrix.mul_apply, Matrix.mul_apply, Finset.sum_mul]
        exact Finset.sum_congr rfl fun _ _ => by rw [hQW]; ring
      have e' : ∀ b b', (Az i * Q i) b b' * ωB b' i = (Az i * Q i) b b' * ωB b i := by
        intro b b'
        rw [Matrix.mul_apply, Finset.sum_mul, Finset.sum_mul]
        refine Finset.sum_congr rfl fun k _ => ?_
        linear_combination Az i b k * (-hQω i k b') - Q i k b' * (hAz i b k)
      rw [Matrix.transpose_apply, e, e, e' b b', ← congrFun (congrFun (hAQ i) b) b',
        Matrix.transpose_apply])
    s (fun x => u x.1 x.2) (fun x => u' x.1 x.2) (fun x => y x.1 x.2) (fun x => y' x.1 x.2)
    (fun x => t x.1 x.2) (fun x => t' x.1 x.2)
    (fun x => w x.1 x.2) (fun x => w' x.1 x.2) (fun x => z x.1 x.2) (fun x => z' x.1 x.2)
    (by
      funext ⟨a, i⟩
      rw [Pi.add_apply, hRH, ← ht])
    (by
      funext ⟨a, i⟩
      rw [Pi.smul_apply, Pi.sub_apply, Pi.smul_apply, hAvm, hAvm, hRm, smul_eq_mul, smul_eq_mul,
        ← hy])
    (by
      funext ⟨b, i⟩
      rw [Pi.smul_apply, Pi.add_apply, Pi.sub_apply, Pi.smul_apply, hAz', hQH, hQw, smul_eq_mul,
        smul_eq_mul, ← hz])
    (by
      funext ⟨a, i⟩
      rw [Pi.add_apply, hRH, ← ht'])
    (by
      funext ⟨a, i⟩
      rw [Pi.smul_apply, Pi.sub_apply, Pi.smul_apply, hAvm, hAvm, hRm, smul_eq_mul, smul_eq_mul,
        ← hy'])
    (by
      funext ⟨b, i⟩
      rw [Pi.smul_apply, Pi.add_apply, Pi.sub_apply, Pi.smul_apply, hAz', hQH, hQw, smul_eq_mul,
        smul_eq_mul, ← hz'])
  simpa only [dotProduct, Fintype.sum_prod_type] using main

end Components

section Sequences
open PowerSeries

/-- Stretching factor of a memory variable with coefficients `a`, `b`. -/
noncomputable def stretch (a b : ℝ) : PowerSeries ℝ := 1 + C a * (1 - C b * X)⁻¹

theorem stretch_zero (b : ℝ) : stretch 0 b = 1 := by simp [stretch]

theorem isUnit_stretch {a b : ℝ} (h : 1 + a ≠ 0) : IsUnit (stretch a b) := by
  rw [PowerSeries.isUnit_iff_constantCoeff]
  simpa [stretch] using h

theorem stretch_seq {a b : ℝ} {d ψ : ℕ → ℝ} (h0 : ψ 0 = 0) (h : ∀ n, ψ (n + 1) = b * ψ n + a * d n) :
    PowerSeries.mk (fun n => d n + ψ (n + 1)) = stretch a b * PowerSeries.mk d := by
  have h1 : (1 - C b * X) * PowerSeries.mk (fun n => ψ (n + 1)) = C a * PowerSeries.mk d := by
    ext n
    rw [sub_mul, one_mul, map_sub, mul_assoc, PowerSeries.coeff_C_mul, PowerSeries.coeff_C_mul,
      PowerSeries.coeff_mk, PowerSeries.coeff_mk, h]
    cases n with
    | zero => simp [h0]
    | succ n =>
      rw [PowerSeries.coeff_succ_X_mul, PowerSeries.coeff_mk]
      ring
  have h2 : PowerSeries.mk (fun n => ψ (n + 1)) = C a * (1 - C b * X)⁻¹ * PowerSeries.mk d := by
    have h3 : (1 - C b * X : PowerSeries ℝ)⁻¹ * (1 - C b * X) = 1 :=
      PowerSeries.inv_mul_cancel _ (by simp)
    calc PowerSeries.mk (fun n => ψ (n + 1))
        = (1 - C b * X)⁻¹ * (1 - C b * X) * PowerSeries.mk (fun n => ψ (n + 1)) := by
          rw [h3, one_mul]
      _ = _ := by rw [mul_assoc, h1]; ring
  have h4 : PowerSeries.mk (fun n => d n + ψ (n + 1)) =
      PowerSeries.mk d + PowerSeries.mk (fun n => ψ (n + 1)) := by
    ext n
    simp
  rw [h4, h2, stretch]
  ring

variable {A B ι : Type} [Fintype A] [Fintype B] [Fintype ι] [DecidableEq A] [DecidableEq B]
  [DecidableEq ι]

/-- Coefficients of a leapfrog scheme with stretched derivatives. -/
structure Scheme (A B ι : Type) where
  w : A → ι → ℝ
  R : A → ι → ℝ
  D : A → B → Matrix ι ι ℝ
  Az : ι → Matrix B B ℝ
  Q : ι → Matrix B B ℝ
  aA : A → B → ι → ℝ
  bA : A → B → ι → ℝ
  aB : A → B → ι → ℝ
  bB : A → B → ι → ℝ

/-- Time series of the scheme, excited at `u` (first half step) and `v` (second half step). -/
structure Scheme.Sol (d : Scheme A B ι) (s : ℕ → ℝ) (u : A → ι → ℝ) (v : B → ι → ℝ)
    (y : ℕ → A → ι → ℝ) (z : ℕ → B → ι → ℝ) (t : ℕ → A → ι → ℝ) (ψ φ : ℕ → A → B → ι → ℝ) : Prop where
  y0 : ∀ a i, y 0 a i = 0
  z0 : ∀ b i, z 0 b i = 0
  ψ0 : ∀ a b i, ψ 0 a b i = 0
  φ0 : ∀ a b i, φ 0 a b i = 0
  ψS : ∀ n a b i, ψ (n + 1) a b i =
    d.bA a b i * ψ n a b i + d.aA a b i * (d.D a b).mulVec (z n b) i
  φS : ∀ n a b i, φ (n + 1) a b i =
    d.bB a b i * φ n a b i + d.aB a b i * (d.D a b).transpose.mulVec (t n a) i
  tE : ∀ n a i, t n a i =
    y n a i + d.R a i * ∑ b, ((d.D a b).mulVec (z n b) i + ψ (n + 1) a b i)
  yS : ∀ n a i, y (n + 1) a i = d.w a i * t n a i - s n * (d.w a i * (d.R a i * u a i))
  zS : ∀ n b i, z (n + 1) b i = ∑ b', d.Az i b b' * z n b' i -
    ∑ b', d.Q i b b' * ∑ a, ((d.D a b').transpose.mulVec (t n a) i + φ (n + 1) a b' i) +
    s n * ∑ b', d.Q i b b' * v b' i

private theorem mk_mulVec (D : Matrix ι ι ℝ) (z : ℕ → ι → ℝ) (i : ι) :
    (D.map (C : ℝ → PowerSeries ℝ)).mulVec (fun j => PowerSeries.mk fun n => z n j) i =
      PowerSeries.mk fun n => D.mulVec (z n) i := by
  ext n
  simp [Matrix.mulVec, dotProduct, Matrix.map_apply, map_sum]

private theorem mk_step {f g : ℕ → ℝ} (h0 : f 0 = 0) (h : ∀ n, f (n + 1) = g n) :
    PowerSeries.mk f = X * PowerSeries.mk g := by
  ext n
  cases n with
  | zero => simp [h0]
  | succ n => rw [PowerSeries.coeff_mk, PowerSeries.coeff_succ_X_mul, PowerSeries.coeff_mk, h]

private theorem Scheme.Sol.series {d : Scheme A B ι} {s : ℕ → ℝ} {u : A → ι → ℝ} {v : B → ι → ℝ}
    {y : ℕ → A → ι → ℝ} {z : ℕ → B → ι → ℝ} {t : ℕ → A → ι → ℝ} {ψ φ : ℕ → A → B → ι → ℝ}
    (h : d.Sol s u v y z t ψ φ) :
    (∀ a i, PowerSeries.mk (fun n => t n a i) = PowerSeries.mk (fun n => y n a i) +
      C (d.R a i) * ∑ b, stretch (d.aA a b i) (d.bA a b i) *
        ((d.D a b).map (C : ℝ → PowerSeries ℝ)).mulVec (fun j => PowerSeries.mk fun n => z n b j) i) ∧
    (∀ a i, PowerSeries.mk (fun n => y n a i) = X * (C (d.w a i) * PowerSeries.mk (fun n => t n a i) -
      PowerSeries.mk s * (C (d.w a i) * (C (d.R a i) * C (u a i))))) ∧
    (∀ b i, PowerSeries.mk (fun n => z n b i) =
      X * (∑ b', C (d.Az i b b') * PowerSeries.mk (fun n => z n b' i) -
        ∑ b', C (d.Q i b b') * ∑ a, stretch (d.aB a b' i) (d.bB a b' i) *
          ((d.D a b').map (C : ℝ → PowerSeries ℝ)).transpose.mulVec
            (fun j => PowerSeries.mk fun n => t n a j) i +
        PowerSeries.mk s * ∑ b', C (d.Q i b b') * C (v b' i))) := by
  refine ⟨fun a i => ?_, fun a i => ?_, fun b i => ?_⟩
  · have e : ∀ b, stretch (d.aA a b i) (d.bA a b i) *
        ((d.D a b).map (C : ℝ → PowerSeries ℝ)).mulVec (fun j => PowerSeries.mk fun n => z n b j) i =
        PowerSeries.mk fun n => (d.D a b).mulVec (z n b) i + ψ (n + 1) a b i := by
      intro b
      rw [mk_mulVec (d.D a b) (fun n => z n b)]
      exact (stretch_seq (d := fun n => (d.D a b).mulVec (z n b) i) (ψ := fun n => ψ n a b i)
        (h.ψ0 a b i) fun n => h.ψS n a b i).symm
    simp only [e]
    ext n
    simp only [PowerSeries.coeff_mk, map_add, PowerSeries.coeff_C_mul, map_sum, h.tE n a i]
  · rw [mk_step (h.y0 a i) (fun n => h.yS n a i)]
    congr 1
    ext n
    rw [PowerSeries.coeff_mk, map_sub, PowerSeries.coeff_C_mul, PowerSeries.coeff_mk, ← map_mul,
      ← map_mul, PowerSeries.coeff_mul_C, PowerSeries.coeff_mk]
  · have e : ∀ b' a, stretch (d.aB a b' i) (d.bB a b' i) *
        ((d.D a b').map (C : ℝ → PowerSeries ℝ)).transpose.mulVec
          (fun j => PowerSeries.mk fun n => t n a j) i =
        PowerSeries.mk fun n => (d.D a b').transpose.mulVec (t n a) i + φ (n + 1) a b' i := by
      intro b' a
      rw [← Matrix.transpose_map, mk_mulVec (d.D a b').transpose (fun n => t n a)]
      exact (stretch_seq (d := fun n => (d.D a b').transpose.mulVec (t n a) i)
        (ψ := fun n => φ n a b' i) (h.φ0 a b' i) fun n => h.φS n a b' i).symm
    simp only [e]
    rw [mk_step (h.z0 b i) (fun n => h.zS n b i)]
    congr 1
    ext n
    have e2 : ∑ b', (C (d.Q i b b') : PowerSeries ℝ) * C (v b' i) =
        C (∑ b', d.Q i b b' * v b' i) := by
      rw [map_sum]
      exact Finset.sum_congr rfl fun _ _ => (map_mul _ _ _).symm
    rw [e2, map_add, PowerSeries.coeff_mul_C, map_sub]
    simp only [PowerSeries.coeff_mk, PowerSeries.coeff_C_mul, map_sum]

/-- Reciprocity of leapfrog schemes with stretched derivatives. -/
theorem reciprocity (d : Scheme A B ι) (ωA : A → ι → PowerSeries ℝ) (ωB : B → ι → PowerSeries ℝ)
    (hω : ∀ a i, IsUnit (ωA a i))
    (hrel : ∀ a b i j, d.D a b i j ≠ 0 → ωA a i * stretch (d.aB a b j) (d.bB a b j) =
      stretch (d.aA a b i) (d.bA a b i) * ωB b j)
    (hQω : ∀ i b b', d.Q i b b' ≠ 0 → ωB b i = ωB b' i)
    (hAω : ∀ i b b', d.Az i b b' ≠ 0 → ωB b i = ωB b' i)
    (hQ : ∀ i, (d.Q i).transpose = d.Q i)
    (hAQ : ∀ i, (d.Az i * d.Q i).transpose = d.Az i * d.Q i)
    {s : ℕ → ℝ} {u u' : A → ι → ℝ} {v v' : B → ι → ℝ}
    {y y' : ℕ → A → ι → ℝ} {z z' : ℕ → B → ι → ℝ} {t t' : ℕ → A → ι → ℝ}
    {ψ φ ψ' φ' : ℕ → A → B → ι → ℝ}
    (h : d.Sol s u v y z t ψ φ) (h' : d.Sol s u' v' y' z' t' ψ' φ')
    (hu : ∀ a i, u a i ≠ 0 ∨ u' a i ≠ 0 → ωA a i = 1)
    (hv : ∀ b i, v b i ≠ 0 ∨ v' b i ≠ 0 → ωB b i = 1) (n : ℕ) :
    ∑ a, ∑ i, u' a i * y n a i + ∑ b, ∑ i, v' b i * z n b i =
      ∑ a, ∑ i, u a i * y' n a i + ∑ b, ∑ i, v b i * z' n b i := by
  obtain ⟨h1, h2, h3⟩ := h.series
  obtain ⟨h1', h2', h3'⟩ := h'.series
  have fu : ∀ (f : A → ι → ℝ), (∀ a i, f a i ≠ 0 → ωA a i = 1) →
      ∀ a i, (C (f a i) : PowerSeries ℝ) = ωA a i * C (f a i) := by
    intro f hf a i
    by_cases e : f a i = 0
    · simp [e]
    · rw [hf a i e, one_mul]
  have fv : ∀ (f : B → ι → ℝ), (∀ a i, f a i ≠ 0 → ωB a i = 1) →
      ∀ a i, (C (f a i) : PowerSeries ℝ) = ωB a i * C (f a i) := by
    intro f hf a i
    by_cases e : f a i = 0
    · simp [e]
    · rw [hf a i e, one_mul]
  have eu := fu u fun a i e => hu a i (.inl e)
  have eu' := fu u' fun a i e => hu a i (.inr e)
  have ev := fv v fun a i e => hv a i (.inl e)
  have ev' := fv v' fun a i e => hv a i (.inr e)
  have main := leapfrog_components (fun a i => C (d.w a i)) (fun a i => C (d.R a i))
    (fun a b => (d.D a b).map (C : ℝ → PowerSeries ℝ))
    (fun a b i => stretch (d.aA a b i) (d.bA a b i)) (fun a b i => stretch (d.aB a b i) (d.bB a b i))
    ωA ωB (fun i => (d.Az i).map (C : ℝ → PowerSeries ℝ))
    (fun i => (d.Q i).map (C : ℝ → PowerSeries ℝ)) hω
    (by
      intro a b i j
      by_cases e : d.D a b i j = 0
      · simp [e]
      · rw [hrel a b i j e])
    (by
      intro i b b'
      by_cases e : d.Q i b b' = 0
      · simp [e]
      · rw [hQω i b b' e])
    (fun i => by rw [← Matrix.transpose_map, hQ])
    (by
      intro i b b'
      by_cases e : d.Az i b b' = 0
      · simp [e]
      · rw [hAω i b b' e])
    (fun i => by rw [← Matrix.map_mul, ← Matrix.transpose_map, hAQ])
    (PowerSeries.mk s) (fun a i => C (u a i)) (fun a i => C (u' a i))
    (fun a i => PowerSeries.mk fun n => y n a i) (fun a i => PowerSeries.mk fun n => y' n a i)
    (fun a i => PowerSeries.mk fun n => t n a i) (fun a i => PowerSeries.mk fun n => t' n a i)
    (fun b i => C (v b i)) (fun b i => C (v' b i))
    (fun b i => PowerSeries.mk fun n => z n b i) (fun b i => PowerSeries.mk fun n => z' n b i)
    h1 (fun a i => by rw [← eu a i]; exact h2 a i)
    (fun b i => by simp only [← ev]; exact h3 b i)
    h1' (fun a i => by rw [← eu' a i]; exact h2' a i)
    (fun b i => by simp only [← ev']; exact h3' b i)
  have := congrArg (PowerSeries.coeff n) main
  simpa only [map_add, map_sum, PowerSeries.coeff_C_mul, PowerSeries.coeff_mk] using this

end Sequences

end Verif.Recip
