import Verif.Lemmas.Spectral
import Mathlib.FieldTheory.KummerExtension
/-!
# The Butterworth polynomial
-/
namespace Verif.Spectral
open Finset Complex Polynomial

/-! ### Coefficients through the Fourier transform -/

theorem fft_coeff (P : ℂ[X]) {n : ℕ} (h : P.natDegree < n) (k : ℕ) :
    fft n P.coeff k = P.eval (cis n (-k)) := by
  rw [Polynomial.eval_eq_sum_range' h, fft]
  refine sum_congr rfl fun t _ => ?_
  rw [← cis_nat_mul]; congr 2; ring

theorem ifft_eval (P : ℂ[X]) {n j : ℕ} (h : P.natDegree < n) (hj : j < n) :
    ifft n (fun k => P.eval (cis n (-k)) / n) j = P.coeff j := by
  have hn : (n : ℂ) ≠ 0 := by exact_mod_cast (show n ≠ 0 by omega)
  have : ifft n (fun k => P.eval (cis n (-k)) / n) j = ifft n (fun k => (1 / n) * fft n P.coeff k) j := by
    congr 1; funext k; rw [fft_coeff P h]; ring
  rw [this, ifft_mul, ifft_fft _ hj]; field_simp

/-- Polynomial of the coefficients `quadratic c d`. -/
noncomputable def quadPoly (c d : ℝ) : ℝ[X] := 1 + C c * X + C d * X ^ 2

theorem coeff_quadPoly (c d : ℝ) (j : ℕ) : (quadPoly c d).coeff j = quadratic c d j := by
  rw [quadPoly, quadratic]
  rcases j with _ | _ | _ | j
  · simp
  · simp [coeff_one]
  · simp [coeff_one]
  · simp [coeff_one]

theorem natDegree_quadPoly (c d : ℝ) : (quadPoly c d).natDegree ≤ 2 := by
  rw [quadPoly]; compute_degree

theorem natDegree_quadPoly_linear (c : ℝ) : (quadPoly c 0).natDegree ≤ 1 := by
  rw [quadPoly]; simp only [map_zero, zero_mul, add_zero]; compute_degree

/-- The Butterworth polynomial as product. -/
noncomputable def butterProd (order : ℕ) : ℝ[X] :=
  (∏ i ∈ range (order / 2), quadPoly (butterCoef order (i + 1)) 1) * if order % 2 ≠ 0 then quadPoly 1 0 else 1

theorem natDegree_butterProd (order : ℕ) : (butterProd order).natDegree ≤ order := by
  have h1 : (∏ i ∈ range (order / 2), quadPoly (butterCoef order (i + 1)) 1).natDegree ≤ 2 * (order / 2) := by
    refine (natDegree_prod_le _ _).trans ?_
    refine (sum_le_sum fun i _ => natDegree_quadPoly _ _).trans ?_
    simp; omega
  have h2 : (if order % 2 ≠ 0 then quadPoly 1 0 else 1 : ℝ[X]).natDegree ≤ order % 2 := by
    split_ifs with h
    · exact (natDegree_quadPoly_linear 1).trans (by omega)
    · simp
  refine (natDegree_mul_le).trans ?_
  omega

private theorem foldl_prod (n : ℕ) (l : List (ℕ → ℝ)) (X : ℕ → ℂ) (k : ℕ) :
    (l.foldl (fun X f k => X k * fft n (fun j => (f j : ℂ)) k) X) k
      = X k * (l.map fun f => fft n (fun j => (f j : ℂ)) k).prod := by
  induction l generalizing X with
  | nil => simp
  | cons f l ih => rw [List.foldl_cons, ih]; simp [mul_assoc]

private theorem prod_map_range (m : ℕ) (f : ℕ → ℂ) : ((List.range m).map f).prod = ∏ i ∈ range m, f i := by
  induction m with
  | zero => simp
  | succ m ih => rw [List.range_succ, List.map_append, List.prod_append, ih, prod_range_succ]; simp

private theorem fft_quadratic {n : ℕ} (hn : 3 ≤ n) (c d : ℝ) (k : ℕ) :
    fft n (fun j => (quadratic c d j : ℂ)) k = ((quadPoly c d).map ofRealHom).eval (cis n (-k)) := by
  rw [← fft_coeff _ (lt_of_le_of_lt (natDegree_map_le.trans (natDegree_quadPoly c d)) (by omega))]
  congr 1; funext j; rw [coeff_map, coeff_quadPoly]; rfl

theorem calcButterPoly_eq {order : ℕ} (h : 2 ≤ order) :
    ∃ poly, calcButterPoly order = .ok poly ∧ ∀ j ≤ order, poly j = (butterProd order).coeff j := by
  rw [calcButterPoly]
  have e : Common.calcNextPowTwo (order + 1) = some (2 ^ Nat.clog 2 (order + 1)) := by
    rw [Common.calcNextPowTwo, if_neg (by omega)]; rfl
  rw [e]
  set n := ((2 : ℤ) ^ Nat.clog 2 (order + 1)).toNat with hn
  have hn' : n = 2 ^ Nat.clog 2 (order + 1) := by
    rw [hn]; have : ((2 : ℤ) ^ Nat.clog 2 (order + 1)) = ((2 ^ Nat.clog 2 (order + 1) : ℕ) : ℤ) := by push_cast; rfl
    rw [this, Int.toNat_natCast]
  have hle : order + 1 ≤ n := by rw [hn']; exact Nat.le_pow_clog (by omega) _
  simp only
  rw [if_neg (by omega)]
  refine ⟨_, rfl, fun j hj => ?_⟩
  have hprod : ∀ k, ((butterFactors order).foldl (fun X f k => X k * fft n (fun j => (f j : ℂ)) k)
      (fft n fun j => if j = 0 then 1 else 0)) k = ((butterProd order).map ofRealHom).eval (cis n (-k)) := by
    intro k
    rw [foldl_prod]
    have h1 : fft n (fun j => if j = 0 then 1 else 0) k = 1 := by
      rw [fft, sum_eq_single 0]
      · simp [cis_zero]
      · intro b _ hb; simp [hb]
      · intro h; exact absurd (mem_range.2 (by omega)) h
    rw [h1, one_mul, butterFactors, List.map_append, List.prod_append, butterProd, Polynomial.map_mul, eval_mul,
      Polynomial.map_prod, eval_prod]
    congr 1
    · rw [List.map_map, prod_map_range]
      refine prod_congr rfl fun i _ => ?_
      exact fft_quadratic (by omega) _ _ _
    · split_ifs with ho
      · simp [fft_quadratic (show 3 ≤ n by omega)]
      · simp
  have hr : (fun k => ((butterFactors order).foldl (fun X f k => X k * fft n (fun j => (f j : ℂ)) k)
      (fft n fun j => if j = 0 then 1 else 0)) k / (n : ℂ))
      = fun k : ℕ => ((butterProd order).map ofRealHom).eval (cis n (-k)) / n := by
    funext k; rw [hprod]
  rw [hr, ifft_eval _ (lt_of_le_of_lt (natDegree_map_le.trans (natDegree_butterProd order)) (by omega)) (by omega),
    coeff_map]
  rfl

/-- Below order 2 the vector of the coefficients of one factor is too short. -/
theorem calcButterPoly_low {order : ℕ} (h : order ≤ 1) : calcButterPoly order = .ub := by
  interval_cases order
  · rw [calcButterPoly]; simp [Common.calcNextPowTwo, Nat.clog]
  · have : Nat.clog 2 2 = 1 := by rw [Nat.clog_of_two_le (by omega) (by omega)]; simp
    rw [calcButterPoly]; simp [Common.calcNextPowTwo, this]

/-! ### Modulus -/

theorem butterValue_eq {order : ℕ} {poly : ℕ → ℝ} (h : ∀ j ≤ order, poly j = (butterProd order).coeff j) (z : ℂ) :
    butterValue order poly z = (((butterProd order).map ofRealHom).eval z)⁻¹ := by
  rw [butterValue, eval_eq_sum_range' (n := order + 1)
    (lt_of_le_of_lt (natDegree_map_le.trans (natDegree_butterProd order)) (by omega))]
  congr 1
  refine sum_congr rfl fun j hj => ?_
  rw [coeff_map, h j (by have := mem_range.1 hj; omega), mul_comm]; rfl

private theorem prod_pair (n : ℕ) (f : ℕ → ℂ) :
    ∏ i ∈ range n, f i = (∏ i ∈ range (n / 2), f i * f (n - 1 - i)) * if n % 2 ≠ 0 then f (n / 2) else 1 := by
  rcases Nat.mod_two_eq_zero_or_one n with h | h
  · obtain ⟨m, rfl⟩ : ∃ m, n = m + m := ⟨n / 2, by omega⟩
    rw [prod_range_add, ← prod_range_reflect (fun i => f (m + i)) m, ← prod_mul_distrib,
      show (m + m) / 2 = m by omega, if_neg (by omega), mul_one]
    refine prod_congr rfl fun i hi => ?_
    have := mem_range.1 hi
    rw [show m + (m - 1 - i) = m + m - 1 - i by omega]
  · obtain ⟨m, rfl⟩ : ∃ m, n = m + (m + 1) := ⟨n / 2, by omega⟩
    rw [prod_range_add, ← prod_range_reflect (fun i => f (m + i)) (m + 1), prod_range_succ, ← mul_assoc,
      ← prod_mul_distrib, show (m + (m + 1)) / 2 = m by omega, if_pos (by omega)]
    congr 1
    · refine prod_congr rfl fun i hi => ?_
      have := mem_range.1 hi
      rw [show m + (m + 1 - 1 - i) = m + (m + 1) - 1 - i by omega]
    · rw [show m + (m + 1 - 1 - m) = m by omega]

/-- `y ^ n + 1` as product of real quadratic factors (and `y + 1` for odd `n`). -/
theorem pow_add_one_factors {n : ℕ} (hn : 0 < n) (y : ℝ) :
    (∏ i ∈ range (n / 2), (1 - 2 * Real.cos ((2 * i + 1) * Real.pi / n) * y + y ^ 2))
      * (if n % 2 ≠ 0 then 1 + y else 1) = 1 + y ^ n := by
  have hn0 : (n : ℂ) ≠ 0 := by exact_mod_cast hn.ne'
  have hnr : (n : ℝ) ≠ 0 := by exact_mod_cast hn.ne'
  set ζ := Complex.exp (2 * Real.pi * I / n)
  set α := Complex.exp (Real.pi * I / n)
  have hα : α ^ n = -1 := by
    rw [← Complex.exp_nat_mul, show (n : ℂ) * (Real.pi * I / n) = Real.pi * I by field_simp, Complex.exp_pi_mul_I]
  have hroot : ∀ i : ℕ, ζ ^ i * α = Complex.exp (((2 * i + 1) * Real.pi / n : ℝ) * I) := by
    intro i
    rw [← Complex.exp_nat_mul, ← Complex.exp_add]; congr 1; push_cast; ring
  have hfac := congrArg (Polynomial.eval (y : ℂ)) (X_pow_sub_C_eq_prod (Complex.isPrimitiveRoot_exp n hn.ne') hn hα)
  rw [eval_sub, eval_pow, eval_X, eval_C, eval_prod] at hfac
  simp only [eval_sub, eval_X, eval_C] at hfac
  change (y : ℂ) ^ n - -1 = ∏ i ∈ range n, ((y : ℂ) - ζ ^ i * α) at hfac
  rw [prod_pair] at hfac
  have hpair : ∀ i ∈ range (n / 2), ((y : ℂ) - ζ ^ i * α) * ((y : ℂ) - ζ ^ (n - 1 - i) * α)
      = ((1 - 2 * Real.cos ((2 * i + 1) * Real.pi / n) * y + y ^ 2 : ℝ) : ℂ) := by
    intro i hi
    have hi' := mem_range.1 hi
    have hconj : ζ ^ (n - 1 - i) * α = Complex.exp (-(((2 * i + 1) * Real.pi / n : ℝ) * I)) := by
      rw [hroot]
      have : ((((2 * ((n - 1 - i : ℕ) : ℝ) + 1) * Real.pi / n : ℝ) : ℂ) * I)
          = -(((2 * i + 1) * Real.pi / n : ℝ) * I) + 2 * Real.pi * I := by
        rw [show n - 1 - i = n - (1 + i) by omega, Nat.cast_sub (by omega)]
        push_cast; field_simp; ring
      rw [this, Complex.exp_add, Complex.exp_two_pi_mul_I, mul_one]
    rw [hconj, hroot]
    set θ : ℝ := (2 * i + 1) * Real.pi / n
    have h1 : Complex.exp (θ * I) * Complex.exp (-(θ * I)) = 1 := by rw [← Complex.exp_add]; simp
    have h2 : Complex.exp (θ * I) + Complex.exp (-(θ * I)) = 2 * (Real.cos θ : ℂ) := by
      rw [Complex.ofReal_cos, Complex.cos]; ring_nf
    push_cast
    rw [← Complex.ofReal_cos]
    linear_combination h1 - (y : ℂ) * h2
  rw [prod_congr rfl hpair] at hfac
  have hmid : (if n % 2 ≠ 0 then (y : ℂ) - ζ ^ (n / 2) * α else 1) = ((if n % 2 ≠ 0 then 1 + y else 1 : ℝ) : ℂ) := by
    split_ifs with h
    · rw [hroot]
      have : ((((2 * ((n / 2 : ℕ) : ℝ) + 1) * Real.pi / n : ℝ) : ℂ) * I) = Real.pi * I := by
        have h3 : (2 * ((n / 2 : ℕ) : ℝ) + 1) = n := by
          have : 2 * (n / 2) + 1 = n := by omega
          exact_mod_cast this
        rw [h3]; push_cast; field_simp
      rw [this, Complex.exp_pi_mul_I]; push_cast; ring
    · simp
  rw [hmid] at hfac
  have : (((∏ i ∈ range (n / 2), (1 - 2 * Real.cos ((2 * i + 1) * Real.pi / n) * y + y ^ 2))
      * (if n % 2 ≠ 0 then 1 + y else 1) : ℝ) : ℂ) = ((1 + y ^ n : ℝ) : ℂ) := by
    rw [ofReal_mul, ofReal_prod, ← hfac]; push_cast; ring
  exact_mod_cast this

/-- The modulus of the Butterworth polynomial on the imaginary axis. -/
theorem norm_butterProd {order : ℕ} (h : 0 < order) (w : ℝ) :
    ‖((butterProd order).map ofRealHom).eval (I * w)‖ ^ 2 = 1 + w ^ (2 * order) := by
  have hn : (order : ℝ) ≠ 0 := by exact_mod_cast h.ne'
  rw [pow_mul, ← pow_add_one_factors h, butterProd, Polynomial.map_mul, eval_mul, Polynomial.map_prod, eval_prod,
    norm_mul, mul_pow, norm_prod, ← prod_pow]
  have key : ∀ c d : ℝ, ‖((quadPoly c d).map ofRealHom).eval (I * w)‖ ^ 2 = (1 - d * w ^ 2) ^ 2 + c ^ 2 * w ^ 2 := by
    intro c d
    have : ((quadPoly c d).map ofRealHom).eval (I * w) = ⟨1 - d * w ^ 2, c * w⟩ := by
      rw [quadPoly]
      simp only [Polynomial.map_add, Polynomial.map_one, Polynomial.map_mul, map_C, map_X, Polynomial.map_pow,
        eval_add, eval_one, eval_mul, eval_C, eval_X, eval_pow, ofRealHom_eq_coe]
      rw [mul_pow, I_sq]
      apply Complex.ext <;> simp [← ofReal_pow] <;> ring
    rw [this, ← Complex.normSq_eq_norm_sq, Complex.normSq_mk]; ring
  congr 1
  · refine prod_congr rfl fun i hi => ?_
    rw [key, butterCoef]
    have hθ : (2 * ((i + 1 : ℕ) : ℝ) + order - 1) / (2 * order) * Real.pi
        = ((2 * i + 1) * Real.pi / order) / 2 + Real.pi / 2 := by
      push_cast; field_simp; ring
    rw [hθ, Real.cos_add_pi_div_two]
    have h2 := Real.cos_sq (((2 * i + 1) * Real.pi / order) / 2)
    rw [show 2 * (((2 * (i : ℝ) + 1) * Real.pi / order) / 2) = (2 * i + 1) * Real.pi / order by ring] at h2
    have h3 := Real.sin_sq_add_cos_sq (((2 * i + 1) * Real.pi / order) / 2)
    linear_combination (-4 * w ^ 2) * h2 + (4 * w ^ 2) * h3
  · split_ifs with ho
    · rw [key]; ring
    · simp

theorem norm_butterValue {order : ℕ} (h0 : 0 < order) {poly : ℕ → ℝ}
    (h : ∀ j ≤ order, poly j = (butterProd order).coeff j) (w : ℝ) :
    ‖butterValue order poly (I * w)‖ ^ 2 = 1 / (1 + w ^ (2 * order)) := by
  rw [butterValue_eq h, norm_inv, inv_pow, norm_butterProd h0, one_div]

/-- Opposite frequencies have conjugate values. -/
theorem butterValue_conj (order : ℕ) (poly : ℕ → ℝ) (w : ℝ) :
    butterValue order poly (I * ((-w : ℝ) : ℂ)) = (starRingEnd ℂ) (butterValue order poly (I * w)) := by
  rw [butterValue, butterValue, map_inv₀, map_sum]
  congr 1
  refine sum_congr rfl fun j _ => ?_
  simp

end Verif.Spectral
