import Verif.Lemmas.Recip
/-!
Reciprocity of leapfrog schemes whose second half step has internal variables (relaxation
mechanisms). The internal variables are eliminated: they make the pointwise matrices of the second
half step power series.
-/
set_option linter.unusedSectionVars false

namespace Verif.Recip
open Matrix PowerSeries

/-- Relaxation mechanisms `Λ`: the variables decay by `c`, are driven by the wavefield with `Gz` and
by the derivatives with `Ge`, and are added to the wavefield, old values times `h0`, new values times
`h1`. -/
structure Relax (Λ B ι : Type) where
  c : Λ → B → ι → ℝ
  Gz : Λ → B → ι → ℝ
  Ge : Λ → ι → Matrix B B ℝ
  h0 : Λ → B → ι → ℝ
  h1 : Λ → B → ι → ℝ

variable {A B Λ ι : Type} [Fintype A] [Fintype B] [Fintype Λ] [Fintype ι] [DecidableEq A]
  [DecidableEq B] [DecidableEq ι]

/-- Response of the wavefield to a mechanism. -/
noncomputable def Relax.K (x : Relax Λ B ι) (l : Λ) (b : B) (i : ι) : PowerSeries ℝ :=
  (C (x.h0 l b i) * X + C (x.h1 l b i)) * (1 - C (x.c l b i) * X)⁻¹

/-- Factor of the old wavefield, including the mechanisms. -/
noncomputable def Relax.AX (x : Relax Λ B ι) (d : Scheme A B ι) (i : ι) : Matrix B B (PowerSeries ℝ) :=
  Matrix.of fun b b' => C (d.Az i b b') + if b = b' then ∑ l, x.K l b i * C (x.Gz l b i) else 0

/-- Factor of the derivatives, including the mechanisms. -/
noncomputable def Relax.QX (x : Relax Λ B ι) (d : Scheme A B ι) (i : ι) : Matrix B B (PowerSeries ℝ) :=
  Matrix.of fun b b' => C (d.Q i b b') + ∑ l, x.K l b i * C (x.Ge l i b b')

/-- Time series of the scheme with mechanisms, excited at `u` and `v`. -/
structure Scheme.SolR (d : Scheme A B ι) (x : Relax Λ B ι) (s : ℕ → ℝ) (u : A → ι → ℝ) (v : B → ι → ℝ)
    (y : ℕ → A → ι → ℝ) (z : ℕ → B → ι → ℝ) (t : ℕ → A → ι → ℝ) (ψ φ : ℕ → A → B → ι → ℝ)
    (r : ℕ → Λ → B → ι → ℝ) : Prop where
  y0 : ∀ a i, y 0 a i = 0
  z0 : ∀ b i, z 0 b i = 0
  ψ0 : ∀ a b i, ψ 0 a b i = 0
  φ0 : ∀ a b i, φ 0 a b i = 0
  r0 : ∀ l b i, r 0 l b i = 0
  ψS : ∀ n a b i, ψ (n + 1) a b i =
    d.bA a b i * ψ n a b i + d.aA a b i * (d.D a b).mulVec (z n b) i
  φS : ∀ n a b i, φ (n + 1) a b i =
    d.bB a b i * φ n a b i + d.aB a b i * (d.D a b).transpose.mulVec (t n a) i
  tE : ∀ n a i, t n a i =
    y n a i + d.R a i * ∑ b, ((d.D a b).mulVec (z n b) i + ψ (n + 1) a b i)
  yS : ∀ n a i, y (n + 1) a i = d.w a i * t n a i - s n * (d.w a i * (d.R a i * u a i))
  rS : ∀ n l b i, r (n + 1) l b i = x.c l b i * r n l b i + (x.Gz l b i * z n b i -
    ∑ b', x.Ge l i b b' * ∑ a, ((d.D a b').transpose.mulVec (t n a) i + φ (n + 1) a b' i))
  zS : ∀ n b i, z (n + 1) b i = ∑ b', d.Az i b b' * z n b' i -
    ∑ b', d.Q i b b' * ∑ a, ((d.D a b').transpose.mulVec (t n a) i + φ (n + 1) a b' i) +
    ∑ l, (x.h0 l b i * r n l b i + x.h1 l b i * r (n + 1) l b i) +
    s n * ∑ b', d.Q i b b' * v b' i
  hv : ∀ l i b b', x.Ge l i b b' * v b' i = 0

private theorem mulVecMk (D : Matrix ι ι ℝ) (z : ℕ → ι → ℝ) (i : ι) :
    (D.map (C : ℝ → PowerSeries ℝ)).mulVec (fun j => PowerSeries.mk fun n => z n j) i =
      PowerSeries.mk fun n => D.mulVec (z n) i := by
  ext n
  simp [Matrix.mulVec, dotProduct, Matrix.map_apply, map_sum]

private theorem stepMk {f g : ℕ → ℝ} (h0 : f 0 = 0) (h : ∀ n, f (n + 1) = g n) :
    PowerSeries.mk f = X * PowerSeries.mk g := by
  ext n
  cases n with
  | zero => simp [h0]
  | succ n => rw [PowerSeries.coeff_mk, PowerSeries.coeff_succ_X_mul, PowerSeries.coeff_mk, h]

/-- The contribution of a mechanism driven by `g`. -/
private theorem relaxMk {c h0 h1 : ℝ} {r g : ℕ → ℝ} (r0 : r 0 = 0) (hr : ∀ n, r (n + 1) = c * r n + g n) :
    PowerSeries.mk (fun n => h0 * r n + h1 * r (n + 1)) =
      (C h0 * X + C h1) * (1 - C c * X)⁻¹ * PowerSeries.mk g := by
  have e1 : PowerSeries.mk r = X * PowerSeries.mk fun n => r (n + 1) := stepMk r0 fun n => rfl
  have h1' : (1 - C c * X) * PowerSeries.mk (fun n => r (n + 1)) = PowerSeries.mk g := by
    rw [sub_mul, one_mul, mul_assoc, ← e1]
    ext n
    rw [map_sub, PowerSeries.coeff_C_mul, PowerSeries.coeff_mk, PowerSeries.coeff_mk,
      PowerSeries.coeff_mk, hr]
    ring
  have h3 : (1 - C c * X : PowerSeries ℝ)⁻¹ * (1 - C c * X) = 1 :=
    PowerSeries.inv_mul_cancel _ (by simp)
  have e2 : PowerSeries.mk (fun n => r (n + 1)) = (1 - C c * X)⁻¹ * PowerSeries.mk g := by
    rw [← h1', ← mul_assoc, h3, one_mul]
  have e3 : PowerSeries.mk (fun n => h0 * r n + h1 * r (n + 1)) =
      C h0 * PowerSeries.mk r + C h1 * PowerSeries.mk fun n => r (n + 1) := by
    ext n
    rw [map_add, PowerSeries.coeff_C_mul, PowerSeries.coeff_C_mul, PowerSeries.coeff_mk,
      PowerSeries.coeff_mk, PowerSeries.coeff_mk]
  rw [e3, e1, e2]
  ring

private theorem Scheme.SolR.series {d : Scheme A B ι} {x : Relax Λ B ι} {s : ℕ → ℝ} {u : A → ι → ℝ}
    {v : B → ι → ℝ} {y : ℕ → A → ι → ℝ} {z : ℕ → B → ι → ℝ} {t : ℕ → A → ι → ℝ}
    {ψ φ : ℕ → A → B → ι → ℝ} {r : ℕ → Λ → B → ι → ℝ} (h : d.SolR x s u v y z t ψ φ r) :
    (∀ a i, PowerSeries.mk (fun n => t n a i) = PowerSeries.mk (fun n => y n a i) +
      C (d.R a i) * ∑ b, stretch (d.aA a b i) (d.bA a b i) *
        ((d.D a b).map (C : ℝ → PowerSeries ℝ)).mulVec (fun j => PowerSeries.mk fun n => z n b j) i) ∧
    (∀ a i, PowerSeries.mk (fun n => y n a i) = X * (C (d.w a i) * PowerSeries.mk (fun n => t n a i) -
      PowerSeries.mk s * (C (d.w a i) * (C (d.R a i) * C (u a i))))) ∧
    (∀ b i, PowerSeries.mk (fun n => z n b i) =
      X * (∑ b', x.AX d i b b' * PowerSeries.mk (fun n => z n b' i) -
        ∑ b', x.QX d i b b' * ∑ a, stretch (d.aB a b' i) (d.bB a b' i) *
          ((d.D a b').map (C : ℝ → PowerSeries ℝ)).transpose.mulVec
            (fun j => PowerSeries.mk fun n => t n a j) i +
        PowerSeries.mk s * ∑ b', x.QX d i b b' * C (v b' i))) := by
  refine ⟨fun a i => ?_, fun a i => ?_, fun b i => ?_⟩
  · have e : ∀ b, stretch (d.aA a b i) (d.bA a b i) *
        ((d.D a b).map (C : ℝ → PowerSeries ℝ)).mulVec (fun j => PowerSeries.mk fun n => z n b j) i =
        PowerSeries.mk fun n => (d.D a b).mulVec (z n b) i + ψ (n + 1) a b i := by
      intro b
      rw [mulVecMk (d.D a b) (fun n => z n b)]
      exact (stretch_seq (d := fun n => (d.D a b).mulVec (z n b) i) (ψ := fun n => ψ n a b i)
        (h.ψ0 a b i) fun n => h.ψS n a b i).symm
    simp only [e]
    ext n
    simp only [PowerSeries.coeff_mk, map_add, PowerSeries.coeff_C_mul, map_sum, h.tE n a i]
  · rw [stepMk (h.y0 a i) (fun n => h.yS n a i)]
    congr 1
    ext n
    rw [PowerSeries.coeff_mk, map_sub, PowerSeries.coeff_C_mul, PowerSeries.coeff_mk, ← map_mul,
      ← map_mul, PowerSeries.coeff_mul_C, PowerSeries.coeff_mk]
  · have e : ∀ b' a, stretch (d.aB a b' i) (d.bB a b' i) *
        ((d.D a b').map (C : ℝ → PowerSeries ℝ)).transpose.mulVec
          (fun j => PowerSeries.mk fun n => t n a j) i =
        PowerSeries.mk fun n => (d.D a b').transpose.mulVec (t n a) i + φ (n + 1) a b' i := by
      intro b' a
      rw [← Matrix.transpose_map, mulVecMk (d.D a b').transpose (fun n => t n a)]
      exact (stretch_seq (d := fun n => (d.D a b').transpose.mulVec (t n a) i)
        (ψ := fun n => φ n a b' i) (h.φ0 a b' i) fun n => h.φS n a b' i).symm
    simp only [e]
    obtain ⟨E, hE⟩ : ∃ E : B → PowerSeries ℝ, ∀ b', E b' = ∑ a, PowerSeries.mk fun n =>
        (d.D a b').transpose.mulVec (t n a) i + φ (n + 1) a b' i := ⟨_, fun _ => rfl⟩
    have hEn : ∀ b', E b' = PowerSeries.mk fun n =>
        ∑ a, ((d.D a b').transpose.mulVec (t n a) i + φ (n + 1) a b' i) := by
      intro b'
      rw [hE]
      ext n
      simp only [map_sum, PowerSeries.coeff_mk]
    simp only [← hE]
    -- the mechanisms
    have hr : ∀ l, PowerSeries.mk (fun n => x.h0 l b i * r n l b i + x.h1 l b i * r (n + 1) l b i) =
        x.K l b i * (C (x.Gz l b i) * PowerSeries.mk (fun n => z n b i) -
          ∑ b', C (x.Ge l i b b') * E b') := by
      intro l
      rw [relaxMk (h.r0 l b i) (fun n => h.rS n l b i), Relax.K]
      congr 1
      ext n
      simp only [hEn, PowerSeries.coeff_mk, map_sub, map_sum, PowerSeries.coeff_C_mul]
    -- the source
    have hq : ∑ b', x.QX d i b b' * C (v b' i) = C (∑ b', d.Q i b b' * v b' i) := by
      rw [map_sum]
      refine Finset.sum_congr rfl fun b' _ => ?_
      simp only [Relax.QX, Matrix.of_apply]
      rw [add_mul, Finset.sum_mul, map_mul, Finset.sum_eq_zero, add_zero]
      intro l _
      rw [mul_assoc, ← map_mul, h.hv, map_zero, mul_zero]
    have hz : PowerSeries.mk (fun n => ∑ b', d.Az i b b' * z n b' i -
        ∑ b', d.Q i b b' * ∑ a, ((d.D a b').transpose.mulVec (t n a) i + φ (n + 1) a b' i) +
        ∑ l, (x.h0 l b i * r n l b i + x.h1 l b i * r (n + 1) l b i) +
        s n * ∑ b', d.Q i b b' * v b' i) =
        ∑ b', C (d.Az i b b') * PowerSeries.mk (fun n => z n b' i) - ∑ b', C (d.Q i b b') * E b' +
        ∑ l, x.K l b i * (C (x.Gz l b i) * PowerSeries.mk (fun n => z n b i) -
          ∑ b', C (x.Ge l i b b') * E b') +
        PowerSeries.mk s * C (∑ b', d.Q i b b' * v b' i) := by
      rw [← Finset.sum_congr rfl fun l _ => hr l]
      generalize ∑ b', d.Q i b b' * v b' i = q
      ext n
      simp only [hEn, PowerSeries.coeff_mk, map_add, map_sub, map_sum, PowerSeries.coeff_C_mul,
        PowerSeries.coeff_mul_C]
    rw [stepMk (h.z0 b i) (fun n => h.zS n b i), hz, hq]
    congr 2
    have h1 : ∑ b', x.AX d i b b' * PowerSeries.mk (fun n => z n b' i) =
        ∑ b', C (d.Az i b b') * PowerSeries.mk (fun n => z n b' i) +
        ∑ l, x.K l b i * (C (x.Gz l b i) * PowerSeries.mk (fun n => z n b i)) := by
      simp only [Relax.AX, Matrix.of_apply, add_mul, Finset.sum_add_distrib, ite_mul, zero_mul,
        Finset.sum_ite_eq, Finset.mem_univ, if_true, Finset.sum_mul]
      congr 1
      exact Finset.sum_congr rfl fun l _ => by ring
    have h2 : ∑ b', x.QX d i b b' * E b' = ∑ b', C (d.Q i b b') * E b' +
        ∑ l, x.K l b i * ∑ b', C (x.Ge l i b b') * E b' := by
      simp only [Relax.QX, Matrix.of_apply, add_mul, Finset.sum_add_distrib, Finset.sum_mul,
        Finset.mul_sum]
      congr 1
      rw [Finset.sum_comm]
      exact Finset.sum_congr rfl fun l _ => Finset.sum_congr rfl fun b' _ => by ring
    rw [h1, h2]
    simp only [mul_sub, Finset.sum_sub_distrib]
    ring

/-- Reciprocity of leapfrog schemes with stretched derivatives and relaxation mechanisms. -/
theorem reciprocityR (d : Scheme A B ι) (x : Relax Λ B ι) (ωA : A → ι → PowerSeries ℝ)
    (ωB : B → ι → PowerSeries ℝ) (hω : ∀ a i, IsUnit (ωA a i))
    (hrel : ∀ a b i j, d.D a b i j ≠ 0 → ωA a i * stretch (d.aB a b j) (d.bB a b j) =
      stretch (d.aA a b i) (d.bA a b i) * ωB b j)
    (hdiag : ∀ i b b', b ≠ b' → d.Az i b b' = 0)
    (hsame : ∀ i b b', d.Q i b b' ≠ 0 ∨ (∃ l, x.Ge l i b b' ≠ 0) → ωB b i = ωB b' i ∧
      d.Az i b b = d.Az i b' b' ∧ ∀ l, x.Gz l b i = x.Gz l b' i ∧ x.c l b i = x.c l b' i ∧
        x.h0 l b i = x.h0 l b' i ∧ x.h1 l b i = x.h1 l b' i)
    (hQ : ∀ i b b', d.Q i b b' = d.Q i b' b) (hG : ∀ l i b b', x.Ge l i b b' = x.Ge l i b' b)
    {s : ℕ → ℝ} {u u' : A → ι → ℝ} {v v' : B → ι → ℝ}
    {y y' : ℕ → A → ι → ℝ} {z z' : ℕ → B → ι → ℝ} {t t' : ℕ → A → ι → ℝ}
    {ψ φ ψ' φ' : ℕ → A → B → ι → ℝ} {r r' : ℕ → Λ → B → ι → ℝ}
    (h : d.SolR x s u v y z t ψ φ r) (h' : d.SolR x s u' v' y' z' t' ψ' φ' r')
    (hu : ∀ a i, u a i ≠ 0 ∨ u' a i ≠ 0 → ωA a i = 1)
    (hv : ∀ b i, v b i ≠ 0 ∨ v' b i ≠ 0 → ωB b i = 1) (n : ℕ) :
    ∑ a, ∑ i, u' a i * y n a i + ∑ b, ∑ i, v' b i * z n b i =
      ∑ a, ∑ i, u a i * y' n a i + ∑ b, ∑ i, v b i * z' n b i := by
  obtain ⟨h1, h2, h3⟩ := h.series
  obtain ⟨h1', h2', h3'⟩ := h'.series
  have fu : ∀ (f : A → ι → ℝ), (∀ a i, f a i ≠ 0 → ωA a i = 1) →
      ∀ a i, (C (f a i) : PowerSeries ℝ) = ωA a i * C (f a i) := by
    intro f hf a i
    by_cases e : f a i = 0
    · simp [e]
    · rw [hf a i e, one_mul]
  have fv : ∀ (f : B → ι → ℝ), (∀ a i, f a i ≠ 0 → ωB a i = 1) →
      ∀ a i, (C (f a i) : PowerSeries ℝ) = ωB a i * C (f a i) := by
    intro f hf a i
    by_cases e : f a i = 0
    · simp [e]
    · rw [hf a i e, one_mul]
  have eu := fu u fun a i e => hu a i (.inl e)
  have eu' := fu u' fun a i e => hu a i (.inr e)
  have ev := fv v fun a i e => hv a i (.inl e)
  have ev' := fv v' fun a i e => hv a i (.inr e)
  have hQX0 : ∀ i b b', ¬ (d.Q i b b' ≠ 0 ∨ ∃ l, x.Ge l i b b' ≠ 0) → x.QX d i b b' = 0 := by
    intro i b b' hn
    obtain ⟨n1, n2⟩ := not_or.1 hn
    have n2' : ∀ l, x.Ge l i b b' = 0 := fun l => by
      by_contra hl
      exact n2 ⟨l, hl⟩
    simp [Relax.QX, not_not.1 n1, n2']
  have hQXs : ∀ i, (x.QX d i).transpose = x.QX d i := by
    intro i
    ext1 b b'
    rw [Matrix.transpose_apply]
    by_cases hs : d.Q i b b' ≠ 0 ∨ ∃ l, x.Ge l i b b' ≠ 0
    · obtain ⟨-, -, hl⟩ := hsame i b b' hs
      simp only [Relax.QX, Matrix.of_apply, hQ i b' b, hG _ i b' b]
      congr 1
      refine Finset.sum_congr rfl fun l _ => ?_
      obtain ⟨-, e1, e2, e3⟩ := hl l
      rw [Relax.K, Relax.K, e1, e2, e3]
    · rw [hQX0 i b b' hs, hQX0 i b' b]
      simpa only [hQ i b' b, hG _ i b' b] using hs
  have hAXd : ∀ i b b', b ≠ b' → x.AX d i b b' = 0 := by
    intro i b b' hb
    simp [Relax.AX, hdiag i b b' hb, hb]
  have hAXe : ∀ i b b', x.QX d i b b' ≠ 0 → x.AX d i b b = x.AX d i b' b' := by
    intro i b b' hn
    by_cases hs : d.Q i b b' ≠ 0 ∨ ∃ l, x.Ge l i b b' ≠ 0
    · obtain ⟨-, e0, hl⟩ := hsame i b b' hs
      simp only [Relax.AX, Matrix.of_apply, if_true, e0]
      congr 1
      refine Finset.sum_congr rfl fun l _ => ?_
      obtain ⟨e4, e1, e2, e3⟩ := hl l
      rw [Relax.K, Relax.K, e1, e2, e3, e4]
    · exact absurd (hQX0 i b b' hs) hn
  have hAQ : ∀ i b b', (x.AX d i * x.QX d i) b b' = x.AX d i b b * x.QX d i b b' := by
    intro i b b'
    rw [Matrix.mul_apply, Finset.sum_eq_single b]
    · intro k _ hk
      rw [hAXd i b k (Ne.symm hk), zero_mul]
    · intro hn
      exact absurd (Finset.mem_univ _) hn
  have main := leapfrog_components (fun a i => C (d.w a i)) (fun a i => C (d.R a i))
    (fun a b => (d.D a b).map (C : ℝ → PowerSeries ℝ))
    (fun a b i => stretch (d.aA a b i) (d.bA a b i)) (fun a b i => stretch (d.aB a b i) (d.bB a b i))
    ωA ωB (x.AX d) (x.QX d) hω
    (by
      intro a b i j
      by_cases e : d.D a b i j = 0
      · simp [e]
      · rw [hrel a b i j e])
    (by
      intro i b b'
      by_cases hs : d.Q i b b' ≠ 0 ∨ ∃ l, x.Ge l i b b' ≠ 0
      · rw [(hsame i b b' hs).1]
      · rw [hQX0 i b b' hs, zero_mul, zero_mul])
    hQXs
    (by
      intro i b b'
      by_cases hb : b = b'
      · rw [hb]
      · rw [hAXd i b b' hb, zero_mul, zero_mul])
    (by
      intro i
      ext1 b b'
      rw [Matrix.transpose_apply, hAQ, hAQ]
      have e : x.QX d i b' b = x.QX d i b b' := congrFun (congrFun (hQXs i) b) b'
      rw [e]
      by_cases hn : x.QX d i b b' = 0
      · rw [hn, mul_zero, mul_zero]
      · rw [hAXe i b b' hn])
    (PowerSeries.mk s) (fun a i => C (u a i)) (fun a i => C (u' a i))
    (fun a i => PowerSeries.mk fun n => y n a i) (fun a i => PowerSeries.mk fun n => y' n a i)
    (fun a i => PowerSeries.mk fun n => t n a i) (fun a i => PowerSeries.mk fun n => t' n a i)
    (fun b i => C (v b i)) (fun b i => C (v' b i))
    (fun b i => PowerSeries.mk fun n => z n b i) (fun b i => PowerSeries.mk fun n => z' n b i)
    h1 (fun a i => by rw [← eu a i]; exact h2 a i)
    (fun b i => by simp only [← ev]; exact h3 b i)
    h1' (fun a i => by rw [← eu' a i]; exact h2' a i)
    (fun b i => by simp only [← ev']; exact h3' b i)
  have := congrArg (PowerSeries.coeff n) main
  simpa only [map_add, map_sum, PowerSeries.coeff_C_mul, PowerSeries.coeff_mk] using this

end Verif.Recip
