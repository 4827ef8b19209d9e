import Verif.Lemmas.PotentialRun
import Verif.Lemmas.LocalityGrid

/-!
# C121: decomposition of wavefields by their travel direction
-/

namespace Verif.Solver
open Verif Verif.Views Verif.MatSetup
open Matrix

set_option linter.unusedSectionVars false
variable {ι : Type} [Fintype ι]

/-- The power that flows along an axis: force times velocity in the acoustic case (`p` is a tension in this code),
the vector product of the electric and the magnetic field in the electromagnetic case. -/
noncomputable def power (k : Kind) (a : Axis) (s : State ι) (i : ι) : ℝ :=
  match k with
  | .acoustic2D => -(s (.fld .p) i * s (.fld (vel a)) i)
  | .tmem2D => levi a .z .x * (s (.fld .eZ) i * s (.fld .hX) i) + levi a .z .y * (s (.fld .eZ) i * s (.fld .hY) i)
  | _ => 0

/-- The derivative that the decomposition along an axis uses, the value of the key, and the names of the two parts. -/
inductive Along (D : Deriv ι) : Axis → Matrix ι ι ℝ → Int → Way → Way → Prop
  | vertical : Along D .y D.Dyf 1 .up .down
  | horizontal : Along D .x D.Dxf 2 .left .right

private theorem abs_le_maxNorm (v : ι → ℝ) (i : ι) : |v i| ≤ maxNorm v :=
  le_ciSup (Set.finite_range fun i => |v i|).bddAbove i

private theorem maxNorm_nonneg (v : ι → ℝ) : 0 ≤ maxNorm v := Real.iSup_nonneg fun _ => abs_nonneg _

private theorem maxNorm_zero_of {v : ι → ℝ} (h : ∀ i, v i = 0) : maxNorm v = 0 := by
  have : v = fun _ => 0 := funext h
  subst this
  simp [maxNorm]

private theorem backPart_pos {p v : ι → ℝ} {i : ι} (h : 0 < p i) : backPart p v i = 0 := by
  simp [backPart, Real.sign_of_pos h]

private theorem backPart_nonpos {p v : ι → ℝ} {i : ι} (h : p i ≤ 0) : backPart p v i = v i := by
  rcases h.lt_or_eq with h | h
  · have : Real.sign |Real.sign (p i) - 1| = 1 := by
      rw [Real.sign_of_neg h]
      exact Real.sign_of_pos (by norm_num)
    rw [backPart, this, one_mul]
  · have : Real.sign |Real.sign (p i) - 1| = 1 := by
      rw [h, Real.sign_zero]
      exact Real.sign_of_pos (by norm_num)
    rw [backPart, this, one_mul]

private theorem forthPart_neg {p v : ι → ℝ} {i : ι} (h : p i < 0) : forthPart p v i = 0 := by
  simp [forthPart, Real.sign_of_neg h]

private theorem forthPart_nonneg {p v : ι → ℝ} {i : ι} (h : 0 ≤ p i) : forthPart p v i = v i := by
  rcases h.lt_or_eq with h | h
  · have : Real.sign (Real.sign (p i) + 1) = 1 := by
      rw [Real.sign_of_pos h]
      exact Real.sign_of_pos (by norm_num)
    rw [forthPart, this, one_mul]
  · have : Real.sign (Real.sign (p i) + 1) = 1 := by
      rw [← h, Real.sign_zero]
      exact Real.sign_of_pos (by norm_num)
    rw [forthPart, this, one_mul]

private theorem flux_eq {k : Kind} {f : Fld} (hf : f ∈ decomposed k) {D : Deriv ι} {a : Axis} {Dm : Matrix ι ι ℝ}
    {dec : Int} {w w' : Way} (ha : Along D a Dm dec w w') (s : State ι) : flux k a s = power k a s := by
  funext i
  cases ha <;> cases k <;> simp [decomposed] at hf <;> simp [flux, power, vel, levi]

private theorem decompose_eq {k : Kind} {f : Fld} (hf : f ∈ decomposed k) {D : Deriv ι} {a : Axis} {Dm : Matrix ι ι ℝ}
    {dec : Int} {w w' : Way} (ha : Along D a Dm dec w w') (s dot : State ι) (old : Fld → Way → Out (ι → ℝ)) :
    decompose k dec D s dot old f w =
      (indicator (power k a s) (slant Dm f s dot) >>= fun p => .ok (backPart p (s (.fld f)))) ∧
    decompose k dec D s dot old f w' =
      (indicator (power k a s) (slant Dm f s dot) >>= fun p => .ok (forthPart p (s (.fld f)))) := by
  rw [← flux_eq hf ha]
  cases ha <;> simp [decompose, hf]

/-- C121: at every point where the power flows up and the phases move up, the up part is the field and the down part is
zero; where both go down, it is the other way round. The same holds for left and right. -/
theorem C121_direction_partial {k : Kind} {f : Fld} (hf : f ∈ decomposed k) {D : Deriv ι} {a : Axis}
    {Dm : Matrix ι ι ℝ} {dec : Int} {w w' : Way} (ha : Along D a Dm dec w w') (s dot : State ι)
    (old : Fld → Way → Out (ι → ℝ)) (i : ι) :
    (power k a s i < 0 → 0 < Dm.mulVec (s (.fld f)) i * dot (.fld f) i →
      ∃ u d, decompose k dec D s dot old f w = .ok u ∧ decompose k dec D s dot old f w' = .ok d ∧
        u i = s (.fld f) i ∧ d i = 0) ∧
    (0 < power k a s i → Dm.mulVec (s (.fld f)) i * dot (.fld f) i < 0 →
      ∃ u d, decompose k dec D s dot old f w = .ok u ∧ decompose k dec D s dot old f w' = .ok d ∧
        u i = 0 ∧ d i = s (.fld f) i) := by
  obtain ⟨e1, e2⟩ := decompose_eq hf ha s dot old
  have key : slant Dm f s dot i ≠ 0 → maxNorm (slant Dm f s dot) ≠ 0 := fun h0 h => by
    have := abs_le_maxNorm (slant Dm f s dot) i
    rw [h] at this
    exact h0 (abs_eq_zero.mp (le_antisymm this (abs_nonneg _)))
  have hp : 0 ≤ maxNorm (power k a s) / maxNorm (slant Dm f s dot) :=
    div_nonneg (maxNorm_nonneg _) (maxNorm_nonneg _)
  constructor
  · intro h1 h2
    have hs : slant Dm f s dot i < 0 := by simp only [slant]; linarith
    rw [indicator, if_neg (key hs.ne), Out.bind_ok] at e1 e2
    have hi : slant Dm f s dot i * (maxNorm (power k a s) / maxNorm (slant Dm f s dot)) + power k a s i < 0 := by
      have := mul_nonpos_of_nonpos_of_nonneg hs.le hp
      linarith
    exact ⟨_, _, e1, e2, backPart_nonpos hi.le, forthPart_neg hi⟩
  · intro h1 h2
    have hs : 0 < slant Dm f s dot i := by simp only [slant]; linarith
    rw [indicator, if_neg (key hs.ne'), Out.bind_ok] at e1 e2
    have hi : 0 < slant Dm f s dot i * (maxNorm (power k a s) / maxNorm (slant Dm f s dot)) + power k a s i := by
      have := mul_nonneg hs.le hp
      linarith
    exact ⟨_, _, e1, e2, backPart_pos hi, forthPart_nonneg hi.le⟩

/-- C121: an acoustic wave that travels along an axis with speed `v` and impedance `z` at a point (`v` negative for the
other direction), where pressure and slope are not zero, has only the part of its direction. -/
theorem C121_acoustic_wave_partial {D : Deriv ι} {a : Axis} {Dm : Matrix ι ι ℝ} {dec : Int} {w w' : Way}
    (ha : Along D a Dm dec w w') (s dot : State ι) (old : Fld → Way → Out (ι → ℝ)) (i : ι) (z v : ℝ) (hz : 0 < z)
    (h1 : s (.fld .p) i = -(v * z * s (.fld (vel a)) i)) (h2 : dot (.fld .p) i = -(v * Dm.mulVec (s (.fld .p)) i))
    (hp : s (.fld .p) i ≠ 0) (hs : Dm.mulVec (s (.fld .p)) i ≠ 0) :
    ∃ u d, decompose .acoustic2D dec D s dot old .p w = .ok u ∧ decompose .acoustic2D dec D s dot old .p w' = .ok d ∧
      u i = (if v < 0 then s (.fld .p) i else 0) ∧ d i = (if v < 0 then 0 else s (.fld .p) i) := by
  obtain ⟨hu, hd⟩ := C121_direction_partial (k := .acoustic2D) (f := .p) (by simp [decomposed]) ha s dot old i
  have hv : v ≠ 0 := fun h => hp (by rw [h1, h]; ring)
  have hw : s (.fld (vel a)) i ≠ 0 := fun h => hp (by rw [h1, h]; ring)
  have e : power .acoustic2D a s i = v * (z * s (.fld (vel a)) i ^ 2) := by simp only [power, h1]; ring
  have e' : Dm.mulVec (s (.fld .p)) i * dot (.fld .p) i = -(v * Dm.mulVec (s (.fld .p)) i ^ 2) := by rw [h2]; ring
  have q1 : 0 < z * s (.fld (vel a)) i ^ 2 := by positivity
  have q2 : 0 < Dm.mulVec (s (.fld .p)) i ^ 2 := by positivity
  rcases lt_or_gt_of_ne hv with h | h
  · simp only [if_pos h]
    exact hu (by rw [e]; exact mul_neg_of_neg_of_pos h q1) (by rw [e']; linarith [mul_neg_of_neg_of_pos h q2])
  · simp only [if_neg h.not_gt]
    exact hd (by rw [e]; exact mul_pos h q1) (by rw [e']; linarith [mul_pos h q2])

/-- C121: wherever the parts are defined, each is the field or zero, and they add up to the field, except at points where
both are the whole field. -/
theorem C121_sum_partial {k : Kind} {f : Fld} (hf : f ∈ decomposed k) {D : Deriv ι} {a : Axis}
    {Dm : Matrix ι ι ℝ} {dec : Int} {w w' : Way} (ha : Along D a Dm dec w w') (s dot : State ι)
    (old : Fld → Way → Out (ι → ℝ)) (u d : ι → ℝ) (hu : decompose k dec D s dot old f w = .ok u)
    (hd : decompose k dec D s dot old f w' = .ok d) (i : ι) :
    u i = s (.fld f) i ∧ d i = 0 ∨ u i = 0 ∧ d i = s (.fld f) i ∨ u i = s (.fld f) i ∧ d i = s (.fld f) i := by
  obtain ⟨e1, e2⟩ := decompose_eq hf ha s dot old
  rw [e1, indicator] at hu
  rw [e2, indicator] at hd
  split at hu
  · cases hu
  · rename_i h0
    rw [if_neg h0] at hd
    obtain rfl := Out.ok.inj hu
    obtain rfl := Out.ok.inj hd
    rcases lt_trichotomy (slant Dm f s dot i * (maxNorm (power k a s) / maxNorm (slant Dm f s dot)) + power k a s i) 0
      with h | h | h
    · exact Or.inl ⟨backPart_nonpos h.le, forthPart_neg h⟩
    · exact Or.inr (Or.inr ⟨backPart_nonpos h.le, forthPart_nonneg h.ge⟩)
    · exact Or.inr (Or.inl ⟨backPart_pos h, forthPart_nonneg h.le⟩)

/-- C121 is violated at the start of every acoustic simulation with a pressure source: after the first time step there is
no velocity yet, both indicators vanish, the up part and the down part are both the whole pressure field; and the
velocities are divided by zero. -/
theorem C121_first_step_violated [DecidableEq ι] {D : Deriv ι} {a : Axis} {Dm : Matrix ι ι ℝ} {dec : Int} {w w' : Way}
    (ha : Along D a Dm dec w w') (m : Solver.Mod ι) (c : BC ι) (pos : ι) (g : ℕ → ℝ) (hg : g 0 ≠ 0)
    (hD : Dm pos pos ≠ 0) (DT : ℝ) (hT : 0 < DT) (old : Fld → Way → Out (ι → ℝ)) :
    let S := acoustic2DSolver D m c
    let s := run S [⟨.P, pos, g⟩] 0 1
    let dot := timeDerivative DT 0 s
    s (.fld .p) pos = g 0 ∧
    decompose .acoustic2D dec D s dot old .p w = .ok (s (.fld .p)) ∧
    decompose .acoustic2D dec D s dot old .p w' = .ok (s (.fld .p)) ∧
    decompose .acoustic2D dec D s dot old .vX w = .ub := by
  intro S s dot
  have hs : ∀ f, s (.fld f) = fun i => if f = .p ∧ pos = i then g 0 else 0 := by
    intro f
    funext i
    simp only [s, run, step, S, acoustic2DSolver, exec_zero, applySource]
    cases f <;> simp [Solver.srcFlds, src2Dacoustic]
  have hp : ∀ i, power .acoustic2D a s i = 0 := by
    intro i
    simp only [power, hs]
    cases ha <;> simp [vel]
  have hpn : maxNorm (power .acoustic2D a s) = 0 := maxNorm_zero_of hp
  have hq : slant Dm .p s dot pos ≠ 0 := by
    have e : Dm.mulVec (s (.fld .p)) pos = Dm pos pos * g 0 := by
      rw [hs]
      simp [mulVec, dotProduct, Finset.sum_ite_eq]
    have e' : dot (.fld .p) pos = g 0 / DT := by
      simp only [dot, timeDerivative, hs]
      simp [div_eq_mul_inv]
    rw [slant, e, e']
    have := hT.ne'
    simp [hD, hg, this]
  have hn : maxNorm (slant Dm .p s dot) ≠ 0 := fun h => hq (by
    have := abs_le_maxNorm (slant Dm .p s dot) pos
    rw [h] at this
    exact abs_eq_zero.mp (le_antisymm this (abs_nonneg _)))
  refine ⟨by rw [hs]; simp, ?_, ?_, ?_⟩
  · rw [(decompose_eq (by simp [decomposed]) ha s dot old).1, indicator, if_neg hn, Out.bind_ok]
    congr 1
    funext i
    exact backPart_nonpos (by rw [hpn, hp]; simp)
  · rw [(decompose_eq (by simp [decomposed]) ha s dot old).2, indicator, if_neg hn, Out.bind_ok]
    congr 1
    funext i
    exact forthPart_nonneg (by rw [hpn, hp]; simp)
  · have hz : ∀ i, slant Dm .vX s dot i = 0 := by
      intro i
      simp [slant, dot, timeDerivative, hs]
    rw [(decompose_eq (by simp [decomposed]) ha s dot old).1, indicator, if_pos (maxNorm_zero_of hz), Out.bind_ub]

private theorem Dyf_two (v : Pt 2 1 1 → ℝ) (i : Pt 2 1 1) : (surfaceDeriv 2 1 1 2 1 1).Dyf.mulVec v i = -v i := by
  have e00 : Verif.Stencil.fwdStencilEntry 1 2 0 0 = -1 := by decide +kernel
  change (forwardMatrix 2 1 1 .y).mulVec v i = -v i
  rw [forwardMatrix_line, lineMatrix_mulVec]
  have s1 : ∀ g : Fin (axisSize 2 1 1 .y) → ℝ, ∑ k, g k = g (0 : Fin 1) := fun g => Fin.sum_univ_one g
  obtain ⟨a, b, d⟩ := i
  obtain rfl : b = 0 := Subsingleton.elim _ _
  rw [s1]
  simp [along, axisSize, moveTo, e00]

/-- The hypotheses of `C121_first_step_violated` on a regular grid. -/
example : (surfaceDeriv 2 1 1 2 1 1).Dyf (0, 0, 0) (0, 0, 0) ≠ 0 := by
  have := Dyf_two (Pi.single (0, 0, 0) 1) (0, 0, 0)
  rw [mulVec_single_one] at this
  simp only [col_apply, Pi.single_eq_same] at this
  rw [this]
  norm_num

/-- C121: the decomposition at a point depends on the fields far away. The two states and their time derivatives are the
same at the first point (and the pressure is the same everywhere), yet the whole pressure goes up in one of them and down
in the other. -/
theorem C121_distant_violated :
    ∃ s s' dot dot' : State (Pt 2 1 1), s (.fld .p) = s' (.fld .p) ∧
      (∀ v, s v (0, 0, 0) = s' v (0, 0, 0) ∧ dot v (0, 0, 0) = dot' v (0, 0, 0)) ∧
      ∀ old, ∃ u u', decompose .acoustic2D 1 (surfaceDeriv 2 1 1 2 1 1) s dot old .p .up = .ok u ∧
        decompose .acoustic2D 1 (surfaceDeriv 2 1 1 2 1 1) s' dot' old .p .up = .ok u' ∧
        s (.fld .p) (0, 0, 0) = 1 ∧ u (0, 0, 0) = 1 ∧ u' (0, 0, 0) = 0 := by
  let q : ℝ → ℝ → Pt 2 1 1 → ℝ := fun a b i => if i = (0, 0, 0) then a else b
  let mk : ℝ → State (Pt 2 1 1) := fun b v => match v with
    | .fld .p => 1
    | .fld .vY => q (-1) b
    | _ => 0
  let mkd : ℝ → State (Pt 2 1 1) := fun b v => match v with
    | .fld .p => q (-1) b
    | _ => 0
  have hn : ∀ a b, maxNorm (q a b) = max |a| |b| := by
    intro a b
    apply le_antisymm
    · refine ciSup_le fun i => ?_
      simp only [q]
      split_ifs <;> simp
    · have h0 := abs_le_maxNorm (q a b) (0, 0, 0)
      have h1 := abs_le_maxNorm (q a b) (1, 0, 0)
      simp only [q, if_true] at h0
      simp only [q] at h1
      rw [if_neg (by decide)] at h1
      exact max_le h0 h1
  have key : ∀ b b' old, (decompose .acoustic2D 1 (surfaceDeriv 2 1 1 2 1 1) (mk b) (mkd b') old .p .up) =
      .ok (backPart (fun i => q (-1) b' i * (max 1 |b| / max 1 |b'|) + q 1 (-b) i) 1) := by
    intro b b' old
    have e1 : power .acoustic2D .y (mk b) = q 1 (-b) := by
      funext i
      simp only [power, mk, vel, q]
      split_ifs <;> simp
    have e2 : slant (surfaceDeriv 2 1 1 2 1 1).Dyf .p (mk b) (mkd b') = q (-1) b' := by
      funext i
      simp only [slant, Dyf_two, mk, mkd]
      simp
    rw [(decompose_eq (k := .acoustic2D) (f := .p) (by simp [decomposed]) .vertical (mk b) (mkd b') old).1, e1, e2,
      indicator, hn, hn, abs_neg, abs_neg, abs_one, if_neg (by positivity), Out.bind_ok]
  refine ⟨mk (-2), mk 0, mkd 0, mkd 2, rfl, fun v => ?_, fun old => ⟨_, _, key _ _ _, key _ _ _, rfl, ?_, ?_⟩⟩
  · constructor
    · simp only [mk]
      split <;> simp [q]
    · simp only [mkd]
      split <;> simp [q]
  · exact backPart_nonpos (by simp [q])
  · refine backPart_pos ?_
    simp only [q, if_true]
    norm_num

end Verif.Solver
