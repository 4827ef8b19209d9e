import Verif.Model.CheckParameter
import Verif.Lemmas.StencilSums
import Verif.Props.Grid
import Mathlib.Analysis.SpecialFunctions.Sqrt
import Mathlib.Analysis.SpecificLimits.Basic
import Mathlib.Algebra.BigOperators.Field
/-!
# C13, C54, C55: checks before a simulation starts
-/
namespace Verif.Check
open Verif.Stencil

/-! ### C13 -/

/-- Sum of the absolute values of one half of the stencil of an order: the factor in the Courant
bound of the staggered scheme. -/
noncomputable def gamma (cs : List ℚ) : ℝ := (((cs.map abs).sum / 2 : ℚ) : ℝ)

/-- The Courant bound for a table, dimension, spacing and velocity. -/
def Courant (cs : List ℚ) (D : Nat) (dt DH v : ℝ) : Prop :=
  dt ≤ DH / (gamma cs * Real.sqrt D * v)

private theorem factor_one {s : Int} (hs : ValidOrder s) : orderFactor s = some 1 := by
  rcases hs with rfl | rfl | rfl | rfl | rfl | rfl <;> decide

/-- What the check of the root process really tests: the order has no influence. -/
theorem C13_accept_iff {s : Int} (hs : ValidOrder s) {D : Nat} {dim : String}
    (hD : dimNumber dim = some D) (dt DH v : ℝ) :
    checkStability 0 dt DH v dim s = .ok () ↔ v = 0 ∨ dt ≤ DH / (Real.sqrt D * v) := by
  unfold checkStability
  rw [if_pos rfl, hD, factor_one hs]
  simp only [Int.cast_one, one_mul]
  split <;> simp_all

/-- C13: the criterion for the two dimensions that a configuration can name; everything else is
rejected. -/
theorem C13_dimensions {s : Int} (hs : ValidOrder s) (dt DH v : ℝ) :
    (checkStability 0 dt DH v "2D" s = .ok () ↔ v = 0 ∨ dt ≤ DH / (Real.sqrt 2 * v)) ∧
    (checkStability 0 dt DH v "3D" s = .ok () ↔ v = 0 ∨ dt ≤ DH / (Real.sqrt 3 * v)) ∧
    ∀ dim, dim ≠ "2D" → dim ≠ "3D" → checkStability 0 dt DH v dim s = .err := by
  refine ⟨?_, ?_, ?_⟩
  · have := C13_accept_iff hs (D := 2) (dim := "2D") rfl dt DH v
    simpa using this
  · have := C13_accept_iff hs (D := 3) (dim := "3D") rfl dt DH v
    simpa using this
  · intro dim h2 h3
    unfold checkStability dimNumber
    rw [if_pos rfl, if_neg h2, if_neg h3]

/-- Unknown dimensions and orders are rejected. -/
theorem C13_rejects_unknown {s : Int} {dim : String} (dt DH v : ℝ)
    (h : dimNumber dim = none ∨ ¬ ValidOrder s) : checkStability 0 dt DH v dim s = .err := by
  unfold checkStability
  rw [if_pos rfl]
  rcases h with h | h
  · rw [h]
  · have : orderFactor s = none := by
      unfold orderFactor
      unfold ValidOrder at h
      push Not at h
      simp [h.1, h.2.1, h.2.2.1, h.2.2.2.1, h.2.2.2.2.1, h.2.2.2.2.2]
    rw [this]
    cases dimNumber dim <;> rfl

private theorem gamma_gt {s : Int} (hs : ValidOrder s) (h4 : 4 ≤ s) {cs : List ℚ}
    (hcs : fd s = some cs) : 7 / 6 ≤ gamma cs := by
  unfold gamma
  have : (7 / 6 : ℚ) ≤ (cs.map abs).sum / 2 := by
    rcases hs with rfl | rfl | rfl | rfl | rfl | rfl
    · omega
    all_goals
      (unfold fd at hcs; norm_num at hcs; subst hcs
       norm_num [abs_div, abs_of_pos, abs_of_neg])
  have h := (Rat.cast_le (K := ℝ)).mpr this
  push_cast at h ⊢
  exact h

/-- C13 fails for every order from 4 to 12: the time step `DH/(√D v)` is accepted, for every
spacing and velocity, although it exceeds the Courant bound. -/
theorem C13_courant_violated {s : Int} (hs : ValidOrder s) (h4 : 4 ≤ s) {cs : List ℚ}
    (hcs : fd s = some cs) {D : Nat} {dim : String} (hD : dimNumber dim = some D)
    {DH v : ℝ} (hDH : 0 < DH) (hv : 0 < v) :
    checkStability 0 (DH / (Real.sqrt D * v)) DH v dim s = .ok () ∧
      ¬ Courant cs D (DH / (Real.sqrt D * v)) DH v := by
  refine ⟨(C13_accept_iff hs hD _ _ _).mpr (.inr le_rfl), ?_⟩
  have hD0 : (0 : ℝ) < Real.sqrt D := by
    apply Real.sqrt_pos.mpr
    unfold dimNumber at hD
    split_ifs at hD <;> (injection hD with hD; subst hD; norm_num)
  have hg := gamma_gt hs h4 hcs
  unfold Courant
  rw [not_le]
  apply div_lt_div_of_pos_left hDH (by positivity)
  have : 0 < Real.sqrt D * v := by positivity
  nlinarith

/-- C13, what holds: for order 2 an accepted time step satisfies the Courant bound. Missing: the
other orders. -/
theorem C13_order2_partial {cs : List ℚ} (hcs : fd 2 = some cs) {D : Nat} {dim : String}
    (hD : dimNumber dim = some D) {dt DH v : ℝ} (hv : 0 < v)
    (h : checkStability 0 dt DH v dim 2 = .ok ()) : Courant cs D dt DH v := by
  have hg : gamma cs = 1 := by
    unfold fd at hcs; norm_num at hcs; subst hcs
    norm_num [gamma]
  rcases (C13_accept_iff (by decide) hD _ _ _).mp h with h | h
  · exact absurd h hv.ne'
  · unfold Courant; rw [hg, one_mul]; exact h

example : checkStability 0 1 3 2 "2D" 2 = .ok () ∧ dimNumber "2D" = some 2 := by
  have hd : dimNumber "2D" = some 2 := rfl
  refine ⟨(C13_accept_iff (by decide) hd _ _ _).mpr (.inr ?_), hd⟩
  rw [le_div_iff₀ (by positivity)]
  have := Real.sqrt_two_lt_three_halves
  push_cast
  linarith

/-! ### C13, consequence: an accepted run that blows up

The acoustic scheme on the unbounded grid `ℤ^D` in homogeneous material, as in
ForwardSolver2Dacoustic.cpp:122-170 without boundaries and sources. -/

/-- Forward / backward difference along axis `a`. -/
noncomputable def diffF (cs : List ℚ) (DH : ℝ) {D : Nat} (a : Fin D) (p : (Fin D → ℤ) → ℝ)
    (i : Fin D → ℤ) : ℝ :=
  ∑ j ∈ Finset.range cs.length,
    ((coef cs j : ℚ) : ℝ) / DH * p (Function.update i a (i a + ((j : ℤ) - cs.length / 2 + 1)))

noncomputable def diffB (cs : List ℚ) (DH : ℝ) {D : Nat} (a : Fin D) (p : (Fin D → ℤ) → ℝ)
    (i : Fin D → ℤ) : ℝ :=
  ∑ j ∈ Finset.range cs.length,
    ((coef cs j : ℚ) : ℝ) / DH * p (Function.update i a (i a + ((j : ℤ) - cs.length / 2)))

/-- Pressure and velocity components. -/
structure Field (D : Nat) where
  p : (Fin D → ℤ) → ℝ
  v : Fin D → (Fin D → ℤ) → ℝ

/-- One time step. -/
noncomputable def step (cs : List ℚ) (dt DH rho K : ℝ) {D : Nat} (w : Field D) : Field D :=
  let v := fun a i => w.v a i + dt / rho * diffF cs DH a w.p i
  { p := fun i => w.p i + dt * K * ∑ a, diffB cs DH a (v a) i, v := v }

/-- The checkerboard field. -/
noncomputable def board {D : Nat} (i : Fin D → ℤ) : ℝ := (-1) ^ (∑ a, i a : ℤ)

private theorem board_update {D : Nat} (a : Fin D) (i : Fin D → ℤ) (k : ℤ) :
    board (Function.update i a (i a + k)) = board i * (-1) ^ k := by
  unfold board
  have : ∑ b, Function.update i a (i a + k) b = (∑ b, i b) + k := by
    rw [Finset.sum_update_of_mem (Finset.mem_univ a)]
    have := Finset.add_sum_erase Finset.univ i (Finset.mem_univ a)
    rw [Finset.sdiff_singleton_eq_erase]
    linarith
  rw [this, zpow_add₀ (by norm_num)]

/-- Value of the stencil on an alternating field. -/
noncomputable def symbol (cs : List ℚ) : ℝ :=
  ∑ j ∈ Finset.range cs.length, ((coef cs j : ℚ) : ℝ) * (-1) ^ ((j : ℤ) - cs.length / 2 + 1)

private theorem diffF_board (cs : List ℚ) (DH c : ℝ) {D : Nat} (a : Fin D) (i : Fin D → ℤ) :
    diffF cs DH a (fun i => c * board i) i = symbol cs / DH * c * board i := by
  unfold diffF symbol
  rw [Finset.sum_div, Finset.sum_mul, Finset.sum_mul]
  apply Finset.sum_congr rfl
  intro j _
  show _ * (c * board _) = _
  rw [board_update]; ring

private theorem diffB_board (cs : List ℚ) (DH c : ℝ) {D : Nat} (a : Fin D) (i : Fin D → ℤ) :
    diffB cs DH a (fun i => c * board i) i = -(symbol cs / DH * c * board i) := by
  unfold diffB symbol
  rw [Finset.sum_div, Finset.sum_mul, Finset.sum_mul, ← Finset.sum_neg_distrib]
  apply Finset.sum_congr rfl
  intro j _
  show _ * (c * board _) = _
  rw [board_update, zpow_add₀ (by norm_num : (-1 : ℝ) ≠ 0) ((j : ℤ) - cs.length / 2) 1]
  ring

/-- Amplitudes of the checkerboard mode after `n` steps (pressure, velocity). -/
noncomputable def amp (cs : List ℚ) (dt DH rho K : ℝ) (D : Nat) : Nat → ℝ × ℝ
  | 0 => (1, 0)
  | n + 1 =>
    let q := amp cs dt DH rho K D n
    let v := q.2 + dt / rho * (symbol cs / DH * q.1)
    (q.1 - dt * K * (D * (symbol cs / DH * v)), v)

private theorem iterate_board (cs : List ℚ) (dt DH rho K : ℝ) (D n : Nat) :
    (step cs dt DH rho K)^[n] ({ p := board, v := fun _ _ => 0 } : Field D) =
      { p := fun i => (amp cs dt DH rho K D n).1 * board i,
        v := fun _ i => (amp cs dt DH rho K D n).2 * board i } := by
  induction n with
  | zero => simp [amp]
  | succ n ih =>
    rw [Function.iterate_succ_apply', ih]
    have hv : ∀ (a : Fin D) (i : Fin D → ℤ), (amp cs dt DH rho K D n).2 * board i +
        dt / rho * diffF cs DH a (fun i => (amp cs dt DH rho K D n).1 * board i) i =
        (amp cs dt DH rho K D (n + 1)).2 * board i := by
      intro a i
      rw [diffF_board]; simp only [amp]; ring
    unfold step
    simp only [hv]
    congr 1
    funext i
    simp only [diffB_board]
    rw [Finset.sum_const, Finset.card_univ, Fintype.card_fin, nsmul_eq_mul]
    simp only [amp]
    ring

private theorem symbol_sq {s : Int} (hs : ValidOrder s) {cs : List ℚ} (hcs : fd s = some cs) :
    symbol cs ^ 2 = (2 * gamma cs) ^ 2 := by
  rcases hs with rfl | rfl | rfl | rfl | rfl | rfl
  all_goals
    (unfold fd at hcs; norm_num at hcs; subst hcs
     norm_num [symbol, gamma, coef, Finset.sum_range_succ, abs_div, abs_of_pos, abs_of_neg,
       zpow_neg])

private theorem amp_growth {cs : List ℚ} {dt DH rho K mu : ℝ} {D : Nat}
    (hmu : mu = D * (K / rho) * dt ^ 2 * (symbol cs / DH) ^ 2) (h4 : 4 ≤ mu) (n : Nat) :
    (mu - 3) ^ n ≤ |(amp cs dt DH rho K D n).1| ∧
      (mu - 3) * |(amp cs dt DH rho K D n).1| ≤ |(amp cs dt DH rho K D (n + 1)).1| ∧
      (amp cs dt DH rho K D (n + 2)).1 =
        (2 - mu) * (amp cs dt DH rho K D (n + 1)).1 - (amp cs dt DH rho K D n).1 := by
  have hrec : ∀ n, (amp cs dt DH rho K D (n + 2)).1 =
      (2 - mu) * (amp cs dt DH rho K D (n + 1)).1 - (amp cs dt DH rho K D n).1 := by
    intro n
    rw [hmu]
    simp only [amp]
    ring
  have h0 : (amp cs dt DH rho K D 1).1 = 1 - mu := by
    rw [hmu]; simp only [amp]; ring
  induction n with
  | zero =>
    refine ⟨by simp [amp], ?_, hrec 0⟩
    rw [h0]
    simp only [amp, abs_one, mul_one]
    rw [abs_of_nonpos (by linarith)]
    linarith
  | succ n ih =>
    obtain ⟨i1, i2, i3⟩ := ih
    refine ⟨?_, ?_, hrec _⟩
    · rw [pow_succ]
      have : (mu - 3) ^ n * (mu - 3) ≤ |(amp cs dt DH rho K D n).1| * (mu - 3) :=
        mul_le_mul_of_nonneg_right i1 (by linarith)
      linarith
    · rw [i3]
      have hle : |(amp cs dt DH rho K D n).1| ≤ |(amp cs dt DH rho K D (n + 1)).1| := by
        have := abs_nonneg (amp cs dt DH rho K D n).1
        nlinarith
      have t : |(2 - mu) * (amp cs dt DH rho K D (n + 1)).1| - |(amp cs dt DH rho K D n).1| ≤
          |(2 - mu) * (amp cs dt DH rho K D (n + 1)).1 - (amp cs dt DH rho K D n).1| :=
        abs_sub_abs_le_abs_sub _ _
      rw [abs_mul, abs_of_nonpos (by linarith : 2 - mu ≤ 0)] at t
      nlinarith

/-- C13 fails in substance: for every order from 4 to 12 and both dimensions there is, for every
spacing, density and bulk modulus, a time step the check accepts with which the acoustic scheme
turns the bounded checkerboard initial pressure into values beyond every bound. -/
theorem C13_blow_up_violated {s : Int} (hs : ValidOrder s) (h4 : 4 ≤ s) {cs : List ℚ}
    (hcs : fd s = some cs) {D : Nat} {dim : String} (hD : dimNumber dim = some D)
    {DH rho K : ℝ} (hDH : 0 < DH) (hrho : 0 < rho) (hK : 0 < K) :
    ∃ dt, checkStability 0 dt DH (Real.sqrt (K / rho)) dim s = .ok () ∧
      ∀ M : ℝ, ∃ n : Nat, M <
        |((step cs dt DH rho K)^[n] ({ p := board, v := fun _ _ => 0 } : Field D)).p 0| := by
  have hv : 0 < Real.sqrt (K / rho) := Real.sqrt_pos.mpr (by positivity)
  have hDpos : (0 : ℝ) < D := by
    unfold dimNumber at hD
    split_ifs at hD <;> (injection hD with hD; subst hD; norm_num)
  have hD0 : (0 : ℝ) < Real.sqrt D := Real.sqrt_pos.mpr hDpos
  refine ⟨DH / (Real.sqrt D * Real.sqrt (K / rho)),
    (C13_courant_violated hs h4 hcs hD hDH hv).1, fun M => ?_⟩
  set dt := DH / (Real.sqrt D * Real.sqrt (K / rho)) with hdt
  have hmu : (2 * gamma cs) ^ 2 = D * (K / rho) * dt ^ 2 * (symbol cs / DH) ^ 2 := by
    rw [div_pow (symbol cs), symbol_sq hs hcs, hdt, div_pow DH, mul_pow (√(D:ℝ)), Real.sq_sqrt hDpos.le,
      Real.sq_sqrt (by positivity)]
    field_simp
  have hg := gamma_gt hs h4 hcs
  have hmu4 : (2 * gamma cs) ^ 2 - 3 > 2 := by nlinarith
  obtain ⟨n, hn⟩ := pow_unbounded_of_one_lt M (by linarith : 1 < (2 * gamma cs) ^ 2 - 3)
  refine ⟨n, ?_⟩
  rw [iterate_board]
  have b0 : (board (0 : Fin D → ℤ)) = 1 := by simp [board]
  simp only [b0, mul_one]
  exact lt_of_lt_of_le hn (amp_growth hmu (by linarith) n).1

/-- Case: order 8 in two dimensions, water on a 1 m grid. -/
example : ∃ cs dt, fd 8 = some cs ∧
    checkStability 0 dt 1 (Real.sqrt (2.25e9 / 1000)) "2D" 8 = .ok () ∧
    ∀ M : ℝ, ∃ n : Nat, M <
      |((step cs dt 1 1000 2.25e9)^[n] ({ p := board, v := fun _ _ => 0 } : Field 2)).p 0| := by
  obtain ⟨cs, hcs, _⟩ := fd_length (s := 8) (by decide)
  obtain ⟨dt, h⟩ := C13_blow_up_violated (s := 8) (by decide) (by decide) hcs (dim := "2D") rfl
    (DH := 1) (rho := 1000) (K := 2.25e9) (by norm_num) (by norm_num) (by norm_num)
  exact ⟨cs, dt, hcs, h⟩

/-! ### C54 -/

private theorem localMax_aux (pts : List (Nat × ℝ)) : ∀ (m : Nat → ℝ) (l : Nat),
    m l ≤ (pts.foldl (fun m p => if p.2 > m p.1 then Function.update m p.1 p.2 else m) m) l ∧
    (∀ p ∈ pts, p.1 = l →
      p.2 ≤ (pts.foldl (fun m p => if p.2 > m p.1 then Function.update m p.1 p.2 else m) m) l) ∧
    ((pts.foldl (fun m p => if p.2 > m p.1 then Function.update m p.1 p.2 else m) m) l = m l ∨
      ∃ p ∈ pts, p.1 = l ∧
        (pts.foldl (fun m p => if p.2 > m p.1 then Function.update m p.1 p.2 else m) m) l = p.2) := by
  induction pts with
  | nil => intro m l; simp
  | cons q pts ih =>
    intro m l
    rw [List.foldl_cons]
    obtain ⟨h1, h2, h3⟩ := ih (if q.2 > m q.1 then Function.update m q.1 q.2 else m) l
    have hm : m l ≤ (if q.2 > m q.1 then Function.update m q.1 q.2 else m) l := by
      split
      · by_cases e : l = q.1
        · subst e; simp; linarith
        · simp [e]
      · exact le_rfl
    refine ⟨hm.trans h1, ?_, ?_⟩
    · intro p hp hpl
      rcases List.mem_cons.mp hp with rfl | hp
      · refine le_trans ?_ h1
        subst hpl
        split
        · simp
        · rename_i h; exact not_lt.mp h
      · exact h2 p hp hpl
    · rcases h3 with h3 | ⟨p, hp, hpl, he⟩
      · rw [h3]
        by_cases e : q.2 > m q.1
        · rw [if_pos e]
          by_cases el : l = q.1
          · exact .inr ⟨q, List.mem_cons_self, el.symm, by subst el; simp⟩
          · exact .inl (by simp [el])
        · rw [if_neg e]; exact .inl rfl
      · exact .inr ⟨p, List.mem_cons_of_mem _ hp, hpl, he⟩

private theorem foldl_max_ge (f : List (Nat × ℝ) → ℝ) : ∀ (ps : List (List (Nat × ℝ))) (m : ℝ),
    m ≤ ps.foldl (fun m p => max m (f p)) m ∧ (∀ p ∈ ps, f p ≤ ps.foldl (fun m p => max m (f p)) m) ∧
    (ps.foldl (fun m p => max m (f p)) m = m ∨
      ∃ p ∈ ps, ps.foldl (fun m p => max m (f p)) m = f p) := by
  intro ps
  induction ps with
  | nil => intro m; simp
  | cons q ps ih =>
    intro m
    rw [List.foldl_cons]
    obtain ⟨h1, h2, h3⟩ := ih (max m (f q))
    refine ⟨le_trans (le_max_left _ _) h1, ?_, ?_⟩
    · intro p hp
      rcases List.mem_cons.mp hp with rfl | hp
      · exact le_trans (le_max_right _ _) h1
      · exact h2 p hp
    · rcases h3 with h3 | ⟨p, hp, he⟩
      · rcases max_cases m (f q) with ⟨h, _⟩ | ⟨h, _⟩
        · exact .inl (by rw [h3, h])
        · exact .inr ⟨q, List.mem_cons_self, by rw [h3, h]⟩
      · exact .inr ⟨p, List.mem_cons_of_mem _ hp, he⟩

/-- C54: the velocity used for a layer is the largest velocity of any grid point of that layer
on any process of the shot domain (zero for a layer without points of positive velocity). -/
theorem C54_max_velocity (p0 : List (Nat × ℝ)) (ps : List (List (Nat × ℝ))) (l : Nat) :
    (∀ pts ∈ p0 :: ps, ∀ p ∈ pts, p.1 = l → p.2 ≤ globalMax p0 ps l) ∧
    (globalMax p0 ps l = 0 ∨ ∃ pts ∈ p0 :: ps, ∃ p ∈ pts, p.1 = l ∧ globalMax p0 ps l = p.2) := by
  obtain ⟨h1, h2, h3⟩ := foldl_max_ge (fun p => localMax p l) ps (localMax p0 l)
  constructor
  · intro pts hpts p hp hpl
    have hloc : p.2 ≤ localMax pts l := (localMax_aux pts (fun _ => 0) l).2.1 p hp hpl
    rcases List.mem_cons.mp hpts with rfl | hpts
    · exact hloc.trans h1
    · exact hloc.trans (h2 pts hpts)
  · have hloc : ∀ pts, localMax pts l = 0 ∨ ∃ p ∈ pts, p.1 = l ∧ localMax pts l = p.2 :=
      fun pts => (localMax_aux pts (fun _ => 0) l).2.2
    rcases h3 with h3 | ⟨q, hq, he⟩
    · rcases hloc p0 with h | ⟨p, hp, hpl, h⟩
      · exact .inl (h3.trans h)
      · exact .inr ⟨p0, List.mem_cons_self, p, hp, hpl, h3.trans h⟩
    · rcases hloc q with h | ⟨p, hp, hpl, h⟩
      · exact .inl (he.trans h)
      · exact .inr ⟨q, List.mem_cons_of_mem _ hq, p, hp, hpl, he.trans h⟩

private theorem localMin_aux (pts : List (Nat × ℝ)) : ∀ (m : Nat → ℝ) (l : Nat),
    (pts.foldl (fun m p => if p.2 < m p.1 ∧ p.2 > 0 then Function.update m p.1 p.2 else m) m) l ≤ m l ∧
    (∀ p ∈ pts, p.1 = l → 0 < p.2 →
      (pts.foldl (fun m p => if p.2 < m p.1 ∧ p.2 > 0 then Function.update m p.1 p.2 else m) m) l ≤
        p.2) ∧
    ((pts.foldl (fun m p => if p.2 < m p.1 ∧ p.2 > 0 then Function.update m p.1 p.2 else m) m) l =
        m l ∨
      ∃ p ∈ pts, p.1 = l ∧ 0 < p.2 ∧
        (pts.foldl (fun m p => if p.2 < m p.1 ∧ p.2 > 0 then Function.update m p.1 p.2 else m) m) l =
          p.2) := by
  induction pts with
  | nil => intro m l; simp
  | cons q pts ih =>
    intro m l
    rw [List.foldl_cons]
    obtain ⟨h1, h2, h3⟩ := ih (if q.2 < m q.1 ∧ q.2 > 0 then Function.update m q.1 q.2 else m) l
    have hm : (if q.2 < m q.1 ∧ q.2 > 0 then Function.update m q.1 q.2 else m) l ≤ m l := by
      split
      · by_cases e : l = q.1
        · subst e; simp; linarith
        · simp [e]
      · exact le_rfl
    refine ⟨h1.trans hm, ?_, ?_⟩
    · intro p hp hpl hp0
      rcases List.mem_cons.mp hp with rfl | hp
      · refine le_trans h1 ?_
        subst hpl
        split
        · simp
        · rename_i h
          by_contra hc
          exact h ⟨not_le.mp hc, hp0⟩
      · exact h2 p hp hpl hp0
    · rcases h3 with h3 | ⟨p, hp, hpl, hp0, he⟩
      · rw [h3]
        by_cases e : q.2 < m q.1 ∧ q.2 > 0
        · rw [if_pos e]
          by_cases el : l = q.1
          · exact .inr ⟨q, List.mem_cons_self, el.symm, e.2, by subst el; simp⟩
          · exact .inl (by simp [el])
        · rw [if_neg e]; exact .inl rfl
      · exact .inr ⟨p, List.mem_cons_of_mem _ hp, hpl, hp0, he⟩

private theorem foldl_min_le (f : List (Nat × ℝ) → ℝ) : ∀ (ps : List (List (Nat × ℝ))) (m : ℝ),
    ps.foldl (fun m p => min m (f p)) m ≤ m ∧ (∀ p ∈ ps, ps.foldl (fun m p => min m (f p)) m ≤ f p) ∧
    (ps.foldl (fun m p => min m (f p)) m = m ∨
      ∃ p ∈ ps, ps.foldl (fun m p => min m (f p)) m = f p) := by
  intro ps
  induction ps with
  | nil => intro m; simp
  | cons q ps ih =>
    intro m
    rw [List.foldl_cons]
    obtain ⟨h1, h2, h3⟩ := ih (min m (f q))
    refine ⟨le_trans h1 (min_le_left _ _), ?_, ?_⟩
    · intro p hp
      rcases List.mem_cons.mp hp with rfl | hp
      · exact le_trans h1 (min_le_right _ _)
      · exact h2 p hp
    · rcases h3 with h3 | ⟨p, hp, he⟩
      · rcases min_cases m (f q) with ⟨h, _⟩ | ⟨h, _⟩
        · exact .inl (by rw [h3, h])
        · exact .inr ⟨q, List.mem_cons_self, by rw [h3, h]⟩
      · exact .inr ⟨p, List.mem_cons_of_mem _ hp, he⟩

/-- C54: the velocity used for the dispersion check of a layer is the smallest positive velocity of
any of its grid points on any process (3e8 if there is none below). -/
theorem C54_min_velocity (p0 : List (Nat × ℝ)) (ps : List (List (Nat × ℝ))) (l : Nat) :
    (∀ pts ∈ p0 :: ps, ∀ p ∈ pts, p.1 = l → 0 < p.2 → globalMin p0 ps l ≤ p.2) ∧
    (globalMin p0 ps l = 3 * 10 ^ 8 ∨
      ∃ pts ∈ p0 :: ps, ∃ p ∈ pts, p.1 = l ∧ 0 < p.2 ∧ globalMin p0 ps l = p.2) := by
  obtain ⟨h1, h2, h3⟩ := foldl_min_le (fun p => localMin p l) ps (localMin p0 l)
  constructor
  · intro pts hpts p hp hpl hp0
    have hloc : localMin pts l ≤ p.2 := (localMin_aux pts (fun _ => 3 * 10 ^ 8) l).2.1 p hp hpl hp0
    rcases List.mem_cons.mp hpts with rfl | hpts
    · exact h1.trans hloc
    · exact (h2 pts hpts).trans hloc
  · have hloc : ∀ pts, localMin pts l = 3 * 10 ^ 8 ∨
        ∃ p ∈ pts, p.1 = l ∧ 0 < p.2 ∧ localMin pts l = p.2 :=
      fun pts => (localMin_aux pts (fun _ => 3 * 10 ^ 8) l).2.2
    rcases h3 with h3 | ⟨q, hq, he⟩
    · rcases hloc p0 with h | ⟨p, hp, hpl, h0, h⟩
      · exact .inl (h3.trans h)
      · exact .inr ⟨p0, List.mem_cons_self, p, hp, hpl, h0, h3.trans h⟩
    · rcases hloc q with h | ⟨p, hp, hpl, h0, h⟩
      · exact .inl (he.trans h)
      · exact .inr ⟨q, List.mem_cons_of_mem _ hq, p, hp, hpl, h0, he.trans h⟩

private theorem fold_ok (f : Nat → Out Unit) : ∀ (ls : List Nat),
    ls.foldl (fun r l => do let _ ← r; f l) (.ok ()) = .ok () → ∀ l ∈ ls, f l = .ok () := by
  intro ls
  induction ls using List.reverseRecOn with
  | nil => simp
  | append_singleton ls a ih =>
    intro h l hl
    rw [List.foldl_append] at h
    simp only [List.foldl_cons, List.foldl_nil] at h
    cases hp : ls.foldl (fun r l => do let _ ← r; f l) (.ok ()) with
    | ok u =>
      rw [hp] at h
      simp only [Out.bind_ok] at h
      rcases List.mem_append.mp hl with hl | hl
      · exact ih hp l hl
      · simp at hl; subst hl; exact h
    | err => rw [hp] at h; cases h
    | ub => rw [hp] at h; cases h

/-- C54: if the check over all layers lets the simulation start, the time step satisfies the
bound at every single grid point of every process. -/
theorem C54_every_point {numLayers : Nat} {dt : ℝ} {DH : Nat → ℝ} {dim : String} {D : Nat}
    (hD : dimNumber dim = some D) {order : Nat → Int} (ho : ∀ l, ValidOrder (order l))
    (hDH : ∀ l, 0 < DH l) (hdt : 0 < dt) {p0 : List (Nat × ℝ)} {ps : List (List (Nat × ℝ))}
    (h : checkAllLayers numLayers dt DH dim order p0 ps = .ok ()) :
    ∀ pts ∈ p0 :: ps, ∀ p ∈ pts, p.1 < numLayers → dt * (Real.sqrt D * p.2) ≤ DH p.1 := by
  intro pts hpts p hp hpl
  have hc := fold_ok _ _ h p.1 (by simpa using hpl)
  obtain ⟨hmax, hatt⟩ := C54_max_velocity p0 ps p.1
  have hle := hmax pts hpts p hp rfl
  have hs0 : 0 ≤ Real.sqrt D := Real.sqrt_nonneg _
  have hDpos : (0 : ℝ) < Real.sqrt D := by
    apply Real.sqrt_pos.mpr
    unfold dimNumber at hD
    split_ifs at hD <;> (injection hD with hD; subst hD; norm_num)
  have hg0 : 0 ≤ globalMax p0 ps p.1 := by
    have : 0 ≤ localMax p0 p.1 := (localMax_aux p0 (fun _ => 0) p.1).1
    exact this.trans (foldl_max_ge (fun q => localMax q p.1) ps (localMax p0 p.1)).1
  rcases (C13_accept_iff (ho p.1) hD _ _ _).mp hc with hz | hb
  · rw [hz] at hle
    have : dt * (Real.sqrt D * p.2) ≤ 0 :=
      mul_nonpos_of_nonneg_of_nonpos hdt.le (mul_nonpos_of_nonneg_of_nonpos hs0 hle)
    linarith [hDH p.1]
  · rcases hg0.eq_or_lt with hz | hpos
    · rw [← hz] at hle
      have : dt * (Real.sqrt D * p.2) ≤ 0 :=
        mul_nonpos_of_nonneg_of_nonpos hdt.le (mul_nonpos_of_nonneg_of_nonpos hs0 hle)
      linarith [hDH p.1]
    · rw [le_div_iff₀ (by positivity)] at hb
      have : Real.sqrt D * p.2 ≤ Real.sqrt D * globalMax p0 ps p.1 :=
        mul_le_mul_of_nonneg_left hle hs0
      nlinarith

/-- Case: two processes, two layers; the second process owns the fastest point of layer 1. -/
example : globalMax [(0, 1), (1, 2)] [[(1, 5), (0, 1)]] 1 = 5 ∧
    checkAllLayers 2 (1/10) (fun _ => 1) "2D" (fun _ => 2) [(0, 1), (1, 2)] [[(1, 5), (0, 1)]] =
      .ok () := by
  have h0 : globalMax [(0, 1), (1, 2)] [[(1, 5), (0, 1)]] 0 = 1 := by
    norm_num [globalMax, localMax, Function.update]
  have h1 : globalMax [(0, 1), (1, 2)] [[(1, 5), (0, 1)]] 1 = 5 := by
    norm_num [globalMax, localMax, Function.update]
  refine ⟨h1, ?_⟩
  have hd : dimNumber "2D" = some 2 := rfl
  have hs := Real.sqrt_two_lt_three_halves
  have e0 : checkStability 0 (1/10) 1 1 "2D" 2 = .ok () :=
    (C13_accept_iff (by decide) hd _ _ _).mpr (.inr (by
      rw [le_div_iff₀ (by positivity)]; push_cast; linarith))
  have e1 : checkStability 0 (1/10) 1 5 "2D" 2 = .ok () :=
    (C13_accept_iff (by decide) hd _ _ _).mpr (.inr (by
      rw [le_div_iff₀ (by positivity)]; push_cast; linarith))
  unfold checkAllLayers
  simp only [List.range_succ, List.range_zero, List.nil_append, List.cons_append, List.foldl_cons,
    List.foldl_nil, h0, h1, Out.bind_ok, e0, e1]

/-! ### C55 -/

private theorem check_cons {g : Grid.Grid} {c : Grid.Coord} {cs : List Grid.Coord} {P : Grid.Coord → Prop}
    (ihs : (checkPositions g cs = .ok () ↔ ∀ c ∈ cs, P c) ∧
      (checkPositions g cs = .ok () ∨ checkPositions g cs = .err))
    (hP : P c → Grid.InBox g.NX g.NY g.NZ c ∧
      ∃ i, Grid.coordinate2index g c = .ok i ∧ Grid.index2coordinate g i = .ok c)
    (hN : ¬ P c → Grid.InBox g.NX g.NY g.NZ c →
      ∃ i c', Grid.coordinate2index g c = .ok i ∧
        (Grid.index2coordinate g i = .err ∨ Grid.index2coordinate g i = .ok c' ∧ c' ≠ c)) :
    (checkPositions g (c :: cs) = .ok () ↔ ∀ d ∈ c :: cs, P d) ∧
      (checkPositions g (c :: cs) = .ok () ∨ checkPositions g (c :: cs) = .err) := by
  unfold checkPositions
  by_cases hb : Grid.InBox g.NX g.NY g.NZ c
  · have hnot : ¬ (c.x ≥ g.NX ∨ c.x < 0 ∨ c.y ≥ g.NY ∨ c.y < 0 ∨ c.z ≥ g.NZ ∨ c.z < 0) := by
      unfold Grid.InBox at hb; omega
    rw [if_neg hnot]
    by_cases hp : P c
    · obtain ⟨_, i, h1, h2⟩ := hP hp
      rw [h1]
      simp only [Out.bind_ok, h2, ne_eq, not_true, if_false]
      refine ⟨?_, ihs.2⟩
      rw [ihs.1]
      simp [hp]
    · obtain ⟨i, c', h1, h2⟩ := hN hp hb
      rw [h1]
      rcases h2 with h2 | ⟨h2, h3⟩
      · simp [h2, hp]
      · simp [h2, hp, h3]
  · have hyes : (c.x ≥ g.NX ∨ c.x < 0 ∨ c.y ≥ g.NY ∨ c.y < 0 ∨ c.z ≥ g.NZ ∨ c.z < 0) := by
      unfold Grid.InBox at hb; omega
    rw [if_pos hyes]
    have : ¬ P c := fun h => hb (hP h).1
    simp [this]

/-- C55 on a regular grid: the position check passes exactly if all positions lie inside the
model; otherwise it raises an error. -/
theorem C55_regular {NX NY NZ : Int} {g : Grid.Grid} (h : Grid.initRegular NX NY NZ = .ok g)
    (cs : List Grid.Coord) :
    (checkPositions g cs = .ok () ↔ ∀ c ∈ cs, Grid.InBox NX NY NZ c) ∧
    (checkPositions g cs = .ok () ∨ checkPositions g cs = .err) := by
  have hg : g.NX = NX ∧ g.NY = NY ∧ g.NZ = NZ := by
    unfold Grid.initRegular at h
    split at h
    · injection h with h; subst h; exact ⟨rfl, rfl, rfl⟩
    · cases h
  obtain ⟨e1, e2, e3⟩ := hg
  induction cs with
  | nil => simp [checkPositions]
  | cons c cs ih =>
    refine check_cons ih (fun hp => ?_) (fun hp hb => ?_)
    · obtain ⟨i, h1, _, _, _, h2⟩ := Grid.C01_coordinate_roundtrip h hp
      exact ⟨by rw [e1, e2, e3]; exact hp, i, h1, h2⟩
    · rw [e1, e2, e3] at hb; exact absurd hb hp

/-- The positions of the grid points of a layered grid. -/
def OnGrid (g : Grid.Grid) (c : Grid.Coord) : Prop :=
  ∃ i, 0 ≤ i ∧ i < g.n ∧ Grid.index2coordinate g i = .ok c

private theorem snap_aux {NX NZ hi : Int} (c : Grid.Coord) (ls : List Grid.Layer) : ∀ (lo : Int),
    Grid.WF NX NZ hi lo ls → 0 ≤ c.x → 0 ≤ c.z → (∃ l ∈ ls, l.start ≤ c.y ∧ c.y ≤ l.stop) →
    ∃ c' : Grid.Coord, 0 ≤ c'.x ∧ c'.x ≤ c.x ∧ 0 ≤ c'.z ∧ c'.z ≤ c.z ∧ lo ≤ c'.y ∧ c'.y ≤ c.y ∧
      (∃ l ∈ ls, l.start ≤ c'.y ∧ c'.y ≤ l.stop ∧ l.dh ∣ c'.x ∧ l.dh ∣ c'.z ∧
        l.dh ∣ c'.y - l.start) ∧
      ∀ acc, Grid.lookup c'.x c'.y c'.z ls acc = Grid.lookup c.x c.y c.z ls acc := by
  induction ls with
  | nil => rintro lo _ _ _ ⟨l, hl, _⟩; simp at hl
  | cons m ls ih =>
    rintro lo ⟨hm, hlo, hhi, hrest⟩ hx hz ⟨l, hl, hy⟩
    by_cases hin : m.start ≤ c.y ∧ c.y ≤ m.stop
    · have hd := hm.dh_pos
      have key : ∀ a : Int, 0 ≤ a → 0 ≤ a / m.dh * m.dh ∧ a / m.dh * m.dh ≤ a ∧
          (a / m.dh * m.dh).tdiv m.dh = a.tdiv m.dh := by
        intro a ha
        have h0 : 0 ≤ a / m.dh := Int.ediv_nonneg ha (by omega)
        refine ⟨by positivity, Int.ediv_mul_le a (by omega), ?_⟩
        rw [Int.mul_tdiv_cancel _ (by omega), Int.tdiv_eq_ediv_of_nonneg ha]
      obtain ⟨x0, x1, x2⟩ := key c.x hx
      obtain ⟨z0, z1, z2⟩ := key c.z hz
      obtain ⟨y0, y1, y2⟩ := key (c.y - m.start) (by omega)
      refine ⟨⟨c.x / m.dh * m.dh, m.start + (c.y - m.start) / m.dh * m.dh, c.z / m.dh * m.dh⟩,
        x0, x1, z0, z1, by simp only; omega, by simp only; omega,
        ⟨m, List.mem_cons_self, by simp only; omega, by simp only; omega, Dvd.intro_left _ rfl,
          Dvd.intro_left _ rfl, ?_⟩, fun acc => ?_⟩
      · exact ⟨(c.y - m.start) / m.dh, by ring⟩
      · unfold Grid.lookup
        rw [if_pos (show _ ∧ _ from ⟨by simp only; omega, by simp only; omega⟩),
          if_pos (show c.y ≤ m.stop ∧ c.y ≥ m.start from ⟨hin.2, hin.1⟩)]
        simp only [add_sub_cancel_left, x2, y2, z2]
    · have hl' : l ∈ ls := by
        rcases List.mem_cons.mp hl with rfl | h
        · exact absurd hy hin
        · exact h
      obtain ⟨c', a1, a2, a3, a4, a5, a6, ⟨l', hl', b⟩, a7⟩ := ih _ hrest hx hz ⟨l, hl', hy⟩
      have := le_max_left lo (m.stop + 1)
      have := le_max_right lo (m.stop + 1)
      refine ⟨c', a1, a2, a3, a4, by omega, a6, ⟨l', List.mem_cons_of_mem _ hl', b⟩, fun acc => ?_⟩
      unfold Grid.lookup
      rw [if_neg (by omega), if_neg (by omega), a7]

private theorem snap {NX NY NZ : Int} {dhs ifs : List Int} {g : Grid.Grid}
    (h : Grid.initVar NX NY NZ dhs ifs = .ok g) (hr : Grid.Roomy NY dhs ifs) {c : Grid.Coord}
    (hb : Grid.InBox g.NX g.NY g.NZ c) (hl : ∃ l ∈ g.layers, l.start ≤ c.y ∧ c.y ≤ l.stop) :
    ∃ i c', Grid.coordinate2index g c = .ok i ∧ Grid.index2coordinate g i = .ok c' ∧
      0 ≤ i ∧ i < g.n := by
  obtain ⟨hw, _⟩ := Grid.initVar_wf h (hr.gaps (Grid.initVar_len h))
  obtain ⟨a0, a1, b0, b1, c0, c1⟩ := hb
  obtain ⟨c', x0, x1, z0, z1, y0, y1, hl', hlk⟩ := snap_aux c g.layers 0 hw a0 c0 hl
  obtain ⟨i, h0, hi, h1, h2⟩ := Grid.C03_coordinate_roundtrip h hr (c := c') ⟨x0, by omega⟩
    ⟨z0, by omega⟩ hl'
  refine ⟨i, c', ?_, h1, h0, hi⟩
  unfold Grid.coordinate2index at h2 ⊢
  rw [if_pos (by simp [Grid.inRange]; omega)] at h2 ⊢
  rw [← hlk, h2]

/-- C55 on a layered grid, for positions whose depth belongs to some layer: the check passes
exactly if every position is a grid point. Missing: positions with a depth between two layers,
where the lookup is undefined (C06). -/
theorem C55_variable_partial {NX NY NZ : Int} {dhs ifs : List Int} {g : Grid.Grid}
    (h : Grid.initVar NX NY NZ dhs ifs = .ok g) (hr : Grid.Roomy NY dhs ifs)
    (cs : List Grid.Coord)
    (hl : ∀ c ∈ cs, ∃ l ∈ g.layers, l.start ≤ c.y ∧ c.y ≤ l.stop) :
    (checkPositions g cs = .ok () ↔ ∀ c ∈ cs, OnGrid g c) ∧
    (checkPositions g cs = .ok () ∨ checkPositions g cs = .err) := by
  induction cs with
  | nil => simp [checkPositions]
  | cons c cs ih =>
    refine check_cons (ih fun d hd => hl d (List.mem_cons_of_mem _ hd)) ?_ ?_
    · rintro ⟨i, h0, h1, h2⟩
      obtain ⟨c', h3, h4⟩ := Grid.C03_index_roundtrip h hr h0 h1
      rw [h2] at h3; injection h3 with h3; subst h3
      have hb : Grid.InBox g.NX g.NY g.NZ c := by
        by_contra hb
        rw [(Grid.C02_out_of_range_rejected g c hb).1] at h4
        cases h4
      exact ⟨hb, i, h4, h2⟩
    · intro hp hb
      obtain ⟨i, c', h1, h2, h3, h4⟩ := snap h hr hb (hl c List.mem_cons_self)
      refine ⟨i, c', h1, .inr ⟨h2, fun e => hp ?_⟩⟩
      subst e
      exact ⟨i, h3, h4, h2⟩

/-- Case: on a grid with spacings 1 and 3 the position (3, 11, 0) is accepted and (4, 11, 0), which
lies between grid points of the coarse layer, is refused. -/
example : ∃ g, Grid.initVar 10 20 1 [1, 3] [8] = .ok g ∧ Grid.Roomy 20 [1, 3] [8] ∧
    checkPositions g [⟨1, 2, 0⟩, ⟨3, 11, 0⟩] = .ok () ∧
    checkPositions g [⟨1, 2, 0⟩, ⟨4, 11, 0⟩] = .err := by
  refine ⟨_, rfl, ⟨by decide, ?_⟩, by decide, by decide⟩
  intro k hk
  simp at hk
  subst hk
  decide

/-- C55 fails between layers: the check itself reads out of bounds. -/
theorem C55_between_layers_violated :
    ∃ g, Grid.initVarConfig 11 20 1 [1, 3, 1] [0, 5, 12] = .ok g ∧
      checkPositions g [⟨0, 6, 0⟩] = .ub :=
  ⟨_, rfl, by decide⟩

end Verif.Check
