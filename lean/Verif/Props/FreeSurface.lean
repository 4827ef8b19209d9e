import Verif.Props.Solver
import Verif.Lemmas.Visco
/-!
# C102: stresses at the free surface

At the points of the free surface the vertical stress is kept at zero. The horizontal stresses there
must follow from Hooke's law with the vertical strain that leaves the vertical stress unchanged.
-/
set_option linter.dupNamespace false
set_option linter.unusedSectionVars false

namespace Verif.Solver
open Matrix

variable {ι : Type} [Fintype ι]

/-- Derivative of a wavefield along an axis as the solver sees it: the matrix applied to the field,
plus the memory variable of the absorbing layer if there is one. -/
noncomputable def seen (c : BC ι) (s : State ι) (f : Fld) (a : Axis) (M : Matrix ι ι ℝ) (i : ι) : ℝ :=
  M.mulVec (s (.fld f)) i + if c.pml.isSome then s (.psi f a) i else 0

/-- The interpolation leaves the values at a point alone. -/
def Fixes (D : Option (Matrix ι ι ℝ)) (i : ι) : Prop := ∀ M, D = some M → ∀ v, M.mulVec v i = v i

private noncomputable def interpVal (D : Option (Matrix ι ι ℝ)) (v : ι → ℝ) : ι → ℝ :=
  match D with
  | none => v
  | some M => M.mulVec v

private theorem interpVal_fix {D : Option (Matrix ι ι ℝ)} {i : ι} (h : Fixes D i) (v : ι → ℝ) :
    interpVal D v i = v i := by
  rcases D with _ | M
  · rfl
  · exact h M rfl v

private theorem interp_fld (D : Option (Matrix ι ι ℝ)) (f g : Fld) (s : State ι) :
    exec (interp D f) s (.fld g) = if g = f then interpVal D (s (.fld f)) else s (.fld g) := by
  rcases D with _ | M
  · by_cases h : g = f <;> simp [interp, interpVal, h]
  · by_cases h : g = f <;> simp [interp, interpVal, h, Stmt.exec, State.set]

private theorem interp_psi (D : Option (Matrix ι ι ℝ)) (f g : Fld) (a : Axis) (s : State ι) :
    exec (interp D f) s (.psi g a) = s (.psi g a) := by
  rcases D with _ | M <;> simp [interp, Stmt.exec, State.set]

private theorem interp_scr (D : Option (Matrix ι ι ℝ)) (f : Fld) (x : Scr) (hx : x ≠ .updateTemp)
    (s : State ι) : exec (interp D f) s (.scr x) = s (.scr x) := by
  rcases D with _ | M <;> simp [interp, Stmt.exec, State.set, hx]

private theorem exec_split (l : List (List (Stmt ι))) (k : ℕ) (s : State ι) :
    exec l.flatten s = exec (l.drop k).flatten (exec (l.take k).flatten s) := by
  rw [← exec_append, ← List.flatten_append, List.take_append_drop]

set_option maxHeartbeats 4000000 in
/-- 2D elastic modelling: at a point of the free surface the horizontal stress grows by Hooke's law for
the horizontal strain of the step and the vertical strain for which the vertical stress does not
change. Holds with and without CPML, and on variable grids if the surface point is not interpolated. -/
theorem C102_elastic2D (D : Deriv ι) (m : Mod ι) (c : BC ι) (hfs : c.useFreeSurface = 1)
    (hd : c.damping = none) {i : ι} (hi : c.onSurface i = true) (hP : m.pMod i ≠ 0)
    (hI : Fixes D.interFull i) (s : State ι) :
    let s' := exec (elastic2D D m c) s
    let exx := seen c s' .vX .x D.Dxb i
    ∃ eyy, m.pMod i * (exx + eyy) - 2 * m.sMod i * exx = 0 ∧
      s' (.fld .Sxx) i = s (.fld .Sxx) i + (m.pMod i * (exx + eyy) - 2 * m.sMod i * eyy) := by
  intro s' exx
  refine ⟨-(m.pMod i - 2 * m.sMod i) / m.pMod i * exx, by field_simp; ring, ?_⟩
  have hI := interpVal_fix hI
  rcases hq : c.pml with _ | q
  all_goals
    simp only [s', exx, seen, elastic2D, cpmlHalf, cpmlFull, damp, hd, hq]
    rw [exec_split _ 12]
    simp only [List.take_succ_cons, List.take_zero, List.drop_succ_cons, List.drop_zero]
    generalize hs0 : exec (List.flatten _) s = s0
    have e1 : s0 (.fld .Sxx) = s (.fld .Sxx) := by
      rw [← hs0]; simp [interp_fld, Stmt.exec, State.set]
    rw [← e1]
    clear hs0 e1
    simp [ifFS, hfs, interp_fld, interp_psi, interp_scr, Stmt.exec, State.set, exchange2D,
      surfaceZero, scaleHor, scaleVert, BC.select, hi, hI, Boundary.applyCPML]
    field_simp
    ring

set_option maxHeartbeats 4000000 in
/-- 3D elastic modelling: both horizontal stresses follow Hooke's law with the vertical strain for which
the vertical stress does not change. -/
theorem C102_elastic3D (D : Deriv ι) (m : Mod ι) (c : BC ι) (hfs : c.useFreeSurface = 1)
    (hd : c.damping = none) {i : ι} (hi : c.onSurface i = true) (hP : m.pMod i ≠ 0)
    (hI : Fixes D.interFull i) (s : State ι) :
    let s' := exec (elastic3D D m c) s
    let exx := seen c s' .vX .x D.Dxb i
    let ezz := seen c s' .vZ .z D.Dzb i
    ∃ eyy, m.pMod i * (exx + eyy + ezz) - 2 * m.sMod i * (exx + ezz) = 0 ∧
      s' (.fld .Sxx) i = s (.fld .Sxx) i +
        (m.pMod i * (exx + eyy + ezz) - 2 * m.sMod i * (eyy + ezz)) ∧
      s' (.fld .Szz) i = s (.fld .Szz) i +
        (m.pMod i * (exx + eyy + ezz) - 2 * m.sMod i * (exx + eyy)) := by
  intro s' exx ezz
  refine ⟨-(m.pMod i - 2 * m.sMod i) / m.pMod i * (exx + ezz), by field_simp; ring, ?_⟩
  have hI := interpVal_fix hI
  rcases hq : c.pml with _ | q
  all_goals
    simp only [s', exx, ezz, seen, elastic3D, cpmlHalf, cpmlFull, damp, hd, hq]
    rw [exec_split _ 24]
    simp only [List.take_succ_cons, List.take_zero, List.drop_succ_cons, List.drop_zero]
    generalize hs0 : exec (List.flatten _) s = s0
    have e1 : s0 (.fld .Sxx) = s (.fld .Sxx) := by
      rw [← hs0]; simp [interp_fld, Stmt.exec, State.set]
    have e2 : s0 (.fld .Szz) = s (.fld .Szz) := by
      rw [← hs0]; simp [interp_fld, Stmt.exec, State.set]
    rw [← e1, ← e2]
    clear hs0 e1 e2
    constructor <;>
    · simp [ifFS, hfs, interp_fld, interp_psi, interp_scr, Stmt.exec, State.set, exchange3D,
        surfaceZero, scaleHor, scaleVert, BC.select, hi, hI, Boundary.applyCPML]
      field_simp
      ring

/-! ### Viscoelastic -/

private theorem loop1 (m : Mod ι) (c : BC ι) {fs : List Fld} (hfs : fs = [.Sxx] ∨ fs = [.Sxx, .Szz])
    (s : State ι) (n : ℕ) :
    let t := exec (forLoop n (fun l => fs.flatMap fun f =>
      [.wmul TMP c.select (.rel f l), .axpy (.fld f) (-m.DThalf) TMP])) s
    (∀ f ∈ fs, t (.fld f) = fun i => s (.fld f) i +
      ∑ l ∈ Finset.range n, -m.DThalf * (c.select i * s (.rel f l) i)) ∧
    ∀ v, v ≠ TMP → (∀ f ∈ fs, v ≠ .fld f) → t v = s v := by
  induction n with
  | zero => simp [forLoop]
  | succ n ih =>
    intro t
    obtain ⟨h1, h2⟩ := ih
    simp only [t, forLoop_succ, exec_append]
    generalize exec (forLoop n _) s = u at h1 h2 ⊢
    have hr : ∀ f, u (.rel f n) = s (.rel f n) := fun f => h2 _ (by simp) (by simp)
    constructor
    · intro f hf
      have := h1 f hf
      rcases hfs with rfl | rfl
      · simp only [List.mem_singleton] at hf
        subst hf
        funext i
        simp [Stmt.exec, State.set, this, hr, Finset.sum_range_succ]
        ring
      · simp only [List.mem_cons, List.not_mem_nil, or_false] at hf
        rcases hf with rfl | rfl <;>
        · funext i
          simp [Stmt.exec, State.set, this, hr, Finset.sum_range_succ]
          ring
    · intro v e1 e2
      rw [← h2 v e1 e2]
      rcases hfs with rfl | rfl <;> simp at e2 <;> simp [Stmt.exec, State.set, e1, e2]

private theorem loop2 (m : Mod ι) (c : BC ι) {fs : List Fld} (hfs : fs = [.Sxx] ∨ fs = [.Sxx, .Szz])
    (x : Scr) (hx : x ≠ .temp) (s : State ι) (n : ℕ) :
    let t := exec (forLoop n (fun l =>
      [.wmul TMP (scaleRelHor m c l) (.scr x)] ++ fs.map (fun f => .add (.rel f l) TMP) ++
      [.wmul TMP (scaleRelVert m c l) Vyy] ++ fs.map (fun f => .sub (.rel f l) TMP) ++
      fs.flatMap fun f => [.wmul TMP c.select (.rel f l), .axpy (.fld f) m.DThalf TMP])) s
    let r := fun f l i => s (.rel f l) i + scaleRelHor m c l i * s (.scr x) i -
      scaleRelVert m c l i * s Vyy i
    (∀ f ∈ fs, t (.fld f) = fun i => s (.fld f) i +
      ∑ l ∈ Finset.range n, m.DThalf * (c.select i * r f l i)) ∧
    (∀ f ∈ fs, ∀ l, t (.rel f l) = if l < n then r f l else s (.rel f l)) ∧
    ∀ v, v ≠ TMP → (∀ f ∈ fs, v ≠ .fld f) → (∀ f ∈ fs, ∀ l, v ≠ .rel f l) → t v = s v := by
  induction n with
  | zero => simp [forLoop]
  | succ n ih =>
    intro t r
    obtain ⟨h1, h2, h3⟩ := ih
    simp only [t, forLoop_succ, exec_append]
    generalize exec (forLoop n _) s = u at h1 h2 h3 ⊢
    have hr : ∀ f ∈ fs, u (.rel f n) = s (.rel f n) := fun f hf => by rw [h2 f hf, if_neg (by simp)]
    have hX : u (.scr x) = s (.scr x) := h3 _ (by simp [hx]) (by simp) (by simp)
    have hY : u Vyy = s Vyy := h3 _ (by simp) (by simp) (by simp)
    refine ⟨fun f hf => ?_, fun f hf l => ?_, fun v e1 e2 e3 => ?_⟩
    · have h1 := h1 f hf
      rcases hfs with rfl | rfl
      · simp only [List.mem_singleton] at hf
        subst hf
        have hr := hr .Sxx (by simp)
        funext i
        simp [Stmt.exec, State.set, h1, hr, hX, hY, Finset.sum_range_succ, r]
        ring
      · have hr1 := hr .Sxx (by simp)
        have hr2 := hr .Szz (by simp)
        simp only [List.mem_cons, List.not_mem_nil, or_false] at hf
        rcases hf with rfl | rfl <;>
        · funext i
          simp [Stmt.exec, State.set, h1, hr1, hr2, hX, hY, Finset.sum_range_succ, r]
          ring
    · have h2 := h2 f hf l
      by_cases hl : l = n
      · subst hl
        rw [if_pos (Nat.lt_succ_self _)]
        funext i
        rcases hfs with rfl | rfl
        · simp only [List.mem_singleton] at hf
          subst hf
          have hr := hr .Sxx (by simp)
          simp [Stmt.exec, State.set, hr, hX, hY, r]
        · have hr1 := hr .Sxx (by simp)
          have hr2 := hr .Szz (by simp)
          simp only [List.mem_cons, List.not_mem_nil, or_false] at hf
          rcases hf with rfl | rfl <;>
          simp [Stmt.exec, State.set, hr1, hr2, hX, hY, r]
      · have e : (l < n + 1) ↔ l < n := by omega
        simp only [e]
        rw [← h2]
        rcases hfs with rfl | rfl <;> simp [Stmt.exec, State.set, hl]
    · rw [← h3 v e1 e2 e3]
      rcases hfs with rfl | rfl <;> simp at e2 e3 <;> simp [Stmt.exec, State.set, e1, e2, e3]

/-- Effect of the free surface on the horizontal stresses. -/
private theorem exchangeVisco_exec (m : Mod ι) (c : BC ι) {fs : List Fld}
    (hfs : fs = [.Sxx] ∨ fs = [.Sxx, .Szz]) (x : Scr) (hx : x ≠ .temp) (s : State ι) :
    let t := exec (exchangeVisco m c fs (.scr x)) s
    let r := fun f l i => s (.rel f l) i + scaleRelHor m c l i * s (.scr x) i -
      scaleRelVert m c l i * s Vyy i
    (∀ f ∈ fs, t (.fld f) = fun i => s (.fld f) i + scaleStressHor m c i * s (.scr x) i -
      scaleStressVert m c i * s Vyy i +
      ∑ l ∈ Finset.range m.L, m.DThalf * (c.select i * (r f l i - s (.rel f l) i))) ∧
    (∀ f ∈ fs, ∀ l, l < m.L → t (.rel f l) = r f l) ∧
    ∀ v, v ≠ TMP → (∀ f ∈ fs, v ≠ .fld f) → (∀ f ∈ fs, ∀ l, v ≠ .rel f l) → t v = s v := by
  intro t r
  obtain ⟨a1, a2⟩ := loop1 m c hfs s m.L
  simp only [t, exchangeVisco, exec_append]
  generalize exec (forLoop m.L _) s = u at a1 a2 ⊢
  obtain ⟨w, hw⟩ : ∃ w, w = exec (fs.map (fun f => Stmt.sub (.fld f) TMP))
    (exec [.wmul TMP (scaleStressVert m c) Vyy] (exec (fs.map (fun f => Stmt.add (.fld f) TMP))
      (exec [.wmul TMP (scaleStressHor m c) (.scr x)] u))) := ⟨_, rfl⟩
  rw [← hw]
  have uX := a2 (.scr x) (by simp [hx]) (by simp)
  have uY := a2 Vyy (by simp) (by simp)
  have w1 : ∀ f ∈ fs, w (.fld f) = fun i => u (.fld f) i + scaleStressHor m c i * s (.scr x) i -
      scaleStressVert m c i * s Vyy i := by
    intro f hf
    rw [hw]
    rcases hfs with rfl | rfl
    · simp only [List.mem_singleton] at hf
      subst hf
      funext i
      simp [Stmt.exec, State.set, uX, uY]
    · simp only [List.mem_cons, List.not_mem_nil, or_false] at hf
      rcases hf with rfl | rfl <;>
      · funext i
        simp [Stmt.exec, State.set, uX, uY]
  have w2 : ∀ v, v ≠ TMP → (∀ f ∈ fs, v ≠ .fld f) → w v = s v := by
    intro v e1 e2
    rw [← a2 v e1 e2, hw]
    rcases hfs with rfl | rfl <;> simp at e2 <;> simp [Stmt.exec, State.set, e1, e2]
  obtain ⟨b1, b2, b3⟩ := loop2 m c hfs x hx w m.L
  generalize exec (forLoop m.L _) w = z at b1 b2 b3 ⊢
  have wX := w2 (.scr x) (by simp [hx]) (by simp)
  have wY := w2 Vyy (by simp) (by simp)
  have wr : ∀ f l, w (.rel f l) = s (.rel f l) := fun f l => w2 _ (by simp) (by simp)
  refine ⟨fun f hf => ?_, fun f hf l hl => ?_, fun v e1 e2 e3 => ?_⟩
  · rw [b1 f hf]
    funext i
    simp only [w1 f hf, a1 f hf, wX, wY, wr, r]
    have : ∑ l ∈ Finset.range m.L, m.DThalf * (c.select i * (s (.rel f l) i +
          scaleRelHor m c l i * s (.scr x) i - scaleRelVert m c l i * s Vyy i - s (.rel f l) i)) =
        ∑ l ∈ Finset.range m.L, -m.DThalf * (c.select i * s (.rel f l) i) +
        ∑ l ∈ Finset.range m.L, m.DThalf * (c.select i * (s (.rel f l) i +
          scaleRelHor m c l i * s (.scr x) i - scaleRelVert m c l i * s Vyy i)) := by
      rw [← Finset.sum_add_distrib]
      exact Finset.sum_congr rfl fun l _ => by ring
    rw [this]
    ring
  · rw [b2 f hf, if_pos hl]
    funext i
    simp only [wX, wY, wr, r]
  · rw [b3 v e1 e2 e3, w2 v e1 e2]

/-- One step of a relaxation wavefield with the stress increment `d`, trapezoidal in time:
`r' = -(r + d) / relaxTime`, where `d` is the increment of the relaxing stress per step. -/
def RelaxStep (m : Mod ι) (l : ℕ) (r r' d : ℝ) : Prop :=
  r' - r = -(m.DT / (2 * m.relaxTime l)) * (r + r') - d / m.relaxTime l

private theorem relaxStep_of (m : Mod ι) (l : ℕ) (hDT : 0 < m.DT) (hl : 0 < m.relaxTime l) (r d : ℝ) :
    RelaxStep m l r (m.relaxed l r d 1) d := by
  have h : (0 : ℝ) < 1 + m.DT / (2 * m.relaxTime l) := by positivity
  unfold RelaxStep Mod.relaxed Mod.vc1 Mod.vc2 Mod.invRelax
  field_simp
  ring

private theorem shear_frame (c : BC ι) (A B : Matrix ι ι ℝ) (f g : Fld) (a b : Axis) (w : ι → ℝ)
    {v : Var} (h1 : v ≠ U) (h2 : v ≠ UT) (h3 : v ≠ .psi f a) (h4 : v ≠ .psi g b) (s : State ι) :
    exec (List.flatten [[.mul U A (.fld f)], cpmlHalf c U f a, [.mul UT B (.fld g)],
      cpmlHalf c UT g b, [.add U UT, .scale U w]]) s v = s v := by
  rcases hp : c.pml with _ | k <;>
  simp [cpmlHalf, hp, Stmt.exec, State.set, h1, h2, h3, h4]

private theorem psi_normal (m : Mod ι) (f : Fld) (a : Axis) (fs : List Fld) (s : State ι) :
    exec (relaxNormal m fs) s (.psi f a) = s (.psi f a) := by
  apply exec_frame
  simp [relaxNormal, forLoop, Stmt.writes]
  aesop

private theorem psi_trans (m : Mod ι) (f : Fld) (a : Axis) (g : Fld) (s : State ι) :
    exec (relaxTrans m g) s (.psi f a) = s (.psi f a) := by
  apply exec_frame
  simp [relaxTrans, forLoop, Stmt.writes]
  aesop

/-- The exchange replaces the vertical strain rate `v` by the one that keeps the vertical stress. `h`
is the sum of the horizontal strain rates, `k` the horizontal one across the stress. -/
private theorem surface_stress (m : Mod ι) (c : BC ι) {i : ι} (hi : c.onSurface i = true)
    (hP : m.pMod i * (1 + m.L * m.tauP i) ≠ 0) (hDT : 0 < m.DT) (hR : ∀ l < m.L, 0 < m.relaxTime l)
    {r r1 r2 : ℕ → ℝ} {σ σ1 σ2 h v k : ℝ}
    (H1 : ∀ l < m.L, r1 l = m.relaxed l (r l)
      ((h + v) * m.pMod i * m.tauP i - (v + k) * m.sMod i * 2 * m.tauS i) 1)
    (H2 : ∀ l < m.L, r2 l = r1 l + scaleRelHor m c l i * h - scaleRelVert m c l i * v)
    (S1 : σ1 = σ + ∑ l ∈ Finset.range m.L, (m.DThalf * r l + m.DThalf * r1 l) +
      ((h + v) * m.pMod i * m.onePlusLtauP i - (v + k) * m.sMod i * 2 * m.onePlusLtauS i))
    (S2 : σ2 = σ1 + scaleStressHor m c i * h - scaleStressVert m c i * v +
      ∑ l ∈ Finset.range m.L, m.DThalf * (c.select i * (r2 l - r1 l))) :
    let P := m.pMod i * (1 + m.L * m.tauP i)
    let S := m.sMod i * (1 + m.L * m.tauS i)
    let e := -(P - 2 * S) / P * h
    (∀ l < m.L, RelaxStep m l (r l) (r2 l)
      (m.pMod i * m.tauP i * (h + e) - 2 * (m.sMod i * m.tauS i) * (e + k))) ∧
    σ2 = σ + (P * (h + e) - 2 * S * (e + k)) +
      m.DT / 2 * ∑ l ∈ Finset.range m.L, (r l + r2 l) := by
  intro P S e
  constructor
  · intro l hl
    have : r2 l = m.relaxed l (r l)
        (m.pMod i * m.tauP i * (h + e) - 2 * (m.sMod i * m.tauS i) * (e + k)) 1 := by
      rw [H2 l hl, H1 l hl]
      have e1 : 2 * m.sMod i * (1 + m.L * m.tauS i) / (m.pMod i * (1 + m.L * m.tauP i)) = 2 * S / P := by
        simp only [P, S]; ring
      simp only [scaleRelHor, scaleRelVert, Mod.relaxed, Mod.invRelax, BC.select, hi, if_true,
        Mod.onePlusLtauP, Mod.onePlusLtauS, e1, e]
      generalize S = S'
      have hP : P ≠ 0 := hP
      generalize P = P' at hP ⊢
      field_simp
      ring
    rw [this]
    exact relaxStep_of m l hDT (hR l hl) _ _
  · have hs : ∑ l ∈ Finset.range m.L, (m.DThalf * r l + m.DThalf * r1 l) +
        ∑ l ∈ Finset.range m.L, m.DThalf * (c.select i * (r2 l - r1 l)) =
        m.DT / 2 * ∑ l ∈ Finset.range m.L, (r l + r2 l) := by
      rw [← Finset.sum_add_distrib, Finset.mul_sum]
      refine Finset.sum_congr rfl fun l _ => ?_
      simp only [Mod.DThalf, BC.select, hi, if_true]
      ring
    rw [S2, S1, ← hs]
    have e1 : -2 * m.sMod i * (1 + m.L * m.tauS i) + m.pMod i * (1 + m.L * m.tauP i) = P - 2 * S := by
      simp only [P, S]; ring
    have e2 : m.pMod i * (1 + m.L * m.tauP i) = P := rfl
    have e3 : (h + v) * m.pMod i * (1 + m.L * m.tauP i) = (h + v) * P := by rw [← e2]; ring
    have e4 : (v + k) * m.sMod i * 2 * (1 + m.L * m.tauS i) = (v + k) * 2 * S := by
      simp only [S]; ring
    simp only [scaleStressHor, scaleStressVert, BC.select, hi, if_true, Mod.onePlusLtauP,
      Mod.onePlusLtauS, e2, e3, e4, e]
    have hP : P ≠ 0 := hP
    field_simp
    ring

set_option maxHeartbeats 4000000 in
/-- 2D viscoelastic modelling: as `C102_elastic2D` with the unrelaxed moduli; the relaxation wavefields
of the horizontal stress see the same vertical strain. -/
theorem C102_viscoelastic2D (D : Deriv ι) (m : Mod ι) (c : BC ι) (hfs : c.useFreeSurface = 1)
    (hd : c.damping = none) {i : ι} (hi : c.onSurface i = true) (hDT : 0 < m.DT)
    (hR : ∀ l < m.L, 0 < m.relaxTime l) (s : State ι) :
    let P := m.pMod i * (1 + m.L * m.tauP i)
    let S := m.sMod i * (1 + m.L * m.tauS i)
    P ≠ 0 →
    let s' := exec (viscoelastic2D D m c) s
    let exx := seen c s' .vX .x D.Dxb i
    ∃ eyy, P * (exx + eyy) - 2 * S * exx = 0 ∧
      (∀ l < m.L, RelaxStep m l (s (.rel .Sxx l) i) (s' (.rel .Sxx l) i)
        (m.pMod i * m.tauP i * (exx + eyy) - 2 * (m.sMod i * m.tauS i) * eyy)) ∧
      s' (.fld .Sxx) i = s (.fld .Sxx) i + (P * (exx + eyy) - 2 * S * eyy) +
        m.DT / 2 * ∑ l ∈ Finset.range m.L, (s (.rel .Sxx l) i + s' (.rel .Sxx l) i) := by
  intro P S hP s' exx
  have hs' : s' = exec (viscoelastic2D D m c) s := rfl
  have hx : exx = seen c s' .vX .x D.Dxb i := rfl
  clear_value exx s'
  -- the states between the parts of the program
  obtain ⟨q, hq⟩ : ∃ q, q = exec (List.flatten [[.mul Vxx D.Dxb (.fld .vX), .mul Vyy D.Dyb (.fld .vY)],
    cpmlFull c Vxx .vX .x, cpmlFull c Vyy .vY .y,
    [.copy U Vxx, .add U Vyy, .scale U m.pMod]]) (exec (List.flatten [
      [.mul U D.Dxf (.fld .Sxx)], cpmlHalf c U .Sxx .x,
      [.mul UT D.DybFS (.fld .Sxy)], cpmlFull c UT .Sxy .y,
      [.add U UT, .scale U m.invRhoX, .add (.fld .vX) U],
      [.mul U D.Dxb (.fld .Sxy)], cpmlFull c U .Sxy .x,
      [.mul UT D.DyfFS (.fld .Syy)], cpmlHalf c UT .Syy .y,
      [.add U UT, .scale U m.invRhoY, .add (.fld .vY) U]]) s) := ⟨_, rfl⟩
  obtain ⟨t, ht⟩ : ∃ t, t = exec (relaxNormal m (List.map Prod.fst
      [((Fld.Sxx, .copy U Vyy) : Fld × Stmt ι), (.Syy, .copy U Vxx)]) ++
      List.flatMap (fun p => p.2 :: relaxTrans m p.1)
        [((Fld.Sxx, .copy U Vyy) : Fld × Stmt ι), (.Syy, .copy U Vxx)]) q := ⟨_, rfl⟩
  obtain ⟨u, hu⟩ : ∃ u, u = exec (relaxShear m .Sxy m.tauSXY) (exec (List.flatten
    [[.mul U D.Dyf (.fld .vX)], cpmlHalf c U .vX .y,
     [.mul UT D.Dxf (.fld .vY)], cpmlHalf c UT .vY .x,
     [.add U UT, .scale U m.sModXY]]) t) := ⟨_, rfl⟩
  obtain ⟨w, hw⟩ : ∃ w, w = exec (exchangeVisco m c [.Sxx] Vxx) u := ⟨_, rfl⟩
  have e : s' = exec (forLoop m.L (fun l => surfaceZero c (.rel .Syy l)))
      (exec (surfaceZero c (.fld .Syy)) w) := by
    simp only [hs', viscoelastic2D, damp, hd, selFS, hfs, hw, hu, ht, hq, if_true, ne_eq, one_ne_zero,
      not_false_eq_true]
    simp
  -- what the parts do
  have q1 : q (.fld .Sxx) = s (.fld .Sxx) ∧ (∀ l, q (.rel .Sxx l) = s (.rel .Sxx l)) ∧
      (∀ i, q U i = (q Vxx i + q Vyy i) * m.pMod i) ∧ (∀ i, q Vxx i = seen c q .vX .x D.Dxb i) := by
    rw [hq]
    rcases hp : c.pml with _ | k <;>
    simp [cpmlFull, cpmlHalf, hp, Stmt.exec, State.set, seen, Boundary.applyCPML]
  obtain ⟨a1, a2, a3⟩ := normal_exec m (fun f => if f = .Sxx then q Vyy else q Vxx)
    [((Fld.Sxx, .copy U Vyy) : Fld × Stmt ι), (.Syy, .copy U Vxx)] (by simp) q (by
      intro p hp t ht
      simp only [List.mem_cons, List.not_mem_nil, or_false] at hp
      rcases hp with rfl | rfl
      · simp only [Stmt.exec, if_true]
        rw [ht .vyy (by simp) (by simp)]
      · simp only [Stmt.exec]
        rw [ht .vxx (by simp) (by simp)]
        simp)
  have a4 : t (.psi .vX .x) = q (.psi .vX .x) := by
    rw [ht]
    simp [psi_normal, psi_trans, Stmt.exec, State.set]
  rw [← ht] at a1 a2 a3
  obtain ⟨-, -, b3⟩ := relaxShear_exec m .Sxy m.tauSXY (exec (List.flatten
    [[.mul U D.Dyf (.fld .vX)], cpmlHalf c U .vX .y,
     [.mul UT D.Dxf (.fld .vY)], cpmlHalf c UT .vY .x,
     [.add U UT, .scale U m.sModXY]]) t)
  rw [← hu] at b3
  have u0 : u (.fld .vX) = t (.fld .vX) ∧ u (.fld .Sxx) = t (.fld .Sxx) ∧ u Vxx = t Vxx ∧
      u Vyy = t Vyy ∧ u (.psi .vX .x) = t (.psi .vX .x) ∧ ∀ l, u (.rel .Sxx l) = t (.rel .Sxx l) := by
    refine ⟨?_, ?_, ?_, ?_, ?_, fun l => ?_⟩ <;>
    · rw [b3 _ (by simp) (by simp) (by simp) (by simp)]
      rw [shear_frame _ _ _ _ _ _ _ _ (by simp) (by simp) (by simp) (by simp)]
  obtain ⟨c1, c2, c3⟩ := exchangeVisco_exec m c (.inl rfl) .vxx (by simp) u
  rw [← hw] at c1 c2 c3
  have f : ∀ v, v ≠ .fld .Syy → (∀ l, v ≠ .rel .Syy l) → s' v = w v := by
    intro v h1 h2
    rw [e, exec_frame (v := v), exec_frame (v := v)]
    · simp [surfaceZero, Stmt.writes, h1]
    · intro st hst
      simp only [surfaceZero, forLoop, List.mem_flatMap, List.mem_singleton] at hst
      obtain ⟨l, -, rfl⟩ := hst
      simp [Stmt.writes, h2]
  have wvX : s' (.fld .vX) = q (.fld .vX) := by
    rw [f _ (by simp) (by simp), c3 _ (by simp) (by simp) (by simp), u0.1, a1, if_neg (by simp)]
  have wpsi : s' (.psi .vX .x) = q (.psi .vX .x) := by
    rw [f _ (by simp) (by simp), c3 _ (by simp) (by simp) (by simp), u0.2.2.2.2.1, a4]
  have hexx : exx = q Vxx i := by
    rw [q1.2.2.2]
    simp only [hx, seen, wvX, wpsi]
  have uxx : u Vxx = q Vxx := by rw [u0.2.2.1, a3 _ (by simp) (by simp)]
  have uyy : u Vyy = q Vyy := by rw [u0.2.2.2.1, a3 _ (by simp) (by simp)]
  have := surface_stress m c hi hP hDT hR (r := fun l => s (.rel .Sxx l) i)
    (r1 := fun l => u (.rel .Sxx l) i) (r2 := fun l => s' (.rel .Sxx l) i) (σ := s (.fld .Sxx) i)
    (σ1 := u (.fld .Sxx) i) (σ2 := s' (.fld .Sxx) i) (h := q Vxx i) (v := q Vyy i) (k := 0)
    (by
      intro l hl
      simp only [u0.2.2.2.2.2, a2 _ l hl]
      rw [if_pos (by simp)]
      simp only [q1.2.1, q1.2.2.1, if_true, add_zero])
    (by
      intro l hl
      simp only [f (.rel .Sxx l) (by simp) (by simp), c2 _ (List.mem_singleton.mpr rfl) l hl, uxx, uyy])
    (by
      simp only [u0.2.1, a1]
      rw [if_pos (by simp)]
      simp only [if_true, q1.1, q1.2.2.1, add_zero]
      congr 2
      refine Finset.sum_congr rfl fun l hl => ?_
      rw [u0.2.2.2.2.2, a2 _ l (Finset.mem_range.mp hl), if_pos (by simp), q1.2.1]
      simp only [if_true, q1.2.2.1])
    (by
      rw [f _ (by simp) (by simp), c1 _ (by simp)]
      simp only [uxx, uyy]
      congr 1
      refine Finset.sum_congr rfl fun l hl => ?_
      rw [f _ (by simp) (by simp), c2 _ (List.mem_singleton.mpr rfl) l (Finset.mem_range.mp hl)]
      simp only [uxx, uyy])
  rw [← hexx] at this
  simp only [add_zero] at this
  exact ⟨-(P - 2 * S) / P * exx, by field_simp; ring, this.1, this.2⟩

set_option maxHeartbeats 4000000 in
/-- 3D viscoelastic modelling: as `C102_elastic3D` with the unrelaxed moduli; the relaxation wavefields
of the horizontal stresses see the same vertical strain. -/
theorem C102_viscoelastic3D (D : Deriv ι) (m : Mod ι) (c : BC ι) (hfs : c.useFreeSurface = 1)
    (hd : c.damping = none) {i : ι} (hi : c.onSurface i = true) (hDT : 0 < m.DT)
    (hR : ∀ l < m.L, 0 < m.relaxTime l) (s : State ι) :
    let P := m.pMod i * (1 + m.L * m.tauP i)
    let S := m.sMod i * (1 + m.L * m.tauS i)
    P ≠ 0 →
    let s' := exec (viscoelastic3D D m c) s
    let exx := seen c s' .vX .x D.Dxb i
    let ezz := seen c s' .vZ .z D.Dzb i
    ∃ eyy, P * (exx + eyy + ezz) - 2 * S * (exx + ezz) = 0 ∧
      (∀ l < m.L, RelaxStep m l (s (.rel .Sxx l) i) (s' (.rel .Sxx l) i)
        (m.pMod i * m.tauP i * (exx + eyy + ezz) - 2 * (m.sMod i * m.tauS i) * (eyy + ezz))) ∧
      (∀ l < m.L, RelaxStep m l (s (.rel .Szz l) i) (s' (.rel .Szz l) i)
        (m.pMod i * m.tauP i * (exx + eyy + ezz) - 2 * (m.sMod i * m.tauS i) * (exx + eyy))) ∧
      s' (.fld .Sxx) i = s (.fld .Sxx) i + (P * (exx + eyy + ezz) - 2 * S * (eyy + ezz)) +
        m.DT / 2 * ∑ l ∈ Finset.range m.L, (s (.rel .Sxx l) i + s' (.rel .Sxx l) i) ∧
      s' (.fld .Szz) i = s (.fld .Szz) i + (P * (exx + eyy + ezz) - 2 * S * (exx + eyy)) +
        m.DT / 2 * ∑ l ∈ Finset.range m.L, (s (.rel .Szz l) i + s' (.rel .Szz l) i) := by
  intro P S hP s' exx ezz
  have hs' : s' = exec (viscoelastic3D D m c) s := rfl
  have hx : exx = seen c s' .vX .x D.Dxb i := rfl
  have hz : ezz = seen c s' .vZ .z D.Dzb i := rfl
  clear_value exx ezz s'
  -- the states between the parts of the program
  obtain ⟨q, hq⟩ : ∃ q, q = exec (List.flatten [
    [.mul Vxx D.Dxb (.fld .vX), .mul Vyy D.Dyb (.fld .vY), .mul Vzz D.Dzb (.fld .vZ)],
    cpmlFull c Vxx .vX .x, cpmlFull c Vyy .vY .y, cpmlFull c Vzz .vZ .z,
    [.copy U Vxx, .add U Vyy, .add U Vzz, .scale U m.pMod]]) (exec (List.flatten [
      [.mul U D.Dxf (.fld .Sxx)], cpmlHalf c U .Sxx .x,
      [.mul UT D.DybFS (.fld .Sxy)], cpmlFull c UT .Sxy .y,
      [.add U UT, .mul UT D.Dzb (.fld .Sxz)], cpmlFull c UT .Sxz .z,
      [.add U UT, .scale U m.invRhoX, .add (.fld .vX) U],
      [.mul U D.Dxb (.fld .Sxy)], cpmlFull c U .Sxy .x,
      [.mul UT D.DyfFS (.fld .Syy)], cpmlHalf c UT .Syy .y,
      [.add U UT, .mul UT D.Dzb (.fld .Syz)], cpmlFull c UT .Syz .z,
      [.add U UT, .scale U m.invRhoY, .add (.fld .vY) U],
      [.mul U D.Dxb (.fld .Sxz)], cpmlFull c U .Sxz .x,
      [.mul UT D.DybFS (.fld .Syz)], cpmlFull c UT .Syz .y,
      [.add U UT, .mul UT D.Dzf (.fld .Szz)], cpmlHalf c UT .Szz .z,
      [.add U UT, .scale U m.invRhoZ, .add (.fld .vZ) U]]) s) := ⟨_, rfl⟩
  obtain ⟨t, ht⟩ : ∃ t, t = exec (relaxNormal m (List.map Prod.fst
      [((Fld.Sxx, .sum U Vyy Vzz) : Fld × Stmt ι), (.Syy, .sum U Vxx Vzz), (.Szz, .sum U Vxx Vyy)]) ++
      List.flatMap (fun p => p.2 :: relaxTrans m p.1)
        [((Fld.Sxx, .sum U Vyy Vzz) : Fld × Stmt ι), (.Syy, .sum U Vxx Vzz), (.Szz, .sum U Vxx Vyy)])
      q := ⟨_, rfl⟩
  obtain ⟨t1, ht1⟩ : ∃ t1, t1 = exec (relaxShear m .Sxy m.tauSXY) (exec (List.flatten
    [[.mul U D.Dyf (.fld .vX)], cpmlHalf c U .vX .y,
     [.mul UT D.Dxf (.fld .vY)], cpmlHalf c UT .vY .x,
     [.add U UT, .scale U m.sModXY]]) t) := ⟨_, rfl⟩
  obtain ⟨t2, ht2⟩ : ∃ t2, t2 = exec (relaxShear m .Sxz m.tauSXZ) (exec (List.flatten
    [[.mul U D.Dzf (.fld .vX)], cpmlHalf c U .vX .z,
     [.mul UT D.Dxf (.fld .vZ)], cpmlHalf c UT .vZ .x,
     [.add U UT, .scale U m.sModXZ]]) t1) := ⟨_, rfl⟩
  obtain ⟨t3, ht3⟩ : ∃ t3, t3 = exec (relaxShear m .Syz m.tauSYZ) (exec (List.flatten
    [[.mul U D.Dzf (.fld .vY)], cpmlHalf c U .vY .z,
     [.mul UT D.Dyf (.fld .vZ)], cpmlHalf c UT .vZ .y,
     [.add U UT, .scale U m.sModYZ]]) t2) := ⟨_, rfl⟩
  obtain ⟨u, hu⟩ : ∃ u, u = exec [.sum U Vxx Vzz] t3 := ⟨_, rfl⟩
  obtain ⟨w, hw⟩ : ∃ w, w = exec (exchangeVisco m c [.Sxx, .Szz] U) u := ⟨_, rfl⟩
  have e : s' = exec (forLoop m.L (fun l => surfaceZero c (.rel .Syy l)))
      (exec (surfaceZero c (.fld .Syy)) w) := by
    simp only [hs', viscoelastic3D, damp, hd, selFS, ifFS, hfs, hw, hu, ht3, ht2, ht1, ht, hq, if_true]
    simp
  -- what the parts do
  have q1 : (∀ g, g ≠ .vX → g ≠ .vY → g ≠ .vZ → q (.fld g) = s (.fld g)) ∧
      (∀ g l, q (.rel g l) = s (.rel g l)) := by
    rw [hq]
    rcases hp : c.pml with _ | k <;> refine ⟨fun g h1 h2 h3 => ?_, fun g l => ?_⟩ <;>
    · apply Eq.trans (exec_frame _ _ ?_) (exec_frame _ _ ?_) <;>
      simp [cpmlFull, cpmlHalf, Stmt.writes, *]
  have q2 : (∀ i, q Vxx i = seen c q .vX .x D.Dxb i) ∧ (∀ i, q Vzz i = seen c q .vZ .z D.Dzb i) ∧
      (∀ i, q U i = (q Vxx i + q Vyy i + q Vzz i) * m.pMod i) := by
    rw [hq]
    generalize exec (List.flatten _) s = s0
    rcases hp : c.pml with _ | k <;>
    simp [cpmlFull, hp, Stmt.exec, State.set, seen, Boundary.applyCPML]
  obtain ⟨a1, a2, a3⟩ := normal_exec m (fun f => if f = .Sxx then fun i => q Vyy i + q Vzz i
      else if f = .Syy then fun i => q Vxx i + q Vzz i else fun i => q Vxx i + q Vyy i)
    [((Fld.Sxx, .sum U Vyy Vzz) : Fld × Stmt ι), (.Syy, .sum U Vxx Vzz), (.Szz, .sum U Vxx Vyy)]
    (by simp) q (by
      intro p hp t ht
      have hx := ht .vxx (by simp) (by simp)
      have hy := ht .vyy (by simp) (by simp)
      have hz := ht .vzz (by simp) (by simp)
      simp only [List.mem_cons, List.not_mem_nil, or_false] at hp
      rcases hp with rfl | rfl | rfl <;> simp [Stmt.exec, hx, hy, hz])
  have a4 : ∀ g a, t (.psi g a) = q (.psi g a) := by
    intro g a
    rw [ht]
    simp [psi_normal, psi_trans, Stmt.exec, State.set]
  rw [← ht] at a1 a2 a3
  have hsh : ∀ v, (v = .fld .vX ∨ v = .fld .vZ ∨ v = .fld .Sxx ∨ v = .fld .Szz ∨ v = Vxx ∨ v = Vyy ∨
      v = Vzz ∨ v = .psi .vX .x ∨ v = .psi .vZ .z ∨ (∃ l, v = .rel .Sxx l) ∨ ∃ l, v = .rel .Szz l) →
      u v = t v := by
    have b1 := (relaxShear_exec m .Sxy m.tauSXY (exec (List.flatten
      [[.mul U D.Dyf (.fld .vX)], cpmlHalf c U .vX .y,
       [.mul UT D.Dxf (.fld .vY)], cpmlHalf c UT .vY .x,
       [.add U UT, .scale U m.sModXY]]) t)).2.2
    have b2 := (relaxShear_exec m .Sxz m.tauSXZ (exec (List.flatten
      [[.mul U D.Dzf (.fld .vX)], cpmlHalf c U .vX .z,
       [.mul UT D.Dxf (.fld .vZ)], cpmlHalf c UT .vZ .x,
       [.add U UT, .scale U m.sModXZ]]) t1)).2.2
    have b3 := (relaxShear_exec m .Syz m.tauSYZ (exec (List.flatten
      [[.mul U D.Dzf (.fld .vY)], cpmlHalf c U .vY .z,
       [.mul UT D.Dyf (.fld .vZ)], cpmlHalf c UT .vZ .y,
       [.add U UT, .scale U m.sModYZ]]) t2)).2.2
    rw [← ht1] at b1
    rw [← ht2] at b2
    rw [← ht3] at b3
    intro v hv
    have hvU : v ≠ U := by
      rcases hv with rfl | rfl | rfl | rfl | rfl | rfl | rfl | rfl | rfl | ⟨l, rfl⟩ | ⟨l, rfl⟩ <;> simp
    have eu : u v = t3 v := by
      rw [hu]; simp [Stmt.exec, State.set, hvU]
    rw [eu]
    rcases hv with rfl | rfl | rfl | rfl | rfl | rfl | rfl | rfl | rfl | ⟨l, rfl⟩ | ⟨l, rfl⟩ <;>
    · rw [b3 _ (by simp) (by simp) (by simp) (by simp)]
      rw [shear_frame _ _ _ _ _ _ _ _ (by simp) (by simp) (by simp) (by simp)]
      rw [b2 _ (by simp) (by simp) (by simp) (by simp)]
      rw [shear_frame _ _ _ _ _ _ _ _ (by simp) (by simp) (by simp) (by simp)]
      rw [b1 _ (by simp) (by simp) (by simp) (by simp)]
      rw [shear_frame _ _ _ _ _ _ _ _ (by simp) (by simp) (by simp) (by simp)]
  obtain ⟨c1, c2, c3⟩ := exchangeVisco_exec m c (.inr rfl) .update (by simp) u
  rw [← hw] at c1 c2 c3
  have f : ∀ v, v ≠ .fld .Syy → (∀ l, v ≠ .rel .Syy l) → s' v = w v := by
    intro v h1 h2
    rw [e, exec_frame (v := v), exec_frame (v := v)]
    · simp [surfaceZero, Stmt.writes, h1]
    · intro st hst
      simp only [surfaceZero, forLoop, List.mem_flatMap, List.mem_singleton] at hst
      obtain ⟨l, -, rfl⟩ := hst
      simp [Stmt.writes, h2]
  have uxx : u Vxx = q Vxx := by rw [hsh _ (by simp), a3 _ (by simp) (by simp)]
  have uyy : u Vyy = q Vyy := by rw [hsh _ (by simp), a3 _ (by simp) (by simp)]
  have uzz : u Vzz = q Vzz := by rw [hsh _ (by simp), a3 _ (by simp) (by simp)]
  have uU : u U = fun i => q Vxx i + q Vzz i := by
    rw [← uxx, ← uzz, hu]
    simp [Stmt.exec, State.set]
  have hexx : exx = q Vxx i := by
    rw [q2.1]
    have h1 : s' (.fld .vX) = q (.fld .vX) := by
      rw [f _ (by simp) (by simp), c3 _ (by simp) (by simp) (by simp), hsh _ (by simp), a1,
        if_neg (by simp)]
    have h2 : s' (.psi .vX .x) = q (.psi .vX .x) := by
      rw [f _ (by simp) (by simp), c3 _ (by simp) (by simp) (by simp), hsh _ (by simp), a4]
    simp only [hx, seen, h1, h2]
  have hezz : ezz = q Vzz i := by
    rw [q2.2.1]
    have h1 : s' (.fld .vZ) = q (.fld .vZ) := by
      rw [f _ (by simp) (by simp), c3 _ (by simp) (by simp) (by simp), hsh _ (by simp), a1,
        if_neg (by simp)]
    have h2 : s' (.psi .vZ .z) = q (.psi .vZ .z) := by
      rw [f _ (by simp) (by simp), c3 _ (by simp) (by simp) (by simp), hsh _ (by simp), a4]
    simp only [hz, seen, h1, h2]
  have key : ∀ g : Fld, g = .Sxx ∨ g = .Szz → ∀ k, k = (if g = .Sxx then q Vzz i else q Vxx i) → _ :=
    fun g hg k hk => surface_stress m c hi hP hDT hR (r := fun l => s (.rel g l) i)
    (r1 := fun l => u (.rel g l) i) (r2 := fun l => s' (.rel g l) i) (σ := s (.fld g) i)
    (σ1 := u (.fld g) i) (σ2 := s' (.fld g) i) (h := q Vxx i + q Vzz i) (v := q Vyy i) (k := k)
    (by
      intro l hl
      have hu : u (.rel g l) = t (.rel g l) := hsh _ (by rcases hg with rfl | rfl <;> simp)
      simp only [hu, a2 _ l hl]
      rw [if_pos (by rcases hg with rfl | rfl <;> simp)]
      simp only [q1.2, q2.2.2]
      rcases hg with rfl | rfl <;> simp [hk] <;> congr 1 <;> ring)
    (by
      intro l hl
      have hgl : s' (.rel g l) = w (.rel g l) := f _ (by simp) (by rcases hg with rfl | rfl <;> simp)
      simp only [hgl, c2 g (by rcases hg with rfl | rfl <;> simp) l hl, uU, uyy])
    (by
      have hu : u (.fld g) = t (.fld g) := hsh _ (by rcases hg with rfl | rfl <;> simp)
      have hs : q (.fld g) = s (.fld g) := by rcases hg with rfl | rfl <;> exact q1.1 _ (by simp) (by simp) (by simp)
      simp only [hu, a1]
      rw [if_pos (by rcases hg with rfl | rfl <;> simp)]
      simp only [hs, q2.2.2]
      have : ∀ l ∈ Finset.range m.L, u (.rel g l) i = m.relaxed l (q (.rel g l) i)
        ((q Vxx i + q Vyy i + q Vzz i) * m.pMod i * m.tauP i - (if g = .Sxx then fun i => q Vyy i + q Vzz i
          else if g = .Syy then fun i => q Vxx i + q Vzz i else fun i => q Vxx i + q Vyy i) i * m.sMod i * 2 * m.tauS i) 1 := by
        intro l hl
        have hu : u (.rel g l) = t (.rel g l) := hsh _ (by rcases hg with rfl | rfl <;> simp)
        rw [hu, a2 _ l (Finset.mem_range.mp hl), if_pos (by rcases hg with rfl | rfl <;> simp)]
        simp only [q2.2.2]
      rw [Finset.sum_congr rfl fun l hl => by rw [← this l hl, q1.2]]
      rcases hg with rfl | rfl <;> simp only [hk, if_true, reduceCtorEq, if_false] <;> ring)
    (by
      have hgl : s' (.fld g) = w (.fld g) := f _ (by rcases hg with rfl | rfl <;> simp) (by simp)
      rw [hgl, c1 _ (by rcases hg with rfl | rfl <;> simp)]
      simp only [uU, uyy]
      congr 1
      refine Finset.sum_congr rfl fun l hl => ?_
      have hgl : s' (.rel g l) = w (.rel g l) := f _ (by simp) (by rcases hg with rfl | rfl <;> simp)
      rw [hgl, c2 g (by rcases hg with rfl | rfl <;> simp) l (Finset.mem_range.mp hl)]
      simp only [uU, uyy])
  have kx := key .Sxx (.inl rfl) ezz (by simp [hezz])
  have kz := key .Szz (.inr rfl) exx (by simp [hexx])
  rw [← hexx, ← hezz] at kx kz
  have ex : ∀ a b d : ℝ, a + b + d = a + d + b := fun a b d => by ring
  refine ⟨-(P - 2 * S) / P * (exx + ezz), by field_simp; ring, ?_⟩
  rw [ex exx]
  rw [add_comm exx (-(P - 2 * S) / P * (exx + ezz))]
  exact ⟨kx.1, kz.1, kx.2, kz.2⟩

/-- Example: a surface point with CPML, one relaxation mechanism and nonzero moduli. -/
example : exBC.useFreeSurface = 1 ∧ exBC.damping = none ∧ exBC.onSurface 0 = true ∧ exBC.pml.isSome ∧
    exM.pMod 0 ≠ 0 ∧ Fixes exD.interFull 0 ∧ 0 < exM.DT ∧ (∀ l < exM.L, 0 < exM.relaxTime l) ∧
    0 < exM.L ∧ exM.pMod 0 * (1 + exM.L * exM.tauP 0) ≠ 0 := by
  simp [exBC, exM, exD, Fixes]

/-- With a damping boundary the wavefields after a step are those of the step without it, times the
damping factors. -/
theorem C102_damped (D : Deriv ι) (m : Mod ι) (c : BC ι) (w : ι → ℝ) {prog : BC ι → List (Stmt ι)}
    {fs : List Fld}
    (hp : prog = elastic2D D m ∧ fs = [.Sxx, .Syy, .Sxy, .vX, .vY] ∨
      prog = elastic3D D m ∧ fs = [.Sxx, .Syy, .Szz, .Sxy, .Sxz, .Syz, .vX, .vY, .vZ] ∨
      prog = viscoelastic2D D m ∧ fs = [.Sxx, .Syy, .Sxy, .vX, .vY] ∨
      prog = viscoelastic3D D m ∧ fs = [.Sxx, .Syy, .Szz, .Sxy, .Sxz, .Syz, .vX, .vY, .vZ])
    {f : Fld} (hf : f ∈ fs) (s : State ι) (i : ι) :
    exec (prog { c with damping := some w }) s (.fld f) i =
      exec (prog { c with damping := none }) s (.fld f) i * w i := by
  have h : exec (prog { c with damping := some w }) s =
      exec (fs.map fun f => .scale (.fld f) w) (exec (prog { c with damping := none }) s) := by
    rcases hp with ⟨rfl, rfl⟩ | ⟨rfl, rfl⟩ | ⟨rfl, rfl⟩ | ⟨rfl, rfl⟩
    · simp only [elastic2D, List.flatten_cons, List.flatten_nil, exec_append]; rfl
    · simp only [elastic3D, List.flatten_cons, List.flatten_nil, exec_append]; rfl
    · simp only [viscoelastic2D, List.flatten_cons, List.flatten_nil, exec_append]; rfl
    · have e1 : ∀ gs v, exchangeVisco m { c with damping := some w } gs v =
          exchangeVisco m { c with damping := none } gs v := fun _ _ => rfl
      have e2 : ∀ v, surfaceZero { c with damping := some w } v =
          surfaceZero { c with damping := none } v := fun _ => rfl
      simp only [viscoelastic3D, cpmlHalf, cpmlFull, selFS, ifFS, e1, e2, damp, List.flatten_cons,
        List.flatten_nil, exec_append, exec_nil]
  rw [h]
  generalize exec (prog { c with damping := none }) s = t
  clear h
  rcases hp with ⟨rfl, rfl⟩ | ⟨rfl, rfl⟩ | ⟨rfl, rfl⟩ | ⟨rfl, rfl⟩ <;>
    simp only [List.mem_cons, List.not_mem_nil, or_false] at hf <;>
    rcases hf with rfl | rfl | rfl | rfl | rfl | rfl | rfl | rfl | rfl <;>
    simp [Stmt.exec, State.set]

end Verif.Solver
