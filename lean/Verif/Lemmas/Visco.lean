import Verif.Lemmas.Energy
/-! The plain time steps of the seismic solvers with attenuation. -/
set_option linter.dupNamespace false
set_option linter.unusedSectionVars false

namespace Verif.Solver
open Matrix

variable {ι : Type} [Fintype ι]

/-- New value of a relaxation wavefield `r` for the strain increment `d` and the modulus `k`. -/
noncomputable def Mod.relaxed (m : Mod ι) (l : ℕ) (r d k : ℝ) : ℝ :=
  (r * m.vc1 l - m.invRelax l * d * k) * m.vc2 l

theorem forLoop_succ (n : ℕ) (body : ℕ → List (Stmt ι)) :
    forLoop (n + 1) body = forLoop n body ++ body n := by
  unfold forLoop
  rw [List.range_succ, List.flatMap_append]
  simp

private theorem fld_ne_rel (f g : Fld) (l : ℕ) : Var.fld f ≠ .rel g l := by simp

private theorem shearLoop (m : Mod ι) (f : Fld) (tau : ι → ℝ) (s : State ι) (n : ℕ) :
    let t := exec (forLoop n (fun l =>
      [.axpy (.fld f) m.DThalf (.rel f l), .smul (.rel f l) (m.vc1 l),
       .cmul U2 (m.invRelax l) U, .scale U2 tau, .sub (.rel f l) U2,
       .smul (.rel f l) (m.vc2 l), .axpy (.fld f) m.DThalf (.rel f l)])) s
    (t (.fld f) = fun i => s (.fld f) i + ∑ l ∈ Finset.range n, (m.DThalf * s (.rel f l) i +
      m.DThalf * m.relaxed l (s (.rel f l) i) (s U i) (tau i))) ∧
    (∀ l, t (.rel f l) = if l < n then fun i => m.relaxed l (s (.rel f l) i) (s U i) (tau i)
      else s (.rel f l)) ∧
    ∀ v, v ≠ .fld f → (∀ l, v ≠ .rel f l) → v ≠ U2 → t v = s v := by
  induction n with
  | zero => simp [forLoop]
  | succ n ih =>
    intro t
    obtain ⟨h1, h2, h3⟩ := ih
    simp only [t, forLoop_succ, exec_append]
    generalize exec (forLoop n _) s = u at h1 h2 h3 ⊢
    have hn := h2 n
    rw [if_neg (lt_irrefl n)] at hn
    have hU := h3 U (by simp) (by simp) (by simp)
    refine ⟨?_, fun l => ?_, fun v e1 e2 e3 => ?_⟩
    · funext i
      simp [Stmt.exec, State.set, h1, hn, hU, Finset.sum_range_succ, Mod.relaxed]
      ring
    · by_cases hl : l = n
      · subst hl
        rw [if_pos (Nat.lt_succ_self _)]
        funext i
        simp [Stmt.exec, State.set, hn, hU, Mod.relaxed]
      · have e : (l < n + 1) ↔ l < n := by omega
        simp only [e]
        rw [← h2]
        simp [Stmt.exec, State.set, hl]
    · rw [← h3 v e1 e2 e3]
      simp [Stmt.exec, State.set, e1, e2, e3]

theorem relaxShear_exec (m : Mod ι) (f : Fld) (tau : ι → ℝ) (s : State ι) :
    let t := exec (relaxShear m f tau) s
    (t (.fld f) = fun i => s (.fld f) i + ∑ l ∈ Finset.range m.L, (m.DThalf * s (.rel f l) i +
      m.DThalf * m.relaxed l (s (.rel f l) i) (s U i) (tau i)) + s U i * m.onePlusLtauS i) ∧
    (∀ l, l < m.L → t (.rel f l) = fun i => m.relaxed l (s (.rel f l) i) (s U i) (tau i)) ∧
    ∀ v, v ≠ .fld f → (∀ l, v ≠ .rel f l) → v ≠ U → v ≠ U2 → t v = s v := by
  intro t
  obtain ⟨h1, h2, h3⟩ := shearLoop m f tau s m.L
  simp only [t, relaxShear, exec_append]
  generalize exec (forLoop m.L _) s = u at h1 h2 h3 ⊢
  have hU := h3 U (by simp) (by simp) (by simp)
  refine ⟨?_, fun l hl => ?_, fun v e1 e2 e3 e4 => ?_⟩
  · funext i
    simp [Stmt.exec, State.set, h1, hU]
  · have := h2 l
    rw [if_pos hl] at this
    rw [← this]
    simp [Stmt.exec, State.set]
  · rw [← h3 v e1 e2 e4]
    simp [Stmt.exec, State.set, e1, e3]

/-- Effect of the body of the first loop over the normal stresses. -/
private theorem normalBody (m : Mod ι) (fs : List Fld) (hfs : fs.Nodup) (n : ℕ) (s : State ι) :
    let t := exec (fs.flatMap fun f => [.axpy (.fld f) m.DThalf (.rel f n), .smul (.rel f n) (m.vc1 n),
      .sub (.rel f n) U2]) s
    (∀ f, t (.fld f) = if f ∈ fs then fun i => s (.fld f) i + m.DThalf * s (.rel f n) i
      else s (.fld f)) ∧
    (∀ f l, t (.rel f l) = if f ∈ fs ∧ l = n then fun i => s (.rel f l) i * m.vc1 l - s U2 i
      else s (.rel f l)) ∧
    ∀ x, t (.scr x) = s (.scr x) := by
  induction fs generalizing s with
  | nil => simp
  | cons g fs ih =>
    rw [List.nodup_cons] at hfs
    intro t
    simp only [t, List.flatMap_cons, exec_append]
    obtain ⟨h1, h2, h3⟩ := ih hfs.2 (exec [.axpy (.fld g) m.DThalf (.rel g n),
      .smul (.rel g n) (m.vc1 n), .sub (.rel g n) U2] s)
    refine ⟨fun f => ?_, fun f l => ?_, fun x => ?_⟩
    · rw [h1]
      by_cases hf : f = g
      · subst hf
        simp [hfs.1, Stmt.exec, State.set]
      · simp [hf, Stmt.exec, State.set]
    · rw [h2]
      by_cases hf : f = g
      · subst hf
        by_cases hl : l = n
        · subst hl
          simp [hfs.1, Stmt.exec, State.set]
        · simp [hl, Stmt.exec, State.set]
      · simp [hf, Stmt.exec, State.set]
    · rw [h3]
      simp [Stmt.exec, State.set]

private theorem normalLoop (m : Mod ι) (fs : List Fld) (hfs : fs.Nodup) (s : State ι) (n : ℕ) :
    let t := exec (forLoop n (fun l =>
      [.cmul U2 (m.invRelax l) U, .scale U2 m.tauP] ++
      fs.flatMap fun f => [.axpy (.fld f) m.DThalf (.rel f l), .smul (.rel f l) (m.vc1 l),
        .sub (.rel f l) U2])) s
    (∀ f, t (.fld f) = if f ∈ fs then fun i => s (.fld f) i +
      ∑ l ∈ Finset.range n, m.DThalf * s (.rel f l) i else s (.fld f)) ∧
    (∀ f l, t (.rel f l) = if f ∈ fs ∧ l < n then fun i => s (.rel f l) i * m.vc1 l -
      m.invRelax l * s U i * m.tauP i else s (.rel f l)) ∧
    ∀ x, x ≠ .update2 → t (.scr x) = s (.scr x) := by
  induction n with
  | zero => simp [forLoop]
  | succ n ih =>
    intro t
    obtain ⟨h1, h2, h3⟩ := ih
    simp only [t, forLoop_succ, exec_append]
    generalize exec (forLoop n _) s = u at h1 h2 h3 ⊢
    have hU := h3 .update (by simp)
    obtain ⟨b1, b2, b3⟩ := normalBody m fs hfs n
      (exec [.cmul U2 (m.invRelax n) U, .scale U2 m.tauP] u)
    refine ⟨fun f => ?_, fun f l => ?_, fun x e => ?_⟩
    · rw [b1]
      by_cases hf : f ∈ fs
      · have := h2 f n
        rw [if_neg (by simp)] at this
        simp only [if_pos hf]
        funext i
        simp [Stmt.exec, State.set, h1, hf, this, Finset.sum_range_succ]
        ring
      · simp [hf, Stmt.exec, State.set, h1]
    · rw [b2]
      by_cases hf : f ∈ fs
      · by_cases hl : l = n
        · subst hl
          have := h2 f l
          rw [if_neg (by simp)] at this
          simp [hf, Stmt.exec, State.set, this, hU]
        · have e : (l < n + 1) ↔ l < n := by omega
          simp [hf, hl, e, Stmt.exec, State.set, h2]
      · simp [hf, Stmt.exec, State.set, h2]
    · rw [b3, ← h3 x e]
      simp [Stmt.exec, State.set, e]

private theorem addAll (fs : List Fld) (hfs : fs.Nodup) (s : State ι) :
    let t := exec (fs.map fun f => (Stmt.add (.fld f) U : Stmt ι)) s
    (∀ f, t (.fld f) = if f ∈ fs then fun i => s (.fld f) i + s U i else s (.fld f)) ∧
    (∀ f l, t (.rel f l) = s (.rel f l)) ∧ ∀ x, t (.scr x) = s (.scr x) := by
  induction fs generalizing s with
  | nil => simp
  | cons g fs ih =>
    rw [List.nodup_cons] at hfs
    intro t
    simp only [t, List.map_cons, exec_cons]
    obtain ⟨h1, h2, h3⟩ := ih hfs.2 (Stmt.exec (.add (.fld g) U) s)
    refine ⟨fun f => ?_, fun f l => ?_, fun x => ?_⟩
    · rw [h1]
      by_cases hf : f = g
      · subst hf
        simp [hfs.1, Stmt.exec, State.set]
      · simp [hf, Stmt.exec, State.set]
    · rw [h2]; simp [Stmt.exec, State.set]
    · rw [h3]; simp [Stmt.exec, State.set]

theorem relaxNormal_exec (m : Mod ι) (fs : List Fld) (hfs : fs.Nodup) (s : State ι) :
    let t := exec (relaxNormal m fs) s
    (∀ f, t (.fld f) = if f ∈ fs then fun i => s (.fld f) i +
      ∑ l ∈ Finset.range m.L, m.DThalf * s (.rel f l) i + s U i * m.onePlusLtauP i else s (.fld f)) ∧
    (∀ f l, t (.rel f l) = if f ∈ fs ∧ l < m.L then fun i => s (.rel f l) i * m.vc1 l -
      m.invRelax l * s U i * m.tauP i else s (.rel f l)) ∧
    ∀ x, x ≠ .update → x ≠ .update2 → t (.scr x) = s (.scr x) := by
  intro t
  obtain ⟨h1, h2, h3⟩ := normalLoop m fs hfs s m.L
  simp only [t, relaxNormal, exec_append, exec_cons, exec_nil]
  generalize exec (forLoop m.L _) s = u at h1 h2 h3 ⊢
  have hU := h3 .update (by simp)
  obtain ⟨a1, a2, a3⟩ := addAll fs hfs (Stmt.exec (.scale U m.onePlusLtauP) u)
  refine ⟨fun f => ?_, fun f l => ?_, fun x e1 e2 => ?_⟩
  · rw [a1]
    by_cases hf : f ∈ fs
    · simp [hf, Stmt.exec, State.set, h1, hU]
    · simp [hf, Stmt.exec, State.set, h1]
  · rw [a2, ← h2]; simp [Stmt.exec, State.set]
  · rw [a3, ← h3 x e2]; simp [Stmt.exec, State.set, e1]

private theorem transLoop (m : Mod ι) (f : Fld) (s : State ι) (n : ℕ) :
    let t := exec (forLoop n (fun l =>
      [.cmul U2 (m.invRelax l) U, .scale U2 m.tauS, .add (.rel f l) U2,
       .smul (.rel f l) (m.vc2 l), .axpy (.fld f) m.DThalf (.rel f l)])) s
    (t (.fld f) = fun i => s (.fld f) i + ∑ l ∈ Finset.range n,
      m.DThalf * ((s (.rel f l) i + m.invRelax l * s U i * m.tauS i) * m.vc2 l)) ∧
    (∀ l, t (.rel f l) = if l < n then fun i =>
      (s (.rel f l) i + m.invRelax l * s U i * m.tauS i) * m.vc2 l else s (.rel f l)) ∧
    ∀ v, v ≠ .fld f → (∀ l, v ≠ .rel f l) → v ≠ U2 → t v = s v := by
  induction n with
  | zero => simp [forLoop]
  | succ n ih =>
    intro t
    obtain ⟨h1, h2, h3⟩ := ih
    simp only [t, forLoop_succ, exec_append]
    generalize exec (forLoop n _) s = u at h1 h2 h3 ⊢
    have hn := h2 n
    rw [if_neg (lt_irrefl n)] at hn
    have hU := h3 U (by simp) (by simp) (by simp)
    refine ⟨?_, fun l => ?_, fun v e1 e2 e3 => ?_⟩
    · funext i
      simp [Stmt.exec, State.set, h1, hn, hU, Finset.sum_range_succ]
      ring
    · by_cases hl : l = n
      · subst hl
        rw [if_pos (Nat.lt_succ_self _)]
        funext i
        simp [Stmt.exec, State.set, hn, hU]
      · have e : (l < n + 1) ↔ l < n := by omega
        simp only [e]
        rw [← h2]
        simp [Stmt.exec, State.set, hl]
    · rw [← h3 v e1 e2 e3]
      simp [Stmt.exec, State.set, e1, e2, e3]

theorem relaxTrans_exec (m : Mod ι) (f : Fld) (s : State ι) :
    let t := exec (relaxTrans m f) s
    (t (.fld f) = fun i => s (.fld f) i + ∑ l ∈ Finset.range m.L,
      m.DThalf * ((s (.rel f l) i + m.invRelax l * (s U i * m.sMod i * 2) * m.tauS i) * m.vc2 l) -
      s U i * m.sMod i * 2 * m.onePlusLtauS i) ∧
    (∀ l, l < m.L → t (.rel f l) = fun i =>
      (s (.rel f l) i + m.invRelax l * (s U i * m.sMod i * 2) * m.tauS i) * m.vc2 l) ∧
    ∀ v, v ≠ .fld f → (∀ l, v ≠ .rel f l) → v ≠ U → v ≠ U2 → t v = s v := by
  intro t
  simp only [t, relaxTrans, exec_append]
  obtain ⟨h1, h2, h3⟩ := transLoop m f (exec [.scale U m.sMod, .smul U 2] s) m.L
  have hr : ∀ l, (exec [.scale U m.sMod, .smul U 2] s) (.rel f l) = s (.rel f l) := by
    intro l; simp [Stmt.exec, State.set]
  have hf : (exec [.scale U m.sMod, .smul U 2] s) (.fld f) = s (.fld f) := by
    simp [Stmt.exec, State.set]
  have hu : (exec [.scale U m.sMod, .smul U 2] s) U = fun i => s U i * m.sMod i * 2 := by
    simp [Stmt.exec, State.set]
  have ho : ∀ v, v ≠ U → (exec [.scale U m.sMod, .smul U 2] s) v = s v := by
    intro v hv; simp [Stmt.exec, State.set, hv]
  generalize exec [.scale U m.sMod, .smul U 2] s = s0 at h1 h2 h3 hr hf hu ho ⊢
  simp only [hr, hf, hu] at h1 h2
  generalize exec (forLoop m.L _) s0 = u at h1 h2 h3 ⊢
  have hU := h3 U (by simp) (by simp) (by simp)
  rw [hu] at hU
  refine ⟨?_, fun l hl => ?_, fun v e1 e2 e3 e4 => ?_⟩
  · funext i
    simp [Stmt.exec, State.set, h1, hU]
  · have := h2 l
    rw [if_pos hl] at this
    rw [← this]
    simp [Stmt.exec, State.set]
  · rw [← ho v e3, ← h3 v e1 e2 e4]
    simp [Stmt.exec, State.set, e1, e3]

/-- The second halves of the relaxation of several normal stresses; `w f` is the sum of the strain
rates transverse to the stress `f`. -/
private theorem transAll (m : Mod ι) (w : Fld → ι → ℝ) (ps : List (Fld × Stmt ι))
    (hps : (ps.map Prod.fst).Nodup) (s : State ι)
    (h : ∀ p ∈ ps, ∀ t : State ι, (∀ x, x ≠ .update → x ≠ .update2 → t (.scr x) = s (.scr x)) →
      p.2.exec t = t.set U (w p.1)) :
    let t := exec (ps.flatMap fun p => p.2 :: relaxTrans m p.1) s
    (∀ f, t (.fld f) = if f ∈ ps.map Prod.fst then fun i => s (.fld f) i + ∑ l ∈ Finset.range m.L,
      m.DThalf * ((s (.rel f l) i + m.invRelax l * (w f i * m.sMod i * 2) * m.tauS i) * m.vc2 l) -
      w f i * m.sMod i * 2 * m.onePlusLtauS i else s (.fld f)) ∧
    (∀ f l, l < m.L → t (.rel f l) = if f ∈ ps.map Prod.fst then fun i =>
      (s (.rel f l) i + m.invRelax l * (w f i * m.sMod i * 2) * m.tauS i) * m.vc2 l
      else s (.rel f l)) ∧
    ∀ x, x ≠ .update → x ≠ .update2 → t (.scr x) = s (.scr x) := by
  induction ps generalizing s with
  | nil => simp
  | cons p ps ih =>
    rw [List.map_cons, List.nodup_cons] at hps
    intro t
    simp only [t, List.flatMap_cons, exec_append, exec_cons]
    rw [h p (by simp) s fun _ _ _ => rfl]
    obtain ⟨a1, a2, a3⟩ := relaxTrans_exec m p.1 (s.set U (w p.1))
    generalize exec (relaxTrans m p.1) (s.set U (w p.1)) = u at a1 a2 a3 ⊢
    have hscr : ∀ x, x ≠ .update → x ≠ .update2 → u (.scr x) = s (.scr x) := by
      intro x h1 h2
      rw [a3 _ (by simp) (by simp) (by simpa using h1) (by simpa using h2)]
      simp [State.set, h1]
    have hfld : ∀ f, f ≠ p.1 → u (.fld f) = s (.fld f) := by
      intro f hf
      rw [a3 _ (by simpa using hf) (by simp) (by simp) (by simp)]
      simp [State.set]
    have hrel : ∀ f l, f ≠ p.1 → u (.rel f l) = s (.rel f l) := by
      intro f l hf
      rw [a3 _ (by simp) (by intro l'; simp [hf]) (by simp) (by simp)]
      simp [State.set]
    have e1 : ∀ x, x ≠ U → s.set U (w p.1) x = s x := by
      intro x hx; simp [State.set, hx]
    simp only [set_self, e1 (.fld p.1) (by simp), e1 (.rel p.1 _) (by simp)] at a1 a2
    obtain ⟨b1, b2, b3⟩ := ih hps.2 u fun q hq t ht => h q (by simp [hq]) t fun x h1 h2 =>
      (ht x h1 h2).trans (hscr x h1 h2)
    refine ⟨fun f => ?_, fun f l hl => ?_, fun x h1 h2 => ?_⟩
    · rw [b1]
      by_cases hf : f = p.1
      · subst hf
        rw [if_neg hps.1, if_pos (by simp), a1]
      · simp only [List.map_cons, List.mem_cons, hf, false_or, hfld f hf, hrel f _ hf]
    · rw [b2 f l hl]
      by_cases hf : f = p.1
      · subst hf
        rw [if_neg hps.1, if_pos (by simp), a2 l hl]
      · simp only [List.map_cons, List.mem_cons, hf, false_or, hrel f _ hf]
    · rw [b3 x h1 h2, hscr x h1 h2]

/-- Relaxation of all normal stresses. `d` is the sum of all strain rates times the P-wave modulus. -/
theorem normal_exec (m : Mod ι) (w : Fld → ι → ℝ) (ps : List (Fld × Stmt ι))
    (hps : (ps.map Prod.fst).Nodup) (s : State ι)
    (h : ∀ p ∈ ps, ∀ t : State ι, (∀ x, x ≠ .update → x ≠ .update2 → t (.scr x) = s (.scr x)) →
      p.2.exec t = t.set U (w p.1)) :
    let t := exec (relaxNormal m (ps.map Prod.fst) ++ ps.flatMap fun p => p.2 :: relaxTrans m p.1) s
    let d := fun f i => s U i * m.tauP i - w f i * m.sMod i * 2 * m.tauS i
    (∀ f, t (.fld f) = if f ∈ ps.map Prod.fst then fun i => s (.fld f) i +
      ∑ l ∈ Finset.range m.L, (m.DThalf * s (.rel f l) i +
        m.DThalf * m.relaxed l (s (.rel f l) i) (d f i) 1) +
      (s U i * m.onePlusLtauP i - w f i * m.sMod i * 2 * m.onePlusLtauS i) else s (.fld f)) ∧
    (∀ f l, l < m.L → t (.rel f l) = if f ∈ ps.map Prod.fst then fun i =>
      m.relaxed l (s (.rel f l) i) (d f i) 1 else s (.rel f l)) ∧
    ∀ x, x ≠ .update → x ≠ .update2 → t (.scr x) = s (.scr x) := by
  intro t d
  obtain ⟨a1, a2, a3⟩ := relaxNormal_exec m (ps.map Prod.fst) hps s
  simp only [t, exec_append]
  generalize exec (relaxNormal m (ps.map Prod.fst)) s = u at a1 a2 a3 ⊢
  obtain ⟨b1, b2, b3⟩ := transAll m w ps hps u fun p hp t ht => h p hp t fun x h1 h2 =>
    (ht x h1 h2).trans (a3 x h1 h2)
  refine ⟨fun f => ?_, fun f l hl => ?_, fun x h1 h2 => (b3 x h1 h2).trans (a3 x h1 h2)⟩
  · rw [b1]
    by_cases hf : f ∈ ps.map Prod.fst
    · simp only [if_pos hf, a1]
      funext i
      have : ∑ l ∈ Finset.range m.L, m.DThalf * ((u (.rel f l) i +
          m.invRelax l * (w f i * m.sMod i * 2) * m.tauS i) * m.vc2 l) =
          ∑ l ∈ Finset.range m.L, m.DThalf * m.relaxed l (s (.rel f l) i) (d f i) 1 := by
        refine Finset.sum_congr rfl fun l hl => ?_
        rw [a2, if_pos ⟨hf, Finset.mem_range.mp hl⟩]
        simp only [Mod.relaxed, d]
        ring
      rw [this, Finset.sum_add_distrib]
      ring
    · simp only [if_neg hf, a1]
  · rw [b2 f l hl]
    by_cases hf : f ∈ ps.map Prod.fst
    · simp only [if_pos hf, a2, hf, hl, and_self, if_true]
      funext i
      simp only [Mod.relaxed, d]
      ring
    · simp only [if_neg hf, a2, hf, false_and, if_false]

/-! ### Plain time steps -/

/-- Sum of the two contributions of the relaxation wavefields to a stress in one step. -/
noncomputable def relSum (m : Mod ι) (s s' : State ι) (f : Fld) (i : ι) : ℝ :=
  ∑ l ∈ Finset.range m.L, m.DThalf * (s (.rel f l) i + s' (.rel f l) i)

theorem relSum_eq {m : Mod ι} {s s' : State ι} {f : Fld} {r' : ℕ → ι → ℝ}
    (h : ∀ l, l < m.L → s' (.rel f l) = r' l) (i : ι) :
    ∑ l ∈ Finset.range m.L, (m.DThalf * s (.rel f l) i + m.DThalf * r' l i) = relSum m s s' f i := by
  unfold relSum
  refine Finset.sum_congr rfl fun l hl => ?_
  rw [h l (Finset.mem_range.mp hl)]
  ring

section
variable {D : Deriv ι} {m : Mod ι} {c : BC ι} (hc : c.plain) (s : State ι)
include hc

theorem viscosh2D_plain :
    let s' := exec (viscosh2D D m c) s
    let dx := fun i => D.Dxf.mulVec (s' (.fld .vZ)) i * m.sModXZ i
    let dy := fun i => D.Dyf.mulVec (s' (.fld .vZ)) i * m.sModYZ i
    s' (.fld .vZ) = (fun i => s (.fld .vZ) i + (D.Dxb.mulVec (s (.fld .Sxz)) i +
      D.Dyb.mulVec (s (.fld .Syz)) i) * m.invRho i) ∧
    (∀ l, l < m.L → s' (.rel .Sxz l) = fun i =>
      m.relaxed l (s (.rel .Sxz l) i) (dx i) (m.tauSXZ i)) ∧
    (∀ l, l < m.L → s' (.rel .Syz l) = fun i =>
      m.relaxed l (s (.rel .Syz l) i) (dy i) (m.tauSYZ i)) ∧
    s' (.fld .Sxz) = (fun i => s (.fld .Sxz) i + relSum m s s' .Sxz i + dx i * m.onePlusLtauS i) ∧
    s' (.fld .Syz) = (fun i => s (.fld .Syz) i + relSum m s s' .Syz i + dy i * m.onePlusLtauS i) := by
  intro s' dx dy
  obtain ⟨h1, h2, h3⟩ := hc
  obtain ⟨t1, ht1⟩ : ∃ t1, t1 = exec [.mul U D.Dxb (.fld .Sxz), .mul UT D.Dyb (.fld .Syz), .add U UT,
    .scale U m.invRho, .add (.fld .vZ) U, .mul U D.Dxf (.fld .vZ), .scale U m.sModXZ] s := ⟨_, rfl⟩
  obtain ⟨t2, ht2⟩ : ∃ t2, t2 = exec (relaxShear m .Sxz m.tauSXZ) t1 := ⟨_, rfl⟩
  obtain ⟨t3, ht3⟩ : ∃ t3, t3 = exec [.mul U D.Dyf (.fld .vZ), .scale U m.sModYZ] t2 := ⟨_, rfl⟩
  have e : s' = exec (relaxShear m .Syz m.tauSYZ) t3 := by
    simp only [s', viscosh2D, cpmlFull, cpmlHalf, damp, selFS, h1, h2, h3, ht3, ht2, ht1]
    simp
  obtain ⟨a1, a2, a3⟩ := relaxShear_exec m .Sxz m.tauSXZ t1
  rw [← ht2] at a1 a2 a3
  obtain ⟨b1, b2, b3⟩ := relaxShear_exec m .Syz m.tauSYZ t3
  rw [← e] at b1 b2 b3
  have v1 : t1 (.fld .vZ) = fun i => s (.fld .vZ) i + (D.Dxb.mulVec (s (.fld .Sxz)) i +
      D.Dyb.mulVec (s (.fld .Syz)) i) * m.invRho i := by
    simp [ht1, Stmt.exec, State.set]
  have v2 : t2 (.fld .vZ) = t1 (.fld .vZ) := a3 _ (by simp) (by simp) (by simp) (by simp)
  have v3 : t3 (.fld .vZ) = t2 (.fld .vZ) := by simp [ht3, Stmt.exec, State.set]
  have v4 : s' (.fld .vZ) = t3 (.fld .vZ) := b3 _ (by simp) (by simp) (by simp) (by simp)
  have u1 : t1 U = dx := by
    simp only [dx, v4, v3, v2]
    simp [ht1, Stmt.exec, State.set]
  have u3 : t3 U = dy := by
    simp only [dy, v4, v3]
    simp [ht3, Stmt.exec, State.set]
  have x1 : t1 (.fld .Sxz) = s (.fld .Sxz) := by simp [ht1, Stmt.exec, State.set]
  have x2 : ∀ l, t1 (.rel .Sxz l) = s (.rel .Sxz l) := by intro l; simp [ht1, Stmt.exec, State.set]
  have x3 : ∀ v, v ≠ U → t3 v = t2 v := by intro v hv; simp [ht3, Stmt.exec, State.set, hv]
  have y1 : t3 (.fld .Syz) = s (.fld .Syz) := by
    rw [x3 _ (by simp), a3 _ (by simp) (by simp) (by simp) (by simp)]
    simp [ht1, Stmt.exec, State.set]
  have y2 : ∀ l, t3 (.rel .Syz l) = s (.rel .Syz l) := by
    intro l
    rw [x3 _ (by simp), a3 _ (by simp) (by simp) (by simp) (by simp)]
    simp [ht1, Stmt.exec, State.set]
  simp only [u1, x1, x2] at a1 a2
  simp only [u3, y1, y2] at b1 b2
  have r1 : ∀ l, l < m.L → s' (.rel .Sxz l) = fun i =>
      m.relaxed l (s (.rel .Sxz l) i) (dx i) (m.tauSXZ i) := by
    intro l hl
    rw [b3 _ (by simp) (by simp) (by simp) (by simp), x3 _ (by simp), a2 l hl]
  have r2 : ∀ l, l < m.L → s' (.rel .Syz l) = fun i =>
      m.relaxed l (s (.rel .Syz l) i) (dy i) (m.tauSYZ i) := b2
  refine ⟨by rw [v4, v3, v2, v1], r1, r2, ?_, ?_⟩
  · rw [b3 _ (by simp) (by simp) (by simp) (by simp), x3 _ (by simp), a1]
    funext i
    rw [relSum_eq r1]
  · rw [b1]
    funext i
    rw [relSum_eq r2]

theorem viscoelastic2D_plain :
    let s' := exec (viscoelastic2D D m c) s
    let vxx := D.Dxb.mulVec (s' (.fld .vX))
    let vyy := D.Dyb.mulVec (s' (.fld .vY))
    let dxy := fun i => (D.Dyf.mulVec (s' (.fld .vX)) i + D.Dxf.mulVec (s' (.fld .vY)) i) * m.sModXY i
    s' (.fld .vX) = (fun i => s (.fld .vX) i + (D.Dxf.mulVec (s (.fld .Sxx)) i +
      D.Dyb.mulVec (s (.fld .Sxy)) i) * m.invRhoX i) ∧
    s' (.fld .vY) = (fun i => s (.fld .vY) i + (D.Dxb.mulVec (s (.fld .Sxy)) i +
      D.Dyf.mulVec (s (.fld .Syy)) i) * m.invRhoY i) ∧
    (∀ l, l < m.L →
      s' (.rel .Sxx l) = (fun i => m.relaxed l (s (.rel .Sxx l) i)
        ((vxx i + vyy i) * m.pMod i * m.tauP i - vyy i * m.sMod i * 2 * m.tauS i) 1) ∧
      s' (.rel .Syy l) = (fun i => m.relaxed l (s (.rel .Syy l) i)
        ((vxx i + vyy i) * m.pMod i * m.tauP i - vxx i * m.sMod i * 2 * m.tauS i) 1) ∧
      s' (.rel .Sxy l) = fun i => m.relaxed l (s (.rel .Sxy l) i) (dxy i) (m.tauSXY i)) ∧
    s' (.fld .Sxx) = (fun i => s (.fld .Sxx) i + relSum m s s' .Sxx i +
      ((vxx i + vyy i) * m.pMod i * m.onePlusLtauP i - vyy i * m.sMod i * 2 * m.onePlusLtauS i)) ∧
    s' (.fld .Syy) = (fun i => s (.fld .Syy) i + relSum m s s' .Syy i +
      ((vxx i + vyy i) * m.pMod i * m.onePlusLtauP i - vxx i * m.sMod i * 2 * m.onePlusLtauS i)) ∧
    s' (.fld .Sxy) = (fun i => s (.fld .Sxy) i + relSum m s s' .Sxy i +
      dxy i * m.onePlusLtauS i) := by
  intro s' vxx vyy dxy
  obtain ⟨h1, h2, h3⟩ := hc
  obtain ⟨t1, ht1⟩ : ∃ t1, t1 = exec [.mul U D.Dxf (.fld .Sxx), .mul UT D.Dyb (.fld .Sxy),
    .add U UT, .scale U m.invRhoX, .add (.fld .vX) U,
    .mul U D.Dxb (.fld .Sxy), .mul UT D.Dyf (.fld .Syy),
    .add U UT, .scale U m.invRhoY, .add (.fld .vY) U,
    .mul Vxx D.Dxb (.fld .vX), .mul Vyy D.Dyb (.fld .vY),
    .copy U Vxx, .add U Vyy, .scale U m.pMod] s := ⟨_, rfl⟩
  obtain ⟨t2, ht2⟩ : ∃ t2, t2 = exec (relaxNormal m (List.map Prod.fst
      [((Fld.Sxx, .copy U Vyy) : Fld × Stmt ι), (.Syy, .copy U Vxx)]) ++
      List.flatMap (fun p => p.2 :: relaxTrans m p.1)
        [((Fld.Sxx, .copy U Vyy) : Fld × Stmt ι), (.Syy, .copy U Vxx)]) t1 := ⟨_, rfl⟩
  obtain ⟨t3, ht3⟩ : ∃ t3, t3 = exec [.mul U D.Dyf (.fld .vX), .mul UT D.Dxf (.fld .vY), .add U UT,
    .scale U m.sModXY] t2 := ⟨_, rfl⟩
  have e : s' = exec (relaxShear m .Sxy m.tauSXY) t3 := by
    simp only [s', viscoelastic2D, cpmlFull, cpmlHalf, damp, selFS, h1, h2, h3, ht3, ht2, ht1]
    simp
  obtain ⟨a1, a2, -⟩ := normal_exec m (fun f => if f = .Sxx then t1 Vyy else t1 Vxx)
    [((Fld.Sxx, .copy U Vyy) : Fld × Stmt ι), (.Syy, .copy U Vxx)] (by simp) t1 (by
      intro p hp t ht
      simp only [List.mem_cons, List.not_mem_nil, or_false] at hp
      rcases hp with rfl | rfl
      · simp only [Stmt.exec, if_true]
        rw [ht .vyy (by simp) (by simp)]
      · simp only [Stmt.exec]
        rw [ht .vxx (by simp) (by simp)]
        simp)
  rw [← ht2] at a1 a2
  obtain ⟨b1, b2, b3⟩ := relaxShear_exec m .Sxy m.tauSXY t3
  rw [← e] at b1 b2 b3
  have vX1 : t1 (.fld .vX) = fun i => s (.fld .vX) i + (D.Dxf.mulVec (s (.fld .Sxx)) i +
      D.Dyb.mulVec (s (.fld .Sxy)) i) * m.invRhoX i := by
    simp [ht1, Stmt.exec, State.set]
  have vY1 : t1 (.fld .vY) = fun i => s (.fld .vY) i + (D.Dxb.mulVec (s (.fld .Sxy)) i +
      D.Dyf.mulVec (s (.fld .Syy)) i) * m.invRhoY i := by
    simp [ht1, Stmt.exec, State.set]
  have vX2 : t2 (.fld .vX) = t1 (.fld .vX) := by rw [a1]; simp
  have vY2 : t2 (.fld .vY) = t1 (.fld .vY) := by rw [a1]; simp
  have f3 : ∀ v, v ≠ U → v ≠ UT → t3 v = t2 v := by
    intro v hv hv'; simp [ht3, Stmt.exec, State.set, hv, hv']
  have f4 : ∀ v, v ≠ .fld .Sxy → (∀ l, v ≠ .rel .Sxy l) → v ≠ U → v ≠ UT → v ≠ U2 →
      s' v = t2 v := by
    intro v e1 e2 e3 e4 e5
    rw [b3 v e1 e2 e3 e5, f3 v e3 e4]
  have vX4 : s' (.fld .vX) = t1 (.fld .vX) := by
    rw [f4 _ (by simp) (by simp) (by simp) (by simp) (by simp), vX2]
  have vY4 : s' (.fld .vY) = t1 (.fld .vY) := by
    rw [f4 _ (by simp) (by simp) (by simp) (by simp) (by simp), vY2]
  have uxx : t1 Vxx = vxx := by
    simp only [vxx, vX4]
    simp [ht1, Stmt.exec, State.set]
  have uyy : t1 Vyy = vyy := by
    simp only [vyy, vY4]
    simp [ht1, Stmt.exec, State.set]
  have u1 : t1 U = fun i => (vxx i + vyy i) * m.pMod i := by
    rw [← uxx, ← uyy]
    simp [ht1, Stmt.exec, State.set]
  have u3 : t3 U = dxy := by
    simp only [dxy, vX4, vY4]
    rw [← vX2, ← vY2]
    simp [ht3, Stmt.exec, State.set]
  have x1 : ∀ f, f ≠ .vX → f ≠ .vY → t1 (.fld f) = s (.fld f) := by
    intro f e1 e2; simp [ht1, Stmt.exec, State.set, e1, e2]
  have x2 : ∀ f l, t1 (.rel f l) = s (.rel f l) := by
    intro f l; simp [ht1, Stmt.exec, State.set]
  have y1 : t3 (.fld .Sxy) = s (.fld .Sxy) := by
    rw [f3 _ (by simp) (by simp), a1, if_neg (by simp), x1 _ (by simp) (by simp)]
  have y2 : ∀ l, l < m.L → t3 (.rel .Sxy l) = s (.rel .Sxy l) := by
    intro l hl
    rw [f3 _ (by simp) (by simp), a2 _ l hl, if_neg (by simp), x2]
  have r1 : ∀ l, l < m.L → s' (.rel .Sxx l) = (fun i => m.relaxed l (s (.rel .Sxx l) i)
        ((vxx i + vyy i) * m.pMod i * m.tauP i - vyy i * m.sMod i * 2 * m.tauS i) 1) := by
    intro l hl
    rw [f4 _ (by simp) (by simp) (by simp) (by simp) (by simp), a2 _ l hl, if_pos (by simp), u1, uyy]
    simp only [x2, if_true]
  have r2 : ∀ l, l < m.L → s' (.rel .Syy l) = (fun i => m.relaxed l (s (.rel .Syy l) i)
        ((vxx i + vyy i) * m.pMod i * m.tauP i - vxx i * m.sMod i * 2 * m.tauS i) 1) := by
    intro l hl
    rw [f4 _ (by simp) (by simp) (by simp) (by simp) (by simp), a2 _ l hl, if_pos (by simp), u1, uxx]
    simp only [x2]
    simp
  have r3 : ∀ l, l < m.L → s' (.rel .Sxy l) =
      fun i => m.relaxed l (s (.rel .Sxy l) i) (dxy i) (m.tauSXY i) := by
    intro l hl
    rw [b2 l hl, u3, y2 l hl]
  refine ⟨by rw [vX4, vX1], by rw [vY4, vY1], fun l hl => ⟨r1 l hl, r2 l hl, r3 l hl⟩, ?_, ?_, ?_⟩
  · rw [f4 _ (by simp) (by simp) (by simp) (by simp) (by simp), a1, if_pos (by simp), u1, uyy,
      x1 _ (by simp) (by simp)]
    funext i
    rw [← relSum_eq r1]
    simp only [x2, if_true]
  · rw [f4 _ (by simp) (by simp) (by simp) (by simp) (by simp), a1, if_pos (by simp), u1, uxx,
      x1 _ (by simp) (by simp)]
    funext i
    rw [← relSum_eq r2]
    simp only [x2]
    simp
  · rw [b1, u3, y1]
    funext i
    rw [← relSum_eq r3]
    congr 2
    exact Finset.sum_congr rfl fun l hl => by rw [y2 l (Finset.mem_range.mp hl)]

set_option maxHeartbeats 2000000 in
theorem viscoelastic3D_plain :
    let s' := exec (viscoelastic3D D m c) s
    let vxx := D.Dxb.mulVec (s' (.fld .vX))
    let vyy := D.Dyb.mulVec (s' (.fld .vY))
    let vzz := D.Dzb.mulVec (s' (.fld .vZ))
    let dxy := fun i => (D.Dyf.mulVec (s' (.fld .vX)) i + D.Dxf.mulVec (s' (.fld .vY)) i) * m.sModXY i
    let dxz := fun i => (D.Dzf.mulVec (s' (.fld .vX)) i + D.Dxf.mulVec (s' (.fld .vZ)) i) * m.sModXZ i
    let dyz := fun i => (D.Dzf.mulVec (s' (.fld .vY)) i + D.Dyf.mulVec (s' (.fld .vZ)) i) * m.sModYZ i
    (s' (.fld .vX) = (fun i => s (.fld .vX) i + (D.Dxf.mulVec (s (.fld .Sxx)) i +
      D.Dyb.mulVec (s (.fld .Sxy)) i + D.Dzb.mulVec (s (.fld .Sxz)) i) * m.invRhoX i) ∧
    s' (.fld .vY) = (fun i => s (.fld .vY) i + (D.Dxb.mulVec (s (.fld .Sxy)) i +
      D.Dyf.mulVec (s (.fld .Syy)) i + D.Dzb.mulVec (s (.fld .Syz)) i) * m.invRhoY i) ∧
    s' (.fld .vZ) = (fun i => s (.fld .vZ) i + (D.Dxb.mulVec (s (.fld .Sxz)) i +
      D.Dyb.mulVec (s (.fld .Syz)) i + D.Dzf.mulVec (s (.fld .Szz)) i) * m.invRhoZ i)) ∧
    (∀ l, l < m.L →
      (s' (.rel .Sxx l) = (fun i => m.relaxed l (s (.rel .Sxx l) i)
        ((vxx i + vyy i + vzz i) * m.pMod i * m.tauP i - (vyy i + vzz i) * m.sMod i * 2 * m.tauS i) 1) ∧
      s' (.rel .Syy l) = (fun i => m.relaxed l (s (.rel .Syy l) i)
        ((vxx i + vyy i + vzz i) * m.pMod i * m.tauP i - (vxx i + vzz i) * m.sMod i * 2 * m.tauS i) 1) ∧
      s' (.rel .Szz l) = (fun i => m.relaxed l (s (.rel .Szz l) i)
        ((vxx i + vyy i + vzz i) * m.pMod i * m.tauP i - (vxx i + vyy i) * m.sMod i * 2 * m.tauS i) 1)) ∧
      s' (.rel .Sxy l) = (fun i => m.relaxed l (s (.rel .Sxy l) i) (dxy i) (m.tauSXY i)) ∧
      s' (.rel .Sxz l) = (fun i => m.relaxed l (s (.rel .Sxz l) i) (dxz i) (m.tauSXZ i)) ∧
      s' (.rel .Syz l) = fun i => m.relaxed l (s (.rel .Syz l) i) (dyz i) (m.tauSYZ i)) ∧
    (s' (.fld .Sxx) = (fun i => s (.fld .Sxx) i + relSum m s s' .Sxx i +
      ((vxx i + vyy i + vzz i) * m.pMod i * m.onePlusLtauP i -
        (vyy i + vzz i) * m.sMod i * 2 * m.onePlusLtauS i)) ∧
    s' (.fld .Syy) = (fun i => s (.fld .Syy) i + relSum m s s' .Syy i +
      ((vxx i + vyy i + vzz i) * m.pMod i * m.onePlusLtauP i -
        (vxx i + vzz i) * m.sMod i * 2 * m.onePlusLtauS i)) ∧
    s' (.fld .Szz) = (fun i => s (.fld .Szz) i + relSum m s s' .Szz i +
      ((vxx i + vyy i + vzz i) * m.pMod i * m.onePlusLtauP i -
        (vxx i + vyy i) * m.sMod i * 2 * m.onePlusLtauS i))) ∧
    s' (.fld .Sxy) = (fun i => s (.fld .Sxy) i + relSum m s s' .Sxy i + dxy i * m.onePlusLtauS i) ∧
    s' (.fld .Sxz) = (fun i => s (.fld .Sxz) i + relSum m s s' .Sxz i + dxz i * m.onePlusLtauS i) ∧
    s' (.fld .Syz) = (fun i => s (.fld .Syz) i + relSum m s s' .Syz i + dyz i * m.onePlusLtauS i) := by
  intro s' vxx vyy vzz dxy dxz dyz
  obtain ⟨h1, h2, h3⟩ := hc
  obtain ⟨t1, ht1⟩ : ∃ t1, t1 = exec [
    .mul U D.Dxf (.fld .Sxx), .mul UT D.Dyb (.fld .Sxy), .add U UT,
    .mul UT D.Dzb (.fld .Sxz), .add U UT, .scale U m.invRhoX, .add (.fld .vX) U,
    .mul U D.Dxb (.fld .Sxy), .mul UT D.Dyf (.fld .Syy), .add U UT,
    .mul UT D.Dzb (.fld .Syz), .add U UT, .scale U m.invRhoY, .add (.fld .vY) U,
    .mul U D.Dxb (.fld .Sxz), .mul UT D.Dyb (.fld .Syz), .add U UT,
    .mul UT D.Dzf (.fld .Szz), .add U UT, .scale U m.invRhoZ, .add (.fld .vZ) U,
    .mul Vxx D.Dxb (.fld .vX), .mul Vyy D.Dyb (.fld .vY), .mul Vzz D.Dzb (.fld .vZ),
    .copy U Vxx, .add U Vyy, .add U Vzz, .scale U m.pMod] s := ⟨_, rfl⟩
  obtain ⟨ps, hps⟩ : ∃ ps : List (Fld × Stmt ι),
    ps = [(.Sxx, .sum U Vyy Vzz), (.Syy, .sum U Vxx Vzz), (.Szz, .sum U Vxx Vyy)] := ⟨_, rfl⟩
  obtain ⟨t2, ht2⟩ : ∃ t2, t2 = exec (relaxNormal m (ps.map Prod.fst) ++
      ps.flatMap (fun p => p.2 :: relaxTrans m p.1)) t1 := ⟨_, rfl⟩
  obtain ⟨t3, ht3⟩ : ∃ t3, t3 = exec [.mul U D.Dyf (.fld .vX), .mul UT D.Dxf (.fld .vY), .add U UT,
    .scale U m.sModXY] t2 := ⟨_, rfl⟩
  obtain ⟨t4, ht4⟩ : ∃ t4, t4 = exec (relaxShear m .Sxy m.tauSXY) t3 := ⟨_, rfl⟩
  obtain ⟨t5, ht5⟩ : ∃ t5, t5 = exec [.mul U D.Dzf (.fld .vX), .mul UT D.Dxf (.fld .vZ), .add U UT,
    .scale U m.sModXZ] t4 := ⟨_, rfl⟩
  obtain ⟨t6, ht6⟩ : ∃ t6, t6 = exec (relaxShear m .Sxz m.tauSXZ) t5 := ⟨_, rfl⟩
  obtain ⟨t7, ht7⟩ : ∃ t7, t7 = exec [.mul U D.Dzf (.fld .vY), .mul UT D.Dyf (.fld .vZ), .add U UT,
    .scale U m.sModYZ] t6 := ⟨_, rfl⟩
  have e : s' = exec (relaxShear m .Syz m.tauSYZ) t7 := by
    simp only [s', viscoelastic3D, cpmlFull, cpmlHalf, damp, selFS, ifFS, h1, h2, h3, ht7, ht6, ht5,
      ht4, ht3, ht2, ht1, hps]
    simp
  obtain ⟨a1, a2, -⟩ := normal_exec m (fun f i => if f = .Sxx then t1 Vyy i + t1 Vzz i else
      if f = .Syy then t1 Vxx i + t1 Vzz i else t1 Vxx i + t1 Vyy i) ps (by simp [hps]) t1 (by
      intro p hp t ht
      simp only [hps, List.mem_cons, List.not_mem_nil, or_false] at hp
      have k1 := ht .vxx (by simp) (by simp)
      have k2 := ht .vyy (by simp) (by simp)
      have k3 := ht .vzz (by simp) (by simp)
      rcases hp with rfl | rfl | rfl <;> simp [Stmt.exec, k1, k2, k3])
  rw [← ht2] at a1 a2
  have hmem : ∀ f, f ∈ ps.map Prod.fst ↔ f = .Sxx ∨ f = .Syy ∨ f = .Szz := by
    intro f; simp [hps]
  simp only [hmem] at a1 a2
  obtain ⟨b1, b2, b3⟩ := relaxShear_exec m .Sxy m.tauSXY t3
  rw [← ht4] at b1 b2 b3
  obtain ⟨c1, c2, c3⟩ := relaxShear_exec m .Sxz m.tauSXZ t5
  rw [← ht6] at c1 c2 c3
  obtain ⟨d1, d2, d3⟩ := relaxShear_exec m .Syz m.tauSYZ t7
  rw [← e] at d1 d2 d3
  have f3 : ∀ v, v ≠ U → v ≠ UT → t3 v = t2 v := by
    intro v hv hv'; simp [ht3, Stmt.exec, State.set, hv, hv']
  have f5 : ∀ v, v ≠ U → v ≠ UT → t5 v = t4 v := by
    intro v hv hv'; simp [ht5, Stmt.exec, State.set, hv, hv']
  have f7 : ∀ v, v ≠ U → v ≠ UT → t7 v = t6 v := by
    intro v hv hv'; simp [ht7, Stmt.exec, State.set, hv, hv']
  have g7 : ∀ v, v ≠ .fld .Syz → (∀ l, v ≠ .rel .Syz l) → v ≠ U → v ≠ UT → v ≠ U2 → s' v = t6 v := by
    intro v e1 e2 e3 e4 e5
    rw [d3 v e1 e2 e3 e5, f7 v e3 e4]
  have g5 : ∀ v, v ≠ .fld .Sxz → (∀ l, v ≠ .rel .Sxz l) → v ≠ U → v ≠ UT → v ≠ U2 → t6 v = t4 v := by
    intro v e1 e2 e3 e4 e5
    rw [c3 v e1 e2 e3 e5, f5 v e3 e4]
  have g3 : ∀ v, v ≠ .fld .Sxy → (∀ l, v ≠ .rel .Sxy l) → v ≠ U → v ≠ UT → v ≠ U2 → t4 v = t2 v := by
    intro v e1 e2 e3 e4 e5
    rw [b3 v e1 e2 e3 e5, f3 v e3 e4]
  have gv : ∀ f, f = .vX ∨ f = .vY ∨ f = .vZ → t2 (.fld f) = t1 (.fld f) ∧
      t4 (.fld f) = t1 (.fld f) ∧ t6 (.fld f) = t1 (.fld f) ∧ s' (.fld f) = t1 (.fld f) := by
    intro f hf
    have k2 : t2 (.fld f) = t1 (.fld f) := by
      rw [a1]; rcases hf with rfl | rfl | rfl <;> simp
    have k4 : t4 (.fld f) = t1 (.fld f) := by
      rw [g3 _ (by rcases hf with rfl | rfl | rfl <;> simp) (by simp) (by simp) (by simp) (by simp), k2]
    have k6 : t6 (.fld f) = t1 (.fld f) := by
      rw [g5 _ (by rcases hf with rfl | rfl | rfl <;> simp) (by simp) (by simp) (by simp) (by simp), k4]
    refine ⟨k2, k4, k6, ?_⟩
    rw [g7 _ (by rcases hf with rfl | rfl | rfl <;> simp) (by simp) (by simp) (by simp) (by simp), k6]
  have gx := gv .vX (by simp)
  have gy := gv .vY (by simp)
  have gz := gv .vZ (by simp)
  have uxx : t1 Vxx = vxx := by
    simp only [vxx, gx.2.2.2]
    simp [ht1, Stmt.exec, State.set]
  have uyy : t1 Vyy = vyy := by
    simp only [vyy, gy.2.2.2]
    simp [ht1, Stmt.exec, State.set]
  have uzz : t1 Vzz = vzz := by
    simp only [vzz, gz.2.2.2]
    simp [ht1, Stmt.exec, State.set]
  have u1 : t1 U = fun i => (vxx i + vyy i + vzz i) * m.pMod i := by
    rw [← uxx, ← uyy, ← uzz]
    simp [ht1, Stmt.exec, State.set]
  have u3 : t3 U = dxy := by
    simp only [dxy, gx.2.2.2, gy.2.2.2]
    rw [← gx.1, ← gy.1]
    simp [ht3, Stmt.exec, State.set]
  have u5 : t5 U = dxz := by
    simp only [dxz, gx.2.2.2, gz.2.2.2]
    rw [← gx.2.1, ← gz.2.1]
    simp [ht5, Stmt.exec, State.set]
  have u7 : t7 U = dyz := by
    simp only [dyz, gy.2.2.2, gz.2.2.2]
    rw [← gy.2.2.1, ← gz.2.2.1]
    simp [ht7, Stmt.exec, State.set]
  have x1 : ∀ f, f ≠ .vX → f ≠ .vY → f ≠ .vZ → t1 (.fld f) = s (.fld f) := by
    intro f e1 e2 e3; simp [ht1, Stmt.exec, State.set, e1, e2, e3]
  have x2 : ∀ f l, t1 (.rel f l) = s (.rel f l) := by
    intro f l; simp [ht1, Stmt.exec, State.set]
  have y2 : ∀ l, l < m.L → t3 (.rel .Sxy l) = s (.rel .Sxy l) := by
    intro l hl
    rw [f3 _ (by simp) (by simp), a2 _ l hl, if_neg (by simp), x2]
  have y4 : ∀ l, l < m.L → t5 (.rel .Sxz l) = s (.rel .Sxz l) := by
    intro l hl
    rw [f5 _ (by simp) (by simp), g3 _ (by simp) (by simp) (by simp) (by simp) (by simp), a2 _ l hl,
      if_neg (by simp), x2]
  have y6 : ∀ l, l < m.L → t7 (.rel .Syz l) = s (.rel .Syz l) := by
    intro l hl
    rw [f7 _ (by simp) (by simp), g5 _ (by simp) (by simp) (by simp) (by simp) (by simp),
      g3 _ (by simp) (by simp) (by simp) (by simp) (by simp), a2 _ l hl, if_neg (by simp), x2]
  have w2 : t3 (.fld .Sxy) = s (.fld .Sxy) := by
    rw [f3 _ (by simp) (by simp), a1, if_neg (by simp), x1 _ (by simp) (by simp) (by simp)]
  have w4 : t5 (.fld .Sxz) = s (.fld .Sxz) := by
    rw [f5 _ (by simp) (by simp), g3 _ (by simp) (by simp) (by simp) (by simp) (by simp), a1,
      if_neg (by simp), x1 _ (by simp) (by simp) (by simp)]
  have w6 : t7 (.fld .Syz) = s (.fld .Syz) := by
    rw [f7 _ (by simp) (by simp), g5 _ (by simp) (by simp) (by simp) (by simp) (by simp),
      g3 _ (by simp) (by simp) (by simp) (by simp) (by simp), a1, if_neg (by simp),
      x1 _ (by simp) (by simp) (by simp)]
  have n : ∀ v, (v = .fld .Sxx ∨ v = .fld .Syy ∨ v = .fld .Szz) ∨
      (∃ l, v = .rel .Sxx l ∨ v = .rel .Syy l ∨ v = .rel .Szz l) → s' v = t2 v := by
    intro v hv
    rcases hv with (rfl | rfl | rfl) | ⟨l, rfl | rfl | rfl⟩ <;>
    · rw [g7 _ (by simp) (by simp) (by simp) (by simp) (by simp),
        g5 _ (by simp) (by simp) (by simp) (by simp) (by simp),
        g3 _ (by simp) (by simp) (by simp) (by simp) (by simp)]
  have rxx : ∀ l, l < m.L → s' (.rel .Sxx l) = (fun i => m.relaxed l (s (.rel .Sxx l) i)
      ((vxx i + vyy i + vzz i) * m.pMod i * m.tauP i -
        (vyy i + vzz i) * m.sMod i * 2 * m.tauS i) 1) := by
    intro l hl
    rw [n _ (.inr ⟨l, by simp⟩), a2 _ l hl, if_pos (by simp), u1, uyy, uzz]
    simp [x2]
  have ryy : ∀ l, l < m.L → s' (.rel .Syy l) = (fun i => m.relaxed l (s (.rel .Syy l) i)
      ((vxx i + vyy i + vzz i) * m.pMod i * m.tauP i -
        (vxx i + vzz i) * m.sMod i * 2 * m.tauS i) 1) := by
    intro l hl
    rw [n _ (.inr ⟨l, by simp⟩), a2 _ l hl, if_pos (by simp), u1, uxx, uzz]
    simp [x2]
  have rzz : ∀ l, l < m.L → s' (.rel .Szz l) = (fun i => m.relaxed l (s (.rel .Szz l) i)
      ((vxx i + vyy i + vzz i) * m.pMod i * m.tauP i -
        (vxx i + vyy i) * m.sMod i * 2 * m.tauS i) 1) := by
    intro l hl
    rw [n _ (.inr ⟨l, by simp⟩), a2 _ l hl, if_pos (by simp), u1, uxx, uyy]
    simp [x2]
  have rxy : ∀ l, l < m.L → s' (.rel .Sxy l) =
      fun i => m.relaxed l (s (.rel .Sxy l) i) (dxy i) (m.tauSXY i) := by
    intro l hl
    rw [g7 _ (by simp) (by simp) (by simp) (by simp) (by simp),
      g5 _ (by simp) (by simp) (by simp) (by simp) (by simp), b2 l hl, u3, y2 l hl]
  have rxz : ∀ l, l < m.L → s' (.rel .Sxz l) =
      fun i => m.relaxed l (s (.rel .Sxz l) i) (dxz i) (m.tauSXZ i) := by
    intro l hl
    rw [g7 _ (by simp) (by simp) (by simp) (by simp) (by simp), c2 l hl, u5, y4 l hl]
  have ryz : ∀ l, l < m.L → s' (.rel .Syz l) =
      fun i => m.relaxed l (s (.rel .Syz l) i) (dyz i) (m.tauSYZ i) := by
    intro l hl
    rw [d2 l hl, u7, y6 l hl]
  refine ⟨⟨?_, ?_, ?_⟩, fun l hl => ⟨⟨rxx l hl, ryy l hl, rzz l hl⟩, rxy l hl, rxz l hl, ryz l hl⟩,
    ⟨?_, ?_, ?_⟩, ?_, ?_, ?_⟩
  · rw [gx.2.2.2]; simp [ht1, Stmt.exec, State.set]
  · rw [gy.2.2.2]; simp [ht1, Stmt.exec, State.set]
  · rw [gz.2.2.2]; simp [ht1, Stmt.exec, State.set]
  · rw [n _ (by simp), a1, if_pos (by simp), u1, uyy, uzz, x1 _ (by simp) (by simp) (by simp)]
    funext i
    rw [← relSum_eq rxx]
    simp [x2]
  · rw [n _ (by simp), a1, if_pos (by simp), u1, uxx, uzz, x1 _ (by simp) (by simp) (by simp)]
    funext i
    rw [← relSum_eq ryy]
    simp [x2]
  · rw [n _ (by simp), a1, if_pos (by simp), u1, uxx, uyy, x1 _ (by simp) (by simp) (by simp)]
    funext i
    rw [← relSum_eq rzz]
    simp [x2]
  · rw [g7 _ (by simp) (by simp) (by simp) (by simp) (by simp),
      g5 _ (by simp) (by simp) (by simp) (by simp) (by simp), b1, u3, w2]
    funext i
    rw [← relSum_eq rxy]
    congr 2
    exact Finset.sum_congr rfl fun l hl => by rw [y2 l (Finset.mem_range.mp hl)]
  · rw [g7 _ (by simp) (by simp) (by simp) (by simp) (by simp), c1, u5, w4]
    funext i
    rw [← relSum_eq rxz]
    congr 2
    exact Finset.sum_congr rfl fun l hl => by rw [y4 l (Finset.mem_range.mp hl)]
  · rw [d1, u7, w6]
    funext i
    rw [← relSum_eq ryz]
    congr 2
    exact Finset.sum_congr rfl fun l hl => by rw [y6 l (Finset.mem_range.mp hl)]

end

end Verif.Solver
