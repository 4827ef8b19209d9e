import Verif.Lemmas.SolverShots
import Mathlib.Tactic.Ring
/-! Two solvers step by step: helper lemmas for the comparison of solvers with and without
relaxation. -/
set_option linter.dupNamespace false
set_option linter.unusedSectionVars false

namespace Verif.Solver
open Matrix

variable {ι : Type} [Fintype ι]

/-- The vectors both solvers of a pair work with. -/
def Shared (X : List Var) : Set Var := {v | v ∉ X ∧ ∀ f l, v ≠ .rel f l}

/-- The two states agree on the shared vectors and the relaxation vectors of the first are zero. -/
def Rz (X : List Var) (L : ℕ) (fs : List Fld) (s t : State ι) : Prop :=
  Agree (Shared X) s t ∧ ∀ f ∈ fs, ∀ l < L, s (.rel f l) = 0

/-- A statement on shared vectors. -/
def Stmt.onShared (X : List Var) (st : Stmt ι) : Prop :=
  (∀ v ∈ st.reads, v ∈ Shared X) ∧ (∀ v ∈ st.writes, v ∈ Shared X) ∧
  match st with | .swap _ _ => False | _ => True

theorem Stmt.after_superset {X : List Var} {st : Stmt ι} (h : st.onShared X) :
    Shared X ⊆ st.after (Shared X) := by
  cases st <;> simp_all [Stmt.after, Stmt.onShared]

theorem Rz.stmt {X : List Var} {L : ℕ} {fs : List Fld} {s t : State ι} (h : Rz X L fs s t)
    {st : Stmt ι} (hs : st.onShared X) : Rz X L fs (st.exec s) (st.exec t) := by
  refine ⟨(Stmt.exec_agree st h.1 hs.1).mono (Stmt.after_superset hs), fun f hf l hl => ?_⟩
  rw [Stmt.exec_frame st s fun hw => (hs.2.1 _ hw).2 f l rfl]
  exact h.2 f hf l hl

theorem Rz.seg {X : List Var} {L : ℕ} {fs : List Fld} {s t : State ι} (h : Rz X L fs s t)
    {p : List (Stmt ι)} (hs : ∀ st ∈ p, st.onShared X) : Rz X L fs (exec p s) (exec p t) := by
  induction p generalizing s t with
  | nil => exact h
  | cons st p ih =>
    exact ih (h.stmt (hs st List.mem_cons_self)) fun x hx => hs x (List.mem_cons_of_mem _ hx)

/-- An assignment makes its target shared again. -/
theorem Rz.assign {X : List Var} {L : ℕ} {fs : List Fld} {s t : State ι} {d : Var}
    (h : Rz (d :: X) L fs s t) (hd : ∀ f l, d ≠ .rel f l) {st : Stmt ι}
    (hr : ∀ v ∈ st.reads, v ∈ Shared (d :: X)) (hw : st.writes = [d])
    (ha : st.after (Shared (d :: X)) = insert d (Shared (d :: X))) :
    Rz X L fs (st.exec s) (st.exec t) := by
  refine ⟨?_, fun f hf l hl => ?_⟩
  · have h1 := Stmt.exec_agree st h.1 hr
    rw [ha] at h1
    refine h1.mono fun v hv => ?_
    by_cases hvd : v = d
    · exact .inl hvd
    · exact .inr ⟨by simpa [hvd] using hv.1, hv.2⟩
  · rw [Stmt.exec_frame st s (by rw [hw]; simpa using (hd f l).symm)]
    exact h.2 f hf l hl

theorem Rz.weaken {X Y : List Var} {L : ℕ} {fs : List Fld} {s t : State ι} (h : Rz X L fs s t)
    (hXY : ∀ v ∈ X, v ∈ Y) : Rz Y L fs s t :=
  ⟨h.1.mono fun v hv => ⟨fun hx => hv.1 (hXY v hx), hv.2⟩, h.2⟩

/-- A segment of the first solver that changes nothing but vectors in `X`. -/
def Same (X : List Var) (s s' : State ι) : Prop := ∀ v, v ∉ X → s' v = s v

theorem Same.refl (X : List Var) (s : State ι) : Same X s s := fun _ _ => rfl

theorem Same.trans {X : List Var} {s s' s'' : State ι} (h : Same X s s') (h' : Same X s' s'') :
    Same X s s'' := fun v hv => (h' v hv).trans (h v hv)

theorem Same.loop {X : List Var} {L : ℕ} {body : ℕ → List (Stmt ι)} {s : State ι}
    (h : ∀ l < L, ∀ s', Same X s s' → Same X s' (exec (body l) s')) :
    Same X s (exec (forLoop L body) s) := by
  induction L with
  | zero => exact .refl _ _
  | succ n ih =>
    have h1 := ih fun l hl => h l (Nat.lt_succ_of_lt hl)
    have : forLoop (n + 1) body = forLoop n body ++ body n := by
      simp [forLoop, List.range_succ, List.flatMap_append]
    rw [this, exec_append]
    exact h1.trans (h n (Nat.lt_succ_self n) _ h1)

theorem Same.flatMap {X : List Var} {α : Type} {fs : List α} {body : α → List (Stmt ι)}
    {s : State ι} (h : ∀ f ∈ fs, ∀ s', Same X s s' → Same X s' (exec (body f) s')) :
    Same X s (exec (fs.flatMap body) s) := by
  suffices ∀ s', Same X s s' → Same X s' (exec (fs.flatMap body) s') from this s (.refl _ _)
  induction fs with
  | nil => exact fun s' _ => .refl _ _
  | cons f fs ih =>
    intro s' hs'
    rw [List.flatMap_cons, exec_append]
    have h1 := h f List.mem_cons_self s' hs'
    exact h1.trans (ih (fun g hg => h g (List.mem_cons_of_mem _ hg)) _ (hs'.trans h1))

theorem Rz.left {X : List Var} {L : ℕ} {fs : List Fld} {s s' t : State ι} (h : Rz X L fs s t)
    (hs : Same X s s') (hX : ∀ f l, Var.rel f l ∉ X) : Rz X L fs s' t :=
  ⟨fun v hv => (hs v hv.1).trans (h.1 v hv), fun f hf l hl => (hs _ (hX f l)).trans (h.2 f hf l hl)⟩

theorem Same.set {X : List Var} {s s' : State ι} (h : Same X s s') {d : Var} (hd : d ∉ X)
    {v : ι → ℝ} (hv : v = s d) : Same X s (s'.set d v) := by
  intro x hx
  by_cases hxd : x = d
  · subst hxd; rw [set_self, hv]
  · rw [set_ne _ _ hxd, h x hx]

theorem Same.set_mem {X : List Var} {s s' : State ι} (h : Same X s s') {d : Var} (hd : d ∈ X)
    (v : ι → ℝ) : Same X s (s'.set d v) := by
  intro x hx
  have hxd : x ≠ d := fun e => hx (e ▸ hd)
  rw [set_ne _ _ hxd, h x hx]

/-! ### The relaxation loops without relaxation strength -/

theorem same_relaxShearLoop (m : Mod ι) (f : Fld) (tau : ι → ℝ) (ht : ∀ i, tau i = 0)
    {s : State ι} (hs : ∀ l < m.L, s (.rel f l) = 0) :
    Same [U2] s (exec (forLoop m.L (fun l =>
      [.axpy (.fld f) m.DThalf (.rel f l), .smul (.rel f l) (m.vc1 l),
       .cmul U2 (m.invRelax l) U, .scale U2 tau, .sub (.rel f l) U2,
       .smul (.rel f l) (m.vc2 l), .axpy (.fld f) m.DThalf (.rel f l)])) s) := by
  refine Same.loop fun l hl s' hs' v hv => ?_
  have h0 : s' (.rel f l) = 0 := (hs' _ (by simp)).trans (hs l hl)
  have hv' : v ≠ U2 := by simpa using hv
  funext i
  by_cases h1 : v = .fld f
  · subst h1; simp [Stmt.exec, State.set, h0, ht]
  · by_cases h2 : v = .rel f l
    · subst h2; simp [Stmt.exec, State.set, h0, ht]
    · simp [Stmt.exec, State.set, h1, h2, hv']

theorem same_relaxNormalLoop (m : Mod ι) (fs : List Fld) (ht : ∀ i, m.tauP i = 0)
    {s : State ι} (hs : ∀ f ∈ fs, ∀ l < m.L, s (.rel f l) = 0) :
    Same [U2] s (exec (forLoop m.L (fun l =>
      [.cmul U2 (m.invRelax l) U, .scale U2 m.tauP] ++
      fs.flatMap fun f => [.axpy (.fld f) m.DThalf (.rel f l), .smul (.rel f l) (m.vc1 l),
        .sub (.rel f l) U2])) s) := by
  refine Same.loop fun l hl s' hs' => ?_
  rw [exec_append]
  set s1 := exec [.cmul U2 (m.invRelax l) U, .scale U2 m.tauP] s' with hs1
  have h1 : Same [U2] s' s1 := by
    intro v hv
    have hv' : v ≠ U2 := by simpa using hv
    simp [hs1, Stmt.exec, State.set, hv']
  have hU : s1 U2 = 0 := by funext i; simp [hs1, Stmt.exec, State.set, ht]
  refine h1.trans ?_
  suffices ∀ gs : List Fld, (∀ f ∈ gs, f ∈ fs) → ∀ s2, Same [] s1 s2 →
      Same [] s2 (exec (gs.flatMap fun f => [.axpy (.fld f) m.DThalf (.rel f l),
        .smul (.rel f l) (m.vc1 l), .sub (.rel f l) U2]) s2) from
    fun v _ => this fs (fun _ h => h) s1 (.refl _ _) v (by simp)
  intro gs hgs s2 hs2
  refine Same.flatMap fun f hf s3 hs3 v _ => ?_
  have e : s3 = s1 := by
    funext v; exact (hs3 v (by simp)).trans (hs2 v (by simp))
  have h0 : s3 (.rel f l) = 0 := by
    rw [e, h1 _ (by simp), hs' _ (by simp)]; exact hs f (hgs f hf) l hl
  have hU3 : s3 U2 = 0 := by rw [e, hU]
  funext i
  by_cases h1 : v = .fld f
  · subst h1; simp [Stmt.exec, State.set, h0]
  · by_cases h2 : v = .rel f l
    · subst h2; simp [Stmt.exec, State.set, h0, hU3]
    · simp [Stmt.exec, State.set, h1, h2]

theorem same_relaxTransLoop (m : Mod ι) (f : Fld) (ht : ∀ i, m.tauS i = 0)
    {s : State ι} (hs : ∀ l < m.L, s (.rel f l) = 0) :
    Same [U2] s (exec (forLoop m.L (fun l =>
      [.cmul U2 (m.invRelax l) U, .scale U2 m.tauS, .add (.rel f l) U2,
       .smul (.rel f l) (m.vc2 l), .axpy (.fld f) m.DThalf (.rel f l)])) s) := by
  refine Same.loop fun l hl s' hs' v hv => ?_
  have h0 : s' (.rel f l) = 0 := (hs' _ (by simp)).trans (hs l hl)
  have hv' : v ≠ U2 := by simpa using hv
  funext i
  by_cases h1 : v = .fld f
  · subst h1; simp [Stmt.exec, State.set, h0, ht]
  · by_cases h2 : v = .rel f l
    · subst h2; simp [Stmt.exec, State.set, h0, ht]
    · simp [Stmt.exec, State.set, h1, h2, hv']

/-- Extra vectors of the viscoelastic solvers. -/
abbrev XV : List Var := [TMP, U2]

theorem Rz.relaxShear {m : Mod ι} {fs : List Fld} {s t : State ι} (h : Rz XV m.L fs s t) (f : Fld)
    (hf : f ∈ fs) (tau : ι → ℝ) (ht : ∀ i, tau i = 0) (hS : ∀ i, m.tauS i = 0) :
    Rz XV m.L fs (exec (relaxShear m f tau) s) (exec [.add (.fld f) U] t) := by
  unfold Solver.relaxShear
  rw [exec_append]
  have h1 : Rz XV m.L fs _ t := h.left (s' := exec (forLoop m.L _) s)
    (fun v hv => same_relaxShearLoop m f tau ht (h.2 f hf) v (by simp_all)) (by simp)
  refine Rz.seg (p := [.add (.fld f) U]) (s := Stmt.exec (.scale U m.onePlusLtauS) _) ?_ ?_
  · refine h1.left (fun v _ => ?_) (by simp)
    funext i
    by_cases hv : v = U
    · subst hv; simp [Stmt.exec, State.set, Mod.onePlusLtauS, hS]
    · simp [Stmt.exec, State.set, hv]
  · simp [Stmt.onShared, Shared, Stmt.reads, Stmt.writes]

theorem Rz.relaxNormal {m : Mod ι} {fs : List Fld} {s t : State ι} (h : Rz XV m.L fs s t)
    (gs : List Fld) (hg : ∀ f ∈ gs, f ∈ fs) (hP : ∀ i, m.tauP i = 0) :
    Rz XV m.L fs (exec (relaxNormal m gs) s) (exec (gs.map fun f => .add (.fld f) U) t) := by
  unfold Solver.relaxNormal
  rw [exec_append, exec_append]
  have h1 : Rz XV m.L fs _ t := h.left (s' := exec (forLoop m.L _) s)
    (fun v hv => same_relaxNormalLoop m gs hP (fun f hf => h.2 f (hg f hf)) v (by simp_all))
    (by simp)
  refine Rz.seg (p := gs.map fun f => .add (.fld f) U) ?_ ?_
  · refine h1.left (fun v _ => ?_) (by simp)
    funext i
    by_cases hv : v = U
    · subst hv; simp [Stmt.exec, State.set, Mod.onePlusLtauP, hP]
    · simp [Stmt.exec, State.set, hv]
  · intro st hst
    obtain ⟨f, -, rfl⟩ := List.mem_map.1 hst
    simp [Stmt.onShared, Shared, Stmt.reads, Stmt.writes]

theorem Rz.relaxTrans {m : Mod ι} {fs : List Fld} {s t : State ι} (h : Rz XV m.L fs s t)
    (f : Fld) (hf : f ∈ fs) (hS : ∀ i, m.tauS i = 0) :
    Rz (U :: XV) m.L fs (exec (relaxTrans m f) s)
      (exec [.scale U m.sMod, .axpy (.fld f) (-2) U] t) := by
  unfold Solver.relaxTrans
  rw [exec_append, exec_append]
  set s1 := exec [.scale U m.sMod, .smul U 2] s with hs1
  have hr1 : ∀ l < m.L, s1 (.rel f l) = 0 := fun l hl => by
    simp only [hs1, exec_cons, exec_nil, Stmt.exec]
    rw [set_ne _ _ (by simp), set_ne _ _ (by simp)]
    exact h.2 f hf l hl
  set s2 := exec (forLoop m.L _) s1 with hs2
  have hsame : Same [U2] s1 s2 := same_relaxTransLoop m f hS hr1
  constructor
  · intro v hv
    have hvU : v ≠ U := fun e => hv.1 (by simp [e])
    have hv2 : v ≠ U2 := fun e => hv.1 (by simp [e])
    have hvT : v ≠ TMP := fun e => hv.1 (by simp [e])
    have e1 : s2 U = s1 U := hsame _ (by simp)
    have hUt : s U = t U := h.1 _ (by simp [Shared])
    funext i
    by_cases hvf : v = .fld f
    · subst hvf
      have e2 : s2 (.fld f) = s1 (.fld f) := hsame _ (by simp)
      have hft : s (.fld f) = t (.fld f) := h.1 _ (by simp [Shared])
      simp only [exec_cons, exec_nil, Stmt.exec, State.set]
      simp [e1, e2, hs1, Stmt.exec, State.set, Mod.onePlusLtauS, hS, hUt, hft]
      ring
    · have e2 : s2 v = s1 v := hsame _ (by simpa using hv2)
      have hvt : s v = t v := h.1 _ ⟨by simp [hv2, hvT], hv.2⟩
      simp [Stmt.exec, State.set, hvf, hvU, e2, hs1, hvt]
  · intro g hg l hl
    have e2 : s2 (.rel g l) = s1 (.rel g l) := hsame _ (by simp)
    simp only [exec_cons, exec_nil, Stmt.exec]
    rw [set_ne _ _ (by simp), set_ne _ _ (by simp), e2, hs1]
    simp only [exec_cons, exec_nil, Stmt.exec]
    rw [set_ne _ _ (by simp), set_ne _ _ (by simp)]
    exact h.2 g hg l hl

/-- The exchange of the elastic free surface for any list of horizontal stresses. -/
noncomputable def exchangeElastic (m : Mod ι) (c : BC ι) (fs : List Fld) (sumHor : Var) :
    List (Stmt ι) :=
  [.wmul TMP (scaleHor m c) sumHor] ++ fs.map (fun f => .add (.fld f) TMP) ++
  [.wmul TMP (scaleVert m c) Vyy] ++ fs.map (fun f => .sub (.fld f) TMP)

theorem exchange2D_eq (m : Mod ι) (c : BC ι) (v : Var) :
    exchange2D m c v = exchangeElastic m c [.Sxx] v := rfl

theorem exchange3D_eq (m : Mod ι) (c : BC ι) (v : Var) :
    exchange3D m c v = exchangeElastic m c [.Sxx, .Szz] v := rfl

theorem scaleStressHor_zero (m : Mod ι) (c : BC ι) (hP : ∀ i, m.tauP i = 0)
    (hS : ∀ i, m.tauS i = 0) : scaleStressHor m c = scaleHor m c := by
  funext i
  simp only [scaleStressHor, scaleHor, Mod.onePlusLtauS, Mod.onePlusLtauP, hP, hS]
  ring

theorem scaleStressVert_zero (m : Mod ι) (c : BC ι) (hP : ∀ i, m.tauP i = 0)
    (hS : ∀ i, m.tauS i = 0) : scaleStressVert m c = scaleVert m c := by
  funext i
  simp only [scaleStressVert, scaleVert, Mod.onePlusLtauS, Mod.onePlusLtauP, hP, hS]
  ring

theorem same_exchangeRel (m : Mod ι) (c : BC ι) (gs : List Fld) (v : Var)
    (hP : ∀ i, m.tauP i = 0) (hS : ∀ i, m.tauS i = 0) {s0 : State ι}
    (hrel0 : ∀ f ∈ gs, ∀ l < m.L, s0 (.rel f l) = 0) :
    Same [TMP] s0 (exec (forLoop m.L (fun l =>
    [.wmul TMP (scaleRelHor m c l) v] ++ gs.map (fun f => .add (.rel f l) TMP) ++
    [.wmul TMP (scaleRelVert m c l) Vyy] ++ gs.map (fun f => .sub (.rel f l) TMP) ++
    gs.flatMap fun f => [.wmul TMP c.select (.rel f l), .axpy (.fld f) m.DThalf TMP])) s0) := by
  have hsH : ∀ l, scaleRelHor m c l = 0 := fun l => by
    funext i; simp [scaleRelHor, hP, hS]
  have hsV : ∀ l, scaleRelVert m c l = 0 := fun l => by
    funext i; simp [scaleRelVert, hP, hS]
  refine Same.loop fun l hl s' hs' => ?_
  rw [exec_append, exec_append, exec_append, exec_append, hsH, hsV]
  have tmpz : ∀ (s : State ι) (v : Var), Same [TMP] s (exec [.wmul TMP 0 v] s) ∧
      exec [.wmul TMP 0 v] s TMP = 0 := fun s v =>
    ⟨fun u hu => by
      have hu' : u ≠ TMP := by simpa using hu
      simp [Stmt.exec, State.set, hu'], by funext i; simp [Stmt.exec, State.set]⟩
  have addz : ∀ (hs : List Fld) (s : State ι), s TMP = 0 →
      exec (hs.map (fun f => .add (.rel f l) TMP)) s = s := by
    intro hs
    induction hs with
    | nil => intro s _; rfl
    | cons f hs ih =>
      intro s h0
      have : Stmt.exec (.add (.rel f l) TMP) s = s := by
        funext u i
        by_cases hu : u = .rel f l
        · subst hu; simp [Stmt.exec, State.set, h0]
        · simp [Stmt.exec, State.set, hu]
      rw [List.map_cons, exec_cons, this, ih s h0]
  have subz : ∀ (hs : List Fld) (s : State ι), s TMP = 0 →
      exec (hs.map (fun f => .sub (.rel f l) TMP)) s = s := by
    intro hs
    induction hs with
    | nil => intro s _; rfl
    | cons f hs ih =>
      intro s h0
      have : Stmt.exec (.sub (.rel f l) TMP) s = s := by
        funext u i
        by_cases hu : u = .rel f l
        · subst hu; simp [Stmt.exec, State.set, h0]
        · simp [Stmt.exec, State.set, hu]
      rw [List.map_cons, exec_cons, this, ih s h0]
  rw [addz _ _ (tmpz s' v).2, subz _ _ (tmpz _ Vyy).2]
  refine ((tmpz s' v).1.trans (tmpz _ Vyy).1).trans ?_
  have hs4 := hs'.trans ((tmpz s' v).1.trans (tmpz _ Vyy).1)
  refine Same.flatMap fun f hf s3 hs3 u hu => ?_
  have h0 : s3 (.rel f l) = 0 := by
    rw [(hs4.trans hs3) _ (by simp)]; exact hrel0 f hf l hl
  have hu' : u ≠ TMP := by simpa using hu
  funext i
  by_cases h1 : u = .fld f
  · subst h1; simp [Stmt.exec, State.set, h0]
  · simp [Stmt.exec, State.set, h1, hu']

theorem Rz.exchange {m : Mod ι} {c : BC ι} {fs : List Fld} {s t : State ι}
    (h : Rz XV m.L fs s t) (gs : List Fld) (hg : ∀ f ∈ gs, f ∈ fs) (v : Var)
    (hv : v ∈ Shared XV) (hP : ∀ i, m.tauP i = 0) (hS : ∀ i, m.tauS i = 0) :
    Rz XV m.L fs (exec (exchangeVisco m c gs v) s) (exec (exchangeElastic m c gs v) t) := by
  unfold exchangeVisco exchangeElastic
  rw [exec_append, exec_append, exec_append, exec_append, exec_append, exec_append, exec_append,
    exec_append, scaleStressHor_zero m c hP hS, scaleStressVert_zero m c hP hS]
  have hadd : ∀ st ∈ gs.map (fun f => Stmt.add (ι := ι) (.fld f) TMP), st.onShared [U2] := by
    intro st hst
    obtain ⟨f, -, rfl⟩ := List.mem_map.1 hst
    simp [Stmt.onShared, Shared, Stmt.reads, Stmt.writes]
  have hsub : ∀ st ∈ gs.map (fun f => Stmt.sub (ι := ι) (.fld f) TMP), st.onShared [U2] := by
    intro st hst
    obtain ⟨f, -, rfl⟩ := List.mem_map.1 hst
    simp [Stmt.onShared, Shared, Stmt.reads, Stmt.writes]
  have h1 : Rz XV m.L fs _ t := h.left (s' := exec (forLoop m.L (fun l => gs.flatMap fun f =>
      [.wmul TMP c.select (.rel f l), .axpy (.fld f) (-m.DThalf) TMP])) s) (by
    have : Same [TMP] s (exec (forLoop m.L (fun l => gs.flatMap fun f =>
        [.wmul TMP c.select (.rel f l), .axpy (.fld f) (-m.DThalf) TMP])) s) := by
      refine Same.loop fun l hl s' hs' => Same.flatMap fun f hf s3 hs3 u hu => ?_
      have h0 : s3 (.rel f l) = 0 := by
        rw [hs3 _ (by simp), hs' _ (by simp)]; exact h.2 f (hg f hf) l hl
      have hu' : u ≠ TMP := by simpa using hu
      funext i
      by_cases h1 : u = .fld f
      · subst h1; simp [Stmt.exec, State.set, h0]
      · simp [Stmt.exec, State.set, h1, hu']
    exact fun u hu => this u (by simp_all)) (by simp)
  have h2 : Rz [U2] m.L fs (exec [.wmul TMP (scaleHor m c) v] _)
      (exec [.wmul TMP (scaleHor m c) v] t) := h1.assign (d := TMP)
      (st := .wmul TMP (scaleHor m c) v) (by simp) (by simpa [Stmt.reads] using hv) rfl rfl
  have h3 := h2.seg hadd
  have h4 : Rz [U2] m.L fs (exec [.wmul TMP (scaleVert m c) Vyy] _)
      (exec [.wmul TMP (scaleVert m c) Vyy] _) := h3.seg
        (by simp [Stmt.onShared, Shared, Stmt.reads, Stmt.writes])
  have h5 := h4.seg hsub
  have h6 : Rz XV m.L fs _ _ := h5.weaken (by simp)
  refine h6.left ?_ (by simp)
  exact fun u hu => same_exchangeRel m c gs v hP hS (fun f hf => h6.2 f (hg f hf)) u (by simp_all)

/-! ### The solvers in parallel -/

/-- The first program on the first state and the second program on the second state lead from
related states to related states. -/
def Sim (L : ℕ) (fs : List Fld) (X Y : List Var) (p q : List (Stmt ι)) : Prop :=
  ∀ s t : State ι, Rz X L fs s t → Rz Y L fs (exec p s) (exec q t)

theorem Sim.fcons {L : ℕ} {fs : List Fld} {X Y Z : List Var} {p q : List (Stmt ι)}
    {ps qs : List (List (Stmt ι))} (h : Sim L fs X Y p q)
    (h' : Sim L fs Y Z ps.flatten qs.flatten) :
    Sim L fs X Z (p :: ps).flatten (q :: qs).flatten := by
  intro s t hst
  rw [List.flatten_cons, List.flatten_cons, exec_append, exec_append]
  exact h' _ _ (h _ _ hst)

theorem Sim.fnil {L : ℕ} {fs : List Fld} {X : List Var} :
    Sim (ι := ι) L fs X X (List.flatten []) (List.flatten []) := fun _ _ h => h

theorem Sim.append {L : ℕ} {fs : List Fld} {X Y Z : List Var} {p q p' q' : List (Stmt ι)}
    (h : Sim L fs X Y p q) (h' : Sim L fs Y Z p' q') : Sim L fs X Z (p ++ p') (q ++ q') := by
  intro s t hst
  rw [exec_append, exec_append]
  exact h' _ _ (h _ _ hst)

theorem Sim.shared {L : ℕ} {fs : List Fld} {X : List Var} {p : List (Stmt ι)}
    (h : ∀ st ∈ p, st.onShared X) : Sim L fs X X p p := fun _ _ hst => hst.seg h

theorem Sim.cpmlHalf {L : ℕ} {fs : List Fld} {X : List Var} (c : BC ι) {d : Var} {f : Fld}
    {ax : Axis} (hd : d ∈ Shared X) (hp : Var.psi f ax ∉ X) :
    Sim L fs X X (cpmlHalf c d f ax) (cpmlHalf c d f ax) := by
  refine .shared ?_
  unfold Solver.cpmlHalf
  split
  · simp
  · simpa [Stmt.onShared, Stmt.reads, Stmt.writes] using ⟨hd, hp, by simp⟩

theorem Sim.cpmlFull {L : ℕ} {fs : List Fld} {X : List Var} (c : BC ι) {d : Var} {f : Fld}
    {ax : Axis} (hd : d ∈ Shared X) (hp : Var.psi f ax ∉ X) :
    Sim L fs X X (cpmlFull c d f ax) (cpmlFull c d f ax) := by
  refine .shared ?_
  unfold Solver.cpmlFull
  split
  · simp
  · simpa [Stmt.onShared, Stmt.reads, Stmt.writes] using ⟨hd, hp, by simp⟩

theorem Sim.damp {L : ℕ} {fs : List Fld} {X : List Var} (c : BC ι) {gs : List Fld}
    (h : ∀ f ∈ gs, Var.fld f ∉ X) : Sim L fs X X (damp c gs) (damp c gs) := by
  refine .shared ?_
  unfold Solver.damp
  split
  · simp
  · intro st hst
    obtain ⟨f, hf, rfl⟩ := List.mem_map.1 hst
    simpa [Stmt.onShared, Stmt.reads, Stmt.writes, Shared] using h f hf

/-- A segment of statements on shared vectors. -/
macro "sim_shared" : tactic => `(tactic|
  exact Sim.shared (by simp [Stmt.onShared, Shared, Stmt.reads, Stmt.writes]))

/-- The next segment is the same in both programs. -/
macro "sim_step" : tactic => `(tactic|
  refine Sim.fcons (by first
    | exact Sim.cpmlHalf _ (by simp [Shared]) (by simp)
    | exact Sim.cpmlFull _ (by simp [Shared]) (by simp)
    | exact Sim.damp _ (by simp)
    | sim_shared) ?_)

theorem sim_viscosh2D (D : Deriv ι) (m : Mod ι) (c : BC ι) (hS : ∀ i, m.tauS i = 0)
    (hXZ : ∀ i, m.tauSXZ i = 0) (hYZ : ∀ i, m.tauSYZ i = 0) :
    Sim m.L [.Sxz, .Syz] XV XV (viscosh2D D m c) (sh2D D m c) := by
  have e : sh2D D m c = List.flatten [
    [.mul U D.Dxb (.fld .Sxz), .mul UT (selFS c D.DybFS D.Dyb) (.fld .Syz)],
    cpmlFull c U .Sxz .x, cpmlFull c UT .Syz .y,
    [.add U UT, .scale U m.invRho, .add (.fld .vZ) U],
    [.mul U D.Dxf (.fld .vZ)], cpmlHalf c U .vZ .x,
    [.scale U m.sModXZ], [.add (.fld .Sxz) U],
    [.mul U D.Dyf (.fld .vZ)], cpmlHalf c U .vZ .y,
    [.scale U m.sModYZ], [.add (.fld .Syz) U],
    damp c [.Sxz, .Syz, .vZ]] := rfl
  rw [e]
  unfold viscosh2D
  iterate 7 sim_step
  refine Sim.fcons (fun s t h => h.relaxShear .Sxz (by simp) _ hXZ hS) ?_
  iterate 3 sim_step
  refine Sim.fcons (fun s t h => h.relaxShear .Syz (by simp) _ hYZ hS) ?_
  sim_step
  exact .fnil

theorem Rz.rels_same {X : List Var} {m : Mod ι} {c : BC ι} {fs : List Fld} {s t : State ι}
    (h : Rz X m.L fs s t) (hX : ∀ f l, Var.rel f l ∉ X) (f : Fld) (hf : f ∈ fs) :
    Rz X m.L fs (exec (forLoop m.L (fun l => surfaceZero c (.rel f l))) s) t := by
  refine h.left (Same.loop fun l hl s' hs' v _ => ?_) hX
  have h0 : s' (.rel f l) = 0 := (hs' _ (hX f l)).trans (h.2 f hf l hl)
  funext i
  by_cases hv : v = .rel f l
  · subst hv; simp [surfaceZero, Stmt.exec, State.set, h0]
  · simp [surfaceZero, Stmt.exec, State.set, hv]

theorem sim_viscoelastic2D (D : Deriv ι) (m : Mod ι) (c : BC ι)
    (hD : D.interFull = none ∧ D.interSX = none ∧ D.DyfSX = D.Dyf ∧ D.DybSX = D.Dyb ∧
      D.DybSXFS = D.DybFS) (hfs : c.useFreeSurface ≤ 1)
    (hP : ∀ i, m.tauP i = 0) (hS : ∀ i, m.tauS i = 0) (hXY : ∀ i, m.tauSXY i = 0) :
    Sim m.L [.Sxx, .Syy, .Sxy] XV XV (viscoelastic2D D m c) (elastic2D D m c) := by
  obtain ⟨d1, d2, d3, d4, d5⟩ := hD
  have e : elastic2D D m c = List.flatten [
    [.mul U D.Dxf (.fld .Sxx)], cpmlHalf c U .Sxx .x,
    [.mul UT (selFS c D.DybFS D.Dyb) (.fld .Sxy)], cpmlFull c UT .Sxy .y,
    [.add U UT, .scale U m.invRhoX, .add (.fld .vX) U],
    [.mul U D.Dxb (.fld .Sxy)], cpmlFull c U .Sxy .x,
    [.mul UT (selFS c D.DyfFS D.Dyf) (.fld .Syy)], cpmlHalf c UT .Syy .y,
    [.add U UT, .scale U m.invRhoY, .add (.fld .vY) U],
    [.mul Vxx D.Dxb (.fld .vX), .mul Vyy D.Dyb (.fld .vY)],
    cpmlFull c Vxx .vX .x, cpmlFull c Vyy .vY .y,
    [.copy U Vxx, .add U Vyy, .scale U m.pMod], [.add (.fld .Sxx) U, .add (.fld .Syy) U],
    [.copy U Vyy], [.scale U m.sMod, .axpy (.fld .Sxx) (-2) U],
    [.copy U Vxx], [.scale U m.sMod, .axpy (.fld .Syy) (-2) U],
    [.mul U D.Dyf (.fld .vX)], cpmlHalf c U .vX .y,
    [.mul UT D.Dxf (.fld .vY)], cpmlHalf c UT .vY .x,
    [.add U UT, .scale U m.sModXY], [.add (.fld .Sxy) U],
    ifFS c (exchange2D m c Vxx ++ surfaceZero c (.fld .Syy)),
    damp c [.Sxx, .Syy, .Sxy, .vX, .vY]] := by
    unfold elastic2D
    rw [d1, d2, d3, d4, d5]
    rfl
  rw [e]
  unfold viscoelastic2D
  iterate 14 sim_step
  refine Sim.fcons (fun s t h => h.relaxNormal [.Sxx, .Syy] (by simp) hP) ?_
  sim_step
  refine Sim.fcons (fun s t h => h.relaxTrans .Sxx (by simp) hS) ?_
  refine Sim.fcons (Y := XV) (fun s t h => h.assign (d := U) (st := .copy U Vxx) (by simp)
    (by simp [Stmt.reads, Shared]) rfl rfl) ?_
  refine Sim.fcons (fun s t h => h.relaxTrans .Syy (by simp) hS) ?_
  refine Sim.fcons (Y := XV) (fun s t h => h.assign (d := U) (st := .mul U D.Dyf (.fld .vX))
    (by simp) (by simp [Stmt.reads, Shared]) rfl rfl) ?_
  iterate 4 sim_step
  refine Sim.fcons (fun s t h => h.relaxShear .Sxy (by simp) _ hXY hS) ?_
  refine Sim.fcons (Y := XV) ?_ (by sim_step; exact .fnil)
  unfold ifFS
  by_cases h1 : c.useFreeSurface = 1
  · rw [if_pos h1, if_pos (by omega), ← List.append_nil (exchange2D m c Vxx ++ _)]
    refine Sim.append (Y := XV) (Sim.append (Y := XV) ?_ ?_) ?_
    · exact fun s t h => h.exchange [.Sxx] (by simp) Vxx (by simp [Shared]) hP hS
    · exact Sim.shared (by simp [surfaceZero, Stmt.onShared, Shared, Stmt.reads, Stmt.writes])
    · exact fun s t h => h.rels_same (by simp) .Syy (by simp)
  · rw [if_neg h1, if_neg (by omega)]
    exact fun _ _ h => h

theorem exchange3D_comm (m : Mod ι) (c : BC ι) (s : State ι) :
    exec (surfaceZero c (.fld .Syy) ++ exchange3D m c U) s =
      exec (exchange3D m c U ++ surfaceZero c (.fld .Syy)) s := by
  funext v i
  by_cases h1 : v = .fld .Sxx
  · subst h1; simp [surfaceZero, exchange3D, Stmt.exec, State.set]
  · by_cases h2 : v = .fld .Szz
    · subst h2; simp [surfaceZero, exchange3D, Stmt.exec, State.set]
    · by_cases h3 : v = .fld .Syy
      · subst h3; simp [surfaceZero, exchange3D, Stmt.exec, State.set]
      · by_cases h4 : v = TMP
        · subst h4; simp [surfaceZero, exchange3D, Stmt.exec, State.set]
        · simp [surfaceZero, exchange3D, Stmt.exec, State.set, h1, h2, h3, h4]

theorem sim_viscoelastic3D (D : Deriv ι) (m : Mod ι) (c : BC ι)
    (hD : D.interFull = none ∧ D.interSX = none ∧ D.interSZ = none ∧ D.interSXZ = none ∧
      D.DyfSX = D.Dyf ∧ D.DybSX = D.Dyb ∧ D.DybSXFS = D.DybFS ∧
      D.DyfSZ = D.Dyf ∧ D.DybSZ = D.Dyb ∧ D.DybSZFS = D.DybFS)
    (hP : ∀ i, m.tauP i = 0) (hS : ∀ i, m.tauS i = 0) (hXY : ∀ i, m.tauSXY i = 0)
    (hXZ : ∀ i, m.tauSXZ i = 0) (hYZ : ∀ i, m.tauSYZ i = 0) :
    Sim m.L [.Sxx, .Syy, .Szz, .Sxy, .Sxz, .Syz] XV XV (viscoelastic3D D m c)
      (elastic3D D m c) := by
  obtain ⟨d1, d2, d3, d4, d5, d6, d7, d8, d9, d10⟩ := hD
  have e : elastic3D D m c = List.flatten [
    [.mul U D.Dxf (.fld .Sxx)], cpmlHalf c U .Sxx .x,
    [.mul UT (selFS c D.DybFS D.Dyb) (.fld .Sxy)], cpmlFull c UT .Sxy .y,
    [.add U UT, .mul UT D.Dzb (.fld .Sxz)], cpmlFull c UT .Sxz .z,
    [.add U UT, .scale U m.invRhoX, .add (.fld .vX) U],
    [.mul U D.Dxb (.fld .Sxy)], cpmlFull c U .Sxy .x,
    [.mul UT (selFS c D.DyfFS D.Dyf) (.fld .Syy)], cpmlHalf c UT .Syy .y,
    [.add U UT, .mul UT D.Dzb (.fld .Syz)], cpmlFull c UT .Syz .z,
    [.add U UT, .scale U m.invRhoY, .add (.fld .vY) U],
    [.mul U D.Dxb (.fld .Sxz)], cpmlFull c U .Sxz .x,
    [.mul UT (selFS c D.DybFS D.Dyb) (.fld .Syz)], cpmlFull c UT .Syz .y,
    [.add U UT, .mul UT D.Dzf (.fld .Szz)], cpmlHalf c UT .Szz .z,
    [.add U UT, .scale U m.invRhoZ, .add (.fld .vZ) U],
    [.mul Vxx D.Dxb (.fld .vX), .mul Vyy D.Dyb (.fld .vY), .mul Vzz D.Dzb (.fld .vZ)],
    cpmlFull c Vxx .vX .x, cpmlFull c Vyy .vY .y, cpmlFull c Vzz .vZ .z,
    [.copy U Vxx, .add U Vyy, .add U Vzz, .scale U m.pMod],
    [.add (.fld .Sxx) U, .add (.fld .Syy) U, .add (.fld .Szz) U],
    [.sum U Vyy Vzz], [.scale U m.sMod, .axpy (.fld .Sxx) (-2) U],
    [.sum U Vxx Vzz], [.scale U m.sMod, .axpy (.fld .Syy) (-2) U],
    [.sum U Vxx Vyy], [.scale U m.sMod, .axpy (.fld .Szz) (-2) U],
    [.mul U D.Dyf (.fld .vX)], cpmlHalf c U .vX .y,
    [.mul UT D.Dxf (.fld .vY)], cpmlHalf c UT .vY .x,
    [.add U UT, .scale U m.sModXY], [.add (.fld .Sxy) U],
    [.mul U D.Dzf (.fld .vX)], cpmlHalf c U .vX .z,
    [.mul UT D.Dxf (.fld .vZ)], cpmlHalf c UT .vZ .x,
    [.add U UT, .scale U m.sModXZ], [.add (.fld .Sxz) U],
    [.mul U D.Dzf (.fld .vY)], cpmlHalf c U .vY .z,
    [.mul UT D.Dyf (.fld .vZ)], cpmlHalf c UT .vZ .y,
    [.add U UT, .scale U m.sModYZ], [.add (.fld .Syz) U],
    ifFS c ([.sum U Vxx Vzz] ++ surfaceZero c (.fld .Syy) ++ exchange3D m c U),
    damp c [.Sxx, .Syy, .Szz, .Sxy, .Sxz, .Syz, .vX, .vY, .vZ]] := by
    unfold elastic3D
    rw [d1, d2, d3, d4, d5, d6, d7, d8, d9, d10]
    rfl
  rw [e]
  unfold viscoelastic3D
  iterate 26 sim_step
  refine Sim.fcons (fun s t h => h.relaxNormal [.Sxx, .Syy, .Szz] (by simp) hP) ?_
  sim_step
  refine Sim.fcons (fun s t h => h.relaxTrans .Sxx (by simp) hS) ?_
  refine Sim.fcons (Y := XV) (fun s t h => h.assign (d := U) (st := .sum U Vxx Vzz) (by simp)
    (by simp [Stmt.reads, Shared]) rfl rfl) ?_
  refine Sim.fcons (fun s t h => h.relaxTrans .Syy (by simp) hS) ?_
  refine Sim.fcons (Y := XV) (fun s t h => h.assign (d := U) (st := .sum U Vxx Vyy) (by simp)
    (by simp [Stmt.reads, Shared]) rfl rfl) ?_
  refine Sim.fcons (fun s t h => h.relaxTrans .Szz (by simp) hS) ?_
  refine Sim.fcons (Y := XV) (fun s t h => h.assign (d := U) (st := .mul U D.Dyf (.fld .vX))
    (by simp) (by simp [Stmt.reads, Shared]) rfl rfl) ?_
  iterate 4 sim_step
  refine Sim.fcons (fun s t h => h.relaxShear .Sxy (by simp) _ hXY hS) ?_
  iterate 5 sim_step
  refine Sim.fcons (fun s t h => h.relaxShear .Sxz (by simp) _ hXZ hS) ?_
  iterate 5 sim_step
  refine Sim.fcons (fun s t h => h.relaxShear .Syz (by simp) _ hYZ hS) ?_
  refine Sim.fcons (Y := XV) ?_ (by sim_step; exact .fnil)
  unfold ifFS
  by_cases h1 : c.useFreeSurface = 1
  · rw [if_pos h1, if_pos h1]
    have e2 : ∀ t : State ι, exec ((([.sum U Vxx Vzz] ++ exchange3D m c U) ++
        surfaceZero c (.fld .Syy)) ++ []) t =
        exec ([.sum U Vxx Vzz] ++ surfaceZero c (.fld .Syy) ++ exchange3D m c U) t := by
      intro t
      have := exchange3D_comm m c (exec [.sum U Vxx Vzz] t)
      rw [exec_append, exec_append] at this
      rw [List.append_nil, exec_append, exec_append, exec_append, exec_append, this]
    intro s t h
    rw [← e2]
    revert s t h
    refine Sim.append (Y := XV) (Sim.append (Y := XV) (Sim.append (Y := XV) ?_ ?_) ?_) ?_
    · sim_shared
    · exact fun s t h => h.exchange [.Sxx, .Szz] (by simp) U (by simp [Shared]) hP hS
    · exact Sim.shared (by simp [surfaceZero, Stmt.onShared, Shared, Stmt.reads, Stmt.writes])
    · exact fun s t h => h.rels_same (by simp) .Syy (by simp)
  · rw [if_neg h1, if_neg h1]
    exact fun _ _ h => h

end Verif.Solver
