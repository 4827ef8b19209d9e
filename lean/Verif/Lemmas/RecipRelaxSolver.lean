import Verif.Lemmas.RecipRelax
import Verif.Lemmas.RecipPorts
import Verif.Lemmas.Visco
/-! Reciprocity: solvers with relaxation mechanisms as leapfrog schemes. -/
set_option linter.dupNamespace false
set_option linter.unusedSectionVars false
set_option linter.constructorNameAsVariable false
set_option linter.unusedSimpArgs false

namespace Verif.Solver
open Matrix Verif.Recip

variable {ι : Type} [Fintype ι] [DecidableEq ι]

section Generic
variable {A B : Type} [Fintype A] [Fintype B] [DecidableEq A] [DecidableEq B] {N : ℕ}

/-- New relaxation variables. -/
noncomputable def nextR (d : Scheme A B ι) (x : Relax (Fin N) B ι) (z : B → ι → ℝ) (t : A → ι → ℝ)
    (φ : A → B → ι → ℝ) (r : Fin N → B → ι → ℝ) (l : Fin N) (b : B) (i : ι) : ℝ :=
  x.c l b i * r l b i + (x.Gz l b i * z b i -
    ∑ b', x.Ge l i b b' * ∑ a, ((d.D a b').transpose.mulVec (t a) i + nextφ d t φ a b' i))

/-- Contribution of the relaxation variables to the second half step. -/
noncomputable def relaxed (x : Relax (Fin N) B ι) (r r' : Fin N → B → ι → ℝ) (b : B) (i : ι) : ℝ :=
  ∑ l, (x.h0 l b i * r l b i + x.h1 l b i * r' l b i)

/-- The time step `p` acts on the wavefields, memory and relaxation variables like the scheme. -/
def StepsR (d : Scheme A B ι) (x : Relax (Fin N) B ι) (p : List (Stmt ι)) (gA : A → Fld) (gB : B → Fld)
    (mψ mφ : State ι → A → B → ι → ℝ) : Prop :=
  ∀ s, (∀ a i, exec p s (.fld (gA a)) i = d.w a i *
      nextT d (fun a => s (.fld (gA a))) (fun b => s (.fld (gB b))) (mψ s) a i) ∧
    (∀ b i, exec p s (.fld (gB b)) i = nextZ d (fun b => s (.fld (gB b)))
        (nextT d (fun a => s (.fld (gA a))) (fun b => s (.fld (gB b))) (mψ s)) (mφ s) b i +
      relaxed x (fun l b => s (.rel (gB b) l)) (fun l b => exec p s (.rel (gB b) l)) b i) ∧
    (∀ l b i, exec p s (.rel (gB b) (l : Fin N)) i = nextR d x (fun b => s (.fld (gB b)))
        (nextT d (fun a => s (.fld (gA a))) (fun b => s (.fld (gB b))) (mψ s)) (mφ s)
        (fun l b => s (.rel (gB b) l)) l b i) ∧
    (∀ a b i, mψ (exec p s) a b i = nextψ d (fun b => s (.fld (gB b))) (mψ s) a b i) ∧
    (∀ a b i, mφ (exec p s) a b i =
      nextφ d (nextT d (fun a => s (.fld (gA a))) (fun b => s (.fld (gB b))) (mψ s)) (mφ s) a b i)

theorem run_solR {S : Solver ι} {d : Scheme A B ι} {x : Relax (Fin N) B ι} {gA : A → Fld} {gB : B → Fld}
    {mψ mφ : State ι → A → B → ι → ℝ} (hs : StepsR d x S.prog gA gB mψ mφ)
    (hψ0 : ∀ a b i, mψ 0 a b i = 0) (hφ0 : ∀ a b i, mφ 0 a b i = 0)
    (hψa : ∀ srcs t s, mψ (applySource S srcs t s) = mψ s)
    (hφa : ∀ srcs t s, mφ (applySource S srcs t s) = mφ s)
    {ty : SType} {pos : ι} {W : ℝ} {u : A → ι → ℝ} {v : B → ι → ℝ}
    (hp : Port S d gA (fun b => .fld (gB b)) ty pos W u v)
    (hv : ∀ l i b b', x.Ge l i b b' * v b' i = 0) (sig : ℕ → ℝ) :
    d.SolR x sig u v (fun n a => run S [⟨ty, pos, fun t => W * sig t⟩] 0 n (.fld (gA a)))
      (fun n b => run S [⟨ty, pos, fun t => W * sig t⟩] 0 n (.fld (gB b)))
      (fun n => nextT d (fun a => run S [⟨ty, pos, fun t => W * sig t⟩] 0 n (.fld (gA a)))
        (fun b => run S [⟨ty, pos, fun t => W * sig t⟩] 0 n (.fld (gB b)))
        (mψ (run S [⟨ty, pos, fun t => W * sig t⟩] 0 n)))
      (fun n => mψ (run S [⟨ty, pos, fun t => W * sig t⟩] 0 n))
      (fun n => mφ (run S [⟨ty, pos, fun t => W * sig t⟩] 0 n))
      (fun n l b => run S [⟨ty, pos, fun t => W * sig t⟩] 0 n (.rel (gB b) l)) := by
  set r := run S [⟨ty, pos, fun t => W * sig t⟩] 0
  have hr : ∀ n, r (n + 1) = applySource S [⟨ty, pos, fun t => W * sig t⟩] n (exec S.prog (r n)) :=
    fun n => rfl
  have hψS : ∀ n a b i, mψ (r (n + 1)) a b i =
      nextψ d (fun b => r n (.fld (gB b))) (mψ (r n)) a b i := by
    intro n a b i
    rw [hr, hψa, (hs _).2.2.2.1]
  have hsig : ∀ (f : Fld) n i, (if f ∈ S.srcFlds ty ∧ pos = i then W * sig n else 0) =
      sig n * (if f ∈ S.srcFlds ty ∧ pos = i then W else 0) := by
    intro f n i
    split <;> ring
  have hφS : ∀ n a b i, mφ (r (n + 1)) a b i = nextφ d (nextT d (fun a => r n (.fld (gA a)))
      (fun b => r n (.fld (gB b))) (mψ (r n))) (mφ (r n)) a b i := fun n a b i => by
    rw [hr, hφa, (hs _).2.2.2.2]
  have hrel : ∀ n l b, r (n + 1) (.rel (gB b) (l : Fin N)) = exec S.prog (r n) (.rel (gB b) l) :=
    fun n l b => rfl
  refine ⟨fun a i => rfl, fun b i => rfl, fun a b i => hψ0 a b i, fun a b i => hφ0 a b i,
    fun l b i => rfl, hψS, fun n a b i => ?_, fun n a i => ?_, fun n a i => ?_, fun n l b i => ?_,
    fun n b i => ?_, hv⟩
  · rw [hφS]
    rfl
  · show nextT d _ _ _ a i = _
    simp only [hψS]
    rfl
  · rw [hr]
    simp only [applySource, List.map_cons, List.map_nil, List.sum_cons, List.sum_nil, add_zero]
    rw [(hs _).1, hsig, hp.srcA]
    ring
  · simp only [hφS]
    rw [hrel, (hs _).2.2.1]
    rfl
  · simp only [hφS, hrel]
    have e : r (n + 1) (.fld (gB b)) i = exec S.prog (r n) (.fld (gB b)) i +
        sig n * (if gB b ∈ S.srcFlds ty ∧ pos = i then W else 0) := by
      rw [hr]
      simp [applySource, hsig]
    have := hp.srcB b i
    simp only at this
    rw [e, (hs _).2.1, this]
    rfl

/-- A source and a receiver with a weight; the source does not drive relaxation mechanisms. -/
def HasPortR (S : Solver ι) (d : Scheme A B ι) (x : Relax (Fin N) B ι) (gA : A → Fld) (gB : B → Fld)
    (ty : SType) (pos : ι) (W : ℝ) : Prop :=
  ∃ u v, Port S d gA (fun b => .fld (gB b)) ty pos W u v ∧ (∀ a i, u a i ≠ 0 → i = pos) ∧
    (∀ b i, v b i ≠ 0 → i = pos) ∧ ∀ l i b b', x.Ge l i b b' * v b' i = 0

/-- Reciprocity of a solver with relaxation mechanisms on staggered components. -/
theorem recip_portsR {S : Solver ι} {c : BC ι} {L : Lay A B} {x : Relax (Fin N) B ι}
    {R : A → ι → ℝ} {D : A → B → Matrix ι ι ℝ} {Az Q : ι → Matrix B B ℝ}
    (hs : StepsR (layout L c R D Az Q) x S.prog L.gA L.gB (L.mψ c) (L.mφ c))
    (hu : ∀ h x i, 1 + c.ca h x i ≠ 0)
    (hD : ∀ a b i j, D a b i j ≠ 0 → ∃ x, L.ax a b = some x ∧ c.Across x i j ∧
      ∀ y, y ≠ x → half (L.gA a) y = half (L.gB b) y)
    (hdiag : ∀ i b b', b ≠ b' → Az i b b' = 0)
    (hsame : ∀ i b b', Q i b b' ≠ 0 ∨ (∃ l, x.Ge l i b b' ≠ 0) → half (L.gB b) = half (L.gB b') ∧
      Az i b b = Az i b' b' ∧ ∀ l, x.Gz l b i = x.Gz l b' i ∧ x.c l b i = x.c l b' i ∧
        x.h0 l b i = x.h0 l b' i ∧ x.h1 l b i = x.h1 l b' i)
    (hQ : ∀ i b b', Q i b b' = Q i b' b) (hG : ∀ l i b b', x.Ge l i b b' = x.Ge l i b' b)
    {ty ty' : SType} {pos pos' : ι} {W W' : ℝ}
    (hp : HasPortR S (layout L c R D Az Q) x L.gA L.gB ty pos W)
    (hp' : HasPortR S (layout L c R D Az Q) x L.gA L.gB ty' pos' W')
    (hi : c.Inside pos) (hi' : c.Inside pos') (sig : ℕ → ℝ) (t : ℕ) :
    W * sample S [⟨ty, pos, sig⟩] 0 ⟨ty', pos'⟩ t = W' * sample S [⟨ty', pos', sig⟩] 0 ⟨ty, pos⟩ t := by
  obtain ⟨u, v, q, h1, h2, h3⟩ := hp
  obtain ⟨u', v', q', h1', h2', h3'⟩ := hp'
  have key : ∀ (W : ℝ) (ty ty' : SType) (pos pos' : ι),
      W * sample S [⟨ty, pos, sig⟩] 0 ⟨ty', pos'⟩ t =
        sample S [⟨ty, pos, fun t => W * sig t⟩] 0 ⟨ty', pos'⟩ t := by
    intro W ty ty' pos pos'
    have := sample_lin S W 0 [⟨ty, pos, sig⟩] [] 0 0 ⟨ty', pos'⟩ t
    simp only [weighted, List.map_cons, List.map_nil, List.append_nil, smul_zero, add_zero,
      zero_mul] at this
    exact this.symm
  have ma : ∀ srcs t s, L.mψ c (applySource S srcs t s) = L.mψ c s := fun srcs t s => by
    funext a b
    exact memOf_applySource ..
  have mb : ∀ srcs t s, L.mφ c (applySource S srcs t s) = L.mφ c s := fun srcs t s => by
    funext a b
    exact memOf_applySource ..
  rw [key, key]
  unfold sample
  rw [q'.recv, q.recv]
  refine reciprocityR (layout L c R D Az Q) x (fun a => omega c (L.gA a)) (fun b => omega c (L.gB b))
    (fun a i => omega_unit hu _ _) (fun a b i j h => ?_) hdiag (fun i b b' h => ?_) hQ hG
    (run_solR hs (fun a b i => memOf_zero ..) (fun a b i => memOf_zero ..) ma mb q h3 sig)
    (run_solR hs (fun a b i => memOf_zero ..) (fun a b i => memOf_zero ..) ma mb q' h3' sig)
    (fun a i h => ?_) (fun b i h => ?_) (t + 1)
  · obtain ⟨x, hx, hac, hh⟩ := hD a b i j h
    have := omega_rel hac hh
    simpa [layout, coefA, coefB, hx, stretchAt] using this
  · obtain ⟨e1, e2, e3⟩ := hsame i b b' h
    exact ⟨omega_congr e1 i, e2, e3⟩
  · rcases h with h | h
    · exact h1 a i h ▸ omega_inside hi _
    · exact h1' a i h ▸ omega_inside hi' _
  · rcases h with h | h
    · exact h2 b i h ▸ omega_inside hi _
    · exact h2' b i h ▸ omega_inside hi' _

/-- A time step consisting of two half steps. -/
theorem StepsR.split {d : Scheme A B ι} {x : Relax (Fin N) B ι} {p : List (Stmt ι)} {gA : A → Fld}
    {gB : B → Fld} {mψ mφ : State ι → A → B → ι → ℝ} {L : List (List (Stmt ι))} (hp : p = L.flatten)
    (k : ℕ)
    (h1 : ∀ s, (∀ a i, exec (L.take k).flatten s (.fld (gA a)) i =
        nextT d (fun a => s (.fld (gA a))) (fun b => s (.fld (gB b))) (mψ s) a i) ∧
      (∀ b, exec (L.take k).flatten s (.fld (gB b)) = s (.fld (gB b))) ∧
      (∀ l b, exec (L.take k).flatten s (.rel (gB b) (l : Fin N)) = s (.rel (gB b) l)) ∧
      (∀ a b i, mψ (exec (L.take k).flatten s) a b i =
        nextψ d (fun b => s (.fld (gB b))) (mψ s) a b i) ∧
      (∀ a b i, mφ (exec (L.take k).flatten s) a b i = mφ s a b i))
    (h2 : ∀ s, (∀ a i, exec (L.drop k).flatten s (.fld (gA a)) i = d.w a i * s (.fld (gA a)) i) ∧
      (∀ b i, exec (L.drop k).flatten s (.fld (gB b)) i =
        nextZ d (fun b => s (.fld (gB b))) (fun a => s (.fld (gA a))) (mφ s) b i +
        relaxed x (fun l b => s (.rel (gB b) l))
          (fun l b => exec (L.drop k).flatten s (.rel (gB b) l)) b i) ∧
      (∀ l b i, exec (L.drop k).flatten s (.rel (gB b) (l : Fin N)) i =
        nextR d x (fun b => s (.fld (gB b))) (fun a => s (.fld (gA a))) (mφ s)
          (fun l b => s (.rel (gB b) l)) l b i) ∧
      (∀ a b i, mψ (exec (L.drop k).flatten s) a b i = mψ s a b i) ∧
      (∀ a b i, mφ (exec (L.drop k).flatten s) a b i =
        nextφ d (fun a => s (.fld (gA a))) (mφ s) a b i)) :
    StepsR d x p gA gB mψ mφ := by
  intro s
  have e : exec p s = exec (L.drop k).flatten (exec (L.take k).flatten s) := by
    rw [hp, ← exec_append, ← List.flatten_append, List.take_append_drop]
  obtain ⟨a1, a2, a5, a3, a4⟩ := h1 s
  obtain ⟨b1, b2, b5, b3, b4⟩ := h2 (exec (L.take k).flatten s)
  have hT : (fun a => exec (L.take k).flatten s (.fld (gA a))) =
      nextT d (fun a => s (.fld (gA a))) (fun b => s (.fld (gB b))) (mψ s) := by
    funext a i
    exact a1 a i
  have hφ : mφ (exec (L.take k).flatten s) = mφ s := by
    funext a b i
    exact a4 a b i
  have hz : (fun b => exec (L.take k).flatten s (.fld (gB b))) = fun b => s (.fld (gB b)) := by
    funext b
    exact a2 b
  have hr : (fun (l : Fin N) b => exec (L.take k).flatten s (.rel (gB b) l)) =
      fun (l : Fin N) b => s (.rel (gB b) l) := by
    funext l b
    exact a5 l b
  have hR : ∀ l b i, exec p s (.rel (gB b) (l : Fin N)) i = nextR d x (fun b => s (.fld (gB b)))
        (nextT d (fun a => s (.fld (gA a))) (fun b => s (.fld (gB b))) (mψ s)) (mφ s)
        (fun l b => s (.rel (gB b) l)) l b i := by
    intro l b i
    rw [e, b5, hz, hT, hφ, hr]
  refine ⟨fun a i => ?_, fun b i => ?_, hR, fun a b i => ?_, fun a b i => ?_⟩
  · rw [e, b1, a1]
  · rw [e, b2, hz, hT, hφ, hr]
  · rw [e, b3, a3]
  · rw [e, b4, hT, hφ]

end Generic

/-! ### Relaxation of the seismic solvers -/

theorem mem_congr {c : BC ι} {s t : State ι} {f : Fld} {ax : Axis}
    (h : s (.psi f ax) = t (.psi f ax)) : c.mem s f ax = c.mem t f ax := by
  funext i
  unfold BC.mem
  split
  · rfl
  · rw [h]

/-- The part of an update that depends on the relaxation mechanisms. -/
noncomputable def Mod.relaxSum (m : Mod ι) (s : State ι) (f : Fld) (d : ℝ) (i : ι) : ℝ :=
  ∑ l : Fin m.L, (m.DThalf * s (.rel f l) i + m.DThalf * m.relaxed l (s (.rel f l) i) d 1)

theorem relaxShear_fld (m : Mod ι) (f : Fld) (tau : ι → ℝ) (s : State ι) (g : Fld) :
    exec (relaxShear m f tau) s (.fld g) = if g = f then fun i => s (.fld f) i +
      m.relaxSum s f (s U i * tau i) i + s U i * m.onePlusLtauS i else s (.fld g) := by
  obtain ⟨h1, -, h3⟩ := relaxShear_exec m f tau s
  by_cases hg : g = f
  · subst hg
    rw [if_pos rfl, h1]
    funext i
    rw [Finset.sum_range, Mod.relaxSum]
    congr 2
    refine Finset.sum_congr rfl fun l _ => ?_
    simp only [Mod.relaxed]
    ring
  · rw [if_neg hg]
    exact h3 _ (by simpa using hg) (by simp) (by simp) (by simp)

theorem relaxShear_rel (m : Mod ι) (f : Fld) (tau : ι → ℝ) (s : State ι) (g : Fld) (l : Fin m.L) :
    exec (relaxShear m f tau) s (.rel g l) = if g = f then fun i =>
      m.relaxed l (s (.rel f l) i) (s U i * tau i) 1 else s (.rel g l) := by
  obtain ⟨-, h2, h3⟩ := relaxShear_exec m f tau s
  by_cases hg : g = f
  · subst hg
    rw [if_pos rfl, h2 l l.isLt]
    funext i
    simp only [Mod.relaxed]
    ring
  · rw [if_neg hg]
    exact h3 _ (by simp) (by intro l'; simp [hg]) (by simp) (by simp)

theorem relaxShear_scr (m : Mod ι) (f : Fld) (tau : ι → ℝ) (s : State ι) {x : Scr}
    (h1 : x ≠ .update) (h2 : x ≠ .update2) :
    exec (relaxShear m f tau) s (.scr x) = s (.scr x) :=
  (relaxShear_exec m f tau s).2.2 _ (by simp) (by simp) (by simpa using h1) (by simpa using h2)

theorem relaxShear_mem (c : BC ι) (m : Mod ι) (f : Fld) (tau : ι → ℝ) (s : State ι) (g : Fld)
    (ax : Axis) : c.mem (exec (relaxShear m f tau) s) g ax = c.mem s g ax :=
  mem_congr ((relaxShear_exec m f tau s).2.2 _ (by simp) (by simp) (by simp) (by simp))

theorem relaxNormal_fld (m : Mod ι) {fs : List Fld} (hfs : fs.Nodup) (s : State ι) (f : Fld) :
    exec (relaxNormal m fs) s (.fld f) = if f ∈ fs then fun i => s (.fld f) i +
      ∑ l : Fin m.L, m.DThalf * s (.rel f l) i + s U i * m.onePlusLtauP i else s (.fld f) := by
  rw [(relaxNormal_exec m fs hfs s).1 f]
  simp only [Finset.sum_range]

theorem relaxNormal_rel (m : Mod ι) {fs : List Fld} (hfs : fs.Nodup) (s : State ι) (f : Fld)
    (l : Fin m.L) : exec (relaxNormal m fs) s (.rel f l) = if f ∈ fs then fun i =>
      s (.rel f l) i * m.vc1 l - m.invRelax l * s U i * m.tauP i else s (.rel f l) := by
  rw [(relaxNormal_exec m fs hfs s).2.1 f l]
  simp only [l.isLt, and_true]

theorem relaxNormal_scr (m : Mod ι) {fs : List Fld} (hfs : fs.Nodup) (s : State ι) {x : Scr}
    (h1 : x ≠ .update) (h2 : x ≠ .update2) : exec (relaxNormal m fs) s (.scr x) = s (.scr x) :=
  (relaxNormal_exec m fs hfs s).2.2 x h1 h2

theorem relaxNormal_mem (c : BC ι) (m : Mod ι) (fs : List Fld) (s : State ι) (g : Fld) (ax : Axis) :
    c.mem (exec (relaxNormal m fs) s) g ax = c.mem s g ax := by
  refine mem_congr (exec_frame _ _ fun st hst => ?_)
  simp only [relaxNormal, forLoop, List.mem_append, List.mem_flatMap, List.mem_cons, List.not_mem_nil,
    or_false, List.mem_map] at hst
  rcases hst with (⟨l, -, (rfl | rfl) | ⟨f, -, rfl | rfl | rfl⟩⟩ | rfl) | ⟨f, -, rfl⟩ <;>
    simp [Stmt.writes]

theorem relaxTrans_fld (m : Mod ι) (f : Fld) (s : State ι) (g : Fld) :
    exec (relaxTrans m f) s (.fld g) = if g = f then fun i => s (.fld f) i + ∑ l : Fin m.L,
      m.DThalf * ((s (.rel f l) i + m.invRelax l * (s U i * m.sMod i * 2) * m.tauS i) * m.vc2 l) -
      s U i * m.sMod i * 2 * m.onePlusLtauS i else s (.fld g) := by
  obtain ⟨h1, -, h3⟩ := relaxTrans_exec m f s
  by_cases hg : g = f
  · subst hg
    rw [if_pos rfl, h1]
    simp only [Finset.sum_range]
  · rw [if_neg hg]
    exact h3 _ (by simpa using hg) (by simp) (by simp) (by simp)

theorem relaxTrans_rel (m : Mod ι) (f : Fld) (s : State ι) (g : Fld) (l : Fin m.L) :
    exec (relaxTrans m f) s (.rel g l) = if g = f then fun i =>
      (s (.rel f l) i + m.invRelax l * (s U i * m.sMod i * 2) * m.tauS i) * m.vc2 l
      else s (.rel g l) := by
  obtain ⟨-, h2, h3⟩ := relaxTrans_exec m f s
  by_cases hg : g = f
  · subst hg
    rw [if_pos rfl, h2 l l.isLt]
  · rw [if_neg hg]
    exact h3 _ (by simp) (by intro l'; simp [hg]) (by simp) (by simp)

theorem relaxTrans_scr (m : Mod ι) (f : Fld) (s : State ι) {x : Scr} (h1 : x ≠ .update)
    (h2 : x ≠ .update2) : exec (relaxTrans m f) s (.scr x) = s (.scr x) :=
  (relaxTrans_exec m f s).2.2 _ (by simp) (by simp) (by simpa using h1) (by simpa using h2)

theorem relaxTrans_mem (c : BC ι) (m : Mod ι) (f : Fld) (s : State ι) (g : Fld) (ax : Axis) :
    c.mem (exec (relaxTrans m f) s) g ax = c.mem s g ax :=
  mem_congr ((relaxTrans_exec m f s).2.2 _ (by simp) (by simp) (by simp) (by simp))

/-- The mechanisms of the seismic solvers; `G` are the moduli of the mechanisms. -/
noncomputable def Mod.relax {B : Type} (m : Mod ι) (c : BC ι) (G : ι → Matrix B B ℝ) :
    Relax (Fin m.L) B ι where
  c := fun l _ _ => m.vc1 l * m.vc2 l
  Gz := fun _ _ _ => 0
  Ge := fun l i => (-(m.invRelax l * m.vc2 l)) • G i
  h0 := fun _ _ i => c.wt i * m.DThalf
  h1 := fun _ _ i => c.wt i * m.DThalf

/-- The SH solver with relaxation as a scheme. -/
noncomputable def viscosh2DScheme (D : Deriv ι) (m : Mod ι) (c : BC ι) : Scheme (Fin 1) (Fin 2) ι :=
  layout layS2 c ![m.invRho] ![![D.Dxb, D.Dyb]] (fun i => c.wt i • 1)
    (fun i => c.wt i • !![m.sModXZ i * m.onePlusLtauS i, 0; 0, m.sModYZ i * m.onePlusLtauS i])

/-- Moduli of the mechanisms of the SH solver. -/
noncomputable def viscoshG (m : Mod ι) (i : ι) : Matrix (Fin 2) (Fin 2) ℝ :=
  !![m.sModXZ i * m.tauSXZ i, 0; 0, m.sModYZ i * m.tauSYZ i]

/-- Evaluate the half steps of a solver with relaxation. -/
macro "relax_half_steps" k:num d:ident l:ident g:ident : tactic => `(tactic| (
  rename_i hD hc
  obtain ⟨g1, g2, g3, g4, k1, k2, k3, k4⟩ := hD.getters
  have a1 := hD.adjX
  have a2 := hD.adjY
  have a3 := hD.adjZ
  refine StepsR.split rfl $k (fun s => ?_) (fun s => ?_)
  · refine ⟨fun a i => ?_, fun b => ?_, fun l b => ?_, fun a b i => ?_, fun a b i => ?_⟩ <;>
    (try fin_cases a) <;> (try fin_cases b) <;> (try intro i) <;>
    simp [interp, ifFS, selFS, hc, g1, g2, g3, g4, k1, k2, k3, k4, cpmlHalf_fld, cpmlHalf_scr,
      cpmlHalf_rel, cpmlFull_fld, cpmlFull_scr, cpmlFull_rel, mem_cpmlHalf, mem_cpmlFull, damp_fld,
      damp_mem, damp_rel, mem_set_fld, mem_set_scr, mem_set_rel, Stmt.exec, set_ne, BC.upd,
      nextT, nextZ, nextψ, nextφ, layout, Lay.mψ, Lay.mφ, coefA, coefB, memOf, half, $d:ident,
      $l:ident, a1, a2, a3, Matrix.neg_mulVec, Fin.sum_univ_two, Fin.sum_univ_three,
      Fin.sum_univ_six] <;> ring
  · refine ⟨fun a i => ?_, fun b i => ?_, fun l b i => ?_, fun a b i => ?_, fun a b i => ?_⟩ <;>
    (try fin_cases a) <;> (try fin_cases b) <;> (try intro i) <;>
    simp [interp, ifFS, selFS, hc, g1, g2, g3, g4, k1, k2, k3, k4, cpmlHalf_fld, cpmlHalf_scr,
      cpmlHalf_rel, cpmlFull_fld, cpmlFull_scr, cpmlFull_rel, mem_cpmlHalf, mem_cpmlFull, damp_fld,
      damp_mem, damp_rel, mem_set_fld, mem_set_scr, mem_set_rel, Stmt.exec, set_ne, BC.upd,
      nextT, nextZ, nextψ, nextφ, layout, Lay.mψ, Lay.mφ, coefA, coefB, memOf, half, $d:ident,
      $l:ident, a1, a2, a3, Matrix.neg_mulVec, Fin.sum_univ_two, Fin.sum_univ_three,
      Fin.sum_univ_six, relaxShear_fld, relaxShear_rel, relaxShear_mem, relaxShear_scr,
      relaxNormal_fld, relaxNormal_rel, relaxNormal_scr, relaxNormal_mem, relaxTrans_fld,
      relaxTrans_rel, relaxTrans_scr, relaxTrans_mem, Mod.relaxSum, Solver.relaxed, Mod.relax, nextR,
      $g:ident, Finset.sum_add_distrib, ← Finset.mul_sum] <;>
    first | ring1 | (simp only [Mod.relaxed]; ring1)))

theorem viscosh2D_steps {D : Deriv ι} {m : Mod ι} {c : BC ι} (hD : D.regular)
    (hc : c.useFreeSurface ≠ 1) :
    StepsR (viscosh2DScheme D m c) (m.relax c (viscoshG m)) (viscosh2D D m c) layS2.gA layS2.gB
      (layS2.mψ c) (layS2.mφ c) := by
  relax_half_steps 4 viscosh2DScheme layS2 viscoshG

/-- The 2D elastic solver with relaxation as a scheme. -/
noncomputable def viscoelastic2DScheme (D : Deriv ι) (m : Mod ι) (c : BC ι) :
    Scheme (Fin 2) (Fin 3) ι :=
  layout layE2 c ![m.invRhoX, m.invRhoY] ![![D.Dxf, 0, D.Dyb], ![0, D.Dyf, D.Dxb]]
    (fun i => c.wt i • 1)
    (fun i => c.wt i • !![m.pMod i * m.onePlusLtauP i,
        m.pMod i * m.onePlusLtauP i - 2 * m.sMod i * m.onePlusLtauS i, 0;
      m.pMod i * m.onePlusLtauP i - 2 * m.sMod i * m.onePlusLtauS i, m.pMod i * m.onePlusLtauP i, 0;
      0, 0, m.sModXY i * m.onePlusLtauS i])

/-- Moduli of the mechanisms of the 2D elastic solver. -/
noncomputable def viscoelastic2DG (m : Mod ι) (i : ι) : Matrix (Fin 3) (Fin 3) ℝ :=
  !![m.pMod i * m.tauP i, m.pMod i * m.tauP i - 2 * m.sMod i * m.tauS i, 0;
    m.pMod i * m.tauP i - 2 * m.sMod i * m.tauS i, m.pMod i * m.tauP i, 0;
    0, 0, m.sModXY i * m.tauSXY i]

set_option maxHeartbeats 2000000 in
theorem viscoelastic2D_steps {D : Deriv ι} {m : Mod ι} {c : BC ι} (hD : D.regular)
    (hc : c.useFreeSurface = 0) :
    StepsR (viscoelastic2DScheme D m c) (m.relax c (viscoelastic2DG m)) (viscoelastic2D D m c)
      layE2.gA layE2.gB (layE2.mψ c) (layE2.mφ c) := by
  relax_half_steps 10 viscoelastic2DScheme layE2 viscoelastic2DG

end Verif.Solver
