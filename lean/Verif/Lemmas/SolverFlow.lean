import Verif.Lemmas.Solver
import Batteries.Tactic.SeqFocus
/-! No solver uses a vector that is neither a wavefield, nor a memory variable, nor assigned before
in the same time step. -/
set_option linter.dupNamespace false
set_option linter.unusedSimpArgs false
set_option linter.unusedSectionVars false

namespace Verif.Solver
open Matrix

variable {ι : Type} [Fintype ι]

/-- The vectors that carry information from one time step to the next. -/
def Solver.live (S : Solver ι) : Set Var := {v | v ∈ S.fields ∨ v ∈ S.memory}

theorem mem_rels {L : ℕ} {fs : List Fld} {v : Var} :
    v ∈ rels L fs ↔ ∃ f l, v = .rel f l ∧ l < L ∧ f ∈ fs := by
  simp only [rels, List.mem_flatMap, List.mem_range, List.mem_map]
  constructor
  · rintro ⟨l, hl, f, hf, rfl⟩
    exact ⟨f, l, rfl, hl, hf⟩
  · rintro ⟨f, l, rfl, hl, hf⟩
    exact ⟨l, hl, f, hf, rfl⟩

theorem rel_mem_rels {L l : ℕ} {f : Fld} {fs : List Fld} :
    Var.rel f l ∈ rels L fs ↔ l < L ∧ f ∈ fs := by
  rw [mem_rels]
  constructor
  · rintro ⟨f', l', h, h1, h2⟩
    injection h with h3 h4
    subst h3 h4
    exact ⟨h1, h2⟩
  · rintro ⟨h1, h2⟩
    exact ⟨f, l, rfl, h1, h2⟩

theorem mem_rels_imp {L : ℕ} {fs : List Fld} {σ : Set Var} :
    (∀ v ∈ rels L fs, v ∈ σ) ↔ ∀ f ∈ fs, ∀ l < L, Var.rel f l ∈ σ := by
  constructor
  · exact fun h f hf l hl => h _ (rel_mem_rels.mpr ⟨hl, hf⟩)
  · rintro h v hv
    obtain ⟨f, l, rfl, hl, hf⟩ := mem_rels.mp hv
    exact h f hf l hl

theorem Flow.fnil {ρ σ : Set Var} (h : ∀ v ∈ ρ, v ∈ σ) : Flow (ι := ι) ρ σ (List.flatten []) := .nil h

theorem Flow.fseg {ρ σ : Set Var} {p : List (Stmt ι)} {rest : List (List (Stmt ι))}
    (h : Flow σ σ p) (hr : Flow ρ σ rest.flatten) : Flow ρ σ (List.flatten (p :: rest)) := by
  rw [List.flatten_cons]
  exact h.append hr

theorem Flow.fcons {ρ σ : Set Var} {st : Stmt ι} {p : List (Stmt ι)} {rest : List (List (Stmt ι))}
    (h : ∀ v ∈ st.reads, v ∈ σ) (hr : Flow ρ (st.after σ) (List.flatten (p :: rest))) :
    Flow ρ σ (List.flatten ((st :: p) :: rest)) := by
  rw [List.flatten_cons, List.cons_append]
  rw [List.flatten_cons] at hr
  exact .cons h hr

theorem Flow.fkeep {ρ σ : Set Var} {st : Stmt ι} {p : List (Stmt ι)} {rest : List (List (Stmt ι))}
    (h : ∀ v ∈ st.writes ++ st.reads, v ∈ σ) (hs : ∀ v ∈ σ, v ∈ st.after σ)
    (hr : Flow ρ σ (List.flatten (p :: rest))) :
    Flow ρ σ (List.flatten ((st :: p) :: rest)) :=
  .fcons (fun v hv => h v (List.mem_append_right _ hv)) (hr.mono hs)

theorem Flow.fend {ρ σ : Set Var} {rest : List (List (Stmt ι))} (hr : Flow ρ σ rest.flatten) :
    Flow ρ σ (List.flatten ([] :: rest)) := by
  simpa using hr

theorem flow_forLoop {σ : Set Var} (L : ℕ) (f : ℕ → List (Stmt ι))
    (h : ∀ l < L, Flow σ σ (f l)) : Flow σ σ (forLoop L f) :=
  Flow.flatMap _ _ fun l hl => h l (List.mem_range.mp hl)

theorem flow_relaxShear {σ : Set Var} (m : Mod ι) (f : Fld) (tau : ι → ℝ) (hU : U ∈ σ)
    (hf : Var.fld f ∈ σ) (hr : ∀ l < m.L, Var.rel f l ∈ σ) : Flow σ σ (relaxShear m f tau) := by
  unfold relaxShear
  refine (flow_forLoop _ _ fun l hl => ?_).append ?_
  · have := hr l hl
    repeat' first
      | refine Flow.cons (by simp [Stmt.reads, Stmt.after, *]) ?_
      | exact Flow.nil (fun v hv => by simp [Stmt.after, hv])
  · repeat' first
      | refine Flow.cons (by simp [Stmt.reads, Stmt.after, *]) ?_
      | exact Flow.nil (fun v hv => by simp [Stmt.after, hv])

theorem flow_relaxTrans {σ : Set Var} (m : Mod ι) (f : Fld) (hU : U ∈ σ)
    (hf : Var.fld f ∈ σ) (hr : ∀ l < m.L, Var.rel f l ∈ σ) : Flow σ σ (relaxTrans m f) := by
  unfold relaxTrans
  refine (Flow.append (τ := σ) ?_ (flow_forLoop _ _ fun l hl => ?_)).append ?_
  · repeat' first
      | refine Flow.cons (by simp [Stmt.reads, Stmt.after, *]) ?_
      | exact Flow.nil (fun v hv => by simp [Stmt.after, hv])
  · have := hr l hl
    repeat' first
      | refine Flow.cons (by simp [Stmt.reads, Stmt.after, *]) ?_
      | exact Flow.nil (fun v hv => by simp [Stmt.after, hv])
  · repeat' first
      | refine Flow.cons (by simp [Stmt.reads, Stmt.after, *]) ?_
      | exact Flow.nil (fun v hv => by simp [Stmt.after, hv])

theorem Flow.post {ρ τ σ : Set Var} {p : List (Stmt ι)} (h : Flow τ σ p) (hs : ρ ⊆ τ) :
    Flow ρ σ p := by
  simpa using h.append (.nil (ι := ι) hs)

theorem flow_relaxNormal {σ : Set Var} (m : Mod ι) (fs : List Fld) (hU : U ∈ σ)
    (hf : ∀ f ∈ fs, Var.fld f ∈ σ) (hr : ∀ f ∈ fs, ∀ l < m.L, Var.rel f l ∈ σ) :
    Flow σ σ (relaxNormal m fs) := by
  unfold relaxNormal
  refine Flow.append (τ := σ) (Flow.append (τ := σ) (flow_forLoop _ _ fun l hl => ?_) ?_) ?_
  · refine (Flow.append (τ := insert U2 σ) (ρ := insert U2 σ) ?_
      (Flow.flatMap _ _ fun f hfs => ?_)).post (Set.subset_insert _ _)
    · repeat' first
        | refine Flow.cons (by simp [Stmt.reads, Stmt.after, *]) ?_
        | exact Flow.nil (fun v hv => by simpa [Stmt.after] using hv)
    · have h1 := hf f hfs
      have h2 := hr f hfs l hl
      repeat' first
        | refine Flow.cons (by simp [Stmt.reads, Stmt.after, *]) ?_
        | exact Flow.nil (fun v hv => by simpa [Stmt.after] using hv)
  · exact Flow.cons (by simp [Stmt.reads, *]) (.nil subset_rfl)
  · exact Flow.map _ _ fun f hfs => Flow.cons (by simp [Stmt.reads, *]) (.nil subset_rfl)

theorem flow_exchangeVisco {σ : Set Var} (m : Mod ι) (c : BC ι) (fs : List Fld) (sh : Var)
    (hsh : sh ∈ σ) (hV : Vyy ∈ σ) (hf : ∀ f ∈ fs, Var.fld f ∈ σ)
    (hr : ∀ f ∈ fs, ∀ l < m.L, Var.rel f l ∈ σ) : Flow σ σ (exchangeVisco m c fs sh) := by
  have ht : ∀ w v, v ∈ σ → Flow (ι := ι) (insert TMP σ) σ [.wmul TMP w v] := fun w v hv =>
    .cons (by simp [Stmt.reads, hv]) (.nil subset_rfl)
  have ht' : ∀ w v, v ∈ σ → Flow (ι := ι) (insert TMP σ) (insert TMP σ) [.wmul TMP w v] :=
    fun w v hv => (ht w v hv).mono (Set.subset_insert _ _)
  have ha : ∀ f ∈ fs, ∀ a, Flow (ι := ι) (insert TMP σ) (insert TMP σ) [.axpy (.fld f) a TMP] :=
    fun f hfs a => .cons (by simp [Stmt.reads, hf f hfs]) (.nil subset_rfl)
  have hmap1 : Flow (ι := ι) (insert TMP σ) (insert TMP σ) (fs.map fun f => .add (.fld f) TMP) :=
    Flow.map _ _ fun f hfs => .cons (by simp [Stmt.reads, hf f hfs]) (.nil subset_rfl)
  have hmap2 : Flow (ι := ι) (insert TMP σ) (insert TMP σ) (fs.map fun f => .sub (.fld f) TMP) :=
    Flow.map _ _ fun f hfs => .cons (by simp [Stmt.reads, hf f hfs]) (.nil subset_rfl)
  have hmap3 : ∀ l < m.L, Flow (ι := ι) (insert TMP σ) (insert TMP σ)
      (fs.map fun f => .add (.rel f l) TMP) := fun l hl =>
    Flow.map _ _ fun f hfs => .cons (by simp [Stmt.reads, hr f hfs l hl]) (.nil subset_rfl)
  have hmap4 : ∀ l < m.L, Flow (ι := ι) (insert TMP σ) (insert TMP σ)
      (fs.map fun f => .sub (.rel f l) TMP) := fun l hl =>
    Flow.map _ _ fun f hfs => .cons (by simp [Stmt.reads, hr f hfs l hl]) (.nil subset_rfl)
  have hsel : ∀ l < m.L, ∀ a, Flow (ι := ι) σ σ
      (fs.flatMap fun f => [.wmul TMP c.select (.rel f l), .axpy (.fld f) a TMP]) := fun l hl a =>
    Flow.flatMap _ _ fun f hfs => ((ht _ _ (hr f hfs l hl)).append (ha f hfs a)).post
      (Set.subset_insert _ _)
  have hsub : σ ⊆ insert TMP σ := Set.subset_insert _ _
  unfold exchangeVisco
  have h1 := ((((flow_forLoop _ _ fun l hl => hsel l hl (-m.DThalf)).append
    (ht (scaleStressHor m c) sh hsh)).append hmap1).append
    (ht' (scaleStressVert m c) Vyy hV)).append hmap2
  refine (h1.post hsub).append (flow_forLoop _ _ fun l hl => ?_)
  exact (((((ht _ _ hsh).append (hmap3 l hl)).append (ht' _ _ hV)).append (hmap4 l hl)).post
    hsub).append (hsel l hl _)

theorem flow_exchange2D {σ : Set Var} (m : Mod ι) (c : BC ι) (sh : Var) (hsh : sh ∈ σ)
    (hV : Vyy ∈ σ) (hf : Var.fld .Sxx ∈ σ) : Flow σ σ (exchange2D m c sh) := by
  unfold exchange2D
  repeat' first
    | refine Flow.cons (by simp [Stmt.reads, Stmt.after, *]) ?_
    | exact Flow.nil (fun v hv => by simp [Stmt.after, hv])

theorem flow_exchange3D {σ : Set Var} (m : Mod ι) (c : BC ι) (sh : Var) (hsh : sh ∈ σ)
    (hV : Vyy ∈ σ) (hf : Var.fld .Sxx ∈ σ) (hz : Var.fld .Szz ∈ σ) :
    Flow σ σ (exchange3D m c sh) := by
  unfold exchange3D
  repeat' first
    | refine Flow.cons (by simp [Stmt.reads, Stmt.after, *]) ?_
    | exact Flow.nil (fun v hv => by simp [Stmt.after, hv])

theorem flow_eUpdate {σ : Set Var} (e : Fld) (ca cb : ι → ℝ) (hU : U ∈ σ) (he : Var.fld e ∈ σ) :
    Flow σ σ (eUpdate e ca cb) := by
  unfold eUpdate
  repeat' first
    | refine Flow.cons (by simp [Stmt.reads, Stmt.after, *]) ?_
    | exact Flow.nil (fun v hv => by simp [Stmt.after, hv])

theorem flow_rUpdate {σ : Set Var} (m : EMod ι) (e : Fld) (a : Axis) (l : ℕ)
    (he : Var.fld e ∈ σ) (hr : Var.rel e l ∈ σ) : Flow σ σ (rUpdate m e a l) := by
  unfold rUpdate
  repeat' first
    | refine Flow.cons (by simp [Stmt.reads, Stmt.after, *]) ?_
    | exact Flow.nil (fun v hv => by simp [Stmt.after, hv])

theorem flow_rSubtract {σ : Set Var} (m : EMod ι) (e : Fld) (hU : U ∈ σ)
    (hr : ∀ l < m.L, Var.rel e l ∈ σ) : Flow σ σ (rSubtract m e) :=
  flow_forLoop _ _ fun l hl => .cons (by simp [Stmt.reads, hU, hr l hl]) (.nil subset_rfl)

/-- Membership in the set of vectors known so far. -/
macro "known" : tactic => `(tactic|
  simp +contextual [Stmt.reads, Stmt.writes, *])

/-- Walk through a program. -/
macro "flow" : tactic => `(tactic|
  repeat' first
    | with_reducible exact Flow.fnil (fun v hv => by simp only [Set.mem_insert_iff, hv, or_true])
    | with_reducible refine Flow.fend ?_
    | ((with_reducible refine Flow.fkeep ?_ ?_ ?_) <;>
        [(known; done); (intro v hv; simp [Stmt.after, hv]; done); skip])
    | ((with_reducible refine Flow.fcons ?_ ?_) <;> [(known; done); dsimp only [Stmt.after]])
    | ((with_reducible refine Flow.fseg (flow_cpmlHalf _ ?_ ?_) ?_) <;> [(known; done); (known; done); skip])
    | ((with_reducible refine Flow.fseg (flow_cpmlFull _ ?_ ?_) ?_) <;> [(known; done); (known; done); skip])
    | ((with_reducible refine Flow.fseg (flow_interp _ ?_) ?_) <;> [(known; done); skip])
    | ((with_reducible refine Flow.fseg (flow_damp _ ?_) ?_) <;> [(known; done); skip])
    | ((with_reducible refine Flow.fseg (flow_relaxShear _ _ _ ?_ ?_ ?_) ?_) <;> [(known; done); (known; done); (known; done); skip])
    | ((with_reducible refine Flow.fseg (flow_relaxTrans _ _ ?_ ?_ ?_) ?_) <;> [(known; done); (known; done); (known; done); skip])
    | ((with_reducible refine Flow.fseg (flow_relaxNormal _ _ ?_ ?_ ?_) ?_) <;> [(known; done); (known; done); (known; done); skip])
    | ((with_reducible refine Flow.fseg (flow_eUpdate _ _ _ ?_ ?_) ?_) <;> [(known; done); (known; done); skip])
    | ((with_reducible refine Flow.fseg (flow_rSubtract _ _ ?_ ?_) ?_) <;> [(known; done); (known; done); skip])
    | ((with_reducible refine Flow.fseg (flow_ifFS _ (flow_surfaceZero _ ?_)) ?_) <;>
        [(known; done); skip]))

theorem flow_acoustic2D (D : Deriv ι) (m : Mod ι) (c : BC ι) (σ : Set Var)
    (hm : ∀ v ∈ (acoustic2DSolver D m c).fields ++ (acoustic2DSolver D m c).memory, v ∈ σ) :
    Flow σ σ (acoustic2DSolver D m c).prog := by
  simp only [acoustic2DSolver, psi2Dacoustic, psi3Dacoustic, psi2D, psi3D, psi2DEM, psi3DEM, List.append_assoc,
    List.cons_append, List.nil_append, List.mem_append, List.mem_cons, List.not_mem_nil, or_false,
    forall_eq_or_imp, forall_eq, or_imp, forall_and, mem_rels_imp] at hm
  simp only [acoustic2DSolver, acoustic2D]
  flow

theorem flow_acoustic3D (D : Deriv ι) (m : Mod ι) (c : BC ι) (σ : Set Var)
    (hm : ∀ v ∈ (acoustic3DSolver D m c).fields ++ (acoustic3DSolver D m c).memory, v ∈ σ) :
    Flow σ σ (acoustic3DSolver D m c).prog := by
  simp only [acoustic3DSolver, psi2Dacoustic, psi3Dacoustic, psi2D, psi3D, psi2DEM, psi3DEM, List.append_assoc,
    List.cons_append, List.nil_append, List.mem_append, List.mem_cons, List.not_mem_nil, or_false,
    forall_eq_or_imp, forall_eq, or_imp, forall_and, mem_rels_imp] at hm
  simp only [acoustic3DSolver, acoustic3D]
  flow

theorem flow_sh2D (D : Deriv ι) (m : Mod ι) (c : BC ι) (σ : Set Var)
    (hm : ∀ v ∈ (sh2DSolver D m c).fields ++ (sh2DSolver D m c).memory, v ∈ σ) :
    Flow σ σ (sh2DSolver D m c).prog := by
  simp only [sh2DSolver, psi2Dacoustic, psi3Dacoustic, psi2D, psi3D, psi2DEM, psi3DEM, List.append_assoc,
    List.cons_append, List.nil_append, List.mem_append, List.mem_cons, List.not_mem_nil, or_false,
    forall_eq_or_imp, forall_eq, or_imp, forall_and, mem_rels_imp] at hm
  simp only [sh2DSolver, sh2D]
  flow

theorem flow_viscosh2D (D : Deriv ι) (m : Mod ι) (c : BC ι) (σ : Set Var)
    (hm : ∀ v ∈ (viscosh2DSolver D m c).fields ++ (viscosh2DSolver D m c).memory, v ∈ σ) :
    Flow σ σ (viscosh2DSolver D m c).prog := by
  simp only [viscosh2DSolver, psi2Dacoustic, psi3Dacoustic, psi2D, psi3D, psi2DEM, psi3DEM, List.append_assoc,
    List.cons_append, List.nil_append, List.mem_append, List.mem_cons, List.not_mem_nil, or_false,
    forall_eq_or_imp, forall_eq, or_imp, forall_and, mem_rels_imp] at hm
  simp only [viscosh2DSolver, viscosh2D]
  flow

theorem flow_elastic2D (D : Deriv ι) (m : Mod ι) (c : BC ι) (σ : Set Var)
    (hm : ∀ v ∈ (elastic2DSolver D m c).fields ++ (elastic2DSolver D m c).memory, v ∈ σ) :
    Flow σ σ (elastic2DSolver D m c).prog := by
  simp only [elastic2DSolver, psi2Dacoustic, psi3Dacoustic, psi2D, psi3D, psi2DEM, psi3DEM, List.append_assoc,
    List.cons_append, List.nil_append, List.mem_append, List.mem_cons, List.not_mem_nil, or_false,
    forall_eq_or_imp, forall_eq, or_imp, forall_and, mem_rels_imp] at hm
  simp only [elastic2DSolver, elastic2D]
  flow
  refine Flow.fseg (flow_ifFS _ ((flow_exchange2D _ _ _ (by known) (by known) (by known)).append
    (flow_surfaceZero _ (by known)))) ?_
  flow

theorem flow_elastic3D (D : Deriv ι) (m : Mod ι) (c : BC ι) (σ : Set Var)
    (hm : ∀ v ∈ (elastic3DSolver D m c).fields ++ (elastic3DSolver D m c).memory, v ∈ σ) :
    Flow σ σ (elastic3DSolver D m c).prog := by
  simp only [elastic3DSolver, psi2Dacoustic, psi3Dacoustic, psi2D, psi3D, psi2DEM, psi3DEM, List.append_assoc,
    List.cons_append, List.nil_append, List.mem_append, List.mem_cons, List.not_mem_nil, or_false,
    forall_eq_or_imp, forall_eq, or_imp, forall_and, mem_rels_imp] at hm
  simp only [elastic3DSolver, elastic3D]
  flow
  refine Flow.fseg (flow_ifFS _ ((((Flow.cons (by known) (.nil subset_rfl)).append
    (flow_surfaceZero _ (by simp [Stmt.after, hm]))).append
    (flow_exchange3D _ _ _ (by simp [Stmt.after]) (by simp [Stmt.after]) (by simp [Stmt.after, hm])
      (by simp [Stmt.after, hm]))) |>.post (fun v hv => by simp [Stmt.after, hv]))) ?_
  flow

theorem flow_viscoelastic2D (D : Deriv ι) (m : Mod ι) (c : BC ι) (σ : Set Var)
    (hm : ∀ v ∈ (viscoelastic2DSolver D m c).fields ++ (viscoelastic2DSolver D m c).memory, v ∈ σ) :
    Flow σ σ (viscoelastic2DSolver D m c).prog := by
  simp only [viscoelastic2DSolver, psi2Dacoustic, psi3Dacoustic, psi2D, psi3D, psi2DEM, psi3DEM, List.append_assoc,
    List.cons_append, List.nil_append, List.mem_append, List.mem_cons, List.not_mem_nil, or_false,
    forall_eq_or_imp, forall_eq, or_imp, forall_and, mem_rels_imp] at hm
  simp only [viscoelastic2DSolver, viscoelastic2D]
  flow
  refine Flow.fseg ?_ ?_
  · split
    · exact ((flow_exchangeVisco _ _ _ _ (by known) (by known) (by known) (by known)).append
        (flow_surfaceZero _ (by known))).append
        (flow_forLoop _ _ fun l hl => flow_surfaceZero _ (by known))
    · exact .nil subset_rfl
  flow

theorem flow_viscoelastic3D (D : Deriv ι) (m : Mod ι) (c : BC ι) (σ : Set Var)
    (hm : ∀ v ∈ (viscoelastic3DSolver D m c).fields ++ (viscoelastic3DSolver D m c).memory, v ∈ σ) :
    Flow σ σ (viscoelastic3DSolver D m c).prog := by
  simp only [viscoelastic3DSolver, psi2Dacoustic, psi3Dacoustic, psi2D, psi3D, psi2DEM, psi3DEM, List.append_assoc,
    List.cons_append, List.nil_append, List.mem_append, List.mem_cons, List.not_mem_nil, or_false,
    forall_eq_or_imp, forall_eq, or_imp, forall_and, mem_rels_imp] at hm
  simp only [viscoelastic3DSolver, viscoelastic3D]
  flow
  refine Flow.fseg (flow_ifFS _ ((((Flow.cons (by known) (.nil subset_rfl)).append
    ((flow_exchangeVisco _ _ _ _ (by simp [Stmt.after]) (by simp [Stmt.after])
      (by simp [Stmt.after, hm]) (by simp +contextual [Stmt.after, hm])))).append
    (flow_surfaceZero _ (by simp [Stmt.after, hm]))).append
    (flow_forLoop _ _ fun l hl => flow_surfaceZero _ (by simp [Stmt.after, hm, hl]))
      |>.post (fun v hv => by simp [Stmt.after, hv]))) ?_
  flow

theorem flow_emem2D (D : Deriv ι) (m : EMod ι) (c : BC ι) (σ : Set Var)
    (hm : ∀ v ∈ (emem2DSolver D m c).fields ++ (emem2DSolver D m c).memory, v ∈ σ) :
    Flow σ σ (emem2DSolver D m c).prog := by
  simp only [emem2DSolver, psi2Dacoustic, psi3Dacoustic, psi2D, psi3D, psi2DEM, psi3DEM, List.append_assoc,
    List.cons_append, List.nil_append, List.mem_append, List.mem_cons, List.not_mem_nil, or_false,
    forall_eq_or_imp, forall_eq, or_imp, forall_and, mem_rels_imp] at hm
  simp only [emem2DSolver, emem2D]
  flow

theorem flow_tmem2D (D : Deriv ι) (m : EMod ι) (c : BC ι) (σ : Set Var)
    (hm : ∀ v ∈ (tmem2DSolver D m c).fields ++ (tmem2DSolver D m c).memory, v ∈ σ) :
    Flow σ σ (tmem2DSolver D m c).prog := by
  simp only [tmem2DSolver, psi2Dacoustic, psi3Dacoustic, psi2D, psi3D, psi2DEM, psi3DEM, List.append_assoc,
    List.cons_append, List.nil_append, List.mem_append, List.mem_cons, List.not_mem_nil, or_false,
    forall_eq_or_imp, forall_eq, or_imp, forall_and, mem_rels_imp] at hm
  simp only [tmem2DSolver, tmem2D]
  flow

theorem flow_viscoemem2D (D : Deriv ι) (m : EMod ι) (c : BC ι) (σ : Set Var)
    (hm : ∀ v ∈ (viscoemem2DSolver D m c).fields ++ (viscoemem2DSolver D m c).memory, v ∈ σ) :
    Flow σ σ (viscoemem2DSolver D m c).prog := by
  simp only [viscoemem2DSolver, psi2Dacoustic, psi3Dacoustic, psi2D, psi3D, psi2DEM, psi3DEM, List.append_assoc,
    List.cons_append, List.nil_append, List.mem_append, List.mem_cons, List.not_mem_nil, or_false,
    forall_eq_or_imp, forall_eq, or_imp, forall_and, mem_rels_imp] at hm
  simp only [viscoemem2DSolver, viscoemem2D]
  flow
  refine Flow.fseg (flow_forLoop _ _ fun l hl => (flow_rUpdate _ _ _ _ (by known)
    (by known)).append (flow_rUpdate _ _ _ _ (by known) (by known))) ?_
  flow

theorem flow_viscotmem2D (D : Deriv ι) (m : EMod ι) (c : BC ι) (σ : Set Var)
    (hm : ∀ v ∈ (viscotmem2DSolver D m c).fields ++ (viscotmem2DSolver D m c).memory, v ∈ σ) :
    Flow σ σ (viscotmem2DSolver D m c).prog := by
  simp only [viscotmem2DSolver, psi2Dacoustic, psi3Dacoustic, psi2D, psi3D, psi2DEM, psi3DEM, List.append_assoc,
    List.cons_append, List.nil_append, List.mem_append, List.mem_cons, List.not_mem_nil, or_false,
    forall_eq_or_imp, forall_eq, or_imp, forall_and, mem_rels_imp] at hm
  simp only [viscotmem2DSolver, viscotmem2D]
  flow
  refine Flow.fseg (flow_forLoop _ _ fun l hl => flow_rUpdate _ _ _ _ (by known) (by known)) ?_
  flow

theorem flow_magnetic3D (D : Deriv ι) (m : EMod ι) (c : BC ι) (σ : Set Var)
    (hm : ∀ v ∈ [Var.fld .hX, .fld .hY, .fld .hZ, .fld .eX, .fld .eY, .fld .eZ] ++ psi3DEM, v ∈ σ) :
    Flow σ σ (magnetic3D D m c) := by
  unfold magnetic3D
  simp only [psi3DEM, List.cons_append, List.nil_append, List.mem_cons, List.not_mem_nil, or_false,
    forall_eq_or_imp, forall_eq] at hm
  flow

theorem flow_emem3D (D : Deriv ι) (m : EMod ι) (c : BC ι) (σ : Set Var)
    (hm : ∀ v ∈ (emem3DSolver D m c).fields ++ (emem3DSolver D m c).memory, v ∈ σ) :
    Flow σ σ (emem3DSolver D m c).prog := by
  simp only [emem3DSolver, psi2Dacoustic, psi3Dacoustic, psi2D, psi3D, psi2DEM, psi3DEM, List.append_assoc,
    List.cons_append, List.nil_append, List.mem_append, List.mem_cons, List.not_mem_nil, or_false,
    forall_eq_or_imp, forall_eq, or_imp, forall_and, mem_rels_imp] at hm
  simp only [emem3DSolver, emem3D]
  refine Flow.fseg (flow_magnetic3D _ _ _ _ (by simp [psi3DEM, hm])) ?_
  flow

theorem flow_viscoemem3D (D : Deriv ι) (m : EMod ι) (c : BC ι) (σ : Set Var)
    (hm : ∀ v ∈ (viscoemem3DSolver D m c).fields ++ (viscoemem3DSolver D m c).memory, v ∈ σ) :
    Flow σ σ (viscoemem3DSolver D m c).prog := by
  simp only [viscoemem3DSolver, psi2Dacoustic, psi3Dacoustic, psi2D, psi3D, psi2DEM, psi3DEM, List.append_assoc,
    List.cons_append, List.nil_append, List.mem_append, List.mem_cons, List.not_mem_nil, or_false,
    forall_eq_or_imp, forall_eq, or_imp, forall_and, mem_rels_imp] at hm
  simp only [viscoemem3DSolver, viscoemem3D]
  refine Flow.fseg (flow_magnetic3D _ _ _ _ (by simp [psi3DEM, hm])) ?_
  refine Flow.fseg (flow_forLoop _ _ fun l hl => ((flow_rUpdate _ _ _ _ (by known)
    (by known)).append (flow_rUpdate _ _ _ _ (by known) (by known))).append
    (flow_rUpdate _ _ _ _ (by known) (by known))) ?_
  flow

/-- The result of a time step depends only on the wavefields and memory variables. -/
theorem IsSolver.flow {D : Deriv ι} {c : BC ι} {S : Solver ι} (h : IsSolver D c S) :
    Flow S.live S.live S.prog := by
  cases h with
  | acoustic2D m => exact flow_acoustic2D D m c _ fun v hv => by simpa [Solver.live] using hv
  | acoustic3D m => exact flow_acoustic3D D m c _ fun v hv => by simpa [Solver.live] using hv
  | elastic2D m => exact flow_elastic2D D m c _ fun v hv => by simpa [Solver.live] using hv
  | elastic3D m => exact flow_elastic3D D m c _ fun v hv => by simpa [Solver.live] using hv
  | sh2D m => exact flow_sh2D D m c _ fun v hv => by simpa [Solver.live] using hv
  | viscosh2D m => exact flow_viscosh2D D m c _ fun v hv => by simpa [Solver.live] using hv
  | viscoelastic2D m => exact flow_viscoelastic2D D m c _ fun v hv => by simpa [Solver.live] using hv
  | viscoelastic3D m => exact flow_viscoelastic3D D m c _ fun v hv => by simpa [Solver.live] using hv
  | emem2D m => exact flow_emem2D D m c _ fun v hv => by simpa [Solver.live] using hv
  | tmem2D m => exact flow_tmem2D D m c _ fun v hv => by simpa [Solver.live] using hv
  | viscoemem2D m => exact flow_viscoemem2D D m c _ fun v hv => by simpa [Solver.live] using hv
  | viscotmem2D m => exact flow_viscotmem2D D m c _ fun v hv => by simpa [Solver.live] using hv
  | emem3D m => exact flow_emem3D D m c _ fun v hv => by simpa [Solver.live] using hv
  | viscoemem3D m => exact flow_viscoemem3D D m c _ fun v hv => by simpa [Solver.live] using hv

end Verif.Solver
