import Mathlib.Tactic.Linarith
import Mathlib.Tactic.Ring
import Mathlib.Tactic.NormNum
import Verif.Model.Subset
import Verif.Lemmas.SU
import Verif.Lemmas.Interpolation
import Verif.Props.Grid
import Verif.Props.Acquisition
/-!
# C86–C88: models on variable grids, models of shot windows, positions of shot windows
-/
set_option linter.dupNamespace false
set_option linter.unusedSimpArgs false
namespace Verif.Sub
open Verif.Grid
open Verif.Acq (Source)

/-- The parameters that a wave equation depends on. -/
def Uses (e : Eqn) : Par → Prop
  | .density => e = .acoustic ∨ e = .elastic ∨ e = .viscoelastic ∨ e = .sh ∨ e = .viscosh
  | .velocityP => e = .acoustic ∨ e = .elastic ∨ e = .viscoelastic
  | .velocityS => e = .elastic ∨ e = .viscoelastic ∨ e = .sh ∨ e = .viscosh
  | .tauP => e = .viscoelastic
  | .tauS => e = .viscoelastic ∨ e = .viscosh
  | .mu | .sigma | .eps => e = .tmem ∨ e = .emem ∨ e = .viscotmem ∨ e = .viscoemem
  | .tauSigma | .tauEps => e = .viscotmem ∨ e = .viscoemem

/-- Every parameter of the equation has one value per point of a grid with `n` points. -/
def Sized (e : Eqn) (n : Int) (m : Model) : Prop := ∀ p, Uses e p → ((m.par p).length : Int) = n

/-- The value of the vector `v` at a coordinate of a regular grid. -/
def valueAt (NX NZ : Int) (v : List ℝ) (c : Coord) : Option ℝ := v[(Linear NX NZ c).toNat]?

/-! ### Helper lemmas -/

private theorem mapM_ok {α β : Type} {f : α → Out β} {g : α → β} : ∀ {l : List α},
    (∀ a ∈ l, f a = .ok (g a)) → l.mapM f = .ok (l.map g) := by
  intro l h
  rw [SU.mapM_eq_ok, List.map_map]
  exact List.map_congr_left fun a ha => by rw [h a ha]; rfl

private theorem mapM_err {α β : Type} {f : α → Out β} : ∀ {l : List α},
    (∀ a ∈ l, f a = .err ∨ ∃ b, f a = .ok b) → (∃ a ∈ l, f a = .err) → l.mapM f = .err := by
  intro l
  induction l with
  | nil => simp
  | cons a l ih =>
    intro h hex
    rw [List.mapM_cons]
    rcases h a (by simp) with ha | ⟨b, hb⟩
    · rw [ha]; rfl
    · rw [hb]
      simp only [Out.bind_ok]
      obtain ⟨a', ha', he⟩ := hex
      rcases List.mem_cons.mp ha' with rfl | ha'
      · rw [hb] at he; cases he
      · rw [ih (fun x hx => h x (List.mem_cons_of_mem _ hx)) ⟨a', ha', he⟩]; rfl

private theorem select_ok {rows cols : Nat} {row : Nat → Out Int} {k : Nat → Nat} {v : List ℝ}
    (hv : v.length = cols) (h : ∀ i < rows, row i = .ok (k i : Int) ∧ k i < cols) :
    select rows cols row v = .ok ((List.range rows).map fun i => v.getD (k i) 0) := by
  unfold select
  rw [if_neg (by simpa using hv)]
  apply mapM_ok
  intro i hi
  obtain ⟨h1, h2⟩ := h i (List.mem_range.mp hi)
  rw [h1]
  simp only [Out.bind_ok]
  rw [if_pos (by omega)]
  simp

private theorem select_get {rows cols : Nat} {k : Nat → Nat} {v : List ℝ} (hv : v.length = cols)
    {i : Nat} (hi : i < rows) (hk : k i < cols) :
    ((List.range rows).map fun i => v.getD (k i) 0)[i]? = v[k i]? ∧ (v[k i]?).isSome := by
  have : k i < v.length := by omega
  rw [List.getElem?_map, List.getElem?_range hi]
  simp [List.getD_eq_getElem?_getD, this]

private theorem select_err {rows cols : Nat} {row : Nat → Out Int} {v : List ℝ}
    (h : ∀ i < rows, row i = .err ∨ ∃ k : Nat, row i = .ok (k : Int) ∧ k < cols)
    (hex : ∃ i < rows, row i = .err) : select rows cols row v = .err := by
  unfold select
  split
  · rfl
  · apply mapM_err
    · intro i hi
      rcases h i (List.mem_range.mp hi) with h | ⟨k, hk, hc⟩
      · rw [h]; exact .inl rfl
      · rw [hk]
        simp only [Out.bind_ok]
        rw [if_pos (by omega)]
        exact .inr ⟨_, rfl⟩
    · obtain ⟨i, hi, he⟩ := hex
      exact ⟨i, List.mem_range.mpr hi, by rw [he]; rfl⟩

private theorem transfer_ok {f : List ℝ → Out (List ℝ)} {src : Model} {g : Par → List ℝ} :
    ∀ (ps : List Par) (dst : Model), (∀ p ∈ ps, f (src.par p) = .ok (g p)) →
    ∃ m, transfer f src ps dst = .ok m ∧ m.numRelax = dst.numRelax ∧ m.freq = dst.freq ∧
      (∀ p ∈ ps, m.par p = g p) ∧ ∀ p, p ∉ ps → m.par p = dst.par p := by
  intro ps
  induction ps with
  | nil => intro dst _; exact ⟨dst, rfl, rfl, rfl, by simp, by simp⟩
  | cons p ps ih =>
    intro dst h
    obtain ⟨m, h1, h2, h3, h4, h5⟩ := ih { dst with par := Function.update dst.par p (g p) }
      fun q hq => h q (List.mem_cons_of_mem _ hq)
    refine ⟨m, ?_, h2, h3, ?_, ?_⟩
    · unfold transfer
      rw [h p (by simp)]
      exact h1
    · intro q hq
      by_cases hm : q ∈ ps
      · exact h4 q hm
      · have : q = p := by simpa [hm] using hq
        subst this
        rw [h5 q hm]
        simp
    · intro q hq
      rw [h5 q fun hm => hq (List.mem_cons_of_mem _ hm)]
      have : q ≠ p := fun e => hq (by simp [e])
      simp [Function.update_of_ne this]

private theorem transfer_relax {f : List ℝ → Out (List ℝ)} {src : Model} :
    ∀ (ps : List Par) (dst m : Model), transfer f src ps dst = .ok m →
      m.numRelax = dst.numRelax ∧ m.freq = dst.freq := by
  intro ps
  induction ps with
  | nil => intro dst m h; cases h; exact ⟨rfl, rfl⟩
  | cons p ps ih =>
    intro dst m h
    unfold transfer at h
    cases hf : f (src.par p) with
    | ok v =>
      rw [hf] at h
      exact ih { dst with par := Function.update dst.par p v } m h
    | err => rw [hf] at h; cases h
    | ub => rw [hf] at h; cases h

private theorem reg_n {NX NY NZ : Int} {g : Grid} (h : initRegular NX NY NZ = .ok g) :
    g.n = NX * NY * NZ ∧ 0 < NX ∧ 0 < NY ∧ 0 < NZ := by
  unfold initRegular at h
  split at h
  · rename_i hp
    cases h
    exact ⟨by simp [Grid.n, Layer.n], hp.1, hp.2.1, hp.2.2⟩
  · cases h

/-- An accepted variable grid does not exceed the requested size. -/
private theorem var_le {NX NY NZ : Int} {dhs ifs : List Int} {g : Grid}
    (h : initVar NX NY NZ dhs ifs = .ok g) (hr : Roomy NY dhs ifs) :
    g.NX ≤ NX ∧ g.NY ≤ NY ∧ g.NZ ≤ NZ := by
  have hlen := initVar_len h
  have hpow : PowersOfThree dhs := (Interp.initVar_struct h (hr.gaps hlen)).1
  have hN : 0 < NX ∧ 0 < NY ∧ 0 < NZ := by
    unfold initVar at h
    split at h; · cases h
    split at h; · cases h
    split at h; · cases h
    rename_i h0
    simpa using h0
  have hpos : ∀ d ∈ dhs, 0 < d := by
    intro d hd
    obtain ⟨k, rfl⟩ := hpow d hd
    positivity
  have hne : dhs ≠ [] := by intro h; rw [h] at hlen; simp at hlen
  have hmem := maxFactor_mem hne hpos
  have h1 := C05_largest_fit hlen hpow hN h hmem fun d hd => le_maxFactor hd
  have h2 := C05_interfaces hlen hpow hN h (dhs.length - 1) (by omega)
  have hy : g.NY ≤ NY := by
    simp only at h2
    obtain ⟨a, -, -, b⟩ := h2
    have := b (by omega)
    have e : (ifs ++ [NY - 1]).getD (dhs.length - 1) 0 = NY - 1 := by
      rw [hlen]
      simp [List.getD_eq_getElem?_getD]
    omega
  have := hpos _ hmem
  by_cases hm : maxFactor dhs = 1
  · obtain ⟨a, b⟩ := h1.1 hm
    omega
  · obtain ⟨a, b, c⟩ := h1.2 (by omega)
    refine ⟨a.2.1, hy, ?_⟩
    by_cases hz : NZ = 1
    · have := b hz; omega
    · exact (c hz).2.1

/-! ### C86: variable grids -/

private theorem mesh_rows {NX NY NZ : Int} {dhs ifs : List Int} {var reg : Grid}
    (hv : initVar NX NY NZ dhs ifs = .ok var) (hr : Roomy NY dhs ifs)
    (hg : initRegular NX NY NZ = .ok reg) (i : Nat) (hi : i < var.n.toNat) :
    ∃ c, index2coordinate var i = .ok c ∧ InBox NX NY NZ c ∧
      meshRow var reg i = .ok ((Linear NX NZ c).toNat : Int) ∧ (Linear NX NZ c).toNat < reg.n.toNat := by
  obtain ⟨c, h1, h2, -⟩ := C04_points_in_domain hv hr (i := i) (by omega) (by omega)
  obtain ⟨l1, l2, l3⟩ := var_le hv hr
  have hb : InBox NX NY NZ c := by
    obtain ⟨a, b, c, d, e, f⟩ := h2
    exact ⟨a, by omega, c, by omega, e, by omega⟩
  obtain ⟨k, h3, h4, h5, h6, -⟩ := C01_coordinate_roundtrip hg hb
  refine ⟨c, h1, hb, ?_, ?_⟩
  · unfold meshRow
    rw [h1]
    simp only [Out.bind_ok]
    rw [h3, ← h4, Int.toNat_of_nonneg h5]
  · rw [← h4, (reg_n hg).1]
    omega

private theorem mesh_select {NX NY NZ : Int} {dhs ifs : List Int} {var reg : Grid}
    (hv : initVar NX NY NZ dhs ifs = .ok var) (hr : Roomy NY dhs ifs)
    (hg : initRegular NX NY NZ = .ok reg) (v : List ℝ) (hl : (v.length : Int) = NX * NY * NZ) :
    ∃ w, select var.n.toNat reg.n.toNat (meshRow var reg) v = .ok w ∧ w.length = var.n.toNat ∧
      ∀ i < var.n.toNat, ∃ c, index2coordinate var i = .ok c ∧ InBox NX NY NZ c ∧
        w[i]? = valueAt NX NZ v c ∧ (valueAt NX NZ v c).isSome := by
  classical
  have hrows := mesh_rows hv hr hg
  let k : Nat → Nat := fun i => if h : i < var.n.toNat then (Linear NX NZ (hrows i h).choose).toNat else 0
  have hk : ∀ i (h : i < var.n.toNat), k i = (Linear NX NZ (hrows i h).choose).toNat := fun i h => by
    simp only [k, dif_pos h]
  have hlen : v.length = reg.n.toNat := by rw [(reg_n hg).1]; omega
  refine ⟨_, select_ok (k := k) hlen ?_, by simp, ?_⟩
  · intro i hi
    obtain ⟨-, -, a, b⟩ := (hrows i hi).choose_spec
    rw [hk i hi]
    exact ⟨a, b⟩
  · intro i hi
    obtain ⟨a, b, -, c⟩ := (hrows i hi).choose_spec
    have := select_get (k := k) hlen hi (by rw [hk i hi]; exact c)
    rw [hk i hi] at this
    exact ⟨_, a, b, this.1, this.2⟩

/-- C86: for the acoustic, elastic, TMEM and EMEM equations and every accepted variable grid whose layers
have room for their cells, a regular model is put onto the variable grid: every parameter of the
equation gets one value per point, and the value at a point is the one of the regular model at the same
coordinate. -/
theorem C86_variable_grid (e : Eqn) (he : e = .acoustic ∨ e = .elastic ∨ e = .tmem ∨ e = .emem)
    {NX NY NZ : Int} {dhs ifs : List Int} {var reg : Grid}
    (hv : initVar NX NY NZ dhs ifs = .ok var) (hr : Roomy NY dhs ifs)
    (hg : initRegular NX NY NZ = .ok reg) (m : Model) (hm : Sized e (NX * NY * NZ) m) :
    ∃ m', initVariable e var reg m = .ok m' ∧ Sized e (var.n.toNat) m' ∧
      ∀ p, Uses e p → ∀ i < var.n.toNat, ∃ c, index2coordinate var i = .ok c ∧ InBox NX NY NZ c ∧
        (m'.par p)[i]? = valueAt NX NZ (m.par p) c ∧ (valueAt NX NZ (m.par p) c).isSome := by
  classical
  obtain ⟨ps, hps, huse⟩ : ∃ ps, e.meshed = some ps ∧ ∀ p, p ∈ ps ↔ Uses e p := by
    rcases he with rfl | rfl | rfl | rfl <;> refine ⟨_, rfl, fun p => ?_⟩ <;> cases p <;> simp [Uses]
  have hsel : ∀ p, Uses e p → _ := fun p hp => mesh_select hv hr hg (m.par p) (hm p hp)
  let g : Par → List ℝ := fun p => if h : Uses e p then (hsel p h).choose else []
  have hgp : ∀ p (h : Uses e p), g p = (hsel p h).choose := fun p h => by simp only [g, dif_pos h]
  obtain ⟨m', h1, -, -, h4, -⟩ := transfer_ok
    (f := select var.n.toNat reg.n.toNat (meshRow var reg)) (src := m) (g := g) ps m fun p hp => by
      rw [hgp p ((huse p).mp hp)]
      exact (hsel p ((huse p).mp hp)).choose_spec.1
  refine ⟨m', by unfold initVariable; rw [hps]; exact h1, fun p hp => ?_, fun p hp i hi => ?_⟩
  · rw [h4 p ((huse p).mpr hp), hgp p hp]
    exact_mod_cast (hsel p hp).choose_spec.2.1
  · rw [h4 p ((huse p).mpr hp), hgp p hp]
    exact (hsel p hp).choose_spec.2.2 i hi

/-- C86 for the visco-TMEM equation: permeability, conductivity and permittivity are put onto the
variable grid. Missing: the two tau vectors, see `C86_tau_violated`. -/
theorem C86_viscotmem_partial
    {NX NY NZ : Int} {dhs ifs : List Int} {var reg : Grid}
    (hv : initVar NX NY NZ dhs ifs = .ok var) (hr : Roomy NY dhs ifs)
    (hg : initRegular NX NY NZ = .ok reg) (m : Model) (hm : Sized .viscotmem (NX * NY * NZ) m) :
    ∃ m', initVariable .viscotmem var reg m = .ok m' ∧ m'.numRelax = m.numRelax ∧ m'.freq = m.freq ∧
      m'.par .tauEps = m.par .tauEps ∧ m'.par .tauSigma = m.par .tauSigma ∧
      ∀ p, p = .mu ∨ p = .sigma ∨ p = .eps → (m'.par p).length = var.n.toNat ∧
        ∀ i < var.n.toNat, ∃ c, index2coordinate var i = .ok c ∧ InBox NX NY NZ c ∧
          (m'.par p)[i]? = valueAt NX NZ (m.par p) c ∧ (valueAt NX NZ (m.par p) c).isSome := by
  classical
  have huse : ∀ p, p = .mu ∨ p = .sigma ∨ p = .eps → Uses .viscotmem p := by
    rintro p (rfl | rfl | rfl) <;> simp [Uses]
  have hsel : ∀ p, Uses .viscotmem p → _ := fun p hp => mesh_select hv hr hg (m.par p) (hm p hp)
  let g : Par → List ℝ := fun p => if h : Uses .viscotmem p then (hsel p h).choose else []
  have hgp : ∀ p (h : Uses .viscotmem p), g p = (hsel p h).choose := fun p h => by simp only [g, dif_pos h]
  obtain ⟨m', h1, h2, h3, h4, h5⟩ := transfer_ok
    (f := select var.n.toNat reg.n.toNat (meshRow var reg)) (src := m) (g := g) [.mu, .sigma, .eps] m
    fun p hp => by
      rw [hgp p (huse p (by simpa using hp))]
      exact (hsel p (huse p (by simpa using hp))).choose_spec.1
  refine ⟨m', h1, h2, h3, h5 _ (by simp), h5 _ (by simp), fun p hp => ?_⟩
  rw [h4 p (by simpa using hp), hgp p (huse p hp)]
  exact ⟨(hsel p (huse p hp)).choose_spec.2.1, (hsel p (huse p hp)).choose_spec.2.2⟩

/-- A variable grid with a fine layer above a coarse one. -/
example : ∃ var, initVar 8 10 1 [1, 3] [3] = .ok var ∧ Roomy 10 [1, 3] [3] ∧ var.n = 38 := by
  refine ⟨_, rfl, ⟨by decide, fun k hk => ?_⟩, by decide⟩
  have : k = 0 := by simp at hk; omega
  subst this
  decide

/-- C86 fails for the visco-TMEM equation: on every accepted variable grid with fewer points than the
regular grid, the tau vectors keep the size of the regular grid. -/
theorem C86_tau_violated {NX NY NZ : Int} {dhs ifs : List Int} {var reg : Grid}
    (hv : initVar NX NY NZ dhs ifs = .ok var) (hr : Roomy NY dhs ifs)
    (hg : initRegular NX NY NZ = .ok reg) (hlt : (var.n.toNat : Int) < NX * NY * NZ) (m : Model)
    (hm : Sized .viscotmem (NX * NY * NZ) m) :
    ∃ m', initVariable .viscotmem var reg m = .ok m' ∧ ¬ Sized .viscotmem (var.n.toNat) m' := by
  obtain ⟨m', h1, -, -, h2, -⟩ := C86_viscotmem_partial hv hr hg m hm
  refine ⟨m', h1, fun h => ?_⟩
  have a := h .tauEps (by simp [Uses])
  have b := hm .tauEps (by simp [Uses])
  rw [h2] at a
  omega

/-- A model and a grid that meet the hypotheses: 38 points instead of 80. -/
example : ∃ var reg, initVar 8 10 1 [1, 3] [3] = .ok var ∧ initRegular 8 10 1 = .ok reg ∧
    (var.n.toNat : Int) < 8 * 10 * 1 ∧
    Sized .viscotmem (8 * 10 * 1) ⟨fun _ => List.replicate 80 1, 1, [5]⟩ := by
  refine ⟨_, _, rfl, rfl, by decide, fun p _ => ?_⟩
  simp

/-! ### C87: the model of a shot -/

/-- The window with corner `cut` and size `nx × ny × nz` lies in a grid of size `NX × NY × NZ`. -/
def Fits (nx ny nz NX NY NZ : Int) (cut : Coord) : Prop :=
  0 ≤ cut.x ∧ cut.x + nx ≤ NX ∧ 0 ≤ cut.y ∧ cut.y + ny ≤ NY ∧ 0 ≤ cut.z ∧ cut.z + nz ≤ NZ

/-- A coordinate of the window in the big grid. -/
def moved (c cut : Coord) : Coord := ⟨c.x + cut.x, c.y + cut.y, c.z + cut.z⟩

private theorem cut_mem (e : Eqn) (p : Par) : p ∈ e.cutOut ↔ Uses e p := by
  cases e <;> cases p <;> simp [Eqn.cutOut, Uses]

private theorem shrink_rows {small big : Grid} {nx ny nz NX NY NZ : Int} {cut : Coord}
    (hs : ∀ i < small.n.toNat, ∃ c, index2coordinate small i = .ok c ∧ InBox nx ny nz c)
    (hg : initRegular NX NY NZ = .ok big) (hf : Fits nx ny nz NX NY NZ cut) (i : Nat)
    (hi : i < small.n.toNat) :
    ∃ c, index2coordinate small i = .ok c ∧ InBox nx ny nz c ∧
      shrinkRow small big cut i = .ok ((Linear NX NZ (moved c cut)).toNat : Int) ∧
      (Linear NX NZ (moved c cut)).toNat < big.n.toNat := by
  obtain ⟨c, h1, h2⟩ := hs i hi
  have hb : InBox NX NY NZ (moved c cut) := by
    obtain ⟨a, b, c, d, e, f⟩ := h2
    obtain ⟨a', b', c', d', e', f'⟩ := hf
    refine ⟨?_, ?_, ?_, ?_, ?_, ?_⟩ <;> simp only [moved] <;> omega
  obtain ⟨k, h3, h4, h5, h6, -⟩ := C01_coordinate_roundtrip hg hb
  refine ⟨c, h1, h2, ?_, ?_⟩
  · unfold shrinkRow
    rw [h1]
    simp only [Out.bind_ok]
    have : coordinate2index big ⟨c.x + cut.x, c.y + cut.y, c.z + cut.z⟩ = .ok k := h3
    rw [this, ← h4, Int.toNat_of_nonneg h5]
  · rw [← h4, (reg_n hg).1]
    omega

private theorem cut_general {small big : Grid} {nx ny nz NX NY NZ : Int} {cut : Coord} (e : Eqn)
    (hs : ∀ i < small.n.toNat, ∃ c, index2coordinate small i = .ok c ∧ InBox nx ny nz c)
    (hg : initRegular NX NY NZ = .ok big) (hf : Fits nx ny nz NX NY NZ cut)
    (m obj : Model) (hm : Sized e (NX * NY * NZ) m) :
    ∃ m', getModelPerShot e small big cut m obj = .ok m' ∧ Sized e (small.n.toNat) m' ∧
      ∀ p, Uses e p → ∀ i < small.n.toNat, ∃ c, index2coordinate small i = .ok c ∧ InBox nx ny nz c ∧
        (m'.par p)[i]? = valueAt NX NZ (m.par p) (moved c cut) ∧
        (valueAt NX NZ (m.par p) (moved c cut)).isSome := by
  classical
  have hrows := shrink_rows hs hg hf
  let k : Nat → Nat := fun i =>
    if h : i < small.n.toNat then (Linear NX NZ (moved (hrows i h).choose cut)).toNat else 0
  have hk : ∀ i (h : i < small.n.toNat), k i = (Linear NX NZ (moved (hrows i h).choose cut)).toNat :=
    fun i h => by simp only [k, dif_pos h]
  have hlen : ∀ p, Uses e p → (m.par p).length = big.n.toNat := fun p hp => by
    have := hm p hp
    rw [(reg_n hg).1]; omega
  obtain ⟨m', h1, -, -, h4, -⟩ := transfer_ok
    (f := select small.n.toNat big.n.toNat (shrinkRow small big cut)) (src := m)
    (g := fun p => (List.range small.n.toNat).map fun i => (m.par p).getD (k i) 0) e.cutOut obj
    fun p hp => select_ok (hlen p ((cut_mem e p).mp hp)) fun i hi => by
      obtain ⟨-, -, a, b⟩ := (hrows i hi).choose_spec
      rw [hk i hi]
      exact ⟨a, b⟩
  refine ⟨m', h1, fun p hp => ?_, fun p hp i hi => ?_⟩
  · rw [h4 p ((cut_mem e p).mpr hp)]
    simp
  · rw [h4 p ((cut_mem e p).mpr hp)]
    obtain ⟨a, b, -, c⟩ := (hrows i hi).choose_spec
    have := select_get (k := k) (hlen p hp) hi (by rw [hk i hi]; exact c)
    rw [hk i hi] at this
    exact ⟨_, a, b, this.1, this.2⟩

/-- C87: for every wave equation and every window inside the big model, the model of the shot has at each
point of the window the parameters of the big model at that place. Missing: the relaxation
mechanisms, see `C87_relaxation_violated`. -/
theorem C87_cut_out_partial (e : Eqn) {small big : Grid} {nx ny nz NX NY NZ : Int} {cut : Coord}
    (hs : initRegular nx ny nz = .ok small) (hg : initRegular NX NY NZ = .ok big)
    (hf : Fits nx ny nz NX NY NZ cut) (m : Model) (hm : Sized e (NX * NY * NZ) m) :
    ∃ m', modelForShot e small big cut m = .ok m' ∧ Sized e (nx * ny * nz) m' ∧
      ∀ p, Uses e p → ∀ c, InBox nx ny nz c →
        valueAt nx nz (m'.par p) c = valueAt NX NZ (m.par p) (moved c cut) ∧
        (valueAt nx nz (m'.par p) c).isSome := by
  obtain ⟨hn, px, py, pz⟩ := reg_n hs
  have hpt : ∀ i < small.n.toNat, ∃ c, index2coordinate small i = .ok c ∧ InBox nx ny nz c := fun i hi => by
    obtain ⟨c, h1, h2, -⟩ := C01_index_roundtrip hs (i := i) (by omega) (by omega)
    exact ⟨c, h1, h2⟩
  obtain ⟨m', h1, h2, h3⟩ := cut_general e hpt hg hf m Model.fresh hm
  have hpos : 0 ≤ nx * ny * nz := by positivity
  refine ⟨m', h1, fun p hp => by have := h2 p hp; omega, fun p hp c hc => ?_⟩
  obtain ⟨i, -, h5, h6, h7, h8⟩ := C01_coordinate_roundtrip hs hc
  obtain ⟨c', g1, -, g3, g4⟩ := h3 p hp i.toNat (by omega)
  rw [Int.toNat_of_nonneg h6, h8] at g1
  cases g1
  unfold valueAt at *
  rw [← h5, g3]
  exact ⟨rfl, g4⟩

/-- C87 for a shot simulated on a variable grid: the same at every point of the variable grid. -/
theorem C87_variable_grid_partial (e : Eqn) {small big : Grid} {nx ny nz NX NY NZ : Int} {cut : Coord}
    {dhs ifs : List Int} (hs : initVar nx ny nz dhs ifs = .ok small) (hr : Roomy ny dhs ifs)
    (hg : initRegular NX NY NZ = .ok big)
    (hf : Fits nx ny nz NX NY NZ cut) (m : Model) (hm : Sized e (NX * NY * NZ) m) :
    ∃ m', modelForShot e small big cut m = .ok m' ∧ Sized e (small.n.toNat) m' ∧
      ∀ p, Uses e p → ∀ i < small.n.toNat, ∃ c, index2coordinate small i = .ok c ∧ InBox nx ny nz c ∧
        (m'.par p)[i]? = valueAt NX NZ (m.par p) (moved c cut) ∧
        (valueAt NX NZ (m.par p) (moved c cut)).isSome := by
  have hpt : ∀ i < small.n.toNat, ∃ c, index2coordinate small i = .ok c ∧ InBox nx ny nz c := fun i hi => by
    obtain ⟨c, h1, h2, -⟩ := C04_points_in_domain hs hr (i := i) (by omega) (by omega)
    obtain ⟨l1, l2, l3⟩ := var_le hs hr
    obtain ⟨a, b, c', d, e, f⟩ := h2
    exact ⟨c, h1, a, by omega, c', by omega, e, by omega⟩
  exact cut_general e hpt hg hf m Model.fresh hm

/-- C87: a window that sticks out of the big model is rejected. -/
theorem C87_outside_rejected (e : Eqn) {small big : Grid} {nx ny nz NX NY NZ : Int} {cut : Coord}
    (hs : initRegular nx ny nz = .ok small) (hg : initRegular NX NY NZ = .ok big)
    (hf : ¬ Fits nx ny nz NX NY NZ cut) (m : Model) : modelForShot e small big cut m = .err := by
  obtain ⟨hn, px, py, pz⟩ := reg_n hs
  obtain ⟨hN, -⟩ := reg_n hg
  have hsel : ∀ v, select small.n.toNat big.n.toNat (shrinkRow small big cut) v = .err := by
    intro v
    apply select_err
    · intro i hi
      obtain ⟨c, h1, -⟩ := C01_index_roundtrip hs (i := i) (by omega) (by omega)
      unfold shrinkRow
      rw [h1]
      simp only [Out.bind_ok]
      by_cases hb : InBox NX NY NZ (moved c cut)
      · obtain ⟨k, h3, h4, h5, h6, -⟩ := C01_coordinate_roundtrip hg hb
        refine .inr ⟨k.toNat, ?_, by omega⟩
        rw [Int.toNat_of_nonneg h5]
        exact h3
      · exact .inl ((C02_regular_iff hg _).mpr hb)
    · obtain ⟨c, hc, hb⟩ : ∃ c, InBox nx ny nz c ∧ ¬ InBox NX NY NZ (moved c cut) := by
        by_contra hall
        push Not at hall
        apply hf
        obtain ⟨a, -, c, -, e, -⟩ := hall ⟨0, 0, 0⟩ ⟨by simp, px, by simp, py, by simp, pz⟩
        obtain ⟨-, b, -, d, -, f⟩ := hall ⟨nx - 1, ny - 1, nz - 1⟩
          ⟨by simp only; omega, by simp only; omega, by simp only; omega, by simp only; omega,
            by simp only; omega, by simp only; omega⟩
        simp only [moved] at a b c d e f
        exact ⟨by omega, by omega, by omega, by omega, by omega, by omega⟩
      obtain ⟨i, -, -, h6, h7, h8⟩ := C01_coordinate_roundtrip hs hc
      refine ⟨i.toNat, by omega, ?_⟩
      unfold shrinkRow
      rw [Int.toNat_of_nonneg h6, h8]
      simp only [Out.bind_ok]
      exact (C02_regular_iff hg _).mpr hb
  unfold modelForShot getModelPerShot
  cases e <;> simp only [Eqn.cutOut, transfer, hsel] <;> rfl

/-- A 3 × 2 window in a 5 × 2 acoustic model: the second window shows the columns 2 to 4; a third one would
stick out. -/
example : ∃ small big m', initRegular 3 2 1 = .ok small ∧ initRegular 5 2 1 = .ok big ∧
    modelForShot .acoustic small big ⟨2, 0, 0⟩ ⟨fun _ => [0, 1, 2, 3, 4, 5, 6, 7, 8, 9], 0, []⟩ = .ok m' ∧
    m'.par .velocityP = [2, 3, 4, 7, 8, 9] ∧
    modelForShot .acoustic small big ⟨3, 0, 0⟩ ⟨fun _ => [0, 1, 2, 3, 4, 5, 6, 7, 8, 9], 0, []⟩ = .err :=
  ⟨_, _, _, rfl, rfl, rfl, rfl, rfl⟩

/-- C87 fails for the viscous equations: the model of a shot never has a relaxation mechanism, whatever the
big model has. -/
theorem C87_relaxation_violated (e : Eqn) {small big : Grid} {nx ny nz NX NY NZ : Int} {cut : Coord}
    (hs : initRegular nx ny nz = .ok small) (hg : initRegular NX NY NZ = .ok big)
    (hf : Fits nx ny nz NX NY NZ cut) (m : Model) (hm : Sized e (NX * NY * NZ) m)
    (hr : 0 < m.numRelax) :
    ∃ m', modelForShot e small big cut m = .ok m' ∧ m'.numRelax ≠ m.numRelax ∧ m'.numRelax = 0 ∧
      m'.freq = [] := by
  obtain ⟨m', h1, -⟩ := C87_cut_out_partial e hs hg hf m hm
  obtain ⟨a, b⟩ := transfer_relax _ _ _ h1
  have a : m'.numRelax = 0 := a
  exact ⟨m', h1, by omega, a, b⟩

/-- A viscoelastic model with one mechanism. -/
example : ∃ small big, initRegular 2 1 1 = .ok small ∧ initRegular 3 1 1 = .ok big ∧
    Fits 2 1 1 3 1 1 ⟨1, 0, 0⟩ ∧ Sized .viscoelastic (3 * 1 * 1) ⟨fun _ => [1, 2, 3], 1, [10]⟩ :=
  ⟨_, _, rfl, rfl, by unfold Fits; decide, fun _ _ => by simp⟩

/-! ### C88: positions of the shot windows -/

/-- The leftmost source. -/
def IsMinX (ss : List Source) (x : Int) : Prop := (∃ s ∈ ss, s.coords.x = x) ∧ ∀ s ∈ ss, x ≤ s.coords.x

private theorem minSourceX_spec : ∀ (ss : List Source) (m : Int),
    minSourceX ss m ≤ m ∧ (∀ s ∈ ss, minSourceX ss m ≤ s.coords.x) ∧
      (minSourceX ss m = m ∨ ∃ s ∈ ss, s.coords.x = minSourceX ss m) := by
  intro ss
  induction ss with
  | nil => intro m; simp [minSourceX]
  | cons s ss ih =>
    intro m
    unfold minSourceX
    obtain ⟨h1, h2, h3⟩ := ih (if m > s.coords.x then s.coords.x else m)
    by_cases hm : m > s.coords.x
    · rw [if_pos hm] at *
      refine ⟨by omega, fun t ht => ?_, ?_⟩
      · rcases List.mem_cons.mp ht with rfl | ht
        · exact h1
        · exact h2 t ht
      · rcases h3 with h3 | ⟨t, ht, h3⟩
        · exact .inr ⟨s, by simp, h3.symm⟩
        · exact .inr ⟨t, List.mem_cons_of_mem _ ht, h3⟩
    · rw [if_neg hm] at *
      refine ⟨h1, fun t ht => ?_, ?_⟩
      · rcases List.mem_cons.mp ht with rfl | ht
        · omega
        · exact h2 t ht
      · rcases h3 with h3 | ⟨t, ht, h3⟩
        · exact .inl h3
        · exact .inr ⟨t, List.mem_cons_of_mem _ ht, h3⟩

private theorem cutLoop_zero {perSuper mx : Int} : ∀ (ss : List Source) (i x : Int),
    (∀ s ∈ ss, 0 ≤ s.no) →
    ((∀ s ∈ ss, s.coords.x ≠ 0) →
      cutLoop 0 perSuper mx ss i x = .ok (ss.map fun s => ⟨max (s.coords.x - mx) 0, 0, 0⟩)) ∧
    ((∃ s ∈ ss, s.coords.x = 0) → cutLoop 0 perSuper mx ss i x = .err) := by
  intro ss
  induction ss with
  | nil => intro i x _; simp [cutLoop]
  | cons s ss ih =>
    intro i x h
    obtain ⟨ih1, ih2⟩ := ih (i + 1) s.coords.x fun t ht => h t (List.mem_cons_of_mem _ ht)
    unfold cutLoop
    have h0 : s.no ≥ 0 := h s (by simp)
    simp only [h0, if_true, true_or]
    constructor
    · intro hx
      rw [if_neg (hx s (by simp)), ih1 fun t ht => hx t (List.mem_cons_of_mem _ ht)]
      simp only [Out.bind_ok, List.map_cons]
      congr 3
      split <;> omega
    · rintro ⟨t, ht, hx⟩
      by_cases hs : s.coords.x = 0
      · rw [if_pos hs]
      · rw [if_neg hs]
        rcases List.mem_cons.mp ht with rfl | ht
        · exact absurd hx hs
        · rw [ih2 ⟨t, ht, hx⟩]; rfl

/-- The number of grid points between the origin of the shot grid and that of the big grid. -/
def originShift (x0 x0Big DH : ℚ) : Int := SU.roundQ ((x0 - x0Big) / DH)

private theorem originShift_nonneg {x0 x0Big DH : ℚ} (hD : 0 < DH) (h : x0Big ≤ x0) :
    0 ≤ originShift x0 x0Big DH := by
  unfold originShift SU.roundQ
  have : 0 ≤ (x0 - x0Big) / DH := div_nonneg (by linarith) hD.le
  rw [if_pos this]
  exact Int.floor_nonneg.mpr (by linarith)

private theorem unique_len {ss : List Source} {us : List Int} (h : Acq.uniqueShotNos ss = .ok us)
    (hl : ss.length = us.length) : ss ≠ [] := by
  rintro rfl
  cases h

/-- C88: without source encoding, if the origin of the shot grid is not left of that of the big grid, every
shot has a window and its source is at the same place in its window; the window of the leftmost source
begins at the origin of the shot grid. -/
theorem C88_same_place {x0 x0Big DH : ℚ} {domains : Int} {ss : List Source} {cuts : List Coord} {xmin : Int}
    (hD : 0 < DH) (h0 : x0Big ≤ x0) (hno : ∀ s ∈ ss, 0 ≤ s.no) (hmin : IsMinX ss xmin)
    (h : getCutCoord x0 x0Big DH 0 domains ss = .ok cuts) :
    cuts.length = ss.length ∧
    (∀ p ∈ ss.zip cuts, p.1.coords.x - p.2.x = xmin - originShift x0 x0Big DH ∧ p.2.y = 0 ∧ p.2.z = 0 ∧
      0 ≤ p.2.x) ∧
    (∀ p ∈ ss.zip cuts, p.1.coords.x = xmin → p.2.x = originShift x0 x0Big DH) := by
  unfold getCutCoord at h
  cases hu : Acq.uniqueShotNos ss with
  | err => rw [hu] at h; cases h
  | ub => rw [hu] at h; cases h
  | ok us =>
    rw [hu] at h
    simp only [Out.bind_ok] at h
    cases ss with
    | nil => cases h
    | cons s ss =>
      simp only at h
      split at h; · cases h
      split at h; · cases h
      obtain ⟨m1, m2, m3⟩ := minSourceX_spec (s :: ss) s.coords.x
      have hx : minSourceX (s :: ss) s.coords.x = xmin := by
        obtain ⟨⟨t, ht, ht'⟩, h2⟩ := hmin
        have a := m2 t ht
        rcases m3 with m3 | ⟨u, hu, m3⟩
        · have := h2 s (by simp); omega
        · have := h2 u hu; omega
      rw [hx] at h
      have hr := originShift_nonneg hD h0
      change cutLoop 0 _ (xmin - originShift x0 x0Big DH) _ 0 0 = _ at h
      obtain ⟨k1, k2⟩ := cutLoop_zero (perSuper := ⌈((s :: ss).length : ℚ) / domains⌉)
        (mx := xmin - originShift x0 x0Big DH) (s :: ss) 0 0 hno
      by_cases hz : ∃ t ∈ s :: ss, t.coords.x = 0
      · rw [k2 hz] at h; cases h
      · rw [k1 (by push Not at hz; exact hz)] at h
        have h := Out.ok.inj h
        subst h
        have key : ∀ p ∈ (s :: ss).zip ((s :: ss).map fun s =>
            (⟨max (s.coords.x - (xmin - originShift x0 x0Big DH)) 0, 0, 0⟩ : Coord)),
            p.2 = ⟨p.1.coords.x - (xmin - originShift x0 x0Big DH), 0, 0⟩ ∧ xmin ≤ p.1.coords.x := by
          intro p hp
          rw [List.zip_map_right, List.mem_map] at hp
          obtain ⟨q, hq, rfl⟩ := hp
          have hq2 : q.1 = q.2 ∧ q.1 ∈ s :: ss := by
            have := List.of_mem_zip hq
            rw [List.mem_iff_getElem] at hq
            obtain ⟨i, hi, rfl⟩ := hq
            exact ⟨by rw [List.getElem_zip], this.1⟩
          have hle := hmin.2 q.1 hq2.2
          simp only [Prod.map, id]
          rw [← hq2.1]
          exact ⟨by congr 1; omega, hle⟩
        refine ⟨by simp, fun p hp => ?_, fun p hp hx => ?_⟩
        · obtain ⟨a, b⟩ := key p hp
          rw [a]
          exact ⟨by simp only; omega, rfl, rfl, by simp only; omega⟩
        · obtain ⟨a, b⟩ := key p hp
          rw [a]
          simp only; omega

/-- C88: the sources of the shot settings derived from these windows all have the same x coordinate. -/
theorem C88_shot_sources {x0 x0Big DH : ℚ} {domains NX NY NZ bw : Int} {ss ss' : List Source}
    {cuts : List Coord} {xmin : Int}
    (hD : 0 < DH) (h0 : x0Big ≤ x0) (hno : ∀ s ∈ ss, 0 ≤ s.no) (hmin : IsMinX ss xmin)
    (h : getCutCoord x0 x0Big DH 0 domains ss = .ok cuts)
    (hs : Acq.sourcesPerShot NX NY NZ bw ss cuts = .ok ss') :
    ∀ s ∈ ss', s.coords.x = xmin - originShift x0 x0Big DH := by
  obtain ⟨hl, h1, -⟩ := C88_same_place hD h0 hno hmin h
  obtain ⟨-, rfl⟩ := ((Acq.C35_sources ss cuts hl).1 ss').mp hs
  intro s hs
  obtain ⟨p, hp, rfl⟩ := List.mem_map.mp hs
  exact (h1 p hp).1

/-- C88: without source encoding the windows exist exactly if the shots have different numbers and no
source is at x = 0. -/
theorem C88_exists_iff {x0 x0Big DH : ℚ} {domains : Int} {s : Source} {ss : List Source} (hd : 0 < domains)
    (hno : ∀ t ∈ s :: ss, 0 ≤ t.no) :
    (∃ cuts, getCutCoord x0 x0Big DH 0 domains (s :: ss) = .ok cuts) ↔
      (∃ us, Acq.uniqueShotNos (s :: ss) = .ok us ∧ us.length = (s :: ss).length) ∧
        ∀ t ∈ s :: ss, t.coords.x ≠ 0 := by
  obtain ⟨us, hu⟩ : ∃ us, Acq.uniqueShotNos (s :: ss) = .ok us := ⟨_, rfl⟩
  unfold getCutCoord
  rw [hu]
  simp only [Out.bind_ok]
  obtain ⟨k1, k2⟩ := cutLoop_zero (perSuper := ⌈((s :: ss).length : ℚ) / domains⌉)
    (mx := minSourceX (s :: ss) s.coords.x - SU.roundQ ((x0 - x0Big) / DH)) (s :: ss) 0 0 hno
  by_cases hl : (s :: ss).length = us.length
  · rw [if_neg (by simpa using hl), if_neg (by omega)]
    by_cases hz : ∃ t ∈ s :: ss, t.coords.x = 0
    · rw [k2 hz]
      constructor
      · rintro ⟨c, hc⟩; cases hc
      · rintro ⟨-, hn⟩
        obtain ⟨t, ht, hx⟩ := hz
        exact absurd hx (hn t ht)
    · have hz' : ∀ t ∈ s :: ss, t.coords.x ≠ 0 := by push Not at hz; exact hz
      rw [k1 hz']
      exact ⟨fun _ => ⟨⟨us, rfl, hl.symm⟩, hz'⟩, fun _ => ⟨_, rfl⟩⟩
  · rw [if_pos (by simpa using hl)]
    constructor
    · rintro ⟨c, hc⟩; cases hc
    · rintro ⟨⟨us', h1, h2⟩, -⟩
      cases h1
      exact absurd h2.symm hl

private theorem cutLoop_len {enc perSuper mx : Int} : ∀ (ss : List Source) (i x : Int) (r : List Coord),
    cutLoop enc perSuper mx ss i x = .ok r → r.length = ss.length := by
  intro ss
  induction ss with
  | nil => intro i x r h; cases h; rfl
  | cons s ss ih =>
    intro i x r h
    unfold cutLoop at h
    simp only at h
    generalize (if s.no ≥ 0 then if enc = 0 ∨ (enc = 3 ∧ i.tmod perSuper = 0) then s.coords.x else x
      else x) = X at h
    by_cases hX : X = 0
    · rw [if_pos hX] at h; cases h
    · rw [if_neg hX] at h
      cases hc : cutLoop enc perSuper mx ss (i + 1) X with
      | ok r' =>
        rw [hc] at h
        cases h
        simp [ih _ _ _ hc]
      | err => rw [hc] at h; cases h
      | ub => rw [hc] at h; cases h

private theorem cutLoop_step {perSuper mx : Int} (s : Source) (ss : List Source) (i x : Int) (r : List Coord)
    (hno : 0 ≤ s.no) (h : cutLoop 3 perSuper mx (s :: ss) i x = .ok r) :
    ∃ r', cutLoop 3 perSuper mx ss (i + 1) (if i.tmod perSuper = 0 then s.coords.x else x) = .ok r' ∧
      r = ⟨max ((if i.tmod perSuper = 0 then s.coords.x else x) - mx) 0, 0, 0⟩ :: r' := by
  unfold cutLoop at h
  have e : (if s.no ≥ 0 then if (3 : Int) = 0 ∨ ((3 : Int) = 3 ∧ i.tmod perSuper = 0) then s.coords.x else x
      else x) = if i.tmod perSuper = 0 then s.coords.x else x := by
    rw [if_pos hno]
    by_cases h0 : i.tmod perSuper = 0 <;> simp [h0]
  generalize (if i.tmod perSuper = 0 then s.coords.x else x) = X at *
  dsimp only at h
  rw [e] at h
  by_cases hX : X = 0
  · rw [if_pos hX] at h; cases h
  · rw [if_neg hX] at h
    cases hc : cutLoop 3 perSuper mx ss (i + 1) X with
    | ok r' =>
      rw [hc] at h
      cases h
      refine ⟨r', rfl, ?_⟩
      congr 2
      split <;> omega
    | err => rw [hc] at h; cases h
    | ub => rw [hc] at h; cases h

private theorem cutLoop_blocks {n : Int} {mx : Int} (hn : 0 < n) : ∀ (ss : List Source) (i x : Int)
    (r : List Coord), 0 ≤ i → (∀ s ∈ ss, 0 ≤ s.no) → cutLoop 3 n mx ss i x = .ok r →
    (∀ k (hk : k < ss.length), (i + k) / n = i / n → i % n ≠ 0 → r[k]? = some ⟨max (x - mx) 0, 0, 0⟩) ∧
    (∀ k (hk : k < ss.length), (i + k) % n = 0 → ∀ l, k + l < ss.length → (i + k + l) / n = (i + k) / n →
      r[k + l]? = some ⟨max (ss[k].coords.x - mx) 0, 0, 0⟩) := by
  intro ss
  induction ss with
  | nil => intro i x r _ _ _; simp
  | cons s ss ih =>
    intro i x r hi hno h
    obtain ⟨r', hr', rfl⟩ := cutLoop_step s ss i x r (hno s (by simp)) h
    obtain ⟨ih1, ih2⟩ := ih (i + 1) _ r' (by omega) (fun t ht => hno t (List.mem_cons_of_mem _ ht)) hr'
    have htm : i.tmod n = i % n := Int.tmod_eq_emod_of_nonneg hi
    rw [htm] at ih1 ⊢
    -- staying in a block
    have stay : ∀ l : Nat, l < ss.length → (i + 1 + l) / n = i / n →
        r'[l]? = some ⟨max ((if i % n = 0 then s.coords.x else x) - mx) 0, 0, 0⟩ := by
      intro l hl he
      have h1 : (i + 1) / n = i / n := by
        have a := Int.ediv_le_ediv hn (show i ≤ i + 1 by omega)
        have b := Int.ediv_le_ediv hn (show i + 1 ≤ i + 1 + (l : Int) by omega)
        omega
      have h2 : (i + 1) % n ≠ 0 := by
        intro h0
        have e1 := Int.emod_add_mul_ediv (i + 1) n
        have e2 := Int.emod_add_mul_ediv i n
        have e3 := Int.emod_nonneg i (by omega : n ≠ 0)
        rw [h0, h1] at e1
        omega
      exact ih1 l hl (by rw [he, h1]) h2
    constructor
    · intro k hk he h0
      cases k with
      | zero => simp [h0]
      | succ k =>
        rw [List.getElem?_cons_succ, stay k (by simpa using hk) (by rw [← he]; congr 1; push_cast; ring)]
        simp [h0]
    · intro k hk h0 l hl he
      cases k with
      | zero =>
        have h0 : i % n = 0 := by simpa using h0
        cases l with
        | zero => simp [h0]
        | succ l =>
          rw [Nat.zero_add, List.getElem?_cons_succ, stay l (by simpa using hl) (by
            have : (i + ((0 : Nat) : Int) + ((l + 1 : Nat) : Int)) = i + 1 + l := by push_cast; ring
            rw [this] at he
            simpa using he)]
          simp [h0]
      | succ k =>
        have e : k + 1 + l = (k + l) + 1 := by omega
        rw [e, List.getElem?_cons_succ]
        have e1 : i + ((k + 1 : Nat) : Int) = i + 1 + k := by push_cast; ring
        rw [e1] at h0 he
        exact ih2 k (by simpa using hk) h0 l (by simp at hl; omega) he

/-- C88: with source encoding 3, all sources of a supershot (whose number is the index of the source divided
by the number of shots per supershot, Sources.cpp:652-655) have the window of the first source of the
supershot. -/
theorem C88_supershot_window {x0 x0Big DH : ℚ} {domains : Int} {ss : List Source} {cuts : List Coord}
    (hno : ∀ s ∈ ss, 0 ≤ s.no) (h : getCutCoord x0 x0Big DH 3 domains ss = .ok cuts) :
    cuts.length = ss.length ∧
    ∀ i j : Nat, i < ss.length → j < ss.length →
      (i : Int) / ⌈(ss.length : ℚ) / domains⌉ = (j : Int) / ⌈(ss.length : ℚ) / domains⌉ →
      cuts[i]? = cuts[j]? := by
  unfold getCutCoord at h
  cases hu : Acq.uniqueShotNos ss with
  | err => rw [hu] at h; cases h
  | ub => rw [hu] at h; cases h
  | ok us =>
    rw [hu] at h
    simp only [Out.bind_ok] at h
    cases ss with
    | nil => cases h
    | cons s ss =>
      simp only at h
      split at h; · cases h
      split at h; · cases h
      rename_i hdom
      set n := ⌈((s :: ss).length : ℚ) / domains⌉ with hn
      have hn0 : 0 < n := by
        rw [hn, Int.ceil_pos]
        apply div_pos
        · simp only [List.length_cons]; positivity
        · have : 0 < domains := by omega
          exact_mod_cast this
      refine ⟨cutLoop_len _ _ _ _ h, ?_⟩
      obtain ⟨-, hb⟩ := cutLoop_blocks hn0 (s :: ss) 0 0 cuts le_rfl hno h
      -- every entry equals that of the first source of its block
      have first : ∀ i : Nat, (hi : i < (s :: ss).length) →
          ∃ k : Nat, (k : Int) = n * ((i : Int) / n) ∧ ∃ hk : k < (s :: ss).length,
            cuts[i]? = some ⟨max ((s :: ss)[k].coords.x - (minSourceX (s :: ss) s.coords.x -
              SU.roundQ ((x0 - x0Big) / DH))) 0, 0, 0⟩ := by
        intro i hi
        have hq0 : 0 ≤ (i : Int) / n := Int.ediv_nonneg (by omega) hn0.le
        have hm0 : 0 ≤ n * ((i : Int) / n) := by positivity
        have hle : n * ((i : Int) / n) ≤ i := Int.mul_ediv_self_le (by omega)
        obtain ⟨k, hk⟩ := Int.eq_ofNat_of_zero_le hm0
        have hki : k ≤ i := by omega
        refine ⟨k, hk.symm, by omega, ?_⟩
        have := hb k (by omega) (by rw [zero_add, ← hk]; simp) (i - k) (by omega) (by
          have e : (0 : Int) + k + ((i - k : Nat) : Int) = i := by omega
          rw [e, zero_add, ← hk, Int.mul_ediv_cancel_left _ (by omega)])
        have e : k + (i - k) = i := by omega
        rw [e] at this
        exact this
      intro i j hi hj hij
      obtain ⟨k, hk, hkl, a⟩ := first i hi
      obtain ⟨k', hk', hkl', b⟩ := first j hj
      have : k = k' := by rw [hij] at hk; omega
      subst this
      rw [a, b]

/-- Three shots whose windows follow the sources; the shot grid begins two points right of the big grid. -/
example : getCutCoord 20 0 10 0 1 [⟨1, ⟨30, 5, 0⟩, 1, 1, 1, 0⟩, ⟨2, ⟨25, 5, 0⟩, 1, 1, 1, 0⟩,
    ⟨3, ⟨40, 5, 0⟩, 1, 1, 1, 0⟩] = .ok [⟨7, 0, 0⟩, ⟨2, 0, 0⟩, ⟨17, 0, 0⟩] := by
  have e : SU.roundQ ((20 - 0) / 10) = 2 := by norm_num [SU.roundQ]
  unfold getCutCoord
  rw [e]
  rfl

/-- Three shots in two supershots: the first two share a window. -/
example : getCutCoord 0 0 10 3 2 [⟨1, ⟨30, 5, 0⟩, 1, 1, 1, 0⟩, ⟨2, ⟨25, 5, 0⟩, 1, 1, 1, 0⟩,
    ⟨3, ⟨40, 5, 0⟩, 1, 1, 1, 0⟩] = .ok [⟨5, 0, 0⟩, ⟨5, 0, 0⟩, ⟨15, 0, 0⟩] := by
  have e : SU.roundQ ((0 - 0) / 10) = 0 := by norm_num [SU.roundQ]
  have e2 : ⌈((3 : Nat) : ℚ) / ((2 : Int) : ℚ)⌉ = 2 := by
    rw [Int.ceil_eq_iff]; norm_num
  unfold getCutCoord
  rw [e]
  simp only [List.length_cons, List.length_nil, Nat.zero_add, Nat.reduceAdd]
  rw [e2]
  rfl

end Verif.Sub
