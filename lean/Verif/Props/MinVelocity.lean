import Verif.Model.MinVelocity
import Verif.Props.Subset

/-!
# C144: minimum velocity of a model
-/
set_option linter.dupNamespace false
set_option linter.unusedSimpArgs false

namespace Verif.Sub
open Verif

/-- The velocities of the waves of a wave equation: shear waves, and in the elastic equations also pressure waves. -/
def IsVelocity (e : Eqn) (m : Model) (velocityEM : List ℝ) (x : ℝ) : Prop :=
  match e with
  | .acoustic => x ∈ m.par .velocityP
  | .elastic | .viscoelastic => x ∈ m.par .velocityP ∨ x ∈ m.par .velocityS
  | .sh | .viscosh => x ∈ m.par .velocityS
  | .tmem | .emem | .viscotmem | .viscoemem => x ∈ velocityEM

/-! ### Helper lemmas -/

private theorem fold_min : ∀ (xs : List ℝ) (x : ℝ),
    xs.foldl min x ∈ x :: xs ∧ ∀ y ∈ x :: xs, xs.foldl min x ≤ y := by
  intro xs
  induction xs with
  | nil => simp
  | cons a xs ih =>
    intro x
    obtain ⟨h1, h2⟩ := ih (min x a)
    rw [List.foldl_cons]
    refine ⟨?_, fun y hy => ?_⟩
    · rcases List.mem_cons.mp h1 with h | h
      · rw [h]
        rcases min_choice x a with h | h <;> rw [h] <;> simp
      · exact List.mem_cons_of_mem _ (List.mem_cons_of_mem _ h)
    · have := h2 (min x a) (by simp)
      rcases List.mem_cons.mp hy with rfl | hy
      · exact this.trans (min_le_left _ _)
      · rcases List.mem_cons.mp hy with rfl | hy
        · exact this.trans (min_le_right _ _)
        · exact h2 y (List.mem_cons_of_mem _ hy)

private theorem fold_max : ∀ (xs : List ℝ) (x : ℝ),
    xs.foldl max x ∈ x :: xs ∧ ∀ y ∈ x :: xs, y ≤ xs.foldl max x := by
  intro xs
  induction xs with
  | nil => simp
  | cons a xs ih =>
    intro x
    obtain ⟨h1, h2⟩ := ih (max x a)
    rw [List.foldl_cons]
    refine ⟨?_, fun y hy => ?_⟩
    · rcases List.mem_cons.mp h1 with h | h
      · rw [h]
        rcases max_choice x a with h | h <;> rw [h] <;> simp
      · exact List.mem_cons_of_mem _ (List.mem_cons_of_mem _ h)
    · have := h2 (max x a) (by simp)
      rcases List.mem_cons.mp hy with rfl | hy
      · exact (le_max_left _ _).trans this
      · rcases List.mem_cons.mp hy with rfl | hy
        · exact (le_max_right _ _).trans this
        · exact h2 y (List.mem_cons_of_mem _ hy)

private theorem min_spec {v : List ℝ} (hv : v ≠ []) :
    ∃ t, extremum min v = .ok t ∧ t ∈ v ∧ ∀ y ∈ v, t ≤ y := by
  cases v with
  | nil => exact absurd rfl hv
  | cons x xs => exact ⟨_, rfl, fold_min xs x⟩

private theorem max_spec {v : List ℝ} (hv : v ≠ []) :
    ∃ t, extremum max v = .ok t ∧ t ∈ v ∧ ∀ y ∈ v, y ≤ t := by
  cases v with
  | nil => exact absurd rfl hv
  | cons x xs => exact ⟨_, rfl, fold_max xs x⟩

/-- The value returned: the smallest value above one, or the largest value if there is none. -/
private theorem vmin_spec (e : Eqn) (m : Model) (vem : List ℝ) (hv : vMinVec e m vem ≠ []) :
    ∃ t, getVmin e m vem = .ok t ∧ t ∈ vMinVec e m vem ∧
      ((1 < t ∧ ∀ y ∈ vMinVec e m vem, 1 < y → t ≤ y) ∨ (t ≤ 1 ∧ ∀ y ∈ vMinVec e m vem, y ≤ t)) := by
  obtain ⟨a, h1, h2, h3⟩ := min_spec hv
  obtain ⟨b, g1, g2, g3⟩ := max_spec hv
  unfold getVmin
  simp only [h1, Out.bind_ok]
  by_cases ha : a ≤ 1
  · rw [if_pos ha, g1]
    simp only [Out.bind_ok]
    have hs : Common.searchAndReplace (vMinVec e m vem) 1 b 3 =
        .ok ((vMinVec e m vem).map fun y => if y ≤ 1 then b else y) := by
      unfold Common.searchAndReplace
      rw [if_pos (by norm_num)]
      simp [Common.compareTest]
    rw [hs]
    simp only [Out.bind_ok]
    obtain ⟨t, k1, k2, k3⟩ := min_spec (v := (vMinVec e m vem).map fun y => if y ≤ 1 then b else y) (by simpa using hv)
    refine ⟨t, k1, ?_, ?_⟩
    · obtain ⟨y, hy, rfl⟩ := List.mem_map.mp k2
      split_ifs
      · exact g2
      · exact hy
    · have hle : ∀ y ∈ vMinVec e m vem, 1 < y → t ≤ y := fun y hy h1 => by
        have := k3 (if y ≤ 1 then b else y) (List.mem_map.mpr ⟨y, hy, rfl⟩)
        rwa [if_neg (not_le.mpr h1)] at this
      by_cases ht : 1 < t
      · exact .inl ⟨ht, hle⟩
      · right
        refine ⟨not_lt.mp ht, ?_⟩
        obtain ⟨y, hy, rfl⟩ := List.mem_map.mp k2
        by_cases h : y ≤ 1
        · simpa only [if_pos h] using g3
        · simp only [if_neg h] at ht
          exact absurd (not_le.mp h) ht
  · rw [if_neg ha]
    exact ⟨a, rfl, h2, .inl ⟨not_le.mp ha, fun y hy _ => h3 y hy⟩⟩

private theorem single (e : Eqn) (he : e ≠ .elastic) (he' : e ≠ .viscoelastic) (m : Model) (vem : List ℝ) (x : ℝ) :
    IsVelocity e m vem x ↔ x ∈ vMinVec e m vem := by
  cases e <;> simp_all [IsVelocity, vMinVec]

/-! ### C144 -/

/-- C144 for the acoustic, SH and electromagnetic equations: the result is the smallest velocity above one m/s of the model.
Missing: the elastic equations (`C144_elastic_partial`, `C144_elastic_violated`) and models without a velocity above
one (`C144_slow_violated`). -/
theorem C144_smallest_partial (e : Eqn) (he : e ≠ .elastic) (he' : e ≠ .viscoelastic) (m : Model) (vem : List ℝ)
    (hex : ∃ x, IsVelocity e m vem x ∧ 1 < x) :
    ∃ t, getVmin e m vem = .ok t ∧ IsLeast {x | IsVelocity e m vem x ∧ 1 < x} t := by
  obtain ⟨x, hx, h1⟩ := hex
  rw [single e he he'] at hx
  obtain ⟨t, k1, k2, k3⟩ := vmin_spec e m vem (List.ne_nil_of_mem hx)
  refine ⟨t, k1, ?_⟩
  simp only [single e he he']
  rcases k3 with ⟨a, b⟩ | ⟨a, b⟩
  · exact ⟨⟨k2, a⟩, fun y hy => b y hy.1 hy.2⟩
  · exact absurd (b x hx) (by linarith)

/-- C144 for the elastic equations, if there are no fluids: the velocities of shear waves are above one m/s and below those of
pressure waves at every point. -/
theorem C144_elastic_partial (e : Eqn) (he : e = .elastic ∨ e = .viscoelastic) (m : Model) (vem : List ℝ)
    (hne : m.par .velocityS ≠ []) (hlen : (m.par .velocityP).length = (m.par .velocityS).length)
    (hle : ∀ i : ℕ, ∀ p ∈ (m.par .velocityP)[i]?, ∀ s ∈ (m.par .velocityS)[i]?, 1 < s ∧ s ≤ p) :
    ∃ t, getVmin e m vem = .ok t ∧ IsLeast {x | IsVelocity e m vem x ∧ 1 < x} t := by
  have hvec : vMinVec e m vem = m.par .velocityS := by rcases he with rfl | rfl <;> rfl
  have hvel : ∀ x, IsVelocity e m vem x ↔ x ∈ m.par .velocityP ∨ x ∈ m.par .velocityS := by
    intro x
    rcases he with rfl | rfl <;> rfl
  obtain ⟨t, k1, k2, k3⟩ := vmin_spec e m vem (by rwa [hvec])
  rw [hvec] at k2 k3
  have hs : ∀ s ∈ m.par .velocityS, 1 < s := by
    intro s hs
    obtain ⟨i, hi, rfl⟩ := List.mem_iff_getElem.mp hs
    exact (hle i _ (List.getElem?_eq_getElem (hlen ▸ hi)) _ (List.getElem?_eq_getElem hi)).1
  have hmin : ∀ y ∈ m.par .velocityS, t ≤ y := by
    rcases k3 with ⟨-, b⟩ | ⟨a, -⟩
    · exact fun y hy => b y hy (hs y hy)
    · exact absurd (hs t k2) (by linarith)
  refine ⟨t, k1, ⟨(hvel t).mpr (.inr k2), hs t k2⟩, fun y hy => ?_⟩
  rcases (hvel y).mp hy.1 with h | h
  · obtain ⟨i, hi, rfl⟩ := List.mem_iff_getElem.mp h
    have hi' : i < (m.par .velocityS).length := hlen ▸ hi
    exact (hmin _ (List.getElem_mem hi')).trans
      (hle i _ (List.getElem?_eq_getElem hi) _ (List.getElem?_eq_getElem hi')).2
  · exact hmin y h

/-- C144 fails for the elastic equations in models with a fluid: with water (pressure waves of velocity `w`) above rock in which
even shear waves are faster than `w`, the result is the velocity of shear waves in the rock. -/
theorem C144_elastic_violated (e : Eqn) (he : e = .elastic ∨ e = .viscoelastic) (w s p : ℝ) (hw : 1 < w) (hs : w < s)
    (hp : s ≤ p) (m : Model) (vem : List ℝ) (hvp : m.par .velocityP = [w, p]) (hvs : m.par .velocityS = [0, s]) :
    getVmin e m vem = .ok s ∧ IsLeast {x | IsVelocity e m vem x ∧ 1 < x} w ∧ w < s := by
  have hvec : vMinVec e m vem = [0, s] := by rcases he with rfl | rfl <;> exact hvs
  have hvel : ∀ x, IsVelocity e m vem x ↔ x ∈ m.par .velocityP ∨ x ∈ m.par .velocityS := by
    intro x
    rcases he with rfl | rfl <;> rfl
  obtain ⟨t, k1, k2, k3⟩ := vmin_spec e m vem (by rw [hvec]; simp)
  rw [hvec] at k2 k3
  have ht : t = s := by
    rcases k3 with ⟨a, -⟩ | ⟨a, b⟩
    · simp only [List.mem_cons, List.not_mem_nil, or_false] at k2
      rcases k2 with rfl | h
      · linarith
      · exact h
    · have := b s (by simp)
      linarith
  refine ⟨ht ▸ k1, ⟨⟨(hvel w).mpr (.inl (by simp [hvp])), hw⟩, fun y hy => ?_⟩, hs⟩
  obtain ⟨h, h1⟩ := hy
  rw [hvel, hvp, hvs] at h
  simp only [List.mem_cons, List.not_mem_nil, or_false] at h
  rcases h with (rfl | rfl) | (rfl | rfl)
  · exact le_refl _
  · linarith
  · linarith
  · exact hs.le

/-- C144 fails for models without a velocity above one m/s, e.g. given in km/s: the result is the largest velocity. -/
theorem C144_slow_violated (e : Eqn) (he : e ≠ .elastic) (he' : e ≠ .viscoelastic) (m : Model) (vem : List ℝ)
    (hex : ∃ x, IsVelocity e m vem x) (hall : ∀ x, IsVelocity e m vem x → x ≤ 1) :
    ∃ t, getVmin e m vem = .ok t ∧ IsGreatest {x | IsVelocity e m vem x} t := by
  obtain ⟨x, hx⟩ := hex
  rw [single e he he'] at hx
  obtain ⟨t, k1, k2, k3⟩ := vmin_spec e m vem (List.ne_nil_of_mem hx)
  refine ⟨t, k1, ?_⟩
  simp only [single e he he'] at hall ⊢
  rcases k3 with ⟨a, b⟩ | ⟨a, b⟩
  · exact absurd (hall t k2) (by linarith)
  · exact ⟨k2, fun y hy => b y hy⟩

/-- An SH model with air (0), sand (300) and rock (1500): 300. An elastic model with water (1480) over rock (shear waves of 2500):
2500. -/
example (p : Par → List ℝ) (hp : p .velocityS = [0, 300, 1500]) :
    ∃ t, getVmin .sh ⟨p, 0, []⟩ [] = .ok t ∧ IsLeast {x | IsVelocity .sh ⟨p, 0, []⟩ [] x ∧ 1 < x} t :=
  C144_smallest_partial .sh (by decide) (by decide) _ _ ⟨300, by simp [IsVelocity, hp], by norm_num⟩

example (p : Par → List ℝ) (hp : p .velocityP = [1480, 4500]) (hs : p .velocityS = [0, 2500]) :
    getVmin .elastic ⟨p, 0, []⟩ [] = .ok 2500 :=
  (C144_elastic_violated .elastic (.inl rfl) 1480 2500 4500 (by norm_num) (by norm_num) (by norm_num) _ _ hp hs).1

end Verif.Sub
