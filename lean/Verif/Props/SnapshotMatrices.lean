import Verif.Props.MatrixSetup
import Verif.Model.WavefieldViews

/-!
# C122: snapshots apply only matrices that exist; C123: what is written; C124: memory of the wavefields
-/

namespace Verif.MatSetup
open Verif Verif.Solver Verif.Views
open Matrix

variable {ι : Type} [Fintype ι]

/-- C122: the divergence snapshots of every accepted configuration are determined by the matrices that were built and
not purged. -/
theorem C122_div (g : Cfg) (hk : hasCurl g.kind = true) {s s' : Store ι} (h : Agree g s s')
    (cw dw : ι → ℝ) (t : State ι) (parts : Fld → Way → Out (ι → ℝ)) :
    value g.kind (getters g s) cw dw t parts .div = value g.kind (getters g s') cw dw t parts .div := by
  have hx := (eq_x h).2
  have hy := eq_yb h
  have hz := fun h3 => (eq_z h h3).2
  generalize hkk : g.kind = k at hk hz ⊢
  cases k <;> first | (simp [hasCurl] at hk; done) | skip
  all_goals
    refine congrArg Out.ok (funext fun i => ?_)
    first
    | (simp only [div2D, hx, hy]; done)
    | (simp only [div3D, hx, hy, hz rfl]; done)

/-- C122: the curl snapshots are determined by the matrices that were built and not purged, unless there is a free
surface together with an electromagnetic equation or a variable grid. -/
theorem C122_curl_partial (g : Cfg) (ha : g.accepted = true) (hk : hasCurl g.kind = true)
    (hf : g.freeSurface = 1 → g.kind.isElastic = true ∧ g.useVariableGrid = false) {s s' : Store ι} (h : Agree g s s')
    (cw dw : ι → ℝ) (t : State ι) (parts : Fld → Way → Out (ι → ℝ)) :
    value g.kind (getters g s) cw dw t parts .curl = value g.kind (getters g s') cw dw t parts .curl := by
  have hx := (eq_x h).1
  have hy := eq_yf h ha hf
  have hz := fun h3 => (eq_z h h3).1
  generalize hkk : g.kind = k at hk hz ⊢
  cases k <;> first | (simp [hasCurl] at hk; done) | skip
  all_goals
    refine congrArg Out.ok (funext fun i => ?_)
    first
    | (simp only [curl2D, hx, hy]; done)
    | (simp only [curl3D, hx, hy, hz rfl]; done)

/-- C122 is violated in exactly the other accepted configurations: the curl is calculated with a matrix that was purged
or never built. In elastic simulations on variable grids the time stepping itself does not need this matrix, only the
snapshots do. -/
theorem C122_curl_violated (g : Cfg) (ha : g.accepted = true) (hk : hasCurl g.kind = true) (h1 : g.freeSurface = 1)
    (hf : ¬(g.kind.isElastic = true ∧ g.useVariableGrid = false)) (parts : Fld → Way → Out (Unit → ℝ)) :
    ∃ (s s' : Store Unit) (t : State Unit), Agree g s s' ∧
      value g.kind (getters g s) 1 1 t parts .curl ≠ value g.kind (getters g s') 1 1 t parts .curl := by
  have hc : prepare g (cur g .Dyf) = false := by
    rw [← Bool.not_eq_true, held_yf g ha]
    exact fun hh => hf (hh h1)
  refine ⟨fun _ => 0, fun m => if m = cur g .Dyf then 1 else 0, fun v => if v = .fld .vX ∨ v = .fld .hX then 1 else 0,
    fun m hm => ?_, fun he => ?_⟩
  · beta_reduce
    rw [if_neg]
    rintro rfl
    rw [hc] at hm
    cases hm
  · have hx : cur g .Dxf ≠ cur g .Dyf := by unfold cur; split <;> simp
    have hz : cur g .Dzf ≠ cur g .Dyf := by unfold cur; split <;> simp
    generalize hkk : g.kind = k at hk he
    cases k <;> first | (simp [hasCurl] at hk; done) | skip
    all_goals
      have he := congrFun (Out.ok.inj he) ()
      simp [curl2D, curl3D, getters, plain_eq, hx, hz, seisVec, emVec] at he

/-- C122: the decomposition into left and right parts is determined by the matrices that were built. -/
theorem C122_horizontal (g : Cfg) {s s' : Store ι} (h : Agree g s s') (t dot : State ι)
    (old : Fld → Way → Out (ι → ℝ)) :
    decompose g.kind 2 (getters g s) t dot old = decompose g.kind 2 (getters g s') t dot old := by
  funext f w
  have hx := (eq_x h).1
  cases w <;> simp [decompose, hx]

/-- C122: the decomposition into up and down parts is determined by the matrices that were built, unless there is a
free surface. -/
theorem C122_vertical_partial (g : Cfg) (ha : g.accepted = true) (hf : g.freeSurface ≠ 1) {s s' : Store ι}
    (h : Agree g s s') (t dot : State ι) (old : Fld → Way → Out (ι → ℝ)) :
    decompose g.kind 1 (getters g s) t dot old = decompose g.kind 1 (getters g s') t dot old := by
  funext f w
  have hy := eq_yf h ha (fun h1 => absurd h1 hf)
  cases w <;> simp [decompose, hy]

/-- C122 is violated by the decomposition into up and down parts in every acoustic simulation with free surface, which
itself does not need this matrix. -/
theorem C122_vertical_violated (g : Cfg) (ha : g.accepted = true) (hk : g.kind = .acoustic2D) (h1 : g.freeSurface = 1)
    (old : Fld → Way → Out (Unit → ℝ)) :
    ¬ Lacking g ∧ ∃ (s s' : Store Unit) (t dot : State Unit), Agree g s s' ∧
      decompose g.kind 1 (getters g s) t dot old .p .up ≠ decompose g.kind 1 (getters g s') t dot old .p .up := by
  have hc : prepare g (cur g .Dyf) = false := by
    rw [← Bool.not_eq_true, held_yf g ha]
    intro hh
    have := (hh h1).1
    simp [hk, Kind.isElastic] at this
  refine ⟨fun hl => by simp [Lacking, hk] at hl, fun _ => 0, fun m => if m = cur g .Dyf then 1 else 0, fun _ => 1,
    fun _ => 1, fun m hm => ?_, fun he => ?_⟩
  · beta_reduce
    rw [if_neg]
    rintro rfl
    rw [hc] at hm
    cases hm
  · simp [decompose, hk, decomposed, indicator, slant, maxNorm, getters, plain_eq] at he

/-- Accepted configurations of both kinds. -/
example : (⟨.elastic2D, 1, true, 2, false, false, false⟩ : Cfg).accepted = true ∧
    ¬ Lacking ⟨.elastic2D, 1, true, 2, false, false, false⟩ ∧
    (⟨.acoustic2D, 1, false, 1, true, false, false⟩ : Cfg).accepted = true ∧
    (⟨.elastic3D, 1, false, 1, true, false, false⟩ : Cfg).accepted = true := by
  refine ⟨by decide, ?_, by decide, by decide⟩
  simp [Lacking]

end Verif.MatSetup
