import Verif.Model.Factory

/-!
# C151: the configuration chooses the equations that are solved

A simulation reads `dimension` and `equationType`. It must work with wavefields, model, derivatives and solver of just this
dimension and equation, in any spelling with upper and lower case letters, and reject all other values.
-/
namespace Verif.Setup
open Verif
open Verif.Config (Str lower)
open Verif.MatSetup (Kind)
open Verif.Sub (Eqn)

/-- Names of the equations in the documentation of the configuration. -/
def name : Eqn → String
  | .acoustic => "acoustic"
  | .elastic => "elastic"
  | .viscoelastic => "viscoelastic"
  | .sh => "sh"
  | .viscosh => "viscosh"
  | .tmem => "tmem"
  | .emem => "emem"
  | .viscotmem => "viscotmem"
  | .viscoemem => "viscoemem"

/-- The equations of waves in a plane: there is no 3D version. -/
def planar : Eqn → Bool
  | .sh | .viscosh | .tmem | .viscotmem => true
  | _ => false

/-- `dim` says "2D" or "3D". -/
def Dim (dim : Str) (D : ℕ) : Prop := D = 2 ∧ lower dim = "2d".toList ∨ D = 3 ∧ lower dim = "3d".toList

/-- `type` says `e`. -/
def Typ (type : Str) (e : Eqn) : Prop := lower type = (name e).toList

private theorem createAll_of (dim type : Str) (D : ℕ) (e : Eqn) (hd : Dim dim D) (ht : Typ type e) :
    createAll dim type = if D = 3 ∧ planar e = true then .ub else
      createAll (if D = 2 then "2d".toList else "3d".toList) (name e).toList := by
  unfold Typ at ht
  rcases hd with ⟨rfl, hd⟩ | ⟨rfl, hd⟩ <;> cases e <;>
    (unfold createAll createDerivatives createModel create accepted
     simp only [hd, ht]
     rfl)

/-- C151: the objects of a simulation are those of the dimension and the equation in the configuration, in any spelling. The
missing combinations are in `C151_planar_violated`, other strings in `C151_rejected`. -/
theorem C151_objects_partial (dim type : Str) (D : ℕ) (e : Eqn) (hd : Dim dim D) (ht : Typ type e)
    (hp : D = 3 → planar e = false) :
    ∃ p, createAll dim type = .ok p ∧ p.derivatives = D ∧ p.model = e ∧ modelType p.model = name e ∧
      description p.wavefields = (D, name e) ∧ p.solver = p.wavefields := by
  rw [createAll_of dim type D e hd ht]
  rcases hd with ⟨rfl, hd⟩ | ⟨rfl, hd⟩
  · cases e <;> exact ⟨_, rfl, rfl, rfl, rfl, rfl, rfl⟩
  · have hp := hp rfl
    cases e <;> first | exact ⟨_, rfl, rfl, rfl, rfl, rfl, rfl⟩ | exact absurd hp (by decide)

/-- Strings that name no dimension or no equation are rejected with an exception. -/
theorem C151_rejected (dim type : Str) (h : (¬ ∃ D, Dim dim D) ∨ ¬ ∃ e, Typ type e) : createAll dim type = .err := by
  have hdim : (¬ ∃ D, Dim dim D) → createDerivatives dim = .err := by
    intro h
    unfold createDerivatives
    rw [if_neg]
    intro ha
    apply h
    simp only [accepted, dimensions, List.any_cons, List.any_nil, Bool.or_false, Bool.or_eq_true, decide_eq_true_eq] at ha
    rcases ha with ha | ha
    · exact ⟨2, Or.inl ⟨rfl, ha.symm⟩⟩
    · exact ⟨3, Or.inr ⟨rfl, ha.symm⟩⟩
  have htyp : (¬ ∃ e, Typ type e) → createModel type = .err := by
    intro h
    unfold createModel
    rw [if_neg]
    intro ha
    apply h
    simp only [accepted, types, List.any_cons, List.any_nil, Bool.or_false, Bool.or_eq_true, decide_eq_true_eq] at ha
    rcases ha with ha | ha | ha | ha | ha | ha | ha | ha | ha
    · exact ⟨.acoustic, ha.symm⟩
    · exact ⟨.elastic, ha.symm⟩
    · exact ⟨.viscoelastic, ha.symm⟩
    · exact ⟨.sh, ha.symm⟩
    · exact ⟨.viscosh, ha.symm⟩
    · exact ⟨.emem, ha.symm⟩
    · exact ⟨.tmem, ha.symm⟩
    · exact ⟨.viscoemem, ha.symm⟩
    · exact ⟨.viscotmem, ha.symm⟩
  unfold createAll
  by_cases hd : ∃ D, Dim dim D
  · have ht := htyp (h.resolve_left fun hn => hn hd)
    rw [ht]
    obtain ⟨D, hD⟩ := hd
    have : createDerivatives dim = .ok D := by
      unfold createDerivatives accepted
      rcases hD with ⟨rfl, hD⟩ | ⟨rfl, hD⟩ <;> simp only [hD] <;> rfl
    rw [this]
    rfl
  · rw [hdim hd]
    rfl

/-- C151 fails for the planar equations in three dimensions: the configuration is accepted, and the program goes on with a
null pointer. -/
theorem C151_planar_violated (dim type : Str) (e : Eqn) (hd : lower dim = "3d".toList) (ht : Typ type e)
    (hp : planar e = true) : createAll dim type = .ub := by
  rw [createAll_of dim type 3 e (Or.inr ⟨rfl, hd⟩) ht, if_pos ⟨rfl, hp⟩]

/-- The solvers couple sources and receivers with the class that the factory would return. -/
theorem C151_coupling (dim type : Str) (p : Parts) (h : createAll dim type = .ok p) :
    create couplingTable dim type = .ok (some (coupling p.solver)) := by
  by_cases hn : (¬ ∃ D, Dim dim D) ∨ ¬ ∃ e, Typ type e
  · rw [C151_rejected dim type hn] at h
    cases h
  · rw [not_or, not_not, not_not] at hn
    obtain ⟨⟨D, hd⟩, e, ht⟩ := hn
    rw [createAll_of dim type D e hd ht] at h
    unfold Typ at ht
    unfold create accepted
    rcases hd with ⟨rfl, hd⟩ | ⟨rfl, hd⟩ <;> cases e <;> first
      | (cases h; simp only [hd, ht]; rfl)
      | cases h

/-! ### The checks -/

/-- Fastest and slowest wave of an equation. -/
def waves : Eqn → Vel × Vel
  | .acoustic => (.P, .P)
  | .elastic | .viscoelastic => (.P, .S)
  | .sh | .viscosh => (.S, .S)
  | .tmem | .emem | .viscotmem | .viscoemem => (.EM, .EM)

/-- Equations with both waves, for which the ratio of the velocities is limited. -/
def both : Eqn → Bool
  | .elastic | .viscoelastic => true
  | _ => false

/-- C151 for the checks, in the spelling of the documentation: "2D" or "3D", and lower case letters for the equation. Missing:
other spellings, see `C151_spelling_violated`. -/
theorem C151_checks_partial (e : Eqn) (D : ℕ) (hD : D = 2 ∨ D = 3) :
    checks (if D = 2 then "2D".toList else "3D".toList) (name e).toList e =
      .ok ⟨(waves e).1, (waves e).2, both e, D⟩ := by
  rcases hD with rfl | rfl <;> cases e <;> rfl

/-- C151 fails for other spellings, which the factories accept. A dimension in lower case stops the simulation. Upper case
letters stop acoustic and SH simulations, because the wrong velocity is asked for. For elastic simulations they switch off the
check of the ratio of the velocities. -/
theorem C151_spelling_violated (dim type : Str) (D : ℕ) (e : Eqn) (hd : Dim dim D) (ht : Typ type e) :
    (dim ≠ "2D".toList → dim ≠ "3D".toList → checks dim type e = .err) ∧
    (type ≠ (name e).toList → e = .acoustic ∨ e = .sh ∨ e = .viscosh → checks dim type e = .err) ∧
    (type ≠ (name e).toList → e = .elastic ∨ e = .viscoelastic →
      dim = "2D".toList ∨ dim = "3D".toList → ∃ c, checks dim type e = .ok c ∧ c.ratio = false) := by
  unfold Typ at ht
  have hs : ∀ e', (name e').toList = type → type = (name e).toList := by
    intro e' h
    rw [← h] at ht ⊢
    rw [← ht]
    cases e' <;> rfl
  have hno : type ≠ (name e).toList → ∀ e', type ≠ (name e').toList := fun h e' h' => h (hs e' h'.symm)
  refine ⟨?_, ?_, ?_⟩
  · intro h2 h3
    obtain ⟨b, hb⟩ : ∃ b, checkEquationType type = .ok b := by
      unfold checkEquationType accepted
      simp only [ht]
      cases e <;> exact ⟨_, rfl⟩
    have hv : ∀ v, getVelocity e v = .err ∨ getVelocity e v = .ok v := by
      intro v
      cases e <;> cases v <;> first | exact Or.inl rfl | exact Or.inr rfl
    unfold checks
    rw [hb]
    simp only [Out.bind_ok, if_neg h2, if_neg h3]
    generalize (if b = true then if (decide (type = "sh".toList) || decide (type = "viscosh".toList)) = true then Vel.S
      else Vel.P else Vel.EM) = v
    generalize (if b = true then if type = "acoustic".toList then Vel.P else Vel.S else Vel.EM) = w
    rcases hv v with h | h <;> rcases hv w with h' | h' <;> rw [h] <;> first | rfl | (simp only [Out.bind_ok]; rw [h']; rfl)
  · intro hn he
    have hn := hno hn
    have h1 : type ≠ "sh".toList := hn .sh
    have h2 : type ≠ "viscosh".toList := hn .viscosh
    have h3 : type ≠ "acoustic".toList := hn .acoustic
    unfold checks checkEquationType accepted
    simp only [h1, h2, h3, ht]
    rcases he with rfl | rfl | rfl <;> rfl
  · intro hn he hd'
    have hn := hno hn
    have h1 : type ≠ "sh".toList := hn .sh
    have h2 : type ≠ "viscosh".toList := hn .viscosh
    have h3 : type ≠ "acoustic".toList := hn .acoustic
    have h4 : type ≠ "elastic".toList := hn .elastic
    have h5 : type ≠ "viscoelastic".toList := hn .viscoelastic
    unfold checks checkEquationType accepted
    simp only [h1, h2, h3, h4, h5, ht]
    rcases hd' with rfl | rfl <;> rcases he with rfl | rfl <;> exact ⟨_, rfl, rfl⟩

/-! ### Examples -/

/-- Spelling does not matter for the factories. -/
example : createAll "3d".toList "ViscoElastic".toList = .ok ⟨3, .viscoelastic, .viscoelastic3D, .viscoelastic3D⟩ := by
  decide

example : Dim "3d".toList 3 ∧ Typ "ViscoElastic".toList .viscoelastic := ⟨Or.inr (by decide), rfl⟩

/-- A dimension that does not exist. -/
example : createAll "1D".toList "acoustic".toList = .err := by decide

/-- An SH simulation in three dimensions. -/
example : createAll "3D".toList "SH".toList = .ub := C151_planar_violated _ _ .sh (by decide) rfl rfl

/-- Spellings that pass the factories and fail in the checks, and one that passes both without the check of the ratio. -/
example : (∃ p, createAll "2D".toList "SH".toList = .ok p) ∧ checks "2D".toList "SH".toList .sh = .err ∧
    checks "2d".toList "sh".toList .sh = .err ∧
    checks "3D".toList "Elastic".toList .elastic = .ok ⟨.P, .S, false, 3⟩ ∧
    checks "3D".toList "elastic".toList .elastic = .ok ⟨.P, .S, true, 3⟩ :=
  ⟨⟨_, rfl⟩, by decide, by decide, by decide, by decide⟩

end Verif.Setup
