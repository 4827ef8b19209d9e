import Verif.Lemmas.RecipSamples
import Verif.Lemmas.Stability
import Verif.Model.RegularPML
import Verif.Props.Boundary
/-!
# C99: exchange of source and receiver

Shoot at `A` and record at `B`, then shoot at `B` with the same signal and record at `A`: the two
seismograms agree sample by sample up to one factor per point, whatever the model in between, for
every spatial order, with either absorbing boundary.
-/
set_option linter.dupNamespace false
set_option linter.constructorNameAsVariable false

namespace Verif.Solver
open Matrix Verif.Recip

/-- Both shots run, and the seismograms, multiplied by the factors, are equal. -/
def Reciprocal {ι : Type} [Fintype ι] [DecidableEq ι] (S : Solver ι) (weight : SType → ι → ℝ)
    (ty ty' : SType) (A B : ι) : Prop :=
  ∀ (s : State ι) (sig : ℕ → ℝ) (nt : ℕ), (∀ v ∈ S.memory, s v = 0) →
    ∃ g g' : List ℝ, runShots S s [⟨[⟨ty, A, sig⟩], [⟨ty', B⟩], nt⟩, ⟨[⟨ty', B, sig⟩], [⟨ty, A⟩], nt⟩] =
        .ok [[g], [g']] ∧
      g.length = nt ∧ g.map (weight ty A * ·) = g'.map (weight ty' B * ·)

variable {NX NY NZ : ℕ}

/-- The absorbing layers are set up axis by axis: each coefficient depends on the position along its
axis only, and `-1 < a`. -/
def BC.AxisWise (c : BC (Pt NX NY NZ)) : Prop :=
  ∀ q, c.pml = some q → (∀ x i j, along x i = along x j →
      q.a x i = q.a x j ∧ q.b x i = q.b x j ∧ q.aHalf x i = q.aHalf x j ∧ q.bHalf x i = q.bHalf x j) ∧
    ∀ x i, -1 < q.a x i ∧ -1 < q.aHalf x i

/-- The point is outside the absorbing layers. -/
def BC.Untouched {ι : Type} (c : BC ι) (i : ι) : Prop :=
  (∀ w, c.damping = some w → w i = 1) ∧ ∀ q, c.pml = some q → ∀ x, q.a x i = 0 ∧ q.aHalf x i = 0

theorem BC.Untouched.inside {ι : Type} {c : BC ι} {i : ι} (h : c.Untouched i) : c.Inside i := by
  refine ⟨?_, fun hf x => ?_⟩
  · unfold BC.wt
    rcases hd : c.damping with _ | w
    · rfl
    · exact h.1 w hd
  · unfold BC.ca
    rcases hq : c.pml with _ | q
    · rfl
    · have := h.2 q hq x
      cases hf <;> simp [this]

private theorem along_moveTo {x y : Axis} (hxy : y ≠ x) (i j : Pt NX NY NZ) :
    along y (moveTo x i (along x j)) = along y i := by
  cases x <;> cases y <;> first | exact absurd rfl hxy | rfl

private theorem across {c : BC (Pt NX NY NZ)} (h : c.AxisWise) (o : Int) (DT DH : ℝ) (x : Axis)
    (i j : Pt NX NY NZ) (hij : forwardMatrix o DT DH x i j ≠ 0) : c.Across x i j := by
  intro y hy hf
  unfold forwardMatrix at hij
  have e : moveTo x i (along x j) = j := by
    by_contra hn
    exact hij (if_neg hn)
  have e2 : along y i = along y j := by
    rw [← along_moveTo hy i j, e]
  unfold BC.ca BC.cb
  rcases hq : c.pml with _ | q
  · exact ⟨rfl, rfl⟩
  · obtain ⟨h1, h2, h3, h4⟩ := (h q hq).1 y i j e2
    cases hf <;> simp [h1, h2, h3, h4]

theorem BC.AxisWise.aligned {c : BC (Pt NX NY NZ)} (h : c.AxisWise) (o : Int) (DT DH : ℝ) :
    c.Aligned (regularDeriv NX NY NZ o DT DH) := by
  refine ⟨fun hf x i => ?_, across h o DT DH .x, across h o DT DH .y, across h o DT DH .z⟩
  unfold BC.ca
  rcases hq : c.pml with _ | q
  · simp
  · have := (h q hq).2 x i
    cases hf
    · simp only [Bool.false_eq_true, if_false]
      linarith [this.1]
    · simp only [if_true]
      linarith [this.2]

variable {o : Int} {DT DH : ℝ} {c : BC (Pt NX NY NZ)} {A B : Pt NX NY NZ} {ty ty' : SType}

/-- Acoustic waves in 2D. -/
theorem C99_acoustic2D (m : Mod (Pt NX NY NZ)) (hc : c.useFreeSurface ≠ 1) (hx : c.AxisWise)
    (hA : c.Untouched A) (hB : c.Untouched B)
    (hty : ty ∈ [SType.P, .VX, .VY]) (hty' : ty' ∈ [SType.P, .VX, .VY]) :
    Reciprocal (acoustic2DSolver (regularDeriv NX NY NZ o DT DH) m c) (acousticWeight m) ty ty' A B := by
  have q : ∀ ty ∈ [SType.P, .VX, .VY],
      ((acoustic2DSolver (regularDeriv NX NY NZ o DT DH) m c).src ty).isSome ∧
      ((acoustic2DSolver (regularDeriv NX NY NZ o DT DH) m c).recv ty).isSome := by
    intro ty h; fin_cases h <;> exact ⟨rfl, rfl⟩
  exact fun s sig nt hs => recip_shots (.acoustic2D m) s hs rfl (q ty hty).1 (q ty hty).2
    (q ty' hty').1 (q ty' hty').2 nt fun t => acoustic2D_sample m regularDeriv_regular hc
      (hx.aligned o DT DH) hA.inside hB.inside hty hty' sig t

/-- Acoustic waves in 3D. -/
theorem C99_acoustic3D (m : Mod (Pt NX NY NZ)) (hc : c.useFreeSurface ≠ 1) (hx : c.AxisWise)
    (hA : c.Untouched A) (hB : c.Untouched B)
    (hty : ty ∈ [SType.P, .VX, .VY, .VZ]) (hty' : ty' ∈ [SType.P, .VX, .VY, .VZ]) :
    Reciprocal (acoustic3DSolver (regularDeriv NX NY NZ o DT DH) m c) (acousticWeight m) ty ty' A B := by
  have q : ∀ ty ∈ [SType.P, .VX, .VY, .VZ],
      ((acoustic3DSolver (regularDeriv NX NY NZ o DT DH) m c).src ty).isSome ∧
      ((acoustic3DSolver (regularDeriv NX NY NZ o DT DH) m c).recv ty).isSome := by
    intro ty h; fin_cases h <;> exact ⟨rfl, rfl⟩
  exact fun s sig nt hs => recip_shots (.acoustic3D m) s hs rfl (q ty hty).1 (q ty hty).2
    (q ty' hty').1 (q ty' hty').2 nt fun t => acoustic3D_sample m regularDeriv_regular hc
      (hx.aligned o DT DH) hA.inside hB.inside hty hty' sig t

/-- Elastic waves in 2D. -/
theorem C99_elastic2D (m : Mod (Pt NX NY NZ)) (hc : c.useFreeSurface ≠ 1) (hx : c.AxisWise)
    (hA : c.Untouched A) (hB : c.Untouched B)
    (hty : ty ∈ [SType.P, .VX, .VY]) (hty' : ty' ∈ [SType.P, .VX, .VY]) :
    Reciprocal (elastic2DSolver (regularDeriv NX NY NZ o DT DH) m c) (elastic2DWeight m) ty ty' A B := by
  have q : ∀ ty ∈ [SType.P, .VX, .VY],
      ((elastic2DSolver (regularDeriv NX NY NZ o DT DH) m c).src ty).isSome ∧
      ((elastic2DSolver (regularDeriv NX NY NZ o DT DH) m c).recv ty).isSome := by
    intro ty h; fin_cases h <;> exact ⟨rfl, rfl⟩
  exact fun s sig nt hs => recip_shots (.elastic2D m) s hs rfl (q ty hty).1 (q ty hty).2
    (q ty' hty').1 (q ty' hty').2 nt fun t => elastic2D_sample m regularDeriv_regular hc
      (hx.aligned o DT DH) hA.inside hB.inside hty hty' sig t

/-- Elastic waves in 3D. -/
theorem C99_elastic3D (m : Mod (Pt NX NY NZ)) (hc : c.useFreeSurface ≠ 1) (hx : c.AxisWise)
    (hA : c.Untouched A) (hB : c.Untouched B)
    (hty : ty ∈ [SType.P, .VX, .VY, .VZ]) (hty' : ty' ∈ [SType.P, .VX, .VY, .VZ]) :
    Reciprocal (elastic3DSolver (regularDeriv NX NY NZ o DT DH) m c) (elastic3DWeight m) ty ty' A B := by
  have q : ∀ ty ∈ [SType.P, .VX, .VY, .VZ],
      ((elastic3DSolver (regularDeriv NX NY NZ o DT DH) m c).src ty).isSome ∧
      ((elastic3DSolver (regularDeriv NX NY NZ o DT DH) m c).recv ty).isSome := by
    intro ty h; fin_cases h <;> exact ⟨rfl, rfl⟩
  exact fun s sig nt hs => recip_shots (.elastic3D m) s hs rfl (q ty hty).1 (q ty hty).2
    (q ty' hty').1 (q ty' hty').2 nt fun t => elastic3D_sample m regularDeriv_regular hc
      (hx.aligned o DT DH) hA.inside hB.inside hty hty' sig t

/-- SH waves. -/
theorem C99_sh2D (m : Mod (Pt NX NY NZ)) (hc : c.useFreeSurface ≠ 1) (hx : c.AxisWise)
    (hA : c.Untouched A) (hB : c.Untouched B) :
    Reciprocal (sh2DSolver (regularDeriv NX NY NZ o DT DH) m c) (shWeight m) .VZ .VZ A B :=
  fun s sig nt hs => recip_shots (.sh2D m) s hs rfl rfl rfl rfl rfl nt fun t =>
    sh2D_sample m regularDeriv_regular hc (hx.aligned o DT DH) hA.inside hB.inside (by simp)
      (by simp) sig t

/-- Electromagnetic waves in 2D, electric field in the plane; the free surface is not used by the
electromagnetic solvers. -/
theorem C99_emem2D (m : EMod (Pt NX NY NZ)) (hx : c.AxisWise)
    (hA : c.Untouched A) (hB : c.Untouched B)
    (hty : ty ∈ [SType.EX, .EY, .HZ]) (hty' : ty' ∈ [SType.EX, .EY, .HZ]) :
    Reciprocal (emem2DSolver (regularDeriv NX NY NZ o DT DH) m c) (emWeight m) ty ty' A B := by
  have q : ∀ ty ∈ [SType.EX, .EY, .HZ],
      ((emem2DSolver (regularDeriv NX NY NZ o DT DH) m c).src ty).isSome ∧
      ((emem2DSolver (regularDeriv NX NY NZ o DT DH) m c).recv ty).isSome := by
    intro ty h; fin_cases h <;> exact ⟨rfl, rfl⟩
  exact fun s sig nt hs => recip_shots (.emem2D m) s hs rfl (q ty hty).1 (q ty hty).2
    (q ty' hty').1 (q ty' hty').2 nt fun t => emem2D_sample m regularDeriv_regular
      (hx.aligned o DT DH) hA.inside hB.inside hty hty' sig t

/-- Electromagnetic waves in 2D, electric field across the plane. -/
theorem C99_tmem2D (m : EMod (Pt NX NY NZ)) (hx : c.AxisWise)
    (hA : c.Untouched A) (hB : c.Untouched B) :
    Reciprocal (tmem2DSolver (regularDeriv NX NY NZ o DT DH) m c) (emWeight m) .EZ .EZ A B :=
  fun s sig nt hs => recip_shots (.tmem2D m) s hs rfl rfl rfl rfl rfl nt fun t =>
    tmem2D_sample m regularDeriv_regular (hx.aligned o DT DH) hA.inside hB.inside (by simp)
      (by simp) sig t

/-- Electromagnetic waves in 3D. Missing: the CPML. `apply_hyx` of CPMLEM3D.cpp:67-70 corrects the
x derivative of `hY`, which is needed at full points, with the coefficients of the half points. -/
theorem C99_emem3D_partial (m : EMod (Pt NX NY NZ)) (hc : c.pml = none)
    (hA : c.Untouched A) (hB : c.Untouched B)
    (hty : ty ∈ [SType.EX, .EY, .EZ, .HZ]) (hty' : ty' ∈ [SType.EX, .EY, .EZ, .HZ]) :
    Reciprocal (emem3DSolver (regularDeriv NX NY NZ o DT DH) m c) (emWeight m) ty ty' A B := by
  have q : ∀ ty ∈ [SType.EX, .EY, .EZ, .HZ],
      ((emem3DSolver (regularDeriv NX NY NZ o DT DH) m c).src ty).isSome ∧
      ((emem3DSolver (regularDeriv NX NY NZ o DT DH) m c).recv ty).isSome := by
    intro ty h; fin_cases h <;> exact ⟨rfl, rfl⟩
  have hx : c.AxisWise := fun q hq => by rw [hc] at hq; cases hq
  exact fun s sig nt hs => recip_shots (.emem3D m) s hs rfl (q ty hty).1 (q ty hty).2
    (q ty' hty').1 (q ty' hty').2 nt fun t => emem3D_sample m regularDeriv_regular hc
      (hx.aligned o DT DH) hA.inside hB.inside hty hty' sig t

/-! ### The absorbing layers of the program -/

open Verif.Boundary in
private theorem regularCoef_bounds {q : CPMLPar} (hq : q.Admissible) (W fs : ℕ) (three : Bool) (x : Axis)
    (i : Pt NX NY NZ) : -1 < (regularCoef q W fs three x i).a ∧
      -1 < (regularCoef q W fs three x i).a_half := by
  unfold regularCoef
  split
  · simp [AxisCoef.none]
  · split
    · rename_i k hk
      unfold axisCoef at hk
      dsimp only at hk
      split at hk
      · split at hk
        · exact absurd hk (by simp)
        · rename_i h1 h2
          have hi : ((min ((along x i : ℕ) : Int) (axisSize NX NY NZ x - 1 - (along x i : ℕ))).tdiv 1).toNat <
              (layerWidth W 1).toNat := by omega
          have c0 := C31_coefficients q _ _ false hq hi
          have c1 := C31_coefficients q _ _ true hq hi
          split at hk
          · split at hk
            · cases hk; simp [AxisCoef.none]
            · cases hk; exact ⟨c0.2.2.1, c1.2.2.1⟩
          · cases hk; exact ⟨c1.2.2.1, c0.2.2.1⟩
      · cases hk; simp [AxisCoef.none]
    · simp [AxisCoef.none]

/-- The CPML of a regular grid meets the conditions of the theorems above, and so does every point
at least the width of the layer away from the sides; with a free surface setting other than 0 the
upper side has no layer. -/
theorem C99_layers {q : Boundary.CPMLPar} (hq : q.Admissible) (W : ℕ) (three : Bool)
    (hp : c.pml = some (regularPML q W c.useFreeSurface three)) (hd : c.damping = none) :
    c.AxisWise ∧ ∀ i : Pt NX NY NZ, W ≤ i.1.val → W + i.1.val < NX →
      (W ≤ i.2.1.val ∨ c.useFreeSurface ≠ 0) → W + i.2.1.val < NY →
      (three = true → W ≤ i.2.2.val ∧ W + i.2.2.val < NZ) → c.Untouched i := by
  have lw : Boundary.layerWidth W 1 = W := by simp [Boundary.layerWidth]
  refine ⟨fun r hr => ?_, fun i h1 h2 h3 h4 h5 => ⟨fun w hw => ?_, fun r hr x => ?_⟩⟩
  · rw [hp] at hr
    cases hr
    refine ⟨fun x i j hij => ?_, fun x i => regularCoef_bounds hq W _ three x i⟩
    have : regularCoef q W c.useFreeSurface three x i = regularCoef q W c.useFreeSurface three x j := by
      unfold regularCoef
      rw [hij]
    simp only [regularPML, this, and_self]
  · rw [hd] at hw
    cases hw
  · rw [hp] at hr
    cases hr
    suffices h : regularCoef q W c.useFreeSurface three x i = .none by
      simp [regularPML, h, Boundary.AxisCoef.none]
    unfold regularCoef
    split
    · rfl
    · rename_i hz
      have key : ∀ (n N : ℕ) (skip : Bool), W + n < N → (W ≤ n ∨ skip = true) →
          Boundary.axisCoef q W 1 (n : Int) (min (n : Int) (N - 1 - n)) skip = .ok .none := by
        intro n N skip hn hw
        unfold Boundary.axisCoef
        dsimp only
        rw [lw]
        simp only [Int.tdiv_one]
        by_cases hs : W ≤ n
        · rw [if_neg (by omega)]
        · have hsk : skip = true := by
            rcases hw with h | h
            · exact absurd h hs
            · exact h
          subst hsk
          split
          · rw [if_neg (by omega), if_pos (by omega)]
            rfl
          · rfl
      have : Boundary.axisCoef q W 1 ((along x i : ℕ) : Int) (min ((along x i : ℕ) : Int)
          (axisSize NX NY NZ x - 1 - (along x i : ℕ))) (x = .y ∧ c.useFreeSurface ≠ 0) =
          .ok .none := by
        cases x
        · exact key _ _ _ h2 (Or.inl h1)
        · refine key _ _ _ h4 ?_
          rcases h3 with h | h
          · exact Or.inl h
          · exact Or.inr (by simpa using h)
        · have ht : three = true := by
            cases three
            · exact absurd ⟨rfl, rfl⟩ hz
            · rfl
          exact key _ _ _ (h5 ht).2 (Or.inl (h5 ht).1)
      rw [this]

/-! ### An example -/

/-- Water over rock, with the interface at `y = 20`. -/
noncomputable def recipExM : Mod (Pt 40 50 1) :=
  { invRho := fun i => if i.2.1.val < 20 then 1 / 1000 else 1 / 2200
    invRhoX := fun i => if i.2.1.val < 20 then 1 / 1000 else 1 / 2200
    invRhoY := fun i => if i.2.1.val < 19 then 1 / 1000 else if i.2.1.val < 20 then 1 / 1600 else 1 / 2200
    invRhoZ := 1, pMod := fun i => if i.2.1.val < 20 then 2250000000 else 19800000000
    sMod := 0, sModXY := 0, sModXZ := 0, sModYZ := 0, tauP := 0, tauS := 0, tauSXY := 0, tauSXZ := 0
    tauSYZ := 0, L := 0, relaxTime := 0, DT := 1 / 1000 }

/-- Layers of ten points on all sides. -/
noncomputable def recipExBC : BC (Pt 40 50 1) :=
  ⟨0, none, some (regularPML ⟨2, 5, 3000, 1 / 1000, 10⟩ 10 0 false), fun _ => false⟩

/-- Explosion in the water, geophone in the rock. -/
example (sig : ℕ → ℝ) (nt : ℕ) : ∃ g g' : List ℝ,
    runShots (acoustic2DSolver (regularDeriv 40 50 1 8 (1 / 1000) 10) recipExM recipExBC) 0
      [⟨[⟨.P, (12, 11, 0), sig⟩], [⟨.VY, (29, 39, 0)⟩], nt⟩,
       ⟨[⟨.VY, (29, 39, 0), sig⟩], [⟨.P, (12, 11, 0)⟩], nt⟩] = .ok [[g], [g']] ∧ g.length = nt ∧
      g.map (2250000000 * ·) = g'.map (-(1 / 2200) * ·) := by
  have hq : (⟨2, 5, 3000, 1 / 1000, 10⟩ : Boundary.CPMLPar).Admissible := by
    refine ⟨?_, ?_, ?_, ?_, ?_⟩ <;> norm_num
  have h := C99_layers (c := recipExBC) hq 10 false rfl rfl
  exact C99_acoustic2D recipExM (by simp [recipExBC]) h.1
    (h.2 (12, 11, 0) (by decide) (by decide) (.inl (by decide)) (by decide) (by simp))
    (h.2 (29, 39, 0) (by decide) (by decide) (.inl (by decide)) (by decide) (by simp))
    (by simp) (by simp) 0 sig nt fun _ _ => rfl

end Verif.Solver
