import Verif.Props.Reciprocity
import Verif.Lemmas.RecipRelaxSamples
/-!
# C99: exchange of source and receiver in media with relaxation

Attenuation by relaxation mechanisms does not disturb the exchange, whatever the number of mechanisms,
their relaxation times and the distribution of the attenuation: for forces and particle velocities,
and for electric and magnetic fields. Explosions and pressure receivers are covered where the medium
at that point itself does not relax (water, for instance); elsewhere the exchange fails.
-/
set_option linter.dupNamespace false
set_option linter.constructorNameAsVariable false
set_option linter.unusedTactic false
set_option linter.unreachableTactic false
set_option linter.unnecessarySeqFocus false

namespace Verif.Solver
open Matrix Verif.Recip

variable {NX NY NZ : ℕ} {o : Int} {DT DH : ℝ} {c : BC (Pt NX NY NZ)} {A B : Pt NX NY NZ}
  {ty ty' : SType}

/-- SH waves with attenuation. -/
theorem C99_viscosh2D (m : Mod (Pt NX NY NZ)) (hc : c.useFreeSurface ≠ 1) (hx : c.AxisWise)
    (hA : c.Untouched A) (hB : c.Untouched B)
    (hty : ty ∈ [SType.VZ]) (hty' : ty' ∈ [SType.VZ]) :
    Reciprocal (viscosh2DSolver (regularDeriv NX NY NZ o DT DH) m c) (shWeight m) ty ty' A B := by
  have q : ∀ ty ∈ [SType.VZ],
      ((viscosh2DSolver (regularDeriv NX NY NZ o DT DH) m c).src ty).isSome ∧
      ((viscosh2DSolver (regularDeriv NX NY NZ o DT DH) m c).recv ty).isSome := by
    intro ty h; fin_cases h <;> exact ⟨rfl, rfl⟩
  exact fun s sig nt hs => recip_shots (.viscosh2D m) s hs rfl (q ty hty).1 (q ty hty).2
    (q ty' hty').1 (q ty' hty').2 nt fun t => viscosh2D_sample m regularDeriv_regular hc
      (hx.aligned o DT DH) hA.inside hB.inside hty hty' sig t

/-- Elastic waves in 2D with attenuation. Missing: explosions and pressure receivers at points that
relax, see `C99_viscoelastic2D_pressure_violated`. -/
theorem C99_viscoelastic2D_partial (m : Mod (Pt NX NY NZ)) (hc : c.useFreeSurface = 0) (hx : c.AxisWise)
    (hA : c.Untouched A) (hB : c.Untouched B)
    (hty : ty ∈ [SType.P, .VX, .VY]) (hty' : ty' ∈ [SType.P, .VX, .VY])
    (hPA : ty = .P → m.tauP A = 0 ∧ m.tauS A = 0) (hPB : ty' = .P → m.tauP B = 0 ∧ m.tauS B = 0) :
    Reciprocal (viscoelastic2DSolver (regularDeriv NX NY NZ o DT DH) m c) (elastic2DWeight m) ty ty' A B := by
  have q : ∀ ty ∈ [SType.P, .VX, .VY],
      ((viscoelastic2DSolver (regularDeriv NX NY NZ o DT DH) m c).src ty).isSome ∧
      ((viscoelastic2DSolver (regularDeriv NX NY NZ o DT DH) m c).recv ty).isSome := by
    intro ty h; fin_cases h <;> exact ⟨rfl, rfl⟩
  exact fun s sig nt hs => recip_shots (.viscoelastic2D m) s hs (by simp [viscoelastic2DSolver, hc]) (q ty hty).1 (q ty hty).2
    (q ty' hty').1 (q ty' hty').2 nt fun t => viscoelastic2D_sample m regularDeriv_regular hc
      (hx.aligned o DT DH) hA.inside hB.inside hty hty' hPA hPB sig t

/-- Elastic waves in 3D with attenuation. Missing: explosions and pressure receivers at points that
relax. -/
theorem C99_viscoelastic3D_partial (m : Mod (Pt NX NY NZ)) (hc : c.useFreeSurface ≠ 1) (hx : c.AxisWise)
    (hA : c.Untouched A) (hB : c.Untouched B)
    (hty : ty ∈ [SType.P, .VX, .VY, .VZ]) (hty' : ty' ∈ [SType.P, .VX, .VY, .VZ])
    (hPA : ty = .P → m.tauP A = 0 ∧ m.tauS A = 0) (hPB : ty' = .P → m.tauP B = 0 ∧ m.tauS B = 0) :
    Reciprocal (viscoelastic3DSolver (regularDeriv NX NY NZ o DT DH) m c) (elastic3DWeight m) ty ty' A B := by
  have q : ∀ ty ∈ [SType.P, .VX, .VY, .VZ],
      ((viscoelastic3DSolver (regularDeriv NX NY NZ o DT DH) m c).src ty).isSome ∧
      ((viscoelastic3DSolver (regularDeriv NX NY NZ o DT DH) m c).recv ty).isSome := by
    intro ty h; fin_cases h <;> exact ⟨rfl, rfl⟩
  exact fun s sig nt hs => recip_shots (.viscoelastic3D m) s hs rfl (q ty hty).1 (q ty hty).2
    (q ty' hty').1 (q ty' hty').2 nt fun t => viscoelastic3D_sample m regularDeriv_regular hc
      (hx.aligned o DT DH) hA.inside hB.inside hty hty' hPA hPB sig t

/-- Electromagnetic waves in 2D with relaxation, electric field in the plane. -/
theorem C99_viscoemem2D (m : EMod (Pt NX NY NZ)) (hx : c.AxisWise)
    (hA : c.Untouched A) (hB : c.Untouched B)
    (hty : ty ∈ [SType.EX, .EY, .HZ]) (hty' : ty' ∈ [SType.EX, .EY, .HZ]) :
    Reciprocal (viscoemem2DSolver (regularDeriv NX NY NZ o DT DH) m c) (viscoEMWeight m) ty ty' A B := by
  have q : ∀ ty ∈ [SType.EX, .EY, .HZ],
      ((viscoemem2DSolver (regularDeriv NX NY NZ o DT DH) m c).src ty).isSome ∧
      ((viscoemem2DSolver (regularDeriv NX NY NZ o DT DH) m c).recv ty).isSome := by
    intro ty h; fin_cases h <;> exact ⟨rfl, rfl⟩
  exact fun s sig nt hs => recip_shots (.viscoemem2D m) s hs rfl (q ty hty).1 (q ty hty).2
    (q ty' hty').1 (q ty' hty').2 nt fun t => viscoemem2D_sample m regularDeriv_regular
      (hx.aligned o DT DH) hA.inside hB.inside hty hty' sig t

/-- Electromagnetic waves in 2D with relaxation, electric field across the plane. -/
theorem C99_viscotmem2D (m : EMod (Pt NX NY NZ)) (hx : c.AxisWise)
    (hA : c.Untouched A) (hB : c.Untouched B)
    (hty : ty ∈ [SType.EZ]) (hty' : ty' ∈ [SType.EZ]) :
    Reciprocal (viscotmem2DSolver (regularDeriv NX NY NZ o DT DH) m c) (viscoEMWeight m) ty ty' A B := by
  have q : ∀ ty ∈ [SType.EZ],
      ((viscotmem2DSolver (regularDeriv NX NY NZ o DT DH) m c).src ty).isSome ∧
      ((viscotmem2DSolver (regularDeriv NX NY NZ o DT DH) m c).recv ty).isSome := by
    intro ty h; fin_cases h <;> exact ⟨rfl, rfl⟩
  exact fun s sig nt hs => recip_shots (.viscotmem2D m) s hs rfl (q ty hty).1 (q ty hty).2
    (q ty' hty').1 (q ty' hty').2 nt fun t => viscotmem2D_sample m regularDeriv_regular
      (hx.aligned o DT DH) hA.inside hB.inside hty hty' sig t

/-- Electromagnetic waves in 3D with relaxation. Missing: the CPML, see `C99_emem3D_partial`. -/
theorem C99_viscoemem3D_partial (m : EMod (Pt NX NY NZ)) (hc : c.pml = none)
    (hA : c.Untouched A) (hB : c.Untouched B)
    (hty : ty ∈ [SType.EX, .EY, .EZ, .HZ]) (hty' : ty' ∈ [SType.EX, .EY, .EZ, .HZ]) :
    Reciprocal (viscoemem3DSolver (regularDeriv NX NY NZ o DT DH) m c) (viscoEMWeight m) ty ty' A B := by
  have q : ∀ ty ∈ [SType.EX, .EY, .EZ, .HZ],
      ((viscoemem3DSolver (regularDeriv NX NY NZ o DT DH) m c).src ty).isSome ∧
      ((viscoemem3DSolver (regularDeriv NX NY NZ o DT DH) m c).recv ty).isSome := by
    intro ty h; fin_cases h <;> exact ⟨rfl, rfl⟩
  have hx : c.AxisWise := fun q hq => by rw [hc] at hq; cases hq
  exact fun s sig nt hs => recip_shots (.viscoemem3D m) s hs rfl (q ty hty).1 (q ty hty).2
    (q ty' hty').1 (q ty' hty').2 nt fun t => viscoemem3D_sample m regularDeriv_regular hc
      (hx.aligned o DT DH) hA.inside hB.inside hty hty' sig t

/-! ### An example -/

/-- Water over attenuating rock with three mechanisms, the interface at `y = 20`. -/
noncomputable def relaxWaterM : Mod (Pt 40 50 1) :=
  { invRho := fun i => if i.2.1.val < 20 then 1 / 1000 else 1 / 2200
    invRhoX := fun i => if i.2.1.val < 20 then 1 / 1000 else 1 / 2200
    invRhoY := fun i => if i.2.1.val < 20 then 1 / 1000 else 1 / 2200
    invRhoZ := 1, pMod := fun i => if i.2.1.val < 20 then 2250000000 else 19800000000
    sMod := fun i => if i.2.1.val < 20 then 0 else 6600000000
    sModXY := fun i => if i.2.1.val < 20 then 0 else 6600000000, sModXZ := 0, sModYZ := 0
    tauP := fun i => if i.2.1.val < 20 then 0 else 1 / 50
    tauS := fun i => if i.2.1.val < 20 then 0 else 1 / 30
    tauSXY := fun i => if i.2.1.val < 20 then 0 else 1 / 30, tauSXZ := 0, tauSYZ := 0, L := 3
    relaxTime := fun l => 1 / (10 * ((l : ℝ) + 1)), DT := 1 / 1000 }

/-- Explosion in the water, geophone in the rock. -/
example (sig : ℕ → ℝ) (nt : ℕ) : ∃ g g' : List ℝ,
    runShots (viscoelastic2DSolver (regularDeriv 40 50 1 8 (1 / 1000) 10) relaxWaterM recipExBC) 0
      [⟨[⟨.P, (12, 11, 0), sig⟩], [⟨.VY, (29, 39, 0)⟩], nt⟩,
       ⟨[⟨.VY, (29, 39, 0), sig⟩], [⟨.P, (12, 11, 0)⟩], nt⟩] = .ok [[g], [g']] ∧ g.length = nt ∧
      g.map (2250000000 * ·) = g'.map (-(1 / 2200) * ·) := by
  have hq : (⟨2, 5, 3000, 1 / 1000, 10⟩ : Boundary.CPMLPar).Admissible := by
    refine ⟨?_, ?_, ?_, ?_, ?_⟩ <;> norm_num
  have h := C99_layers (c := recipExBC) hq 10 false rfl rfl
  have := C99_viscoelastic2D_partial (o := 8) (DT := 1 / 1000) (DH := 10) (ty := .P) (ty' := .VY)
    relaxWaterM (by simp [recipExBC]) h.1
    (h.2 (12, 11, 0) (by decide) (by decide) (.inl (by decide)) (by decide) (by simp))
    (h.2 (29, 39, 0) (by decide) (by decide) (.inl (by decide)) (by decide) (by simp))
    (by simp) (by simp) (fun _ => by simp [relaxWaterM]) (fun h => by cases h) 0 sig nt fun _ _ => rfl
  simpa [elastic2DWeight, relaxWaterM] using this

/-! ### Explosions where the medium relaxes -/

/-- One grid point with one mechanism. -/
noncomputable def relaxExM : Mod (Pt 1 1 1) :=
  { invRho := 1, invRhoX := 1, invRhoY := 1, invRhoZ := 1, pMod := 1, sMod := 0, sModXY := 0
    sModXZ := 0, sModYZ := 0, tauP := 1, tauS := 0, tauSXY := 0, tauSXZ := 0, tauSYZ := 0, L := 1
    relaxTime := fun _ => 1 / 2, DT := 1 }

/-- No absorbing boundary, no free surface. -/
noncomputable def relaxExBC : BC (Pt 1 1 1) := ⟨0, none, none, fun _ => false⟩

private theorem relaxExD (a : Axis) :
    (forwardMatrix 2 1 1 a : Matrix (Pt 1 1 1) (Pt 1 1 1) ℝ) = -1 := by
  have e : Verif.Stencil.fwdStencilEntry 1 2 0 0 = -1 := by decide +kernel
  ext i j
  obtain rfl := Subsingleton.elim i 0
  obtain rfl := Subsingleton.elim j 0
  cases a <;> simp [forwardMatrix, moveTo, along, axisSize, e]

private theorem relaxEx_step (s : State (Pt 1 1 1)) (h1 : s (.fld .Sxy) = 0) (h2 : s (.rel .Sxy 0) = 0)
    (i : Pt 1 1 1) {vx vy : ℝ}
    (hx : s (.fld .vX) i - s (.fld .Sxx) i = vx) (hy : s (.fld .vY) i - s (.fld .Syy) i = vy) :
    let s' := exec (viscoelastic2D (regularDeriv 1 1 1 2 1 1) relaxExM relaxExBC) s
    s' (.fld .vX) i = vx ∧ s' (.fld .vY) i = vy ∧ s' (.fld .Sxy) i = 0 ∧ s' (.rel .Sxy 0) i = 0 ∧
      s' (.rel .Sxx 0) i = -(vx + vy) ∧ s' (.rel .Syy 0) i = -(vx + vy) ∧
      s' (.fld .Sxx) i = s (.fld .Sxx) i + s (.rel .Sxx 0) i / 2 + 3 / 2 * (vx + vy) ∧
      s' (.fld .Syy) i = s (.fld .Syy) i + s (.rel .Syy 0) i / 2 + 3 / 2 * (vx + vy) := by
  have dx : (regularDeriv 1 1 1 2 1 1).Dxf = -1 := relaxExD .x
  have dy : (regularDeriv 1 1 1 2 1 1).Dyf = -1 := relaxExD .y
  have dyb : (regularDeriv 1 1 1 2 1 1).Dyb = 1 := by
    rw [regularDeriv_regular.adjY, dy]; simp
  have dxb : (regularDeriv 1 1 1 2 1 1).Dxb = 1 := by
    rw [regularDeriv_regular.adjX, dx]; simp
  have hD : (regularDeriv 1 1 1 2 1 1).regular := regularDeriv_regular
  generalize regularDeriv 1 1 1 2 1 1 = D at *
  obtain ⟨e1, e2, e3, -⟩ := viscoelastic2D_steps (m := relaxExM) (c := relaxExBC) hD rfl s
  have a1 := e1 0 i
  have a2 := e1 1 i
  have b1 := e2 0 i
  have b2 := e2 1 i
  have b3 := e2 2 i
  have r1 := e3 ⟨0, Nat.one_pos⟩ 0 i
  have r2 := e3 ⟨0, Nat.one_pos⟩ 1 i
  have r3 := e3 ⟨0, Nat.one_pos⟩ 2 i
  clear e1 e2 e3
  generalize exec (viscoelastic2D D relaxExM relaxExBC) s = s' at *
  have w : relaxExBC.wt i = 1 := rfl
  have sm : ∀ f : Fin relaxExM.L → ℝ, ∑ l, f l = f ⟨0, Nat.one_pos⟩ := fun f =>
    Fin.sum_univ_one (M := ℝ) f
  simp [nextT, nextZ, nextR, nextψ, nextφ, Solver.relaxed, viscoelastic2DScheme, layout, Fin.sum_univ_three,
    Fin.sum_univ_two, coefA, coefB, dx, dy, dxb, dyb, layE2, w, Matrix.neg_mulVec, Mod.relax, viscoelastic2DG,
    Lay.mψ, Lay.mφ, memOf, BC.ca, BC.cb, h1, h2, sm,
    Mod.onePlusLtauP, Mod.onePlusLtauS, Mod.DThalf, Mod.vc1, Mod.vc2, Mod.invRelax] at a1 a2 b1 b2 b3 r1 r2 r3
  simp [relaxExM, relaxExBC] at a1 a2 b1 b2 b3 r1 r2 r3
  norm_num at r1 r2
  refine ⟨?_, ?_, ?_, ?_, ?_, ?_, ?_, ?_⟩
  · linarith
  · linarith
  · rw [b3, r3]; simp
  · exact r3
  · rw [r1, ← hx, ← hy]; ring
  · rw [r2, ← hx, ← hy]; ring
  · rw [b1, r1, ← hx, ← hy]; ring
  · rw [b2, r2, ← hx, ← hy]; ring

/-- Values of the wavefields at the grid point. -/
private def Holds (s : State (Pt 1 1 1)) (vx vy S r : ℝ) : Prop :=
  ∀ i, s (.fld .vX) i = vx ∧ s (.fld .vY) i = vy ∧ s (.fld .Sxx) i = S ∧ s (.fld .Syy) i = S ∧
    s (.fld .Sxy) i = 0 ∧ s (.rel .Sxx 0) i = r ∧ s (.rel .Syy 0) i = r ∧ s (.rel .Sxy 0) i = 0

private theorem Holds.step {s : State (Pt 1 1 1)} {vx vy S r : ℝ} (h : Holds s vx vy S r) (ty : SType)
    (sig : ℕ → ℝ) (n : ℕ) :
    let e := vx - S + (vy - S)
    Holds (Solver.step (viscoelastic2DSolver (regularDeriv 1 1 1 2 1 1) relaxExM relaxExBC) [⟨ty, 0, sig⟩] n s)
      (vx - S + if ty = .VX then sig n else 0) (vy - S + if ty = .VY then sig n else 0)
      (S + r / 2 + 3 / 2 * e + if ty = .P then sig n else 0) (-e) := by
  intro e i
  obtain ⟨q1, q2, q3, q4, q5, q6, q7, q8⟩ := h i
  have z1 : s (.fld .Sxy) = 0 := funext fun j => (h j).2.2.2.2.1
  have z2 : s (.rel .Sxy 0) = 0 := funext fun j => (h j).2.2.2.2.2.2.2
  obtain ⟨p1, p2, p3, p4, p5, p6, p7, p8⟩ := relaxEx_step s z1 z2 i (vx := vx - S) (vy := vy - S)
    (by rw [q1, q3]) (by rw [q2, q4])
  have hi : (0 : Pt 1 1 1) = i := Subsingleton.elim _ _
  unfold Solver.step applySource
  cases ty <;>
    simp [viscoelastic2DSolver, Solver.srcFlds, src2Delastic, hi, p1, p2, p3, p4, p5, p6, p7, p8, q3,
      q4, q6, q7, e]

private theorem Holds.to {s : State (Pt 1 1 1)} {a b c d a' b' c' d' : ℝ} (h : Holds s a b c d)
    (ha : a = a') (hb : b = b') (hc : c = c') (hd : d = d') : Holds s a' b' c' d' := by
  subst ha hb hc hd
  exact h

private theorem relaxEx_zero : Holds 0 0 0 0 0 := fun _ => by simp

/-- Where the medium relaxes, an explosion cannot be exchanged with a particle velocity: the
seismograms are not multiples of one another, whatever the factors. The explosion is added to the
stresses (SourceReceiverImplSeismic, `applySourcePressure`) without the change of the relaxation
variables that the equivalent change of volume brings with it. -/
theorem C99_viscoelastic2D_pressure_violated :
    ∃ (m : Mod (Pt 1 1 1)) (c : BC (Pt 1 1 1)) (A : Pt 1 1 1), c.useFreeSurface = 0 ∧ c.AxisWise ∧
      c.Untouched A ∧ 0 < m.pMod A ∧ 0 < m.tauP A ∧ 0 < m.invRhoX A ∧
      ∀ weight : SType → Pt 1 1 1 → ℝ, weight .VX A ≠ 0 →
        ¬ Reciprocal (viscoelastic2DSolver (regularDeriv 1 1 1 2 1 1) m c) weight .P .VX A A := by
  refine ⟨relaxExM, relaxExBC, 0, rfl, (fun q hq => by cases hq), ⟨(fun w hw => by cases hw),
    (fun q hq => by cases hq)⟩, by simp [relaxExM], by simp [relaxExM], by simp [relaxExM], ?_⟩
  intro weight hw hrec
  obtain ⟨g, g', hg, -, he⟩ := hrec 0 (fun t => if t = 0 then 1 else 0) 3 fun _ _ => rfl
  rw [exchanged_shots (.viscoelastic2D relaxExM) 0 (fun _ _ => rfl) (by simp [viscoelastic2DSolver, relaxExBC])
    rfl rfl rfl rfl] at hg
  obtain ⟨rfl, rfl⟩ : _ = g ∧ _ = g' := by simpa using hg
  have a1 := (relaxEx_zero.step .P (fun t => if t = 0 then 1 else 0) 0).to (a' := 0) (b' := 0) (c' := 1) (d' := 0)
    (by simp <;> norm_num) (by simp <;> norm_num) (by simp <;> norm_num) (by simp <;> norm_num)
  have a2 := (a1.step .P (fun t => if t = 0 then 1 else 0) 1).to (a' := -1) (b' := -1) (c' := -2) (d' := 2)
    (by simp <;> norm_num) (by simp <;> norm_num) (by simp <;> norm_num) (by simp <;> norm_num)
  have a3 := (a2.step .P (fun t => if t = 0 then 1 else 0) 2).to (a' := 1) (b' := 1) (c' := 2) (d' := -2)
    (by simp <;> norm_num) (by simp <;> norm_num) (by simp <;> norm_num) (by simp <;> norm_num)
  have b1 := (relaxEx_zero.step .VX (fun t => if t = 0 then 1 else 0) 0).to (a' := 1) (b' := 0) (c' := 0) (d' := 0)
    (by simp <;> norm_num) (by simp <;> norm_num) (by simp <;> norm_num) (by simp <;> norm_num)
  have b2 := (b1.step .VX (fun t => if t = 0 then 1 else 0) 1).to (a' := 1) (b' := 0) (c' := 3 / 2) (d' := -1)
    (by simp <;> norm_num) (by simp <;> norm_num) (by simp <;> norm_num) (by simp <;> norm_num)
  have b3 := (b2.step .VX (fun t => if t = 0 then 1 else 0) 2).to (a' := -1 / 2) (b' := -3 / 2) (c' := -2) (d' := 2)
    (by simp <;> norm_num) (by simp <;> norm_num) (by simp <;> norm_num) (by simp <;> norm_num)
  have e1 : sample (viscoelastic2DSolver (regularDeriv 1 1 1 2 1 1) relaxExM relaxExBC)
      [⟨.P, 0, fun t => if t = 0 then 1 else 0⟩] 0 ⟨.VX, 0⟩ 1 = -1 := by
    have := (a2 0).1
    simpa [sample, gather, viscoelastic2DSolver, rec2Delastic, run] using this
  have e2 : sample (viscoelastic2DSolver (regularDeriv 1 1 1 2 1 1) relaxExM relaxExBC)
      [⟨.P, 0, fun t => if t = 0 then 1 else 0⟩] 0 ⟨.VX, 0⟩ 2 = 1 := by
    have := (a3 0).1
    simpa [sample, gather, viscoelastic2DSolver, rec2Delastic, run] using this
  have e3 : sample (viscoelastic2DSolver (regularDeriv 1 1 1 2 1 1) relaxExM relaxExBC)
      [⟨.VX, 0, fun t => if t = 0 then 1 else 0⟩] 0 ⟨.P, 0⟩ 1 = 3 / 2 := by
    have h1 := (b2 0).2.2.1
    have h2 := (b2 0).2.2.2.1
    simp only [sample, gather, viscoelastic2DSolver, rec2Delastic, run, List.map_cons, List.map_nil,
      List.sum_cons, List.sum_nil] at h1 h2 ⊢
    rw [h1, h2]
    norm_num
  have e4 : sample (viscoelastic2DSolver (regularDeriv 1 1 1 2 1 1) relaxExM relaxExBC)
      [⟨.VX, 0, fun t => if t = 0 then 1 else 0⟩] 0 ⟨.P, 0⟩ 2 = -2 := by
    have h1 := (b3 0).2.2.1
    have h2 := (b3 0).2.2.2.1
    simp only [sample, gather, viscoelastic2DSolver, rec2Delastic, run, List.map_cons, List.map_nil,
      List.sum_cons, List.sum_nil] at h1 h2 ⊢
    rw [h1, h2]
    norm_num
  have r3 : List.range 3 = [0, 1, 2] := rfl
  simp only [r3, List.map_cons, List.map_nil, e1, e2, e3, e4, List.cons.injEq] at he
  obtain ⟨-, h1, h2, -⟩ := he
  exact hw (by linarith)

end Verif.Solver
