import Verif.Lemmas.RecipSolver3D
/-! Reciprocity: sources and receivers of the solvers, and the two shots. -/
set_option linter.dupNamespace false
set_option linter.unusedSectionVars false
set_option linter.constructorNameAsVariable false

namespace Verif.Solver
open Matrix Verif.Recip

variable {ι : Type} [Fintype ι] [DecidableEq ι]

section Layout
variable {A B : Type} [Fintype A] [Fintype B] [DecidableEq A] [DecidableEq B]

/-- A source and a receiver with a weight. -/
def HasPort (S : Solver ι) (d : Scheme A B ι) (gA : A → Fld) (gV : B → Var) (ty : SType) (pos : ι)
    (W : ℝ) : Prop :=
  ∃ u v, Port S d gA gV ty pos W u v ∧ (∀ a i, u a i ≠ 0 → i = pos) ∧ ∀ b i, v b i ≠ 0 → i = pos

variable {S : Solver ι} {L : Lay A B} {c : BC ι} {R : A → ι → ℝ} {D : A → B → Matrix ι ι ℝ}
  {Az Q : ι → Matrix B B ℝ} {gV : B → Var} {ty : SType} {pos : ι}

/-- A component of the first half step. -/
theorem port_A (a0 : A) (hsrc : S.src ty = some [L.gA a0]) (hrec : S.recv ty = some (1, [L.gA a0]))
    (hinj : ∀ a, L.gA a = L.gA a0 → a = a0) (hV : ∀ b, gV b ≠ .fld (L.gA a0)) (hi : c.Inside pos) :
    HasPort S (layout L c R D Az Q) L.gA gV ty pos (-(R a0 pos)) := by
  refine ⟨fun a i => if a = a0 ∧ i = pos then 1 else 0, 0, ⟨fun s => ?_, fun a i => ?_, fun b i => ?_⟩,
    fun a i h => ?_, fun b i h => absurd rfl h⟩
  · simp only [gather, hrec, List.map_cons, List.map_nil, List.sum_cons, List.sum_nil]
    simp [ite_and]
  · simp only [Solver.srcFlds, hsrc, Option.getD_some, List.mem_singleton, layout]
    by_cases ha : a = a0
    · subst ha
      by_cases hp : i = pos
      · subst hp
        simp [hi.1]
      · simp [hp, Ne.symm hp]
    · have : ¬ L.gA a = L.gA a0 := fun h => ha (hinj a h)
      simp [ha, this]
  · simp only [Solver.srcFlds, hsrc, Option.getD_some, List.mem_singleton]
    have := hV b
    cases h : gV b with
    | fld f =>
      rw [h] at this
      have : f ≠ L.gA a0 := fun e => this (by rw [e])
      simp [this]
    | _ => simp
  · by_contra hn
    simp [hn] at h

/-- A single component of the second half step. -/
theorem port_B (b0 : B) (f0 : Fld) (hsrc : S.src ty = some [f0]) (hrec : S.recv ty = some (1, [f0]))
    (hf : gV b0 = .fld f0) (hinj : ∀ b, gV b = .fld f0 → b = b0) (hA : ∀ a, L.gA a ≠ f0)
    (hQ : ∀ b, b ≠ b0 → Q pos b b0 = 0) :
    HasPort S (layout L c R D Az Q) L.gA gV ty pos (Q pos b0 b0) := by
  refine ⟨0, fun b i => if b = b0 ∧ i = pos then 1 else 0, ⟨fun s => ?_, fun a i => ?_, fun b i => ?_⟩,
    fun a i h => absurd rfl h, fun b i h => ?_⟩
  · simp only [gather, hrec, List.map_cons, List.map_nil, List.sum_cons, List.sum_nil]
    simp [ite_and, hf]
  · simp [Solver.srcFlds, hsrc, hA a]
  · simp only [Solver.srcFlds, hsrc, Option.getD_some, List.mem_singleton, layout]
    by_cases hp : i = pos
    · subst hp
      by_cases hb : b = b0
      · subst hb
        simp [hf]
      · have h1 := hQ b hb
        have h2 : gV b ≠ .fld f0 := fun h => hb (hinj b h)
        cases h : gV b with
        | fld f =>
          rw [h] at h2
          have : f ≠ f0 := fun e => h2 (by rw [e])
          simp [this, h1]
        | _ => simp [h1]
    · cases h : gV b <;> simp [hp, Ne.symm hp]
  · by_contra hn
    simp [hn] at h

/-- Reciprocity in terms of weights. -/
theorem recip_ports (hs : Steps (layout L c R D Az Q) S.prog L.gA gV (L.mψ c) (L.mφ c))
    (hu : ∀ h x i, 1 + c.ca h x i ≠ 0)
    (hD : ∀ a b i j, D a b i j ≠ 0 → ∃ x, L.ax a b = some x ∧ c.Across x i j ∧
      ∀ y, y ≠ x → half (L.gA a) y = half (L.gB b) y)
    (hQh : ∀ i b b', Q i b b' ≠ 0 → half (L.gB b) = half (L.gB b'))
    (hAh : ∀ i b b', Az i b b' ≠ 0 → half (L.gB b) = half (L.gB b'))
    (hQ : ∀ i, (Q i).transpose = Q i)
    (hAQ : ∀ i, (Az i * Q i).transpose = Az i * Q i)
    {ty ty' : SType} {pos pos' : ι} {W W' : ℝ}
    (hp : HasPort S (layout L c R D Az Q) L.gA gV ty pos W)
    (hp' : HasPort S (layout L c R D Az Q) L.gA gV ty' pos' W')
    (hi : c.Inside pos) (hi' : c.Inside pos') (sig : ℕ → ℝ) (t : ℕ) :
    W * sample S [⟨ty, pos, sig⟩] 0 ⟨ty', pos'⟩ t = W' * sample S [⟨ty', pos', sig⟩] 0 ⟨ty, pos⟩ t := by
  obtain ⟨u, v, h, h1, h2⟩ := hp
  obtain ⟨u', v', h', h1', h2'⟩ := hp'
  exact recip_layout hs hu hD hQh hAh hQ hAQ h h' hi hi' h1 h1' h2 h2' sig t

end Layout

/-- Two shots with source and receiver exchanged: the seismograms. -/
theorem exchanged_shots {D : Deriv ι} {c : BC ι} {S : Solver ι} (h : IsSolver D c S)
    (s : State ι) (hs : ∀ v ∈ S.memory, s v = 0) (hr : S.ready = true) {ty ty' : SType}
    (h1 : (S.src ty).isSome) (h2 : (S.recv ty).isSome)
    (h1' : (S.src ty').isSome) (h2' : (S.recv ty').isSome) {pos pos' : ι} (sig : ℕ → ℝ) (nt : ℕ) :
    runShots S s [⟨[⟨ty, pos, sig⟩], [⟨ty', pos'⟩], nt⟩, ⟨[⟨ty', pos', sig⟩], [⟨ty, pos⟩], nt⟩] =
      .ok [[(List.range nt).map fun t => sample S [⟨ty, pos, sig⟩] 0 ⟨ty', pos'⟩ t],
        [(List.range nt).map fun t => sample S [⟨ty', pos', sig⟩] 0 ⟨ty, pos⟩ t]] := by
  have e0 : clear S.fields (0 : State ι) = 0 := by
    funext v
    unfold clear
    split <;> rfl
  obtain ⟨g, hg⟩ : ∃ g, g = (List.range nt).map fun t => sample S [⟨ty, pos, sig⟩] 0 ⟨ty', pos'⟩ t :=
    ⟨_, rfl⟩
  obtain ⟨g', hg'⟩ : ∃ g, g = (List.range nt).map fun t => sample S [⟨ty', pos', sig⟩] 0 ⟨ty, pos⟩ t :=
    ⟨_, rfl⟩
  have r1 : ∀ {ty ty' : SType} {pos pos' : ι}, (S.src ty).isSome → (S.recv ty').isSome →
      ∃ t, runShot S ⟨[⟨ty, pos, sig⟩], [⟨ty', pos'⟩], nt⟩ 0 =
        .ok ([(List.range nt).map fun t => sample S [⟨ty, pos, sig⟩] 0 ⟨ty', pos'⟩ t], t) := by
    intro ty ty' pos pos' a b
    refine ⟨clear S.memory (run S [⟨ty, pos, sig⟩] 0 nt), ?_⟩
    unfold runShot
    rw [if_neg (by simp [Shot.supported, hr, a, b]), e0]
    rfl
  obtain ⟨t1, q1⟩ := r1 (pos := pos) (pos' := pos') h1 h2'
  obtain ⟨t2, q2⟩ := r1 (pos := pos') (pos' := pos) h1' h2
  rw [← hg, ← hg']
  unfold runShots
  rcases h.runShot_eq hs (s' := 0) (fun _ _ => rfl) ⟨[⟨ty, pos, sig⟩], [⟨ty', pos'⟩], nt⟩ with
    ⟨_, b⟩ | ⟨ga, ta, tb, p1, p2, p3⟩
  · rw [q1] at b
    exact absurd b (by simp)
  rw [q1] at p2
  have := Out.ok.inj p2
  have e1 : ga = [g] := by rw [hg]; exact (congrArg Prod.fst this).symm
  rw [p1, e1]
  unfold runShots
  rcases h.runShot_eq p3 (s' := 0) (fun _ _ => rfl) ⟨[⟨ty', pos', sig⟩], [⟨ty, pos⟩], nt⟩ with
    ⟨_, b⟩ | ⟨ga', ta', tb', p1', p2', p3'⟩
  · rw [q2] at b
    exact absurd b (by simp)
  rw [q2] at p2'
  have := Out.ok.inj p2'
  have e2 : ga' = [g'] := by rw [hg']; exact (congrArg Prod.fst this).symm
  rw [Out.bind_ok]
  simp only [p1', e2]
  rfl

/-- Two shots with source and receiver exchanged. -/
theorem recip_shots {D : Deriv ι} {c : BC ι} {S : Solver ι} (h : IsSolver D c S)
    (s : State ι) (hs : ∀ v ∈ S.memory, s v = 0) (hr : S.ready = true) {ty ty' : SType}
    (h1 : (S.src ty).isSome) (h2 : (S.recv ty).isSome)
    (h1' : (S.src ty').isSome) (h2' : (S.recv ty').isSome) {pos pos' : ι} {W W' : ℝ}
    {sig : ℕ → ℝ} (nt : ℕ)
    (hW : ∀ t, W * sample S [⟨ty, pos, sig⟩] 0 ⟨ty', pos'⟩ t =
      W' * sample S [⟨ty', pos', sig⟩] 0 ⟨ty, pos⟩ t) :
    ∃ g g' : List ℝ, runShots S s [⟨[⟨ty, pos, sig⟩], [⟨ty', pos'⟩], nt⟩,
        ⟨[⟨ty', pos', sig⟩], [⟨ty, pos⟩], nt⟩] = .ok [[g], [g']] ∧
      g.length = nt ∧ g.map (W * ·) = g'.map (W' * ·) := by
  refine ⟨_, _, exchanged_shots h s hs hr h1 h2 h1' h2' sig nt, by simp, ?_⟩
  rw [List.map_map, List.map_map]
  exact List.map_congr_left fun t _ => hW t

end Verif.Solver
