import Verif.Model.SeismicFiles
import Mathlib.Tactic.Linarith

/-!
# C158: files of seismic models
-/
namespace Verif.SeisFiles
open Verif

private theorem split_dot {a b s t : Name} (hs : '.' ∉ s) (ht : '.' ∉ t) (h : a ++ '.' :: s = b ++ '.' :: t) : a = b ∧ s = t := by
  rcases List.append_eq_append_iff.mp h with ⟨c, h1, h2⟩ | ⟨c, h1, h2⟩
  · cases c with
    | nil =>
      injection h2 with _ h2
      exact ⟨by rw [h1, List.append_nil], h2⟩
    | cons x c =>
      injection h2 with _ h2
      exact absurd (by rw [h2]; simp) hs
  · cases c with
    | nil =>
      injection h2 with _ h2
      exact ⟨by rw [h1, List.append_nil], h2.symm⟩
    | cons x c =>
      injection h2 with _ h2
      exact absurd (by rw [h2]; simp) ht

private theorem suffix_form (f : Fld) : ∃ s, suffix f = '.' :: s ∧ '.' ∉ s := by
  cases f <;> exact ⟨_, rfl, by decide⟩

private theorem suffix_inj {f g : Fld} (h : suffix f = suffix g) : f = g := by
  cases f <;> cases g <;> first | rfl | exact absurd h (by decide)

private theorem ext_form {fmt : Int} {ext : Name} (h : extension fmt = .ok ext) : ∃ s, ext = '.' :: s ∧ '.' ∉ s := by
  unfold extension at h
  split at h
  · injection h with h; subst h; exact ⟨_, rfl, by decide⟩
  split at h
  · injection h with h; subst h; exact ⟨_, rfl, by decide⟩
  split at h
  · injection h with h; subst h; exact ⟨_, rfl, by decide⟩
  · cases h

private theorem name_inj {base base' ext ext' : Name} {f g : Fld} {fmt fmt' : Int} (h1 : extension fmt = .ok ext)
    (h2 : extension fmt' = .ok ext') (h : base ++ suffix f ++ ext = base' ++ suffix g ++ ext') : base = base' ∧ f = g ∧ ext = ext' := by
  obtain ⟨s, rfl, hs⟩ := ext_form h1
  obtain ⟨s', rfl, hs'⟩ := ext_form h2
  obtain ⟨h3, h4⟩ := split_dot hs hs' h
  obtain ⟨t, ht, ht1⟩ := suffix_form f
  obtain ⟨t', ht', ht1'⟩ := suffix_form g
  rw [ht, ht'] at h3
  obtain ⟨h5, h6⟩ := split_dot ht1 ht1' h3
  exact ⟨h5, suffix_inj (by rw [ht, ht', h6]), by rw [h4]⟩

private theorem fold_put {base ext : Name} {fmt : Int} (hx : extension fmt = .ok ext) (m : Fld → List ℝ) {f : Fld} :
    ∀ (L : List Fld) (d : Disk), (f ∈ L ∨ d (base ++ suffix f ++ ext) = some (m f)) →
      L.foldl (fun d f => fun x => if x = base ++ suffix f ++ ext then some (m f) else d x) d (base ++ suffix f ++ ext) = some (m f) := by
  intro L
  induction L with
  | nil => intro d h; simpa using h
  | cons k L ih =>
    intro d h
    refine ih _ ?_
    by_cases hk : f = k
    · subst hk
      exact Or.inr (if_pos rfl)
    · rcases h with h | h
      · rcases List.mem_cons.mp h with h | h
        · exact absurd h hk
        · exact Or.inl h
      · refine Or.inr ?_
        exact (if_neg fun e => hk (name_inj hx hx e).2.1).trans h

private theorem fold_other {base ext : Name} (m : Fld → List ℝ) {y : Name} :
    ∀ (L : List Fld) (d : Disk), (∀ f ∈ L, y ≠ base ++ suffix f ++ ext) →
      L.foldl (fun d f => fun x => if x = base ++ suffix f ++ ext then some (m f) else d x) d y = d y := by
  intro L
  induction L with
  | nil => intro d _; rfl
  | cons k L ih =>
    intro d h
    rw [List.foldl_cons, ih _ fun f hf => h f (List.mem_cons_of_mem _ hf)]
    exact if_neg (h k List.mem_cons_self)

private theorem read_all {n : ℕ} {base ext : Name} {d : Disk} {v : Fld → List ℝ} :
    ∀ (L : List Fld) (m : Fld → List ℝ), (∀ f ∈ L, d (base ++ suffix f ++ ext) = some (v f) ∧ (v f).length = n) →
      L.foldlM (readVector n base ext d) m = .ok fun x => if x ∈ L then v x else m x := by
  intro L
  induction L with
  | nil => intro m _; simp [Out.pure_eq]
  | cons k L ih =>
    intro m h
    obtain ⟨h1, h2⟩ := h k List.mem_cons_self
    rw [List.foldlM_cons]
    have : readVector n base ext d m k = .ok fun x => if x = k then v k else m x := by
      unfold readVector
      rw [h1]
      exact if_pos h2
    rw [this, Out.bind_ok, ih _ fun f hf => h f (List.mem_cons_of_mem _ hf)]
    congr 1
    funext x
    by_cases hL : x ∈ L
    · rw [if_pos hL, if_pos (List.mem_cons_of_mem _ hL)]
    · by_cases hk : x = k
      · subst hk
        rw [if_neg hL, if_pos rfl, if_pos List.mem_cons_self]
      · rw [if_neg hL, if_neg hk, if_neg fun h => (List.mem_cons.mp h).elim hk hL]

private theorem read_err {n : ℕ} {base ext : Name} {d : Disk} {f : Fld} :
    ∀ (L : List Fld) (m : Fld → List ℝ), f ∈ L → (∀ v, d (base ++ suffix f ++ ext) = some v → v.length ≠ n) →
      L.foldlM (readVector n base ext d) m = .err := by
  intro L
  induction L with
  | nil => intro m h; exact absurd h List.not_mem_nil
  | cons k L ih =>
    intro m h hf
    rw [List.foldlM_cons]
    by_cases hk : f = k
    · subst hk
      unfold readVector
      cases hd : d (base ++ suffix f ++ ext) with
      | none => rfl
      | some v =>
        show (if v.length = n then _ else _ : Out (Fld → List ℝ)) >>= _ = _
        rw [if_neg (hf v hd)]
        rfl
    · have hL := (List.mem_cons.mp h).resolve_left hk
      unfold readVector
      cases hd : d (base ++ suffix k ++ ext) with
      | none => rfl
      | some v =>
        show (if v.length = n then _ else _ : Out (Fld → List ℝ)) >>= _ = _
        by_cases hv : v.length = n
        · rw [if_pos hv, Out.bind_ok]
          exact ih _ hL hf
        · rw [if_neg hv]
          rfl

private theorem zero_all {n : ℕ} : ∀ (L : List Fld) (m : Fld → List ℝ),
    L.foldl (fun m f => fun x => if x = f then List.replicate n (0 : ℝ) else m x) m =
      fun x => if x ∈ L then List.replicate n 0 else m x := by
  intro L
  induction L with
  | nil => intro m; simp
  | cons k L ih =>
    intro m
    rw [List.foldl_cons, ih]
    funext x
    by_cases hL : x ∈ L
    · rw [if_pos hL, if_pos (List.mem_cons_of_mem _ hL)]
    · by_cases hk : x = k
      · subst hk
        rw [if_neg hL, if_pos rfl, if_pos List.mem_cons_self]
      · rw [if_neg hL, if_neg hk, if_neg fun h => (List.mem_cons.mp h).elim hk hL]

/-- The parameters that belong to an equation and the settings of the model. -/
def Belongs (e : Eqn) (g : Flags) : Fld → Prop
  | .density => True
  | .vp => e = .acoustic ∨ e = .elastic ∨ e = .viscoelastic
  | .vs => e ≠ .acoustic
  | .tauP => e = .viscoelastic
  | .tauS => e = .viscoelastic ∨ e = .viscosh
  | .porosity => g.inversionType = 3 ∨ g.parameterisation = 1 ∨ g.parameterisation = 2
  | .saturation => g.inversionType = 3 ∨ g.parameterisation = 1 ∨ g.parameterisation = 2
  | .reflectivity => g.gradientKernel ≠ 0 ∧ g.decomposition = 0

private theorem petro_iff (g : Flags) : g.petro = true ↔ (g.inversionType = 3 ∨ g.parameterisation = 1 ∨ g.parameterisation = 2) := by
  unfold Flags.petro
  exact decide_eq_true_iff

private theorem refl_iff (g : Flags) : g.refl = true ↔ (g.gradientKernel ≠ 0 ∧ g.decomposition = 0) := by
  unfold Flags.refl
  exact decide_eq_true_iff

private theorem written_iff (e : Eqn) (g : Flags) (f : Fld) : f ∈ written e g ↔ Belongs e g f := by
  unfold written
  cases hp : g.petro <;> cases hr : g.refl <;>
  · have h1 := petro_iff g
    have h2 := refl_iff g
    rw [hp] at h1
    rw [hr] at h2
    cases e <;> cases f <;> simp [Belongs] <;> tauto

private theorem needed_iff (e : Eqn) (g : Flags) (f : Fld) : f ∈ needed e g ↔ Belongs e g f := by
  unfold needed
  cases hp : g.petro <;> cases hr : g.refl <;>
  · have h1 := petro_iff g
    have h2 := refl_iff g
    rw [hp] at h1
    rw [hr] at h2
    cases e <;> cases f <;> simp [Belongs] <;> tauto

private theorem zeroed_iff (e : Eqn) (g : Flags) (f : Fld) : f ∈ zeroed g ↔
    (f = .porosity ∨ f = .saturation ∨ f = .reflectivity) ∧ ¬ Belongs e g f := by
  unfold zeroed
  cases hp : g.petro <;> cases hr : g.refl <;>
  · have h1 := petro_iff g
    have h2 := refl_iff g
    rw [hp] at h1
    rw [hr] at h2
    cases f <;> simp [Belongs] <;> tauto

/-- C158: a model that was written is read back, on every disk, into every object, in all file formats. What does not belong to the
settings is zero. -/
theorem C158_roundtrip (e : Eqn) (g : Flags) {n : ℕ} (base : Name) {fmt : Int} (hfmt : fmt = 1 ∨ fmt = 2 ∨ fmt = 3) {m : Fld → List ℝ}
    (hm : ∀ f, Belongs e g f → (m f).length = n) (d : Disk) (old : Fld → List ℝ) :
    ∃ d' m', write e g base fmt m d = .ok d' ∧ init e g n base fmt d' old = .ok m' ∧ (∀ f, Belongs e g f → m' f = m f) ∧
      ∀ f ∈ [Fld.porosity, .saturation, .reflectivity], ¬ Belongs e g f → m' f = List.replicate n 0 := by
  obtain ⟨ext, hx⟩ : ∃ ext, extension fmt = .ok ext := by
    rcases hfmt with rfl | rfl | rfl <;> exact ⟨_, rfl⟩
  have hr := read_all (n := n) (base := base) (ext := ext) (v := m)
    (d := (written e g).foldl (fun d f => fun x => if x = base ++ suffix f ++ ext then some (m f) else d x) d)
    (needed e g) old fun f hf =>
      ⟨fold_put hx m _ d (Or.inl ((written_iff e g f).mpr ((needed_iff e g f).mp hf))), hm f ((needed_iff e g f).mp hf)⟩
  refine ⟨_, _, by unfold write; rw [hx]; rfl, by unfold init; rw [hx, Out.bind_ok, hr, Out.bind_ok]; rfl, fun f hf => ?_,
    fun f hf hb => ?_⟩
  · rw [zero_all]
    simp only
    rw [if_neg fun h => ((zeroed_iff e g f).mp h).2 hf, if_pos ((needed_iff e g f).mpr hf)]
  · rw [zero_all]
    refine if_pos ?_
    exact (zeroed_iff e g f).mpr ⟨by simpa using hf, hb⟩

/-- C158: a model is read exactly if all its files exist with one value for each grid point, and then has the values of the files. -/
theorem C158_read (e : Eqn) (g : Flags) (n : ℕ) (base : Name) {fmt : Int} {ext : Name} (hx : extension fmt = .ok ext) (d : Disk)
    (old : Fld → List ℝ) :
    ((∃ m, init e g n base fmt d old = .ok m) ↔ ∀ f, Belongs e g f → ∃ v, d (base ++ suffix f ++ ext) = some v ∧ v.length = n) ∧
    ∀ m, init e g n base fmt d old = .ok m → ∀ f, Belongs e g f → d (base ++ suffix f ++ ext) = some (m f) := by
  by_cases h : ∀ f, Belongs e g f → ∃ v, d (base ++ suffix f ++ ext) = some v ∧ v.length = n
  · choose! v hv using h
    have hr := read_all (n := n) (base := base) (ext := ext) (v := v) (d := d) (needed e g) old fun f hf => hv f ((needed_iff e g f).mp hf)
    have hi : init e g n base fmt d old = .ok ((zeroed g).foldl (fun m f => fun x => if x = f then List.replicate n 0 else m x)
        fun x => if x ∈ needed e g then v x else old x) := by
      unfold init
      rw [hx, Out.bind_ok, hr, Out.bind_ok]
      rfl
    refine ⟨⟨fun _ f hf => ⟨v f, hv f hf⟩, fun _ => ⟨_, hi⟩⟩, fun m hm f hf => ?_⟩
    rw [hi] at hm
    injection hm with hm
    rw [← hm, zero_all, (hv f hf).1]
    simp only
    rw [if_neg fun h => ((zeroed_iff e g f).mp h).2 hf, if_pos ((needed_iff e g f).mpr hf)]
  · have hi : init e g n base fmt d old = .err := by
      push Not at h
      obtain ⟨f, hf, hv⟩ := h
      unfold init
      rw [hx, Out.bind_ok, read_err (f := f) _ _ ((needed_iff e g f).mpr hf) hv]
      rfl
    rw [hi]
    exact ⟨⟨fun h' => (by obtain ⟨m, hm⟩ := h'; cases hm), fun h' => absurd h' h⟩, fun m hm => (by cases hm)⟩

/-- C158: writing a model under another name or in another format does not change what is read. -/
theorem C158_other_model (e e' : Eqn) (g g' : Flags) (n : ℕ) {base base' : Name} {fmt fmt' : Int} (h : base ≠ base' ∨ fmt ≠ fmt')
    (m' : Fld → List ℝ) {d d' : Disk} (hw : write e' g' base' fmt' m' d = .ok d') (old : Fld → List ℝ) :
    init e g n base fmt d' old = init e g n base fmt d old := by
  cases hx : extension fmt with
  | err => unfold init; rw [hx]; rfl
  | ub => unfold init; rw [hx]; rfl
  | ok ext =>
    unfold write at hw
    cases hx' : extension fmt' with
    | err => rw [hx'] at hw; cases hw
    | ub => rw [hx'] at hw; cases hw
    | ok ext' =>
      rw [hx', Out.bind_ok] at hw
      injection hw with hw
      have hne : ∀ f k, base ++ suffix f ++ ext ≠ base' ++ suffix k ++ ext' := by
        intro f k hk
        obtain ⟨h1, _, h3⟩ := name_inj hx hx' hk
        refine h.elim (fun h => h h1) fun h => h ?_
        subst h3
        unfold extension at hx hx'
        have : ".mtx".toList ≠ ".lmf".toList ∧ ".mtx".toList ≠ ".frv".toList ∧ ".lmf".toList ≠ ".frv".toList := by decide
        obtain ⟨n1, n2, n3⟩ := this
        split at hx <;> [skip; split at hx <;> [skip; split at hx]] <;>
          (split at hx' <;> [skip; split at hx' <;> [skip; split at hx']]) <;>
          first
            | (exfalso; cases hx; done)
            | (exfalso; cases hx'; done)
            | (subst_vars; rfl)
            | (injection hx with hx; injection hx' with hx'; rw [← hx] at hx'; first | exact absurd hx' n1 | exact absurd hx' n2 | exact absurd hx' n3 | exact absurd hx'.symm n1 | exact absurd hx'.symm n2 | exact absurd hx'.symm n3)
      have hd : ∀ f, d' (base ++ suffix f ++ ext) = d (base ++ suffix f ++ ext) := by
        intro f
        rw [← hw]
        exact fold_other m' _ d fun k _ => hne f k
      have hrd : readVector n base ext d' = readVector n base ext d := by
        funext m f
        unfold readVector
        rw [hd f]
      unfold init
      rw [hx, Out.bind_ok, Out.bind_ok, hrd]

/-- C158: an unknown file format is rejected, for reading and for writing. -/
theorem C158_format (e : Eqn) (g : Flags) (n : ℕ) (base : Name) {fmt : Int} (hfmt : ¬ (fmt = 1 ∨ fmt = 2 ∨ fmt = 3)) (m : Fld → List ℝ)
    (d : Disk) : write e g base fmt m d = .err ∧ init e g n base fmt d m = .err := by
  have hx : extension fmt = .err := by
    unfold extension
    rw [if_neg (by tauto), if_neg (by tauto), if_neg (by tauto)]
  unfold write init
  rw [hx]
  exact ⟨rfl, rfl⟩

/-- C158: the files of a model can be used for each equation that has some of its parameters only, e.g. those of a viscoelastic model for
all seismic equations; the values are the same. On an empty disk they can be used for no other equation. -/
theorem C158_other_equation (e e' : Eqn) (g : Flags) {n : ℕ} (base : Name) {fmt : Int} {m : Fld → List ℝ}
    (hm : ∀ f, Belongs e g f → (m f).length = n) (old : Fld → List ℝ) {d' : Disk} (hw : write e g base fmt m (fun _ => none) = .ok d') :
    ((∃ m', init e' g n base fmt d' old = .ok m') ↔ ∀ f, Belongs e' g f → Belongs e g f) ∧
    ∀ m', init e' g n base fmt d' old = .ok m' → ∀ f, Belongs e' g f → m' f = m f := by
  unfold write at hw
  cases hx : extension fmt with
  | err => rw [hx] at hw; cases hw
  | ub => rw [hx] at hw; cases hw
  | ok ext =>
    rw [hx, Out.bind_ok] at hw
    injection hw with hw
    have hin : ∀ f, Belongs e g f → d' (base ++ suffix f ++ ext) = some (m f) := fun f hf => by
      rw [← hw]
      exact fold_put hx m _ _ (Or.inl ((written_iff e g f).mpr hf))
    have hout : ∀ f, ¬ Belongs e g f → d' (base ++ suffix f ++ ext) = none := fun f hf => by
      rw [← hw]
      exact fold_other m _ _ fun k hk he => hf ((written_iff e g f).mp ((name_inj hx hx he).2.1 ▸ hk))
    obtain ⟨h1, h2⟩ := C158_read e' g n base hx d' old
    have key : (∃ m', init e' g n base fmt d' old = .ok m') ↔ ∀ f, Belongs e' g f → Belongs e g f := by
      rw [h1]
      refine ⟨fun h f hf => ?_, fun h f hf => ⟨m f, hin f (h f hf), hm f (h f hf)⟩⟩
      by_contra hb
      obtain ⟨v, hv, _⟩ := h f hf
      rw [hout f hb] at hv
      cases hv
    refine ⟨key, fun m' hm' f hf => ?_⟩
    have a := h2 m' hm' f hf
    rw [hin f (key.mp ⟨m', hm'⟩ f hf)] at a
    injection a with a
    exact a.symm

/-! ### Examples -/

/-- A viscoelastic model with porosity on two grid points. -/
example : ∃ (g : Flags) (m : Fld → List ℝ), (∀ f, Belongs .viscoelastic g f → (m f).length = 2) ∧ Belongs .viscoelastic g .porosity ∧
    ¬ Belongs .viscoelastic g .reflectivity ∧ m .vp ≠ m .vs :=
  ⟨⟨3, 0, 0, 0⟩, fun f => if f = .vp then [2, 3] else [1, 1], fun f _ => by simp only; split <;> rfl, Or.inl rfl,
    fun h => h.1 rfl, by simp⟩

/-- The files of a viscoelastic model can be read as an acoustic model, not the other way round. -/
example (g : Flags) : (∀ f, Belongs .acoustic g f → Belongs .viscoelastic g f) ∧ ¬ ∀ f, Belongs .viscoelastic g f → Belongs .acoustic g f := by
  refine ⟨fun f h => by cases f <;> simp_all [Belongs], fun h => ?_⟩
  have := h .vs (by simp [Belongs])
  simp [Belongs] at this

end Verif.SeisFiles
