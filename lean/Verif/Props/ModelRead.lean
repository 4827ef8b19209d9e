import Verif.Model.ModelRead
import Verif.Props.SeismicFiles
import Verif.Props.Subset

/-!
# C159: seismic models from the configuration
-/
namespace Verif.SeisFiles
open Verif Verif.Grid

/-- The files of a model for the equation exist and have `n` values each. -/
def Present (e : Eqn) (g : Flags) (s : Setup) (ext : Name) (d : Disk) (n : ℕ) : Prop :=
  ∀ f, Belongs e g f → ∃ v, d (s.base ++ suffix f ++ ext) = some v ∧ v.length = n

/-- The wave equations that can use variable grids. -/
def Meshed (e : Eqn) : Prop := e = .acoustic ∨ e = .elastic

private theorem read_direct {e : Eqn} {g : Flags} {s : Setup} {grid : Grid} {d : Disk} {old : Fld → List ℝ} {ext : Name}
    (hx : extension s.fmt = .ok ext) (h : initConfig e g s grid d old = init e g grid.n.toNat s.base s.fmt d old) :
    ((∃ m, initConfig e g s grid d old = .ok m) ↔ Present e g s ext d grid.n.toNat) ∧
    ∀ m, initConfig e g s grid d old = .ok m → ∀ f, Belongs e g f → d (s.base ++ suffix f ++ ext) = some (m f) := by
  rw [h]
  exact C158_read e g _ s.base hx d old

/-- C159: on a regular grid with `ModelRead` 1, the model of each equation is read from the files, which need one value for each grid
point. -/
theorem C159_regular (e : Eqn) (g : Flags) {s : Setup} (h1 : s.modelRead = 1) (h0 : s.variableGrid = 0) (grid : Grid) (d : Disk)
    (old : Fld → List ℝ) {ext : Name} (hx : extension s.fmt = .ok ext) :
    ((∃ m, initConfig e g s grid d old = .ok m) ↔ Present e g s ext d grid.n.toNat) ∧
    ∀ m, initConfig e g s grid d old = .ok m → ∀ f, Belongs e g f → d (s.base ++ suffix f ++ ext) = some (m f) := by
  refine read_direct hx ?_
  unfold initConfig
  by_cases he : e = .acoustic ∨ e = .elastic
  · rw [if_pos he, if_neg (by omega), if_pos (Or.inl ⟨h1, h0⟩)]
  · rw [if_neg he, if_neg (by omega), if_pos h1]

/-- C159: with `ModelRead` 2 on a variable grid, the files need one value for each point of the variable grid. -/
theorem C159_variable_files {e : Eqn} (he : Meshed e) (g : Flags) {s : Setup} (h2 : s.modelRead = 2) (h1 : s.variableGrid = 1) (grid : Grid)
    (d : Disk) (old : Fld → List ℝ) {ext : Name} (hx : extension s.fmt = .ok ext) :
    ((∃ m, initConfig e g s grid d old = .ok m) ↔ Present e g s ext d grid.n.toNat) ∧
    ∀ m, initConfig e g s grid d old = .ok m → ∀ f, Belongs e g f → d (s.base ++ suffix f ++ ext) = some (m f) := by
  refine read_direct hx ?_
  unfold initConfig
  rw [if_pos (show e = .acoustic ∨ e = .elastic from he), if_neg (by omega), if_pos (Or.inr h2)]

/-- C159: `ModelRead` 2 is rejected on regular grids and for the equations that cannot use variable grids. -/
theorem C159_rejected (e : Eqn) (g : Flags) {s : Setup} (h2 : s.modelRead = 2) (h : s.useVariableGrid = false ∨ ¬ Meshed e) (grid : Grid)
    (d : Disk) (old : Fld → List ℝ) : initConfig e g s grid d old = .err := by
  unfold initConfig
  rcases h with h | h
  · unfold Setup.useVariableGrid at h
    have h : s.variableGrid = 0 := by simpa using h
    by_cases he : e = .acoustic ∨ e = .elastic
    · rw [if_pos he, if_pos ⟨h2, by omega⟩]
    · rw [if_neg he, if_pos h2]
  · rw [if_neg (show ¬ (e = .acoustic ∨ e = .elastic) from h), if_pos h2]

/-- C159: with other values of `ModelRead` no file is needed, and each parameter of the equation has its value from the configuration at
all points. -/
theorem C159_homogeneous (e : Eqn) (g : Flags) {s : Setup} (h : s.modelRead ≠ 1 ∧ s.modelRead ≠ 2) (grid : Grid) (d : Disk)
    (old : Fld → List ℝ) : ∃ m, initConfig e g s grid d old = .ok m ∧ ∀ f,
      if f = .porosity ∨ f = .saturation ∨ f = .reflectivity then m f = List.replicate grid.n.toNat 0
      else Belongs e g f → m f = List.replicate grid.n.toNat (s.const f) := by
  refine ⟨homogeneous e grid.n.toNat s.const old, ?_, fun f => ?_⟩
  · unfold initConfig
    by_cases he : e = .acoustic ∨ e = .elastic
    · rw [if_pos he, if_neg (by omega), if_neg (by omega), if_neg (by omega)]
    · rw [if_neg he, if_neg (by omega), if_neg (by omega)]
  · unfold homogeneous
    cases e <;> cases f <;> simp [Belongs, constants]

private theorem belongs_sub {e : Eqn} {g : Flags} {f : Fld} {p : Sub.Par} (hp : f.sub = some p) : Sub.Uses e.sub p ↔ Belongs e g f := by
  cases f <;> cases hp <;> cases e <;> simp [Belongs, Sub.Uses, Eqn.sub]

private theorem toSub_par {m : Fld → List ℝ} {f : Fld} {p : Sub.Par} (hp : f.sub = some p) : (toSub m).par p = m f := by
  cases f <;> cases hp <;> rfl

private theorem sub_of {e : Eqn} {p : Sub.Par} (h : Sub.Uses e.sub p) : ∃ f : Fld, f.sub = some p := by
  cases p <;> first
    | exact ⟨.density, rfl⟩ | exact ⟨.vp, rfl⟩ | exact ⟨.vs, rfl⟩ | exact ⟨.tauP, rfl⟩ | exact ⟨.tauS, rfl⟩
    | (cases e <;> simp [Sub.Uses, Eqn.sub] at h)

private theorem reg_size {NX NY NZ : Int} {g : Grid} (h : initRegular NX NY NZ = .ok g) : g.n = NX * NY * NZ ∧ 0 ≤ g.n := by
  unfold initRegular at h
  split at h
  · rename_i hp
    cases h
    obtain ⟨h1, h2, h3⟩ := hp
    have h0 : (0 : Int) ≤ NX * NY * NZ := (mul_pos (mul_pos h1 h2) h3).le
    refine ⟨by simp [Grid.n, Layer.n], le_of_le_of_eq h0 (by simp [Grid.n, Layer.n])⟩
  · cases h

private theorem meshed_eq {e : Eqn} (he : Meshed e) {g : Flags} {s : Setup} (h1 : s.modelRead = 1) (hv : s.variableGrid = 1) {grid reg : Grid}
    (hg : initRegular s.nx s.ny s.nz = .ok reg) (d : Disk) (old : Fld → List ℝ) : initConfig e g s grid d old = (do
      let m ← init e g reg.n.toNat s.base s.fmt d old
      let r ← Sub.initVariable e.sub grid reg (toSub m)
      pure (fromSub r m)) := by
  unfold initConfig
  rw [if_pos (show e = .acoustic ∨ e = .elastic from he), if_neg (by omega), if_neg (by omega), if_pos ⟨h1, hv⟩, hg, Out.bind_ok]

private theorem mesh_all {e : Eqn} (he : Meshed e) (g : Flags) {s : Setup} (h1 : s.modelRead = 1) (hv : s.variableGrid = 1)
    {dhs ifs : List Int} {var reg : Grid} (hi : initVar s.nx s.ny s.nz dhs ifs = .ok var) (hr : Roomy s.ny dhs ifs)
    (hg : initRegular s.nx s.ny s.nz = .ok reg) {d : Disk} (old : Fld → List ℝ) {ext : Name} (hx : extension s.fmt = .ok ext)
    (hd : Present e g s ext d reg.n.toNat) :
    ∃ m r, init e g reg.n.toNat s.base s.fmt d old = .ok m ∧ initConfig e g s var d old = .ok (fromSub r m) ∧
      (∀ f, Belongs e g f → d (s.base ++ suffix f ++ ext) = some (m f)) ∧ (∀ f, Belongs e g f → (m f).length = reg.n.toNat) ∧
      ∀ f p, Belongs e g f → f.sub = some p → (r.par p).length = var.n.toNat ∧
        ∀ i < var.n.toNat, ∃ c, index2coordinate var i = .ok c ∧ InBox s.nx s.ny s.nz c ∧
          (r.par p)[i]? = Sub.valueAt s.nx s.nz (m f) c ∧ (Sub.valueAt s.nx s.nz (m f) c).isSome := by
  obtain ⟨a, b⟩ := C158_read e g reg.n.toNat s.base hx d old
  obtain ⟨m, hm⟩ := a.mpr hd
  have hb := b m hm
  have hl : ∀ f, Belongs e g f → (m f).length = reg.n.toNat := fun f hf => by
    obtain ⟨v, hv1, hv2⟩ := hd f hf
    rw [hb f hf] at hv1
    injection hv1 with hv1
    rw [hv1, hv2]
  obtain ⟨n1, n2⟩ := reg_size hg
  obtain ⟨r, h2, h3, h4⟩ := Sub.C86_variable_grid e.sub (by rcases he with rfl | rfl <;> simp [Eqn.sub]) hi hr hg (toSub m)
    fun p hp => by
      obtain ⟨f, hf⟩ := sub_of hp
      rw [toSub_par hf, hl f ((belongs_sub hf).mp hp)]
      omega
  refine ⟨m, r, hm, ?_, hb, hl, fun f p hf hp => ⟨?_, fun i hi' => ?_⟩⟩
  · rw [meshed_eq he h1 hv hg, hm, Out.bind_ok, h2]
    rfl
  · exact_mod_cast h3 p ((belongs_sub hp).mpr hf)
  · have := h4 p ((belongs_sub hp).mpr hf) i hi'
    rwa [toSub_par hp] at this

/-- C159: with `ModelRead` 1 on a variable grid, the files need one value for each point of the regular grid, and the simulation uses the
values of the files at the positions of its points. -/
theorem C159_meshed {e : Eqn} (he : Meshed e) (g : Flags) {s : Setup} (h1 : s.modelRead = 1) (hv : s.variableGrid = 1)
    {dhs ifs : List Int} {var reg : Grid} (hi : initVar s.nx s.ny s.nz dhs ifs = .ok var) (hr : Roomy s.ny dhs ifs)
    (hg : initRegular s.nx s.ny s.nz = .ok reg) (d : Disk) (old : Fld → List ℝ) {ext : Name} (hx : extension s.fmt = .ok ext) :
    ((∃ m, initConfig e g s var d old = .ok m) ↔ Present e g s ext d (s.nx * s.ny * s.nz).toNat) ∧
    ∀ m, initConfig e g s var d old = .ok m → ∀ f, Belongs e g f → f ∉ [Fld.porosity, .saturation, .reflectivity] →
      (m f).length = var.n.toNat ∧ ∀ i < var.n.toNat, ∃ v c, d (s.base ++ suffix f ++ ext) = some v ∧ index2coordinate var i = .ok c ∧
        (m f)[i]? = Sub.valueAt s.nx s.nz v c ∧ (Sub.valueAt s.nx s.nz v c).isSome := by
  rw [← (reg_size hg).1]
  have key : (∃ m, initConfig e g s var d old = .ok m) → Present e g s ext d reg.n.toNat := by
    rintro ⟨m, hm⟩
    rw [meshed_eq he h1 hv hg] at hm
    refine (C158_read e g reg.n.toNat s.base hx d old).1.mp ?_
    cases h : init e g reg.n.toNat s.base s.fmt d old with
    | ok m => exact ⟨m, rfl⟩
    | err => rw [h] at hm; cases hm
    | ub => rw [h] at hm; cases hm
  refine ⟨⟨key, fun h => ?_⟩, fun m' hm' f hf hn => ?_⟩
  · obtain ⟨m, r, -, h, -⟩ := mesh_all he g h1 hv hi hr hg old hx h
    exact ⟨_, h⟩
  · obtain ⟨m, r, -, h, hd, -, h3⟩ := mesh_all he g h1 hv hi hr hg old hx (key ⟨m', hm'⟩)
    rw [hm'] at h
    injection h with h
    obtain ⟨p, hp⟩ : ∃ p, f.sub = some p := by
      cases f <;> first | exact ⟨_, rfl⟩ | simp at hn
    have hmf : m' f = r.par p := by
      rw [h]
      unfold fromSub
      rw [hp]
    rw [hmf]
    refine ⟨(h3 f p hf hp).1, fun i hi' => ?_⟩
    obtain ⟨c, c1, -, c2, c3⟩ := (h3 f p hf hp).2 i hi'
    exact ⟨_, c, hd f hf, c1, c2, c3⟩

/-- C159 fails for porosity, saturation and reflectivity: with `ModelRead` 1 on a variable grid they keep one value for each point of the
regular grid. -/
theorem C159_porosity_violated {e : Eqn} (he : Meshed e) (g : Flags) {s : Setup} (h1 : s.modelRead = 1) (hv : s.variableGrid = 1)
    {dhs ifs : List Int} {var reg : Grid} (hi : initVar s.nx s.ny s.nz dhs ifs = .ok var) (hr : Roomy s.ny dhs ifs)
    (hg : initRegular s.nx s.ny s.nz = .ok reg) {d : Disk} (old : Fld → List ℝ) {ext : Name} (hx : extension s.fmt = .ok ext)
    (hd : Present e g s ext d (s.nx * s.ny * s.nz).toNat) :
    ∃ m, initConfig e g s var d old = .ok m ∧ ∀ f ∈ [Fld.porosity, .saturation, .reflectivity], Belongs e g f →
      (m f).length = (s.nx * s.ny * s.nz).toNat := by
  rw [← (reg_size hg).1] at hd ⊢
  obtain ⟨m, r, -, h, -, hl, -⟩ := mesh_all he g h1 hv hi hr hg old hx hd
  refine ⟨_, h, fun f hf hb => ?_⟩
  rw [← hl f hb]
  simp only [List.mem_cons, List.not_mem_nil, or_false] at hf
  rcases hf with rfl | rfl | rfl <;> rfl

/-- C159 fails if `UseVariableGrid` is neither 0 nor 1: the grid is variable, and the model is homogeneous without an error, whatever is in
the files. -/
theorem C159_flag_violated {e : Eqn} (he : Meshed e) (g : Flags) {s : Setup} (h1 : s.modelRead = 1) (hv : s.variableGrid ≠ 0)
    (hv1 : s.variableGrid ≠ 1) (grid : Grid) (d : Disk) (old : Fld → List ℝ) : s.useVariableGrid = true ∧
      ∃ m, initConfig e g s grid d old = .ok m ∧ m .density = List.replicate grid.n.toNat (s.const .density) := by
  refine ⟨by simpa [Setup.useVariableGrid] using hv, homogeneous e grid.n.toNat s.const old, ?_, ?_⟩
  · unfold initConfig
    rw [if_pos (show e = .acoustic ∨ e = .elastic from he), if_neg (by omega), if_neg (by omega), if_neg (by omega)]
  · unfold homogeneous
    cases e <;> simp [constants]

/-- C159 fails for the other equations on variable grids: with `ModelRead` 1 the files need one value for each point of the variable grid,
and the files of a regular model are rejected. -/
theorem C159_other_equations_violated {e : Eqn} (he : ¬ Meshed e) (g : Flags) {s : Setup} (h1 : s.modelRead = 1)
    {var : Grid} (hn : var.n.toNat ≠ (s.nx * s.ny * s.nz).toNat) (d : Disk) (old : Fld → List ℝ) {ext : Name}
    (hx : extension s.fmt = .ok ext) :
    ((∃ m, initConfig e g s var d old = .ok m) ↔ Present e g s ext d var.n.toNat) ∧
    (Present e g s ext d (s.nx * s.ny * s.nz).toNat → ∀ m, initConfig e g s var d old ≠ .ok m) := by
  have key := (read_direct (e := e) (g := g) (s := s) (grid := var) (d := d) (old := old) hx (by
    unfold initConfig
    rw [if_neg (show ¬ (e = .acoustic ∨ e = .elastic) from he), if_neg (by omega), if_pos h1])).1
  refine ⟨key, fun hp m hm => ?_⟩
  obtain ⟨v, a, b⟩ := key.mp ⟨m, hm⟩ .density trivial
  obtain ⟨w, a', b'⟩ := hp .density trivial
  rw [a] at a'
  injection a' with a'
  rw [← a', b] at b'
  exact hn b'

/-- A grid with 38 points instead of 80, and files with 80 values each. -/
example : ∃ (s : Setup) (var reg : Grid) (d : Disk), s.modelRead = 1 ∧ s.variableGrid = 1 ∧ initVar s.nx s.ny s.nz [1, 3] [3] = .ok var ∧
    Roomy s.ny [1, 3] [3] ∧ initRegular s.nx s.ny s.nz = .ok reg ∧ extension s.fmt = .ok ".mtx".toList ∧
    var.n.toNat ≠ (s.nx * s.ny * s.nz).toNat ∧ ∀ e g, Present e g s ".mtx".toList d (s.nx * s.ny * s.nz).toNat := by
  refine ⟨⟨1, 1, 8, 10, 1, "m".toList, 1, fun _ => 1⟩, _, _, fun _ => some ((List.range 80).map fun i => (i : ℝ)), rfl, rfl, rfl,
    ⟨by decide, fun k hk => ?_⟩, rfl, rfl, by decide, fun e g f _ => ⟨_, rfl, by simp⟩⟩
  have : k = 0 := by simp at hk; omega
  subst this
  decide

end Verif.SeisFiles
