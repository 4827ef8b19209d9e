import Verif.Model.TwoLayer
import Verif.Lemmas.SU
import Mathlib.Tactic.Ring
import Mathlib.Tactic.Linarith
import Mathlib.Tactic.FinCases

/-!
# C148: the model of the creation tool is that of two layers
-/
namespace Verif.TwoLayer
open Verif Verif.Grid
open Verif.Config (Str lower)

private theorem setSlice_get (NX NZ : ℕ) (v : List ℚ) (y : ℕ) (p : ℚ) (i : ℕ) :
    (setSlice NX NZ v y p)[i]? = v[i]?.map fun q => if i / (NZ * NX) = y then p else q := by
  simp [setSlice]

private theorem fold_get (NX NZ : ℕ) (p : ℚ) (i : ℕ) : ∀ (ys : List ℕ) (v : List ℚ),
    (ys.foldl (fun v y => setSlice NX NZ v y p) v)[i]? = v[i]?.map fun q => if i / (NZ * NX) ∈ ys then p else q := by
  intro ys
  induction ys with
  | nil => intro v; simp
  | cons y ys ih =>
    intro v
    rw [List.foldl_cons, ih, setSlice_get, Option.map_map]
    congr 1
    funext q
    by_cases h1 : i / (NZ * NX) = y <;> by_cases h2 : i / (NZ * NX) ∈ ys <;> simp [h1, h2]

private theorem vector_get (NX NY NZ : ℕ) (f : Vec) (i : ℕ) (h : i < NY * NZ * NX) :
    (vector NX NY NZ f)[i]? = some (if i / (NZ * NX) < 40 then upper f else below f) := by
  have hb : i / (NZ * NX) < NY := by
    rw [Nat.div_lt_iff_lt_mul (Nat.pos_of_ne_zero fun h0 => by rw [Nat.mul_assoc, h0] at h; omega)]
    linarith [Nat.mul_assoc NY NZ NX]
  rw [vector, fold_get, List.getElem?_replicate, if_pos h, Option.map_some]
  congr 1
  simp only [List.mem_range'_1, depth]
  by_cases h1 : i / (NZ * NX) < 40
  · rw [if_pos h1, if_neg (by omega)]
  · rw [if_neg h1, if_pos (by omega)]

private theorem fold_length (NX NZ : ℕ) (p : ℚ) : ∀ (ys : List ℕ) (v : List ℚ),
    (ys.foldl (fun v y => setSlice NX NZ v y p) v).length = v.length := by
  intro ys
  induction ys with
  | nil => intro v; rfl
  | cons y ys ih => intro v; rw [List.foldl_cons, ih]; simp [setSlice]

private theorem vector_length (NX NY NZ : ℕ) (f : Vec) : (vector NX NY NZ f).length = NY * NZ * NX := by
  rw [vector, fold_length, List.length_replicate]

/-- A value at a point of the grid of the simulation. -/
private theorem vector_point {NX NY NZ : ℕ} {g : Grid} (hg : initRegular NX NY NZ = .ok g) (f : Vec) {x y z k : ℕ}
    (hk : coordinate2index g ⟨x, y, z⟩ = .ok (k : Int)) :
    (vector NX NY NZ f)[k]? = some (if y < 40 then upper f else below f) := by
  unfold initRegular at hg
  split at hg
  swap
  · simp at hg
  simp only [Out.ok.injEq] at hg
  subst hg
  unfold coordinate2index at hk
  split at hk
  swap
  · simp at hk
  rename_i hr
  simp only [inRange, Bool.and_eq_true, decide_eq_true_eq] at hr
  obtain ⟨⟨⟨⟨⟨hx, hy⟩, hz⟩, _⟩, _⟩, _⟩ := hr
  have hx' : x < NX := by omega
  have hy' : y < NY := by omega
  have hz' : z < NZ := by omega
  unfold lookup at hk
  rw [if_pos ⟨by simp only; omega, by simp only; omega⟩, if_neg (by simp)] at hk
  simp only [Int.tdiv_one, sub_zero, add_zero, Out.ok.injEq] at hk
  have hk' : k = (y * NZ + z) * NX + x := by
    have : ((k : Int)) = ((y * NZ + z) * NX + x : ℕ) := by rw [← hk]; push_cast; ring
    exact_mod_cast this
  have hin : z * NX + x < NZ * NX := by nlinarith
  have hq : k / (NZ * NX) = y := by
    rw [hk', show (y * NZ + z) * NX + x = z * NX + x + y * (NZ * NX) by ring,
      Nat.add_mul_div_right _ _ (by omega), Nat.div_eq_of_lt hin, zero_add]
  have hlt : k < NY * NZ * NX := by
    rw [hk', show (y * NZ + z) * NX + x = z * NX + x + y * (NZ * NX) by ring]
    nlinarith [Nat.mul_le_mul_right (NZ * NX) (Nat.succ_le_of_lt hy')]
  rw [vector_get _ _ _ _ _ hlt, hq]

/-- The model is that of two layers at a depth of 40 grid points. -/
def TwoLayers (g : Grid) (m : List (Str × List ℚ)) : Prop :=
  ∀ name v, (name, v) ∈ m → ∃ p q, (name, p, q) ∈
      [(".vp".toList, (3500 : ℚ), (4550 : ℚ)), (".vs".toList, 2000, 2600), (".density".toList, 2000, 2600),
        (".tauP".toList, 1 / 10, 1 / 10), (".tauS".toList, 1 / 10, 1 / 10)] ∧
    ∀ x y z k : ℕ, coordinate2index g ⟨x, y, z⟩ = .ok (k : Int) → v[k]? = some (if y < 40 then p else q)

private theorem names_in (f : Vec) : (suffix f, upper f, below f) ∈
    [(".vp".toList, (3500 : ℚ), (4550 : ℚ)), (".vs".toList, 2000, 2600), (".density".toList, 2000, 2600),
      (".tauP".toList, 1 / 10, 1 / 10), (".tauS".toList, 1 / 10, 1 / 10)] := by
  cases f <;> decide +kernel

private theorem read_all {NX NY NZ : ℕ} {g : Grid} (hg : initRegular NX NY NZ = .ok g) {type : Str} (l : List Vec)
    (hl : needed type = .ok (l.map suffix))
    (hf : ∀ f ∈ l, files NX NY NZ type (suffix f) = some (vector NX NY NZ f)) :
    ∃ m, readModel (NX * NY * NZ) type (files NX NY NZ type) = .ok m ∧ needed type = .ok (m.map Prod.fst) ∧
      TwoLayers g m := by
  refine ⟨l.map fun f => (suffix f, vector NX NY NZ f), ?_, ?_, ?_⟩
  · unfold readModel
    rw [hl]
    refine SU.mapM_eq_ok.2 ?_
    rw [List.map_map, List.map_map]
    refine List.map_congr_left fun f hfl => ?_
    simp only [Function.comp, readVector, hf f hfl, vector_length]
    rw [if_pos (by ring)]
  · rw [hl, List.map_map]
    rfl
  · intro name v h
    obtain ⟨f, _, e⟩ := List.mem_map.1 h
    rw [Prod.mk.injEq] at e
    obtain ⟨rfl, rfl⟩ := e
    exact ⟨upper f, below f, names_in f, fun x y z k hk => vector_point hg f hk⟩

/-- C148, what holds: for the four equations for which the tool writes all files, in lower case, the simulation on the grid of the
configuration reads a model whose every parameter has the first value above a depth of 40 grid points and the second
value from there on. Missing: the other equations and spellings (`C148_viscosh_violated`, `C148_spelling_violated`,
`C148_em_violated`). -/
theorem C148_two_layers_partial {NX NY NZ : ℕ} {g : Grid} (hg : initRegular NX NY NZ = .ok g) {type : Str}
    (ht : type ∈ ["acoustic".toList, "elastic".toList, "viscoelastic".toList, "sh".toList]) :
    ∃ m, readModel (NX * NY * NZ) type (files NX NY NZ type) = .ok m ∧ needed type = .ok (m.map Prod.fst) ∧
      TwoLayers g m := by
  simp only [List.mem_cons, List.not_mem_nil, or_false] at ht
  rcases ht with rfl | rfl | rfl | rfl
  · refine read_all hg [.vp, .density] (by decide +kernel) fun f hf => ?_
    fin_cases hf <;> rfl
  · refine read_all hg [.vp, .vs, .density] (by decide +kernel) fun f hf => ?_
    fin_cases hf <;> rfl
  · refine read_all hg [.vs, .vp, .density, .tauS, .tauP] (by decide +kernel) fun f hf => ?_
    fin_cases hf <;> rfl
  · refine read_all hg [.vs, .density] (by decide +kernel) fun f hf => ?_
    fin_cases hf <;> rfl

/-- Example: a grid on which both layers exist. -/
example : ∃ g, initRegular (5 : ℕ) (60 : ℕ) (3 : ℕ) = .ok g ∧ coordinate2index g ⟨(1 : ℕ), (39 : ℕ), (2 : ℕ)⟩ = .ok ((596 : ℕ) : Int) ∧
    coordinate2index g ⟨(1 : ℕ), (40 : ℕ), (2 : ℕ)⟩ = .ok ((611 : ℕ) : Int) := by
  refine ⟨_, rfl, ?_, ?_⟩ <;> decide +kernel

/-- C148 fails for the viscoelastic SH equation: the tool writes no relaxation strength, the simulation stops. -/
theorem C148_viscosh_violated (NX NY NZ n : ℕ) :
    readModel n "viscosh".toList (files NX NY NZ "viscosh".toList) = .err := by
  have h : files NX NY NZ "viscosh".toList ".tauS".toList = none := rfl
  unfold readModel
  rw [show needed "viscosh".toList = .ok [".vs".toList, ".density".toList, ".tauS".toList] by decide +kernel]
  have e : ∀ s, readVector n (files NX NY NZ "viscosh".toList) s = .err ∨
      ∃ v, readVector n (files NX NY NZ "viscosh".toList) s = .ok v := by
    intro s
    unfold readVector
    cases files NX NY NZ "viscosh".toList s with
    | none => exact .inl rfl
    | some v =>
      simp only
      split
      · exact .inr ⟨_, rfl⟩
      · exact .inl rfl
  have h3 : readVector n (files NX NY NZ "viscosh".toList) ".tauS".toList = .err := by
    unfold readVector
    rw [h]
  show [".vs".toList, ".density".toList, ".tauS".toList].mapM (readVector n (files NX NY NZ "viscosh".toList)) = _
  rw [List.mapM_cons, List.mapM_cons, List.mapM_cons, h3]
  rcases e ".vs".toList with h1 | ⟨v, h1⟩ <;> rcases e ".density".toList with h2 | ⟨w, h2⟩ <;> rw [h1] <;> simp only [h2] <;> rfl

/-- C148 fails for another spelling that the simulation accepts. -/
theorem C148_spelling_violated :
    needed "Viscoelastic".toList = needed "viscoelastic".toList ∧
      ∀ NX NY NZ, files NX NY NZ "Viscoelastic".toList ".tauS".toList = none := by
  refine ⟨by decide +kernel, fun _ _ _ => rfl⟩

/-- C148 fails for the electromagnetic equations: the tool writes none of their files, and reports success. -/
theorem C148_em_violated (type : Str)
    (ht : type ∈ ["tmem".toList, "emem".toList, "viscotmem".toList, "viscoemem".toList]) (NX NY NZ n : ℕ) :
    readModel n type (files NX NY NZ type) = .err := by
  have key : ∀ l, needed type = .ok (".mur".toList :: l) → files NX NY NZ type ".mur".toList = none →
      readModel n type (files NX NY NZ type) = .err := by
    intro l hl h
    unfold readModel
    rw [hl]
    show (".mur".toList :: l).mapM (readVector n (files NX NY NZ type)) = _
    rw [List.mapM_cons, readVector, h]
    rfl
  simp only [List.mem_cons, List.not_mem_nil, or_false] at ht
  rcases ht with rfl | rfl | rfl | rfl
  · exact key [".sigma".toList, ".epsilonr".toList] (by decide +kernel) rfl
  · exact key [".sigma".toList, ".epsilonr".toList] (by decide +kernel) rfl
  · exact key [".sigma".toList, ".epsilonr".toList, ".tauSigmar".toList, ".tauEpsilon".toList] (by decide +kernel) rfl
  · exact key [".sigma".toList, ".epsilonr".toList, ".tauSigmar".toList, ".tauEpsilon".toList] (by decide +kernel) rfl

end Verif.TwoLayer
