import Verif.Model.WavefieldViews
import Verif.Lemmas.SolverFlow

/-!
# C123: what is written to snapshots; C124: memory of the wavefields
-/
set_option linter.dupNamespace false
set_option linter.unusedSectionVars false

namespace Verif.Solver
open Verif Verif.Views Verif.MatSetup

variable {ι : Type} [Fintype ι]

/-- The vector of the time stepping that a snapshot file shows. -/
def shown : View → Option Var
  | .fld f => some (.fld f)
  | .rel f l => some (.rel f l)
  | _ => none

private theorem nodup_rels (L : ℕ) {fs : List Fld} (h : fs.Nodup) :
    ((List.range L).flatMap fun l => fs.map fun f => View.rel f l).Nodup := by
  rw [List.nodup_flatMap]
  refine ⟨fun l _ => h.map fun a b e => (View.rel.inj e).1, ?_⟩
  refine (List.nodup_range (n := L)).imp ?_
  intro a b hab x hx hy
  obtain ⟨f, -, rfl⟩ := List.mem_map.mp hx
  obtain ⟨g, -, e⟩ := List.mem_map.mp hy
  exact hab (View.rel.inj e).2.symm

private theorem rels_nil (L : ℕ) : rels L [] = [] := by simp [rels]

/-- C123: the snapshots of types 1 and 2 together contain every vector that the simulation computes with, each in exactly
one file, and nothing else. `L` is the number of relaxation mechanisms. -/
theorem C123_complete (k : Kind) (D : Deriv ι) (m : Solver.Mod ι) (e : EMod ι) (c : BC ι) (L : ℕ) (hm : m.L = L)
    (he : e.L = L) :
    ∃ a b, write k L 1 = .ok a ∧ write k L 2 = .ok b ∧ (a ++ b).Nodup ∧
      ∀ v, v ∈ (k.solver D m e c).fields ↔ ∃ x ∈ a ++ b, shown x = some v := by
  refine ⟨(motion k).map .fld,
    (forces k).map .fld ++ (List.range L).flatMap fun l => (relaxing k).map fun f => .rel f l, by simp [write],
    by simp [write], ?_, ?_⟩
  · rw [← List.append_assoc]
    refine List.Nodup.append ?_ (nodup_rels L (by cases k <;> decide)) ?_
    · rw [← List.map_append]
      exact List.Nodup.map (fun a b e => View.fld.inj e) (by cases k <;> decide)
    · intro x hx hy
      simp only [List.mem_append, List.mem_map, List.mem_flatMap] at hx hy
      obtain ⟨l, -, f, -, rfl⟩ := hy
      rcases hx with ⟨_, -, e⟩ | ⟨_, -, e⟩ <;> cases e
  · intro v
    have key : (∃ x ∈ (motion k).map View.fld ++ ((forces k).map View.fld ++
        (List.range L).flatMap fun l => (relaxing k).map fun f => View.rel f l), shown x = some v) ↔
        (∃ f ∈ motion k ++ forces k, v = .fld f) ∨ v ∈ rels L (relaxing k) := by
      simp only [mem_rels, List.mem_append, List.mem_map, List.mem_flatMap, List.mem_range]
      constructor
      · rintro ⟨x, ⟨f, hf, rfl⟩ | ⟨f, hf, rfl⟩ | ⟨l, hl, f, hf, rfl⟩, hx⟩
        · exact .inl ⟨f, .inl hf, (Option.some.inj hx).symm⟩
        · exact .inl ⟨f, .inr hf, (Option.some.inj hx).symm⟩
        · exact .inr ⟨f, l, (Option.some.inj hx).symm, hl, hf⟩
      · rintro (⟨f, hf | hf, rfl⟩ | ⟨f, l, rfl, hl, hf⟩)
        · exact ⟨.fld f, .inl ⟨f, hf, rfl⟩, rfl⟩
        · exact ⟨.fld f, .inr (.inl ⟨f, hf, rfl⟩), rfl⟩
        · exact ⟨.rel f l, .inr (.inr ⟨l, hl, f, hf, rfl⟩), rfl⟩
    rw [key]
    cases k <;>
      simp [Kind.solver, acoustic2DSolver, acoustic3DSolver, elastic2DSolver, elastic3DSolver, sh2DSolver,
        viscosh2DSolver, viscoelastic2DSolver, viscoelastic3DSolver, emem2DSolver, tmem2DSolver,
        viscoemem2DSolver, viscotmem2DSolver, emem3DSolver, viscoemem3DSolver, motion, forces, relaxing,
        hm, he, or_comm, or_left_comm, or_assoc, rels_nil]

/-- C123: with a positive `decomposeWavefieldType` every snapshot contains both parts of every decomposed field, or the
request is refused with an exception. `partial`: negative values are not refused, see below. -/
theorem C123_decomposition_partial (k : Kind) (L : ℕ) (conf : Snapshot.Conf) (h : 0 < conf.decomposition) :
    write k L (Snapshot.snapType conf) = .err ∨ ∃ a w w', write k L (Snapshot.snapType conf) = .ok a ∧ w ≠ w' ∧
      (decomposed k ≠ []) ∧ (∀ f ∈ decomposed k, View.part f w ∈ a ∧ View.part f w' ∈ a) ∧
      ((conf.decomposition = 1 ∧ w = .up ∧ w' = .down) ∨ (conf.decomposition = 2 ∧ w = .left ∧ w' = .right)) := by
  have hs : Snapshot.snapType conf = conf.decomposition + 3 := by simp [Snapshot.snapType, h.ne']
  rw [hs]
  generalize conf.decomposition = d at h
  by_cases hk : decomposed k = []
  · left
    simp only [write, hk, ne_eq, not_true_eq_false, and_false, if_false]
    rw [if_neg (by omega), if_neg (by omega), if_neg (by omega)]
  by_cases h1 : d = 1
  · subst h1
    exact .inr ⟨withParts k .up .down, .up, .down, by simp [write, hk], by decide, hk,
      fun f hf => by simp [withParts, hf], by simp⟩
  by_cases h2 : d = 2
  · subst h2
    exact .inr ⟨withParts k .left .right, .left, .right, by simp [write, hk], by decide, hk,
      fun f hf => by simp [withParts, hf], by simp⟩
  left
  simp only [write]
  rw [if_neg (by omega), if_neg (by omega), if_neg (by omega), if_neg (by omega), if_neg (by omega), if_neg (by omega)]

/-- Both cases: the acoustic equation in 2D and the elastic equations. -/
example (L : ℕ) : write .acoustic2D L (Snapshot.snapType ⟨1, 1, 0, 1, 0, 0, 1⟩) ≠ .err ∧
    write .elastic2D L (Snapshot.snapType ⟨1, 1, 0, 1, 0, 0, 1⟩) = .err := by
  constructor <;> simp [write, Snapshot.snapType, decomposed, hasCurl]

/-- C123 is violated by `decomposeWavefieldType` -1 and -2: no exception, and the files contain no parts but the
undecomposed wavefields of another snapshot type. -/
theorem C123_negative_decomposition_violated (k : Kind) (L : ℕ) (conf : Snapshot.Conf)
    (h : conf.decomposition = -1 ∨ conf.decomposition = -2) :
    ∃ a, write k L (Snapshot.snapType conf) = .ok a ∧ a ≠ [] ∧ ∀ f w, View.part f w ∉ a := by
  have hs : Snapshot.snapType conf = conf.decomposition + 3 := by
    unfold Snapshot.snapType
    rw [if_pos (by omega)]
  rw [hs]
  rcases h with h | h <;> rw [h]
  · refine ⟨_, by simp only [write]; rfl, by cases k <;> simp [forces], ?_⟩
    simp
  · refine ⟨_, by simp only [write]; rfl, by cases k <;> simp [motion], ?_⟩
    simp

/-- C123 is violated by `snapType` 4 and 5 without `decomposeWavefieldType`: the request is accepted, and the files of the
parts contain zeros whatever the wavefield is. -/
theorem C123_undecomposed_violated (k : Kind) (hk : decomposed k ≠ []) (L : ℕ) (conf : Snapshot.Conf)
    (h0 : conf.decomposition = 0) (h : conf.snapType = 4 ∨ conf.snapType = 5) (D : Deriv ι) (DT : ℝ)
    (states : ℕ → State ι) (n : ℕ) (cw dw : ι → ℝ) :
    ∃ a w w', write k L (Snapshot.snapType conf) = .ok a ∧ w ≠ w' ∧ ∀ f ∈ decomposed k,
      View.part f w ∈ a ∧ View.part f w' ∈ a ∧
      ∀ u, value k D cw dw (states n) (partsAfter k conf.decomposition D DT states n) (.part f u) = .ok 0 := by
  have hp : ∀ u f, partsAfter k conf.decomposition D DT states n f u = .ok 0 := by
    intro u f
    induction n with
    | zero => rfl
    | succ n ih => rw [partsAfter, if_neg (by simp [h0])]; exact ih
  have hs : Snapshot.snapType conf = conf.snapType := by simp [Snapshot.snapType, h0]
  rw [hs]
  rcases h with h | h <;> rw [h]
  · exact ⟨withParts k .up .down, .up, .down, by simp [write, hk], by decide,
      fun f hf => ⟨by simp [withParts, hf], by simp [withParts, hf], fun u => hp u f⟩⟩
  · exact ⟨withParts k .left .right, .left, .right, by simp [write, hk], by decide,
      fun f hf => ⟨by simp [withParts, hf], by simp [withParts, hf], fun u => hp u f⟩⟩

/-! ### C124 -/

private theorem length_rels (L : ℕ) (fs : List Fld) :
    ((List.range L).flatMap fun l => fs.map fun f => View.rel f l).length = fs.length * L := by
  simp [List.length_flatMap, mul_comm]

/-- C124: the memory estimate counts all vectors that the wavefields allocate, for every equation except the 2D acoustic
and the TMEM equation and for any number of relaxation mechanisms. -/
theorem C124_partial (k : Kind) (L : ℕ) (h : k ≠ .acoustic2D) (h' : k ≠ .tmem2D) :
    numWavefields k L = (allocated k L).length := by
  cases k <;> first | exact absurd rfl h | exact absurd rfl h' | skip
  all_goals simp [numWavefields, allocated, motion, forces, relaxing, decomposed] <;> omega

/-- C124 is violated by the 2D acoustic and the TMEM equation: the four parts of each decomposed field are allocated in
every simulation but not counted. -/
theorem C124_parts_violated (L : ℕ) :
    (allocated .acoustic2D L).length = 15 ∧ numWavefields .acoustic2D L = 3 ∧
      (allocated .tmem2D L).length = 7 ∧ numWavefields .tmem2D L = 3 := by
  simp [numWavefields, allocated, motion, forces, relaxing, decomposed]

end Verif.Solver
