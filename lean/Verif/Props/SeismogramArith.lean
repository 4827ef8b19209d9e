import Verif.Model.SeismogramArith
import Verif.Model.SeismogramFile
import Mathlib.Tactic.Ring
import Mathlib.Tactic.NormNum

/-!
# C156: copies and arithmetic of seismograms
-/
namespace Verif.SeisArith
open Verif

/-- Each trace has as many samples as the seismogram. -/
def Rect (a : Seis) : Prop := ∀ r ∈ a.data, r.length = a.ns

/-- The same numbers of traces and samples. -/
def SameSize (a b : Seis) : Prop := a.data.length = b.data.length ∧ a.ns = b.ns

/-- Sample `j` of trace `i`. -/
def sample (a : Seis) (i j : ℕ) : Option ℝ := a.data[i]?.bind fun r => r[j]?

/-- The same measurement: all members except the profile, the decoded data and the position of the shot. -/
def SameRecord (a b : Seis) : Prop :=
  a.DT = b.DT ∧ a.type = b.type ∧ a.coordinates = b.coordinates ∧ a.source = b.source ∧ a.ns = b.ns ∧ a.inverseAGC = b.inverseAGC

private theorem sample_zip {f : ℝ → ℝ → ℝ} {a b : Seis} {c : Seis} (hc : c.data = List.zipWith (List.zipWith f) a.data b.data)
    (i j : ℕ) : sample c i j = (sample a i j).bind fun x => (sample b i j).map fun y => f x y := by
  unfold sample
  rw [hc, List.getElem?_zipWith]
  cases a.data[i]? with
  | none => rfl
  | some r =>
    cases b.data[i]? with
    | none => simp
    | some q =>
      simp only [Option.bind_some]
      rw [List.getElem?_zipWith]
      cases r[j]? <;> cases q[j]? <;> rfl

private theorem sample_some {a b : Seis} (ha : Rect a) (hb : Rect b) (h : SameSize a b) {i j : ℕ} {x : ℝ}
    (hx : sample a i j = some x) : ∃ y, sample b i j = some y := by
  unfold sample at hx ⊢
  obtain ⟨r, hr, hj⟩ := Option.bind_eq_some_iff.mp hx
  have hi := (List.getElem?_eq_some_iff.mp hr).1
  have hj := (List.getElem?_eq_some_iff.mp hj).1
  rw [ha r (List.mem_of_getElem? hr), h.2] at hj
  have hi' : i < b.data.length := h.1 ▸ hi
  have hl := hb _ (List.getElem_mem hi')
  rw [← hl] at hj
  exact ⟨_, by rw [List.getElem?_eq_getElem hi', Option.bind_some, List.getElem?_eq_getElem hj]⟩

private theorem ext_samples {a b : Seis} (ha : Rect a) (hb : Rect b) (hs : SameSize a b)
    (h : ∀ i j, sample a i j = sample b i j) : a.data = b.data := by
  refine List.ext_getElem hs.1 fun i h1 h2 => ?_
  refine List.ext_getElem (by rw [ha _ (List.getElem_mem h1), hb _ (List.getElem_mem h2), hs.2]) fun j h3 h4 => ?_
  have := h i j
  unfold sample at this
  rw [List.getElem?_eq_getElem h1, List.getElem?_eq_getElem h2, Option.bind_some, Option.bind_some,
    List.getElem?_eq_getElem h3, List.getElem?_eq_getElem h4] at this
  injection this

private theorem rect_zip {f : ℝ → ℝ → ℝ} {a b : Seis} (ha : Rect a) (hb : Rect b) (h : SameSize a b) :
    ∀ r ∈ List.zipWith (List.zipWith f) a.data b.data, r.length = a.ns := by
  intro r hr
  rw [List.mem_iff_getElem] at hr
  obtain ⟨i, hi, rfl⟩ := hr
  rw [List.getElem_zipWith, List.length_zipWith]
  rw [List.length_zipWith] at hi
  rw [ha _ (List.getElem_mem _), hb _ (List.getElem_mem _), h.2, Nat.min_self]

/-- C156: sums and differences exist for seismograms of the same size, and have sums and differences of the samples. They are
the same measurement as the first operand. -/
theorem C156_sum_difference {a b : Seis} (h : SameSize a b) : ∃ s d, add a b = .ok s ∧ sub a b = .ok d ∧ SameRecord s a ∧ SameRecord d a ∧
    ∀ i j x y, sample a i j = some x → sample b i j = some y → sample s i j = some (x + y) ∧ sample d i j = some (x - y) := by
  refine ⟨_, _, if_pos h, if_pos h, ⟨rfl, rfl, rfl, rfl, rfl, rfl⟩, ⟨rfl, rfl, rfl, rfl, rfl, rfl⟩, fun i j x y hx hy => ⟨?_, ?_⟩⟩
  · rw [sample_zip (a := a) (b := b) rfl, hx, hy]
    rfl
  · rw [sample_zip (a := a) (b := b) rfl, hx, hy]
    rfl

/-- C156: the product with a seismogram of the same size has the products of the samples. -/
theorem C156_product {a b : Seis} (h : SameSize a b) : ∃ p, mulAssign a b = .ok p ∧ SameRecord p a ∧
    ∀ i j x y, sample a i j = some x → sample b i j = some y → sample p i j = some (x * y) := by
  refine ⟨_, if_pos h, ⟨rfl, rfl, rfl, rfl, rfl, rfl⟩, fun i j x y hx hy => ?_⟩
  rw [sample_zip (a := a) (b := b) rfl, hx, hy]
  rfl

/-- C156: seismograms of different sizes are rejected. -/
theorem C156_sizes {a b : Seis} (h : ¬ SameSize a b) : add a b = .err ∧ sub a b = .err ∧ addAssign a b = .err ∧ subAssign a b = .err ∧
    mulAssign a b = .err := ⟨if_neg h, if_neg h, if_neg h, if_neg h, if_neg h⟩

/-- C156: adding and subtracting a seismogram gives back the first one, in either order, and the sum does not depend on the order. -/
theorem C156_inverse {a b : Seis} (ha : Rect a) (hb : Rect b) (h : SameSize a b) :
    ∃ s t d e, add a b = .ok s ∧ add b a = .ok t ∧ s.data = t.data ∧ sub s b = .ok d ∧ d.data = a.data ∧ SameRecord d a ∧
      ∃ f, sub a b = .ok f ∧ add f b = .ok e ∧ e.data = a.data ∧ SameRecord e a := by
  have hr : ∀ f : ℝ → ℝ → ℝ, SameSize { copy a with data := List.zipWith (List.zipWith f) a.data b.data } b := fun f =>
    ⟨by show (List.zipWith _ _ _).length = _; rw [List.length_zipWith, h.1, Nat.min_self], h.2⟩
  refine ⟨_, _, _, _, if_pos h, if_pos ⟨h.1.symm, h.2.symm⟩, ?_, if_pos (hr _), ?_, ⟨rfl, rfl, rfl, rfl, rfl, rfl⟩, _, if_pos h,
    if_pos (hr _), ?_, ⟨rfl, rfl, rfl, rfl, rfl, rfl⟩⟩
  · show List.zipWith _ a.data b.data = List.zipWith _ b.data a.data
    rw [List.zipWith_comm]
    congr 1
    funext r q
    rw [List.zipWith_comm]
    congr 1
    funext x y
    exact add_comm _ _
  all_goals
    refine ext_samples (a := { copy a with data := _ }) (b := a) ?_ ha ?_ fun i j => ?_
    · exact rect_zip (a := { copy a with data := List.zipWith (List.zipWith _) a.data b.data }) (rect_zip ha hb h) hb (hr _)
    · refine ⟨?_, rfl⟩
      show (List.zipWith _ (List.zipWith _ a.data _) _).length = _
      rw [List.length_zipWith, List.length_zipWith, h.1, Nat.min_self, Nat.min_self]
    · rw [sample_zip (a := { copy a with data := List.zipWith (List.zipWith _) a.data b.data }) (b := b) rfl,
        sample_zip (a := a) (b := b) rfl]
      cases hx : sample a i j with
      | none => rfl
      | some x =>
        obtain ⟨y, hy⟩ := sample_some ha hb h hx
        rw [hy]
        simp

/-- C156: multiplying with a number is compatible with sums. -/
theorem C156_scale {a b : Seis} (h : SameSize a b) (c : ℝ) : ∃ s t, addAssign a b = .ok s ∧
    addAssign (scaleAssign a c) (scaleAssign b c) = .ok t ∧ (scaleAssign s c).data = t.data := by
  have h' : SameSize (scaleAssign a c) (scaleAssign b c) := ⟨by simp [scaleAssign, h.1], h.2⟩
  refine ⟨_, _, if_pos h, if_pos h', ?_⟩
  show (List.zipWith _ a.data b.data).map _ = List.zipWith _ (a.data.map _) (b.data.map _)
  rw [List.map_zipWith, List.zipWith_map]
  congr 1
  funext r q
  rw [List.map_zipWith, List.zipWith_map]
  congr 1
  funext x y
  ring

/-- C156: a vector with one factor for each trace scales the traces. -/
theorem C156_traces {a : Seis} {v : List ℝ} (hv : a.data.length = v.length) : ∃ s, scaleVector a v = .ok s ∧ SameRecord s a ∧
    ∀ (i j : ℕ) x c, sample a i j = some x → v[i]? = some c → (Rect a → sample s i j = some (c * x)) := by
  unfold scaleVector
  by_cases h : 0 < a.data.length * a.ns
  · rw [if_pos h, if_pos hv]
    refine ⟨_, rfl, ⟨rfl, rfl, rfl, rfl, rfl, rfl⟩, fun i j x c hx hc _ => ?_⟩
    unfold sample at hx ⊢
    obtain ⟨r, hr, hj⟩ := Option.bind_eq_some_iff.mp hx
    rw [List.getElem?_zipWith, hr, hc]
    simp [hj]
  · rw [if_neg h]
    refine ⟨a, rfl, ⟨rfl, rfl, rfl, rfl, rfl, rfl⟩, fun i j x c hx _ ha => ?_⟩
    exfalso
    unfold sample at hx
    obtain ⟨r, hr, hj⟩ := Option.bind_eq_some_iff.mp hx
    have h1 := (List.getElem?_eq_some_iff.mp hr).1
    have h2 := (List.getElem?_eq_some_iff.mp hj).1
    rw [ha r (List.mem_of_getElem? hr)] at h2
    exact h (Nat.mul_pos (by omega) (by omega))

/-- C156: a vector with one factor for each sample scales the samples. Missing: as many traces as samples. -/
theorem C156_samples_partial {a : Seis} {v : List ℝ} (ha : Rect a) (hv : a.ns = v.length) (hne : a.data.length ≠ a.ns) :
    ∃ s, scaleVector a v = .ok s ∧ SameRecord s a ∧
    ∀ (i j : ℕ) x c, sample a i j = some x → v[j]? = some c → sample s i j = some (x * c) := by
  unfold scaleVector
  by_cases h : 0 < a.data.length * a.ns
  · rw [if_pos h, if_neg (by omega), if_pos hv]
    refine ⟨_, rfl, ⟨rfl, rfl, rfl, rfl, rfl, rfl⟩, fun i j x c hx hc => ?_⟩
    unfold sample at hx ⊢
    obtain ⟨r, hr, hj⟩ := Option.bind_eq_some_iff.mp hx
    simp only [List.getElem?_map, hr, Option.map_some, Option.bind_some]
    rw [List.getElem?_zipWith, hj, hc]
  · rw [if_neg h]
    refine ⟨a, rfl, ⟨rfl, rfl, rfl, rfl, rfl, rfl⟩, fun i j x c hx _ => ?_⟩
    exfalso
    unfold sample at hx
    obtain ⟨r, hr, hj⟩ := Option.bind_eq_some_iff.mp hx
    have h1 := (List.getElem?_eq_some_iff.mp hr).1
    have h2 := (List.getElem?_eq_some_iff.mp hj).1
    rw [ha r (List.mem_of_getElem? hr)] at h2
    exact h (Nat.mul_pos (by omega) (by omega))

/-- C156 fails for factors of samples if there are as many traces as samples: the traces are scaled. -/
theorem C156_samples_violated : ∃ (a : Seis) (v : List ℝ) (s : Seis), Rect a ∧ a.ns = v.length ∧ scaleVector a v = .ok s ∧
    sample a 0 1 = some 1 ∧ v[1]? = some 3 ∧ sample s 0 1 = some 2 := by
  refine ⟨⟨1, 0, [5, 6], 7, 2, [[1, 1], [1, 1]], [], [], [], [], 0, 0, true⟩, [2, 3], _, ?_, rfl, if_pos (by decide), rfl, rfl, ?_⟩
  · intro r hr
    simp at hr
    rw [hr]
    rfl
  · simp [sample]

/-- C156: copies and assignments have the samples and the header of the original; assigning a seismogram to itself changes
nothing at all. -/
theorem C156_copy_partial (a b : Seis) : SameRecord (copy b) b ∧ (copy b).data = b.data ∧ SameRecord (assign a b) b ∧
    (assign a b).data = b.data ∧ assign a a = a :=
  ⟨⟨rfl, rfl, rfl, rfl, rfl, rfl⟩, rfl, ⟨rfl, rfl, rfl, rfl, rfl, rfl⟩, rfl, rfl⟩

/-- C156: swapping twice changes nothing. -/
theorem C156_swap_twice (a b : Seis) : swap (swap a b).1 (swap a b).2 = (a, b) := rfl

/-- The members as `write` uses them. -/
def toFile (s : Seis) : SeisFile.Seis ℝ :=
  ⟨[], s.ns, s.data, s.inverseAGC, s.cop, s.inverseAGCCOP, [], ⟨0, 0, 0⟩, s.shotInd.toNat, s.shotIndIncr.toNat, s.useAGC⟩

/-- C156 fails for profiles: a seismogram with one trace, the third one of a profile, is collected in the profile when it is written.
Its copy and its sum with another one are no longer part of a profile, and one that it is assigned to belongs to another shot. -/
theorem C156_profile_violated : ∃ a b c : Seis, SameSize a b ∧ SeisFile.inProfile (toFile a) = true ∧
    SeisFile.inProfile (toFile (copy a)) = false ∧ (∃ s, add a b = .ok s ∧ SeisFile.inProfile (toFile s) = false) ∧
    SeisFile.inProfile (toFile (assign c a)) = true ∧ a.shotInd = 2 ∧ (assign c a).shotInd = 1 := by
  let a : Seis := ⟨1, 0, [5], 7, 2, [[1, 1]], [], [[0, 0], [0, 0], [0, 0]], [], [], 2, 2, true⟩
  let c : Seis := ⟨1, 0, [5], 7, 2, [[1, 1]], [], [[0, 0], [0, 0], [0, 0]], [], [], 1, 1, true⟩
  exact ⟨a, a, c, ⟨rfl, rfl⟩, rfl, rfl, ⟨_, if_pos (c := (copy a).data.length = a.data.length ∧ (copy a).ns = a.ns) (e := .err) ⟨rfl, rfl⟩, rfl⟩, rfl, rfl, rfl⟩

/-! ### Example -/

/-- Two seismograms of two traces with three samples. -/
example : ∃ a b : Seis, Rect a ∧ Rect b ∧ SameSize a b ∧ a.data.length ≠ a.ns ∧ sample a 1 2 = some 6 := by
  refine ⟨⟨1, 0, [5, 6], 7, 3, [[1, 2, 3], [4, 5, 6]], [], [], [], [], 0, 0, true⟩,
    ⟨1, 0, [5, 6], 7, 3, [[1, 1, 1], [2, 2, 2]], [], [], [], [], 0, 0, true⟩, ?_, ?_, ⟨rfl, rfl⟩, by decide, rfl⟩ <;>
  · intro r hr
    simp at hr
    rcases hr with rfl | rfl <;> rfl

end Verif.SeisArith
