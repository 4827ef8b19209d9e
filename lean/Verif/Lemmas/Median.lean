import Verif.Model.Median
import Mathlib.Data.Rat.Defs
import Mathlib.Algebra.Order.Ring.Unbundled.Rat
import Mathlib.Data.List.Nodup
import Mathlib.Data.List.GetD
import Mathlib.Logic.Equiv.Basic
import Mathlib.Algebra.Group.End
import Mathlib.Tactic.Linarith
import Mathlib.Tactic.Ring
/-! # Lemmas about the median filter model -/
namespace Verif.Median

theorem forRange_inv {σ : Type} {n : Nat} {f : Nat → σ → Out σ} (P : Nat → σ → Prop) {s : σ}
    (h0 : P 0 s) (hs : ∀ k < n, ∀ s, P k s → ∃ s', f k s = .ok s' ∧ P (k + 1) s') :
    ∃ s', forRange n f s = .ok s' ∧ P n s' := by
  induction n with
  | zero => exact ⟨s, rfl, h0⟩
  | succ n ih =>
    obtain ⟨s1, e1, p1⟩ := ih fun k hk => hs k (by omega)
    obtain ⟨s2, e2, p2⟩ := hs n (by omega) s1 p1
    exact ⟨s2, by unfold forRange; rw [e1]; exact e2, p2⟩

theorem forRange_ub {σ : Type} {n : Nat} (hn : 0 < n) {f : Nat → σ → Out σ} {s : σ}
    (h : f 0 s = .ub) : forRange n f s = .ub := by
  induction n with
  | zero => omega
  | succ n ih =>
    unfold forRange
    rcases Nat.eq_zero_or_pos n with rfl | hp
    · show f 0 s = _; exact h
    · rw [ih hp]; rfl

/-! ### Sorting -/

/-- The window holds `x` permuted by `σ`. -/
structure Holds (n : Nat) (x : Nat → ℚ) (σ : Equiv.Perm Nat) (w : Mem) : Prop where
  size : w.size = n
  cells : ∀ k < n, w.cell k = some (x (σ k))
  inside : ∀ k, σ k < n ↔ k < n

theorem Holds.read {n : Nat} {x : Nat → ℚ} {σ : Equiv.Perm Nat} {w : Mem} (h : Holds n x σ w) {k : Nat}
    (hk : k < n) : w.read k = .ok (x (σ k)) := by
  unfold Mem.read
  rw [if_pos (by rw [h.size]; exact hk), h.cells k hk]

theorem minPos_spec {n j : Nat} (hj : j < n) {x : Nat → ℚ} {σ : Equiv.Perm Nat} {w : Mem}
    (h : Holds n x σ w) : ∃ p, minPos w n j = .ok p ∧ j ≤ p ∧ p < n ∧
      ∀ k, j ≤ k → k < n → x (σ p) ≤ x (σ k) := by
  obtain ⟨p, e, h1, h2, h3⟩ := forRange_inv (n := n - (j + 1)) (s := j)
    (f := fun d min => do
      let a ← w.read (j + 1 + d)
      let b ← w.read min
      .ok (if a < b then j + 1 + d else min))
    (fun d p => j ≤ p ∧ p < n ∧ ∀ k, j ≤ k → k < j + 1 + d → x (σ p) ≤ x (σ k))
    ⟨le_refl _, hj, fun k h1 h2 => by rw [show k = j by omega]⟩ (by
      rintro d hd p ⟨h1, h2, h3⟩
      simp only [h.read (show j + 1 + d < n by omega), h.read h2, Out.bind_ok]
      refine ⟨_, rfl, ?_⟩
      by_cases hc : x (σ (j + 1 + d)) < x (σ p)
      · rw [if_pos hc]
        refine ⟨by omega, by omega, fun k hk1 hk2 => ?_⟩
        by_cases hk : k = j + 1 + d
        · rw [hk]
        · exact le_trans (le_of_lt hc) (h3 k hk1 (by omega))
      · rw [if_neg hc]
        refine ⟨h1, h2, fun k hk1 hk2 => ?_⟩
        by_cases hk : k = j + 1 + d
        · rw [hk]; exact not_lt.mp hc
        · exact h3 k hk1 (by omega))
  exact ⟨p, e, h1, h2, fun k a b => h3 k a (by omega)⟩

/-- The first `j` entries are the smallest, in order. -/
def SortedUpTo (n j : Nat) (x : Nat → ℚ) (σ : Equiv.Perm Nat) : Prop :=
  ∀ a < j, ∀ b, a ≤ b → b < n → x (σ a) ≤ x (σ b)

theorem step_spec {n j : Nat} (hj : j < n) {x : Nat → ℚ} {σ : Equiv.Perm Nat} {w : Mem}
    (h : Holds n x σ w) (hs : SortedUpTo n j x σ) :
    ∃ w' σ', selectStep n j w = .ok w' ∧ Holds n x σ' w' ∧ SortedUpTo n (j + 1) x σ' := by
  obtain ⟨p, e, h1, h2, h3⟩ := minPos_spec hj h
  unfold selectStep
  rw [e]
  simp only [Out.bind_ok, h.read hj, h.read h2]
  have hw1 : w.write j (x (σ p)) =
      .ok { w with cell := fun k => if k = j then some (x (σ p)) else w.cell k } := by
    unfold Mem.write; rw [if_pos (by rw [h.size]; exact hj)]
  rw [hw1]
  simp only [Out.bind_ok]
  unfold Mem.write
  rw [if_pos (by simpa [h.size] using h2)]
  have hval : ∀ k, (σ * Equiv.swap j p) k = if k = p then σ j else if k = j then σ p else σ k := by
    intro k
    rw [Equiv.Perm.mul_apply]
    by_cases hkp : k = p
    · rw [if_pos hkp, hkp, Equiv.swap_apply_right]
    · rw [if_neg hkp]
      by_cases hkj : k = j
      · rw [if_pos hkj, hkj, Equiv.swap_apply_left]
      · rw [if_neg hkj, Equiv.swap_apply_of_ne_of_ne hkj hkp]
  refine ⟨_, σ * Equiv.swap j p, rfl, ⟨h.size, ?_, ?_⟩, ?_⟩
  · intro k hk
    simp only [hval]
    by_cases hkp : k = p
    · rw [if_pos hkp, if_pos hkp]
    · rw [if_neg hkp, if_neg hkp]
      by_cases hkj : k = j
      · rw [if_pos hkj, if_pos hkj]
      · rw [if_neg hkj, if_neg hkj]; exact h.cells k hk
  · intro k
    rw [hval]
    by_cases hkp : k = p
    · rw [if_pos hkp, h.inside]; omega
    · rw [if_neg hkp]
      by_cases hkj : k = j
      · rw [if_pos hkj, h.inside]; omega
      · rw [if_neg hkj, h.inside]
  · intro a ha b hab hb
    have hmin : ∀ k, j ≤ k → k < n → x (σ p) ≤ x ((σ * Equiv.swap j p) k) := by
      intro k hk1 hk2
      rw [hval]
      by_cases hkp : k = p
      · rw [if_pos hkp]; exact h3 j (le_refl _) hj
      · rw [if_neg hkp]
        by_cases hkj : k = j
        · rw [if_pos hkj]
        · rw [if_neg hkj]; exact h3 k hk1 hk2
    by_cases haj : a = j
    · subst haj
      have : (σ * Equiv.swap a p) a = σ p := by
        rw [Equiv.Perm.mul_apply, Equiv.swap_apply_left]
      rw [this]
      exact hmin b hab hb
    · have haj' : a < j := by omega
      have ea : (σ * Equiv.swap j p) a = σ a := by
        rw [hval, if_neg (by omega), if_neg haj]
      rw [ea, hval]
      by_cases hbp : b = p
      · rw [if_pos hbp]; exact hs a haj' j (by omega) hj
      · rw [if_neg hbp]
        by_cases hbj : b = j
        · rw [if_pos hbj]; exact hs a haj' p (by omega) h2
        · rw [if_neg hbj]; exact hs a haj' b hab hb

/-- `v` is a median of `l`: an element such that at least half of the elements are not above and at
least half not below it. -/
def IsMedian (l : List ℚ) (v : ℚ) : Prop :=
  v ∈ l ∧ l.length ≤ 2 * l.countP (· ≤ v) ∧ l.length ≤ 2 * l.countP (v ≤ ·)

theorem perm_of_holds {n : Nat} {x : Nat → ℚ} {σ : Equiv.Perm Nat} (h : ∀ k, σ k < n ↔ k < n) :
    ((List.range n).map fun k => x (σ k)).Perm ((List.range n).map x) := by
  have : ((List.range n).map σ).Perm (List.range n) := by
    rw [List.perm_ext_iff_of_nodup]
    · intro a
      rw [List.mem_map]
      simp only [List.mem_range]
      constructor
      · rintro ⟨k, hk, rfl⟩; exact (h k).mpr hk
      · intro ha
        refine ⟨σ.symm a, ?_, by simp⟩
        rw [← h]; simpa using ha
    · exact List.nodup_range.map σ.injective
    · exact List.nodup_range
  simpa [List.map_map, Function.comp_def] using this.map x

theorem le_countP {n m : Nat} (hm : m ≤ n) (f : Nat → ℚ) (p : ℚ → Bool) (s : Nat) (hs : s + m ≤ n)
    (h : ∀ k, s ≤ k → k < s + m → p (f k) = true) : m ≤ ((List.range n).map f).countP p := by
  have hsub : ((List.range' s m).map f).Sublist ((List.range n).map f) := by
    apply List.Sublist.map
    rw [List.range_eq_range']
    have : List.range' 0 n = List.range' 0 s ++ (List.range' s m ++ List.range' (s + m) (n - (s + m))) := by
      have h1 := List.range'_append_1 (s := 0) (m := s) (n := m + (n - (s + m)))
      rw [Nat.zero_add] at h1
      rw [List.range'_append_1, h1]
      congr 1; omega
    rw [this]
    exact (List.sublist_append_left _ _).trans (List.sublist_append_right _ _)
  have h2 := hsub.countP_le (p := p)
  have h3 : ((List.range' s m).map f).countP p = m := by
    rw [List.countP_eq_length.mpr]
    · simp
    · intro a ha
      obtain ⟨k, hk, rfl⟩ := List.mem_map.mp ha
      rw [List.mem_range'_1] at hk
      exact h k hk.1 hk.2
  omega

/-- Sorting half of an odd window and taking the middle entry yields the median. -/
theorem sortAndGet_spec {h : Nat} {l : List ℚ} (hl : l.length = 2 * h + 1) {w : Mem}
    (hsize : w.size = 2 * h + 1) (hw : ∀ k < 2 * h + 1, w.cell k = some (l.getD k 0)) :
    ∃ v, sortAndGet (2 * h + 1) (h + 1) h w = .ok v ∧ IsMedian l v := by
  have h0 : Holds (2 * h + 1) (fun k => l.getD k 0) 1 w :=
    ⟨hsize, fun k hk => hw k hk, fun k => Iff.rfl⟩
  obtain ⟨w', e, σ, hh, hs⟩ := forRange_inv (n := h + 1) (s := w) (f := selectStep (2 * h + 1))
    (fun j w => ∃ σ, Holds (2 * h + 1) (fun k => l.getD k 0) σ w ∧
      SortedUpTo (2 * h + 1) j (fun k => l.getD k 0) σ)
    ⟨1, h0, fun a ha => by omega⟩ (by
      rintro k hk w ⟨σ, a, b⟩
      obtain ⟨w', σ', e, c, d⟩ := step_spec (by omega) a b
      exact ⟨w', e, σ', c, d⟩)
  unfold sortAndGet
  rw [e]
  simp only [Out.bind_ok]
  rw [hh.read (by omega)]
  have hll : (List.range (2 * h + 1)).map (fun k => l.getD k 0) = l := by
    apply List.ext_getElem
    · simp [hl]
    · intro i h1 h2
      simp [h2]
  have hp := perm_of_holds (x := fun k => l.getD k 0) hh.inside
  rw [hll] at hp
  refine ⟨_, rfl, ?_, ?_, ?_⟩
  · apply hp.mem_iff.mp
    exact List.mem_map.mpr ⟨h, by simp; omega, rfl⟩
  · rw [← hp.countP_eq, hl]
    have := le_countP (n := 2 * h + 1) (m := h + 1) (by omega) (fun k => l.getD (σ k) 0)
      (fun a => decide (a ≤ l.getD (σ h) 0)) 0 (by omega) (by
        intro k _ hk
        rw [decide_eq_true_eq]
        exact hs k (by omega) h (by omega) (by omega))
    omega
  · rw [← hp.countP_eq, hl]
    have := le_countP (n := 2 * h + 1) (m := h + 1) (by omega) (fun k => l.getD (σ k) 0)
      (fun a => decide (l.getD (σ h) 0 ≤ a)) h (by omega) (by
        intro k hk1 hk
        rw [decide_eq_true_eq]
        exact hs h (by omega) k hk1 (by omega))
    omega

/-! ### Windows -/

theorem fillWindow_spec {image : Mem} {val : Nat → ℚ} : ∀ (as : List Nat) (k : Nat) (w : Mem),
    (∀ a ∈ as, image.read a = .ok (val a)) → k + as.length ≤ w.size →
    ∃ w', fillWindow image as k w = .ok w' ∧ w'.size = w.size ∧
      (∀ i, i < k ∨ k + as.length ≤ i → w'.cell i = w.cell i) ∧
      ∀ i (hi : i < as.length), w'.cell (k + i) = some (val as[i]) := by
  intro as
  induction as with
  | nil => intro k w _ _; exact ⟨w, rfl, rfl, fun _ _ => rfl, fun i hi => by simp at hi⟩
  | cons a as ih =>
    intro k w ha hk
    simp only [List.length_cons] at hk
    have hwr : w.write k (val a) =
        .ok { w with cell := fun j => if j = k then some (val a) else w.cell j } := by
      unfold Mem.write; rw [if_pos (by omega)]
    obtain ⟨w', e, h1, h2, h3⟩ := ih (k + 1)
      { w with cell := fun j => if j = k then some (val a) else w.cell j }
      (fun b hb => ha b (List.mem_cons_of_mem _ hb)) (by simp only; omega)
    refine ⟨w', ?_, h1, ?_, ?_⟩
    · unfold fillWindow
      rw [ha a List.mem_cons_self]
      simp only [Out.bind_ok]
      rw [hwr]
      exact e
    · intro i hi
      simp only [List.length_cons] at hi
      rw [h2 i (by omega)]
      simp only
      rw [if_neg (by omega)]
    · intro i hi
      cases i with
      | zero =>
        rw [Nat.add_zero, h2 k (by omega)]
        simp
      | succ i =>
        simp only [List.length_cons] at hi
        have := h3 i (by omega)
        rw [show k + (i + 1) = k + 1 + i by omega, this]
        rfl

/-! ### Initialisation of blocks -/

/-- All cells in `S` hold a value related to their address. -/
def Filled (size : Nat) (R : Nat → ℚ → Prop) (S : Nat → Prop) (m : Mem) : Prop :=
  m.size = size ∧ ∀ a, S a → ∃ v, m.cell a = some v ∧ R a v

theorem Filled.mono {size : Nat} {R : Nat → ℚ → Prop} {S T : Nat → Prop} {m : Mem}
    (h : Filled size R S m) (hst : ∀ a, T a → S a) : Filled size R T m :=
  ⟨h.1, fun a ha => h.2 a (hst a ha)⟩

theorem Filled.write {size : Nat} {R : Nat → ℚ → Prop} {S : Nat → Prop} {m : Mem}
    (h : Filled size R S m) {a : Nat} (ha : a < size) {v : ℚ} (hv : R a v) :
    ∃ m', m.write a v = .ok m' ∧ Filled size R (fun b => S b ∨ b = a) m' := by
  unfold Mem.write
  rw [if_pos (by rw [h.1]; exact ha)]
  refine ⟨_, rfl, h.1, ?_⟩
  intro b hb
  by_cases hba : b = a
  · subst hba; exact ⟨v, by simp, hv⟩
  · obtain ⟨u, h1, h2⟩ := h.2 b (hb.resolve_right hba)
    exact ⟨u, by simpa [hba] using h1, h2⟩

theorem Filled.read {size : Nat} {f : Nat → ℚ} {S : Nat → Prop} {m : Mem}
    (h : Filled size (fun a v => v = f a) S m) {a : Nat} (ha : a < size) (hs : S a) :
    m.read a = .ok (f a) := by
  obtain ⟨v, h1, h2⟩ := h.2 a hs
  unfold Mem.read
  rw [if_pos (by rw [h.1]; exact ha), h1, h2]

/-- A loop whose `k`-th step fills `T k`. -/
theorem forRange_filled {size n : Nat} {R : Nat → ℚ → Prop} {S : Nat → Prop} {T : Nat → Nat → Prop}
    {f : Nat → Mem → Out Mem} {m : Mem} (h0 : Filled size R S m)
    (hs : ∀ k < n, ∀ m, ∀ Q : Nat → Prop, (∀ a, S a → Q a) → Filled size R Q m →
      ∃ m', f k m = .ok m' ∧ Filled size R (fun a => Q a ∨ T k a) m') :
    ∃ m', forRange n f m = .ok m' ∧ Filled size R (fun a => S a ∨ ∃ k < n, T k a) m' := by
  refine forRange_inv (fun j m => Filled size R (fun a => S a ∨ ∃ k < j, T k a) m)
    (h0.mono (by rintro a (h | ⟨k, hk, _⟩); exacts [h, by omega])) ?_
  intro k hk m hm
  obtain ⟨m', e, hf⟩ := hs k hk m _ (fun a h => .inl h) hm
  refine ⟨m', e, hf.mono ?_⟩
  rintro a (h | ⟨i, hi, h⟩)
  · exact .inl (.inl h)
  · by_cases hik : i = k
    · subst hik; exact .inr h
    · exact .inl (.inr ⟨i, by omega, h⟩)

/-! ### The extended image -/

/-- Entry `(r, c)` of the image extended by `b` on all sides: replicated edges (`fillType = 1`) or
zeros. -/
def extImage (image : List ℚ) (NX NY b fillType r c : Nat) : ℚ :=
  if fillType = 1 then image.getD (NX * min (r - b) (NY - 1) + min (c - b) (NX - 1)) 0
  else if (b ≤ r ∧ r < b + NY) ∧ b ≤ c ∧ c < b + NX then image.getD (NX * (r - b) + (c - b)) 0
  else 0

theorem addr_div {W r c : Nat} (h : c < W) : (W * r + c) / W = r := by
  rw [Nat.mul_add_div (by omega), Nat.div_eq_of_lt h, Nat.add_zero]

theorem addr_mod {W r c : Nat} (h : c < W) : (W * r + c) % W = c := by
  rw [Nat.mul_add_mod, Nat.mod_eq_of_lt h]

theorem addr_lt {W H r c : Nat} (h : c < W) (hr : r < H) : W * r + c < W * H := by
  have := Nat.mul_le_mul_left W (show r + 1 ≤ H by omega)
  rw [Nat.mul_succ] at this
  omega

theorem read_ofList {l : List ℚ} {k : Nat} (h : k < l.length) :
    (Mem.ofList l).read k = .ok (l.getD k 0) := by
  unfold Mem.read Mem.ofList
  simp only
  rw [if_pos h, List.getElem?_eq_getElem h, List.getD_eq_getElem _ _ h]

section
variable {image : List ℚ} {NX NY ksize ft : Nat}

/-- Intended content of the extension by address. -/
def extAt (image : List ℚ) (NX NY b ft a : Nat) : ℚ :=
  extImage image NX NY b ft (a / (NX + 2 * b)) (a % (NX + 2 * b))

theorem extAt_addr {b r c : Nat} (h : c < NX + 2 * b) :
    extAt image NX NY b ft ((NX + 2 * b) * r + c) = extImage image NX NY b ft r c := by
  unfold extAt
  rw [addr_div h, addr_mod h]

theorem row_spec (hx : 0 < NX) (hl : image.length = NX * NY) {b i : Nat} (hi : i < NY) {m : Mem}
    {Q : Nat → Prop}
    (hm : Filled ((NX + 2 * b) * (NY + 2 * b)) (fun a v => v = extAt image NX NY b ft a) Q m) :
    ∃ m' : Mem, (do
      let e ← copyFrom (Mem.ofList image) (NX * i) ((NX + 2 * b) * (i + b) + b) NX m
      forRange b (fun j (e : Mem) =>
        if ft = 1 then do
          let l ← (Mem.ofList image).read (NX * i)
          let e ← e.write ((NX + 2 * b) * (i + b) + j) l
          let r ← (Mem.ofList image).read (NX * (i + 1) - 1)
          e.write ((NX + 2 * b) * (i + b + 1) - j - 1) r
        else do
          let e ← e.write ((NX + 2 * b) * (i + b) + j) 0
          e.write ((NX + 2 * b) * (i + b + 1) - j - 1) 0) e) = .ok m' ∧
      Filled ((NX + 2 * b) * (NY + 2 * b)) (fun a v => v = extAt image NX NY b ft a)
        (fun a => Q a ∨ ∃ c < NX + 2 * b, a = (NX + 2 * b) * (i + b) + c) m' := by
  have hbase : NX * (i + 1) ≤ NX * NY := Nat.mul_le_mul_left _ hi
  rw [Nat.mul_succ] at hbase
  obtain ⟨m1, e1, f1⟩ := forRange_filled (n := NX) (T := fun k a => a = (NX + 2 * b) * (i + b) + (b + k))
    (f := fun k (e : Mem) => do
      let x ← (Mem.ofList image).read (NX * i + k)
      e.write ((NX + 2 * b) * (i + b) + b + k) x) hm (by
      intro k hk m Q' _ hq
      rw [read_ofList (by omega)]
      simp only [Out.bind_ok]
      rw [Nat.add_assoc]
      refine hq.write (addr_lt (by omega) (by omega)) ?_
      rw [extAt_addr (by omega)]
      unfold extImage
      by_cases h1 : ft = 1
      · rw [if_pos h1]
        rw [Nat.min_eq_left (by omega), Nat.min_eq_left (by omega)]
        congr 2 <;> simp
      · rw [if_neg h1, if_pos (by omega)]
        congr 2 <;> simp)
  unfold copyFrom
  rw [e1]
  simp only [Out.bind_ok]
  have hr : ∀ j < b, (NX + 2 * b) * (i + b + 1) - j - 1 = (NX + 2 * b) * (i + b) + (NX + 2 * b - 1 - j) := by
    intro j hj
    rw [Nat.mul_succ]
    omega
  obtain ⟨m2, e2, f2⟩ := forRange_filled (n := b)
    (T := fun j a => a = (NX + 2 * b) * (i + b) + j ∨ a = (NX + 2 * b) * (i + b) + (NX + 2 * b - 1 - j))
    (f := fun j (e : Mem) =>
        if ft = 1 then do
          let l ← (Mem.ofList image).read (NX * i)
          let e ← e.write ((NX + 2 * b) * (i + b) + j) l
          let r ← (Mem.ofList image).read (NX * (i + 1) - 1)
          e.write ((NX + 2 * b) * (i + b + 1) - j - 1) r
        else do
          let e ← e.write ((NX + 2 * b) * (i + b) + j) 0
          e.write ((NX + 2 * b) * (i + b + 1) - j - 1) 0) f1 (by
      intro j hj m Q' _ hq
      have hv1 : extAt image NX NY b ft ((NX + 2 * b) * (i + b) + j) =
          if ft = 1 then image.getD (NX * i) 0 else 0 := by
        rw [extAt_addr (by omega)]
        unfold extImage
        by_cases h1 : ft = 1
        · rw [if_pos h1, if_pos h1, Nat.min_eq_left (by omega), Nat.min_eq_left (by omega)]
          congr 1
          rw [show j - b = 0 by omega, show i + b - b = i by omega, Nat.add_zero]
        · rw [if_neg h1, if_neg h1, if_neg (by omega)]
      have hv2 : extAt image NX NY b ft ((NX + 2 * b) * (i + b) + (NX + 2 * b - 1 - j)) =
          if ft = 1 then image.getD (NX * (i + 1) - 1) 0 else 0 := by
        rw [extAt_addr (by omega)]
        unfold extImage
        by_cases h1 : ft = 1
        · rw [if_pos h1, if_pos h1, Nat.min_eq_left (by omega), Nat.min_eq_right (by omega)]
          congr 1
          rw [show i + b - b = i by omega, Nat.mul_succ]
          omega
        · rw [if_neg h1, if_neg h1, if_neg (by omega)]
      rw [hr j hj]
      by_cases h1 : ft = 1
      · rw [if_pos h1] at hv1 hv2 ⊢
        rw [read_ofList (by omega), read_ofList (by rw [Nat.mul_succ]; omega)]
        simp only [Out.bind_ok]
        obtain ⟨m1, e1, f1⟩ := hq.write (a := (NX + 2 * b) * (i + b) + j)
          (addr_lt (by omega) (by omega)) hv1.symm
        rw [e1]
        simp only [Out.bind_ok]
        obtain ⟨m2, e2, f2⟩ := f1.write (a := (NX + 2 * b) * (i + b) + (NX + 2 * b - 1 - j))
          (addr_lt (by omega) (by omega)) hv2.symm
        exact ⟨m2, e2, f2.mono fun a h => by rw [or_assoc]; exact h⟩
      · rw [if_neg h1] at hv1 hv2 ⊢
        obtain ⟨m1, e1, f1⟩ := hq.write (a := (NX + 2 * b) * (i + b) + j)
          (addr_lt (by omega) (by omega)) hv1.symm
        rw [e1]
        simp only [Out.bind_ok]
        obtain ⟨m2, e2, f2⟩ := f1.write (a := (NX + 2 * b) * (i + b) + (NX + 2 * b - 1 - j))
          (addr_lt (by omega) (by omega)) hv2.symm
        exact ⟨m2, e2, f2.mono fun a h => by rw [or_assoc]; exact h⟩)
  refine ⟨m2, e2, f2.mono ?_⟩
  rintro a (h | ⟨c, hc, rfl⟩)
  · exact .inl (.inl h)
  · by_cases h1 : c < b
    · exact .inr ⟨c, h1, .inl rfl⟩
    · by_cases h2 : c < b + NX
      · exact .inl (.inr ⟨c - b, by omega, by omega⟩)
      · exact .inr ⟨NX + 2 * b - 1 - c, by omega, .inr (by omega)⟩

theorem copyWithin_spec {size n s d : Nat} {f : Nat → ℚ} {Q : Nat → Prop} {m : Mem}
    (hm : Filled size (fun a v => v = f a) Q m) (hs : s + n ≤ size) (hd : d + n ≤ size)
    (hq : ∀ k < n, Q (s + k)) (hv : ∀ k < n, f (d + k) = f (s + k)) :
    ∃ m', copyWithin s d n m = .ok m' ∧
      Filled size (fun a v => v = f a) (fun a => Q a ∨ ∃ k < n, a = d + k) m' := by
  unfold copyWithin
  refine forRange_filled (T := fun k a => a = d + k) hm ?_
  intro k hk m Q' hqq hf
  rw [hf.read (by omega) (hqq _ (hq k hk))]
  simp only [Out.bind_ok]
  exact hf.write (by omega) (hv k hk).symm

theorem extend_spec (hx : 0 < NX) (hy : 0 < NY) (hl : image.length = NX * NY) :
    ∃ e, extend (Mem.ofList image) NX NY ksize ft = .ok e ∧
      Filled ((NX + 2 * kB ksize) * (NY + 2 * kB ksize))
        (fun a v => v = extAt image NX NY (kB ksize) ft a)
        (fun a => a < (NX + 2 * kB ksize) * (NY + 2 * kB ksize)) e := by
  unfold extend
  simp only
  generalize kB ksize = b
  obtain ⟨m1, e1, f1⟩ := forRange_filled (n := NY)
    (T := fun i a => ∃ c < NX + 2 * b, a = (NX + 2 * b) * (i + b) + c)
    (f := fun i (e : Mem) => do
      let e ← copyFrom (Mem.ofList image) (NX * i) ((NX + 2 * b) * (i + b) + b) NX e
      forRange b (fun j (e : Mem) =>
        if ft = 1 then do
          let l ← (Mem.ofList image).read (NX * i)
          let e ← e.write ((NX + 2 * b) * (i + b) + j) l
          let r ← (Mem.ofList image).read (NX * (i + 1) - 1)
          e.write ((NX + 2 * b) * (i + b + 1) - j - 1) r
        else do
          let e ← e.write ((NX + 2 * b) * (i + b) + j) 0
          e.write ((NX + 2 * b) * (i + b + 1) - j - 1) 0) e)
    (m := Mem.alloc ((NX + 2 * b) * (NY + 2 * b))) (S := fun _ => False)
    (R := fun a v => v = extAt image NX NY b ft a) (size := (NX + 2 * b) * (NY + 2 * b))
    ⟨rfl, fun a h => h.elim⟩ (by
      intro i hi m Q _ hm
      exact row_spec hx hl hi hm)
  rw [e1]
  simp only [Out.bind_ok]
  have hrow : ∀ r, b ≤ r → r < b + NY → ∀ c < NX + 2 * b, (fun a => False ∨ ∃ k < NY, ∃ c < NX + 2 * b,
      a = (NX + 2 * b) * (k + b) + c) ((NX + 2 * b) * r + c) := by
    intro r h1 h2 c hc
    exact .inr ⟨r - b, by omega, c, hc, by rw [show r - b + b = r by omega]⟩
  have hblock : ∀ r < NY + 2 * b, (NX + 2 * b) * r + (NX + 2 * b) ≤ (NX + 2 * b) * (NY + 2 * b) := by
    intro r hr
    rw [← Nat.mul_succ]
    exact Nat.mul_le_mul_left _ hr
  obtain ⟨m2, e2, f2⟩ := forRange_filled (n := b)
    (T := fun j a => (∃ c < NX + 2 * b, a = (NX + 2 * b) * j + c) ∨
      ∃ c < NX + 2 * b, a = (NX + 2 * b) * (NY + b + j) + c)
    (f := fun j (e : Mem) =>
      if ft = 1 then do
        let e ← copyWithin ((NX + 2 * b) * b) ((NX + 2 * b) * j) (NX + 2 * b) e
        copyWithin ((NX + 2 * b) * (NY + b - 1)) ((NX + 2 * b) * (NY + b + j)) (NX + 2 * b) e
      else
        forRange (NX + 2 * b) (fun i (e : Mem) => do
          let e ← e.write ((NX + 2 * b) * j + i) 0
          e.write ((NX + 2 * b) * (NY + b + j) + i) 0) e) f1 (by
      intro j hj m Q hQ hm
      by_cases h1 : ft = 1
      · rw [if_pos h1]
        obtain ⟨m1, e1, f1⟩ := copyWithin_spec (s := (NX + 2 * b) * b) (d := (NX + 2 * b) * j)
          (n := NX + 2 * b) hm (hblock _ (by omega)) (hblock _ (by omega))
          (fun k hk => hQ _ (hrow b (by omega) (by omega) k hk)) (by
            intro k hk
            rw [extAt_addr hk, extAt_addr hk]
            unfold extImage
            rw [if_pos h1, if_pos h1, show j - b = b - b by omega])
        rw [e1]
        simp only [Out.bind_ok]
        obtain ⟨m2, e2, f2⟩ := copyWithin_spec (s := (NX + 2 * b) * (NY + b - 1))
          (d := (NX + 2 * b) * (NY + b + j))
          (n := NX + 2 * b) f1 (hblock _ (by omega)) (hblock _ (by omega))
          (fun k hk => .inl (hQ _ (hrow (NY + b - 1) (by omega) (by omega) k hk))) (by
            intro k hk
            rw [extAt_addr hk, extAt_addr hk]
            unfold extImage
            rw [if_pos h1, if_pos h1, show min (NY + b + j - b) (NY - 1) = min (NY + b - 1 - b) (NY - 1) by omega])
        exact ⟨m2, e2, f2.mono fun a h => by rw [or_assoc]; exact h⟩
      · rw [if_neg h1]
        obtain ⟨m1, e1, f1⟩ := forRange_filled (n := NX + 2 * b)
          (T := fun i a => a = (NX + 2 * b) * j + i ∨ a = (NX + 2 * b) * (NY + b + j) + i)
          (f := fun i (e : Mem) => do
          let e ← e.write ((NX + 2 * b) * j + i) 0
          e.write ((NX + 2 * b) * (NY + b + j) + i) 0) hm (by
            intro i hi m Q' _ hq
            obtain ⟨m1, e1, f1⟩ := hq.write (a := (NX + 2 * b) * j + i) (v := 0)
              (addr_lt hi (by omega)) (by
                rw [extAt_addr hi]; unfold extImage; rw [if_neg h1, if_neg (by omega)])
            rw [e1]
            simp only [Out.bind_ok]
            obtain ⟨m2, e2, f2⟩ := f1.write (a := (NX + 2 * b) * (NY + b + j) + i) (v := 0)
              (addr_lt hi (by omega)) (by
                rw [extAt_addr hi]; unfold extImage; rw [if_neg h1, if_neg (by omega)])
            exact ⟨m2, e2, f2.mono fun a h => by rw [or_assoc]; exact h⟩)
        refine ⟨m1, e1, f1.mono ?_⟩
        rintro a (h | ⟨c, hc, h⟩ | ⟨c, hc, h⟩)
        · exact .inl h
        · exact .inr ⟨c, hc, .inl h⟩
        · exact .inr ⟨c, hc, .inr h⟩)
  refine ⟨m2, e2, f2.mono ?_⟩
  intro a ha
  have hW : 0 < NX + 2 * b := by omega
  have hdm := Nat.div_add_mod a (NX + 2 * b)
  have hc := Nat.mod_lt a hW
  have hr : a / (NX + 2 * b) < NY + 2 * b := Nat.div_lt_of_lt_mul ha
  by_cases h1 : a / (NX + 2 * b) < b
  · exact .inr ⟨_, h1, .inl ⟨_, hc, hdm.symm⟩⟩
  · by_cases h2 : a / (NX + 2 * b) < b + NY
    · refine .inl ?_
      have := hrow _ (not_lt.mp h1) h2 _ hc
      rw [hdm] at this
      exact this
    · refine .inr ⟨a / (NX + 2 * b) - (NY + b), by omega, .inr ⟨_, hc, ?_⟩⟩
      rw [show NY + b + (a / (NX + 2 * b) - (NY + b)) = a / (NX + 2 * b) by omega]
      exact hdm.symm

end

end Verif.Median
