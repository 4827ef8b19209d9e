import Verif.Model.WavefieldArith
import Verif.Props.WavefieldFiles
import Verif.Lemmas.SolverShots

/-!
# C140: arithmetic of wavefields; C141: the check for infinite wavefields
-/
set_option linter.dupNamespace false
set_option linter.unusedSectionVars false

namespace Verif.Wave
open Verif Verif.Solver Verif.Views Verif.MatSetup

variable {ι κ μ : Type}

/-- The value of a vector of an object. -/
def Obj.get (o : Obj ι) : View → ι → ℝ
  | .fld f => o.fld f
  | .rel f l => (o.rel f).getD l 0
  | .part f w => o.part f w
  | _ => 0

/-- An object that was initialised for `L` relaxation mechanisms. -/
def Shaped (k : Kind) (L : ℕ) (o : Obj ι) : Prop :=
  (relaxing k ≠ [] → o.L = L) ∧ ∀ f ∈ relaxing k, (o.rel f).length = L

theorem shaped_init (k : Kind) (L : ℕ) : Shaped k L (init k L : Obj ι) :=
  ⟨fun h => by simp [init, h], fun f hf => by simp [init, hf]⟩

private theorem getD_lt {α : Type} (l : List α) (d : α) {n : ℕ} (h : n < l.length) : l.getD n d = l[n] := by
  rw [List.getD_eq_getElem?_getD, List.getElem?_eq_getElem h, Option.getD_some]

private theorem relLoop_spec {k : Kind} {L n : ℕ} (op : (κ → ℝ) → (ι → ℝ) → κ → ℝ) {dst : Fld → List (κ → ℝ)}
    {src : Fld → List (ι → ℝ)} (hn : relaxing k ≠ [] → n = L) (hd : ∀ f ∈ relaxing k, (dst f).length = L)
    (hs : ∀ f ∈ relaxing k, (src f).length = L) :
    relLoop k n op dst src = .ok fun f => if f ∈ relaxing k then List.zipWith op (dst f) (src f) else dst f := by
  unfold relLoop
  rw [if_pos fun f hf => ⟨by rw [hn (List.ne_nil_of_mem hf), hd f hf], by rw [hn (List.ne_nil_of_mem hf), hs f hf]⟩]
  congr 1
  funext f
  split
  · rename_i hf
    have e := hn (List.ne_nil_of_mem hf)
    rw [List.take_of_length_le (by rw [hd f hf, e]), List.take_of_length_le (by rw [hs f hf, e]),
      List.drop_of_length_le (by rw [hd f hf, e]), List.append_nil]
  · rfl

private theorem allocated_cases {k : Kind} {L : ℕ} {x : View} (hx : x ∈ allocated k L) :
    (∃ f ∈ motion k ++ forces k, x = .fld f) ∨ (∃ f ∈ relaxing k, ∃ l < L, x = .rel f l) ∨
      ∃ f ∈ decomposed k, ∃ w, x = .part f w := by
  simp only [allocated, List.mem_append, List.mem_map, List.mem_flatMap, List.mem_range, List.mem_cons,
    List.not_mem_nil, or_false] at hx ⊢
  rcases hx with (⟨f, hf, rfl⟩ | ⟨l, hl, f, hf, rfl⟩) | ⟨f, hf, rfl | rfl | rfl | rfl⟩
  · exact .inl ⟨f, hf, rfl⟩
  · exact .inr (.inl ⟨f, hf, l, hl, rfl⟩)
  all_goals exact .inr (.inr ⟨f, hf, _, rfl⟩)

private theorem forAll_spec {k : Kind} {L : ℕ} (op : (κ → ℝ) → (ι → ℝ) → κ → ℝ) {a : Obj κ} {b : Obj ι}
    (ha : Shaped k L a) (hb : Shaped k L b) :
    ∃ c, forAll k op a b = .ok c ∧ Shaped k L c ∧ ∀ x ∈ allocated k L, c.get x = op (a.get x) (b.get x) := by
  unfold forAll
  rw [relLoop_spec op ha.1 ha.2 hb.2]
  refine ⟨_, rfl, ⟨ha.1, fun f hf => ?_⟩, fun x hx => ?_⟩
  · simp [hf, ha.2 f hf, hb.2 f hf]
  · rcases allocated_cases hx with ⟨f, hf, rfl⟩ | ⟨f, hf, l, hl, rfl⟩ | ⟨f, hf, w, rfl⟩
    · simp only [Obj.get, if_pos hf]
    · simp only [Obj.get, if_pos hf]
      have h1 : l < (a.rel f).length := by rw [ha.2 f hf]; exact hl
      have h2 : l < (b.rel f).length := by rw [hb.2 f hf]; exact hl
      rw [getD_lt _ _ (by rw [List.length_zipWith]; omega), List.getElem_zipWith,
        getD_lt _ _ h1, getD_lt _ _ h2]
    · simp only [Obj.get, if_pos hf]

/-! ### What a simulation sees of an object -/

section sim
variable [Fintype ι] [DecidableEq ι]

private theorem solver_is (k : Kind) (D : Deriv ι) (m : Solver.Mod ι) (e : EMod ι) (c : BC ι) :
    IsSolver D c (k.solver D m e c) := by
  cases k <;> constructor

private theorem memory_psi (k : Kind) (D : Deriv ι) (m : Solver.Mod ι) (e : EMod ι) (c : BC ι) :
    ∀ v ∈ (k.solver D m e c).memory, ∃ f a, v = .psi f a := by
  cases k <;> simp [Kind.solver, acoustic2DSolver, acoustic3DSolver, elastic2DSolver, elastic3DSolver, sh2DSolver,
        viscosh2DSolver, viscoelastic2DSolver, viscoelastic3DSolver, emem2DSolver, tmem2DSolver,
        viscoemem2DSolver, viscotmem2DSolver, emem3DSolver, viscoemem3DSolver, psi2Dacoustic, psi2D, psi3Dacoustic, psi3D,
        psi2DEM, psi3DEM]

/-- The vectors of the time stepping are vectors of the object. -/
private theorem fields_allocated (k : Kind) (D : Deriv ι) (m : Solver.Mod ι) (e : EMod ι) (c : BC ι) {L : ℕ}
    (hm : m.L = L) (he : e.L = L) {v : Var} (hv : v ∈ (k.solver D m e c).fields) (o : Obj ι) (s : State ι) :
    ∃ x ∈ allocated k L, shown x = some v ∧ o.put s v = o.get x := by
  obtain ⟨a, b, ha, hb, -, h⟩ := C123_complete k D m e c L hm he
  obtain ⟨x, hx, hs⟩ := (h v).mp hv
  have e1 : a = (motion k).map .fld := by simpa [write] using ha.symm
  have e2 : b = (forces k).map .fld ++ (List.range L).flatMap fun l => (relaxing k).map fun f => .rel f l := by
    simpa [write] using hb.symm
  refine ⟨x, ?_, hs, ?_⟩
  · rw [e1, e2] at hx
    simp only [allocated, List.map_append, List.mem_append] at hx ⊢
    tauto
  · cases x <;> simp only [shown, reduceCtorEq, Option.some.injEq] at hs <;> subst hs <;> rfl

private theorem agree_of {k : Kind} {D : Deriv ι} {m : Solver.Mod ι} {e : EMod ι} {c : BC ι} {L : ℕ}
    (hm : m.L = L) (he : e.L = L) {o : Obj ι} {s t : State ι}
    (hf : ∀ x ∈ allocated k L, ∀ v, shown x = some v → o.get x = t v)
    (hp : ∀ f a, s (.psi f a) = t (.psi f a)) : Agree (k.solver D m e c).live (o.put s) t := by
  rintro v (hv | hv)
  · obtain ⟨x, hx, h1, h2⟩ := fields_allocated k D m e c hm he hv o s
    rw [h2, hf x hx v h1]
  · obtain ⟨f, a, rfl⟩ := memory_psi k D m e c v hv
    exact hp f a

private theorem get_shown {x : View} {v : Var} (h : shown x = some v) (o : Obj ι) (s : State ι) :
    o.put s v = o.get x := by
  cases x <;> simp only [shown, reduceCtorEq, Option.some.injEq] at h <;> subst h <;> rfl

end sim

/-! ### C140 -/

/-- C140, copies: after `a = b` every vector of `a` is that of `b`, and a simulation that goes on with the copy records the
same seismograms as one that goes on with the original. `s` holds the memory of the boundary conditions, `L` is the number of
relaxation mechanisms of the model. -/
theorem C140_copy [Fintype ι] [DecidableEq ι] (k : Kind) {L : ℕ} {a b : Obj ι} (ha : Shaped k L a) (hb : Shaped k L b) :
    Shaped k L (assign k a b) ∧ (∀ x ∈ allocated k L, (assign k a b).get x = b.get x) ∧
    ∀ (D : Deriv ι) (m : Solver.Mod ι) (e : EMod ι) (c : BC ι) (_ : m.L = L) (_ : e.L = L) (s : State ι)
      (srcs : List (Source ι)) (r : Receiver ι) (t : ℕ),
      sample (k.solver D m e c) srcs ((assign k a b).put s) r t = sample (k.solver D m e c) srcs (b.put s) r t := by
  have h1 : ∀ x ∈ allocated k L, (assign k a b).get x = b.get x := by
    intro x hx
    rcases allocated_cases hx with ⟨f, hf, rfl⟩ | ⟨f, hf, l, hl, rfl⟩ | ⟨f, hf, w, rfl⟩ <;>
      simp only [Obj.get, assign, if_pos hf]
  refine ⟨⟨ha.1, fun f hf => ?_⟩, h1, fun D m e c hm he s srcs r t => ?_⟩
  · simp only [assign, if_pos hf, hb.2 f hf]
  · refine (solver_is k D m e c).sample_agree srcs
      (agree_of (o := assign k a b) (s := s) (t := b.put s) hm he (fun x hx v hv => ?_) fun f a => rfl) r t
    rw [h1 x hx, get_shown hv]

/-- C140, sums: after `a += b` every vector of `a` is the sum, and a simulation that goes on with the sum and with the sources
of both records the sum of the seismograms. -/
theorem C140_sum [Fintype ι] [DecidableEq ι] (k : Kind) {L : ℕ} {a b : Obj ι} (ha : Shaped k L a) (hb : Shaped k L b) :
    ∃ o, plusAssign k a b = .ok o ∧ Shaped k L o ∧ (∀ x ∈ allocated k L, o.get x = a.get x + b.get x) ∧
    ∀ (D : Deriv ι) (m : Solver.Mod ι) (e : EMod ι) (c : BC ι) (_ : m.L = L) (_ : e.L = L) (s s' : State ι)
      (A B : List (Source ι)) (r : Receiver ι) (t : ℕ),
      sample (k.solver D m e c) (A ++ B) (o.put (s + s')) r t =
        sample (k.solver D m e c) A (a.put s) r t + sample (k.solver D m e c) B (b.put s') r t := by
  obtain ⟨o, h1, h2, h3⟩ := forAll_spec (fun (x y : ι → ℝ) i => x i + y i) ha hb
  refine ⟨o, h1, h2, h3, fun D m e c hm he s s' A B r t => ?_⟩
  have hw : ∀ A : List (Source ι), weighted 1 A = A := fun A => by simp [weighted]
  have key := sample_lin (k.solver D m e c) 1 1 A B (a.put s) (b.put s') r t
  rw [hw, hw, one_mul, one_mul] at key
  rw [← key]
  refine (solver_is k D m e c).sample_agree _ (agree_of hm he (fun x hx v hv => ?_) fun f a => ?_) r t
  · rw [h3 x hx, Pi.add_apply, Pi.smul_apply, Pi.smul_apply, get_shown hv, get_shown hv]
    funext i
    simp
  · simp [Obj.put]

/-- C140, differences: after `a -= b` every vector of `a` is the difference, and adding `b` again restores `a`. -/
theorem C140_difference (k : Kind) {L : ℕ} {a b : Obj ι} (ha : Shaped k L a) (hb : Shaped k L b) :
    ∃ o o', minusAssign k a b = .ok o ∧ plusAssign k o b = .ok o' ∧ Shaped k L o ∧
      ∀ x ∈ allocated k L, o.get x = a.get x - b.get x ∧ o'.get x = a.get x := by
  obtain ⟨o, h1, h2, h3⟩ := forAll_spec (fun (x y : ι → ℝ) i => x i - y i) ha hb
  obtain ⟨o', h4, -, h5⟩ := forAll_spec (fun (x y : ι → ℝ) i => x i + y i) h2 hb
  refine ⟨o, o', h1, h4, h2, fun x hx => ⟨h3 x hx, ?_⟩⟩
  rw [h5 x hx, h3 x hx]
  funext i
  ring

/-- C140, factors: after `a *= q` through the base class every vector of `a` is multiplied, and a simulation that goes on with
it and with multiplied sources records the multiplied seismograms. -/
theorem C140_factor [Fintype ι] [DecidableEq ι] (k : Kind) {L : ℕ} {a : Obj ι} (ha : Shaped k L a) (q : ℝ) :
    ∃ o, timesScalar k q a = .ok o ∧ Shaped k L o ∧ (∀ x ∈ allocated k L, o.get x = q • a.get x) ∧
    ∀ (D : Deriv ι) (m : Solver.Mod ι) (e : EMod ι) (c : BC ι) (_ : m.L = L) (_ : e.L = L) (s : State ι)
      (A : List (Source ι)) (r : Receiver ι) (t : ℕ),
      sample (k.solver D m e c) (A.map fun z => { z with signal := fun t => q * z.signal t }) (o.put (q • s)) r t =
        q * sample (k.solver D m e c) A (a.put s) r t := by
  obtain ⟨o, h1, h2, h3⟩ := forAll_spec (fun (x _ : ι → ℝ) i => x i * q) ha ha
  have h4 : ∀ x ∈ allocated k L, o.get x = q • a.get x := fun x hx => by
    rw [h3 x hx]
    funext i
    simp [mul_comm]
  refine ⟨o, h1, h2, h4, fun D m e c hm he s A r t => ?_⟩
  have key := sample_lin (k.solver D m e c) q 0 A [] (a.put s) 0 r t
  simp only [zero_mul, add_zero, weighted, List.map_nil, List.append_nil, zero_smul] at key
  rw [← key]
  refine (solver_is k D m e c).sample_agree _ (agree_of hm he (fun x hx v hv => ?_) fun f a => ?_) r t
  · rw [h4 x hx, Pi.smul_apply, get_shown hv]
  · simp [Obj.put]

/-- C140, compensation: `a *= v` with a vector multiplies every vector of `a` point by point, so the time stepping goes on
with exactly the compensated wavefields of C125. -/
theorem C140_compensation [Fintype ι] (k : Kind) {L : ℕ} {a : Obj ι} (ha : Shaped k L a) (v : ι → ℝ) :
    ∃ o, timesVector k v a = .ok o ∧ Shaped k L o ∧ (∀ x ∈ allocated k L, ∀ i, o.get x i = v i * a.get x i) ∧
    ∀ (D : Deriv ι) (m : Solver.Mod ι) (e : EMod ι) (c : BC ι) (_ : m.L = L) (_ : e.L = L) (s : State ι),
      ∀ w ∈ (k.solver D m e c).fields, o.put s w = timesAssign (k.solver D m e c).fields v (a.put s) w := by
  obtain ⟨o, h1, h2, h3⟩ := forAll_spec (fun (x _ : ι → ℝ) i => x i * v i) ha ha
  refine ⟨o, h1, h2, fun x hx i => by rw [h3 x hx, mul_comm], fun D m e c hm he s w hw => ?_⟩
  obtain ⟨a', b, ha', hb, -, h⟩ := C123_complete k D m e c L hm he
  obtain ⟨x, hx, hs⟩ := (h w).mp hw
  have hxa : x ∈ allocated k L := by
    rw [show a' = (motion k).map .fld by simpa [write] using ha'.symm,
      show b = (forces k).map .fld ++ (List.range L).flatMap fun l => (relaxing k).map fun f => .rel f l by
        simpa [write] using hb.symm] at hx
    simp only [allocated, List.map_append, List.mem_append] at hx ⊢
    tauto
  have hg : ∀ (o : Obj ι), o.put s w = o.get x := fun o => by
    cases x <;> simp only [shown, reduceCtorEq, Option.some.injEq] at hs <;> subst hs <;> rfl
  funext i
  simp only [timesAssign, if_pos hw, hg, h3 x hxa]

/-- C140, transformation to another grid: every vector is transformed; transforming twice is transforming with the product of
the matrices. -/
theorem C140_transform [Fintype ι] [Fintype κ] (k : Kind) {L : ℕ} {a : Obj μ} {b : Obj κ} {d : Obj ι} (ha : Shaped k L a)
    (hb : Shaped k L b) (hd : Shaped k L d) (M : Matrix κ ι ℝ) (N : Matrix μ κ ℝ) :
    ∃ o o' p, applyTransform k M b d = .ok o ∧ applyTransform k N a o = .ok o' ∧ applyTransform k (N * M) a d = .ok p ∧
      (∀ x ∈ allocated k L, o.get x = M.mulVec (d.get x)) ∧ ∀ x ∈ allocated k L, o'.get x = p.get x := by
  obtain ⟨o, h1, h2, h3⟩ := forAll_spec (fun (_ : κ → ℝ) (y : ι → ℝ) => M.mulVec y) hb hd
  obtain ⟨o', h4, -, h5⟩ := forAll_spec (fun (_ : μ → ℝ) (y : κ → ℝ) => N.mulVec y) ha h2
  obtain ⟨p, h6, -, h7⟩ := forAll_spec (fun (_ : μ → ℝ) (y : ι → ℝ) => (N * M).mulVec y) ha hd
  refine ⟨o, o', p, h1, h4, h6, h3, fun x hx => ?_⟩
  rw [h5 x hx, h7 x hx, h3 x hx, Matrix.mulVec_mulVec]

private theorem relLoop_zero (k : Kind) (op : (κ → ℝ) → (ι → ℝ) → κ → ℝ) (dst : Fld → List (κ → ℝ))
    (src : Fld → List (ι → ℝ)) : relLoop k 0 op dst src = .ok dst := by
  unfold relLoop
  rw [if_pos fun f _ => ⟨Nat.zero_le _, Nat.zero_le _⟩]
  congr 1
  funext f
  simp

/-- C140, the time derivative of the time loop: whatever the temporary object was used for before, its fields become the
difference quotient in time. `temp` is the object created without `init`, or what is left of it from earlier time steps: it
has no relaxation mechanisms. `partial`: the relaxation functions are not differentiated, see
`C140_relaxation_derivative_violated`. -/
theorem C140_time_derivative_partial (k : Kind) (DT : ℝ) (temp before after : Obj ι) (ht : temp.L = 0) :
    ∃ o, derivativeStep k DT temp before after = .ok o ∧ o.L = 0 ∧
      ∀ f ∈ motion k ++ forces k, ∀ i, o.fld f i = (after.fld f i - before.fld f i) / DT := by
  have e : (assign k temp before).L = 0 := ht
  unfold derivativeStep minusAssign timesScalar forAll
  simp only [e, relLoop_zero, Out.bind_ok]
  refine ⟨_, rfl, rfl, fun f hf i => ?_⟩
  simp only [if_pos hf, assign]
  ring

/-- C140 is violated for the time derivative of attenuating media: the temporary object keeps the old relaxation functions,
whatever the new ones are. -/
theorem C140_relaxation_derivative_violated (k : Kind) (f : Fld) (hf : f ∈ relaxing k) (L : ℕ) (hL : 0 < L) :
    ∃ before after : Obj Unit, Shaped k L before ∧ Shaped k L after ∧
      ∃ o, derivativeStep k 1 Obj.default before after = .ok o ∧
        o.get (.rel f 0) () ≠ (after.get (.rel f 0) () - before.get (.rel f 0) ()) / 1 := by
  let b : Obj Unit := { init k L with rel := fun g => if g ∈ relaxing k then List.replicate L 1 else [] }
  have e : (assign k Obj.default b).L = 0 := rfl
  refine ⟨b, init k L, ⟨(shaped_init k L : Shaped k L (init k L : Obj Unit)).1, fun g hg => by simp [b, hg]⟩,
    shaped_init k L, ?_⟩
  unfold derivativeStep minusAssign timesScalar forAll
  simp only [e, relLoop_zero, Out.bind_ok]
  refine ⟨_, rfl, ?_⟩
  simp only [Obj.get, assign, if_pos hf, b, init]
  rw [getD_lt _ _ (by simpa using hL), getD_lt _ _ (by simpa using hL)]
  norm_num

/-- C140, `operator*` of the classes without attenuation: the product has the multiplied vectors. `partial`: with relaxation
mechanisms the product is undefined or incomplete, see `C140_product_violated` and `C140_product3D_violated`. -/
theorem C140_product_partial (k : Kind) (h : relaxing k = []) (q : ℝ) (L : ℕ) (a : Obj ι) :
    ∃ o, product k q a = .ok o ∧ ∀ x ∈ allocated k L, o.get x = q • a.get x := by
  have hk : k ≠ .viscoelastic3D := by rintro rfl; cases h
  have hr : ∀ (n : ℕ) (op : (ι → ℝ) → (ι → ℝ) → ι → ℝ) d s, relLoop k n op d s = .ok d := by
    intro n op d s
    simp [relLoop, h]
  unfold product
  rw [if_neg hk, hr, Out.bind_ok]
  refine ⟨_, rfl, fun x hx => ?_⟩
  rcases allocated_cases hx with ⟨f, hf, rfl⟩ | ⟨f, hf, l, hl, rfl⟩ | ⟨f, hf, w, rfl⟩
  · funext i
    simp [Obj.get, List.mem_append.mp hf, mul_comm]
  · rw [h] at hf
    cases hf
  · funext i
    simp [Obj.get, hf, mul_comm]

/-- C140 is violated for `operator*` of the attenuating classes: it writes outside of an empty vector for every object with
relaxation mechanisms. -/
theorem C140_product_violated (k : Kind) (h : relaxing k ≠ []) (hk : k ≠ .viscoelastic3D) (q : ℝ) {L : ℕ} (hL : 0 < L)
    {a : Obj ι} (ha : Shaped k L a) : product k q a = .ub := by
  unfold product
  rw [if_neg hk]
  unfold relLoop
  rw [if_neg]
  · rfl
  · intro hall
    obtain ⟨f, hf⟩ := List.exists_mem_of_ne_nil _ h
    have := (hall f hf).1
    rw [ha.1 h] at this
    simp [Obj.default] at this
    omega

/-- C140 is violated for `operator*` of the 3D viscoelastic class: the product has lost the relaxation functions. -/
theorem C140_product3D_violated {L : ℕ} (hL : 0 < L) : ∃ a o : Obj Unit, Shaped .viscoelastic3D L a ∧
    product .viscoelastic3D 1 a = .ok o ∧ ∃ x ∈ allocated .viscoelastic3D L, o.get x ≠ a.get x := by
  let a : Obj Unit := { init .viscoelastic3D L with rel := fun _ => List.replicate L 1 }
  refine ⟨a, _, ⟨fun _ => rfl, fun f _ => by simp [a]⟩, rfl, .rel .Sxx 0, ?_, ?_⟩
  · simp only [allocated, List.mem_append, List.mem_flatMap, List.mem_range]
    exact .inl (.inr ⟨0, hL, by decide⟩)
  · intro e
    have := congrFun e ()
    simp only [Obj.get, a] at this
    rw [getD_lt (List.replicate L 1) _ (by simpa using hL)] at this
    simp at this

/-- C140 is violated for `operator*=` of the concrete classes: the object is not multiplied. In every class. -/
theorem C140_class_factor_violated (k : Kind) : ∃ a : Obj Unit, Shaped k 0 a ∧
    ∃ p o, timesClass k 2 a = .ok (p, o) ∧ ∃ x ∈ allocated k 0, o.get x ≠ (2 : ℝ) • a.get x := by
  obtain ⟨f, hf⟩ : ∃ f, f ∈ motion k := by
    cases k <;> exact ⟨_, List.mem_cons_self⟩
  let a : Obj Unit := { init k 0 with fld := fun _ => 1 }
  have hs : Shaped k 0 a := shaped_init k 0
  have hp : ∃ p, product k 2 a = .ok p := by
    have hL : a.L = 0 := by simp only [a, init]; split <;> rfl
    unfold product
    rw [hL, relLoop_zero]
    split <;> exact ⟨_, rfl⟩
  obtain ⟨p, hp⟩ := hp
  refine ⟨a, hs, p, a, ?_, .fld f, ?_, ?_⟩
  · simp [timesClass, hp]
  · simp only [allocated, List.mem_append, List.mem_map]
    exact .inl (.inl ⟨f, .inl hf, rfl⟩)
  · intro e
    have := congrFun e ()
    simp [Obj.get, a] at this

/-- C140 is violated for objects with different numbers of relaxation mechanisms: a copy of an object with fewer mechanisms
cannot be multiplied (the loop runs out of the copied vectors), and multiplying a copy of an object with more mechanisms
leaves the others as they are. -/
theorem C140_mechanisms_violated (k : Kind) (f : Fld) (hf : f ∈ relaxing k) :
    (∀ (q : ℝ) (L L' : ℕ) (a b : Obj ι), L' < L → Shaped k L a → Shaped k L' b → timesScalar k q (assign k a b) = .ub) ∧
    ∃ a b o : Obj Unit, Shaped k 1 a ∧ Shaped k 2 b ∧ timesScalar k 0 (assign k a b) = .ok o ∧
      o.get (.rel f 1) ≠ 0 := by
  have hne := List.ne_nil_of_mem hf
  constructor
  · intro q L L' a b hlt ha hb
    unfold timesScalar forAll relLoop
    rw [if_neg]
    · rfl
    · intro hall
      have := (hall f hf).1
      simp only [assign, if_pos hf, hb.2 f hf, ha.1 hne] at this
      omega
  · let b : Obj Unit := { init k 2 with rel := fun _ => [1, 1] }
    have hL : (assign k (init k 1) b).L = 1 := by simp [assign, init, hne]
    refine ⟨init k 1, b, ?_⟩
    unfold timesScalar forAll relLoop
    rw [hL, if_pos fun g hg => by simp [assign, hg, b]]
    refine ⟨_, shaped_init k 1, ⟨fun h => by simp [b, init, h], fun g hg => by simp [b]⟩, rfl, ?_⟩
    intro e
    have := congrFun e ()
    simp [Obj.get, assign, hf, b] at this

/-- C140, `resetWavefields`: every vector of the time stepping is zero afterwards. `partial`: the directional parts keep
their values, see `C140_reset_violated`. -/
theorem C140_reset_partial (k : Kind) {L : ℕ} {a : Obj ι} (ha : Shaped k L a) :
    ∃ o, reset k a = .ok o ∧ Shaped k L o ∧ ∀ x ∈ allocated k L, (∀ f w, x ≠ .part f w) → o.get x = 0 := by
  unfold reset
  rw [relLoop_spec _ ha.1 ha.2 ha.2]
  refine ⟨_, rfl, ⟨ha.1, fun f hf => by simp [hf, ha.2 f hf]⟩, fun x hx hp => ?_⟩
  rcases allocated_cases hx with ⟨f, hf, rfl⟩ | ⟨f, hf, l, hl, rfl⟩ | ⟨f, hf, w, rfl⟩
  · simp only [Obj.get, if_pos hf]
  · simp only [Obj.get, if_pos hf]
    rw [getD_lt _ _ (by simp [ha.2 f hf, hl]), List.getElem_zipWith]
    rfl
  · exact absurd rfl (hp f w)

/-- C140 is violated for `resetWavefields` of the 2D acoustic and TMEM classes: the directional parts are not reset. -/
theorem C140_reset_violated (k : Kind) (h : decomposed k ≠ []) : ∃ a o : Obj Unit, Shaped k 0 a ∧
    reset k a = .ok o ∧ ∃ x ∈ allocated k 0, o.get x ≠ 0 := by
  obtain ⟨f, hf⟩ := List.exists_mem_of_ne_nil _ h
  let a : Obj Unit := { init k 0 with part := fun _ _ => 1 }
  have hL : a.L = 0 := by simp only [a, init]; split <;> rfl
  refine ⟨a, ?_⟩
  unfold reset
  rw [hL, relLoop_zero]
  refine ⟨_, shaped_init k 0, rfl, .part f .up, ?_, ?_⟩
  · simp only [allocated, List.mem_append, List.mem_flatMap]
    exact .inr ⟨f, hf, by simp⟩
  · intro e
    have := congrFun e ()
    simp [Obj.get, a] at this

/-- Example: objects with two mechanisms whose vectors are all 1. -/
example : ∃ a : Obj (Fin 3), Shaped .viscoelastic2D 2 a ∧ ∀ x ∈ allocated .viscoelastic2D 2, a.get x = 1 := by
  refine ⟨⟨2, fun _ => 1, fun _ _ => 1, fun _ => [1, 1]⟩, ⟨fun _ => rfl, fun _ _ => rfl⟩, fun x hx => ?_⟩
  rcases allocated_cases hx with ⟨f, hf, rfl⟩ | ⟨f, hf, l, hl, rfl⟩ | ⟨f, hf, w, rfl⟩
  · rfl
  · have : l = 0 ∨ l = 1 := by omega
    rcases this with rfl | rfl <;> rfl
  · rfl

/-! ### C141 -/

/-- The classes for elastic, acoustic and SH waves, with and without attenuation. -/
def SeismicKind (k : Kind) : Prop := k ∈ [Kind.acoustic2D, .elastic2D, .viscoelastic2D, .sh2D, .viscosh2D, .acoustic3D, .elastic3D,
  .viscoelastic3D]

private theorem isSeismic_iff (k : Kind) : isSeismic k = true ↔ SeismicKind k := by
  unfold SeismicKind
  cases k <;> decide

/-- C141, no false alarm: a shot whose wavefields are finite at all points of all processes passes the check. -/
theorem C141_sound (k : Kind) (own : List (List ι)) (fin : Fld → ι → Bool)
    (h : ∀ o ∈ own, ∀ i ∈ o, ∀ f ∈ motion k ++ forces k, fin f i = true) : checkShot k own fin = true := by
  simp only [checkShot, List.all_eq_true]
  intro o ho
  have hs : ∀ f, f ∈ motion k ++ forces k → (o[o.length / 2]?).all (fin f) = true := fun f hf => by
    cases hg : o[o.length / 2]? with
    | none => rfl
    | some i => exact h o ho i (List.mem_of_getElem? hg) f hf
  split
  · simp only [isFiniteSeismic, List.all_eq_true]
    intro f _
    split
    · exact hs f ‹_›
    · rfl
  · simp only [isFiniteEM, List.all_eq_true]
    intro f _
    split
    · rename_i hf
      exact List.all_eq_true.mpr fun i hi => h o ho i hi f hf
    · rfl

/-- C141, detection: a value of `EX` or `EZ` that is not finite fails the check in the electromagnetic classes; in the seismic
classes a value of `VX` or `VZ` in the middle of the points of a process. `partial`: other places and other fields are not
looked at, see below. -/
theorem C141_detected_partial (k : Kind) (own : List (List ι)) (fin : Fld → ι → Bool) {o : List ι} (ho : o ∈ own) {f : Fld}
    (hf : f ∈ motion k ++ forces k) {i : ι} (hi : fin f i = false)
    (hw : (SeismicKind k ∧ f ∈ [Fld.vX, Fld.vZ] ∧ o[o.length / 2]? = some i) ∨
      (¬ SeismicKind k ∧ f ∈ [Fld.eX, Fld.eZ] ∧ i ∈ o)) : checkShot k own fin = false := by
  rw [Bool.eq_false_iff]
  intro hc
  simp only [checkShot, List.all_eq_true] at hc
  have := hc o ho
  rcases hw with ⟨hk, hm, hg⟩ | ⟨hk, hm, hg⟩
  · rw [if_pos ((isSeismic_iff k).mpr hk)] at this
    have := List.all_eq_true.mp this f hm
    rw [if_pos hf, hg] at this
    simp [hi] at this
  · rw [if_neg fun h => hk ((isSeismic_iff k).mp h)] at this
    have := List.all_eq_true.mp this f hm
    rw [if_pos hf] at this
    have := List.all_eq_true.mp this i hg
    rw [hi] at this
    cases this

/-- C141 is violated: in the seismic classes the check passes although the wavefields are infinite at all points except one
of each process. -/
theorem C141_seismic_violated (k : Kind) (hk : SeismicKind k) [DecidableEq ι] (own : List (List ι)) :
    ∃ fin : Fld → ι → Bool, checkShot k own fin = true ∧
      ∀ f i, (∀ o ∈ own, o[o.length / 2]? ≠ some i) → fin f i = false := by
  refine ⟨fun _ i => own.any fun o => o[o.length / 2]? == some i, ?_, fun f i h => ?_⟩
  · simp only [checkShot, List.all_eq_true, (isSeismic_iff k).mpr hk, if_true]
    intro o ho
    simp only [isFiniteSeismic, List.all_eq_true]
    intro f _
    split
    · cases hg : o[o.length / 2]? with
      | none => rfl
      | some i =>
        simp only [Option.all_some, List.any_eq_true]
        exact ⟨o, ho, by simp [hg]⟩
    · rfl
  · rw [List.any_eq_false]
    intro o ho
    simpa using h o ho

/-- C141 is violated: fields that are not looked at may be infinite at every point. In every class there is one. -/
theorem C141_field_violated (k : Kind) : ∃ f ∈ motion k ++ forces k, ∀ own : List (List ι),
    checkShot k own (fun g _ => g ≠ f) = true := by
  obtain ⟨f, hf, h1, h2⟩ : ∃ f ∈ motion k ++ forces k, f ∉ [Fld.vX, Fld.vZ] ∧ f ∉ [Fld.eX, Fld.eZ] := by
    cases k <;> decide
  refine ⟨f, hf, fun own => ?_⟩
  simp only [checkShot, List.all_eq_true]
  intro o _
  split
  · simp only [isFiniteSeismic, List.all_eq_true]
    intro g hg
    split
    · have : g ≠ f := by rintro rfl; exact h1 hg
      cases o[o.length / 2]? <;> simp [this]
    · rfl
  · simp only [isFiniteEM, List.all_eq_true]
    intro g hg
    split
    · have : g ≠ f := by rintro rfl; exact h2 hg
      simp [this]
    · rfl

/-- Example: two processes with three and two points, `VX` infinite at the middle point of the second one. -/
example : checkShot .elastic2D [[0, 1, 2], [3, 4]] (fun f i => !(f = Fld.vX ∧ i = 4)) = false := by decide

end Verif.Wave
