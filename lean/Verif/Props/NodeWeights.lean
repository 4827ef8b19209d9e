import Verif.Model.NodeWeights
import Verif.Props.Grid
import Verif.Lemmas.SU
import Mathlib.Tactic.FieldSimp
import Mathlib.Tactic.Positivity
import Mathlib.Algebra.BigOperators.Group.List.Basic

/-!
# C146: weights of the grid points for the partitioner
-/
set_option linter.unusedSimpArgs false

namespace Verif.Part
open Verif Verif.Grid Verif.Solver
open Verif.MatSetup (Kind)

/-! ### What a time step does -/

/-- Number of products of a matrix and a vector in a program. -/
def products {ι : Type} (p : List (Stmt ι)) : ℕ :=
  (p.map fun s => match s with | .mul .. => 1 | _ => 0).sum

/-- Number of CPML corrections of derivatives along an axis in a program. -/
def corrections {ι : Type} (a : Axis) (p : List (Stmt ι)) : ℕ :=
  (p.map fun s => match s with | .cpml _ (.psi _ b) _ _ => if b = a then 1 else 0 | _ => 0).sum

/-- The axes of the grid. -/
def axes (k : Kind) : List Axis := if k.threeD then [.x, .y, .z] else [.x, .y]

/-! ### Helper lemmas -/

private theorem products_append {ι : Type} (p r : List (Stmt ι)) : products (p ++ r) = products p + products r := by
  simp [products]

private theorem products_flatten {ι : Type} (l : List (List (Stmt ι))) :
    products l.flatten = (l.map products).sum := by
  induction l with
  | nil => rfl
  | cons a l ih => simp [products_append, ih]

private theorem products_loop {ι : Type} (L : ℕ) (b : ℕ → List (Stmt ι)) (h : ∀ l, products (b l) = 0) :
    products (forLoop L b) = 0 := by
  unfold forLoop
  induction List.range L with
  | nil => rfl
  | cons a l ih => simp [products_append, ih, h]

private theorem corrections_append {ι : Type} (a : Axis) (p r : List (Stmt ι)) :
    corrections a (p ++ r) = corrections a p + corrections a r := by
  simp [corrections]

private theorem corrections_flatten {ι : Type} (a : Axis) (l : List (List (Stmt ι))) :
    corrections a l.flatten = (l.map (corrections a)).sum := by
  induction l with
  | nil => rfl
  | cons b l ih => simp [corrections_append, ih]

private theorem corrections_loop {ι : Type} (a : Axis) (L : ℕ) (b : ℕ → List (Stmt ι))
    (h : ∀ l, corrections a (b l) = 0) : corrections a (forLoop L b) = 0 := by
  unfold forLoop
  induction List.range L with
  | nil => rfl
  | cons x l ih => simp [corrections_append, ih, h]

variable {ι : Type} [Fintype ι]

/-- Numbers of products and corrections per axis in a time step on a regular grid. -/
def counted : Kind → ℕ × ℕ
  | .acoustic2D | .sh2D | .viscosh2D | .tmem2D | .emem2D | .viscotmem2D | .viscoemem2D => (4, 2)
  | .elastic2D | .viscoelastic2D => (8, 4)
  | .acoustic3D => (6, 2)
  | .elastic3D | .viscoelastic3D => (18, 6)
  | .emem3D | .viscoemem3D => (12, 4)

private theorem products_map {α : Type} (l : List α) (f : α → Stmt ι) (h : ∀ a, products [f a] = 0) :
    products (l.map f) = 0 := by
  induction l with
  | nil => rfl
  | cons a l ih =>
    have := products_append [f a] (l.map f)
    simp only [List.map_cons]
    rw [show f a :: l.map f = [f a] ++ l.map f from rfl, this, h, ih]

private theorem corrections_map {α : Type} (x : Axis) (l : List α) (f : α → Stmt ι) (h : ∀ a, corrections x [f a] = 0) :
    corrections x (l.map f) = 0 := by
  induction l with
  | nil => rfl
  | cons a l ih =>
    have := corrections_append x [f a] (l.map f)
    simp only [List.map_cons]
    rw [show f a :: l.map f = [f a] ++ l.map f from rfl, this, h, ih]

private theorem products_damp (c : BC ι) (fs : List Fld) : products (damp c fs) = 0 := by
  unfold damp
  split
  · rfl
  · exact products_map _ _ fun _ => rfl

private theorem corrections_damp (x : Axis) (c : BC ι) (fs : List Fld) : corrections x (damp c fs) = 0 := by
  unfold damp
  split
  · rfl
  · exact corrections_map x _ _ fun _ => rfl

private theorem products_cpml (c : BC ι) (d : Var) (f : Fld) (a : Axis) :
    products (cpmlFull c d f a) = 0 ∧ products (cpmlHalf c d f a) = 0 := by
  unfold cpmlFull cpmlHalf
  constructor <;> split <;> rfl

private theorem corrections_cpml (x : Axis) {c : BC ι} (hc : c.pml ≠ none) (d : Var) (f : Fld) (a : Axis) :
    corrections x (cpmlFull c d f a) = (if a = x then 1 else 0) ∧
    corrections x (cpmlHalf c d f a) = (if a = x then 1 else 0) := by
  unfold cpmlFull cpmlHalf
  constructor <;> split
  · exact absurd ‹_› hc
  · simp [corrections]
  · exact absurd ‹_› hc
  · simp [corrections]

private theorem products_cons (s : Stmt ι) (p : List (Stmt ι)) :
    products (s :: p) = (match s with | .mul .. => 1 | _ => 0) + products p := by
  simp only [products, List.map_cons, List.sum_cons]

private theorem products_nil : products ([] : List (Stmt ι)) = 0 := rfl

private theorem corrections_cons (a : Axis) (s : Stmt ι) (p : List (Stmt ι)) :
    corrections a (s :: p) = (match s with | .cpml _ (.psi _ b) _ _ => if b = a then 1 else 0 | _ => 0) +
      corrections a p := by
  simp only [corrections, List.map_cons, List.sum_cons]

private theorem corrections_nil (a : Axis) : corrections a ([] : List (Stmt ι)) = 0 := rfl

private theorem products_ifFS (c : BC ι) {p : List (Stmt ι)} (h : products p = 0) : products (ifFS c p) = 0 := by
  unfold ifFS
  split
  · exact h
  · rfl

private theorem corrections_ifFS (a : Axis) (c : BC ι) {p : List (Stmt ι)} (h : corrections a p = 0) :
    corrections a (ifFS c p) = 0 := by
  unfold ifFS
  split
  · exact h
  · rfl

private theorem products_ite (b : Prop) [Decidable b] {p : List (Stmt ι)} (h : products p = 0) :
    products (if b then p else []) = 0 := by
  split
  · exact h
  · rfl

private theorem corrections_ite (a : Axis) (b : Prop) [Decidable b] {p : List (Stmt ι)} (h : corrections a p = 0) :
    corrections a (if b then p else []) = 0 := by
  split
  · exact h
  · rfl

private theorem products_ite' (b : Prop) [Decidable b] {p : List (Stmt ι)} (h : products p = 0) :
    products (if b then [] else p) = 0 := by
  split
  · rfl
  · exact h

private theorem corrections_ite' (a : Axis) (b : Prop) [Decidable b] {p : List (Stmt ι)} (h : corrections a p = 0) :
    corrections a (if b then [] else p) = 0 := by
  split
  · rfl
  · exact h

/-- No interpolation: regular grids. -/
def NoInterp (D : Deriv ι) : Prop :=
  D.interFull = none ∧ D.interSX = none ∧ D.interSZ = none ∧ D.interSXZ = none

set_option maxHeartbeats 1000000 in
private theorem count_products (k : Kind) {D : Deriv ι} (hD : NoInterp D) (m : Solver.Mod ι) (e : EMod ι) (c : BC ι) :
    products (k.solver D m e c).prog = (counted k).1 := by
  obtain ⟨i1, i2, i3, i4⟩ := hD
  cases k <;>
  simp [Kind.solver, counted, acoustic2DSolver, acoustic3DSolver, elastic2DSolver, elastic3DSolver, sh2DSolver,
    viscosh2DSolver, viscoelastic2DSolver, viscoelastic3DSolver, tmem2DSolver, emem2DSolver, viscotmem2DSolver,
    viscoemem2DSolver, emem3DSolver, viscoemem3DSolver, acoustic2D, acoustic3D, elastic2D, elastic3D, sh2D, viscosh2D,
    viscoelastic2D, viscoelastic3D, tmem2D, emem2D, viscotmem2D, viscoemem2D, emem3D, viscoemem3D, magnetic3D, eUpdate,
    rUpdate, rSubtract, relaxShear, relaxNormal, relaxTrans, exchangeVisco, exchange2D, exchange3D, surfaceZero, interp,
    i1, i2, i3, i4, products_append, products_cons, products_nil, products_damp, products_cpml, products_loop, products_map,
    products_ifFS, products_ite, products_ite']

set_option maxHeartbeats 1000000 in
theorem count_corrections (k : Kind) {D : Deriv ι} (hD : NoInterp D) (m : Solver.Mod ι) (e : EMod ι) {c : BC ι}
    (hc : c.pml ≠ none) {a : Axis} (ha : a ∈ axes k) :
    corrections a (k.solver D m e c).prog = (counted k).2 := by
  obtain ⟨i1, i2, i3, i4⟩ := hD
  cases k <;> cases a <;> simp [axes, Kind.threeD] at ha <;>
  simp [Kind.solver, counted, acoustic2DSolver, acoustic3DSolver, elastic2DSolver, elastic3DSolver, sh2DSolver,
    viscosh2DSolver, viscoelastic2DSolver, viscoelastic3DSolver, tmem2DSolver, emem2DSolver, viscotmem2DSolver,
    viscoemem2DSolver, emem3DSolver, viscoemem3DSolver, acoustic2D, acoustic3D, elastic2D, elastic3D, sh2D, viscosh2D,
    viscoelastic2D, viscoelastic3D, tmem2D, emem2D, viscotmem2D, viscoemem2D, emem3D, viscoemem3D, magnetic3D, eUpdate,
    rUpdate, rSubtract, relaxShear, relaxNormal, relaxTrans, exchangeVisco, exchange2D, exchange3D, surfaceZero, interp,
    i1, i2, i3, i4, corrections_append, corrections_cons, corrections_nil, corrections_damp, corrections_cpml _ hc,
    corrections_loop, corrections_map, corrections_ifFS, corrections_ite, corrections_ite']

private theorem sum_div (l : List ℚ) (r : ℚ) : (l.map fun x => x / r).sum = l.sum / r := by
  induction l with
  | nil => simp
  | cons a l ih => rw [List.map_cons, List.sum_cons, List.sum_cons, ih, add_div]

private theorem reference_pos (k : Kind) : 0 < reference k := by
  cases k <;> norm_num [reference, constantWeight, ops]

private theorem fdTable_pos : ∀ w ∈ fdTable, (0 : ℚ) < w := by
  intro w hw
  simp only [fdTable, List.mem_cons, List.not_mem_nil, or_false] at hw
  rcases hw with rfl | rfl | rfl | rfl | rfl | rfl <;> norm_num

private theorem fdWeight_pos {q : Keys} {l : ℕ} {w : ℚ} (h : fdWeight q l = .ok w) : 0 < w := by
  unfold fdWeight at h
  cases ho : fdOrder q l with
  | err => rw [ho] at h; cases h
  | ub => rw [ho] at h; cases h
  | ok o =>
  rw [ho] at h
  simp only [Out.bind_ok] at h
  split at h
  · cases h
  · split at h
    · rename_i v hv
      cases h
      have := fdTable_pos v (List.mem_of_getElem? hv)
      have h1 : 0 < ((ops q.kind).matrixVector : ℚ) := by cases q.kind <;> norm_num [ops]
      have h2 : 0 ≤ constantWeight q.kind := by cases q.kind <;> norm_num [constantWeight, ops]
      positivity
    · cases h

private theorem pmlWeight_nonneg {g : Grid} {q : Keys} {c : Coord} {w : ℚ} (h : pmlWeight g q c = .ok w) : 0 ≤ w := by
  unfold pmlWeight at h
  cases he : edgeDistance g c with
  | err => rw [he] at h; cases h
  | ub => rw [he] at h; cases h
  | ok dist =>
  rw [he] at h
  simp only [Out.bind_ok] at h
  cases hl : g.layers[getLayer g c.y]? with
  | none => rw [hl] at h; cases h
  | some l =>
  rw [hl] at h
  simp only [Out.bind_ok, Out.pure_eq] at h
  have h := (Out.ok.inj h).symm
  rw [h]
  have h1 : (0 : ℚ) ≤ (ops q.kind).pmlPerDim * (3 / 2) := by positivity
  refine add_nonneg (add_nonneg (add_nonneg le_rfl ?_) ?_) ?_ <;> split_ifs <;> first | exact h1 | exact le_rfl

private theorem nodeCost_pos {g : Grid} {q : Keys} {i : ℕ} {w : ℚ} (h : nodeCost g q i = .ok w) : 0 < w := by
  unfold nodeCost at h
  split at h
  · cases hc : index2coordinate g i with
    | err => rw [hc] at h; cases h
    | ub => rw [hc] at h; cases h
    | ok c =>
    rw [hc] at h
    simp only [Out.bind_ok] at h
    cases hf : fdWeight q (getLayer g c.y) with
    | err => rw [hf] at h; cases h
    | ub => rw [hf] at h; cases h
    | ok f =>
    rw [hf] at h
    simp only [Out.bind_ok] at h
    have f0 := fdWeight_pos hf
    split at h
    · cases hp : pmlWeight g q c with
      | err => rw [hp] at h; cases h
      | ub => rw [hp] at h; cases h
      | ok p =>
      rw [hp] at h
      simp only [Out.bind_ok, Out.pure_eq] at h
      cases h
      have := pmlWeight_nonneg hp
      linarith
    · simp only [Out.bind_ok, Out.pure_eq] at h
      cases h
      linarith
  · cases h
    exact reference_pos _

/-- What a successful call returns. -/
private theorem weights_ok {g : Grid} {q : Keys} {ws : List ℚ} (h : weights g q = .ok ws) :
    ∃ cost : List ℚ, (List.range g.n.toNat).map (nodeCost g q) = cost.map Out.ok ∧
      ws = cost.map fun c => c / cost.sum := by
  unfold weights at h
  cases hm : (List.range g.n.toNat).mapM (nodeCost g q) with
  | err => rw [hm] at h; cases h
  | ub => rw [hm] at h; cases h
  | ok cost =>
  rw [hm] at h
  simp only [Out.bind_ok] at h
  rw [if_neg (reference_pos _).ne'] at h
  split at h
  · cases h
  · simp only [Out.pure_eq] at h
    refine ⟨cost, SU.mapM_eq_ok.mp hm, ?_⟩
    rw [← Out.ok.inj h, List.map_map]
    apply List.map_congr_left
    intro c _
    have hr := (reference_pos q.kind).ne'
    have hs := sum_div cost (reference q.kind)
    simp only [Function.comp, hs]
    by_cases h0 : cost.sum = 0
    · simp [h0]
    · field_simp

private theorem cost_pos {g : Grid} {q : Keys} {cost : List ℚ}
    (h : (List.range g.n.toNat).map (nodeCost g q) = cost.map Out.ok) : ∀ c ∈ cost, 0 < c := by
  intro c hc
  have : Out.ok c ∈ (List.range g.n.toNat).map (nodeCost g q) := by
    rw [h]
    exact List.mem_map_of_mem hc
  obtain ⟨i, -, hi⟩ := List.mem_map.mp this
  exact nodeCost_pos hi

private theorem sum_pos_of {l : List ℚ} (h : ∀ c ∈ l, 0 < c) (hl : l ≠ []) : 0 < l.sum := by
  induction l with
  | nil => exact absurd rfl hl
  | cons a l ih =>
    rw [List.sum_cons]
    have ha := h a (by simp)
    by_cases hn : l = []
    · simpa [hn] using ha
    · have := ih (fun c hc => h c (List.mem_cons_of_mem _ hc)) hn
      linarith

/-! ### C146 -/

/-- C146: on every grid, regular or not, the weights that are returned are positive, one for each point, and add up to one. -/
theorem C146_normalised (g : Grid) (q : Keys) (ws : List ℚ) (hn : 0 < g.n) (h : weights g q = .ok ws) :
    ws.length = g.n.toNat ∧ (∀ w ∈ ws, 0 < w) ∧ ws.sum = 1 := by
  obtain ⟨cost, hc, rfl⟩ := weights_ok h
  have hl : cost.length = g.n.toNat := by simpa using (congrArg List.length hc).symm
  have hne : cost ≠ [] := by
    intro h0
    rw [h0] at hl
    simp at hl
    omega
  have hp := cost_pos hc
  have hs := sum_pos_of hp hne
  refine ⟨by simpa using hl, ?_, ?_⟩
  · intro w hw
    obtain ⟨c, hc', rfl⟩ := List.mem_map.mp hw
    exact div_pos (hp c hc') hs
  · rw [sum_div, div_self hs.ne']

/-- Orders for which there is a measured cost of the product. -/
def productCost : Int → Option ℚ
  | 2 => some 1
  | 4 => some (156 / 100)
  | 6 => some (206 / 100)
  | 8 => some (254 / 100)
  | 10 => some 3
  | 12 => some (370 / 100)
  | _ => none

/-- Is the point in the absorbing frame of width `W` along an axis? Below a free surface there is no frame at the top. -/
def inFrame (N W x : Int) (openTop : Bool) : Prop :=
  if openTop then W ≤ x ∧ N - 1 - x < W else x < W ∨ N - 1 - x < W

instance (N W x : Int) (b : Bool) : Decidable (inFrame N W x b) := by unfold inFrame; infer_instance

/-- The work at a point of a regular grid: the products of matrices and vectors of a program (each at the price `cost`), the
vector operations, and the CPML corrections of the program along the axes in whose frame the point is. -/
def work {ι : Type} (q : Keys) (NX NY NZ : Int) (cost : ℚ) (p : List (Stmt ι)) (c : Coord) : ℚ :=
  products p * cost + constantWeight q.kind +
  (if q.dampingBoundary = 2 then
    3 / 2 * ((if inFrame NX q.boundaryWidth c.x false then (corrections .x p : ℚ) else 0) +
      (if inFrame NY q.boundaryWidth c.y (q.freeSurface != 0) then (corrections .y p : ℚ) else 0) +
      (if q.kind.threeD = true ∧ inFrame NZ q.boundaryWidth c.z false then (corrections .z p : ℚ) else 0))
  else 0)

/-- The cost at a point of a regular grid that the code uses. -/
private def estimate (q : Keys) (NX NY NZ : Int) (cost : ℚ) (c : Coord) : ℚ :=
  (ops q.kind).matrixVector * cost + constantWeight q.kind +
  (if q.dampingBoundary = 2 then
    3 / 2 * ((if inFrame NX q.boundaryWidth c.x false then ((ops q.kind).pmlPerDim : ℚ) else 0) +
      (if inFrame NY q.boundaryWidth c.y (q.freeSurface != 0) then ((ops q.kind).pmlPerDim : ℚ) else 0) +
      (if q.kind.threeD = true ∧ inFrame NZ q.boundaryWidth c.z false then ((ops q.kind).pmlPerDim : ℚ) else 0))
  else 0)

private theorem fdWeight_eq {q : Keys} {cost : ℚ} (ho : q.orders = none) (hc : productCost q.spatialFDorder = some cost)
    (l : ℕ) : fdWeight q l = .ok ((ops q.kind).matrixVector * cost + constantWeight q.kind) := by
  unfold fdWeight fdOrder
  rw [ho]
  simp only [Out.bind_ok]
  unfold productCost at hc
  split at hc <;> cases hc <;> rename_i h <;> rw [h] <;> rfl

theorem layer_regular {NX NY NZ : Int} {g : Grid} (hg : initRegular NX NY NZ = .ok g) {c : Coord}
    (hc : InBox NX NY NZ c) : g.NX = NX ∧ g.NY = NY ∧ g.NZ = NZ ∧ g.n = NX * NY * NZ ∧ 0 < g.n ∧
    ∃ l, g.layers[getLayer g c.y]? = some l ∧ l.dh = 1 := by
  obtain ⟨a0, a1, b0, b1, c0, c1⟩ := hc
  unfold initRegular at hg
  split at hg
  · rename_i h
    have hp : 0 < NX * NY * NZ := Int.mul_pos (Int.mul_pos h.1 h.2.1) h.2.2
    cases hg
    refine ⟨rfl, rfl, rfl, by simp [Grid.n, Layer.n], by simpa [Grid.n, Layer.n] using hp, ?_⟩
    have : getLayer { NX := NX, NY := NY, NZ := NZ, interfaces := [-1, NY - 1], layers := [{ dh := 1, nx := NX, ny := NY, nz := NZ, start := 0, stop := NY - 1, transition := 0 }] } c.y = 0 := by
      unfold getLayer getLayerFrom
      simp only
      split
      · rfl
      · rw [if_pos (by omega)]
        rfl
    rw [this]
    exact ⟨_, rfl, rfl⟩
  · cases hg

private theorem pmlWeight_eq {NX NY NZ : Int} {g : Grid} (hg : initRegular NX NY NZ = .ok g) (q : Keys) {c : Coord}
    (hc : InBox NX NY NZ c) : pmlWeight g q c = .ok
      (3 / 2 * ((if inFrame NX q.boundaryWidth c.x false then ((ops q.kind).pmlPerDim : ℚ) else 0) +
      (if inFrame NY q.boundaryWidth c.y (q.freeSurface != 0) then ((ops q.kind).pmlPerDim : ℚ) else 0) +
      (if q.kind.threeD = true ∧ inFrame NZ q.boundaryWidth c.z false then ((ops q.kind).pmlPerDim : ℚ) else 0))) := by
  obtain ⟨e1, e2, e3, -, -, l, hl, hd⟩ := layer_regular hg hc
  obtain ⟨a0, a1, b0, b1, c0, c1⟩ := hc
  unfold pmlWeight
  have hr : inRange g c = true := by simp [inRange, e1, e2, e3]; omega
  have he : edgeDistance g c = .ok ⟨if ¬ (NX - 1 - c.x < c.x) then c.x else NX - 1 - c.x,
      if ¬ (NY - 1 - c.y < c.y) then c.y else NY - 1 - c.y, if ¬ (NZ - 1 - c.z < c.z) then c.z else NZ - 1 - c.z⟩ := by
    unfold edgeDistance
    rw [if_pos hr, e1, e2, e3]
  rw [he]
  simp only [Out.bind_ok, hl, hd, Int.tdiv_one, Boundary.layerWidth, Out.pure_eq, add_sub_cancel_right]
  congr 1
  have f : ∀ N x : Int, ((if ¬ (N - 1 - x < x) then x else N - 1 - x) < q.boundaryWidth) ↔
      inFrame N q.boundaryWidth x false := by
    intro N x
    simp only [inFrame, Bool.false_eq_true, if_false]
    split_ifs <;> omega
  have fy : (if (if ¬ (NY - 1 - c.y < c.y) then c.y else NY - 1 - c.y) < q.boundaryWidth then
      if c.y < q.boundaryWidth then if q.freeSurface = 0 then ((ops q.kind).pmlPerDim : ℚ) * (3 / 2) else 0
        else ((ops q.kind).pmlPerDim : ℚ) * (3 / 2) else 0) =
      (if inFrame NY q.boundaryWidth c.y (q.freeSurface != 0) then ((ops q.kind).pmlPerDim : ℚ) * (3 / 2) else 0) := by
    by_cases hf : q.freeSurface = 0
    · rw [if_pos hf, ite_self]
      have : (q.freeSurface != 0) = false := by simp [hf]
      rw [this]
      simp only [f]
    · rw [if_neg hf]
      have : (q.freeSurface != 0) = true := by simp [hf]
      rw [this]
      simp only [inFrame, if_true]
      split_ifs <;> first | rfl | omega
  simp only [f] at fy ⊢
  rw [fy]
  by_cases h3 : q.kind.threeD = true
  · simp only [h3, if_true, true_and]
    split_ifs <;> ring
  · rw [Bool.not_eq_true] at h3
    simp only [h3, Bool.false_eq_true, false_and, if_false]
    split_ifs <;> ring

/-- The weights on a regular grid with one order. -/
private theorem weights_regular {NX NY NZ : Int} {g : Grid} (hg : initRegular NX NY NZ = .ok g) {q : Keys} {cost : ℚ}
    (hu : q.useNodeWeights = true) (ho : q.orders = none) (hc : productCost q.spatialFDorder = some cost) :
    ∃ ws S, weights g q = .ok ws ∧ 0 < S ∧ ∀ c, InBox NX NY NZ c →
      ws[(Linear NX NZ c).toNat]? = some (estimate q NX NY NZ cost c / S) := by
  have hpos : 0 < NX ∧ 0 < NY ∧ 0 < NZ := by
    unfold initRegular at hg
    split at hg
    · assumption
    · cases hg
  have h0 : InBox NX NY NZ ⟨0, 0, 0⟩ := ⟨le_rfl, hpos.1, le_rfl, hpos.2.1, le_rfl, hpos.2.2⟩
  obtain ⟨-, -, -, hn, hn0, -⟩ := layer_regular hg h0
  have hrow : ∀ i < g.n.toNat, ∃ c, InBox NX NY NZ c ∧ Linear NX NZ c = i ∧ nodeCost g q i = .ok (estimate q NX NY NZ cost c) := by
    intro i hi
    obtain ⟨c, h1, h2, h3, -⟩ := C01_index_roundtrip hg (i := i) (by omega) (by omega)
    refine ⟨c, h2, h3, ?_⟩
    unfold nodeCost
    rw [if_pos hu, h1]
    simp only [Out.bind_ok, fdWeight_eq ho hc]
    unfold estimate
    split
    · rw [pmlWeight_eq hg q h2]
      rfl
    · rfl
  have : Nonempty Coord := ⟨⟨0, 0, 0⟩⟩
  choose! f f1 f2 f3 using hrow
  let l := (List.range g.n.toNat).map fun i => estimate q NX NY NZ cost (f i)
  have hm : (List.range g.n.toNat).map (nodeCost g q) = l.map Out.ok := by
    rw [List.map_map]
    apply List.map_congr_left
    intro i hi
    exact f3 i (List.mem_range.mp hi)
  have hne : l ≠ [] := by
    intro h
    have := congrArg List.length h
    simp [l] at this
    omega
  have hs := sum_pos_of (cost_pos hm) hne
  have hr := reference_pos q.kind
  refine ⟨l.map fun c => c / l.sum, l.sum, ?_, hs, ?_⟩
  · unfold weights
    rw [SU.mapM_eq_ok.mpr hm]
    simp only [Out.bind_ok]
    rw [if_neg hr.ne', if_neg, Out.pure_eq, List.map_map]
    · congr 1
      apply List.map_congr_left
      intro c _
      simp only [Function.comp, sum_div]
      have := hs.ne'
      have := hr.ne'
      field_simp
    · rintro ⟨h, -⟩
      rw [sum_div] at h
      exact (div_pos hs hr).ne' h
  · intro c hcb
    obtain ⟨i, -, h2, h3, h4, h5⟩ := C01_coordinate_roundtrip hg hcb
    have hlt : (Linear NX NZ c).toNat < g.n.toNat := by omega
    have he : f (Linear NX NZ c).toNat = c := by
      obtain ⟨c', g1, g2, g3, -⟩ := C01_index_roundtrip hg (i := i) (by omega) (by omega)
      have e : Linear NX NZ (f (Linear NX NZ c).toNat) = i := by
        rw [f2 _ hlt]
        omega
      obtain ⟨j, -, k2, -, -, k5⟩ := C01_coordinate_roundtrip hg (f1 _ hlt)
      rw [k2, e, h5] at k5
      exact (Out.ok.inj k5).symm
    rw [List.getElem?_map, List.getElem?_map, List.getElem?_range hlt]
    simp [he]

/-- C146 for all seismic equations and for the electromagnetic ones without relaxation in 2D, on regular grids: the weight of
a point is proportional to the work of a time step at this point. Missing: the other electromagnetic equations
(`C146_work_violated`). -/
theorem C146_work_partial {NX NY NZ : Int} {g : Grid} (hg : initRegular NX NY NZ = .ok g) {q : Keys} {cost : ℚ}
    (hu : q.useNodeWeights = true) (ho : q.orders = none) (hc : productCost q.spatialFDorder = some cost)
    (hk : q.kind ∉ [Kind.viscotmem2D, .viscoemem2D, .emem3D, .viscoemem3D])
    {D : Deriv ι} (hD : D.interFull = none ∧ D.interSX = none ∧ D.interSZ = none ∧ D.interSXZ = none) (m : Solver.Mod ι)
    (e : EMod ι) (b : BC ι) (hb : b.pml ≠ none) :
    ∃ ws S, weights g q = .ok ws ∧ 0 < S ∧ ∀ c, InBox NX NY NZ c →
      ws[(Linear NX NZ c).toNat]? = some (work q NX NY NZ cost (q.kind.solver D m e b).prog c / S) := by
  obtain ⟨ws, S, h1, h2, h3⟩ := weights_regular hg hu ho hc
  refine ⟨ws, S, h1, h2, fun c hb' => ?_⟩
  rw [h3 c hb']
  have e1 : (ops q.kind).matrixVector = products (q.kind.solver D m e b).prog := by
    rw [count_products q.kind hD]
    revert hk
    cases q.kind <;> simp [ops, counted]
  have e2 : ∀ a ∈ axes q.kind, (ops q.kind).pmlPerDim = corrections a (q.kind.solver D m e b).prog := by
    intro a ha
    rw [count_corrections q.kind hD m e hb ha]
    revert hk
    cases q.kind <;> simp [ops, counted]
  unfold estimate work
  have ex := e2 .x (by unfold axes; split <;> simp)
  have ey := e2 .y (by unfold axes; split <;> simp)
  rw [e1, ← ex, ← ey]
  by_cases h : q.kind.threeD = true
  · rw [← e2 .z (by unfold axes; rw [if_pos h]; simp)]
  · simp [h]

/-- C146 fails for the other electromagnetic equations: a point in the left or right frame and a point outside of the frames do
not have weights in the proportion of their work. -/
theorem C146_work_violated {NX NY NZ : Int} {g : Grid} (hg : initRegular NX NY NZ = .ok g) {q : Keys} {cost : ℚ}
    (hu : q.useNodeWeights = true) (ho : q.orders = none) (hc : productCost q.spatialFDorder = some cost)
    (hd : q.dampingBoundary = 2) (hk : q.kind ∈ [Kind.viscotmem2D, .viscoemem2D, .emem3D, .viscoemem3D])
    {D : Deriv ι} (hD : D.interFull = none ∧ D.interSX = none ∧ D.interSZ = none ∧ D.interSXZ = none) (m : Solver.Mod ι)
    (e : EMod ι) (b : BC ι) (hb : b.pml ≠ none) {c c' : Coord} (hc1 : InBox NX NY NZ c) (hc2 : InBox NX NY NZ c')
    (hy : ¬ inFrame NY q.boundaryWidth c.y (q.freeSurface != 0)) (hy' : c'.y = c.y)
    (hz : q.kind.threeD = true → ¬ inFrame NZ q.boundaryWidth c.z false) (hz' : c'.z = c.z)
    (hx : ¬ inFrame NX q.boundaryWidth c.x false) (hx' : inFrame NX q.boundaryWidth c'.x false) :
    ∃ ws w w', weights g q = .ok ws ∧ ws[(Linear NX NZ c).toNat]? = some w ∧ ws[(Linear NX NZ c').toNat]? = some w' ∧
      w * work q NX NY NZ cost (q.kind.solver D m e b).prog c' ≠ w' * work q NX NY NZ cost (q.kind.solver D m e b).prog c := by
  obtain ⟨ws, S, h1, h2, h3⟩ := weights_regular hg hu ho hc
  refine ⟨ws, _, _, h1, h3 c hc1, h3 c' hc2, ?_⟩
  have ex := count_corrections q.kind hD m e hb (a := .x) (by unfold axes; split <;> simp)
  unfold estimate work
  rw [count_products q.kind hD, ex, hy', hz']
  have hpos : 0 < cost := by
    unfold productCost at hc
    split at hc <;> cases hc <;> norm_num
  have hz : ¬ (q.kind.threeD = true ∧ inFrame NZ q.boundaryWidth c.z false) := fun h => hz h.1 h.2
  simp only [if_pos hd, if_neg hx, if_pos hx', if_neg hy, if_neg hz, add_zero, mul_zero]
  intro h
  rw [div_mul_eq_mul_div, div_mul_eq_mul_div _ S, div_left_inj' h2.ne'] at h
  revert h
  simp only [List.mem_cons, List.not_mem_nil, or_false] at hk
  rcases hk with hk | hk | hk | hk <;> simp only [hk, ops, counted, constantWeight] <;> norm_num <;> intro h <;> linarith

/-- Coefficients are stored for the points of the frame of an axis, except below a free surface. -/
theorem axisCoef_pushed : ∀ (p : Boundary.CPMLPar) (W d x t : Int) (skip : Bool) (k : Boundary.AxisCoef),
    Boundary.axisCoef p W d x t skip = .ok k →
    (k.b = 0 ↔ ¬ (t.tdiv d < Boundary.layerWidth W d ∧ ¬ (x.tdiv d < Boundary.layerWidth W d ∧ skip = true))) := by
  intro p W d x t skip k hk
  unfold Boundary.axisCoef at hk
  dsimp only at hk
  split at hk
  · rename_i h1
    split at hk
    · cases hk
    · split at hk
      · rename_i h2
        split at hk
        · rename_i h3
          cases hk
          simp [Boundary.AxisCoef.none, h1, h2, h3]
        · rename_i h3
          cases hk
          simp [Boundary.cpmlB, Real.exp_ne_zero, h1, h2, h3]
      · rename_i h2
        cases hk
        simp [Boundary.cpmlB, Real.exp_ne_zero, h1, h2]
  · rename_i h1
    cases hk
    simp [Boundary.AxisCoef.none, h1]

/-- C146 on every grid in 2D: the cost of the CPML at a point counts exactly the axes for which there are CPML coefficients. -/
theorem C146_frame (g : Grid) (par : Nat → Boundary.CPMLPar) (q : Keys) (hk : q.kind.threeD = false) (c : Coord)
    (kx ky : Boundary.AxisCoef) (h : Boundary.cpml2D g par q.boundaryWidth q.freeSurface c = .ok (kx, ky)) :
    pmlWeight g q c = .ok (3 / 2 * (ops q.kind).pmlPerDim * ((if kx.b = 0 then 0 else 1) + (if ky.b = 0 then 0 else 1))) := by
  unfold Boundary.cpml2D at h
  unfold pmlWeight
  cases he : edgeDistance g c with
  | err => rw [he] at h; cases h
  | ub => rw [he] at h; cases h
  | ok dist =>
  cases hl : g.layers[getLayer g c.y]? with
  | none => simp [he, hl] at h
  | some l =>
  simp only [he, hl, Out.bind_ok] at h ⊢
  cases hx : Boundary.axisCoef (par (getLayer g c.y)) q.boundaryWidth l.dh c.x dist.x false with
  | err => simp [hx] at h
  | ub => simp [hx] at h
  | ok kx' =>
  cases hy : Boundary.axisCoef (par (getLayer g c.y)) q.boundaryWidth l.dh c.y dist.y (q.freeSurface != 0) with
  | err => simp [hx, hy] at h
  | ub => simp [hx, hy] at h
  | ok ky' =>
  simp only [hx, hy, Out.bind_ok, Out.pure_eq] at h
  obtain ⟨rfl, rfl⟩ := Prod.mk.inj (Out.ok.inj h)
  have k1 := axisCoef_pushed _ _ _ _ _ _ _ hx
  have k2 := axisCoef_pushed _ _ _ _ _ _ _ hy
  simp only [Bool.false_eq_true, and_false, not_false_eq_true, and_true] at k1
  simp only [Out.pure_eq, hk, Bool.false_eq_true, if_false]
  congr 1
  simp only [k1, k2, bne_iff_ne, ne_eq]
  split_ifs <;> first | (exfalso; tauto) | (exfalso; simp_all; done) | ring

/-- 2D SH, 7 x 6 points, frame of two points below a free surface, order 4: there are 42 weights, which add up to
one. -/
example : ∃ g ws, initRegular 7 6 1 = .ok g ∧
    weights g ⟨.sh2D, true, none, 4, 2, 2, 1⟩ = .ok ws ∧ ws.length = 42 ∧ ws.sum = 1 := by
  obtain ⟨g, hg, hn⟩ := (C01_constructor_total 7 6 1).mpr ⟨by norm_num, by norm_num, by norm_num⟩
  obtain ⟨ws, S, h1, h2, h3⟩ := weights_regular hg (q := ⟨.sh2D, true, none, 4, 2, 2, 1⟩) rfl rfl rfl
  have := C146_normalised g _ ws (by rw [hn]; norm_num) h1
  refine ⟨g, ws, hg, h1, ?_, this.2.2⟩
  rw [this.1, hn]
  rfl

/-- The hypotheses of `C146_work_violated` hold on a grid of 7 x 7 points with a frame of two points. -/
example : InBox 7 7 1 ⟨3, 3, 0⟩ ∧ InBox 7 7 1 ⟨1, 3, 0⟩ ∧ ¬ inFrame 7 2 3 false ∧ inFrame 7 2 1 false ∧
    Kind.viscotmem2D.threeD = false :=
  ⟨by simp [InBox], by simp [InBox], by decide, by decide, rfl⟩

end Verif.Part
