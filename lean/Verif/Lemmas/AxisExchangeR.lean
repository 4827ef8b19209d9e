import Verif.Lemmas.AxisExchange
import Verif.Lemmas.RecipRelax3D
import Verif.Lemmas.RecipRelaxEM

/-!
# Exchanging two axes of an attenuating set-up
-/
set_option linter.dupNamespace false
set_option linter.unusedSectionVars false
set_option linter.unusedSimpArgs false

namespace Verif.Solver
open Matrix Verif.Recip

variable {ι ι' : Type} [Fintype ι] [Fintype ι'] [DecidableEq ι] [DecidableEq ι']
  {A B : Type} [Fintype A] [Fintype B] [DecidableEq A] [DecidableEq B] {N : ℕ}

/-- Schemes with relaxation that correspond to each other: `pA`, `pB` exchange the components, `sA`, `sB`
are their signs. -/
structure CorrR (e : ι' ≃ ι) (pA : A → A) (pB : B → B) (sA : A → ℝ) (sB : B → ℝ)
    (d' : Recip.Scheme A B ι') (d : Recip.Scheme A B ι) (x' : Relax (Fin N) B ι') (x : Relax (Fin N) B ι) : Prop where
  invA : Function.Involutive pA
  invB : Function.Involutive pB
  sqA : ∀ a, sA a * sA a = 1
  sqB : ∀ b, sB b * sB b = 1
  w : ∀ a i, d'.w (pA a) i = d.w a (e i)
  R : ∀ a i, d'.R (pA a) i = d.R a (e i)
  D : ∀ a b i j, d'.D (pA a) (pB b) i j = sA a * sB b * d.D a b (e i) (e j)
  Az : ∀ i b b', d'.Az i (pB b) (pB b') = sB b * sB b' * d.Az (e i) b b'
  Q : ∀ i b b', d'.Q i (pB b) (pB b') = sB b * sB b' * d.Q (e i) b b'
  aA : ∀ a b i, d'.aA (pA a) (pB b) i = d.aA a b (e i)
  bA : ∀ a b i, d'.bA (pA a) (pB b) i = d.bA a b (e i)
  aB : ∀ a b i, d'.aB (pA a) (pB b) i = d.aB a b (e i)
  bB : ∀ a b i, d'.bB (pA a) (pB b) i = d.bB a b (e i)
  c : ∀ l b i, x'.c l (pB b) i = x.c l b (e i)
  Gz : ∀ l b i, x'.Gz l (pB b) i = x.Gz l b (e i)
  Ge : ∀ l i b b', x'.Ge l i (pB b) (pB b') = sB b * sB b' * x.Ge l (e i) b b'
  h0 : ∀ l b i, x'.h0 l (pB b) i = x.h0 l b (e i)
  h1 : ∀ l b i, x'.h1 l (pB b) i = x.h1 l b (e i)

/-- Values of the wavefields, memory and relaxation variables that correspond to each other. -/
structure ValR (e : ι' ≃ ι) (pA : A → A) (pB : B → B) (sA : A → ℝ) (sB : B → ℝ)
    (y' : A → ι' → ℝ) (z' : B → ι' → ℝ) (ψ' φ' : A → B → ι' → ℝ) (r' : Fin N → B → ι' → ℝ)
    (y : A → ι → ℝ) (z : B → ι → ℝ) (ψ φ : A → B → ι → ℝ) (r : Fin N → B → ι → ℝ) : Prop where
  y : ∀ a i, y' (pA a) i = sA a * y a (e i)
  z : ∀ b i, z' (pB b) i = sB b * z b (e i)
  ψ : ∀ a b i, ψ' (pA a) (pB b) i = sA a * ψ a b (e i)
  φ : ∀ a b i, φ' (pA a) (pB b) i = sB b * φ a b (e i)
  r : ∀ l b i, r' l (pB b) i = sB b * r l b (e i)

section
variable {e : ι' ≃ ι} {pA : A → A} {pB : B → B} {sA : A → ℝ} {sB : B → ℝ}
    {d' : Recip.Scheme A B ι'} {d : Recip.Scheme A B ι} {x' : Relax (Fin N) B ι'} {x : Relax (Fin N) B ι}

theorem inv_sum {X : Type} [Fintype X] {p : X → X} (h : Function.Involutive p) (f : X → ℝ) :
    ∑ a, f a = ∑ a, f (p a) := (Equiv.sum_comp h.toPerm f).symm

theorem exch_mulVec {D' : Matrix ι' ι' ℝ} {D : Matrix ι ι ℝ} {k q : ℝ} (hD : ∀ i j, D' i j = k * D (e i) (e j))
    {v' : ι' → ℝ} {v : ι → ℝ} (hv : ∀ i, v' i = q * v (e i)) (i : ι') :
    D'.mulVec v' i = k * q * D.mulVec v (e i) := by
  simp only [Matrix.mulVec, dotProduct, hD, hv]
  rw [Finset.mul_sum, ← e.sum_comp]
  exact Finset.sum_congr rfl fun j _ => by ring

variable (h : CorrR e pA pB sA sB d' d x' x)
    {y' : A → ι' → ℝ} {z' : B → ι' → ℝ} {ψ' φ' : A → B → ι' → ℝ} {r' : Fin N → B → ι' → ℝ}
    {y : A → ι → ℝ} {z : B → ι → ℝ} {ψ φ : A → B → ι → ℝ} {r : Fin N → B → ι → ℝ}
    (hv : ValR e pA pB sA sB y' z' ψ' φ' r' y z ψ φ r)
include h hv

theorem CorrR.nextψ_eq (a : A) (b : B) (i : ι') :
    nextψ d' z' ψ' (pA a) (pB b) i = sA a * nextψ d z ψ a b (e i) := by
  simp only [nextψ, h.bA, h.aA, hv.ψ]
  rw [exch_mulVec (h.D a b) (hv.z b)]
  linear_combination (d.aA a b (e i) * sA a * (d.D a b).mulVec (z b) (e i)) * h.sqB b

theorem CorrR.nextT_eq (a : A) (i : ι') :
    nextT d' y' z' ψ' (pA a) i = sA a * nextT d y z ψ a (e i) := by
  simp only [nextT, h.R, hv.y]
  rw [inv_sum h.invB]
  have : ∀ b, (d'.D (pA a) (pB b)).mulVec (z' (pB b)) i + nextψ d' z' ψ' (pA a) (pB b) i =
      sA a * ((d.D a b).mulVec (z b) (e i) + nextψ d z ψ a b (e i)) := by
    intro b
    rw [h.nextψ_eq hv, exch_mulVec (h.D a b) (hv.z b)]
    linear_combination (sA a * (d.D a b).mulVec (z b) (e i)) * h.sqB b
  simp only [this, ← Finset.mul_sum]
  ring

theorem CorrR.trans_eq (a : A) (b : B) (i : ι') :
    (d'.D (pA a) (pB b)).transpose.mulVec (nextT d' y' z' ψ' (pA a)) i =
      sB b * (d.D a b).transpose.mulVec (nextT d y z ψ a) (e i) := by
  rw [exch_mulVec (D' := (d'.D (pA a) (pB b)).transpose) (D := (d.D a b).transpose) (k := sA a * sB b)
    (fun i j => h.D a b j i) (h.nextT_eq hv a)]
  linear_combination (sB b * (d.D a b).transpose.mulVec (nextT d y z ψ a) (e i)) * h.sqA a

theorem CorrR.nextφ_eq (a : A) (b : B) (i : ι') :
    nextφ d' (nextT d' y' z' ψ') φ' (pA a) (pB b) i = sB b * nextφ d (nextT d y z ψ) φ a b (e i) := by
  simp only [nextφ, h.bB, h.aB, hv.φ, h.trans_eq hv]
  ring

theorem CorrR.flux_eq (b : B) (i : ι') :
    ∑ a, ((d'.D a (pB b)).transpose.mulVec (nextT d' y' z' ψ' a) i + nextφ d' (nextT d' y' z' ψ') φ' a (pB b) i) =
      sB b * ∑ a, ((d.D a b).transpose.mulVec (nextT d y z ψ a) (e i) + nextφ d (nextT d y z ψ) φ a b (e i)) := by
  rw [inv_sum h.invA]
  simp only [h.trans_eq hv, h.nextφ_eq hv, ← mul_add, ← Finset.mul_sum]

theorem CorrR.nextZ_eq (b : B) (i : ι') :
    nextZ d' z' (nextT d' y' z' ψ') φ' (pB b) i = sB b * nextZ d z (nextT d y z ψ) φ b (e i) := by
  unfold nextZ
  rw [inv_sum h.invB (fun b' => d'.Az i (pB b) b' * z' b' i), inv_sum h.invB (fun b' => d'.Q i (pB b) b' * _)]
  have h1 : ∀ b', d'.Az i (pB b) (pB b') * z' (pB b') i = sB b * (d.Az (e i) b b' * z b' (e i)) := by
    intro b'
    rw [h.Az, hv.z]
    linear_combination (sB b * d.Az (e i) b b' * z b' (e i)) * h.sqB b'
  simp only [h1, h.flux_eq hv, h.Q, mul_sub, Finset.mul_sum]
  congr 1
  refine Finset.sum_congr rfl fun b' _ => Finset.sum_congr rfl fun a _ => ?_
  linear_combination (sB b * d.Q (e i) b b' * ((d.D a b').transpose.mulVec (nextT d y z ψ a) (e i) +
    nextφ d (nextT d y z ψ) φ a b' (e i))) * h.sqB b'

theorem CorrR.nextR_eq (l : Fin N) (b : B) (i : ι') :
    nextR d' x' z' (nextT d' y' z' ψ') φ' r' l (pB b) i = sB b * nextR d x z (nextT d y z ψ) φ r l b (e i) := by
  unfold nextR
  rw [inv_sum h.invB]
  have h1 : ∀ b', x'.Ge l i (pB b) (pB b') * (sB b' * ∑ a, ((d.D a b').transpose.mulVec (nextT d y z ψ a) (e i) +
      nextφ d (nextT d y z ψ) φ a b' (e i))) = sB b * (x.Ge l (e i) b b' *
        ∑ a, ((d.D a b').transpose.mulVec (nextT d y z ψ a) (e i) + nextφ d (nextT d y z ψ) φ a b' (e i))) := by
    intro b'
    rw [h.Ge]
    linear_combination (sB b * x.Ge l (e i) b b' * ∑ a, ((d.D a b').transpose.mulVec (nextT d y z ψ a) (e i) +
        nextφ d (nextT d y z ψ) φ a b' (e i))) * h.sqB b'
  simp only [h.flux_eq hv, h1, h.c, h.Gz, hv.r, hv.z, ← Finset.mul_sum]
  ring

end

/-! ### Staggered components -/

/-- Components that are exchanged with each other. -/
structure LayExch (k : Exch) (L : Lay A B) (pA : A → A) (pB : B → B) : Prop where
  invA : Function.Involutive pA
  invB : Function.Involutive pB
  gA : ∀ a, L.gA (pA a) = k.fld (L.gA a)
  gB : ∀ b, L.gB (pB b) = k.fld (L.gB b)
  ax : ∀ a b, L.ax (pA a) (pB b) = (L.ax a b).map k.axis
  sg : ∀ a b, (L.ax a b).isSome → L.sg (pA a) (pB b) = Exch.sign (L.gA a) * Exch.sign (L.gB b) * L.sg a b

theorem sign_sq (f : Fld) : Exch.sign f * Exch.sign f = 1 := by cases f <;> simp [Exch.sign]

theorem half_exch (k : Exch) (f : Fld) (a : Axis) : half (k.fld f) (k.axis a) = half f a := by
  cases k <;> cases f <;> cases a <;> rfl

theorem wt_exch (k : Exch) (e : ι' → ι) (c : BC ι) (i : ι') : (k.bc e c).wt i = c.wt (e i) := by
  unfold BC.wt Exch.bc
  cases c.damping <;> rfl

theorem ca_exch (k : Exch) (e : ι' → ι) (c : BC ι) (h : Bool) (a : Axis) (i : ι') :
    (k.bc e c).ca h (k.axis a) i = c.ca h a (e i) := by
  unfold BC.ca Exch.bc
  cases c.pml <;> simp [Exch.axis_axis]

theorem cb_exch (k : Exch) (e : ι' → ι) (c : BC ι) (h : Bool) (a : Axis) (i : ι') :
    (k.bc e c).cb h (k.axis a) i = c.cb h a (e i) := by
  unfold BC.cb Exch.bc
  cases c.pml <;> simp [Exch.axis_axis]

theorem coefA_exch (k : Exch) (e : ι' → ι) (c : BC ι) (f : Fld) (o : Option Axis) (i : ι') :
    coefA (k.bc e c) (k.fld f) (o.map k.axis) i = coefA c f o (e i) := by
  cases o with
  | none => rfl
  | some a => simp only [Option.map_some, coefA, half_exch, ca_exch]

theorem coefB_exch (k : Exch) (e : ι' → ι) (c : BC ι) (f : Fld) (o : Option Axis) (i : ι') :
    coefB (k.bc e c) (k.fld f) (o.map k.axis) i = coefB c f o (e i) := by
  cases o with
  | none => rfl
  | some a => simp only [Option.map_some, coefB, half_exch, cb_exch]

/-- Correspondence of mechanisms. -/
structure RelExch (e : ι' ≃ ι) (pB : B → B) (sB : B → ℝ) (x' : Relax (Fin N) B ι') (x : Relax (Fin N) B ι) : Prop where
  c : ∀ l b i, x'.c l (pB b) i = x.c l b (e i)
  Gz : ∀ l b i, x'.Gz l (pB b) i = x.Gz l b (e i)
  Ge : ∀ l i b b', x'.Ge l i (pB b) (pB b') = sB b * sB b' * x.Ge l (e i) b b'
  h0 : ∀ l b i, x'.h0 l (pB b) i = x.h0 l b (e i)
  h1 : ∀ l b i, x'.h1 l (pB b) i = x.h1 l b (e i)

theorem LayExch.corr {k : Exch} {L : Lay A B} {pA : A → A} {pB : B → B} (h : LayExch k L pA pB) {e : ι' ≃ ι}
    {c : BC ι} {R' : A → ι' → ℝ} {R : A → ι → ℝ} {D' : A → B → Matrix ι' ι' ℝ} {D : A → B → Matrix ι ι ℝ}
    {Az' Q' : ι' → Matrix B B ℝ} {Az Q : ι → Matrix B B ℝ} {x' : Relax (Fin N) B ι'} {x : Relax (Fin N) B ι}
    (hR : ∀ a i, R' (pA a) i = R a (e i))
    (hD : ∀ a b i j, D' (pA a) (pB b) i j = Exch.sign (L.gA a) * Exch.sign (L.gB b) * D a b (e i) (e j))
    (hAz : ∀ i b b', Az' i (pB b) (pB b') = Exch.sign (L.gB b) * Exch.sign (L.gB b') * Az (e i) b b')
    (hQ : ∀ i b b', Q' i (pB b) (pB b') = Exch.sign (L.gB b) * Exch.sign (L.gB b') * Q (e i) b b')
    (hx : RelExch e pB (fun b => Exch.sign (L.gB b)) x' x) :
    CorrR e pA pB (fun a => Exch.sign (L.gA a)) (fun b => Exch.sign (L.gB b))
      (layout L (k.bc e c) R' D' Az' Q') (layout L c R D Az Q) x' x where
  invA := h.invA
  invB := h.invB
  sqA _ := sign_sq _
  sqB _ := sign_sq _
  w _ i := wt_exch k e c i
  R := hR
  D := hD
  Az := hAz
  Q := hQ
  aA a b i := by simp only [layout, h.gA, h.ax, coefA_exch]
  bA a b i := by simp only [layout, h.gA, h.ax, coefB_exch]
  aB a b i := by simp only [layout, h.gB, h.ax, coefA_exch]
  bB a b i := by simp only [layout, h.gB, h.ax, coefB_exch]
  c := hx.c
  Gz := hx.Gz
  Ge := hx.Ge
  h0 := hx.h0
  h1 := hx.h1

/-- States that correspond to each other on the components of a layout. -/
def Lay.Rel (N : ℕ) (L : Lay A B) (k : Exch) (e : ι' ≃ ι) (c : BC ι) (pA : A → A) (pB : B → B) (s' : State ι')
    (s : State ι) : Prop :=
  ValR (N := N) e pA pB (fun a => Exch.sign (L.gA a)) (fun b => Exch.sign (L.gB b))
    (fun a => s' (.fld (L.gA a))) (fun b => s' (.fld (L.gB b))) (L.mψ (k.bc e c) s') (L.mφ (k.bc e c) s')
    (fun l b => s' (.rel (L.gB b) l))
    (fun a => s (.fld (L.gA a))) (fun b => s (.fld (L.gB b))) (L.mψ c s) (L.mφ c s)
    (fun l b => s (.rel (L.gB b) l))

/-- Everything needed about a pair of attenuating solvers. -/
structure FactsR (N : ℕ) (k : Exch) (e : ι' ≃ ι) (c : BC ι) (S' : Solver ι') (S : Solver ι) (L : Lay A B)
    (pA : A → A) (pB : B → B) (d' : Recip.Scheme A B ι') (d : Recip.Scheme A B ι) (x' : Relax (Fin N) B ι')
    (x : Relax (Fin N) B ι) : Prop where
  lay : LayExch k L pA pB
  corr : CorrR e pA pB (fun a => Exch.sign (L.gA a)) (fun b => Exch.sign (L.gB b)) d' d x' x
  step' : StepsR d' x' S'.prog L.gA L.gB (L.mψ (k.bc e c)) (L.mφ (k.bc e c))
  step : StepsR d x S.prog L.gA L.gB (L.mψ c) (L.mφ c)
  src : ∀ ty, (k = .xz → ty ≠ .HZ) → ∀ f, ((∃ a, f = L.gA a) ∨ ∃ b, f = L.gB b) →
    (k.fld f ∈ S'.srcFlds (k.stype ty) ↔ f ∈ S.srcFlds ty) ∧ (f ∈ S.srcFlds ty → Exch.tsign ty = Exch.sign f)
  recv : ∀ ty, (k = .xz → ty ≠ .HZ) → match S'.recv (k.stype ty), S.recv ty with
      | none, none => True
      | some (q', fs'), some (q, fs) => q' = q ∧ fs'.Perm (fs.map k.fld) ∧
          ∀ f ∈ fs, ((∃ a, f = L.gA a) ∨ ∃ b, f = L.gB b) ∧ Exch.sign f = Exch.tsign ty
      | _, _ => False
  zero : ∀ f, ((∃ a, f = L.gA a) ∨ ∃ b, f = L.gB b) → .fld f ∈ S.fields ∧ .fld f ∈ S'.fields
  zrel : ∀ b, ∀ l < N, .rel (L.gB b) l ∈ S.fields ∧ .rel (L.gB b) l ∈ S'.fields
  zmem : ∀ a b α, L.ax a b = some α → (.psi (L.gA a) α ∈ S.memory ∧ .psi (L.gB b) α ∈ S.memory) ∧
    .psi (L.gA a) α ∈ S'.memory ∧ .psi (L.gB b) α ∈ S'.memory

section
variable {k : Exch} {e : ι' ≃ ι} {c : BC ι} {S' : Solver ι'} {S : Solver ι} {L : Lay A B}
    {pA : A → A} {pB : B → B} {d' : Recip.Scheme A B ι'} {d : Recip.Scheme A B ι} {x' : Relax (Fin N) B ι'}
    {x : Relax (Fin N) B ι}

theorem FactsR.exec_rel (h : FactsR N k e c S' S L pA pB d' d x' x) {s' : State ι'} {s : State ι}
    (hs : L.Rel N k e c pA pB s' s) : L.Rel N k e c pA pB (exec S'.prog s') (exec S.prog s) := by
  obtain ⟨a1, a2, a3, a4, a5⟩ := h.step' s'
  obtain ⟨b1, b2, b3, b4, b5⟩ := h.step s
  have hr : ∀ l b i, exec S'.prog s' (.rel (L.gB (pB b)) (l : Fin N)) i =
      Exch.sign (L.gB b) * exec S.prog s (.rel (L.gB b) l) (e i) := by
    intro l b i
    rw [a3, b3, h.corr.nextR_eq hs]
  refine ⟨fun a i => ?_, fun b i => ?_, fun a b i => ?_, fun a b i => ?_, hr⟩
  · simp only [a1, b1, h.corr.w]
    rw [h.corr.nextT_eq hs]
    ring
  · simp only [a2, b2]
    rw [h.corr.nextZ_eq hs, mul_add]
    congr 1
    unfold relaxed
    simp only [h.corr.h0, h.corr.h1, hr, hs.r, Finset.mul_sum]
    exact Finset.sum_congr rfl fun l _ => by ring
  · rw [a4, b4, h.corr.nextψ_eq hs]
  · rw [a5, b5, h.corr.nextφ_eq hs]

theorem FactsR.run_rel (h : FactsR N k e c S' S L pA pB d' d x' x) {srcs : List (Source ι)}
    (hq : k = .xz → ∀ q ∈ srcs, q.ty ≠ .HZ) {s' : State ι'} {s : State ι}
    (hs : L.Rel N k e c pA pB s' s) (n : ℕ) :
    L.Rel N k e c pA pB (run S' (srcs.map ((k.relabel e).source k.stype Exch.tsign)) s' n) (run S srcs s n) := by
  induction n with
  | zero => exact hs
  | succ n ih =>
    have hx := h.exec_rel ih
    have key : ∀ (f : Fld), ((∃ a, f = L.gA a) ∨ ∃ b, f = L.gB b) → ∀ i,
        ((srcs.map ((k.relabel e).source k.stype Exch.tsign)).map fun q =>
          if k.fld f ∈ S'.srcFlds q.ty ∧ q.pos = i then q.signal n else 0).sum =
        Exch.sign f * (srcs.map fun q => if f ∈ S.srcFlds q.ty ∧ q.pos = e i then q.signal n else 0).sum := by
      intro f hf i
      rw [List.map_map, ← List.sum_map_mul_left]
      congr 1
      refine List.map_congr_left fun q hm => ?_
      obtain ⟨e1, e2⟩ := h.src q.ty (fun hk => hq hk q hm) f hf
      simp only [Function.comp_apply, Relabel.source, e1]
      have e3 : (k.relabel e).e.symm q.pos = i ↔ q.pos = e i := Equiv.symm_apply_eq e
      simp only [e3]
      by_cases hm' : f ∈ S.srcFlds q.ty ∧ q.pos = e i
      · simp only [hm', and_self, if_true, e2 hm'.1]
      · simp only [hm', if_false, mul_zero]
    refine ⟨fun a i => ?_, fun b i => ?_, hx.ψ, hx.φ, hx.r⟩
    · have := hx.y a i
      simp only [h.lay.gA] at this ⊢
      simp only [run, Solver.step, applySource, this, key _ (.inl ⟨a, rfl⟩)]
      ring
    · have := hx.z b i
      simp only [h.lay.gB] at this ⊢
      simp only [run, Solver.step, applySource, this, key _ (.inr ⟨b, rfl⟩)]
      ring

theorem FactsR.init (h : FactsR N k e c S' S L pA pB d' d x' x)
    {s' : State ι'} {s : State ι} (hs' : ∀ v ∈ S'.fields ++ S'.memory, s' v = 0)
    (hs0 : ∀ v ∈ S.fields ++ S.memory, s v = 0) : L.Rel N k e c pA pB s' s := by
  have m1 : ∀ a b i, L.mψ (k.bc e c) s' a b i = 0 ∧ L.mφ (k.bc e c) s' a b i = 0 := by
    intro a b i
    unfold Lay.mψ Lay.mφ memOf
    rcases hx : L.ax a b with _ | α
    · simp
    · obtain ⟨-, z1, z2⟩ := h.zmem a b α hx
      simp only [BC.mem]
      cases (k.bc e c).pml <;> simp [hs' _ (List.mem_append_right _ z1), hs' _ (List.mem_append_right _ z2)]
  have m2 : ∀ a b i, L.mψ c s a b i = 0 ∧ L.mφ c s a b i = 0 := by
    intro a b i
    unfold Lay.mψ Lay.mφ memOf
    rcases hx : L.ax a b with _ | α
    · simp
    · obtain ⟨⟨z1, z2⟩, -⟩ := h.zmem a b α hx
      simp only [BC.mem]
      cases c.pml <;> simp [hs0 _ (List.mem_append_right _ z1), hs0 _ (List.mem_append_right _ z2)]
  refine ⟨fun a i => ?_, fun b i => ?_, fun a b i => ?_, fun a b i => ?_, fun l b i => ?_⟩
  · rw [hs' _ (List.mem_append_left _ (h.zero _ (.inl ⟨_, rfl⟩)).2),
      hs0 _ (List.mem_append_left _ (h.zero _ (.inl ⟨_, rfl⟩)).1)]
    simp
  · rw [hs' _ (List.mem_append_left _ (h.zero _ (.inr ⟨_, rfl⟩)).2),
      hs0 _ (List.mem_append_left _ (h.zero _ (.inr ⟨_, rfl⟩)).1)]
    simp
  · rw [(m1 _ _ i).1, (m2 _ _ _).1, mul_zero]
  · rw [(m1 _ _ i).2, (m2 _ _ _).2, mul_zero]
  · rw [hs' _ (List.mem_append_left _ (h.zrel _ l l.2).2), hs0 _ (List.mem_append_left _ (h.zrel _ l l.2).1)]
    simp

/-- Samples of the exchanged attenuating set-up. -/
theorem FactsR.sample_eq (h : FactsR N k e c S' S L pA pB d' d x' x)
    {s' : State ι'} {s : State ι} (hs' : ∀ v ∈ S'.fields ++ S'.memory, s' v = 0)
    (hs0 : ∀ v ∈ S.fields ++ S.memory, s v = 0) {srcs : List (Source ι)} {r : Receiver ι}
    (hq : k = .xz → ∀ q ∈ srcs, q.ty ≠ .HZ) (hr : k = .xz → r.ty ≠ .HZ) (t : ℕ) :
    sample S' (srcs.map ((k.relabel e).source k.stype Exch.tsign)) s' ((k.relabel e).receiver k.stype r) t =
      Exch.tsign r.ty * sample S srcs s r t := by
  classical
  have hx := h.run_rel hq (h.init hs' hs0) (t + 1)
  let R : Solver.Scheme ι := fun f => if (∃ a, f = L.gA a) ∨ ∃ b, f = L.gB b then
    some ⟨false, fun _ => 0, fun _ => none, fun _ => 0⟩ else none
  refine Relabel.gather_eq (R := R) (κ := Exch.tsign) ?_ ?_
  · have := h.recv r.ty hr
    revert this
    rcases S'.recv (k.stype r.ty) with _ | ⟨q', fs'⟩ <;> rcases S.recv r.ty with _ | ⟨q, fs⟩ <;> simp only [imp_self]
    rintro ⟨g1, g2, g3⟩
    refine ⟨g1, g2, fun f hf => ⟨?_, (g3 f hf).2⟩⟩
    simp only [R, if_pos (g3 f hf).1, Option.isSome_some]
  · intro f row hrow
    simp only [R] at hrow
    split at hrow
    · rename_i hf
      injection hrow with hrow
      subst hrow
      refine ⟨fun i => ?_, fun a t ht => by simp at ht⟩
      rcases hf with ⟨a, rfl⟩ | ⟨b, rfl⟩
      · have := hx.y a i
        simp only [h.lay.gA] at this
        exact this
      · have := hx.z b i
        simp only [h.lay.gB] at this
        exact this
    · simp at hrow
end

end Verif.Solver
