import Verif.Props.LeapfrogVisco
import Verif.Props.ModelValues
import Verif.Props.ModelParamEM
import Verif.Lemmas.Harmonic

/-!
# C131: the simulated medium has the frequency response of its parameters
-/
set_option linter.dupNamespace false

namespace Verif.Solver
open Complex

variable {NX NY NZ : ℕ}

/-- Corner frequency of a relaxation mechanism. -/
noncomputable def corner (τ : ℕ → ℝ) (l : ℕ) : ℝ := 1 / (2 * Real.pi * τ l)

/-- Generalised standard linear solid: rate of the stress component for the velocity gradient `V` (first
argument: component, second argument: direction of the derivative) at the angular frequency `w`. -/
noncomputable def solidRate (dims : List Axis) (m : Mod (Pt NX NY NZ)) (w : ℝ) (V : Axis → Axis → ℂ) (a b : Axis)
    (i : Pt NX NY NZ) : ℂ :=
  (if a = b then (MP.complexModulus (m.pMod i) (m.tauP i) m.L (corner m.relaxTime) (w / (2 * Real.pi)) -
      2 * MP.complexModulus (m.sMod i) (m.tauS i) m.L (corner m.relaxTime) (w / (2 * Real.pi))) *
    (dims.map fun k => V k k).sum else 0) +
  MP.complexModulus (m.muAt a b i) (m.tauAt a b i) m.L (corner m.relaxTime) (w / (2 * Real.pi)) * (V a b + V b a)

private theorem relax_factor (τ w : ℝ) : I * (w : ℂ) * τ / (1 + I * w * τ) = 1 - 1 / (1 + I * w * τ) := by
  have : (1 : ℂ) + I * w * τ ≠ 0 := by
    intro h
    have := congrArg Complex.re h
    simp at this
  field_simp
  ring

private theorem one_add_ne (τ w : ℝ) : (1 : ℂ) + I * w * τ ≠ 0 := by
  intro h
  have := congrArg Complex.re h
  simp at this

private theorem modulus_eq {M tau w : ℝ} {n : ℕ} {τ : ℕ → ℝ} (hτ : ∀ l < n, 0 < τ l) :
    MP.complexModulus M tau n (corner τ) (w / (2 * Real.pi)) =
      M * (1 + tau * (n - ∑ l ∈ Finset.range n, 1 / (1 + I * w * τ l))) := by
  unfold MP.complexModulus corner
  have hpi : (Real.pi : ℂ) ≠ 0 := by exact_mod_cast Real.pi_ne_zero
  have : ∀ l ∈ Finset.range n, I * (2 * (Real.pi : ℂ) * ((w / (2 * Real.pi) : ℝ) : ℂ)) /
      ((2 * Real.pi * (1 / (2 * Real.pi * τ l)) : ℝ) + I * (2 * Real.pi * ((w / (2 * Real.pi) : ℝ) : ℂ))) =
      1 - 1 / (1 + I * w * τ l) := by
    intro l hl
    have h0 := hτ l (Finset.mem_range.mp hl)
    rw [← relax_factor (τ l) w]
    have h1 : (τ l : ℂ) ≠ 0 := by exact_mod_cast h0.ne'
    have h2 := one_add_ne (τ l) w
    have e1 : 2 * (Real.pi : ℂ) * ((w / (2 * Real.pi) : ℝ) : ℂ) = w := by
      push_cast
      field_simp
    have e2 : ((2 * Real.pi * (1 / (2 * Real.pi * τ l)) : ℝ) : ℂ) = 1 / τ l := by
      push_cast
      field_simp
    rw [e1, e2]
    have h3 : (1 : ℂ) / τ l + I * w ≠ 0 := by
      intro h
      apply h2
      have := congrArg (· * (τ l : ℂ)) h
      simp only [zero_mul, add_mul] at this
      rw [div_mul_cancel₀ _ h1] at this
      exact this
    rw [div_eq_div_iff h3 h2]
    field_simp
  rw [Finset.sum_congr rfl this, Finset.sum_sub_distrib]
  simp

/-- Amplitude of one relaxing component: `G` belongs to the relaxed and `H` to the relaxing moduli. -/
private theorem solid_amplitude {w dt : ℝ} (hdt : 0 < dt) (hw : Real.sin (w * dt) ≠ 0) {L : ℕ} {τ : ℕ → ℝ}
    {S G H : ℂ} {R : ℕ → ℂ}
    (h1 : turn w dt * S = S + dt * (G + L * H) + ∑ l : Fin L, dt * ((R l + turn w dt * R l) / 2))
    (h2 : ∀ l < L, τ l * (turn w dt * R l - R l) = -(dt * ((R l + turn w dt * R l) / 2) + dt * H)) :
    (turn w dt - 1) / dt * S = G + H * (L - ∑ l ∈ Finset.range L, 1 / (1 + I * seenFreq w dt * τ l)) := by
  have hd : (dt : ℂ) ≠ 0 := by exact_mod_cast hdt.ne'
  have ht := turn_sub hdt.ne' hw
  have hm := turn_ne hw
  have hR : ∀ l < L, (turn w dt + 1) / 2 * R l = -(H * (1 / (1 + I * seenFreq w dt * τ l))) := by
    intro l hl
    have h := h2 l hl
    have hn := one_add_ne (τ l) (seenFreq w dt)
    have e : dt * ((turn w dt + 1) / 2 * R l * (1 + I * seenFreq w dt * τ l)) = dt * (-H) := by
      have : turn w dt * R l - R l = (turn w dt - 1) * R l := by ring
      rw [this, ht] at h
      linear_combination h
    have e2 := mul_left_cancel₀ hd e
    rw [mul_one_div, ← neg_div, eq_div_iff hn]
    exact e2
  have : ∑ l : Fin L, (dt : ℂ) * ((R l + turn w dt * R l) / 2) =
      dt * -(H * ∑ l ∈ Finset.range L, 1 / (1 + I * seenFreq w dt * τ l)) := by
    rw [Finset.sum_range, Finset.mul_sum, ← Finset.sum_neg_distrib, Finset.mul_sum]
    refine Finset.sum_congr rfl fun l _ => ?_
    rw [← hR l l.2]
    ring
  rw [this] at h1
  field_simp
  linear_combination h1

/-- The slopes of a harmonic velocity field enter Hooke's law with their amplitudes. -/
private theorem hooke_harmonic {w dt : ℝ} {sp : Int} {DH : ℝ} {c : BC (Pt NX NY NZ)} {s : ℕ → State (Pt NX NY NZ)}
    {dims : List Axis} {m : Mod (Pt NX NY NZ)} {v : ℕ → Axis → Pt NX NY NZ → ℝ} {V : Axis → Axis → ℂ} {i : Pt NX NY NZ}
    {a b : Axis} (ha : a ∈ dims) (hb : b ∈ dims)
    (hV : ∀ p ∈ dims, ∀ q ∈ dims, Harmonic w dt (fun n => slope sp dt DH c (s n) q (vel p) (v n p) i) (dt * V p q))
    (wP : Pt NX NY NZ → ℝ) (wS : Axis → Axis → Pt NX NY NZ → ℝ) :
    Harmonic w dt (fun n => hooke sp dt DH c (s n) dims m wP wS (v n) a b i)
      (dt * ((if a = b then (m.pMod i * wP i - 2 * m.sMod i * wS a b i : ℝ) * (dims.map fun k => V k k).sum else 0) +
        (m.muAt a b i * wS a b i : ℝ) * (V a b + V b a))) := by
  have h1 : ∀ ds : List Axis, (∀ k ∈ ds, k ∈ dims) → Harmonic w dt
      (fun n => (ds.map fun k => slope sp dt DH c (s n) k (vel k) (v n k) i).sum) (dt * (ds.map fun k => V k k).sum) := by
    intro ds
    induction ds with
    | nil => intro _; simpa using Harmonic.zero
    | cons k ds ih =>
      intro h
      simp only [List.map_cons, List.sum_cons, mul_add]
      exact (hV k (h k (by simp)) k (h k (by simp))).add (ih fun q hq => h q (by simp [hq]))
  have h2 := h1 dims fun _ h => h
  unfold hooke
  rw [mul_add]
  refine Harmonic.add ?_ ?_
  · by_cases hab : a = b
    · simp only [if_pos hab]
      have := h2.smul (m.pMod i * wP i - 2 * m.sMod i * wS a b i)
      rwa [mul_left_comm] at this
    · simp only [if_neg hab, mul_zero]
      exact Harmonic.zero
  · have := ((hV a ha b hb).add (hV b hb a ha)).smul (m.muAt a b i * wS a b i)
    rwa [← mul_add, mul_left_comm] at this

private theorem solid_response {w dt : ℝ} (hdt : 0 < dt) (hw : Real.sin (w * dt) ≠ 0) {sp : Int} {DH : ℝ}
    {c : BC (Pt NX NY NZ)} (hc : c.damping = none) {dims : List Axis} {m : Mod (Pt NX NY NZ)}
    (hτ : ∀ l < m.L, 0 < m.relaxTime l) {s T : ℕ → State (Pt NX NY NZ)}
    (hT : ∀ n, ViscoelasticStep sp dt DH c (s n) dims m m.tauAt (T n)) {a b : Axis} (ha : a ∈ dims) (hb : b ∈ dims)
    {i : Pt NX NY NZ}
    (hs : ∀ n, s (n + 1) (.fld (stress a b)) i = T n (.fld (stress a b)) i ∧
      ∀ l < m.L, s (n + 1) (.rel (stress a b) l) i = T n (.rel (stress a b) l) i)
    {S : ℂ} {R : ℕ → ℂ} {V : Axis → Axis → ℂ}
    (hS : Harmonic w dt (fun n => s n (.fld (stress a b)) i) S)
    (hR : ∀ l < m.L, Harmonic w dt (fun n => s n (.rel (stress a b) l) i) (R l))
    (hV : ∀ p ∈ dims, ∀ q ∈ dims,
      Harmonic w dt (fun n => slope sp dt DH c (s n) q (vel p) (T n (.fld (vel p))) i) (dt * V p q)) :
    (exp (I * (w * dt : ℝ)) - 1) / dt * S = solidRate dims m (seenFreq w dt) V a b i := by
  choose v h1 h2 h3 h4 h5 using fun n => (hT n).step
  have hf : frame c i = 1 := by simp [frame, hc]
  have hv : ∀ n, ∀ p ∈ dims, v n p = T n (.fld (vel p)) := by
    intro n p hp
    funext j
    rw [h2 n p hp j]
    simp [frame, hc]
  have hV' : ∀ p ∈ dims, ∀ q ∈ dims,
      Harmonic w dt (fun n => slope sp dt DH c (s n) q (vel p) (v n p) i) (dt * V p q) :=
    fun p hp q hq => (hV p hp q hq).congr fun n => by rw [hv n p hp]
  have hG := hooke_harmonic ha hb hV' (fun j => 1 + m.L * m.tauP j) (fun a b j => 1 + m.L * m.tauAt a b j) (m := m)
  have hH := hooke_harmonic ha hb hV' m.tauP m.tauAt (m := m)
  set H : ℂ := (if a = b then (m.pMod i * m.tauP i - 2 * m.sMod i * m.tauAt a b i : ℝ) * (dims.map fun k => V k k).sum else 0) +
        (m.muAt a b i * m.tauAt a b i : ℝ) * (V a b + V b a) with hHd
  set G : ℂ := (if a = b then (m.pMod i - 2 * m.sMod i : ℝ) * (dims.map fun k => V k k).sum else 0) +
        (m.muAt a b i : ℝ) * (V a b + V b a) with hGd
  have e1 : turn w dt * S = S + dt * (G + m.L * H) + ∑ l : Fin m.L, dt * ((R l + turn w dt * R l) / 2) := by
    refine harmonic_unique hw hS.next ?_
    have hr := Harmonic.sum Finset.univ fun (l : Fin m.L) _ =>
      (((hR l l.2).add (hR l l.2).next).smul (1 / 2 : ℝ)).smul dt
    refine Harmonic.congr (f := fun n => s n (.fld (stress a b)) i +
      hooke sp dt DH c (s n) dims m (fun j => 1 + m.L * m.tauP j) (fun a b j => 1 + m.L * m.tauAt a b j) (v n) a b i +
      ∑ l : Fin m.L, dt * ((1 / 2) * (s n (.rel (stress a b) l) i + s (n + 1) (.rel (stress a b) l) i))) ?_ ?_
    · have := (hS.add hG).add hr
      convert this using 1
      congr 1
      · congr 2
        rw [hGd, hHd]
        split_ifs <;> push_cast <;> ring
      · refine Finset.sum_congr rfl fun l _ => ?_
        push_cast
        ring
    · intro n
      rw [(hs n).1, h4 n a ha b hb i, hf, one_mul, relaxation]
      congr 1
      refine Finset.sum_congr rfl fun l _ => ?_
      rw [(hs n).2 l l.2]
      ring
  have e2 : ∀ l < m.L, m.relaxTime l * (turn w dt * R l - R l) = -(dt * ((R l + turn w dt * R l) / 2) + dt * H) := by
    intro l hl
    have q1 := (((hR l hl).next).add ((hR l hl).smul (-1))).smul (m.relaxTime l)
    have q2 := ((((hR l hl).add (hR l hl).next).smul (dt / 2)).add hH).smul (-1)
    have := harmonic_unique hw q1 (q2.congr fun n => by
      have := h3 n a ha b hb ⟨l, hl⟩ i
      unfold Relaxes at this
      simp only at this
      rw [(hs n).2 l hl]
      linear_combination this)
    push_cast at this
    linear_combination this
  have key := solid_amplitude hdt hw e1 e2
  rw [turn] at key
  rw [key, solidRate, modulus_eq hτ, modulus_eq hτ, modulus_eq hτ, hGd, hHd]
  have ht : a = b → m.tauAt a b i = m.tauS i := by
    rintro rfl
    cases a <;> rfl
  split_ifs with hab
  · rw [ht hab]
    push_cast
    ring
  · push_cast
    ring

/-- C131: stresses of the 3D viscoelastic solver.  If the velocity gradient at a point, the stress there and
its relaxation variables oscillate harmonically (`s n` is any sequence of states in which the solver alone
changes this stress), then the rate of the stress is the velocity gradient times the complex moduli of the
generalised standard linear solid, taken at the frequency `2 tan (w dt / 2) / dt`, which tends to `w`
(`C131_frequency`).
`partial`: the averaged relaxation strength of shear has to be the local one, see C106. -/
theorem C131_viscoelastic3D_partial {w dt : ℝ} (hdt : 0 < dt) (hw : Real.sin (w * dt) ≠ 0) (sp : Int) (DH : ℝ)
    (c : BC (Pt NX NY NZ)) (hc : c.damping = none) (hf : c.useFreeSurface ≠ 1) (m : Mod (Pt NX NY NZ)) (hm : m.DT = dt)
    (hτ : ∀ l < m.L, 0 < m.relaxTime l)
    (hu : ∀ i, m.tauSXY i = m.tauS i ∧ m.tauSXZ i = m.tauS i ∧ m.tauSYZ i = m.tauS i)
    (s : ℕ → State (Pt NX NY NZ)) (a b : Axis) (i : Pt NX NY NZ) :
    let T : ℕ → State (Pt NX NY NZ) := fun n => exec (viscoelastic3D (surfaceDeriv NX NY NZ sp dt DH) m c) (s n)
    ∀ (_ : ∀ n, s (n + 1) (.fld (stress a b)) i = T n (.fld (stress a b)) i ∧
        ∀ l < m.L, s (n + 1) (.rel (stress a b) l) i = T n (.rel (stress a b) l) i)
      (S : ℂ) (R : ℕ → ℂ) (V : Axis → Axis → ℂ)
      (_ : Harmonic w dt (fun n => s n (.fld (stress a b)) i) S)
      (_ : ∀ l < m.L, Harmonic w dt (fun n => s n (.rel (stress a b) l) i) (R l))
      (_ : ∀ p q, Harmonic w dt (fun n => slope sp dt DH c (s n) q (vel p) (T n (.fld (vel p))) i) (dt * V p q)),
      (exp (I * (w * dt : ℝ)) - 1) / dt * S = solidRate [.x, .y, .z] m (seenFreq w dt) V a b i := by
  intro T hs S R V hS hR hV
  have hall : ∀ a : Axis, a ∈ [Axis.x, .y, .z] := by intro a; cases a <;> simp
  exact solid_response hdt hw hc hτ (fun n => (C106_visco_uniform_partial sp dt DH c (s n) m hm hdt.le hτ hu).2.2 hf)
    (hall a) (hall b) hs hS hR fun p _ q _ => hV p q

/-- C131: stresses of the 2D viscoelastic solver. -/
theorem C131_viscoelastic2D_partial {w dt : ℝ} (hdt : 0 < dt) (hw : Real.sin (w * dt) ≠ 0) (sp : Int) (DH : ℝ)
    (c : BC (Pt NX NY NZ)) (hc : c.damping = none) (hf : c.useFreeSurface = 0) (m : Mod (Pt NX NY NZ)) (hm : m.DT = dt)
    (hτ : ∀ l < m.L, 0 < m.relaxTime l)
    (hu : ∀ i, m.tauSXY i = m.tauS i ∧ m.tauSXZ i = m.tauS i ∧ m.tauSYZ i = m.tauS i)
    (s : ℕ → State (Pt NX NY NZ)) (a b : Axis) (ha : a ≠ .z) (hb : b ≠ .z) (i : Pt NX NY NZ) :
    let T : ℕ → State (Pt NX NY NZ) := fun n => exec (viscoelastic2D (surfaceDeriv NX NY NZ sp dt DH) m c) (s n)
    ∀ (_ : ∀ n, s (n + 1) (.fld (stress a b)) i = T n (.fld (stress a b)) i ∧
        ∀ l < m.L, s (n + 1) (.rel (stress a b) l) i = T n (.rel (stress a b) l) i)
      (S : ℂ) (R : ℕ → ℂ) (V : Axis → Axis → ℂ)
      (_ : Harmonic w dt (fun n => s n (.fld (stress a b)) i) S)
      (_ : ∀ l < m.L, Harmonic w dt (fun n => s n (.rel (stress a b) l) i) (R l))
      (_ : ∀ p q, p ≠ .z → q ≠ .z →
        Harmonic w dt (fun n => slope sp dt DH c (s n) q (vel p) (T n (.fld (vel p))) i) (dt * V p q)),
      (exp (I * (w * dt : ℝ)) - 1) / dt * S = solidRate [.x, .y] m (seenFreq w dt) V a b i := by
  intro T hs S R V hS hR hV
  have hall : ∀ a : Axis, a ∈ [Axis.x, .y] ↔ a ≠ .z := by intro a; cases a <;> simp
  exact solid_response hdt hw hc hτ (fun n => (C106_visco_uniform_partial sp dt DH c (s n) m hm hdt.le hτ hu).2.1 hf)
    ((hall a).2 ha) ((hall b).2 hb) hs hS hR fun p hp q hq => hV p q ((hall p).1 hp) ((hall q).1 hq)

/-- C131: stresses of the viscoelastic SH solver; `V` is the derivative of the velocity along `a`. -/
theorem C131_viscosh2D_partial {w dt : ℝ} (hdt : 0 < dt) (hw : Real.sin (w * dt) ≠ 0) (sp : Int) (DH : ℝ)
    (c : BC (Pt NX NY NZ)) (hc : c.damping = none) (hf : c.useFreeSurface ≠ 1) (m : Mod (Pt NX NY NZ)) (hm : m.DT = dt)
    (hτ : ∀ l < m.L, 0 < m.relaxTime l)
    (hu : ∀ i, m.tauSXY i = m.tauS i ∧ m.tauSXZ i = m.tauS i ∧ m.tauSYZ i = m.tauS i)
    (s : ℕ → State (Pt NX NY NZ)) (a : Axis) (ha : a ≠ .z) (i : Pt NX NY NZ) :
    let T : ℕ → State (Pt NX NY NZ) := fun n => exec (viscosh2D (surfaceDeriv NX NY NZ sp dt DH) m c) (s n)
    ∀ (_ : ∀ n, s (n + 1) (.fld (stress a .z)) i = T n (.fld (stress a .z)) i ∧
        ∀ l < m.L, s (n + 1) (.rel (stress a .z) l) i = T n (.rel (stress a .z) l) i)
      (S : ℂ) (R : ℕ → ℂ) (V : ℂ)
      (_ : Harmonic w dt (fun n => s n (.fld (stress a .z)) i) S)
      (_ : ∀ l < m.L, Harmonic w dt (fun n => s n (.rel (stress a .z) l) i) (R l))
      (_ : Harmonic w dt (fun n => slope sp dt DH c (s n) a .vZ (T n (.fld .vZ)) i) (dt * V)),
      (exp (I * (w * dt : ℝ)) - 1) / dt * S = MP.complexModulus (m.muAt a .z i) (m.tauAt a .z i) m.L
        (corner m.relaxTime) (seenFreq w dt / (2 * Real.pi)) * V := by
  intro T hs S R V hS hR hV
  choose v h1 h2 h3 h4 h5 using fun n =>
    ((C106_visco_uniform_partial sp dt DH c (s n) m hm hdt.le hτ hu).1 hf).step
  have hf : frame c i = 1 := by simp [frame, hc]
  have hv : ∀ n, v n = T n (.fld .vZ) := by
    intro n
    funext j
    rw [show T n (.fld .vZ) j = _ from h2 n j]
    simp [frame, hc]
  have ha' : a ∈ [Axis.x, .y] := by cases a <;> simp_all
  have e1 : turn w dt * S = S + dt * ((m.muAt a .z i : ℝ) * V + m.L * ((m.muAt a .z i * m.tauAt a .z i : ℝ) * V)) +
      ∑ l : Fin m.L, dt * ((R l + turn w dt * R l) / 2) := by
    refine harmonic_unique hw hS.next ?_
    have hr := Harmonic.sum Finset.univ fun (l : Fin m.L) _ =>
      (((hR l l.2).add (hR l l.2).next).smul (1 / 2 : ℝ)).smul dt
    have h : Harmonic w dt (fun n => s (n + 1) (.fld (stress a .z)) i) _ :=
      ((hS.add (hV.smul (m.muAt a .z i * (1 + m.L * m.tauAt a .z i)))).add hr).congr fun n => by
        rw [(hs n).1, show T n (.fld (stress a .z)) i = _ from h4 n a ha' i, hf, one_mul, relaxation, hv n]
        congr 1
        refine Finset.sum_congr rfl fun l _ => ?_
        rw [(hs n).2 l l.2]
        ring
    convert h using 1
    congr 1
    · push_cast
      ring
    · refine Finset.sum_congr rfl fun l _ => ?_
      push_cast
      ring
  have e2 : ∀ l < m.L, m.relaxTime l * (turn w dt * R l - R l) =
      -(dt * ((R l + turn w dt * R l) / 2) + dt * ((m.muAt a .z i * m.tauAt a .z i : ℝ) * V)) := by
    intro l hl
    have q1 := (((hR l hl).next).add ((hR l hl).smul (-1))).smul (m.relaxTime l)
    have q2 := ((((hR l hl).add (hR l hl).next).smul (dt / 2)).add (hV.smul (m.muAt a .z i * m.tauAt a .z i))).smul (-1)
    have := harmonic_unique hw q1 (q2.congr fun n => by
      have := h3 n a ha' ⟨l, hl⟩ i
      unfold Relaxes at this
      simp only [hv n] at this
      rw [(hs n).2 l hl]
      linear_combination this)
    push_cast at this
    push_cast
    linear_combination this
  have key := solid_amplitude hdt hw e1 e2
  rw [turn] at key
  rw [key, modulus_eq hτ]
  push_cast
  ring

open Filter Topology in
/-- C131: the frequency at which the moduli are taken tends to the frequency of the oscillation, and so
do the complex moduli. -/
theorem C131_frequency (w : ℝ) :
    Tendsto (seenFreq w) (𝓝[>] 0) (𝓝 w) ∧ ∀ (M tau : ℝ) (n : ℕ) (τ : ℕ → ℝ), (∀ l < n, 0 < τ l) →
      Tendsto (fun dt => MP.complexModulus M tau n (corner τ) (seenFreq w dt / (2 * Real.pi))) (𝓝[>] 0)
        (𝓝 (MP.complexModulus M tau n (corner τ) (w / (2 * Real.pi)))) := by
  refine ⟨seenFreq_tendsto w, fun M tau n τ hτ => ?_⟩
  simp only [modulus_eq hτ]
  refine tendsto_const_nhds.mul (tendsto_const_nhds.add (tendsto_const_nhds.mul (tendsto_const_nhds.sub
    (tendsto_finsetSum _ fun l _ => tendsto_const_nhds.div ?_ (one_add_ne (τ l) w)))))
  exact tendsto_const_nhds.add ((tendsto_const_nhds.mul
    ((continuous_ofReal.tendsto w).comp (seenFreq_tendsto w))).mul tendsto_const_nhds)

/-! ## Electromagnetic media -/

/-- Debye medium with the static permittivity `ε`, of which the part `τε` relaxes in equal parts with the times
`τ l`, and with a conductivity `σ` that follows the field with the delay `τσ`: current density per electric
field at the angular frequency `w`. -/
noncomputable def debye (ε σ τε τσ : ℝ) (L : ℕ) (τ : ℕ → ℝ) (w : ℝ) : ℂ :=
  I * w * (ε * (1 - τε + τε / L * ∑ l ∈ Finset.range L, 1 / (1 + I * w * τ l))) + σ * (1 + I * w * τσ)

private theorem debye_opt {ε σ τε τσ w : ℝ} {L : ℕ} {τ : ℕ → ℝ} (hτ : ∀ l < L, 0 < τ l) :
    debye ε σ τε τσ L τ w = I * w * ((1 - τε) * ε + σ * τσ : ℝ) +
      (τε * ((∑ l ∈ Finset.range L, 1 / τ l) / L) * ε + σ : ℝ) -
      ∑ l ∈ Finset.range L, (τε * ε / (L * τ l) : ℝ) / (1 + I * w * τ l) := by
  have : ∀ l ∈ Finset.range L, ((τε * ε / (L * τ l) : ℝ) : ℂ) / (1 + I * w * τ l) =
      τε * ε / L * ((1 / τ l : ℝ) : ℂ) - I * w * (ε * (τε / L * (1 / (1 + I * w * τ l)))) := by
    intro l hl
    have h1 : (τ l : ℂ) ≠ 0 := by exact_mod_cast (hτ l (Finset.mem_range.mp hl)).ne'
    have h2 := one_add_ne (τ l) w
    push_cast
    by_cases hL : (L : ℂ) = 0
    · simp [hL]
    · rw [← sub_eq_zero]
      generalize hz : (1 + I * w * τ l : ℂ) = z at h2
      field_simp
      rw [← hz]
      ring
  rw [Finset.sum_congr rfl this, Finset.sum_sub_distrib, ← Finset.mul_sum, ← Finset.mul_sum, ← Finset.mul_sum,
    ← Finset.mul_sum, debye]
  push_cast
  ring

/-- C131: the response from which the model class computes effective permittivity and conductivity (C82) is
that of the Debye medium. -/
theorem C131_model_response {ι : Type} (b : EMP.Base ι) (w : ℝ) (x : ι) (hf : ∀ l < b.numRelax, 0 < b.freq.getD l 0) :
    EMP.response b w x = debye (b.eps x) (b.sigma x) (b.tauEps x) (b.tauSigma x) b.numRelax
      (fun l => 1 / (2 * Real.pi * b.freq.getD l 0)) w := by
  have hτ : ∀ l < b.numRelax, 0 < 1 / (2 * Real.pi * b.freq.getD l 0) := fun l hl => by
    have := hf l hl
    have := Real.pi_pos
    positivity
  rw [debye_opt hτ]
  unfold EMP.response
  simp only
  rw [sub_eq_add_neg _ (Finset.sum _ _), ← Finset.sum_neg_distrib]
  refine congrArg₂ (· + ·) ?_ (Finset.sum_congr rfl fun l hl => ?_)
  · push_cast
    ring
  · have h0 := hτ l (Finset.mem_range.mp hl)
    generalize 1 / (2 * Real.pi * b.freq.getD l 0) = t at *
    have h1 : (t : ℂ) ≠ 0 := by exact_mod_cast h0.ne'
    have h2 := one_add_ne t w
    have h3 : I * (w : ℂ) + ((1 / t : ℝ) : ℂ) = (1 + I * w * t) / t := by
      push_cast
      field_simp
      ring
    rw [h3]
    push_cast
    by_cases hL : (b.numRelax : ℂ) = 0
    · simp [hL]
    · field_simp

/-- Amplitude of one electric component. -/
private theorem debye_amplitude {w dt : ℝ} (hdt : 0 < dt) (hw : Real.sin (w * dt) ≠ 0) {L : ℕ} {τ B : ℕ → ℝ} {e g : ℝ}
    {E K : ℂ} {R : ℕ → ℂ}
    (h1 : e * (turn w dt * E - E) = dt * K - dt * (g * ((E + turn w dt * E) / 2) + ∑ l : Fin L, turn w dt * R l))
    (h2 : ∀ l < L, τ l * (turn w dt * R l - R l) = -(dt * ((R l + turn w dt * R l) / 2) + dt * (B l * E))) :
    K = (I * seenFreq w dt * e + g - 1 / (Real.cos (w * dt / 2) : ℂ) ^ 2 * ∑ l ∈ Finset.range L,
      B l / (1 + I * seenFreq w dt * τ l)) * (E * ((turn w dt + 1) / 2)) := by
  have hd : (dt : ℂ) ≠ 0 := by exact_mod_cast hdt.ne'
  have ht := turn_sub hdt.ne' hw
  have hR : ∀ l < L, (turn w dt + 1) / 2 * R l = -(E * (B l / (1 + I * seenFreq w dt * τ l))) := by
    intro l hl
    have h := h2 l hl
    have hn := one_add_ne (τ l) (seenFreq w dt)
    have e : dt * ((turn w dt + 1) / 2 * R l * (1 + I * seenFreq w dt * τ l)) = dt * (-(E * B l)) := by
      have : turn w dt * R l - R l = (turn w dt - 1) * R l := by ring
      rw [this, ht] at h
      linear_combination h
    have e2 := mul_left_cancel₀ hd e
    rw [← mul_div_assoc, ← neg_div, eq_div_iff hn]
    exact e2
  have hsum : ∑ l : Fin L, turn w dt * R l = -((turn w dt + 1) / 2 / (Real.cos (w * dt / 2) : ℂ) ^ 2 * (E *
      ∑ l ∈ Finset.range L, B l / (1 + I * seenFreq w dt * τ l))) := by
    rw [Finset.sum_range, Finset.mul_sum, Finset.mul_sum, ← Finset.sum_neg_distrib]
    refine Finset.sum_congr rfl fun l _ => ?_
    have h := hR l l.2
    have hm := turn_mean hw
    calc turn w dt * R l = (turn w dt + 1) / 2 / (Real.cos (w * dt / 2) : ℂ) ^ 2 * ((turn w dt + 1) / 2 * R l) := by
          conv_lhs => rw [hm]
          ring
      _ = _ := by rw [h]; ring
  rw [hsum] at h1
  have : turn w dt * E - E = (turn w dt - 1) * E := by ring
  rw [this, ht] at h1
  refine mul_left_cancel₀ hd ?_
  linear_combination -h1

/-- The attenuating electromagnetic solvers: derivatives along `dims`, magnetic components `hs`, electric
components `es`. -/
inductive ViscoEM (D : Deriv (Pt NX NY NZ)) (m : EMod (Pt NX NY NZ)) (c : BC (Pt NX NY NZ)) :
    List Axis → List Axis → List Axis → List (Stmt (Pt NX NY NZ)) → Prop
  | emem2D : ViscoEM D m c [.x, .y] [.z] [.x, .y] (viscoemem2D D m c)
  | tmem2D : ViscoEM D m c [.x, .y] [.x, .y] [.z] (viscotmem2D D m c)
  | emem3D (h : c.pml = none) : ViscoEM D m c [.x, .y, .z] [.x, .y, .z] [.x, .y, .z] (viscoemem3D D m c)

private theorem curl_congr {sp : Int} {DT DH : ℝ} {c : BC (Pt NX NY NZ)} {s : State (Pt NX NY NZ)} {dims : List Axis}
    {F : Axis → Fld} {v v' : Fld → Pt NX NY NZ → ℝ} {a : Axis}
    (h : ∀ b ∈ dims, ∀ d, levi a b d ≠ 0 → v (F d) = v' (F d)) (i : Pt NX NY NZ) :
    curl sp DT DH c s dims F v a i = curl sp DT DH c s dims F v' a i := by
  unfold curl
  congr 1
  refine List.map_congr_left fun b hb => ?_
  congr 1
  refine List.map_congr_left fun d _ => ?_
  by_cases hl : levi a b d = 0
  · simp [hl]
  · rw [h b hb d hl]

open Filter Topology in
/-- C131: electric fields.  If the electric field at a point, its relaxation currents and the curl of the
magnetic field there oscillate harmonically (`s n` is any sequence of states in which the solver alone changes
this component), then curl and electric field are related by a response that tends to the response of the
Debye medium as the time step tends to zero; the curl belongs to the middle of the time step.  (`epsVac ≤ …`:
the optical permittivity is not below that of vacuum, else the code replaces it.) -/
theorem C131_electromagnetic (m : EMod (Pt NX NY NZ)) (hτ : ∀ l < m.L, 0 < m.relaxTime l) (hε : 0 < m.epsVac)
    (hσ : ∀ a i, 0 ≤ m.sigEff a i) (a : Axis) (i : Pt NX NY NZ)
    (hopt : m.epsVac ≤ (1 - m.tauEps a i) * m.eps a i + m.sig a i * m.tauSig a i) (w : ℝ) :
    ∃ Y : ℝ → ℂ,
      Tendsto Y (𝓝[>] 0)
        (𝓝 (debye (m.eps a i) (m.sig a i) (m.tauEps a i) (m.tauSig a i) m.L m.relaxTime w)) ∧
      ∀ dt > 0, Real.sin (w * dt) ≠ 0 → ∀ (sp : Int) (DH : ℝ) (c : BC (Pt NX NY NZ)), c.damping = none →
      ∀ (dims hs es : List Axis) (prog : List (Stmt (Pt NX NY NZ))),
      ViscoEM (surfaceDeriv NX NY NZ sp dt DH) { m with DT := dt } c dims hs es prog → a ∈ es →
      ∀ s : ℕ → State (Pt NX NY NZ),
      (∀ n, s (n + 1) (.fld (elec a)) i = exec prog (s n) (.fld (elec a)) i ∧
        ∀ l < m.L, s (n + 1) (.rel (elec a) l) i = exec prog (s n) (.rel (elec a) l) i) →
      ∀ (E K : ℂ) (R : ℕ → ℂ), Harmonic w dt (fun n => s n (.fld (elec a)) i) E →
      (∀ l < m.L, Harmonic w dt (fun n => s n (.rel (elec a) l) i) (R l)) →
      Harmonic w dt (fun n => curl sp dt DH c (s n) dims magn (fun f => exec prog (s n) (.fld f)) a i) (dt * K) →
      K = Y dt * (E * ((1 + exp (I * (w * dt : ℝ))) / 2)) := by
  refine ⟨fun dt => I * seenFreq w dt * ((1 - m.tauEps a i) * m.eps a i + m.sig a i * m.tauSig a i : ℝ) +
      (m.tauEps a i * ((∑ l ∈ Finset.range m.L, 1 / m.relaxTime l) / m.L) * m.eps a i + m.sig a i : ℝ) -
      1 / (Real.cos (w * dt / 2) : ℂ) ^ 2 * ∑ l ∈ Finset.range m.L,
        (m.tauEps a i * m.eps a i / (m.L * m.relaxTime l) : ℝ) / (1 + I * seenFreq w dt * m.relaxTime l), ?_, ?_⟩
  · rw [debye_opt hτ]
    have hs : Tendsto (fun dt => (seenFreq w dt : ℂ)) (𝓝[>] 0) (𝓝 (w : ℂ)) :=
      (continuous_ofReal.tendsto w).comp (seenFreq_tendsto w)
    have hcos : Tendsto (fun dt => 1 / (Real.cos (w * dt / 2) : ℂ) ^ 2) (𝓝[>] 0) (𝓝 1) := by
      have : ContinuousAt (fun dt : ℝ => 1 / (Real.cos (w * dt / 2) : ℂ) ^ 2) 0 := by
        refine ContinuousAt.div continuousAt_const ?_ (by simp)
        exact Continuous.continuousAt (by fun_prop)
      have := this.tendsto.mono_left (nhdsWithin_le_nhds (s := Set.Ioi 0))
      simpa using this
    refine ((tendsto_const_nhds.mul hs).mul tendsto_const_nhds |>.add tendsto_const_nhds).sub ?_
    have := hcos.mul (tendsto_finsetSum (Finset.range m.L) fun l _ => (tendsto_const_nhds
      (x := ((m.tauEps a i * m.eps a i / (m.L * m.relaxTime l) : ℝ) : ℂ))).div
      (tendsto_const_nhds.add ((tendsto_const_nhds.mul hs).mul tendsto_const_nhds)) (one_add_ne (m.relaxTime l) w))
    rwa [one_mul] at this
  · intro dt hdt hw sp DH c hc dims hs es prog hp ha s hstep E K R hE hR hK
    have hstep' : ∀ n, ViscoMaxwellStep sp dt DH c (s n) dims hs es { m with DT := dt } (exec prog (s n)) := by
      intro n
      cases hp with
      | emem2D => exact C106_viscoemem2D_partial sp dt DH c (s n) { m with DT := dt } rfl hdt.le hτ hε hσ
      | tmem2D => exact C106_viscotmem2D_partial sp dt DH c (s n) { m with DT := dt } rfl hdt.le hτ hε hσ
      | emem3D h => exact C106_viscoemem3D_partial sp dt DH c (s n) h { m with DT := dt } rfl hdt.le hτ hε hσ
    have hlevi : ∀ b ∈ dims, ∀ d, levi a b d ≠ 0 → d ∈ hs := by
      intro b hb d hd
      cases hp <;> revert hb ha hd <;> cases a <;> cases b <;> cases d <;> simp [levi]
    choose u h1 h2 h3 h4 h5 using fun n => (hstep' n).step
    have hf : ∀ j, frame c j = 1 := fun j => by simp [frame, hc]
    have hu : ∀ n, ∀ f ∈ hs.map magn ++ es.map elec, u n f = exec prog (s n) (.fld f) := by
      intro n f hm
      funext j
      rw [h4 n f hm j, hf, one_mul]
    have hK' : Harmonic w dt (fun n => curl sp dt DH c (s n) dims magn (u n) a i) (dt * K) :=
      hK.congr fun n => curl_congr (fun b hb d hd => hu n _
        (List.mem_append_left _ (List.mem_map_of_mem (hlevi b hb d hd)))) i
    have hnext : ∀ n, u n (elec a) i = s (n + 1) (.fld (elec a)) i := by
      intro n
      rw [(hstep n).1, hu n _ (List.mem_append_right _ (List.mem_map_of_mem ha))]
    have heps : ({ m with DT := dt } : EMod (Pt NX NY NZ)).epsEff a i =
        (1 - m.tauEps a i) * m.eps a i + m.sig a i * m.tauSig a i := by
      simp only [EMod.epsEff]
      exact if_neg (not_lt.mpr hopt)
    have hsig : ({ m with DT := dt } : EMod (Pt NX NY NZ)).sigEff a i =
        m.tauEps a i * ((∑ l ∈ Finset.range m.L, 1 / m.relaxTime l) / m.L) * m.eps a i + m.sig a i := by
      simp only [EMod.sigEff]
      rw [Finset.sum_range, ← List.sum_ofFn, List.ofFn_eq_map, ← List.map_coe_finRange_eq_range, List.map_map]
      rfl
    have e1 : ((({ m with DT := dt } : EMod (Pt NX NY NZ)).epsEff a i : ℝ) : ℂ) * (turn w dt * E - E) = dt * K -
        dt * ((({ m with DT := dt } : EMod (Pt NX NY NZ)).sigEff a i : ℝ) * ((E + turn w dt * E) / 2) +
          ∑ l : Fin m.L, turn w dt * R l) := by
      have hl := (hE.next.add (hE.smul (-1))).smul (({ m with DT := dt } : EMod (Pt NX NY NZ)).epsEff a i)
      have hr := hK'.add (((((hE.add hE.next).smul (1 / 2)).smul
        (({ m with DT := dt } : EMod (Pt NX NY NZ)).sigEff a i)).add (Harmonic.sum Finset.univ
          (fun (l : Fin m.L) _ => (hR l l.2).next))).smul (-dt))
      have := harmonic_unique hw hl (hr.congr fun n => by
        have h := h2 n a ha i
        rw [hnext n] at h
        have hrel : ∀ l : Fin m.L, exec prog (s n) (.rel (elec a) l) i = s (n + 1) (.rel (elec a) l) i :=
          fun l => ((hstep n).2 l l.2).symm
        simp only [hrel] at h
        simp only [old] at h
        linear_combination h)
      push_cast at this
      linear_combination this
    have e2 : ∀ l < m.L, (m.relaxTime l : ℂ) * (turn w dt * R l - R l) =
        -(dt * ((R l + turn w dt * R l) / 2) +
          dt * ((m.tauEps a i * m.eps a i / (m.L * m.relaxTime l) : ℝ) * E)) := by
      intro l hl
      have hl' := ((hR l hl).next.add ((hR l hl).smul (-1))).smul (m.relaxTime l)
      have hr := ((((hR l hl).add (hR l hl).next).smul (1 / 2 * dt)).add
        (hE.smul (dt * (m.tauEps a i * m.eps a i / (m.L * m.relaxTime l))))).smul (-1)
      have := harmonic_unique hw hl' (hr.congr fun n => by
        have h := h3 n a ha ⟨l, hl⟩ i
        simp only [Relaxes, old] at h
        rw [← (hstep n).2 l hl] at h
        linear_combination h)
      push_cast at this ⊢
      linear_combination this
    have := debye_amplitude hdt hw e1 e2
    rw [heps, hsig] at this
    rw [this, turn, add_comm (1 : ℂ)]

/-! ## Cases that meet the hypotheses -/

private theorem fwd_one (b : Axis) (v : Pt 1 1 1 → ℝ) (i : Pt 1 1 1) : (forwardMatrix 2 1 1 b).mulVec v i = -v i := by
  obtain ⟨x, y, z⟩ := i
  fin_cases x; fin_cases y; fin_cases z
  have f00 : Verif.Stencil.fwdStencilEntry 1 2 0 0 = -1 := by decide +kernel
  cases b <;>
    simp [Matrix.mulVec, dotProduct, forwardMatrix, Fintype.sum_prod_type, moveTo, along, axisSize, f00]

private theorem bwd_one (b : Axis) (v : Pt 1 1 1 → ℝ) (i : Pt 1 1 1) : (backwardMatrix 2 1 1 b).mulVec v i = v i := by
  have h := fwd_one b
  obtain ⟨x, y, z⟩ := i
  fin_cases x; fin_cases y; fin_cases z
  have := h v (0, 0, 0)
  simp [Matrix.mulVec, dotProduct, Fintype.sum_prod_type] at this
  simp [backwardMatrix, Matrix.mulVec, dotProduct, Fintype.sum_prod_type]
  linarith

private theorem turn_quarter (n : ℕ) : exp (I * (Real.pi / 2 * 1 * n : ℝ)) = I ^ n := by
  rw [turn_pow, turn]
  congr 1
  rw [mul_comm]
  push_cast
  rw [mul_one]
  exact exp_pi_div_two_mul_I

/-- SH waves at a quarter of the sampling frequency: the amplitudes `1` of the velocity gradient, `2 i` of the
relaxation variable and `-1 - 2 i` of the stress. -/
example : ∃ (m : Mod (Pt 1 1 1)) (s : ℕ → State (Pt 1 1 1)), m.L = 1 ∧ m.DT = 1 ∧ m.relaxTime 0 = 1 / 2 ∧
    m.muAt .x .z 0 = 2 ∧ m.tauAt .x .z 0 = 1 ∧ Real.sin (Real.pi / 2 * 1) ≠ 0 ∧
    let c : BC (Pt 1 1 1) := ⟨0, none, none, fun _ => false⟩
    let T : ℕ → State (Pt 1 1 1) := fun n => exec (viscosh2D (surfaceDeriv 1 1 1 2 1 1) m c) (s n)
    (∀ n, s (n + 1) (.fld .Sxz) 0 = T n (.fld .Sxz) 0 ∧ s (n + 1) (.rel .Sxz 0) 0 = T n (.rel .Sxz 0) 0) ∧
    Harmonic (Real.pi / 2) 1 (fun n => s n (.fld .Sxz) 0) (-1 - 2 * I) ∧
    Harmonic (Real.pi / 2) 1 (fun n => s n (.rel .Sxz 0) 0) (2 * I) ∧
    Harmonic (Real.pi / 2) 1 (fun n => slope 2 1 1 c (s n) .x .vZ (T n (.fld .vZ)) 0) 1 := by
  let m : Mod (Pt 1 1 1) := ⟨fun _ => 1, fun _ => 1, fun _ => 1, fun _ => 1, fun _ => 4, fun _ => 2, fun _ => 2,
    fun _ => 2, fun _ => 2, fun _ => 1, fun _ => 1, fun _ => 1, fun _ => 1, fun _ => 1, 1, fun _ => 1 / 2, 1⟩
  let c : BC (Pt 1 1 1) := ⟨0, none, none, fun _ => false⟩
  let s : ℕ → State (Pt 1 1 1) := fun n v => match v with
    | .fld .Sxz => fun _ => ((-1 - 2 * I) * I ^ n).re
    | .rel .Sxz _ => fun _ => (2 * I * I ^ n).re
    | .fld .vZ => fun _ => (2 * I * I ^ n).re
    | _ => 0
  have key := fun n => (C106_viscosh2D_partial 2 1 1 c (s n) (show (0 : ℕ) ≠ 1 by decide) m rfl zero_le_one
    (fun _ _ => by norm_num [m])).step
  refine ⟨m, s, rfl, rfl, rfl, rfl, rfl, by simp, ?_⟩
  intro c' T
  choose v h1 h2 h3 h4 h5 using key
  have hv : ∀ n, v n 0 = -(I ^ n).re := by
    intro n
    rw [h1 n 0]
    simp [slope, centred, halfway, c, bwd_one, m, s, old]
    try ring
  have hr : ∀ n, T n (.rel .Sxz 0) 0 = -2 * slope 2 1 1 c (s n) .x .vZ (v n) 0 := by
    intro n
    have h := h3 n .x (by simp) ⟨0, by norm_num [m]⟩ 0
    simp only [Relaxes, stress, m, Mod.muAt, Mod.tauAt] at h
    have e : T n (.rel .Sxz 0) 0 = exec (viscosh2D (surfaceDeriv 1 1 1 2 1 1) m c) (s n) (.rel .Sxz 0) 0 := rfl
    rw [e]
    linarith
  have hsl : ∀ n, slope 2 1 1 c (s n) .x .vZ (v n) 0 = (I ^ n).re := by
    intro n
    simp [slope, centred, halfway, c, fwd_one, hv n]
  refine ⟨fun n => ⟨?_, ?_⟩, ?_, ?_, ?_⟩
  · have h := h4 n .x (by simp) 0
    simp only [stress] at h
    rw [show T n (.fld .Sxz) 0 = _ from h, hsl n]
    have hr' := hr n
    rw [hsl n] at hr'
    have e : relaxation 1 (s n) m.L (exec (viscosh2D (surfaceDeriv 1 1 1 2 1 1) m c) (s n)) .Sxz 0 =
        1 * (((2 * I * I ^ n).re + -2 * (I ^ n).re) / 2) := by
      rw [← hr']
      exact Fin.sum_univ_one _
    rw [e]
    simp [s, m, c, frame, Mod.muAt, pow_succ]
    ring
  · rw [hr n, hsl n]
    simp [s, pow_succ]
    try ring
  · intro n
    rw [turn_quarter]
  · intro n
    rw [turn_quarter]
  · intro n
    rw [turn_quarter, one_mul]
    have : T n (.fld .vZ) = v n := by
      funext i
      rw [show T n (.fld .vZ) i = _ from h2 n i]
      simp [frame, c]
    simp only [this]
    exact hsl n

/-- An electric field at a quarter of the sampling frequency: the amplitudes `1` of the field, `4 i` of the
relaxation current and `(-7 + 9 i) / 2 = (1 + 8 i) (1 + i) / 2` of the curl. -/
example : ∃ (m : EMod (Pt 1 1 1)) (s : ℕ → State (Pt 1 1 1)), m.L = 1 ∧ m.DT = 1 ∧ m.relaxTime 0 = 1 / 2 ∧
    0 < m.epsVac ∧ (∀ a i, 0 ≤ m.sigEff a i) ∧
    m.epsVac ≤ (1 - m.tauEps .x 0) * m.eps .x 0 + m.sig .x 0 * m.tauSig .x 0 ∧ m.tauEps .x 0 ≠ 0 ∧
    let c : BC (Pt 1 1 1) := ⟨0, none, none, fun _ => false⟩
    let prog := viscoemem2D (surfaceDeriv 1 1 1 2 1 1) m c
    (∀ n, s (n + 1) (.fld .eX) 0 = exec prog (s n) (.fld .eX) 0 ∧
      s (n + 1) (.rel .eX 0) 0 = exec prog (s n) (.rel .eX 0) 0) ∧
    Harmonic (Real.pi / 2) 1 (fun n => s n (.fld .eX) 0) 1 ∧
    Harmonic (Real.pi / 2) 1 (fun n => s n (.rel .eX 0) 0) (4 * I) ∧
    Harmonic (Real.pi / 2) 1 (fun n => curl 2 1 1 c (s n) [.x, .y] magn (fun f => exec prog (s n) (.fld f)) .x 0)
      ((-7 + 9 * I) / 2) := by
  let m : EMod (Pt 1 1 1) := ⟨fun _ => 1, fun _ => 1, fun _ => 1, fun _ _ => 4, fun _ _ => 1, fun _ _ => 1 / 2,
    fun _ _ => 0, 1, 1, fun _ => 1 / 2, 1⟩
  let c : BC (Pt 1 1 1) := ⟨0, none, none, fun _ => false⟩
  let s : ℕ → State (Pt 1 1 1) := fun n v => match v with
    | .fld .eX => fun _ => (I ^ n).re
    | .rel .eX _ => fun _ => (4 * I * I ^ n).re
    | .fld .hZ => fun _ => ((-7 + 9 * I) / 2 * I ^ n).re + (I ^ n).re
    | _ => 0
  have hsig : ∀ a i, m.sigEff a i = 5 := fun a i => by
    simp [EMod.sigEff, m, List.range_succ]
    norm_num
  have heps : ∀ a i, m.epsEff a i = 2 := fun a i => by
    simp only [EMod.epsEff, m]
    norm_num
  have key := fun n => (C106_viscoemem2D_partial 2 1 1 c (s n) m rfl zero_le_one
    (fun _ _ => by norm_num [m]) (by norm_num [m]) (fun a i => by rw [hsig]; norm_num)).step
  refine ⟨m, s, rfl, rfl, rfl, by norm_num [m], fun a i => by rw [hsig]; norm_num, by norm_num [m], by norm_num [m], ?_⟩
  intro c' prog
  choose u h1 h2 h3 h4 h5 using key
  have hH : ∀ n, u n .hZ 0 = ((-7 + 9 * I) / 2 * I ^ n).re := by
    intro n
    have h := h1 n .z (by simp) 0
    simp [magn, curl, levi, elec, slope, centred, halfway, c, fwd_one, m, s, EMod.invMuAt] at h
    simp [h]
  have hK : ∀ n, curl 2 1 1 c (s n) [.x, .y] magn (u n) .x 0 = ((-7 + 9 * I) / 2 * I ^ n).re := by
    intro n
    rw [← hH n]
    simp [magn, curl, levi, slope, centred, halfway, c, bwd_one]
  have hr : ∀ n, exec prog (s n) (.rel .eX 0) 0 = -4 * (I ^ n).re := by
    intro n
    have h : 1 / 2 * (exec prog (s n) (.rel .eX 0) 0 - (4 * I * I ^ n).re) =
        -(1 * (((4 * I * I ^ n).re + exec prog (s n) (.rel .eX 0) 0) / 2) +
          1 * (1 / 2 * 4 / (((1 : ℕ) : ℝ) * (1 / 2)) * (I ^ n).re)) := h3 n .x (by simp) ⟨0, by norm_num [m]⟩ 0
    push_cast at h
    linarith
  have hu : ∀ n f, f = .hZ ∨ f = .eX → exec prog (s n) (.fld f) = u n f := by
    intro n f hf
    funext i
    rw [show exec prog (s n) (.fld f) i = _ from h4 n f (by rcases hf with rfl | rfl <;> simp [magn, elec]) i]
    simp [frame, c]
  refine ⟨fun n => ⟨?_, ?_⟩, ?_, ?_, ?_⟩
  · have h := h2 n .x (by simp) 0
    rw [hsig, heps, hK n] at h
    have e : ∑ l : Fin m.L, exec (viscoemem2D (surfaceDeriv 1 1 1 2 1 1) m c) (s n) (.rel (elec .x) l) 0 =
      -4 * (I ^ n).re := (Fin.sum_univ_one _).trans (hr n)
    rw [e] at h
    rw [hu n .eX (Or.inr rfl)]
    have h' : 2 * (u n .eX 0 - (I ^ n).re) = ((-7 + 9 * I) / 2 * I ^ n).re -
      1 * (5 * (((I ^ n).re + u n .eX 0) / 2) + -4 * (I ^ n).re) := h
    have g : s (n + 1) (.fld .eX) 0 = (I ^ (n + 1)).re := rfl
    rw [g]
    simp [pow_succ] at h' ⊢
    linarith
  · rw [hr n]
    simp [s, pow_succ]
    try ring
  · intro n
    rw [turn_quarter, one_mul]
  · intro n
    rw [turn_quarter]
  · intro n
    rw [turn_quarter, ← hK n]
    exact curl_congr (fun b hb d hd => by
      have : d = .z := by
        revert hb hd
        cases b <;> cases d <;> simp [levi]
      subst this
      exact hu n .hZ (Or.inl rfl)) 0

end Verif.Solver
