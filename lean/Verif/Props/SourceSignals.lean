import Verif.Model.SourceSignals
import Verif.Props.Signal
import Mathlib.Tactic.Linarith
import Mathlib.Tactic.NormNum
/-!
# C135, C136: signals of the sources
-/
namespace Verif.Acq

open Verif.Signal

/-- The synthetic signals of the guide by the number of the shape, with the formulas of C64 (shape 9 is not in
the guide). The windowed signals start at a sample, the spike stands on one. -/
noncomputable def docShape (DT : ℝ) (s : SigSource) (f : ℕ → ℝ) (i : ℕ) : Prop :=
  let t := i * DT
  let Ts := ⌊s.tShift / DT⌋ * DT
  match s.shape with
  | 1 => f i = docRicker s.amplitude s.fc s.tShift t
  | 2 => f i = docSinW s.amplitude s.fc Ts t
  | 3 => f i = docSinThree s.amplitude s.fc Ts t
  | 4 => f i = docFGaussian s.amplitude s.fc s.tShift t
  | 5 => f i = if (i : Int) = ⌊s.tShift / DT⌋ then s.amplitude else 0
  | 6 => Ts ≤ t ∧ t ≤ Ts + 1 / s.fc → f i = docIntgSinThree s.amplitude s.fc Ts t
  | 7 => f i = docGprMax s.amplitude s.fc (t - 1 / s.fc - s.tShift)
  | 8 => ∃ c : ℝ, (s.amplitude ≠ 0 → c ≠ 0) ∧ ∀ j : ℕ, f j = c * docBerlage 1 s.fc s.tShift (j * DT)
  | 9 => f i = s.amplitude * Real.sin (2 * Real.pi * s.fc * (t - s.tShift))
  | _ => False

/-- The signal `x` of the source `s`: type 1 a synthetic signal, type 2 the first line of the signal file, type
3 the line with the number of the source in the source file; signals of a file are reversed for a negative
amplitude. Only the Berlage signal may be not a number (C64). -/
def Emits (file : List (List ℝ)) (NT : Int) (DT : ℝ) (s : SigSource) (x : Option (ℕ → ℝ)) : Prop :=
  s.waveletType = 1 ∧ (1 ≤ s.shape ∧ s.shape ≤ 9) ∧
    (∀ f, x = some f → ∀ i : ℕ, (i : Int) < NT → docShape DT s f i) ∧
    (x = none → s.shape = 8) ∨
  ∃ k : ℕ, (s.waveletType = 2 ∧ k = 0 ∨ s.waveletType = 3 ∧ (k : Int) = s.row) ∧ ∃ r, file[k]? = some r ∧
    (r.length : Int) = NT ∧ x = some fun i => (if s.amp ≤ 0 then -1 else 1) * r.getD i 0

private theorem bind_eq_ok {α β : Type} {x : Out α} {f : α → Out β} {b : β} (h : (x >>= f) = .ok b) :
    ∃ a, x = .ok a ∧ f a = .ok b := by
  cases x with
  | ok a => exact ⟨a, rfl, h⟩
  | err => exact absurd h (by simp)
  | ub => exact absurd h (by simp)

private theorem checked_inv {α : Type} {NT : Int} {DT FC : ℝ} {x : Out α} {a : α}
    (h : checked NT DT FC x = .ok a) : (0 < NT ∧ 0 < DT ∧ 0 < FC) ∧ x = .ok a := by
  unfold checked at h
  split at h
  · rename_i hc; exact ⟨hc, h⟩
  · cases h

private theorem synthetic_doc {NT : Int} {DT : ℝ} {s : SigSource} {x : Option (ℕ → ℝ)}
    (h : synthetic NT DT s = .ok x) : (1 ≤ s.shape ∧ s.shape ≤ 9) ∧
      (∀ f, x = some f → ∀ i : ℕ, (i : Int) < NT → docShape DT s f i) ∧ (x = none → s.shape = 8) := by
  have lift : ∀ y : Out (ℕ → ℝ), (do let f ← y; .ok (some f)) = Out.ok x → ∃ f, y = .ok f ∧ x = some f := by
    intro y hy
    obtain ⟨f, h1, h2⟩ := bind_eq_ok hy
    exact ⟨f, h1, (Out.ok.inj h2).symm⟩
  unfold synthetic at h
  simp only at h
  split_ifs at h with e e e e e e e e e <;> (refine ⟨by omega, ?_⟩)
  · obtain ⟨f, h1, rfl⟩ := lift _ h
    obtain ⟨hc, -⟩ := checked_inv h1
    obtain ⟨g, h2, h3⟩ := C64_ricker (AMP := s.amplitude) (T := s.tShift) hc.1 hc.2.1 hc.2.2
    rw [h1] at h2
    cases h2
    exact ⟨fun f' hf i _ => by cases hf; simp only [docShape, e]; exact h3 i, by simp⟩
  · obtain ⟨f, h1, rfl⟩ := lift _ h
    exact ⟨fun f' hf i hi => by cases hf; simp only [docShape, e]; exact C64_sinW_partial h1 hi, by simp⟩
  · obtain ⟨f, h1, rfl⟩ := lift _ h
    exact ⟨fun f' hf i hi => by cases hf; simp only [docShape, e]; exact C64_sinThree_partial h1 hi, by simp⟩
  · obtain ⟨f, h1, rfl⟩ := lift _ h
    obtain ⟨hc, -⟩ := checked_inv h1
    obtain ⟨g, h2, h3⟩ := C64_fgaussian (AMP := s.amplitude) (T := s.tShift) hc.1 hc.2.1 hc.2.2
    rw [h1] at h2
    cases h2
    exact ⟨fun f' hf i _ => by cases hf; simp only [docShape, e]; exact h3 i, by simp⟩
  · obtain ⟨f, h1, rfl⟩ := lift _ h
    refine ⟨fun f' hf i hi => ?_, by simp⟩
    cases hf
    simp only [docShape, e]
    obtain ⟨-, h1⟩ := checked_inv h1
    simp only at h1
    split_ifs at h1 with h2 h3
    rw [← Out.ok.inj h1]
    simp only [Function.update_apply]
    by_cases h4 : (i : Int) = ⌊s.tShift / DT⌋
    · rw [if_pos (by omega), if_pos h4, mul_one]
    · rw [if_neg (by omega), if_neg h4, mul_zero]
  · obtain ⟨f, h1, rfl⟩ := lift _ h
    exact ⟨fun f' hf i hi => by
      cases hf; simp only [docShape, e]; exact fun hw => C64_intgSinThree_partial h1 hi hw, by simp⟩
  · obtain ⟨f, h1, rfl⟩ := lift _ h
    obtain ⟨hc, -⟩ := checked_inv h1
    obtain ⟨g, h2, h3⟩ := C64_gprMax_partial (AMP := s.amplitude) (T := s.tShift) hc.1 hc.2.1 hc.2.2
    rw [h1] at h2
    cases h2
    exact ⟨fun f' hf i _ => by cases hf; simp only [docShape, e]; exact h3 i, by simp⟩
  · exact ⟨fun f' hf i hi => by cases hf; simp only [docShape, e]; exact C64_berlage_partial h, fun _ => e⟩
  · obtain ⟨f, h1, rfl⟩ := lift _ h
    obtain ⟨hc, -⟩ := checked_inv h1
    obtain ⟨g, h2, h3, -⟩ := C64_sine (AMP := s.amplitude) (T := s.tShift) hc.1 hc.2.1 hc.2.2
    rw [h1] at h2
    cases h2
    exact ⟨fun f' hf i _ => by cases hf; simp only [docShape, e]; exact h3 i, by simp⟩

private theorem readSignal_ok {file : List (List ℝ)} {NT row : Int} {x : Option (ℕ → ℝ)}
    (h : readSignal file NT row = .ok x) :
    ∃ k : ℕ, (k : Int) = row ∧ ∃ r, file[k]? = some r ∧ (r.length : Int) = NT ∧ x = some fun i => r.getD i 0 := by
  unfold readSignal at h
  split_ifs at h with h0
  refine ⟨row.toNat, by omega, ?_⟩
  split at h
  · exact absurd h (by simp)
  · rename_i r hr
    split_ifs at h with hl
    exact ⟨r, hr, hl, (Out.ok.inj h).symm⟩

private theorem signed_file {s : SigSource} (ht : s.waveletType ≠ 1) (ha : s.amp ≤ 0 ∨ 1 ≤ s.amp) (f : ℕ → ℝ) :
    signed s (some f) = some fun i => (if s.amp ≤ 0 then -1 else 1) * f i := by
  have e : (signalFactor s.toSource : ℝ) = if s.amp ≤ 0 then -1 else 1 := by
    unfold signalFactor
    simp only [ne_eq, ht, not_false_eq_true, if_true]
    have hd : (0 : ℚ) < s.amp.den := by exact_mod_cast s.amp.den_pos
    have hn : s.amp * s.amp.den = s.amp.num := Rat.mul_den_eq_num _
    rcases ha with h | h
    · rw [if_neg, if_pos h]
      · simp
      · have : s.amp.num ≤ 0 := Rat.num_nonpos.mpr h
        have : truncQ s.amp ≤ 0 := by
          unfold truncQ
          obtain ⟨n, hn⟩ : ∃ n : ℕ, s.amp.num = -n := ⟨s.amp.num.natAbs, by omega⟩
          rw [hn, Int.neg_tdiv]
          have := Int.tdiv_nonneg (Int.natCast_nonneg n) (Int.natCast_nonneg s.amp.den)
          omega
        omega
    · rw [if_pos, if_neg (by linarith)]
      · simp
      · have h1 : (s.amp.den : Int) ≤ s.amp.num := by
          have : (s.amp.den : ℚ) ≤ s.amp.num := by rw [← hn]; nlinarith
          exact_mod_cast this
        have h2 : (0 : Int) < s.amp.den := by exact_mod_cast s.amp.den_pos
        unfold truncQ
        rw [Int.tdiv_eq_ediv_of_nonneg (by omega)]
        have := Int.ediv_le_ediv h2 h1
        rw [Int.ediv_self (by omega)] at this
        omega
  simp only [signed, Option.map_some, e]

private theorem gen_emits {file : List (List ℝ)} {NT : Int} {DT : ℝ} {fl : Flags} {s : SigSource}
    {r : Flags × Option (ℕ → ℝ)} (ha : s.amp ≤ 0 ∨ 1 ≤ s.amp) (h : genSignal file NT DT fl s = .ok r) :
    Emits file NT DT s (signed s r.2) := by
  unfold genSignal at h
  split_ifs at h with h1 h2 h3 h4 h5
  · left
    refine ⟨h1, ?_⟩
    cases hx : synthetic NT DT s with
    | ok x =>
      rw [hx, Out.bind_ok] at h
      rw [← Out.ok.inj h]
      have e : signalFactor s.toSource = 1 := by simp [signalFactor, h1]
      have : signed s x = x := by cases x <;> simp [signed, e]
      simp only [this]
      exact synthetic_doc hx
    | err => rw [hx] at h; exact absurd h (by simp)
    | ub => rw [hx] at h; exact absurd h (by simp)
  · right
    cases hx : readSignal file NT 0 with
    | ok x =>
      rw [hx, Out.bind_ok] at h
      obtain ⟨k, hk, r', h6, h7, rfl⟩ := readSignal_ok hx
      rw [← Out.ok.inj h]
      exact ⟨k, Or.inl ⟨h2, by omega⟩, r', h6, h7, signed_file h1 ha _⟩
    | err => rw [hx] at h; exact absurd h (by simp)
    | ub => rw [hx] at h; exact absurd h (by simp)
  · right
    cases hx : readSignal file NT s.row with
    | ok x =>
      rw [hx, Out.bind_ok] at h
      obtain ⟨k, hk, r', h6, h7, rfl⟩ := readSignal_ok hx
      rw [← Out.ok.inj h]
      exact ⟨k, Or.inr ⟨h4, hk⟩, r', h6, h7, signed_file h1 ha _⟩
    | err => rw [hx] at h; exact absurd h (by simp)
    | ub => rw [hx] at h; exact absurd h (by simp)

private theorem shot_emits {file : List (List ℝ)} {NT : Int} {DT : ℝ} (ss : List SigSource) :
    ∀ (fl : ℕ → Flags) (r : (ℕ → Flags) × List (Option (ℕ → ℝ))), (∀ s ∈ ss, s.amp ≤ 0 ∨ 1 ≤ s.amp) →
      shotSignals file NT DT fl ss = .ok r → List.Forall₂ (Emits file NT DT) ss r.2 := by
  induction ss with
  | nil =>
    intro fl r _ h
    rw [← Out.ok.inj h]
    exact .nil
  | cons s ss ih =>
    intro fl r ha h
    rw [shotSignals] at h
    obtain ⟨⟨f, x⟩, h1, h⟩ := bind_eq_ok h
    obtain ⟨⟨fl', xs⟩, h2, h⟩ := bind_eq_ok h
    rw [← Out.ok.inj h]
    exact .cons (gen_emits (ha s (by simp)) h1) (ih _ _ (fun t ht => ha t (by simp [ht])) h2)

/-- C135: in a run that is accepted, each source emits the signal that its line asks for. `partial`: amplitudes
between 0 and 1 reverse the signal of a file (C08), and the number of lines needed is not the documented one,
see `C135_lines_violated`. -/
theorem C135_signals_partial {file : List (List ℝ)} {NT : Int} {DT : ℝ} {shots : List (List SigSource)}
    (ha : ∀ shot ∈ shots, ∀ s ∈ shot, s.amp ≤ 0 ∨ 1 ≤ s.amp) {res : List (List (Option (ℕ → ℝ)))}
    {fl : ℕ → Flags} (h : runSignals file NT DT fl shots = .ok res) :
    List.Forall₂ (List.Forall₂ (Emits file NT DT)) shots res := by
  induction shots generalizing fl res with
  | nil =>
    rw [← Out.ok.inj h]
    exact .nil
  | cons shot shots ih =>
    rw [runSignals] at h
    obtain ⟨⟨fl', xs⟩, h1, h⟩ := bind_eq_ok h
    obtain ⟨rest, h2, h⟩ := bind_eq_ok h
    rw [← Out.ok.inj h]
    exact .cons (shot_emits shot _ _ (ha shot (by simp)) h1) (ih (fun t ht => ha t (by simp [ht])) h2)

/-! ### Which runs are accepted -/

/-- The signal of the source is available by itself: a run with this source alone is accepted. -/
def Available (file : List (List ℝ)) (NT : Int) (DT : ℝ) (s : SigSource) : Prop :=
  ∃ r, runSignals file NT DT (fun _ => {}) [[s]] = .ok r

private theorem available_iff {file : List (List ℝ)} {NT : Int} {DT : ℝ} {s : SigSource} :
    Available file NT DT s ↔ ∃ r, genSignal file NT DT {} s = .ok r := by
  constructor
  · rintro ⟨r, h⟩
    rw [runSignals] at h
    obtain ⟨a, h1, -⟩ := bind_eq_ok h
    rw [shotSignals] at h1
    obtain ⟨b, h2, -⟩ := bind_eq_ok h1
    exact ⟨b, h2⟩
  · rintro ⟨r, h⟩
    exact ⟨[[signed s r.2]], by simp [runSignals, shotSignals, h]⟩

private def compat (fl : Flags) (s : SigSource) : Prop :=
  (s.waveletType = 2 → fl.three = false) ∧ (s.waveletType = 3 → fl.two = false)

private def upd (fl : Flags) (s : SigSource) : Flags :=
  ⟨fl.two || decide (s.waveletType = 2), fl.three || decide (s.waveletType = 3)⟩

private theorem gen_iff {file : List (List ℝ)} {NT : Int} {DT : ℝ} {s : SigSource} (h : Available file NT DT s)
    (fl : Flags) :
    ((∃ r, genSignal file NT DT fl s = .ok r) ↔ compat fl s) ∧ ∀ r, genSignal file NT DT fl s = .ok r → r.1 = upd fl s := by
  obtain ⟨r, hr⟩ := available_iff.mp h
  obtain ⟨a, b⟩ := fl
  unfold genSignal at hr ⊢
  unfold compat upd
  split_ifs at hr with h1 h2
  · obtain ⟨x, hx, -⟩ := bind_eq_ok hr
    simp [h1, hx]
  · obtain ⟨x, hx, -⟩ := bind_eq_ok hr
    cases b <;> simp [h2, hx]
  · rename_i h3 _
    obtain ⟨x, hx, -⟩ := bind_eq_ok hr
    cases a <;> simp [h3, hx]

private def Comp : (ℕ → Flags) → List SigSource → Prop
  | _, [] => True
  | fl, s :: ss => compat (fl s.owner) s ∧ Comp (Function.update fl s.owner (upd (fl s.owner) s)) ss

private def after : (ℕ → Flags) → List SigSource → ℕ → Flags
  | fl, [] => fl
  | fl, s :: ss => after (Function.update fl s.owner (upd (fl s.owner) s)) ss

private theorem shot_iff {file : List (List ℝ)} {NT : Int} {DT : ℝ} (ss : List SigSource) :
    ∀ fl : ℕ → Flags, (∀ s ∈ ss, Available file NT DT s) →
      ((∃ r, shotSignals file NT DT fl ss = .ok r) ↔ Comp fl ss) ∧
        ∀ r, shotSignals file NT DT fl ss = .ok r → r.1 = after fl ss := by
  induction ss with
  | nil =>
    intro fl _
    refine ⟨⟨fun _ => trivial, fun _ => ⟨_, rfl⟩⟩, fun r h => ?_⟩
    rw [← Out.ok.inj h]
    rfl
  | cons s ss ih =>
    intro fl hs
    obtain ⟨g1, g2⟩ := gen_iff (hs s (by simp)) (fl s.owner)
    have ih' := ih (Function.update fl s.owner (upd (fl s.owner) s)) fun t ht => hs t (by simp [ht])
    have hinv : ∀ r, shotSignals file NT DT fl (s :: ss) = .ok r → compat (fl s.owner) s ∧
        ∃ r', shotSignals file NT DT (Function.update fl s.owner (upd (fl s.owner) s)) ss = .ok r' ∧ r.1 = r'.1 := by
      intro r h
      rw [shotSignals] at h
      obtain ⟨⟨f, x⟩, h1, h⟩ := bind_eq_ok h
      obtain ⟨⟨fl', xs⟩, h2, h⟩ := bind_eq_ok h
      have := g2 _ h1
      simp only at this h2
      rw [this] at h2
      rw [← Out.ok.inj h]
      exact ⟨g1.mp ⟨_, h1⟩, _, h2, rfl⟩
    refine ⟨⟨?_, ?_⟩, ?_⟩
    · rintro ⟨r, h⟩
      obtain ⟨h1, r', h2, -⟩ := hinv r h
      exact ⟨h1, ih'.1.mp ⟨r', h2⟩⟩
    · rintro ⟨h1, h2⟩
      obtain ⟨⟨f, x⟩, hr⟩ := g1.mpr h1
      obtain ⟨⟨fl', xs⟩, hr'⟩ := ih'.1.mpr h2
      have := g2 _ hr
      simp only at this
      subst this
      exact ⟨(fl', signed s x :: xs), by simp [shotSignals, hr, hr']⟩
    · intro r h
      obtain ⟨-, r', h2, e⟩ := hinv r h
      rw [e, ih'.2 r' h2]
      rfl

private theorem comp_append (ss ts : List SigSource) :
    ∀ fl, Comp fl (ss ++ ts) ↔ Comp fl ss ∧ Comp (after fl ss) ts := by
  induction ss with
  | nil => intro fl; simp [Comp, after]
  | cons s ss ih =>
    intro fl
    simp only [List.cons_append, Comp, after, ih, and_assoc]

private theorem run_iff {file : List (List ℝ)} {NT : Int} {DT : ℝ} (shots : List (List SigSource)) :
    ∀ fl : ℕ → Flags, (∀ shot ∈ shots, ∀ s ∈ shot, Available file NT DT s) →
      ((∃ r, runSignals file NT DT fl shots = .ok r) ↔ Comp fl shots.flatten) := by
  induction shots with
  | nil => intro fl _; exact ⟨fun _ => trivial, fun _ => ⟨_, rfl⟩⟩
  | cons shot shots ih =>
    intro fl hs
    obtain ⟨s1, s2⟩ := shot_iff (file := file) (NT := NT) (DT := DT) shot fl (hs shot (by simp))
    have ih' := ih (after fl shot) fun t ht => hs t (by simp [ht])
    rw [List.flatten_cons, comp_append]
    constructor
    · rintro ⟨r, h⟩
      rw [runSignals] at h
      obtain ⟨a, h1, h⟩ := bind_eq_ok h
      obtain ⟨b, h2, -⟩ := bind_eq_ok h
      refine ⟨s1.mp ⟨a, h1⟩, ih'.mp ⟨b, ?_⟩⟩
      rw [← s2 a h1]
      exact h2
    · rintro ⟨h1, h2⟩
      obtain ⟨⟨fl', xs⟩, hr⟩ := s1.mpr h1
      have := s2 _ hr
      simp only at this
      subst this
      obtain ⟨rest, hr'⟩ := ih'.mpr h2
      exact ⟨xs :: rest, by simp [runSignals, hr, hr']⟩

private theorem comp_iff (ss : List SigSource) :
    ∀ fl : ℕ → Flags, Comp fl ss ↔
      ∀ p, (((fl p).three = true ∨ ∃ s ∈ ss, s.owner = p ∧ s.waveletType = 3) → ¬ ∃ s ∈ ss, s.owner = p ∧ s.waveletType = 2) ∧
        ((fl p).two = true → ¬ ∃ s ∈ ss, s.owner = p ∧ s.waveletType = 3) := by
  induction ss with
  | nil => intro fl; simp [Comp]
  | cons s ss ih =>
    intro fl
    rw [Comp, ih]
    have h23 : ¬ (s.waveletType = 2 ∧ s.waveletType = 3) := by omega
    have key : ∀ p, p ≠ s.owner → ((Function.update fl s.owner (upd (fl s.owner) s)) p = fl p) :=
      fun p hp => Function.update_of_ne hp ..
    constructor
    · rintro ⟨⟨c2, c3⟩, h⟩ p
      have hp := h p
      by_cases hq : p = s.owner
      · subst hq
        simp only [Function.update_self, upd, Bool.or_eq_true, decide_eq_true_eq] at hp
        simp only [List.mem_cons, exists_eq_or_imp, true_and]
        have c2' : s.waveletType = 2 → ¬ (fl s.owner).three = true := fun e => by simp [c2 e]
        have c3' : s.waveletType = 3 → ¬ (fl s.owner).two = true := fun e => by simp [c3 e]
        clear ih h c2 c3 key
        generalize (∃ a ∈ ss, a.owner = s.owner ∧ a.waveletType = 2) = A at *
        generalize (∃ a ∈ ss, a.owner = s.owner ∧ a.waveletType = 3) = B at *
        generalize ((fl s.owner).two = true) = F2 at *
        generalize ((fl s.owner).three = true) = F3 at *
        generalize (s.waveletType = 2) = T2 at *
        generalize (s.waveletType = 3) = T3 at *
        tauto
      · rw [key p hq] at hp
        have hq' : ¬ s.owner = p := fun e => hq e.symm
        simpa only [List.mem_cons, exists_eq_or_imp, hq', false_and, false_or] using hp
    · intro h
      have h0 := h s.owner
      simp only [List.mem_cons, exists_eq_or_imp, true_and] at h0
      refine ⟨⟨fun e => ?_, fun e => ?_⟩, fun p => ?_⟩
      · rw [← Bool.not_eq_true]
        exact fun f => h0.1 (Or.inl f) (Or.inl e)
      · rw [← Bool.not_eq_true]
        exact fun f => h0.2 f (Or.inl e)
      · by_cases hq : p = s.owner
        · subst hq
          simp only [Function.update_self, upd, Bool.or_eq_true, decide_eq_true_eq]
          clear ih h key
          generalize (∃ a ∈ ss, a.owner = s.owner ∧ a.waveletType = 2) = A at *
          generalize (∃ a ∈ ss, a.owner = s.owner ∧ a.waveletType = 3) = B at *
          generalize ((fl s.owner).two = true) = F2 at *
          generalize ((fl s.owner).three = true) = F3 at *
          generalize (s.waveletType = 2) = T2 at *
          generalize (s.waveletType = 3) = T3 at *
          tauto
        · rw [key p hq]
          have hq' : ¬ s.owner = p := fun e => hq e.symm
          simpa only [List.mem_cons, exists_eq_or_imp, hq', false_and, false_or] using h p

/-- C136: sources whose signals are available are accepted together if and only if no process has to read signals
of type 2 as well as signals of type 3, in whichever shots of the run. -/
theorem C136_accepted {file : List (List ℝ)} {NT : Int} {DT : ℝ} {shots : List (List SigSource)}
    (hs : ∀ shot ∈ shots, ∀ s ∈ shot, Available file NT DT s) :
    (∃ r, runSignals file NT DT (fun _ => {}) shots = .ok r) ↔
      ¬ ∃ shot ∈ shots, ∃ s ∈ shot, ∃ shot' ∈ shots, ∃ s' ∈ shot',
        s.waveletType = 2 ∧ s'.waveletType = 3 ∧ s.owner = s'.owner := by
  rw [run_iff shots _ hs, comp_iff]
  simp only [List.mem_flatten, Bool.false_eq_true, false_or, false_imp_iff, and_true]
  constructor
  · rintro h ⟨shot, m, s, ms, shot', m', s', ms', t2, t3, e⟩
    exact h s.owner ⟨s', ⟨shot', m', ms'⟩, e.symm, t3⟩ ⟨s, ⟨shot, m, ms⟩, rfl, t2⟩
  · rintro h p ⟨s', ⟨shot', m', ms'⟩, e', t3⟩ ⟨s, ⟨shot, m, ms⟩, e, t2⟩
    exact h ⟨shot, m, s, ms, shot', m', s', ms', t2, t3, e.trans e'.symm⟩

/-- The same source on another process. -/
def SigSource.moved (o : SigSource → ℕ) (s : SigSource) : SigSource := { s with owner := o s }

private def bit (b : Int) (fl : Flags) : Bool := if b = 3 then fl.three else fl.two

private inductive Same {α β : Type} (R : α → β → Prop) : Out α → Out β → Prop
  | ok {a b} : R a b → Same R (.ok a) (.ok b)
  | err : Same R .err .err
  | ub : Same R .ub .ub

private theorem Same.bind {α β γ δ : Type} {R : α → β → Prop} {S : γ → δ → Prop} {x : Out α} {y : Out β}
    {f : α → Out γ} {g : β → Out δ} (h : Same R x y) (hf : ∀ a b, R a b → Same S (f a) (g b)) :
    Same S (x >>= f) (y >>= g) := by
  cases h with
  | ok h => exact hf _ _ h
  | err => exact .err
  | ub => exact .ub

private theorem gen_same {file : List (List ℝ)} {NT : Int} {DT : ℝ} {b : Int} (hb : b = 2 ∨ b = 3) {s : SigSource}
    (hs : s.waveletType ≠ b) (o : SigSource → ℕ) {f f' : Flags} (hf : bit b f = false) (hf' : bit b f' = false) :
    Same (fun r r' => r.2 = r'.2 ∧ bit b r.1 = false ∧ bit b r'.1 = false) (genSignal file NT DT f s)
      (genSignal file NT DT f' (s.moved o)) := by
  have e : ∀ x : Out (Option (ℕ → ℝ)), Same (fun a b => a = b) x x := by
    intro x; cases x
    · exact .ok rfl
    · exact .err
    · exact .ub
  have hsyn : synthetic NT DT (s.moved o) = synthetic NT DT s := rfl
  unfold genSignal
  rw [hsyn]
  show Same _ (if s.waveletType = 1 then _ else _) (if s.waveletType = 1 then _ else _)
  rcases hb with rfl | rfl
  · have h1 : f.two = false := hf
    have h2 : f'.two = false := hf'
    by_cases t1 : s.waveletType = 1
    · rw [if_pos t1, if_pos t1]
      exact (e _).bind fun a b h => .ok ⟨h, hf, hf'⟩
    · rw [if_neg t1, if_neg t1]
      show Same _ (if s.waveletType = 2 then _ else _) (if s.waveletType = 2 then _ else _)
      rw [if_neg hs, if_neg hs, h1, h2]
      show Same _ (if s.waveletType = 3 then _ else _) (if s.waveletType = 3 then _ else _)
      split_ifs
      all_goals first
        | exact .err
        | exact (e _).bind fun a b h => .ok ⟨h, by simp [bit], by simp [bit]⟩
  · have h1 : f.three = false := hf
    have h2 : f'.three = false := hf'
    by_cases t1 : s.waveletType = 1
    · rw [if_pos t1, if_pos t1]
      exact (e _).bind fun a b h => .ok ⟨h, hf, hf'⟩
    · rw [if_neg t1, if_neg t1]
      show Same _ (if s.waveletType = 2 then _ else _) (if s.waveletType = 2 then _ else _)
      rw [h1, h2]
      split_ifs
      all_goals first
        | exact .err
        | exact (e _).bind fun a b h => .ok ⟨h, by simp [bit], by simp [bit]⟩
        | contradiction

private theorem shot_same {file : List (List ℝ)} {NT : Int} {DT : ℝ} {b : Int} (hb : b = 2 ∨ b = 3)
    (o : SigSource → ℕ) (ss : List SigSource) :
    ∀ {f f' : ℕ → Flags}, (∀ s ∈ ss, s.waveletType ≠ b) → (∀ p, bit b (f p) = false) → (∀ p, bit b (f' p) = false) →
      Same (fun r r' => r.2 = r'.2 ∧ (∀ p, bit b (r.1 p) = false) ∧ ∀ p, bit b (r'.1 p) = false)
        (shotSignals file NT DT f ss) (shotSignals file NT DT f' (ss.map (SigSource.moved o))) := by
  induction ss with
  | nil => exact fun _ hf hf' => .ok ⟨rfl, hf, hf'⟩
  | cons s ss ih =>
    intro f f' hs hf hf'
    rw [List.map_cons, shotSignals, shotSignals]
    refine (gen_same hb (hs s (by simp)) o (hf _) (hf' _)).bind fun r r' ⟨h1, h2, h3⟩ => ?_
    have u : ∀ (g : ℕ → Flags) (q : ℕ) (v : Flags), (∀ p, bit b (g p) = false) → bit b v = false →
        ∀ p, bit b (Function.update g q v p) = false := by
      intro g q v hg hv p
      by_cases e : p = q
      · rw [e, Function.update_self]; exact hv
      · rw [Function.update_of_ne e]; exact hg p
    refine (ih (fun t ht => hs t (by simp [ht])) (u _ _ _ hf h2) (u _ _ _ hf' h3)).bind fun a a' ⟨g1, g2, g3⟩ => ?_
    refine .ok ⟨?_, g2, g3⟩
    show signed s r.2 :: a.2 = signed s r'.2 :: a'.2
    rw [h1, g1]

/-- C136: without a combination of the types 2 and 3 in a run, the outcome (signals, rejection or undefined
behaviour) does not depend on which process owns which source. `partial`: with a combination it does,
`C136_violated`. -/
theorem C136_processes_partial {file : List (List ℝ)} {NT : Int} {DT : ℝ} {shots : List (List SigSource)}
    (hs : (∀ shot ∈ shots, ∀ s ∈ shot, s.waveletType ≠ 2) ∨ ∀ shot ∈ shots, ∀ s ∈ shot, s.waveletType ≠ 3)
    (o : SigSource → ℕ) :
    runSignals file NT DT (fun _ => {}) (shots.map (List.map (SigSource.moved o))) =
      runSignals file NT DT (fun _ => {}) shots := by
  obtain ⟨b, hb, hs⟩ : ∃ b : Int, (b = 2 ∨ b = 3) ∧ ∀ shot ∈ shots, ∀ s ∈ shot, s.waveletType ≠ b := by
    rcases hs with h | h
    · exact ⟨2, .inl rfl, h⟩
    · exact ⟨3, .inr rfl, h⟩
  have key : ∀ (shots : List (List SigSource)) (f f' : ℕ → Flags),
      (∀ shot ∈ shots, ∀ s ∈ shot, s.waveletType ≠ b) → (∀ p, bit b (f p) = false) → (∀ p, bit b (f' p) = false) →
        Same (fun r r' => r = r') (runSignals file NT DT f shots)
          (runSignals file NT DT f' (shots.map (List.map (SigSource.moved o)))) := by
    intro shots
    induction shots with
    | nil => exact fun _ _ _ _ _ => .ok rfl
    | cons shot shots ih =>
      intro f f' hs hf hf'
      rw [List.map_cons, runSignals, runSignals]
      refine (shot_same hb o shot (hs shot (by simp)) hf hf').bind fun r r' ⟨h1, h2, h3⟩ => ?_
      refine (ih _ _ (fun t ht => hs t (by simp [ht])) h2 h3).bind fun a a' h => .ok ?_
      show r.2 :: a = r'.2 :: a'
      rw [h1, h]
  have hz : ∀ p : ℕ, bit b ((fun _ => {} : ℕ → Flags) p) = false := fun p => by simp [bit]
  have := key shots _ _ hs hz hz
  cases h1 : runSignals file NT DT (fun _ => {}) shots <;>
    cases h2 : runSignals file NT DT (fun _ => {}) (shots.map (List.map (SigSource.moved o))) <;>
    (rewrite [h1, h2] at this; cases this) <;> first | rfl | (rename_i h; rw [h])

/-! ### Cases -/

/-- A source in row `row` of the source file. -/
noncomputable def sig (row wType : Int) (owner : ℕ) : SigSource where
  no := 1
  coords := ⟨0, 0, 0⟩
  type := 1
  row := row
  waveletType := wType
  amp := 1
  shape := 1
  fc := 10
  amplitude := 1
  tShift := 0
  owner := owner

/-- C135: the guide asks for as many lines in the signal file as there are sources of type 3. A source of type 1
followed by one of type 3 with its one signal is rejected: the lines are counted with all sources. -/
theorem C135_lines_violated :
    runSignals [[5, 6]] 2 1 (fun _ => {}) [[sig 0 1 0, sig 1 3 0]] = .err ∧
      ∃ r, runSignals [[0, 0], [5, 6]] 2 1 (fun _ => {}) [[sig 0 1 0, sig 1 3 0]] = .ok r := by
  obtain ⟨f, hf⟩ : ∃ f, synthetic 2 1 (sig 0 1 0) = .ok f := by
    obtain ⟨f, hf, -⟩ := C64_ricker (NT := 2) (DT := 1) (FC := 10) (AMP := 1) (T := 0) (by norm_num) (by norm_num)
      (by norm_num)
    exact ⟨some f, by simp [synthetic, sig, hf]⟩
  have g1 : ∀ file fl, genSignal file 2 1 fl (sig 0 1 0) = .ok (fl, f) := by
    intro file fl
    have : (sig 0 1 0).waveletType = 1 := rfl
    simp [genSignal, this, hf]
  constructor
  · simp only [runSignals, shotSignals, g1]
    simp [genSignal, sig, readSignal]
  · simp only [runSignals, shotSignals, g1]
    simp [genSignal, sig, readSignal]

/-- C135: a run of two shots whose sources have type 3: the signals are the lines of their numbers. -/
example : ∃ r, runSignals [[5, 6], [7, 8]] 2 1 (fun _ => {}) [[sig 0 3 0], [sig 1 3 0]] = .ok r ∧
    List.Forall₂ (List.Forall₂ (Emits [[5, 6], [7, 8]] 2 1)) [[sig 0 3 0], [sig 1 3 0]] r := by
  have h : ∃ r, runSignals [[5, 6], [7, 8]] 2 1 (fun _ => {}) [[sig 0 3 0], [sig 1 3 0]] = .ok r := by
    simp [runSignals, shotSignals, genSignal, sig, readSignal]
  obtain ⟨r, h⟩ := h
  exact ⟨r, h, C135_signals_partial (by simp [sig]) h⟩

/-- C136: a source of type 2 and one of type 3 are rejected on one process, as documented, and accepted on two. -/
theorem C136_violated :
    runSignals [[5, 6], [7, 8]] 2 1 (fun _ => {}) [[sig 0 2 0, sig 1 3 0]] = .err ∧
      ∃ r, runSignals [[5, 6], [7, 8]] 2 1 (fun _ => {}) [[sig 0 2 0, sig 1 3 1]] = .ok r := by
  constructor
  · simp [runSignals, shotSignals, genSignal, sig, readSignal]
  · simp [runSignals, shotSignals, genSignal, sig, readSignal]

/-- The case of `C136_violated` meets the hypotheses of `C136_accepted` ... -/
example : ∀ s ∈ [sig 0 2 0, sig 1 3 1], Available [[5, 6], [7, 8]] 2 1 s := by
  simp [Available, runSignals, shotSignals, genSignal, sig, readSignal]

/-- ... and a run of two shots with the types 1 and 3 those of `C136_processes_partial`. -/
example (file : List (List ℝ)) : runSignals file 2 1 (fun _ => {}) [[sig 0 1 3], [sig 1 3 4]] =
    runSignals file 2 1 (fun _ => {}) [[sig 0 1 0], [sig 1 3 0]] :=
  C136_processes_partial (shots := [[sig 0 1 0], [sig 1 3 0]]) (Or.inl (by simp [sig]))
    fun s => if s.row = 0 then 3 else 4

end Verif.Acq
