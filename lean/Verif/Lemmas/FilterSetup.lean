import Verif.Lemmas.Butterworth
/-!
# What the filter set-up produces
-/
namespace Verif.Spectral
open Finset Complex

theorem bind_ok {α β : Type} {x : Out α} {f : α → Out β} {b : β} (h : (x >>= f) = .ok b) :
    ∃ a, x = .ok a ∧ f a = .ok b := by
  cases x with
  | ok a => exact ⟨a, rfl, h⟩
  | err => cases h
  | ub => cases h

theorem filterLength_ok {nt : Int} (h : 2 ≤ nt) :
    Common.filterLength nt = .ok (2 ^ Nat.clog 2 (nt - 1).toNat - nt, ((2 ^ Nat.clog 2 (nt - 1).toNat : ℕ) : ℤ)) := by
  rw [Common.filterLength, if_neg (by omega), Common.calcNextPowTwo, if_neg (by omega)]
  simp

theorem init_eq {dt : ℝ} {nt : Int} (h0 : dt ≠ 0) (h : 2 ≤ nt) :
    init dt nt = .ok ⟨2 ^ Nat.clog 2 (nt - 1).toNat - nt, 2 ^ Nat.clog 2 (nt - 1).toNat, fun _ => 1, dt,
      nt.toNat, none⟩ := by
  rw [init, if_neg h0, filterLength_ok h]
  have hpos : 0 < 2 ^ Nat.clog 2 (nt - 1).toNat := by positivity
  have : ¬ (((2 ^ Nat.clog 2 (nt - 1).toNat : ℕ) : ℤ) ≤ 0) := by
    intro hc; exact absurd (Int.ofNat_le.1 hc) (by omega)
  show (if _ then _ else _) = _
  rw [if_neg this, Int.toNat_natCast]

theorem init_ok {dt : ℝ} {nt : Int} {F : Filter} (h : init dt nt = .ok F) :
    dt ≠ 0 ∧ 2 ≤ nt ∧ F = ⟨2 ^ Nat.clog 2 (nt - 1).toNat - nt, 2 ^ Nat.clog 2 (nt - 1).toNat, fun _ => 1, dt,
      nt.toNat, none⟩ := by
  have h0 : dt ≠ 0 := by
    intro hc; rw [init, if_pos hc] at h; cases h
  have h1 : 2 ≤ nt := by
    by_contra hlt
    rw [init, if_neg h0] at h
    obtain ⟨⟨pad, len⟩, h1, h2⟩ := bind_ok h
    rw [Common.filterLength] at h1
    by_cases h3 : nt = 0
    · rw [if_pos h3] at h1; cases h1
    · rw [if_neg h3, Common.calcNextPowTwo, if_pos (by omega)] at h1
      simp only at h1
      by_cases h4 : nt = 1
      · rw [if_pos h4] at h1
        cases Out.ok.inj h1
        simp at h2
      · rw [if_neg h4] at h1; cases h1
  refine ⟨h0, h1, ?_⟩
  rw [init_eq h0 h1] at h
  exact (Out.ok.inj h).symm

theorem len_even {m : ℕ} (h : 2 ^ m / 2 ≠ 0) : 2 * (2 ^ m / 2) = 2 ^ m := by
  rcases m with _ | m
  · simp at h
  · rw [pow_succ]; omega

theorem freq_eq (F : Filter) (h : 2 * (F.len / 2) = F.len) (k : ℕ) :
    F.freq k = (if 2 * k ≤ F.len then (k : ℝ) else (k : ℝ) - F.len) / (F.len * F.dt) := by
  rw [Filter.freq, Filter.df]
  by_cases h1 : k ≤ F.len / 2
  · rw [if_pos h1, if_pos (by omega)]; ring
  · rw [if_neg h1, if_neg (by omega), Nat.cast_sub (by omega)]
    have : (F.len : ℝ) = 2 * ((F.len / 2 : ℕ) : ℝ) := by exact_mod_cast h.symm
    have e : (-(((F.len / 2 : ℕ) : ℝ) - 1) + ((k : ℝ) - ((F.len / 2 + 1 : ℕ) : ℝ))) = (k : ℝ) - F.len := by
      push_cast; linarith
    rw [e]; ring

/-- What the three filter types calculate. -/
theorem butterworth_ok {F F' : Filter} {ty : String} {n : ℕ} {fc1 fc2 : ℝ}
    (h : F.calc "butterworth" ty n fc1 fc2 = .ok F') :
    0 < fc1 ∧ F.len / 2 ≠ 0 ∧ 2 ≤ n ∧ ∃ poly : ℕ → ℝ, (∀ j ≤ n, poly j = (butterProd n).coeff j) ∧
      ∃ H G T : ℕ → ℂ, F' = { F with tf := T } ∧
        (H = fun k => if k = 0 then 1 else butterValue n poly (I * ((F.freq k / (if ty = "bp" then fc2 else fc1) : ℝ) : ℂ))) ∧
        (G = fun k => if k = 0 then 0 else butterValue n poly (I * ((-fc1 / F.freq k : ℝ) : ℂ))) ∧
        ((ty = "lp" ∧ T = H) ∨ (ty = "hp" ∧ T = G) ∨ (ty = "bp" ∧ fc2 ≠ 0 ∧ T = fun k => H k * G k)) := by
  rw [Filter.calc, if_pos rfl, Filter.butterworth] at h
  by_cases h1 : 0 < fc1
  swap
  · rw [if_pos h1] at h; cases h
  rw [if_neg (not_not.2 h1)] at h
  by_cases h2 : F.len / 2 = 0
  · rw [if_pos h2] at h; cases h
  rw [if_neg h2] at h
  have hn : 2 ≤ n := by
    by_contra hlt
    have hl := calcButterPoly_low (show n ≤ 1 by omega)
    have hL : ∀ fc, F.lowPass n fc = .ub := fun fc => by rw [Filter.lowPass, hl]; rfl
    have hH : ∀ fc, F.highPass n fc = .ub := fun fc => by rw [Filter.highPass, hl]; rfl
    rw [hL, hH, hL] at h
    split_ifs at h <;> cases h
  obtain ⟨poly, hp, hc⟩ := calcButterPoly_eq hn
  have hL : ∀ fc, F.lowPass n fc = .ok fun k => if k = 0 then 1 else
      butterValue n poly (I * ((F.freq k / fc : ℝ) : ℂ)) := fun fc => by rw [Filter.lowPass, hp]; rfl
  have hH : ∀ fc, F.highPass n fc = .ok fun k => if k = 0 then 0 else
      butterValue n poly (I * ((-fc / F.freq k : ℝ) : ℂ)) := fun fc => by rw [Filter.highPass, hp]; rfl
  rw [hL, hH, hL] at h
  refine ⟨h1, h2, hn, poly, hc, _, _, F'.tf, ?_, rfl, rfl, ?_⟩
  · split_ifs at h <;> rw [← Out.ok.inj h]
  · split_ifs at h with h3 h4 h5 h6
    · left; subst h3; rw [← Out.ok.inj h]; exact ⟨rfl, by simp⟩
    · right; left; rw [← Out.ok.inj h]; exact ⟨h4, rfl⟩
    · right; right; rw [← Out.ok.inj h]; exact ⟨h5, h6, by simp [h5]⟩

end Verif.Spectral
