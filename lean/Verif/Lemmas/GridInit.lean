import Verif.Lemmas.Grid
import Mathlib.Tactic.IntervalCases
import Mathlib.Algebra.Order.Ring.Int
/-! Helper lemmas about the variable-grid constructor. -/
namespace Verif.Grid

/-! ### Powers of three -/

theorem isPow3_sound : ∀ (f : Nat) (d : Int), isPow3 f d = true → ∃ k : Nat, d = 3 ^ k := by
  intro f
  induction f with
  | zero => intro d h; simp [isPow3] at h
  | succ f ih =>
    intro d h
    simp only [isPow3, Bool.or_eq_true, Bool.and_eq_true, decide_eq_true_eq] at h
    rcases h with h | ⟨⟨h3, hp⟩, hr⟩
    · exact ⟨0, by simpa using h⟩
    · obtain ⟨k, hk⟩ := ih _ hr
      refine ⟨k + 1, ?_⟩
      rw [pow_succ, ← hk]; omega

theorem isPow3_complete : ∀ (k f : Nat), k < f → isPow3 f (3 ^ k) = true := by
  intro k
  induction k with
  | zero =>
    intro f hf
    obtain ⟨f, rfl⟩ : ∃ g, f = g + 1 := ⟨f - 1, by omega⟩
    simp [isPow3]
  | succ k ih =>
    intro f hf
    obtain ⟨f, rfl⟩ : ∃ g, f = g + 1 := ⟨f - 1, by omega⟩
    have hp : (0 : Int) < 3 ^ k := by positivity
    have e : (3 : Int) ^ (k + 1) = 3 ^ k * 3 := pow_succ _ _
    have e2 : ((3 : Int) ^ (k + 1)) / 3 = 3 ^ k := by rw [e]; omega
    simp only [isPow3, Bool.or_eq_true, Bool.and_eq_true, decide_eq_true_eq]
    right
    rw [e2]
    exact ⟨⟨by rw [e]; omega, by rw [e]; omega⟩, ih f (by omega)⟩

theorem acceptFactor_iff (d : Int) : acceptFactor d = true ↔ d = 0 ∨ ∃ k : Nat, d = 3 ^ k := by
  unfold acceptFactor
  simp only [Bool.or_eq_true, decide_eq_true_eq]
  constructor
  · rintro (h | h)
    · exact .inl h
    · exact .inr (isPow3_sound _ _ h)
  · rintro (h | ⟨k, rfl⟩)
    · exact .inl h
    · right
      apply isPow3_complete
      have h1 : k < 3 ^ k := Nat.lt_pow_self (by norm_num)
      have h2 : ((3 : Int) ^ k).toNat = 3 ^ k := by
        have : ((3 : Int) ^ k) = ((3 ^ k : Nat) : Int) := by push_cast; rfl
        rw [this]; exact Int.toNat_natCast _
      omega

theorem pow3_odd (k : Nat) : ∃ m : Int, (3 : Int) ^ k = 2 * m + 1 := by
  induction k with
  | zero => exact ⟨0, by norm_num⟩
  | succ k ih =>
    obtain ⟨m, hm⟩ := ih
    exact ⟨3 * m + 1, by rw [pow_succ, hm]; ring⟩

/-- If `N ≡ 1 + D/2 (mod D)` for a power of three `D`, then no smaller power of three
except 1 divides `N`. -/
theorem fit_not_dvd {a b : Nat} {N : Int} (hab : a ≤ b) (ha : 1 ≤ a)
    (hN : N % (3 ^ b) = 1 + (3 ^ b) / 2) : N % (3 ^ a) ≠ 0 := by
  intro h0
  obtain ⟨c, rfl⟩ := Nat.exists_eq_add_of_le hab
  obtain ⟨p, hp⟩ := pow3_odd a
  obtain ⟨q, hq⟩ := pow3_odd c
  have hdvd : (3 : Int) ^ a ∣ N := Int.dvd_of_emod_eq_zero h0
  have hdvd2 : (3 : Int) ^ a ∣ 3 ^ (a + c) := pow_dvd_pow _ (by omega)
  have hmod : (3 : Int) ^ a ∣ N % 3 ^ (a + c) := by
    rw [Int.emod_def]; exact Int.dvd_sub hdvd (Dvd.dvd.mul_right hdvd2 _)
  rw [hN] at hmod
  have e : (3 : Int) ^ (a + c) = 3 ^ a * 3 ^ c := pow_add _ _ _
  have e3 : (3 : Int) ^ (a + c) / 2 = 3 ^ a * q + p := by
    rw [e, hq]
    have : (3 : Int) ^ a * (2 * q + 1) = 2 * (3 ^ a * q + p) + 1 := by
      rw [hp]; ring
    rw [this]; omega
  rw [e3] at hmod
  have h5 : (3 : Int) ^ a ∣ 1 + p := by
    have : (1 + p : Int) = (1 + (3 ^ a * q + p)) - 3 ^ a * q := by ring
    rw [this]
    exact Int.dvd_sub hmod (Dvd.intro _ rfl)
  have hp3 : (3 : Int) ≤ 3 ^ a := by
    calc (3 : Int) = 3 ^ 1 := by norm_num
      _ ≤ 3 ^ a := pow_le_pow_right₀ (by norm_num) ha
  have := Int.le_of_dvd (by omega) h5
  omega

theorem maxFactor_ge_aux : ∀ (dhs : List Int) (m : Int),
    m ≤ dhs.foldl (fun m d => if d > m then d else m) m ∧
    (∀ d ∈ dhs, d ≤ dhs.foldl (fun m d => if d > m then d else m) m) ∧
    (dhs.foldl (fun m d => if d > m then d else m) m = m ∨
      dhs.foldl (fun m d => if d > m then d else m) m ∈ dhs) := by
  intro dhs
  induction dhs with
  | nil => intro m; simp
  | cons a dhs ih =>
    intro m
    simp only [List.foldl_cons]
    obtain ⟨h1, h2, h3⟩ := ih (if a > m then a else m)
    refine ⟨?_, ?_, ?_⟩
    · have : m ≤ (if a > m then a else m) := by split <;> omega
      omega
    · intro d hd
      rcases List.mem_cons.mp hd with rfl | hd
      · have : d ≤ (if d > m then d else m) := by split <;> omega
        omega
      · exact h2 d hd
    · rcases h3 with h3 | h3
      · by_cases h : a > m
        · simp only [h, if_true] at *
          right; rw [h3]; exact List.mem_cons_self
        · simp only [h, if_false] at *
          exact .inl h3
      · exact .inr (List.mem_cons_of_mem _ h3)

theorem le_maxFactor {dhs : List Int} {d : Int} (h : d ∈ dhs) : d ≤ maxFactor dhs :=
  (maxFactor_ge_aux dhs 0).2.1 d h

theorem maxFactor_mem {dhs : List Int} (hne : dhs ≠ []) (hpos : ∀ d ∈ dhs, 0 < d) :
    maxFactor dhs ∈ dhs := by
  rcases (maxFactor_ge_aux dhs 0).2.2 with h | h
  · obtain ⟨d, hd⟩ := List.exists_mem_of_ne_nil _ hne
    have := le_maxFactor hd
    have := hpos d hd
    unfold maxFactor at *
    omega
  · exact h

/-! ### The size-fitting loop -/

/-- The condition the loop looks for, as a remainder. -/
theorem fit_cond_iff {D N : Int} (hN : 0 ≤ N) (hD : 0 < D) :
    N = (N.tdiv D) * D + 1 + D.tdiv 2 ↔ N % D = 1 + D / 2 := by
  rw [Int.tdiv_eq_ediv_of_nonneg hN, Int.tdiv_eq_ediv_of_nonneg hD.le]
  have := Int.emod_add_mul_ediv N D
  rw [mul_comm] at this
  constructor <;> intro h <;> omega

theorem fitDown_spec {D : Int} (hD : 0 < D) : ∀ (n : Nat),
    match fitDown D n with
    | some m => 0 ≤ m ∧ m ≤ n ∧ m % D = 1 + D / 2 ∧ ∀ k : Int, m < k → k ≤ n → k % D ≠ 1 + D / 2
    | none => ∀ k : Int, 0 ≤ k → k ≤ n → k % D ≠ 1 + D / 2 := by
  intro n
  induction n with
  | zero =>
    unfold fitDown
    by_cases h : (0 : Int) = (Int.tdiv 0 D) * D + 1 + D.tdiv 2
    · rw [if_pos h]
      exact ⟨le_refl _, by simp, (fit_cond_iff (le_refl 0) hD).mp h, fun k h1 h2 => by
        simp at h2; omega⟩
    · rw [if_neg h]
      intro k h0 h1
      have : k = 0 := by simp at h1; omega
      subst this
      exact fun h' => h ((fit_cond_iff (le_refl 0) hD).mpr h')
  | succ n ih =>
    unfold fitDown
    by_cases h : ((n : Int) + 1) = (((n : Int) + 1).tdiv D) * D + 1 + D.tdiv 2
    · simp only [if_pos h]
      refine ⟨by omega, by push_cast; omega, (fit_cond_iff (by omega) hD).mp h, ?_⟩
      intro k h1 h2; push_cast at h2; omega
    · simp only [if_neg h]
      have hne : ((n : Int) + 1) % D ≠ 1 + D / 2 :=
        fun h' => h ((fit_cond_iff (by omega) hD).mpr h')
      cases hf : fitDown D n with
      | none =>
        simp only [hf] at ih ⊢
        intro k h0 h1
        push_cast at h1
        by_cases hk : k = n + 1
        · subst hk; exact hne
        · exact ih k h0 (by omega)
      | some m =>
        simp only [hf] at ih ⊢
        refine ⟨ih.1, by push_cast; omega, ih.2.2.1, ?_⟩
        intro k h1 h2
        push_cast at h2
        by_cases hk : k = n + 1
        · subst hk; exact hne
        · exact ih.2.2.2 k h1 (by omega)

theorem fitDown_isSome {D : Int} (hD : 3 ≤ D) (n : Nat) :
    (fitDown D n).isSome ↔ 1 + D / 2 ≤ n := by
  have hs := fitDown_spec (D := D) (by omega) n
  constructor
  · intro h
    obtain ⟨m, hm⟩ := Option.isSome_iff_exists.mp h
    rw [hm] at hs
    obtain ⟨h0, hle, hmod, _⟩ := hs
    have : m % D ≤ m := by
      have h1 := Int.emod_add_mul_ediv m D
      have h2 := mul_nonneg (by omega : 0 ≤ D) (Int.ediv_nonneg h0 (by omega : 0 ≤ D))
      omega
    omega
  · intro h
    by_contra hn
    have hnone : fitDown D n = none := by simpa using hn
    rw [hnone] at hs
    have := hs (1 + D / 2) (by omega) h
    apply this
    rw [Int.emod_eq_of_lt (by omega) (by omega)]

/-! ### Interface adjustment -/

theorem decLoop_spec {d base : Int} (hd : 0 < d) : ∀ (f : Nat) (i : Int),
    (i - base) % d < f → decLoop d base f i = some (i - (i - base) % d) := by
  intro f
  induction f with
  | zero => intro i h; have := Int.emod_nonneg (i - base) (by omega : d ≠ 0); simp at h; omega
  | succ f ih =>
    intro i h
    unfold decLoop
    by_cases h0 : (i - base) % d = 0
    · rw [if_pos h0, h0]; simp
    · rw [if_neg h0]
      have hnn := Int.emod_nonneg (i - base) (by omega : d ≠ 0)
      have hlt := Int.emod_lt_of_pos (i - base) hd
      have e : (i - 1 - base) % d = (i - base) % d - 1 := by
        have h1 := Int.emod_add_mul_ediv (i - base) d
        have h2 : i - 1 - base = ((i - base) % d - 1) + d * ((i - base) / d) := by omega
        rw [h2, Int.add_mul_emod_self_left, Int.emod_eq_of_lt (by omega) (by omega)]
      rw [ih _ (by rw [e]; push_cast at h; omega), e]
      congr 1; omega

theorem decLoop_init {d base i : Int} (hd : 0 < d) :
    decLoop d base (d.toNat + 1) i = some (i - (i - base) % d) := by
  apply decLoop_spec hd
  have := Int.emod_lt_of_pos (i - base) hd
  push_cast
  omega

/-- Requested interfaces leave room for one cell of each layer (from a given depth on). -/
def gapsFrom : Int → List Int → List Int → Prop
  | prev, d :: ds, j :: js => prev + d ≤ j ∧ gapsFrom j ds js
  | _, [], [] => True
  | _, _, _ => False

/-- Interfaces after adjustment. -/
def alignedFrom : Int → List Int → List Int → Prop
  | base, d :: ds, i :: is => base + d ≤ i ∧ d ∣ i - base ∧ alignedFrom i ds is
  | _, [], [] => True
  | _, _, _ => False

theorem adjust_spec : ∀ (ds js : List Int) (base prev : Int), (∀ d ∈ ds, 0 < d) → base ≤ prev →
    gapsFrom prev ds js →
    ∃ is, adjust base ds js = some is ∧ alignedFrom base ds is ∧
      is.length = js.length ∧
      (∀ k (h : k < is.length) (h' : k < js.length) (h'' : k < ds.length),
        is[k] ≤ js[k] ∧ js[k] < is[k] + ds[k]) := by
  intro ds
  induction ds with
  | nil =>
    intro js base prev _ _ hg
    cases js with
    | nil => exact ⟨[], rfl, trivial, rfl, fun k h => by simp at h⟩
    | cons j js => exact absurd hg (by simp [gapsFrom])
  | cons d ds ih =>
    intro js base prev hpos hb hg
    cases js with
    | nil => exact absurd hg (by simp [gapsFrom])
    | cons j js =>
      obtain ⟨hg1, hg2⟩ := hg
      have hd : 0 < d := hpos d List.mem_cons_self
      have hnn := Int.emod_nonneg (j - base) (by omega : d ≠ 0)
      have hlt := Int.emod_lt_of_pos (j - base) hd
      have hdiv : d ∣ j - (j - base) % d - base := by
        have h1 := Int.emod_add_mul_ediv (j - base) d
        exact ⟨(j - base) / d, by omega⟩
      have hge : base + d ≤ j - (j - base) % d := by
        obtain ⟨q, hq⟩ := hdiv
        have : 0 < q := by
          by_contra hq0
          have hq0 : q ≤ 0 := by omega
          have : d * q ≤ 0 := by nlinarith
          omega
        nlinarith
      obtain ⟨is, h1, h2, h3, h4⟩ := ih js (j - (j - base) % d) j
        (fun d' h' => hpos d' (List.mem_cons_of_mem _ h')) (by omega) hg2
      refine ⟨(j - (j - base) % d) :: is, ?_, ⟨hge, hdiv, h2⟩, by simp [h3], ?_⟩
      · simp only [adjust, decLoop_init hd, h1, Option.map_some]
      · intro k h h' h''
        cases k with
        | zero => simp only [List.getElem_cons_zero]; omega
        | succ k =>
          simp only [List.getElem_cons_succ]
          exact h4 k _ _ _

/-! ### Layer construction -/

/-- `N` columns fit a layer with factor `d`. -/
def Fits (N d : Int) : Prop := 0 < N ∧ (d = 1 ∨ (1 < d ∧ N % d ≠ 0))

theorem mkLayer_ok {NX NZ d start stop t : Int} (hx : Fits NX d) (hz : Fits NZ d)
    (hs : 0 ≤ start) (hle : start ≤ stop + d) (hdvd : d ∣ stop - start) :
    LayerOK NX NZ (mkLayer NX NZ d start stop t) := by
  obtain ⟨hx0, hx1⟩ := hx
  obtain ⟨hz0, hz1⟩ := hz
  have hd : 1 ≤ d := by rcases hx1 with h | h <;> omega
  obtain ⟨q, hq⟩ := hdvd
  have ny : (stop - start).tdiv d + 1 = q + 1 := by
    rw [hq, Int.mul_tdiv_cancel_left _ (by omega)]
  have hq1 : -1 ≤ q := by
    by_contra h
    have h : q ≤ -2 := by omega
    have : d * q ≤ d * (-2) := Int.mul_le_mul_of_nonneg_left h (by omega)
    omega
  rcases hx1 with h1 | ⟨h1, hxm⟩
  · subst h1
    exact { dh_pos := by simp [mkLayer]
            nx_pos := by simp [mkLayer]; omega
            nz_pos := by simp [mkLayer]; omega
            ny_nonneg := by simp only [mkLayer]; rw [ny]; omega
            start_nonneg := hs
            stop_eq := by simp only [mkLayer]; rw [ny]; omega
            fitX := by simp [mkLayer]
            fitZ := by simp [mkLayer]
            coverX := by simp [mkLayer]
            coverZ := by simp [mkLayer] }
  · have hzm : NZ % d ≠ 0 := by
      rcases hz1 with h | ⟨_, h⟩
      · omega
      · exact h
    have ex : NX.tdiv d = NX / d := Int.tdiv_eq_ediv_of_nonneg hx0.le
    have ez : NZ.tdiv d = NZ / d := Int.tdiv_eq_ediv_of_nonneg hz0.le
    have ax := Int.emod_add_mul_ediv NX d
    have az := Int.emod_add_mul_ediv NZ d
    have lx := Int.emod_lt_of_pos NX (by omega : 0 < d)
    have lz := Int.emod_lt_of_pos NZ (by omega : 0 < d)
    have nx := Int.emod_nonneg NX (by omega : d ≠ 0)
    have nz := Int.emod_nonneg NZ (by omega : d ≠ 0)
    have dx := Int.ediv_nonneg hx0.le (by omega : 0 ≤ d)
    have dz := Int.ediv_nonneg hz0.le (by omega : 0 ≤ d)
    have cx := mul_comm d (NX / d)
    have cz := mul_comm d (NZ / d)
    have px : (NX / d + 1) * d = NX / d * d + d := by ring
    have pz : (NZ / d + 1) * d = NZ / d * d + d := by ring
    exact { dh_pos := hd
            nx_pos := by simp only [mkLayer, if_pos (show d > 1 from h1), ex]; omega
            nz_pos := by simp only [mkLayer, if_pos (show d > 1 from h1), ez]; omega
            ny_nonneg := by simp only [mkLayer]; rw [ny]; omega
            start_nonneg := hs
            stop_eq := by
              simp only [mkLayer]; rw [ny]
              have : (q + 1 - 1) * d = d * q := by ring
              omega
            fitX := by
              simp only [mkLayer, if_pos (show d > 1 from h1), ex]
              have : (NX / d + 1 - 1) * d = NX / d * d := by ring
              omega
            fitZ := by
              simp only [mkLayer, if_pos (show d > 1 from h1), ez]
              have : (NZ / d + 1 - 1) * d = NZ / d * d := by ring
              omega
            coverX := by simp only [mkLayer, if_pos (show d > 1 from h1), ex]; omega
            coverZ := by simp only [mkLayer, if_pos (show d > 1 from h1), ez]; omega }

theorem alignedFrom_last : ∀ (ds is : List Int) (base : Int), (∀ d ∈ ds, 0 < d) →
    alignedFrom base ds is → base ≤ is.getLastD base := by
  intro ds
  induction ds with
  | nil => intro is base _ h; cases is <;> simp_all [alignedFrom]
  | cons d ds ih =>
    intro is base hpos h
    cases is with
    | nil => simp
    | cons i is =>
      obtain ⟨h1, _, h3⟩ := h
      have := ih is i (fun d' h' => hpos d' (List.mem_cons_of_mem _ h')) h3
      have hd := hpos d List.mem_cons_self
      rw [List.getLastD_cons]; omega

theorem buildLayers_wf {NX NZ : Int} : ∀ (ds is : List Int) (lo s d i hi : Int),
    (∀ e ∈ d :: ds, Fits NX e ∧ Fits NZ e) → lo ≤ s → 0 ≤ s → s ≤ i → d ∣ i - s →
    alignedFrom i ds is → hi = is.getLastD i →
    WF NX NZ hi lo (buildLayers NX NZ s (d :: ds) (i :: is)) ∧
      (buildLayers NX NZ s (d :: ds) (i :: is)).length = ds.length + 1 := by
  intro ds
  induction ds with
  | nil =>
    intro is lo s d i hi hfit hlo hs hsi hdvd hal hhi
    cases is with
    | cons i' is => exact absurd hal (by simp [alignedFrom])
    | nil =>
      have hf := hfit d List.mem_cons_self
      have hd : 1 ≤ d := by rcases hf.1.2 with h | h <;> omega
      simp only [buildLayers, WF, List.length_cons, List.length_nil]
      exact ⟨⟨mkLayer_ok hf.1 hf.2 hs (by omega) hdvd, hlo, by simp [mkLayer, hhi], trivial⟩, by simp⟩
  | cons d' ds ih =>
    intro is lo s d i hi hfit hlo hs hsi hdvd hal hhi
    cases is with
    | nil => exact absurd hal (by simp [alignedFrom])
    | cons i' is =>
      obtain ⟨hg, hdv, hal'⟩ := hal
      have hf := hfit d List.mem_cons_self
      have hf' := hfit d' (by simp)
      have hd : 1 ≤ d := by rcases hf.1.2 with h | h <;> omega
      have hd' : 1 ≤ d' := by rcases hf'.1.2 with h | h <;> omega
      have hfit' : ∀ e ∈ d' :: ds, Fits NX e ∧ Fits NZ e :=
        fun e he => hfit e (List.mem_cons_of_mem _ he)
      have hpos : ∀ e ∈ ds, 0 < e := by
        intro e he
        rcases (hfit e (by simp [he])).1.2 with h | h <;> omega
      have hlast := alignedFrom_last ds is i' hpos hal'
      rw [List.getLastD_cons] at hhi
      simp only [buildLayers]
      split
      · rename_i hlt
        obtain ⟨hw, hlen⟩ := ih is (max lo (i + 1)) (i + d') d' i' hi hfit' (by omega) (by omega) hg
          (by have : i' - (i + d') = (i' - i) - d' := by ring
              rw [this]; exact Int.dvd_sub hdv (dvd_refl _)) hal' hhi
        refine ⟨⟨mkLayer_ok hf.1 hf.2 hs (by omega) hdvd, hlo, ?_, hw⟩, by simp [hlen]⟩
        simp only [mkLayer]; omega
      · have hdvd2 : d ∣ i - d - s := by
          have : i - d - s = (i - s) - d := by ring
          rw [this]; exact Int.dvd_sub hdvd (dvd_refl _)
        obtain ⟨hw, hlen⟩ := ih is (max lo (i - d + 1)) i d' i' hi hfit' (by omega) (by omega)
          (by omega) hdv hal' hhi
        split
        · refine ⟨⟨mkLayer_ok hf.1 hf.2 hs (by omega) hdvd2, hlo, ?_, hw⟩, by simp [hlen]⟩
          simp only [mkLayer]; omega
        · refine ⟨⟨mkLayer_ok hf.1 hf.2 hs (by omega) hdvd2, hlo, ?_, hw⟩, by simp [hlen]⟩
          simp only [mkLayer]; omega

/-! ### The constructor as a whole -/

theorem adjust_total : ∀ (ds js : List Int) (base : Int), (∀ d ∈ ds, 0 < d) →
    ds.length = js.length →
    ∃ is, adjust base ds js = some is ∧ is.length = js.length ∧
      (∀ k (h : k < is.length) (h' : k < js.length) (h'' : k < ds.length),
        is[k] ≤ js[k] ∧ js[k] < is[k] + ds[k] ∧
        ds[k] ∣ is[k] - (if k = 0 then base else is.getD (k - 1) 0)) := by
  intro ds
  induction ds with
  | nil =>
    intro js base _ hlen
    cases js with
    | nil => exact ⟨[], rfl, rfl, fun k h => by simp at h⟩
    | cons j js => simp at hlen
  | cons d ds ih =>
    intro js base hpos hlen
    cases js with
    | nil => simp at hlen
    | cons j js =>
      have hd : 0 < d := hpos d List.mem_cons_self
      have hnn := Int.emod_nonneg (j - base) (by omega : d ≠ 0)
      have hlt := Int.emod_lt_of_pos (j - base) hd
      have hdiv : d ∣ j - (j - base) % d - base := by
        have h1 := Int.emod_add_mul_ediv (j - base) d
        exact ⟨(j - base) / d, by omega⟩
      obtain ⟨is, h1, h3, h4⟩ := ih js (j - (j - base) % d)
        (fun d' h' => hpos d' (List.mem_cons_of_mem _ h')) (by simpa using hlen)
      refine ⟨(j - (j - base) % d) :: is, ?_, by simp [h3], ?_⟩
      · simp only [adjust, decLoop_init hd, h1, Option.map_some]
      · intro k h h' h''
        cases k with
        | zero =>
          simp only [List.getElem_cons_zero, if_true]
          exact ⟨by omega, by omega, hdiv⟩
        | succ k =>
          simp only [List.getElem_cons_succ]
          obtain ⟨a, b, c⟩ := h4 k (by simpa using h) (by simpa using h') (by simpa using h'')
          refine ⟨a, b, ?_⟩
          rw [if_neg (by omega)]
          cases k with
          | zero => simpa using c
          | succ k => simpa using c

theorem getLastD_eq_getD : ∀ (is : List Int) (a : Int), is ≠ [] →
    is.getLastD a = is.getD (is.length - 1) 0 := by
  intro is
  induction is with
  | nil => intro a h; exact absurd rfl h
  | cons i is ih =>
    intro a _
    rw [List.getLastD_cons]
    cases is with
    | nil => simp
    | cons i' is => rw [ih i (by simp)]; simp

/-- The whole constructor: sizes fit every factor and the layers are well formed. -/
theorem initVar_wf {NX NY NZ : Int} {dhs ifs : List Int} {g : Grid}
    (h : initVar NX NY NZ dhs ifs = .ok g)
    (hgap : ∃ d ds j js, dhs = d :: ds ∧ ifs ++ [NY - 1] = j :: js ∧ 0 ≤ j ∧ gapsFrom j ds js) :
    WF g.NX g.NZ (g.NY - 1) 0 g.layers ∧ g.layers.length = dhs.length := by
  obtain ⟨d, ds, j, js, rfl, hj, hj0, hgap⟩ := hgap
  unfold initVar at h
  simp only [hj] at h
  split at h; · cases h
  split at h; · cases h
  split at h; · cases h
  rename_i hsz
  split at h; · cases h
  rename_i hacc
  split at h; · cases h
  rename_i h0
  have hacc : ∀ e ∈ d :: ds, ∃ k : Nat, e = 3 ^ k := by
    intro e he
    have h1 : (d :: ds).all acceptFactor = true := by simpa using hacc
    have h2 := List.all_eq_true.mp h1 e he
    rcases (acceptFactor_iff e).mp h2 with h3 | h3
    · subst h3
      exact absurd (List.contains_iff_mem.mpr he) (by simpa using h0)
    · exact h3
  have hpos : ∀ e ∈ d :: ds, 0 < e := by
    intro e he; obtain ⟨k, rfl⟩ := hacc e he; positivity
  have hsz : NX > 0 ∧ NY > 0 ∧ NZ > 0 := by simpa using hsz
  by_cases h1 : maxFactor (d :: ds) = 1
  · rw [if_neg (by simpa using h1)] at h
    injection h with h; subst h
    have hone : ∀ e ∈ d :: ds, e = 1 := by
      intro e he
      have := le_maxFactor he; have := hpos e he; omega
    have hal : ∀ (ds js : List Int) (b : Int), (∀ e ∈ ds, e = 1) → gapsFrom b ds js →
        alignedFrom b ds js := by
      intro ds
      induction ds with
      | nil => intro js b _ h; cases js <;> simp_all [gapsFrom, alignedFrom]
      | cons e ds ih =>
        intro js b he h
        cases js with
        | nil => simp [gapsFrom] at h
        | cons j js =>
          refine ⟨h.1, ?_, ih js j (fun e' h' => he e' (List.mem_cons_of_mem _ h')) h.2⟩
          rw [he e List.mem_cons_self]; exact one_dvd _
    have hd1 : d = 1 := hone d List.mem_cons_self
    have := buildLayers_wf (NX := NX) (NZ := NZ) ds js 0 0 d j (js.getLastD j)
      (fun e he => ⟨⟨hsz.1, .inl (hone e he)⟩, ⟨hsz.2.2, .inl (hone e he)⟩⟩)
      (le_refl _) (le_refl _) hj0 (by rw [hd1]; exact one_dvd _)
      (hal ds js j (fun e he => hone e (List.mem_cons_of_mem _ he)) hgap) rfl
    refine ⟨?_, by simpa using this.2⟩
    have e : (j :: js).getLastD (-1) + 1 - 1 = js.getLastD j := by rw [List.getLastD_cons]; omega
    show WF NX NZ ((j :: js).getLastD (-1) + 1 - 1) 0 _
    rw [e]; exact this.1
  · rw [if_pos (by simpa using h1)] at h
    -- the coarsest factor
    obtain ⟨b, hb⟩ := hacc _ (maxFactor_mem (by simp) hpos)
    have hb1 : 1 ≤ b := by
      by_contra hb1
      have : b = 0 := by omega
      subst this; exact h1 (by simpa using hb)
    have hDpos : 0 < maxFactor (d :: ds) := by rw [hb]; positivity
    have hfits : ∀ N : Int, 0 < N → (N = 1 ∨ N % maxFactor (d :: ds) = 1 + maxFactor (d :: ds) / 2) →
        ∀ e ∈ d :: ds, Fits N e := by
      intro N hN hc e he
      refine ⟨hN, ?_⟩
      obtain ⟨a, ha⟩ := hacc e he
      by_cases ha0 : a = 0
      · left; subst ha0; simpa using ha
      · right
        have h1e : 1 < e := by rw [ha]; exact one_lt_pow₀ (by norm_num) ha0
        refine ⟨h1e, ?_⟩
        rcases hc with hc | hc
        · subst hc; rw [Int.emod_eq_of_lt (by omega) h1e]; omega
        · have hle := le_maxFactor he
          rw [hb, ha] at hle
          have hab : a ≤ b := (pow_le_pow_iff_right₀ (by norm_num : (1:Int) < 3)).mp hle
          rw [hb] at hc
          rw [ha]
          exact fit_not_dvd hab (by omega) hc
    cases hx : fitDown (maxFactor (d :: ds)) NX.toNat with
    | none => simp [hx] at h
    | some NX' =>
      cases hz : (if NZ = 1 then some 1 else fitDown (maxFactor (d :: ds)) NZ.toNat) with
      | none => simp [hx, hz] at h
      | some NZ' =>
        have hX : NX' % maxFactor (d :: ds) = 1 + maxFactor (d :: ds) / 2 ∧ 0 < NX' := by
          have := fitDown_spec hDpos NX.toNat
          rw [hx] at this
          obtain ⟨p0, _, p2, _⟩ := this
          refine ⟨p2, ?_⟩
          rcases eq_or_lt_of_le p0 with hh | hh
          · rw [← hh] at p2; simp at p2; omega
          · exact hh
        have hZ : 0 < NZ' ∧ (NZ' = 1 ∨ NZ' % maxFactor (d :: ds) = 1 + maxFactor (d :: ds) / 2) := by
          split at hz
          · injection hz with hz; omega
          · have := fitDown_spec hDpos NZ.toNat
            rw [hz] at this
            obtain ⟨p0, _, p2, _⟩ := this
            refine ⟨?_, .inr p2⟩
            rcases eq_or_lt_of_le p0 with hh | hh
            · rw [← hh] at p2; simp at p2; omega
            · exact hh
        -- interfaces
        have hd : 0 < d := hpos d List.mem_cons_self
        have hnn := Int.emod_nonneg (j - 0) (by omega : d ≠ 0)
        have hemod : (j - 0) % d ≤ j := by
          have h1 := Int.emod_add_mul_ediv (j - 0) d
          have h2 := mul_nonneg hd.le (Int.ediv_nonneg (by omega : 0 ≤ j - 0) hd.le)
          omega
        obtain ⟨is, ha, hal, _, _⟩ := adjust_spec ds js (j - (j - 0) % d) j
          (fun e he => hpos e (List.mem_cons_of_mem _ he)) (by omega) hgap
        have hadj : adjust 0 (d :: ds) (j :: js) = some ((j - (j - 0) % d) :: is) := by
          simp only [adjust, decLoop_init hd, ha, Option.map_some]
        rw [hx, hz, hadj] at h
        injection h with h; subst h
        have := buildLayers_wf (NX := NX') (NZ := NZ') ds is 0 0 d (j - (j - 0) % d)
          (is.getLastD (j - (j - 0) % d))
          (fun e he => ⟨hfits NX' hX.2 (.inr hX.1) e he, hfits NZ' hZ.1 hZ.2 e he⟩)
          (le_refl _) (le_refl _) (by omega)
          (by have h1 := Int.emod_add_mul_ediv (j - 0) d
              exact ⟨(j - 0) / d, by omega⟩) hal rfl
        refine ⟨?_, by simpa using this.2⟩
        have e : ((j - (j - 0) % d) :: is).getLastD (-1) + 1 - 1 = is.getLastD (j - (j - 0) % d) := by
          rw [List.getLastD_cons]; omega
        show WF NX' NZ' (((j - (j - 0) % d) :: is).getLastD (-1) + 1 - 1) 0 _
        rw [e]; exact this.1

end Verif.Grid
