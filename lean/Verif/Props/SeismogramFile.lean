import Verif.Model.SeismogramFile
import Verif.Props.SU

/-!
# C150: seismograms can be read back
-/
namespace Verif.SeisFile
open Verif
open Verif.Config (Str)
open Verif.Shots (blockLb blockUb)

variable {B V : Type}

/-! ### Helper lemmas -/

/-- The file of a component. -/
private def fileName (fmt : Int) (filename comp : Str) : Str :=
  filename ++ ".".toList ++ comp ++ if fmt = 4 then ".su".toList else (extension fmt).getD []

private theorem fileName_inj {fmt : Int} {filename c d : Str} (h : fileName fmt filename c = fileName fmt filename d) :
    c = d := by
  unfold fileName at h
  have h1 := List.append_cancel_right h
  exact List.append_cancel_left h1

/-- The file of a seismogram is on the disk. -/
private def Stored (c : SU.Codec B V) (P : ℕ) (DH DT : ℚ) (fmt : Int) (filename : Str) (s : Seis V) (disk : Disk B V) :
    Prop :=
  (fmt = 4 ∧ ∃ b, SU.writeSU c P DH DT s.ns s.source s.coordinates s.data = .ok b ∧
    disk (fileName fmt filename s.comp) = some (.bytes b)) ∨
  (fmt ≠ 4 ∧ extension fmt ≠ none ∧ disk (fileName fmt filename s.comp) = some (.matrix s.data))

private theorem write_spec {c : SU.Codec B V} {P : ℕ} {DH DT : ℚ} {resample : List V → List V} {nsOut : ℕ} {fmt : Int}
    {filename : Str} {s s' : Seis V} {disk disk' : Disk B V} (h5 : fmt ≠ 5) (hp : inProfile s = false) (h0 : 0 < s.ns)
    (hns : s.ns = nsOut) (hr : ∀ r ∈ s.data, resample r = r)
    (h : write c P DH DT resample nsOut fmt filename s disk = .ok (s', disk')) :
    s' = s ∧ (∀ n, n ≠ fileName fmt filename s.comp → disk' n = disk n) ∧
      (s.data ≠ [] → Stored c P DH DT fmt filename s disk') := by
  have hmap : s.data.map resample = s.data := by
    conv_rhs => rw [← List.map_id s.data]
    exact List.map_congr_left hr
  unfold write at h
  split at h
  · rename_i h1
    cases h
    refine ⟨rfl, fun _ _ => rfl, fun hne => ?_⟩
    have : s.data.length ≠ 0 := by simpa using hne
    rcases Nat.mul_eq_zero.mp h1 with h2 | h2 <;> omega
  · rw [hp] at h
    simp only [Bool.false_eq_true, if_false] at h
    split at h
    · rename_i h4
      rw [hmap, ← hns] at h
      cases hb : SU.writeSU c P DH DT s.ns s.source s.coordinates s.data with
      | err => rw [hb] at h; cases h
      | ub => rw [hb] at h; cases h
      | ok b =>
        rw [hb] at h
        cases h
        refine ⟨rfl, fun n hn => ?_, fun _ => .inl ⟨h4, b, hb, ?_⟩⟩
        · unfold put
          rw [if_neg (by simpa [fileName, h4] using hn)]
        · unfold put fileName
          rw [if_pos h4, if_pos rfl]
    · rename_i h4
      rw [hmap] at h
      cases he : extension fmt with
      | none => rw [he] at h; cases h
      | some e =>
        rw [he] at h
        cases h
        refine ⟨rfl, fun n hn => ?_, fun _ => .inr ⟨h4, by simp [he], ?_⟩⟩
        · unfold put
          rw [if_neg (by simpa [fileName, h4, he] using hn)]
        · unfold put fileName
          rw [if_neg h4, he]
          exact if_pos rfl

private theorem stored_congr {c : SU.Codec B V} {P : ℕ} {DH DT : ℚ} {fmt : Int} {filename : Str} {s : Seis V}
    {disk disk' : Disk B V} (h : disk' (fileName fmt filename s.comp) = disk (fileName fmt filename s.comp))
    (hs : Stored c P DH DT fmt filename s disk) : Stored c P DH DT fmt filename s disk' := by
  unfold Stored at hs ⊢
  rw [h]
  exact hs

private theorem writeAll_spec {c : SU.Codec B V} {P : ℕ} {DH DT : ℚ} {resample : List V → List V} {nsOut : ℕ} {fmt : Int}
    {filename : Str} (h5 : fmt ≠ 5) : ∀ {l l' : List (Seis V)} {disk disk' : Disk B V},
    (l.map Seis.comp).Nodup → (∀ s ∈ l, inProfile s = false ∧ 0 < s.ns ∧ s.ns = nsOut ∧ ∀ r ∈ s.data, resample r = r) →
    writeAll c P DH DT resample nsOut fmt filename l disk = .ok (l', disk') →
    (∀ s ∈ l, s.data ≠ [] → Stored c P DH DT fmt filename s disk') ∧
      ∀ n, (∀ s ∈ l, n ≠ fileName fmt filename s.comp) → disk' n = disk n := by
  intro l
  induction l with
  | nil =>
    intro l' disk disk' _ _ h
    cases h
    exact ⟨by simp, fun _ _ => rfl⟩
  | cons s l ih =>
    intro l' disk disk' hn hl h
    unfold writeAll at h
    cases hw : write c P DH DT resample nsOut fmt filename s disk with
    | err => rw [hw] at h; cases h
    | ub => rw [hw] at h; cases h
    | ok r =>
      obtain ⟨s', d1⟩ := r
      rw [hw] at h
      simp only [Out.bind_ok] at h
      cases hw2 : writeAll c P DH DT resample nsOut fmt filename l d1 with
      | err => rw [hw2] at h; cases h
      | ub => rw [hw2] at h; cases h
      | ok rs =>
        obtain ⟨l2, d2⟩ := rs
        rw [hw2] at h
        cases h
        simp only [List.map_cons, List.nodup_cons] at hn
        obtain ⟨a1, a2, a3, a4⟩ := hl s (by simp)
        obtain ⟨-, b1, b2⟩ := write_spec h5 a1 a2 a3 a4 hw
        obtain ⟨c1, c2⟩ := ih hn.2 (fun s hs => hl s (by simp [hs])) hw2
        have hne : ∀ t ∈ l, fileName fmt filename s.comp ≠ fileName fmt filename t.comp := by
          intro t ht e
          exact hn.1 (List.mem_map.mpr ⟨t, ht, (fileName_inj e).symm⟩)
        constructor
        · intro t ht hd
          rcases List.mem_cons.mp ht with rfl | ht
          · exact stored_congr (c2 _ hne) (b2 hd)
          · exact c1 t ht hd
        · intro n hn'
          show d2 n = disk n
          rw [c2 n fun t ht => hn' t (by simp [ht]), b1 n (hn' s (by simp))]

/-! ### Theorems -/

/-- An object into which a seismogram is read: it has the component, the number of samples and the number of traces of the
written one, and other contents. -/
structure Matches (s r : Seis V) : Prop where
  comp : r.comp = s.comp
  ns : r.ns = s.ns
  traces : r.data.length = s.data.length
  profile : inProfile r = false

/-- C150 for the files of shots: all components that `P` processes write are read back by `Q` processes, in each format.
Missing: resampled output (`C150_resampled_violated`), SU files with 2 GB or more per process (`C46_big_file_violated`). -/
theorem C150_shots_partial (c : SU.Codec B V) {P Q : ℕ} (hP : 0 < P) (hQ : 0 < Q) (DH DT : ℚ) (resample : List V → List V)
    (nsOut : ℕ) (fmt : Int) (h5 : fmt ≠ 5) (filename : Str) (orig : Bool) (l l' rs : List (Seis V)) (disk disk' : Disk B V)
    (hn : (l.map Seis.comp).Nodup)
    (hl : ∀ s ∈ l, inProfile s = false ∧ 0 < s.ns ∧ s.ns = nsOut ∧ (∀ r ∈ s.data, r.length = s.ns) ∧
      (∀ r ∈ s.data, resample r = r) ∧
      ∀ q < Q, (blockUb s.data.length Q q - blockLb s.data.length Q q) * (240 + 4 * s.ns) < 2147483648)
    (hm : List.Forall₂ Matches l rs)
    (hw : writeAll c P DH DT resample nsOut fmt filename l disk = .ok (l', disk')) :
    readAll c Q fmt filename orig rs disk' = .ok (List.zipWith (fun s r => { r with data := s.data }) l rs) := by
  have hst := (writeAll_spec h5 hn (fun s hs => ⟨(hl s hs).1, (hl s hs).2.1, (hl s hs).2.2.1, (hl s hs).2.2.2.2.1⟩) hw).1
  clear hw hn
  unfold readAll
  induction hm with
  | nil => rfl
  | @cons s r l rs hsr hm ih =>
    obtain ⟨p1, p2, p3, p4, p5, p6⟩ := hl s (by simp)
    have hone : (if 0 < r.data.length then read c Q fmt filename orig r disk' else .ok r) =
        .ok { r with data := s.data } := by
      by_cases hd : s.data = []
      · have hr : r.data = [] := by
          have := hsr.traces
          rw [hd] at this
          exact List.length_eq_zero_iff.mp this
        rw [hr, hd]
        simp only [List.length_nil, lt_irrefl, if_false]
        cases r
        simp_all
      · have hlen : 0 < r.data.length := by
          rw [hsr.traces]
          exact List.length_pos_iff.mpr hd
        rw [if_pos hlen]
        unfold read
        rw [hsr.profile]
        simp only [Bool.false_and, Bool.false_eq_true, if_false, if_neg h5]
        have hload : load c Q fmt (filename ++ ".".toList ++ r.comp) orig r disk' = .ok s.data := by
          unfold load
          rw [hsr.profile, hsr.comp, hsr.ns, hsr.traces]
          rcases hst s (by simp) hd with ⟨h4, b, hb, hf⟩ | ⟨h4, he, hf⟩
          · unfold fileName at hf
            rw [if_pos h4] at hf
            rw [if_pos h4, hf]
            exact SU.C46_read_back_partial c hP hQ p4 p6 hb
          · obtain ⟨e, he⟩ := Option.ne_none_iff_exists'.mp he
            unfold fileName at hf
            rw [if_neg h4, he, Option.getD_some] at hf
            rw [if_neg h4, he]
            simp only [hf, Bool.false_eq_true, if_false]
            unfold readRows
            rw [if_pos ⟨rfl, p4⟩]
        rw [hload]
        rfl
    have hrest := ih (fun t ht => hl t (by simp [ht])) (fun t ht => hst t (by simp [ht]))
    rw [List.mapM_cons, hone, Out.bind_ok, hrest]
    rfl

/-- In the matrix formats nothing can go wrong when writing. -/
theorem C150_matrix_written (c : SU.Codec B V) (P : ℕ) (DH DT : ℚ) (resample : List V → List V) (nsOut : ℕ) {fmt : Int}
    (hf : fmt = 1 ∨ fmt = 2 ∨ fmt = 3) (filename : Str) : ∀ (l : List (Seis V)) (disk : Disk B V),
    (∀ s ∈ l, inProfile s = false) → ∃ disk', writeAll c P DH DT resample nsOut fmt filename l disk = .ok (l, disk') := by
  intro l
  induction l with
  | nil => exact fun disk _ => ⟨disk, rfl⟩
  | cons s l ih =>
    intro disk hl
    have hone : ∃ d, write c P DH DT resample nsOut fmt filename s disk = .ok (s, d) := by
      unfold write
      rw [hl s (by simp)]
      split
      · exact ⟨disk, rfl⟩
      · rcases hf with rfl | rfl | rfl <;> exact ⟨_, rfl⟩
    obtain ⟨d, hd⟩ := hone
    obtain ⟨d', hd'⟩ := ih d fun t ht => hl t (by simp [ht])
    refine ⟨d', ?_⟩
    unfold writeAll
    rw [hd]
    simp only [Out.bind_ok]
    rw [hd']
    rfl

/-- The gains of the AGC (format 5) are read back. -/
theorem C150_gains (c : SU.Codec B V) (P Q : ℕ) (DH DT : ℚ) (resample : List V → List V) (nsOut : ℕ) (filename : Str)
    (orig : Bool) (s r : Seis V) (disk : Disk B V) (hp : inProfile s = false) (h0 : 0 < s.ns) (hd : s.data ≠ [])
    (hl : s.inverseAGC.length = s.data.length) (hr : ∀ g ∈ s.inverseAGC, g.length = s.ns ∧ resample g = g)
    (hm : Matches s r) :
    ∃ disk', write c P DH DT resample nsOut 5 filename s disk = .ok (s, disk') ∧
      read c Q 5 filename orig r disk' = .ok { r with inverseAGC := s.inverseAGC, useAGC := true } := by
  have hmap : s.inverseAGC.map resample = s.inverseAGC := by
    conv_rhs => rw [← List.map_id s.inverseAGC]
    exact List.map_congr_left fun g hg => (hr g hg).2
  refine ⟨put disk (filename ++ ".".toList ++ s.comp ++ ".inverseAGC".toList ++ ".mtx".toList)
    (.matrix (s.inverseAGC.map resample)), ?_, ?_⟩
  · unfold write
    rw [if_neg, hp]
    · rfl
    · have : 0 < s.data.length := List.length_pos_iff.mpr hd
      exact (Nat.mul_pos this h0).ne'
  · unfold read load
    rw [hm.profile, hm.comp, hm.ns, hm.traces]
    simp only [Bool.false_and, Bool.false_eq_true, if_false, if_true, put, extension, if_neg (by decide : ¬ (1 : Int) = 4),
      hmap]
    unfold readRows
    rw [if_pos ⟨hl, fun g hg => (hr g hg).1⟩]
    rfl

/-! #### Profiles -/

private theorem beforeShot_append : ∀ (base rest : Str), (∀ a b, base ≠ a ++ ".shot".toList ++ b) →
    beforeShot (base ++ ".shot".toList ++ rest) = base := by
  intro base
  induction base with
  | nil => intro rest _; rfl
  | cons x l ih =>
    intro rest h1
    have hn : ".shot".toList.isPrefixOf (x :: (l ++ ".shot".toList ++ rest)) = false := by
      rw [Bool.eq_false_iff]
      intro h
      obtain ⟨t, ht⟩ := List.isPrefixOf_iff_prefix.mp h
      rcases l with _ | ⟨a, _ | ⟨b, _ | ⟨c, _ | ⟨d, l⟩⟩⟩⟩ <;>
        simp only [show ".shot".toList = ['.', 's', 'h', 'o', 't'] from rfl, List.cons_append, List.nil_append,
          List.cons.injEq] at ht
      · exact absurd ht.2.1 (by decide)
      · exact absurd ht.2.2.1 (by decide)
      · exact absurd ht.2.2.2.1 (by decide)
      · exact absurd ht.2.2.2.2.1 (by decide)
      · obtain ⟨rfl, rfl, rfl, rfl, rfl, -⟩ := ht
        exact h1 [] l rfl
    show beforeShot (x :: (l ++ ".shot".toList ++ rest)) = x :: l
    unfold beforeShot
    rw [hn]
    simp only [Bool.false_eq_true, if_false]
    rw [ih rest]
    intro a b h
    exact h1 (x :: a) b (by rw [h]; rfl)

/-- C150 for profiles in the matrix formats: the seismogram of a shot gets the row of the shot, under the file name of the
shot. `s` is the profile, `r` the seismogram of the shot. Missing: SU files (`C150_profile_violated`), names with `.shot`
(`C150_name_violated`). -/
theorem C150_profile_partial (c : SU.Codec B V) (P : ℕ) (DH DT : ℚ) (resample : List V → List V) (nsOut : ℕ) {fmt : Int}
    (hf : fmt = 1 ∨ fmt = 2 ∨ fmt = 3) (base number : Str) (hb : ∀ a b, base ≠ a ++ ".shot".toList ++ b) (orig : Bool)
    (s r : Seis V) (disk : Disk B V) (hp : 1 < s.data.length) (h0 : 0 < s.ns) (hs : ∀ t ∈ s.data, t.length = s.ns ∧ resample t = t)
    (hr : inProfile r = true) (hc : r.comp = s.comp) (hns : r.ns = s.ns)
    (trace : List V) (ht : s.data[if orig then r.shotIndIncr else r.shotInd]? = some trace) :
    ∃ disk', write c P DH DT resample nsOut fmt base s disk = .ok (s, disk') ∧
      read c 1 fmt (base ++ ".shot_".toList ++ number) orig r disk' = .ok { r with data := [trace] } := by
  have hmap : s.data.map resample = s.data := by
    conv_rhs => rw [← List.map_id s.data]
    exact List.map_congr_left fun t ht => (hs t ht).2
  have hps : inProfile s = false := by
    unfold inProfile
    simp
    omega
  have hne : ¬ s.data.length * s.ns = 0 := (Nat.mul_pos (by omega) h0).ne'
  have h4 : fmt ≠ 4 := by omega
  have h5 : fmt ≠ 5 := by omega
  obtain ⟨e, he⟩ : ∃ e, extension fmt = some e := by
    rcases hf with rfl | rfl | rfl <;> exact ⟨_, rfl⟩
  refine ⟨put disk (base ++ ".".toList ++ s.comp ++ e) (.matrix s.data), ?_, ?_⟩
  · unfold write
    rw [if_neg hne, hps]
    simp only [Bool.false_eq_true, if_false]
    rw [if_neg h5, if_neg h4, he, hmap]
  · have hbs : beforeShot (base ++ ".shot_".toList ++ number) = base := by
      have := beforeShot_append base ("_".toList ++ number) hb
      rwa [List.append_assoc, ← List.append_assoc ".shot".toList, ← List.append_assoc,
        show ".shot".toList ++ "_".toList = ".shot_".toList from rfl] at this
    unfold read load
    rw [hr]
    simp only [lt_irrefl, decide_false, Bool.and_false, Bool.false_eq_true, if_false, if_true]
    rw [if_neg h5, hbs, if_neg h4, he, hc, hns]
    simp only [put, if_true]
    unfold readRow
    rw [ht]
    simp only [(hs trace (List.mem_of_getElem? ht)).1, if_true]
    rfl

/-- C150 fails for names that contain `.shot` themselves, like a directory `my.shots`: the file that is read is not the one
that was written. -/
theorem C150_name_violated (c : SU.Codec B V) (fmt : Int) (a b number : Str) (ha : ∀ x y, a ≠ x ++ ".shot".toList ++ y)
    (s r : Seis V) (hr : inProfile r = true) (hc : r.comp = s.comp) (rows : List (List V)) (e : Str) (he : extension fmt = some e)
    (orig : Bool) :
    read c 1 fmt (a ++ ".shot".toList ++ b ++ ".shot_".toList ++ number) orig r
      (put (fun _ => none) (a ++ ".shot".toList ++ b ++ ".".toList ++ s.comp ++ e) (.matrix rows)) = .err := by
  have h5 : fmt ≠ 5 := by
    rintro rfl
    cases he
  have h4 : fmt ≠ 4 := by
    rintro rfl
    cases he
  have hbs : beforeShot (a ++ ".shot".toList ++ b ++ ".shot_".toList ++ number) = a := by
    rw [List.append_assoc (a ++ ".shot".toList), List.append_assoc (a ++ ".shot".toList)]
    exact beforeShot_append a _ ha
  unfold read load
  rw [hr]
  simp only [lt_irrefl, decide_false, Bool.and_false, Bool.false_eq_true, if_false, if_true]
  rw [if_neg h5, hbs, if_neg h4, he, hc]
  have hne : a ++ ".".toList ++ s.comp ++ e ≠ a ++ ".shot".toList ++ b ++ ".".toList ++ s.comp ++ e := by
    intro h
    have := congrArg List.length h
    simp at this
    omega
  simp only [put, if_neg hne]
  rfl

/-- C150 fails for SU profiles. The profile with a row for each shot cannot be written, because the seismogram has the
coordinates of the trace of one shot only. If there is a file all the same, each shot reads the trace of the first shot. -/
theorem C150_profile_violated (c : SU.Codec B V) :
    (∀ {P : ℕ} (_ : 0 < P) (DH DT : ℚ) (resample : List V → List V) (nsOut : ℕ) (filename : Str) (s : Seis V)
      (disk : Disk B V), 1 < s.data.length → 0 < s.ns → s.coordinates.length = 1 →
      ∀ r, write c P DH DT resample nsOut 4 filename s disk ≠ .ok r) ∧
    ∀ {P : ℕ} (_ : 0 < P) (DH DT : ℚ) (src : SU.Coord) (rcvs : List SU.Coord) (first : List V) (rest : List (List V))
      (b : List B) (r : Seis V) (base number : Str) (orig : Bool) (disk : Disk B V), inProfile r = true →
      (∀ x y, base ≠ x ++ ".shot".toList ++ y) → first.length = r.ns → 240 + 4 * r.ns < 2147483648 →
      SU.writeSU c P DH DT r.ns src rcvs (first :: rest) = .ok b →
      disk (base ++ ".".toList ++ r.comp ++ ".su".toList) = some (.bytes b) →
      read c 1 4 (base ++ ".shot_".toList ++ number) orig r disk = .ok { r with data := [first] } := by
  constructor
  · intro P hP DH DT resample nsOut filename s disk h1 h0 hc r h
    have hps : inProfile s = false := by
      unfold inProfile
      simp
      omega
    unfold write at h
    rw [if_neg (Nat.mul_pos (by omega) h0).ne', hps] at h
    simp only [Bool.false_eq_true, if_false, if_neg (by decide : ¬ (4 : Int) = 5), if_true] at h
    cases hw : SU.writeSU c P DH DT nsOut s.source s.coordinates (s.data.map resample) with
    | err => rw [hw] at h; cases h
    | ub => rw [hw] at h; cases h
    | ok b =>
      obtain ⟨hs, hl, hk, -⟩ := SU.writeSU_spec c hP hw
      obtain ⟨x, hx, -⟩ := hk 1 (by rw [hl]; simpa using h1)
      rw [List.getElem?_eq_none (by omega)] at hx
      cases hx
  · intro P hP DH DT src rcvs first rest b r base number orig disk hr hb hl hsz hw hd
    have hbs : beforeShot (base ++ ".shot_".toList ++ number) = base := by
      have := beforeShot_append base ("_".toList ++ number) hb
      rwa [List.append_assoc, ← List.append_assoc ".shot".toList, ← List.append_assoc,
        show ".shot".toList ++ "_".toList = ".shot_".toList from rfl] at this
    have hread : SU.readDataSU c 1 r.ns 1 b = .ok [first] := by
      obtain ⟨hs, hl', -, rfl⟩ := SU.writeSU_spec c hP hw
      cases hs with
      | nil => simp at hl'
      | cons h hs =>
        have hlen := SU.traceBytes_length c (h := h) (row := first)
        rw [hl] at hlen
        unfold SU.readDataSU
        have e1 : blockLb 1 1 0 = 0 := rfl
        have e2 : blockUb 1 1 0 = 1 := rfl
        simp only [List.range_one, List.mapM_cons, List.mapM_nil, e1, e2, Nat.sub_zero, Nat.zero_mul, List.drop_zero,
          Nat.one_mul, List.zipWith_cons_cons, List.flatten_cons]
        rw [List.take_left' hlen, if_neg (by omega), if_neg (by omega)]
        simp only [List.map_cons, List.map_nil, Nat.zero_mul, Nat.zero_add, Out.bind_ok, Out.pure_eq, List.flatten_cons,
          List.flatten_nil, List.append_nil]
        rw [SU.traceBytes_drop]
        congr 2
        rw [List.take_of_length_le (by rw [SU.floats_length, hl]), ← hl, SU.decFloats_enc]
    unfold read load
    rw [hr]
    simp only [lt_irrefl, decide_false, Bool.and_false, Bool.false_eq_true, if_false, if_true,
      if_neg (by decide : ¬ (4 : Int) = 5)]
    rw [hbs, hd]
    simp only [hread, Out.bind_ok]

/-! #### Resampling -/

/-- C150 fails if the output has another sampling than the simulation (`seismoDT` larger than `DT`): with the configuration that
wrote the file, reading a matrix file raises an exception, and reading an SU file runs beyond its end. -/
theorem C150_resampled_violated (c : SU.Codec B V) {P : ℕ} (hP : 0 < P) (DH DT : ℚ) (resample : List V → List V) (nsOut : ℕ)
    (filename : Str) (orig : Bool) (s s' r : Seis V) (disk disk' : Disk B V) (hp : inProfile s = false) (hd : s.data ≠ [])
    (hlt : nsOut < s.ns) (hrs : ∀ t ∈ s.data, (resample t).length = nsOut) (hm : Matches s r) (fmt : Int) (h5 : fmt ≠ 5)
    (hw : write c P DH DT resample nsOut fmt filename s disk = .ok (s', disk')) :
    read c 1 fmt filename orig r disk' = if fmt = 4 then .ub else .err := by
  have hne : 0 < s.data.length := List.length_pos_iff.mpr hd
  unfold write at hw
  rw [if_neg (Nat.mul_pos hne (by omega)).ne', hp] at hw
  simp only [Bool.false_eq_true, if_false] at hw
  rw [if_neg h5] at hw
  unfold read load
  rw [hm.profile, hm.comp, hm.ns, hm.traces]
  simp only [Bool.false_and, Bool.false_eq_true, if_false]
  rw [if_neg h5]
  split at hw
  · rename_i h4
    rw [if_pos h4, if_pos h4]
    cases hb : SU.writeSU c P DH DT nsOut s.source s.coordinates (s.data.map resample) with
    | err => rw [hb] at hw; cases hw
    | ub => rw [hb] at hw; cases hw
    | ok b =>
      rw [hb] at hw
      cases hw
      simp only [put, if_true]
      obtain ⟨hs, hl, -, rfl⟩ := SU.writeSU_spec c hP hb
      have hlen : (List.zipWith (SU.traceBytes c) hs (s.data.map resample)).flatten.length =
          s.data.length * (240 + 4 * nsOut) := by
        rw [SU.flatten_length (L := 240 + 4 * nsOut)]
        · simp [hl]
        · intro x hx
          obtain ⟨i, hi, rfl⟩ := List.getElem_of_mem hx
          rw [List.getElem_zipWith, SU.traceBytes_length]
          rw [List.getElem_map, hrs _ (List.getElem_mem _)]
      have hub : SU.readDataSU c 1 s.ns s.data.length
          (List.zipWith (SU.traceBytes c) hs (s.data.map resample)).flatten = .ub := by
        unfold SU.readDataSU
        have e1 : blockLb s.data.length 1 0 = 0 := by simp [blockLb]
        have e2 : blockUb s.data.length 1 0 = s.data.length := by
          simp [blockUb, Shots.ceilDiv]
        simp only [List.range_one, List.mapM_cons, List.mapM_nil, e1, e2, Nat.sub_zero, Nat.zero_mul, List.drop_zero]
        split
        · rfl
        · rw [if_pos]
          · rfl
          · rw [List.length_take, hlen]
            refine lt_of_le_of_lt (Nat.min_le_right _ _) ?_
            exact Nat.mul_lt_mul_of_pos_left (by omega) hne
      rw [hub]
      rfl
  · rename_i h4
    rw [if_neg h4, if_neg h4]
    cases he : extension fmt with
    | none => rw [he] at hw; cases hw
    | some e =>
      rw [he] at hw
      cases hw
      simp only [put, if_true]
      unfold readRows
      rw [if_neg]
      · rfl
      · rintro ⟨-, h⟩
        obtain ⟨t, ht⟩ := List.exists_mem_of_ne_nil _ hd
        have := h (resample t) (List.mem_map_of_mem ht)
        rw [hrs t ht] at this
        omega

/-! ### Examples -/

private def exS (comp : String) (d : List (List Int)) : Seis Int where
  comp := comp.toList
  ns := 3
  data := d
  inverseAGC := d.map fun t => t.map fun x => x * x
  cop := []
  inverseAGCCOP := []
  coordinates := []
  source := ⟨0, 0, 0⟩
  shotInd := 0
  shotIndIncr := 0
  useAGC := false

private def exShot (comp : String) : Seis Int :=
  { exS comp [[0, 0, 0]] with cop := [[0, 0, 0], [0, 0, 0]], shotInd := 1 }

/-- Two components with traces and one without, written by 3 processes and read by 2. -/
example (c : SU.Codec B Int) :
    ∃ disk, writeAll c 3 1 1 id 3 2 "out/seis.shot_7".toList [exS "p" [[1, 2, 3], [4, 5, 6]], exS "vx" [[7, 8, 9]], exS "vz" []]
        (fun _ => none) = .ok ([exS "p" [[1, 2, 3], [4, 5, 6]], exS "vx" [[7, 8, 9]], exS "vz" []], disk) ∧
      readAll c 2 2 "out/seis.shot_7".toList false [exS "p" [[0, 0, 0], [0, 0, 0]], exS "vx" [[0, 0, 0]], exS "vz" []] disk =
        .ok [{ exS "p" [[0, 0, 0], [0, 0, 0]] with data := [[1, 2, 3], [4, 5, 6]] },
          { exS "vx" [[0, 0, 0]] with data := [[7, 8, 9]] }, exS "vz" []] := by
  obtain ⟨disk, hd⟩ := C150_matrix_written c 3 1 1 id 3 (Or.inr (Or.inl rfl)) "out/seis.shot_7".toList
    [exS "p" [[1, 2, 3], [4, 5, 6]], exS "vx" [[7, 8, 9]], exS "vz" []] (fun _ => none) (by decide)
  refine ⟨disk, hd, ?_⟩
  refine C150_shots_partial c (by decide) (by decide) 1 1 id 3 2 (by decide) _ false _ _ _ _ _ (by decide) ?_ ?_ hd
  · intro s hs
    simp only [List.mem_cons, List.not_mem_nil, or_false] at hs
    rcases hs with rfl | rfl | rfl <;>
      exact ⟨by decide, by decide, rfl, by decide, fun _ _ => rfl, by decide⟩
  · exact .cons ⟨rfl, rfl, rfl, rfl⟩ (.cons ⟨rfl, rfl, rfl, rfl⟩ (.cons ⟨rfl, rfl, rfl, rfl⟩ .nil))

/-- The profile of two shots; the second shot reads its row. -/
example (c : SU.Codec B Int) :
    ∃ disk, write c 1 1 1 id 3 1 "seis".toList (exS "p" [[1, 2, 3], [4, 5, 6]]) (fun _ => none) =
        .ok (exS "p" [[1, 2, 3], [4, 5, 6]], disk) ∧
      read c 1 1 "seis.shot_8".toList false (exShot "p") disk = .ok { exShot "p" with data := [[4, 5, 6]] } := by
  refine C150_profile_partial c 1 1 1 id 3 (Or.inl rfl) "seis".toList "8".toList ?_ false
    (exS "p" [[1, 2, 3], [4, 5, 6]]) (exShot "p") _ (by decide) (by decide) (by decide) (by decide) rfl rfl _ rfl
  intro a b h
  have := congrArg List.length h
  simp at this
  omega

/-- Output with two of three samples. -/
example (c : SU.Codec B Int) (disk' : Disk B Int) (s' : Seis Int)
    (h : write c 1 1 1 (fun t => t.take 2) 2 3 "seis".toList (exS "p" [[1, 2, 3]]) (fun _ => none) = .ok (s', disk')) :
    read c 1 3 "seis".toList false (exS "p" [[0, 0, 0]]) disk' = .err :=
  C150_resampled_violated c (by decide) 1 1 _ 2 _ false (exS "p" [[1, 2, 3]]) _ (exS "p" [[0, 0, 0]]) _ _ (by decide) (by decide) (by decide) (by decide)
    ⟨rfl, rfl, rfl, rfl⟩ 3 (by decide) h

/-- A directory with `.shot` in its name. -/
example (c : SU.Codec B Int) (rows : List (List Int)) :
    read c 1 1 "my.shots/seis.shot_8".toList false (exShot "p")
      (put (fun _ => none) "my.shots/seis.p.mtx".toList (.matrix rows)) = .err := by
  refine C150_name_violated c 1 "my".toList "s/seis".toList "8".toList ?_ (exS "p" []) (exShot "p") (by decide) rfl rows
    ".mtx".toList rfl false
  intro a b h
  have := congrArg List.length h
  simp at this
  omega

/-! ### Files and rows that are written -/

/-- C150: a seismogram outside a profile is written as one file. Its name ends with the component and the extension of the
format; no other file is touched. -/
theorem C150_file_names (c : SU.Codec B V) (P : ℕ) (DH DT : ℚ) (resample : List V → List V) (nsOut : ℕ) {fmt : Int}
    (filename ext : Str) (hf : fmt = 1 ∧ ext = ".mtx".toList ∨ fmt = 2 ∧ ext = ".lmf".toList ∨
      fmt = 3 ∧ ext = ".frv".toList ∨ fmt = 4 ∧ ext = ".su".toList)
    (s s' : Seis V) (disk disk' : Disk B V) (hp : inProfile s = false) (hd : s.data ≠ []) (h0 : 0 < s.ns)
    (hw : write c P DH DT resample nsOut fmt filename s disk = .ok (s', disk')) :
    s' = s ∧ (∃ f, disk' (filename ++ ".".toList ++ s.comp ++ ext) = some f ∧
      (fmt ≠ 4 → f = .matrix (s.data.map resample))) ∧
      ∀ n, n ≠ filename ++ ".".toList ++ s.comp ++ ext → disk' n = disk n := by
  have hne : 0 < s.data.length := List.length_pos_iff.mpr hd
  unfold write at hw
  rw [if_neg (Nat.mul_pos hne h0).ne', hp] at hw
  simp only [Bool.false_eq_true, if_false] at hw
  have hput : ∀ f : File B V, (s, put disk (filename ++ ".".toList ++ s.comp ++ ext) f) = (s', disk') →
      (fmt ≠ 4 → f = .matrix (s.data.map resample)) →
      s' = s ∧ (∃ f, disk' (filename ++ ".".toList ++ s.comp ++ ext) = some f ∧
        (fmt ≠ 4 → f = .matrix (s.data.map resample))) ∧
        ∀ n, n ≠ filename ++ ".".toList ++ s.comp ++ ext → disk' n = disk n := by
    intro f e hm
    cases e
    exact ⟨rfl, ⟨f, by unfold put; rw [if_pos rfl], hm⟩, fun n hn => by unfold put; rw [if_neg hn]⟩
  rcases hf with ⟨rfl, rfl⟩ | ⟨rfl, rfl⟩ | ⟨rfl, rfl⟩ | ⟨rfl, rfl⟩
  · exact hput _ (Out.ok.inj hw) fun _ => rfl
  · exact hput _ (Out.ok.inj hw) fun _ => rfl
  · exact hput _ (Out.ok.inj hw) fun _ => rfl
  · rw [if_neg (by decide), if_pos rfl] at hw
    cases hb : SU.writeSU c P DH DT nsOut s.source s.coordinates (s.data.map resample) with
    | ok b =>
      rw [hb] at hw
      exact hput _ (Out.ok.inj hw) fun h => absurd rfl h
    | err => rw [hb] at hw; cases hw
    | ub => rw [hb] at hw; cases hw

/-- C150: the only trace of a shot of a profile becomes the row of its shot; the other rows and all files stay. -/
theorem C150_row (c : SU.Codec B V) (P : ℕ) (DH DT : ℚ) (resample : List V → List V) (nsOut : ℕ) {fmt : Int}
    (h5 : fmt ≠ 5) (filename : Str) (s s' : Seis V) (disk disk' : Disk B V) (trace : List V) (hd : s.data = [trace])
    (hc : 1 < s.cop.length) (h0 : 0 < s.ns)
    (hw : write c P DH DT resample nsOut fmt filename s disk = .ok (s', disk')) :
    disk' = disk ∧ s'.data = s.data ∧ s'.cop.length = s.cop.length ∧ s'.cop[s.shotInd]? = some trace ∧
      ∀ j, j ≠ s.shotInd → s'.cop[j]? = s.cop[j]? := by
  unfold write at hw
  have hp : inProfile s = true := by
    unfold inProfile
    simp [hd, hc]
  rw [if_neg (by rw [hd]; simp; omega), if_pos hp] at hw
  unfold intoProfile at hw
  rw [if_pos h5] at hw
  split at hw
  · rename_i hlt
    have e := Out.ok.inj hw
    cases e
    refine ⟨rfl, rfl, by simp, ?_, ?_⟩
    · simp [hd, hlt]
    · intro j hj
      simp only
      rw [List.getElem?_set_ne (Ne.symm hj)]
  · cases hw

/-- C150: for the gains the same holds with the profile of the gains. -/
theorem C150_gains_row (c : SU.Codec B V) (P : ℕ) (DH DT : ℚ) (resample : List V → List V) (nsOut : ℕ)
    (filename : Str) (s s' : Seis V) (disk disk' : Disk B V) (trace gain : List V) (hd : s.data = [trace])
    (hg : s.inverseAGC = [gain]) (hc : 1 < s.cop.length) (h0 : 0 < s.ns)
    (hw : write c P DH DT resample nsOut 5 filename s disk = .ok (s', disk')) :
    disk' = disk ∧ s'.cop = s.cop ∧ s'.inverseAGCCOP.length = s.inverseAGCCOP.length ∧
      s'.inverseAGCCOP[s.shotInd]? = some gain ∧
      ∀ j, j ≠ s.shotInd → s'.inverseAGCCOP[j]? = s.inverseAGCCOP[j]? := by
  unfold write at hw
  have hp : inProfile s = true := by
    unfold inProfile
    simp [hd, hc]
  rw [if_neg (by rw [hd]; simp; omega), if_pos hp] at hw
  unfold intoProfile at hw
  rw [if_neg (by decide)] at hw
  split at hw
  · rename_i hlt
    have e := Out.ok.inj hw
    cases e
    refine ⟨rfl, rfl, by simp, ?_, ?_⟩
    · simp [hg, hlt]
    · intro j hj
      simp only
      rw [List.getElem?_set_ne (Ne.symm hj)]
  · cases hw

/-- The second shot of a profile of two puts its trace into the second row. -/
example (c : SU.Codec B Int) (disk : Disk B Int) :
    ∃ s', write c 1 1 1 id 3 1 "seis.shot_8".toList { exShot "p" with data := [[4, 5, 6]] } disk = .ok (s', disk) ∧
      s'.cop = [[0, 0, 0], [4, 5, 6]] := ⟨_, rfl, rfl⟩

/-- One trace written in the second format. -/
example (c : SU.Codec B Int) :
    ∃ disk', write c 1 1 1 id 3 2 "seis".toList (exS "p" [[1, 2, 3]]) (fun _ => none) =
        .ok (exS "p" [[1, 2, 3]], disk') ∧ disk' "seis.p.lmf".toList = some (.matrix [[1, 2, 3]]) := ⟨_, rfl, rfl⟩

end Verif.SeisFile
