import Verif.Model.SourcePosition
import Verif.Props.Grid
import Verif.Props.Acquisition
import Verif.Props.SU
import Mathlib.Tactic.Linarith
import Mathlib.Tactic.NormNum
import Mathlib.Tactic.Ring
/-!
# C163: the positions in the headers of the files of a shot
-/
namespace Verif.SrcPos
open Verif.Grid

/-- A list of sources or receivers that passes the checks: inside the grid and of a known type. -/
def Valid (NX NY NZ : Int) (ss : List Setting) : Prop :=
  ∀ s ∈ ss, InBox NX NY NZ s.pos ∧ 1 ≤ s.type ∧ s.type ≤ 4

private theorem bind_eq {α β : Type} {x : Out α} {f : α → Out β} {b : β} (h : (x >>= f) = .ok b) :
    ∃ a, x = .ok a ∧ f a = .ok b := by
  cases x with
  | ok a => exact ⟨a, rfl, h⟩
  | err => exact absurd h (by simp)
  | ub => exact absurd h (by simp)

variable {NX NY NZ : Int} {g : Grid}

private theorem indices_eq (hg : initRegular NX NY NZ = .ok g) :
    ∀ {ss : List Setting}, Valid NX NY NZ ss →
      indices g ss = .ok (ss.map fun s => (s.type, Linear NX NZ s.pos)) := by
  intro ss
  induction ss with
  | nil => intro _; rfl
  | cons s ss ih =>
    intro hv
    obtain ⟨i, h1, h2, -⟩ := C01_coordinate_roundtrip hg (hv s (by simp)).1
    simp only [indices, h1, ih fun x hx => hv x (by simp [hx]), Out.bind_ok, h2, List.map_cons]

private theorem positions_eq (hg : initRegular NX NY NZ = .ok g) :
    ∀ {cs : List Coord}, (∀ c ∈ cs, InBox NX NY NZ c) →
      positions g (cs.map (Linear NX NZ)) = .ok cs := by
  intro cs
  induction cs with
  | nil => intro _; rfl
  | cons c cs ih =>
    intro hv
    obtain ⟨i, -, h2, -, -, h5⟩ := C01_coordinate_roundtrip hg (hv c (by simp))
    subst h2
    simp only [List.map_cons, positions, h5, ih fun x hx => hv x (by simp [hx]), Out.bind_ok]

private def ofType (ss : List Setting) (k : Int) : List Coord :=
  (ss.filter (·.type = k)).map Setting.pos

private theorem handler_eq {ss : List Setting}
    (hv : Valid NX NY NZ ss) :
    ∃ h, initHandler (ss.map fun s => (s.type, Linear NX NZ s.pos)) = .ok h ∧
      h = [1, 2, 3, 4].map (fun k => (⟨(ofType ss k).map (Linear NX NZ), 0⟩ : Comp)) ∧
      numTracesTotal h = ss.length := by
  obtain ⟨a, b, c, d, h, ha, hb, hc, hd, hl⟩ :=
    Acq.C52_grouped (ss.map fun s => (s.type, Linear NX NZ s.pos)) (by
      intro t ht
      obtain ⟨s, hs, rfl⟩ := List.mem_map.mp ht
      exact (hv s hs).2)
  have key : ∀ k : Int, ((ss.map fun s => (s.type, Linear NX NZ s.pos)).filter (·.1 = k)).map Prod.snd
      = (ofType ss k).map (Linear NX NZ) := by
    intro k
    unfold ofType
    rw [List.filter_map, List.map_map, List.map_map]
    rfl
  rw [key] at ha hb hc hd
  refine ⟨_, by unfold initHandler; rw [h]; rfl, by rw [ha, hb, hc, hd]; rfl, ?_⟩
  simp only [numTracesTotal, List.map_cons, List.map_nil, List.sum_cons, List.sum_nil]
  rw [List.length_map] at hl
  omega

private theorem files_mem (g : Grid) : ∀ {h : List Comp} {k : Nat} {fs : List File},
    writeFiles g k h = .ok fs → ∀ f ∈ fs, ∃ c, h[f.comp - k]? = some c ∧ k ≤ f.comp ∧
      c.traces ≠ [] ∧ index2coordinate g c.src = .ok f.src ∧ positions g c.traces = .ok f.traces := by
  intro h
  induction h with
  | nil =>
    intro k fs e f hf
    simp only [writeFiles] at e
    cases e
    cases hf
  | cons c cs ih =>
    intro k fs e f hf
    unfold writeFiles at e
    split at e
    · obtain ⟨c', h1, h2, h3⟩ := ih e f hf
      refine ⟨c', ?_, by omega, h3⟩
      have : f.comp - k = (f.comp - (k + 1)) + 1 := by omega
      rw [this, List.getElem?_cons_succ]
      exact h1
    · rename_i hne
      obtain ⟨s, e1, e⟩ := bind_eq e
      obtain ⟨t, e2, e⟩ := bind_eq e
      obtain ⟨r, e3, e⟩ := bind_eq e
      cases e
      rcases List.mem_cons.mp hf with rfl | hf
      · exact ⟨c, by simp, le_refl _, hne, e1, e2⟩
      · obtain ⟨c', h1, h2, h3⟩ := ih e3 f hf
        refine ⟨c', ?_, by omega, h3⟩
        have : f.comp - k = (f.comp - (k + 1)) + 1 := by omega
        rw [this, List.getElem?_cons_succ]
        exact h1

private theorem origin (hg : initRegular NX NY NZ = .ok g) : index2coordinate g 0 = .ok ⟨0, 0, 0⟩ := by
  obtain ⟨hx, hy, hz⟩ : NX > 0 ∧ NY > 0 ∧ NZ > 0 := by
    by_contra hc
    unfold initRegular at hg
    rw [if_neg hc] at hg
    cases hg
  obtain ⟨i, -, h2, -, -, h5⟩ := C01_coordinate_roundtrip hg (c := ⟨0, 0, 0⟩)
    ⟨le_refl _, hx, le_refl _, hy, le_refl _, hz⟩
  rw [h2] at h5
  simpa [Linear] using h5

/-- The parts of a shot. -/
private theorem shot_parts {rec : List Comp} {s : Shot} {o : Result} (hg : initRegular NX NY NZ = .ok g)
    (hv : Valid NX NY NZ s.sources) (e : shot g rec s = .ok o) :
    ∃ hs hr, initHandler (s.sources.map fun s => (s.type, Linear NX NZ s.pos)) = .ok hs ∧
      writeFiles g 0 hs = .ok o.sourceFiles ∧
      (match s.receivers with
        | none => hr = rec
        | some rs => ∃ rt, indices g rs = .ok rt ∧ initHandler rt = .ok hr) ∧
      couple (s.sources.map fun s => Linear NX NZ s.pos) hs hr = .ok o.receivers ∧
      writeFiles g 0 o.receivers = .ok o.seismoFiles := by
  unfold shot at e
  rw [indices_eq hg hv, Out.bind_ok] at e
  obtain ⟨hs, e1, e⟩ := bind_eq e
  obtain ⟨sf, e2, e⟩ := bind_eq e
  obtain ⟨hr, e3, e⟩ := bind_eq e
  obtain ⟨hr', e4, e⟩ := bind_eq e
  obtain ⟨rf, e5, e⟩ := bind_eq e
  cases e
  refine ⟨hs, hr, e1, e2, ?_, ?_, e5⟩
  · cases hrec : s.receivers with
    | none => rw [hrec] at e3; exact (Out.ok.inj e3).symm
    | some rs =>
      rw [hrec] at e3
      obtain ⟨rt, h1, h2⟩ := bind_eq e3
      exact ⟨rt, h1, h2⟩
  · rw [List.map_map] at e4
    exact e4

/-- C163: the seismograms of a shot with one source carry the position of that source, whatever the
receivers hold from the shots before. Missing for the full property: shots with several sources
(`C163_one_place_violated`) and the files of the source signals (`C163_source_files_violated`). -/
theorem C163_single_source_partial {rec : List Comp} {s : Shot} {o : Result} {x : Setting}
    (hg : initRegular NX NY NZ = .ok g) (hs : s.sources = [x]) (hb : InBox NX NY NZ x.pos)
    (ht : 1 ≤ x.type ∧ x.type ≤ 4) (e : shot g rec s = .ok o) :
    ∀ f ∈ o.seismoFiles, f.src = x.pos := by
  have hv : Valid NX NY NZ s.sources := by
    rw [hs]; intro y hy; rw [List.mem_singleton.mp hy]; exact ⟨hb, ht⟩
  obtain ⟨h, hr, e1, -, -, e4, e5⟩ := shot_parts hg hv e
  obtain ⟨h', e1', -, hn⟩ := handler_eq hv
  rw [e1] at e1'
  cases e1'
  unfold couple at e4
  rw [if_pos (by rw [hn, hs]; rfl), hs] at e4
  have e4 : setSourceCoordinate hr (Linear NX NZ x.pos) = o.receivers := Out.ok.inj e4
  intro f hf
  obtain ⟨c, h1, -, -, h4, -⟩ := files_mem g e5 f hf
  rw [← e4] at h1
  obtain ⟨c', -, rfl⟩ := List.mem_map.mp (List.mem_of_getElem? h1)
  obtain ⟨i, -, h2, -, -, h5⟩ := C01_coordinate_roundtrip hg hb
  rw [h2] at h5
  rw [h5] at h4
  exact (Out.ok.inj h4).symm

/-- C163: the seismograms of a shot with several sources carry the first point of the grid. -/
theorem C163_several_sources {rec : List Comp} {s : Shot} {o : Result}
    (hg : initRegular NX NY NZ = .ok g) (hn : s.sources.length ≠ 1)
    (hv : Valid NX NY NZ s.sources) (e : shot g rec s = .ok o) :
    ∀ f ∈ o.seismoFiles, f.src = ⟨0, 0, 0⟩ := by
  obtain ⟨h, hr, e1, -, -, e4, e5⟩ := shot_parts hg hv e
  obtain ⟨h', e1', -, hl⟩ := handler_eq hv
  rw [e1] at e1'
  cases e1'
  unfold couple at e4
  rw [if_neg (by rw [hl]; exact hn)] at e4
  have e4 : setSourceCoordinate hr 0 = o.receivers := Out.ok.inj e4
  intro f hf
  obtain ⟨c, h1, -, -, h4, -⟩ := files_mem g e5 f hf
  rw [← e4] at h1
  obtain ⟨c', -, rfl⟩ := List.mem_map.mp (List.mem_of_getElem? h1)
  rw [origin hg] at h4
  exact (Out.ok.inj h4).symm

/-- C163: the files of the source signals carry the first point of the grid as their source. -/
theorem C163_source_files {rec : List Comp} {s : Shot} {o : Result}
    (hg : initRegular NX NY NZ = .ok g) (hv : Valid NX NY NZ s.sources)
    (e : shot g rec s = .ok o) :
    ∀ f ∈ o.sourceFiles, f.src = ⟨0, 0, 0⟩ ∧ f.comp < 4 ∧
      f.traces = (s.sources.filter fun x => x.type = (f.comp : Int) + 1).map Setting.pos := by
  obtain ⟨h, hr, e1, e2, -, -, -⟩ := shot_parts hg hv e
  obtain ⟨h', e1', hh, -⟩ := handler_eq hv
  rw [e1] at e1'
  cases e1'
  intro f hf
  obtain ⟨c, h1, -, -, h4, h5⟩ := files_mem g e2 f hf
  rw [hh, Nat.sub_zero] at h1
  have hlt : f.comp < 4 := by
    by_contra hge
    rw [List.getElem?_eq_none (by simp; omega)] at h1
    cases h1
  have hc : c = ⟨(ofType s.sources (f.comp + 1)).map (Linear NX NZ), 0⟩ := by
    rcases (by omega : f.comp = 0 ∨ f.comp = 1 ∨ f.comp = 2 ∨ f.comp = 3) with k | k | k | k <;>
      rw [k] at h1 ⊢ <;> exact (Option.some.inj h1).symm
  subst hc
  rw [origin hg] at h4
  refine ⟨(Out.ok.inj h4).symm, hlt, ?_⟩
  rw [positions_eq hg (fun p hp => by
    obtain ⟨y, hy, rfl⟩ := List.mem_map.mp hp
    exact (hv y (List.mem_filter.mp hy).1).1)] at h5
  exact (Out.ok.inj h5).symm

/-- C163: the seismograms of a shot with own receivers list the receivers of their type in the order
of the acquisition. -/
theorem C163_receivers {rec : List Comp} {s : Shot} {o : Result} {rs : List Setting}
    (hg : initRegular NX NY NZ = .ok g) (hv : Valid NX NY NZ s.sources)
    (hr : s.receivers = some rs) (hvr : Valid NX NY NZ rs) (e : shot g rec s = .ok o) :
    ∀ f ∈ o.seismoFiles, f.comp < 4 ∧
      f.traces = (rs.filter fun x => x.type = (f.comp : Int) + 1).map Setting.pos := by
  obtain ⟨h, hr', -, -, e3, e4, e5⟩ := shot_parts hg hv e
  rw [hr] at e3
  obtain ⟨rt, h1, h2⟩ := e3
  rw [indices_eq hg hvr] at h1
  cases h1
  obtain ⟨h', e1', hh, -⟩ := handler_eq hvr
  rw [h2] at e1'
  cases e1'
  have : ∃ j, o.receivers = setSourceCoordinate hr' j := by
    unfold couple at e4
    split at e4
    · split at e4
      · cases e4
      · exact ⟨_, (Out.ok.inj e4).symm⟩
    · exact ⟨_, (Out.ok.inj e4).symm⟩
  obtain ⟨j, hj⟩ := this
  intro f hf
  obtain ⟨c, h1, -, -, -, h5⟩ := files_mem g e5 f hf
  rw [hj, hh, Nat.sub_zero] at h1
  have hlt : f.comp < 4 := by
    by_contra hge
    rw [List.getElem?_eq_none (by simp [setSourceCoordinate]; omega)] at h1
    cases h1
  have hc : c = ⟨(ofType rs (f.comp + 1)).map (Linear NX NZ), j⟩ := by
    rcases (by omega : f.comp = 0 ∨ f.comp = 1 ∨ f.comp = 2 ∨ f.comp = 3) with k | k | k | k <;>
      rw [k] at h1 ⊢ <;> exact (Option.some.inj h1).symm
  subst hc
  refine ⟨hlt, ?_⟩
  rw [positions_eq hg (fun p hp => by
    obtain ⟨y, hy, rfl⟩ := List.mem_map.mp hp
    exact (hvr y (List.mem_filter.mp hy).1).1)] at h5
  exact (Out.ok.inj h5).symm

private theorem couple_set {cs : List Int} {h r r' : List Comp} (e : couple cs h r = .ok r') :
    ∃ j, r' = setSourceCoordinate r j := by
  unfold couple at e
  split at e
  · split at e
    · cases e
    · exact ⟨_, (Out.ok.inj e).symm⟩
  · exact ⟨_, (Out.ok.inj e).symm⟩

private theorem kept {rs : List Setting} (hg : initRegular NX NY NZ = .ok g)
    (hvr : Valid NX NY NZ rs) : ∀ {ss : List Shot} {i : Int} {os : List Result},
      (∀ s ∈ ss, s.receivers = none ∧ Valid NX NY NZ s.sources) →
      shots g ([1, 2, 3, 4].map fun k => (⟨(ofType rs k).map (Linear NX NZ), i⟩ : Comp)) ss = .ok os →
      ∀ o ∈ os, ∀ f ∈ o.seismoFiles, f.comp < 4 ∧
        f.traces = (rs.filter fun x => x.type = (f.comp : Int) + 1).map Setting.pos := by
  intro ss
  induction ss with
  | nil =>
    intro i os _ e o ho
    simp only [shots] at e
    cases e
    cases ho
  | cons s ss ih =>
    intro i os hs e o ho
    unfold shots at e
    obtain ⟨o', e1, e⟩ := bind_eq e
    obtain ⟨os', e2, e⟩ := bind_eq e
    cases e
    obtain ⟨h, hr, -, -, e3, e4, e5⟩ := shot_parts hg (hs s (by simp)).2 e1
    rw [(hs s (by simp)).1] at e3
    obtain ⟨j, hj⟩ := couple_set e4
    have hj' : o'.receivers = [1, 2, 3, 4].map fun k =>
        (⟨(ofType rs k).map (Linear NX NZ), j⟩ : Comp) := by rw [hj, e3]; rfl
    rcases List.mem_cons.mp ho with rfl | ho
    · intro f hf
      obtain ⟨c, h1, -, -, -, h5⟩ := files_mem g e5 f hf
      rw [hj', Nat.sub_zero] at h1
      have hlt : f.comp < 4 := by
        by_contra hge
        rw [List.getElem?_eq_none (by simp; omega)] at h1
        cases h1
      have hc : c = ⟨(ofType rs (f.comp + 1)).map (Linear NX NZ), j⟩ := by
        rcases (by omega : f.comp = 0 ∨ f.comp = 1 ∨ f.comp = 2 ∨ f.comp = 3) with k | k | k | k <;>
          rw [k] at h1 ⊢ <;> exact (Option.some.inj h1).symm
      subst hc
      refine ⟨hlt, ?_⟩
      rw [positions_eq hg (fun p hp => by
        obtain ⟨y, hy, rfl⟩ := List.mem_map.mp hp
        exact (hvr y (List.mem_filter.mp hy).1).1)] at h5
      exact (Out.ok.inj h5).symm
    · rw [hj'] at e2
      exact ih (fun t ht => hs t (by simp [ht])) e2 o ho

/-- C163: receivers that are the same for all shots are listed by the seismograms of every shot. -/
theorem C163_same_receivers {rs : List Setting} {rt : List (Int × Int)} {rec : List Comp}
    {ss : List Shot} {os : List Result} (hg : initRegular NX NY NZ = .ok g)
    (hvr : Valid NX NY NZ rs) (hrt : indices g rs = .ok rt) (hrec : initHandler rt = .ok rec)
    (hs : ∀ s ∈ ss, s.receivers = none ∧ Valid NX NY NZ s.sources) (e : shots g rec ss = .ok os) :
    ∀ o ∈ os, ∀ f ∈ o.seismoFiles, f.comp < 4 ∧
      f.traces = (rs.filter fun x => x.type = (f.comp : Int) + 1).map Setting.pos := by
  rw [indices_eq hg hvr] at hrt
  cases hrt
  obtain ⟨h', e1, hh, -⟩ := handler_eq hvr
  rw [hrec] at e1
  cases e1
  rw [hh] at e
  exact kept hg hvr hs e

/-- C163: receivers given for one shot stay until a shot brings its own. -/
theorem C163_receivers_stay {rs : List Setting} {rec : List Comp} {s : Shot} {ss : List Shot}
    {os : List Result} (hg : initRegular NX NY NZ = .ok g) (hr : s.receivers = some rs)
    (hv : Valid NX NY NZ s.sources) (hvr : Valid NX NY NZ rs)
    (hs : ∀ s ∈ ss, s.receivers = none ∧ Valid NX NY NZ s.sources)
    (e : shots g rec (s :: ss) = .ok os) :
    ∀ o ∈ os, ∀ f ∈ o.seismoFiles, f.comp < 4 ∧
      f.traces = (rs.filter fun x => x.type = (f.comp : Int) + 1).map Setting.pos := by
  unfold shots at e
  obtain ⟨o', e1, e⟩ := bind_eq e
  obtain ⟨os', e2, e⟩ := bind_eq e
  cases e
  intro o ho
  rcases List.mem_cons.mp ho with rfl | ho
  · exact C163_receivers hg hv hr hvr e1
  · obtain ⟨h, hr', -, -, e3, e4, -⟩ := shot_parts hg hv e1
    rw [hr] at e3
    obtain ⟨rt, h1, h2⟩ := e3
    rw [indices_eq hg hvr] at h1
    cases h1
    obtain ⟨h', e5, hh, -⟩ := handler_eq hvr
    rw [h2] at e5
    cases e5
    obtain ⟨j, hj⟩ := couple_set e4
    have hj' : o'.receivers = [1, 2, 3, 4].map fun k =>
        (⟨(ofType rs k).map (Linear NX NZ), j⟩ : Comp) := by rw [hj, hh]; rfl
    rw [hj'] at e2
    exact kept hg hvr hs e2 o ho

private theorem files_complete (g : Grid) : ∀ {h : List Comp} {k : Nat} {fs : List File},
    writeFiles g k h = .ok fs → ∀ {i : Nat} {c : Comp}, h[i]? = some c → c.traces ≠ [] →
      ∃ f ∈ fs, f.comp = k + i := by
  intro h
  induction h with
  | nil => intro k fs _ i c hc; simp at hc
  | cons d cs ih =>
    intro k fs e i c hc hne
    unfold writeFiles at e
    split at e
    · rename_i hd
      cases i with
      | zero =>
        rw [List.getElem?_cons_zero] at hc
        cases hc
        exact absurd hd hne
      | succ i =>
        rw [List.getElem?_cons_succ] at hc
        obtain ⟨f, hf, h2⟩ := ih e hc hne
        exact ⟨f, hf, by omega⟩
    · obtain ⟨s, e1, e⟩ := bind_eq e
      obtain ⟨t, e2, e⟩ := bind_eq e
      obtain ⟨r, e3, e⟩ := bind_eq e
      cases e
      cases i with
      | zero => exact ⟨⟨k, s, t⟩, by simp, rfl⟩
      | succ i =>
        rw [List.getElem?_cons_succ] at hc
        obtain ⟨f, hf, h2⟩ := ih e3 hc hne
        exact ⟨f, by simp [hf], by omega⟩

private theorem files_ok (g : Grid) : ∀ {h : List Comp} (k : Nat),
    (∀ c ∈ h, (∃ p, index2coordinate g c.src = .ok p) ∧ ∃ ps, positions g c.traces = .ok ps) →
      ∃ fs, writeFiles g k h = .ok fs := by
  intro h
  induction h with
  | nil => intro k _; exact ⟨_, rfl⟩
  | cons d cs ih =>
    intro k hv
    obtain ⟨fs, hfs⟩ := ih (k + 1) fun c hc => hv c (by simp [hc])
    obtain ⟨⟨p, hp⟩, ps, hps⟩ := hv d (by simp)
    unfold writeFiles
    split
    · exact ⟨fs, hfs⟩
    · exact ⟨_, by rw [hp, hps, hfs]; rfl⟩

/-- C163: every shot with valid sources and receivers is written, and there is a file of seismograms
for each type of its receivers and a file of source signals for each type of its sources. -/
theorem C163_written {rec : List Comp} {s : Shot} {rs : List Setting}
    (hg : initRegular NX NY NZ = .ok g) (hv : Valid NX NY NZ s.sources)
    (hr : s.receivers = some rs) (hvr : Valid NX NY NZ rs) :
    ∃ o, shot g rec s = .ok o ∧ (∀ x ∈ rs, ∃ f ∈ o.seismoFiles, (f.comp : Int) + 1 = x.type) ∧
      ∀ x ∈ s.sources, ∃ f ∈ o.sourceFiles, (f.comp : Int) + 1 = x.type := by
  have hfile : ∀ {ss : List Setting} (j : Int), Valid NX NY NZ ss →
      (∃ p, index2coordinate g j = .ok p) →
      ∃ fs, writeFiles g 0 ([1, 2, 3, 4].map fun k =>
          (⟨(ofType ss k).map (Linear NX NZ), j⟩ : Comp)) = .ok fs ∧
        ∀ x ∈ ss, ∃ f ∈ fs, (f.comp : Int) + 1 = x.type := by
    intro ss j hss hj
    obtain ⟨fs, hfs⟩ := files_ok g (h := [1, 2, 3, 4].map fun k =>
        (⟨(ofType ss k).map (Linear NX NZ), j⟩ : Comp)) 0 (by
      intro c hc
      obtain ⟨k, -, rfl⟩ := List.mem_map.mp hc
      refine ⟨hj, _, positions_eq hg fun p hp => ?_⟩
      obtain ⟨y, hy, rfl⟩ := List.mem_map.mp hp
      exact (hss y (List.mem_filter.mp hy).1).1)
    refine ⟨fs, hfs, ?_⟩
    intro x hx
    have ht := (hss x hx).2
    have hne : (ofType ss x.type).map (Linear NX NZ) ≠ [] := by
      intro h0
      rw [List.map_eq_nil_iff] at h0
      have : x.pos ∈ ofType ss x.type :=
        List.mem_map.mpr ⟨x, List.mem_filter.mpr ⟨hx, by simp⟩, rfl⟩
      rw [h0] at this
      cases this
    obtain ⟨f, hf, h2⟩ := files_complete g hfs (i := (x.type - 1).toNat)
      (c := ⟨(ofType ss x.type).map (Linear NX NZ), j⟩) (by
        rcases (by omega : x.type = 1 ∨ x.type = 2 ∨ x.type = 3 ∨ x.type = 4) with k | k | k | k <;>
          rw [k] <;> rfl) hne
    exact ⟨f, hf, by omega⟩
  obtain ⟨hs, s1, s2, sn⟩ := handler_eq hv
  obtain ⟨hh, r1, r2, -⟩ := handler_eq hvr
  obtain ⟨sf, sf1, sf2⟩ := hfile 0 hv ⟨_, origin hg⟩
  obtain ⟨j, hj, hcp⟩ : ∃ j, (∃ p, index2coordinate g j = .ok p) ∧
      couple (s.sources.map fun s => Linear NX NZ s.pos) hs hh =
        .ok (setSourceCoordinate hh j) := by
    unfold couple
    split
    · rename_i h1
      rw [sn] at h1
      obtain ⟨x, hx⟩ := List.length_eq_one_iff.mp h1
      obtain ⟨i, -, h2, -, -, h5⟩ := C01_coordinate_roundtrip hg (hv x (by rw [hx]; simp)).1
      rw [hx]
      exact ⟨_, ⟨_, h2 ▸ h5⟩, rfl⟩
    · exact ⟨0, ⟨_, origin hg⟩, rfl⟩
  obtain ⟨rf, rf1, rf2⟩ := hfile j hvr hj
  refine ⟨⟨setSourceCoordinate hh j, sf, rf⟩, ?_, rf2, sf2⟩
  have hset : setSourceCoordinate hh j = [1, 2, 3, 4].map fun k =>
      (⟨(ofType rs k).map (Linear NX NZ), j⟩ : Comp) := by rw [r2]; rfl
  unfold shot
  rw [indices_eq hg hv, Out.bind_ok, s1, Out.bind_ok, s2, sf1, Out.bind_ok, hr]
  simp only [indices_eq hg hvr, r1, Out.bind_ok, List.map_map]
  rw [s2] at hcp
  have hcp' : couple (List.map (Prod.snd ∘ fun s => (s.type, Linear NX NZ s.pos)) s.sources)
      ([1, 2, 3, 4].map fun k => (⟨(ofType s.sources k).map (Linear NX NZ), 0⟩ : Comp)) hh =
      .ok (setSourceCoordinate hh j) := hcp
  rw [hcp', Out.bind_ok, hset, rf1]
  rfl

/-- C163: in a run over any number of shots, the seismograms of each shot with one source carry the
position of its own source. Missing as in `C163_single_source_partial`. -/
theorem C163_run_partial {ss : List Shot} {rec : List Comp} {os : List Result}
    (hg : initRegular NX NY NZ = .ok g) (e : shots g rec ss = .ok os) :
    os.length = ss.length ∧ ∀ {j : Nat} {s : Shot} {o : Result} {x : Setting}, ss[j]? = some s →
      os[j]? = some o → s.sources = [x] → InBox NX NY NZ x.pos → 1 ≤ x.type ∧ x.type ≤ 4 →
      ∀ f ∈ o.seismoFiles, f.src = x.pos := by
  induction ss generalizing rec os with
  | nil =>
    simp only [shots] at e
    cases e
    exact ⟨rfl, by intro j s o x h; simp at h⟩
  | cons t ss ih =>
    unfold shots at e
    obtain ⟨o, e1, e⟩ := bind_eq e
    obtain ⟨os', e2, e⟩ := bind_eq e
    cases e
    obtain ⟨hl, hk⟩ := ih e2
    refine ⟨by simp [hl], ?_⟩
    intro j s o' x h1 h2 hs hb ht
    cases j with
    | zero =>
      rw [List.getElem?_cons_zero] at h1 h2
      cases h1; cases h2
      exact C163_single_source_partial hg hs hb ht e1
    | succ j =>
      rw [List.getElem?_cons_succ] at h1 h2
      exact hk h1 h2 hs hb ht

/-- C163: two sources at one point, as for a force with two components, are written as a source at
the first point of the grid instead of their point. -/
theorem C163_one_place_violated :
    ¬ ∀ (g : Grid) (rec : List Comp) (s : Shot) (o : Result) (p : Coord),
      initRegular 10 10 1 = .ok g → Valid 10 10 1 s.sources → s.sources ≠ [] →
      (∀ x ∈ s.sources, x.pos = p) → shot g rec s = .ok o → ∀ f ∈ o.seismoFiles, f.src = p := by
  intro h
  obtain ⟨g, hg, -⟩ := (C01_constructor_total 10 10 1).mpr (by decide)
  let s : Shot := ⟨[⟨⟨5, 3, 0⟩, 2⟩, ⟨⟨5, 3, 0⟩, 3⟩], some [⟨⟨1, 2, 0⟩, 1⟩]⟩
  have hv : Valid 10 10 1 s.sources := by
    intro x hx
    simp only [s, List.mem_cons, List.not_mem_nil, or_false] at hx
    rcases hx with rfl | rfl <;> exact ⟨by unfold InBox; decide, by decide, by decide⟩
  have hvr : Valid 10 10 1 [⟨⟨1, 2, 0⟩, 1⟩] := by
    intro x hx
    rw [List.mem_singleton.mp hx]
    exact ⟨by unfold InBox; decide, by decide, by decide⟩
  obtain ⟨o, ho, hf, -⟩ := C163_written (rec := []) (s := s) hg hv rfl hvr
  obtain ⟨f, hfm, -⟩ := hf ⟨⟨1, 2, 0⟩, 1⟩ (by simp)
  have h1 := h g [] s o ⟨5, 3, 0⟩ hg hv (by simp [s]) (by
    intro x hx
    simp only [s, List.mem_cons, List.not_mem_nil, or_false] at hx
    rcases hx with rfl | rfl <;> rfl) ho f hfm
  have h2 := C163_several_sources hg (by simp [s]) hv ho f hfm
  rw [h1] at h2
  revert h2
  decide

/-- C163: the header of a file of source signals does not hold the position of the source, even for
a shot with a single source. -/
theorem C163_source_files_violated :
    ¬ ∀ (g : Grid) (rec : List Comp) (s : Shot) (o : Result) (x : Setting),
      initRegular 10 10 1 = .ok g → s.sources = [x] → Valid 10 10 1 s.sources →
      shot g rec s = .ok o → ∀ f ∈ o.sourceFiles, f.src = x.pos := by
  intro h
  obtain ⟨g, hg, -⟩ := (C01_constructor_total 10 10 1).mpr (by decide)
  let s : Shot := ⟨[⟨⟨5, 3, 0⟩, 1⟩], some []⟩
  have hv : Valid 10 10 1 s.sources := by
    intro x hx
    simp only [s, List.mem_singleton] at hx
    rw [hx]
    exact ⟨by unfold InBox; decide, by decide, by decide⟩
  obtain ⟨o, ho, -, hf⟩ := C163_written (rec := []) (s := s) hg hv rfl (by intro x hx; cases hx)
  obtain ⟨f, hfm, -⟩ := hf ⟨⟨5, 3, 0⟩, 1⟩ (by simp [s])
  have h1 := h g [] s o ⟨⟨5, 3, 0⟩, 1⟩ hg rfl hv ho f hfm
  have h2 := (C163_source_files hg hv ho f hfm).1
  rw [h1] at h2
  revert h2
  decide

/-- C163: a simulation that takes its sources from the written source signals puts all of them at the
first point of the grid. -/
theorem C163_reread_sources {B V : Type} (c : SU.Codec B V) {P : Nat} (hP : 0 < P) {DH DT : ℚ}
    (hDH : 1 / 1000 < DH) {ns : Nat} (hns : ns ≤ 65535) {rec : List Comp} {s : Shot} {o : Result}
    (hg : initRegular NX NY NZ = .ok g) (hv : Valid NX NY NZ s.sources) (e : shot g rec s = .ok o)
    {f : File} (hf : f ∈ o.sourceFiles) {rows : List (List V)} {file : List B}
    (hrow : ∀ row ∈ rows, row.length = ns)
    (hw : SU.writeSU c P DH DT ns (toSU f.src) (f.traces.map toSU) rows = .ok file) :
    ∃ hs, SU.readHeaders c file = .ok hs ∧
      hs.map (SU.sourceCoord DH) = List.replicate rows.length ⟨0, 0, 0⟩ := by
  have h0 := (C163_source_files hg hv e f hf).1
  rw [h0] at hw
  exact SU.C47_sources c hP hDH hns (by simp) hrow hw

/-- C163: the position of the single source of a shot is recovered from each trace of its
seismograms. Missing as in `C163_single_source_partial`. -/
theorem C163_reread_seismograms_partial {B V : Type} (c : SU.Codec B V) {P : Nat} (hP : 0 < P)
    {DH DT : ℚ} (hDH : 1 / 1000 < DH) {ns : Nat} (hns : ns ≤ 65535) {rec : List Comp} {s : Shot}
    {o : Result} {x : Setting} (hg : initRegular NX NY NZ = .ok g) (hs : s.sources = [x])
    (hb : InBox NX NY NZ x.pos) (ht : 1 ≤ x.type ∧ x.type ≤ 4) (e : shot g rec s = .ok o)
    {f : File} (hf : f ∈ o.seismoFiles) {rows : List (List V)} {file : List B}
    (hrow : ∀ row ∈ rows, row.length = ns)
    (hw : SU.writeSU c P DH DT ns (toSU f.src) (f.traces.map toSU) rows = .ok file) :
    ∃ hs, SU.readHeaders c file = .ok hs ∧
      hs.map (SU.sourceCoord DH) = List.replicate rows.length ⟨x.pos.x, x.pos.y, x.pos.z⟩ := by
  rw [C163_single_source_partial hg hs hb ht e f hf] at hw
  exact SU.C47_sources c hP hDH hns ⟨hb.1, hb.2.2.1, hb.2.2.2.2.1⟩ hrow hw

/-- C163: the offset in the header is the distance of source and receiver to within half a
millimetre. -/
theorem C163_offset (DH : ℝ) (src rcv : Coord) {d : ℝ} (hd : 0 ≤ d)
    (h : d ^ 2 = DH ^ 2 * ((rcv.x - src.x : ℝ) ^ 2 + (rcv.y - src.y : ℝ) ^ 2 +
      (rcv.z - src.z : ℝ) ^ 2)) :
    |(offset DH src rcv : ℝ) / 1000 - d| ≤ 1 / 2000 := by
  have hs : Real.sqrt ((src.x * DH - rcv.x * DH) * (src.x * DH - rcv.x * DH) +
      (src.y * DH - rcv.y * DH) * (src.y * DH - rcv.y * DH) +
      (src.z * DH - rcv.z * DH) * (src.z * DH - rcv.z * DH)) = d := by
    rw [← Real.sqrt_sq hd, h]
    congr 1
    ring
  unfold offset
  rw [hs]
  have h1 := Int.floor_le (d * 1000 + 1 / 2)
  have h2 := Int.lt_floor_add_one (d * 1000 + 1 / 2)
  rw [abs_le]
  constructor <;> linarith

/-- A source and receivers 50 m, 40 m and 30 m apart. -/
example : ∃ d : ℝ, 0 ≤ d ∧ d ^ 2 = (10 : ℝ) ^ 2 * (((4 : Int) - (0 : Int) : ℝ) ^ 2 +
    ((3 : Int) - (0 : Int) : ℝ) ^ 2 + ((0 : Int) - (0 : Int) : ℝ) ^ 2) := ⟨50, by norm_num, by norm_num⟩

/-- Two shots with one source each at the same receivers, after a shot with two sources. -/
example : ∃ g, initRegular 10 10 1 = .ok g ∧
    ((shots g [] [⟨[⟨⟨5, 3, 0⟩, 2⟩, ⟨⟨5, 3, 0⟩, 3⟩], some [⟨⟨1, 2, 0⟩, 1⟩, ⟨⟨9, 9, 0⟩, 3⟩]⟩,
      ⟨[⟨⟨5, 3, 0⟩, 1⟩], none⟩, ⟨[⟨⟨7, 4, 0⟩, 1⟩], none⟩]) >>= fun os =>
        .ok (os.map fun o => o.seismoFiles.map fun f => (f.comp, f.src, f.traces))) = .ok
      [[(0, ⟨0, 0, 0⟩, [⟨1, 2, 0⟩]), (2, ⟨0, 0, 0⟩, [⟨9, 9, 0⟩])],
       [(0, ⟨5, 3, 0⟩, [⟨1, 2, 0⟩]), (2, ⟨5, 3, 0⟩, [⟨9, 9, 0⟩])],
       [(0, ⟨7, 4, 0⟩, [⟨1, 2, 0⟩]), (2, ⟨7, 4, 0⟩, [⟨9, 9, 0⟩])]] :=
  ⟨_, rfl, by decide +kernel⟩

end Verif.SrcPos
