import Verif.Lemmas.SU
import Mathlib.Tactic.Linarith
import Mathlib.Tactic.FieldSimp
import Mathlib.Tactic.NormNum
import Mathlib.Tactic.Ring
import Mathlib.Data.Rat.Floor
/-!
# Properties of Seismic Unix files (C46, C47, C48, C62, C63)
-/
namespace Verif.SU
open Verif.Shots (blockLb blockUb ceilDiv)

/-! ### C46: data round trip -/

private theorem mkHeader_eq {DH DT : ℚ} {ns : Nat} {src r : Coord} {k : Nat} {h : Header}
    (e : mkHeader DH DT ns src r k = .ok h) :
    h.fits = true ∧ headerOf DH DT ns src r k = h := by
  unfold mkHeader at e
  split at e
  · rename_i hf
    have := Out.ok.inj e
    exact ⟨this ▸ hf, this⟩
  · cases e

private theorem mkHeader_ok {DH DT : ℚ} {ns : Nat} {src r : Coord} {k : Nat} {h : Header}
    (e : mkHeader DH DT ns src r k = .ok h) : h.fits = true ∧ h.ns = ns % 65536 := by
  obtain ⟨h1, h2⟩ := mkHeader_eq e
  exact ⟨h1, by rw [← h2]; rfl⟩

private theorem chunk_len {B V : Type} (c : Codec B V) {hs : List Header} {rows : List (List V)}
    {ns : Nat} (hrow : ∀ row ∈ rows, row.length = ns) :
    ∀ x ∈ List.zipWith (traceBytes c) hs rows, x.length = 240 + 4 * ns := by
  intro x hx
  obtain ⟨i, hi, rfl⟩ := List.mem_iff_getElem.mp hx
  rw [List.getElem_zipWith, traceBytes_length, hrow _ (List.getElem_mem _)]

private theorem slice {B : Type} (X : List B) (a n : Nat) :
    ((X.drop a).drop 240).take (4 * n) = ((X.drop a).take (240 + 4 * n)).drop 240 := by
  rw [List.drop_take, Nat.add_sub_cancel_left]

private theorem decode_chunk {B V : Type} (c : Codec B V) {hs : List Header} {rows : List (List V)}
    {ns : Nat} (hrow : ∀ row ∈ rows, row.length = ns) (hl : hs.length = rows.length) {k : Nat}
    (hk : k < rows.length) :
    decFloats c ns ((((List.zipWith (traceBytes c) hs rows).flatten.drop (k * (240 + 4 * ns))).drop
      240).take (4 * ns)) = rows[k] := by
  rw [slice, flatten_chunk _ (chunk_len c hrow) (by simp; omega), List.getElem_zipWith,
    traceBytes_drop]
  have := decFloats_enc c rows[k]
  rw [hrow _ (List.getElem_mem hk)] at this
  exact this

/-- C46: a seismogram written by `P` processes and read by `Q` processes with the same number of
samples and traces is the one written – whatever the number of samples. Missing for the full
property: the part of each process must stay below 2 GB (see `C46_big_file_violated`). -/
theorem C46_read_back_partial {B V : Type} (c : Codec B V) {P Q : Nat} (hP : 0 < P) (hQ : 0 < Q)
    {DH DT : ℚ} {ns : Nat} {src : Coord} {rcvs : List Coord} {rows : List (List V)} {file : List B}
    (hrow : ∀ row ∈ rows, row.length = ns)
    (hsz : ∀ q < Q, (blockUb rows.length Q q - blockLb rows.length Q q) * (240 + 4 * ns) < 2147483648)
    (hw : writeSU c P DH DT ns src rcvs rows = .ok file) :
    readDataSU c Q ns rows.length file = .ok rows := by
  obtain ⟨hs, hl, -, rfl⟩ := writeSU_spec c hP hw
  set ls := List.zipWith (traceBytes c) hs rows with hls
  have hch : ∀ x ∈ ls, x.length = 240 + 4 * ns := chunk_len c hrow
  have hlen : ls.length = rows.length := by simp [hls, hl]
  unfold readDataSU
  have key : (List.range Q).mapM (fun q =>
      let lo := blockLb rows.length Q q
      let n := blockUb rows.length Q q - lo
      let L := 240 + 4 * ns
      let buf := (ls.flatten.drop (lo * L)).take (n * L)
      if 2147483648 ≤ n * L then (.ub : Out (List (List V)))
      else if buf.length < n * L then .ub
      else .ok ((List.range n).map fun i =>
        decFloats c ns ((buf.drop (i * L + 240)).take (4 * ns)))) =
      .ok ((List.range Q).map fun q => (rows.drop (blockLb rows.length Q q)).take
        (blockUb rows.length Q q - blockLb rows.length Q q)) := by
    apply mapM_eq_ok.mpr
    rw [List.map_map]
    apply List.map_congr_left
    intro q hq
    have hq := List.mem_range.mp hq
    simp only [Function.comp_apply]
    have hub : blockUb rows.length Q q ≤ rows.length := Nat.min_le_left _ _
    have hlb := lb_le_ub rows.length Q q
    have e : (ls.flatten.drop (blockLb rows.length Q q * (240 + 4 * ns))).take
        ((blockUb rows.length Q q - blockLb rows.length Q q) * (240 + 4 * ns)) =
        (List.zipWith (traceBytes c)
          ((hs.drop (blockLb rows.length Q q)).take (blockUb rows.length Q q - blockLb rows.length Q q))
          ((rows.drop (blockLb rows.length Q q)).take
            (blockUb rows.length Q q - blockLb rows.length Q q))).flatten := by
      rw [flatten_drop ls hch, flatten_take _ (fun x hx => hch x (List.mem_of_mem_drop hx)), hls,
        List.drop_zipWith, List.take_zipWith]
    have hrow' : ∀ row ∈ (rows.drop (blockLb rows.length Q q)).take
        (blockUb rows.length Q q - blockLb rows.length Q q), row.length = ns :=
      fun row hr => hrow row (List.mem_of_mem_drop (List.mem_of_mem_take hr))
    rw [if_neg (by have := hsz q hq; omega), e, if_neg (by
      rw [flatten_length _ (chunk_len c hrow')]
      simp only [List.length_zipWith, List.length_take, List.length_drop, hl, Nat.min_self]
      rw [Nat.min_eq_left (by omega)]
      omega)]
    congr 1
    apply List.ext_getElem
    · simp; omega
    · intro i h1 h2
      simp only [List.getElem_map, List.getElem_range]
      rw [← List.drop_drop, decode_chunk c hrow' (by simp [hl]) h2]
  rw [key, Out.bind_ok, ← List.flatMap_def, blocks_flatMap rows hQ]

/-- C46: reading a single trace by number returns exactly that trace. Missing for the full property:
the offset of the trace must be below 2 GB. -/
theorem C46_single_trace_partial {B V : Type} (c : Codec B V) {P : Nat} (hP : 0 < P)
    {DH DT : ℚ} {ns : Nat} (hns : ns ≤ 65535) {src : Coord} {rcvs : List Coord} {rows : List (List V)}
    {file : List B} (hrow : ∀ row ∈ rows, row.length = ns)
    (hw : writeSU c P DH DT ns src rcvs rows = .ok file) {k : Nat} (hk : k < rows.length)
    (hsz : (240 + 4 * ns) * k < 2147483648) :
    readSingle c file k = .ok rows[k] := by
  obtain ⟨hs, hl, hhd, rfl⟩ := writeSU_spec c hP hw
  have hch := chunk_len c (hs := hs) hrow
  have h0 : 0 < rows.length := by omega
  obtain ⟨r, -, hmk⟩ := hhd 0 (by omega)
  obtain ⟨hf, hn⟩ := mkHeader_ok hmk
  have htot := flatten_length _ hch
  have hll : (List.zipWith (traceBytes c) hs rows).length = rows.length := by simp [hl]
  rw [hll] at htot
  have hge : (k + 1) * (240 + 4 * ns) ≤ rows.length * (240 + 4 * ns) :=
    Nat.mul_le_mul_right _ hk
  have h240 : (List.zipWith (traceBytes c) hs rows).flatten.take 240 = c.encH hs[0] := by
    have e : List.zipWith (traceBytes c) hs rows = traceBytes c hs[0] rows[0] ::
        (List.zipWith (traceBytes c) hs rows).tail := by
      rw [← List.cons_head_tail (l := List.zipWith (traceBytes c) hs rows)
        (List.ne_nil_of_length_pos (by omega))]
      rw [List.head_eq_getElem, List.getElem_zipWith]
      simp
    rw [e, List.flatten_cons, traceBytes_take]
  have hnsv : (c.decH ((List.zipWith (traceBytes c) hs rows).flatten.take 240)).ns = ns := by
    rw [h240, c.invH _ hf, hn, Nat.mod_eq_of_lt (by omega)]
  unfold readSingle
  rw [if_neg (by rw [htot]; rw [Nat.succ_mul] at hge; omega)]
  simp only [hnsv]
  have e1 : (240 + ns * 4) * k = k * (240 + 4 * ns) := by ring
  rw [e1, if_neg (by rw [Nat.mul_comm]; omega)]
  have e2 : 240 + k * (240 + 4 * ns) = k * (240 + 4 * ns) + 240 := by ring
  rw [e2, if_neg (by
    rw [List.length_take, List.length_drop, htot]
    rw [Nat.succ_mul] at hge
    omega), ← List.drop_drop, decode_chunk c hrow hl hk]

private theorem headers_loop {B V : Type} (c : Codec B V) {ns : Nat} : ∀ (hs : List Header)
    (rows : List (List V)) (fuel : Nat), hs.length = rows.length → hs.length < fuel →
    (∀ h ∈ hs, h.fits = true ∧ h.ns = ns) → (∀ row ∈ rows, row.length = ns) →
    readHeadersLoop c fuel (List.zipWith (traceBytes c) hs rows).flatten = .ok hs := by
  intro hs
  induction hs with
  | nil =>
    intro rows fuel _ hf _ _
    cases fuel with
    | zero => simp at hf
    | succ f => simp [readHeadersLoop]
  | cons h hs ih =>
    intro rows fuel hl hf hh hrow
    cases rows with
    | nil => simp at hl
    | cons row rows =>
      cases fuel with
      | zero => simp at hf
      | succ f =>
        obtain ⟨h1, h2⟩ := hh h (by simp)
        have hr : row.length = ns := hrow row (by simp)
        have hlen : (traceBytes c h row).length = 240 + 4 * ns := by rw [traceBytes_length, hr]
        simp only [List.zipWith_cons_cons, List.flatten_cons]
        unfold readHeadersLoop
        rw [if_neg (by
          intro hc
          have := congrArg List.length hc
          rw [List.length_append, hlen] at this
          simp at this), if_neg (by rw [List.length_append, hlen]; omega)]
        simp only [traceBytes_take, c.invH h h1, h2]
        rw [← hlen, List.drop_left, ih rows f (by simpa using hl) (by simpa using hf)
          (fun x hx => hh x (by simp [hx])) (fun x hx => hrow x (by simp [hx]))]
        rfl

private theorem file_headers {B V : Type} (c : Codec B V) {P : Nat} (hP : 0 < P) {DH DT : ℚ} {ns : Nat}
    (hns : ns ≤ 65535) {src : Coord} {rcvs : List Coord} {rows : List (List V)} {file : List B}
    (hrow : ∀ row ∈ rows, row.length = ns) (hw : writeSU c P DH DT ns src rcvs rows = .ok file) :
    ∃ hs : List Header, readHeaders c file = .ok hs ∧ hs.length = rows.length ∧
      ∀ k (hk : k < hs.length), ∃ r, rcvs[k]? = some r ∧ mkHeader DH DT ns src r k = .ok hs[k] := by
  obtain ⟨hs, hl, hhd, rfl⟩ := writeSU_spec c hP hw
  refine ⟨hs, ?_, hl, hhd⟩
  apply headers_loop c (ns := ns) hs rows _ hl
  · rw [flatten_length _ (chunk_len c hrow)]
    simp only [List.length_zipWith, hl, Nat.min_self]
    have : rows.length * 1 ≤ rows.length * (240 + 4 * ns) := Nat.mul_le_mul_left _ (by omega)
    omega
  · intro h hh
    obtain ⟨i, hi, rfl⟩ := List.mem_iff_getElem.mp hh
    obtain ⟨r, -, hmk⟩ := hhd i hi
    obtain ⟨h1, h2⟩ := mkHeader_ok hmk
    exact ⟨h1, by rw [h2, Nat.mod_eq_of_lt (by omega)]⟩
  · exact hrow

/-- C46: the headers of a written file are found again: one per trace, in the order of the traces,
with the number of samples and the running trace number. -/
theorem C46_headers {B V : Type} (c : Codec B V) {P : Nat} (hP : 0 < P) {DH DT : ℚ} {ns : Nat}
    (hns : ns ≤ 65535) {src : Coord} {rcvs : List Coord} {rows : List (List V)} {file : List B}
    (hrow : ∀ row ∈ rows, row.length = ns) (hw : writeSU c P DH DT ns src rcvs rows = .ok file) :
    ∃ hs : List Header, readHeaders c file = .ok hs ∧
      hs.map (fun h => (h.tracl, h.ns)) = (List.range rows.length).map fun (k : Nat) => ((k : Int) + 1, ns) := by
  obtain ⟨hs, h1, hl, hk⟩ := file_headers c hP hns hrow hw
  refine ⟨hs, h1, ?_⟩
  apply List.ext_getElem
  · simp [hl]
  · intro i hi _
    simp only [List.getElem_map, List.getElem_range]
    obtain ⟨r, -, hmk⟩ := hk i (by simpa using hi)
    obtain ⟨-, he⟩ := mkHeader_eq hmk
    rw [← he]
    simp only [headerOf, Prod.mk.injEq, true_and]
    exact Nat.mod_eq_of_lt (by omega)

/-- C46: the number of samples is stored in 16 bits, so a single trace of 65536 or more samples is
never read back (the matrix reader, which is told the length, does read it). -/
theorem C46_long_traces_truncated {B V : Type} (c : Codec B V) {P : Nat} (hP : 0 < P)
    {DH DT : ℚ} {ns : Nat} (hns : 65535 < ns) {src : Coord} {rcvs : List Coord} {rows : List (List V)}
    {file : List B} (hrow : ∀ row ∈ rows, row.length = ns)
    (hw : writeSU c P DH DT ns src rcvs rows = .ok file) {k : Nat} (hk : k < rows.length) :
    readSingle c file k ≠ .ok rows[k] := by
  obtain ⟨hs, hl, hhd, rfl⟩ := writeSU_spec c hP hw
  obtain ⟨r, -, hmk⟩ := hhd 0 (by omega)
  obtain ⟨hf, hn⟩ := mkHeader_ok hmk
  have hll : (List.zipWith (traceBytes c) hs rows).length = rows.length := by simp [hl]
  have h240 : (List.zipWith (traceBytes c) hs rows).flatten.take 240 = c.encH hs[0] := by
    have e : List.zipWith (traceBytes c) hs rows = traceBytes c hs[0] rows[0] ::
        (List.zipWith (traceBytes c) hs rows).tail := by
      rw [← List.cons_head_tail (l := List.zipWith (traceBytes c) hs rows)
        (List.ne_nil_of_length_pos (by omega))]
      rw [List.head_eq_getElem, List.getElem_zipWith]
      simp
    rw [e, List.flatten_cons, traceBytes_take]
  have hnsv : (c.decH ((List.zipWith (traceBytes c) hs rows).flatten.take 240)).ns = ns % 65536 := by
    rw [h240, c.invH _ hf, hn]
  intro hc
  unfold readSingle at hc
  split at hc
  · cases hc
  · simp only [hnsv] at hc
    split at hc
    · cases hc
    · split at hc
      · cases hc
      · injection hc with hc
        have := congrArg List.length hc
        rw [hrow _ (List.getElem_mem hk)] at this
        simp only [decFloats, List.length_map, List.length_range] at this
        have := Nat.mod_lt ns (show 0 < 65536 by omega)
        omega

/-- C46: the byte offset of a trace is computed in 32 bits: of every file with 8193 traces of 65535
samples (2 GB), trace 8192 cannot be read. -/
theorem C46_big_file_violated {B V : Type} (c : Codec B V) {P : Nat} (hP : 0 < P)
    {DH DT : ℚ} {src : Coord} {rcvs : List Coord} {rows : List (List V)}
    {file : List B} (hlen : rows.length = 8193)
    (hw : writeSU c P DH DT 65535 src rcvs rows = .ok file) :
    readSingle c file 8192 = .ub := by
  obtain ⟨hs, hl, hhd, rfl⟩ := writeSU_spec c hP hw
  obtain ⟨r, -, hmk⟩ := hhd 0 (by omega)
  obtain ⟨hf, hn⟩ := mkHeader_ok hmk
  have hll : (List.zipWith (traceBytes c) hs rows).length = rows.length := by simp [hl]
  have h240 : (List.zipWith (traceBytes c) hs rows).flatten.take 240 = c.encH hs[0] := by
    have e : List.zipWith (traceBytes c) hs rows = traceBytes c hs[0] (rows[0]'(by omega)) ::
        (List.zipWith (traceBytes c) hs rows).tail := by
      rw [← List.cons_head_tail (l := List.zipWith (traceBytes c) hs rows)
        (List.ne_nil_of_length_pos (by omega))]
      rw [List.head_eq_getElem, List.getElem_zipWith]
      simp
    rw [e, List.flatten_cons, traceBytes_take]
  have hnsv : (c.decH ((List.zipWith (traceBytes c) hs rows).flatten.take 240)).ns = 65535 := by
    rw [h240, c.invH _ hf, hn]
  unfold readSingle
  split
  · rfl
  · simp only [hnsv]
    rw [if_pos (by omega)]

/-- A codec for the examples: the first byte carries the value. -/
private def toy : Codec (Header ⊕ Int) Int where
  encH h := .inl h :: List.replicate 239 (.inr 0)
  decH b := match b with
    | .inl h :: _ => h
    | _ => ⟨0, 0, 0, 0, 0, 0, 0, 0, 0, 0, 0⟩
  encF v := [.inr v, .inr 0, .inr 0, .inr 0]
  decF b := match b with
    | .inr v :: _ => v
    | _ => 0
  lenH _ := by rw [List.length_cons, List.length_replicate]
  lenF _ := rfl
  invH _ _ := rfl
  invF _ := rfl

/-- Two processes write three traces of two samples; one process reads them, and one trace alone. -/
example : ∃ file, writeSU toy 2 (1/2) (1/1000) 2 ⟨4, 0, 0⟩ [⟨1, 2, 3⟩, ⟨2, 2, 3⟩, ⟨3, 2, 3⟩]
      [[10, 11], [20, 21], [30, 31]] = .ok file ∧
    readDataSU toy 1 2 3 file = .ok [[10, 11], [20, 21], [30, 31]] ∧
    readSingle toy file 2 = .ok [30, 31] := by
  obtain ⟨file, hw⟩ := writeSU_ok toy (P := 2) (DH := 1/2) (DT := 1/1000) (ns := 2) (src := ⟨4, 0, 0⟩)
    (rcvs := [⟨1, 2, 3⟩, ⟨2, 2, 3⟩, ⟨3, 2, 3⟩]) (rows := [[10, 11], [20, 21], [30, 31]])
    (by decide) (by
      intro k hk
      simp only [List.length_cons, List.length_nil] at hk
      have hk : k = 0 ∨ k = 1 ∨ k = 2 := by omega
      rcases hk with rfl | rfl | rfl
      all_goals
        exact ⟨_, _, rfl, if_pos (by norm_num [Header.fits, headerOf, roundQ, int32])⟩)
  refine ⟨file, hw, ?_, ?_⟩
  · exact C46_read_back_partial toy (by decide) (by decide) (by decide) (by decide) hw
  · exact C46_single_trace_partial toy (by decide) (by decide) (by decide) hw (k := 2) (by decide)
      (by decide)

/-! ### C47: coordinates in the headers -/

private theorem round_bounds {q : ℚ} (hq : 0 ≤ q) :
    (roundQ q : ℚ) ≤ q + 1 / 2 ∧ q - 1 / 2 < roundQ q := by
  unfold roundQ
  rw [if_pos hq]
  have h1 := Int.floor_le (q + 1 / 2)
  have h2 := Int.lt_floor_add_one (q + 1 / 2)
  constructor <;> linarith

private theorem trunc_eq {q : ℚ} {n : Int} (hn : 0 ≤ n) (h1 : (n : ℚ) ≤ q) (h2 : q < n + 1) :
    truncQ q = n := by
  have hn' : (0 : ℚ) ≤ n := by exact_mod_cast hn
  unfold truncQ
  rw [if_pos (by linarith)]
  exact Int.floor_eq_iff.mpr ⟨h1, h2⟩

private theorem mm : ((10 : ℚ) ^ (-3 : Int)) = 1 / 1000 := by norm_num

private theorem source_axis {DH : ℚ} (hDH : 1 / 1000 < DH) {n : Int} (hn : 0 ≤ n) :
    truncQ (roundQ (n * DH * 1000) * (10 : ℚ) ^ (-3 : Int) / DH + 1 / 2) = n := by
  have hn' : (0 : ℚ) ≤ n := by exact_mod_cast hn
  have hpos : 0 < DH := by linarith
  obtain ⟨h1, h2⟩ := round_bounds (q := n * DH * 1000) (by positivity)
  rw [mm]
  apply trunc_eq hn
  · have : (n : ℚ) - 1 / 2 ≤ roundQ (n * DH * 1000) * (1 / 1000) / DH := by
      rw [le_div_iff₀ hpos]
      nlinarith
    linarith
  · have : (roundQ (n * DH * 1000) : ℚ) * (1 / 1000) / DH < n + 1 / 2 := by
      rw [div_lt_iff₀ hpos]
      nlinarith
    linarith

private theorem receiver_axis {DH : ℚ} (hDH : 1 / 1000 < DH) {n : Int} (hn : 0 ≤ n) :
    truncQ (roundQ (n * DH * 1000) * (10 : ℚ) ^ (-3 : Int) / DH) = n ↔
      (n * DH * 1000 : ℚ) ≤ roundQ (n * DH * 1000) := by
  have hn' : (0 : ℚ) ≤ n := by exact_mod_cast hn
  have hpos : 0 < DH := by linarith
  obtain ⟨h1, h2⟩ := round_bounds (q := n * DH * 1000) (by positivity)
  rw [mm]
  constructor
  · intro h
    have hr : 0 ≤ roundQ (n * DH * 1000) := by
      unfold roundQ
      rw [if_pos (by positivity)]
      exact Int.floor_nonneg.mpr (by positivity)
    have hr' : (0 : ℚ) ≤ roundQ (n * DH * 1000) := by exact_mod_cast hr
    unfold truncQ at h
    rw [if_pos (by positivity)] at h
    have := (Int.floor_eq_iff.mp h).1
    rw [le_div_iff₀ hpos] at this
    linarith
  · intro h
    apply trunc_eq hn
    · rw [le_div_iff₀ hpos]; linarith
    · rw [div_lt_iff₀ hpos]; nlinarith

private def Nonneg (c : Coord) : Prop := 0 ≤ c.x ∧ 0 ≤ c.y ∧ 0 ≤ c.z

private theorem source_header {DH DT : ℚ} (hDH : 1 / 1000 < DH) {ns : Nat} {src r : Coord}
    (hs : Nonneg src) {k : Nat} {h : Header} (e : mkHeader DH DT ns src r k = .ok h) :
    sourceCoord DH h = src := by
  obtain ⟨-, rfl⟩ := mkHeader_eq e
  simp only [sourceCoord, headerOf, source_axis hDH hs.1, source_axis hDH hs.2.1,
    source_axis hDH hs.2.2]

/-- C47: with a grid spacing above one millimetre, initialising the sources from a written file
gives the source position for every trace. -/
theorem C47_sources {B V : Type} (c : Codec B V) {P : Nat} (hP : 0 < P) {DH DT : ℚ}
    (hDH : 1 / 1000 < DH) {ns : Nat} (hns : ns ≤ 65535) {src : Coord}
    (hsrc : 0 ≤ src.x ∧ 0 ≤ src.y ∧ 0 ≤ src.z) {rcvs : List Coord}
    {rows : List (List V)} {file : List B} (hrow : ∀ row ∈ rows, row.length = ns)
    (hw : writeSU c P DH DT ns src rcvs rows = .ok file) :
    ∃ hs, readHeaders c file = .ok hs ∧ hs.map (sourceCoord DH) = List.replicate rows.length src := by
  obtain ⟨hs, h1, hl, hk⟩ := file_headers c hP hns hrow hw
  refine ⟨hs, h1, ?_⟩
  rw [List.eq_replicate_iff]
  refine ⟨by simp [hl], ?_⟩
  intro b hb
  obtain ⟨h, hh, rfl⟩ := List.mem_map.mp hb
  obtain ⟨i, hi, rfl⟩ := List.mem_iff_getElem.mp hh
  obtain ⟨r, -, hmk⟩ := hk i hi
  exact source_header hDH hsrc hmk

/-- C47: a receiver is recovered exactly if none of its coordinates was rounded down to the
millimetre. Missing for the full property: the reader truncates instead of rounding
(see `C47_receivers_violated`). -/
theorem C47_receivers_iff_partial {DH DT : ℚ} (hDH : 1 / 1000 < DH) {ns : Nat} {src r : Coord}
    (hr : 0 ≤ r.x ∧ 0 ≤ r.y ∧ 0 ≤ r.z) {k : Nat} {h : Header}
    (e : mkHeader DH DT ns src r k = .ok h) :
    receiverCoord DH h = r ↔
      (r.x * DH * 1000 ≤ h.gx ∧ r.y * DH * 1000 ≤ h.gelev ∧ r.z * DH * 1000 ≤ h.gy : Prop) := by
  obtain ⟨-, rfl⟩ := mkHeader_eq e
  simp only [receiverCoord, headerOf, ← receiver_axis hDH hr.1, ← receiver_axis hDH hr.2.1,
    ← receiver_axis hDH hr.2.2]
  constructor
  · intro h
    have h1 := congrArg Coord.x h
    have h2 := congrArg Coord.y h
    have h3 := congrArg Coord.z h
    exact ⟨h1, h2, h3⟩
  · rintro ⟨h1, h2, h3⟩
    simp only [h1, h2, h3]

/-- C47: in particular, all receivers are recovered if the grid spacing is a whole number of
millimetres. -/
theorem C47_receivers_millimetre_partial {B V : Type} (c : Codec B V) {P : Nat} (hP : 0 < P) {DT : ℚ}
    {m : Nat} (hm : 2 ≤ m) {ns : Nat} (hns : ns ≤ 65535) {src : Coord} {rcvs : List Coord}
    (hr : ∀ r ∈ rcvs, 0 ≤ r.x ∧ 0 ≤ r.y ∧ 0 ≤ r.z)
    {rows : List (List V)} {file : List B} (hrow : ∀ row ∈ rows, row.length = ns)
    (hw : writeSU c P (m / 1000) DT ns src rcvs rows = .ok file) :
    ∃ hs, readHeaders c file = .ok hs ∧
      hs.map (receiverCoord (m / 1000)) = rcvs.take rows.length := by
  obtain ⟨hs, h1, hl, hk⟩ := file_headers c hP hns hrow hw
  have hm' : (2 : ℚ) ≤ m := by exact_mod_cast hm
  have hDH : (1 : ℚ) / 1000 < m / 1000 := by linarith
  have hex : ∀ n : Int, 0 ≤ n → (n * ((m : ℚ) / 1000) * 1000 : ℚ) ≤ roundQ (n * ((m : ℚ) / 1000) * 1000) := by
    intro n hn
    have e : (n * ((m : ℚ) / 1000) * 1000 : ℚ) = ((n * m : Int) : ℚ) := by push_cast; ring
    rw [e]
    unfold roundQ
    rw [if_pos (by exact_mod_cast Int.mul_nonneg hn (by omega))]
    have : (n * m : Int) ≤ ⌊((n * m : Int) : ℚ) + 1 / 2⌋ := by
      rw [Int.le_floor]; linarith
    exact_mod_cast this
  refine ⟨hs, h1, ?_⟩
  have hlen : rows.length ≤ rcvs.length := by
    by_contra hlt
    obtain ⟨r, hr1, -⟩ := hk rcvs.length (by omega)
    rw [List.getElem?_eq_none (by omega)] at hr1
    cases hr1
  apply List.ext_getElem
  · simp [hl, hlen]
  · intro i hi hi2
    have hi' : i < hs.length := by simpa using hi
    obtain ⟨r, hr1, hmk⟩ := hk i hi'
    rw [List.getElem?_eq_getElem (by omega)] at hr1
    have hr1 := Option.some.inj hr1
    simp only [List.getElem_map, List.getElem_take]
    have hrn := hr r (by rw [← hr1]; exact List.getElem_mem _)
    have := (C47_receivers_iff_partial hDH hrn hmk).mpr (by
      obtain ⟨-, he⟩ := mkHeader_eq hmk
      rw [← he]
      exact ⟨hex _ hrn.1, hex _ hrn.2.1, hex _ hrn.2.2⟩)
    rw [this, hr1]

/-- C47: on a grid with spacing 1/3 m the receiver at grid point 1 is written as 333 mm and read
back as grid point 0. -/
theorem C47_receivers_violated :
    ∃ h, mkHeader (1 / 3) (1 / 1000) 100 ⟨5, 5, 5⟩ ⟨1, 1, 1⟩ 0 = .ok h ∧
      receiverCoord (1 / 3) h = ⟨0, 0, 0⟩ ∧ sourceCoord (1 / 3) h = ⟨5, 5, 5⟩ := by
  have e333 : roundQ (333 + 1 / 3) = 333 := by
    unfold roundQ
    rw [if_pos (by norm_num)]
    exact Int.floor_eq_iff.mpr ⟨by norm_num, by norm_num⟩
  refine ⟨⟨1, 333, 1667, 1667, 1667, 333, 333, -3, -3, 100, 1000⟩, ?_, ?_, ?_⟩
  · have h5 : roundQ (((5 : Int) : ℚ) * (1 / 3) * 1000) = 1667 := by
      unfold roundQ
      rw [if_pos (by norm_num)]
      exact Int.floor_eq_iff.mpr ⟨by norm_num, by norm_num⟩
    have h1 : roundQ (((1 : Int) : ℚ) * (1 / 3) * 1000) = 333 := by
      rw [← e333]; congr 1; norm_num
    have hd : roundQ ((1 / 1000 : ℚ) * 1000000) = 1000 := by
      unfold roundQ
      rw [if_pos (by norm_num)]
      exact Int.floor_eq_iff.mpr ⟨by norm_num, by norm_num⟩
    unfold mkHeader
    simp only [headerOf, h5, h1, hd]
    rfl
  · unfold receiverCoord
    simp only
    have : truncQ (((333 : Int) : ℚ) * (10 : ℚ) ^ (-3 : Int) / (1 / 3)) = 0 :=
      trunc_eq (by norm_num) (by norm_num) (by norm_num)
    simp only [this]
  · unfold sourceCoord
    simp only
    have : truncQ (((1667 : Int) : ℚ) * (10 : ℚ) ^ (-3 : Int) / (1 / 3) + 1 / 2) = 5 :=
      trunc_eq (by norm_num) (by norm_num) (by norm_num)
    simp only [this]

/-! ### C48: component from the file name -/

private theorem after_append {a b : List Char} (h : '.' ∉ b) : afterLastDot (a ++ '.' :: b) = b := by
  unfold afterLastDot
  have e : (a ++ '.' :: b).reverse = b.reverse ++ '.' :: a.reverse := by simp
  rw [e, List.takeWhile_append_of_pos (by
    intro x hx
    have : x ∈ b := by simpa using hx
    simp only [decide_eq_true_eq]
    rintro rfl
    exact h this)]
  simp

private theorem before_append {a b : List Char} (h : '.' ∉ b) : beforeLastDot (a ++ '.' :: b) = a := by
  unfold beforeLastDot
  rw [if_pos (by simp)]
  have e : (a ++ '.' :: b).reverse = b.reverse ++ '.' :: a.reverse := by simp
  rw [e, List.dropWhile_append_of_pos (by
    intro x hx
    have : x ∈ b := by simpa using hx
    simp only [decide_eq_true_eq]
    rintro rfl
    exact h this)]
  simp

/-- The component found in a name of the form `base.comp.ext`, for any base name, is decided by
`comp` alone: its number if it is one of the four components, an error otherwise. -/
theorem C48_component {base comp ext : List Char} (hc : '.' ∉ comp) (he : '.' ∉ ext) :
    getComponent (base ++ '.' :: (comp ++ '.' :: ext)) =
      if comp = ['p'] then .ok 1 else if comp = ['v', 'x'] then .ok 2
      else if comp = ['v', 'y'] then .ok 3 else if comp = ['v', 'z'] then .ok 4 else .err := by
  have e : base ++ '.' :: (comp ++ '.' :: ext) = (base ++ '.' :: comp) ++ '.' :: ext := by simp
  unfold getComponent
  rw [e, before_append he, after_append hc]
  simp only [componentNames, List.range_succ, List.range_zero, List.nil_append, List.foldl_append,
    List.foldl_cons, List.foldl_nil, List.getElem?_cons_zero, List.getElem?_cons_succ,
    Option.some.injEq]
  by_cases h1 : comp = ['p']
  · subst h1; rfl
  by_cases h2 : comp = ['v', 'x']
  · subst h2; rfl
  by_cases h3 : comp = ['v', 'y']
  · subst h3; rfl
  by_cases h4 : comp = ['v', 'z']
  · subst h4; rfl
  have n1 : ¬ ['p'] = comp := fun h => h1 h.symm
  have n2 : ¬ ['v', 'x'] = comp := fun h => h2 h.symm
  have n3 : ¬ ['v', 'y'] = comp := fun h => h3 h.symm
  have n4 : ¬ ['v', 'z'] = comp := fun h => h4 h.symm
  simp [h1, h2, h3, h4, n1, n2, n3, n4]

/-- C48: the component derived from the name under which component `i` is stored is `i + 1`, the
number used in acquisition files – for every base name, whatever dots it contains. -/
theorem C48_written_name (base : List Char) {i : Nat} (hi : i < 4) :
    getComponent (componentFile base i) = .ok (i + 1) := by
  have : i = 0 ∨ i = 1 ∨ i = 2 ∨ i = 3 := by omega
  rcases this with rfl | rfl | rfl | rfl
  · have := C48_component (base := base) (comp := ['p']) (ext := ['s', 'u']) (by decide) (by decide)
    simpa [componentFile, componentNames] using this
  · have := C48_component (base := base) (comp := ['v', 'x']) (ext := ['s', 'u']) (by decide) (by decide)
    simpa [componentFile, componentNames] using this
  · have := C48_component (base := base) (comp := ['v', 'y']) (ext := ['s', 'u']) (by decide) (by decide)
    simpa [componentFile, componentNames] using this
  · have := C48_component (base := base) (comp := ['v', 'z']) (ext := ['s', 'u']) (by decide) (by decide)
    simpa [componentFile, componentNames] using this

example : getComponent "out.vy.shot_3.p.su".toList = .ok 1 ∧ getComponent "seis.ez.su".toList = .err := by
  decide

/-! ### C62: missing component files -/

private theorem comp_ok {dir : List Char → Option (List Header)} {pos : Header → Coord}
    {base : List Char} {i : Nat} (hi : i < 4) :
    readComp dir pos (componentFile base i) =
      match dir (componentFile base i) with
      | none => .err
      | some hs => .ok (hs.map fun h => (pos h, i + 1)) := by
  unfold readComp
  cases dir (componentFile base i) with
  | none => rfl
  | some hs => simp only [C48_written_name base hi, Out.bind_ok]

/-- C62: receivers are initialised from all component files that exist; the call fails exactly if
none exists. -/
theorem C62_receivers (dir : List Char → Option (List Header)) (pos : Header → Coord)
    (base : List Char) :
    ((∃ i < 4, (dir (componentFile base i)).isSome) → readAllReceivers dir pos base =
        .ok ((List.range 4).flatMap fun i =>
          ((dir (componentFile base i)).getD []).map fun h => (pos h, i + 1))) ∧
    ((∀ i < 4, dir (componentFile base i) = none) → readAllReceivers dir pos base = .err) := by
  unfold readAllReceivers
  have e : List.range 4 = [0, 1, 2, 3] := rfl
  simp only [e, List.foldlM_cons, List.foldlM_nil, List.flatMap_cons, List.flatMap_nil,
    comp_ok (show 0 < 4 by omega), comp_ok (show 1 < 4 by omega), comp_ok (show 2 < 4 by omega),
    comp_ok (show 3 < 4 by omega)]
  constructor
  · rintro ⟨i, hi, h⟩
    have : i = 0 ∨ i = 1 ∨ i = 2 ∨ i = 3 := by omega
    rcases this with rfl | rfl | rfl | rfl <;>
    cases h0 : dir (componentFile base 0) <;> cases h1 : dir (componentFile base 1) <;>
    cases h2 : dir (componentFile base 2) <;> cases h3 : dir (componentFile base 3) <;>
    first
      | (rw [‹dir _ = none›] at h; cases h; done)
      | simp_all
  · intro h
    simp [h 0 (by omega), h 1 (by omega), h 2 (by omega), h 3 (by omega)]

/-- C62: sources are initialised from all four component files … -/
theorem C62_sources_all_partial {dir : List Char → Option (List Header)} (pos : Header → Coord)
    {base : List Char} {hs : Nat → List Header} (h : ∀ i < 4, dir (componentFile base i) = some (hs i)) :
    readAllSources dir pos base =
      .ok ((List.range 4).flatMap fun i => (hs i).map fun h => (pos h, i + 1)) := by
  unfold readAllSources
  have : (List.range 4).mapM (fun i => readComp dir pos (componentFile base i)) =
      .ok ((List.range 4).map fun i => (hs i).map fun h => (pos h, i + 1)) := by
    apply mapM_eq_ok.mpr
    rw [List.map_map]
    apply List.map_congr_left
    intro i hi
    have hi := List.mem_range.mp hi
    simp [comp_ok hi, h i hi]
  rw [this]
  rfl

/-- C62: … and the call fails as soon as one of them is missing, even though a run writes files only
for the components its sources use. -/
theorem C62_sources_violated {dir : List Char → Option (List Header)} (pos : Header → Coord)
    {base : List Char} {i : Nat} (hi : i < 4) (h : dir (componentFile base i) = none) :
    ∀ l, readAllSources dir pos base ≠ .ok l := by
  intro l hc
  unfold readAllSources at hc
  cases hm : (List.range 4).mapM (fun i => readComp dir pos (componentFile base i)) with
  | ok parts =>
    have hp := mapM_eq_ok.mp hm
    have := congrArg (fun l => l[i]?) hp
    simp only [List.getElem?_map] at this
    rw [List.getElem?_eq_getElem (by simpa using hi)] at this
    simp only [List.getElem_range, Option.map_some, comp_ok hi, h] at this
    cases hpi : parts[i]? with
    | none => rw [hpi] at this; cases this
    | some x => rw [hpi] at this; cases this
  | err => rw [hm] at hc; cases hc
  | ub => rw [hm] at hc; cases hc

/-- Only the pressure file exists: receivers can be read, sources cannot. -/
example : let dir := fun n => if n = componentFile ['a'] 0 then
        some [(⟨1, 0, 0, 2, 0, 7, 0, -3, -3, 5, 0⟩ : Header)] else none
    readAllReceivers dir (fun h => ⟨h.gx, h.gelev, h.gy⟩) ['a'] = .ok [(⟨7, 0, 0⟩, 1)] ∧
    readAllSources dir (fun h => ⟨h.sx, h.sdepth, h.sy⟩) ['a'] = .err := by
  decide

/-! ### C63: sampling interval in the header -/

/-- C63: if the trace can be written, the sampling interval in the header is within half a
microsecond of the sampling interval of the seismogram. -/
theorem C63_dt {DH DT : ℚ} (hDT : 0 ≤ DT) {ns : Nat} {src r : Coord} {k : Nat} {h : Header}
    (e : mkHeader DH DT ns src r k = .ok h) : |(h.dt : ℚ) / 1000000 - DT| ≤ 1 / 2000000 := by
  obtain ⟨-, rfl⟩ := mkHeader_eq e
  obtain ⟨h1, h2⟩ := round_bounds (q := DT * 1000000) (by positivity)
  rw [abs_le]
  simp only [headerOf]
  constructor <;> linarith

/-- C63: but for sampling intervals below half a microsecond – all ground-penetrating-radar runs –
the header says 0. -/
theorem C63_radar_violated {DH DT : ℚ} (h0 : 0 ≤ DT) (hDT : DT < 1 / 2000000) {ns : Nat} {src r : Coord}
    {k : Nat} {h : Header} (e : mkHeader DH DT ns src r k = .ok h) : h.dt = 0 := by
  obtain ⟨-, rfl⟩ := mkHeader_eq e
  simp only [headerOf, roundQ]
  rw [if_pos (by positivity)]
  exact Int.floor_eq_iff.mpr ⟨by push_cast; linarith, by push_cast; linarith⟩

/-- The hypotheses are met by a run with a sampling interval of 0.1 ns (`DT = 10⁻¹⁰`). -/
example : ∃ h, mkHeader (1 / 50) (1 / 10000000000) 100 ⟨0, 0, 0⟩ ⟨0, 0, 0⟩ 0 = .ok h := by
  unfold mkHeader
  rw [if_pos (by norm_num [Header.fits, headerOf, roundQ, int32])]
  exact ⟨_, rfl⟩

end Verif.SU
