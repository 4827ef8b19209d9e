import Verif.Model.SU
import Mathlib.Data.List.Basic
/-! Lemmas about Seismic Unix files. -/
namespace Verif.SU
open Verif.Shots (blockLb blockUb ceilDiv)

instance : LawfulMonad Out := LawfulMonad.mk' _
  (id_map := by intro α x; cases x <;> rfl)
  (pure_bind := by intros; rfl)
  (bind_assoc := by intro α β γ x f g; cases x <;> rfl)

theorem mapM_eq_ok {α β : Type} {f : α → Out β} : ∀ {l : List α} {r : List β},
    l.mapM f = .ok r ↔ l.map f = r.map Out.ok := by
  intro l
  induction l with
  | nil => intro r; cases r <;> simp
  | cons a l ih =>
    intro r
    rw [List.mapM_cons]
    cases hf : f a with
    | ok b =>
      cases hl : l.mapM f with
      | ok bs =>
        have := ih.mp hl
        simp only [Out.bind_ok, Out.pure_eq, List.map_cons, hf, this]
        constructor
        · intro h; injection h with h; subst h; rfl
        · intro h
          cases r with
          | nil => simp at h
          | cons x xs =>
            simp only [List.map_cons, List.cons.injEq, Out.ok.injEq] at h
            have hx : bs = xs := by
              have := h.2
              exact List.map_injective_iff.mpr (fun a b h => by injection h) this
            rw [h.1, hx]
      | err =>
        simp only [Out.bind_ok, Out.bind_err, List.map_cons, hf]
        constructor
        · intro h; cases h
        · intro h
          cases r with
          | nil => simp at h
          | cons x xs =>
            simp only [List.map_cons, List.cons.injEq] at h
            rw [ih.mpr h.2] at hl; cases hl
      | ub =>
        simp only [Out.bind_ok, Out.bind_ub, List.map_cons, hf]
        constructor
        · intro h; cases h
        · intro h
          cases r with
          | nil => simp at h
          | cons x xs =>
            simp only [List.map_cons, List.cons.injEq] at h
            rw [ih.mpr h.2] at hl; cases hl
    | err =>
      simp only [Out.bind_err, List.map_cons, hf]
      constructor
      · intro h; cases h
      · intro h
        cases r with
        | nil => simp at h
        | cons x xs => simp at h
    | ub =>
      simp only [Out.bind_ub, List.map_cons, hf]
      constructor
      · intro h; cases h
      · intro h
        cases r with
        | nil => simp at h
        | cons x xs => simp at h

theorem lb_le_ub (n P p : Nat) : blockLb n P p ≤ blockUb n P p := by
  unfold blockLb blockUb
  have : p * ceilDiv n P ≤ (p + 1) * ceilDiv n P := Nat.mul_le_mul_right _ (by omega)
  omega

theorem le_mul_ceil {n P : Nat} (h : 0 < P) : n ≤ P * ceilDiv n P := by
  unfold ceilDiv
  have := Nat.div_add_mod (n + P - 1) P
  have := Nat.mod_lt (n + P - 1) h
  omega

/-- The blocks of a block distribution, one after the other, are the whole list. -/
theorem blocks_flatMap {α : Type} (u : List α) {P : Nat} (hP : 0 < P) :
    ((List.range P).flatMap fun p =>
      (u.drop (blockLb u.length P p)).take (blockUb u.length P p - blockLb u.length P p)) = u := by
  have key : ∀ q, ((List.range q).flatMap fun p =>
      (u.drop (blockLb u.length P p)).take (blockUb u.length P p - blockLb u.length P p)) =
      u.take (blockLb u.length P q) := by
    intro q
    induction q with
    | zero => simp [blockLb]
    | succ q ih =>
      rw [List.range_succ, List.flatMap_append, ih]
      simp only [List.flatMap_cons, List.flatMap_nil, List.append_nil]
      have e : blockLb u.length P (q + 1) = blockUb u.length P q := rfl
      have hlb := lb_le_ub u.length P q
      rw [e]
      have := List.take_add (l := u) (i := blockLb u.length P q)
        (j := blockUb u.length P q - blockLb u.length P q)
      rw [← this]
      congr 1
      omega
  rw [key P]
  unfold blockLb
  rw [Nat.min_eq_left (le_mul_ceil hP)]
  simp

theorem range_block (n P p : Nat) :
    ((List.range n).drop (blockLb n P p)).take (blockUb n P p - blockLb n P p) =
      List.range' (blockLb n P p) (blockUb n P p - blockLb n P p) := by
  have h1 := lb_le_ub n P p
  have h2 : blockUb n P p ≤ n := Nat.min_le_left _ _
  apply List.ext_getElem
  · simp; omega
  · intro i _ _
    simp

theorem flatten_drop {B : Type} {L : Nat} : ∀ (ls : List (List B)), (∀ x ∈ ls, x.length = L) →
    ∀ k, ls.flatten.drop (k * L) = (ls.drop k).flatten := by
  intro ls
  induction ls with
  | nil => intro _ k; simp
  | cons a ls ih =>
    intro h k
    cases k with
    | zero => simp
    | succ k =>
      have ha : a.length = L := h a (by simp)
      rw [List.flatten_cons, List.drop_succ_cons, ← ih (fun x hx => h x (by simp [hx])) k,
        Nat.succ_mul, Nat.add_comm, ← List.drop_drop, ← ha, List.drop_left]

theorem flatten_take {B : Type} {L : Nat} : ∀ (ls : List (List B)), (∀ x ∈ ls, x.length = L) →
    ∀ k, ls.flatten.take (k * L) = (ls.take k).flatten := by
  intro ls
  induction ls with
  | nil => intro _ k; simp
  | cons a ls ih =>
    intro h k
    cases k with
    | zero => simp
    | succ k =>
      have ha : a.length = L := h a (by simp)
      rw [List.flatten_cons, List.take_succ_cons, List.flatten_cons,
        ← ih (fun x hx => h x (by simp [hx])) k, Nat.succ_mul, Nat.add_comm, ← ha,
        List.take_length_add_append]

theorem flatten_length {B : Type} {L : Nat} : ∀ (ls : List (List B)), (∀ x ∈ ls, x.length = L) →
    ls.flatten.length = ls.length * L := by
  intro ls
  induction ls with
  | nil => intro _; simp
  | cons a ls ih =>
    intro h
    rw [List.flatten_cons, List.length_append, ih (fun x hx => h x (by simp [hx])), h a (by simp),
      List.length_cons, Nat.succ_mul, Nat.add_comm]

/-- Chunk `k` of the concatenation. -/
theorem flatten_chunk {B : Type} {L : Nat} (ls : List (List B)) (h : ∀ x ∈ ls, x.length = L)
    {k : Nat} (hk : k < ls.length) : (ls.flatten.drop (k * L)).take L = ls[k] := by
  rw [flatten_drop ls h, List.drop_eq_getElem_cons hk, List.flatten_cons,
    List.take_append_of_le_length (by rw [h _ (List.getElem_mem hk)]),
    List.take_of_length_le (by rw [h _ (List.getElem_mem hk)])]

variable {B V : Type} (c : Codec B V)

theorem floats_length (row : List V) : (row.flatMap c.encF).length = 4 * row.length := by
  rw [List.flatMap, flatten_length (L := 4)]
  · simp [Nat.mul_comm]
  · intro x hx
    obtain ⟨v, _, rfl⟩ := List.mem_map.mp hx
    exact c.lenF v

theorem decFloats_enc (row : List V) : decFloats c row.length (row.flatMap c.encF) = row := by
  unfold decFloats
  apply List.ext_getElem
  · simp
  · intro j h1 h2
    have hlen : ∀ x ∈ row.map c.encF, x.length = 4 := by
      intro x hx
      obtain ⟨v, _, rfl⟩ := List.mem_map.mp hx
      exact c.lenF v
    simp only [List.getElem_map, List.getElem_range]
    rw [List.flatMap, Nat.mul_comm, flatten_chunk _ hlen (by simpa using h2)]
    simp [c.invF]

theorem traceBytes_length {h : Header} {row : List V} :
    (traceBytes c h row).length = 240 + 4 * row.length := by
  unfold traceBytes
  rw [List.length_append, c.lenH, floats_length]

theorem traceBytes_take {h : Header} {row : List V} (rest : List B) :
    (traceBytes c h row ++ rest).take 240 = c.encH h := by
  unfold traceBytes
  rw [List.append_assoc, ← c.lenH h, List.take_left]

theorem traceBytes_drop {h : Header} {row : List V} :
    (traceBytes c h row).drop 240 = row.flatMap c.encF := by
  unfold traceBytes
  rw [← c.lenH h, List.drop_left]

/-- What a successful `writeSU` leaves in the file: the traces in order, each after its header. -/
theorem writeSU_spec {P : Nat} (hP : 0 < P) {DH DT : ℚ} {ns : Nat} {src : Coord} {rcvs : List Coord}
    {rows : List (List V)} {file : List B} (h : writeSU c P DH DT ns src rcvs rows = .ok file) :
    ∃ hs : List Header, hs.length = rows.length ∧
      (∀ k (hk : k < hs.length), ∃ r, rcvs[k]? = some r ∧ mkHeader DH DT ns src r k = .ok hs[k]) ∧
      file = (List.zipWith (traceBytes c) hs rows).flatten := by
  unfold writeSU at h
  set F : Nat → Out (List B) := fun k =>
    match rcvs[k]?, rows[k]? with
    | some r, some row => do
      let h ← mkHeader DH DT ns src r k
      .ok (traceBytes c h row)
    | _, _ => .ub with hF
  cases hm : (List.range P).mapM (fun p =>
      localBuffer c DH DT ns src rcvs rows (blockLb rows.length P p) (blockUb rows.length P p)) with
  | err => rw [hm] at h; cases h
  | ub => rw [hm] at h; cases h
  | ok bufs =>
    rw [hm, Out.bind_ok] at h
    injection h with h
    have hb := mapM_eq_ok.mp hm
    -- each buffer is the list of its traces
    have hloc : ∀ p b, localBuffer c DH DT ns src rcvs rows (blockLb rows.length P p)
        (blockUb rows.length P p) = .ok b →
        b.map Out.ok = (List.range' (blockLb rows.length P p)
          (blockUb rows.length P p - blockLb rows.length P p)).map F := by
      intro p b hpb
      unfold localBuffer at hpb
      split at hpb
      · cases hpb
      · exact (mapM_eq_ok.mp hpb).symm
    have hflat : bufs.flatten.map Out.ok = (List.range rows.length).map F := by
      have h1 : bufs.map (fun b => b.map Out.ok) = (List.range P).map fun p =>
          (List.range' (blockLb rows.length P p)
            (blockUb rows.length P p - blockLb rows.length P p)).map F := by
        have hl : bufs.length = P := by
          have := congrArg List.length hb
          simpa using this.symm
        apply List.ext_getElem
        · simp [hl]
        · intro i h1 h2
          simp only [List.getElem_map, List.getElem_range]
          apply hloc
          have hi : i < bufs.length := by simpa using h1
          have := congrArg (fun l => l[i]?) hb
          simp only [List.getElem?_map] at this
          rw [List.getElem?_eq_getElem hi, List.getElem?_eq_getElem (by simp; omega)] at this
          simpa using this
      rw [List.map_flatten, h1, ← List.flatMap_def]
      conv_rhs => rw [← blocks_flatMap (List.range rows.length) hP]
      rw [List.map_flatMap]
      simp only [List.length_range, range_block]
    have hlen : bufs.flatten.length = rows.length := by
      have := congrArg List.length hflat
      rw [List.length_map] at this
      simpa only [List.length_map, List.length_range] using this
    have hget : ∀ k (hk : k < bufs.flatten.length), F k = .ok bufs.flatten[k] := by
      intro k hk
      have := congrArg (fun l => l[k]?) hflat
      simp only [List.getElem?_map] at this
      rw [List.getElem?_eq_getElem hk, List.getElem?_eq_getElem (by simp; omega)] at this
      simpa using this.symm
    have hex : ∀ k (hk : k < rows.length), ∃ hd : Header, (∃ r, rcvs[k]? = some r ∧
        mkHeader DH DT ns src r k = .ok hd) ∧ bufs.flatten[k] = traceBytes c hd rows[k] := by
      intro k hk
      have h1 := hget k (by omega)
      rw [hF] at h1
      simp only at h1
      rw [List.getElem?_eq_getElem hk] at h1
      cases hr : rcvs[k]? with
      | none => rw [hr] at h1; cases h1
      | some r =>
        rw [hr] at h1
        simp only at h1
        cases hh : mkHeader DH DT ns src r k with
        | ok hd =>
          rw [hh, Out.bind_ok] at h1
          injection h1 with h1
          exact ⟨hd, ⟨r, rfl, hh⟩, h1.symm⟩
        | err => rw [hh] at h1; cases h1
        | ub => rw [hh] at h1; cases h1
    choose hd hd1 hd2 using hex
    refine ⟨List.ofFn fun k : Fin rows.length => hd k k.2, by simp, ?_, ?_⟩
    · intro k hk
      simp only [List.getElem_ofFn]
      exact hd1 k (by simpa using hk)
    · rw [← h]
      congr 1
      apply List.ext_getElem
      · simp [hlen]
      · intro k h1 h2
        rw [hd2 k (by omega)]
        simp

/-- `writeSU` succeeds when the buffers stay below 2 GB and every header field fits. -/
theorem writeSU_ok {P : Nat} {DH DT : ℚ} {ns : Nat} {src : Coord} {rcvs : List Coord}
    {rows : List (List V)}
    (hsz : ∀ p < P, (blockUb rows.length P p - blockLb rows.length P p) * (240 + 4 * ns) < 2147483648)
    (hh : ∀ k < rows.length, ∃ r hd, rcvs[k]? = some r ∧ mkHeader DH DT ns src r k = .ok hd) :
    ∃ file, writeSU c P DH DT ns src rcvs rows = .ok file := by
  have hex : ∀ p, p < P → ∃ b, localBuffer c DH DT ns src rcvs rows (blockLb rows.length P p)
      (blockUb rows.length P p) = .ok b := by
    intro p hp
    unfold localBuffer
    rw [if_neg (by have := hsz p hp; omega)]
    have hub : blockUb rows.length P p ≤ rows.length := Nat.min_le_left _ _
    have hk : ∀ k, k < rows.length → ∃ x, (match rcvs[k]?, rows[k]? with
        | some r, some row => do
          let h ← mkHeader DH DT ns src r k
          .ok (traceBytes c h row)
        | _, _ => (.ub : Out (List B))) = .ok x := by
      intro k hk
      obtain ⟨r, hd, h1, h2⟩ := hh k hk
      rw [h1, List.getElem?_eq_getElem hk]
      simp only [h2, Out.bind_ok]
      exact ⟨_, rfl⟩
    choose! x hx using hk
    refine ⟨(List.range' (blockLb rows.length P p)
      (blockUb rows.length P p - blockLb rows.length P p)).map x, mapM_eq_ok.mpr ?_⟩
    rw [List.map_map]
    apply List.map_congr_left
    intro k hk
    rw [List.mem_range'_1] at hk
    have := lb_le_ub rows.length P p
    exact hx k (by omega)
  choose! b hb using hex
  have : (List.range P).mapM (fun p => localBuffer c DH DT ns src rcvs rows
      (blockLb rows.length P p) (blockUb rows.length P p)) = .ok ((List.range P).map b) := by
    apply mapM_eq_ok.mpr
    rw [List.map_map]
    apply List.map_congr_left
    intro p hp
    exact hb p (List.mem_range.mp hp)
  unfold writeSU
  rw [this]
  exact ⟨_, rfl⟩

end Verif.SU
