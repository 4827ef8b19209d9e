import Verif.Lemmas.Sim
import Mathlib.Tactic.FieldSimp
/-! The electromagnetic solvers with and without relaxation in parallel. -/
set_option linter.dupNamespace false
set_option linter.unusedSectionVars false

namespace Verif.Solver
open Matrix

variable {ι : Type} [Fintype ι]

theorem Rz.assign' {X Y : List Var} {L : ℕ} {fs : List Fld} {s t : State ι} {d : Var}
    (h : Rz X L fs s t) (hd : ∀ f l, d ≠ .rel f l) {st : Stmt ι}
    (hr : ∀ v ∈ st.reads, v ∈ Shared X) (hw : st.writes = [d])
    (ha : st.after (Shared X) = insert d (Shared X)) (hY : ∀ v ∈ X, v = d ∨ v ∈ Y) :
    Rz Y L fs (st.exec s) (st.exec t) := by
  refine ⟨?_, fun f hf l hl => ?_⟩
  · have h1 := Stmt.exec_agree st h.1 hr
    rw [ha] at h1
    refine h1.mono fun v hv => ?_
    by_cases hvd : v = d
    · exact .inl hvd
    · exact .inr ⟨fun hx => ((hY v hx).resolve_left hvd |> hv.1), hv.2⟩
  · rw [Stmt.exec_frame st s (by rw [hw]; simpa using (hd f l).symm)]
    exact h.2 f hf l hl

/-- `d = D * v` makes `d` shared. -/
theorem Sim.mul {L : ℕ} {fs : List Fld} {X Y : List Var} {d : Var} {f : Fld} (D : Matrix ι ι ℝ)
    (hd : ∀ f l, d ≠ .rel f l) (hf : Var.fld f ∉ X) (hY : ∀ v ∈ X, v = d ∨ v ∈ Y) :
    Sim L fs X Y [.mul d D (.fld f)] [.mul d D (.fld f)] := fun _ _ h =>
  h.assign' (st := .mul d D (.fld f)) hd (by simpa [Stmt.reads, Shared] using hf) rfl rfl hY

theorem Sim.cons {L : ℕ} {fs : List Fld} {X Y Z : List Var} {a b : Stmt ι} {p q : List (Stmt ι)}
    (h : Sim L fs X Y [a] [b]) (h' : Sim L fs Y Z p q) : Sim L fs X Z (a :: p) (b :: q) :=
  Sim.append (p := [a]) (q := [b]) h h'

theorem Sim.weaken {L : ℕ} {fs : List Fld} {X Y : List Var} (h : ∀ v ∈ X, v ∈ Y) :
    Sim (ι := ι) L fs X Y [] [] := fun _ _ hst => hst.weaken h

/-- The relaxation currents stay zero. -/
theorem Rz.rUpdateLoop {m : EMod ι} {fs : List Fld} {s t : State ι} {X : List Var}
    (h : Rz X m.L fs s t) (hX : ∀ f l, Var.rel f l ∉ X) (es : List (Fld × Axis))
    (he : ∀ e ∈ es, e.1 ∈ fs) (ht : ∀ a i, m.tauEps a i = 0) :
    Rz (U :: UT :: X) m.L fs
      (exec (forLoop m.L fun l => es.flatMap fun e => rUpdate m e.1 e.2 l) s) t := by
  refine (h.weaken (Y := U :: UT :: X) (by simp_all)).left ?_ (by simpa using hX)
  suffices Same [U, UT] s (exec (forLoop m.L fun l => es.flatMap fun e => rUpdate m e.1 e.2 l) s)
    from fun v hv => this v (by simp_all)
  refine Same.loop fun l hl s' hs' => Same.flatMap fun e hem s3 hs3 v hv => ?_
  have h0 : s3 (.rel e.1 l) = 0 := by
    rw [hs3 _ (by simp), hs' _ (by simp)]; exact h.2 _ (he e hem) l hl
  have hv1 : v ≠ U := fun x => hv (by simp [x])
  have hv2 : v ≠ UT := fun x => hv (by simp [x])
  funext i
  by_cases h1 : v = .rel e.1 l
  · subst h1; simp [rUpdate, Stmt.exec, State.set, h0, EMod.cd, ht]
  · simp [rUpdate, Stmt.exec, State.set, h1, hv1, hv2]

theorem Rz.rSubtract {m : EMod ι} {fs : List Fld} {s t : State ι} {X : List Var}
    (h : Rz X m.L fs s t) (hX : ∀ f l, Var.rel f l ∉ X) (e : Fld) (he : e ∈ fs) :
    Rz X m.L fs (exec (rSubtract m e) s) t := by
  refine h.left ?_ hX
  have : Same [] s (exec (Solver.rSubtract m e) s) := by
    refine Same.loop fun l hl s' hs' v _ => ?_
    have h0 : s' (.rel e l) = 0 := (hs' _ (by simp)).trans (h.2 e he l hl)
    funext i
    by_cases h1 : v = U
    · subst h1; simp [Stmt.exec, State.set, h0]
    · simp [Stmt.exec, State.set, h1]
  exact fun v _ => this v (by simp)

theorem epsEff_zero (m : EMod ι) (ht : ∀ a i, m.tauEps a i = 0) (hs : ∀ a i, m.tauSig a i = 0)
    (he : ∀ a i, m.epsVac ≤ m.eps a i) (a : Axis) (i : ι) : m.epsEff a i = m.eps a i := by
  unfold EMod.epsEff
  simp only [ht, hs]
  rw [if_neg (by have := he a i; simp only [sub_zero, one_mul, mul_zero, add_zero]; linarith)]
  ring

theorem sigEff_zero (m : EMod ι) (ht : ∀ a i, m.tauEps a i = 0) (a : Axis) (i : ι) :
    m.sigEff a i = m.sig a i := by
  unfold EMod.sigEff
  simp only [ht]
  ring

theorem caV_zero (m : EMod ι) (ht : ∀ a i, m.tauEps a i = 0) (hs : ∀ a i, m.tauSig a i = 0)
    (he : ∀ a i, m.epsVac ≤ m.eps a i) (a : Axis) : m.caV a = m.ca a := by
  funext i
  rw [EMod.caV, EMod.ca, epsEff_zero m ht hs he, sigEff_zero m ht]

theorem cbV_zero (m : EMod ι) (ht : ∀ a i, m.tauEps a i = 0) (hs : ∀ a i, m.tauSig a i = 0)
    (he : ∀ a i, m.epsVac ≤ m.eps a i) (a : Axis) : m.cbV a = m.cb a := by
  funext i
  rw [EMod.cbV, EMod.cb, epsEff_zero m ht hs he, sigEff_zero m ht]

/-- Auxiliary vectors of the electromagnetic solvers. -/
abbrev XE : List Var := [U, UT]

theorem Sim.rSub {m : EMod ι} {fs : List Fld} {X : List Var} (hX : ∀ f l, Var.rel f l ∉ X)
    (e : Fld) (he : e ∈ fs) : Sim m.L fs X X (rSubtract m e) [] := fun _ _ h => h.rSubtract hX e he

theorem Sim.eUpdate {L : ℕ} {fs : List Fld} (e : Fld) (ca cb : ι → ℝ) {X : List Var}
    (hX : X = [] ∨ X = [UT]) :
    Sim L fs X [] (eUpdate e ca cb) (eUpdate e ca cb) := by
  have h1 : Sim (ι := ι) L fs X X [.scale U cb] [.scale U cb] := by
    rcases hX with rfl | rfl <;> sim_shared
  have h2 : Sim (ι := ι) L fs X [] [.wmul UT ca (.fld e)] [.wmul UT ca (.fld e)] := fun _ _ h =>
    h.assign' (d := UT) (st := .wmul UT ca (.fld e)) (by simp)
      (by rcases hX with rfl | rfl <;> simp [Stmt.reads, Shared]) rfl rfl
      (by rcases hX with rfl | rfl <;> simp)
  exact (h1.cons (h2.cons (by sim_shared)))

/-- The update of `eY` in the two EMEM solvers. -/
theorem sim_eY (D : Deriv ι) (m : EMod ι) (c : BC ι) {fs : List Fld} (he : Fld.eY ∈ fs)
    (ca cb : ι → ℝ) :
    Sim m.L fs [] XE
      (List.flatten [[.mul UT D.Dxb (.fld .hZ)], cpmlFull c UT .hZ .x, [.neg U UT],
        rSubtract m .eY, eUpdate .eY ca cb])
      (List.flatten [[.mul U D.Dxb (.fld .hZ)], cpmlFull c U .hZ .x,
        [.scale U cb, .wmul UT ca (.fld .eY), .diff (.fld .eY) UT U]]) := by
  intro s t h
  have hs1 : Rz XE m.L fs (exec (List.flatten [[.mul UT D.Dxb (.fld .hZ)], cpmlFull c UT .hZ .x,
      [.neg U UT]]) s) (exec (List.flatten [[.mul U D.Dxb (.fld .hZ)], cpmlFull c U .hZ .x]) t) ∧
      (∀ i, exec (List.flatten [[.mul UT D.Dxb (.fld .hZ)], cpmlFull c UT .hZ .x,
      [.neg U UT]]) s U i =
        - exec (List.flatten [[.mul U D.Dxb (.fld .hZ)], cpmlFull c U .hZ .x]) t U i) := by
    have hz : s (.fld .hZ) = t (.fld .hZ) := h.1 _ (by simp [Shared])
    have hpsi : s (.psi .hZ .x) = t (.psi .hZ .x) := h.1 _ (by simp [Shared])
    refine ⟨⟨fun v hv => ?_, fun f hf l hl => ?_⟩, fun i => ?_⟩
    · have hv1 : v ≠ U := fun x => hv.1 (by simp [x])
      have hv2 : v ≠ UT := fun x => hv.1 (by simp [x])
      have hvt : s v = t v := h.1 v ⟨by simp, hv.2⟩
      funext i
      unfold cpmlFull
      cases c.pml with
      | none => simp [Stmt.exec, State.set, hv1, hv2, hvt]
      | some q =>
        by_cases h1 : v = .psi .hZ .x
        · subst h1; simp [Stmt.exec, State.set, hz, hpsi]
        · simp [Stmt.exec, State.set, hv1, hv2, hvt, h1]
    · have := h.2 f hf l hl
      unfold cpmlFull
      cases c.pml <;> simp [Stmt.exec, State.set, this]
    · unfold cpmlFull
      cases c.pml <;> simp [Stmt.exec, State.set, hz, hpsi]
  obtain ⟨h1, h2⟩ := hs1
  rw [show List.flatten [[Stmt.mul UT D.Dxb (.fld .hZ)], cpmlFull c UT .hZ .x, [.neg U UT],
      rSubtract m .eY, eUpdate .eY ca cb] = List.flatten [[Stmt.mul UT D.Dxb (.fld .hZ)],
      cpmlFull c UT .hZ .x, [.neg U UT]] ++ (rSubtract m .eY ++ eUpdate .eY ca cb) by simp,
    show List.flatten [[.mul U D.Dxb (.fld .hZ)], cpmlFull c U .hZ .x,
        [.scale U cb, .wmul UT ca (.fld .eY), .diff (.fld .eY) UT U]] =
      List.flatten [[.mul U D.Dxb (.fld .hZ)], cpmlFull c U .hZ .x] ++
        [.scale U cb, .wmul UT ca (.fld .eY), .diff (.fld .eY) UT U] by simp,
    exec_append, exec_append, exec_append]
  generalize exec (List.flatten [[Stmt.mul UT D.Dxb (.fld .hZ)], cpmlFull c UT .hZ .x,
    [.neg U UT]]) s = s1 at *
  generalize exec (List.flatten [[Stmt.mul U D.Dxb (.fld .hZ)], cpmlFull c U .hZ .x]) t = t1 at *
  have hsub : Same [] s1 (exec (rSubtract m .eY) s1) := by
    refine Same.loop fun l hl s' hs' v _ => ?_
    have h0 : s' (.rel .eY l) = 0 := (hs' _ (by simp)).trans (h1.2 _ he l hl)
    funext i
    by_cases h1 : v = U
    · subst h1; simp [Stmt.exec, State.set, h0]
    · simp [Stmt.exec, State.set, h1]
  have heq : exec (rSubtract m .eY) s1 = s1 := funext fun v => hsub v (by simp)
  rw [heq]
  have hey : s1 (.fld .eY) = t1 (.fld .eY) := h1.1 _ (by simp [Shared])
  refine ⟨fun v hv => ?_, fun f hf l hl => ?_⟩
  · have hv1 : v ≠ U := fun x => hv.1 (by simp [x])
    have hv2 : v ≠ UT := fun x => hv.1 (by simp [x])
    have hvt : s1 v = t1 v := h1.1 v hv
    funext i
    by_cases h3 : v = .fld .eY
    · subst h3
      simp [eUpdate, Stmt.exec, State.set, h2, hey]
      ring
    · simp [eUpdate, Stmt.exec, State.set, h3, hv1, hv2, hvt]
  · simpa [eUpdate, Stmt.exec, State.set] using h1.2 f hf l hl

theorem sim_viscoemem2D (D : Deriv ι) (m : EMod ι) (c : BC ι) (ht : ∀ a i, m.tauEps a i = 0)
    (hs : ∀ a i, m.tauSig a i = 0) (he : ∀ a i, m.epsVac ≤ m.eps a i) :
    Sim m.L [.eX, .eY] XE XE (viscoemem2D D m c) (emem2D D m c) := by
  have e1 : viscoemem2D D m c = List.flatten [
      [.mul U D.Dxf (.fld .eY), .mul UT D.Dyf (.fld .eX)],
      cpmlHalf c U .eY .x, cpmlHalf c UT .eX .y,
      [.sub U UT, .scale U m.invMuXY, .sub (.fld .hZ) U],
      forLoop m.L (fun l => [(Fld.eX, Axis.x), (.eY, .y)].flatMap fun e => rUpdate m e.1 e.2 l),
      [.mul U D.DybSX (.fld .hZ)], cpmlFull c U .hZ .y, rSubtract m .eX,
      eUpdate .eX (m.ca .x) (m.cb .x),
      List.flatten [[.mul UT D.Dxb (.fld .hZ)], cpmlFull c UT .hZ .x, [.neg U UT], rSubtract m .eY,
        eUpdate .eY (m.ca .y) (m.cb .y)],
      damp c [.eY, .eX, .hZ]] := by
    unfold viscoemem2D
    rw [caV_zero m ht hs he, caV_zero m ht hs he, cbV_zero m ht hs he, cbV_zero m ht hs he]
    simp
  have e2 : emem2D D m c = List.flatten [
      [.mul U D.Dxf (.fld .eY), .mul UT D.Dyf (.fld .eX)],
      cpmlHalf c U .eY .x, cpmlHalf c UT .eX .y,
      [.sub U UT, .scale U m.invMuXY, .sub (.fld .hZ) U],
      [],
      [.mul U D.DybSX (.fld .hZ)], cpmlFull c U .hZ .y, [], eUpdate .eX (m.ca .x) (m.cb .x),
      List.flatten [[.mul U D.Dxb (.fld .hZ)], cpmlFull c U .hZ .x,
      [.scale U (m.cb .y), .wmul UT (m.ca .y) (.fld .eY), .diff (.fld .eY) UT U]],
      damp c [.eY, .eX, .hZ]] := by
    simp [emem2D]
  rw [e1, e2]
  refine Sim.fcons (Y := []) ((Sim.mul (Y := [UT]) _ (by simp) (by simp) (by simp)).cons
    (Sim.mul _ (by simp) (by simp) (by simp))) ?_
  iterate 3 sim_step
  refine Sim.fcons (fun s t h => h.rUpdateLoop (by simp) _ (by simp) ht) ?_
  refine Sim.fcons (Sim.mul (Y := [UT]) _ (by simp) (by simp) (by simp)) ?_
  sim_step
  refine Sim.fcons (Sim.rSub (by simp) _ (by simp)) ?_
  refine Sim.fcons (Sim.eUpdate _ _ _ (by simp)) ?_
  refine Sim.fcons (sim_eY D m c (by simp) _ _) ?_
  sim_step
  exact .fnil

theorem sim_viscotmem2D (D : Deriv ι) (m : EMod ι) (c : BC ι) (ht : ∀ a i, m.tauEps a i = 0)
    (hs : ∀ a i, m.tauSig a i = 0) (he : ∀ a i, m.epsVac ≤ m.eps a i) :
    Sim m.L [.eZ] XE XE (viscotmem2D D m c) (tmem2D D m c) := by
  have e1 : viscotmem2D D m c = List.flatten [
      [.mul U D.Dyf (.fld .eZ)], cpmlHalf c U .eZ .y, [.scale U m.invMuYZ, .sub (.fld .hX) U],
      [.mul UT D.Dxf (.fld .eZ)], cpmlHalf c UT .eZ .x,
      [.neg U UT, .scale U m.invMuXZ, .sub (.fld .hY) U],
      forLoop m.L (fun l => [(Fld.eZ, Axis.z)].flatMap fun e => rUpdate m e.1 e.2 l),
      [.mul U D.Dxb (.fld .hY), .mul UT D.Dyb (.fld .hX)], cpmlFull c U .hY .x,
      cpmlFull c UT .hX .y,
      [.sub U UT], rSubtract m .eZ, eUpdate .eZ (m.ca .z) (m.cb .z), [],
      damp c [.eZ, .hX, .hY]] := by
    unfold viscotmem2D
    rw [caV_zero m ht hs he, cbV_zero m ht hs he]
    simp
  have e2 : tmem2D D m c = List.flatten [
      [.mul U D.Dyf (.fld .eZ)], cpmlHalf c U .eZ .y, [.scale U m.invMuYZ, .sub (.fld .hX) U],
      [.mul UT D.Dxf (.fld .eZ)], cpmlHalf c UT .eZ .x,
      [.neg U UT, .scale U m.invMuXZ, .sub (.fld .hY) U], [],
      [.mul U D.Dxb (.fld .hY), .mul UT D.Dyb (.fld .hX)], cpmlFull c U .hY .x,
      cpmlFull c UT .hX .y,
      [.sub U UT], [], eUpdate .eZ (m.ca .z) (m.cb .z), [],
      damp c [.eZ, .hX, .hY]] := by
    simp [tmem2D]
  rw [e1, e2]
  refine Sim.fcons (Sim.mul (Y := [UT]) _ (by simp) (by simp) (by simp)) ?_
  iterate 2 sim_step
  refine Sim.fcons (Sim.mul (Y := []) _ (by simp) (by simp) (by simp)) ?_
  iterate 2 sim_step
  refine Sim.fcons (fun s t h => h.rUpdateLoop (by simp) _ (by simp) ht) ?_
  refine Sim.fcons (Y := []) ((Sim.mul (Y := [UT]) _ (by simp) (by simp) (by simp)).cons
    (Sim.mul _ (by simp) (by simp) (by simp))) ?_
  iterate 3 sim_step
  refine Sim.fcons (Sim.rSub (by simp) _ (by simp)) ?_
  refine Sim.fcons (Sim.eUpdate _ _ _ (by simp)) ?_
  refine Sim.fcons (Sim.weaken (Y := XE) (by simp)) ?_
  sim_step
  exact .fnil

theorem sim_viscoemem3D (D : Deriv ι) (m : EMod ι) (c : BC ι) (ht : ∀ a i, m.tauEps a i = 0)
    (hs : ∀ a i, m.tauSig a i = 0) (he : ∀ a i, m.epsVac ≤ m.eps a i) :
    Sim m.L [.eX, .eY, .eZ] XE XE (viscoemem3D D m c) (emem3D D m c) := by
  have e1 : viscoemem3D D m c = List.flatten [
      magnetic3D D m c,
      forLoop m.L (fun l => [(Fld.eX, Axis.x), (.eY, .y), (.eZ, .z)].flatMap
        fun e => rUpdate m e.1 e.2 l),
      [.mul U D.DybSX (.fld .hZ), .mul UT D.Dzb (.fld .hY)],
      cpmlFull c U .hZ .y, cpmlFull c UT .hY .z,
      [.sub U UT], rSubtract m .eX, eUpdate .eX (m.ca .x) (m.cb .x),
      [.mul U D.Dzb (.fld .hX), .mul UT D.Dxb (.fld .hZ)],
      cpmlFull c U .hX .z, cpmlFull c UT .hZ .x,
      [.sub U UT], rSubtract m .eY, eUpdate .eY (m.ca .y) (m.cb .y),
      [.mul U D.Dxb (.fld .hY), .mul UT D.DybSZ (.fld .hX)],
      cpmlHalf c U .hY .x, cpmlFull c UT .hX .y,
      [.sub U UT], rSubtract m .eZ, eUpdate .eZ (m.ca .z) (m.cb .z), [],
      damp c [.eZ, .eY, .eX, .hX, .hY, .hZ]] := by
    unfold viscoemem3D
    rw [caV_zero m ht hs he, caV_zero m ht hs he, caV_zero m ht hs he, cbV_zero m ht hs he,
      cbV_zero m ht hs he, cbV_zero m ht hs he]
    simp
  have e2 : emem3D D m c = List.flatten [
      magnetic3D D m c, [],
      [.mul U D.DybSX (.fld .hZ), .mul UT D.Dzb (.fld .hY)],
      cpmlFull c U .hZ .y, cpmlFull c UT .hY .z,
      [.sub U UT], [], eUpdate .eX (m.ca .x) (m.cb .x),
      [.mul U D.Dzb (.fld .hX), .mul UT D.Dxb (.fld .hZ)],
      cpmlFull c U .hX .z, cpmlFull c UT .hZ .x,
      [.sub U UT], [], eUpdate .eY (m.ca .y) (m.cb .y),
      [.mul U D.Dxb (.fld .hY), .mul UT D.DybSZ (.fld .hX)],
      cpmlHalf c U .hY .x, cpmlFull c UT .hX .y,
      [.sub U UT], [], eUpdate .eZ (m.ca .z) (m.cb .z), [],
      damp c [.eZ, .eY, .eX, .hX, .hY, .hZ]] := by
    simp [emem3D]
  rw [e1, e2]
  refine Sim.fcons (Y := []) ?_ ?_
  · unfold magnetic3D
    refine Sim.fcons (Y := []) ((Sim.mul (Y := [UT]) _ (by simp) (by simp) (by simp)).cons
      (Sim.mul _ (by simp) (by simp) (by simp))) ?_
    iterate 11 sim_step
    exact .fnil
  refine Sim.fcons (fun s t h => h.rUpdateLoop (by simp) _ (by simp) ht) ?_
  refine Sim.fcons (Y := []) ((Sim.mul (Y := [UT]) _ (by simp) (by simp) (by simp)).cons
    (Sim.mul _ (by simp) (by simp) (by simp))) ?_
  iterate 3 sim_step
  refine Sim.fcons (Sim.rSub (by simp) _ (by simp)) ?_
  refine Sim.fcons (Sim.eUpdate _ _ _ (by simp)) ?_
  iterate 4 sim_step
  refine Sim.fcons (Sim.rSub (by simp) _ (by simp)) ?_
  refine Sim.fcons (Sim.eUpdate _ _ _ (by simp)) ?_
  iterate 4 sim_step
  refine Sim.fcons (Sim.rSub (by simp) _ (by simp)) ?_
  refine Sim.fcons (Sim.eUpdate _ _ _ (by simp)) ?_
  refine Sim.fcons (Sim.weaken (Y := XE) (by simp)) ?_
  sim_step
  exact .fnil

end Verif.Solver
