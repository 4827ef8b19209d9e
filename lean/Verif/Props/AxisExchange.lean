import Verif.Lemmas.AxisExchange
import Verif.Model.RegularPML
import Verif.Lemmas.UnitEM

/-!
# C107: exchanging two axes
-/
set_option linter.dupNamespace false

namespace Verif.Solver
open Matrix

variable {NX NY NZ : ℕ}

private theorem fwd_xz (s : Int) (DT DH : ℝ) (a : Axis) (i j : Pt NZ NY NX) :
    forwardMatrix s DT DH a i j =
      forwardMatrix s DT DH (Exch.xz.axis a) (ptXZ NX NY NZ i) (ptXZ NX NY NZ j) := by
  obtain ⟨i1, i2, i3⟩ := i
  obtain ⟨j1, j2, j3⟩ := j
  cases a <;>
    simp only [forwardMatrix, moveTo, along, ptXZ, Exch.axis, Equiv.coe_fn_mk, Prod.mk.injEq, axisSize] <;>
    refine if_congr (by tauto) rfl rfl

private theorem fwd_xy (s : Int) (DT DH : ℝ) (a : Axis) (i j : Pt NY NX NZ) :
    forwardMatrix s DT DH a i j =
      forwardMatrix s DT DH (Exch.xy.axis a) (ptXY NX NY NZ i) (ptXY NX NY NZ j) := by
  obtain ⟨i1, i2, i3⟩ := i
  obtain ⟨j1, j2, j3⟩ := j
  cases a <;>
    simp only [forwardMatrix, moveTo, along, ptXY, Exch.axis, Equiv.coe_fn_mk, Prod.mk.injEq, axisSize] <;>
    refine if_congr (by tauto) rfl rfl

theorem deriv_xz (s : Int) (DT DH : ℝ) :
    DerivExch .xz (ptXZ NX NY NZ) (surfaceDeriv NZ NY NX s DT DH) (surfaceDeriv NX NY NZ s DT DH) where
  plain' := ⟨rfl, rfl, rfl, rfl⟩
  plain := ⟨rfl, rfl, rfl, rfl⟩
  staggered' := ⟨rfl, rfl, rfl, rfl, rfl, rfl⟩
  staggered := ⟨rfl, rfl, rfl, rfl, rfl, rfl⟩
  fwd a i j := by cases a <;> exact fwd_xz s DT DH _ i j
  bwd a i j := by cases a <;> exact congrArg Neg.neg (fwd_xz s DT DH _ j i)
  surface _ i j := by
    obtain ⟨i1, i2, i3⟩ := i
    obtain ⟨j1, j2, j3⟩ := j
    constructor <;>
      simp only [surfaceDeriv, surfaceForward, surfaceBackward, moveTo, along, ptXZ, Equiv.coe_fn_mk,
        Prod.mk.injEq] <;>
      refine if_congr (by tauto) rfl rfl

theorem deriv_xy (s : Int) (DT DH : ℝ) :
    DerivExch .xy (ptXY NX NY NZ) (surfaceDeriv NY NX NZ s DT DH) (surfaceDeriv NX NY NZ s DT DH) where
  plain' := ⟨rfl, rfl, rfl, rfl⟩
  plain := ⟨rfl, rfl, rfl, rfl⟩
  staggered' := ⟨rfl, rfl, rfl, rfl, rfl, rfl⟩
  staggered := ⟨rfl, rfl, rfl, rfl, rfl, rfl⟩
  fwd a i j := by cases a <;> exact fwd_xy s DT DH _ i j
  bwd a i j := by cases a <;> exact congrArg Neg.neg (fwd_xy s DT DH _ j i)
  surface h := by simp at h

/-- C107: the axes `x` and `z` of a three-dimensional set-up (grid, model, boundaries, sources,
receivers) can be exchanged, also with a free surface at the top; all seismograms stay the same.
`partial`: not for attenuating media, magnetic sources and receivers, and the 3D electromagnetic solver
only without CPML. -/
theorem C107_exchange_xz_partial (s : Int) (DT DH : ℝ) (c : BC (Pt NX NY NZ))
    {S' : Solver (Pt NZ NY NX)} {S : Solver (Pt NX NY NZ)}
    (hS : ExchPair .xz (ptXZ NX NY NZ) (surfaceDeriv NZ NY NX s DT DH) (surfaceDeriv NX NY NZ s DT DH) c S' S)
    {s0' : State (Pt NZ NY NX)} {s0 : State (Pt NX NY NZ)} (h' : ∀ v ∈ S'.fields ++ S'.memory, s0' v = 0)
    (h : ∀ v ∈ S.fields ++ S.memory, s0 v = 0) (srcs : List (Source (Pt NX NY NZ)))
    (hq : ∀ q ∈ srcs, q.ty ≠ .HZ) (ty : SType) (hty : ty ≠ .HZ) (pos : Pt NX NY NZ) (t : ℕ) :
    sample S' (srcs.map fun q => ⟨Exch.xz.stype q.ty, (q.pos.2.2, q.pos.2.1, q.pos.1), q.signal⟩) s0'
      ⟨Exch.xz.stype ty, (pos.2.2, pos.2.1, pos.1)⟩ t = sample S srcs s0 ⟨ty, pos⟩ t := by
  have := hS.sample_eq (deriv_xz s DT DH) (by simp) h' h (srcs := srcs) (r := ⟨ty, pos⟩) (fun _ => hq)
    (fun _ => hty) t
  have e1 : Exch.tsign ty = 1 := by cases ty <;> simp_all [Exch.tsign]
  rw [e1, one_mul] at this
  rw [← this]
  have e2 : srcs.map (((Exch.xz).relabel (ptXZ NX NY NZ)).source Exch.xz.stype Exch.tsign) =
      srcs.map fun q => ⟨Exch.xz.stype q.ty, (q.pos.2.2, q.pos.2.1, q.pos.1), q.signal⟩ := by
    refine List.map_congr_left fun q hm => ?_
    have e1 : Exch.tsign q.ty = 1 := by
      have := hq q hm
      cases h : q.ty <;> simp_all [Exch.tsign]
    simp only [Relabel.source, e1, one_mul]
    rfl
  rw [e2]
  rfl

/-- C107: the axes `x` and `y` can be exchanged if there is no free surface condition; seismograms stay
the same, magnetic sources and receivers change their sign. -/
theorem C107_exchange_xy_partial (s : Int) (DT DH : ℝ) (c : BC (Pt NX NY NZ)) (hc : c.useFreeSurface ≠ 1)
    {S' : Solver (Pt NY NX NZ)} {S : Solver (Pt NX NY NZ)}
    (hS : ExchPair .xy (ptXY NX NY NZ) (surfaceDeriv NY NX NZ s DT DH) (surfaceDeriv NX NY NZ s DT DH) c S' S)
    {s0' : State (Pt NY NX NZ)} {s0 : State (Pt NX NY NZ)} (h' : ∀ v ∈ S'.fields ++ S'.memory, s0' v = 0)
    (h : ∀ v ∈ S.fields ++ S.memory, s0 v = 0) (srcs : List (Source (Pt NX NY NZ)))
    (ty : SType) (pos : Pt NX NY NZ) (t : ℕ) :
    sample S' (srcs.map fun q => ⟨Exch.xy.stype q.ty, (q.pos.2.1, q.pos.1, q.pos.2.2),
        fun n => (if q.ty = .HZ then -1 else 1) * q.signal n⟩) s0'
      ⟨Exch.xy.stype ty, (pos.2.1, pos.1, pos.2.2)⟩ t =
      (if ty = .HZ then -1 else 1) * sample S srcs s0 ⟨ty, pos⟩ t := by
  have hsign : ∀ ty, Exch.tsign ty = if ty = .HZ then -1 else 1 := by
    intro ty
    cases ty <;> simp [Exch.tsign]
  have := hS.sample_eq (deriv_xy s DT DH) (fun _ => hc) h' h (srcs := srcs) (r := ⟨ty, pos⟩) (by simp)
    (by simp) t
  rw [hsign] at this
  rw [← this]
  have e2 : srcs.map (((Exch.xy).relabel (ptXY NX NY NZ)).source Exch.xy.stype Exch.tsign) =
      srcs.map fun q => ⟨Exch.xy.stype q.ty, (q.pos.2.1, q.pos.1, q.pos.2.2),
        fun n => (if q.ty = .HZ then -1 else 1) * q.signal n⟩ := by
    refine List.map_congr_left fun q _ => ?_
    simp only [Relabel.source, hsign]
    rfl
  rw [e2]
  rfl

/-- C107: the CPML coefficients that the code computes for the exchanged grid are the exchanged ones. -/
theorem C107_cpml_xz (q : Boundary.CPMLPar) (W fs : ℕ) :
    (Exch.xz.bc (ptXZ NX NY NZ) ⟨fs, none, some (regularPML q W fs true), fun _ => false⟩).pml =
      some (regularPML q W fs true : PML (Pt NZ NY NX)) := by
  simp only [Exch.bc, Option.map_some, Option.some.injEq]
  have key : ∀ a (i : Pt NZ NY NX), regularCoef q W fs true (Exch.xz.axis a) (ptXZ NX NY NZ i) =
      regularCoef q W fs true a i := by
    intro a i
    cases a <;> rfl
  simp only [regularPML, Function.comp_def, key]

/-- C107: the same for the axes `x` and `y` without free surface. -/
theorem C107_cpml_xy (q : Boundary.CPMLPar) (W : ℕ) (three : Bool) :
    (Exch.xy.bc (ptXY NX NY NZ) ⟨0, none, some (regularPML q W 0 three), fun _ => false⟩).pml =
      some (regularPML q W 0 three : PML (Pt NY NX NZ)) := by
  simp only [Exch.bc, Option.map_some, Option.some.injEq]
  have key : ∀ a (i : Pt NY NX NZ), regularCoef q W 0 three (Exch.xy.axis a) (ptXY NX NY NZ i) =
      regularCoef q W 0 three a i := by
    intro a i
    cases a <;> simp [regularCoef, Exch.axis, along, axisSize, ptXY]
  simp only [regularPML, Function.comp_def, key]

/-! ## Concrete cases -/

/-- An elastic model on a `2 × 3 × 4` grid whose parameters differ from point to point. -/
private noncomputable def exMod : Mod (Pt 2 3 4) :=
  ⟨fun i => 1 + i.1.val, fun i => 2 + i.1.val, fun i => 3 + i.2.1.val, fun i => 4 + i.2.2.val, fun i => 9 + i.1.val,
    fun i => 1 + i.2.1.val, fun _ => 1, fun _ => 2, fun i => 3 + i.2.2.val, 0, 0, 0, 0, 0, 0, fun _ => 1, 1⟩

/-- Free surface (image method) and CPML. -/
private noncomputable def exTop : BC (Pt 2 3 4) :=
  ⟨1, none, some (regularPML ⟨4, 10, 3, 1, 1⟩ 1 1 true), fun i => i.2.1.val == 0⟩

example (t : ℕ) :
    sample (elastic3DSolver (surfaceDeriv 4 3 2 4 1 1) (Exch.xz.mod (ptXZ 2 3 4) exMod) (Exch.xz.bc (ptXZ 2 3 4) exTop))
      [⟨.VZ, (3, 1, 0), fun n => n⟩, ⟨.P, (2, 2, 1), fun _ => 1⟩] (fun _ => 0) ⟨.VX, (1, 0, 1)⟩ t =
    sample (elastic3DSolver (surfaceDeriv 2 3 4 4 1 1) exMod exTop)
      [⟨.VX, (0, 1, 3), fun n => n⟩, ⟨.P, (1, 2, 2), fun _ => 1⟩] (fun _ => 0) ⟨.VZ, (1, 0, 1)⟩ t :=
  C107_exchange_xz_partial 4 1 1 exTop (ExchPair.elastic3D exMod) (fun _ _ => rfl) (fun _ _ => rfl)
    [⟨.VX, (0, 1, 3), fun n => n⟩, ⟨.P, (1, 2, 2), fun _ => 1⟩] (by simp) .VZ (by simp) (1, 0, 1) t

/-- Transverse magnetic waves: the magnetic receiver changes its sign. -/
example (m : EMod (Pt 5 3 1)) (c : BC (Pt 5 3 1)) (hc : c.useFreeSurface = 0) (t : ℕ) :
    sample (emem2DSolver (surfaceDeriv 3 5 1 2 1 1) (Exch.xy.emod (ptXY 5 3 1) m) (Exch.xy.bc (ptXY 5 3 1) c))
      [⟨.EY, (1, 4, 0), fun n => 1 * (n : ℝ)⟩] (fun _ => 0) ⟨.HZ, (2, 0, 0)⟩ t =
    -1 * sample (emem2DSolver (surfaceDeriv 5 3 1 2 1 1) m c)
      [⟨.EX, (4, 1, 0), fun n => (n : ℝ)⟩] (fun _ => 0) ⟨.HZ, (0, 2, 0)⟩ t :=
  C107_exchange_xy_partial 2 1 1 c (by simp [hc]) (ExchPair.emem2D m rfl) (fun _ _ => rfl) (fun _ _ => rfl)
    [⟨.EX, (4, 1, 0), fun n => (n : ℝ)⟩] .HZ (0, 2, 0) t

/-! ## The 3D electromagnetic solver with CPML is not symmetric -/

open Verif.Boundary in
/-- C107: the 3D electromagnetic solver with CPML does distinguish the axes `x` and `z`.  Exchanging them
maps the grid, the isotropic medium and the CPML of this set-up to themselves; but a vertical pulse
recorded at its place differs from a pulse along `x`, for every CPML frequency: the update of the
field along `z` uses the coefficients of the half points for its derivative along `x`
(CPMLEM3D.cpp:67-70 `apply_hyx`), all other electric updates those of the full points. -/
theorem C107_em3D_cpml_violated (fc : ℝ) (hfc : 0 ≤ fc) :
    let S := emem3DSolver (surfaceDeriv 1 1 1 2 1 1) unitEMod (unitBC fc)
    let pulse : ℕ → ℝ := fun n => if n = 0 then 1 else 0
    Exch.xz.emod (ptXZ 1 1 1) unitEMod = unitEMod ∧ (Exch.xz.bc (ptXZ 1 1 1) (unitBC fc)) = unitBC fc ∧
    sample S [⟨.EZ, (0, 0, 0), pulse⟩] (fun _ => 0) ⟨.EZ, (0, 0, 0)⟩ 1 ≠
      sample S [⟨.EX, (0, 0, 0), pulse⟩] (fun _ => 0) ⟨.EX, (0, 0, 0)⟩ 1 := by
  intro S pulse
  refine ⟨rfl, ?_, ?_⟩
  · have h := C107_cpml_xz (NX := 1) (NY := 1) (NZ := 1) (unitPar fc) 1 0
    have e : Exch.xz.bc (ptXZ 1 1 1) (unitBC fc) =
        ⟨0, none, (Exch.xz.bc (ptXZ 1 1 1) (unitBC fc)).pml, fun _ => false⟩ := rfl
    rw [e]
    unfold unitBC
    rw [h]
  · have z : exec S.prog (fun _ => 0) = fun _ => 0 := by
      have : exec S.prog 0 = 0 := by simpa using exec_lin S.prog 0 0 (0 : State (Pt 1 1 1)) 0
      exact this
    have gen : ∀ (ty : SType) (f : Fld), src3Demem ty = some [f] →
        sample S [⟨ty, (0, 0, 0), pulse⟩] (fun _ => 0) ⟨ty, (0, 0, 0)⟩ 1 =
          exec S.prog (fun v => if v = .fld f then fun _ => 1 else 0) (.fld f) 0 := by
      intro ty f hf
      have hs : ∀ t s, applySource S [⟨ty, (0, 0, 0), pulse⟩] t s =
          fun v => if v = .fld f then fun i => s v i + pulse t else s v := by
        intro t s
        funext v
        have hm : ∀ g, g ∈ S.srcFlds ty ↔ g = f := by
          intro g
          simp [Solver.srcFlds, S, emem3DSolver, hf]
        have hp : ∀ i : Pt 1 1 1, ((0, 0, 0) : Pt 1 1 1) = i := fun i => Subsingleton.elim _ _
        cases v with
        | fld g =>
          funext i
          simp only [applySource, hm, List.map_cons, List.map_nil, List.sum_cons, List.sum_nil, add_zero,
            Var.fld.injEq]
          by_cases h : g = f
          · rw [if_pos ⟨h, hp i⟩, if_pos h]
          · rw [if_neg fun h' => h h'.1, if_neg h, add_zero]
        | _ => simp [applySource]
      have hg : ∀ s : State (Pt 1 1 1), gather S ⟨ty, (0, 0, 0)⟩ s = s (.fld f) 0 := by
        intro s
        simp [gather, S, emem3DSolver, single, hf]
        rfl
      rw [sample, hg, run, step, run, step, run, z, hs, hs]
      simp only [if_true, pulse, one_ne_zero, if_false, add_zero]
      congr 2
      funext v
      split_ifs <;> simp
    rw [gen .EZ .eZ rfl, gen .EX .eX rfl]
    have h1 := (unit_step fc (fun v => if v = .fld .eZ then fun _ => 1 else 0) (by simp) (by simp) (by simp)
      (by simp) 0 1 (by simp) (by simp) (by simp)).2
    have h2 := (unit_step fc (fun v => if v = .fld .eX then fun _ => 1 else 0) (by simp) (by simp) (by simp)
      (by simp) 1 0 (by simp) (by simp) (by simp)).1
    have hc := unit_coef_lt fc hfc
    intro h
    have h3 := h1.symm.trans (h.trans h2)
    nlinarith [mul_pos (sub_pos.2 hc.1) (show 0 < 1 + cpmlA (unitPar fc) 1 0 true by linarith [hc.2])]

end Verif.Solver
