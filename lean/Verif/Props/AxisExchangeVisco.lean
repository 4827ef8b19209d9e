import Verif.Props.AxisExchange
import Verif.Lemmas.AxisExchangeRS
import Verif.Lemmas.MaxwellLaws

/-!
# C107: exchanging two axes in attenuating media
-/
set_option linter.dupNamespace false

namespace Verif.Solver
open Matrix Recip

/-- The six attenuating solvers for an exchanged set-up and for the set-up itself. -/
inductive ViscoPair {ι ι' : Type} [Fintype ι] [Fintype ι'] (k : Exch) (e : ι' ≃ ι) (D' : Deriv ι') (D : Deriv ι)
    (c : BC ι) : Solver ι' → Solver ι → Prop
  | viscosh2D (m : Mod ι) (hk : k = .xy) (hc : c.useFreeSurface ≠ 1) :
      ViscoPair k e D' D c (viscosh2DSolver D' (k.mod e m) (k.bc e c)) (viscosh2DSolver D m c)
  | viscoelastic2D (m : Mod ι) (hk : k = .xy) (hc : c.useFreeSurface = 0) :
      ViscoPair k e D' D c (viscoelastic2DSolver D' (k.mod e m) (k.bc e c)) (viscoelastic2DSolver D m c)
  | viscoelastic3D (m : Mod ι) (hc : c.useFreeSurface ≠ 1) :
      ViscoPair k e D' D c (viscoelastic3DSolver D' (k.mod e m) (k.bc e c)) (viscoelastic3DSolver D m c)
  | viscoemem2D (m : EMod ι) (hk : k = .xy) :
      ViscoPair k e D' D c (viscoemem2DSolver D' (k.emod e m) (k.bc e c)) (viscoemem2DSolver D m c)
  | viscotmem2D (m : EMod ι) (hk : k = .xy) :
      ViscoPair k e D' D c (viscotmem2DSolver D' (k.emod e m) (k.bc e c)) (viscotmem2DSolver D m c)
  | viscoemem3D (m : EMod ι) (hp : c.pml = none) :
      ViscoPair k e D' D c (viscoemem3DSolver D' (k.emod e m) (k.bc e c)) (viscoemem3DSolver D m c)

private theorem pair_sample {ι ι' : Type} [Fintype ι] [Fintype ι'] [DecidableEq ι] [DecidableEq ι'] {k : Exch}
    {e : ι' ≃ ι} {D' : Deriv ι'} {D : Deriv ι} {c : BC ι} {S' : Solver ι'} {S : Solver ι}
    (hS : ViscoPair k e D' D c S' S) (hx : DerivExch k e D' D) (hD' : D'.regular) (hD : D.regular)
    {s' : State ι'} {s : State ι} (hs' : ∀ v ∈ S'.fields ++ S'.memory, s' v = 0)
    (hs0 : ∀ v ∈ S.fields ++ S.memory, s v = 0) {srcs : List (Source ι)} {r : Receiver ι}
    (hq : k = .xz → ∀ q ∈ srcs, q.ty ≠ .HZ) (hr : k = .xz → r.ty ≠ .HZ) (t : ℕ) :
    sample S' (srcs.map ((k.relabel e).source k.stype Exch.tsign)) s' ((k.relabel e).receiver k.stype r) t =
      Exch.tsign r.ty * sample S srcs s r t := by
  cases hS with
  | viscosh2D m hk hc => subst hk; exact (viscosh2D_facts hx hD' hD m c hc).sample_eq hs' hs0 hq hr t
  | viscoelastic2D m hk hc => subst hk; exact (viscoelastic2D_facts hx hD' hD m c hc).sample_eq hs' hs0 hq hr t
  | viscoemem2D m hk => subst hk; exact (viscoemem2D_facts hx hD' hD m c).sample_eq hs' hs0 hq hr t
  | viscotmem2D m hk => subst hk; exact (viscotmem2D_facts hx hD' hD m c).sample_eq hs' hs0 hq hr t
  | viscoelastic3D m hc =>
    cases k
    · exact (viscoelastic3D_facts_xz hx hD' hD m c hc).sample_eq hs' hs0 hq hr t
    · exact (viscoelastic3D_facts_xy hx hD' hD m c hc).sample_eq hs' hs0 hq hr t
  | viscoemem3D m hp =>
    cases k
    · exact (viscoemem3D_facts_xz hx hD' hD m c hp).sample_eq hs' hs0 hq hr t
    · exact (viscoemem3D_facts_xy hx hD' hD m c hp).sample_eq hs' hs0 hq hr t

variable {NX NY NZ : ℕ}

/-- C107 in attenuating media, with any number of relaxation mechanisms: the axes `x` and `z` of a
three-dimensional set-up can be exchanged; all seismograms stay the same.
`partial`: not below a free surface; the 3D electromagnetic solver only without CPML. -/
theorem C107_visco_xz_partial (s : Int) (DT DH : ℝ) (c : BC (Pt NX NY NZ))
    {S' : Solver (Pt NZ NY NX)} {S : Solver (Pt NX NY NZ)}
    (hS : ViscoPair .xz (ptXZ NX NY NZ) (surfaceDeriv NZ NY NX s DT DH) (surfaceDeriv NX NY NZ s DT DH) c S' S)
    {s0' : State (Pt NZ NY NX)} {s0 : State (Pt NX NY NZ)} (h' : ∀ v ∈ S'.fields ++ S'.memory, s0' v = 0)
    (h : ∀ v ∈ S.fields ++ S.memory, s0 v = 0) (srcs : List (Source (Pt NX NY NZ)))
    (hq : ∀ q ∈ srcs, q.ty ≠ .HZ) (ty : SType) (hty : ty ≠ .HZ) (pos : Pt NX NY NZ) (t : ℕ) :
    sample S' (srcs.map fun q => ⟨Exch.xz.stype q.ty, (q.pos.2.2, q.pos.2.1, q.pos.1), q.signal⟩) s0'
      ⟨Exch.xz.stype ty, (pos.2.2, pos.2.1, pos.1)⟩ t = sample S srcs s0 ⟨ty, pos⟩ t := by
  have := pair_sample hS (deriv_xz s DT DH) surfaceDeriv_regular surfaceDeriv_regular h' h (srcs := srcs)
    (r := ⟨ty, pos⟩) (fun _ => hq) (fun _ => hty) t
  have e1 : Exch.tsign ty = 1 := by cases ty <;> simp_all [Exch.tsign]
  rw [e1, one_mul] at this
  rw [← this]
  have e2 : srcs.map (((Exch.xz).relabel (ptXZ NX NY NZ)).source Exch.xz.stype Exch.tsign) =
      srcs.map fun q => ⟨Exch.xz.stype q.ty, (q.pos.2.2, q.pos.2.1, q.pos.1), q.signal⟩ := by
    refine List.map_congr_left fun q hm => ?_
    have e1 : Exch.tsign q.ty = 1 := by
      have := hq q hm
      cases h : q.ty <;> simp_all [Exch.tsign]
    simp only [Relabel.source, e1, one_mul]
    rfl
  rw [e2]
  rfl

/-- C107 in attenuating media: the axes `x` and `y` can be exchanged if there is no free surface
condition; seismograms stay the same, magnetic sources and receivers change their sign.
`partial`: the 3D electromagnetic solver only without CPML. -/
theorem C107_visco_xy_partial (s : Int) (DT DH : ℝ) (c : BC (Pt NX NY NZ))
    {S' : Solver (Pt NY NX NZ)} {S : Solver (Pt NX NY NZ)}
    (hS : ViscoPair .xy (ptXY NX NY NZ) (surfaceDeriv NY NX NZ s DT DH) (surfaceDeriv NX NY NZ s DT DH) c S' S)
    {s0' : State (Pt NY NX NZ)} {s0 : State (Pt NX NY NZ)} (h' : ∀ v ∈ S'.fields ++ S'.memory, s0' v = 0)
    (h : ∀ v ∈ S.fields ++ S.memory, s0 v = 0) (srcs : List (Source (Pt NX NY NZ)))
    (ty : SType) (pos : Pt NX NY NZ) (t : ℕ) :
    sample S' (srcs.map fun q => ⟨Exch.xy.stype q.ty, (q.pos.2.1, q.pos.1, q.pos.2.2),
        fun n => (if q.ty = .HZ then -1 else 1) * q.signal n⟩) s0'
      ⟨Exch.xy.stype ty, (pos.2.1, pos.1, pos.2.2)⟩ t =
      (if ty = .HZ then -1 else 1) * sample S srcs s0 ⟨ty, pos⟩ t := by
  have hsign : ∀ ty, Exch.tsign ty = if ty = .HZ then -1 else 1 := by
    intro ty
    cases ty <;> simp [Exch.tsign]
  have := pair_sample hS (deriv_xy s DT DH) surfaceDeriv_regular surfaceDeriv_regular h' h (srcs := srcs)
    (r := ⟨ty, pos⟩) (by simp) (by simp) t
  rw [hsign] at this
  rw [← this]
  have e2 : srcs.map (((Exch.xy).relabel (ptXY NX NY NZ)).source Exch.xy.stype Exch.tsign) =
      srcs.map fun q => ⟨Exch.xy.stype q.ty, (q.pos.2.1, q.pos.1, q.pos.2.2),
        fun n => (if q.ty = .HZ then -1 else 1) * q.signal n⟩ := by
    refine List.map_congr_left fun q _ => ?_
    simp only [Relabel.source, hsign]
    rfl
  rw [e2]
  rfl

/-! ## Concrete cases -/

/-- Two mechanisms, all parameters differ from point to point. -/
private noncomputable def exVisco : Mod (Pt 2 3 4) :=
  ⟨fun i => 1 + i.1.val, fun i => 2 + i.1.val, fun i => 3 + i.2.1.val, fun i => 4 + i.2.2.val, fun i => 9 + i.1.val,
    fun i => 1 + i.2.1.val, fun _ => 1, fun _ => 2, fun i => 3 + i.2.2.val, fun i => 1 / (8 + i.1.val), fun _ => 1 / 9,
    fun _ => 1 / 10, fun i => 1 / (11 + i.2.2.val), fun _ => 1 / 12, 2, fun l => 1 + l, 1⟩

/-- CPML at all sides. -/
private noncomputable def exSides : BC (Pt 2 3 4) :=
  ⟨0, none, some (regularPML ⟨4, 10, 3, 1, 1⟩ 1 0 true), fun _ => false⟩

example (t : ℕ) :
    sample (viscoelastic3DSolver (surfaceDeriv 4 3 2 4 1 1) (Exch.xz.mod (ptXZ 2 3 4) exVisco)
        (Exch.xz.bc (ptXZ 2 3 4) exSides))
      [⟨.VZ, (3, 1, 0), fun n => n⟩, ⟨.P, (2, 2, 1), fun _ => 1⟩] (fun _ => 0) ⟨.VX, (1, 0, 1)⟩ t =
    sample (viscoelastic3DSolver (surfaceDeriv 2 3 4 4 1 1) exVisco exSides)
      [⟨.VX, (0, 1, 3), fun n => n⟩, ⟨.P, (1, 2, 2), fun _ => 1⟩] (fun _ => 0) ⟨.VZ, (1, 0, 1)⟩ t :=
  C107_visco_xz_partial 4 1 1 exSides (ViscoPair.viscoelastic3D exVisco (by simp [exSides])) (fun _ _ => rfl)
    (fun _ _ => rfl) [⟨.VX, (0, 1, 3), fun n => n⟩, ⟨.P, (1, 2, 2), fun _ => 1⟩] (by simp) .VZ (by simp) (1, 0, 1) t

/-- Magnetic receivers change their sign. -/
example (m : EMod (Pt 5 3 1)) (c : BC (Pt 5 3 1)) (t : ℕ) :
    sample (viscoemem2DSolver (surfaceDeriv 3 5 1 2 1 1) (Exch.xy.emod (ptXY 5 3 1) m) (Exch.xy.bc (ptXY 5 3 1) c))
      [⟨.EY, (1, 4, 0), fun n => 1 * (n : ℝ)⟩] (fun _ => 0) ⟨.HZ, (2, 0, 0)⟩ t =
    -1 * sample (viscoemem2DSolver (surfaceDeriv 5 3 1 2 1 1) m c)
      [⟨.EX, (4, 1, 0), fun n => (n : ℝ)⟩] (fun _ => 0) ⟨.HZ, (0, 2, 0)⟩ t :=
  C107_visco_xy_partial 2 1 1 c (ViscoPair.viscoemem2D m rfl) (fun _ _ => rfl) (fun _ _ => rfl)
    [⟨.EX, (4, 1, 0), fun n => (n : ℝ)⟩] .HZ (0, 2, 0) t

end Verif.Solver
