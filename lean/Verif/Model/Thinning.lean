import Verif.Model.Acquisition
import Verif.Model.SU
/-!
# Selection of shots with a spatial increment: `Sources::getAcquisitionSettings`

`/repo/src/Acquisition/Sources.cpp:500-560`.

The loop over the sources changes its own loop variable, so it need not end. It is modelled as a step
function, run for a number of rounds. Increment and grid spacing are rational numbers.
-/
namespace Verif.Acq
open Verif.Grid (Coord)

/-- Positions along the line of sources, Sources.cpp:518-527: x or y coordinates, depending on the first
two sources. With equal distances in both directions the vector stays empty. -/
def linePositions (all : List Source) : List Int :=
  match all with
  | a :: b :: _ =>
    let dx := (a.coords.x - b.coords.x).natAbs
    let dy := (a.coords.y - b.coords.y).natAbs
    if dx > dy then all.map (·.coords.x) else if dx < dy then all.map (·.coords.y) else []
  | _ => []

/-- `round(shotIncr * k / DH)`, Sources.cpp:546. -/
def incrStep (shotIncr DH : ℚ) (k : ℕ) : Int := SU.roundQ (shotIncr * k / DH)

/-- Variables of the loop: `shotInd`, `shotIncrInd` and `shotIndsIncr`, the last one first. Until the loop
ends, `numshotsIncr + 1` is the length of `shotIndsIncr`, so that `shotIndsIncr[numshotsIncr]` is the entry
added last. -/
structure ThinState where
  pos : ℕ
  target : Int
  sel : List ℕ
  deriving DecidableEq

/-- One round of the loop, Sources.cpp:534-553, for `n` sources at the positions `s`; `g k` is the `k`-th
increment. `shotInd--` and the `shotInd++` of the loop cancel. -/
def thinStep (n : ℕ) (s : ℕ → Int) (g : ℕ → Int) (st : ThinState) : ThinState :=
  let i := st.pos
  let last := st.sel.headD 0
  if st.target ≥ s i ∧ st.target ≤ s (i + 1) then
    let sel :=
      if last ≠ i ∧ (st.target - s i).natAbs < (st.target - s (i + 1)).natAbs then i :: st.sel
      else if last ≠ i + 1 ∧ (st.target - s i).natAbs ≥ (st.target - s (i + 1)).natAbs then (i + 1) :: st.sel
      else st.sel
    ⟨i, s 0 + g sel.length, sel⟩
  else if i = n - 2 ∧ last ≠ i + 1 ∧ (s (i + 1) - s i).natAbs > (st.target - s (i + 1)).natAbs then
    ⟨i + 1, st.target, (i + 1) :: st.sel⟩
  else ⟨i + 1, st.target, st.sel⟩

/-- The loop `for (shotInd = 0; shotInd < numshots-1; shotInd++)`; `none` if it has not ended after the given
number of rounds. -/
def thinLoop (n : ℕ) (s : ℕ → Int) (g : ℕ → Int) : ℕ → ThinState → Option (List ℕ)
  | 0, _ => none
  | fuel + 1, st => if st.pos < n - 1 then thinLoop n s g fuel (thinStep n s g st) else some st.sel.reverse

/-- `getAcquisitionSettings`: the indices of the selected sources (`shotIndsIncr`), Sources.cpp:515-559. The
inner `Option` is `none` as long as the loop runs. `sourceLength[0]` of an empty vector is undefined. -/
def shotInds (shotIncr DH : ℚ) (all : List Source) (fuel : ℕ) : Out (Option (List ℕ)) :=
  if all.length > 1 ∧ shotIncr > DH then
    match linePositions all with
    | [] => .ub
    | p :: ps => .ok (thinLoop all.length (fun i => (p :: ps).getD i 0) (incrStep shotIncr DH) fuel ⟨0, p, [0]⟩)
  else .ok (some (List.range all.length))

/-- `sourceSettingsShotIncr`: the settings of the selected sources. -/
def thinned (all : List Source) (inds : List ℕ) : List Source := inds.filterMap (all[·]?)

end Verif.Acq
