/-
los/analyze/shell.go:308-345 and cmd/prof.go:652-672: the angular fraction profile in machine arithmetic (float64 is rounded as in Model/Round.lean).  Of `math.Log` and `math.Exp` only the accuracy is known (`lg`, `ex`).

The radii of the shell at the random angles are given (for fitted shells: `radii64` in Model/SampleRound.lean).
-/
import Verif.Model.DensityRound
import Verif.Model.Shell

namespace Shellfish.Round
open Shellfish.Analyze (revCumSum)

/-- los/analyze/shell.go:328-332: the bin that a sample with the radius `r` is counted in.  The logarithm of a radius that is not positive is NaN or infinite; converted to an integer (on amd64; the language leaves it open) it is
negative, so that the sample is passed over. -/
def fracBin64 (lg : ℚ → ℚ) (bins : ℕ) (rMin rMax r : ℚ) : Option ℕ :=
  if r ≤ 0 then none
  else
    let lri := quotInt (r64 (lg r - lg rMin)) (dlr64 lg bins rMin rMax)
    if lri < 0 ∨ lri ≥ (bins : ℤ) then none else some lri.toNat

/-- los/analyze/shell.go:326-333: one turn of the first loop of `AngularFractionProfile`. -/
def fracStep64 (lg : ℚ → ℚ) (bins : ℕ) (rMin rMax : ℚ) (ns : List ℕ) (r : ℚ) : List ℕ :=
  match fracBin64 lg bins rMin rMax r with
  | none => ns
  | some k => ns.modify k (· + 1)

/-- los/analyze/shell.go:312-345 (`AngularFractionProfile`): the radii and the fractions (`none`: NaN, as `0 / 0`). -/
def fractions64 (lg ex : ℚ → ℚ) (bins : ℕ) (rMin rMax : ℚ) (radii : List ℚ) : List ℚ × List (Option ℚ) :=
  let ns := revCumSum (radii.foldl (fracStep64 lg bins rMin rMax) (List.replicate bins 0))
  ((List.range bins).map fun i : ℕ => ex (r64 (lg rMin + r64 (r64 (r64 (i : ℚ) + 1 / 2) * dlr64 lg bins rMin rMax))),
    ns.map fun n : ℕ => div64 (r64 (n : ℚ)) (r64 ((ns.getD 0 0 : ℕ) : ℚ)))

/-- cmd/prof.go:662-670 (`angularFractionMain`): the profile of a halo of radius `R`. -/
def fractionRow64 (lg ex : ℚ → ℚ) (R minMult maxMult : ℚ) (bins : ℕ) (radii : List ℚ) : List ℚ × List (Option ℚ) :=
  fractions64 lg ex bins (r64 (R * minMult)) (r64 (R * maxMult)) radii

end Shellfish.Round
