/-
cmd/prof.go:629-650 (`bootstrapErrorPercentile`) in float64 arithmetic.

Rounding is that of Model/Round.lean (no overflow, no underflow, and no fused multiply-add, which Go allows on some platforms but not on amd64).
-/
import Verif.Model.LosRound
import Verif.Model.Sort

namespace Shellfish.Round

/-- cmd/prof.go:637-644: the percentiles of the resampled lists; `draws` has, for every sample, the values of `rand.Intn(len(x))`.  `none` is a panic. -/
def resampled64 (x : List ℚ) (pn pd : Nat) (scratch : List ℚ) (draws : List (List Nat)) : Option (List ℚ) :=
  draws.mapM fun d => (d.mapM fun k => x[k]?).bind fun sample => Sort.percentile sample pn pd (some scratch)

/-- cmd/prof.go:634-649: the error from the percentiles `ps`; `none` is NaN. -/
noncomputable def spread64 (ps : List ℚ) : Option ℚ :=
  if ps.length = 0 then none
  else
    let sum := r64 (ps.foldl (fun s p => r64 (s + p)) 0 / (ps.length : ℚ))
    let sqrSum := r64 (ps.foldl (fun s p => r64 (s + r64 (p * p))) 0 / (ps.length : ℚ))
    sqrt64 (r64 (sqrSum - r64 (sum * sum)))

/-- cmd/prof.go:629-650 (`bootstrapErrorPercentile`): `none` is a panic, `some none` is NaN. -/
noncomputable def bootstrap64 (x : List ℚ) (pn pd : Nat) (scratch : List ℚ) (draws : List (List Nat)) : Option (Option ℚ) := (resampled64 x pn pd scratch draws).map spread64

end Shellfish.Round
