/-
cmd/stats.go:268-272: the volume and the column `R_sp` in machine arithmetic (float64 is rounded as in Model/Round.lean).  Of `math.Pow` only the accuracy is known (`pw`).
-/
import Verif.Model.RadiusRound
import Verif.Model.SampleRound

namespace Shellfish.Round

/-- cmd/stats.go:269: `math.Pow(vol/(math.Pi*4/3), 0.33333)`; the constants are exact until they meet a float64.  `none` is NaN (a power of a negative number). -/
def rsp64 (pw : ℚ → ℚ → ℚ) (vol : ℚ) : Option ℚ := if vol < 0 then none else some (pw (r64 (vol / r64 (goPi * 4 / 3))) (r64 (33333 / 100000)))

/-- cmd/stats.go:266-272: the volume of a fitted shell and `R_sp`; `none` is a panic, or a volume that is not a number. -/
def rspColumns64 (F : ShellMath) (pw : ℚ → ℚ → ℚ) (cs : List ℚ) (order : ℕ) (draws : List (ℚ × ℚ)) : Option (ℚ × Option ℚ) :=
  (volume64 F cs order order 2 draws).map fun v => (v, rsp64 pw v)

end Shellfish.Round
