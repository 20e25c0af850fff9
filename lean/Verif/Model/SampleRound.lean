/-
The quantities of a shell that are found by sampling (los/analyze/shell.go:21-88, 257-272) in machine arithmetic, for the shells of los/analyze/penna.go.

`rand.Float64` of the Go library is represented by the numbers that it returns (`draws`).  Rounding and the functions of package math are as in Model/PennaRound.lean.
-/
import Verif.Model.PennaRound
import Verif.Model.Sort

namespace Shellfish.Round

/-- los/analyze/shell.go:21-24 (`randomAngle`) for the draws `u`, `v`.  The constant `2 * math.Pi` is `2 * pi64` as a float64. -/
def randomAngle64 (F : ShellMath) (d : ℚ × ℚ) : ℚ × ℚ := (r64 (2 * pi64 * d.1), F.acos (r64 (r64 (2 * d.2) - 1)))

/-- los/analyze/shell.go:61-62, 73-74, 84-85, 258-259 and 262-263: the radii of the shell at random angles; `none` is the index panic of the shell. -/
def radii64 (F : ShellMath) (cs : List ℚ) (I J K : ℕ) (draws : List (ℚ × ℚ)) : Option (List ℚ) :=
  draws.mapM fun d => pennaFunc64 F cs I J K (randomAngle64 F d).1 (randomAngle64 F d).2

/-- The constant `math.Pi / 3` as a float64. -/
def pi3_64 : ℚ := 4716158501352294 / 2 ^ 52

/-- los/analyze/shell.go:58-67 (`Volume`); `none`: a panic, or NaN (no samples). -/
def volume64 (F : ShellMath) (cs : List ℚ) (I J K : ℕ) (draws : List (ℚ × ℚ)) : Option ℚ :=
  if draws.length = 0 then none
  else (radii64 F cs I J K draws).map fun rs =>
    let sum := rs.foldl (fun sum r => r64 (sum + r64 (r64 (r * r) * r))) 0
    let r3 := r64 (sum / r64 (draws.length : ℚ))
    r64 (r64 (r3 * 4) * pi3_64)

/-- los/analyze/shell.go:70-78 (`MeanRadius`); `none`: a panic, or NaN (no samples). -/
def meanRadius64 (F : ShellMath) (cs : List ℚ) (I J K : ℕ) (draws : List (ℚ × ℚ)) : Option ℚ :=
  if draws.length = 0 then none
  else (radii64 F cs I J K draws).map fun rs => r64 (rs.foldl (fun sum r => r64 (sum + r)) 0 / r64 (draws.length : ℚ))

/-- los/analyze/shell.go:81-88 (`MedianRadius`): the buffer is the slice itself; `none` is a panic. -/
def medianRadius64 (F : ShellMath) (cs : List ℚ) (I J K : ℕ) (draws : List (ℚ × ℚ)) : Option ℚ :=
  (radii64 F cs I J K draws).bind fun rs => Sort.median rs (some rs)

/-- los/analyze/shell.go:257-272 (`RadialRange`): the first draw, and the draws of the loop. -/
def radialRange64 (F : ShellMath) (cs : List ℚ) (I J K : ℕ) (d0 : ℚ × ℚ) (draws : List (ℚ × ℚ)) : Option (ℚ × ℚ) :=
  (pennaFunc64 F cs I J K (randomAngle64 F d0).1 (randomAngle64 F d0).2).bind fun r0 =>
    (radii64 F cs I J K draws).map fun rs => rs.foldl (fun lh r => (if r < lh.1 then r else lh.1, if r > lh.2 then r else lh.2)) (r0, r0)

end Shellfish.Round
