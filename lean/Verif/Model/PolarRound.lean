/-
The polar angle of a point in machine arithmetic, wherever the program computes it (los/analyze/shell.go, los/analyze/penna.go, los/geom/rotation.go, cmd/stats.go, cmd/shell.go).

Rounding is that of Model/Round.lean (no overflow, no underflow).  `math.Acos` is NaN outside of [-1, 1].
-/
import Verif.Model.LosRound
import Verif.Model.PixelRound

namespace Shellfish.Round

/-- los/analyze/shell.go:44 and 350, los/analyze/penna.go:26, cmd/shell.go:579: the distance of a point, in float64; `none` is NaN. -/
noncomputable def norm64 (x y z : ℚ) : Option ℚ := sqrt64 (r64 (r64 (r64 (x * x) + r64 (y * y)) + r64 (z * z)))

/-- The quotient that is given to `math.Acos`, provided that it has an arccosine; `none` if the angle is NaN. -/
def acosArg (z r : ℚ) : Option ℚ := if r = 0 then none else if r64 (z / r) < -1 ∨ 1 < r64 (z / r) then none else some (r64 (z / r))

/-- los/analyze/shell.go:44-46 (`CartesianSampledVolume`), 350-352 (`Contains`), los/analyze/penna.go:26-27: the cosine of the polar angle of a point in float64; `none`: the angle is NaN. -/
noncomputable def polar64 (x y z : ℚ) : Option ℚ := (norm64 x y z).bind fun r => acosArg z r

/-- los/analyze/penna.go:28: the sine from the cosine; `none` is NaN. -/
noncomputable def sine64 (c : ℚ) : Option ℚ := sqrt64 (r64 (1 - r64 (c * c)))

/-- los/geom/rotation.go:76-81 (`SphericalAngles`), cmd/stats.go:573-575 and 584-586: the cosine of the polar angle of a point in float32 (the squared distance is a float32 number); `none`: the angle is
NaN. -/
noncomputable def polar32 (x y z : ℚ) : Option ℚ := (sqrt64 (r2_32 x y z)).bind fun r => acosArg z r

/-- cmd/shell.go:579-585: the normal vector made of a point that was drawn; `none`: the point is refused (`r < 1` fails) or not a number. -/
noncomputable def ringNormal (x y z : ℚ) : Option (ℚ × ℚ × ℚ) :=
  (norm64 x y z).bind fun r => if r < 1 ∧ r ≠ 0 then some (r32 (r64 (x / r)), r32 (r64 (y / r)), r32 (r64 (z / r))) else none

/-- cmd/stats.go:571-581: whether a particle is listed when all particles inside the shell are asked for (`shellWidth` negative, so that `delta` is 0).  `sh` is the shell as a function of the cosine of the polar
angle and of the sides of the azimuthal angle; its value is NaN (`none`) if the angle is. -/
noncomputable def insideListed (sh : ℚ → ℚ → Option ℚ → Option ℚ) (high2 x y z : ℚ) : Prop :=
  r2_32 x y z < high2 ∧ ∃ r rs, sqrt64 (r2_32 x y z) = some r ∧ sh x y (polar32 x y z) = some rs ∧ rs > r

end Shellfish.Round
