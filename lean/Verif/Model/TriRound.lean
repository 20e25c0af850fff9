/-
math/interpolate/linear_interpolators.go: trilinear interpolation on tables, in float64 arithmetic with its rounding.
-/
import Verif.Model.InterpRound

namespace Shellfish.Round

/-- math/interpolate/linear_interpolators.go:314-322, the weight of a coordinate: `(x - x1) / (x2 - x1)`. -/
def weightR (x x1 x2 : ℚ) : ℚ := r64 (r64 (x - x1) / r64 (x2 - x1))

/-- math/interpolate/linear_interpolators.go:314-322: `v*(1-d) + w*d`, as written for `c11`, `c21`, `c12`, `c22`, `c1`, `c2` and the result. -/
def mixR (d v w : ℚ) : ℚ := r64 (r64 (v * r64 (1 - d)) + r64 (w * d))

/-- math/interpolate/linear_interpolators.go:314-322: the last lines of `TriLinear.Eval`. -/
def triMixR (xd yd zd v111 v112 v121 v122 v211 v212 v221 v222 : ℚ) : ℚ :=
  let c11 := mixR xd v111 v211
  let c21 := mixR xd v121 v221
  let c12 := mixR xd v112 v212
  let c22 := mixR xd v122 v222
  let c1 := mixR yd c11 c21
  let c2 := mixR yd c12 c22
  mixR zd c1 c2

/-- math/interpolate/linear_interpolators.go:294-323: `TriLinear.Eval` after the searches; `none` is an index panic.  The table of the third coordinate is that of the second one, as in the code.  (A search in a table of more
than one point never ends at the last point.) -/
def triCellR (xs ys vals : List ℚ) (x y z : ℚ) (ix iy iz : ℕ) : Option ℚ := do
  let v111 ← vals[ix + iy * xs.length + iz * ys.length * xs.length]?
  let v112 ← vals[ix + iy * xs.length + iz * ys.length * xs.length + xs.length * ys.length]?
  let v121 ← vals[ix + iy * xs.length + iz * ys.length * xs.length + xs.length]?
  let v122 ← vals[ix + iy * xs.length + iz * ys.length * xs.length + xs.length + xs.length * ys.length]?
  let v211 ← vals[ix + iy * xs.length + iz * ys.length * xs.length + 1]?
  let v212 ← vals[ix + iy * xs.length + iz * ys.length * xs.length + 1 + xs.length * ys.length]?
  let v221 ← vals[ix + iy * xs.length + iz * ys.length * xs.length + 1 + xs.length]?
  let v222 ← vals[ix + iy * xs.length + iz * ys.length * xs.length + 1 + xs.length + xs.length * ys.length]?
  let x1 ← xs[ix]?
  let x2 ← xs[ix + 1]?
  let y1 ← ys[iy]?
  let y2 ← ys[iy + 1]?
  let z1 ← ys[iz]?
  let z2 ← ys[iz + 1]?
  some (triMixR (weightR x x1 x2) (weightR y y1 y2) (weightR z z1 z2) v111 v112 v121 v122 v211 v212 v221 v222)

/-- math/interpolate/linear_interpolators.go:237-254 and 289-323 (`NewTriLinear` and `Eval`): `none` is a panic.  The third coordinate is looked up in the table of the second one, as in the code; of `zs` only the length is used. -/
def trilinearR (xs ys zs vals : List ℚ) (x y z : ℚ) : Option ℚ :=
  if xs.length * ys.length * zs.length ≠ vals.length then none
  else do
    let ix ← searchR xs x
    let iy ← searchR ys y
    let iz ← searchR ys z
    triCellR xs ys vals x y z ix iy iz

end Shellfish.Round
