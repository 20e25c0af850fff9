/-
math/interpolate/search.go and linear_interpolators.go on tables, in float64 arithmetic with its rounding.  (Uniform grids: see `unifSearch` in Model/Round.lean.)
-/
import Verif.Model.Round
import Verif.Model.Interp

namespace Shellfish.Round
open Shellfish.Interp (binSearch)
open Shellfish.Finder (toInt)

/-- math/interpolate/search.go:16-24 (`init`): the field `dx` of a table.  (A table of one point divides zero by zero; the search then never uses its guess, as here, where it is 0 / 0 = 0 and the index is out of range.) -/
def tableDx (xs : List ℚ) : ℚ := r64 (r64 (xs.getD (xs.length - 1) 0 - xs.getD 0 0) / ((xs.length : ℚ) - 1))

/-- math/interpolate/search.go:38-43, 53-73 (`search` on a table), with the guess from the rounded quotient: `none` is the explicit panic, or the index panic of an empty table. -/
def searchR (xs : List ℚ) (x : ℚ) : Option ℕ :=
  if xs = [] then none
  else if x > xs.getD (xs.length - 1) 0 ∨ x < xs.getD 0 0 then none
  else
    let incr := decide (tableDx xs > 0)
    let guess := toInt (r64 (r64 (x - xs.getD 0 0) / tableDx xs))
    some (if guess ≥ 0 ∧ guess < (xs.length : Int) - 1 ∧ decide (xs.getD guess.toNat 0 ≤ x) = incr ∧ decide (xs.getD (guess.toNat + 1) 0 ≥ x) = incr then guess.toNat
      else binSearch xs incr x 0 (xs.length - 1))

/-- math/interpolate/linear_interpolators.go:22-30 and 47-54 (`NewLinear` and `Eval`): `none` is a panic. -/
def linearR (xs vals : List ℚ) (x : ℚ) : Option ℚ :=
  if xs.length ≠ vals.length then none
  else do
    let i ← searchR xs x
    let x1 ← xs[i]?
    let x2 ← xs[i + 1]?
    let v1 ← vals[i]?
    let v2 ← vals[i + 1]?
    some (r64 (r64 (r64 (r64 (v2 - v1) / r64 (x2 - x1)) * r64 (x - x1)) + v1))

/-- math/interpolate/linear_interpolators.go:180-186: the last lines of `BiLinear.Eval`. -/
def biMixR (x y x1 x2 y1 y2 v11 v12 v21 v22 : ℚ) : ℚ :=
  let dx := r64 (x2 - x1)
  let dy := r64 (y2 - y1)
  let dx1 := r64 (x - x1)
  let dx2 := r64 (x2 - x)
  let dy1 := r64 (y - y1)
  let dy2 := r64 (y2 - y)
  r64 (r64 (r64 (r64 (r64 (r64 (v11 * dx2) * dy2) + r64 (r64 (v12 * dx2) * dy1)) + r64 (r64 (v21 * dx1) * dy2)) + r64 (r64 (v22 * dx1) * dy1)) / r64 (dx * dy))

/-- math/interpolate/linear_interpolators.go:107-122 and 156-186 (`NewBiLinear` and `Eval`): `none` is a panic.  (A search in a table of more than one point never ends at the last point; with one point, lines 160-167 make the
index negative.) -/
def bilinearR (xs ys vals : List ℚ) (x y : ℚ) : Option ℚ :=
  if xs.length * ys.length ≠ vals.length then none
  else do
    let ix ← searchR xs x
    let iy ← searchR ys y
    let x1 ← xs[ix]?
    let x2 ← xs[ix + 1]?
    let y1 ← ys[iy]?
    let y2 ← ys[iy + 1]?
    let v11 ← vals[ix + xs.length * iy]?
    let v12 ← vals[ix + xs.length * (iy + 1)]?
    let v21 ← vals[ix + 1 + xs.length * iy]?
    let v22 ← vals[ix + 1 + xs.length * (iy + 1)]?
    some (biMixR x y x1 x2 y1 y2 v11 v12 v21 v22)

end Shellfish.Round
