/-
los/geom/pixel.go and its use in cmd/prof.go in machine arithmetic: float32 and float64 with rounding and NaN, 64 bit integers with wrap around.

Of `math.Atan2`, `math.Acos` and `math.Cos` only the special values are fixed; they are parameters (`Trig`).  The conversion of NaN to an integer is that of amd64 (the smallest integer); the
language leaves it open.
-/
import Verif.Model.LosRound
import Verif.Model.Round32

namespace Shellfish.Round
open Shellfish.Finder (toInt)

/-- `math.Atan2(y, x)`, `math.Acos` of numbers from -1 to 1, and `math.Cos`. -/
structure Trig where
  atan2 : ℚ → ℚ → ℚ
  acos : ℚ → ℚ
  cos : ℚ → ℚ

/-- `math.Pi` as a float64. -/
def pi64 : ℚ := 884279719003555 / 2 ^ 48

/-- int: 64 bit, with wrap around. -/
def wrap64 (x : ℤ) : ℤ := (x + 2 ^ 63) % 2 ^ 64 - 2 ^ 63

/-- Conversion of a float64 to int: truncation; NaN becomes the smallest integer (amd64).  Numbers out of the range of int do not occur. -/
def int64 : Option ℚ → ℤ
  | none => -2 ^ 63
  | some x => toInt x

/-- los/geom/pixel.go:11-19 (`DiskPixel`); `none` is NaN. -/
def diskPixel64 (r : Option ℚ) (theta : ℚ) (lvl : ℤ) : ℤ :=
  let ir := int64 (r.map fun r => r64 (r * r64 ((wrap64 (2 * lvl + 1) : ℤ) : ℚ)))
  if ir = 0 then 0
  else
    let ir := Int.tdiv (wrap64 (ir + 1)) 2
    let ir := if ir ≥ lvl then lvl else ir
    let ith := int64 (some (r64 (r64 (r64 ((wrap64 (8 * ir) : ℤ) : ℚ) * theta) / (2 * pi64))))
    let m := wrap64 (wrap64 (2 * wrap64 (ir - 1)) + 1)
    wrap64 (wrap64 (m * m) + ith)

/-- los/geom/pixel.go:33-35 (`DiskPixelNum`), for levels without overflow. -/
def diskNum (lvl : ℤ) : ℤ := (lvl * 2 + 1) * (lvl * 2 + 1)

/-- los/geom/pixel.go:38-41 (`SpherePixelNum`), for levels without overflow. -/
def sphereNum (lvl : ℤ) : ℤ := if lvl = 0 then 1 else diskNum (lvl - 1) * 2

/-- los/geom/pixel.go:7. -/
def cosPi4_64 (T : Trig) : ℚ := T.cos (pi64 / 4)

/-- los/geom/pixel.go:23-30 (`SpherePixel`); `theta = none` is NaN: the comparison is false and the cosine is NaN. -/
def spherePixel64 (T : Trig) (phi : ℚ) (theta : Option ℚ) (lvl : ℤ) : ℤ :=
  if lvl = 0 then 0
  else
    match theta with
    | none => diskNum (lvl - 1) + diskPixel64 none phi (lvl - 1)
    | some th =>
      if th > pi64 / 2 then diskPixel64 (some (r64 (T.cos (th / 2) / cosPi4_64 T))) phi (lvl - 1)
      else diskNum (lvl - 1) + diskPixel64 (some (r64 (T.cos (r64 (pi64 - th) / 2) / cosPi4_64 T))) phi (lvl - 1)

/-- cmd/prof.go:548: the squared distance of a particle, in float32. -/
def r2_32 (dx dy dz : ℚ) : ℚ := r32 (r32 (r32 (dx * dx) + r32 (dy * dy)) + r32 (dz * dz))

/-- cmd/prof.go:554-556: the azimuthal angle; `math.Mod` is exact. -/
def phi64 (T : Trig) (dx dy : ℚ) : ℚ :=
  let a := r64 (T.atan2 dy dx + pi64 * 2)
  a - pi64 * 2 * ⌊a / (pi64 * 2)⌋

/-- cmd/prof.go:553 and 557: the polar angle; `none` is NaN. -/
noncomputable def theta64 (T : Trig) (dx dy dz : ℚ) : Option ℚ :=
  (sqrt64 (r2_32 dx dy dz)).bind fun r => if r64 (dz / r) < -1 ∨ r64 (dz / r) > 1 then none else some (T.acos (r64 (dz / r)))

/-- cmd/prof.go:553-558: the pixel of a particle. -/
noncomputable def pixel64 (T : Trig) (dx dy dz : ℚ) (lvl : ℤ) : ℤ := spherePixel64 T (phi64 T dx dy) (theta64 T dx dy dz) lvl

/-- cmd/prof.go:564 for the row of a radial bin: a mass is added to a pixel; `none` is the index panic. -/
def addPixel (row : List ℚ) (p : ℤ) (m : ℚ) : Option (List ℚ) := addAtR row p m

end Shellfish.Round
