/-
Model of los/geom/pixel.go and of its use in cmd/prof.go.  float64 is the real numbers (no rounding); Go's integer division truncates.
-/
import Verif.Model.Halo

namespace Shellfish.Geom
noncomputable section
open Shellfish.Los (goInt)

/-- los/geom/pixel.go:11-19 (`DiskPixel`). -/
def diskPixel (r theta : ℝ) (lvl : Int) : Int :=
  let ir := goInt (r * ((2 * lvl + 1 : Int) : ℝ))
  if ir = 0 then 0
  else
    let ir := Int.tdiv (ir + 1) 2
    let ir := if ir ≥ lvl then lvl else ir
    (2 * (ir - 1) + 1) * (2 * (ir - 1) + 1) + goInt (((8 * ir : Int) : ℝ) * theta / (2 * Real.pi))

/-- los/geom/pixel.go:33-35 (`DiskPixelNum`). -/
def diskPixelNum (lvl : Int) : Int := (lvl * 2 + 1) * (lvl * 2 + 1)

/-- los/geom/pixel.go:7. -/
def cosPi4 : ℝ := Real.cos (Real.pi / 4)

/-- los/geom/pixel.go:23-30 (`SpherePixel`). -/
def spherePixel (phi theta : ℝ) (lvl : Int) : Int :=
  if lvl = 0 then 0
  else if theta > Real.pi / 2 then diskPixel (Real.cos (theta / 2) / cosPi4) phi (lvl - 1)
  else diskPixelNum (lvl - 1) + diskPixel (Real.cos ((Real.pi - theta) / 2) / cosPi4) phi (lvl - 1)

/-- los/geom/pixel.go:38-41 (`SpherePixelNum`). -/
def spherePixelNum (lvl : Int) : Int := if lvl = 0 then 1 else diskPixelNum (lvl - 1) * 2

/-- `math.Mod(x, y)` for non-negative `x` and positive `y`. -/
def goMod (x y : ℝ) : ℝ := x - y * ⌊x / y⌋

/-- cmd/prof.go:553-558: the pixel of a particle with displacement `d` from the halo. -/
def pixelOf (d : Vec) (lvl : Int) : Int :=
  spherePixel (goMod (atan2 d.y d.x + Real.pi * 2) (Real.pi * 2)) (Real.arccos (d.z / Real.sqrt (d.x * d.x + d.y * d.y + d.z * d.z))) lvl

end
end Shellfish.Geom
