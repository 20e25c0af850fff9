/-
Model of cosmo/const.go, cosmo/param.go and cmd/halo/radius.go.  Floating point numbers are real numbers: there is no rounding.
-/
import Mathlib.Analysis.SpecialFunctions.Pow.Real
import Mathlib.Analysis.Real.Pi.Bounds

namespace Shellfish.Radius

/-- cosmo/const.go:4. -/
noncomputable def gMks : ℝ := 667259 / 10 ^ 16
/-- cosmo/const.go:5. -/
noncomputable def mpcMks : ℝ := 308560 * 10 ^ 17
/-- cosmo/const.go:6. -/
noncomputable def mSunMks : ℝ := 198900 * 10 ^ 25

/-- cosmo/param.go:11-13 (`HubbleFrac`). -/
noncomputable def hubbleFrac (omegaM omegaL z : ℝ) : ℝ := Real.sqrt (omegaM * (1 + z) ^ 3 + omegaL)

/-- cosmo/param.go:16-24 (`rhoCriticalMks`). -/
noncomputable def rhoCriticalMks (h0 omegaM omegaL z : ℝ) : ℝ :=
  let h0Mks := (h0 * 1000) / mpcMks
  let h100 := h0 / 100
  let h0MksH := h0Mks / h100
  let h := hubbleFrac omegaM omegaL z * h0MksH
  3 * h * h / (8 * Real.pi * gMks)

/-- cosmo/param.go:30-32 (`RhoCritical`). -/
noncomputable def rhoCritical (h0 omegaM omegaL z : ℝ) : ℝ := rhoCriticalMks h0 omegaM omegaL z * mpcMks ^ 3 / mSunMks

/-- cosmo/param.go:36-38 (`RhoAverage`). -/
noncomputable def rhoAverage (h0 omegaM omegaL z : ℝ) : ℝ := rhoCritical h0 omegaM omegaL 0 * omegaM * (1 + z) ^ 3

/-- The fields of io.CosmologyHeader (io/io.go) used here. -/
structure Cosmo where
  z : ℝ
  omegaM : ℝ
  omegaL : ℝ
  h100 : ℝ

/-- cmd/halo/radius.go:11-18 (`Radius`): an `int` with four named values. -/
abbrev Radius := Int
/-- cmd/halo/radius.go:14. -/
def R200c : Radius := 0
/-- cmd/halo/radius.go:15. -/
def R200m : Radius := 1
/-- cmd/halo/radius.go:16. -/
def R500c : Radius := 2
/-- cmd/halo/radius.go:17. -/
def R2500c : Radius := 3

/-- cmd/halo/radius.go:21-33 (`RadiusFromString`): the value and `ok`. -/
def radiusFromString (s : String) : Radius × Bool :=
  if s = "R200m" then (R200m, true)
  else if s = "R200c" then (R200c, true)
  else if s = "R500c" then (R500c, true)
  else if s = "R2500c" then (R2500c, true)
  else (-1, false)

/-- cmd/halo/radius.go:35-47 (`MassString`); `none` is a panic. -/
def massString (r : Radius) : Option String :=
  if r = R200m then some "M200m"
  else if r = R200c then some "M200c"
  else if r = R500c then some "R500c"
  else if r = R2500c then some "M2500c"
  else none

/-- cmd/halo/radius.go:50-62 (`String`). -/
def toStr (r : Radius) : Option String :=
  if r = R200m then some "R200m"
  else if r = R200c then some "R200c"
  else if r = R500c then some "R500c"
  else if r = R2500c then some "R2500c"
  else none

/-- cmd/halo/radius.go:65-79: the threshold density; `none` is the `default` case. -/
noncomputable def rho (r : Radius) (c : Cosmo) : Option ℝ :=
  let h0 := c.h100 * 100
  if r = R200c then some (200 * rhoCritical h0 c.omegaM c.omegaL c.z)
  else if r = R200m then some (200 * rhoAverage h0 c.omegaM c.omegaL c.z)
  else if r = R500c then some (500 * rhoCritical h0 c.omegaM c.omegaL c.z)
  else if r = R2500c then some (2500 * rhoCritical h0 c.omegaM c.omegaL c.z)
  else none

/-- cmd/halo/radius.go:85: the radius of one mass. -/
noncomputable def radiusOf (rho z m : ℝ) : ℝ :=
  let a := 1 / (1 + z)
  let factor := rho * 4 * Real.pi / 3
  (m / factor) ^ ((1 : ℝ) / 3) / a

/-- cmd/halo/radius.go:107-108: the mass of one radius. -/
noncomputable def massOf (rho z r : ℝ) : ℝ :=
  let a := 1 / (1 + z)
  let factor := rho * 4 * Real.pi / 3
  factor * ((r * a) * (r * a) * (r * a))

/-- The loops of cmd/halo/radius.go:84-86 and 106-109: `f` of every entry is written to `out`; `none` is the index panic when `out` is too short. -/
def writeAll (f : ℝ → ℝ) (xs out : List ℝ) : Option (List ℝ) := if xs.length ≤ out.length then some (xs.map f ++ out.drop xs.length) else none

/-- cmd/halo/radius.go:64-87 (`Radius.Radius`): the slice `out` afterwards; `none` is a panic. -/
noncomputable def radius (r : Radius) (c : Cosmo) (ms out : List ℝ) : Option (List ℝ) := (rho r c).bind fun d => writeAll (radiusOf d c.z) ms out

/-- cmd/halo/radius.go:89-110 (`Radius.Mass`); there is no `default` case here, and the density stays 0. -/
noncomputable def mass (r : Radius) (c : Cosmo) (rs out : List ℝ) : Option (List ℝ) := writeAll (massOf ((rho r c).getD 0) c.z) rs out

/-- cmd/halo/radius.go:114-126 (`UnitConversionFactor`); `none` is a panic. -/
noncomputable def unitConversionFactor (u : String) (c : Cosmo) : Option ℝ :=
  if u = "cMpc/h" then some 1
  else if u = "ckpc/h" then some (1 / 10 ^ 3)
  else if u = "pMpc/h" then some (1 + c.z)
  else if u = "pkpc/h" then some (1 / 10 ^ 3 * (1 + c.z))
  else if u = "cMpc" then some c.h100
  else if u = "ckpc" then some (1 / 10 ^ 3 * c.h100)
  else if u = "pMpc" then some ((1 + c.z) * c.h100)
  else if u = "pkpc" then some (1 / 10 ^ 3 * (1 + c.z) * c.h100)
  else none

/-- cmd/halo/io.go:67-76: the column of radii `GetColumn` computes from a column of masses; `none` is a panic. -/
noncomputable def genColumn (units : String) (c : Cosmo) (name : String) (ms : List ℝ) : Option (List ℝ) :=
  (radius (radiusFromString name).1 c ms (List.replicate ms.length 0)).bind fun rs =>
    (unitConversionFactor units c).bind fun ucf => some (rs.map fun x => x / ucf)

end Shellfish.Radius
