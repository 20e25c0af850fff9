/-
cosmo/param.go, cmd/halo/radius.go:64-127 and cmd/halo/io.go:67-77: densities, radii, masses and units in machine arithmetic (float64 is rounded as in Model/Round.lean; the range of the exponents is not modelled).
Constants of the Go language are exact until they meet a float64.  Of `math.Pow` only the accuracy is known (`pw`).
-/
import Verif.Model.LosRound
import Verif.Model.PixelRound
import Verif.Model.Radius

namespace Shellfish.Round
open Shellfish.Radius (Radius R200c R200m R500c R2500c radiusFromString)

/-- The fields of io.CosmologyHeader (io/io.go) used here. -/
structure Cosmo64 where
  z : ℚ
  omegaM : ℚ
  omegaL : ℚ
  h100 : ℚ

/-- The constant `math.Pi` of the Go library: 62 decimals. -/
def goPi : ℚ := 314159265358979323846264338327950288419716939937510582097494459 / 10 ^ 62

/-- cosmo/const.go:5 as a float64. -/
def mpc64 : ℚ := r64 (308560 * 10 ^ 17)
/-- cosmo/const.go:6 as a float64. -/
def mSun64 : ℚ := r64 (198900 * 10 ^ 25)
/-- cosmo/param.go:23: the constant `8.0 * math.Pi * GMks` as a float64. -/
def eightPiG64 : ℚ := r64 (8 * goPi * (667259 / 10 ^ 16))

/-- cosmo/param.go:11-13 (`HubbleFrac`); `none` is NaN. -/
noncomputable def hubbleFrac64 (pw : ℚ → ℚ → ℚ) (omegaM omegaL z : ℚ) : Option ℚ := sqrt64 (r64 (r64 (omegaM * pw (r64 (1 + z)) 3) + omegaL))

/-- cosmo/param.go:16-24 (`rhoCriticalMks`). -/
noncomputable def rhoCriticalMks64 (pw : ℚ → ℚ → ℚ) (h0 omegaM omegaL z : ℚ) : Option ℚ :=
  let h0Mks := r64 (r64 (h0 * 1000) / mpc64)
  let h100 := r64 (h0 / 100)
  let h0MksH := r64 (h0Mks / h100)
  (hubbleFrac64 pw omegaM omegaL z).map fun hf =>
    let h := r64 (hf * h0MksH)
    r64 (r64 (r64 (3 * h) * h) / eightPiG64)

/-- cosmo/param.go:30-32 (`RhoCritical`). -/
noncomputable def rhoCritical64 (pw : ℚ → ℚ → ℚ) (h0 omegaM omegaL z : ℚ) : Option ℚ :=
  (rhoCriticalMks64 pw h0 omegaM omegaL z).map fun d => r64 (r64 (d * pw mpc64 3) / mSun64)

/-- cosmo/param.go:36-38 (`RhoAverage`). -/
noncomputable def rhoAverage64 (pw : ℚ → ℚ → ℚ) (h0 omegaM omegaL z : ℚ) : Option ℚ :=
  (rhoCritical64 pw h0 omegaM omegaL 0).map fun d => r64 (r64 (d * omegaM) * pw (r64 (1 + z)) 3)

/-- cmd/halo/radius.go:65-79: the threshold density; the outer `none` is the `default` case, the inner one is NaN. -/
noncomputable def rho64 (pw : ℚ → ℚ → ℚ) (r : Radius) (c : Cosmo64) : Option (Option ℚ) :=
  let h0 := r64 (c.h100 * 100)
  if r = R200c then some ((rhoCritical64 pw h0 c.omegaM c.omegaL c.z).map fun d => r64 (200 * d))
  else if r = R200m then some ((rhoAverage64 pw h0 c.omegaM c.omegaL c.z).map fun d => r64 (200 * d))
  else if r = R500c then some ((rhoCritical64 pw h0 c.omegaM c.omegaL c.z).map fun d => r64 (500 * d))
  else if r = R2500c then some ((rhoCritical64 pw h0 c.omegaM c.omegaL c.z).map fun d => r64 (2500 * d))
  else none

/-- cmd/halo/radius.go:82, 105: `rho * 4 * math.Pi / 3`. -/
def factor64 (rho : ℚ) : ℚ := r64 (r64 (r64 (rho * 4) * pi64) / 3)

/-- cmd/halo/radius.go:81, 104: `1 / (1 + c.Z)`. -/
def scale64 (z : ℚ) : ℚ := r64 (1 / r64 (1 + z))

/-- cmd/halo/radius.go:85: the radius of one mass. -/
def radiusOf64 (pw : ℚ → ℚ → ℚ) (rho z m : ℚ) : ℚ := r64 (pw (r64 (m / factor64 rho)) (r64 (1 / 3)) / scale64 z)

/-- cmd/halo/radius.go:107-108: the mass of one radius. -/
def massOf64 (rho z r : ℚ) : ℚ :=
  let r' := r64 (r * scale64 z)
  r64 (factor64 rho * r64 (r64 (r' * r') * r'))

/-- The loops of cmd/halo/radius.go:84-86 and 106-109 on slices of the same kind; `none` is the index panic when `out` is too short. -/
def writeAll64 {α β : Type} (f : α → β) (xs : List α) (out : List β) : Option (List β) := if xs.length ≤ out.length then some (xs.map f ++ out.drop xs.length) else none

/-- cmd/halo/radius.go:64-87 (`Radius.Radius`): the slice `out` afterwards (`none` entries are NaN); the outer `none` is a panic. -/
noncomputable def radius64 (pw : ℚ → ℚ → ℚ) (r : Radius) (c : Cosmo64) (ms : List ℚ) (out : List (Option ℚ)) : Option (List (Option ℚ)) :=
  (rho64 pw r c).bind fun d => writeAll64 (fun m => d.map fun d => radiusOf64 pw d c.z m) ms out

/-- cmd/halo/radius.go:89-110 (`Radius.Mass`); there is no `default` case here, and the density stays 0. -/
noncomputable def mass64 (pw : ℚ → ℚ → ℚ) (r : Radius) (c : Cosmo64) (rs : List ℚ) (out : List (Option ℚ)) : Option (List (Option ℚ)) :=
  writeAll64 (fun x => ((rho64 pw r c).getD (some 0)).map fun d => massOf64 d c.z x) rs out

/-- cmd/halo/radius.go:114-126 (`UnitConversionFactor`); `none` is a panic. -/
def unitFactor64 (u : String) (c : Cosmo64) : Option ℚ :=
  if u = "cMpc/h" then some 1
  else if u = "ckpc/h" then some (r64 (1 / 1000))
  else if u = "pMpc/h" then some (r64 (1 + c.z))
  else if u = "pkpc/h" then some (r64 (r64 (1 / 1000) * r64 (1 + c.z)))
  else if u = "cMpc" then some c.h100
  else if u = "ckpc" then some (r64 (r64 (1 / 1000) * c.h100))
  else if u = "pMpc" then some (r64 (r64 (1 + c.z) * c.h100))
  else if u = "pkpc" then some (r64 (r64 (r64 (1 / 1000) * r64 (1 + c.z)) * c.h100))
  else none

/-- cmd/halo/io.go:67-76: the column of radii `GetColumn` computes from a column of masses (`none` entries are NaN); the outer `none` is a panic. -/
noncomputable def genColumn64 (pw : ℚ → ℚ → ℚ) (units : String) (c : Cosmo64) (name : String) (ms : List ℚ) : Option (List (Option ℚ)) :=
  (radius64 pw (radiusFromString name).1 c ms (List.replicate ms.length (some 0))).bind fun rs =>
    (unitFactor64 units c).bind fun ucf => some (rs.map fun x => x.map fun x => r64 (x / ucf))

/-- cmd/coord.go:241-255: a column of lengths of the halo catalogue is converted to comoving Mpc/h; `none` is a panic. -/
def convertColumn64 (units : String) (c : Cosmo64) (col : List (Option ℚ)) : Option (List (Option ℚ)) :=
  (unitFactor64 units c).map fun ucf => col.map fun x => x.map fun x => r64 (x * ucf)

end Shellfish.Round
