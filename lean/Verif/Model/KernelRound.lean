/-
io/gotetra.go:50-54 and cmd/shell.go:484-497, 546-556: the mass of the particles of a uniform simulation, the density of the sphere that stands for a particle, and the background density, in machine arithmetic (rounded as in
Model/Round.lean and Model/Round32.lean).  Of `math.Pow` only the accuracy is known (`pw`).
-/
import Verif.Model.RadiusRound
import Verif.Model.Round32

namespace Shellfish.Round

/-- io/gotetra.go:50-54 (`calcUniformMass`); `none` is NaN. -/
noncomputable def uniformMass32 (pw : ℚ → ℚ → ℚ) (count : ℕ) (tw : ℚ) (c : Cosmo64) : Option ℚ :=
  (rhoAverage64 pw (r64 (c.h100 * 100)) c.omegaM c.omegaL 0).map fun rhoM0 =>
    let mTot := r64 (r64 (r64 (tw * tw) * tw) * rhoM0)
    r32 (r64 (mTot / r64 (count : ℚ)))

/-- cmd/shell.go:485, 549: `4 * math.Pi / 3 * rad * rad * rad`; the constant is exact until it meets a float64. -/
def ballVol64 (rad : ℚ) : ℚ := r64 (r64 (r64 (r64 (4 * goPi / 3) * rad) * rad) * rad)

/-- cmd/shell.go:484: the radius of the spheres, from the largest radius of the halo. -/
def kernel64 (rMax rKernelMult rMaxMult : ℚ) : ℚ := r64 (r64 (rMax * rKernelMult) / rMaxMult)

/-- cmd/shell.go:494-495 and 553: the mass of `sf³` particles in a sphere in units of the mean density; `none` is NaN. -/
noncomputable def density64 (pw : ℚ → ℚ → ℚ) (c : Cosmo64) (m : ℚ) (sf : ℕ) (rad : ℚ) : Option ℚ :=
  (rhoAverage64 pw (r64 (c.h100 * 100)) c.omegaM c.omegaL c.z).map fun rhoM => r64 (r64 (r64 (m * r64 ((sf * sf * sf : ℕ) : ℚ)) / ballVol64 rad) / rhoM)

/-- cmd/shell.go:484-496: the density that `Insert` is called with for a particle of mass `m`, for a halo of radius `r` (546: `rMax := r*c.rMaxMult`). -/
noncomputable def insertDensity64 (pw : ℚ → ℚ → ℚ) (c : Cosmo64) (r rMaxMult rKernelMult : ℚ) (sf : ℕ) (m : ℚ) : Option ℚ :=
  density64 pw c m sf (kernel64 (r64 (r * rMaxMult)) rKernelMult rMaxMult)

/-- cmd/shell.go:547-554: the background density of a halo. -/
noncomputable def background64 (pw : ℚ → ℚ → ℚ) (c : Cosmo64) (r rKernelMult backgroundRhoMult : ℚ) (sf : ℕ) (minMass : ℚ) : Option ℚ :=
  (density64 pw c minMass sf (r64 (r * rKernelMult))).map fun rho => r64 (rho * backgroundRhoMult)

end Shellfish.Round
