/-
Units of Bolshoi, BolshoiP and ARTIO files in machine arithmetic (float32 and float64 rounded as in Model/Round32.lean and Model/Round.lean): io/bolshoi.go:127-132, 160-165, 212-217, 241-246;
io/bolshoiP.go:125-126, 141-143; io/artio.go:49-65, 172-191, 233-248.
-/
import Verif.Model.Round32

namespace Shellfish.Round

/-- io/bolshoi.go:127: the width of a cell of the grid; `n` is `NGridCells`. -/
def bolshoiUnit32 (box : ℚ) (n : ℤ) : ℚ := r32 (box / r32 (n : ℚ))

/-- io/bolshoi.go:130-132: one coordinate. -/
def bolshoiPos32 (box : ℚ) (n : ℤ) (x : ℚ) : ℚ := r32 (r32 (x - 1) * bolshoiUnit32 box n)

/-- io/bolshoi.go:216 and io/bolshoiP.go:193: the redshift in the header; `a` is `AExpn` (float32; the result is converted to float64 without rounding). -/
def bolshoiZ32 (a : ℚ) : ℚ := r32 (r32 (1 / a) - 1)

/-- io/bolshoi.go:160 and io/bolshoiP.go:126: `scale`. -/
def bolshoiScale32 (z : ℚ) : ℚ := r32 (r64 (1 / r64 (1 + z)))

/-- io/bolshoi.go:165 and io/bolshoiP.go:141-143: one component of the velocity. -/
def bolshoiVel32 (a v : ℚ) : ℚ := r32 (v * bolshoiScale32 (bolshoiZ32 a))

/-- io/bolshoi.go:241-246 (`MinMass`), `TotalParticles` of io/bolshoi.go:250-252; `box` is `BoxWidth` (float32, converted to float64 without rounding). -/
def bolshoiMinMass32 (box : ℚ) : ℚ :=
  let boxMult := r64 (box / 250)
  let nMult := r64 (2048 * 2048 * 2048 / r64 (2048 * 2048 * 2048))
  r32 (r64 (r64 (r64 (r64 (135000000 * nMult) * boxMult) * boxMult) * boxMult))

/-- io/artio.go:49-60 and 233-244: the Hubble parameter as a float64; `none` is a missing key. -/
def artioHubble64 (h : Option ℚ) : ℚ := h.getD (r64 (7 / 10))

/-- io/artio.go:172-183: the Hubble parameter as a float32. -/
def artioHubble32 (h : Option ℚ) : ℚ := match h with
  | none => r32 (7 / 10)
  | some h => r32 h

/-- cosmo/const.go:5, times 100 (io/artio.go:185 and 246): centimetres in a Mpc.  Constants of Go are exact until they are used. -/
def mpcCm : ℚ := 30856 * 10 ^ 20

/-- cosmo/const.go:6, times 1000 (io/artio.go:61): grams in a solar mass. -/
def sunGram : ℚ := 1989 * 10 ^ 30

/-- io/artio.go:185-186: `lengthUnit` of `Read`; `unit` is "length_unit" of the header. -/
def artioUnit32 (h : Option ℚ) (unit : ℚ) : ℚ := r32 (r32 (artioHubble32 h / r32 mpcCm) * r32 unit)

/-- io/artio.go:187-191: one coordinate. -/
def artioPos32 (h : Option ℚ) (unit x : ℚ) : ℚ := r32 (x * artioUnit32 h unit)

/-- io/artio.go:246-248: the width of the box in the header; `box` is "box_size". -/
def artioWidth64 (h : Option ℚ) (unit box : ℚ) : ℚ := r64 (box * r64 (r64 (artioHubble64 h / r64 mpcCm) * unit))

/-- io/artio.go:61-65: the mass of the particles of a species; `unit` is "mass_unit", `m` is its entry of "particle_species_mass". -/
def artioMass32 (h : Option ℚ) (unit m : ℚ) : ℚ := r32 (m * r32 (r64 (r64 (artioHubble64 h / r64 sunGram) * unit)))

end Shellfish.Round
