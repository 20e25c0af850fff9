/-
cmd/prof.go and cmd/phase.go: the bins of the profiles, in machine arithmetic.  float32 and float64 are rounded as in Model/Round32.lean and Model/Round.lean.

The displacements `dx, dy, dz` of the particles (cmd/prof.go:486-490, cmd/phase.go:289-293) are given.  Of `math.Log` only the accuracy is known (`lg` is its value for positive numbers); `math.Sqrt` is correctly
rounded.  The conversion of NaN and of infinities to an integer is that of amd64 (the smallest integer); the language leaves it open.
-/
import Verif.Model.PixelRound

namespace Shellfish.Round
open Shellfish.Finder (toInt)

/-- A particle as the profiles see it: its displacement from the halo, its mass, its velocity with respect to the halo (phase mode), and whether it passes the test of the contained and bound densities
(cmd/prof.go:493-496 and 503-521; true for the other profiles). -/
structure BinPoint where
  dx : ℚ
  dy : ℚ
  dz : ℚ
  m : ℚ
  vx : ℚ
  vy : ℚ
  vz : ℚ
  counted : Bool

/-- cmd/prof.go:470-473: the squared limits `rMin2`, `rMax2` in float32. -/
def edge32 (R mult : ℚ) : ℚ := r32 (r32 (R * r32 mult) * r32 (R * r32 mult))

/-- `int(x / d)`; a quotient by zero is not a number or infinite. -/
def quotInt (x d : ℚ) : ℤ := if d = 0 then -2 ^ 63 else toInt (r64 (x / d))

/-- cmd/prof.go:467-469, 499-500 and 528-530, 561-563: the radial bin at the logarithm `lr` of the radius, for a profile of `len` entries. -/
def logBin (lg : ℚ → ℚ) (R minMult maxMult : ℚ) (bins : ℕ) (len : ℕ) (lr : ℚ) : ℤ :=
  let lrMax := lg (r64 (R * maxMult))
  let lrMin := lg (r64 (R * minMult))
  let dlr := r64 (r64 (lrMax - lrMin) / r64 (bins : ℚ))
  let ir := quotInt (r64 (lr - lrMin)) dlr
  if ir = len then ir - 1 else ir

/-- cmd/prof.go:492, 546: whether a particle is passed over. -/
def outside32 (R minMult maxMult r2 : ℚ) : Prop := r2 ≤ edge32 R minMult ∨ r2 ≥ edge32 R maxMult

instance (R minMult maxMult r2 : ℚ) : Decidable (outside32 R minMult maxMult r2) := inferInstanceAs (Decidable (_ ∨ _))

/-- cmd/prof.go:484-523: the loop body of `insertPoints`; `none` is an index panic. -/
def profPoint64 (lg : ℚ → ℚ) (R minMult maxMult : ℚ) (bins : ℕ) (rhos : List ℚ) (p : BinPoint) : Option (List ℚ) :=
  let r2 := r2_32 p.dx p.dy p.dz
  if outside32 R minMult maxMult r2 then some rhos
  else if p.counted = false then some rhos
  else addAtR rhos (logBin lg R minMult maxMult bins rhos.length (r64 (lg r2 / 2))) p.m

/-- cmd/prof.go:463-522 (`insertPoints`). -/
def profPoints64 (lg : ℚ → ℚ) (R minMult maxMult : ℚ) (bins : ℕ) (rhos : List ℚ) (ps : List BinPoint) : Option (List ℚ) :=
  ps.foldlM (profPoint64 lg R minMult maxMult bins) rhos

/-- cmd/prof.go:550, 560-563: the radial bin of a particle in `insertMedianPoints`. -/
noncomputable def medianBin64 (lg : ℚ → ℚ) (R minMult maxMult : ℚ) (bins : ℕ) (len : ℕ) (r2 : ℚ) : ℤ :=
  match sqrt64 r2 with
  | none => -2 ^ 63
  | some r => logBin lg R minMult maxMult bins len (lg r)

/-- cmd/phase.go:278-281 and 283: the limits of the phase mode. -/
structure PhaseGrid where
  rMax : ℚ
  vMax : ℚ
  rbins : ℕ
  vbins : ℕ
  radial : Bool
  subHub : Bool

/-- cmd/phase.go:278-279 (`vMin`). -/
def PhaseGrid.vMin (g : PhaseGrid) : ℚ := if g.radial then -g.vMax else 0

/-- cmd/phase.go:298-316: the velocity of a particle; `none` is NaN (0/0 at the centre). -/
noncomputable def phaseV64 (g : PhaseGrid) (p : BinPoint) (r : ℚ) : Option ℚ :=
  if g.radial then
    if r = 0 then none
    else
      let v := r64 (r32 (r32 (r32 (p.vx * p.dx) + r32 (p.vy * p.dy)) + r32 (p.vz * p.dz)) / r)
      some (if g.subHub then r64 (v - r64 (r * 70)) else v)
  else if g.subHub then
    sqrt64 (r2_32 (r32 (p.vx - r32 (70 * p.dx))) (r32 (p.vy - r32 (70 * p.dy))) (r32 (p.vz - r32 (70 * p.dz))))
  else sqrt64 (r2_32 p.vx p.vy p.vz)

/-- cmd/phase.go:288-323: the loop body of `insertPhasePoints`; `none` is an index panic. -/
noncomputable def phasePoint64 (g : PhaseGrid) (rhos : List ℚ) (p : BinPoint) : Option (List ℚ) :=
  let dv := r64 (r64 (g.vMax - g.vMin) / r64 (g.vbins : ℚ))
  let dr := r64 (g.rMax / r64 (g.rbins : ℚ))
  let r2 := r2_32 p.dx p.dy p.dz
  if r2 ≥ r64 (g.rMax * g.rMax) then some rhos
  else
    match sqrt64 r2 with
    | none => none
    | some r =>
      let ir := quotInt r dr
      let ir := if ir = g.rbins then ir - 1 else ir
      let iv : ℤ := match phaseV64 g p r with
        | none => -2 ^ 63
        | some v => quotInt (r64 (v - g.vMin)) dv
      if iv ≥ g.vbins ∨ iv < 0 then some rhos
      else addAtR rhos (ir * g.vbins + iv) p.m

/-- cmd/phase.go:270-324 (`insertPhasePoints`). -/
noncomputable def phasePoints64 (g : PhaseGrid) (rhos : List ℚ) (ps : List BinPoint) : Option (List ℚ) :=
  ps.foldlM (phasePoint64 g) rhos

end Shellfish.Round
