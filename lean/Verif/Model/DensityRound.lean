/-
cmd/prof.go:366-374, 422-437, 568-583 and cmd/phase.go:189-202, 235-240, 325-351: from the masses in the bins to the densities that are printed, in machine arithmetic (float32 and float64 are rounded as in
Model/Round32.lean and Model/Round.lean).  Of `math.Log` and `math.Exp` only the accuracy is known (`lg`, `ex`).  `none` stands for an infinite value or for NaN.
-/
import Verif.Model.BinRound

namespace Shellfish.Round

/-- cmd/prof.go:367-374 and 694-710: the radius by which the particles of a halo are binned.  It is multiplied by the outer limit and divided by it again in float32. -/
def binRadius (R maxMult : ℚ) : ℚ := r32 (r32 (r32 R * r32 maxMult) / r32 maxMult)

/-- cmd/prof.go:579, cmd/phase.go:343: the volume between two radii. -/
def shell64 (lo hi : ℚ) : ℚ := r64 (r64 (r64 (r64 (r64 (r64 (hi * hi) * hi) - r64 (r64 (lo * lo) * lo)) * 4) * pi64) / 3)

/-- A quotient in float64. -/
def div64 (x y : ℚ) : Option ℚ := if y = 0 then none else some (r64 (x / y))

/-- cmd/prof.go:571-572: the width of a bin. -/
def dlr64 (lg : ℚ → ℚ) (n : ℕ) (rMin rMax : ℚ) : ℚ := r64 (r64 (lg rMax - lg rMin) / r64 (n : ℚ))

/-- cmd/prof.go:577-578: the edges of the bins. -/
def edge64 (lg ex : ℚ → ℚ) (n : ℕ) (rMin rMax : ℚ) (j : ℕ) : ℚ := ex (r64 (r64 (dlr64 lg n rMin rMax * r64 (j : ℚ)) + lg rMin))

/-- cmd/prof.go:568-583 (`processProfile`): the radii and the densities. -/
def processProfile64 (lg ex : ℚ → ℚ) (rMin rMax : ℚ) (rhos : List ℚ) : List ℚ × List (Option ℚ) :=
  let n := rhos.length
  ((List.range n).map fun j : ℕ => ex (r64 (lg rMin + r64 (dlr64 lg n rMin rMax * r64 (r64 (j : ℚ) + 1 / 2)))),
    (List.range n).map fun j : ℕ => div64 (rhos.getD j 0) (shell64 (edge64 lg ex n rMin rMax j) (edge64 lg ex n rMin rMax (j + 1))))

/-- cmd/prof.go:463-523, 422-423, 435: the radii and densities of a halo of radius `R` from its particles; `none` is an index panic. -/
def profile64 (lg ex : ℚ → ℚ) (R minMult maxMult : ℚ) (bins : ℕ) (ps : List BinPoint) : Option (List ℚ × List (Option ℚ)) :=
  (profPoints64 lg (binRadius R maxMult) minMult maxMult bins (List.replicate bins 0) ps).map (processProfile64 lg ex (r64 (R * minMult)) (r64 (R * maxMult)))

/-- cmd/phase.go:325-349 (`processPhaseProfile`): the radii, the velocities and the densities. -/
def processPhase64 (g : PhaseGrid) (rhos : List ℚ) : List ℚ × List ℚ × List (Option ℚ) :=
  let dv := r64 (r64 (g.vMax - g.vMin) / r64 (g.vbins : ℚ))
  let dr := r64 (g.rMax / r64 (g.rbins : ℚ))
  ((List.range g.rbins).map fun j : ℕ => r64 (dr * r64 (r64 (j : ℚ) + 1 / 2)),
    (List.range g.vbins).map fun i : ℕ => r64 (g.vMin + r64 (dv * r64 (r64 (i : ℚ) + 1 / 2))),
    (List.range (g.rbins * g.vbins)).map fun k : ℕ =>
      div64 (rhos.getD k 0) (r64 (shell64 (r64 (dr * r64 ((k / g.vbins : ℕ) : ℚ))) (r64 (dr * r64 ((k / g.vbins + 1 : ℕ) : ℚ))) * dv)))

/-- cmd/phase.go:201-202: the particles are binned with limits in float32. -/
def PhaseGrid.bins32 (g : PhaseGrid) : PhaseGrid := { g with rMax := r32 g.rMax, vMax := r32 g.vMax }

/-- cmd/phase.go:189-202, 270-324, 235-240: the radii, velocities and densities of a halo with the limits of `g`; `none` is an index panic. -/
noncomputable def phase64 (g : PhaseGrid) (ps : List BinPoint) : Option (List ℚ × List ℚ × List (Option ℚ)) :=
  (phasePoints64 g.bins32 (List.replicate (g.rbins * g.vbins) 0) ps).map (processPhase64 g)

end Shellfish.Round
