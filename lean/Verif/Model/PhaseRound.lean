/-
cmd/phase.go:186-196, 209-223 and 270-324: the phase mode from the positions and velocities of the particles, in machine arithmetic (rounding as in Model/Round.lean and Model/Round32.lean; the bins are those of Model/BinRound.lean).
-/
import Verif.Model.BoundRound

namespace Shellfish.Round

/-- The parameters of the phase mode (cmd/phase.go:19-26) that matter here; the multiples are float64 numbers. -/
structure PhaseCfg where
  rMaxMult : ℚ
  vMaxMult : ℚ
  rbins : ℕ
  vbins : ℕ
  radial : Bool
  subHub : Bool

/-- A row of the catalog: position and velocity in float32 (cmd/stats.go:415-417), radius and circular velocity in float64. -/
structure PhaseRow where
  c : Pos32
  v : Pos32
  r : ℚ
  vr : ℚ

/-- cmd/phase.go:189, 194 and cmd/stats.go:418: the limits of a row as `insertPhasePoints` gets them. -/
def phaseGrid (cfg : PhaseCfg) (row : PhaseRow) : PhaseGrid := ⟨r32 (r64 (row.r * cfg.rMaxMult)), r32 (r64 (row.vr * cfg.vMaxMult)), cfg.rbins, cfg.vbins, cfg.radial, cfg.subHub⟩

/-- cmd/phase.go:288-293 and 301: a particle as the loop body sees it. -/
def toPhase (tw : ℚ) (row : PhaseRow) (p : Part32) : BinPoint :=
  let d := offset32 tw row.c p.x
  ⟨d.x, d.y, d.z, p.m, r32 (p.v.x - row.v.x), r32 (p.v.y - row.v.y), r32 (p.v.z - row.v.z), true⟩

/-- cmd/phase.go:270-324 (`insertPhasePoints`) for the particles of one file; `none` is an index panic. -/
noncomputable def insertPhase64 (cfg : PhaseCfg) (tw : ℚ) (row : PhaseRow) (rhos : List ℚ) (ps : List Part32) : Option (List ℚ) := phasePoints64 (phaseGrid cfg row) rhos (ps.map (toPhase tw row))

end Shellfish.Round
