/-
cmd/potential.go:160-173 and 255-330: the maps of the potential mode in machine arithmetic.

Rounding is that of Model/Round.lean and Model/Round32.lean (no overflow, no underflow, zeros without sign); operations are rounded one by one, as on amd64.  Every cell belongs to one worker (Model/Potential.lean, C79_insert), which goes
through the particles in the order of the file; so the value of a cell is a fold over the particles.
-/
import Verif.Model.PolarRound
import Verif.Model.MassRound
import Verif.Model.Potential

namespace Shellfish.Round
open Shellfish.Potential (Plane)

/-- cmd/potential.go:21-26 (`PotentialConfig`): float64 numbers. -/
structure PotCfg where
  ncells : ℕ
  rGridMult : ℚ
  rMinMult : ℚ
  rMaxMult : ℚ
  frac : ℚ

/-- cmd/potential.go:164, 168, 173 with cmd/stats.go:418: the radius of a halo, multiplied by `rMaxMult`, converted to float32 and divided by `rMaxMult` again. -/
def potRadius (cfg : PotCfg) (hr : ℚ) : ℚ := r32 (r32 (r64 (hr * cfg.rMaxMult)) / r32 cfg.rMaxMult)

/-- cmd/potential.go:264-265: `rmax2`, `rmin2`. -/
def potLimit (mult R : ℚ) : ℚ := r64 (r64 (mult * mult) * r32 (R * R))

/-- cmd/potential.go:274-276: the displacement of a particle (not wrapped). -/
def potOffset (c x : Pos32) : Pos32 := ⟨r32 (x.x - c.x), r32 (x.y - c.y), r32 (x.z - c.z)⟩

/-- cmd/potential.go:278. -/
def potSq (d : Pos32) : ℚ := r64 (r64 (r64 (d.x * d.x) + r64 (d.y * d.y)) + r64 (d.z * d.z))

/-- cmd/potential.go:278-281: the particle is not skipped. -/
def potUsed (cfg : PotCfg) (R : ℚ) (d : Pos32) : Prop := ¬ (potSq d > potLimit cfg.rMaxMult R ∨ potSq d < potLimit cfg.rMinMult R)

/-- cmd/potential.go:267. -/
def gridR64 (cfg : PotCfg) (R : ℚ) : ℚ := r64 (R * cfg.rGridMult)

/-- cmd/potential.go:268 (for one cell the quotient is infinite; 0 here). -/
def delta64 (cfg : PotCfg) (R : ℚ) : ℚ := r64 (r64 (gridR64 cfg R * 2) / ((cfg.ncells : ℚ) - 1))

/-- cmd/potential.go:291-292, 298-299, 305-306: a coordinate of the particle as seen from the `k`-th row or column of the grid. -/
def seen64 (cfg : PotCfg) (R d : ℚ) (k : ℕ) : ℚ := r64 (r64 (d - gridR64 cfg R) + r64 (delta64 cfg R * k))

/-- cmd/potential.go:289-307: `dr`. -/
noncomputable def potDist64 (cfg : PotCfg) (R : ℚ) (d : Pos32) : Plane × ℕ → Option ℚ
  | (.xy, i) => norm64 (seen64 cfg R d.x (i % cfg.ncells)) (seen64 cfg R d.y (i / cfg.ncells)) d.z
  | (.xz, i) => norm64 (seen64 cfg R d.x (i % cfg.ncells)) d.y (seen64 cfg R d.z (i / cfg.ncells))
  | (.yz, i) => norm64 d.x (seen64 cfg R d.y (i % cfg.ncells)) (seen64 cfg R d.z (i / cfg.ncells))

open Classical in
/-- cmd/potential.go:271-309: what one particle (position, mass) does to a cell.  `none`: the cell becomes infinite or NaN. -/
noncomputable def potInsert64 (cfg : PotCfg) (R : ℚ) (c : Pos32) (cell : Plane × ℕ) (phi : ℚ) (p : Pos32 × ℚ) : Option ℚ :=
  let d := potOffset c p.1
  if potUsed cfg R d then (potDist64 cfg R d cell).bind fun dr => if dr = 0 then none else some (r64 (phi - r64 (p.2 / dr)))
  else some phi

/-- cmd/potential.go:175-213 and 315-323: the printed value of a cell for a halo at `c` with radius `hr` and mass `hm`; `ps` are the particles of its files, one file after the other, that the random table keeps.  `none`: infinite or NaN. -/
noncomputable def potCell64 (cfg : PotCfg) (c : Pos32) (hr hm : ℚ) (ps : List (Pos32 × ℚ)) (cell : Plane × ℕ) : Option ℚ :=
  (ps.foldlM (potInsert64 cfg (potRadius cfg hr) c cell) 0).map fun phi => r64 (phi / r64 (r64 (cfg.frac * hm) / hr))

end Shellfish.Round
