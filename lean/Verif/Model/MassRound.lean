/-
cmd/stats.go:436-449, 513-597: the tests of the stats mode (which particles belong to the mass of a shell and to the list of its particles) in machine arithmetic.

Rounding is that of Model/Round.lean and Model/Round32.lean (no overflow, no underflow, zeros without sign).  What is assumed of the functions of package math is a hypothesis of the theorems.
-/
import Verif.Model.PennaRound
import Verif.Model.Par

namespace Shellfish.Round

/-- Three float32 numbers. -/
structure Pos32 where
  x : ℚ
  y : ℚ
  z : ℚ

/-- cmd/stats.go:436-443 (`wrap`). -/
def wrap32 (x tw2 : ℚ) : ℚ := if x > tw2 then r32 (x - tw2) else if x < -tw2 then r32 (x + tw2) else x

/-- cmd/stats.go:519 and 528-532, 552 and 563-567: one component of the displacement of a particle at `x` from a halo at `c`. -/
def disp32 (tw x c : ℚ) : ℚ := wrap32 (r32 (x - c)) (r32 (r32 tw / 2))

/-- cmd/stats.go:528-532, 563-567. -/
def offset32 (tw : ℚ) (c x : Pos32) : Pos32 := ⟨disp32 tw x.x c.x, disp32 tw x.y c.y, disp32 tw x.z c.z⟩

/-- cmd/stats.go:523, 560: the square of a limit as a float32 number. -/
def limit32 (r : ℚ) : ℚ := r32 (r64 (r * r))

/-- cmd/stats.go:536-537: the test of `massContainedChan` for a shell of the given order (`findOrder`, 425-434). -/
def massCounted (F : ShellMath) (cs : List ℚ) (order : ℕ) (tw : ℚ) (c : Pos32) (rLow rHigh : ℚ) (x : Pos32) : Prop :=
  let v := offset32 tw c x
  r2_32 v.x v.y v.z < limit32 rLow ∨ (r2_32 v.x v.y v.z < limit32 rHigh ∧ contains64 F cs order order 2 v.x v.y v.z)

/-- cmd/stats.go:573-576, 584-588: the distance of a particle and the radius of the shell in its direction; false if the angle is NaN. -/
def radii32 (F : ShellMath) (cs : List ℚ) (order : ℕ) (v : Pos32) (r rs : ℚ) : Prop :=
  sqrt64 (r2_32 v.x v.y v.z) = some r ∧ ∃ p, polar32 v.x v.y v.z = some p ∧ pennaFunc64 F cs order order 2 (F.atan2 v.y v.x) (F.acos p) = some rs

/-- cmd/stats.go:555-593: the test of `appendShellParticlesChan`.  A particle whose angle is NaN fails all comparisons. -/
def idListed (F : ShellMath) (cs : List ℚ) (order : ℕ) (tw : ℚ) (c : Pos32) (R rLow rHigh width : ℚ) (x : Pos32) : Prop :=
  let v := offset32 tw c x
  let delta := if width < 0 then 0 else r64 (R * width)
  let low2 := limit32 (r64 (rLow - delta))
  let high2 := limit32 (r64 (rHigh + delta))
  let r2 := r2_32 v.x v.y v.z
  if width < 0 then r2 < high2 ∧ ∃ r rs, radii32 F cs order v r rs ∧ rs > r
  else (r2 > low2 ∧ r2 < high2) ∧ ∃ r rs, radii32 F cs order v r rs ∧ r64 (rs + delta) > r ∧ r64 (rs - delta) < r

open Classical in
/-- cmd/stats.go:527-540: what a particle with mass `m` (float32) adds. -/
noncomputable def mass32 (F : ShellMath) (cs : List ℚ) (order : ℕ) (tw : ℚ) (c : Pos32) (rLow rHigh : ℚ) (ps : List (Pos32 × ℚ)) (i : ℕ) : ℚ :=
  match ps[i]? with
  | none => 0
  | some p => if massCounted F cs order tw c rLow rHigh p.1 then p.2 else 0

/-- cmd/stats.go:451-478 (`massContained`): the parallel section, with sums in float64. -/
noncomputable def massSection64 (workers : ℕ) (F : ShellMath) (cs : List ℚ) (order : ℕ) (tw : ℚ) (c : Pos32) (rLow rHigh : ℚ) (ps : List (Pos32 × ℚ)) : Par.Section ℚ :=
  Par.foldSection workers 1 ps.length (mass32 F cs order tw c rLow rHigh ps) (fun a b => r64 (a + b)) 0

end Shellfish.Round
