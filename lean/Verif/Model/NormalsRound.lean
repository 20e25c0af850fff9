/-
cmd/shell.go: the ring normals with the Xorshift generator, in float64 arithmetic with its rounding.
-/
import Verif.Model.PolarRound
import Verif.Model.RandRound

namespace Shellfish.Rand
open Shellfish.Round

/-- cmd/shell.go:577-589: the loop for one normal; `none` after `fuel` refused points.  (A point at the origin, where the program would divide by zero, is not told apart from a refused one here: C124_centre shows that it is
never drawn.) -/
noncomputable def normVec64 : ℕ → Xor → Option ((ℚ × ℚ × ℚ) × Xor)
  | 0, _ => none
  | fuel + 1, g =>
    (g.uniform64 (-1) 1).bind fun x => (x.2.uniform64 (-1) 1).bind fun y => (y.2.uniform64 (-1) 1).bind fun z =>
      match ringNormal x.1 y.1 z.1 with
      | some v => some (v, z.2)
      | none => normVec64 fuel z.2

/-- cmd/shell.go:574-590: the loop over the normals. -/
noncomputable def normLoop64 (fuel : ℕ) : ℕ → Xor → Option (List (ℚ × ℚ × ℚ))
  | 0, _ => some []
  | n + 1, g => (normVec64 fuel g).bind fun r => (normLoop64 fuel n r.2).map fun vs => r.1 :: vs

/-- cmd/shell.go:566-592 (`normVecs`). -/
noncomputable def normVecs64 (fuel : ℕ) (seed : BitVec 64) (n : ℕ) : Option (List (ℚ × ℚ × ℚ)) :=
  if n = 3 then some [(0, 0, 1), (0, 1, 0), (1, 0, 0)] else normLoop64 fuel n (Xor.init seed)

end Shellfish.Rand
