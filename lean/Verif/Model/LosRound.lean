/-
los/halo.go: the insertion of a sphere that contains the center of a ring, in float64 arithmetic with its rounding and its NaN (los/halo.go:228-252, los/profile_ring.go:92-130).

Rounding is that of Model/Round.lean.  `math.Sqrt` is the correctly rounded square root, and NaN for negative numbers; of `math.Log` only its special values are fixed (`lg` is its value for positive
numbers).
-/
import Verif.Model.Round
import Mathlib.Analysis.Real.Sqrt
import Mathlib.Algebra.Order.Round

namespace Shellfish.Round
open Shellfish.Los (ProfileRing)

/-- A float64 value of Go. -/
inductive Flt where
  | nan
  | ninf
  | pinf
  | fin (q : ℚ)

/-- `a <= b` with a number `b`: false for NaN. -/
def Flt.leNum : Flt → ℚ → Bool
  | .nan, _ => false
  | .ninf, _ => true
  | .pinf, _ => false
  | .fin q, b => decide (q ≤ b)

/-- `a >= b` with a number `b`: false for NaN. -/
def Flt.geNum : Flt → ℚ → Bool
  | .nan, _ => false
  | .ninf, _ => false
  | .pinf, _ => true
  | .fin q, b => decide (b ≤ q)

/-- Rounding of a real number to 53 significant bits.  (The square root of a float64 number is never in the middle of two float64 numbers, so that the rule for ties does not matter.) -/
noncomputable def rnReal (x : ℝ) : ℚ := (round (x / 2 ^ (Int.log 2 |x| - 52)) : ℤ) * 2 ^ (Int.log 2 |x| - 52)

/-- `math.Sqrt`; `none` is NaN. -/
noncomputable def sqrt64 (x : ℚ) : Option ℚ := if x < 0 then none else some (rnReal (Real.sqrt (x : ℝ)))

/-- `math.Log` of a float64 number or NaN; `lg` is its value for positive numbers. -/
def log64 (lg : ℚ → ℚ) : Option ℚ → Flt
  | none => .nan
  | some x => if x < 0 then .nan else if x = 0 then .ninf else .fin (lg x)

/-- los/halo.go:337-346 (`oneValIntrDist`); `none` is NaN. -/
noncomputable def oneVal64 (dist2 rad2 b dir : ℚ) : Option ℚ :=
  (sqrt64 (r64 (rad2 - r64 (b * b)))).bind fun rad => (sqrt64 (r64 (dist2 - r64 (b * b)))).map fun c => if dir > 0 then r64 (rad + c) else r64 (rad - c)

/-- los/profile_ring.go:92-120 (`Insert`) for all values of the radii. -/
def ringInsertF (p : ProfileRing ℚ) (start stop : Flt) (rho : ℚ) (i : Nat) : Option (ProfileRing ℚ) :=
  if stop.leNum p.lowR ∨ start.geNum p.highR then some p
  else
    ((match start with
      | .fin s => if p.lowR < s then step p s rho i p.derivs else addAtR p.derivs (i * p.bins) rho
      | _ => addAtR p.derivs (i * p.bins) rho).bind fun d =>
      match stop with
      | .fin e => if e < p.highR then step p e (-rho) i d else some d
      | _ => some d).map fun d => { p with derivs := d }

/-- los/halo.go:232-237: the distance of the projected center and the radius of the projected circle, squared. -/
def projected (cx cy cz radius : ℚ) : ℚ × ℚ :=
  let rad2 := r64 (r64 (radius * radius) - r64 (cz * cz))
  (r64 (r64 (cx * cx) + r64 (cy * cy)), if rad2 < 0 then 0 else rad2)

/-- los/halo.go:244-245: the impact parameter of a line of sight of direction `u`. -/
def impact64 (cx cy : ℚ) (u : ℚ × ℚ) : ℚ := r64 (r64 (cy * u.1) - r64 (cx * u.2))

/-- los/halo.go:246: the component of the center along the line. -/
def along64 (cx cy : ℚ) (u : ℚ × ℚ) : ℚ := r64 (r64 (cx * u.1) + r64 (cy * u.2))

/-- los/halo.go:242-249: the loop over the lines of sight, from the line `i` on, when the circle contains the center. -/
noncomputable def insertLines (lg : ℚ → ℚ) (cx cy dist2 rad2 rho : ℚ) (p : ProfileRing ℚ) : Nat → List (ℚ × ℚ) → Option (ProfileRing ℚ)
  | _, [] => some p
  | i, u :: us => (ringInsertF p .ninf (log64 lg (oneVal64 dist2 rad2 (impact64 cx cy u) (along64 cx cy u))) rho i).bind fun p' => insertLines lg cx cy dist2 rad2 rho p' (i + 1) us

/-- los/halo.go:228-249 (`insertToRing`) when the circle contains the center; `ringVecs` are the directions of the lines of sight (los/halo.go:95-100). -/
noncomputable def insertInside (lg : ℚ → ℚ) (ringVecs : List (ℚ × ℚ)) (cx cy cz radius rho : ℚ) (p : ProfileRing ℚ) : Option (ProfileRing ℚ) :=
  insertLines lg cx cy (projected cx cy cz radius).1 (projected cx cy cz radius).2 rho p 0 ringVecs

/-- los/profile_ring.go:124-130 (`Retrieve`): the sums of the steps of the line `i`, each addition rounded. -/
def retrieve64 (p : ProfileRing ℚ) (i : Nat) : List ℚ := ((p.derivs.drop (p.bins * i)).take p.bins).scanl (fun sum d => r64 (sum + d)) 0 |>.tail

end Shellfish.Round
