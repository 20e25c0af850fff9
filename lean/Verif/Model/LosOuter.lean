/-
los/halo.go: the insertion of a sphere that does not contain the center of a ring, in float64 arithmetic with its rounding and its NaN (los/halo.go:85-101, 228-310, 315-329).

Of package math, `Sqrt` is correctly rounded; `Atan2`, `Asin` and `Sincos` are parameters (`OuterLib`).  Conversion of NaN to int is that of amd64.
-/
import Verif.Model.PixelRound

namespace Shellfish.Round
open Shellfish.Los (ProfileRing)

/-- `math.Atan2(y, x)`, `math.Asin` of numbers up to 1, and `math.Sincos`. -/
structure OuterLib where
  atan2 : ℚ → ℚ → ℚ
  asin : ℚ → ℚ
  sin : ℚ → ℚ
  cos : ℚ → ℚ

/-- los/halo.go:99: the angle between two lines of sight. -/
def dPhi64 (n : ℕ) : ℚ := r64 (r64 (1 / (n : ℚ)) * (2 * pi64))

/-- los/halo.go:96: the angle of the line of sight `i`. -/
def ringPhi64 (n i : ℕ) : ℚ := r64 (r64 ((i : ℚ) / (n : ℚ)) * (2 * pi64))

/-- los/halo.go:97: the direction of the line of sight `i`. -/
def ringVec64 (lib : OuterLib) (n i : ℕ) : ℚ × ℚ := (lib.cos (ringPhi64 n i), lib.sin (ringPhi64 n i))

/-- los/halo.go:315-317 (`halfAngularWidth`), for `r2 <= dist2`; `none` is NaN (0/0, and numbers above 1). -/
noncomputable def halfAngle64 (lib : OuterLib) (dist2 r2 : ℚ) : Option ℚ :=
  if dist2 = 0 then none else (sqrt64 (r64 (r2 / dist2))).bind fun t => if 1 < t then none else some (lib.asin t)

/-- A comparison `x < y` of a float64 that may be NaN (`none`). -/
def ltNum (x : Option ℚ) (y : ℚ) : Prop := ∃ a, x = some a ∧ a < y

/-- A comparison `x > y`. -/
def gtNum (x : Option ℚ) (y : ℚ) : Prop := ∃ a, x = some a ∧ y < a

open Classical in
/-- los/halo.go:284-310 (`idxRange`). -/
noncomputable def idxRange64 (n : ℕ) (phiLo phiHi : Option ℚ) : (ℤ × ℤ) × (ℤ × ℤ) :=
  let d := dPhi64 n
  if gtNum phiHi (2 * pi64) then
    ((int64 (phiLo.map fun x => r64 (x / d)), n), (0, int64 (phiHi.map fun x => r64 (r64 (x - 2 * pi64) / d)) + 1))
  else if ltNum phiLo 0 then
    ((int64 (phiLo.map fun x => r64 (r64 (x + 2 * pi64) / d)), n), (0, int64 (phiHi.map fun x => r64 (x / d)) + 1))
  else ((int64 (phiLo.map fun x => r64 (x / d)), int64 (phiHi.map fun x => r64 (x / d)) + 1), (0, 0))

/-- The values of `i` in `for i := a; i < b; i++`. -/
def loopRange (a b : ℤ) : List ℤ := (List.range (b - a).toNat).map fun k : ℕ => a + (k : ℤ)

/-- los/halo.go:254-258, 268: the values of `i` in both loops. -/
noncomputable def outerLines (lib : OuterLib) (n : ℕ) (cx cy dist2 rad2 : ℚ) : List ℤ :=
  let alpha := halfAngle64 lib dist2 rad2
  let phi := lib.atan2 cy cx
  let r := idxRange64 n (alpha.map fun a => r64 (phi - a)) (alpha.map fun a => r64 (phi + a))
  loopRange r.1.1 r.1.2 ++ loopRange r.2.1 r.2.2

/-- los/halo.go:324-329 (`twoValIntrDist`); `none` is NaN. -/
noncomputable def twoVal64 (dist2 rad2 b : ℚ) : Option (ℚ × ℚ) :=
  (sqrt64 (r64 (dist2 - r64 (b * b)))).bind fun mid => (sqrt64 (r64 (rad2 - r64 (b * b)))).map fun diff => (r64 (mid - diff), r64 (mid + diff))

/-- los/halo.go:259-265, 269-275: the call of `Insert` for the line `i`: `none` is the index panic of `h.ringVecs[i]`, `some none` is `continue`. -/
noncomputable def outerCall (lib : OuterLib) (n : ℕ) (cx cy dist2 rad2 : ℚ) (i : ℤ) : Option (Option (ℕ × ℚ × ℚ)) :=
  if i < 0 ∨ (n : ℤ) ≤ i then none
  else some ((twoVal64 dist2 rad2 (impact64 cx cy (ringVec64 lib n i.toNat))).map fun r => (i.toNat, r.1, r.2))

/-- los/halo.go:252-276: the calls of `Insert` (line, near end, far end); `none` is a panic. -/
noncomputable def outerCalls (lib : OuterLib) (n : ℕ) (cx cy dist2 rad2 : ℚ) : Option (List (ℕ × ℚ × ℚ)) :=
  ((outerLines lib n cx cy dist2 rad2).mapM fun i => outerCall lib n cx cy dist2 rad2 i).map fun cs => cs.filterMap id

/-- los/halo.go:228-277 (`insertToRing`) when the circle does not contain the center; `lg` is the value of `math.Log` for positive numbers. -/
noncomputable def insertOuter (lib : OuterLib) (lg : ℚ → ℚ) (n : ℕ) (cx cy cz radius rho : ℚ) (p : ProfileRing ℚ) : Option (ProfileRing ℚ) :=
  (outerCalls lib n cx cy (projected cx cy cz radius).1 (projected cx cy cz radius).2).bind fun cs =>
    cs.foldlM (fun p c => ringInsertF p (log64 lg (some c.2.1)) (log64 lg (some c.2.2)) rho c.1) p

end Shellfish.Round
