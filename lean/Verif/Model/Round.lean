/-
Floating point arithmetic with rounding, and the places of the program where a rounded quotient becomes an index.

`rn p` rounds to the nearest number with `p` significant bits, ties to even: the arithmetic of Go (IEEE 754, `p` = 53 for float64) without its limits on the exponent (no overflow, no subnormal
numbers, no infinities).  Floating point numbers are rational numbers here.
-/
import Verif.Model.Finder
import Mathlib.Data.Int.Log
import Mathlib.Data.Rat.Floor
import Mathlib.Algebra.Ring.Parity

namespace Shellfish.Round
open Shellfish.Finder (Point Grid get put toInt)
open Shellfish.Los (ProfileRing modf addAt)

/-- The nearest integer, ties to even. -/
def nearest (x : ℚ) : ℤ :=
  if x - ⌊x⌋ < 1 / 2 then ⌊x⌋ else if 1 / 2 < x - ⌊x⌋ then ⌊x⌋ + 1 else if ⌊x⌋ % 2 = 0 then ⌊x⌋ else ⌊x⌋ + 1

/-- The exponent of the last bit of a number with `p` significant bits. -/
def lastBit (p : ℕ) (x : ℚ) : ℤ := Int.log 2 |x| - (p - 1)

/-- Rounding to `p` significant bits. -/
def rn (p : ℕ) (x : ℚ) : ℚ := nearest (x / 2 ^ lastBit p x) * 2 ^ lastBit p x

/-- float64. -/
def r64 : ℚ → ℚ := rn 53

/-- cmd/halo/grid.go:17-31 (`NewGrid`). -/
def newGrid (cells : Nat) (width : ℚ) (dataLen : Nat) : Grid ℚ :=
  ⟨cells, r64 (width / (cells : ℚ)), width, List.replicate (cells * cells * cells) (-1), List.replicate dataLen 0⟩

/-- cmd/halo/grid.go:47-61: one coordinate is moved into the box. -/
def wrapIn (x width : ℚ) : ℚ := if width ≤ x then r64 (x - width) else if x < 0 then r64 (x + width) else x

/-- cmd/halo/grid.go:63: the cell index of one coordinate. -/
def cellIdx (g : Grid ℚ) (x : ℚ) : Int := toInt (r64 (wrapIn x g.width / g.cw))

/-- cmd/halo/grid.go:63-64: the cell of a point. -/
def cellOf (g : Grid ℚ) (p : Point ℚ) : Int := cellIdx g p.x + cellIdx g p.y * (g.cells : Int) + cellIdx g p.z * (g.cells : Int) * (g.cells : Int)

/-- cmd/halo/grid.go:66-67: one turn of the loop of `Insert`. -/
def insertOne (g : Grid ℚ) (i : Nat) (p : Point ℚ) : Option (Grid ℚ) :=
  (get g.heads (cellOf g p)).bind fun h =>
    (put g.next i h).bind fun next => (put g.heads (cellOf g p) (i : Int)).map fun heads => { g with heads := heads, next := next }

/-- cmd/halo/grid.go:43-69 (`Insert`), from index `i` on. -/
def insertFrom (g : Grid ℚ) : Nat → List (Point ℚ) → Option (Grid ℚ)
  | _, [] => some g
  | i, p :: ps => (insertOne g i p).bind fun g' => insertFrom g' (i + 1) ps

/-- los/profile_ring.go:75-81 (`Init`). -/
def ringInit (lowR highR : ℚ) (bins n : Nat) : ProfileRing ℚ := ⟨List.replicate (bins * n) 0, bins, n, lowR, highR, r64 (r64 (highR - lowR) / (bins : ℚ))⟩

/-- `a[i] += x` with rounding; `none` is the index panic. -/
def addAtR (l : List ℚ) (i : Int) (x : ℚ) : Option (List ℚ) := if 0 ≤ i ∧ i < l.length then some (l.modify i.toNat fun a => r64 (a + x)) else none

/-- los/profile_ring.go:102-107 and 113-118: a step of height `rho` at radius `r` of line `i` (`math.Modf` is exact). -/
def step (p : ProfileRing ℚ) (r rho : ℚ) (i : Nat) (d : List ℚ) : Option (List ℚ) :=
  let (idx, rem) := modf (r64 (r64 (r - p.lowR) / p.dr))
  (addAtR d (i * p.bins + idx) (r64 (rho * r64 (1 - rem)))).bind fun d =>
    if idx < (p.bins : Int) - 1 then addAtR d (i * p.bins + idx + 1) (r64 (rho * rem)) else some d

/-- los/profile_ring.go:92-120 (`Insert`) for finite radii. -/
def ringInsert (p : ProfileRing ℚ) (start stop rho : ℚ) (i : Nat) : Option (ProfileRing ℚ) :=
  if stop ≤ p.lowR ∨ p.highR ≤ start then some p
  else
    ((if p.lowR < start then step p start rho i p.derivs else addAtR p.derivs (i * p.bins) rho).bind fun d =>
      if stop < p.highR then step p stop (-rho) i d else some d).map fun d => { p with derivs := d }

/-- math/rand/xorshift.go:28: the number made of 32 random bits `w`. -/
def unit (w : Nat) : ℚ := r64 ((4294967295 - (w : ℚ)) / 4294967295)

/-- math/rand/rand.go:90-96 (`Uniform`), given the result of `Next`. -/
def uniform (v low high : ℚ) : ℚ := if low = 0 ∧ high = 1 then v else r64 (r64 (v * r64 (high - low)) + low)

/-- math/rand/rand.go:84-88 (`UniformInt`), given the result of `Next`. -/
def uniformInt (v : ℚ) (low high : Int) : Int := ⌊r64 (r64 (r64 ((high - low : Int) : ℚ) * v) + r64 (low : ℚ))⌋

/-- cmd/prof.go:496-499: the bin of a radius from the logarithms `lr`, `lrMin` and `lrMax` (cmd/prof.go:467-469 computes `dlr`). -/
def profBin (bins : Nat) (lrMin lrMax lr : ℚ) : Int :=
  let ir := toInt (r64 (r64 (lr - lrMin) / r64 (r64 (lrMax - lrMin) / (bins : ℚ))))
  if ir = bins then ir - 1 else ir

/-- cmd/phase.go:317-318: the radial bin (`dr` is `rMax / rbins`). -/
def phaseBin (bins : Nat) (rMax r : ℚ) : Int :=
  let ir := toInt (r64 (r / r64 (rMax / (bins : ℚ))))
  if ir = bins then ir - 1 else ir

/-- los/analyze/kde.go:163-165 (`binByTheta`): the bin of an angle; `turn` is the float64 number `2 * math.Pi`. -/
def thetaBin (bins : Nat) (turn th : ℚ) : Int := toInt (r64 (th / r64 (turn / (bins : ℚ))))

/-- math/interpolate/search.go:27-50 (`unifInit` and `search` on a uniform grid): `none` is the explicit panic. -/
def unifSearch (x0 dx : ℚ) (n : Nat) (x : ℚ) : Option Int :=
  if r64 (r64 (((n : ℚ) - 1) * dx) + x0) < x ∨ x < x0 then none
  else
    let idx := toInt (r64 (r64 (x - x0) / dx))
    some (if idx = (n : Int) - 1 then idx - 1 else idx)

end Shellfish.Round
