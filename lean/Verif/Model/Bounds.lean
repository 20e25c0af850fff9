/-
Model of the two exported queries of cmd/halo/finder.go on a bounding box of cells: `ConvertIndices` and `Inside`.  Indices are unbounded integers (64-bit ints in the code; all values stay below three times the number of cells).
-/
import Verif.Model.Finder

namespace Shellfish.Finder

/-- cmd/halo/finder.go:37-40 (and 41-44, 45-48): one dimension of `ConvertIndices`. -/
def convertIndex (b : Span) (x width : Int) : Int :=
  let bx := x - b.origin
  if bx < 0 then bx + width else bx

/-- cmd/halo/finder.go:36-50 (`ConvertIndices`). -/
def convertIndices (bx by_ bz : Span) (x y z width : Int) : Int × Int × Int :=
  (convertIndex bx x width, convertIndex by_ y width, convertIndex bz z width)

/-- cmd/halo/finder.go:54-62 (`Inside`); the dimension selects the `Span`. -/
def inside (b : Span) (val width : Int) : Bool :=
  let lo := b.origin
  let hi := b.origin + b.span
  let v := if val ≥ hi then val - width else if val < lo then val + width else val
  decide (v < hi) && decide (v ≥ lo)

end Shellfish.Finder
