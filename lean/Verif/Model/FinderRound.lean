/-
The search of cmd/halo/finder.go in float64 arithmetic: every sum, difference, product and quotient is rounded (`r64`), as on a machine that does not fuse multiplications and additions (amd64).
Comparisons are exact.  The lists after the search are those of Model/Finder.
-/
import Verif.Model.Round

namespace Shellfish.Round
open Shellfish.Finder (Point Grid Span Lists get put toInt readIndexes maxLength visits suffixMax crossMatch)

/-- cmd/halo/finder.go:22-31 (`SphereBounds`), one dimension. -/
def sphereBounds (pos r cw width : ℚ) : Span :=
  let lo := if r64 (pos - r) < 0 then r64 (r64 (pos - r) + width) else r64 (pos - r)
  let hi := if r64 (pos - r) < 0 then r64 (r64 (pos + r) + width) else r64 (pos + r)
  ⟨toInt (r64 (lo / cw)), toInt (r64 (hi / cw)) - toInt (r64 (lo / cw)) + 1⟩

/-- cmd/halo/finder.go:248-253: a displacement is moved to the nearest image. -/
def nearImage (d L : ℚ) : ℚ :=
  let d1 := if d > r64 (L / 2) then r64 (d - L) else d
  if d1 < r64 (-L / 2) then r64 (d1 + L) else d1

/-- cmd/halo/finder.go:244-255: the squared distance. -/
def dist2 (p q : Point ℚ) (L : ℚ) : ℚ :=
  let dx := nearImage (r64 (p.x - q.x)) L
  let dy := nearImage (r64 (p.y - q.y)) L
  let dz := nearImage (r64 (p.z - q.z)) L
  r64 (r64 (r64 (dx * dx) + r64 (dy * dy)) + r64 (dz * dz))

/-- cmd/halo/finder.go:236-259 (`markSubhalos`): what is appended for the indices `idxs`. -/
def mark (ps : List (Point ℚ)) (ih : Nat) (h : Point ℚ) (r L : ℚ) (idxs : List Int) : Option (List Int) :=
  (idxs.mapM fun j => if j ≤ (ih : Int) then some none else (get ps j).map fun q => if r64 (r * r) ≥ dist2 h q L then some j else none).map fun l => l.filterMap id

/-- cmd/halo/finder.go:88-123: what halo `ih` appends. -/
def searchOne (g : Grid ℚ) (ps : List (Point ℚ)) (cap ih : Nat) (h : Point ℚ) (r maxR : ℚ) : Option (List Int) :=
  let R := r64 (r + maxR)
  ((visits (sphereBounds h.x R g.cw g.width) (sphereBounds h.y R g.cw g.width) (sphereBounds h.z R g.cw g.width) g.cells).mapM
    fun idx => (readIndexes g idx cap).bind fun l => mark ps ih h r g.width l).map List.flatten

/-- cmd/halo/finder.go:88-124: the loop over the halos from `ih` on; `starts` and `subs` are extended. -/
def searchFrom (g : Grid ℚ) (ps : List (Point ℚ)) (cap : Nat) : Nat → List (ℚ × ℚ) → Lists → Option Lists
  | _, [], s => some s
  | ih, (r, m) :: rest, s =>
    (ps[ih]?).bind fun h =>
      (put s.starts ih s.subs.length).bind fun starts =>
        (searchOne g ps cap ih h r m).bind fun found => searchFrom g ps cap (ih + 1) rest ⟨starts, s.subs ++ found⟩

/-- cmd/halo/finder.go:76-128 (`FindSubhalos`) on a new finder (cmd/halo/finder.go:65-73): the finder's lists and the radii afterwards.  (A multiplier 0 makes the radii NaN in the code; the second
component is meaningful for other multipliers only.) -/
def findSubhalos (g : Grid ℚ) (ps : List (Point ℚ)) (rs : List ℚ) (mult : ℚ) : Option (Lists × List ℚ) :=
  (maxLength g).bind fun cap =>
    if rs = [] then none
    else
      let scaled := rs.map fun r => r64 (r * mult)
      (searchFrom g ps cap 0 (scaled.zip (suffixMax scaled)) ⟨List.replicate g.next.length 0, []⟩).bind fun s =>
        (crossMatch s).map fun s' => (s', scaled.map fun r => r64 (r / mult))

end Shellfish.Round
