/-
Single precision: the bounding boxes of particle files and the ids of halo catalogues in floating point arithmetic (`rn 24` and `rn 53` of Model/Round).
-/
import Verif.Model.Round
import Verif.Model.Memo

namespace Shellfish.Round

/-- float32. -/
def r32 : ℚ → ℚ := rn 24

/-- io/io.go:273-292, one coordinate of one particle, every operation rounded: `(origin, width)` afterwards.  `tw` is `float32(totalWidth)`. -/
def boxStep32 (tw x : ℚ) (s : ℚ × ℚ) : ℚ × ℚ :=
  if x > s.1 ∧ x < r32 (s.1 + s.2) then s
  else
    let x' := if r32 (x - s.1) > r32 (tw / 2) then r32 (x - tw) else if r32 (x - s.1) < -r32 (tw / 2) then r32 (x + tw) else x
    if x' < s.1 then (x', r32 (s.2 + r32 (s.1 - x'))) else if r32 (x' - s.1) > s.2 then (s.1, r32 (x' - s.1)) else s

/-- io/io.go:263-304 (`boundingBox`), one dimension (the three are independent), every operation rounded: `none` is the panic for an empty slice. -/
def boundingBox32 (xs : List ℚ) (totalWidth : ℚ) : Option (ℚ × ℚ) :=
  xs.head?.map fun x0 =>
    let tw := r32 totalWidth
    let s := xs.foldl (fun s x => boxStep32 tw x s) (x0, 0)
    if s.2 > r32 (tw / 2) then (0, tw) else s

/-- io/lgadget2.go:127-142, one coordinate of a file whose box width is `tw` (in float32): moved into the box; `none` is the error "Corruption detected". -/
def fixCoord32 (tw x : ℚ) : Option ℚ :=
  let x' := if x < 0 then r32 (x + tw) else if x ≥ tw then r32 (x - tw) else x
  if x' < -tw ∨ x' > r32 (2 * tw) then none else some x'

/-- io/bolshoi.go:219-227 and io/bolshoiP.go:196-204 (`ReadHeader`): origin and width of cell `i` of `n`, one dimension, every operation rounded. -/
def bolshoiRange32 (box : ℚ) (n i : ℤ) : ℚ × ℚ :=
  let w := r32 (box / r32 (n : ℚ))
  (r32 (r32 (i : ℚ) * w), w)

/-- io/bolshoi.go:141-148 (`bolshoiInRange`; io/bolshoiP.go:159-166, `vecInRange`, is the same), one dimension, the addition rounded. -/
def bolshoiIn32 (x : ℚ) (r : ℚ × ℚ) : Prop := x > r.1 ∧ x ≤ r32 (r.1 + r.2)

/-- cmd/halo/io.go:81-87 (`GetIDs`) of the numbers in the ID column of a catalogue: the text is read as a float64 (`strconv.ParseFloat`, the nearest number), stored, and converted with `int`. -/
def idRead (n : ℤ) : ℤ := Shellfish.Finder.toInt (r64 (n : ℚ))

/-- cmd/memo/memoize.go:153-216 (`readRockstar`): the row that a requested id selects in a catalogue with the ids `ids` (cmd/memo/memoize.go:218-240). -/
def rowOf (ids : List ℤ) (id : ℤ) : Option Nat := Shellfish.Memo.find (Shellfish.Memo.newIntFinder (ids.map idRead)) id

end Shellfish.Round
