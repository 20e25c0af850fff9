/-
los/halo.go:442-467 and cmd/stats.go:679-708 in float64 arithmetic with its rounding: which files are read for which halo.
All arguments are float64 numbers (the headers' `Origin` and `Width` and the spheres are float32 numbers, whose conversion is exact).
-/
import Verif.Model.Round32

namespace Shellfish.Round

/-- los/halo.go:442-451 (`wrapDist`), also used by cmd/stats.go. -/
def wrapDistR (x1 x2 width : ℚ) : ℚ :=
  let dist := r64 (x1 - x2)
  if dist > r64 (width / 2) then r64 (dist - width) else if dist < r64 (width / -2) then r64 (dist + width) else dist

/-- los/halo.go:453-456 and cmd/stats.go:679-682 (`inRange`). -/
def inRangeR (x r low width tw : ℚ) : Prop :=
  (r64 (x + r) > low ∧ r64 (x - r) < r64 (low + width)) ∨ (wrapDistR x low tw > -r ∧ wrapDistR x (r64 (low + width)) tw < r)

instance (x r low width tw : ℚ) : Decidable (inRangeR x r low width tw) := by unfold inRangeR; infer_instance

/-- A point with three coordinates. -/
structure P3 where
  x : ℚ
  y : ℚ
  z : ℚ

/-- What is used of a header (io/io.go, `Header`): origin and width of the region in the three dimensions. -/
structure Box3 where
  x : ℚ × ℚ
  y : ℚ × ℚ
  z : ℚ × ℚ

/-- los/halo.go:458-467 (`SheetIntersect`) and cmd/stats.go:685-692 (`sphereSheetIntersect`). -/
def sheetIntersectR (c : P3) (r : ℚ) (hd : Box3) (tw : ℚ) : Prop :=
  inRangeR c.x r hd.x.1 hd.x.2 tw ∧ inRangeR c.y r hd.y.1 hd.y.2 tw ∧ inRangeR c.z r hd.z.1 hd.z.2 tw

instance (c : P3) (r : ℚ) (hd : Box3) (tw : ℚ) : Decidable (sheetIntersectR c r hd tw) := by unfold sheetIntersectR; infer_instance

/-- cmd/stats.go:694-708 (`binSphereIntersections`; cmd/prof.go:717-731 and cmd/shell.go:599-616 are the same): for every file the indices of the spheres it is read for. -/
def binSpheresR (hds : List Box3) (tw : ℚ) (spheres : List (P3 × ℚ)) : List (List ℕ) :=
  hds.map fun hd => (spheres.zipIdx.filter fun s => decide (sheetIntersectR s.1.1 s.1.2 hd tw)).map Prod.snd

/-- io/io.go:263-304 (`boundingBox`), as called by `ReadHeader` of the Gadget-2 and LGadget-2 readers, for the three dimensions: the region of a file. -/
def region32 (ps : List P3) (tw : ℚ) : Option Box3 := do
  let x ← boundingBox32 (ps.map P3.x) tw
  let y ← boundingBox32 (ps.map P3.y) tw
  let z ← boundingBox32 (ps.map P3.z) tw
  return ⟨x, y, z⟩

end Shellfish.Round
