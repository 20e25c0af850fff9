/- Model of the parts of cmd/shell.go and cmd/stats.go that match halos with files and wrap displacements.  float32 and float64 are the real numbers. -/
import Verif.Model.Halo

namespace Shellfish.Los
noncomputable section
open Shellfish.Geom (Vec)

/-- io/io.go:78-83 (`Header`), the fields that describe the region of a file. -/
structure Region where
  origin : Vec
  width : Vec
  totalWidth : ℝ

open Classical in
/-- cmd/shell.go:599-611 (`binIntersections`). -/
def binIntersections (hds : List Region) (halos : List Halo) : List (List Halo) :=
  hds.map fun hd => halos.filter fun h => decide (h.sheetIntersect hd.origin hd.width hd.totalWidth)

/-- los/geom/sphere.go (`Sphere`): center and radius. -/
structure Sphere where
  c : Vec
  r : ℝ

/-- cmd/stats.go:684-692 (`sphereSheetIntersect`). -/
def sphereSheetIntersect (s : Sphere) (hd : Region) : Prop :=
  inRange s.c.x s.r hd.origin.x hd.width.x hd.totalWidth ∧ inRange s.c.y s.r hd.origin.y hd.width.y hd.totalWidth ∧
    inRange s.c.z s.r hd.origin.z hd.width.z hd.totalWidth

open Classical in
/-- cmd/stats.go:694-708 (`binSphereIntersections`): for each file the selected spheres with their indices (the two results zipped). -/
def binSphereIntersections (hds : List Region) (spheres : List Sphere) : List (List (Sphere × Nat)) :=
  hds.map fun hd => spheres.zipIdx.filter fun s => decide (sphereSheetIntersect s.1 hd)

/-- cmd/stats.go:436-443 (`wrap`). -/
def wrap (x tw2 : ℝ) : ℝ := if x > tw2 then x - tw2 else if x < -tw2 then x + tw2 else x

/-- cmd/stats.go:519, 528-532 (and cmd/prof.go:484-488, 542-546, cmd/phase.go:289-293, cmd/check.go:295-299): the displacement of a particle. -/
def displacement (tw x c : ℝ) : ℝ := wrap (x - c) (tw / 2)

/-- cmd/shell.go:403-406 and 434: the particles of a file are shifted for one halo after the other, in place. -/
def transformAll (tw : ℝ) (halos : List Halo) (v : Vec) : Vec := halos.foldl (fun v h => h.transform tw v) v

end
end Shellfish.Los
