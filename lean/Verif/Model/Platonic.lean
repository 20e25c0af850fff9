/-
Model of los/geom/platonic.go: the Platonic solids, their faces and their normals.  Floating point numbers are real numbers; `none` is a panic.

The vertex tables are package variables that are written once, by `init`, and never again in this package; `FaceVertices` hands out the rows of the tables themselves.  The model has
the tables as constants: a caller that writes into a row it got from `FaceVertices` is outside the model.
-/
import Mathlib.Analysis.SpecialFunctions.Pow.Real

namespace Shellfish.Platonic
noncomputable section

/-- los/geom/platonic.go:9 (`PlatonicSolid`): an integer flag. -/
abbrev Solid := Int

/-- A `[3]float32`. -/
abbrev V3 := ℝ × ℝ × ℝ

/-- los/geom/platonic.go:12 (`PlatonicTetrahedron`). -/
abbrev tetrahedron : Solid := 0
/-- los/geom/platonic.go:13 (`PlatonicHexahedron`). -/
abbrev hexahedron : Solid := 1
/-- los/geom/platonic.go:14 (`PlatonicOctahedron`). -/
abbrev octahedron : Solid := 2
/-- los/geom/platonic.go:15 (`PlatonicDodecahedron`). -/
abbrev dodecahedron : Solid := 3
/-- los/geom/platonic.go:16 (`PlatonicIcosahedron`). -/
abbrev icosahedron : Solid := 4

/-- los/geom/platonic.go:20-35 (`Sides`). -/
def sides (s : Solid) : Option Nat :=
  if s = tetrahedron then some 4
  else if s = hexahedron then some 6
  else if s = octahedron then some 8
  else if s = dodecahedron then some 12
  else if s = icosahedron then some 20
  else none

/-- los/geom/platonic.go:42-57 (`NewPlatonicSolid`). -/
def newSolid (n : Int) : Solid × Bool :=
  if n = 4 then (tetrahedron, true)
  else if n = 6 then (hexahedron, true)
  else if n = 8 then (octahedron, true)
  else if n = 12 then (dodecahedron, true)
  else if n = 20 then (icosahedron, true)
  else (0, false)

/-- los/geom/platonic.go:59-72 (`NewUniquePlatonicSolid`). -/
def newUniqueSolid (n : Int) : Solid × Bool :=
  if n = 3 then (hexahedron, true)
  else if n = 4 then (tetrahedron, true)
  else if n = 6 then (dodecahedron, true)
  else if n = 10 then (icosahedron, true)
  else (0, false)

/-- los/geom/platonic.go:83. -/
def phi : ℝ := (1 + Real.sqrt 5) / 2

/-- los/geom/platonic.go:85-90. -/
def tetrahedronVertices : List (List V3) := [
  [(1, 1, 1), (-1, 1, -1), (1, -1, -1)],
  [(-1, 1, -1), (-1, -1, 1), (1, -1, -1)],
  [(1, 1, 1), (1, -1, -1), (-1, -1, 1)],
  [(1, 1, 1), (-1, -1, 1), (-1, 1, -1)]]

/-- los/geom/platonic.go:92-100. -/
def hexahedronVertices : List (List V3) := [
  [(1, -1, -1), (1, 1, -1), (1, 1, 1), (1, -1, 1)],
  [(-1, 1, -1), (-1, 1, 1), (1, 1, 1), (1, 1, -1)],
  [(-1, -1, 1), (1, -1, 1), (1, 1, 1), (-1, 1, 1)],
  [(-1, -1, -1), (1, -1, -1), (1, -1, 1), (-1, -1, 1)],
  [(-1, -1, -1), (-1, -1, 1), (-1, 1, 1), (-1, 1, -1)],
  [(-1, -1, -1), (-1, 1, -1), (1, 1, -1), (1, -1, -1)]]

/-- los/geom/platonic.go:103-113, for the numbers `a` and `b` of line 102. -/
def octahedronTable (a b : ℝ) : List (List V3) := [
  [(-a, 0, a), (-a, 0, -a), (0, b, 0)],
  [(-a, 0, -a), (a, 0, -a), (0, b, 0)],
  [(a, 0, -a), (a, 0, a), (0, b, 0)],
  [(a, 0, a), (-a, 0, a), (0, b, 0)],
  [(a, 0, a), (a, 0, -a), (0, -b, 0)],
  [(-a, 0, a), (a, 0, a), (0, -b, 0)],
  [(-a, 0, -a), (-a, 0, a), (0, -b, 0)],
  [(a, 0, -a), (-a, 0, -a), (0, -b, 0)]]

/-- los/geom/platonic.go:102-113. -/
def octahedronVertices : List (List V3) := octahedronTable (1 / (2 * Real.sqrt 2)) (1 / 2)

/-- los/geom/platonic.go:117-131, for the numbers `b` and `c` of lines 115-116. -/
def dodecahedronTable (b c : ℝ) : List (List V3) := [
  [(c, 0, 1), (-c, 0, 1), (-b, b, b), (0, 1, c), (b, b, b)],
  [(-c, 0, 1), (c, 0, 1), (b, -b, b), (0, -1, c), (-b, -b, b)],
  [(0, -1, -c), (0, -1, c), (-b, -b, b), (-1, -c, 0), (-b, -b, -b)],
  [(0, -1, c), (0, -1, -c), (b, -b, -b), (1, -c, 0), (b, -b, b)],
  [(1, c, 0), (1, -c, 0), (b, -b, b), (c, 0, 1), (b, b, b)],
  [(-1, -c, 0), (-1, c, 0), (-b, b, b), (-c, 0, 1), (-b, -b, b)],
  [(c, 0, -1), (-c, 0, -1), (-b, -b, -b), (0, -1, -c), (b, -b, -b)],
  [(-c, 0, -1), (c, 0, -1), (b, b, -b), (0, 1, -c), (-b, b, -b)],
  [(0, 1, -c), (0, 1, c), (b, b, b), (1, c, 0), (b, b, -b)],
  [(0, 1, c), (0, 1, -c), (-b, b, -b), (-1, c, 0), (-b, b, b)],
  [(-1, c, 0), (-1, -c, 0), (-b, -b, -b), (-c, 0, -1), (-b, b, -b)],
  [(1, -c, 0), (1, c, 0), (b, b, -b), (c, 0, -1), (b, -b, -b)]]

/-- los/geom/platonic.go:115-131. -/
def dodecahedronVertices : List (List V3) := dodecahedronTable (1 / phi) (2 - phi)

/-- los/geom/platonic.go:134-156, for the numbers `a` and `b` of line 133. -/
def icosahedronTable (a b : ℝ) : List (List V3) := [
  [(0, b, a), (-b, a, 0), (b, a, 0)],
  [(0, b, -a), (b, a, 0), (-b, a, 0)],
  [(0, b, a), (0, -b, a), (-a, 0, b)],
  [(0, b, a), (a, 0, b), (0, -b, a)],
  [(0, b, a), (-a, 0, b), (-b, a, 0)],
  [(0, -b, -a), (-a, 0, -b), (-b, -a, 0)],
  [(0, b, a), (b, a, 0), (a, 0, b)],
  [(b, a, 0), (a, 0, -b), (a, 0, b)],
  [(0, -b, a), (a, 0, b), (b, -a, 0)],
  [(-b, a, 0), (-a, 0, b), (-a, 0, -b)],
  [(0, -b, -a), (-b, -a, 0), (b, -a, 0)],
  [(0, -b, a), (b, -a, 0), (-b, -a, 0)],
  [(0, b, -a), (0, -b, -a), (a, 0, -b)],
  [(0, b, -a), (-a, 0, -b), (0, -b, -a)],
  [(0, -b, -a), (b, -a, 0), (a, 0, -b)],
  [(0, b, -a), (a, 0, -b), (b, a, 0)],
  [(0, b, -a), (-b, a, 0), (-a, 0, -b)],
  [(-b, -a, 0), (-a, 0, -b), (-a, 0, b)],
  [(0, -b, a), (-b, -a, 0), (-a, 0, b)],
  [(b, -a, 0), (a, 0, b), (a, 0, -b)]]

/-- los/geom/platonic.go:133-156. -/
def icosahedronVertices : List (List V3) := icosahedronTable (1 / 2) (1 / (2 * phi))

/-- los/geom/platonic.go:168-182: the table of a solid. -/
def table (s : Solid) : Option (List (List V3)) :=
  if s = tetrahedron then some tetrahedronVertices
  else if s = hexahedron then some hexahedronVertices
  else if s = octahedron then some octahedronVertices
  else if s = dodecahedron then some dodecahedronVertices
  else if s = icosahedron then some icosahedronVertices
  else none

/-- los/geom/platonic.go:162-183 (`FaceVertices`); a negative index is the index panic of the table. -/
def faceVertices (s : Solid) (i : Int) : Option (List V3) := do
  let n ← sides s
  if i ≥ n then none
  else
    let t ← table s
    if i < 0 then none else t[i.toNat]?

/-- los/geom/platonic.go:196-200: the sum of the vertices of a face. -/
def sumVerts (vs : List V3) : V3 := vs.foldl (fun v p => (v.1 + p.1, v.2.1 + p.2.1, v.2.2 + p.2.2)) (0, 0, 0)

/-- los/geom/platonic.go:202-209: a vector over its length. -/
def normalize (v : V3) : V3 :=
  let sum := Real.sqrt (v.1 * v.1 + v.2.1 * v.2.1 + v.2.2 * v.2.2)
  (v.1 / sum, v.2.1 / sum, v.2.2 / sum)

/-- los/geom/platonic.go:191-213 (`Normals`). -/
def normals (s : Solid) : Option (List V3) := do
  let n ← sides s
  (List.range n).mapM fun i : Nat => (faceVertices s i).map fun vs => normalize (sumVerts vs)

/-- los/geom/platonic.go:217-225 (`UniqueNormals`). -/
def uniqueNormals (s : Solid) : Option (List V3) := do
  let vs ← normals s
  if s = tetrahedron then some vs else some (vs.take (vs.length / 2))

end
end Shellfish.Platonic
