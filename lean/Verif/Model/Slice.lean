/-
Model of los/geom/lines.go and of the plane slices of los/geom/intersection.go.  float32 and float64 are the real numbers (no rounding).
-/
import Verif.Model.Plucker

namespace Shellfish.Geom
noncomputable section
open Classical

/-- los/geom/lines.go:10 (`LineEps`, its initial value; nothing in the program changes it). -/
def lineEps : ℝ := 1 / 100000

/-- los/geom/lines.go:13-16 (`Line`). -/
structure Line where
  y0 : ℝ
  m : ℝ
  vertical : Bool

/-- los/geom/lines.go:18-20 (`lineEpsEq`). -/
def lineEpsEq (x y : ℝ) : Prop := x + lineEps > y ∧ x - lineEps < y

/-- los/geom/lines.go:25-38 (`Line.Init`): the new value of the line and `ok`.  A vertical line keeps the slope that it had. -/
def Line.init (l : Line) (x1 y1 x2 y2 : ℝ) : Line × Bool :=
  if lineEpsEq x1 x2 then
    if lineEpsEq y1 y2 then (l, false) else ({ l with y0 := x1, vertical := true }, true)
  else (⟨y1 - (y1 - y2) / (x1 - x2) * x1, (y1 - y2) / (x1 - x2), false⟩, true)

/-- los/geom/lines.go:42-44 (`InitFromPlucker`): the anchor and the direction are given to `Init`; its result is dropped. -/
def Line.initFromPlucker (l : Line) (ap : Anchored) : Line := (l.init ap.p.x ap.p.y ap.pl.u.x ap.pl.u.y).1

/-- los/geom/lines.go:47-49 (`AreParallel`). -/
def areParallel (l1 l2 : Line) : Prop := (l1.vertical = true ∧ l2.vertical = true) ∨ lineEpsEq l1.m l2.m

/-- los/geom/lines.go:54-68 (`Solve`); `none` is `ok = false`. -/
def solve (l1 l2 : Line) : Option (ℝ × ℝ) :=
  if areParallel l1 l2 then none
  else if l1.vertical = true then some (l1.y0, l2.y0 + l2.m * l1.y0)
  else if l2.vertical = true then some (l2.y0, l1.y0 + l1.m * l2.y0)
  else
    let x := (l2.y0 - l1.y0) / (l1.m - l2.m)
    some (x, l1.y0 + l1.m * x)

/-- los/geom/intersection.go:88-94 (`TetraSlice`): one entry of `Xs`, `Ys`, `Phis` and `edges`. -/
structure Corner where
  x : ℝ
  y : ℝ
  phi : ℝ
  edge : Fin 6

/-- los/geom/intersection.go:88-94 (`TetraSlice`): one entry of `lineStarts`, `lineEnds`, `linePhiStarts`, `linePhiWidths` and `Lines`. -/
structure Side where
  start : Nat
  stop : Nat
  phiStart : ℝ
  phiWidth : ℝ
  line : Line

/-- los/geom/intersection.go:88-94 (`TetraSlice`): the first `Points` entries of the arrays. -/
structure Slice where
  corners : List Corner
  sides : List Side

/-- los/geom/intersection.go:98-101 (`crossesZPlane`). -/
def Tetra.crosses (t : Tetra) (i j : Fin 4) (z : ℝ) : Bool := decide ((t i).z < z) != decide ((t j).z < z)

/-- los/geom/intersection.go:106-112 (`intersectZPlane`): the point (0, 0) when the ray is in a plane (the caller drops `ok`). -/
def intersectZPlane (p l : Vec) (z : ℝ) : ℝ × ℝ :=
  if l.z = 0 then (0, 0) else (p.x + l.x * ((z - p.z) / l.z), p.y + l.y * ((z - p.z) / l.z))

/-- los/geom/intersection.go:179-182 and los/geom/rotation.go:93-95 (`PolarAngle`): the angle of a corner. -/
def cornerPhi (x y : ℝ) : ℝ := if atan2 y x < 0 then atan2 y x + 2 * Real.pi else atan2 y x

/-- los/geom/intersection.go:177-187: the corner on the edge `i`. -/
def cornerAt (pt : PluckerTetra) (t : Tetra) (z : ℝ) (i : Fin 6) : Corner :=
  let q := intersectZPlane (t (edgeStart i)) (pt i).u z
  ⟨q.1, q.2, cornerPhi q.1 q.2, i⟩

/-- los/geom/intersection.go:174-176: the edges that cross the plane, in order. -/
def Tetra.crossed (t : Tetra) (z : ℝ) : List (Fin 6) := (List.finRange 6).filter fun i => t.crosses (edgeStart i) (edgeEnd i) z

/-- los/geom/primitives.go:375-382 (`pluckerTetraFaceShare`). -/
def faceShare (e f : Fin 6) : Bool :=
  ((![![false, true, true, true, true, false], ![true, false, true, true, false, true], ![true, true, false, false, true, true],
    ![true, true, false, false, true, true], ![true, false, true, true, false, true], ![false, true, true, true, true, false]] : Fin 6 → Fin 6 → Bool)) e f

/-- los/geom/intersection.go:115-142: the variables of the first loop of `link`; an entry that is missing or `none` is -1. -/
structure LinkState where
  starts : List (Option Nat)
  ends : List (Option Nat)
  lineEnd : Option Nat
  ei : Fin 6

/-- los/geom/intersection.go:128-135: the first corner on an edge that shares a face with the current edge and whose line has no start yet. -/
def linkNext (edges : List (Fin 6)) (s : LinkState) : Option Nat :=
  (List.range edges.length).find? fun j => ((edges[j]?).map (faceShare s.ei)).getD false && (((s.starts[j]?).getD none).isNone)

/-- los/geom/intersection.go:120-142: one iteration. -/
def linkStep (edges : List (Fin 6)) (s : LinkState) (i : Nat) : LinkState :=
  let lineStart := if i > 0 then (s.ends[i - 1]?).getD none else some 0
  let next : Option Nat × Fin 6 :=
    if i = edges.length - 1 then (some 0, s.ei)
    else match linkNext edges s with
      | some j => (some j, (edges[j]?).getD s.ei)
      | none => (s.lineEnd, s.ei)
  ⟨s.starts ++ [lineStart], s.ends ++ [next.1], next.1, next.2⟩

/-- los/geom/intersection.go:115-142: the start and the end of every line; `none` is -1. -/
def linkPairs (edges : List (Fin 6)) : List (Option Nat × Option Nat) :=
  let s := (List.range edges.length).foldl (linkStep edges) ⟨[], [], none, (edges[0]?).getD 0⟩
  s.starts.zip s.ends

/-- los/geom/intersection.go:145-156: the two ends in the order of increasing angle, and the angular range. -/
def sideOf (cs : List Corner) (a b : Nat) : Option Side := do
  let ca ← cs[a]?
  let cb ← cs[b]?
  let width := angularDistance ca.phi cb.phi
  some (if width < 0 then ⟨b, a, cb.phi, -width, ⟨0, 0, false⟩⟩ else ⟨a, b, ca.phi, width, ⟨0, 0, false⟩⟩)

/-- los/geom/intersection.go:144-164: the second loop of `link` over the lines from number `i`; `old` are the lines that the slice already had.
`none`: index panic, `some none`: `ok = false`. -/
def linkSides (cs : List Corner) (old : Nat → Line) : Nat → List (Option Nat × Option Nat) → Option (Option (List Side))
  | _, [] => some (some [])
  | i, (oa, ob) :: rest => do
    let a ← oa
    let b ← ob
    let s ← sideOf cs a b
    let c1 ← cs[s.start]?
    let c2 ← cs[s.stop]?
    let l := (old i).init c1.x c1.y c2.x c2.y
    if l.2 = false then some none
    else (linkSides cs old (i + 1) rest).map fun r => r.map fun ss => { s with line := l.1 } :: ss

/-- los/geom/intersection.go:168-199 (`ZPlaneSlice`); `old` are the lines that the slice already had.  `none`: index panic (more than four corners, or in
`link`), `some none`: `ok = false` (the content of the slice is then not used). -/
def zPlaneSlice (pt : PluckerTetra) (t : Tetra) (z : ℝ) (old : Nat → Line) : Option (Option Slice) :=
  let edges := t.crossed z
  let cs := edges.map (cornerAt pt t z)
  if edges.length > 4 then none
  else if edges.length < 3 then some none
  else (linkSides cs old 0 (linkPairs edges)).map fun r => r.map fun ss => ⟨cs, ss⟩

/-- los/geom/intersection.go:201-207 (`angularWidth`). -/
def angularWidth (low high : ℝ) : ℝ := if low < high then high - low else 2 * Real.pi + high - low

/-- los/geom/intersection.go:219-220: the test of `IntersectingLines`. -/
def Side.hit (s : Side) (phi : ℝ) : Prop := angularWidth s.phiStart phi ≥ 0 ∧ s.phiWidth > angularWidth s.phiStart phi

/-- los/geom/intersection.go:214-230 (`IntersectingLines`): the first two lines that pass the test; `none` is nil. -/
def Slice.intersectingLines (s : Slice) (phi : ℝ) : Option Line × Option Line :=
  let hits := s.sides.filter fun d => d.hit phi
  ((hits[0]?).map Side.line, (hits[1]?).map Side.line)

/-- los/geom/intersection.go:241-257: one iteration of `AngleRange`; the state is `lowPhi`, `highPhi`, `phiWidth`. -/
def rangeStep (s : ℝ × ℝ × ℝ) (phi : ℝ) : ℝ × ℝ × ℝ :=
  let lowWidth := angularWidth phi s.2.1
  let highWidth := angularWidth s.1 phi
  if highWidth < lowWidth then (if highWidth > s.2.2 then (s.1, phi, highWidth) else s)
  else (if lowWidth > s.2.2 then (phi, s.2.1, lowWidth) else s)

/-- los/geom/intersection.go:234-239: the range of the first two corners. -/
def rangeStart (a b : ℝ) : ℝ × ℝ × ℝ :=
  let p := if angularWidth a b > angularWidth b a then (b, a) else (a, b)
  (p.1, p.2, angularWidth p.1 p.2)

/-- los/geom/intersection.go:233-265 (`AngleRange`) of the angles of the corners: start and width.  `none` stands for a slice with fewer than two corners, for
which the code reads old array entries; `ZPlaneSlice` never makes one. -/
def angleRange : List ℝ → Option (ℝ × ℝ)
  | a :: b :: rest =>
    let s := rest.foldl rangeStep (rangeStart a b)
    some (if s.2.2 > Real.pi then (0, 2 * Real.pi) else (s.1, s.2.2))
  | _ => none

/-- los/geom/intersection.go:269-281 (`RSqrMinMax`): least and greatest square of a radius; `none` as in `angleRange`. -/
def rSqrMinMax : List Corner → Option (ℝ × ℝ)
  | [] => none
  | c :: rest => some (rest.foldl (fun m d =>
      let r := d.x * d.x + d.y * d.y
      if r > m.2 then (m.1, r) else if r < m.1 then (r, m.2) else m) (c.x * c.x + c.y * c.y, c.x * c.x + c.y * c.y))

end
end Shellfish.Geom
