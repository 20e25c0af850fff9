/-
Model of los/geom/primitives.go and of the ray-tetrahedron intersection of los/geom/intersection.go.  float32 and float64 are the real numbers (no rounding).
-/
import Verif.Model.Rotation

namespace Shellfish.Geom
noncomputable section

/-- los/geom/primitives.go:19-21 (`PluckerVec`). -/
@[ext] structure Plucker where
  u : Vec
  v : Vec

/-- los/geom/primitives.go:25-28 (`AnchoredPluckerVec`). -/
@[ext] structure Anchored where
  pl : Plucker
  p : Vec

/-- The expression of los/geom/primitives.go:35-37, 51-53 and 58-60. -/
def moment (p l : Vec) : Vec := ⟨-p.y * l.z + p.z * l.y, -p.z * l.x + p.x * l.z, -p.x * l.y + p.y * l.x⟩

/-- Componentwise sum, as in los/geom/primitives.go:108-110 and 159-163. -/
def Vec.add (a b : Vec) : Vec := ⟨a.x + b.x, a.y + b.y, a.z + b.z⟩

/-- Componentwise difference, as in los/geom/primitives.go:45. -/
def Vec.sub (a b : Vec) : Vec := ⟨a.x - b.x, a.y - b.y, a.z - b.z⟩

/-- los/geom/primitives.go:32-38 (`PluckerVec.Init`). -/
def Plucker.init (p l : Vec) : Plucker := ⟨l, moment p l⟩

/-- los/geom/primitives.go:42-54 (`PluckerVec.InitFromSegment`): the direction is not normalised. -/
def Plucker.segment (p1 p2 : Vec) : Plucker := ⟨p2.sub p1, moment p1 (p2.sub p1)⟩

/-- los/geom/primitives.go:57-61 (`PluckerVec.Translate`). -/
def Plucker.translate (p : Plucker) (d : Vec) : Plucker := ⟨p.u, p.v.add (moment d p.u)⟩

/-- los/geom/primitives.go:65-75 (`Dot`). -/
def Plucker.dot (p q : Plucker) (flip : Bool) : ℝ :=
  let sum := p.u.x * q.v.x + p.v.x * q.u.x + (p.u.y * q.v.y + p.v.y * q.u.y) + (p.u.z * q.v.z + p.v.z * q.u.z)
  if flip then sum else -sum

open Classical in
/-- los/geom/primitives.go:80-89 (`SignDot`): the sign. -/
def Plucker.sign (p q : Plucker) (flip : Bool) : Int := if p.dot q flip = 0 then 0 else if p.dot q flip > 0 then 1 else -1

/-- los/geom/primitives.go:93-96 (`AnchoredPluckerVec.Init`). -/
def Anchored.init (p l : Vec) : Anchored := ⟨.init p l, p⟩

/-- los/geom/primitives.go:100-103 (`AnchoredPluckerVec.InitFromSegment`). -/
def Anchored.segment (p1 p2 : Vec) : Anchored := ⟨.segment p1 p2, p1⟩

/-- los/geom/primitives.go:106-111 (`AnchoredPluckerVec.Translate`). -/
def Anchored.translate (a : Anchored) (d : Vec) : Anchored := ⟨a.pl.translate d, a.p.add d⟩

/-- los/geom/primitives.go:120 (`Tetra`): four vertices. -/
abbrev Tetra := Fin 4 → Vec

/-- los/geom/primitives.go:158-164 (`Tetra.Translate`). -/
def Tetra.translate (t : Tetra) (d : Vec) : Tetra := fun i => (t i).add d

/-- los/geom/primitives.go:122-133 (`tetraIdxs`, `VertexIdx`). -/
def vertexIdx (face : Fin 4) (vertex : Fin 3) : Fin 4 :=
  ((![![3, 2, 1], ![2, 3, 0], ![1, 0, 3], ![0, 1, 2]] : Fin 4 → Fin 3 → Fin 4)) face vertex

/-- los/geom/primitives.go:137-155 (`Orient`). -/
def Tetra.orient (t : Tetra) (dir : Int) : Tetra :=
  let v := (t 1).sub (t 0)
  let w := (t 2).sub (t 0)
  let n := moment v w
  let e := (t 3).sub (t 0)
  let dot := n.x * e.x + n.y * e.y + n.z * e.z
  open Classical in if (dot < 0 ∧ dir = -1) ∨ (dot > 0 ∧ dir = 1) then fun i => if i = 0 then t 1 else if i = 1 then t 0 else t i else t

/-- los/geom/primitives.go:167-180 (`Volume`). -/
def Tetra.volume (t : Tetra) : ℝ :=
  let a := (t 1).sub (t 0)
  let b := (t 2).sub (t 0)
  let c := (t 3).sub (t 0)
  let vol := (a.x * (b.y * c.z - b.z * c.y) + a.y * (b.z * c.x - b.x * c.z) + a.z * (b.x * c.y - b.y * c.x)) / 6
  if vol < 0 then -vol else vol

/-- los/geom/primitives.go:384-385, 415-417 (`tetraEdgeStarts`, `tetraEdgeEnds`, `TetraVertices`). -/
def edgeStart : Fin 6 → Fin 4 := ![0, 0, 0, 1, 1, 2]
def edgeEnd : Fin 6 → Fin 4 := ![1, 2, 3, 2, 3, 3]

/-- los/geom/primitives.go:359 (`PluckerTetra`): six edges. -/
abbrev PluckerTetra := Fin 6 → Plucker

/-- los/geom/primitives.go:388-395 (`PluckerTetra.Init`). -/
def PluckerTetra.init (t : Tetra) : PluckerTetra :=
  ![.segment (t 0) (t 1), .segment (t 0) (t 2), .segment (t 0) (t 3), .segment (t 1) (t 2), .segment (t 1) (t 3), .segment (t 2) (t 3)]

/-- los/geom/primitives.go:398-402 (`PluckerTetra.Translate`). -/
def PluckerTetra.translate (pt : PluckerTetra) (d : Vec) : PluckerTetra := fun i => (pt i).translate d

/-- los/geom/primitives.go:361-366, 407-411 (`pluckerTetraEdges`, `EdgeIdx`). -/
def edgeIdx (face : Fin 4) (edge : Fin 3) : Fin 6 :=
  ((![![3, 4, 5], ![2, 1, 5], ![2, 4, 0], ![3, 1, 0]] : Fin 4 → Fin 3 → Fin 6)) face edge

/-- los/geom/primitives.go:368-373 (`pluckerTetraFlips`). -/
def edgeFlip (face : Fin 4) (edge : Fin 3) : Bool :=
  ((![![true, false, true], ![true, false, false], ![false, true, true], ![false, true, false]] : Fin 4 → Fin 3 → Bool)) face edge

/-- los/geom/primitives.go:318-321 (`TetraFaceBary`). -/
structure Bary where
  w : Fin 3 → ℝ
  face : Fin 4

/-- los/geom/intersection.go:36-38: the weights of a face. -/
def faceWeights (pt : PluckerTetra) (p : Plucker) (face : Fin 4) : Fin 3 → ℝ := fun k => p.dot (pt (edgeIdx face k)) (edgeFlip face k)

open Classical in
/-- los/geom/intersection.go:27-56: the loop over the faces; `enter` and `leave` are what has been found (`none`: -1). -/
def baryLoop (pt : PluckerTetra) (p : Plucker) : List (Fin 4) → Option Bary → Option Bary → Option (Bary × Bary)
  | [], some e, some l => some (e, l)
  | [], _, _ => none
  | face :: rest, enter, leave =>
    if face = 0 ∧ enter.isNone ∧ leave.isNone then none
    else
      let s : Fin 3 → Int := fun k => p.sign (pt (edgeIdx face k)) (edgeFlip face k)
      if enter.isNone ∧ s 0 ≥ 0 ∧ s 1 ≥ 0 ∧ s 2 ≥ 0 then
        let e : Bary := ⟨faceWeights pt p face, face⟩
        match leave with
        | some l => some (e, l)
        | none => baryLoop pt p rest (some e) none
      else if leave.isNone ∧ s 0 ≤ 0 ∧ s 1 ≤ 0 ∧ s 2 ≤ 0 then
        let l : Bary := ⟨faceWeights pt p face, face⟩
        match enter with
        | some e => some (e, l)
        | none => baryLoop pt p rest none (some l)
      else baryLoop pt p rest enter leave

/-- los/geom/intersection.go:22-62 (`IntersectionBary`). -/
def intersectionBary (pt : PluckerTetra) (p : Plucker) : Option (Bary × Bary) := baryLoop pt p [3, 2, 1, 0] none none

/-- The coordinates of a vector by number. -/
def Vec.get (v : Vec) : Fin 3 → ℝ := ![v.x, v.y, v.z]

open Classical in
/-- los/geom/primitives.go:333-338: the first dimension in which the ray is not (nearly) constant; `none` is the index panic. -/
def rayDim (u : Vec) : Option (Fin 3) :=
  if u.x > 1 / 10 ^ 6 ∨ u.x < -(1 / 10 ^ 6) then some 0 else if u.y > 1 / 10 ^ 6 ∨ u.y < -(1 / 10 ^ 6) then some 1
  else if u.z > 1 / 10 ^ 6 ∨ u.z < -(1 / 10 ^ 6) then some 2 else none

/-- los/geom/primitives.go:325-347 (`Distance`).  (Division by a zero sum gives NaN or an infinity in Go and 0 here.) -/
def Tetra.distance (t : Tetra) (ap : Anchored) (b : Bary) : Option ℝ :=
  (rayDim ap.pl.u).map fun dim =>
    let sum := b.w 0 + b.w 1 + b.w 2
    ((b.w 0 / sum * (t (vertexIdx b.face 0)).get dim + b.w 1 / sum * (t (vertexIdx b.face 1)).get dim + b.w 2 / sum * (t (vertexIdx b.face 2)).get dim) - ap.p.get dim) /
      ap.pl.u.get dim

/-- los/geom/intersection.go:73-84 (`IntersectionDistance`): `none` is a panic, `some none` is `ok = false`. -/
def intersectionDistance (pt : PluckerTetra) (t : Tetra) (ap : Anchored) : Option (Option (ℝ × ℝ)) :=
  match intersectionBary pt ap.pl with
  | none => some none
  | some (e, l) => (t.distance ap e).bind fun a => (t.distance ap l).map fun b => some (a, b)

/-! Spheres -/

/-- los/geom/primitives.go:183-186 (`Sphere`). -/
structure Ball where
  c : Vec
  r : ℝ

/-- los/geom/primitives.go:189-203, 206-218 and 268-283: the loop that compares the growing sum of squares with `dr2` after every term. -/
def within (a b : Vec) (dr2 : ℝ) : Prop :=
  let sx := (a.x - b.x) * (a.x - b.x)
  let sy := sx + (a.y - b.y) * (a.y - b.y)
  let sz := sy + (a.z - b.z) * (a.z - b.z)
  ¬ sx > dr2 ∧ ¬ sy > dr2 ∧ ¬ sz > dr2

/-- los/geom/primitives.go:189-203 (`SphereIntersect`). -/
def Ball.intersects (s1 s2 : Ball) : Prop := within s1.c s2.c ((s1.r + s2.r) * (s1.r + s2.r))

/-- los/geom/primitives.go:206-218 (`VecIntersect`). -/
def Ball.hasVec (s : Ball) (v : Vec) : Prop := within s.c v (s.r * s.r)

/-- los/geom/primitives.go:268-283 (`SphereContain`). -/
def Ball.contains (s1 s2 : Ball) : Prop := ¬ s1.r ≤ s2.r ∧ within s1.c s2.c ((s1.r - s2.r) * (s1.r - s2.r))

/-- los/geom/primitives.go:221-228 (`TetraIntersect`). -/
def Ball.meetsTetra (s : Ball) (t : Tetra) : Prop := ∃ i, s.hasVec (t i)

/-- los/geom/primitives.go:287-294 (`TetraContain`). -/
def Ball.hasTetra (s : Ball) (t : Tetra) : Prop := ∀ i, s.hasVec (t i)

/-- los/geom/primitives.go:297-314 (`BoundingSphere`). -/
def Tetra.boundingSphere (t : Tetra) : Ball :=
  let b : Vec := ⟨((t 0).x + (t 1).x + (t 2).x + (t 3).x) / 4, ((t 0).y + (t 1).y + (t 2).y + (t 3).y) / 4, ((t 0).z + (t 1).z + (t 2).z + (t 3).z) / 4⟩
  let d := fun i : Fin 4 => (b.x - (t i).x) * (b.x - (t i).x) + (b.y - (t i).y) * (b.y - (t i).y) + (b.z - (t i).z) * (b.z - (t i).z)
  let m1 := if d 1 > d 0 then d 1 else d 0
  let m2 := if d 2 > m1 then d 2 else m1
  let m3 := if d 3 > m2 then d 3 else m2
  ⟨b, Real.sqrt m3⟩

/-- los/geom/primitives.go:231-234 (`LineSegment`). -/
structure Segment where
  origin : Vec
  dir : Vec
  startR : ℝ
  endR : ℝ

open Classical in
/-- los/geom/primitives.go:241-265 (`LineSegmentIntersect`); the factor 2 of line 248 applies to the first term only.  (The case `disc == 0` is not listed separately:
the formulas of the case `disc > 0` give the same values.) -/
def Ball.lineSegment (s : Ball) (ls : Segment) : ℝ × ℝ × Prop × Prop :=
  let dr := ls.origin.sub s.c
  let b := 2 * ls.dir.x * dr.x + ls.dir.y * dr.y + ls.dir.z * dr.z
  let c := dr.x * dr.x + dr.y * dr.y + dr.z * dr.z - s.r * s.r
  let disc := b * b - 4 * c
  if disc < 0 then (0, 0, False, False)
  else
    let exit := (-b + Real.sqrt disc) / 2
    let enter := (-b - Real.sqrt disc) / 2
    (enter, exit, ls.startR < enter ∧ ls.endR > enter, ls.startR < exit ∧ ls.endR > exit)

end
end Shellfish.Geom
