/-
Model of los/halo.go.  float32 and float64 are the real numbers (no rounding).  `math.Log` of 0 is minus infinity (`⊥`); NaN does not occur in
the cases the model covers, except as the result of a square root of a negative number, which los/halo.go:262 and 271 test for.
The field `rs` is not modelled (nothing reads it).
-/
import Verif.Model.Ring
import Verif.Model.Rotation
import Mathlib.Analysis.SpecialFunctions.Log.Basic

namespace Shellfish.Los
noncomputable section
open Shellfish.Geom (Vec Mat rotateVec eulerMatrixBetween atan2)

/-- los/halo.go:44-59. -/
structure Halo where
  origin : Vec
  rings : Nat
  bins : Nat
  n : Nat
  rMin : ℝ
  rMax : ℝ
  ringVecs : List (ℝ × ℝ)
  ringPhis : List ℝ
  dPhi : ℝ
  rots : List Mat
  irots : List Mat
  norms : List Vec
  profs : List (ProfileRing ℝ)
  defaultRho : ℝ

/-- los/halo.go:79. -/
def zAxis : Vec := ⟨0, 0, 1⟩

/-- los/halo.go:96. -/
def phiOf (n i : Nat) : ℝ := (i : ℝ) / (n : ℝ) * (2 * Real.pi)

/-- los/halo.go:65-100 (`Init`). -/
def Halo.init (norms : List Vec) (origin : Vec) (rMin rMax : ℝ) (bins n : Nat) (defaultRho : ℝ) : Halo where
  origin := origin
  rings := norms.length
  bins := bins
  n := n
  rMin := rMin
  rMax := rMax
  ringVecs := (List.range n).map fun i => (Real.cos (phiOf n i), Real.sin (phiOf n i))
  ringPhis := (List.range n).map fun i => phiOf n i
  dPhi := 1 / (n : ℝ) * (2 * Real.pi)
  rots := norms.map fun v => eulerMatrixBetween v zAxis
  irots := norms.map fun v => eulerMatrixBetween zAxis v
  norms := norms
  profs := norms.map fun _ => Los.init (Real.log rMin) (Real.log rMax) bins n
  defaultRho := defaultRho

/-- The zero value of `Halo` (cmd/shell.go:319: `make([]los.Halo, workers-1)`). -/
def Halo.zero : Halo := ⟨⟨0, 0, 0⟩, 0, 0, 0, 0, 0, [], [], 0, [], [], [], [], 0⟩

/-- `math.Log` on non-negative arguments. -/
def goLog (x : ℝ) : WithBot ℝ := if x ≤ 0 then ⊥ else ((Real.log x : ℝ) : WithBot ℝ)

/-- los/halo.go:218-224 (`sphereIntersectRing`). -/
def sphereIntersectRing (norm vec : Vec) (radius : ℝ) : Prop :=
  norm.x * vec.x + norm.y * vec.y + norm.z * vec.z < radius ∧ -radius < norm.x * vec.x + norm.y * vec.y + norm.z * vec.z

open Classical in
instance (norm vec : Vec) (radius : ℝ) : Decidable (sphereIntersectRing norm vec radius) := inferInstance

/-- los/halo.go:315-317 (`halfAngularWidth`). -/
def halfAngularWidth (dist2 r2 : ℝ) : ℝ := Real.arcsin (Real.sqrt (r2 / dist2))

/-- los/halo.go:324-329 (`twoValIntrDist`); `none` when one of the square roots is NaN (los/halo.go:262, 271). -/
def twoValIntrDist (dist2 rad2 b : ℝ) : Option (ℝ × ℝ) :=
  if dist2 - b * b < 0 ∨ rad2 - b * b < 0 then none
  else some (Real.sqrt (dist2 - b * b) - Real.sqrt (rad2 - b * b), Real.sqrt (dist2 - b * b) + Real.sqrt (rad2 - b * b))

/-- los/halo.go:337-346 (`oneValIntrDist`). -/
def oneValIntrDist (dist2 rad2 b dir : ℝ) : ℝ :=
  if dir > 0 then Real.sqrt (rad2 - b * b) + Real.sqrt (dist2 - b * b) else Real.sqrt (rad2 - b * b) - Real.sqrt (dist2 - b * b)

/-- Conversion of a float64 to int: truncation. -/
def goInt (x : ℝ) : Int := (modf x).1

/-- los/halo.go:284-310 (`idxRange`): `(iLo1, iHi1, iLo2, iHi2)`, upper indices exclusive. -/
def idxRange (n : Nat) (dPhi phiLo phiHi : ℝ) : Int × Int × Int × Int :=
  if phiHi > 2 * Real.pi then (goInt (phiLo / dPhi), n, 0, goInt ((phiHi - 2 * Real.pi) / dPhi) + 1)
  else if phiLo < 0 then (goInt ((phiLo + 2 * Real.pi) / dPhi), n, 0, goInt (phiHi / dPhi) + 1)
  else (goInt (phiLo / dPhi), goInt (phiHi / dPhi) + 1, 0, 0)

/-- `for i := lo; i < hi; i++`. -/
def indices (lo hi : Int) : List Int := (List.range (hi - lo).toNat).map fun k : Nat => lo + (k : Int)

/-- los/halo.go:258-266 and 268-275: the insertion for one line of sight (`none`: index panic; `some none`: `continue`). -/
def farChord (ringVecs : List (ℝ × ℝ)) (cx cy dist2 rad2 rho : ℝ) (i : Int) : Option (Option (Op ℝ)) :=
  if i < 0 then none
  else match ringVecs[i.toNat]? with
    | none => none
    | some u => some ((twoValIntrDist dist2 rad2 (cy * u.1 - cx * u.2)).map fun r => ⟨goLog r.1, goLog r.2, rho, i.toNat⟩)

/-- los/halo.go:244-250: the insertion for one line of sight when the circle contains the center. -/
def nearChord (ringVecs : List (ℝ × ℝ)) (cx cy dist2 rad2 rho : ℝ) (i : Nat) : Option (Op ℝ) :=
  match ringVecs[i]? with
  | none => none
  | some u => some ⟨⊥, goLog (oneValIntrDist dist2 rad2 (cy * u.1 - cx * u.2) (cx * u.1 + cy * u.2)), rho, i⟩

/-- los/halo.go:235-239: squared distance and squared radius of the projected circle. -/
def projDist2 (c : Vec) : ℝ := c.x * c.x + c.y * c.y
def projRad2 (c : Vec) (radius : ℝ) : ℝ := if radius * radius - c.z * c.z < 0 then 0 else radius * radius - c.z * c.z

/-- los/halo.go:254-256: the index ranges for a circle that does not contain the center. -/
def farRange (n : Nat) (dPhi : ℝ) (c : Vec) (radius : ℝ) : Int × Int × Int × Int :=
  idxRange n dPhi (atan2 c.y c.x - halfAngularWidth (projDist2 c) (projRad2 c radius)) (atan2 c.y c.x + halfAngularWidth (projDist2 c) (projRad2 c radius))

/-- los/halo.go:258, 268: the indices of both loops. -/
def farIndices (n : Nat) (dPhi : ℝ) (c : Vec) (radius : ℝ) : List Int :=
  indices (farRange n dPhi c radius).1 (farRange n dPhi c radius).2.1 ++ indices (farRange n dPhi c radius).2.2.1 (farRange n dPhi c radius).2.2.2

/-- los/halo.go:233-276: the calls of `Insert` for a sphere with the (rotated) center `c`. -/
def chords (ringVecs : List (ℝ × ℝ)) (n : Nat) (dPhi : ℝ) (c : Vec) (radius rho : ℝ) : Option (List (Op ℝ)) :=
  if projRad2 c radius > projDist2 c then (List.range n).mapM (nearChord ringVecs c.x c.y (projDist2 c) (projRad2 c radius) rho)
  else ((farIndices n dPhi c radius).mapM (farChord ringVecs c.x c.y (projDist2 c) (projRad2 c radius) rho)).map fun l => l.filterMap id

/-- los/halo.go:228-277 (`insertToRing`): the calls for ring `ring`. -/
def ringChords (h : Halo) (vec : Vec) (radius rho : ℝ) (ring : Nat) : Option (List (Op ℝ)) :=
  match h.rots[ring]? with
  | none => none
  | some rot => chords h.ringVecs h.n h.dPhi (rotateVec vec rot) radius rho

/-- los/halo.go:203-205. -/
def displace (vec origin : Vec) : Vec := ⟨vec.x - origin.x, vec.y - origin.y, vec.z - origin.z⟩

open Classical in
/-- los/halo.go:207-214: one turn of the loop over the rings of `Insert`. -/
def insertRing (h : Halo) (vec : Vec) (radius rho : ℝ) (profs : List (ProfileRing ℝ)) (ring : Nat) : Option (List (ProfileRing ℝ)) :=
  match h.norms[ring]? with
  | none => none
  | some norm =>
    if sphereIntersectRing norm vec radius then
      match ringChords h vec radius rho ring, profs[ring]? with
      | some ops, some p => (insertAll p ops).map fun p' => profs.set ring p'
      | _, _ => none
    else some profs

/-- los/halo.go:201-215 (`Insert`). -/
def Halo.insert (h : Halo) (vec : Vec) (radius rho : ℝ) : Option Halo :=
  ((List.range h.rings).foldlM (insertRing h (displace vec h.origin) radius rho) h.profs).map fun ps => { h with profs := ps }

/-- A particle as `chanLoadSphereVec` inserts it (cmd/shell.go:492-497): position, kernel radius, density. -/
structure Ball where
  center : Vec
  radius : ℝ
  rho : ℝ

/-- cmd/shell.go:492-497: a sequence of insertions. -/
def Halo.insertAll (h : Halo) (bs : List Ball) : Option Halo := bs.foldlM (fun h b => h.insert b.center b.radius b.rho) h

/-- los/halo.go:110-118: a worker halo before its rings are split. -/
def Halo.adopt (h hi : Halo) : Halo :=
  if h.rings ≠ hi.rings ∨ h.bins ≠ hi.bins ∨ h.n ≠ hi.n then Halo.init h.norms h.origin h.rMin h.rMax h.bins h.n h.defaultRho
  else { hi with norms := h.norms, rots := h.rots, origin := h.origin, rMin := h.rMin, rMax := h.rMax }

/-- los/halo.go:107-123 (`Split`) for one worker halo: `none` when `hi.profs[r]` does not exist. -/
def Halo.splitOne (h hi : Halo) : Option Halo :=
  if h.profs.length ≤ (h.adopt hi).profs.length then
    some { h.adopt hi with profs := List.zipWith split h.profs (h.adopt hi).profs ++ (h.adopt hi).profs.drop h.profs.length }
  else none

/-- los/halo.go:136-138: the rings of a worker are joined. -/
def joinProfs : List (ProfileRing ℝ) → List (ProfileRing ℝ) → Option (List (ProfileRing ℝ))
  | [], _ => some []
  | _ :: _, [] => none
  | p :: ps, q :: qs => (join p q).bind fun r => (joinProfs ps qs).map fun rs => r :: rs

/-- los/halo.go:131-139: one turn of `Join`. -/
def Halo.joinOne (h hi : Halo) : Option Halo :=
  if h.rings ≠ hi.rings ∨ h.bins ≠ hi.bins ∨ h.n ≠ hi.n then none
  else (joinProfs h.profs hi.profs).map fun ps => { h with profs := ps }

/-- los/halo.go:129-140 (`Join`). -/
def Halo.join (h : Halo) (hs : List Halo) : Option Halo := hs.foldlM Halo.joinOne h

/-- cmd/shell.go:450-464: split, insert the shares, join; the workers' halos keep their contents for the next call.  (Each worker touches only its own halo, so the
interleaving of the goroutines is irrelevant; Model/Par.lean models the waiting.) -/
def Halo.pass (h : Halo) (own : List Ball) (workers : List (Halo × List Ball)) : Option (Halo × List Halo) :=
  (workers.mapM fun w => (h.splitOne w.1).bind fun hi => hi.insertAll w.2).bind fun his =>
    (h.insertAll own).bind fun h1 => (h1.join his).map fun h2 => (h2, his)

/-- One call of `loadSphereVecs` (cmd/shell.go:421-465): the halo it works on, the owner's particles, and the particles of the workers. -/
structure Job where
  halo : Nat
  own : List Ball
  shares : List (List Ball)

/-- cmd/shell.go:403-406 for all files: one call of `loadSphereVecs` after the other, with the same workers. -/
def passes : List Halo → List Halo → List Job → Option (List Halo)
  | halos, _, [] => some halos
  | halos, scratch, job :: jobs =>
    match halos[job.halo]? with
    | none => none
    | some h => (h.pass job.own (scratch.zip job.shares)).bind fun r => passes (halos.set job.halo r.1) r.2 jobs

/-- los/halo.go:350-357 (`GetRhos`). -/
def Halo.getRhos (h : Halo) (ring losIdx : Nat) (buf : List ℝ) : Option (List ℝ) :=
  (h.profs[ring]?).bind fun p => (retrieve p losIdx buf).map fun l => l.map fun rho => if rho < h.defaultRho then h.defaultRho else rho

/-- los/halo.go:428-440 (`LineSegment`): the direction of a line of sight. -/
def Halo.lineDir (h : Halo) (ring losIdx : Nat) : Option Vec :=
  (h.ringPhis[losIdx]?).bind fun phi => (h.irots[ring]?).map fun m => rotateVec ⟨Real.cos phi, Real.sin phi, 0⟩ m

/-- los/halo.go:147-164 (`Intersect`) for one vector. -/
def Halo.intersects (h : Halo) (vec : Vec) (r : ℝ) : Prop :=
  let rMin := if h.rMin - r < 0 then 0 else h.rMin - r
  let rMax := h.rMax + r
  let d := displace vec h.origin
  let r2 := d.x * d.x + d.y * d.y + d.z * d.z
  r2 > rMin * rMin ∧ r2 < rMax * rMax

/-- los/halo.go:168-197 (`Transform`) for one coordinate. -/
def transform1 (x x0 tw : ℝ) : ℝ := if x - x0 > tw / 2 then x - tw else if x - x0 < -(tw / 2) then x + tw else x

/-- los/halo.go:168-197 (`Transform`) for one vector. -/
def Halo.transform (h : Halo) (tw : ℝ) (v : Vec) : Vec :=
  ⟨transform1 v.x h.origin.x tw, transform1 v.y h.origin.y tw, transform1 v.z h.origin.z tw⟩

/-- los/halo.go:442-451 (`wrapDist`). -/
def wrapDist (x1 x2 width : ℝ) : ℝ :=
  if x1 - x2 > width / 2 then x1 - x2 - width else if x1 - x2 < width / -2 then x1 - x2 + width else x1 - x2

/-- los/halo.go:453-456 (`inRange`). -/
def inRange (x r low width tw : ℝ) : Prop :=
  (x + r > low ∧ x - r < low + width) ∨ (wrapDist x low tw > -r ∧ wrapDist x (low + width) tw < r)

/-- los/halo.go:460-467 (`SheetIntersect`): `hdOrigin`, `hdWidth` and `tw` are the header's `Origin`, `Width` and `TotalWidth`. -/
def Halo.sheetIntersect (h : Halo) (hdOrigin hdWidth : Vec) (tw : ℝ) : Prop :=
  inRange h.origin.x h.rMax hdOrigin.x hdWidth.x tw ∧ inRange h.origin.y h.rMax hdOrigin.y hdWidth.y tw ∧
    inRange h.origin.z h.rMax hdOrigin.z hdWidth.z tw

end
end Shellfish.Los
