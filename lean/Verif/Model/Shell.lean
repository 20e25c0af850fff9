/-
Model of los/analyze/shell.go.  float64 is the real numbers (no rounding).  The random numbers that a call draws are an argument: the list of the pairs of results of `rand.Float64`.
Where the code divides by zero (no samples) the result of Go is NaN or an infinity, which is not modelled: the theorems assume at least one sample.
-/
import Verif.Model.Halo
import Verif.Model.Sort

namespace Shellfish.Analyze
noncomputable section
open Shellfish.Geom (Vec atan2)
open Shellfish.Los (goInt)

/-- los/analyze/shell.go:18 (`Shell`): the radius at the angles phi and theta. -/
abbrev Shell := ℝ → ℝ → ℝ

/-- los/analyze/shell.go:21-24 (`randomAngle`) for the draws `u`, `v`. -/
def randomAngle (d : ℝ × ℝ) : ℝ × ℝ := (2 * Real.pi * d.1, Real.arccos (2 * d.2 - 1))

/-- The radius of a shell at the angle of a draw. -/
def Shell.at (s : Shell) (d : ℝ × ℝ) : ℝ := s (randomAngle d).1 (randomAngle d).2

/-- los/analyze/shell.go:27-31 (`cartesian`). -/
def cartesian (phi theta r : ℝ) : Vec := ⟨r * Real.sin theta * Real.cos phi, r * Real.sin theta * Real.sin phi, r * Real.cos theta⟩

/-- los/analyze/shell.go:349-354 (`Contains`).  At the center `z / r` is NaN; 0 here. -/
def Shell.contains (s : Shell) (v : Vec) : Prop :=
  let r := Real.sqrt (v.x * v.x + v.y * v.y + v.z * v.z)
  s (atan2 v.y v.x) (Real.arccos (v.z / r)) > r

/-- los/analyze/shell.go:40-42: the point of one turn of the loop for three draws. -/
def cubePoint (rMax : ℝ) (d : Vec) : Vec := ⟨d.x * (2 * rMax) - rMax, d.y * (2 * rMax) - rMax, d.z * (2 * rMax) - rMax⟩

open Classical in
/-- los/analyze/shell.go:37-55 (`CartesianSampledVolume`); the test of lines 44-49 is the one of `Contains`. -/
def Shell.cartesianSampledVolume (s : Shell) (draws : List Vec) (rMax : ℝ) : ℝ :=
  let inside := draws.foldl (fun (n : Nat) d => if s.contains (cubePoint rMax d) then n + 1 else n) 0
  (inside : ℝ) / (draws.length : ℝ) * (rMax * rMax * rMax * 8)

/-- los/analyze/shell.go:58-67 (`Volume`). -/
def Shell.volume (s : Shell) (draws : List (ℝ × ℝ)) : ℝ :=
  let sum := draws.foldl (fun sum d => sum + s.at d * s.at d * s.at d) 0
  let r3 := sum / (draws.length : ℝ)
  r3 * 4 * (Real.pi / 3)

/-- los/analyze/shell.go:70-78 (`MeanRadius`). -/
def Shell.meanRadius (s : Shell) (draws : List (ℝ × ℝ)) : ℝ := draws.foldl (fun sum d => sum + s.at d) 0 / (draws.length : ℝ)

open Classical in
/-- los/analyze/shell.go:81-88 (`MedianRadius`): the buffer is the slice itself; `none` is a panic. -/
def Shell.medianRadius (s : Shell) (draws : List (ℝ × ℝ)) : Option ℝ :=
  let rs := draws.map s.at
  Sort.median rs (some rs)

/-- los/analyze/shell.go:92-108 (`trisort`). -/
def trisort (x y z : ℝ) : ℝ × ℝ × ℝ × Fin 3 :=
  let t : ℝ × ℝ × ℝ × Fin 3 := open Classical in if x > y ∧ x > z then (x, y, z, 0) else if y > x ∧ y > z then (y, z, x, 1) else (z, x, y, 2)
  open Classical in if t.2.1 > t.2.2.1 then t else (t.1, t.2.2.1, t.2.1, t.2.2.2)

/-- los/analyze/shell.go:192-215 (`cosNorm`). -/
def cosNorm (s : Shell) (phi theta : ℝ) : ℝ :=
  let dp : ℝ := 1 / 1000
  let dt : ℝ := 1 / 1000
  let p00 := cartesian (phi - dp) (theta - dt) (s (phi - dp) (theta - dt))
  let p01 := cartesian (phi - dp) (theta + dt) (s (phi - dp) (theta + dt))
  let p10 := cartesian (phi + dp) (theta - dt) (s (phi + dp) (theta - dt))
  let p11 := cartesian (phi + dp) (theta + dt) (s (phi + dp) (theta + dt))
  let a : Vec := ⟨p00.x - p11.x, p00.y - p11.y, p00.z - p11.z⟩
  let b : Vec := ⟨p01.x - p10.x, p01.y - p10.y, p01.z - p10.z⟩
  let n : Vec := ⟨a.y * b.z - a.z * b.y, a.z * b.x - a.x * b.z, a.x * b.y - a.y * b.x⟩
  let norm := Real.sqrt (n.x * n.x + n.y * n.y + n.z * n.z)
  let l := cartesian phi theta 1
  l.x * (n.x / norm) + l.y * (n.y / norm) + l.z * (n.z / norm)

/-- los/analyze/shell.go:125, 223: the area element at the angle of a draw. -/
def Shell.area (s : Shell) (d : ℝ × ℝ) : ℝ := s.at d * s.at d / cosNorm s (randomAngle d).1 (randomAngle d).2

/-- los/analyze/shell.go:218-226 (`SurfaceArea`). -/
def Shell.surfaceArea (s : Shell) (draws : List (ℝ × ℝ)) : ℝ := draws.foldl (fun sum d => sum + s.area d) 0 / (draws.length : ℝ) * 4 * Real.pi

/-- los/analyze/shell.go:229-239 (`DiffVolume`). -/
def Shell.diffVolume (s1 s2 : Shell) (draws : List (ℝ × ℝ)) : ℝ :=
  draws.foldl (fun sum d => let r := (s1.at d + s2.at d) / 2; let dr := |s1.at d - s2.at d|; sum + dr * r * r) 0 / (draws.length : ℝ) * (4 * Real.pi) / 3

/-- los/analyze/shell.go:243-254 (`MaxDiff`). -/
def Shell.maxDiff (s1 s2 : Shell) (draws : List (ℝ × ℝ)) : ℝ :=
  draws.foldl (fun max d => let dr := |s1.at d - s2.at d|; if dr > max then dr else max) 0

/-- los/analyze/shell.go:257-272 (`RadialRange`): the first draw, and the draws of the loop. -/
def Shell.radialRange (s : Shell) (d0 : ℝ × ℝ) (draws : List (ℝ × ℝ)) : ℝ × ℝ :=
  draws.foldl (fun lh d => let r := s.at d; (if r < lh.1 then r else lh.1, if r > lh.2 then r else lh.2)) (s.at d0, s.at d0)

/-- los/analyze/shell.go:287-298: one turn of the loop of `RadiusHistogram`; the state is `ns` and `count`. -/
def histStep (s : Shell) (bins : Nat) (rMin dr : ℝ) (st : List ℝ × Nat) (d : ℝ × ℝ) : List ℝ × Nat :=
  let ri := (s.at d - rMin) / dr
  if ri < 0 then st
  else
    let idx := goInt ri
    if idx ≥ bins then st else (st.1.modify idx.toNat (· + 1), st.2 + 1)

/-- los/analyze/shell.go:276-306 (`RadiusHistogram`): radii and values. -/
def Shell.radiusHistogram (s : Shell) (draws : List (ℝ × ℝ)) (bins : Nat) (rMin rMax : ℝ) : List ℝ × List ℝ :=
  let dr := (rMax - rMin) / (bins : ℝ)
  let st := draws.foldl (histStep s bins rMin dr) (List.replicate bins 0, 0)
  ((List.range bins).map fun (i : Nat) => rMin + dr * ((i : ℝ) + 1 / 2), st.1.map fun n => n / ((st.2 : ℝ) * dr))

/-- los/analyze/shell.go:326-332: one turn of the first loop of `AngularFractionProfile`. -/
def fracStep (s : Shell) (bins : Nat) (lrMin dlr : ℝ) (ns : List Nat) (d : ℝ × ℝ) : List Nat :=
  let lri := goInt ((Real.log (s.at d) - lrMin) / dlr)
  if lri < 0 ∨ lri ≥ bins then ns else ns.modify lri.toNat (· + 1)

/-- los/analyze/shell.go:335-338: the reverse cumulative sum. -/
def revCumSum : List Nat → List Nat
  | [] => []
  | n :: ns =>
    match revCumSum ns with
    | [] => [n]
    | m :: ms => (n + m) :: m :: ms

/-- los/analyze/shell.go:312-345 (`AngularFractionProfile`): the radii and the fractions (`none`: NaN, as `0 / 0`). -/
def Shell.angularFractionProfile (s : Shell) (draws : List (ℝ × ℝ)) (bins : Nat) (rMin rMax : ℝ) : List ℝ × List (Option ℝ) :=
  let lrMin := Real.log rMin
  let lrMax := Real.log rMax
  let dlr := (lrMax - lrMin) / (bins : ℝ)
  let ns := revCumSum (draws.foldl (fracStep s bins lrMin dlr) (List.replicate bins 0))
  ((List.range bins).map fun (i : Nat) => Real.exp (lrMin + ((i : ℝ) + 1 / 2) * dlr),
   ns.map fun (n : Nat) => if ns.getD 0 0 = 0 then none else some ((n : ℝ) / (ns.getD 0 0 : ℝ)))

/-! Axes -/

/-- los/analyze/shell.go:117-143: the weighted sum of a function of the sampled points, divided by the sum of the weights. -/
def wmean (s : Shell) (draws : List (ℝ × ℝ)) (f : Vec → ℝ) : ℝ :=
  draws.foldl (fun sum d => sum + s.area d * f (cartesian (randomAngle d).1 (randomAngle d).2 (s.at d))) 0 / draws.foldl (fun sum d => sum + s.area d) 0

/-- los/analyze/shell.go:117-149: the matrix `mat`. -/
def inertia (s : Shell) (draws : List (ℝ × ℝ)) : Fin 3 → Fin 3 → ℝ :=
  let n := wmean s draws
  let nxx := n fun p => p.x * p.x
  let nyy := n fun p => p.y * p.y
  let nzz := n fun p => p.z * p.z
  let nxy := n fun p => p.x * p.y
  let nyz := n fun p => p.y * p.z
  let nzx := n fun p => p.z * p.x
  let nx := n fun p => p.x
  let ny := n fun p => p.y
  let nz := n fun p => p.z
  ![![nyy + nzz - ny * ny - nz * nz, -nxy + nx * ny, -nzx + nz * nx],
    ![-nxy + nx * ny, nxx + nzz - nx * nx - nz * nz, -nyz + ny * nz],
    ![-nzx + nz * nx, -nyz + ny * nz, nxx + nyy - nx * nx - ny * ny]]

/-- los/analyze/shell.go:357-374 (`axisInterpolators`): the three correction tables (`none`: a panic, C65). -/
structure Ratios where
  ac : ℝ → ℝ → Option ℝ
  bc : ℝ → ℝ → Option ℝ
  c : ℝ → ℝ → Option ℝ

/-- los/analyze/shell.go:160-187: what follows the decomposition; `vals` are the eigenvalues, `vecs i k` is the component `i` of eigenvector number `k`. -/
def axesOf (rt : Ratios) (vals : Fin 3 → ℝ) (vecs : Fin 3 → Fin 3 → ℝ) : Option (ℝ × ℝ × ℝ × (Fin 3 → ℝ)) := do
  let ax2 := 3 * (vals 1 + vals 2 - vals 0) / 2
  let ay2 := 3 * vals 1 - ax2
  let az2 := 3 * vals 2 - ax2
  let t := trisort (Real.sqrt ax2) (Real.sqrt ay2) (Real.sqrt az2)
  let c := t.1
  let b := t.2.1
  let a := t.2.2.1
  let acRatio ← rt.ac (a / c) (b / c)
  let bcRatio ← rt.bc (a / c) (b / c)
  let cRatio ← rt.c (a / c) (b / c)
  let v := fun i => vecs i t.2.2.2
  let norm := Real.sqrt (v 0 * v 0 + v 1 * v 1 + v 2 * v 2)
  some (cRatio * c, bcRatio * (b / c) * (cRatio * c), acRatio * (a / c) * (cRatio * c), fun i => v i / norm)

/-- los/analyze/shell.go:112-188 (`Axes`); `eigen` is gonum's `Eigen.Factorize` (`none`: the panic of line 154). -/
def Shell.axes (s : Shell) (rt : Ratios) (eigen : (Fin 3 → Fin 3 → ℝ) → Option ((Fin 3 → ℝ) × (Fin 3 → Fin 3 → ℝ))) (draws : List (ℝ × ℝ)) :
    Option (ℝ × ℝ × ℝ × (Fin 3 → ℝ)) :=
  (eigen (inertia s draws)).bind fun e => axesOf rt e.1 e.2

end
end Shellfish.Analyze
