/-
Model of los/geom/rotation.go.  float32 and float64 are the real numbers (no rounding); a 3x3 matrix is its nine values in row-major order.
-/
import Mathlib.Analysis.SpecialFunctions.Complex.Arg
import Mathlib.Analysis.SpecialFunctions.Trigonometric.Inverse

namespace Shellfish.Geom
noncomputable section

/-- A `[3]float32` or `[3]float64`. -/
@[ext] structure Vec where
  x : ℝ
  y : ℝ
  z : ℝ

/-- A 3x3 `mat.Matrix32` (math/mat/mat32.go:8-11), row-major. -/
@[ext] structure Mat where
  a0 : ℝ
  a1 : ℝ
  a2 : ℝ
  a3 : ℝ
  a4 : ℝ
  a5 : ℝ
  a6 : ℝ
  a7 : ℝ
  a8 : ℝ

/-- math/mat/mat32.go:45-74 (`Mult`, `MultAt`) for two 3x3 matrices. -/
def Mat.mul (m n : Mat) : Mat :=
  ⟨m.a0 * n.a0 + m.a1 * n.a3 + m.a2 * n.a6, m.a0 * n.a1 + m.a1 * n.a4 + m.a2 * n.a7, m.a0 * n.a2 + m.a1 * n.a5 + m.a2 * n.a8,
   m.a3 * n.a0 + m.a4 * n.a3 + m.a5 * n.a6, m.a3 * n.a1 + m.a4 * n.a4 + m.a5 * n.a7, m.a3 * n.a2 + m.a4 * n.a5 + m.a5 * n.a8,
   m.a6 * n.a0 + m.a7 * n.a3 + m.a8 * n.a6, m.a6 * n.a1 + m.a7 * n.a4 + m.a8 * n.a7, m.a6 * n.a2 + m.a7 * n.a5 + m.a8 * n.a8⟩

/-- los/geom/rotation.go:60-65 (`RotateVec`): the new value of the vector. -/
def rotateVec (v : Vec) (m : Mat) : Vec :=
  ⟨m.a0 * v.x + m.a1 * v.y + m.a2 * v.z, m.a3 * v.x + m.a4 * v.y + m.a5 * v.z, m.a6 * v.x + m.a7 * v.y + m.a8 * v.z⟩

/-- los/geom/rotation.go:31, 33: the matrices R1 and R3. -/
def aboutZ (phi : ℝ) : Mat := ⟨Real.cos phi, -Real.sin phi, 0, Real.sin phi, Real.cos phi, 0, 0, 0, 1⟩

/-- los/geom/rotation.go:32: the matrix R2. -/
def aboutX (theta : ℝ) : Mat := ⟨1, 0, 0, 0, Real.cos theta, -Real.sin theta, 0, Real.sin theta, Real.cos theta⟩

/-- los/geom/rotation.go:26-38 (`EulerMatrixAt`). -/
def eulerMatrix (phi theta psi : ℝ) : Mat := (aboutZ psi).mul ((aboutX theta).mul (aboutZ phi))

/-- `math.Atan2` without signed zeros. -/
def atan2 (y x : ℝ) : ℝ := Complex.arg ⟨x, y⟩

/-- los/geom/rotation.go:76-81 (`SphericalAngles`): azimuthal angle, polar angle. -/
def sphericalAngles (v : Vec) : ℝ × ℝ :=
  (atan2 v.y v.x, Real.arccos (v.z / Real.sqrt (v.x * v.x + v.y * v.y + v.z * v.z)))

/-- los/geom/rotation.go:49-57 (`EulerMatrixBetweenAt`). -/
def eulerMatrixBetween (v1 v2 : Vec) : Mat :=
  eulerMatrix (Real.pi / 2 - (sphericalAngles v1).1) ((sphericalAngles v1).2 - (sphericalAngles v2).2) ((sphericalAngles v2).1 - Real.pi / 2)

/-- los/geom/rotation.go:99-108 (`AngularDistance`). -/
def angularDistance (phi1 phi2 : ℝ) : ℝ :=
  if phi2 - phi1 > Real.pi then phi2 - phi1 - 2 * Real.pi
  else if phi2 - phi1 < -Real.pi then phi2 - phi1 + 2 * Real.pi
  else phi2 - phi1

/-- los/geom/rotation.go:113-121 (`AngleInRange`). -/
def angleInRange (phi low width : ℝ) : Prop :=
  if low + width > 2 * Real.pi then phi ≥ low ∨ phi ≤ low + width - 2 * Real.pi else phi ≥ low ∧ phi ≤ low + width

end
end Shellfish.Geom
