/- C55: rotations between directions and angle arithmetic (los/geom/rotation.go). -/
import Verif.Model.Rotation
import Mathlib.Tactic.Ring
import Mathlib.Tactic.LinearCombination
import Mathlib.Tactic.Linarith
import Mathlib.Tactic.FieldSimp
import Mathlib.Tactic.NormNum
import Mathlib.Tactic.Positivity
import Mathlib.Analysis.Real.Pi.Bounds

namespace Shellfish.Geom
noncomputable section
open Real

/-! Specification -/

/-- scalar product -/
def dot (v w : Vec) : ℝ := v.x * w.x + v.y * w.y + v.z * w.z
/-- length -/
def norm (v : Vec) : ℝ := sqrt (dot v v)
/-- multiple of a vector -/
def smul (c : ℝ) (v : Vec) : Vec := ⟨c * v.x, c * v.y, c * v.z⟩
/-- the zero vector -/
def zero : Vec := ⟨0, 0, 0⟩
/-- the identity matrix -/
def ident : Mat := ⟨1, 0, 0, 0, 1, 0, 0, 0, 1⟩
/-- the transposed matrix -/
def transpose (m : Mat) : Mat := ⟨m.a0, m.a3, m.a6, m.a1, m.a4, m.a7, m.a2, m.a5, m.a8⟩
/-- the determinant -/
def det (m : Mat) : ℝ :=
  m.a0 * (m.a4 * m.a8 - m.a5 * m.a7) - m.a1 * (m.a3 * m.a8 - m.a5 * m.a6) + m.a2 * (m.a3 * m.a7 - m.a4 * m.a6)
/-- a proper rotation: the transposed matrix is the inverse, and orientation is kept -/
def IsRotation (m : Mat) : Prop := m.mul (transpose m) = ident ∧ (transpose m).mul m = ident ∧ det m = 1

/-! Proofs -/

theorem rotateVec_mul (m n : Mat) (v : Vec) : rotateVec v (m.mul n) = rotateVec (rotateVec v n) m := by
  ext <;> simp only [rotateVec, Mat.mul] <;> ring

theorem mul_assoc' (a b c : Mat) : (a.mul b).mul c = a.mul (b.mul c) := by
  ext <;> simp only [Mat.mul] <;> ring

theorem ident_mul (a : Mat) : ident.mul a = a := by ext <;> simp [Mat.mul, ident]
theorem mul_ident (a : Mat) : a.mul ident = a := by ext <;> simp [Mat.mul, ident]

theorem aboutZ_add (a b : ℝ) : (aboutZ a).mul (aboutZ b) = aboutZ (a + b) := by
  ext <;> simp only [Mat.mul, aboutZ, cos_add, sin_add] <;> ring

theorem aboutX_add (a b : ℝ) : (aboutX a).mul (aboutX b) = aboutX (a + b) := by
  ext <;> simp only [Mat.mul, aboutX, cos_add, sin_add] <;> ring

theorem aboutZ_zero : aboutZ 0 = ident := by ext <;> simp [aboutZ, ident]
theorem aboutX_zero : aboutX 0 = ident := by ext <;> simp [aboutX, ident]

theorem transpose_mul (a b : Mat) : transpose (a.mul b) = (transpose b).mul (transpose a) := by
  ext <;> simp only [transpose, Mat.mul] <;> ring

theorem det_mul (a b : Mat) : det (a.mul b) = det a * det b := by
  simp only [det, Mat.mul]; ring

theorem rot_aboutZ (a : ℝ) : IsRotation (aboutZ a) := by
  have h := sin_sq_add_cos_sq a
  refine ⟨?_, ?_, ?_⟩
  · ext <;> simp only [Mat.mul, transpose, aboutZ, ident] <;> linarith
  · ext <;> simp only [Mat.mul, transpose, aboutZ, ident] <;> linarith
  · simp only [det, aboutZ]; linarith

theorem rot_aboutX (a : ℝ) : IsRotation (aboutX a) := by
  have h := sin_sq_add_cos_sq a
  refine ⟨?_, ?_, ?_⟩
  · ext <;> simp only [Mat.mul, transpose, aboutX, ident] <;> linarith
  · ext <;> simp only [Mat.mul, transpose, aboutX, ident] <;> linarith
  · simp only [det, aboutX]; linarith

theorem rot_mul (a b : Mat) (ha : IsRotation a) (hb : IsRotation b) : IsRotation (a.mul b) := by
  refine ⟨?_, ?_, ?_⟩
  · rw [transpose_mul, mul_assoc', ← mul_assoc' b, hb.1, ident_mul, ha.1]
  · rw [transpose_mul, mul_assoc', ← mul_assoc' (transpose a), ha.2.1, ident_mul, hb.2.1]
  · rw [det_mul, ha.2.2, hb.2.2, one_mul]

theorem rot_euler (p t q : ℝ) : IsRotation (eulerMatrix p t q) := rot_mul _ _ (rot_aboutZ _) (rot_mul _ _ (rot_aboutX _) (rot_aboutZ _))

theorem dot_pos (v : Vec) (h : v ≠ zero) : 0 < dot v v := by
  have h0 : 0 ≤ dot v v := by unfold dot; nlinarith [sq_nonneg v.x, sq_nonneg v.y, sq_nonneg v.z]
  rcases h0.lt_or_eq with h1 | h1
  · exact h1
  · exfalso
    apply h
    unfold dot at h1
    have hx : v.x = 0 := by nlinarith [sq_nonneg v.x, sq_nonneg v.y, sq_nonneg v.z]
    have hy : v.y = 0 := by nlinarith [sq_nonneg v.x, sq_nonneg v.y, sq_nonneg v.z]
    have hz : v.z = 0 := by nlinarith [sq_nonneg v.x, sq_nonneg v.y, sq_nonneg v.z]
    ext <;> simp [zero, hx, hy, hz]

theorem norm_pos (v : Vec) (h : v ≠ zero) : 0 < norm v := sqrt_pos.mpr (dot_pos v h)

theorem norm_sq (v : Vec) : norm v * norm v = dot v v :=
  mul_self_sqrt (by unfold dot; nlinarith [sq_nonneg v.x, sq_nonneg v.y, sq_nonneg v.z])

/-- a vector in terms of its spherical angles -/
theorem spherical (v : Vec) (h : v ≠ zero) :
    v.x = norm v * sin (sphericalAngles v).2 * cos (sphericalAngles v).1 ∧
    v.y = norm v * sin (sphericalAngles v).2 * sin (sphericalAngles v).1 ∧
    v.z = norm v * cos (sphericalAngles v).2 := by
  have hn := norm_pos v h
  have hsq := norm_sq v
  have hz1 : (v.z / norm v) ^ 2 ≤ 1 := by
    rw [div_pow, div_le_one (by positivity)]
    unfold dot at hsq
    nlinarith [sq_nonneg v.x, sq_nonneg v.y]
  have habs := abs_le_of_sq_le_sq' (by simpa using hz1 : (v.z / norm v) ^ 2 ≤ 1 ^ 2) (by norm_num)
  have hcos : cos (sphericalAngles v).2 = v.z / norm v := by
    show cos (arccos (v.z / norm v)) = _
    exact cos_arccos habs.1 habs.2
  have hsin : norm v * sin (sphericalAngles v).2 = ‖(⟨v.x, v.y⟩ : ℂ)‖ := by
    show norm v * sin (arccos (v.z / norm v)) = _
    rw [sin_arccos, Complex.norm_def, Complex.normSq_mk]
    rw [show norm v = sqrt (norm v ^ 2) from (sqrt_sq hn.le).symm, ← sqrt_mul (sq_nonneg _), sqrt_sq hn.le]
    congr 1
    rw [mul_sub, mul_one, div_pow, mul_div_cancel₀ _ (by positivity)]
    unfold dot at hsq
    nlinarith
  refine ⟨?_, ?_, ?_⟩
  · rw [hsin]
    exact (Complex.norm_mul_cos_arg ⟨v.x, v.y⟩).symm
  · rw [hsin]
    exact (Complex.norm_mul_sin_arg ⟨v.x, v.y⟩).symm
  · rw [hcos, mul_div_cancel₀ _ hn.ne']

theorem between_maps (v1 v2 : Vec) (h1 : v1 ≠ zero) (h2 : v2 ≠ zero) :
    rotateVec v1 (eulerMatrixBetween v1 v2) = smul (norm v1 / norm v2) v2 := by
  obtain ⟨a1, a2, a3⟩ := spherical v1 h1
  obtain ⟨b1, b2, b3⟩ := spherical v2 h2
  have hn2 := (norm_pos v2 h2).ne'
  unfold eulerMatrixBetween
  generalize (sphericalAngles v1).1 = p1 at *
  generalize (sphericalAngles v1).2 = t1 at *
  generalize (sphericalAngles v2).1 = p2 at *
  generalize (sphericalAngles v2).2 = t2 at *
  generalize norm v1 = r1 at *
  generalize norm v2 = r2 at *
  have e1 : rotateVec v1 (aboutZ (π / 2 - p1)) = ⟨0, r1 * sin t1, r1 * cos t1⟩ := by
    have := sin_sq_add_cos_sq p1
    ext <;> simp only [rotateVec, aboutZ, a1, a2, a3, cos_pi_div_two_sub, sin_pi_div_two_sub]
    · ring
    · linear_combination (r1 * sin t1) * this
    · ring
  have e2 : rotateVec ⟨0, r1 * sin t1, r1 * cos t1⟩ (aboutX (t1 - t2)) = ⟨0, r1 * sin t2, r1 * cos t2⟩ := by
    have := sin_sq_add_cos_sq t1
    ext <;> simp only [rotateVec, aboutX, cos_sub, sin_sub]
    · ring
    · linear_combination (r1 * sin t2) * this
    · linear_combination (r1 * cos t2) * this
  have e3 : rotateVec ⟨0, r1 * sin t2, r1 * cos t2⟩ (aboutZ (p2 - π / 2)) = smul (r1 / r2) v2 := by
    ext <;> simp only [rotateVec, aboutZ, smul, b1, b2, b3, cos_sub_pi_div_two, sin_sub_pi_div_two] <;> field_simp <;> ring
  rw [eulerMatrix, rotateVec_mul, rotateVec_mul, e1, e2, e3]

/-- C55: the matrix between two vectors is a proper rotation that turns the direction of the first into the direction of the second (and the first
vector into the second when they have the same length). -/
theorem C55_rotation_between (v1 v2 : Vec) (h1 : v1 ≠ zero) (h2 : v2 ≠ zero) :
    IsRotation (eulerMatrixBetween v1 v2) ∧ rotateVec v1 (eulerMatrixBetween v1 v2) = smul (norm v1 / norm v2) v2 ∧
    (norm v1 = norm v2 → rotateVec v1 (eulerMatrixBetween v1 v2) = v2) := by
  refine ⟨rot_euler _ _ _, between_maps v1 v2 h1 h2, fun h => ?_⟩
  rw [between_maps v1 v2 h1 h2, h, div_self (norm_pos v2 h2).ne']
  ext <;> simp [smul]

/-- C55: rotating keeps scalar products, hence lengths and angles. -/
theorem C55_keeps_dot (m : Mat) (h : IsRotation m) (v w : Vec) : dot (rotateVec v m) (rotateVec w m) = dot v w := by
  have h2 := h.2.1
  rw [Mat.ext_iff] at h2
  simp only [Mat.mul, transpose, ident] at h2
  obtain ⟨e0, e1, e2, e3, e4, e5, e6, e7, e8⟩ := h2
  simp only [dot, rotateVec]
  linear_combination (v.x * w.x) * e0 + (v.x * w.y) * e1 + (v.x * w.z) * e2 + (v.y * w.x) * e3 + (v.y * w.y) * e4 + (v.y * w.z) * e5 +
    (v.z * w.x) * e6 + (v.z * w.y) * e7 + (v.z * w.z) * e8

/-- C55: the matrix from the one vector to the other and the matrix back are inverse to each other. -/
theorem C55_inverse (v1 v2 : Vec) :
    (eulerMatrixBetween v2 v1).mul (eulerMatrixBetween v1 v2) = ident := by
  unfold eulerMatrixBetween eulerMatrix
  generalize (sphericalAngles v1).1 = p1
  generalize (sphericalAngles v1).2 = t1
  generalize (sphericalAngles v2).1 = p2
  generalize (sphericalAngles v2).2 = t2
  have e1 : (aboutZ (π / 2 - p2)).mul (aboutZ (p2 - π / 2)) = ident := by rw [aboutZ_add, ← aboutZ_zero]; congr 1; ring
  have e2 : (aboutX (t2 - t1)).mul (aboutX (t1 - t2)) = ident := by rw [aboutX_add, ← aboutX_zero]; congr 1; ring
  have e3 : (aboutZ (p1 - π / 2)).mul (aboutZ (π / 2 - p1)) = ident := by rw [aboutZ_add, ← aboutZ_zero]; congr 1; ring
  rw [mul_assoc', mul_assoc', ← mul_assoc' (aboutZ (π / 2 - p2)), e1, ident_mul, ← mul_assoc' (aboutX (t2 - t1)), e2, ident_mul, e3]

/-- C55: for angles in [0, 2π) the angular distance is the representative in [-π, π] of the difference. -/
theorem C55_angular_distance (a b : ℝ) (ha : 0 ≤ a) (ha' : a < 2 * π) (hb : 0 ≤ b) (hb' : b < 2 * π) :
    -π ≤ angularDistance a b ∧ angularDistance a b ≤ π ∧ ∃ k : ℤ, angularDistance a b = b - a + 2 * π * k := by
  unfold angularDistance
  split_ifs with h1 h2
  · exact ⟨by linarith, by linarith, -1, by push_cast; ring⟩
  · exact ⟨by linarith, by linarith, 1, by push_cast; ring⟩
  · exact ⟨by linarith, by linarith, 0, by push_cast; ring⟩

/-- C55: for angles in [0, 2π) and a width in [0, 2π], the range test holds exactly for the angles that are reached from the lower end by turning
by at most the width, except when the range ends exactly at 2π. -/
theorem C55_angle_in_range_partial (phi low width : ℝ) (hp : 0 ≤ phi) (hp' : phi < 2 * π) (hl : 0 ≤ low) (hl' : low < 2 * π) (hw : 0 ≤ width)
    (hw' : width ≤ 2 * π)
    (hne : low + width ≠ 2 * π) :
    angleInRange phi low width ↔ ∃ (k : ℤ) (t : ℝ), 0 ≤ t ∧ t ≤ width ∧ phi = low + t + 2 * π * k := by
  have hpi := pi_pos
  unfold angleInRange
  split_ifs with h
  · constructor
    · rintro (h1 | h1)
      · exact ⟨0, phi - low, by linarith, by linarith, by push_cast; ring⟩
      · exact ⟨-1, phi - low + 2 * π, by linarith, by linarith, by push_cast; ring⟩
    · rintro ⟨k, t, h1, h2, h3⟩
      have hk1 : k < 1 := by
        by_contra hc
        have : (1 : ℝ) ≤ k := by exact_mod_cast not_lt.mp hc
        nlinarith
      have hk2 : -2 < k := by
        by_contra hc
        have : (k : ℝ) ≤ -2 := by exact_mod_cast not_lt.mp hc
        nlinarith
      have : k = 0 ∨ k = -1 := by omega
      rcases this with rfl | rfl
      · left; push_cast at h3; linarith
      · right; push_cast at h3; linarith
  · constructor
    · rintro ⟨h1, h2⟩
      exact ⟨0, phi - low, by linarith, by linarith, by push_cast; ring⟩
    · rintro ⟨k, t, h1, h2, h3⟩
      have hk1 : k < 1 := by
        by_contra hc
        have : (1 : ℝ) ≤ k := by exact_mod_cast not_lt.mp hc
        nlinarith
      have hk2 : -1 < k := by
        by_contra hc
        have hc' : (k : ℝ) ≤ -1 := by exact_mod_cast not_lt.mp hc
        have : phi ≤ 0 := by nlinarith
        have hlt : low + width < 2 * π := lt_of_le_of_ne (by linarith) hne
        nlinarith
      have : k = 0 := by omega
      subst this
      push_cast at h3
      exact ⟨by linarith, by linarith⟩

/-- C55 without the exception is false of the code: the range from 3π/2 to 2π, ends included, misses the angle 0. -/
theorem C55_angle_in_range_end_false : ∃ phi low width : ℝ, 0 ≤ phi ∧ phi < 2 * π ∧ 0 ≤ low ∧ low < 2 * π ∧ 0 ≤ width ∧ width ≤ 2 * π ∧
    (∃ (k : ℤ) (t : ℝ), 0 ≤ t ∧ t ≤ width ∧ phi = low + t + 2 * π * k) ∧ ¬ angleInRange phi low width := by
  have hpi := pi_pos
  refine ⟨0, 3 * π / 2, π / 2, le_refl _, by linarith, by linarith, by linarith, by linarith, by linarith,
    ⟨-1, π / 2, by linarith, le_refl _, by push_cast; ring⟩, ?_⟩
  unfold angleInRange
  rw [if_neg (by linarith)]
  rintro ⟨h, _⟩
  linarith

-- the x axis is turned into the diagonal direction of the y-z plane
example : (⟨1, 0, 0⟩ : Vec) ≠ zero ∧ (⟨0, 3, 3⟩ : Vec) ≠ zero := by
  constructor
  · intro h; have := congrArg Vec.x h; norm_num [zero] at this
  · intro h; have := congrArg Vec.y h; norm_num [zero] at this

-- an angle in a range that wraps around
example : angleInRange 0.1 6 1 := by
  unfold angleInRange
  rw [if_pos (by linarith [pi_lt_d2])]
  right; linarith [pi_lt_d2]

end
end Shellfish.Geom
