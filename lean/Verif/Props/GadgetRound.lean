/-
C141: particles of Gadget-2 files in machine arithmetic.
-/
import Verif.Model.GadgetRound
import Verif.Props.FixCoord32
import Verif.Props.BinRound

namespace Shellfish.Round

/-- C141 (positions): a coordinate of the file within one box width of the box is accepted.  In the units of the configuration it is not negative, at most the width of the box in the header (up to the relative error 2⁻²²), and
within 2⁻²¹ box widths of a periodic image of the coordinate. -/
theorem C141_position_partial (box units x : ℚ) (hb : 0 < box) (hu : 0 < units) (fx : Float32 x) (h1 : -(r32 box) ≤ x) (h2 : x < 2 * r32 box) :
    ∃ y, gadgetCoord32 box units x = some y ∧ 0 ≤ y ∧ y ≤ gadgetWidth64 box units * (1 + 1 / 2 ^ 22) ∧
      ∃ k : ℤ, |y - (x * units + k * gadgetWidth64 box units)| ≤ gadgetWidth64 box units / 2 ^ 21 := by
  obtain ⟨tl, th⟩ := r32_bounds' hb.le
  obtain ⟨ul, uh⟩ := r32_bounds' hu.le
  have htw : 0 < r32 box := lt_of_lt_of_le (mul_pos hb (by norm_num)) tl
  obtain ⟨y0, e1, _, g1, g2, ⟨k, hk⟩, _, _⟩ := C32_float32_partial (r32 box) x htw (r32_rep box) fx h1 h2
  have hW0 : 0 < box * units := mul_pos hb hu
  obtain ⟨wl, wh⟩ := r64_bounds hW0.le
  unfold gadgetCoord32 gadgetWidth64
  rw [e1, Option.map_some]
  have hu' : 0 < r32 units := lt_of_lt_of_le (mul_pos hu (by norm_num)) ul
  obtain ⟨yl, yh⟩ := r32_bounds' (mul_nonneg g1 hu'.le)
  refine ⟨_, rfl, r32_nonneg (mul_nonneg g1 hu'.le), ?_, k, ?_⟩
  · have a1 : y0 * r32 units ≤ (box * (1 + 1 / 2 ^ 24)) * (units * (1 + 1 / 2 ^ 24)) := mul_le_mul (g2.trans th) uh hu'.le (by positivity)
    have a2 : (box * (1 + 1 / 2 ^ 24)) * (units * (1 + 1 / 2 ^ 24)) = box * units * ((1 + 1 / 2 ^ 24) * (1 + 1 / 2 ^ 24)) := by ring
    rw [a2] at a1
    generalize box * units = W0 at *
    norm_num at *
    linarith
  · have ha : |r32 (y0 * r32 units) - y0 * r32 units| ≤ y0 * r32 units / 2 ^ 24 := by
      have := r32_error (y0 * r32 units)
      rwa [abs_of_nonneg (mul_nonneg g1 hu'.le)] at this
    have hbu : |y0 * r32 units - y0 * units| ≤ y0 * units / 2 ^ 24 := by
      rw [← mul_sub, abs_mul, abs_of_nonneg g1, mul_div_assoc]
      have := r32_error units
      rw [abs_of_pos hu] at this
      exact mul_le_mul_of_nonneg_left this g1
    have hc : |y0 * units - (x * units + k * (r32 box * units))| ≤ r32 box * units / 2 ^ 24 := by
      have : y0 * units - (x * units + k * (r32 box * units)) = (y0 - (x + k * r32 box)) * units := by ring
      rw [this, abs_mul, abs_of_pos hu, mul_div_right_comm]
      exact mul_le_mul_of_nonneg_right hk hu.le
    have hk3 : |(k : ℚ)| ≤ 3 := by
      have : |(k : ℚ)| < 4 := by
        obtain ⟨p, q⟩ := abs_le.mp hk
        rw [abs_lt]
        have ht : r32 box / 2 ^ 24 < r32 box := div_lt_self htw (by norm_num)
        constructor
        · by_contra hh
          have := mul_le_mul_of_nonneg_right (not_lt.mp hh) htw.le
          linarith
        · by_contra hh
          have := mul_le_mul_of_nonneg_right (not_lt.mp hh) htw.le
          linarith
      have h3 : |k| < 4 := by exact_mod_cast this
      have h4 : |k| ≤ 3 := by omega
      exact_mod_cast h4
    have hd : |k * (r32 box * units) - k * r64 (box * units)| ≤ 3 * (box * units * (3 / 2 / 2 ^ 24)) := by
      rw [← mul_sub, abs_mul]
      refine mul_le_mul hk3 ?_ (abs_nonneg _) (by norm_num)
      have m1 : r32 box * units ≤ box * units * (1 + 1 / 2 ^ 24) := by
        have := mul_le_mul_of_nonneg_right th hu.le
        linarith
      have m2 : box * units * (1 - 1 / 2 ^ 24) ≤ r32 box * units := by
        have := mul_le_mul_of_nonneg_right tl hu.le
        linarith
      generalize box * units = W0 at *
      generalize r32 box * units = T at *
      rw [abs_le]
      norm_num at *
      constructor <;> linarith
    -- sizes
    have s1 : y0 * units ≤ box * units * (1 + 1 / 2 ^ 24) := by
      have := mul_le_mul_of_nonneg_right (g2.trans th) hu.le
      linarith
    have s2 : y0 * r32 units ≤ y0 * units * (1 + 1 / 2 ^ 24) := by
      have := mul_le_mul_of_nonneg_left uh g1
      linarith
    have s3 : r32 box * units ≤ box * units * (1 + 1 / 2 ^ 24) := by
      have := mul_le_mul_of_nonneg_right th hu.le
      linarith
    have t1 := abs_sub_le (r32 (y0 * r32 units)) (y0 * r32 units) (x * units + k * r64 (box * units))
    have t2 := abs_sub_le (y0 * r32 units) (y0 * units) (x * units + k * r64 (box * units))
    have t3 := abs_sub_le (y0 * units) (x * units + k * (r32 box * units)) (x * units + k * r64 (box * units))
    have t4 : x * units + k * (r32 box * units) - (x * units + k * r64 (box * units)) = k * (r32 box * units) - k * r64 (box * units) := by ring
    rw [t4] at t3
    have n1 : 0 ≤ y0 * units := mul_nonneg g1 hu.le
    generalize |k * (r32 box * units) - k * r64 (box * units)| = q1 at *
    generalize |y0 * units - (x * units + k * (r32 box * units))| = q2 at *
    generalize |y0 * r32 units - y0 * units| = q3 at *
    generalize |r32 (y0 * r32 units) - y0 * r32 units| = q4 at *
    generalize |y0 * units - (x * units + k * r64 (box * units))| = q5 at *
    generalize |y0 * r32 units - (x * units + k * r64 (box * units))| = q6 at *
    refine t1.trans ?_
    generalize r64 (box * units) = W at *
    generalize r32 box * units = T at *
    generalize y0 * r32 units = Y at *
    generalize y0 * units = Z at *
    generalize box * units = W0 at *
    norm_num at ha hbu hc hd s1 s2 s3 wl wh ⊢
    linarith

/-- C141 is false for the strict bound: a coordinate inside of a box of 100000 kpc/h is moved onto the box width when it is converted to Mpc/h (0.001 is larger as a float32). -/
theorem C141_inside_false : Float32 100000 ∧ Float32 (100000 - 1 / 2 ^ 7) ∧ (100000 - 1 / 2 ^ 7 : ℚ) < 100000 ∧ gadgetWidth64 100000 (r64 (1 / 1000)) = 100 ∧ gadgetCoord32 100000 (r64 (1 / 1000)) (100000 - 1 / 2 ^ 7) = some 100 := by
  have f1 : Float32 100000 := ⟨3125, 5, by norm_num, by norm_num⟩
  have f2 : Float32 (100000 - 1 / 2 ^ 7) := ⟨12799999, -7, by norm_num, by norm_num⟩
  have hu : r64 (1 / 1000) = 1152921504606847 / 2 ^ 60 := by
    unfold r64
    rw [rn_eq (-10) (4 * 1152921504606847) (by rw [abs_of_pos (by norm_num)]; norm_num) (by rw [abs_of_pos (by norm_num)]; norm_num) (by rw [abs_lt]; norm_num)]
    norm_num
  have hu32 : r32 (1152921504606847 / 2 ^ 60) = 8589935 / 2 ^ 33 := by
    unfold r32
    rw [rn_eq (-10) 8589935 (by rw [abs_of_pos (by norm_num)]; norm_num) (by rw [abs_of_pos (by norm_num)]; norm_num) (by rw [abs_lt]; norm_num)]
    norm_num
  refine ⟨f1, f2, by norm_num, ?_, ?_⟩
  · unfold gadgetWidth64
    rw [hu]
    unfold r64
    rw [rn_eq 6 (100 * 2 ^ 46) (by rw [abs_of_pos (by norm_num)]; norm_num) (by rw [abs_of_pos (by norm_num)]; norm_num) (by rw [abs_lt]; norm_num)]
    norm_num
  · have e : fixCoord32 100000 (100000 - 1 / 2 ^ 7) = some (100000 - 1 / 2 ^ 7) := by
      have hd : r32 (2 * 100000) = 2 * 100000 := r32_float ⟨3125, 6, by norm_num, by norm_num⟩
      unfold fixCoord32
      rw [hd, if_neg (by norm_num), if_neg (by norm_num), if_neg (by norm_num)]
    unfold gadgetCoord32
    rw [r32_float f1, e, Option.map_some, hu, hu32]
    unfold r32
    rw [rn_eq 6 (100 * 2 ^ 17) (by rw [abs_of_pos (by norm_num)]; norm_num) (by rw [abs_of_pos (by norm_num)]; norm_num) (by rw [abs_lt]; norm_num)]
    norm_num

/-- C141 (velocities): the velocity is that of the file times the root of the scale factor, up to the relative error 2⁻²². -/
theorem C141_velocity_partial (time v : ℚ) (ht : 0 ≤ time) : ∃ w, gadgetVel32 time v = some w ∧ |(w : ℝ) - v * Real.sqrt time| ≤ |(v : ℝ)| * Real.sqrt time / 2 ^ 22 := by
  refine ⟨r32 (v * r32 (rnReal (Real.sqrt (time : ℝ)))), by unfold gadgetVel32 sqrt64; rw [if_neg (not_lt.mpr ht), Option.map_some], ?_⟩
  have hs : 0 ≤ Real.sqrt (time : ℝ) := Real.sqrt_nonneg _
  have e1 := rnReal_error (Real.sqrt (time : ℝ))
  rw [abs_of_nonneg hs] at e1
  generalize rnReal (Real.sqrt (time : ℝ)) = a at *
  generalize Real.sqrt (time : ℝ) = s at *
  have e2 := r32_errR a
  have e3 := r32_errR (v * r32 a)
  push_cast at e3
  have ha : |(a : ℝ)| ≤ s * (1 + 1 / 2 ^ 53) := by
    have := abs_sub_abs_le_abs_sub (a : ℝ) s
    rw [abs_of_nonneg hs] at this
    linarith
  have hb : |(r32 a : ℝ) - s| ≤ s * (2 / 2 ^ 24) := by
    have := abs_sub_le (r32 a : ℝ) (a : ℝ) s
    generalize |(r32 a : ℝ) - s| = q1 at *
    generalize |(r32 a : ℝ) - a| = q2 at *
    generalize |(a : ℝ) - s| = q3 at *
    norm_num at *
    linarith
  have hc : |(r32 a : ℝ)| ≤ s * (1 + 2 / 2 ^ 24) := by
    have := abs_sub_abs_le_abs_sub (r32 a : ℝ) s
    rw [abs_of_nonneg hs] at this
    linarith
  have hd : |(v : ℝ) * r32 a - v * s| ≤ |(v : ℝ)| * (s * (2 / 2 ^ 24)) := by
    rw [← mul_sub, abs_mul]
    exact mul_le_mul_of_nonneg_left hb (abs_nonneg _)
  have he : |(v : ℝ) * r32 a| ≤ |(v : ℝ)| * (s * (1 + 2 / 2 ^ 24)) := by
    rw [abs_mul]
    exact mul_le_mul_of_nonneg_left hc (abs_nonneg _)
  have hf := abs_sub_le ((r32 (v * r32 a) : ℚ) : ℝ) (v * r32 a) (v * s)
  have hn : 0 ≤ |(v : ℝ)| * s := mul_nonneg (abs_nonneg _) hs
  rw [← mul_assoc] at hd he
  generalize |((r32 (v * r32 a) : ℚ) : ℝ) - v * s| = q1 at *
  generalize |((r32 (v * r32 a) : ℚ) : ℝ) - v * r32 a| = q2 at *
  generalize |(v : ℝ) * r32 a - v * s| = q3 at *
  generalize |(v : ℝ) * r32 a| = q4 at *
  generalize |(v : ℝ)| * s = q5 at *
  norm_num at *
  linarith

/-- C141 (masses): the mass is that of the file times the units, up to the relative error 2⁻²². -/
theorem C141_mass_partial (units m : ℚ) : |gadgetMass32 units m - m * units| ≤ |m * units| / 2 ^ 22 := by
  unfold gadgetMass32
  have e1 := r32_error units
  have e2 := r32_error (m * r32 units)
  have e3 : |m * r32 units - m * units| ≤ |m * units| / 2 ^ 24 := by
    rw [← mul_sub, abs_mul, abs_mul, mul_div_assoc]
    exact mul_le_mul_of_nonneg_left e1 (abs_nonneg _)
  have e4 := abs_sub_abs_le_abs_sub (m * r32 units) (m * units)
  have e5 := abs_sub_le (r32 (m * r32 units)) (m * r32 units) (m * units)
  have hn := abs_nonneg (m * units)
  generalize |r32 (m * r32 units) - m * units| = q1 at *
  generalize |r32 (m * r32 units) - m * r32 units| = q2 at *
  generalize |m * r32 units - m * units| = q3 at *
  generalize |m * r32 units| = q4 at *
  generalize |m * units| = q5 at *
  norm_num at *
  linarith

/-- A coordinate beyond a box of 62500 kpc/h, which is converted to Mpc/h. -/
example : ∃ y, gadgetCoord32 62500 (1 / 1000) 62501 = some y ∧ 0 ≤ y := by
  have e : r32 62500 = 62500 := r32_float ⟨62500, 0, by norm_num, by norm_num⟩
  obtain ⟨y, h1, h2, _⟩ := C141_position_partial 62500 (1 / 1000) 62501 (by norm_num) (by norm_num) ⟨62501, 0, by norm_num, by norm_num⟩ (by rw [e]; norm_num) (by rw [e]; norm_num)
  exact ⟨y, h1, h2⟩
/-- A velocity at the scale factor 1/2. -/
example : ∃ w, gadgetVel32 (1 / 2) (-300) = some w := by
  obtain ⟨w, h, _⟩ := C141_velocity_partial (1 / 2) (-300) (by norm_num)
  exact ⟨w, h⟩

end Shellfish.Round
