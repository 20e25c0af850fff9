/- C112: in float64 arithmetic, the density of a particle ends where its sphere ends. -/
import Verif.Model.LosRound
import Verif.Props.Round
import Mathlib.Analysis.SpecialFunctions.Log.Basic

namespace Shellfish.Round
open Shellfish.Los (ProfileRing)

/-! ### Lemmas -/

theorem rnReal_zero : rnReal 0 = 0 := by simp [rnReal]

theorem rnReal_error (x : ℝ) : |((rnReal x : ℚ) : ℝ) - x| ≤ 1 / 2 ^ 53 * |x| := by
  by_cases hx : x = 0
  · rw [hx, rnReal_zero]; simp
  have hp : (0 : ℝ) < |x| := abs_pos.mpr hx
  have h1 : ((2 : ℕ) : ℝ) ^ Int.log 2 |x| ≤ |x| := Int.zpow_log_le_self (by norm_num) hp
  set e := Int.log 2 |x| - 52 with he
  have hpe : (0 : ℝ) < 2 ^ e := by positivity
  have h2 := abs_sub_round (x / 2 ^ e)
  have h3 : ((rnReal x : ℚ) : ℝ) - x = -((x / 2 ^ e - (round (x / 2 ^ e) : ℤ)) * 2 ^ e) := by
    unfold rnReal
    rw [← he]
    push_cast
    field_simp
    ring
  rw [h3, abs_neg, abs_mul, abs_of_pos hpe]
  have h4 : (2 : ℝ) ^ e = 2 ^ Int.log 2 |x| * (1 / 2 ^ 52) := by
    rw [he, zpow_sub₀ (by norm_num)]
    norm_num [div_eq_mul_inv]
  push_cast at h1
  calc |x / 2 ^ e - (round (x / 2 ^ e) : ℤ)| * 2 ^ e ≤ 1 / 2 * 2 ^ e := mul_le_mul_of_nonneg_right h2 hpe.le
    _ = 1 / 2 ^ 53 * 2 ^ Int.log 2 |x| := by rw [h4]; ring
    _ ≤ 1 / 2 ^ 53 * |x| := mul_le_mul_of_nonneg_left h1 (by norm_num)

theorem rnReal_bounds {x : ℝ} (h : 0 ≤ x) : x * (1 - 1 / 2 ^ 53) ≤ ((rnReal x : ℚ) : ℝ) ∧ ((rnReal x : ℚ) : ℝ) ≤ x * (1 + 1 / 2 ^ 53) := by
  have := rnReal_error x
  rw [abs_of_nonneg h, abs_le] at this
  constructor <;> nlinarith [this.1, this.2]

theorem r64_neg_iff (x : ℚ) : r64 x < 0 ↔ x < 0 := by
  constructor
  · intro h
    by_contra hc
    exact absurd (r64_nonneg (not_lt.mp hc)) (not_le.mpr h)
  · intro h
    have h1 := rn_error (p := 53) (by norm_num) x
    have e : (2 : ℚ) ^ (-((53 : ℕ) : ℤ)) = 1 / 2 ^ 53 := by norm_num
    rw [e, abs_of_neg h, abs_le] at h1
    have h2 : rn 53 x ≤ x * (1 - 1 / 2 ^ 53) := by nlinarith [h1.2]
    refine lt_of_le_of_lt h2 ?_
    have : (0 : ℚ) < 1 - 1 / 2 ^ 53 := by norm_num
    nlinarith

/-- C112, when the far end of a line in the circle is not a number: the rounded square of the impact parameter is larger than the rounded square of the radius, or of the distance of the center. -/
theorem C112_nan (dist2 rad2 b dir : ℚ) : oneVal64 dist2 rad2 b dir = none ↔ rad2 < r64 (b * b) ∨ dist2 < r64 (b * b) := by
  unfold oneVal64 sqrt64
  simp only [r64_neg_iff, sub_neg]
  by_cases h1 : rad2 < r64 (b * b) <;> by_cases h2 : dist2 < r64 (b * b) <;> simp [h1, h2]

theorem sqrt64_bounds (x y : ℚ) (s : ℚ) (h : sqrt64 x = some s) (hxy : x ≤ y) (hy : 0 ≤ y) : 0 ≤ s ∧ (s : ℝ) ≤ Real.sqrt y * (1 + 1 / 2 ^ 53) := by
  unfold sqrt64 at h
  split at h
  · cases h
  · cases h
    have h1 := rnReal_bounds (Real.sqrt_nonneg (x : ℝ))
    have h2 : Real.sqrt (x : ℝ) ≤ Real.sqrt (y : ℝ) := Real.sqrt_le_sqrt (by exact_mod_cast hxy)
    constructor
    · have : (0 : ℝ) ≤ ((rnReal (Real.sqrt (x : ℝ)) : ℚ) : ℝ) := le_trans (mul_nonneg (Real.sqrt_nonneg _) (by norm_num)) h1.1
      exact_mod_cast this
    · exact le_trans h1.2 (mul_le_mul_of_nonneg_right h2 (by norm_num))

theorem r64_upper (x : ℚ) (y : ℝ) (hy : 0 ≤ y) (h : (x : ℝ) ≤ y) : ((r64 x : ℚ) : ℝ) ≤ y * (1 + 1 / 2 ^ 53) := by
  rcases le_or_gt x 0 with hx | hx
  · have h1 : r64 x ≤ 0 := rn_nonpos hx
    have h2 : ((r64 x : ℚ) : ℝ) ≤ 0 := by exact_mod_cast h1
    exact le_trans h2 (mul_nonneg hy (by norm_num))
  · have h1 := (r64_bounds hx.le).2
    have h2 : ((r64 x : ℚ) : ℝ) ≤ (x : ℝ) * (1 + 1 / 2 ^ 53) := by
      have h3 : ((r64 x : ℚ) : ℝ) ≤ ((x * (1 + 1 / 2 ^ 53) : ℚ) : ℝ) := Rat.cast_le.mpr h1
      rw [Rat.cast_mul] at h3
      norm_num at h3 ⊢
      exact h3
    exact le_trans h2 (mul_le_mul_of_nonneg_right h (by norm_num))

/-- A line that is not wrong ends at a distance of at most the sum of the radius and the distance of the center, up to rounding. -/
theorem oneVal64_le (dist2 rad2 b dir x : ℚ) (hd : 0 ≤ dist2) (hr : 0 ≤ rad2) (h : oneVal64 dist2 rad2 b dir = some x) :
    (x : ℝ) ≤ (Real.sqrt dist2 + Real.sqrt rad2) * (1 + 1 / 2 ^ 50) := by
  unfold oneVal64 at h
  cases h1 : sqrt64 (r64 (rad2 - r64 (b * b))) with
  | none => rw [h1] at h; cases h
  | some s =>
    cases h2 : sqrt64 (r64 (dist2 - r64 (b * b))) with
    | none => rw [h1, h2] at h; cases h
    | some c =>
      rw [h1, h2] at h
      simp only [Option.bind_some, Option.map_some, Option.some.injEq] at h
      have hb0 : 0 ≤ r64 (b * b) := r64_nonneg (mul_self_nonneg b)
      have key : ∀ (a : ℚ), 0 ≤ a → ∀ s, sqrt64 (r64 (a - r64 (b * b))) = some s → 0 ≤ s ∧ (s : ℝ) ≤ Real.sqrt a * (1 + 1 / 2 ^ 52) := by
        intro a ha s hs
        have hup : r64 (a - r64 (b * b)) ≤ a * (1 + 1 / 2 ^ 53) := le_trans (r64_mono (by linarith : a - r64 (b * b) ≤ a)) (r64_bounds ha).2
        obtain ⟨g1, g2⟩ := sqrt64_bounds _ _ s hs hup (by positivity)
        refine ⟨g1, le_trans g2 ?_⟩
        have e1 : (((a * (1 + 1 / 2 ^ 53) : ℚ)) : ℝ) = (a : ℝ) * (1 + 1 / 2 ^ 53) := by push_cast; ring
        rw [e1, Real.sqrt_mul (by exact_mod_cast ha), mul_assoc]
        refine mul_le_mul_of_nonneg_left ?_ (Real.sqrt_nonneg _)
        have e2 : Real.sqrt (1 + 1 / 2 ^ 53) ≤ 1 + 1 / 2 ^ 54 := by
          rw [Real.sqrt_le_left (by norm_num)]
          norm_num
        calc Real.sqrt (1 + 1 / 2 ^ 53) * (1 + 1 / 2 ^ 53) ≤ (1 + 1 / 2 ^ 54) * (1 + 1 / 2 ^ 53) := mul_le_mul_of_nonneg_right e2 (by norm_num)
          _ ≤ 1 + 1 / 2 ^ 52 := by norm_num
      obtain ⟨s0, s1⟩ := key rad2 hr s h1
      obtain ⟨c0, c1⟩ := key dist2 hd c h2
      have hD := Real.sqrt_nonneg (dist2 : ℝ)
      have hR := Real.sqrt_nonneg (rad2 : ℝ)
      set D := Real.sqrt (dist2 : ℝ)
      set R := Real.sqrt (rad2 : ℝ)
      have hsum : ((s + c : ℚ) : ℝ) ≤ (D + R) * (1 + 1 / 2 ^ 52) := by push_cast; linarith
      have hx : (x : ℝ) ≤ (D + R) * (1 + 1 / 2 ^ 52) * (1 + 1 / 2 ^ 53) := by
        rw [← h]
        split
        · exact r64_upper _ _ (by positivity) hsum
        · refine r64_upper _ _ (by positivity) (le_trans ?_ hsum)
          have : s - c ≤ s + c := by linarith
          exact_mod_cast this
      refine le_trans hx ?_
      rw [mul_assoc]
      exact mul_le_mul_of_nonneg_left (by norm_num) (by positivity)

theorem rnReal_mono {x y : ℝ} (hx : 0 ≤ x) (hxy : x ≤ y) : rnReal x ≤ rnReal y := by
  by_cases h0 : x = 0
  · rw [h0, rnReal_zero]
    have := (rnReal_bounds (hx.trans hxy)).1
    have h2 : (0 : ℝ) ≤ ((rnReal y : ℚ) : ℝ) := le_trans (mul_nonneg (hx.trans hxy) (by norm_num)) this
    exact_mod_cast h2
  have hx0 : 0 < x := lt_of_le_of_ne hx (Ne.symm h0)
  have hy0 : 0 < y := lt_of_lt_of_le hx0 hxy
  have hl : Int.log 2 x ≤ Int.log 2 y := Int.log_mono_right hx0 hxy
  rcases eq_or_lt_of_le hl with he | hlt
  · unfold rnReal
    rw [abs_of_pos hx0, abs_of_pos hy0, he]
    have : round (x / 2 ^ (Int.log 2 y - 52)) ≤ round (y / 2 ^ (Int.log 2 y - 52)) := by
      rw [round_eq, round_eq]
      apply Int.floor_mono
      have : x / 2 ^ (Int.log 2 y - 52) ≤ y / 2 ^ (Int.log 2 y - 52) := div_le_div_of_nonneg_right hxy (by positivity)
      linarith
    exact mul_le_mul_of_nonneg_right (by exact_mod_cast this) (by positivity)
  · have hlo : ∀ z : ℝ, 0 < z → (2 : ℚ) ^ Int.log 2 z ≤ rnReal z := by
      intro z hz
      unfold rnReal
      rw [abs_of_pos hz]
      have hz1 : ((2 : ℕ) : ℝ) ^ Int.log 2 z ≤ z := Int.zpow_log_le_self (by norm_num) hz
      push_cast at hz1
      have : (2 ^ 52 : ℤ) ≤ round (z / 2 ^ (Int.log 2 z - 52)) := by
        rw [round_eq, Int.le_floor]
        have : (2 : ℝ) ^ 52 ≤ z / 2 ^ (Int.log 2 z - 52) := by
          rw [le_div_iff₀ (by positivity)]
          refine le_trans (le_of_eq ?_) hz1
          rw [← zpow_natCast, ← zpow_add₀ (by norm_num)]
          congr 1
          push_cast; ring
        push_cast
        linarith
      calc (2 : ℚ) ^ Int.log 2 z = 2 ^ 52 * 2 ^ (Int.log 2 z - 52) := by
            rw [← zpow_natCast, ← zpow_add₀ (by norm_num)]
            congr 1
            push_cast; ring
        _ ≤ _ := mul_le_mul_of_nonneg_right (by exact_mod_cast this) (by positivity)
    have hup : ∀ z : ℝ, 0 < z → rnReal z ≤ (2 : ℚ) ^ (Int.log 2 z + 1) := by
      intro z hz
      unfold rnReal
      rw [abs_of_pos hz]
      have hz1 : z < ((2 : ℕ) : ℝ) ^ (Int.log 2 z + 1) := Int.lt_zpow_succ_log_self (by norm_num) z
      push_cast at hz1
      have : round (z / 2 ^ (Int.log 2 z - 52)) ≤ (2 ^ 53 : ℤ) := by
        rw [round_eq]
        have h3 : z / 2 ^ (Int.log 2 z - 52) < (2 : ℝ) ^ 53 := by
          rw [div_lt_iff₀ (by positivity)]
          refine lt_of_lt_of_eq hz1 ?_
          rw [← zpow_natCast, ← zpow_add₀ (by norm_num)]
          congr 1
          push_cast; ring
        have h4 : ⌊z / 2 ^ (Int.log 2 z - 52) + 1 / 2⌋ < 2 ^ 53 + 1 := by
          rw [Int.floor_lt]
          push_cast
          linarith
        omega
      calc _ ≤ (2 : ℚ) ^ 53 * 2 ^ (Int.log 2 z - 52) := mul_le_mul_of_nonneg_right (by exact_mod_cast this) (by positivity)
        _ = 2 ^ (Int.log 2 z + 1) := by
            rw [← zpow_natCast, ← zpow_add₀ (by norm_num)]
            congr 1
            push_cast; ring
    calc rnReal x ≤ 2 ^ (Int.log 2 x + 1) := hup x hx0
      _ ≤ 2 ^ Int.log 2 y := zpow_le_zpow_right₀ (by norm_num) (by omega)
      _ ≤ rnReal y := hlo y hy0

theorem oneVal64_nonneg (dist2 rad2 b dir x : ℚ) (hdr : dist2 ≤ rad2) (h : oneVal64 dist2 rad2 b dir = some x) : 0 ≤ x := by
  unfold oneVal64 sqrt64 at h
  by_cases h1 : r64 (rad2 - r64 (b * b)) < 0
  · rw [if_pos h1] at h; cases h
  · by_cases h2 : r64 (dist2 - r64 (b * b)) < 0
    · rw [if_neg h1, if_pos h2] at h; cases h
    · rw [if_neg h1, if_neg h2] at h
      simp only [Option.bind_some, Option.map_some, Option.some.injEq] at h
      have hle : r64 (dist2 - r64 (b * b)) ≤ r64 (rad2 - r64 (b * b)) := r64_mono (by linarith)
      have hs : rnReal (Real.sqrt ((r64 (dist2 - r64 (b * b)) : ℚ) : ℝ)) ≤ rnReal (Real.sqrt ((r64 (rad2 - r64 (b * b)) : ℚ) : ℝ)) :=
        rnReal_mono (Real.sqrt_nonneg _) (Real.sqrt_le_sqrt (by exact_mod_cast hle))
      have h0 : 0 ≤ rnReal (Real.sqrt ((r64 (dist2 - r64 (b * b)) : ℚ) : ℝ)) := by
        have := rnReal_mono le_rfl (Real.sqrt_nonneg ((r64 (dist2 - r64 (b * b)) : ℚ) : ℝ))
        rwa [rnReal_zero] at this
      rw [← h]
      split
      · exact r64_nonneg (by linarith)
      · exact r64_nonneg (by linarith)

/-- C112 for the lines on which rounding does not make the impact parameter larger than the distance of the center: the far end of the line is a number, it is not negative, and it is at most the distance
of the center plus the radius, up to a relative error of 2^-50. -/
theorem C112_end_partial (dist2 rad2 b dir : ℚ) (hd : 0 ≤ dist2) (hr : dist2 < rad2) (hb : r64 (b * b) ≤ dist2) :
    ∃ x, oneVal64 dist2 rad2 b dir = some x ∧ 0 ≤ x ∧ (x : ℝ) ≤ (Real.sqrt dist2 + Real.sqrt rad2) * (1 + 1 / 2 ^ 50) := by
  cases h : oneVal64 dist2 rad2 b dir with
  | none => rcases (C112_nan dist2 rad2 b dir).mp h with h | h <;> linarith
  | some x => exact ⟨x, rfl, oneVal64_nonneg _ _ _ _ x hr.le h, oneVal64_le _ _ _ _ x hd (hd.trans hr.le) h⟩

/-- The hypotheses are met: the line along the first axis, for a circle of squared radius 4 around (1, 1). -/
example : (0 : ℚ) ≤ 2 ∧ (2 : ℚ) < 4 ∧ r64 (1 * 1) ≤ 2 := ⟨by norm_num, by norm_num, by rw [r64_float ⟨1, 0, by norm_num, by norm_num⟩]; norm_num⟩

theorem sqrt_diff (u v : ℝ) : |Real.sqrt u - Real.sqrt v| ≤ Real.sqrt |u - v| := by
  have key : ∀ a b : ℝ, Real.sqrt a ≤ Real.sqrt b + Real.sqrt |a - b| := by
    intro a b
    rw [Real.sqrt_le_left (by positivity)]
    have h1 := Real.sqrt_nonneg b
    have h2 := Real.sq_sqrt (abs_nonneg (a - b))
    have h3 := Real.sqrt_nonneg |a - b|
    have h4 := le_abs_self (a - b)
    rcases le_or_gt 0 b with hb | hb
    · have h5 := Real.sq_sqrt hb
      nlinarith [mul_nonneg h1 h3]
    · rw [Real.sqrt_eq_zero_of_nonpos hb.le]
      nlinarith
  rw [abs_le]
  constructor
  · have := key v u
    rw [abs_sub_comm] at this
    linarith
  · linarith [key u v]

/-- The rounded half of a chord. -/
theorem chord_error (a b s : ℚ) (ha : 0 ≤ a) (hb : r64 (b * b) ≤ a) (hs : sqrt64 (r64 (a - r64 (b * b))) = some s) :
    |(s : ℝ) - Real.sqrt ((a : ℝ) - (b : ℝ) ^ 2)| ≤ Real.sqrt a * (1 / 2 ^ 26 + 1 / 2 ^ 46) := by
  have hnn : 0 ≤ a - r64 (b * b) := by linarith
  unfold sqrt64 at hs
  rw [if_neg (not_lt.mpr (r64_nonneg hnn))] at hs
  injection hs with hs
  have hb0 : 0 ≤ r64 (b * b) := r64_nonneg (mul_self_nonneg b)
  have e1 := r64_bounds (mul_self_nonneg b)
  have e2 := r64_bounds hnn
  have hu : |r64 (a - r64 (b * b)) - (a - b * b)| ≤ a * (1 / 2 ^ 52 + 1 / 2 ^ 100) := by
    have hbb : b * b ≤ a * (1 + 1 / 2 ^ 52) := by
      have h1 : b * b * (1 - 1 / 2 ^ 53) ≤ a := e1.1.trans hb
      nlinarith
    rw [abs_le]
    constructor <;> nlinarith [e1.1, e1.2, e2.1, e2.2]
  have huR : |((r64 (a - r64 (b * b)) : ℚ) : ℝ) - ((a : ℝ) - (b : ℝ) ^ 2)| ≤ (a : ℝ) * (1 / 2 ^ 52 + 1 / 2 ^ 100) := by
    have h1 : ((|r64 (a - r64 (b * b)) - (a - b * b)| : ℚ) : ℝ) ≤ ((a * (1 / 2 ^ 52 + 1 / 2 ^ 100) : ℚ) : ℝ) := Rat.cast_le.mpr hu
    push_cast at h1
    rw [sq]
    exact h1
  have haR : (0 : ℝ) ≤ a := by exact_mod_cast ha
  have d1 := sqrt_diff ((r64 (a - r64 (b * b)) : ℚ) : ℝ) ((a : ℝ) - (b : ℝ) ^ 2)
  have d2 : Real.sqrt |((r64 (a - r64 (b * b)) : ℚ) : ℝ) - ((a : ℝ) - (b : ℝ) ^ 2)| ≤ Real.sqrt a * (1 / 2 ^ 26 + 1 / 2 ^ 70) := by
    refine le_trans (Real.sqrt_le_sqrt huR) ?_
    rw [Real.sqrt_mul haR]
    refine mul_le_mul_of_nonneg_left ?_ (Real.sqrt_nonneg _)
    rw [Real.sqrt_le_left (by norm_num)]
    norm_num
  have d3 := rnReal_error (Real.sqrt ((r64 (a - r64 (b * b)) : ℚ) : ℝ))
  have d4 : Real.sqrt ((r64 (a - r64 (b * b)) : ℚ) : ℝ) ≤ Real.sqrt a * (1 + 1 / 2 ^ 53) := by
    have : r64 (a - r64 (b * b)) ≤ a * (1 + 1 / 2 ^ 53) ^ 2 := by nlinarith [e2.2]
    have h1 : ((r64 (a - r64 (b * b)) : ℚ) : ℝ) ≤ ((a * (1 + 1 / 2 ^ 53) ^ 2 : ℚ) : ℝ) := Rat.cast_le.mpr this
    push_cast at h1
    refine le_trans (Real.sqrt_le_sqrt h1) ?_
    rw [Real.sqrt_mul haR, Real.sqrt_sq (by norm_num)]
  rw [abs_of_nonneg (Real.sqrt_nonneg _)] at d3
  rw [← hs]
  have hq := Real.sqrt_nonneg (a : ℝ)
  calc _ ≤ |((rnReal (Real.sqrt ((r64 (a - r64 (b * b)) : ℚ) : ℝ)) : ℚ) : ℝ) - Real.sqrt ((r64 (a - r64 (b * b)) : ℚ) : ℝ)| +
        |Real.sqrt ((r64 (a - r64 (b * b)) : ℚ) : ℝ) - Real.sqrt ((a : ℝ) - (b : ℝ) ^ 2)| := abs_sub_le _ _ _
    _ ≤ 1 / 2 ^ 53 * (Real.sqrt a * (1 + 1 / 2 ^ 53)) + Real.sqrt a * (1 / 2 ^ 26 + 1 / 2 ^ 70) :=
        add_le_add (d3.trans (mul_le_mul_of_nonneg_left d4 (by norm_num))) (d1.trans d2)
    _ ≤ _ := by nlinarith

/-- C112 for the same lines: the far end is the sum of the two halves of the chord (or their difference, when the center of the circle is behind the line), up to 2^-25 of the radius and the distance. -/
theorem C112_accuracy_partial (dist2 rad2 b dir : ℚ) (hd : 0 ≤ dist2) (hr : dist2 < rad2) (hb : r64 (b * b) ≤ dist2) :
    ∃ x, oneVal64 dist2 rad2 b dir = some x ∧
      |(x : ℝ) - (Real.sqrt ((rad2 : ℝ) - (b : ℝ) ^ 2) + (if dir > 0 then 1 else -1) * Real.sqrt ((dist2 : ℝ) - (b : ℝ) ^ 2))| ≤ (Real.sqrt dist2 + Real.sqrt rad2) / 2 ^ 25 := by
  obtain ⟨x, hx, _, _⟩ := C112_end_partial dist2 rad2 b dir hd hr hb
  refine ⟨x, hx, ?_⟩
  unfold oneVal64 at hx
  cases h1 : sqrt64 (r64 (rad2 - r64 (b * b))) with
  | none => rw [h1] at hx; cases hx
  | some s =>
    cases h2 : sqrt64 (r64 (dist2 - r64 (b * b))) with
    | none => rw [h1, h2] at hx; cases hx
    | some c =>
      rw [h1, h2] at hx
      simp only [Option.bind_some, Option.map_some, Option.some.injEq] at hx
      have es := chord_error rad2 b s (hd.trans hr.le) (hb.trans hr.le) h1
      have ec := chord_error dist2 b c hd hb h2
      have hD := Real.sqrt_nonneg (dist2 : ℝ)
      have hR := Real.sqrt_nonneg (rad2 : ℝ)
      have bs : Real.sqrt ((rad2 : ℝ) - (b : ℝ) ^ 2) ≤ Real.sqrt rad2 := Real.sqrt_le_sqrt (by nlinarith [sq_nonneg (b : ℝ)])
      have bc : Real.sqrt ((dist2 : ℝ) - (b : ℝ) ^ 2) ≤ Real.sqrt dist2 := Real.sqrt_le_sqrt (by nlinarith [sq_nonneg (b : ℝ)])
      have ns := Real.sqrt_nonneg ((rad2 : ℝ) - (b : ℝ) ^ 2)
      have nc := Real.sqrt_nonneg ((dist2 : ℝ) - (b : ℝ) ^ 2)
      set D := Real.sqrt (dist2 : ℝ)
      set R := Real.sqrt (rad2 : ℝ)
      set S := Real.sqrt ((rad2 : ℝ) - (b : ℝ) ^ 2)
      set C := Real.sqrt ((dist2 : ℝ) - (b : ℝ) ^ 2)
      have round : ∀ y : ℚ, |((r64 y : ℚ) : ℝ) - y| ≤ 1 / 2 ^ 53 * |(y : ℝ)| := by
        intro y
        have h := rn_error (p := 53) (by norm_num) y
        have e : (2 : ℚ) ^ (-((53 : ℕ) : ℤ)) = 1 / 2 ^ 53 := by norm_num
        rw [e] at h
        have h' : ((|r64 y - y| : ℚ) : ℝ) ≤ ((1 / 2 ^ 53 * |y| : ℚ) : ℝ) := Rat.cast_le.mpr (by first | exact h | (rw [mul_comm]; exact h))
        push_cast at h'
        exact h'
      rw [abs_le] at es ec
      have hs1 : |(s : ℝ)| ≤ 2 * R := by rw [abs_le]; constructor <;> linarith [es.1, es.2]
      have hc1 : |(c : ℝ)| ≤ 2 * D := by rw [abs_le]; constructor <;> linarith [ec.1, ec.2]
      by_cases hdir : dir > 0
      · rw [if_pos hdir] at hx ⊢
        have hy := round (s + c)
        rw [hx] at hy
        have hy2 : |((s + c : ℚ) : ℝ)| ≤ 2 * R + 2 * D := by
          push_cast
          exact (abs_add_le _ _).trans (add_le_add hs1 hc1)
        rw [abs_le] at hy ⊢
        push_cast at hy hy2
        constructor <;> linarith [hy.1, hy.2, es.1, es.2, ec.1, ec.2]
      · rw [if_neg hdir] at hx ⊢
        have hy := round (s - c)
        rw [hx] at hy
        have hy2 : |((s - c : ℚ) : ℝ)| ≤ 2 * R + 2 * D := by
          push_cast
          exact (abs_sub _ _).trans (add_le_add hs1 hc1)
        rw [abs_le] at hy ⊢
        push_cast at hy hy2
        constructor <;> linarith [hy.1, hy.2, es.1, es.2, ec.1, ec.2]

/-! ### Rings -/

/-- The far end of a line does not hit the rounding of the last bin (C95). -/
def Flt.Safe (lowR highR : ℚ) : Flt → Prop
  | .fin e => highR ≤ e ∨ Clear lowR highR e
  | _ => True

theorem addAtR_first (p : ProfileRing ℚ) (hb : 0 < p.bins) (hd : p.derivs.length = p.bins * p.n) (rho : ℚ) (i : ℕ) (hi : i < p.n) :
    addAtR p.derivs ((i : ℤ) * p.bins) rho = some (p.derivs.modify (i * p.bins) fun a => r64 (a + rho)) := by
  have e : ((i : ℤ) * p.bins) = ((i * p.bins : ℕ) : ℤ) := by push_cast; ring
  have hlt : i * p.bins < p.derivs.length := by
    rw [hd, Nat.mul_comm p.bins]
    exact Nat.mul_lt_mul_of_pos_right hi hb
  unfold addAtR
  rw [e, if_pos ⟨Int.natCast_nonneg _, by exact_mod_cast hlt⟩, Int.toNat_natCast]

/-- C112, a line without a far end: the density is added to the first bin and never taken away. -/
theorem C112_endless (p : ProfileRing ℚ) (hb : 0 < p.bins) (hd : p.derivs.length = p.bins * p.n) (rho : ℚ) (i : ℕ) (hi : i < p.n) :
    ringInsertF p .ninf .nan rho i = some { p with derivs := p.derivs.modify (i * p.bins) fun a => r64 (a + rho) } := by
  unfold ringInsertF Flt.leNum Flt.geNum
  simp only [Bool.false_eq_true, or_self, if_false]
  rw [addAtR_first p hb hd rho i hi]
  rfl

theorem ringInsertF_line (p : ProfileRing ℚ) (hb : 0 < p.bins) (hlh : p.lowR < p.highR) (hdr : p.dr = r64 (r64 (p.highR - p.lowR) / (p.bins : ℚ))) (hd : p.derivs.length = p.bins * p.n)
    (stop : Flt) (hs : stop.Safe p.lowR p.highR) (rho : ℚ) (i : ℕ) (hi : i < p.n) :
    ∃ d, ringInsertF p .ninf stop rho i = some { p with derivs := d } ∧ d.length = p.derivs.length ∧ ∀ j, j / p.bins ≠ i → d[j]? = p.derivs[j]? := by
  have hmod : ∀ j, j / p.bins ≠ i → (p.derivs.modify (i * p.bins) fun a => r64 (a + rho))[j]? = p.derivs[j]? := by
    intro j hj
    have : i * p.bins ≠ j := by
      rintro rfl
      exact hj (Nat.mul_div_cancel _ hb)
    rw [List.getElem?_modify]
    simp only [this, if_false]
    simp
  have same : ∀ st : Flt, st.leNum p.lowR = false → (∀ e, st ≠ .fin e) →
      ringInsertF p .ninf st rho i = some { p with derivs := p.derivs.modify (i * p.bins) fun a => r64 (a + rho) } := by
    intro st h1 h2
    unfold ringInsertF
    rw [h1]
    simp only [Flt.geNum, Bool.false_eq_true, or_self, if_false]
    rw [addAtR_first p hb hd rho i hi, Option.bind_some]
    cases st with
    | fin e => exact absurd rfl (h2 e)
    | nan => rfl
    | ninf => rfl
    | pinf => rfl
  cases stop with
  | nan => exact ⟨_, same .nan rfl (fun _ => nofun), List.length_modify .., hmod⟩
  | pinf => exact ⟨_, same .pinf rfl (fun _ => nofun), List.length_modify .., hmod⟩
  | ninf => exact ⟨p.derivs, by simp [ringInsertF, Flt.leNum], rfl, fun _ _ => rfl⟩
  | fin e =>
    by_cases hout : e ≤ p.lowR
    · exact ⟨p.derivs, by simp [ringInsertF, Flt.leNum, hout], rfl, fun _ _ => rfl⟩
    unfold ringInsertF
    simp only [Flt.leNum, Flt.geNum, hout, decide_false, Bool.false_eq_true, or_self, if_false]
    rw [addAtR_first p hb hd rho i hi, Option.bind_some]
    by_cases hh : e < p.highR
    · rw [if_pos hh]
      obtain ⟨d2, e2, l2, k2⟩ := step_clear p hb hlh hdr e (-rho) (not_le.mp hout) (hs.resolve_left (not_le.mpr hh)) i hi (p.derivs.modify (i * p.bins) fun a => r64 (a + rho))
        ((List.length_modify ..).trans hd)
      rw [e2, Option.map_some]
      exact ⟨d2, rfl, l2.trans (List.length_modify ..), fun j hj => (k2 j hj).trans (hmod j hj)⟩
    · rw [if_neg hh]
      exact ⟨_, rfl, List.length_modify .., hmod⟩

theorem insertLines_spec (lg : ℚ → ℚ) (cx cy dist2 rad2 rho : ℚ) : ∀ (us : List (ℚ × ℚ)) (p : ProfileRing ℚ) (i0 : ℕ), 0 < p.bins → p.lowR < p.highR →
    p.dr = r64 (r64 (p.highR - p.lowR) / (p.bins : ℚ)) → p.derivs.length = p.bins * p.n → i0 + us.length ≤ p.n →
    (∀ u ∈ us, (log64 lg (oneVal64 dist2 rad2 (impact64 cx cy u) (along64 cx cy u))).Safe p.lowR p.highR) →
    ∃ d, insertLines lg cx cy dist2 rad2 rho p i0 us = some { p with derivs := d } ∧ d.length = p.derivs.length ∧ (∀ j, j / p.bins < i0 → d[j]? = p.derivs[j]?) ∧
      ∀ k (hk : k < us.length), oneVal64 dist2 rad2 (impact64 cx cy us[k]) (along64 cx cy us[k]) = none →
        ∀ t, t < p.bins → d[(i0 + k) * p.bins + t]? = (p.derivs[(i0 + k) * p.bins + t]?).map fun a => if t = 0 then r64 (a + rho) else a
  | [], p, i0, _, _, _, _, _, _ => ⟨p.derivs, rfl, rfl, fun _ _ => rfl, fun k hk => absurd hk (by simp)⟩
  | u :: us, p, i0, hb, hlh, hdr, hd, hn, hs => by
    have hi : i0 < p.n := by rw [List.length_cons] at hn; omega
    obtain ⟨d1, e1, l1, k1⟩ := ringInsertF_line p hb hlh hdr hd _ (hs u List.mem_cons_self) rho i0 hi
    obtain ⟨d2, e2, l2, k2, n2⟩ := insertLines_spec lg cx cy dist2 rad2 rho us { p with derivs := d1 } (i0 + 1) hb hlh hdr (l1.trans hd) (by rw [List.length_cons] at hn; show i0 + 1 + us.length ≤ p.n; omega)
      (fun v hv => hs v (List.mem_cons_of_mem _ hv))
    refine ⟨d2, ?_, l2.trans l1, ?_, ?_⟩
    · unfold insertLines
      rw [e1, Option.bind_some]
      exact e2
    · intro j hj
      rw [k2 j (by show j / p.bins < i0 + 1; omega)]
      exact k1 j (by omega)
    · intro k hk hnone t ht
      have hdiv : ∀ a, (a * p.bins + t) / p.bins = a := by
        intro a
        rw [Nat.mul_comm, Nat.mul_add_div hb, Nat.div_eq_of_lt ht, Nat.add_zero]
      cases k with
      | zero =>
        rw [Nat.add_zero, k2 _ (by show (i0 * p.bins + t) / p.bins < i0 + 1; rw [hdiv]; omega)]
        have hnone' : oneVal64 dist2 rad2 (impact64 cx cy u) (along64 cx cy u) = none := hnone
        rw [hnone'] at e1
        have := e1.symm.trans (C112_endless p hb hd rho i0 hi)
        injection this with this
        have hd1 : d1 = p.derivs.modify (i0 * p.bins) fun a => r64 (a + rho) := congrArg ProfileRing.derivs this
        show d1[i0 * p.bins + t]? = _
        rw [hd1, List.getElem?_modify]
        by_cases h0 : t = 0
        · subst h0; simp
        · have : ¬ i0 * p.bins = i0 * p.bins + t := by omega
          simp [h0]
      | succ k =>
        have hk' : k < us.length := by rw [List.length_cons] at hk; omega
        have h2 := n2 k hk' hnone t ht
        have e : i0 + 1 + k = i0 + (k + 1) := by omega
        rw [e] at h2
        refine h2.trans ?_
        have h3 : d1[(i0 + (k + 1)) * p.bins + t]? = p.derivs[(i0 + (k + 1)) * p.bins + t]? := k1 _ (by rw [hdiv]; omega)
        show Option.map _ (d1[(i0 + (k + 1)) * p.bins + t]?) = _
        rw [h3]

theorem scanl_zeros (rho : ℚ) (hrho : Float64 rho) : ∀ m, (List.replicate m (0 : ℚ)).scanl (fun sum d => r64 (sum + d)) rho = List.replicate (m + 1) rho
  | 0 => rfl
  | m + 1 => by
    rw [List.replicate_succ, List.scanl_cons, add_zero, r64_float hrho, scanl_zeros rho hrho m]
    rfl

/-- C112 is false, in general: in a new ring, after the insertion of a sphere that contains the center, a line whose rounded impact parameter is larger than the rounded distance of the center has the
density of the sphere at all radii of the ring. -/
theorem C112_line_false (lg : ℚ → ℚ) (ringVecs : List (ℚ × ℚ)) (cx cy cz radius rho lowR highR : ℚ) (bins : ℕ) (hb : 0 < bins) (hlh : lowR < highR) (hrho : Float64 rho)
    (hs : ∀ u ∈ ringVecs, (log64 lg (oneVal64 (projected cx cy cz radius).1 (projected cx cy cz radius).2 (impact64 cx cy u) (along64 cx cy u))).Safe lowR highR) :
    ∃ p, insertInside lg ringVecs cx cy cz radius rho (ringInit lowR highR bins ringVecs.length) = some p ∧
      ∀ i (hi : i < ringVecs.length), (projected cx cy cz radius).1 < r64 (impact64 cx cy ringVecs[i] * impact64 cx cy ringVecs[i]) → retrieve64 p i = List.replicate bins rho := by
  obtain ⟨d, e, l, _, k⟩ := insertLines_spec lg cx cy (projected cx cy cz radius).1 (projected cx cy cz radius).2 rho ringVecs (ringInit lowR highR bins ringVecs.length) 0 hb hlh rfl
    (by show (List.replicate (bins * ringVecs.length) (0 : ℚ)).length = _; simp [ringInit]) (by simp [ringInit]) hs
  refine ⟨_, e, fun i hi hnan => ?_⟩
  have h1 := k i hi ((C112_nan _ _ _ _).mpr (Or.inr hnan))
  rw [Nat.zero_add] at h1
  have hlen : d.length = bins * ringVecs.length := by rw [l]; show (List.replicate (bins * ringVecs.length) (0 : ℚ)).length = _; simp
  have hin : ∀ t, t < bins → i * bins + t < bins * ringVecs.length := by
    intro t ht
    calc i * bins + t < i * bins + bins := by omega
      _ = (i + 1) * bins := by ring
      _ ≤ ringVecs.length * bins := Nat.mul_le_mul_right _ hi
      _ = _ := Nat.mul_comm _ _
  have hline : (d.drop (bins * i)).take bins = rho :: List.replicate (bins - 1) 0 := by
    apply List.ext_getElem?
    intro t
    rw [List.getElem?_take]
    by_cases ht : t < bins
    · rw [if_pos ht, List.getElem?_drop, Nat.mul_comm bins i]
      have h2 := h1 t ht
      have h3 : (ringInit lowR highR bins ringVecs.length).derivs[i * (ringInit lowR highR bins ringVecs.length).bins + t]? = some 0 := by
        show (List.replicate (bins * ringVecs.length) (0 : ℚ))[i * bins + t]? = some 0
        rw [List.getElem?_replicate, if_pos (hin t ht)]
      rw [h3] at h2
      refine h2.trans ?_
      cases t with
      | zero =>
        simp only [Option.map_some, if_true, List.getElem?_cons_zero]
        rw [zero_add, r64_float hrho]
      | succ t =>
        rw [List.getElem?_cons_succ, List.getElem?_replicate, if_pos (by omega)]
        rfl
    · rw [if_neg ht, List.getElem?_eq_none]
      simp
      omega
  unfold retrieve64
  show (((d.drop (bins * i)).take bins).scanl (fun sum d => r64 (sum + d)) 0).tail = _
  rw [hline, List.scanl_cons, zero_add, r64_float hrho, scanl_zeros rho hrho]
  show List.replicate (bins - 1 + 1) rho = _
  congr 1
  omega

/-- The float64 number nearest to the square root of 1/2: the cosine and the sine of 45 degrees. -/
def cos45 : ℚ := 6369051672525773 / 2 ^ 53

theorem cos45_near : |(cos45 : ℝ) - Real.sqrt (1 / 2)| ≤ 1 / 2 ^ 54 := by
  have e : ((cos45 : ℚ) : ℝ) = 6369051672525773 / 2 ^ 53 := by unfold cos45; push_cast; rfl
  rw [e, abs_le]
  constructor
  · have : Real.sqrt (1 / 2) ≤ 6369051672525773 / 2 ^ 53 + 1 / 2 ^ 54 := by
      rw [Real.sqrt_le_left (by norm_num)]
      norm_num
    linarith
  · have : (6369051672525773 / 2 ^ 53 - 1 / 2 ^ 54 : ℝ) ≤ Real.sqrt (1 / 2) := by
      rw [Real.le_sqrt' (by norm_num)]
      norm_num
    linarith

theorem projected_example : projected 1 (-1) 0 2 = (2, 4) := by
  have f1 : r64 1 = 1 := r64_float ⟨1, 0, by norm_num, by norm_num⟩
  have f2 : r64 2 = 2 := r64_float ⟨2, 0, by norm_num, by norm_num⟩
  have f4 : r64 4 = 4 := r64_float ⟨4, 0, by norm_num, by norm_num⟩
  have f0 : r64 0 = 0 := rn_zero 53
  unfold projected
  norm_num [f1, f2, f4, f0]

theorem impact_example : (2 : ℚ) < r64 (impact64 1 (-1) (cos45, cos45) * impact64 1 (-1) (cos45, cos45)) := by
  have hneg : r64 (-1 * cos45) = -cos45 := by
    rw [r64_float ⟨-6369051672525773, -53, by norm_num, by unfold cos45; norm_num⟩]; ring
  have hpos : r64 (1 * cos45) = cos45 := by
    rw [r64_float ⟨6369051672525773, -53, by norm_num, by unfold cos45; norm_num⟩]; ring
  have h2 : r64 (-cos45 - cos45) = -(2 * cos45) := by
    rw [r64_float ⟨-6369051672525773, -52, by norm_num, by unfold cos45; norm_num⟩]; ring
  unfold impact64
  dsimp only
  rw [hneg, hpos, h2]
  have : r64 (-(2 * cos45) * -(2 * cos45)) = 2 + 1 / 2 ^ 51 := by
    unfold r64 cos45
    rw [rn_eq 1 (2 ^ 52 + 1) (by norm_num [abs_of_pos]) (by norm_num [abs_of_pos]) (by rw [abs_lt]; norm_num)]
    norm_num
  rw [this]
  norm_num

/-- C112 is false: take a sphere of radius 2 around (1, -1, 0) in a ring one of whose lines of sight points to 45 degrees.  The line leaves the sphere at the radius √2 (the points at distance t on it are
in the sphere if and only if t ≤ √2), but the density of the sphere is added to all bins of the line, up to the outer radius of the ring. -/
theorem C112_end_false (lg : ℚ → ℚ) (ringVecs : List (ℚ × ℚ)) (i : ℕ) (hi : ringVecs[i]? = some (cos45, cos45)) (rho lowR highR : ℚ) (bins : ℕ) (hb : 0 < bins) (hlh : lowR < highR)
    (hrho : Float64 rho) (hlg : ∀ x, 0 < x → x ≤ 5 → Clear lowR highR (lg x)) :
    (∀ t : ℝ, 0 ≤ t → ((t * Real.sqrt (1 / 2) - 1) ^ 2 + (t * Real.sqrt (1 / 2) - -1) ^ 2 ≤ 2 ^ 2 ↔ t ≤ Real.sqrt 2)) ∧
      ∃ p, insertInside lg ringVecs 1 (-1) 0 2 rho (ringInit lowR highR bins ringVecs.length) = some p ∧ retrieve64 p i = List.replicate bins rho := by
  refine ⟨fun t ht => ?_, ?_⟩
  · have h := Real.sq_sqrt (show (0 : ℝ) ≤ 1 / 2 by norm_num)
    rw [Real.le_sqrt ht (by norm_num)]
    constructor <;> intro h1 <;> nlinarith
  · obtain ⟨p, e, k⟩ := C112_line_false lg ringVecs 1 (-1) 0 2 rho lowR highR bins hb hlh hrho (by
      intro u _
      rw [projected_example]
      dsimp only
      cases hx : oneVal64 2 4 (impact64 1 (-1) u) (along64 1 (-1) u) with
      | none => trivial
      | some x =>
        have h0 := oneVal64_nonneg _ _ _ _ x (by norm_num) hx
        have h1 := oneVal64_le _ _ _ _ x (by norm_num) (by norm_num) hx
        rcases eq_or_lt_of_le h0 with h0 | h0
        · rw [← h0]
          simp [log64, Flt.Safe]
        · have el : log64 lg (some x) = if x < 0 then .nan else if x = 0 then .ninf else .fin (lg x) := rfl
          rw [el, if_neg (not_lt.mpr h0.le), if_neg h0.ne']
          refine Or.inr (hlg x h0 ?_)
          have s2 : Real.sqrt ((2 : ℚ) : ℝ) ≤ 3 / 2 := by
            rw [Real.sqrt_le_left (by norm_num)]
            norm_num
          have s4 : Real.sqrt ((4 : ℚ) : ℝ) ≤ 2 := by
            rw [Real.sqrt_le_left (by norm_num)]
            norm_num
          have : (x : ℝ) ≤ 5 := le_trans h1 (by
            calc (Real.sqrt ((2 : ℚ) : ℝ) + Real.sqrt ((4 : ℚ) : ℝ)) * (1 + 1 / 2 ^ 50) ≤ (3 / 2 + 2) * (1 + 1 / 2 ^ 50) := mul_le_mul_of_nonneg_right (add_le_add s2 s4) (by norm_num)
              _ ≤ 5 := by norm_num)
          exact_mod_cast this)
    obtain ⟨hlt, hget⟩ := List.getElem?_eq_some_iff.mp hi
    refine ⟨p, e, k i hlt ?_⟩
    rw [hget, projected_example]
    exact impact_example

/-- The hypotheses are met: the rounded natural logarithm, a ring from e^-4 to e^6, four lines of sight. -/
example : ([(1, 0), (cos45, cos45), (0, 1), (-1, 0)] : List (ℚ × ℚ))[1]? = some (cos45, cos45) ∧ (-4 : ℚ) < 6 ∧ Float64 3 ∧
    ∀ x : ℚ, 0 < x → x ≤ 5 → Clear (-4) 6 (rnReal (Real.log x)) := by
  refine ⟨rfl, by norm_num, ⟨3, 0, by norm_num, by norm_num⟩, fun x h0 h5 => ?_⟩
  have h1 := rnReal_error (Real.log x)
  have h2 : Real.log (x : ℝ) ≤ 4 := by
    have := Real.log_le_sub_one_of_pos (show (0 : ℝ) < x by exact_mod_cast h0)
    have h5' : (x : ℝ) ≤ 5 := by exact_mod_cast h5
    linarith
  have h3 : ((rnReal (Real.log x) : ℚ) : ℝ) ≤ 5 := by
    rw [abs_le] at h1
    rcases le_or_gt 0 (Real.log (x : ℝ)) with h | h
    · rw [abs_of_nonneg h] at h1
      nlinarith [h1.2]
    · rw [abs_of_neg h] at h1
      nlinarith [h1.2]
  have h4 : rnReal (Real.log x) ≤ 5 := by exact_mod_cast h3
  unfold Clear
  linarith

end Shellfish.Round
