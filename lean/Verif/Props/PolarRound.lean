/-
C116: polar angles in machine arithmetic.
-/
import Verif.Model.PolarRound
import Verif.Props.LosRound
import Verif.Props.PixelRound

namespace Shellfish.Round

/-! Roots of rounded squares -/

theorem rnReal_float {q : ℚ} (h : Float64 q) : rnReal (q : ℝ) = q := by
  by_cases hq : q = 0
  · subst hq; simp [rnReal]
  have hpos : 0 < |q| := abs_pos.mpr hq
  obtain ⟨b1, b2⟩ := log_bounds hq
  have hr := rn_rep (p := 53) h
  unfold rn lastBit at hr
  set k := Int.log 2 |q| with hk
  set z := nearest (q / 2 ^ (k - (((53 : ℕ) : ℤ) - 1))) with hz
  have hr' : q = (z : ℚ) * 2 ^ (k - 52) := by rw [← hr]; norm_num
  have e1 : (2 : ℝ) ^ k ≤ |(q : ℝ)| := by have := (Rat.cast_le (K := ℝ)).mpr b1; push_cast at this; exact this
  have e2 : |(q : ℝ)| < 2 ^ (k + 1) := by have := (Rat.cast_lt (K := ℝ)).mpr b2; push_cast at this; exact this
  have e3 : (q : ℝ) = (z : ℝ) * 2 ^ (k - 52) := by
    have := congrArg (fun t : ℚ => (t : ℝ)) hr'
    push_cast at this
    exact this
  rw [rnReal_eq k z e1 e2 (by rw [e3, mul_div_assoc, div_self (by positivity), mul_one, sub_self, abs_zero]; norm_num)]
  exact hr'.symm

/-- The rounded square root of a rounded square is not less than the number. -/
theorem sqrt_sq_ge {z : ℚ} (hz : Float64 z) : |z| ≤ rnReal (Real.sqrt ((r64 (z * z) : ℚ) : ℝ)) := by
  by_cases hz0 : z = 0
  · subst hz0
    rw [mul_zero, show r64 0 = 0 from rn_zero 53]
    simp [rnReal]
  have hw : Float64 |z| := by
    rcases abs_choice z with h | h <;> rw [h]
    · exact hz
    · exact rep_neg hz
  rw [show z * z = |z| * |z| by rw [abs_mul_abs_self]]
  have hpos : 0 < |z| := abs_pos.mpr hz0
  obtain ⟨b1, b2⟩ := log_bounds (x := |z|) (ne_of_gt hpos)
  rw [abs_abs] at b1 b2
  have hr := rn_rep (p := 53) hw
  unfold rn lastBit at hr
  rw [abs_abs] at hr
  generalize |z| = w at *
  set k := Int.log 2 w with hk
  set m := nearest (w / 2 ^ (k - (((53 : ℕ) : ℤ) - 1))) with hm
  have hwm : w = (m : ℚ) * 2 ^ (k - 52) := by rw [← hr]; norm_num
  have hU : (0 : ℚ) < 2 ^ (k - 52) := by positivity
  have hk52 : (2 : ℚ) ^ k = 2 ^ 52 * 2 ^ (k - 52) := by rw [← zpow_natCast, ← zpow_add₀ (by norm_num)]; congr 1; push_cast; ring
  have hk53 : (2 : ℚ) ^ (k + 1) = 2 ^ 53 * 2 ^ (k - 52) := by rw [← zpow_natCast, ← zpow_add₀ (by norm_num)]; congr 1; push_cast; ring
  have m1 : (2 : ℚ) ^ 52 ≤ m := by rw [hwm, hk52] at b1; exact le_of_mul_le_mul_right b1 hU
  have m2 : (m : ℚ) < 2 ^ 53 := by rw [hwm, hk53] at b2; exact lt_of_mul_lt_mul_right b2 hU.le
  have m2' : (m : ℚ) ≤ 2 ^ 53 - 1 := by
    have : m < 2 ^ 53 := by exact_mod_cast m2
    have : m ≤ 2 ^ 53 - 1 := by omega
    exact_mod_cast this
  rcases le_or_gt w (rnReal (Real.sqrt ((r64 (w * w) : ℚ) : ℝ))) with h | hlt
  · exact h
  exfalso
  rcases le_or_gt (w : ℝ) (Real.sqrt ((r64 (w * w) : ℚ) : ℝ)) with hs | hs
  · have := rnReal_mono (by exact_mod_cast hpos.le) hs
    rw [rnReal_float hw] at this
    linarith
  · -- the root is just below `w`
    have hy : w * w * (1 - 1 / 2 ^ 53) ≤ r64 (w * w) := (r64_bounds (mul_self_nonneg w)).1
    rcases eq_or_lt_of_le m1 with hm52 | hm52
    · -- a power of two: the square is exact
      have hex : Float64 (w * w) := ⟨1, 2 * k, by norm_num, by
        rw [hwm, ← hm52, ← hk52, two_mul, zpow_add₀ (by norm_num)]; ring⟩
      rw [r64_float hex] at hs
      push_cast at hs
      rw [Real.sqrt_mul_self (by exact_mod_cast hpos.le)] at hs
      exact lt_irrefl _ hs
    · have hm53 : (2 : ℚ) ^ 52 + 1 ≤ m := by
        have : (2 : ℤ) ^ 52 < m := by exact_mod_cast hm52
        have : (2 : ℤ) ^ 52 + 1 ≤ m := by omega
        exact_mod_cast this
      have hlow : ((w : ℝ) - 2 ^ (k - 52) / 2) < Real.sqrt ((r64 (w * w) : ℚ) : ℝ) := by
        apply Real.lt_sqrt_of_sq_lt
        have hq : (w - 2 ^ (k - 52) / 2) ^ 2 < r64 (w * w) := by
          refine lt_of_lt_of_le ?_ hy
          rw [hwm]
          generalize (2 : ℚ) ^ (k - 52) = U at *
          have key : ((m : ℚ) - 1 / 2) ^ 2 < m * m * (1 - 1 / 2 ^ 53) := by nlinarith
          have := mul_lt_mul_of_pos_right key (mul_pos hU hU)
          nlinarith
        have := (Rat.cast_lt (K := ℝ)).mpr hq
        push_cast at this
        exact this
      have hwR : (w : ℝ) = (m : ℝ) * 2 ^ (k - 52) := by
        have := congrArg (fun t : ℚ => (t : ℝ)) hwm
        push_cast at this
        exact this
      have hUR : (0 : ℝ) < 2 ^ (k - 52) := by positivity
      have hk52R : (2 : ℝ) ^ k = 2 ^ 52 * 2 ^ (k - 52) := by rw [← zpow_natCast, ← zpow_add₀ (by norm_num)]; congr 1; push_cast; ring
      have hk53R : (2 : ℝ) ^ (k + 1) = 2 ^ 53 * 2 ^ (k - 52) := by rw [← zpow_natCast, ← zpow_add₀ (by norm_num)]; congr 1; push_cast; ring
      have hm53R : (2 : ℝ) ^ 52 + 1 ≤ m := by exact_mod_cast hm53
      have m2R : (m : ℝ) < 2 ^ 53 := by exact_mod_cast m2
      rw [hwR] at hlow hs
      generalize Real.sqrt ((r64 (w * w) : ℚ) : ℝ) = s at *
      generalize hUd : (2 : ℝ) ^ (k - 52) = U at *
      have hs0 : 0 < s := by nlinarith
      rw [rnReal_eq k m (by rw [abs_of_pos hs0, hk52R]; nlinarith) (by rw [abs_of_pos hs0, hk53R]; nlinarith)
        (by rw [hUd, abs_lt, lt_sub_iff_add_lt, lt_div_iff₀ hUR, sub_lt_iff_lt_add, div_lt_iff₀ hUR]; constructor <;> nlinarith), ← hwm] at hlt
      exact lt_irrefl _ hlt

/-- The distance of a point from the origin. -/
noncomputable def dist3 (x y z : ℚ) : ℝ := Real.sqrt ((x : ℝ) ^ 2 + (y : ℝ) ^ 2 + (z : ℝ) ^ 2)

theorem r64_sum_bounds {a b a' b' : ℚ} {l h : ℚ} (ha : 0 ≤ a') (hb : 0 ≤ b') (hl : 0 ≤ l) (h1 : a' * l ≤ a ∧ a ≤ a' * h) (h2 : b' * l ≤ b ∧ b ≤ b' * h) :
    (a' + b') * (l * (1 - 1 / 2 ^ 53)) ≤ r64 (a + b) ∧ r64 (a + b) ≤ (a' + b') * (h * (1 + 1 / 2 ^ 53)) := by
  have h0 : 0 ≤ a + b := by
    have := mul_nonneg ha hl
    have := mul_nonneg hb hl
    linarith [h1.1, h2.1]
  obtain ⟨c1, c2⟩ := r64_bounds h0
  constructor
  · refine le_trans ?_ c1
    rw [← mul_assoc]
    exact mul_le_mul_of_nonneg_right (by linarith [h1.1, h2.1]) (by norm_num)
  · refine le_trans c2 ?_
    rw [← mul_assoc]
    exact mul_le_mul_of_nonneg_right (by linarith [h1.2, h2.2]) (by norm_num)

/-- The computed distance is nearly the distance. -/
theorem norm64_bounds (x y z : ℚ) : ∃ r : ℚ, norm64 x y z = some r ∧ dist3 x y z * (1 - 4 / 2 ^ 53) ≤ r ∧ (r : ℝ) ≤ dist3 x y z * (1 + 4 / 2 ^ 53) := by
  have sx := r64_bounds (mul_self_nonneg x)
  have sy := r64_bounds (mul_self_nonneg y)
  have sz := r64_bounds (mul_self_nonneg z)
  have e1 := r64_sum_bounds (mul_self_nonneg x) (mul_self_nonneg y) (by norm_num) sx sy
  have sz' : z * z * ((1 - 1 / 2 ^ 53) * (1 - 1 / 2 ^ 53)) ≤ r64 (z * z) ∧ r64 (z * z) ≤ z * z * ((1 + 1 / 2 ^ 53) * (1 + 1 / 2 ^ 53)) := by
    have := mul_self_nonneg z
    constructor
    · refine le_trans ?_ sz.1
      exact mul_le_mul_of_nonneg_left (by norm_num) this
    · refine le_trans sz.2 ?_
      exact mul_le_mul_of_nonneg_left (by norm_num) this
  have e2 := r64_sum_bounds (add_nonneg (mul_self_nonneg x) (mul_self_nonneg y)) (mul_self_nonneg z) (by norm_num) e1 sz'
  have hT0 : 0 ≤ x * x + y * y + z * z := add_nonneg (add_nonneg (mul_self_nonneg x) (mul_self_nonneg y)) (mul_self_nonneg z)
  unfold norm64 sqrt64
  generalize hS : r64 (r64 (r64 (x * x) + r64 (y * y)) + r64 (z * z)) = S at *
  have hS0 : 0 ≤ S := le_trans (mul_nonneg hT0 (by norm_num)) e2.1
  rw [if_neg (not_lt.mpr hS0)]
  refine ⟨_, rfl, ?_⟩
  have hd : dist3 x y z = Real.sqrt ((x * x + y * y + z * z : ℚ) : ℝ) := by unfold dist3; congr 1; push_cast; ring
  rw [hd]
  have hT0R : (0 : ℝ) ≤ ((x * x + y * y + z * z : ℚ) : ℝ) := by exact_mod_cast hT0
  have s1 : ((x * x + y * y + z * z : ℚ) : ℝ) * (1 - 2 / 2 ^ 53) ^ 2 ≤ (S : ℝ) := by
    have : (x * x + y * y + z * z) * (1 - 2 / 2 ^ 53) ^ 2 ≤ S := le_trans (mul_le_mul_of_nonneg_left (by norm_num) hT0) e2.1
    have := (Rat.cast_le (K := ℝ)).mpr this
    push_cast at this ⊢
    exact this
  have s2 : (S : ℝ) ≤ ((x * x + y * y + z * z : ℚ) : ℝ) * (1 + 2 / 2 ^ 53) ^ 2 := by
    have : S ≤ (x * x + y * y + z * z) * (1 + 2 / 2 ^ 53) ^ 2 := le_trans e2.2 (mul_le_mul_of_nonneg_left (by norm_num) hT0)
    have := (Rat.cast_le (K := ℝ)).mpr this
    push_cast at this ⊢
    exact this
  generalize ((x * x + y * y + z * z : ℚ) : ℝ) = T at *
  have q1 := Real.sqrt_le_sqrt s1
  have q2 := Real.sqrt_le_sqrt s2
  rw [Real.sqrt_mul hT0R, Real.sqrt_sq (by norm_num)] at q1 q2
  obtain ⟨b1, b2⟩ := rnReal_bounds (Real.sqrt_nonneg (S : ℝ))
  have hsT := Real.sqrt_nonneg T
  constructor
  · refine le_trans ?_ b1
    refine le_trans ?_ (mul_le_mul_of_nonneg_right q1 (by norm_num))
    rw [mul_assoc]
    exact mul_le_mul_of_nonneg_left (by norm_num) hsT
  · refine le_trans b2 ?_
    refine le_trans (mul_le_mul_of_nonneg_right q2 (by norm_num)) ?_
    rw [mul_assoc]
    exact mul_le_mul_of_nonneg_left (by norm_num) hsT

theorem dist3_pos {x y z : ℚ} (h : ¬(x = 0 ∧ y = 0 ∧ z = 0)) : 0 < dist3 x y z := by
  unfold dist3
  apply Real.sqrt_pos.mpr
  have : 0 < x ^ 2 + y ^ 2 + z ^ 2 := by
    by_contra hcon
    apply h
    have h1 := sq_nonneg x
    have h2 := sq_nonneg y
    have h3 := sq_nonneg z
    refine ⟨?_, ?_, ?_⟩ <;> exact pow_eq_zero_iff (n := 2) (by norm_num) |>.mp (by linarith)
  exact_mod_cast this

theorem le_dist3 (x y z : ℚ) : |(z : ℝ)| ≤ dist3 x y z := by
  unfold dist3
  rw [← Real.sqrt_sq_eq_abs]
  exact Real.sqrt_le_sqrt (by nlinarith [sq_nonneg (x : ℝ), sq_nonneg (y : ℝ)])

/-- The computed distance is not less than the last coordinate. -/
theorem norm64_ge {x y z r : ℚ} (hz : Float64 z) (h : norm64 x y z = some r) : |z| ≤ r := by
  unfold norm64 sqrt64 at h
  have h1 : r64 (z * z) ≤ r64 (r64 (r64 (x * x) + r64 (y * y)) + r64 (z * z)) := by
    apply le_r64 (rep_rn (by norm_num) _)
    have := r64_nonneg (add_nonneg (r64_nonneg (mul_self_nonneg x)) (r64_nonneg (mul_self_nonneg y)))
    show r64 (z * z) ≤ _
    linarith
  have h0 := r64_nonneg (mul_self_nonneg z)
  rw [if_neg (not_lt.mpr (h0.trans h1)), Option.some.injEq] at h
  rw [← h]
  refine le_trans (sqrt_sq_ge hz) (rnReal_mono (Real.sqrt_nonneg _) (Real.sqrt_le_sqrt (by exact_mod_cast h1)))

/-- C116: in float64 every point except the origin has a polar angle (the argument of the arccosine is never beyond 1), and its cosine is accurate to one part in 10^15. -/
theorem C116_float64 (x y z : ℚ) (hz : Float64 z) (h : ¬(x = 0 ∧ y = 0 ∧ z = 0)) :
    ∃ c : ℚ, polar64 x y z = some c ∧ |c| ≤ 1 ∧ |(c : ℝ) - (z : ℝ) / dist3 x y z| ≤ 1 / 2 ^ 50 := by
  obtain ⟨r, hr, r1, r2⟩ := norm64_bounds x y z
  have hD := dist3_pos h
  have hzD := le_dist3 x y z
  have hge := norm64_ge hz hr
  have hrpos : (0 : ℝ) < r := lt_of_lt_of_le (mul_pos hD (by norm_num)) r1
  have hrq : (0 : ℚ) < r := by exact_mod_cast hrpos
  have hzr : |z / r| ≤ 1 := by rw [abs_div, abs_of_pos hrq, div_le_one hrq]; exact hge
  have f1 : Float64 1 := ⟨1, 0, by norm_num, by norm_num⟩
  have f1' : Float64 (-1) := ⟨-1, 0, by norm_num, by norm_num⟩
  have c1 : r64 (z / r) ≤ 1 := r64_le f1 (abs_le.mp hzr).2
  have c2 : -1 ≤ r64 (z / r) := le_r64 f1' (abs_le.mp hzr).1
  refine ⟨r64 (z / r), ?_, abs_le.mpr ⟨c2, c1⟩, ?_⟩
  · unfold polar64 acosArg
    rw [hr, Option.bind_some, if_neg (ne_of_gt hrq), if_neg (by rintro (h | h) <;> linarith)]
  · have e := rn_error (p := 53) (by norm_num) (z / r)
    have e1 : |r64 (z / r) - z / r| ≤ 1 / 2 ^ 53 := by
      refine le_trans e ?_
      have h53 : (2 : ℚ) ^ (-((53 : ℕ) : ℤ)) = 1 / 2 ^ 53 := by norm_num
      rw [h53]
      nlinarith
    have e1R : |((r64 (z / r) : ℚ) : ℝ) - (z : ℝ) / r| ≤ 1 / 2 ^ 53 := by
      have := (Rat.cast_le (K := ℝ)).mpr e1
      push_cast at this
      exact this
    have e2 : |(z : ℝ) / r - z / dist3 x y z| ≤ 6 / 2 ^ 53 := by
      rw [div_sub_div _ _ (ne_of_gt hrpos) (ne_of_gt hD), abs_div, abs_of_pos (mul_pos hrpos hD), div_le_iff₀ (mul_pos hrpos hD)]
      rw [show (z : ℝ) * dist3 x y z - r * z = z * (dist3 x y z - r) by ring, abs_mul]
      have hdr : |dist3 x y z - r| ≤ dist3 x y z * (4 / 2 ^ 53) := by rw [abs_le]; constructor <;> nlinarith
      calc |(z : ℝ)| * |dist3 x y z - r| ≤ dist3 x y z * (dist3 x y z * (4 / 2 ^ 53)) := mul_le_mul hzD hdr (abs_nonneg _) hD.le
        _ ≤ 6 / 2 ^ 53 * (r * dist3 x y z) := by nlinarith [mul_pos hD hD]
    calc |((r64 (z / r) : ℚ) : ℝ) - z / dist3 x y z| ≤ |((r64 (z / r) : ℚ) : ℝ) - (z : ℝ) / r| + |(z : ℝ) / r - z / dist3 x y z| := abs_sub_le _ _ _
      _ ≤ 1 / 2 ^ 53 + 6 / 2 ^ 53 := add_le_add e1R e2
      _ ≤ 1 / 2 ^ 50 := by norm_num

/-- C116: the sine that the fit of a shell computes from the cosine is a number. -/
theorem C116_sine (x y z c : ℚ) (hz : Float64 z) (h : polar64 x y z = some c) : ∃ s : ℚ, sine64 c = some s ∧ 0 ≤ s ∧ s ≤ 1 := by
  have hc : |c| ≤ 1 := by
    by_cases h0 : x = 0 ∧ y = 0 ∧ z = 0
    · exfalso
      obtain ⟨rfl, rfl, rfl⟩ := h0
      obtain ⟨r, hr, r1, r2⟩ := norm64_bounds 0 0 0
      have hd : dist3 0 0 0 = 0 := by simp [dist3]
      rw [hd, zero_mul] at r1 r2
      have hr0 : r = 0 := by exact_mod_cast le_antisymm r2 r1
      unfold polar64 acosArg at h
      rw [hr, Option.bind_some, if_pos hr0] at h
      simp at h
    · obtain ⟨c', h1, h2, _⟩ := C116_float64 x y z hz h0
      rw [h, Option.some.injEq] at h1
      rw [h1]; exact h2
  have f1 : Float64 1 := ⟨1, 0, by norm_num, by norm_num⟩
  have hcc : c * c ≤ 1 := by rw [← abs_mul_abs_self]; nlinarith [abs_nonneg c]
  have h1 : r64 (c * c) ≤ 1 := r64_le f1 hcc
  have h0 : 0 ≤ r64 (c * c) := r64_nonneg (mul_self_nonneg c)
  have h2 : 0 ≤ r64 (1 - r64 (c * c)) := r64_nonneg (by linarith)
  have h3 : r64 (1 - r64 (c * c)) ≤ 1 := r64_le f1 (by linarith)
  unfold sine64 sqrt64
  rw [if_neg (not_lt.mpr h2)]
  refine ⟨_, rfl, ?_, ?_⟩
  · have := (rnReal_bounds (Real.sqrt_nonneg ((r64 (1 - r64 (c * c)) : ℚ) : ℝ))).1
    have h4 : (0 : ℝ) ≤ rnReal (Real.sqrt ((r64 (1 - r64 (c * c)) : ℚ) : ℝ)) := le_trans (mul_nonneg (Real.sqrt_nonneg _) (by norm_num)) this
    exact_mod_cast h4
  · have h4 : Real.sqrt ((r64 (1 - r64 (c * c)) : ℚ) : ℝ) ≤ ((1 : ℚ) : ℝ) := by
      push_cast
      rw [Real.sqrt_le_iff]
      refine ⟨zero_le_one, ?_⟩
      rw [one_pow]
      exact_mod_cast h3
    have := rnReal_mono (Real.sqrt_nonneg _) h4
    rwa [rnReal_float f1] at this

/-! Single precision -/

theorem nearest_neg (x : ℚ) : nearest (-x) = -nearest x := by
  have hf1 := Int.floor_le x
  have hf2 := Int.lt_floor_add_one x
  by_cases ht : x - ⌊x⌋ = 1 / 2
  · have hx : x = ⌊x⌋ + 1 / 2 := by linarith
    have hfl : ⌊-x⌋ = -⌊x⌋ - 1 := by
      rw [Int.floor_eq_iff]
      push_cast
      constructor <;> linarith
    have h2 : -x - (⌊-x⌋ : ℤ) = 1 / 2 := by rw [hfl]; push_cast; linarith
    have n1 : nearest x = if ⌊x⌋ % 2 = 0 then ⌊x⌋ else ⌊x⌋ + 1 := by unfold nearest; rw [if_neg (by rw [ht]; norm_num), if_neg (by rw [ht]; norm_num)]
    have n2 : nearest (-x) = if ⌊-x⌋ % 2 = 0 then ⌊-x⌋ else ⌊-x⌋ + 1 := by unfold nearest; rw [if_neg (by rw [h2]; norm_num), if_neg (by rw [h2]; norm_num)]
    rw [n1, n2, hfl]
    split_ifs <;> omega
  · rcases lt_or_gt_of_ne ht with h | h
    · rw [nearest_unique x ⌊x⌋ (by rw [abs_lt]; constructor <;> linarith), nearest_unique (-x) (-⌊x⌋) (by push_cast; rw [abs_lt]; constructor <;> linarith)]
    · rw [nearest_unique x (⌊x⌋ + 1) (by push_cast; rw [abs_lt]; constructor <;> linarith), nearest_unique (-x) (-(⌊x⌋ + 1)) (by push_cast; rw [abs_lt]; constructor <;> linarith)]

theorem rn_neg (p : ℕ) (x : ℚ) : rn p (-x) = -rn p x := by
  unfold rn lastBit
  rw [abs_neg, neg_div, nearest_neg]
  push_cast
  ring

theorem rn_abs (p : ℕ) (x : ℚ) : |rn p x| = rn p |x| := by
  rcases le_total 0 x with h | h
  · rw [abs_of_nonneg h, abs_of_nonneg (rn_nonneg h)]
  · rw [abs_of_nonpos h, abs_of_nonpos (rn_nonpos h), rn_neg]

theorem r32_bounds' {x : ℚ} (hx : 0 ≤ x) : x * (1 - 1 / 2 ^ 24) ≤ r32 x ∧ r32 x ≤ x * (1 + 1 / 2 ^ 24) := by
  have h24 : (2 : ℚ) ^ (-((24 : ℕ) : ℤ)) = 1 / 2 ^ 24 := by norm_num
  have := rn_bounds (p := 24) (by norm_num) hx
  rw [h24] at this
  exact this

theorem float_of_float32 {x : ℚ} (h : Float32 x) : Float64 x := by
  obtain ⟨m, e, hm, hx⟩ := h
  exact ⟨m, e, lt_of_lt_of_le hm (by norm_num), hx⟩

/-- If the squared distance, computed in float32, is not less than the square of `z`, the polar angle is defined. -/
theorem polar32_defined {x y z : ℚ} (hz : Float64 z) (h0 : z ≠ 0) (h : z * z ≤ r2_32 x y z) : ∃ c : ℚ, polar32 x y z = some c ∧ |c| ≤ 1 := by
  have hz2 : 0 < z * z := mul_self_pos.mpr h0
  have hpos : 0 < r2_32 x y z := lt_of_lt_of_le hz2 h
  have hw : Float64 |z| := by
    rcases abs_choice z with h | h <;> rw [h]
    · exact hz
    · exact rep_neg hz
  have hge : |z| ≤ rnReal (Real.sqrt ((r2_32 x y z : ℚ) : ℝ)) := by
    have h1 : ((|z| : ℚ) : ℝ) ≤ Real.sqrt ((r2_32 x y z : ℚ) : ℝ) := by
      apply Real.le_sqrt_of_sq_le
      rw [sq]
      have : |z| * |z| ≤ r2_32 x y z := by rw [abs_mul_abs_self]; exact h
      exact_mod_cast this
    have := rnReal_mono (by exact_mod_cast abs_nonneg z) h1
    rwa [rnReal_float hw] at this
  have hrq : (0 : ℚ) < rnReal (Real.sqrt ((r2_32 x y z : ℚ) : ℝ)) := lt_of_lt_of_le (abs_pos.mpr h0) hge
  unfold polar32 sqrt64
  rw [if_neg (not_lt.mpr hpos.le), Option.bind_some]
  generalize rnReal (Real.sqrt ((r2_32 x y z : ℚ) : ℝ)) = r at *
  have hzr : |z / r| ≤ 1 := by rw [abs_div, abs_of_pos hrq, div_le_one hrq]; exact hge
  have f1 : Float64 1 := ⟨1, 0, by norm_num, by norm_num⟩
  have f1' : Float64 (-1) := ⟨-1, 0, by norm_num, by norm_num⟩
  have c1 : r64 (z / r) ≤ 1 := r64_le f1 (abs_le.mp hzr).2
  have c2 : -1 ≤ r64 (z / r) := le_r64 f1' (abs_le.mp hzr).1
  refine ⟨r64 (z / r), ?_, abs_le.mpr ⟨c2, c1⟩⟩
  unfold acosArg
  rw [if_neg (ne_of_gt hrq), if_neg (by rintro (h | h) <;> linarith)]

/-- The squared distance off the axis, in float32, and the whole squared distance. -/
theorem r2_32_lower (x y z : ℚ) : (r32 (r32 (x * x) + r32 (y * y)) + r32 (z * z)) * (1 - 1 / 2 ^ 24) ≤ r2_32 x y z ∧ (x * x + y * y) * (1 - 2 / 2 ^ 24) ≤ r32 (r32 (x * x) + r32 (y * y)) := by
  have sx := (r32_bounds' (mul_self_nonneg x)).1
  have sy := (r32_bounds' (mul_self_nonneg y)).1
  have nx : 0 ≤ r32 (x * x) := rn_nonneg (mul_self_nonneg x)
  have ny : 0 ≤ r32 (y * y) := rn_nonneg (mul_self_nonneg y)
  have nz : 0 ≤ r32 (z * z) := rn_nonneg (mul_self_nonneg z)
  have hs := (r32_bounds' (add_nonneg nx ny)).1
  have ns : 0 ≤ r32 (r32 (x * x) + r32 (y * y)) := rn_nonneg (add_nonneg nx ny)
  refine ⟨(r32_bounds' (add_nonneg ns nz)).1, le_trans ?_ hs⟩
  nlinarith [mul_self_nonneg x, mul_self_nonneg y]

/-- C116 (part that holds): in float32 a point has a polar angle if it is not too close to the axis: its distance from the axis is at least a two-thousandth of its height.  Missing: points closer to the
axis, see `C116_axis_false`. -/
theorem C116_float32_partial (x y z : ℚ) (hz : Float32 z) (h : ¬(x = 0 ∧ y = 0 ∧ z = 0)) (hax : z ^ 2 ≤ 2 ^ 22 * (x ^ 2 + y ^ 2)) : ∃ c : ℚ, polar32 x y z = some c ∧ |c| ≤ 1 := by
  by_cases hz0 : z = 0
  · -- in the plane: the quotient is 0
    subst hz0
    have hpos : 0 < x * x + y * y := by
      by_contra hcon
      apply h
      have h1 := mul_self_nonneg x
      have h2 := mul_self_nonneg y
      exact ⟨mul_self_eq_zero.mp (by linarith), mul_self_eq_zero.mp (by linarith), rfl⟩
    obtain ⟨l1, l2⟩ := r2_32_lower x y 0
    have hS : 0 < r2_32 x y 0 := by
      refine lt_of_lt_of_le ?_ l1
      rw [mul_zero, show r32 0 = 0 from rn_zero 24, add_zero]
      exact mul_pos (lt_of_lt_of_le (mul_pos hpos (by norm_num)) l2) (by norm_num)
    unfold polar32 sqrt64
    rw [if_neg (not_lt.mpr hS.le), Option.bind_some]
    have hr : 0 < rnReal (Real.sqrt ((r2_32 x y 0 : ℚ) : ℝ)) := by
      have hs : 0 < Real.sqrt ((r2_32 x y 0 : ℚ) : ℝ) := Real.sqrt_pos.mpr (by exact_mod_cast hS)
      have : (0 : ℝ) < rnReal (Real.sqrt ((r2_32 x y 0 : ℚ) : ℝ)) := lt_of_lt_of_le (mul_pos hs (by norm_num)) (rnReal_bounds hs.le).1
      exact_mod_cast this
    unfold acosArg
    rw [if_neg (ne_of_gt hr), zero_div, show r64 0 = 0 from rn_zero 53, if_neg (by norm_num)]
    exact ⟨0, rfl, by norm_num⟩
  · apply polar32_defined (float_of_float32 hz) hz0
    obtain ⟨l1, l2⟩ := r2_32_lower x y z
    have sz := (r32_bounds' (mul_self_nonneg z)).1
    refine le_trans ?_ l1
    have hz2 : 0 < z * z := mul_self_pos.mpr hz0
    nlinarith

/-! Ring normals -/

theorem r32_half : r32 (1 - 1 / 2 ^ 25) = 1 := by
  unfold r32 rn lastBit
  have hlog : Int.log 2 |(1 - 1 / 2 ^ 25 : ℚ)| = -1 := log_unique (by norm_num [abs_of_pos]) (by norm_num [abs_of_pos])
  rw [hlog]
  have hv : (1 - 1 / 2 ^ 25 : ℚ) / 2 ^ ((-1 : ℤ) - (((24 : ℕ) : ℤ) - 1)) = 16777215 + 1 / 2 := by norm_num
  rw [hv]
  have hfl : ⌊(16777215 + 1 / 2 : ℚ)⌋ = 16777215 := by rw [Int.floor_eq_iff]; norm_num
  have hn : nearest (16777215 + 1 / 2 : ℚ) = 16777216 := by
    unfold nearest
    rw [hfl]
    norm_num
  rw [hn]
  norm_num

/-- The three numbers of a ring normal before they are rounded to float32. -/
theorem ringNormal_parts {X Y Z : ℚ} (hZ : Float64 Z) {v : ℚ × ℚ × ℚ} (h : ringNormal X Y Z = some v) :
    ∃ a b c : ℚ, v = (r32 a, r32 b, r32 c) ∧ |c| ≤ 1 ∧ 1 - 12 / 2 ^ 53 ≤ a ^ 2 + b ^ 2 + c ^ 2 := by
  obtain ⟨r, hr, r1, r2⟩ := norm64_bounds X Y Z
  have hge := norm64_ge hZ hr
  unfold ringNormal at h
  rw [hr, Option.bind_some] at h
  by_cases hc : r < 1 ∧ r ≠ 0
  · rw [if_pos hc, Option.some.injEq] at h
    have hD0 : 0 ≤ dist3 X Y Z := Real.sqrt_nonneg _
    have hr0 : (0 : ℝ) ≤ r := le_trans (mul_nonneg hD0 (by norm_num)) r1
    have hrq : (0 : ℚ) < r := lt_of_le_of_ne (by exact_mod_cast hr0) (Ne.symm hc.2)
    have hzr : |Z / r| ≤ 1 := by rw [abs_div, abs_of_pos hrq, div_le_one hrq]; exact hge
    have f1 : Float64 1 := ⟨1, 0, by norm_num, by norm_num⟩
    have f1' : Float64 (-1) := ⟨-1, 0, by norm_num, by norm_num⟩
    refine ⟨r64 (X / r), r64 (Y / r), r64 (Z / r), h.symm, abs_le.mpr ⟨le_r64 f1' (abs_le.mp hzr).1, r64_le f1 (abs_le.mp hzr).2⟩, ?_⟩
    have hT : r * r ≤ (X * X + Y * Y + Z * Z) * (1 + 4 / 2 ^ 53) ^ 2 := by
      have h2 : dist3 X Y Z ^ 2 = ((X * X + Y * Y + Z * Z : ℚ) : ℝ) := by
        unfold dist3
        rw [Real.sq_sqrt (by positivity)]
        push_cast
        ring
      have : (r : ℝ) * r ≤ dist3 X Y Z ^ 2 * (1 + 4 / 2 ^ 53) ^ 2 := by
        rw [← mul_pow, ← sq]
        exact pow_le_pow_left₀ hr0 r2 2
      rw [h2] at this
      apply (Rat.cast_le (K := ℝ)).mp
      push_cast at this ⊢
      exact this
    have sq64 : ∀ q : ℚ, q ^ 2 * (1 - 1 / 2 ^ 53) ^ 2 ≤ r64 q ^ 2 := by
      intro q
      have h1 := (r64_bounds (abs_nonneg q)).1
      have h2 : |r64 q| = r64 |q| := rn_abs 53 q
      rw [← sq_abs q, ← sq_abs (r64 q), h2, ← mul_pow]
      exact pow_le_pow_left₀ (mul_nonneg (abs_nonneg q) (by norm_num)) h1 2
    have hsum : (X / r) ^ 2 + (Y / r) ^ 2 + (Z / r) ^ 2 = (X * X + Y * Y + Z * Z) / (r * r) := by field_simp
    have hq : 1 / (1 + 4 / 2 ^ 53 : ℚ) ^ 2 ≤ (X * X + Y * Y + Z * Z) / (r * r) := by
      rw [div_le_div_iff₀ (by norm_num) (mul_pos hrq hrq), one_mul]
      exact hT
    have := sq64 (X / r)
    have := sq64 (Y / r)
    have := sq64 (Z / r)
    have hfin : (1 - 12 / 2 ^ 53 : ℚ) ≤ 1 / (1 + 4 / 2 ^ 53 : ℚ) ^ 2 * (1 - 1 / 2 ^ 53) ^ 2 := by norm_num
    have := mul_le_mul_of_nonneg_right hq (show (0 : ℚ) ≤ (1 - 1 / 2 ^ 53) ^ 2 by positivity)
    rw [← hsum] at this
    linarith
  · rw [if_neg hc] at h
    simp at h

theorem sq32 (q : ℚ) : q ^ 2 * (1 - 2 / 2 ^ 24) ≤ r32 q ^ 2 := by
  have h1 := (r32_bounds' (abs_nonneg q)).1
  have h2 : |r32 q| = r32 |q| := rn_abs 24 q
  have h3 := pow_le_pow_left₀ (mul_nonneg (abs_nonneg q) (by norm_num)) h1 2
  rw [← h2, sq_abs, mul_pow, sq_abs] at h3
  refine le_trans ?_ h3
  exact mul_le_mul_of_nonneg_left (by norm_num) (sq_nonneg q)

/-- C116: the normal vector of every ring has a polar angle, whatever is drawn: the rotation of a ring into the plane is never made of NaNs. -/
theorem C116_normals (X Y Z : ℚ) (hZ : Float64 Z) (x y z : ℚ) (h : ringNormal X Y Z = some (x, y, z)) : ∃ c : ℚ, polar32 x y z = some c ∧ |c| ≤ 1 := by
  obtain ⟨a, b, c, hv, hc1, hn⟩ := ringNormal_parts hZ h
  simp only [Prod.mk.injEq] at hv
  obtain ⟨rfl, rfl, rfl⟩ := hv
  have hx := sq32 a
  have hy := sq32 b
  have fz : Float32 (r32 c) := rep_rn (by norm_num) c
  have f1 : Float32 1 := ⟨1, 0, by norm_num, by norm_num⟩
  have habs : |r32 c| = r32 |c| := rn_abs 24 c
  have hz1 : |r32 c| ≤ 1 := by rw [habs]; exact rn_le (by norm_num) f1 hc1
  have hzz : r32 c * r32 c = |r32 c| * |r32 c| := (abs_mul_abs_self _).symm
  have hcc : c ^ 2 = |c| ^ 2 := (sq_abs c).symm
  rw [hcc] at hn
  have hC0 := abs_nonneg c
  obtain ⟨l1, l2⟩ := r2_32_lower (r32 a) (r32 b) (r32 c)
  generalize hxd : r32 a = x at *
  generalize hyd : r32 b = y at *
  rcases le_or_gt |c| (1 - 3 / 2 / 2 ^ 24) with hc | hc
  · -- not close to the axis
    have hs : 5 / 2 / 2 ^ 24 ≤ x ^ 2 + y ^ 2 := by nlinarith
    by_cases hz0 : r32 c = 0
    · rw [hz0] at *
      refine C116_float32_partial x y 0 ⟨0, 0, by norm_num, by norm_num⟩ ?_ (by positivity)
      rintro ⟨rfl, rfl, _⟩
      norm_num at hs
    · apply polar32_defined (float_of_float32 fz) hz0
      have sz := (r32_bounds' (mul_self_nonneg (r32 c))).1
      refine le_trans ?_ l1
      have hz2 : r32 c * r32 c ≤ 1 := by rw [hzz]; nlinarith [abs_nonneg (r32 c)]
      nlinarith
  · have hz0 : r32 c ≠ 0 := by
      intro h0
      have h2 := (r32_bounds' hC0).1
      rw [← habs, h0, abs_zero] at h2
      nlinarith
    apply polar32_defined (float_of_float32 fz) hz0
    have ns : 0 ≤ r32 (r32 (x * x) + r32 (y * y)) := rn_nonneg (add_nonneg (rn_nonneg (mul_self_nonneg x)) (rn_nonneg (mul_self_nonneg y)))
    rcases lt_or_ge |c| (1 - 1 / 2 ^ 25) with hd | hd
    · -- one unit below 1
      have hZ' : |r32 c| = 1 - 1 / 2 ^ 24 := by
        rw [habs]
        unfold r32
        rw [rn_eq (-1) (2 ^ 24 - 1) (by rw [abs_abs]; norm_num; linarith) (by rw [abs_abs]; norm_num; linarith) (by rw [abs_lt]; norm_num; constructor <;> linarith)]
        norm_num
      have hs : 9 / 10 / 2 ^ 24 ≤ x ^ 2 + y ^ 2 := by nlinarith
      have hs' : 8 / 10 / 2 ^ 24 ≤ r32 (r32 (x * x) + r32 (y * y)) := by nlinarith
      have hr : r32 (r32 c * r32 c) = 1 - 2 / 2 ^ 24 := by
        rw [hzz, hZ']
        unfold r32
        rw [rn_eq (-1) (2 ^ 24 - 2) (by norm_num [abs_of_pos]) (by norm_num [abs_of_pos]) (by rw [abs_lt]; norm_num)]
        norm_num
      have hm : r32 (8 / 10 / 2 ^ 24 + (1 - 2 / 2 ^ 24)) ≤ r2_32 x y (r32 c) := by
        unfold r2_32
        apply rn_mono (by norm_num)
        rw [hr]
        linarith
      refine le_trans ?_ hm
      unfold r32 at hZ' hzz ⊢
      rw [hzz, hZ', rn_eq (-1) (2 ^ 24 - 1) (by norm_num [abs_of_pos]) (by norm_num [abs_of_pos]) (by rw [abs_lt]; norm_num)]
      norm_num
    · -- exactly 1
      have hZ' : |r32 c| = 1 := by
        rw [habs]
        apply le_antisymm
        · rw [← habs]; exact hz1
        · have := rn_mono (p := 24) (by norm_num) hd
          have h2 := r32_half
          unfold r32 at h2 ⊢
          rwa [h2] at this
      have hr : r32 (r32 c * r32 c) = 1 := by rw [hzz, hZ', mul_one]; exact rn_rep f1
      unfold r2_32
      rw [hr]
      rw [hzz, hZ', mul_one]
      exact le_rn (by norm_num) f1 (by linarith)

/-! Points near the axis -/

theorem polar32_none {T : Trig} {x y z : ℚ} (h : theta64 T x y z = none) : polar32 x y z = none := by
  unfold theta64 at h
  unfold polar32
  cases hr : sqrt64 (r2_32 x y z) with
  | none => rfl
  | some r =>
    rw [hr, Option.bind_some] at h
    rw [Option.bind_some]
    unfold acosArg
    by_cases h0 : r = 0
    · rw [if_pos h0]
    · rw [if_neg h0]
      by_cases hc : r64 (z / r) < -1 ∨ r64 (z / r) > 1
      · rw [if_pos hc]
      · rw [if_neg hc] at h; simp at h

/-- C116 is false for points in float32: particles on the axis may have no polar angle.  Such a particle is left out of the list of the particles inside the shell, whatever the shell is, although the same point
has a polar angle in float64 (and is counted in the mass inside the shell). -/
theorem C116_axis_false (z : ℚ) (hz : z = 1 + 1 / 2 ^ 13 ∨ z = -(1 + 1 / 2 ^ 13)) :
    Float32 z ∧ polar32 0 0 z = none ∧ (∃ c, polar64 0 0 z = some c) ∧
      ∀ (sh : ℚ → ℚ → Option ℚ → Option ℚ) (high2 : ℚ), (∀ x y, sh x y none = none) → ¬insideListed sh high2 0 0 z := by
  have hf : Float32 z := by
    rcases hz with rfl | rfl
    · exact ⟨2 ^ 13 + 1, -13, by norm_num, by norm_num⟩
    · exact ⟨-(2 ^ 13 + 1), -13, by norm_num, by norm_num⟩
  have hp := polar32_none (pole_nan roundedTrig z hz)
  refine ⟨hf, hp, ?_, ?_⟩
  · obtain ⟨c, h, _⟩ := C116_float64 0 0 z (float_of_float32 hf) (by rcases hz with rfl | rfl <;> norm_num)
    exact ⟨c, h⟩
  · rintro sh high2 hsh ⟨_, r, rs, _, h2, _⟩
    rw [hp, hsh] at h2
    simp at h2

-- a point that was drawn: (0, 0, 1/2) gives the normal (0, 0, 1)
example : ringNormal 0 0 (1 / 2) = some (0, 0, 1) := by
  have e0 : r64 0 = 0 := rn_zero 53
  have e1 : r64 (1 / 2 * (1 / 2)) = 1 / 4 := by rw [show (1 / 2 * (1 / 2) : ℚ) = 1 / 4 by norm_num]; exact r64_float ⟨1, -2, by norm_num, by norm_num⟩
  have e1' : r64 (1 / 4) = 1 / 4 := r64_float ⟨1, -2, by norm_num, by norm_num⟩
  have e2 : rnReal (Real.sqrt ((1 / 4 : ℚ) : ℝ)) = 1 / 2 := by
    have : Real.sqrt ((1 / 4 : ℚ) : ℝ) = ((1 / 2 : ℚ) : ℝ) := by
      rw [show ((1 / 4 : ℚ) : ℝ) = ((1 / 2 : ℚ) : ℝ) ^ 2 by push_cast; norm_num, Real.sqrt_sq (by norm_num)]
    rw [this, rnReal_float ⟨1, -1, by norm_num, by norm_num⟩]
  have e3 : r64 1 = 1 := r64_float ⟨1, 0, by norm_num, by norm_num⟩
  have e4 : r32 1 = 1 := rn_rep ⟨1, 0, by norm_num, by norm_num⟩
  unfold ringNormal norm64 sqrt64
  rw [mul_zero, e0, add_zero, e0, e1, zero_add, e1', if_neg (by norm_num), Option.bind_some, e2, if_pos (by norm_num), zero_div, e0, show r32 0 = 0 from rn_zero 24, show (1 / 2 : ℚ) / (1 / 2) = 1 by norm_num, e3, e4]

example : Float64 (1 / 2) ∧ ¬((1 : ℚ) = 0 ∧ (0 : ℚ) = 0 ∧ (1 / 2 : ℚ) = 0) := ⟨⟨1, -1, by norm_num, by norm_num⟩, by norm_num⟩
example : Float32 2048 ∧ (2048 : ℚ) ^ 2 ≤ 2 ^ 22 * ((1 : ℚ) ^ 2 + 0 ^ 2) := ⟨⟨2048, 0, by norm_num, by norm_num⟩, by norm_num⟩

end Shellfish.Round
