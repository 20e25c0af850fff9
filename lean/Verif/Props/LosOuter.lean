/-
C119: spheres that do not contain the center of a ring, in machine arithmetic.
-/
import Verif.Model.LosOuter
import Verif.Props.PixelRound

namespace Shellfish.Round
open Shellfish.Finder (toInt)

/-- What is assumed about package math: errors of at most 2^-50. -/
structure OuterLib.Good (lib : OuterLib) : Prop where
  atan2 : ∀ y x : ℚ, ¬(x = 0 ∧ y = 0) → |(lib.atan2 y x : ℝ) - Geom.atan2 (y : ℝ) (x : ℝ)| ≤ 1 / 2 ^ 50
  asin : ∀ t : ℚ, 0 ≤ t → t ≤ 1 → |(lib.asin t : ℝ) - Real.arcsin t| ≤ 1 / 2 ^ 50
  sin : ∀ x : ℚ, 0 ≤ x → x ≤ 7 → |(lib.sin x : ℝ) - Real.sin x| ≤ 1 / 2 ^ 50
  cos : ∀ x : ℚ, 0 ≤ x → x ≤ 7 → |(lib.cos x : ℝ) - Real.cos x| ≤ 1 / 2 ^ 50

/-- The angle of the line of sight `i` of `n`. -/
noncomputable def lineAngle (n i : ℕ) : ℝ := 2 * Real.pi * i / n

theorem pi64_near : Real.pi - 1 / 2 ^ 52 ≤ (pi64 : ℝ) ∧ (pi64 : ℝ) < Real.pi := by
  refine ⟨?_, pi64_lt_pi⟩
  have h2 := Real.pi_lt_d20
  have : ((pi64 : ℚ) : ℝ) = 884279719003555 / 2 ^ 48 := by unfold pi64; push_cast; rfl
  rw [this]
  norm_num at h2 ⊢
  linarith

theorem r64_errR (x : ℚ) : |((r64 x : ℚ) : ℝ) - x| ≤ |(x : ℝ)| / 2 ^ 53 := by
  have h := (Rat.cast_le (K := ℝ)).mpr ((C95_rounding x).2.2.2.2)
  push_cast at h
  exact h

/-- Two roundings of a part `q` of a turn. -/
theorem turn_near (q : ℚ) (h0 : 0 ≤ q) (h1 : q ≤ 1) : |((r64 (r64 q * (2 * pi64)) : ℚ) : ℝ) - 2 * Real.pi * q| ≤ (q : ℝ) * (1 / 2 ^ 48) := by
  obtain ⟨p1, p2⟩ := pi64_near
  have hp3 := Real.pi_lt_d2
  have hp4 := Real.pi_gt_d2
  obtain ⟨a1, a2⟩ := r64_bounds h0
  have hpp := pi64_pos
  obtain ⟨b1, b2⟩ := r64_bounds (x := r64 q * (2 * pi64)) (mul_nonneg (r64_nonneg h0) (by linarith))
  have a1' := (Rat.cast_le (K := ℝ)).mpr a1
  have a2' := (Rat.cast_le (K := ℝ)).mpr a2
  have b1' := (Rat.cast_le (K := ℝ)).mpr b1
  have b2' := (Rat.cast_le (K := ℝ)).mpr b2
  push_cast at a1' a2' b1' b2'
  have h0' : (0 : ℝ) ≤ q := by exact_mod_cast h0
  generalize ((r64 (r64 q * (2 * pi64)) : ℚ) : ℝ) = z at *
  generalize ((r64 q : ℚ) : ℝ) = y at *
  generalize (pi64 : ℝ) = P at *
  generalize (q : ℝ) = x at *
  have hP0 : 0 < P := by norm_num at p1 ⊢; linarith
  have hlo : x * ((1 - 1 / 2 ^ 53) * (2 * P) * (1 - 1 / 2 ^ 53)) ≤ z := by
    refine le_trans ?_ b1'
    have := mul_le_mul_of_nonneg_right a1' (show (0 : ℝ) ≤ (2 * P) * (1 - 1 / 2 ^ 53) by norm_num; linarith)
    linarith
  have hhi : z ≤ x * ((1 + 1 / 2 ^ 53) * (2 * P) * (1 + 1 / 2 ^ 53)) := by
    refine le_trans b2' ?_
    have := mul_le_mul_of_nonneg_right a2' (show (0 : ℝ) ≤ (2 * P) * (1 + 1 / 2 ^ 53) by norm_num; linarith)
    linarith
  have c1 : 2 * Real.pi - 1 / 2 ^ 48 ≤ (1 - 1 / 2 ^ 53) * (2 * P) * (1 - 1 / 2 ^ 53) := by norm_num at *; linarith
  have c2 : (1 + 1 / 2 ^ 53) * (2 * P) * (1 + 1 / 2 ^ 53) ≤ 2 * Real.pi + 1 / 2 ^ 48 := by norm_num at *; linarith
  have d1 := mul_le_mul_of_nonneg_left c1 h0'
  have d2 := mul_le_mul_of_nonneg_left c2 h0'
  rw [abs_le]
  constructor <;> linarith

theorem dPhi_near (n : ℕ) (hn : 0 < n) : |(dPhi64 n : ℝ) - 2 * Real.pi / n| ≤ 1 / n * (1 / 2 ^ 48) := by
  have hn' : (1 : ℚ) ≤ n := by exact_mod_cast hn
  have := turn_near (1 / (n : ℚ)) (by positivity) (by rw [div_le_one (by linarith)]; exact hn')
  push_cast at this
  unfold dPhi64
  rw [show 2 * Real.pi / (n : ℝ) = 2 * Real.pi * (1 / n) by ring]
  exact this

/-- The boundary of the line `i` in units of the machine. -/
theorem line_near (n i : ℕ) (hn : 0 < n) (hi : i ≤ n) : |(i : ℝ) * (dPhi64 n : ℝ) - lineAngle n i| ≤ 1 / 2 ^ 48 := by
  have h := dPhi_near n hn
  have hn' : (0 : ℝ) < n := by exact_mod_cast hn
  have hi' : (i : ℝ) ≤ n := by exact_mod_cast hi
  have hi0 : (0 : ℝ) ≤ i := Nat.cast_nonneg i
  have e : (i : ℝ) * (dPhi64 n : ℝ) - lineAngle n i = i * ((dPhi64 n : ℝ) - 2 * Real.pi / n) := by unfold lineAngle; ring
  rw [e, abs_mul, abs_of_nonneg hi0]
  calc (i : ℝ) * |(dPhi64 n : ℝ) - 2 * Real.pi / n| ≤ i * (1 / n * (1 / 2 ^ 48)) := mul_le_mul_of_nonneg_left h hi0
    _ = i / n * (1 / 2 ^ 48) := by ring
    _ ≤ 1 * (1 / 2 ^ 48) := mul_le_mul_of_nonneg_right ((div_le_one hn').mpr hi') (by norm_num)
    _ = _ := one_mul _

theorem dPhi_pos (n : ℕ) (hn : 0 < n) : 0 < dPhi64 n := by
  have h := dPhi_near n hn
  have hn' : (0 : ℝ) < n := by exact_mod_cast hn
  have hp := Real.pi_gt_three
  rw [abs_le] at h
  have h1 : (0 : ℝ) < (2 * Real.pi - 1 / 2 ^ 48) / n := div_pos (by norm_num; linarith) hn'
  have h2 : (2 * Real.pi - 1 / 2 ^ 48) / (n : ℝ) = 2 * Real.pi / n - 1 / n * (1 / 2 ^ 48) := by ring
  rw [h2] at h1
  have : (0 : ℝ) < dPhi64 n := by linarith [h.1]
  exact_mod_cast this

theorem ringPhi_near (n i : ℕ) (hi : i < n) : |(ringPhi64 n i : ℝ) - lineAngle n i| ≤ 1 / 2 ^ 48 ∧ 0 ≤ ringPhi64 n i ∧ ringPhi64 n i ≤ 7 := by
  have hn : (0 : ℚ) < n := by exact_mod_cast (lt_of_le_of_lt (Nat.zero_le _) hi)
  have hi' : (i : ℚ) ≤ n := by exact_mod_cast hi.le
  have q0 : 0 ≤ (i : ℚ) / n := by positivity
  have q1 : (i : ℚ) / n ≤ 1 := (div_le_one hn).mpr hi'
  have h := turn_near _ q0 q1
  push_cast at h
  have q1' : (i : ℝ) / n ≤ 1 := by have := (Rat.cast_le (K := ℝ)).mpr q1; push_cast at this; exact this
  have q0' : (0 : ℝ) ≤ (i : ℝ) / n := by positivity
  have h1 : |(ringPhi64 n i : ℝ) - lineAngle n i| ≤ 1 / 2 ^ 48 := by
    unfold ringPhi64 lineAngle
    rw [show 2 * Real.pi * (i : ℝ) / n = 2 * Real.pi * (i / n) by ring]
    exact h.trans (by linarith [mul_le_mul_of_nonneg_right q1' (show (0 : ℝ) ≤ 1 / 2 ^ 48 by norm_num)])
  refine ⟨h1, r64_nonneg (mul_nonneg (r64_nonneg q0) (by have := pi64_pos; linarith)), ?_⟩
  have h2 : lineAngle n i ≤ 2 * Real.pi := by
    unfold lineAngle
    rw [show 2 * Real.pi * (i : ℝ) / n = 2 * Real.pi * (i / n) by ring]
    nlinarith [Real.pi_pos]
  have h3 : (ringPhi64 n i : ℝ) ≤ 7 := by
    rw [abs_le] at h1
    have := Real.pi_lt_d2
    norm_num at h1 this ⊢
    linarith [h1.2]
  exact_mod_cast h3

theorem mem_loopRange {a b x : ℤ} : x ∈ loopRange a b ↔ a ≤ x ∧ x < b := by
  unfold loopRange
  rw [List.mem_map]
  constructor
  · rintro ⟨k, hk, rfl⟩
    rw [List.mem_range] at hk
    omega
  · rintro ⟨h1, h2⟩
    exact ⟨(x - a).toNat, by rw [List.mem_range]; omega, by omega⟩

theorem toInt_neg {x : ℚ} (h : x < 0) : toInt x ≤ 0 := by
  unfold Shellfish.Finder.toInt Shellfish.Los.modf
  rw [if_neg (not_le.mpr h)]
  exact Int.ceil_le.mpr (by push_cast; linarith)

theorem float_nat {i : ℕ} (h : i < 2 ^ 53) : Float64 (i : ℚ) := ⟨i, 0, by rw [abs_of_nonneg (by omega)]; exact_mod_cast h, by simp⟩

theorem index_le {i : ℕ} (hi : i < 2 ^ 53) {y d : ℚ} (hd : 0 < d) (h : y ≤ i * d) : toInt (r64 (y / d)) ≤ i := by
  have h1 : r64 (y / d) ≤ i := r64_le (float_nat hi) ((div_le_iff₀ hd).mpr h)
  rcases le_or_gt 0 (r64 (y / d)) with h0 | h0
  · rw [toInt_nonneg h0]
    have : ⌊r64 (y / d)⌋ ≤ ⌊(i : ℚ)⌋ := Int.floor_le_floor h1
    rwa [Int.floor_natCast] at this
  · have := toInt_neg h0
    omega

theorem le_index {i : ℕ} (hi : i < 2 ^ 53) {y d : ℚ} (hd : 0 < d) (h : i * d ≤ y) : (i : ℤ) ≤ toInt (r64 (y / d)) := by
  have h1 : (i : ℚ) ≤ r64 (y / d) := le_r64 (float_nat hi) ((le_div_iff₀ hd).mpr h)
  rw [toInt_nonneg (le_trans (Nat.cast_nonneg i) h1), Int.le_floor]
  exact_mod_cast h1

theorem rat_le {x y : ℚ} (h : (x : ℝ) ≤ y) : x ≤ y := by exact_mod_cast h

/-- A line whose angle is in the range of angles, up to multiples of a turn, is visited. -/
theorem visited (n i : ℕ) (hi : i < n) (hn : n ≤ 2 ^ 53) (phi alpha : ℚ) (a : ℝ) (hp : |(phi : ℝ)| ≤ 3.15) (hal : |(alpha : ℝ)| ≤ 1.58)
    (hlo : (phi : ℝ) - alpha ≤ a - 1 / 2 ^ 43) (hhi : a + 1 / 2 ^ 43 ≤ (phi : ℝ) + alpha) (ha : a = lineAngle n i ∨ a = lineAngle n i - 2 * Real.pi) :
    (i : ℤ) ∈ loopRange (idxRange64 n (some (r64 (phi - alpha))) (some (r64 (phi + alpha)))).1.1 (idxRange64 n (some (r64 (phi - alpha))) (some (r64 (phi + alpha)))).1.2 ++
      loopRange (idxRange64 n (some (r64 (phi - alpha))) (some (r64 (phi + alpha)))).2.1 (idxRange64 n (some (r64 (phi - alpha))) (some (r64 (phi + alpha)))).2.2 := by
  have hnpos : 0 < n := by omega
  have hi53 : i < 2 ^ 53 := by omega
  have hd := dPhi_pos n hnpos
  obtain ⟨l1, l2⟩ := abs_le.mp (line_near n i hnpos hi.le)
  have hn' : (0 : ℝ) < n := by exact_mod_cast hnpos
  have hi' : (i : ℝ) < n := by exact_mod_cast hi
  have hpi := Real.pi_pos
  have t0 : 0 ≤ lineAngle n i := by unfold lineAngle; positivity
  have t1 : lineAngle n i < 2 * Real.pi := by
    unfold lineAngle
    rw [div_lt_iff₀ hn']
    nlinarith
  rw [abs_le] at hp hal
  have hp3 := Real.pi_lt_d2
  have hp4 := Real.pi_gt_d2
  obtain ⟨q1, q2⟩ := pi64_near
  -- the rounded ends
  have e1 := r64_errR (phi - alpha)
  have e2 := r64_errR (phi + alpha)
  push_cast at e1 e2
  have b1 : |(phi : ℝ) - alpha| ≤ 8 := by rw [abs_le]; norm_num at hp hal ⊢; constructor <;> linarith
  have b2 : |(phi : ℝ) + alpha| ≤ 8 := by rw [abs_le]; norm_num at hp hal ⊢; constructor <;> linarith
  rw [abs_le] at e1 e2
  have lo1 : ((r64 (phi - alpha) : ℚ) : ℝ) ≤ a - 1 / 2 ^ 44 := by norm_num at *; linarith
  have lo2 : -5 ≤ ((r64 (phi - alpha) : ℚ) : ℝ) := by norm_num at *; linarith
  have lo3 : ((r64 (phi - alpha) : ℚ) : ℝ) ≤ 5 := by norm_num at *; linarith
  have hi1 : a + 1 / 2 ^ 44 ≤ ((r64 (phi + alpha) : ℚ) : ℝ) := by norm_num at *; linarith
  have hi2 : ((r64 (phi + alpha) : ℚ) : ℝ) ≤ 5 := by norm_num at *; linarith
  generalize r64 (phi - alpha) = lo at *
  generalize r64 (phi + alpha) = hig at *
  have hno : ¬gtNum (some hig) (2 * pi64) := by
    rintro ⟨x, hx, hgt⟩
    injection hx with hx
    subst hx
    have := (Rat.cast_lt (K := ℝ)).mpr hgt
    push_cast at this
    norm_num at *
    linarith
  unfold idxRange64
  simp only [if_neg hno]
  rw [List.mem_append, mem_loopRange, mem_loopRange]
  by_cases hneg : ltNum (some lo) 0
  · rw [if_pos hneg]
    simp only [Option.map_some, int64]
    rcases ha with ha | ha
    · right
      refine ⟨by omega, ?_⟩
      have : (i : ℤ) ≤ toInt (r64 (hig / dPhi64 n)) := le_index hi53 hd (rat_le (by push_cast; norm_num at *; linarith))
      omega
    · left
      refine ⟨index_le hi53 hd (rat_le ?_), by exact_mod_cast hi⟩
      have e3 := r64_errR (lo + 2 * pi64)
      push_cast at e3 ⊢
      rw [abs_le] at e3
      have b3 : |(lo : ℝ) + 2 * (pi64 : ℝ)| ≤ 12 := by rw [abs_le]; norm_num at *; constructor <;> linarith
      norm_num at *
      linarith
  · rw [if_neg hneg]
    have hlo0 : 0 ≤ lo := by
      by_contra hc
      exact hneg ⟨lo, rfl, not_le.mp hc⟩
    have hlo0' : (0 : ℝ) ≤ lo := by exact_mod_cast hlo0
    simp only [Option.map_some, int64]
    rcases ha with ha | ha
    · left
      constructor
      · exact index_le hi53 hd (rat_le (by push_cast; norm_num at *; linarith))
      · have : (i : ℤ) ≤ toInt (r64 (hig / dPhi64 n)) := le_index hi53 hd (rat_le (by push_cast; norm_num at *; linarith))
        omega
    · exfalso
      have : (0 : ℝ) < 1 / 2 ^ 44 := by norm_num
      linarith

/-! ### Geometry -/

/-- The component of the center along the line of sight `i`. -/
noncomputable def alongR (n i : ℕ) (cx cy : ℝ) : ℝ := cx * Real.cos (lineAngle n i) + cy * Real.sin (lineAngle n i)

/-- The component of the center across the line of sight `i`. -/
noncomputable def acrossR (n i : ℕ) (cx cy : ℝ) : ℝ := cy * Real.cos (lineAngle n i) - cx * Real.sin (lineAngle n i)

theorem along_across (n i : ℕ) (cx cy : ℝ) : alongR n i cx cy ^ 2 + acrossR n i cx cy ^ 2 = cx ^ 2 + cy ^ 2 := by
  unfold alongR acrossR
  have := Real.sin_sq_add_cos_sq (lineAngle n i)
  linear_combination (cx ^ 2 + cy ^ 2) * this

theorem polar_form (cx cy : ℝ) : cx = Real.sqrt (cx ^ 2 + cy ^ 2) * Real.cos (Geom.atan2 cy cx) ∧ cy = Real.sqrt (cx ^ 2 + cy ^ 2) * Real.sin (Geom.atan2 cy cx) := by
  have hn : ‖(⟨cx, cy⟩ : ℂ)‖ = Real.sqrt (cx ^ 2 + cy ^ 2) := by
    rw [Complex.norm_def, Complex.normSq_mk]; congr 1; ring
  constructor
  · have := Complex.norm_mul_cos_arg ⟨cx, cy⟩
    rw [hn] at this
    exact this.symm
  · have := Complex.norm_mul_sin_arg ⟨cx, cy⟩
    rw [hn] at this
    exact this.symm

/-- The angle between the center and a line that points towards it. -/
theorem angle_between (n i : ℕ) (hi : i < n) (cx cy : ℝ) (h : 0 < alongR n i cx cy) :
    ∃ psi : ℝ, |psi| < Real.pi / 2 ∧ acrossR n i cx cy = Real.sqrt (cx ^ 2 + cy ^ 2) * Real.sin psi ∧
      (Geom.atan2 cy cx - psi = lineAngle n i ∨ Geom.atan2 cy cx - psi = lineAngle n i - 2 * Real.pi) := by
  obtain ⟨h1, h2⟩ := polar_form cx cy
  have hpi := Real.pi_pos
  have a1 : -Real.pi < Geom.atan2 cy cx := Complex.neg_pi_lt_arg _
  have a2 : Geom.atan2 cy cx ≤ Real.pi := Complex.arg_le_pi _
  have hn' : (0 : ℝ) < n := by exact_mod_cast (lt_of_le_of_lt (Nat.zero_le _) hi)
  have hi' : (i : ℝ) < n := by exact_mod_cast hi
  have t0 : 0 ≤ lineAngle n i := by unfold lineAngle; positivity
  have t1 : lineAngle n i < 2 * Real.pi := by
    unfold lineAngle
    rw [div_lt_iff₀ hn']
    nlinarith
  unfold alongR at h
  unfold acrossR
  set r := Real.sqrt (cx ^ 2 + cy ^ 2) with hr
  set phi := Geom.atan2 cy cx with hphi
  set th := lineAngle n i with hth
  have hr0 : 0 ≤ r := Real.sqrt_nonneg _
  have e1 : cx * Real.cos th + cy * Real.sin th = r * Real.cos (phi - th) := by
    rw [Real.cos_sub]; nth_rewrite 1 [h1]; nth_rewrite 1 [h2]; ring
  have e2 : cy * Real.cos th - cx * Real.sin th = r * Real.sin (phi - th) := by
    rw [Real.sin_sub]; nth_rewrite 1 [h1]; nth_rewrite 1 [h2]; ring
  rw [e1] at h
  have hc : 0 < Real.cos (phi - th) := by
    by_contra hcon
    have := mul_nonpos_of_nonneg_of_nonpos hr0 (not_lt.mp hcon)
    linarith
  rw [e2]
  by_cases hcase : -(Real.pi / 2) < phi - th
  · refine ⟨phi - th, ?_, rfl, Or.inl (by ring)⟩
    rw [abs_lt]
    refine ⟨hcase, ?_⟩
    by_contra hcon
    have := Real.cos_nonpos_of_pi_div_two_le_of_le (not_lt.mp hcon) (by linarith)
    linarith
  · refine ⟨phi - th + 2 * Real.pi, ?_, by rw [Real.sin_add_two_pi], Or.inr (by ring)⟩
    have hc2 : 0 < Real.cos (phi - th + 2 * Real.pi) := by rw [Real.cos_add_two_pi]; exact hc
    have hc3 : Real.cos (-(phi - th)) = Real.cos (phi - th) := Real.cos_neg _
    have h3 : Real.pi + Real.pi / 2 < -(phi - th) := by
      by_contra hcon
      have := Real.cos_nonpos_of_pi_div_two_le_of_le (x := -(phi - th)) (by linarith) (by linarith)
      linarith
    rw [abs_lt]
    refine ⟨?_, by linarith⟩
    by_contra hcon
    have h4 := Real.cos_nonpos_of_pi_div_two_le_of_le (x := -(phi - th) - 2 * Real.pi) (by linarith [not_lt.mp hcon]) (by linarith)
    rw [Real.cos_sub_two_pi] at h4
    linarith

/-- A sine that is clearly less than `t` belongs to an angle that is clearly less than the arc of `t`. -/
theorem arc_margin (psi t d : ℝ) (hp : |psi| < Real.pi / 2) (ht0 : 0 ≤ t) (ht1 : t ≤ 1) (hd : 0 < d) (h : Real.sin psi ^ 2 + d ≤ t ^ 2) : |psi| + d / 2 ≤ Real.arcsin t := by
  have hs : Real.sin |psi| = |Real.sin psi| := by
    rcases le_or_gt 0 psi with h0 | h0
    · rw [abs_of_nonneg h0, abs_of_nonneg (Real.sin_nonneg_of_nonneg_of_le_pi h0 (by have := abs_lt.mp hp; linarith [Real.pi_pos]))]
    · rw [abs_of_neg h0, Real.sin_neg, abs_of_nonpos (Real.sin_nonpos_of_nonpos_of_neg_pi_le h0.le (by have := abs_lt.mp hp; linarith [Real.pi_pos]))]
  have hs0 : 0 ≤ Real.sin |psi| := by rw [hs]; exact abs_nonneg _
  have hs2 : Real.sin |psi| ^ 2 = Real.sin psi ^ 2 := by rw [hs, sq_abs]
  have hst : Real.sin |psi| < t := by
    by_contra hcon
    have := mul_self_le_mul_self ht0 (not_lt.mp hcon)
    nlinarith
  have hle : |psi| ≤ Real.arcsin t := by
    rw [Real.le_arcsin_iff_sin_le ⟨by linarith [abs_nonneg psi, Real.pi_pos], hp.le⟩ ⟨by linarith, ht1⟩]
    exact hst.le
  have hl := Real.abs_sin_sub_sin_le (Real.arcsin t) |psi|
  rw [Real.sin_arcsin (by linarith) ht1, abs_of_pos (by linarith), abs_of_nonneg (show 0 ≤ Real.arcsin t - |psi| by linarith)] at hl
  have : d ≤ (t - Real.sin |psi|) * 2 := by nlinarith
  linarith

/-! ### Rounding -/

theorem dist2_near (cx cy cz radius : ℚ) : ((cx : ℝ) ^ 2 + (cy : ℝ) ^ 2) * (1 - 1 / 2 ^ 51) ≤ ((projected cx cy cz radius).1 : ℝ) ∧
    ((projected cx cy cz radius).1 : ℝ) ≤ ((cx : ℝ) ^ 2 + (cy : ℝ) ^ 2) * (1 + 1 / 2 ^ 51) := by
  have h1 := r64_bounds (mul_self_nonneg cx)
  have h2 := r64_bounds (mul_self_nonneg cy)
  have h3 := r64_bounds (add_nonneg (r64_nonneg (mul_self_nonneg cx)) (r64_nonneg (mul_self_nonneg cy)))
  have hE : 0 ≤ cx * cx + cy * cy := add_nonneg (mul_self_nonneg cx) (mul_self_nonneg cy)
  have k : (cx ^ 2 + cy ^ 2) * (1 - 1 / 2 ^ 51) ≤ (projected cx cy cz radius).1 ∧ (projected cx cy cz radius).1 ≤ (cx ^ 2 + cy ^ 2) * (1 + 1 / 2 ^ 51) := by
    show (cx ^ 2 + cy ^ 2) * (1 - 1 / 2 ^ 51) ≤ r64 (r64 (cx * cx) + r64 (cy * cy)) ∧ r64 (r64 (cx * cx) + r64 (cy * cy)) ≤ (cx ^ 2 + cy ^ 2) * (1 + 1 / 2 ^ 51)
    have e : cx ^ 2 + cy ^ 2 = cx * cx + cy * cy := by ring
    rw [e]
    have hsum1 : (cx * cx + cy * cy) * (1 - 1 / 2 ^ 53) ≤ r64 (cx * cx) + r64 (cy * cy) := by linarith [h1.1, h2.1]
    have hsum2 : r64 (cx * cx) + r64 (cy * cy) ≤ (cx * cx + cy * cy) * (1 + 1 / 2 ^ 53) := by linarith [h1.2, h2.2]
    generalize cx * cx + cy * cy = E at *
    norm_num at *
    constructor <;> linarith [h3.1, h3.2]
  have k1 := (Rat.cast_le (K := ℝ)).mpr k.1
  have k2 := (Rat.cast_le (K := ℝ)).mpr k.2
  push_cast at k1 k2
  exact ⟨k1, k2⟩

theorem root_ratio (dist2 rad2 : ℚ) (hd : 0 < dist2) (hr : 0 ≤ rad2) (hle : rad2 ≤ dist2) :
    ∃ t : ℚ, sqrt64 (r64 (rad2 / dist2)) = some t ∧ 0 ≤ t ∧ t ≤ 1 ∧ (rad2 : ℝ) / dist2 * (1 - 1 / 2 ^ 51) ≤ (t : ℝ) ^ 2 := by
  have hq0 : 0 ≤ rad2 / dist2 := div_nonneg hr hd.le
  have hq1 : rad2 / dist2 ≤ 1 := (div_le_one hd).mpr hle
  have f1 : Float64 1 := ⟨1, 0, by norm_num, by norm_num⟩
  have b := r64_bounds hq0
  have hr0 : 0 ≤ r64 (rad2 / dist2) := r64_nonneg hq0
  have hr1 : r64 (rad2 / dist2) ≤ 1 := r64_le f1 hq1
  refine ⟨rnReal (Real.sqrt (r64 (rad2 / dist2) : ℚ)), ?_, ?_, ?_, ?_⟩
  · unfold sqrt64; rw [if_neg (not_lt.mpr hr0)]
  · have := rnReal_mono le_rfl (Real.sqrt_nonneg ((r64 (rad2 / dist2) : ℚ) : ℝ))
    rwa [rnReal_zero] at this
  · have h1 : Real.sqrt ((r64 (rad2 / dist2) : ℚ) : ℝ) ≤ 1 := by
      have h := Real.sqrt_le_sqrt (show ((r64 (rad2 / dist2) : ℚ) : ℝ) ≤ 1 by exact_mod_cast hr1)
      rwa [Real.sqrt_one] at h
    have := rnReal_mono (Real.sqrt_nonneg _) h1
    rwa [rnReal_one] at this
  · have hs := Real.sq_sqrt (show (0 : ℝ) ≤ ((r64 (rad2 / dist2) : ℚ) : ℝ) by exact_mod_cast hr0)
    have hl := (rnReal_bounds (Real.sqrt_nonneg ((r64 (rad2 / dist2) : ℚ) : ℝ))).1
    have b1 := (Rat.cast_le (K := ℝ)).mpr b.1
    push_cast at b1
    have hq0' : (0 : ℝ) ≤ (rad2 : ℝ) / dist2 := by have := (Rat.cast_le (K := ℝ)).mpr hq0; push_cast at this; exact this
    have hsn := Real.sqrt_nonneg ((r64 (rad2 / dist2) : ℚ) : ℝ)
    generalize ((rnReal (Real.sqrt ((r64 (rad2 / dist2) : ℚ) : ℝ)) : ℚ) : ℝ) = t at *
    have h2 : (Real.sqrt ((r64 (rad2 / dist2) : ℚ) : ℝ) * (1 - 1 / 2 ^ 53)) ^ 2 ≤ t ^ 2 := pow_le_pow_left₀ (mul_nonneg hsn (by norm_num)) hl 2
    rw [mul_pow, hs] at h2
    generalize ((r64 (rad2 / dist2) : ℚ) : ℝ) = y at *
    generalize (rad2 : ℝ) / dist2 = x at *
    norm_num at *
    linarith

theorem impact_near (lib : OuterLib) (hl : lib.Good) (n i : ℕ) (hi : i < n) (cx cy : ℚ) :
    |((impact64 cx cy (ringVec64 lib n i) : ℚ) : ℝ) - acrossR n i cx cy| ≤ Real.sqrt ((cx : ℝ) ^ 2 + (cy : ℝ) ^ 2) * (1 / 2 ^ 45) := by
  obtain ⟨h1, h2, h3⟩ := ringPhi_near n i hi
  have hs := hl.sin _ h2 h3
  have hc := hl.cos _ h2 h3
  have ls := Real.abs_sin_sub_sin_le ((ringPhi64 n i : ℚ) : ℝ) (lineAngle n i)
  have lc := Real.abs_cos_sub_cos_le ((ringPhi64 n i : ℚ) : ℝ) (lineAngle n i)
  have us : |((lib.sin (ringPhi64 n i) : ℚ) : ℝ) - Real.sin (lineAngle n i)| ≤ 1 / 2 ^ 47 := by
    have := abs_sub_le ((lib.sin (ringPhi64 n i) : ℚ) : ℝ) (Real.sin (ringPhi64 n i : ℚ)) (Real.sin (lineAngle n i))
    norm_num at *; linarith
  have uc : |((lib.cos (ringPhi64 n i) : ℚ) : ℝ) - Real.cos (lineAngle n i)| ≤ 1 / 2 ^ 47 := by
    have := abs_sub_le ((lib.cos (ringPhi64 n i) : ℚ) : ℝ) (Real.cos (ringPhi64 n i : ℚ)) (Real.cos (lineAngle n i))
    norm_num at *; linarith
  unfold impact64 ringVec64 acrossR
  dsimp only
  have s1 := Real.abs_sin_le_one (lineAngle n i)
  have c1 := Real.abs_cos_le_one (lineAngle n i)
  generalize lib.sin (ringPhi64 n i) = u at *
  generalize lib.cos (ringPhi64 n i) = v at *
  generalize Real.sin (lineAngle n i) = S at *
  generalize Real.cos (lineAngle n i) = C at *
  set r := Real.sqrt ((cx : ℝ) ^ 2 + (cy : ℝ) ^ 2) with hr
  have hx : |(cx : ℝ)| ≤ r := Real.abs_le_sqrt (by nlinarith [sq_nonneg (cy : ℝ)])
  have hy : |(cy : ℝ)| ≤ r := Real.abs_le_sqrt (by nlinarith [sq_nonneg (cx : ℝ)])
  have hr0 : 0 ≤ r := Real.sqrt_nonneg _
  have m1 : |(cy : ℝ) * v - cy * C| ≤ r * (1 / 2 ^ 47) := by
    rw [← mul_sub, abs_mul]
    exact mul_le_mul hy uc (abs_nonneg _) hr0
  have m2 : |(cx : ℝ) * u - cx * S| ≤ r * (1 / 2 ^ 47) := by
    rw [← mul_sub, abs_mul]
    exact mul_le_mul hx us (abs_nonneg _) hr0
  have n1 : |(cy : ℝ) * C| ≤ r := by rw [abs_mul]; nlinarith [abs_nonneg (cy : ℝ), abs_nonneg C]
  have n2 : |(cx : ℝ) * S| ≤ r := by rw [abs_mul]; nlinarith [abs_nonneg (cx : ℝ), abs_nonneg S]
  have e1 := r64_errR (cy * v)
  have e2 := r64_errR (cx * u)
  have e3 := r64_errR (r64 (cy * v) - r64 (cx * u))
  push_cast at e1 e2 e3
  generalize ((r64 (r64 (cy * v) - r64 (cx * u)) : ℚ) : ℝ) = z at *
  generalize ((r64 (cy * v) : ℚ) : ℝ) = a at *
  generalize ((r64 (cx * u) : ℚ) : ℝ) = b at *
  generalize (cy : ℝ) * v = a0 at *
  generalize (cx : ℝ) * u = b0 at *
  generalize (cy : ℝ) * C = a1 at *
  generalize (cx : ℝ) * S = b1 at *
  have k1 : |a0| ≤ 2 * r := by
    rw [abs_le] at *; norm_num at *; constructor <;> linarith
  have k2 : |b0| ≤ 2 * r := by
    rw [abs_le] at *; norm_num at *; constructor <;> linarith
  have k3 : |a - b| ≤ 5 * r := by
    rw [abs_le] at k1 k2 e1 e2 ⊢
    have : |a0| ≤ 2 * r := by rw [abs_le]; exact k1
    have : |b0| ≤ 2 * r := by rw [abs_le]; exact k2
    norm_num at *; constructor <;> linarith
  rw [abs_le] at e1 e2 e3 m1 m2 ⊢
  norm_num at *
  constructor <;> linarith

/-- The near and far end of the chord. -/
theorem chord_half (lib : OuterLib) (hl : lib.Good) (n i : ℕ) (hi : i < n) (cx cy a s : ℚ) (ha0 : 0 ≤ a) (ha1 : (a : ℝ) ≤ ((cx : ℝ) ^ 2 + (cy : ℝ) ^ 2) * (1 + 1 / 2 ^ 51))
    (hb : r64 (impact64 cx cy (ringVec64 lib n i) * impact64 cx cy (ringVec64 lib n i)) ≤ a)
    (hs : sqrt64 (r64 (a - r64 (impact64 cx cy (ringVec64 lib n i) * impact64 cx cy (ringVec64 lib n i)))) = some s) (x : ℝ)
    (hx : |(a : ℝ) - x| ≤ ((cx : ℝ) ^ 2 + (cy : ℝ) ^ 2) * (1 / 2 ^ 51)) :
    |(s : ℝ) - Real.sqrt (x - acrossR n i cx cy ^ 2)| ≤ Real.sqrt ((cx : ℝ) ^ 2 + (cy : ℝ) ^ 2) * (7 / 2 ^ 24) := by
  have h1 := chord_error a _ s ha0 hb hs
  have h2 := impact_near lib hl n i hi cx cy
  have hac : acrossR n i cx cy ^ 2 ≤ (cx : ℝ) ^ 2 + (cy : ℝ) ^ 2 := by
    have := along_across n i cx cy
    nlinarith [sq_nonneg (alongR n i cx cy)]
  have hE0 : (0 : ℝ) ≤ (cx : ℝ) ^ 2 + (cy : ℝ) ^ 2 := by positivity
  have hr2 := Real.sq_sqrt hE0
  have hr0 := Real.sqrt_nonneg ((cx : ℝ) ^ 2 + (cy : ℝ) ^ 2)
  have habs : |acrossR n i cx cy| ≤ Real.sqrt ((cx : ℝ) ^ 2 + (cy : ℝ) ^ 2) := Real.abs_le_sqrt hac
  set r := Real.sqrt ((cx : ℝ) ^ 2 + (cy : ℝ) ^ 2) with hr
  rw [← hr2] at hx ha1
  have hsa : Real.sqrt (a : ℝ) ≤ r * (1 + 1 / 2 ^ 51) := by
    rw [Real.sqrt_le_left (by positivity)]
    refine ha1.trans ?_
    have : (r * (1 + 1 / 2 ^ 51)) ^ 2 = r ^ 2 * (1 + 1 / 2 ^ 51) * (1 + 1 / 2 ^ 51) := by ring
    rw [this]
    have h0 : 0 ≤ r ^ 2 * (1 + 1 / 2 ^ 51) := by positivity
    have := mul_le_mul_of_nonneg_left (show (1 : ℝ) ≤ 1 + 1 / 2 ^ 51 by norm_num) h0
    linarith
  generalize ((impact64 cx cy (ringVec64 lib n i) : ℚ) : ℝ) = b at *
  generalize acrossR n i cx cy = c at *
  have hd : |b ^ 2 - c ^ 2| ≤ r ^ 2 * (1 / 2 ^ 45 * (2 + 1 / 2 ^ 45)) := by
    have e : b ^ 2 - c ^ 2 = (b - c) * (b - c + 2 * c) := by ring
    rw [e, abs_mul]
    have k : |b - c + 2 * c| ≤ r * (2 + 1 / 2 ^ 45) := by
      refine (abs_add_le _ _).trans ?_
      rw [abs_mul, abs_two]
      linarith
    calc |b - c| * |b - c + 2 * c| ≤ (r * (1 / 2 ^ 45)) * (r * (2 + 1 / 2 ^ 45)) := mul_le_mul h2 k (abs_nonneg _) (by positivity)
      _ = _ := by ring
  have h3 := sqrt_diff ((a : ℝ) - b ^ 2) (x - c ^ 2)
  have h4 : Real.sqrt |(a : ℝ) - b ^ 2 - (x - c ^ 2)| ≤ r * (6 / 2 ^ 24) := by
    rw [Real.sqrt_le_left (by positivity)]
    have e : (a : ℝ) - b ^ 2 - (x - c ^ 2) = (a - x) - (b ^ 2 - c ^ 2) := by ring
    rw [e]
    have k := abs_sub (a - x) (b ^ 2 - c ^ 2)
    have k2 : |(a : ℝ) - x - (b ^ 2 - c ^ 2)| ≤ r ^ 2 * (1 / 2 ^ 51) + r ^ 2 * (1 / 2 ^ 45 * (2 + 1 / 2 ^ 45)) := by
      have := abs_sub_le ((a : ℝ) - x) 0 (b ^ 2 - c ^ 2)
      rw [sub_zero, zero_sub, abs_neg] at this
      linarith
    have h0 : 0 ≤ r ^ 2 := sq_nonneg r
    rw [mul_pow]
    generalize r ^ 2 = z at *
    norm_num at *
    linarith
  have h5 := abs_sub_le (s : ℝ) (Real.sqrt ((a : ℝ) - b ^ 2)) (Real.sqrt (x - c ^ 2))
  have h6 : Real.sqrt (a : ℝ) * (1 / 2 ^ 26 + 1 / 2 ^ 46) ≤ r * (1 + 1 / 2 ^ 51) * (1 / 2 ^ 26 + 1 / 2 ^ 46) := mul_le_mul_of_nonneg_right hsa (by norm_num)
  generalize Real.sqrt (a : ℝ) = u at *
  norm_num at *
  linarith

/-- The half width and the direction of the circle are numbers. -/
theorem half_angle (lib : OuterLib) (hl : lib.Good) (dist2 rad2 : ℚ) (hd : 0 < dist2) (hr : 0 ≤ rad2) (hle : rad2 ≤ dist2) :
    ∃ t : ℚ, halfAngle64 lib dist2 rad2 = some (lib.asin t) ∧ 0 ≤ t ∧ t ≤ 1 ∧ (rad2 : ℝ) / dist2 * (1 - 1 / 2 ^ 51) ≤ (t : ℝ) ^ 2 ∧ |(lib.asin t : ℝ)| ≤ 1.58 ∧
      |(lib.asin t : ℝ) - Real.arcsin t| ≤ 1 / 2 ^ 50 := by
  obtain ⟨t, h1, h2, h3, h4⟩ := root_ratio dist2 rad2 hd hr hle
  have h5 := hl.asin t h2 h3
  refine ⟨t, ?_, h2, h3, h4, ?_, h5⟩
  · unfold halfAngle64
    rw [if_neg hd.ne', h1]
    simp [not_lt.mpr h3]
  · have a1 := Real.arcsin_le_pi_div_two (t : ℝ)
    have a2 := Real.neg_pi_div_two_le_arcsin (t : ℝ)
    have := Real.pi_lt_d2
    rw [abs_le] at h5 ⊢
    norm_num at *
    constructor <;> linarith

theorem atan_bound (lib : OuterLib) (hl : lib.Good) (cx cy : ℚ) (h : ¬(cx = 0 ∧ cy = 0)) :
    |(lib.atan2 cy cx : ℝ)| ≤ 3.15 ∧ |(lib.atan2 cy cx : ℝ) - Geom.atan2 (cy : ℝ) (cx : ℝ)| ≤ 1 / 2 ^ 50 := by
  have h1 := hl.atan2 cy cx h
  refine ⟨?_, h1⟩
  have a1 : -Real.pi < Geom.atan2 (cy : ℝ) (cx : ℝ) := Complex.neg_pi_lt_arg _
  have a2 : Geom.atan2 (cy : ℝ) (cx : ℝ) ≤ Real.pi := Complex.arg_le_pi _
  have := Real.pi_lt_d4
  rw [abs_le] at h1 ⊢
  norm_num at *
  constructor <;> linarith

theorem outer_visits (lib : OuterLib) (hl : lib.Good) (n i : ℕ) (hi : i < n) (hn : n ≤ 2 ^ 53) (cx cy cz radius : ℚ)
    (hout : (projected cx cy cz radius).2 ≤ (projected cx cy cz radius).1) (hal : 0 < alongR n i cx cy)
    (hlong : ((cx : ℝ) ^ 2 + (cy : ℝ) ^ 2) / 2 ^ 40 ≤ ((projected cx cy cz radius).2 : ℝ) - acrossR n i cx cy ^ 2) :
    (i : ℤ) ∈ outerLines lib n cx cy (projected cx cy cz radius).1 (projected cx cy cz radius).2 := by
  obtain ⟨d1, d2⟩ := dist2_near cx cy cz radius
  have hac := along_across n i cx cy
  have hE : (0 : ℝ) < (cx : ℝ) ^ 2 + (cy : ℝ) ^ 2 := by rw [← hac]; have := pow_pos hal 2; positivity
  have hxy : ¬(cx = 0 ∧ cy = 0) := by
    rintro ⟨rfl, rfl⟩
    norm_num at hE
  have hR0 : 0 ≤ (projected cx cy cz radius).2 := by
    unfold projected
    dsimp only
    split_ifs with h
    · exact le_rfl
    · exact not_lt.mp h
  generalize (projected cx cy cz radius).1 = D at *
  generalize (projected cx cy cz radius).2 = R at *
  have hD : 0 < D := by
    have : (0 : ℝ) < D := lt_of_lt_of_le (mul_pos hE (by norm_num)) d1
    exact_mod_cast this
  obtain ⟨t, e, t0, t1, tr, b1, b2⟩ := half_angle lib hl D R hD hR0 hout
  obtain ⟨c1, c2⟩ := atan_bound lib hl cx cy hxy
  obtain ⟨psi, p1, p2, p3⟩ := angle_between n i hi cx cy hal
  unfold outerLines
  dsimp only
  rw [e]
  simp only [Option.map_some]
  have hE2 := Real.sq_sqrt hE.le
  have t0' : (0 : ℝ) ≤ t := by exact_mod_cast t0
  have t1' : (t : ℝ) ≤ 1 := by exact_mod_cast t1
  have hD' : (0 : ℝ) < D := by exact_mod_cast hD
  have hR0' : (0 : ℝ) ≤ R := by exact_mod_cast hR0
  have hout' : (R : ℝ) ≤ D := by exact_mod_cast hout
  have hm : Real.sin psi ^ 2 + 1 / 2 ^ 41 ≤ (t : ℝ) ^ 2 := by
    rw [p2, mul_pow, hE2] at hlong
    have k1 : Real.sin psi ^ 2 + 1 / 2 ^ 40 ≤ (R : ℝ) / ((cx : ℝ) ^ 2 + (cy : ℝ) ^ 2) := by
      rw [le_div_iff₀ hE]
      linarith
    have k2 : (R : ℝ) / ((cx : ℝ) ^ 2 + (cy : ℝ) ^ 2) * (1 - 1 / 2 ^ 51) ≤ (R : ℝ) / D := by
      rw [div_mul_eq_mul_div, div_le_div_iff₀ hE hD']
      have : (R : ℝ) * ((1 - 1 / 2 ^ 51) * D) ≤ R * ((cx : ℝ) ^ 2 + (cy : ℝ) ^ 2) := by
        apply mul_le_mul_of_nonneg_left _ hR0'
        generalize (cx : ℝ) ^ 2 + (cy : ℝ) ^ 2 = E at *
        norm_num at *
        linarith
      linarith
    have k3 : (R : ℝ) / D ≤ 1 := (div_le_one hD').mpr hout'
    generalize (R : ℝ) / ((cx : ℝ) ^ 2 + (cy : ℝ) ^ 2) = u at *
    generalize (R : ℝ) / D = w at *
    norm_num at *
    linarith
  have hm2 := arc_margin psi t _ p1 t0' t1' (by norm_num) hm
  have hpsi := abs_le.mp (le_refl |psi|)
  rw [abs_le] at b2 c2
  refine visited n i hi hn _ _ (Geom.atan2 cy cx - psi) c1 b1 ?_ ?_ p3
  · norm_num at *; linarith
  · norm_num at *; linarith

theorem twoVal_long (lib : OuterLib) (hl : lib.Good) (n i : ℕ) (hi : i < n) (cx cy cz radius : ℚ)
    (hout : (projected cx cy cz radius).2 ≤ (projected cx cy cz radius).1) (hal : 0 < alongR n i cx cy)
    (hlong : ((cx : ℝ) ^ 2 + (cy : ℝ) ^ 2) / 2 ^ 40 ≤ ((projected cx cy cz radius).2 : ℝ) - acrossR n i cx cy ^ 2) :
    ∃ lo hi : ℚ, twoVal64 (projected cx cy cz radius).1 (projected cx cy cz radius).2 (impact64 cx cy (ringVec64 lib n i)) = some (lo, hi) ∧
      |(lo : ℝ) - (alongR n i cx cy - Real.sqrt (((projected cx cy cz radius).2 : ℝ) - acrossR n i cx cy ^ 2))| ≤ Real.sqrt ((cx : ℝ) ^ 2 + (cy : ℝ) ^ 2) / 2 ^ 20 ∧
      |(hi : ℝ) - (alongR n i cx cy + Real.sqrt (((projected cx cy cz radius).2 : ℝ) - acrossR n i cx cy ^ 2))| ≤ Real.sqrt ((cx : ℝ) ^ 2 + (cy : ℝ) ^ 2) / 2 ^ 20 := by
  obtain ⟨d1, d2⟩ := dist2_near cx cy cz radius
  have hac := along_across n i cx cy
  have him := impact_near lib hl n i hi cx cy
  have hE : (0 : ℝ) < (cx : ℝ) ^ 2 + (cy : ℝ) ^ 2 := by rw [← hac]; have := pow_pos hal 2; positivity
  have hR0 : 0 ≤ (projected cx cy cz radius).2 := by
    unfold projected
    dsimp only
    split_ifs with h
    · exact le_rfl
    · exact not_lt.mp h
  have hch := fun a s h0 h1 h2 h3 x h4 => chord_half lib hl n i hi cx cy a s h0 h1 h2 h3 x h4
  have hE2 := Real.sq_sqrt hE.le
  have hr0 := Real.sqrt_nonneg ((cx : ℝ) ^ 2 + (cy : ℝ) ^ 2)
  generalize (projected cx cy cz radius).1 = D at *
  generalize (projected cx cy cz radius).2 = R at *
  have hout' : (R : ℝ) ≤ D := by exact_mod_cast hout
  have hacr : acrossR n i cx cy ^ 2 ≤ (cx : ℝ) ^ 2 + (cy : ℝ) ^ 2 := by nlinarith [sq_nonneg (alongR n i cx cy)]
  have habs : |acrossR n i cx cy| ≤ Real.sqrt ((cx : ℝ) ^ 2 + (cy : ℝ) ^ 2) := Real.abs_le_sqrt hacr
  have hb2 : r64 (impact64 cx cy (ringVec64 lib n i) * impact64 cx cy (ringVec64 lib n i)) ≤ R := by
    have hb := r64_bounds (mul_self_nonneg (impact64 cx cy (ringVec64 lib n i)))
    have hb' := (Rat.cast_le (K := ℝ)).mpr hb.2
    push_cast at hb'
    apply rat_le
    refine hb'.trans ?_
    generalize ((impact64 cx cy (ringVec64 lib n i) : ℚ) : ℝ) = b at *
    generalize acrossR n i cx cy = c at *
    have hd : b * b ≤ c ^ 2 + ((cx : ℝ) ^ 2 + (cy : ℝ) ^ 2) * (1 / 2 ^ 45 * (2 + 1 / 2 ^ 45)) := by
      have e : b * b = c ^ 2 + (b - c) * (b - c + 2 * c) := by ring
      rw [e]
      have k : |b - c + 2 * c| ≤ Real.sqrt ((cx : ℝ) ^ 2 + (cy : ℝ) ^ 2) * (2 + 1 / 2 ^ 45) := by
        refine (abs_add_le _ _).trans ?_
        rw [abs_mul, abs_two]
        linarith
      have k2 : |(b - c) * (b - c + 2 * c)| ≤ (Real.sqrt ((cx : ℝ) ^ 2 + (cy : ℝ) ^ 2) * (1 / 2 ^ 45)) * (Real.sqrt ((cx : ℝ) ^ 2 + (cy : ℝ) ^ 2) * (2 + 1 / 2 ^ 45)) := by
        rw [abs_mul]
        exact mul_le_mul him k (abs_nonneg _) (by positivity)
      have k3 := (abs_le.mp k2).2
      have e2 : (Real.sqrt ((cx : ℝ) ^ 2 + (cy : ℝ) ^ 2) * (1 / 2 ^ 45)) * (Real.sqrt ((cx : ℝ) ^ 2 + (cy : ℝ) ^ 2) * (2 + 1 / 2 ^ 45)) =
          Real.sqrt ((cx : ℝ) ^ 2 + (cy : ℝ) ^ 2) ^ 2 * (1 / 2 ^ 45 * (2 + 1 / 2 ^ 45)) := by ring
      rw [e2, hE2] at k3
      linarith
    generalize (cx : ℝ) ^ 2 + (cy : ℝ) ^ 2 = E at *
    generalize b * b = bb at *
    generalize c ^ 2 = cc at *
    norm_num at *
    linarith
  have hb1 := hb2.trans hout
  have hs1 : sqrt64 (r64 (D - r64 (impact64 cx cy (ringVec64 lib n i) * impact64 cx cy (ringVec64 lib n i)))) =
      some (rnReal (Real.sqrt ((r64 (D - r64 (impact64 cx cy (ringVec64 lib n i) * impact64 cx cy (ringVec64 lib n i))) : ℚ) : ℝ))) := by
    unfold sqrt64; rw [if_neg (not_lt.mpr (r64_nonneg (by linarith)))]
  have hs2 : sqrt64 (r64 (R - r64 (impact64 cx cy (ringVec64 lib n i) * impact64 cx cy (ringVec64 lib n i)))) =
      some (rnReal (Real.sqrt ((r64 (R - r64 (impact64 cx cy (ringVec64 lib n i) * impact64 cx cy (ringVec64 lib n i))) : ℚ) : ℝ))) := by
    unfold sqrt64; rw [if_neg (not_lt.mpr (r64_nonneg (by linarith)))]
  have hD0 : 0 ≤ D := hR0.trans hout
  have u1 := hch D _ hD0 d2 hb1 hs1 ((cx : ℝ) ^ 2 + (cy : ℝ) ^ 2) (by
    rw [abs_le]
    generalize (cx : ℝ) ^ 2 + (cy : ℝ) ^ 2 = E at *
    norm_num at *; constructor <;> linarith)
  have u2 := hch R _ hR0 (hout'.trans d2) hb2 hs2 (R : ℝ) (by rw [sub_self, abs_zero]; positivity)
  have ea : Real.sqrt ((cx : ℝ) ^ 2 + (cy : ℝ) ^ 2 - acrossR n i cx cy ^ 2) = alongR n i cx cy := by
    rw [← hac, add_sub_cancel_right, Real.sqrt_sq hal.le]
  rw [ea] at u1
  unfold twoVal64
  rw [hs1, hs2]
  simp only [Option.bind_some, Option.map_some]
  refine ⟨_, _, rfl, ?_, ?_⟩
  · generalize rnReal (Real.sqrt ((r64 (D - r64 (impact64 cx cy (ringVec64 lib n i) * impact64 cx cy (ringVec64 lib n i))) : ℚ) : ℝ)) = m at *
    generalize rnReal (Real.sqrt ((r64 (R - r64 (impact64 cx cy (ringVec64 lib n i) * impact64 cx cy (ringVec64 lib n i))) : ℚ) : ℝ)) = d at *
    have e3 := r64_errR (m - d)
    push_cast at e3
    have al : alongR n i cx cy ≤ Real.sqrt ((cx : ℝ) ^ 2 + (cy : ℝ) ^ 2) := Real.le_sqrt_of_sq_le (by nlinarith [sq_nonneg (acrossR n i cx cy)])
    have sl : Real.sqrt ((R : ℝ) - acrossR n i cx cy ^ 2) ≤ 2 * Real.sqrt ((cx : ℝ) ^ 2 + (cy : ℝ) ^ 2) := by
      rw [Real.sqrt_le_left (by positivity), mul_pow, hE2]
      generalize (cx : ℝ) ^ 2 + (cy : ℝ) ^ 2 = E at *
      norm_num at d2 ⊢
      linarith [sq_nonneg (acrossR n i cx cy)]
    have sn := Real.sqrt_nonneg ((R : ℝ) - acrossR n i cx cy ^ 2)
    generalize Real.sqrt ((R : ℝ) - acrossR n i cx cy ^ 2) = q at *
    generalize alongR n i cx cy = al at *
    generalize Real.sqrt ((cx : ℝ) ^ 2 + (cy : ℝ) ^ 2) = r at *
    have hm : |(m : ℝ) - d| ≤ 4 * r := by
      rw [abs_le] at u1 u2 ⊢
      norm_num at *; constructor <;> linarith
    rw [abs_le] at e3 u1 u2 ⊢
    norm_num at *; constructor <;> linarith
  · generalize rnReal (Real.sqrt ((r64 (D - r64 (impact64 cx cy (ringVec64 lib n i) * impact64 cx cy (ringVec64 lib n i))) : ℚ) : ℝ)) = m at *
    generalize rnReal (Real.sqrt ((r64 (R - r64 (impact64 cx cy (ringVec64 lib n i) * impact64 cx cy (ringVec64 lib n i))) : ℚ) : ℝ)) = d at *
    have e3 := r64_errR (m + d)
    push_cast at e3
    have al : alongR n i cx cy ≤ Real.sqrt ((cx : ℝ) ^ 2 + (cy : ℝ) ^ 2) := Real.le_sqrt_of_sq_le (by nlinarith [sq_nonneg (acrossR n i cx cy)])
    have sl : Real.sqrt ((R : ℝ) - acrossR n i cx cy ^ 2) ≤ 2 * Real.sqrt ((cx : ℝ) ^ 2 + (cy : ℝ) ^ 2) := by
      rw [Real.sqrt_le_left (by positivity), mul_pow, hE2]
      generalize (cx : ℝ) ^ 2 + (cy : ℝ) ^ 2 = E at *
      norm_num at d2 ⊢
      linarith [sq_nonneg (acrossR n i cx cy)]
    have sn := Real.sqrt_nonneg ((R : ℝ) - acrossR n i cx cy ^ 2)
    generalize Real.sqrt ((R : ℝ) - acrossR n i cx cy ^ 2) = q at *
    generalize alongR n i cx cy = al at *
    generalize Real.sqrt ((cx : ℝ) ^ 2 + (cy : ℝ) ^ 2) = r at *
    have hm : |(m : ℝ) + d| ≤ 4 * r := by
      rw [abs_le] at u1 u2 ⊢
      norm_num at *; constructor <;> linarith
    rw [abs_le] at e3 u1 u2 ⊢
    norm_num at *; constructor <;> linarith

theorem index_lt6 (n : ℕ) (hn : 0 < n) (y : ℚ) (hy : (y : ℝ) ≤ 6) : toInt (r64 (y / dPhi64 n)) < n := by
  have hd := dPhi_pos n hn
  rcases lt_or_ge y 0 with h | h
  · have hle : r64 (y / dPhi64 n) ≤ 0 := r64_le (by exact ⟨0, 0, by norm_num, by norm_num⟩) (div_nonpos_of_nonpos_of_nonneg h.le hd.le)
    have : toInt (r64 (y / dPhi64 n)) ≤ 0 := by
      rcases hle.lt_or_eq with h1 | h1
      · exact toInt_neg h1
      · rw [h1, toInt_nonneg le_rfl]; simp
    omega
  · have hq : 0 ≤ y / dPhi64 n := div_nonneg h hd.le
    rw [toInt_nonneg (r64_nonneg hq), Int.floor_lt]
    have hn' : (0 : ℝ) < n := by exact_mod_cast hn
    have hb := (r64_bounds hq).2
    have hdn := dPhi_near n hn
    have hp := Real.pi_gt_d2
    have h2 : (6.27 : ℝ) / n ≤ dPhi64 n := by
      rw [abs_le] at hdn
      have : (6.27 : ℝ) / n ≤ (2 * Real.pi - 1 / 2 ^ 48) / n := div_le_div_of_nonneg_right (by norm_num at *; linarith) hn'.le
      have e : (2 * Real.pi - 1 / 2 ^ 48) / (n : ℝ) = 2 * Real.pi / n - 1 / n * (1 / 2 ^ 48) := by ring
      rw [e] at this
      linarith [hdn.1]
    have hd' : (0 : ℝ) < dPhi64 n := by exact_mod_cast hd
    have h3 : (y : ℝ) / dPhi64 n ≤ 0.96 * n := by
      rw [div_le_iff₀ hd']
      have : (0.96 : ℝ) * n * (6.27 / n) ≤ 0.96 * n * dPhi64 n := mul_le_mul_of_nonneg_left h2 (by positivity)
      have e : (0.96 : ℝ) * n * (6.27 / n) = 6.0192 := by field_simp; norm_num
      rw [e] at this
      norm_num at *
      linarith
    have hb' := (Rat.cast_le (K := ℝ)).mpr hb
    push_cast at hb'
    have : ((r64 (y / dPhi64 n) : ℚ) : ℝ) < n := by
      generalize (y : ℝ) / dPhi64 n = q at *
      norm_num at h3 hb'
      linarith
    exact_mod_cast this

theorem index_lt (n : ℕ) (hn : 0 < n) (y : ℚ) (hy : (y : ℝ) ≤ 5) : toInt (r64 (y / dPhi64 n)) < n := index_lt6 n hn y (by linarith)

/-- The ends of the range of angles. -/
theorem ends_bounded (phi alpha : ℚ) (hp : |(phi : ℝ)| ≤ 3.15) (hal : |(alpha : ℝ)| ≤ 1.58) :
    (-5 ≤ ((r64 (phi - alpha) : ℚ) : ℝ) ∧ ((r64 (phi - alpha) : ℚ) : ℝ) ≤ 5) ∧ ((r64 (phi + alpha) : ℚ) : ℝ) ≤ 5 ∧
      ((r64 (phi + alpha) : ℚ) : ℝ) - ((r64 (phi - alpha) : ℚ) : ℝ) ≤ 3.161 := by
  rw [abs_le] at hp hal
  have e1 := r64_errR (phi - alpha)
  have e2 := r64_errR (phi + alpha)
  push_cast at e1 e2
  have b1 : |(phi : ℝ) - alpha| ≤ 8 := by rw [abs_le]; norm_num at hp hal ⊢; constructor <;> linarith
  have b2 : |(phi : ℝ) + alpha| ≤ 8 := by rw [abs_le]; norm_num at hp hal ⊢; constructor <;> linarith
  rw [abs_le] at e1 e2
  refine ⟨⟨?_, ?_⟩, ?_, ?_⟩ <;> (norm_num at *; linarith)

theorem no_wrap_up (hig : ℚ) (h : (hig : ℝ) ≤ 5) : ¬gtNum (some hig) (2 * pi64) := by
  rintro ⟨x, hx, hgt⟩
  injection hx with hx
  subst hx
  have := (Rat.cast_lt (K := ℝ)).mpr hgt
  have hp := pi64_near.1
  have hp2 := Real.pi_gt_d2
  push_cast at this
  norm_num at *
  linarith

theorem wrapped_pos (n : ℕ) (hn : 0 < n) (lo : ℚ) (h : -5 ≤ (lo : ℝ)) : 0 ≤ r64 (r64 (lo + 2 * pi64) / dPhi64 n) := by
  refine r64_nonneg (div_nonneg (r64_nonneg ?_) (dPhi_pos n hn).le)
  apply rat_le
  have hp := pi64_near.1
  have hp2 := Real.pi_gt_d2
  push_cast
  norm_num at *
  linarith

/-- Every index of both loops is that of a line of sight. -/
theorem range_ok (n : ℕ) (hn : 0 < n) (lo hig : ℚ) (h1 : -5 ≤ (lo : ℝ)) (h2 : (hig : ℝ) ≤ 5) (x : ℤ)
    (hx : x ∈ loopRange (idxRange64 n (some lo) (some hig)).1.1 (idxRange64 n (some lo) (some hig)).1.2 ++ loopRange (idxRange64 n (some lo) (some hig)).2.1 (idxRange64 n (some lo) (some hig)).2.2) :
    0 ≤ x ∧ x < n := by
  unfold idxRange64 at hx
  simp only [if_neg (no_wrap_up hig h2)] at hx
  rw [List.mem_append, mem_loopRange, mem_loopRange] at hx
  have hlt := index_lt n hn hig h2
  by_cases hneg : ltNum (some lo) 0
  · rw [if_pos hneg] at hx
    simp only [Option.map_some, int64] at hx
    have hw := wrapped_pos n hn lo h1
    rcases hx with hx | hx
    · rw [toInt_nonneg hw] at hx
      exact ⟨(Int.floor_nonneg.mpr hw).trans hx.1, hx.2⟩
    · exact ⟨hx.1, by omega⟩
  · rw [if_neg hneg] at hx
    simp only [Option.map_some, int64] at hx
    have hlo0 : 0 ≤ lo := by
      by_contra hc
      exact hneg ⟨lo, rfl, not_le.mp hc⟩
    have hw : 0 ≤ r64 (lo / dPhi64 n) := r64_nonneg (div_nonneg hlo0 (dPhi_pos n hn).le)
    rcases hx with hx | hx
    · rw [toInt_nonneg hw] at hx
      exact ⟨(Int.floor_nonneg.mpr hw).trans hx.1, by omega⟩
    · omega

theorem mapM_ok {α β : Type} (f : α → Option β) (l : List α) (h : ∀ x ∈ l, ∃ y, f x = some y) : ∃ r, l.mapM f = some r ∧ ∀ y, y ∈ r ↔ ∃ x ∈ l, f x = some y := by
  induction l with
  | nil => exact ⟨[], rfl, by simp⟩
  | cons a t ih =>
    obtain ⟨b, hb⟩ := h a (by simp)
    obtain ⟨r, hr, hm⟩ := ih fun x hx => h x (by simp [hx])
    refine ⟨b :: r, by rw [List.mapM_cons, hb, hr]; rfl, fun y => ?_⟩
    rw [List.mem_cons, hm]
    constructor
    · rintro (rfl | ⟨x, hx, hy⟩)
      · exact ⟨a, by simp, hb⟩
      · exact ⟨x, by simp [hx], hy⟩
    · rintro ⟨x, hx, hy⟩
      rcases List.mem_cons.mp hx with rfl | hx
      · rw [hb] at hy; injection hy with hy; exact Or.inl hy.symm
      · exact Or.inr ⟨x, hx, hy⟩

/-- The calls of `Insert` are those of the visited lines whose distances are numbers. -/
theorem outer_calls (lib : OuterLib) (hl : lib.Good) (n : ℕ) (hn : 0 < n) (cx cy dist2 rad2 : ℚ) (hd : 0 < dist2) (hr : 0 ≤ rad2) (hle : rad2 ≤ dist2) (hxy : ¬(cx = 0 ∧ cy = 0)) :
    (∀ x ∈ outerLines lib n cx cy dist2 rad2, 0 ≤ x ∧ x < n) ∧ ∃ calls, outerCalls lib n cx cy dist2 rad2 = some calls ∧ ∀ (k : ℕ) (lo hi : ℚ), (k, lo, hi) ∈ calls ↔
      (k : ℤ) ∈ outerLines lib n cx cy dist2 rad2 ∧ twoVal64 dist2 rad2 (impact64 cx cy (ringVec64 lib n k)) = some (lo, hi) := by
  obtain ⟨t, e, _, _, _, b1, _⟩ := half_angle lib hl dist2 rad2 hd hr hle
  obtain ⟨c1, _⟩ := atan_bound lib hl cx cy hxy
  obtain ⟨⟨g1, _⟩, g2, _⟩ := ends_bounded _ _ c1 b1
  have hrange : ∀ x ∈ outerLines lib n cx cy dist2 rad2, 0 ≤ x ∧ x < n := by
    intro x hx
    unfold outerLines at hx
    rw [e] at hx
    exact range_ok n hn _ _ g1 g2 x hx
  refine ⟨hrange, ?_⟩
  have hcall : ∀ x ∈ outerLines lib n cx cy dist2 rad2, outerCall lib n cx cy dist2 rad2 x =
      some ((twoVal64 dist2 rad2 (impact64 cx cy (ringVec64 lib n x.toNat))).map fun r => (x.toNat, r.1, r.2)) := by
    intro x hx
    obtain ⟨h1, h2⟩ := hrange x hx
    unfold outerCall
    rw [if_neg (by omega)]
  obtain ⟨cs, hcs, hmem⟩ := mapM_ok (fun i => outerCall lib n cx cy dist2 rad2 i) (outerLines lib n cx cy dist2 rad2) (fun x hx => ⟨_, hcall x hx⟩)
  refine ⟨cs.filterMap id, by unfold outerCalls; rw [hcs]; rfl, fun k lo hi => ?_⟩
  rw [List.mem_filterMap]
  constructor
  · rintro ⟨y, hy, hid⟩
    obtain ⟨x, hx, hxy⟩ := (hmem y).mp hy
    rw [hcall x hx] at hxy
    injection hxy with hxy
    rw [id] at hid
    rw [hid] at hxy
    obtain ⟨r, hr1, hr2⟩ := Option.map_eq_some_iff.mp hxy
    simp only [Prod.mk.injEq] at hr2
    obtain ⟨rfl, rfl, rfl⟩ := hr2
    have := hrange x hx
    exact ⟨by rwa [Int.toNat_of_nonneg this.1], hr1⟩
  · rintro ⟨h1, h2⟩
    refine ⟨_, (hmem _).mpr ⟨_, h1, hcall _ h1⟩, ?_⟩
    rw [Int.toNat_natCast, h2]
    rfl

theorem projected_nonneg (cx cy cz radius : ℚ) : 0 ≤ (projected cx cy cz radius).2 := by
  unfold projected
  dsimp only
  split_ifs with h
  · exact le_rfl
  · exact not_lt.mp h

theorem projected_pos (cx cy cz radius : ℚ) (h : ¬(cx = 0 ∧ cy = 0)) : 0 < (projected cx cy cz radius).1 := by
  obtain ⟨d1, _⟩ := dist2_near cx cy cz radius
  have hE : (0 : ℝ) < (cx : ℝ) ^ 2 + (cy : ℝ) ^ 2 := by
    by_cases hx : cx = 0
    · have hy : (cy : ℝ) ≠ 0 := by exact_mod_cast fun hy => h ⟨hx, hy⟩
      positivity
    · have hx : (cx : ℝ) ≠ 0 := by exact_mod_cast hx
      positivity
  have : (0 : ℝ) < ((projected cx cy cz radius).1 : ℝ) := lt_of_lt_of_le (mul_pos hE (by norm_num)) d1
  exact_mod_cast this

theorem not_center (n i : ℕ) (cx cy : ℚ) (hal : 0 < alongR n i cx cy) : ¬(cx = 0 ∧ cy = 0) := by
  rintro ⟨rfl, rfl⟩
  unfold alongR at hal
  simp at hal

theorem twoVal_none (dist2 rad2 b : ℚ) (h : rad2 < r64 (b * b)) : twoVal64 dist2 rad2 b = none := by
  unfold twoVal64
  have h2 : sqrt64 (r64 (rad2 - r64 (b * b))) = none := by
    unfold sqrt64
    rw [if_pos]
    rw [r64_neg_iff]
    linarith
  rw [h2]
  simp

theorem twoVal_order (dist2 rad2 b lo hi : ℚ) (hle : rad2 ≤ dist2) (h : twoVal64 dist2 rad2 b = some (lo, hi)) : 0 ≤ lo ∧ lo ≤ hi := by
  unfold twoVal64 at h
  obtain ⟨m, hm, h⟩ := Option.bind_eq_some_iff.mp h
  obtain ⟨d, hd, h⟩ := Option.map_eq_some_iff.mp h
  simp only [Prod.mk.injEq] at h
  obtain ⟨rfl, rfl⟩ := h
  unfold sqrt64 at hm hd
  split_ifs at hm hd with c1 c2
  injection hm with hm
  injection hd with hd
  have hmono : r64 (rad2 - r64 (b * b)) ≤ r64 (dist2 - r64 (b * b)) := r64_mono (by linarith)
  have hdm : d ≤ m := by
    rw [← hd, ← hm]
    exact rnReal_mono (Real.sqrt_nonneg _) (Real.sqrt_le_sqrt (by exact_mod_cast hmono))
  have hd0 : 0 ≤ d := by
    rw [← hd]
    have := rnReal_mono le_rfl (Real.sqrt_nonneg ((r64 (rad2 - r64 (b * b)) : ℚ) : ℝ))
    rwa [rnReal_zero] at this
  exact ⟨r64_nonneg (by linarith), r64_mono (by linarith)⟩

end Shellfish.Round
