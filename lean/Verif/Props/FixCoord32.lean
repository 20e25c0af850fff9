/- C32 in single precision: wrapping the coordinates of a particle file into the box, every operation rounded. -/
import Verif.Props.Round32

namespace Shellfish.Round

/-- The difference of two numbers within a factor of two is computed exactly. -/
theorem sub_exact {x y : ℚ} (fx : Float32 x) (fy : Float32 y) (h1 : y ≤ x) (h2 : x ≤ 2 * y) : Float32 (x - y) := by
  obtain ⟨m, e, hm, rfl⟩ := fx
  obtain ⟨n, f, hn, rfl⟩ := fy
  rcases le_total e f with h | h
  · obtain ⟨k, hk⟩ := Int.eq_ofNat_of_zero_le (sub_nonneg.mpr h)
    have hf : f = e + k := by omega
    subst hf
    have hp : (0 : ℚ) < 2 ^ e := by positivity
    have e1 : (m : ℚ) * 2 ^ e - n * 2 ^ (e + (k : ℤ)) = ((m - n * 2 ^ k : ℤ) : ℚ) * 2 ^ e := by
      rw [zpow_add₀ (by norm_num), zpow_natCast]; push_cast; ring
    refine ⟨m - n * 2 ^ k, e, ?_, e1⟩
    have g1 : (0 : ℚ) ≤ ((m - n * 2 ^ k : ℤ) : ℚ) * 2 ^ e := by rw [← e1]; linarith
    have g2 : ((m - n * 2 ^ k : ℤ) : ℚ) * 2 ^ e ≤ (m : ℚ) * 2 ^ e := by rw [← e1]; linarith
    have i1 : 0 ≤ m - n * 2 ^ k := by exact_mod_cast nonneg_of_mul_nonneg_left g1 hp
    have i2 : m - n * 2 ^ k ≤ m := by exact_mod_cast le_of_mul_le_mul_right g2 hp
    rw [abs_of_nonneg i1]
    exact lt_of_le_of_lt (i2.trans (le_abs_self m)) hm
  · obtain ⟨k, hk⟩ := Int.eq_ofNat_of_zero_le (sub_nonneg.mpr h)
    have hf : e = f + k := by omega
    subst hf
    have hp : (0 : ℚ) < 2 ^ f := by positivity
    have e1 : (m : ℚ) * 2 ^ (f + (k : ℤ)) - n * 2 ^ f = ((m * 2 ^ k - n : ℤ) : ℚ) * 2 ^ f := by
      rw [zpow_add₀ (by norm_num), zpow_natCast]; push_cast; ring
    refine ⟨m * 2 ^ k - n, f, ?_, e1⟩
    have g1 : (0 : ℚ) ≤ ((m * 2 ^ k - n : ℤ) : ℚ) * 2 ^ f := by rw [← e1]; linarith
    have g2 : ((m * 2 ^ k - n : ℤ) : ℚ) * 2 ^ f ≤ (n : ℚ) * 2 ^ f := by rw [← e1]; linarith
    have i1 : 0 ≤ m * 2 ^ k - n := by exact_mod_cast nonneg_of_mul_nonneg_left g1 hp
    have i2 : m * 2 ^ k - n ≤ n := by exact_mod_cast le_of_mul_le_mul_right g2 hp
    rw [abs_of_nonneg i1]
    exact lt_of_le_of_lt (i2.trans (le_abs_self n)) hn

/-- C32 in single precision: a coordinate within one box width of the box is accepted; it ends up in `[0, tw]`, within a rounding of a periodic image of itself.  Coordinates that are not negative
are moved exactly and stay below `tw`; only a coordinate within `tw / 2^24` below zero can end up at `tw`. -/
theorem C32_float32_partial (tw x : ℚ) (htw : 0 < tw) (ft : Float32 tw) (fx : Float32 x) (h1 : -tw ≤ x) (h2 : x < 2 * tw) :
    ∃ y, fixCoord32 tw x = some y ∧ Float32 y ∧ 0 ≤ y ∧ y ≤ tw ∧ (∃ k : ℤ, |y - (x + k * tw)| ≤ tw / 2 ^ 24) ∧ (0 ≤ x → y < tw ∧ ∃ k : ℤ, y = x + k * tw) ∧ (y = tw → -(tw / 2 ^ 24) ≤ x ∧ x < 0) := by
  have hd : r32 (2 * tw) = 2 * tw := r32_float (double_float ft)
  have fz : Float32 0 := ⟨0, 0, by norm_num, by norm_num⟩
  have hacc : ∀ y, 0 ≤ y → y ≤ tw → ¬ (y < -tw ∨ y > r32 (2 * tw)) := by
    intro y a b
    rw [hd, not_or]
    constructor <;> linarith
  have htp : 0 ≤ tw / 2 ^ 24 := by positivity
  unfold fixCoord32
  by_cases hneg : x < 0
  · have a : 0 ≤ r32 (x + tw) := le_r32 fz (by linarith)
    have b : r32 (x + tw) ≤ tw := r32_le ft (by linarith)
    have e := r32_error (x + tw)
    have e' : |x + tw| / 2 ^ 24 ≤ tw / 2 ^ 24 := by
      rw [abs_of_nonneg (by linarith)]
      exact div_le_div_of_nonneg_right (by linarith) (by norm_num)
    simp only [if_pos hneg]
    rw [if_neg (hacc _ a b)]
    refine ⟨_, rfl, r32_rep _, a, b, ⟨1, by push_cast; rw [one_mul]; exact e.trans e'⟩, fun h => absurd hneg (not_lt.mpr h), fun h => ⟨?_, hneg⟩⟩
    have := (abs_le.mp (e.trans e')).2
    rw [h] at this
    linarith
  · simp only [if_neg hneg]
    by_cases hge : x ≥ tw
    · have hx : r32 (x - tw) = x - tw := r32_float (sub_exact fx ft hge h2.le)
      simp only [if_pos hge, hx]
      rw [if_neg (hacc _ (by linarith) (by linarith))]
      refine ⟨_, rfl, sub_exact fx ft hge h2.le, by linarith, by linarith, ⟨-1, ?_⟩, fun _ => ⟨by linarith, -1, by push_cast; ring⟩, fun h => by linarith⟩
      push_cast
      rw [show x - tw - (x + -1 * tw) = 0 by ring, abs_zero]
      exact htp
    · simp only [if_neg hge]
      rw [if_neg (hacc _ (by linarith) (by linarith))]
      push Not at hneg hge
      refine ⟨_, rfl, fx, hneg, hge.le, ⟨0, ?_⟩, fun _ => ⟨hge, 0, by push_cast; ring⟩, fun h => by linarith⟩
      push_cast
      rw [show x - (x + 0 * tw) = 0 by ring, abs_zero]
      exact htp

/-- C32 is false at the upper bound: a coordinate just below zero is returned as the box width itself, which is outside `[0, tw)`. -/
theorem C32_float32_false : Float32 100 ∧ Float32 (-(1 / 2 ^ 30)) ∧ fixCoord32 100 (-(1 / 2 ^ 30)) = some 100 := by
  have f1 : Float32 100 := ⟨100, 0, by norm_num, by norm_num⟩
  refine ⟨f1, ⟨-1, -30, by norm_num, by norm_num⟩, ?_⟩
  have hr : r32 (-(1 / 2 ^ 30) + 100) = 100 := by
    unfold r32
    rw [rn_eq 6 (100 * 2 ^ 17) (by rw [abs_of_pos (by norm_num)]; norm_num) (by rw [abs_of_pos (by norm_num)]; norm_num) (by rw [abs_lt]; norm_num)]
    norm_num
  unfold fixCoord32
  rw [r32_float (double_float f1)]
  simp only [if_pos (show (-(1 / 2 ^ 30) : ℚ) < 0 by norm_num), hr]
  norm_num

/-- C32: what the test for corruption lets through: everything within two box widths of the box, and it leaves it within one box width. -/
theorem C32_float32_accepted (tw x : ℚ) (htw : 0 < tw) (ft : Float32 tw) (fx : Float32 x) (h1 : -(2 * tw) ≤ x) (h2 : x ≤ 3 * tw) :
    ∃ y, fixCoord32 tw x = some y ∧ -tw ≤ y ∧ y ≤ 2 * tw := by
  have hd : r32 (2 * tw) = 2 * tw := r32_float (double_float ft)
  have key : ∀ y, -tw ≤ y → y ≤ 2 * tw → ¬ (y < -tw ∨ y > r32 (2 * tw)) := by
    intro y a b
    rw [hd, not_or]
    exact ⟨not_lt.mpr a, not_lt.mpr b⟩
  unfold fixCoord32
  by_cases hneg : x < 0
  · have a : -tw ≤ r32 (x + tw) := le_r32 (neg_float ft) (by linarith)
    have b : r32 (x + tw) ≤ 2 * tw := r32_le (double_float ft) (by linarith)
    simp only [if_pos hneg]
    exact ⟨_, if_neg (key _ a b), a, b⟩
  · simp only [if_neg hneg]
    push Not at hneg
    by_cases hge : x ≥ tw
    · have a : -tw ≤ r32 (x - tw) := le_r32 (neg_float ft) (by linarith)
      have b : r32 (x - tw) ≤ 2 * tw := r32_le (double_float ft) (by linarith)
      simp only [if_pos hge]
      exact ⟨_, if_neg (key _ a b), a, b⟩
    · simp only [if_neg hge]
      exact ⟨_, if_neg (key _ (by linarith) (by linarith)), by linarith, by linarith⟩

/-- C32: a coordinate further away than that, by more than a rounding, is reported as corruption. -/
theorem C32_float32_corrupt (tw x : ℚ) (htw : 0 < tw) (ft : Float32 tw) (h : x < -(2 * tw) - tw / 2 ^ 23 ∨ 3 * tw + tw / 2 ^ 22 < x) : fixCoord32 tw x = none := by
  have hd : r32 (2 * tw) = 2 * tw := r32_float (double_float ft)
  have htp : 0 < tw / 2 ^ 23 := by positivity
  have htp' : 0 < tw / 2 ^ 22 := by positivity
  unfold fixCoord32
  rw [hd]
  rcases h with h | h
  · have hneg : x < 0 := by linarith
    have e := (abs_le.mp (r32_error (x + tw))).2
    rw [abs_of_nonpos (by linarith)] at e
    simp only [if_pos hneg]
    rw [if_pos]
    left
    norm_num at e h ⊢
    linarith
  · have hneg : ¬ x < 0 := by push Not; linarith
    have hge : x ≥ tw := by linarith
    have e := (abs_le.mp (r32_error (x - tw))).1
    rw [abs_of_nonneg (by linarith)] at e
    simp only [if_neg hneg, if_pos hge]
    rw [if_pos]
    right
    norm_num at e h ⊢
    linarith

-- non-vacuity: the two ends of what is accepted, a coordinate moved exactly, and one that is rejected
example : (fixCoord32 1 (-2)).isSome ∧ (fixCoord32 1 3).isSome ∧ fixCoord32 1 4 = none := by
  have f1 : Float32 1 := ⟨1, 0, by norm_num, by norm_num⟩
  obtain ⟨y, h, _⟩ := C32_float32_accepted 1 (-2) (by norm_num) f1 ⟨-2, 0, by norm_num, by norm_num⟩ (by norm_num) (by norm_num)
  obtain ⟨z, h', _⟩ := C32_float32_accepted 1 3 (by norm_num) f1 ⟨3, 0, by norm_num, by norm_num⟩ (by norm_num) (by norm_num)
  rw [h, h']
  exact ⟨rfl, rfl, C32_float32_corrupt 1 4 (by norm_num) f1 (Or.inr (by norm_num))⟩

example : ∃ y, fixCoord32 100 150 = some y ∧ y < 100 ∧ ∃ k : ℤ, y = 150 + k * 100 := by
  obtain ⟨y, h, _, _, _, _, h6, _⟩ := C32_float32_partial 100 150 (by norm_num) ⟨100, 0, by norm_num, by norm_num⟩ ⟨150, 0, by norm_num, by norm_num⟩ (by norm_num) (by norm_num)
  exact ⟨y, h, h6 (by norm_num)⟩

end Shellfish.Round
