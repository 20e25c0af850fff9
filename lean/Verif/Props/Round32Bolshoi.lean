/- C104: the cells of the files of a Bolshoi snapshot in single precision. -/
import Verif.Props.Round32

namespace Shellfish.Round

/-! ### Lemmas -/

theorem int_float {n : ℤ} (h0 : 0 ≤ n) (h : n < 2 ^ 24) : r32 (n : ℚ) = n := r32_float ⟨n, 0, by rw [abs_of_nonneg h0]; exact h, by simp⟩

/-- The two ends of cell `i` are near i·box/n and (i + 1)·box/n. -/
theorem ends32 {box : ℚ} (hb : 0 < box) {n i : ℤ} (h0 : 0 ≤ i) (hi : i < n) (hn : n < 2 ^ 24) :
    |(bolshoiRange32 box n i).1 - i * (box / n)| ≤ box / 2 ^ 22 ∧ |r32 ((bolshoiRange32 box n i).1 + (bolshoiRange32 box n i).2) - (i + 1) * (box / n)| ≤ box / 2 ^ 21 := by
  unfold bolshoiRange32
  dsimp only
  rw [int_float (by omega) hn, int_float h0 (by omega)]
  have hn' : (0 : ℚ) < n := by exact_mod_cast (by omega : (0 : ℤ) < n)
  have hi0 : (0 : ℚ) ≤ i := by exact_mod_cast h0
  have hin : (i : ℚ) + 1 ≤ n := by exact_mod_cast hi
  set q := box / (n : ℚ) with hq
  have hq0 : 0 < q := by positivity
  have hqn : (n : ℚ) * q = box := by rw [hq]; field_simp
  have e1 := r32_error q
  rw [abs_of_pos hq0, abs_le] at e1
  set w := r32 q with hw
  have hw0 : 0 ≤ w := r32_nonneg hq0.le
  have h1 : (i : ℚ) * q + q ≤ box := by nlinarith
  have hqb : q ≤ box := by nlinarith
  have e1' : (i : ℚ) * w ≤ i * q + i * q / 2 ^ 24 ∧ i * q - i * q / 2 ^ 24 ≤ (i : ℚ) * w := by
    constructor
    · have := mul_le_mul_of_nonneg_left e1.2 hi0; linarith
    · have := mul_le_mul_of_nonneg_left e1.1 hi0; linarith
  have e2 := r32_error ((i : ℚ) * w)
  have hiw : 0 ≤ (i : ℚ) * w := by positivity
  rw [abs_of_nonneg hiw, abs_le] at e2
  set lo := r32 ((i : ℚ) * w) with hlo
  have hlo0 : 0 ≤ lo := r32_nonneg (by positivity)
  have e3 := r32_error (lo + w)
  have hlw : 0 ≤ lo + w := by positivity
  rw [abs_of_nonneg hlw, abs_le] at e3
  have hiq : (i : ℚ) * q ≤ box := by linarith
  have hiq0 : 0 ≤ (i : ℚ) * q := by positivity
  rw [abs_le, abs_le]
  refine ⟨⟨?_, ?_⟩, ?_, ?_⟩ <;> linarith [e1.1, e1.2, e1'.1, e1'.2, e2.1, e2.2, e3.1, e3.2]

/-! ### C104 -/

/-- C104, what is left of it: a position in the box that is more than 2⁻²¹ box widths away from all borders i·box/n is in exactly one of the n cells. -/
theorem C104_inner_partial (box : ℚ) (n : ℤ) (hn0 : 0 < n) (hn : n < 2 ^ 24) (x : ℚ) (hx0 : 0 < x) (hx1 : x < box) (hf : ∀ i : ℤ, box / 2 ^ 21 < |x - i * (box / n)|) :
    ∃! i : ℤ, 0 ≤ i ∧ i < n ∧ bolshoiIn32 x (bolshoiRange32 box n i) := by
  have hb : 0 < box := lt_trans hx0 hx1
  have hn' : (0 : ℚ) < n := by exact_mod_cast hn0
  have hq : 0 < box / (n : ℚ) := by positivity
  have key : ∀ i : ℤ, 0 ≤ i → i < n → (bolshoiIn32 x (bolshoiRange32 box n i) ↔ i * (box / n) < x ∧ x < (i + 1) * (box / n)) := by
    intro i h0 h1
    obtain ⟨a, b⟩ := ends32 hb h0 h1 hn
    rw [abs_le] at a b
    have f1 := hf i
    have f2 := hf (i + 1)
    push_cast at f2
    rw [lt_abs] at f1 f2
    have hle : box / 2 ^ 22 ≤ box / 2 ^ 21 := by gcongr <;> norm_num
    unfold bolshoiIn32
    constructor
    · rintro ⟨g1, g2⟩
      constructor
      · rcases f1 with f1 | f1 <;> linarith
      · rcases f2 with f2 | f2 <;> linarith
    · rintro ⟨g1, g2⟩
      constructor
      · rcases f1 with f1 | f1 <;> linarith
      · rcases f2 with f2 | f2 <;> linarith
  set i := ⌊x / (box / n)⌋ with hi
  have fl := Int.floor_le (x / (box / n))
  have fr := Int.lt_floor_add_one (x / (box / n))
  rw [← hi, le_div_iff₀ hq] at fl
  rw [← hi, div_lt_iff₀ hq] at fr
  have hi0 : 0 ≤ i := Int.floor_nonneg.mpr (by positivity)
  have hin : i < n := by
    rw [hi, Int.floor_lt, div_lt_iff₀ hq, mul_div_cancel₀ _ hn'.ne']
    exact hx1
  have hne : (i : ℚ) * (box / n) ≠ x := by
    intro h
    have := hf i
    rw [h, sub_self, abs_zero] at this
    have : 0 < box / 2 ^ 21 := by positivity
    linarith
  refine ⟨i, ⟨hi0, hin, (key i hi0 hin).mpr ⟨lt_of_le_of_ne fl hne, fr⟩⟩, ?_⟩
  rintro j ⟨hj0, hj1, hj⟩
  obtain ⟨g1, g2⟩ := (key j hj0 hj1).mp hj
  rw [hi]
  symm
  rw [Int.floor_eq_iff, le_div_iff₀ hq, div_lt_iff₀ hq]
  exact ⟨g1.le, g2⟩

example : ∃! i : ℤ, 0 ≤ i ∧ i < 9 ∧ bolshoiIn32 100 (bolshoiRange32 250 9 i) := by
  refine C104_inner_partial 250 9 (by norm_num) (by norm_num) 100 (by norm_num) (by norm_num) fun i => ?_
  rcases le_or_gt i 3 with h | h
  · have : (i : ℚ) ≤ 3 := by exact_mod_cast h
    rw [lt_abs]; left; push_cast; linarith
  · have : (4 : ℚ) ≤ i := by exact_mod_cast h
    rw [lt_abs]; right; push_cast; linarith

/-- C104, exactly: if all multiples of the width of a cell are float32 numbers (as when the number of cells is a power of two and the width of the box a small number), every position in
the box but those on its lower border is in exactly one cell. -/
theorem C104_grid_partial (box : ℚ) (n : ℤ) (hn0 : 0 < n) (hn : n < 2 ^ 24) (hm : ∀ i : ℤ, 0 ≤ i → i ≤ n → Float32 (i * (box / n))) (x : ℚ) (hx0 : 0 < x) (hx1 : x ≤ box) :
    ∃! i : ℤ, 0 ≤ i ∧ i < n ∧ bolshoiIn32 x (bolshoiRange32 box n i) := by
  have hb : 0 < box := lt_of_lt_of_le hx0 hx1
  have hn' : (0 : ℚ) < n := by exact_mod_cast hn0
  have hq : 0 < box / (n : ℚ) := by positivity
  have key : ∀ i : ℤ, 0 ≤ i → i < n → (bolshoiIn32 x (bolshoiRange32 box n i) ↔ i * (box / n) < x ∧ x ≤ (i + 1) * (box / n)) := by
    intro i h0 h1
    unfold bolshoiIn32 bolshoiRange32
    dsimp only
    have w := r32_float (hm 1 (by omega) (by omega))
    rw [Int.cast_one, one_mul] at w
    have u := r32_float (hm (i + 1) (by omega) (by omega))
    push_cast at u
    rw [int_float (by omega) hn, int_float h0 (by omega), w, r32_float (hm i h0 h1.le), ← add_one_mul, u]
  set i := ⌈x / (box / n)⌉ - 1 with hi
  have fl := Int.le_ceil (x / (box / n))
  have fr := Int.ceil_lt_add_one (x / (box / n))
  have hc : ⌈x / (box / n)⌉ = i + 1 := by omega
  rw [hc, div_le_iff₀ hq] at fl
  rw [hc] at fr
  push_cast at fl fr
  have fr' : (i : ℚ) * (box / n) < x := by rw [← lt_div_iff₀ hq]; linarith
  have hi0 : 0 ≤ i := by
    have : 0 < ⌈x / (box / n)⌉ := Int.ceil_pos.mpr (by positivity)
    omega
  have hin : i < n := by
    have : ⌈x / (box / n)⌉ ≤ n := by
      rw [Int.ceil_le, div_le_iff₀ hq, mul_div_cancel₀ _ hn'.ne']; exact hx1
    omega
  refine ⟨i, ⟨hi0, hin, (key i hi0 hin).mpr ⟨fr', fl⟩⟩, ?_⟩
  rintro j ⟨hj0, hj1, hj⟩
  obtain ⟨g1, g2⟩ := (key j hj0 hj1).mp hj
  have : ⌈x / (box / n)⌉ = j + 1 := by
    rw [Int.ceil_eq_iff, lt_div_iff₀ hq, div_le_iff₀ hq]
    push_cast
    exact ⟨by rwa [add_sub_cancel_right], g2⟩
  omega

example : ∃! i : ℤ, 0 ≤ i ∧ i < 8 ∧ bolshoiIn32 (125 / 2) (bolshoiRange32 250 8 i) := by
  refine C104_grid_partial 250 8 (by norm_num) (by norm_num) (fun i h0 h1 => ⟨i * 125, -2, ?_, ?_⟩) _ (by norm_num) (by norm_num)
  · rw [abs_of_nonneg (by omega)]; omega
  · push_cast; norm_num; ring

theorem r32_by {x : ℚ} (k : ℤ) (h1 : (2 : ℚ) ^ k ≤ |x|) (h2 : |x| < 2 ^ (k + 1)) : r32 x = nearest (x / 2 ^ (k - 23)) * 2 ^ (k - 23) := by
  unfold r32 rn lastBit
  rw [log_unique h1 h2]
  norm_num

theorem width9 : r32 ((250 : ℚ) / 9) = 3640889 / 131072 := by
  rw [r32_by 4 (by norm_num [abs_of_pos]) (by norm_num [abs_of_pos])]
  norm_num [nearest]
theorem low95 : r32 ((5 : ℚ) * (3640889 / 131072)) = 9102222 / 65536 := by
  rw [r32_by 7 (by norm_num [abs_of_pos]) (by norm_num [abs_of_pos])]
  norm_num [nearest]
theorem high95 : r32 ((9102222 : ℚ) / 65536 + 3640889 / 131072) = 10922666 / 65536 := by
  rw [r32_by 7 (by norm_num [abs_of_pos]) (by norm_num [abs_of_pos])]
  norm_num [nearest]
theorem low96 : r32 ((6 : ℚ) * (3640889 / 131072)) = 10922667 / 65536 := by
  rw [r32_by 7 (by norm_num [abs_of_pos]) (by norm_num [abs_of_pos])]
  norm_num [nearest]

/-- C104 is false: of the 9 cells of a box of width 250, none contains the position 10922667/65536 = 166.66667…, a float32 number. -/
theorem C104_lost_false : Float32 (10922667 / 65536) ∧ ∀ i : ℤ, 0 ≤ i → i < 9 → ¬ bolshoiIn32 (10922667 / 65536) (bolshoiRange32 250 9 i) := by
  refine ⟨⟨10922667, -16, by norm_num, by norm_num⟩, fun i h0 h1 => ?_⟩
  obtain ⟨a, b⟩ := ends32 (box := 250) (by norm_num) h0 h1 (by norm_num)
  rw [abs_le] at a b
  push_cast at a b
  rintro ⟨g1, g2⟩
  have c0 : r32 ((9 : ℤ) : ℚ) = 9 := by rw [int_float (by norm_num) (by norm_num)]; norm_num
  rcases lt_trichotomy i 5 with h | rfl | h
  · have : (i : ℚ) + 1 ≤ 5 := by exact_mod_cast h
    linarith [b.2]
  · have c1 : r32 ((5 : ℤ) : ℚ) = 5 := by rw [int_float (by norm_num) (by norm_num)]; norm_num
    unfold bolshoiRange32 at g2
    dsimp only at g2
    rw [c0, c1, width9, low95, high95] at g2
    norm_num at g2
  · rcases lt_or_eq_of_le (by omega : 6 ≤ i) with h | rfl
    · have : (7 : ℚ) ≤ i := by exact_mod_cast h
      linarith [a.1]
    · have c1 : r32 ((6 : ℤ) : ℚ) = 6 := by rw [int_float (by norm_num) (by norm_num)]; norm_num
      unfold bolshoiRange32 at g1
      dsimp only at g1
      rw [c0, c1, width9, low96] at g1
      norm_num at g1

theorem width7 : r32 ((250 : ℚ) / 7) = 4681143 / 131072 := by
  rw [r32_by 5 (by norm_num [abs_of_pos]) (by norm_num [abs_of_pos])]
  norm_num [nearest]
theorem low75 : r32 ((5 : ℚ) * (4681143 / 131072)) = 11702858 / 65536 := by
  rw [r32_by 7 (by norm_num [abs_of_pos]) (by norm_num [abs_of_pos])]
  norm_num [nearest]
theorem high75 : r32 ((11702858 : ℚ) / 65536 + 4681143 / 131072) = 14043430 / 65536 := by
  rw [r32_by 7 (by norm_num [abs_of_pos]) (by norm_num [abs_of_pos])]
  norm_num [nearest]
theorem low76 : r32 ((6 : ℚ) * (4681143 / 131072)) = 14043429 / 65536 := by
  rw [r32_by 7 (by norm_num [abs_of_pos]) (by norm_num [abs_of_pos])]
  norm_num [nearest]

/-- C104 is false: two of the 7 cells of a box of width 250 contain the position 14043430/65536 = 214.28573…, so that a particle there is counted twice. -/
theorem C104_twice_false : Float32 (14043430 / 65536) ∧ bolshoiIn32 (14043430 / 65536) (bolshoiRange32 250 7 5) ∧ bolshoiIn32 (14043430 / 65536) (bolshoiRange32 250 7 6) := by
  refine ⟨⟨14043430, -16, by norm_num, by norm_num⟩, ?_, ?_⟩
  · have c0 : r32 ((7 : ℤ) : ℚ) = 7 := by rw [int_float (by norm_num) (by norm_num)]; norm_num
    have c1 : r32 ((5 : ℤ) : ℚ) = 5 := by rw [int_float (by norm_num) (by norm_num)]; norm_num
    unfold bolshoiIn32 bolshoiRange32
    dsimp only
    rw [c0, c1, width7, low75, high75]
    norm_num
  · have c0 : r32 ((7 : ℤ) : ℚ) = 7 := by rw [int_float (by norm_num) (by norm_num)]; norm_num
    have c1 : r32 ((6 : ℤ) : ℚ) = 6 := by rw [int_float (by norm_num) (by norm_num)]; norm_num
    obtain ⟨-, b⟩ := ends32 (box := 250) (n := 7) (i := 6) (by norm_num) (by norm_num) (by norm_num) (by norm_num)
    rw [abs_le] at b
    push_cast at b
    refine ⟨?_, by linarith [b.1]⟩
    unfold bolshoiRange32
    dsimp only
    rw [c0, c1, width7, low76]
    norm_num

end Shellfish.Round
