/- C95: with rounding, values that are in range have a bin, and random numbers stay in their range. -/
import Verif.Lemmas.Round
import Mathlib.Tactic.IntervalCases

namespace Shellfish.Round
open Shellfish.Finder (Point Grid get put toInt)
open Shellfish.Los (ProfileRing modf)

/-! ### Specification -/

/-- A float64 number (without limits of the exponent). -/
def Float64 (x : ℚ) : Prop := ∃ m e : ℤ, |m| < 2 ^ 53 ∧ x = m * 2 ^ e

/-! ### Lemmas -/

theorem r64_mono {x y : ℚ} (h : x ≤ y) : r64 x ≤ r64 y := rn_mono (by norm_num) h
theorem r64_float {x : ℚ} (h : Float64 x) : r64 x = x := rn_rep h
theorem r64_nonneg {x : ℚ} (h : 0 ≤ x) : 0 ≤ r64 x := rn_nonneg h
theorem r64_le {x f : ℚ} (hf : Float64 f) (h : x ≤ f) : r64 x ≤ f := rn_le (by norm_num) hf h
theorem le_r64 {x f : ℚ} (hf : Float64 f) (h : f ≤ x) : f ≤ r64 x := le_rn (by norm_num) hf h
theorem r64_bounds {x : ℚ} (hx : 0 ≤ x) : x * (1 - 1 / 2 ^ 53) ≤ r64 x ∧ r64 x ≤ x * (1 + 1 / 2 ^ 53) := by
  have := rn_bounds (p := 53) (by norm_num) hx
  have e : (2 : ℚ) ^ (-((53 : ℕ) : ℤ)) = 1 / 2 ^ 53 := by norm_num
  rw [e] at this
  exact this

/-- Two roundings of the length of an interval, a division and its rounding: the relative error is at most 2^-50. -/
theorem quot_le {s D : ℚ} {n : ℕ} (hn : 0 < n) (hs : 0 ≤ s) (hD : 0 < D) :
    0 < r64 (r64 D / (n : ℚ)) ∧ 0 ≤ r64 (r64 s / r64 (r64 D / (n : ℚ))) ∧ r64 (r64 s / r64 (r64 D / (n : ℚ))) ≤ s / D * n * (1 + 1 / 2 ^ 50) := by
  have hn' : (0 : ℚ) < n := by exact_mod_cast hn
  have hD1 := (r64_bounds hD.le).1
  have hD1' : 0 < r64 D := lt_of_lt_of_le (by positivity) hD1
  have hd := (r64_bounds (div_nonneg hD1'.le hn'.le)).1
  have hs1 := (r64_bounds hs).2
  have hdpos : 0 < r64 (r64 D / (n : ℚ)) := lt_of_lt_of_le (by positivity) hd
  have hq0 : 0 ≤ r64 s / r64 (r64 D / (n : ℚ)) := div_nonneg (r64_nonneg hs) hdpos.le
  refine ⟨hdpos, r64_nonneg hq0, ?_⟩
  have hq := (r64_bounds hq0).2
  have hdlow : D * (1 - 1 / 2 ^ 53) / n * (1 - 1 / 2 ^ 53) ≤ r64 (r64 D / (n : ℚ)) := by
    refine le_trans ?_ hd
    refine mul_le_mul_of_nonneg_right ?_ (by norm_num)
    exact div_le_div_of_nonneg_right hD1 hn'.le
  have hdl : 0 < D * (1 - 1 / 2 ^ 53) / n * (1 - 1 / 2 ^ 53) := by
    have : (0 : ℚ) < 1 - 1 / 2 ^ 53 := by norm_num
    positivity
  have h1 : r64 s / r64 (r64 D / (n : ℚ)) ≤ s * (1 + 1 / 2 ^ 53) / (D * (1 - 1 / 2 ^ 53) / n * (1 - 1 / 2 ^ 53)) := by
    apply div_le_div₀ (by positivity) hs1 hdl hdlow
  have h2 : s * (1 + 1 / 2 ^ 53) / (D * (1 - 1 / 2 ^ 53) / n * (1 - 1 / 2 ^ 53)) = s / D * n * ((1 + 1 / 2 ^ 53) / (1 - 1 / 2 ^ 53) ^ 2) := by
    have h3 : (1 - 1 / 2 ^ 53 : ℚ) ≠ 0 := by norm_num
    field_simp
  have h3 : 0 ≤ s / D * n := by positivity
  calc r64 (r64 s / r64 (r64 D / (n : ℚ))) ≤ s * (1 + 1 / 2 ^ 53) / (D * (1 - 1 / 2 ^ 53) / n * (1 - 1 / 2 ^ 53)) * (1 + 1 / 2 ^ 53) :=
        le_trans hq (mul_le_mul_of_nonneg_right h1 (by norm_num))
    _ = s / D * n * ((1 + 1 / 2 ^ 53) / (1 - 1 / 2 ^ 53) ^ 2 * (1 + 1 / 2 ^ 53)) := by rw [h2]; ring
    _ ≤ s / D * n * (1 + 1 / 2 ^ 50) := mul_le_mul_of_nonneg_left (by norm_num) h3

/-- Different floating point numbers are at least one part in 2^53 apart. -/
theorem float_gap {x W : ℚ} (hx : Float64 x) (hW : Float64 W) (hW0 : 0 < W) (h : x < W) : W * (1 / 2 ^ 53) ≤ W - x := by
  obtain ⟨m, e, hm, rfl⟩ := hW
  obtain ⟨m', e', hm', rfl⟩ := hx
  have pe := two_pow_pos e
  have pe' := two_pow_pos e'
  have hm1 : (m : ℚ) ≤ 2 ^ 53 := by
    have : m ≤ 2 ^ 53 := le_trans (le_abs_self m) hm.le
    exact_mod_cast this
  rcases le_or_gt e e' with he | he
  · obtain ⟨k, hk⟩ := Int.eq_ofNat_of_zero_le (sub_nonneg.mpr he)
    have e2 : (2 : ℚ) ^ e' = 2 ^ k * 2 ^ e := by
      rw [← zpow_natCast, ← zpow_add₀ (by norm_num), ← hk]
      congr 1; ring
    rw [e2] at h ⊢
    have h1 : (m' * 2 ^ k : ℤ) < m := by
      have : ((m' * 2 ^ k : ℤ) : ℚ) < m := by
        push_cast
        by_contra hc
        push Not at hc
        have := mul_le_mul_of_nonneg_right hc pe.le
        linarith
      exact_mod_cast this
    have h2 : ((m' * 2 ^ k : ℤ) : ℚ) + 1 ≤ m := by exact_mod_cast h1
    push_cast at h2
    have h3 := mul_le_mul_of_nonneg_right h2 pe.le
    have h4 := mul_le_mul_of_nonneg_right hm1 pe.le
    nlinarith
  · obtain ⟨k, hk⟩ := Int.eq_ofNat_of_zero_le (sub_nonneg.mpr he.le)
    have e2 : (2 : ℚ) ^ e = 2 ^ k * 2 ^ e' := by
      rw [← zpow_natCast, ← zpow_add₀ (by norm_num), ← hk]
      congr 1; ring
    have h1 : m' < m * 2 ^ k := by
      have : (m' : ℚ) < ((m * 2 ^ k : ℤ) : ℚ) := by
        push_cast
        by_contra hc
        push Not at hc
        have := mul_le_mul_of_nonneg_right hc pe'.le
        rw [e2] at h
        linarith
      exact_mod_cast this
    have h2 : (m' : ℚ) + 1 ≤ ((m * 2 ^ k : ℤ) : ℚ) := by exact_mod_cast h1
    push_cast at h2
    have h3 := mul_le_mul_of_nonneg_right h2 pe'.le
    have hm2 : (m' : ℚ) ≤ 2 ^ 53 - 1 := by
      have : m' ≤ 2 ^ 53 - 1 := by have := le_trans (le_abs_self m') (Int.le_sub_one_of_lt hm'); exact this
      exact_mod_cast this
    have h4 := mul_le_mul_of_nonneg_right hm2 pe'.le
    have hWe : (m : ℚ) * 2 ^ e = m * 2 ^ k * 2 ^ e' := by rw [e2]; ring
    rcases le_or_gt ((m : ℚ) * 2 ^ e) (2 ^ 53 * 2 ^ e') with hb | hb
    · rw [hWe] at hb ⊢
      nlinarith
    · nlinarith

/-- A power of two does not add an error: numbers below the end of the table are below the last index. -/
theorem pow_quot_lt {x W : ℚ} (k : ℕ) (hx : Float64 x) (hW : Float64 W) (h0 : 0 ≤ x) (h : x < W) :
    0 ≤ r64 (x / r64 (W / ((2 ^ k : ℕ) : ℚ))) ∧ r64 (x / r64 (W / ((2 ^ k : ℕ) : ℚ))) < 2 ^ k := by
  have hW0 : 0 < W := lt_of_le_of_lt h0 h
  have e1 : W / ((2 ^ k : ℕ) : ℚ) = W * 2 ^ (-(k : ℤ)) := by
    push_cast
    rw [zpow_neg, zpow_natCast]; rfl
  have hr : Float64 (W / ((2 ^ k : ℕ) : ℚ)) := by rw [e1]; exact rep_two_pow hW _
  rw [r64_float hr]
  have hq : x / (W / ((2 ^ k : ℕ) : ℚ)) = x / W * 2 ^ k := by push_cast; field_simp
  rw [hq]
  refine ⟨r64_nonneg (by positivity), ?_⟩
  have hf : Float64 ((1 - 1 / 2 ^ 53) * 2 ^ k) := by
    refine ⟨2 ^ 53 - 1, (k : ℤ) - 53, by norm_num, ?_⟩
    rw [zpow_sub₀ (by norm_num), zpow_natCast]
    push_cast
    norm_num
    ring
  have hle : x / W * 2 ^ k ≤ (1 - 1 / 2 ^ 53) * 2 ^ k := by
    refine mul_le_mul_of_nonneg_right ?_ (by positivity)
    rw [div_le_iff₀ hW0]
    have := float_gap hx hW hW0 h
    linarith
  refine lt_of_le_of_lt (r64_le hf hle) ?_
  have : (0 : ℚ) < 2 ^ k := by positivity
  nlinarith

/-! ### The arithmetic -/

/-- `r64` is the rounding of IEEE 754: the result is a float64 number, no float64 number is closer, float64 numbers are unchanged, the order is kept. -/
theorem C95_rounding (x : ℚ) : Float64 (r64 x) ∧ (∀ f, Float64 f → |r64 x - x| ≤ |f - x|) ∧ (Float64 x → r64 x = x) ∧ (∀ y, x ≤ y → r64 x ≤ r64 y) ∧ |r64 x - x| ≤ |x| / 2 ^ 53 := by
  refine ⟨rep_rn (by norm_num) x, fun f hf => rn_nearest (by norm_num) x f hf, rn_rep, fun y h => rn_mono (by norm_num) h, ?_⟩
  have := rn_error (p := 53) (by norm_num) x
  rw [div_eq_inv_mul]
  refine le_trans this (le_of_eq ?_)
  norm_num

/-! ### The grid of halos -/

/-- C95, for grids whose number of cells is a power of two: every coordinate in the box has a cell. -/
theorem C95_grid_partial (k : ℕ) (W : ℚ) (hW : Float64 W) (len : ℕ) (x : ℚ) (hx : Float64 x) (h0 : 0 ≤ x) (h : x < W) :
    0 ≤ cellIdx (newGrid (2 ^ k) W len) x ∧ cellIdx (newGrid (2 ^ k) W len) x < 2 ^ k := by
  obtain ⟨a, b⟩ := pow_quot_lt k hx hW h0 h
  unfold cellIdx newGrid wrapIn
  dsimp only
  rw [if_neg (not_le.mpr h), if_neg (not_lt.mpr h0), toInt_nonneg a]
  exact ⟨Int.floor_nonneg.mpr a, by rw [Int.floor_lt, Int.cast_pow]; exact_mod_cast b⟩

/-- C95: for any number of cells and any position less than one box width outside the box, a cell index is at most one too large. -/
theorem C95_grid_bound (cells : ℕ) (hc : 0 < cells) (hc' : cells ≤ 2 ^ 40) (W : ℚ) (hW : Float64 W) (hW0 : 0 < W) (len : ℕ) (x : ℚ) (h0 : -W ≤ x) (h : x < 2 * W) :
    0 ≤ cellIdx (newGrid cells W len) x ∧ cellIdx (newGrid cells W len) x ≤ cells := by
  have hw : 0 ≤ wrapIn x W ∧ wrapIn x W ≤ W := by
    unfold wrapIn
    by_cases h1 : W ≤ x
    · simp only [h1, if_true]
      exact ⟨r64_nonneg (by linarith), r64_le hW (by linarith)⟩
    · by_cases h2 : x < 0
      · simp only [h1, h2, if_true, if_false]
        exact ⟨r64_nonneg (by linarith), r64_le hW (by linarith)⟩
      · simp only [h1, h2, if_false]
        push Not at h1 h2
        exact ⟨h2, h1.le⟩
  have hq := quot_le (n := cells) hc hw.1 hW0
  rw [r64_float hW] at hq
  have hwf : Float64 (r64 (wrapIn x W)) := rep_rn (by norm_num) _
  have hn' : (0 : ℚ) < cells := by exact_mod_cast hc
  have hd := hq.1
  have hb : 0 ≤ wrapIn x W / r64 (W / (cells : ℚ)) := div_nonneg hw.1 hd.le
  unfold cellIdx newGrid
  dsimp only
  rw [toInt_nonneg (r64_nonneg hb)]
  refine ⟨Int.floor_nonneg.mpr (r64_nonneg hb), ?_⟩
  rw [← Int.lt_add_one_iff, Int.floor_lt]
  push_cast
  have h1 : wrapIn x W / r64 (W / (cells : ℚ)) ≤ W / r64 (W / (cells : ℚ)) := div_le_div_of_nonneg_right hw.2 hd.le
  have h2 := quot_le (n := cells) (s := W) hc hW0.le hW0
  rw [r64_float hW] at h2
  refine lt_of_le_of_lt (r64_mono h1) (lt_of_le_of_lt h2.2.2 ?_)
  rw [div_self hW0.ne', one_mul]
  have hc2 : (cells : ℚ) ≤ 2 ^ 40 := by exact_mod_cast hc'
  have : (cells : ℚ) * (1 / 2 ^ 50) ≤ 2 ^ 40 * (1 / 2 ^ 50) := mul_le_mul_of_nonneg_right hc2 (by norm_num)
  have h3 : (2 : ℚ) ^ 40 * (1 / 2 ^ 50) < 1 := by norm_num
  linarith

/-- The largest float64 number below 100. -/
def below100 : ℚ := 7036874417766399 / 2 ^ 46

theorem third : r64 (100 / ((150 : ℕ) : ℚ)) = 6004799503160661 / 2 ^ 53 := by
  unfold r64
  rw [rn_eq (-1) 6004799503160661 (by norm_num [abs_of_pos]) (by norm_num [abs_of_pos]) (by rw [abs_lt]; norm_num)]
  norm_num

theorem below100_cell (len : ℕ) : cellIdx (newGrid 150 100 len) below100 = 150 := by
  unfold cellIdx newGrid wrapIn below100
  dsimp only
  rw [third]
  have : r64 (7036874417766399 / 2 ^ 46 / (6004799503160661 / 2 ^ 53)) = 150 := by
    unfold r64
    rw [rn_eq 7 (150 * 2 ^ 45) (by norm_num [abs_of_pos]) (by norm_num [abs_of_pos]) (by rw [abs_lt]; norm_num)]
    norm_num
  rw [if_neg (by norm_num), if_neg (by norm_num), this, toInt_nonneg (by norm_num)]
  norm_num

theorem wrapped_cell (len : ℕ) : cellIdx (newGrid 150 100 len) (-1 / 2 ^ 60) = 150 := by
  unfold cellIdx newGrid wrapIn
  dsimp only
  have h1 : r64 (-1 / 2 ^ 60 + 100) = 100 := by
    unfold r64
    rw [rn_eq 6 (100 * 2 ^ 46) (by rw [abs_of_pos] <;> norm_num) (by rw [abs_of_pos] <;> norm_num) (by rw [abs_lt]; norm_num)]
    norm_num
  have h2 : r64 (100 / (6004799503160661 / 2 ^ 53)) = 150 := by
    unfold r64
    rw [rn_eq 7 (150 * 2 ^ 45) (by norm_num [abs_of_pos]) (by norm_num [abs_of_pos]) (by rw [abs_lt]; norm_num)]
    norm_num
  rw [if_neg (by norm_num), if_pos (by norm_num), h1, third, h2, toInt_nonneg (by norm_num)]
  norm_num

theorem zero_cell (len : ℕ) : cellIdx (newGrid 150 100 len) 0 = 0 := by
  unfold cellIdx newGrid wrapIn
  dsimp only
  rw [if_neg (by norm_num), if_neg (by norm_num), zero_div]
  have : r64 0 = 0 := rn_zero 53
  rw [this, toInt_nonneg le_rfl]
  norm_num

/-- C95 is false of the grid of the id mode (150 cells, cmd/id.go:17): in a box of width 100, a halo in the box just below its end (or just below 0) makes `Insert` panic, or it is put into the first
cell of the next row. -/
theorem C95_grid_false (z : ℚ) (hz : z = below100 ∨ z = -1 / 2 ^ 60) :
    Float64 z ∧ z < 100 ∧ insertFrom (newGrid 150 100 1) 0 [⟨0, 0, z⟩] = none ∧ cellOf (newGrid 150 100 1) ⟨z, 0, 0⟩ = cellOf (newGrid 150 100 1) ⟨0, 100 / 149, 0⟩ := by
  have hc : cellIdx (newGrid 150 100 1) z = 150 := by
    rcases hz with rfl | rfl
    · exact below100_cell 1
    · exact wrapped_cell 1
  have hone : cellIdx (newGrid 150 100 1) (100 / 149) = 1 := by
    unfold cellIdx newGrid wrapIn
    dsimp only
    rw [if_neg (by norm_num), if_neg (by norm_num), third]
    have h0 : (0 : ℚ) ≤ 100 / 149 / (6004799503160661 / 2 ^ 53) := by norm_num
    have hb := r64_bounds h0
    rw [toInt_nonneg (r64_nonneg h0), Int.floor_eq_iff]
    norm_num at hb ⊢
    constructor <;> linarith [hb.1, hb.2]
  refine ⟨?_, ?_, ?_, ?_⟩
  · rcases hz with rfl | rfl
    · exact ⟨7036874417766399, -46, by norm_num, by unfold below100; norm_num⟩
    · exact ⟨-1, -60, by norm_num, by norm_num⟩
  · rcases hz with rfl | rfl
    · unfold below100; norm_num
    · norm_num
  · unfold insertFrom insertOne cellOf
    dsimp only
    rw [hc, zero_cell]
    have : (newGrid 150 100 1).heads = List.replicate (150 * 150 * 150) (-1) := rfl
    rw [this]
    have : (newGrid 150 100 1).cells = 150 := rfl
    rw [this]
    unfold Shellfish.Finder.get
    rw [if_neg (by norm_num), List.getElem?_eq_none (by rw [List.length_replicate]; decide)]
    rfl
  · unfold cellOf
    dsimp only
    rw [hc, zero_cell, hone]
    rfl

/-! ### The rings of lines of sight -/

/-- Clearly below the outer end: by more than the errors of rounding. -/
def Clear (lowR highR r : ℚ) : Prop := r - lowR ≤ (highR - lowR) * (1 - 1 / 2 ^ 45)

theorem step_clear (p : ProfileRing ℚ) (hb : 0 < p.bins) (hlh : p.lowR < p.highR) (hdr : p.dr = r64 (r64 (p.highR - p.lowR) / (p.bins : ℚ))) (r rho : ℚ) (h1 : p.lowR < r)
    (h2 : Clear p.lowR p.highR r) (i : ℕ) (hi : i < p.n) (d : List ℚ) (hd : d.length = p.bins * p.n) :
    ∃ d', step p r rho i d = some d' ∧ d'.length = d.length ∧ ∀ j, j / p.bins ≠ i → d'[j]? = d[j]? := by
  have hq := quot_le (n := p.bins) (s := r - p.lowR) hb (by linarith) (by linarith : 0 < p.highR - p.lowR)
  rw [← hdr] at hq
  have hD : 0 < p.highR - p.lowR := by linarith
  have hb' : (0 : ℚ) < p.bins := by exact_mod_cast hb
  have hlt : r64 (r64 (r - p.lowR) / p.dr) < p.bins := by
    refine lt_of_le_of_lt hq.2.2 ?_
    have h3 : (r - p.lowR) / (p.highR - p.lowR) ≤ 1 - 1 / 2 ^ 45 := by
      rw [div_le_iff₀ hD]
      unfold Clear at h2
      linarith
    have h4 : (r - p.lowR) / (p.highR - p.lowR) * p.bins ≤ (1 - 1 / 2 ^ 45) * p.bins := mul_le_mul_of_nonneg_right h3 hb'.le
    have h5 : (r - p.lowR) / (p.highR - p.lowR) * p.bins * (1 + 1 / 2 ^ 50) ≤ (1 - 1 / 2 ^ 45) * p.bins * (1 + 1 / 2 ^ 50) := mul_le_mul_of_nonneg_right h4 (by norm_num)
    refine lt_of_le_of_lt h5 ?_
    have h6 : (1 - 1 / 2 ^ 45 : ℚ) * (1 + 1 / 2 ^ 50) < 1 := by norm_num
    calc (1 - 1 / 2 ^ 45 : ℚ) * (p.bins : ℚ) * (1 + 1 / 2 ^ 50 : ℚ) = ((1 - 1 / 2 ^ 45 : ℚ) * (1 + 1 / 2 ^ 50 : ℚ)) * (p.bins : ℚ) := by ring
      _ < (1 : ℚ) * (p.bins : ℚ) := mul_lt_mul_of_pos_right h6 hb'
      _ = (p.bins : ℚ) := one_mul _
  obtain ⟨idx, hidx⟩ := Int.eq_ofNat_of_zero_le (Int.floor_nonneg.mpr hq.2.1)
  have hidx' : idx < p.bins := by
    have := Int.floor_lt.mpr (by push_cast; exact hlt : r64 (r64 (r - p.lowR) / p.dr) < ((p.bins : ℤ) : ℚ))
    omega
  unfold step modf
  rw [if_pos hq.2.1, hidx]
  dsimp only
  have hin : ∀ t, t < p.bins → (i * p.bins + t) < d.length := by
    intro t ht
    rw [hd]
    calc i * p.bins + t < i * p.bins + p.bins := by omega
      _ = (i + 1) * p.bins := by ring
      _ ≤ p.n * p.bins := Nat.mul_le_mul_right _ hi
      _ = p.bins * p.n := Nat.mul_comm _ _
  have hline : ∀ t, t < p.bins → ∀ j, j / p.bins ≠ i → j ≠ i * p.bins + t := by
    rintro t ht j hj rfl
    apply hj
    rw [Nat.mul_comm, Nat.mul_add_div hb, Nat.div_eq_of_lt ht, Nat.add_zero]
  have add : ∀ (l : List ℚ) (t : ℕ) (v : ℚ), l.length = d.length → t < p.bins → ∃ l', addAtR l ((i : ℤ) * p.bins + t) v = some l' ∧ l'.length = l.length ∧ ∀ j, j / p.bins ≠ i → l'[j]? = l[j]? := by
    intro l t v hl ht
    have e : ((i : ℤ) * p.bins + t) = ((i * p.bins + t : ℕ) : ℤ) := by push_cast; ring
    unfold addAtR
    rw [e, if_pos ⟨Int.natCast_nonneg _, by rw [hl]; exact_mod_cast hin t ht⟩]
    refine ⟨_, rfl, List.length_modify .., fun j hj => ?_⟩
    rw [Int.toNat_natCast, List.getElem?_modify]
    simp only [(hline t ht j hj).symm, if_false]
    simp
  obtain ⟨d1, e1, l1, k1⟩ := add d idx (r64 (rho * r64 (1 - (r64 (r64 (r - p.lowR) / p.dr) - ((idx : ℤ) : ℚ))))) rfl hidx'
  rw [e1, Option.bind_some]
  by_cases hlast : (idx : ℤ) < (p.bins : ℤ) - 1
  · simp only [hlast, if_true]
    have hl' : idx + 1 < p.bins := by
      have : (idx : ℤ) < (p.bins : ℤ) - 1 := hlast
      omega
    obtain ⟨d2, e2, l2, k2⟩ := add d1 (idx + 1) (r64 (rho * (r64 (r64 (r - p.lowR) / p.dr) - ((idx : ℤ) : ℚ)))) l1 hl'
    refine ⟨d2, ?_, l2.trans l1, fun j hj => (k2 j hj).trans (k1 j hj)⟩
    rw [← e2]
    congr 1
  · simp only [hlast, if_false]
    exact ⟨d1, rfl, l1, k1⟩

/-- C95, for plateaus whose ends are at the outer radius or beyond, or clearly below it: inserting works and changes only the line it is meant for. -/
theorem C95_ring_partial (p : ProfileRing ℚ) (hb : 0 < p.bins) (hlh : p.lowR < p.highR) (hdr : p.dr = r64 (r64 (p.highR - p.lowR) / (p.bins : ℚ))) (hd : p.derivs.length = p.bins * p.n)
    (start stop rho : ℚ) (i : ℕ) (hi : i < p.n) (h1 : p.highR ≤ start ∨ Clear p.lowR p.highR start) (h2 : p.highR ≤ stop ∨ Clear p.lowR p.highR stop) :
    ∃ d, ringInsert p start stop rho i = some { p with derivs := d } ∧ d.length = p.derivs.length ∧ ∀ j, j / p.bins ≠ i → d[j]? = p.derivs[j]? := by
  unfold ringInsert
  by_cases hout : stop ≤ p.lowR ∨ p.highR ≤ start
  · simp only [hout, if_true]
    exact ⟨p.derivs, rfl, rfl, fun _ _ => rfl⟩
  simp only [hout, if_false]
  push Not at hout
  have first : ∃ d', (if p.lowR < start then step p start rho i p.derivs else addAtR p.derivs (↑i * ↑p.bins) rho) = some d' ∧ d'.length = p.derivs.length ∧
      ∀ j, j / p.bins ≠ i → d'[j]? = p.derivs[j]? := by
    by_cases hs : p.lowR < start
    · simp only [hs, if_true]
      exact step_clear p hb hlh hdr start rho hs (h1.resolve_left (not_le.mpr hout.2)) i hi p.derivs hd
    · simp only [hs, if_false]
      have e : ((i : ℤ) * p.bins) = ((i * p.bins : ℕ) : ℤ) := by push_cast; ring
      have hlt : i * p.bins < p.derivs.length := by
        rw [hd, Nat.mul_comm p.bins]
        exact Nat.mul_lt_mul_of_pos_right hi hb
      unfold addAtR
      rw [e, if_pos ⟨Int.natCast_nonneg _, by exact_mod_cast hlt⟩]
      refine ⟨_, rfl, List.length_modify .., fun j hj => ?_⟩
      have : i * p.bins ≠ j := by
        rintro rfl
        exact hj (Nat.mul_div_cancel _ hb)
      rw [Int.toNat_natCast, List.getElem?_modify]
      simp only [this, if_false]
      simp
  obtain ⟨d1, e1, l1, k1⟩ := first
  rw [e1, Option.bind_some]
  by_cases hs : stop < p.highR
  · simp only [hs, if_true]
    obtain ⟨d2, e2, l2, k2⟩ := step_clear p hb hlh hdr stop (-rho) hout.1 (h2.resolve_left (not_le.mpr hs)) i hi d1 (l1.trans hd)
    rw [e2, Option.map_some]
    exact ⟨d2, rfl, l2.trans l1, fun j hj => (k2 j hj).trans (k1 j hj)⟩
  · simp only [hs, if_false]
    exact ⟨d1, rfl, l1, k1⟩

/-- C95 is false of the rings: a plateau that starts just below the outer radius is added to the next line of sight, and on the last line the program panics. -/
theorem C95_ring_false (k n : ℕ) (lowR highR start stop rho : ℚ) (i : ℕ) (hi : i < n) (hl : lowR < start) (hh : start < highR) (hs : highR ≤ stop) (hrho : Float64 rho)
    (hround : r64 (start - lowR) = r64 (highR - lowR)) :
    (i + 1 = n → ringInsert (ringInit lowR highR (2 ^ k) n) start stop rho i = none) ∧
      (i + 1 < n → ∃ p, ringInsert (ringInit lowR highR (2 ^ k) n) start stop rho i = some p ∧ ∀ j, j < 2 ^ k * n → p.derivs[j]? = some (if j = (i + 1) * 2 ^ k then rho else 0)) := by
  have hD : 0 < highR - lowR := by linarith
  have hDr : 0 < r64 (highR - lowR) := lt_of_lt_of_le (by have : (0 : ℚ) < 1 - 1 / 2 ^ 53 := by norm_num
                                                          positivity) (r64_bounds hD.le).1
  have hf : Float64 (r64 (highR - lowR)) := rep_rn (by norm_num) _
  have e1 : r64 (highR - lowR) / ((2 ^ k : ℕ) : ℚ) = r64 (highR - lowR) * 2 ^ (-(k : ℤ)) := by push_cast; rw [zpow_neg, zpow_natCast]; rfl
  have hdr : (ringInit lowR highR (2 ^ k) n).dr = r64 (highR - lowR) * 2 ^ (-(k : ℤ)) := by
    show r64 (r64 (highR - lowR) / ((2 ^ k : ℕ) : ℚ)) = _
    rw [e1]
    exact r64_float (rep_two_pow hf _)
  have hq : r64 (r64 (start - (ringInit lowR highR (2 ^ k) n).lowR) / (ringInit lowR highR (2 ^ k) n).dr) = ((2 ^ k : ℤ) : ℚ) := by
    rw [hdr]
    show r64 (r64 (start - lowR) / _) = _
    rw [hround]
    have : r64 (highR - lowR) / (r64 (highR - lowR) * 2 ^ (-(k : ℤ))) = 2 ^ k := by
      rw [zpow_neg, zpow_natCast]
      field_simp
    rw [this]
    push_cast
    exact r64_float ⟨1, k, by norm_num, by rw [zpow_natCast]; norm_num⟩
  have hpk : 0 < 2 ^ k := by positivity
  have hone : r64 (rho * r64 (1 - ((2 ^ k : ℤ) - ((2 ^ k : ℤ) : ℚ)))) = rho := by
    have h1 : r64 1 = 1 := r64_float ⟨1, 0, by norm_num, by norm_num⟩
    rw [sub_self, sub_zero, h1, mul_one, r64_float hrho]
  have hstep : step (ringInit lowR highR (2 ^ k) n) start rho i (ringInit lowR highR (2 ^ k) n).derivs = addAtR (List.replicate (2 ^ k * n) 0) (((i + 1) * 2 ^ k : ℕ) : ℤ) rho := by
    unfold step modf
    rw [hq, if_pos (by push_cast; positivity), Int.floor_intCast]
    dsimp only
    rw [hone]
    have hn : ¬ (2 ^ k : ℤ) < (((ringInit lowR highR (2 ^ k) n).bins : ℕ) : ℤ) - 1 := by
      show ¬ (2 ^ k : ℤ) < ((2 ^ k : ℕ) : ℤ) - 1
      push_cast
      linarith
    simp only [hn, if_false, Option.bind_fun_some]
    show addAtR (List.replicate (2 ^ k * n) 0) ((i : ℤ) * ((2 ^ k : ℕ) : ℤ) + 2 ^ k) rho = _
    congr 1
    push_cast
    ring
  have hins : ringInsert (ringInit lowR highR (2 ^ k) n) start stop rho i = (addAtR (List.replicate (2 ^ k * n) 0) (((i + 1) * 2 ^ k : ℕ) : ℤ) rho).map fun d => { ringInit lowR highR (2 ^ k) n with derivs := d } := by
    unfold ringInsert
    have c1 : ¬ (stop ≤ (ringInit lowR highR (2 ^ k) n).lowR ∨ (ringInit lowR highR (2 ^ k) n).highR ≤ start) := by
      show ¬ (stop ≤ lowR ∨ highR ≤ start)
      push Not
      exact ⟨by linarith, hh⟩
    have c2 : (ringInit lowR highR (2 ^ k) n).lowR < start := hl
    have c3 : ¬ stop < (ringInit lowR highR (2 ^ k) n).highR := not_lt.mpr hs
    simp only [c1, c2, c3, if_true, if_false, hstep, Option.bind_fun_some]
  rw [hins]
  unfold addAtR
  constructor
  · rintro rfl
    rw [if_neg]
    · rfl
    · rw [List.length_replicate, Nat.mul_comm]
      exact fun h => lt_irrefl _ h.2
  · intro hi'
    have hlt : (i + 1) * 2 ^ k < 2 ^ k * n := by
      rw [Nat.mul_comm]
      exact Nat.mul_lt_mul_of_pos_left hi' hpk
    rw [if_pos ⟨Int.natCast_nonneg _, by rw [List.length_replicate]; exact_mod_cast hlt⟩]
    refine ⟨_, rfl, fun j hj => ?_⟩
    dsimp only
    rw [Int.toNat_natCast, List.getElem?_modify, List.getElem?_replicate, if_pos hj]
    by_cases hjj : j = (i + 1) * 2 ^ k
    · subst hjj
      simp only [if_true]
      show some (r64 (0 + rho)) = some rho
      rw [zero_add, r64_float hrho]
    · simp only [hjj, if_false, if_neg (Ne.symm hjj), Option.map_some]; rfl

/-- The hypotheses are met: with 256 bins between the logarithms -4 and 1/16. -/
example : ∃ start, Float64 start ∧ -4 < start ∧ start < 1 / 16 ∧ r64 (start - -4) = r64 (1 / 16 - -4) := by
  refine ⟨1 / 16 - 1 / 2 ^ 57, ⟨2 ^ 53 - 1, -57, by norm_num, by norm_num⟩, by norm_num, by norm_num, ?_⟩
  have h1 : r64 (1 / 16 - -4) = 65 / 16 := by
    rw [r64_float ⟨65, -4, by norm_num, by norm_num⟩]; norm_num
  rw [h1]
  unfold r64
  rw [rn_eq 2 (65 * 2 ^ 46) (by rw [abs_of_pos] <;> norm_num) (by rw [abs_of_pos] <;> norm_num) (by rw [abs_lt]; norm_num)]
  norm_num

/-! ### Bins -/

/-- C95: the radial bins of the prof mode. A radius between the limits, with logarithms that are wrong by at most half a bin, has a bin. -/
theorem C95_prof (bins : ℕ) (hb : 0 < bins) (hb' : bins ≤ 2 ^ 40) (lrMin lrMax lr : ℚ) (h : lrMin < lrMax) (h1 : lrMin - (lrMax - lrMin) / bins / 2 ≤ lr) (h2 : lr ≤ lrMax + (lrMax - lrMin) / bins / 2) :
    0 ≤ profBin bins lrMin lrMax lr ∧ profBin bins lrMin lrMax lr < bins := by
  have hD : 0 < lrMax - lrMin := by linarith
  have hb0 : (0 : ℚ) < bins := by exact_mod_cast hb
  have hc2 : (bins : ℚ) ≤ 2 ^ 40 := by exact_mod_cast hb'
  have hdpos := (quot_le (n := bins) (s := 0) hb le_rfl hD).1
  have main : 0 ≤ toInt (r64 (r64 (lr - lrMin) / r64 (r64 (lrMax - lrMin) / (bins : ℚ)))) ∧ toInt (r64 (r64 (lr - lrMin) / r64 (r64 (lrMax - lrMin) / (bins : ℚ)))) ≤ bins := by
    rcases le_or_gt lrMin lr with hle | hlt
    · have hq := quot_le (n := bins) (s := lr - lrMin) hb (by linarith) hD
      rw [toInt_nonneg hq.2.1]
      refine ⟨Int.floor_nonneg.mpr hq.2.1, ?_⟩
      rw [← Int.lt_add_one_iff, Int.floor_lt]
      push_cast
      refine lt_of_le_of_lt hq.2.2 ?_
      have h3 : (lr - lrMin) / (lrMax - lrMin) * bins ≤ bins + 1 / 2 := by
        rw [div_mul_eq_mul_div, div_le_iff₀ hD]
        have h4 : (lr - lrMin) * bins ≤ ((lrMax - lrMin) + (lrMax - lrMin) / bins / 2) * bins := mul_le_mul_of_nonneg_right (by linarith) hb0.le
        have h5 : ((lrMax - lrMin) + (lrMax - lrMin) / bins / 2) * bins = (bins + 1 / 2) * (lrMax - lrMin) := by field_simp
        linarith
      have h4 : (lr - lrMin) / (lrMax - lrMin) * bins * (1 + 1 / 2 ^ 50) ≤ (bins + 1 / 2) * (1 + 1 / 2 ^ 50) := mul_le_mul_of_nonneg_right h3 (by norm_num)
      have h5 : ((bins : ℚ) + 1 / 2) * (1 / 2 ^ 50) ≤ (2 ^ 40 + 1 / 2) * (1 / 2 ^ 50) := mul_le_mul_of_nonneg_right (by linarith) (by norm_num)
      have h6 : ((2 : ℚ) ^ 40 + 1 / 2) * (1 / 2 ^ 50) < 1 / 2 := by norm_num
      linarith
    · -- a quotient between -1 and 0 is truncated to 0
      have hs : 0 ≤ lrMin - lr := by linarith
      have hneg : ∀ x : ℚ, r64 (-x) ≤ 0 ∨ True := fun _ => Or.inr trivial
      have herr : |r64 (lr - lrMin) - (lr - lrMin)| ≤ |lr - lrMin| / 2 ^ 53 := (C95_rounding _).2.2.2.2
      rw [abs_of_neg (by linarith : lr - lrMin < 0), abs_le] at herr
      have hd := hdpos
      have hq1 : r64 (lr - lrMin) / r64 (r64 (lrMax - lrMin) / (bins : ℚ)) ≤ 0 := div_nonpos_of_nonpos_of_nonneg (rn_nonpos (by linarith)) hd.le
      have hdlow : (lrMax - lrMin) / bins * (1 - 1 / 2 ^ 52) ≤ r64 (r64 (lrMax - lrMin) / (bins : ℚ)) := by
        have hD1 := (r64_bounds hD.le).1
        have h0 : 0 ≤ r64 (lrMax - lrMin) / (bins : ℚ) := div_nonneg (r64_nonneg hD.le) hb0.le
        refine le_trans ?_ (r64_bounds h0).1
        have : (lrMax - lrMin) * (1 - 1 / 2 ^ 53) / bins ≤ r64 (lrMax - lrMin) / bins := div_le_div_of_nonneg_right hD1 hb0.le
        have h3 : (lrMax - lrMin) * (1 - 1 / 2 ^ 53) / bins * (1 - 1 / 2 ^ 53) ≤ r64 (lrMax - lrMin) / bins * (1 - 1 / 2 ^ 53) := mul_le_mul_of_nonneg_right this (by norm_num)
        refine le_trans ?_ h3
        have h4 : (0 : ℚ) < (lrMax - lrMin) / bins := by positivity
        have h5 : (lrMax - lrMin) * (1 - 1 / 2 ^ 53) / bins * (1 - 1 / 2 ^ 53) = (lrMax - lrMin) / bins * ((1 - 1 / 2 ^ 53) * (1 - 1 / 2 ^ 53)) := by ring
        rw [h5]
        exact mul_le_mul_of_nonneg_left (by norm_num) h4.le
      have hbin : (0 : ℚ) < (lrMax - lrMin) / bins := by positivity
      have hq2 : -(3 / 4 : ℚ) ≤ r64 (lr - lrMin) / r64 (r64 (lrMax - lrMin) / (bins : ℚ)) := by
        rw [le_div_iff₀ hd]
        nlinarith [herr.1, herr.2]
      have hr1 : r64 (r64 (lr - lrMin) / r64 (r64 (lrMax - lrMin) / (bins : ℚ))) ≤ 0 := rn_nonpos hq1
      have hr2 : -(3 / 4 : ℚ) ≤ r64 (r64 (lr - lrMin) / r64 (r64 (lrMax - lrMin) / (bins : ℚ))) := le_r64 ⟨-3, -2, by norm_num, by norm_num⟩ hq2
      have hz : toInt (r64 (r64 (lr - lrMin) / r64 (r64 (lrMax - lrMin) / (bins : ℚ)))) = 0 := by
        unfold toInt modf
        by_cases hc : 0 ≤ r64 (r64 (lr - lrMin) / r64 (r64 (lrMax - lrMin) / (bins : ℚ)))
        · rw [if_pos hc]
          dsimp only
          rw [Int.floor_eq_zero_iff]
          exact ⟨hc, by linarith⟩
        · rw [if_neg hc]
          dsimp only
          rw [Int.ceil_eq_iff]
          push_cast
          constructor <;> linarith
      rw [hz]
      exact ⟨le_rfl, by positivity⟩
  unfold profBin
  dsimp only
  by_cases he : toInt (r64 (r64 (lr - lrMin) / r64 (r64 (lrMax - lrMin) / (bins : ℚ)))) = bins
  · simp only [he, if_true]; omega
  · simp only [he, if_false]; omega

/-- C95: the radial bins of the phase mode. -/
theorem C95_phase (bins : ℕ) (hb : 0 < bins) (hb' : bins ≤ 2 ^ 40) (rMax r : ℚ) (hf : Float64 rMax) (hr : Float64 r) (h0 : 0 ≤ r) (h : r ≤ rMax) (hp : 0 < rMax) :
    0 ≤ phaseBin bins rMax r ∧ phaseBin bins rMax r < bins := by
  have hc2 : (bins : ℚ) ≤ 2 ^ 40 := by exact_mod_cast hb'
  have hb0 : (0 : ℚ) < bins := by exact_mod_cast hb
  have hq := quot_le (n := bins) hb h0 hp
  rw [r64_float hf, r64_float hr] at hq
  have main : 0 ≤ toInt (r64 (r / r64 (rMax / (bins : ℚ)))) ∧ toInt (r64 (r / r64 (rMax / (bins : ℚ)))) ≤ bins := by
    rw [toInt_nonneg hq.2.1]
    refine ⟨Int.floor_nonneg.mpr hq.2.1, ?_⟩
    rw [← Int.lt_add_one_iff, Int.floor_lt]
    push_cast
    refine lt_of_le_of_lt hq.2.2 ?_
    have h3 : r / rMax ≤ 1 := (div_le_one hp).mpr h
    have h4 : r / rMax * bins ≤ 1 * bins := mul_le_mul_of_nonneg_right h3 hb0.le
    have h5 : r / rMax * bins * (1 + 1 / 2 ^ 50) ≤ 1 * bins * (1 + 1 / 2 ^ 50) := mul_le_mul_of_nonneg_right h4 (by norm_num)
    have h6 : (bins : ℚ) * (1 / 2 ^ 50) ≤ 2 ^ 40 * (1 / 2 ^ 50) := mul_le_mul_of_nonneg_right hc2 (by norm_num)
    have h7 : (2 : ℚ) ^ 40 * (1 / 2 ^ 50) < 1 := by norm_num
    linarith
  unfold phaseBin
  dsimp only
  by_cases he : toInt (r64 (r / r64 (rMax / (bins : ℚ)))) = bins
  · simp only [he, if_true]; omega
  · simp only [he, if_false]; omega

/-- C95: the angular bins of the density tree, whose numbers are powers of two (los/analyze/kde.go:139-143): every angle below the float64 number 2π has a bin. -/
theorem C95_theta (k : ℕ) (turn th : ℚ) (ht : Float64 turn) (hth : Float64 th) (h0 : 0 ≤ th) (h : th < turn) : 0 ≤ thetaBin (2 ^ k) turn th ∧ thetaBin (2 ^ k) turn th < 2 ^ k := by
  obtain ⟨a, b⟩ := pow_quot_lt k hth ht h0 h
  unfold thetaBin
  rw [toInt_nonneg a]
  exact ⟨Int.floor_nonneg.mpr a, by rw [Int.floor_lt, Int.cast_pow]; exact_mod_cast b⟩

/-! ### Uniform grids of the interpolators -/

/-- C95, for uniform grids that start at 0: an accepted value has an interval of the grid. -/
theorem C95_search_partial (dx : ℚ) (n : ℕ) (hn : 2 ≤ n) (hn' : n ≤ 2 ^ 40) (hdx : 0 < dx) (hf : Float64 dx) (x : ℚ) (hx : Float64 x) (i : ℤ) (h : unifSearch 0 dx n x = some i) : 0 ≤ i ∧ i + 1 < n := by
  unfold unifSearch at h
  by_cases hc : r64 (r64 (((n : ℚ) - 1) * dx) + 0) < x ∨ x < 0
  · simp only [hc, if_true] at h
    cases h
  simp only [hc, if_false, Option.some.injEq] at h
  push Not at hc
  obtain ⟨h1, h2⟩ := hc
  have hn2 : (2 : ℚ) ≤ n := by exact_mod_cast hn
  have hn40 : (n : ℚ) ≤ 2 ^ 40 := by exact_mod_cast hn'
  have hprod : 0 ≤ ((n : ℚ) - 1) * dx := by nlinarith
  have hrr : r64 (r64 (((n : ℚ) - 1) * dx)) = r64 (((n : ℚ) - 1) * dx) := r64_float (rep_rn (by norm_num) _)
  rw [add_zero, hrr] at h1
  rw [sub_zero, r64_float hx] at h
  have hx1 : x ≤ ((n : ℚ) - 1) * dx * (1 + 1 / 2 ^ 53) := le_trans h1 (r64_bounds hprod).2
  have hq0 : 0 ≤ x / dx := div_nonneg h2 hdx.le
  have hq1 : x / dx ≤ ((n : ℚ) - 1) * (1 + 1 / 2 ^ 53) := by
    rw [div_le_iff₀ hdx]; linarith
  have hq2 : r64 (x / dx) < n := by
    refine lt_of_le_of_lt (r64_bounds hq0).2 ?_
    have h3 : x / dx * (1 + 1 / 2 ^ 53) ≤ ((n : ℚ) - 1) * (1 + 1 / 2 ^ 53) * (1 + 1 / 2 ^ 53) := mul_le_mul_of_nonneg_right hq1 (by norm_num)
    refine lt_of_le_of_lt h3 ?_
    have h4 : ((1 : ℚ) + 1 / 2 ^ 53) * (1 + 1 / 2 ^ 53) ≤ 1 + 1 / 2 ^ 50 := by norm_num
    have h5 : ((n : ℚ) - 1) * (1 + 1 / 2 ^ 53) * (1 + 1 / 2 ^ 53) ≤ ((n : ℚ) - 1) * (1 + 1 / 2 ^ 50) := by
      rw [mul_assoc]
      exact mul_le_mul_of_nonneg_left h4 (by linarith)
    have h6 : ((n : ℚ) - 1) * (1 / 2 ^ 50) ≤ 2 ^ 40 * (1 / 2 ^ 50) := mul_le_mul_of_nonneg_right (by linarith) (by norm_num)
    have h7 : (2 : ℚ) ^ 40 * (1 / 2 ^ 50) < 1 := by norm_num
    linarith
  have hr0 := r64_nonneg hq0
  rw [toInt_nonneg hr0] at h
  have hfl0 : 0 ≤ ⌊r64 (x / dx)⌋ := Int.floor_nonneg.mpr hr0
  have hfl1 : ⌊r64 (x / dx)⌋ < (n : ℤ) := by rw [Int.floor_lt]; push_cast; exact hq2
  by_cases he : ⌊r64 (x / dx)⌋ = (n : ℤ) - 1
  · simp only [he, if_true] at h
    omega
  · simp only [he, if_false] at h
    omega

/-- C95 is false of uniform grids whose spacing is as small as the rounding of the first point: an accepted value gets an index that is not in the table. -/
theorem C95_search_false : unifSearch (2 ^ 53) (1 / 2) 4 (2 ^ 53 + 2) = some 4 := by
  have h1 : r64 (((4 : ℕ) - 1 : ℚ) * (1 / 2)) = 3 / 2 := by
    rw [r64_float ⟨3, -1, by norm_num, by norm_num⟩]; norm_num
  have h2 : r64 (3 / 2 + 2 ^ 53) = 2 ^ 53 + 2 := by
    unfold r64
    rw [rn_eq 53 (2 ^ 52 + 1) (by rw [abs_of_pos] <;> norm_num) (by rw [abs_of_pos] <;> norm_num) (by rw [abs_lt]; norm_num)]
    norm_num
  have h3 : r64 ((2 ^ 53 + 2) - 2 ^ 53) = 2 := by
    rw [r64_float ⟨1, 1, by norm_num, by norm_num⟩]; norm_num
  have h4 : r64 (2 / (1 / 2)) = 4 := by
    rw [r64_float ⟨1, 2, by norm_num, by norm_num⟩]; norm_num
  unfold unifSearch
  rw [h1, h2, h3, h4, if_neg (by norm_num), toInt_nonneg (by norm_num)]
  norm_num

/-! ### Random numbers -/

/-- The numbers that `Next` returns: 32 random bits, but not those which give 1 (math/rand/xorshift.go:29-31 draws again). -/
def Drawn (v : ℚ) : Prop := ∃ w : ℕ, w < 2 ^ 32 ∧ v = unit w ∧ v ≠ 1

theorem drawn_le {v : ℚ} (h : Drawn v) : 0 ≤ v ∧ v ≤ 1 - 1 / 2 ^ 32 := by
  obtain ⟨w, hw, rfl, h1⟩ := h
  have hwq : (w : ℚ) ≤ 4294967295 := by
    have : w ≤ 4294967295 := by omega
    exact_mod_cast this
  refine ⟨r64_nonneg (by apply div_nonneg <;> linarith), ?_⟩
  have hw0 : 1 ≤ w := by
    by_contra hc
    have : w = 0 := by omega
    subst this
    apply h1
    unfold unit
    norm_num
    exact r64_float ⟨1, 0, by norm_num, by norm_num⟩
  have hw1 : (1 : ℚ) ≤ w := by exact_mod_cast hw0
  refine r64_le ⟨2 ^ 32 - 1, -32, by norm_num, by norm_num⟩ ?_
  rw [div_le_iff₀ (by norm_num)]
  norm_num
  linarith

theorem scaled_le {v D : ℚ} (hv : Drawn v) (hD : 0 ≤ D) : 0 ≤ r64 (v * r64 D) ∧ r64 (v * r64 D) ≤ D * (1 - 1 / 2 ^ 33) := by
  obtain ⟨h0, h1⟩ := drawn_le hv
  have hD0 := r64_nonneg hD
  have hp : 0 ≤ v * r64 D := mul_nonneg h0 hD0
  refine ⟨r64_nonneg hp, ?_⟩
  have h2 : v * r64 D ≤ (1 - 1 / 2 ^ 32) * (D * (1 + 1 / 2 ^ 53)) := mul_le_mul h1 (r64_bounds hD).2 hD0 (by norm_num)
  calc r64 (v * r64 D) ≤ v * r64 D * (1 + 1 / 2 ^ 53) := (r64_bounds hp).2
    _ ≤ (1 - 1 / 2 ^ 32) * (D * (1 + 1 / 2 ^ 53)) * (1 + 1 / 2 ^ 53) := mul_le_mul_of_nonneg_right h2 (by norm_num)
    _ = D * ((1 - 1 / 2 ^ 32) * (1 + 1 / 2 ^ 53) * (1 + 1 / 2 ^ 53)) := by ring
    _ ≤ D * (1 - 1 / 2 ^ 33) := mul_le_mul_of_nonneg_left (by norm_num) hD

/-- C95: `Uniform` stays between its bounds, ends included. -/
theorem C95_uniform_range (v low high : ℚ) (hv : Drawn v) (hl : Float64 low) (hh : Float64 high) (h : low < high) : low ≤ uniform v low high ∧ uniform v low high ≤ high := by
  unfold uniform
  by_cases hc : low = 0 ∧ high = 1
  · simp only [hc, and_self, if_true]
    have := drawn_le hv
    exact ⟨this.1, by linarith [this.2, (by norm_num : (1 : ℚ) - 1 / 2 ^ 32 ≤ 1)]⟩
  simp only [hc, if_false]
  obtain ⟨h0, h1⟩ := scaled_le hv (by linarith : 0 ≤ high - low)
  refine ⟨le_r64 hl (by linarith), r64_le hh ?_⟩
  have : (high - low) * (1 - 1 / 2 ^ 33) ≤ high - low := by nlinarith
  linarith

/-- C95, if the range is not tiny compared to its end: the end itself is never returned. -/
theorem C95_uniform_partial (v low high : ℚ) (hv : Drawn v) (h : low < high) (hbig : |high| ≤ 2 ^ 19 * (high - low)) : uniform v low high < high := by
  unfold uniform
  by_cases hc : low = 0 ∧ high = 1
  · simp only [hc, and_self, if_true]
    linarith [(drawn_le hv).2, (by norm_num : (1 : ℚ) - 1 / 2 ^ 32 < 1)]
  simp only [hc, if_false]
  have hD : 0 < high - low := by linarith
  obtain ⟨h0, h1⟩ := scaled_le hv hD.le
  have h2 : r64 (v * r64 (high - low)) + low ≤ high - (high - low) / 2 ^ 33 := by
    have : (high - low) * (1 - 1 / 2 ^ 33) = (high - low) - (high - low) / 2 ^ 33 := by ring
    linarith
  refine lt_of_le_of_lt (r64_mono h2) ?_
  have herr := (C95_rounding (high - (high - low) / 2 ^ 33)).2.2.2.2
  have habs : |high - (high - low) / 2 ^ 33| ≤ 2 ^ 19 * (high - low) + (high - low) / 2 ^ 33 := by
    refine le_trans (abs_sub _ _) ?_
    rw [abs_of_nonneg (by positivity : (0 : ℚ) ≤ (high - low) / 2 ^ 33)]
    linarith
  have h3 := (abs_le.mp herr).2
  have h4 : |high - (high - low) / 2 ^ 33| / 2 ^ 53 ≤ (2 ^ 19 * (high - low) + (high - low) / 2 ^ 33) / 2 ^ 53 := div_le_div_of_nonneg_right habs (by norm_num)
  have h5 : (2 ^ 19 * (high - low) + (high - low) / 2 ^ 33) / 2 ^ 53 < (high - low) / 2 ^ 33 := by
    have e : (high - low) / 2 ^ 33 - (2 ^ 19 * (high - low) + (high - low) / 2 ^ 33) / 2 ^ 53 = (high - low) * (1 / 2 ^ 33 - (2 ^ 19 + 1 / 2 ^ 33) / 2 ^ 53) := by ring
    have : 0 < (high - low) * (1 / 2 ^ 33 - (2 ^ 19 + 1 / 2 ^ 33) / 2 ^ 53) := mul_pos hD (by norm_num)
    linarith
  linarith

/-- C95, for bounds up to 2^19: `UniformInt` returns integers from `low` to `high - 1`. -/
theorem C95_uniformInt_partial (v : ℚ) (low high : ℤ) (hv : Drawn v) (h : low < high) (hl : |low| ≤ 2 ^ 19) (hh : |high| ≤ 2 ^ 19) : low ≤ uniformInt v low high ∧ uniformInt v low high < high := by
  have big : ∀ z : ℤ, |z| ≤ 2 ^ 20 → Float64 (z : ℚ) := fun z hz => ⟨z, 0, lt_of_le_of_lt hz (by norm_num), by simp⟩
  have hlq : |(low : ℚ)| ≤ 2 ^ 19 := by exact_mod_cast hl
  have hhq : |(high : ℚ)| ≤ 2 ^ 19 := by exact_mod_cast hh
  have hd : (1 : ℚ) ≤ (high : ℚ) - low := by
    have : low + 1 ≤ high := h
    have : (low : ℚ) + 1 ≤ high := by exact_mod_cast this
    linarith
  have e : r64 ((high - low : ℤ) : ℚ) * v = v * r64 ((high : ℚ) - low) := by push_cast; ring
  unfold uniformInt
  rw [e, r64_float (big low (le_trans hl (by norm_num)))]
  obtain ⟨h0, h1⟩ := scaled_le hv (by linarith : 0 ≤ (high : ℚ) - low)
  refine ⟨?_, ?_⟩
  · rw [Int.le_floor]
    exact le_r64 (big low (le_trans hl (by norm_num))) (by linarith)
  · rw [Int.floor_lt]
    have := C95_uniform_partial v low high hv (by linarith) (by nlinarith)
    unfold uniform at this
    by_cases hc : (low : ℚ) = 0 ∧ (high : ℚ) = 1
    · have h2 : r64 (v * r64 ((high : ℚ) - low)) + low ≤ (high : ℚ) - ((high : ℚ) - low) / 2 ^ 33 := by
        have : ((high : ℚ) - low) * (1 - 1 / 2 ^ 33) = ((high : ℚ) - low) - ((high : ℚ) - low) / 2 ^ 33 := by ring
        linarith
      refine lt_of_le_of_lt (r64_mono h2) ?_
      rw [hc.1, hc.2]
      have := r64_bounds (by norm_num : (0 : ℚ) ≤ 1 - (1 - 0) / 2 ^ 33)
      norm_num at this ⊢
      linarith [this.2]
    · simpa only [hc, if_false] using this

/-- C95 is false of `Uniform` for small ranges, and of `UniformInt` for large bounds: the upper bound is returned. -/
theorem C95_uniform_false : Drawn (unit 1) ∧ uniform (unit 1) 1 (1 + 1 / 2 ^ 52) = 1 + 1 / 2 ^ 52 ∧ uniformInt (unit 1) (2 ^ 30) (2 ^ 30 + 1) = 2 ^ 30 + 1 := by
  have hv0 : (0 : ℚ) ≤ (4294967295 - ((1 : ℕ) : ℚ)) / 4294967295 := by norm_num
  have hvb := r64_bounds hv0
  have hv : (9 / 10 : ℚ) ≤ unit 1 ∧ unit 1 < 1 := by
    unfold unit
    norm_num at hvb ⊢
    constructor <;> linarith [hvb.1, hvb.2]
  have hdr : Drawn (unit 1) := ⟨1, by norm_num, rfl, hv.2.ne⟩
  refine ⟨hdr, ?_, ?_⟩
  · unfold uniform
    rw [if_neg (by norm_num)]
    have e1 : r64 (1 + 1 / 2 ^ 52 - 1) = 1 / 2 ^ 52 := by
      rw [r64_float ⟨1, -52, by norm_num, by norm_num⟩]; norm_num
    rw [e1]
    have hp : 0 ≤ unit 1 * (1 / 2 ^ 52) := mul_nonneg (by linarith [hv.1]) (by norm_num)
    have hb := r64_bounds hp
    have h1 : (8 / 10 : ℚ) / 2 ^ 52 ≤ r64 (unit 1 * (1 / 2 ^ 52)) := by
      refine le_trans ?_ hb.1
      have := hv.1
      norm_num
      nlinarith
    have h2 : r64 (unit 1 * (1 / 2 ^ 52)) ≤ 1 / 2 ^ 52 := r64_le ⟨1, -52, by norm_num, by norm_num⟩ (by nlinarith [hv.2])
    unfold r64 at h1 h2 ⊢
    rw [rn_eq 0 (2 ^ 52 + 1) (by rw [abs_of_pos (by linarith [(by norm_num : (0 : ℚ) < 8 / 10 / 2 ^ 52)])]; norm_num at h1 ⊢; linarith)
      (by rw [abs_of_pos (by linarith [(by norm_num : (0 : ℚ) < 8 / 10 / 2 ^ 52)])]; norm_num at h2 ⊢; linarith) (by rw [abs_lt]; norm_num at h1 h2 ⊢; constructor <;> linarith)]
    norm_num
  · unfold uniformInt
    have e1 : r64 ((2 ^ 30 + 1 - 2 ^ 30 : ℤ) : ℚ) = 1 := by
      rw [r64_float ⟨1, 0, by norm_num, by norm_num⟩]; norm_num
    have e2 : r64 ((2 ^ 30 : ℤ) : ℚ) = 2 ^ 30 := by
      rw [r64_float ⟨1, 30, by norm_num, by norm_num⟩]; norm_num
    rw [e1, e2, one_mul]
    have e3 : r64 (unit 1) = unit 1 := r64_float (rep_rn (by norm_num) _)
    rw [e3]
    have hb1 : (1 : ℚ) - 1 / 2 ^ 30 ≤ unit 1 := by
      unfold unit
      refine le_trans ?_ hvb.1
      norm_num
    have e4 : r64 (unit 1 + 2 ^ 30) = 2 ^ 30 + 1 := by
      unfold r64
      rw [rn_eq 30 (2 ^ 52 + 2 ^ 22) (by rw [abs_of_pos (by linarith [hv.1, (by norm_num : (0 : ℚ) < 2 ^ 30)])]; norm_num at hv ⊢; linarith [hv.1])
        (by rw [abs_of_pos (by linarith [hv.1, (by norm_num : (0 : ℚ) < 2 ^ 30)])]; norm_num at hv ⊢; linarith [hv.2]) (by rw [abs_lt]; norm_num at hb1 hv ⊢; constructor <;> linarith [hv.2])]
      norm_num
    rw [e4]
    norm_num

/-! ### The hypotheses are met -/

example : Float64 (3 / 4) ∧ Drawn (unit 12345) := by
  refine ⟨⟨3, -2, by norm_num, by norm_num⟩, 12345, by norm_num, rfl, ?_⟩
  have h := (r64_bounds (by norm_num : (0 : ℚ) ≤ (4294967295 - ((12345 : ℕ) : ℚ)) / 4294967295)).2
  unfold unit
  refine ne_of_lt (lt_of_le_of_lt h ?_)
  norm_num

example : ¬ Float64 (1 / 3) ∧ r64 (1 / 3) ≠ 1 / 3 := by
  have h : r64 (1 / 3) = 6004799503160661 / 2 ^ 54 := by
    unfold r64
    rw [rn_eq (-2) 6004799503160661 (by norm_num [abs_of_pos]) (by norm_num [abs_of_pos]) (by rw [abs_lt]; norm_num)]
    norm_num
  have hne : r64 (1 / 3) ≠ 1 / 3 := by rw [h]; norm_num
  exact ⟨fun hf => hne (r64_float hf), hne⟩

example : Clear (-4) (1 / 16) 0 := by unfold Clear; norm_num

end Shellfish.Round
