/- The cells that the search of cmd/halo/finder.go reads in float64 arithmetic contain every halo that passes the test. -/
import Verif.Lemmas.FinderRound
import Verif.Props.Round

namespace Shellfish.Round
open Shellfish.Finder (Point Grid Span toInt cellsOf wrapCell)

theorem r64_abs (t : ℚ) : |r64 t - t| ≤ |t| / 2 ^ 53 := (C95_rounding t).2.2.2.2

theorem r64_near {t B : ℚ} (h : |t| ≤ B) : t - B / 2 ^ 53 ≤ r64 t ∧ r64 t ≤ t + B / 2 ^ 53 := by
  have h1 := r64_abs t
  have h2 : |t| / 2 ^ 53 ≤ B / 2 ^ 53 := div_le_div_of_nonneg_right h (by norm_num)
  obtain ⟨a, b⟩ := abs_le.mp (h1.trans h2)
  constructor <;> linarith

theorem r64_zero : r64 0 = 0 := rn_zero 53

theorem r64_neg_iff {t : ℚ} : r64 t < 0 ↔ t < 0 := by
  constructor
  · intro h
    by_contra hc
    push Not at hc
    exact absurd h (not_lt.mpr (r64_nonneg hc))
  · intro h
    have := abs_le.mp (r64_abs t)
    rw [abs_of_neg h] at this
    have h2 := this.2
    have : -t / 2 ^ 53 < -t := by
      rw [div_lt_iff₀ (by norm_num)]
      nlinarith
    linarith

theorem r64_pos {t : ℚ} (h : 0 < t) : 0 < r64 t := by
  refine lt_of_lt_of_le ?_ (r64_bounds h.le).1
  have : (0 : ℚ) < 1 - 1 / 2 ^ 53 := by norm_num
  positivity

/-- the quotient by the width of a cell, in units of the box -/
theorem quot_both {W t : ℚ} {c : ℕ} (hc : 0 < c) (hW : 0 < W) (ht : 0 ≤ t) :
    0 < r64 (W / (c : ℚ)) ∧ (c : ℚ) / W * (t * (1 - 1 / 2 ^ 50)) ≤ r64 (t / r64 (W / (c : ℚ))) ∧ r64 (t / r64 (W / (c : ℚ))) ≤ (c : ℚ) / W * (t * (1 + 1 / 2 ^ 50)) := by
  have hc' : (0 : ℚ) < c := by exact_mod_cast hc
  have hq : 0 < W / (c : ℚ) := by positivity
  obtain ⟨a, b⟩ := r64_bounds hq.le
  have hpos : 0 < r64 (W / (c : ℚ)) := lt_of_lt_of_le (by have : (0 : ℚ) < 1 - 1 / 2 ^ 53 := by norm_num
                                                          positivity) a
  have h0 : 0 ≤ t / r64 (W / (c : ℚ)) := by positivity
  obtain ⟨e, f⟩ := r64_bounds h0
  have hs : 0 ≤ (c : ℚ) / W * t := by positivity
  refine ⟨hpos, ?_, ?_⟩
  · have h1 : t / (W / (c : ℚ) * (1 + 1 / 2 ^ 53)) ≤ t / r64 (W / (c : ℚ)) := div_le_div_of_nonneg_left ht hpos b
    have h2 : t / (W / (c : ℚ) * (1 + 1 / 2 ^ 53)) = (c : ℚ) / W * t * (1 / (1 + 1 / 2 ^ 53)) := by
      have : (1 + 1 / 2 ^ 53 : ℚ) ≠ 0 := by norm_num
      field_simp
    have h3 : (c : ℚ) / W * t * (1 / (1 + 1 / 2 ^ 53)) * (1 - 1 / 2 ^ 53) ≤ t / r64 (W / (c : ℚ)) * (1 - 1 / 2 ^ 53) := by
      rw [← h2]
      exact mul_le_mul_of_nonneg_right h1 (by norm_num)
    refine le_trans ?_ (h3.trans e)
    rw [← mul_assoc ((c : ℚ) / W) t, mul_assoc _ (1 / _) _]
    exact mul_le_mul_of_nonneg_left (by norm_num) hs
  · have h1 : t / r64 (W / (c : ℚ)) ≤ t / (W / (c : ℚ) * (1 - 1 / 2 ^ 53)) := div_le_div_of_nonneg_left ht (by have : (0 : ℚ) < 1 - 1 / 2 ^ 53 := by norm_num
                                                                                                               positivity) a
    have h2 : t / (W / (c : ℚ) * (1 - 1 / 2 ^ 53)) = (c : ℚ) / W * t * (1 / (1 - 1 / 2 ^ 53)) := by
      have : (1 - 1 / 2 ^ 53 : ℚ) ≠ 0 := by norm_num
      field_simp
    have h3 : t / r64 (W / (c : ℚ)) * (1 + 1 / 2 ^ 53) ≤ (c : ℚ) / W * t * (1 / (1 - 1 / 2 ^ 53)) * (1 + 1 / 2 ^ 53) := by
      rw [← h2]
      exact mul_le_mul_of_nonneg_right h1 (by norm_num)
    refine le_trans (f.trans h3) ?_
    rw [← mul_assoc ((c : ℚ) / W) t, mul_assoc _ (1 / _) _]
    exact mul_le_mul_of_nonneg_left (by norm_num) hs

/-- the number of the cell of a coordinate in or above the box -/
def cellAt (c : ℕ) (W t : ℚ) : ℤ := ⌊r64 (t / r64 (W / (c : ℚ)))⌋

theorem toInt_cell {c : ℕ} {W t : ℚ} (hc : 0 < c) (hW : 0 < W) (ht : 0 ≤ t) : toInt (r64 (t / r64 (W / (c : ℚ)))) = cellAt c W t := by
  have := (quot_both hc hW ht).1
  exact toInt_nonneg (r64_nonneg (by positivity))

theorem cellAt_mono {c : ℕ} {W s t : ℚ} (hc : 0 < c) (hW : 0 < W) (h : s ≤ t) : cellAt c W s ≤ cellAt c W t := by
  have := (quot_both hc hW le_rfl).1
  exact Int.floor_le_floor (r64_mono (div_le_div_of_nonneg_right h this.le))

theorem cellAt_nonneg {c : ℕ} {W t : ℚ} (hc : 0 < c) (hW : 0 < W) (ht : 0 ≤ t) : 0 ≤ cellAt c W t := by
  have := (quot_both hc hW ht).1
  exact Int.floor_nonneg.mpr (r64_nonneg (by positivity))

/-- one box further is `c` cells further, with a margin for the errors -/
theorem cellAt_shift_le {c : ℕ} {W s t : ℚ} (hc : 0 < c) (hW : 0 < W) (hs : 0 ≤ s) (hs2 : s ≤ 3 * W) (ht : 0 ≤ t) (ht2 : t ≤ W) (h : s + W / 2 ^ 48 ≤ t + W) : cellAt c W s ≤ cellAt c W t + c := by
  have hc' : (0 : ℚ) < c := by exact_mod_cast hc
  have a := (quot_both hc hW hs).2.2
  have b := (quot_both hc hW ht).2.1
  have hk : 0 ≤ (c : ℚ) / W := by positivity
  have key : s * (1 + 1 / 2 ^ 50) ≤ t * (1 - 1 / 2 ^ 50) + W := by
    have : W / 2 ^ 48 = W * (1 / 2 ^ 48) := by ring
    rw [this] at h
    norm_num at h ⊢
    linarith
  have h1 := mul_le_mul_of_nonneg_left key hk
  have h2 : (c : ℚ) / W * W = c := by field_simp
  rw [mul_add _ _ W, h2] at h1
  have : r64 (s / r64 (W / (c : ℚ))) ≤ r64 (t / r64 (W / (c : ℚ))) + ((c : ℤ) : ℚ) := by push_cast; linarith
  have h3 := Int.floor_le_floor this
  rw [Int.floor_add_intCast] at h3
  exact h3

theorem cellAt_le_shift {c : ℕ} {W s t : ℚ} (hc : 0 < c) (hW : 0 < W) (hs : 0 ≤ s) (hs2 : s ≤ 3 * W) (ht : 0 ≤ t) (ht2 : t ≤ W) (h : t + W + W / 2 ^ 48 ≤ s) : cellAt c W t + c ≤ cellAt c W s := by
  have hc' : (0 : ℚ) < c := by exact_mod_cast hc
  have a := (quot_both hc hW hs).2.1
  have b := (quot_both hc hW ht).2.2
  have hk : 0 ≤ (c : ℚ) / W := by positivity
  have key : t * (1 + 1 / 2 ^ 50) + W ≤ s * (1 - 1 / 2 ^ 50) := by
    have : W / 2 ^ 48 = W * (1 / 2 ^ 48) := by ring
    rw [this] at h
    norm_num at h ⊢
    linarith
  have h1 := mul_le_mul_of_nonneg_left key hk
  have h2 : (c : ℚ) / W * W = c := by field_simp
  rw [mul_add _ _ W, h2] at h1
  have : r64 (t / r64 (W / (c : ℚ))) + ((c : ℤ) : ℚ) ≤ r64 (s / r64 (W / (c : ℚ))) := by push_cast; linarith
  have h3 := Int.floor_le_floor this
  rw [Int.floor_add_intCast] at h3
  exact h3

theorem mem_cellsOf {a b t : ℤ} {c : ℕ} (h1 : a ≤ t) (h2 : t ≤ b) : wrapCell t c ∈ cellsOf ⟨a, b - a + 1⟩ c := by
  unfold cellsOf
  refine List.mem_map.mpr ⟨(t - a).toNat, List.mem_range.mpr (by show _ < (b - a + 1).toNat; omega), ?_⟩
  show wrapCell (a + ((t - a).toNat : ℤ)) c = _
  rw [Int.toNat_of_nonneg (by omega), add_sub_cancel]

theorem fits_of {a b : ℤ} {c : ℕ} (h0 : 0 ≤ a) (h1 : b < 2 * c) (h2 : b - a + 1 ≤ c) : Fits ⟨a, b - a + 1⟩ c := by
  constructor
  · unfold cellsOf
    refine List.Nodup.map_on ?_ List.nodup_range
    intro x hx y hy hxy
    have x1 := List.mem_range.mp hx
    have y1 := List.mem_range.mp hy
    dsimp only at x1 y1 hxy
    unfold wrapCell at hxy
    split_ifs at hxy <;> omega
  · intro x hx
    unfold cellsOf at hx
    obtain ⟨d, hd, rfl⟩ := List.mem_map.mp hx
    have d1 := List.mem_range.mp hd
    dsimp only at d1 ⊢
    unfold wrapCell
    split_ifs <;> omega

/-- the ends of the search interval -/
theorem bounds_eq {c : ℕ} {W x R : ℚ} (hc : 0 < c) (hW : 0 < W) (hx0 : 0 ≤ x) (hxW : x < W) (hR0 : 0 ≤ R) (hR : 2 * R ≤ W) :
    ∃ lo hi : ℚ, sphereBounds x R (r64 (W / (c : ℚ))) W = ⟨cellAt c W lo, cellAt c W hi - cellAt c W lo + 1⟩ ∧ 0 ≤ lo ∧ lo ≤ 3 * W ∧ 0 ≤ hi ∧ hi ≤ 3 * W ∧
      ((R ≤ x ∧ lo = r64 (x - R) ∧ hi = r64 (x + R) ∧ x - R - W / 2 ^ 50 ≤ lo ∧ lo ≤ x - R + W / 2 ^ 50 ∧ x + R - W / 2 ^ 50 ≤ hi ∧ hi ≤ x + R + W / 2 ^ 50) ∨
       (x < R ∧ lo = r64 (r64 (x - R) + W) ∧ hi = r64 (r64 (x + R) + W) ∧ x - R + W - W / 2 ^ 50 ≤ lo ∧ lo ≤ x - R + W + W / 2 ^ 50 ∧ x + R + W - W / 2 ^ 50 ≤ hi ∧ hi ≤ x + R + W + W / 2 ^ 50)) := by
  have e1 := r64_near (t := x - R) (B := W) (abs_le.mpr ⟨by linarith, by linarith⟩)
  have e2 := r64_near (t := x + R) (B := 2 * W) (abs_le.mpr ⟨by linarith, by linarith⟩)
  have w1 : W / 2 ^ 53 = W * (1 / 2 ^ 53) := by ring
  have w2 : 2 * W / 2 ^ 53 = W * (2 / 2 ^ 53) := by ring
  have w3 : W / 2 ^ 50 = W * (8 / 2 ^ 53) := by ring
  rw [w1] at e1
  rw [w2] at e2
  rw [w3]
  norm_num at e1 e2 ⊢
  unfold sphereBounds
  by_cases h : x - R < 0
  · have hneg := r64_neg_iff.mpr h
    have hx2 : 0 ≤ r64 (x + R) := r64_nonneg (by linarith)
    have e3 := r64_near (t := r64 (x - R) + W) (B := W) (abs_le.mpr ⟨by linarith, by linarith⟩)
    have e4 := r64_near (t := r64 (x + R) + W) (B := 5 / 2 * W) (abs_le.mpr ⟨by linarith, by linarith⟩)
    rw [w1] at e3
    rw [show 5 / 2 * W / 2 ^ 53 = W * ((5 / 2) / 2 ^ 53) by ring] at e4
    norm_num at e3 e4
    have p1 : 0 ≤ r64 (r64 (x - R) + W) := r64_nonneg (by linarith)
    have p2 : 0 ≤ r64 (r64 (x + R) + W) := r64_nonneg (by linarith)
    refine ⟨r64 (r64 (x - R) + W), r64 (r64 (x + R) + W), ?_, p1, by linarith, p2, ?_, Or.inr ⟨by linarith, rfl, rfl, by linarith, by linarith, by linarith, by linarith⟩⟩
    · simp only [if_pos hneg]
      rw [toInt_cell hc hW p1, toInt_cell hc hW p2]
    · linarith
  · have hneg : ¬ r64 (x - R) < 0 := fun hh => h (r64_neg_iff.mp hh)
    push Not at h
    have p1 : 0 ≤ r64 (x - R) := r64_nonneg h
    have p2 : 0 ≤ r64 (x + R) := r64_nonneg (by linarith)
    refine ⟨r64 (x - R), r64 (x + R), ?_, p1, by linarith, p2, by linarith, Or.inl ⟨by linarith, rfl, rfl, by linarith, by linarith, by linarith, by linarith⟩⟩
    simp only [if_neg hneg]
    rw [toInt_cell hc hW p1, toInt_cell hc hW p2]

theorem fits_bounds {c : ℕ} {W x R : ℚ} (hc : 0 < c) (hc' : c ≤ 2 ^ 40) (hW : 0 < W) (hx0 : 0 ≤ x) (hxW : x < W) (hR0 : 0 ≤ R) (hsmall : 2 * R + 2 * (W / (c : ℚ)) ≤ W) :
    Fits (sphereBounds x R (r64 (W / (c : ℚ))) W) c := by
  have hcq : (0 : ℚ) < c := by exact_mod_cast hc
  have hwc : W / 2 ^ 40 ≤ W / (c : ℚ) := div_le_div_of_nonneg_left hW.le hcq (by exact_mod_cast hc')
  have hwp : 0 < W / (c : ℚ) := by positivity
  obtain ⟨lo, hi, e, l0, l1, h0, h1, hcase⟩ := bounds_eq hc hW hx0 hxW hR0 (by linarith)
  have w40 : W / 2 ^ 40 = W * (1 / 2 ^ 40) := by ring
  have w50 : W / 2 ^ 50 = W * (1 / 2 ^ 50) := by ring
  rw [w50] at hcase
  rw [w40] at hwc
  have hk : 0 < (c : ℚ) / W := by positivity
  have hcw : (c : ℚ) / W * W = c := by field_simp
  have hcc : (c : ℚ) / W * (W / c) = 1 := by field_simp
  have qh := (quot_both hc hW h0).2.2
  have ql := (quot_both hc hW l0).2.1
  have hdiff : hi - lo ≤ 2 * R + W * (2 / 2 ^ 50) ∧ hi ≤ 2 * W - W * (1 / 2 ^ 41) := by
    rcases hcase with ⟨_, _, _, a, b, d, f⟩ | ⟨hxR, _, _, a, b, d, f⟩
    · norm_num at *; constructor <;> linarith
    · norm_num at *; constructor <;> linarith
  rw [e]
  apply fits_of (cellAt_nonneg hc hW l0)
  · unfold cellAt
    rw [Int.floor_lt]
    push_cast
    refine lt_of_le_of_lt qh ?_
    have : hi * (1 + 1 / 2 ^ 50) < 2 * W := by
      have := hdiff.2
      norm_num at this ⊢
      linarith
    have := mul_lt_mul_of_pos_left this hk
    linarith
  · have hle : r64 (hi / r64 (W / (c : ℚ))) ≤ r64 (lo / r64 (W / (c : ℚ))) + ((c : ℚ) - 1) := by
      have : hi * (1 + 1 / 2 ^ 50) ≤ lo * (1 - 1 / 2 ^ 50) + (W - W / c) := by
        have := hdiff.1
        norm_num at this hwc ⊢
        linarith
      have := mul_le_mul_of_nonneg_left this hk.le
      rw [mul_add _ _ (W - W / c), mul_sub _ W, hcw, hcc] at this
      linarith
    have f1 := Int.floor_le (r64 (hi / r64 (W / (c : ℚ))))
    have f2 := Int.lt_floor_add_one (r64 (lo / r64 (W / (c : ℚ))))
    have : ((cellAt c W hi : ℤ) : ℚ) < ((cellAt c W lo + c : ℤ) : ℚ) := by
      unfold cellAt
      push_cast
      linarith
    have : cellAt c W hi < cellAt c W lo + c := by exact_mod_cast this
    omega

/-- the displacement that the test uses, and the true one -/
theorem image_cases {W x y : ℚ} (hWf : Float64 W) (hW : 0 < W) (hx0 : 0 ≤ x) (hxW : x < W) (hy0 : 0 ≤ y) (hyW : y < W) :
    (nearImage (r64 (x - y)) W = r64 (x - y) ∧ -W / 2 ≤ r64 (x - y) ∧ r64 (x - y) ≤ W / 2) ∨
    (W / 2 < r64 (x - y) ∧ nearImage (r64 (x - y)) W = r64 (r64 (x - y) - W) ∧ |nearImage (r64 (x - y)) W - (x - y - W)| ≤ W / 2 ^ 52) ∨
    (r64 (x - y) < -W / 2 ∧ nearImage (r64 (x - y)) W = r64 (r64 (x - y) + W) ∧ |nearImage (r64 (x - y)) W - (x - y + W)| ≤ W / 2 ^ 52) := by
  have half : r64 (W / 2) = W / 2 := by
    apply r64_float
    have := rep_two_pow hWf (-1)
    have e : W * 2 ^ (-1 : ℤ) = W / 2 := by rw [zpow_neg_one]; rfl
    rw [e] at this
    exact this
  have halfn : r64 (-W / 2) = -W / 2 := by
    apply r64_float
    have := rep_two_pow (rep_neg hWf) (-1)
    have e : -W * 2 ^ (-1 : ℤ) = -W / 2 := by rw [zpow_neg_one]; rfl
    rw [e] at this
    exact this
  have near := r64_near (t := x - y) (B := W) (abs_le.mpr ⟨by linarith, by linarith⟩)
  have up : r64 (x - y) ≤ W := r64_le hWf (by linarith)
  have dn : -W ≤ r64 (x - y) := le_r64 (rep_neg hWf) (by linarith)
  have w53 : W / 2 ^ 53 = W * (1 / 2 ^ 53) := by ring
  have w52 : W / 2 ^ 52 = W * (2 / 2 ^ 53) := by ring
  rw [w53] at near
  rw [w52]
  unfold nearImage
  rw [half, halfn]
  by_cases h1 : r64 (x - y) > W / 2
  · have n2 := r64_near (t := r64 (x - y) - W) (B := W) (abs_le.mpr ⟨by linarith, by linarith⟩)
    rw [w53] at n2
    have hge : -W / 2 ≤ r64 (r64 (x - y) - W) := by
      have : Float64 (-W / 2) := by rw [← halfn]; exact (C95_rounding _).1
      exact le_r64 this (by linarith)
    simp only [if_pos h1, if_neg (not_lt.mpr hge)]
    refine Or.inr (Or.inl ⟨h1, trivial, ?_⟩)
    rw [abs_le]
    norm_num at *
    constructor <;> linarith
  · simp only [if_neg h1]
    by_cases h2 : r64 (x - y) < -W / 2
    · have n2 := r64_near (t := r64 (x - y) + W) (B := W) (abs_le.mpr ⟨by linarith, by linarith⟩)
      rw [w53] at n2
      simp only [if_pos h2]
      refine Or.inr (Or.inr ⟨h2, trivial, ?_⟩)
      rw [abs_le]
      norm_num at *
      constructor <;> linarith
    · simp only [if_neg h2]
      exact Or.inl ⟨trivial, not_lt.mp h2, not_lt.mp h1⟩

theorem near_self {x y : ℚ} : |x - y| ≤ |r64 (x - y)| * (1 + 1 / 2 ^ 52) := by
  have h := r64_abs (x - y)
  have h2 := abs_sub_abs_le_abs_sub (x - y) (r64 (x - y))
  rw [abs_sub_comm (x - y) (r64 (x - y))] at h2
  have h3 : |x - y| / 2 ^ 53 = |x - y| * (1 / 2 ^ 53) := by ring
  have n1 := abs_nonneg (x - y)
  have n2 := abs_nonneg (r64 (x - y))
  rw [h3] at h
  norm_num at h ⊢
  linarith

/-- a coordinate within the radius has its cell among those that are read -/
theorem cover {c : ℕ} {W x y R : ℚ} (hc : 0 < c) (hWf : Float64 W) (hW : 0 < W) (hx0 : 0 ≤ x) (hxW : x < W) (hxf : Float64 x) (hy0 : 0 ≤ y) (hyW : y < W) (hyf : Float64 y)
    (hyc : cellAt c W y < c) (hR0 : 0 ≤ R) (hsmall : 2 * R ≤ W) (hbig : R = 0 ∨ W / 2 ^ 40 ≤ R) (hd : |nearImage (r64 (x - y)) W| ≤ R * (51 / 100)) :
    cellAt c W y ∈ cellsOf (sphereBounds x R (r64 (W / (c : ℚ))) W) c := by
  obtain ⟨lo, hi, e, l0, l1, h0, h1, hcase⟩ := bounds_eq hc hW hx0 hxW hR0 hsmall
  have y0 := cellAt_nonneg hc hW hy0
  rw [e]
  have direct : lo ≤ y → y ≤ hi → cellAt c W y ∈ cellsOf ⟨cellAt c W lo, cellAt c W hi - cellAt c W lo + 1⟩ c := by
    intro ha hb
    have := mem_cellsOf (c := c) (cellAt_mono hc hW ha) (cellAt_mono hc hW hb)
    unfold wrapCell at this
    rwa [if_neg (by omega)] at this
  have shifted : lo + W / 2 ^ 48 ≤ y + W → y + W + W / 2 ^ 48 ≤ hi → cellAt c W y ∈ cellsOf ⟨cellAt c W lo, cellAt c W hi - cellAt c W lo + 1⟩ c := by
    intro ha hb
    have := mem_cellsOf (c := c) (cellAt_shift_le hc hW l0 l1 hy0 hyW.le ha) (cellAt_le_shift hc hW h0 h1 hy0 hyW.le hb)
    unfold wrapCell at this
    rwa [if_pos (by omega), add_sub_cancel_right] at this
  have w48 : W / 2 ^ 48 = W * (1 / 2 ^ 48) := by ring
  have w50 : W / 2 ^ 50 = W * (1 / 2 ^ 50) := by ring
  have w52 : W / 2 ^ 52 = W * (1 / 2 ^ 52) := by ring
  have w40 : W / 2 ^ 40 = W * (1 / 2 ^ 40) := by ring
  rw [w48] at shifted
  rw [w50] at hcase
  rw [w40] at hbig
  rcases image_cases hWf hW hx0 hxW hy0 hyW with ⟨hi1, _⟩ | ⟨hi1, hi2, hi3⟩ | ⟨hi1, hi2, hi3⟩
  · have hn := near_self (x := x) (y := y)
    rw [hi1] at hd
    have hxy : |x - y| ≤ R * (52 / 100) := by norm_num at hn; linarith
    obtain ⟨d1, d2⟩ := abs_le.mp hxy
    rcases hcase with ⟨hxR, rfl, rfl, _⟩ | ⟨hxR, _, _, a, b, d, f⟩
    · exact direct (r64_le hyf (by linarith)) (le_r64 hyf (by linarith))
    · have hRp := hbig.resolve_left (by intro h; linarith)
      norm_num at *
      exact shifted (by linarith) (by linarith)
  · have hRp : W * (1 / 2 ^ 40) ≤ R := by
      refine hbig.resolve_left ?_
      intro h
      rw [h, zero_mul] at hd
      have hz : nearImage (r64 (x - y)) W = 0 := abs_nonpos_iff.mp hd
      rw [hi2] at hz
      have hle : r64 (x - y) ≤ x := r64_le hxf (by linarith)
      have : r64 (r64 (x - y) - W) < 0 := r64_neg_iff.mpr (by linarith)
      linarith
    rw [w52] at hi3
    obtain ⟨d1, d2⟩ := abs_le.mp hi3
    obtain ⟨d3, d4⟩ := abs_le.mp hd
    rcases hcase with ⟨hxR, _, _, a, b, d, f⟩ | ⟨hxR, _, _, a, b, d, f⟩
    · norm_num at *
      exact shifted (by linarith) (by linarith)
    · exfalso
      norm_num at *
      linarith
  · have hRp : W * (1 / 2 ^ 40) ≤ R := by
      refine hbig.resolve_left ?_
      intro h
      rw [h, zero_mul] at hd
      have hz : nearImage (r64 (x - y)) W = 0 := abs_nonpos_iff.mp hd
      rw [hi2] at hz
      have hle : -y ≤ r64 (x - y) := le_r64 (rep_neg hyf) (by linarith)
      have : 0 < r64 (r64 (x - y) + W) := r64_pos (by linarith)
      linarith
    rw [w52] at hi3
    obtain ⟨d1, d2⟩ := abs_le.mp hi3
    obtain ⟨d3, d4⟩ := abs_le.mp hd
    rcases hcase with ⟨hxR, _, _, a, b, d, f⟩ | ⟨hxR, _, hhi, a, b, d, f⟩
    · exfalso
      norm_num at *
      linarith
    · refine direct (by norm_num at *; linarith) ?_
      rw [hhi]
      have : 0 ≤ r64 (x + R) := r64_nonneg (by linarith)
      exact (hyW.le).trans (le_r64 hWf (by linarith))

end Shellfish.Round
