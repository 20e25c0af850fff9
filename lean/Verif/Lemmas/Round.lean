/- Rounding to the nearest number with `p` significant bits. -/
import Verif.Model.Round
import Mathlib.Tactic.Linarith
import Mathlib.Tactic.Ring
import Mathlib.Tactic.FieldSimp
import Mathlib.Tactic.NormNum
import Mathlib.Tactic.Positivity
import Mathlib.Algebra.Order.Field.Power

namespace Shellfish.Round

/-- A number with at most `p` significant bits. -/
def Rep (p : ℕ) (x : ℚ) : Prop := ∃ m e : ℤ, |m| < 2 ^ p ∧ x = m * 2 ^ e

theorem nearest_int (n : ℤ) : nearest (n : ℚ) = n := by
  unfold nearest
  simp

theorem nearest_bound (x : ℚ) : |(nearest x : ℚ) - x| ≤ 1 / 2 := by
  have h0 := Int.floor_le x
  have h1 := Int.lt_floor_add_one x
  unfold nearest
  rw [abs_le]
  by_cases a : x - ⌊x⌋ < 1 / 2
  · simp only [a, if_true]; constructor <;> linarith
  · by_cases b : 1 / 2 < x - ⌊x⌋
    · simp only [a, b, if_true, if_false]; push_cast; constructor <;> linarith
    · by_cases c : ⌊x⌋ % 2 = 0
      · simp only [a, b, c, if_true, if_false]; constructor <;> linarith
      · simp only [a, b, c, if_false]; push_cast; constructor <;> linarith

theorem nearest_unique (x : ℚ) (z : ℤ) (h : |x - z| < 1 / 2) : nearest x = z := by
  have hb := nearest_bound x
  have h2 : |((nearest x : ℚ)) - z| < 1 := by
    have := abs_add_le ((nearest x : ℚ) - x) (x - z)
    rw [sub_add_sub_cancel] at this
    linarith
  have h3 : |nearest x - z| < 1 := by
    have : ((|nearest x - z| : ℤ) : ℚ) < 1 := by push_cast; exact h2
    exact_mod_cast this
  have := Int.abs_lt_one_iff.mp h3
  omega

theorem nearest_mono {x y : ℚ} (h : x ≤ y) : nearest x ≤ nearest y := by
  by_contra hlt
  push Not at hlt
  have hx := abs_le.mp (nearest_bound x)
  have hy := abs_le.mp (nearest_bound y)
  have h1 : (nearest y : ℚ) + 1 ≤ nearest x := by exact_mod_cast hlt
  -- equality everywhere
  have e1 : (nearest x : ℚ) = x + 1 / 2 := by linarith [hx.2, hy.1]
  have e2 : y = x := by linarith [hx.2, hy.1]
  subst e2
  exact lt_irrefl _ hlt

theorem two_pow_pos (e : ℤ) : (0 : ℚ) < 2 ^ e := by positivity

theorem log_bounds {x : ℚ} (hx : x ≠ 0) : (2 : ℚ) ^ Int.log 2 |x| ≤ |x| ∧ |x| < 2 ^ (Int.log 2 |x| + 1) := by
  have h := abs_pos.mpr hx
  refine ⟨?_, ?_⟩
  · have := Int.zpow_log_le_self (b := 2) (r := |x|) (by norm_num) h
    exact_mod_cast this
  · have := Int.lt_zpow_succ_log_self (b := 2) (by norm_num) |x|
    exact_mod_cast this

theorem log_unique {x : ℚ} {k : ℤ} (h1 : (2 : ℚ) ^ k ≤ |x|) (h2 : |x| < 2 ^ (k + 1)) : Int.log 2 |x| = k := by
  have hx : x ≠ 0 := by
    rintro rfl
    rw [abs_zero] at h1
    exact absurd (two_pow_pos k) (not_lt.mpr h1)
  obtain ⟨a, b⟩ := log_bounds hx
  have c1 : k < Int.log 2 |x| + 1 := (zpow_lt_zpow_iff_right₀ (by norm_num : (1 : ℚ) < 2)).mp (lt_of_le_of_lt h1 b)
  have c2 : Int.log 2 |x| < k + 1 := (zpow_lt_zpow_iff_right₀ (by norm_num : (1 : ℚ) < 2)).mp (lt_of_le_of_lt a h2)
  omega

theorem rn_zero (p : ℕ) : rn p 0 = 0 := by
  unfold rn
  rw [zero_div]
  have := nearest_int 0
  rw [Int.cast_zero] at this
  rw [this]
  simp

/-- numbers with `p` bits are not changed -/
theorem rn_rep {p : ℕ} {x : ℚ} (h : Rep p x) : rn p x = x := by
  obtain ⟨m, e, hm, rfl⟩ := h
  by_cases h0 : (m : ℚ) * 2 ^ e = 0
  · rw [h0, rn_zero]
  obtain ⟨a, b⟩ := log_bounds h0
  have he : lastBit p ((m : ℚ) * 2 ^ e) ≤ e := by
    unfold lastBit
    have h1 : |(m : ℚ) * 2 ^ e| < 2 ^ ((p : ℤ) + e) := by
      rw [abs_mul, abs_of_pos (two_pow_pos e), zpow_add₀ (by norm_num)]
      refine mul_lt_mul_of_pos_right ?_ (two_pow_pos e)
      have : ((|m| : ℤ) : ℚ) < ((2 ^ p : ℤ) : ℚ) := by exact_mod_cast hm
      push_cast at this
      rw [zpow_natCast]
      exact this
    have := (zpow_lt_zpow_iff_right₀ (by norm_num : (1 : ℚ) < 2)).mp (lt_of_le_of_lt a h1)
    omega
  unfold rn
  obtain ⟨k, hk⟩ := Int.eq_ofNat_of_zero_le (sub_nonneg.mpr he)
  have h2 : (m : ℚ) * 2 ^ e / 2 ^ lastBit p ((m : ℚ) * 2 ^ e) = ((m * 2 ^ k : ℤ) : ℚ) := by
    rw [mul_div_assoc, ← zpow_sub₀ (by norm_num), hk]
    push_cast
    rw [zpow_natCast]
  rw [h2, nearest_int, ← h2]
  exact div_mul_cancel₀ _ (two_pow_pos _).ne'

theorem rn_error {p : ℕ} (hp : 0 < p) (x : ℚ) : |rn p x - x| ≤ 2 ^ (-(p : ℤ)) * |x| := by
  by_cases h0 : x = 0
  · subst h0; rw [rn_zero]; simp
  obtain ⟨a, -⟩ := log_bounds h0
  unfold rn
  have h1 : (nearest (x / 2 ^ lastBit p x) : ℚ) * 2 ^ lastBit p x - x = ((nearest (x / 2 ^ lastBit p x) : ℚ) - x / 2 ^ lastBit p x) * 2 ^ lastBit p x := by
    rw [sub_mul, div_mul_cancel₀ _ (two_pow_pos _).ne']
  rw [h1, abs_mul, abs_of_pos (two_pow_pos _)]
  refine le_trans (mul_le_mul_of_nonneg_right (nearest_bound _) (two_pow_pos _).le) ?_
  have h2 : (1 / 2 : ℚ) * 2 ^ lastBit p x = 2 ^ (-(p : ℤ)) * 2 ^ Int.log 2 |x| := by
    unfold lastBit
    rw [← zpow_add₀ (by norm_num), show Int.log 2 |x| - ((p : ℤ) - 1) = -(p : ℤ) + Int.log 2 |x| + 1 by ring, zpow_add_one₀ (by norm_num)]
    ring
  rw [h2]
  exact mul_le_mul_of_nonneg_left a (two_pow_pos _).le

theorem nearest_neg_one (x : ℚ) : |(nearest (-x) : ℚ) + nearest x| ≤ 1 := by
  have h1 := nearest_bound x
  have h2 := nearest_bound (-x)
  have := abs_add_le ((nearest (-x) : ℚ) - -x) ((nearest x : ℚ) - x)
  have e : ((nearest (-x) : ℚ) - -x) + ((nearest x : ℚ) - x) = (nearest (-x) : ℚ) + nearest x := by ring
  rw [e] at this
  linarith

/-- rounding does not cross a number with `p` bits from above -/
theorem rn_le_pow {p : ℕ} (hp : 0 < p) {x : ℚ} (hx : x ≠ 0) : |rn p x| ≤ 2 ^ (Int.log 2 |x| + 1) ∧ 2 ^ Int.log 2 |x| ≤ |rn p x| := by
  obtain ⟨a, b⟩ := log_bounds hx
  obtain ⟨q, rfl⟩ : ∃ q, p = q + 1 := ⟨p - 1, by omega⟩
  have hl : lastBit (q + 1) x = Int.log 2 |x| - q := by unfold lastBit; push_cast; ring
  have key : ∀ z : ℤ, |rn (q + 1) x| = |(nearest (x / 2 ^ lastBit (q + 1) x) : ℚ)| * 2 ^ lastBit (q + 1) x := by
    intro _
    unfold rn
    rw [abs_mul, abs_of_pos (two_pow_pos _)]
  have hy1 : (2 : ℚ) ^ q ≤ |x / 2 ^ lastBit (q + 1) x| := by
    rw [abs_div, abs_of_pos (two_pow_pos _), le_div_iff₀ (two_pow_pos _), hl]
    refine le_trans (le_of_eq ?_) a
    rw [← zpow_natCast, ← zpow_add₀ (by norm_num)]
    congr 1; ring
  have hy2 : |x / 2 ^ lastBit (q + 1) x| ≤ 2 ^ (q + 1) := by
    rw [abs_div, abs_of_pos (two_pow_pos _), div_le_iff₀ (two_pow_pos _), hl]
    refine le_trans b.le (le_of_eq ?_)
    rw [← zpow_natCast, ← zpow_add₀ (by norm_num)]
    congr 1; push_cast; ring
  have hn1 : (2 : ℤ) ^ q ≤ |nearest (x / 2 ^ lastBit (q + 1) x)| := by
    rcases le_abs.mp hy1 with h | h
    · have := nearest_mono h
      rw [show ((2 : ℚ) ^ q) = ((2 ^ q : ℤ) : ℚ) by push_cast; rfl, nearest_int] at this
      exact le_trans this (le_abs_self _)
    · have h' : x / 2 ^ lastBit (q + 1) x ≤ ((-(2 ^ q) : ℤ) : ℚ) := by push_cast; linarith
      have := nearest_mono h'
      rw [nearest_int] at this
      exact le_trans (by omega) (neg_le_abs _)
  have hn2 : |nearest (x / 2 ^ lastBit (q + 1) x)| ≤ (2 : ℤ) ^ (q + 1) := by
    obtain ⟨h1, h2⟩ := abs_le.mp hy2
    rw [abs_le]
    constructor
    · have h' : ((-(2 ^ (q + 1)) : ℤ) : ℚ) ≤ x / 2 ^ lastBit (q + 1) x := by push_cast; linarith
      have := nearest_mono h'
      rwa [nearest_int] at this
    · have h' : x / 2 ^ lastBit (q + 1) x ≤ ((2 ^ (q + 1) : ℤ) : ℚ) := by push_cast; linarith
      have := nearest_mono h'
      rwa [nearest_int] at this
  rw [key 0]
  have c1 : ((2 ^ q : ℤ) : ℚ) ≤ ((|nearest (x / 2 ^ lastBit (q + 1) x)| : ℤ) : ℚ) := by exact_mod_cast hn1
  have c2 : ((|nearest (x / 2 ^ lastBit (q + 1) x)| : ℤ) : ℚ) ≤ ((2 ^ (q + 1) : ℤ) : ℚ) := by exact_mod_cast hn2
  push_cast at c1 c2
  constructor
  · refine le_trans (mul_le_mul_of_nonneg_right c2 (two_pow_pos _).le) (le_of_eq ?_)
    rw [hl, ← zpow_natCast, ← zpow_add₀ (by norm_num)]
    congr 1; push_cast; ring
  · refine le_trans (le_of_eq ?_) (mul_le_mul_of_nonneg_right c1 (two_pow_pos _).le)
    rw [hl, ← zpow_natCast, ← zpow_add₀ (by norm_num)]
    congr 1; ring

theorem rn_nonneg {p : ℕ} {x : ℚ} (h : 0 ≤ x) : 0 ≤ rn p x := by
  unfold rn
  refine mul_nonneg ?_ (two_pow_pos _).le
  have := nearest_mono (div_nonneg h (two_pow_pos (lastBit p x)).le)
  rw [show (0 : ℚ) = ((0 : ℤ) : ℚ) by simp, nearest_int] at this
  exact_mod_cast this

theorem rn_nonpos {p : ℕ} {x : ℚ} (h : x ≤ 0) : rn p x ≤ 0 := by
  unfold rn
  refine mul_nonpos_of_nonpos_of_nonneg ?_ (two_pow_pos _).le
  have := nearest_mono (div_nonpos_of_nonpos_of_nonneg h (two_pow_pos (lastBit p x)).le)
  rw [show (0 : ℚ) = ((0 : ℤ) : ℚ) by simp, nearest_int] at this
  exact_mod_cast this

/-- rounding is monotone -/
theorem rn_mono {p : ℕ} (hp : 0 < p) {x y : ℚ} (h : x ≤ y) : rn p x ≤ rn p y := by
  rcases le_or_gt x 0 with hx | hx
  · rcases le_or_gt 0 y with hy | hy
    · exact le_trans (rn_nonpos hx) (rn_nonneg hy)
    · -- both negative
      have hx' : x < 0 := lt_of_le_of_lt h hy
      have habs : |y| ≤ |x| := by rw [abs_of_neg hy, abs_of_neg hx']; linarith
      have hlog : Int.log 2 |y| ≤ Int.log 2 |x| := Int.log_mono_right (abs_pos.mpr hy.ne) habs
      rcases hlog.lt_or_eq with hlt | heq
      · have h1 := (rn_le_pow hp hy.ne).1
        have h2 := (rn_le_pow hp hx'.ne).2
        have h3 : (2 : ℚ) ^ (Int.log 2 |y| + 1) ≤ 2 ^ Int.log 2 |x| := zpow_le_zpow_right₀ (by norm_num) (by omega)
        rw [abs_of_nonpos (rn_nonpos hy.le)] at h1
        rw [abs_of_nonpos (rn_nonpos hx)] at h2
        linarith
      · unfold rn
        have e : lastBit p x = lastBit p y := by unfold lastBit; rw [heq]
        rw [e]
        refine mul_le_mul_of_nonneg_right ?_ (two_pow_pos _).le
        exact_mod_cast nearest_mono (div_le_div_of_nonneg_right h (two_pow_pos _).le)
  · have hy : 0 < y := lt_of_lt_of_le hx h
    have habs : |x| ≤ |y| := by rwa [abs_of_pos hy, abs_of_pos hx]
    have hlog : Int.log 2 |x| ≤ Int.log 2 |y| := Int.log_mono_right (abs_pos.mpr hx.ne') habs
    rcases hlog.lt_or_eq with hlt | heq
    · have h1 := (rn_le_pow hp hx.ne').1
      have h2 := (rn_le_pow hp hy.ne').2
      have h3 : (2 : ℚ) ^ (Int.log 2 |x| + 1) ≤ 2 ^ Int.log 2 |y| := zpow_le_zpow_right₀ (by norm_num) (by omega)
      rw [abs_of_nonneg (rn_nonneg hx.le)] at h1
      rw [abs_of_nonneg (rn_nonneg hy.le)] at h2
      linarith
    · unfold rn
      have e : lastBit p x = lastBit p y := by unfold lastBit; rw [heq]
      rw [e]
      refine mul_le_mul_of_nonneg_right ?_ (two_pow_pos _).le
      exact_mod_cast nearest_mono (div_le_div_of_nonneg_right h (two_pow_pos _).le)

/-- a result of rounding has `p` bits -/
theorem rep_rn {p : ℕ} (hp : 0 < p) (x : ℚ) : Rep p (rn p x) := by
  by_cases h0 : x = 0
  · subst h0; rw [rn_zero]; exact ⟨0, 0, by positivity, by simp⟩
  have hb := (rn_le_pow hp h0).1
  have hm : |nearest (x / 2 ^ lastBit p x)| ≤ 2 ^ p := by
    unfold rn at hb
    rw [abs_mul, abs_of_pos (two_pow_pos _), ← le_div_iff₀ (two_pow_pos _), ← zpow_sub₀ (by norm_num)] at hb
    have e : Int.log 2 |x| + 1 - lastBit p x = p := by unfold lastBit; ring
    rw [e, zpow_natCast] at hb
    exact_mod_cast hb
  rcases hm.lt_or_eq with hlt | heq
  · exact ⟨_, _, hlt, rfl⟩
  · obtain ⟨q, rfl⟩ : ∃ q, p = q + 1 := ⟨p - 1, by omega⟩
    have key : ∀ s : ℤ, |s| = 1 → nearest (x / 2 ^ lastBit (q + 1) x) = s * 2 ^ (q + 1) → Rep (q + 1) (rn (q + 1) x) := by
      intro s hs hn
      refine ⟨s * 2 ^ q, lastBit (q + 1) x + 1, ?_, ?_⟩
      · rw [abs_mul, hs, one_mul, abs_of_pos (by positivity)]
        exact pow_lt_pow_right₀ (by norm_num) (by omega)
      · unfold rn
        rw [hn, zpow_add_one₀ (by norm_num)]
        push_cast
        ring
    rcases abs_eq (by positivity) |>.mp heq with h | h
    · exact key 1 (by simp) (by rw [h]; ring)
    · exact key (-1) (by simp) (by rw [h]; ring)

/-- the value of a rounding, from the binade and the nearest integer -/
theorem rn_eq {p : ℕ} {x : ℚ} (k z : ℤ) (h1 : (2 : ℚ) ^ k ≤ |x|) (h2 : |x| < 2 ^ (k + 1)) (h3 : |x / 2 ^ (k - ((p : ℤ) - 1)) - z| < 1 / 2) : rn p x = z * 2 ^ (k - ((p : ℤ) - 1)) := by
  unfold rn lastBit
  rw [log_unique h1 h2, nearest_unique _ _ h3]

theorem rn_le {p : ℕ} (hp : 0 < p) {x f : ℚ} (hf : Rep p f) (h : x ≤ f) : rn p x ≤ f := by
  have := rn_mono hp h
  rwa [rn_rep hf] at this

theorem le_rn {p : ℕ} (hp : 0 < p) {x f : ℚ} (hf : Rep p f) (h : f ≤ x) : f ≤ rn p x := by
  have := rn_mono hp h
  rwa [rn_rep hf] at this

theorem rep_int {p : ℕ} (n : ℤ) (h : |n| < 2 ^ p) : Rep p (n : ℚ) := ⟨n, 0, h, by simp⟩

theorem rep_neg {p : ℕ} {x : ℚ} (h : Rep p x) : Rep p (-x) := by
  obtain ⟨m, e, hm, rfl⟩ := h
  exact ⟨-m, e, by rwa [abs_neg], by push_cast; ring⟩

theorem rep_zero (p : ℕ) : Rep p 0 := ⟨0, 0, by rw [abs_zero]; positivity, by simp⟩

theorem rep_two_pow {p : ℕ} {x : ℚ} (h : Rep p x) (k : ℤ) : Rep p (x * 2 ^ k) := by
  obtain ⟨m, e, hm, rfl⟩ := h
  exact ⟨m, e + k, hm, by rw [zpow_add₀ (by norm_num)]; ring⟩

/-- with a positive exact value the rounding is between (1 - u) and (1 + u) times it -/
theorem rn_bounds {p : ℕ} (hp : 0 < p) {x : ℚ} (hx : 0 ≤ x) : x * (1 - 2 ^ (-(p : ℤ))) ≤ rn p x ∧ rn p x ≤ x * (1 + 2 ^ (-(p : ℤ))) := by
  have := rn_error hp x
  rw [abs_of_nonneg hx, abs_le] at this
  constructor <;> nlinarith [this.1, this.2]
theorem nearest_min (y : ℚ) (w : ℤ) : |(nearest y : ℚ) - y| ≤ |(w : ℚ) - y| := by
  by_cases h : w = nearest y
  · rw [h]
  · have h1 : (1 : ℤ) ≤ |w - nearest y| := Int.one_le_abs (sub_ne_zero.mpr h)
    have h2 : (1 : ℚ) ≤ |(w : ℚ) - nearest y| := by exact_mod_cast h1
    have h3 := nearest_bound y
    have h4 := abs_sub_le (w : ℚ) y (nearest y)
    rw [abs_sub_comm y] at h4
    linarith

/-- no number with `p` bits is closer -/
theorem rn_nearest {p : ℕ} (hp : 0 < p) (x f : ℚ) (hf : Rep p f) : |rn p x - x| ≤ |f - x| := by
  by_cases h0 : x = 0
  · subst h0; rw [rn_zero]; simp
  obtain ⟨a, b⟩ := log_bounds h0
  have key : ∀ w : ℤ, |rn p x - x| ≤ |(w : ℚ) * 2 ^ lastBit p x - x| := by
    intro w
    have e : ∀ z : ℤ, (z : ℚ) * 2 ^ lastBit p x - x = ((z : ℚ) - x / 2 ^ lastBit p x) * 2 ^ lastBit p x := by
      intro z
      rw [sub_mul, div_mul_cancel₀ _ (two_pow_pos _).ne']
    unfold rn
    rw [e, e, abs_mul, abs_mul]
    exact mul_le_mul_of_nonneg_right (nearest_min _ w) (abs_nonneg _)
  obtain ⟨m, e, hm, rfl⟩ := hf
  rcases le_or_gt (lastBit p x) e with he | he
  · obtain ⟨k, hk⟩ := Int.eq_ofNat_of_zero_le (sub_nonneg.mpr he)
    have := key (m * 2 ^ k)
    have e2 : ((m * 2 ^ k : ℤ) : ℚ) * 2 ^ lastBit p x = m * 2 ^ e := by
      push_cast
      rw [mul_assoc, ← zpow_natCast, ← hk, ← zpow_add₀ (by norm_num)]
      congr 2; ring
    rwa [e2] at this
  · obtain ⟨q, rfl⟩ : ∃ q, p = q + 1 := ⟨p - 1, by omega⟩
    have hf : |(m : ℚ) * 2 ^ e| ≤ 2 ^ Int.log 2 |x| := by
      rw [abs_mul, abs_of_pos (two_pow_pos e)]
      have h1 : ((|m| : ℤ) : ℚ) ≤ ((2 ^ (q + 1) : ℤ) : ℚ) := by exact_mod_cast hm.le
      push_cast at h1
      refine le_trans (mul_le_mul_of_nonneg_right h1 (two_pow_pos e).le) ?_
      rw [← zpow_natCast, ← zpow_add₀ (by norm_num)]
      refine zpow_le_zpow_right₀ (by norm_num) ?_
      unfold lastBit at he
      push_cast at he ⊢
      omega
    have hl : (2 : ℚ) ^ Int.log 2 |x| = 2 ^ q * 2 ^ lastBit (q + 1) x := by
      unfold lastBit
      rw [← zpow_natCast, ← zpow_add₀ (by norm_num)]
      congr 1; push_cast; ring
    have hsub : |x| - |(m : ℚ) * 2 ^ e| ≤ |(m : ℚ) * 2 ^ e - x| := by
      have := abs_sub_abs_le_abs_sub x ((m : ℚ) * 2 ^ e)
      rwa [abs_sub_comm x] at this
    rcases lt_or_gt_of_ne h0 with hx | hx
    · have h1 := key (-(2 ^ q))
      push_cast at h1
      rw [neg_mul, ← hl] at h1
      refine le_trans h1 ?_
      rw [abs_of_neg hx] at a hsub hf
      rw [abs_of_neg hx, abs_of_nonneg (by linarith)]
      linarith
    · have h1 := key (2 ^ q)
      push_cast at h1
      rw [← hl] at h1
      refine le_trans h1 ?_
      rw [abs_of_pos hx] at a hsub hf
      rw [abs_of_pos hx, abs_of_nonpos (by linarith)]
      linarith

theorem toInt_nonneg {x : ℚ} (h : 0 ≤ x) : Shellfish.Finder.toInt x = ⌊x⌋ := by
  unfold Shellfish.Finder.toInt Shellfish.Los.modf
  rw [if_pos h]

end Shellfish.Round
