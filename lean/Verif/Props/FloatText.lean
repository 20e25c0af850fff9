/- C105: the text of floating point numbers. -/
import Verif.Lemmas.FloatText
import Verif.Props.CatalogWrite
import Verif.Props.Round

namespace Shellfish.FloatText
open Shellfish.Round (nearest r64 nearest_bound nearest_min nearest_unique nearest_mono nearest_int rn_error rn_zero)
open Shellfish.Text Shellfish.Catalog

/-! ### Specification -/

/-- A decimal number with at most six significant digits. -/
def Decimal6 (d : ℚ) : Prop := ∃ m e : ℤ, |m| < 10 ^ 6 ∧ d = m * 10 ^ e

/-- `d` is a decimal number with six significant digits that is as near to `x` as any. -/
def Nearest6 (x d : ℚ) : Prop := Decimal6 d ∧ ∀ d', Decimal6 d' → |d - x| ≤ |d' - x|

/-! ### Six digits -/

theorem ten_pow_pos (e : ℤ) : (0 : ℚ) < 10 ^ e := by positivity

theorem log10_bounds {a : ℚ} (ha : 0 < a) : (10 : ℚ) ^ Int.log 10 a ≤ a ∧ a < 10 ^ (Int.log 10 a + 1) := by
  refine ⟨?_, ?_⟩
  · have := Int.zpow_log_le_self (b := 10) (r := a) (by norm_num) ha
    exact_mod_cast this
  · have := Int.lt_zpow_succ_log_self (b := 10) (by norm_num) a
    exact_mod_cast this

theorem log10_unique {a : ℚ} {k : ℤ} (h1 : (10 : ℚ) ^ k ≤ a) (h2 : a < 10 ^ (k + 1)) : Int.log 10 a = k := by
  have ha : 0 < a := lt_of_lt_of_le (ten_pow_pos k) h1
  obtain ⟨b1, b2⟩ := log10_bounds ha
  have c1 : (10 : ℚ) ^ k < 10 ^ (Int.log 10 a + 1) := lt_of_le_of_lt h1 b2
  have c2 : (10 : ℚ) ^ Int.log 10 a < 10 ^ (k + 1) := lt_of_le_of_lt b1 h2
  have d1 := (zpow_lt_zpow_iff_right₀ (by norm_num : (1 : ℚ) < 10)).mp c1
  have d2 := (zpow_lt_zpow_iff_right₀ (by norm_num : (1 : ℚ) < 10)).mp c2
  omega

/-- the unit of the sixth digit -/
def unit6 (a : ℚ) : ℚ := 10 ^ (Int.log 10 a - 5)

theorem unit6_pos (a : ℚ) : 0 < unit6 a := ten_pow_pos _
theorem unit6_low {a : ℚ} (ha : 0 < a) : 10 ^ 5 * unit6 a ≤ a := by
  have := (log10_bounds ha).1
  unfold unit6
  rw [← zpow_natCast, ← zpow_add₀ (by norm_num)]
  convert this using 2; push_cast; ring
theorem unit6_high {a : ℚ} (ha : 0 < a) : a < 10 ^ 6 * unit6 a := by
  have := (log10_bounds ha).2
  unfold unit6
  rw [← zpow_natCast, ← zpow_add₀ (by norm_num)]
  convert this using 2; push_cast; ring

theorem six {a : ℚ} (ha : 0 < a) : (10 : ℤ) ^ 5 ≤ nearest (a / unit6 a) ∧ nearest (a / unit6 a) ≤ 10 ^ 6 := by
  have hu := unit6_pos a
  constructor
  · have h : ((10 ^ 5 : ℤ) : ℚ) ≤ a / unit6 a := by rw [le_div_iff₀ hu]; push_cast; exact unit6_low ha
    have := nearest_mono h
    rwa [nearest_int] at this
  · have h : a / unit6 a ≤ ((10 ^ 6 : ℤ) : ℚ) := by rw [div_le_iff₀ hu]; push_cast; exact (unit6_high ha).le
    have := nearest_mono h
    rwa [nearest_int] at this

theorem sig6_spec {a : ℚ} (ha : 0 < a) : 10 ^ 5 ≤ (sig6 a).1 ∧ (sig6 a).1 < 10 ^ 6 ∧ ((sig6 a).1 : ℚ) * 10 ^ ((sig6 a).2 - 5) = nearest (a / unit6 a) * unit6 a := by
  obtain ⟨h1, h2⟩ := six ha
  unfold sig6
  dsimp only
  rw [show a / 10 ^ (Int.log 10 a - 5) = a / unit6 a from rfl]
  have hc : ((nearest (a / unit6 a)).toNat : ℤ) = nearest (a / unit6 a) := Int.toNat_of_nonneg (by omega)
  by_cases h : (nearest (a / unit6 a)).toNat = 10 ^ 6
  · rw [if_pos h]
    refine ⟨le_refl _, by norm_num, ?_⟩
    have : nearest (a / unit6 a) = 10 ^ 6 := by rw [← hc, h]; norm_num
    rw [this]
    unfold unit6
    dsimp only
    rw [show Int.log 10 a + 1 - 5 = (Int.log 10 a - 5) + 1 by ring, zpow_add₀ (by norm_num)]
    push_cast; norm_num; ring
  · rw [if_neg h]
    dsimp only
    refine ⟨by omega, by omega, ?_⟩
    unfold unit6 at hc ⊢
    have : (((nearest (a / 10 ^ (Int.log 10 a - 5))).toNat : ℤ) : ℚ) = nearest (a / 10 ^ (Int.log 10 a - 5)) := by rw [hc]
    rw [← this, Int.cast_natCast]

/-- the number that is written for a positive number -/
def val6 (a : ℚ) : ℚ := nearest (a / unit6 a) * unit6 a

theorem val6_pos {a : ℚ} (ha : 0 < a) : 0 < val6 a := by
  have h : (0 : ℚ) < nearest (a / unit6 a) := by exact_mod_cast lt_of_lt_of_le (by norm_num) (six ha).1
  exact mul_pos h (unit6_pos a)

theorem val6_near {a : ℚ} (ha : 0 < a) : |val6 a - a| ≤ a / 200000 := by
  have hu := unit6_pos a
  have e : val6 a - a = ((nearest (a / unit6 a) : ℚ) - a / unit6 a) * unit6 a := by
    unfold val6; rw [sub_mul, div_mul_cancel₀ _ hu.ne']
  rw [e, abs_mul, abs_of_pos hu]
  have h1 := mul_le_mul_of_nonneg_right (nearest_bound (a / unit6 a)) hu.le
  have h2 := unit6_low ha
  linarith

theorem val6_nearest {a : ℚ} (ha : 0 < a) (d' : ℚ) (h : Decimal6 d') : |val6 a - a| ≤ |d' - a| := by
  have hu := unit6_pos a
  have key : ∀ w : ℤ, |val6 a - a| ≤ |(w : ℚ) * unit6 a - a| := by
    intro w
    have e : ∀ z : ℤ, (z : ℚ) * unit6 a - a = ((z : ℚ) - a / unit6 a) * unit6 a := by
      intro z; rw [sub_mul, div_mul_cancel₀ _ hu.ne']
    unfold val6
    rw [e, e, abs_mul, abs_mul]
    exact mul_le_mul_of_nonneg_right (nearest_min _ w) (abs_nonneg _)
  obtain ⟨m, e, hm, rfl⟩ := h
  rcases le_or_gt (Int.log 10 a - 5) e with he | he
  · obtain ⟨k, hk⟩ := Int.eq_ofNat_of_zero_le (sub_nonneg.mpr he)
    have := key (m * 10 ^ k)
    have e2 : ((m * 10 ^ k : ℤ) : ℚ) * unit6 a = m * 10 ^ e := by
      unfold unit6
      push_cast
      rw [mul_assoc, ← zpow_natCast, ← hk, ← zpow_add₀ (by norm_num)]
      congr 2; ring
    rwa [e2] at this
  · have hb : |(m : ℚ) * 10 ^ e| ≤ 10 ^ 5 * unit6 a := by
      rw [abs_mul, abs_of_pos (ten_pow_pos e)]
      have h1 : |(m : ℚ)| ≤ 10 ^ 6 := by exact_mod_cast hm.le
      refine le_trans (mul_le_mul_of_nonneg_right h1 (ten_pow_pos e).le) ?_
      unfold unit6
      rw [← zpow_natCast, ← zpow_natCast, ← zpow_add₀ (by norm_num), ← zpow_add₀ (by norm_num)]
      refine zpow_le_zpow_right₀ (by norm_num) ?_
      push_cast; omega
    have h1 : |val6 a - a| ≤ |(10 : ℚ) ^ 5 * unit6 a - a| := by
      have := key (10 ^ 5)
      rwa [show (((10 : ℤ) ^ 5 : ℤ) : ℚ) = 10 ^ 5 by norm_num] at this
    have hl := unit6_low ha
    rw [abs_of_nonpos (by linarith : (10 : ℚ) ^ 5 * unit6 a - a ≤ 0)] at h1
    have h2 : a - |(m : ℚ) * 10 ^ e| ≤ |(m : ℚ) * 10 ^ e - a| := by
      have := abs_sub_abs_le_abs_sub a ((m : ℚ) * 10 ^ e)
      rwa [abs_of_pos ha, abs_sub_comm a] at this
    linarith

theorem val6_decimal {a : ℚ} (ha : 0 < a) : Decimal6 (val6 a) := by
  obtain ⟨h1, h2, h3⟩ := sig6_spec ha
  refine ⟨(sig6 a).1, (sig6 a).2 - 5, ?_, ?_⟩
  · rw [abs_of_nonneg (by positivity)]; exact_mod_cast h2
  · unfold val6; rw [← h3]; push_cast; rfl

/-! ### The text -/

theorem digs_spec {a : ℚ} (ha : 0 < a) : AllDig (digs a).1 ∧ (digs a).1 ≠ [] ∧ (digs a).1.length ≤ 6 ∧ (dv (digs a).1 : ℚ) * 10 ^ ((digs a).2 - ((digs a).1.length : ℤ)) = val6 a := by
  obtain ⟨h1, h2, h3⟩ := sig6_spec ha
  unfold digs
  rw [if_neg ha.ne']
  dsimp only
  obtain ⟨j, hj⟩ := strip (natDigits (sig6 a).1)
  have hall := allDig_natDigits (sig6 a).1
  have hlen := natDigits_length 5 _ h1 h2
  rw [hj] at hall
  obtain ⟨hd, hz⟩ := allDig_append.mp hall
  have hv := dv_natDigits (sig6 a).1
  rw [hj, dv_append hd hz, dv_zeros, List.length_replicate, add_zero] at hv
  have hl : (trimRight (· == '0') (natDigits (sig6 a).1)).length + j = 6 := by
    have := congrArg List.length hj
    rw [List.length_append, List.length_replicate, hlen] at this
    omega
  set ds := trimRight (· == '0') (natDigits (sig6 a).1) with hds
  refine ⟨hd, ?_, by omega, ?_⟩
  · intro h0
    rw [h0] at hv
    have : dv [] = 0 := rfl
    rw [this, zero_mul] at hv
    omega
  · unfold val6
    rw [← h3, ← hv]
    push_cast
    rw [mul_assoc, ← zpow_natCast, ← zpow_add₀ (by norm_num)]
    congr 2
    have : (ds.length : ℤ) + j = 6 := by exact_mod_cast hl
    omega

theorem fmtG_zero : fmtG [] 0 = ['0'] := by decide

theorem decimal_digit {s : List Char} {c : Char} {t : List Char} (h : s = c :: t) (hc : isDigit c = true) : decimal s = unsignedDec s := by
  subst h
  have h1 : c ≠ '-' := by rintro rfl; revert hc; decide
  have h2 : c ≠ '+' := by rintro rfl; revert hc; decide
  rw [decimal, if_neg h1, if_neg h2]

theorem fmt6_pos {x : ℚ} (h : 0 < x) : decimal (fmt6 x) = some (val6 x) := by
  obtain ⟨h1, h2, h3, h4⟩ := digs_spec h
  unfold fmt6
  rw [if_neg (by linarith), abs_of_pos h]
  obtain ⟨-, c, t, e, hc⟩ := fmtG_chars h1 (digs x).2
  rw [decimal_digit e hc, fmtG_value h1 h2 h3, h4]

theorem fmt6_neg {x : ℚ} (h : x < 0) : decimal (fmt6 x) = some (-val6 (-x)) := by
  obtain ⟨h1, h2, h3, h4⟩ := digs_spec (neg_pos.mpr h)
  unfold fmt6
  rw [if_pos h, abs_of_neg h, decimal, if_pos rfl, fmtG_value h1 h2 h3, h4, Option.map_some]

theorem fmt6_zero : fmt6 0 = ['0'] := by
  unfold fmt6 digs
  rw [if_neg (lt_irrefl _), abs_zero, if_pos rfl]
  exact fmtG_zero

/-- the number that is written -/
def dec6 (x : ℚ) : ℚ := if x < 0 then -val6 (-x) else if x = 0 then 0 else val6 x

theorem fmt6_value (x : ℚ) : decimal (fmt6 x) = some (dec6 x) := by
  unfold dec6
  rcases lt_trichotomy x 0 with h | rfl | h
  · rw [if_pos h, fmt6_neg h]
  · rw [if_neg (lt_irrefl _), if_pos rfl, fmt6_zero]
    have := read_parts (ip := ['0']) (fp := []) (allDig_zeros 1) allDig_nil (by simp) [] 0 (Or.inl ⟨rfl, rfl⟩)
    rw [if_pos rfl, List.append_nil, List.append_nil] at this
    rw [decimal_digit rfl (by decide), this]
    have : dv (['0'] : List Char) = 0 := dv_zeros 1
    rw [this]; simp
  · rw [if_neg (by linarith), if_neg h.ne', fmt6_pos h]

theorem dec6_near (x : ℚ) : |dec6 x - x| ≤ |x| / 200000 := by
  unfold dec6
  rcases lt_trichotomy x 0 with h | rfl | h
  · rw [if_pos h, abs_of_neg h]
    have := val6_near (neg_pos.mpr h)
    rwa [show -val6 (-x) - x = -(val6 (-x) - -x) by ring, abs_neg]
  · rw [if_neg (lt_irrefl _), if_pos rfl]; simp
  · rw [if_neg (by linarith), if_neg h.ne', abs_of_pos h]; exact val6_near h

theorem dec6_nearest (x : ℚ) : Nearest6 x (dec6 x) := by
  unfold dec6
  rcases lt_trichotomy x 0 with h | rfl | h
  · rw [if_pos h]
    constructor
    · obtain ⟨m, e, hm, he⟩ := val6_decimal (neg_pos.mpr h)
      exact ⟨-m, e, by rwa [abs_neg], by rw [he]; push_cast; ring⟩
    · rintro d' ⟨m, e, hm, rfl⟩
      have := val6_nearest (neg_pos.mpr h) (-((m : ℚ) * 10 ^ e)) ⟨-m, e, by rwa [abs_neg], by push_cast; ring⟩
      rw [show -val6 (-x) - x = -(val6 (-x) - -x) by ring, abs_neg]
      rwa [show -((m : ℚ) * 10 ^ e) - -x = -((m : ℚ) * 10 ^ e - x) by ring, abs_neg] at this
  · rw [if_neg (lt_irrefl _), if_pos rfl]
    exact ⟨⟨0, 0, by norm_num, by norm_num⟩, fun d' _ => by simp⟩
  · rw [if_neg (by linarith), if_neg h.ne']
    exact ⟨val6_decimal h, fun d' h' => val6_nearest h d' h'⟩

theorem r64_error' (x : ℚ) : |r64 x - x| ≤ |x| / 2 ^ 53 := (Shellfish.Round.C95_rounding x).2.2.2.2

/-! ### C105 -/

/-- C105: what is read from the text of a float64 is the float64 nearest to the nearest number with six significant digits. -/
theorem C105_read (x : ℚ) (hx : |x| < 2 ^ 1023) : ∃ d, Nearest6 x d ∧ parseFloat (fmt6 x) = some (r64 d) := by
  refine ⟨dec6 x, dec6_nearest x, ?_⟩
  unfold parseFloat
  rw [fmt6_value, Option.bind_some, if_pos]
  have h1 := r64_error' (dec6 x)
  have h2 := dec6_near x
  have a1 : |dec6 x| ≤ |x| + |x| / 200000 := by
    have := abs_sub_abs_le_abs_sub (dec6 x) x; linarith
  have a2 : |r64 (dec6 x)| ≤ |dec6 x| + |dec6 x| / 2 ^ 53 := by
    have := abs_sub_abs_le_abs_sub (r64 (dec6 x)) (dec6 x); linarith
  have a3 : |r64 (dec6 x)| ≤ 2 * |x| := by
    have := abs_nonneg x
    linarith
  have : (2 : ℚ) ^ 1024 = 2 * 2 ^ 1023 := by rw [pow_succ]; ring
  rw [this]
  exact lt_of_le_of_lt a3 (mul_lt_mul_of_pos_left hx two_pos)

/-- C105: the number that is read differs from the number that was written by at most 5.001 parts in a million. -/
theorem C105_error (x y : ℚ) (h : parseFloat (fmt6 x) = some y) : |y - x| ≤ 5001 / 10 ^ 9 * |x| := by
  unfold parseFloat at h
  rw [fmt6_value, Option.bind_some] at h
  split_ifs at h with hr
  rw [Option.some.injEq] at h
  subst h
  have h1 := r64_error' (dec6 x)
  have h2 := dec6_near x
  have a1 : |dec6 x| ≤ |x| + |x| / 200000 := by
    have := abs_sub_abs_le_abs_sub (dec6 x) x; linarith
  have a2 := abs_sub_le (r64 (dec6 x)) (dec6 x) x
  have := abs_nonneg x
  linarith

/-- the digits of a number near a number with six digits -/
theorem sig6_stable {m : ℕ} {e : ℤ} (h1 : 10 ^ 5 ≤ m) (h2 : m < 10 ^ 6) {b : ℚ} (hb : |b - m * 10 ^ (e - 5)| ≤ m * 10 ^ (e - 5) / 2 ^ 53) : sig6 b = (m, e) := by
  set u : ℚ := 10 ^ (e - 5) with hu
  have hu0 : 0 < u := ten_pow_pos _
  have m1 : (10 : ℚ) ^ 5 ≤ m := by exact_mod_cast h1
  have m2 : (m : ℚ) ≤ 10 ^ 6 - 1 := by
    have : (m : ℚ) + 1 ≤ 10 ^ 6 := by exact_mod_cast h2
    linarith
  have hmu : (m : ℚ) * u ≤ (10 ^ 6 - 1) * u := mul_le_mul_of_nonneg_right m2 hu0.le
  have hmu' : 10 ^ 5 * u ≤ (m : ℚ) * u := mul_le_mul_of_nonneg_right m1 hu0.le
  rw [abs_le] at hb
  have e5 : (10 : ℚ) ^ e = 10 ^ 5 * u := by
    rw [hu, ← zpow_natCast, ← zpow_add₀ (by norm_num)]; congr 1; push_cast; ring
  have e6 : (10 : ℚ) ^ (e + 1) = 10 ^ 6 * u := by
    rw [hu, ← zpow_natCast, ← zpow_add₀ (by norm_num)]; congr 1; push_cast; ring
  unfold sig6
  dsimp only
  rcases le_or_gt (10 ^ e) b with hc | hc
  · have hl : Int.log 10 b = e := log10_unique hc (by rw [e6]; linarith [hb.2])
    rw [hl, ← hu]
    have hn : nearest (b / u) = (m : ℤ) := by
      apply nearest_unique
      rw [Int.cast_natCast, show b / u - m = (b - m * u) / u by field_simp, abs_div, abs_of_pos hu0, div_lt_iff₀ hu0, abs_lt]
      constructor <;> linarith [hb.1, hb.2]
    rw [hn, Int.toNat_natCast, if_neg (by omega)]
  · rw [e5] at hc
    have hm : m = 10 ^ 5 := by
      have : (m : ℚ) * u < (10 ^ 5 + 1) * u := by linarith [hb.1]
      have : (m : ℚ) < 10 ^ 5 + 1 := lt_of_mul_lt_mul_right this hu0.le
      have : m < 10 ^ 5 + 1 := by exact_mod_cast this
      omega
    have e4 : (10 : ℚ) ^ (e - 1) = 10 ^ 4 * u := by
      rw [hu, ← zpow_natCast, ← zpow_add₀ (by norm_num)]; congr 1; push_cast; ring
    have hl : Int.log 10 b = e - 1 := log10_unique (by rw [e4]; linarith [hb.1]) (by rw [show e - 1 + 1 = e by ring, e5]; exact hc)
    have hu' : (10 : ℚ) ^ (e - 1 - 5) = u / 10 := by
      rw [hu, show e - 1 - 5 = (e - 5) - 1 by ring, zpow_sub₀ (by norm_num), zpow_one]
    rw [hl, hu']
    have mq : (m : ℚ) = 10 ^ 5 := by rw [hm]; norm_num
    rw [mq] at hb
    have hn : nearest (b / (u / 10)) = 10 ^ 6 := by
      apply nearest_unique
      rw [show b / (u / 10) - ((10 ^ 6 : ℤ) : ℚ) = (b - 10 ^ 5 * u) / (u / 10) by push_cast; field_simp; ring, abs_div, abs_of_pos (by positivity : 0 < u / 10), div_lt_iff₀ (by positivity), abs_lt]
      constructor <;> linarith [hb.1, hb.2]
    rw [hn, show ((10 : ℤ) ^ 6).toNat = 10 ^ 6 by rfl, if_pos rfl, hm]
    congr 1; ring

/-- C105: writing again what has been read gives the same text: numbers do not drift along a pipe. -/
theorem C105_stable (x y : ℚ) (h : parseFloat (fmt6 x) = some y) : fmt6 y = fmt6 x := by
  unfold parseFloat at h
  rw [fmt6_value, Option.bind_some] at h
  split_ifs at h with hr
  rw [Option.some.injEq] at h
  subst h
  have key : ∀ a b : ℚ, 0 < a → |b - val6 a| ≤ val6 a / 2 ^ 53 → 0 < b ∧ digs b = digs a := by
    intro a b ha hb
    obtain ⟨h1, h2, h3⟩ := sig6_spec ha
    have hv := val6_pos ha
    have hbp : 0 < b := by rw [abs_le] at hb; linarith [hb.1]
    refine ⟨hbp, ?_⟩
    unfold digs
    rw [if_neg hbp.ne', if_neg ha.ne']
    have : sig6 b = sig6 a := by
      rw [show val6 a = _ from h3.symm] at hb
      exact sig6_stable h1 h2 hb
    rw [this]
  have he := r64_error' (dec6 x)
  unfold dec6 at he ⊢
  rcases lt_trichotomy x 0 with hx | rfl | hx
  · rw [if_pos hx] at he ⊢
    have hv := val6_pos (neg_pos.mpr hx)
    rw [abs_neg, abs_of_pos hv] at he
    obtain ⟨p1, p2⟩ := key (-x) (-r64 (-val6 (-x))) (neg_pos.mpr hx) (by rw [show -r64 (-val6 (-x)) - val6 (-x) = -(r64 (-val6 (-x)) - -val6 (-x)) by ring, abs_neg]; exact he)
    unfold fmt6
    rw [if_pos (by linarith), if_pos hx, abs_of_neg (by linarith), abs_of_neg hx, p2]
  · rw [if_neg (lt_irrefl _), if_pos rfl]
    rw [show r64 0 = 0 from rn_zero 53]
  · rw [if_neg (by linarith), if_neg hx.ne'] at he ⊢
    have hv := val6_pos hx
    rw [abs_of_pos hv] at he
    obtain ⟨p1, p2⟩ := key x (r64 (val6 x)) hx he
    unfold fmt6
    rw [if_neg (by linarith), if_neg (by linarith), abs_of_pos p1, abs_of_pos hx, p2]

theorem digit_numChar {c : Char} (h : isDigit c = true) : numChar c := by
  have hs : ∀ d : Char, isDigit d = false → c ≠ d := by rintro d hd rfl; rw [h] at hd; exact (nomatch hd)
  refine ⟨?_, hs _ (by decide)⟩
  unfold goSpace
  rw [decide_eq_false_iff_not]
  intro hm
  simp only [List.mem_cons, List.not_mem_nil, or_false] at hm
  rcases hm with e | e | e | e | e | e | e | e <;> exact hs _ (by decide) e

theorem fmt6_ok (x : ℚ) : fmt6 x ≠ [] ∧ ∀ c ∈ fmt6 x, numChar c := by
  have key : ∀ a : ℚ, 0 ≤ a → fmtG (digs a).1 (digs a).2 ≠ [] ∧ ∀ c ∈ fmtG (digs a).1 (digs a).2, numChar c := by
    intro a ha
    rcases ha.eq_or_lt with rfl | ha
    · have : digs 0 = ([], 0) := by unfold digs; rw [if_pos rfl]
      rw [this, fmtG_zero]
      exact ⟨by simp, by intro c hc; rw [List.mem_singleton.mp hc]; unfold numChar; decide⟩
    · obtain ⟨h1, -, -, -⟩ := digs_spec ha
      obtain ⟨p, c, t, e, hc⟩ := fmtG_chars h1 (digs a).2
      refine ⟨by rw [e]; simp, ?_⟩
      intro c hc
      rcases p c hc with h | rfl | rfl | rfl | rfl
      · exact digit_numChar h
      all_goals (unfold numChar; decide)
  have h := key |x| (abs_nonneg x)
  unfold fmt6
  split_ifs
  · refine ⟨by simp, ?_⟩
    intro c hc
    rcases List.mem_cons.mp hc with rfl | hc
    · unfold numChar; decide
    · exact h.2 c hc
  · exact h

/-- the number that is read -/
theorem read6 (x : ℚ) (hx : |x| < 2 ^ 1023) : ∃ y, parseFloat (fmt6 x) = some y := by
  obtain ⟨d, -, h⟩ := C105_read x hx; exact ⟨_, h⟩

/-- C105: a catalog of integer and float64 columns is read back with the same integers, and with floats that differ by at most 5.001 parts in a million (`%.6g`); the text of what was read is the text
that was written, so that a second pass through a catalog changes nothing. -/
theorem C105_catalog (h : Nat) (hpos : 0 < h) (intCols : List (List Int)) (floatCols : List (List ℚ)) (order : List Nat)
    (hne : intCols ≠ [] ∨ floatCols ≠ [])
    (hi : ∀ col ∈ intCols, col.length = h ∧ ∀ x ∈ col, minInt ≤ x ∧ x ≤ maxInt)
    (hf : ∀ col ∈ floatCols, col.length = h ∧ ∀ x ∈ col, |x| < 2 ^ 1023)
    (ho : ∀ o ∈ order, o < intCols.length + floatCols.length) (hol : order.length ≤ intCols.length + floatCols.length)
    (comments : List Str) (hc : ∀ l ∈ comments, ∃ t, l = '#' :: t ∧ '\n' ∉ t)
    (ics fcs : List Nat)
    (hics : ∀ p ∈ ics, ∃ o, order[p]? = some o ∧ o < intCols.length)
    (hfcs : ∀ p ∈ fcs, ∃ o, order[p]? = some o ∧ intCols.length ≤ o) :
    ∃ lines A B, formatCols float64Fmt intCols floatCols order = some lines ∧ lines.length = h ∧
      parse float64Fmt (joinWith '\n' (comments ++ lines)) ics fcs = .ok (A, B) ∧
      List.Forall₂ (fun p col => ∃ o, order[p]? = some o ∧ intCols[o]? = some col) ics A ∧
      List.Forall₂ (fun p col => ∃ o c, order[p]? = some (intCols.length + o) ∧ floatCols[o]? = some c ∧
        List.Forall₂ (fun x y : ℚ => |y - x| ≤ 5001 / 10 ^ 9 * |x| ∧ fmt6 y = fmt6 x) c col) fcs B := by
  classical
  set rd : ℚ → ℚ := fun x => (parseFloat (fmt6 x)).getD 0 with hrd
  have hrd' : ∀ x : ℚ, |x| < 2 ^ 1023 → parseFloat (fmt6 x) = some (rd x) := by
    intro x hx; obtain ⟨y, hy⟩ := read6 x hx; rw [hrd]; dsimp only; rw [hy, Option.getD_some]
  obtain ⟨lines, A, B, h1, h2, h3, h4, h5⟩ := C09_round_trip float64Fmt rd h hpos intCols floatCols order hne hi
    (fun col hcol => ⟨(hf col hcol).1, fun x hx => ⟨(fmt6_ok x).1, (fmt6_ok x).2, hrd' x ((hf col hcol).2 x hx)⟩⟩) ho hol comments hc ics fcs hics hfcs
  refine ⟨lines, A, B, h1, h2, h3, h4, h5.imp ?_⟩
  rintro p col ⟨o, c, g1, g2, rfl⟩
  refine ⟨o, c, g1, g2, ?_⟩
  have hmem : c ∈ floatCols := List.mem_of_getElem? g2
  rw [List.forall₂_map_right_iff, List.forall₂_same]
  intro x hx
  have := hrd' x ((hf c hmem).2 x hx)
  exact ⟨C105_error x _ this, C105_stable x _ this⟩

/-! ### Examples -/

theorem sig6_of {a : ℚ} {m : ℕ} {e : ℤ} (h2 : m ≠ 10 ^ 6) (hl : (10 : ℚ) ^ e ≤ a) (hh : a < 10 ^ (e + 1)) (hb : |a / 10 ^ (e - 5) - m| < 1 / 2) : sig6 a = (m, e) := by
  unfold sig6
  dsimp only
  have hn : nearest (a / 10 ^ (e - 5)) = (m : ℤ) := nearest_unique _ _ (by exact_mod_cast hb)
  rw [log10_unique hl hh, hn, Int.toNat_natCast, if_neg h2]

/-- a third, a large number and a small negative number, as they are printed -/
example : fmt6 (1 / 3) = ['0', '.', '3', '3', '3', '3', '3', '3'] := by
  unfold fmt6 digs
  rw [if_neg (by norm_num), abs_of_pos (by norm_num), if_neg (by norm_num), sig6_of (m := 333333) (e := -1) (by norm_num) (by norm_num) (by norm_num) (by norm_num [abs_lt])]
  decide +kernel
example : fmt6 123456789 = ['1', '.', '2', '3', '4', '5', '7', 'e', '+', '0', '8'] := by
  unfold fmt6 digs
  rw [if_neg (by norm_num), abs_of_pos (by norm_num), if_neg (by norm_num), sig6_of (m := 123457) (e := 8) (by norm_num) (by norm_num) (by norm_num) (by norm_num [abs_lt])]
  decide +kernel
example : fmt6 (-(1 / 50000)) = ['-', '2', 'e', '-', '0', '5'] := by
  unfold fmt6 digs
  rw [if_pos (by norm_num), abs_of_neg (by norm_num), if_neg (by norm_num), sig6_of (m := 200000) (e := -5) (by norm_num) (by norm_num) (by norm_num) (by norm_num [abs_lt])]
  decide +kernel
example : fmt6 120000 = ['1', '2', '0', '0', '0', '0'] := by
  unfold fmt6 digs
  rw [if_neg (by norm_num), abs_of_pos (by norm_num), if_neg (by norm_num), sig6_of (m := 120000) (e := 5) (by norm_num) (by norm_num) (by norm_num) (by norm_num [abs_lt])]
  decide +kernel

/-- the hypotheses of C105_read and C105_error hold of a number that changes -/
example : ∃ y, parseFloat (fmt6 123456789) = some y ∧ |y - 123456789| ≤ 5001 / 10 ^ 9 * |(123456789 : ℚ)| ∧ fmt6 y = fmt6 123456789 := by
  obtain ⟨y, hy⟩ := read6 123456789 (by rw [abs_of_pos (by norm_num)]; exact lt_of_lt_of_le (by norm_num : (123456789 : ℚ) < 2 ^ 30) (pow_le_pow_right₀ (by norm_num) (by norm_num)))
  exact ⟨y, hy, C105_error _ _ hy, C105_stable _ _ hy⟩

/-- a catalog with an integer column and a float column -/
example : ∃ lines A B, formatCols float64Fmt [[1, 2]] [[1 / 3, 123456789]] [0, 1] = some lines ∧ parse float64Fmt (joinWith '\n' ([['#', 'a']] ++ lines)) [0] [1] = .ok (A, B) := by
  have hb : ∀ x : ℚ, |x| < 2 ^ 30 → |x| < 2 ^ 1023 := fun x hx => lt_of_lt_of_le hx (pow_le_pow_right₀ (by norm_num) (by norm_num))
  obtain ⟨l, A, B, h1, -, h2, -⟩ := C105_catalog 2 (by norm_num) [[1, 2]] [[1 / 3, 123456789]] [0, 1] (Or.inl (by simp)) (by simp [minInt, maxInt])
    (by
      intro col hcol
      rw [List.mem_singleton.mp hcol]
      refine ⟨rfl, fun x hx => hb x ?_⟩
      simp only [List.mem_cons, List.not_mem_nil, or_false] at hx
      rcases hx with rfl | rfl <;> norm_num [abs_of_pos])
    (by simp) (by simp) [['#', 'a']] (by simp) [0] [1] (by simp) (by simp)
  exact ⟨l, A, B, h1, h2⟩

end Shellfish.FloatText
