/-
C125: the bins of the profiles in machine arithmetic.
-/
import Verif.Model.BinRound
import Verif.Props.PixelRound
import Verif.Props.PolarRound
import Verif.Props.RingRound
import Verif.Props.RandRound
import Mathlib.Analysis.SpecialFunctions.Log.Basic
import Mathlib.Analysis.SpecialFunctions.Log.Deriv
import Mathlib.Analysis.Complex.ExponentialBounds

namespace Shellfish.Round
open Shellfish.Finder (toInt)

/-! ### Specification -/

/-- `math.Log` is accurate to four units in the last place (its documentation promises one). -/
def LogOk (lg : ℚ → ℚ) : Prop := ∀ x : ℚ, 0 < x → |(lg x : ℝ) - Real.log x| ≤ |Real.log x| / 2 ^ 50

/-- The distance of a particle from the halo. -/
noncomputable def BinPoint.dist (p : BinPoint) : ℝ := Real.sqrt ((p.dx : ℝ) ^ 2 + (p.dy : ℝ) ^ 2 + (p.dz : ℝ) ^ 2)

/-- The sum of numbers in the order in which they are added in float64, starting from `a`. -/
def sum64 (a : ℚ) (ms : List ℚ) : ℚ := ms.foldl (fun s m => r64 (s + m)) a

/-! ### Truncation -/

theorem toInt_spec (q : ℚ) (h : -1 < q) : 0 ≤ toInt q ∧ q < toInt q + 1 ∧ (1 ≤ toInt q → (toInt q : ℚ) ≤ q) := by
  rcases le_or_gt 0 q with h0 | h0
  · rw [toInt_nonneg h0]
    exact ⟨Int.floor_nonneg.mpr h0, Int.lt_floor_add_one q, fun _ => Int.floor_le q⟩
  · have : toInt q = 0 := by
      unfold Shellfish.Finder.toInt Shellfish.Los.modf
      rw [if_neg (not_le.mpr h0)]
      rw [Int.ceil_eq_iff]
      push_cast
      constructor <;> linarith
    rw [this]
    exact ⟨le_rfl, by push_cast; linarith, fun h => by omega⟩

theorem r64_errR (x : ℚ) : |(r64 x : ℝ) - (x : ℝ)| ≤ |(x : ℝ)| / 2 ^ 53 := by
  have := (C95_rounding x).2.2.2.2
  have h : ((|r64 x - x| : ℚ) : ℝ) ≤ ((|x| / 2 ^ 53 : ℚ) : ℝ) := by exact_mod_cast this
  push_cast at h
  exact h

/-- The bin computed from inexact logarithms. -/
theorem bin_core (n : ℕ) (hn : 0 < n) (lo hi lr : ℚ) (a b t : ℝ) (hlo : |(lo : ℝ) - a| ≤ 1 / 2 ^ 41) (hhi : |(hi : ℝ) - b| ≤ 1 / 2 ^ 41) (hlr : |(lr : ℝ) - t| ≤ 1 / 2 ^ 41)
    (hL : (n : ℝ) / 2 ^ 20 ≤ b - a) (hL' : b - a ≤ 2 ^ 8) (h1 : a - 1 / 2 ^ 21 ≤ t) (h2 : t ≤ b + 1 / 2 ^ 21) :
    let d := r64 (r64 (hi - lo) / (n : ℚ))
    let z := toInt (r64 (r64 (lr - lo) / d))
    d ≠ 0 ∧ 0 ≤ z ∧ z ≤ n ∧ (1 ≤ z → a + z * ((b - a) / n) - 1 / 2 ^ 37 ≤ t) ∧ t ≤ a + (z + 1) * ((b - a) / n) + 1 / 2 ^ 37 := by
  intro d z
  have hn0 : (1 : ℝ) ≤ n := by exact_mod_cast hn
  have hnp : (0 : ℝ) < n := by linarith
  obtain ⟨L, hLd⟩ : ∃ L, L = b - a := ⟨_, rfl⟩
  obtain ⟨T, hTd⟩ : ∃ T, T = t - a := ⟨_, rfl⟩
  rw [← hLd] at hL hL' ⊢
  have hL1 : 1 / 2 ^ 20 ≤ L := le_trans (by gcongr) hL
  have hT1 : -(1 / 2 ^ 21) ≤ T := by rw [hTd]; linarith
  have hT2 : T ≤ L + 1 / 2 ^ 21 := by rw [hTd, hLd]; linarith
  -- the length of the range
  have es := r64_errR (hi - lo)
  have es2 : |((hi - lo : ℚ) : ℝ) - L| ≤ 2 / 2 ^ 41 := by
    push_cast
    rw [hLd]
    rw [abs_le] at *
    constructor <;> linarith [hlo.1, hlo.2, hhi.1, hhi.2]
  have hs : |(r64 (hi - lo) : ℝ) - L| ≤ 1 / 2 ^ 40 + 1 / 2 ^ 43 := by
    have h3 : |((hi - lo : ℚ) : ℝ)| ≤ 2 ^ 9 := by
      rw [abs_le] at es2 ⊢
      norm_num at es2 hL1 hL' ⊢
      constructor <;> linarith [es2.1, es2.2]
    have h4 : |(r64 (hi - lo) : ℝ) - ((hi - lo : ℚ) : ℝ)| ≤ 2 ^ 9 / 2 ^ 53 := es.trans (div_le_div_of_nonneg_right h3 (by positivity))
    have := abs_sub_le (r64 (hi - lo) : ℝ) ((hi - lo : ℚ) : ℝ) L
    norm_num at this h4 es2 ⊢
    linarith
  -- the width of a bin
  have hd : |(d : ℝ) - L / n| * n ≤ 1 / 2 ^ 39 := by
    have e := r64_errR (r64 (hi - lo) / (n : ℚ))
    push_cast at e
    have h3 : |(r64 (hi - lo) : ℝ)| ≤ 2 ^ 9 := by
      rw [abs_le] at hs ⊢
      norm_num at hs hL1 hL' ⊢
      constructor <;> linarith [hs.1, hs.2]
    have h4 : |(d : ℝ) - (r64 (hi - lo) : ℝ) / n| * n ≤ 2 ^ 9 / 2 ^ 53 := by
      have : |(r64 (hi - lo) : ℝ) / n| / 2 ^ 53 * n = |(r64 (hi - lo) : ℝ)| / 2 ^ 53 := by
        rw [abs_div, abs_of_pos hnp]
        field_simp
      calc |(d : ℝ) - (r64 (hi - lo) : ℝ) / n| * n ≤ |(r64 (hi - lo) : ℝ) / n| / 2 ^ 53 * n := mul_le_mul_of_nonneg_right e hnp.le
        _ = |(r64 (hi - lo) : ℝ)| / 2 ^ 53 := this
        _ ≤ _ := div_le_div_of_nonneg_right h3 (by positivity)
    have h5 : |(r64 (hi - lo) : ℝ) / n - L / n| * n = |(r64 (hi - lo) : ℝ) - L| := by
      rw [← sub_div, abs_div, abs_of_pos hnp]
      field_simp
    have h6 := mul_le_mul_of_nonneg_right (abs_sub_le (d : ℝ) ((r64 (hi - lo) : ℝ) / n) (L / n)) hnp.le
    rw [add_mul, h5] at h6
    norm_num at h4 h6 hs ⊢
    linarith
  obtain ⟨w, hw⟩ : ∃ w, w = L / n := ⟨_, rfl⟩
  have hwn : w * n = L := by rw [hw]; field_simp
  have hw1 : 1 / 2 ^ 20 ≤ w := by
    rw [hw, le_div_iff₀ hnp]
    calc 1 / 2 ^ 20 * (n : ℝ) = n / 2 ^ 20 := by ring
      _ ≤ L := hL
  rw [← hw] at hd ⊢
  have hdw : |(d : ℝ) - w| ≤ w / 2 ^ 19 := by
    have : |(d : ℝ) - w| * n ≤ w / 2 ^ 19 * n := by
      refine hd.trans ?_
      rw [show w / 2 ^ 19 * (n : ℝ) = (w * n) / 2 ^ 19 by ring, hwn]
      norm_num at hL1 ⊢
      linarith
    exact le_of_mul_le_mul_right this hnp
  have hw0 : 0 < w := lt_of_lt_of_le (by norm_num) hw1
  have hd0 : (0 : ℝ) < d := by
    rw [abs_le] at hdw
    norm_num at hdw
    linarith [hdw.1]
  have hdne : d ≠ 0 := by
    intro h
    rw [h] at hd0
    norm_num at hd0
  -- the numerator
  have en := r64_errR (lr - lo)
  have en2 : |((lr - lo : ℚ) : ℝ) - T| ≤ 2 / 2 ^ 41 := by
    push_cast
    rw [hTd]
    rw [abs_le] at *
    constructor <;> linarith [hlo.1, hlo.2, hlr.1, hlr.2]
  have hN : |(r64 (lr - lo) : ℝ) - T| ≤ 1 / 2 ^ 40 + 1 / 2 ^ 43 := by
    have h3 : |((lr - lo : ℚ) : ℝ)| ≤ 2 ^ 9 := by
      rw [abs_le] at en2 ⊢
      norm_num at en2 hL1 hL' hT1 hT2 ⊢
      constructor <;> linarith [en2.1, en2.2]
    have h4 : |(r64 (lr - lo) : ℝ) - ((lr - lo : ℚ) : ℝ)| ≤ 2 ^ 9 / 2 ^ 53 := en.trans (div_le_div_of_nonneg_right h3 (by positivity))
    have := abs_sub_le (r64 (lr - lo) : ℝ) ((lr - lo : ℚ) : ℝ) T
    norm_num at this h4 en2 ⊢
    linarith
  -- the quotient
  obtain ⟨q, hq⟩ : ∃ q, q = r64 (r64 (lr - lo) / d) := ⟨_, rfl⟩
  have eq := r64_errR (r64 (lr - lo) / d)
  rw [← hq] at eq
  push_cast at eq
  have hqd : |(q : ℝ) * d - T| ≤ 1 / 2 ^ 40 + 1 / 2 ^ 42 := by
    have h3 : |(r64 (lr - lo) : ℝ)| ≤ 2 ^ 9 := by
      rw [abs_le] at hN ⊢
      norm_num at hN hL1 hL' hT1 hT2 ⊢
      constructor <;> linarith [hN.1, hN.2]
    have h4 : |(q : ℝ) * d - (r64 (lr - lo) : ℝ)| ≤ 2 ^ 9 / 2 ^ 53 := by
      have h5 : |(q : ℝ) * d - (r64 (lr - lo) : ℝ)| = |(q : ℝ) - (r64 (lr - lo) : ℝ) / d| * d := by
        rw [show (q : ℝ) * d - (r64 (lr - lo) : ℝ) = ((q : ℝ) - (r64 (lr - lo) : ℝ) / d) * d by field_simp, abs_mul, abs_of_pos hd0]
      rw [h5]
      calc _ ≤ |(r64 (lr - lo) : ℝ) / d| / 2 ^ 53 * d := mul_le_mul_of_nonneg_right eq hd0.le
        _ = |(r64 (lr - lo) : ℝ)| / 2 ^ 53 := by rw [abs_div, abs_of_pos hd0]; field_simp
        _ ≤ _ := div_le_div_of_nonneg_right h3 (by positivity)
    have := abs_sub_le ((q : ℝ) * d) (r64 (lr - lo) : ℝ) T
    norm_num at this h4 hN ⊢
    linarith
  have hqn : |(q : ℝ)| ≤ 2 * n := by
    have h3 : |(q : ℝ)| * d ≤ 3 / 2 * L + 1 / 2 ^ 39 := by
      rw [← abs_of_pos hd0, ← abs_mul]
      rw [abs_le] at hqd ⊢
      norm_num at hqd hL1 hT1 hT2 ⊢
      constructor <;> linarith [hqd.1, hqd.2]
    have h4 : w * (1 - 1 / 2 ^ 19) ≤ d := by
      rw [abs_le] at hdw
      linarith [hdw.1]
    have h5 : |(q : ℝ)| * (w * (1 - 1 / 2 ^ 19)) ≤ 3 / 2 * L + 1 / 2 ^ 39 := le_trans (mul_le_mul_of_nonneg_left h4 (abs_nonneg _)) h3
    have h6 : 3 / 2 * L + 1 / 2 ^ 39 ≤ 2 * n * (w * (1 - 1 / 2 ^ 19)) := by
      rw [show 2 * (n : ℝ) * (w * (1 - 1 / 2 ^ 19)) = (w * n) * (2 * (1 - 1 / 2 ^ 19)) by ring, hwn]
      norm_num at hL1 ⊢
      linarith
    exact le_of_mul_le_mul_right (h5.trans h6) (mul_pos hw0 (by norm_num))
  have hqw : |(q : ℝ) * w - T| ≤ 1 / 2 ^ 37 := by
    have h3 : |(q : ℝ) * w - (q : ℝ) * d| ≤ 2 / 2 ^ 39 := by
      rw [← mul_sub, abs_mul, abs_sub_comm]
      calc _ ≤ (2 * n) * |(d : ℝ) - w| := mul_le_mul_of_nonneg_right hqn (abs_nonneg _)
        _ = 2 * (|(d : ℝ) - w| * n) := by ring
        _ ≤ 2 * (1 / 2 ^ 39) := by linarith
        _ = _ := by ring
    have := abs_sub_le ((q : ℝ) * w) ((q : ℝ) * d) T
    norm_num at this h3 hqd ⊢
    linarith
  rw [abs_le] at hqw
  have hq1 : (-1 : ℚ) < q := by
    have : (-1 : ℝ) * w < q * w := by
      norm_num at hqw hT1 hw1 ⊢
      linarith [hqw.1]
    have := lt_of_mul_lt_mul_right this hw0.le
    exact_mod_cast this
  have hq2 : (q : ℝ) < n + 1 := by
    have : (q : ℝ) * w < (n + 1) * w := by
      rw [add_mul, mul_comm (n : ℝ), hwn]
      norm_num at hqw hT2 hw1 ⊢
      linarith [hqw.2]
    exact lt_of_mul_lt_mul_right this hw0.le
  have hz : z = toInt q := by rw [hq]
  obtain ⟨z1, z2, z3⟩ := toInt_spec q hq1
  rw [← hz] at z1 z2 z3
  have z2' : (q : ℝ) < z + 1 := by exact_mod_cast z2
  refine ⟨hdne, z1, ?_, ?_, ?_⟩
  · by_contra hc
    have : (1 : ℤ) ≤ z := by omega
    have h3 : (z : ℝ) ≤ q := by exact_mod_cast z3 this
    have h4 : (n : ℝ) + 1 ≤ z := by exact_mod_cast (show (n : ℤ) + 1 ≤ z by omega)
    linarith
  · intro h
    have h3 : (z : ℝ) ≤ q := by exact_mod_cast z3 h
    have := mul_le_mul_of_nonneg_right h3 hw0.le
    rw [hTd] at hqw
    linarith [hqw.1]
  · have := mul_le_mul_of_nonneg_right z2'.le hw0.le
    rw [hTd] at hqw
    linarith [hqw.2]

/-! ### Logarithms -/

theorem log_close {x y e : ℝ} (hx : 0 < x) (he0 : 0 ≤ e) (he : e ≤ 1 / 2) (h1 : x * (1 - e) ≤ y) (h2 : y ≤ x * (1 + e)) : |Real.log y - Real.log x| ≤ 2 * e := by
  have hy : 0 < y := lt_of_lt_of_le (mul_pos hx (by linarith)) h1
  rw [← Real.log_div hy.ne' hx.ne']
  have hq : 0 < y / x := div_pos hy hx
  have q1 : 1 - e ≤ y / x := by rw [le_div_iff₀ hx]; linarith
  have q2 : y / x ≤ 1 + e := by rw [div_le_iff₀ hx]; linarith
  rw [abs_le]
  constructor
  · have h3 := Real.one_sub_inv_le_log_of_pos hq
    have h4 : (y / x)⁻¹ ≤ (1 - e)⁻¹ := inv_anti₀ (by linarith) q1
    have h5 : (1 - e)⁻¹ ≤ 1 + 2 * e := by
      rw [inv_le_iff_one_le_mul₀ (by linarith)]
      nlinarith
    linarith
  · have h3 := Real.log_le_sub_one_of_pos hq
    linarith

theorem log_pow2 {x : ℝ} {k : ℕ} (h1 : 1 / 2 ^ k ≤ x) (h2 : x ≤ 2 ^ k) : |Real.log x| ≤ 7 / 10 * k := by
  have hx : 0 < x := lt_of_lt_of_le (by positivity) h1
  have hl := Real.log_two_lt_d9
  have hk : (0 : ℝ) ≤ k := Nat.cast_nonneg k
  have e : Real.log ((2 : ℝ) ^ k) = k * Real.log 2 := by rw [Real.log_pow]
  have a1 := Real.log_le_log (by positivity) h1
  have a2 := Real.log_le_log hx h2
  rw [one_div, Real.log_inv, e] at a1
  rw [e] at a2
  rw [abs_le]
  constructor <;> nlinarith

theorem r32_boundsR {x : ℚ} (hx : 0 ≤ x) : (x : ℝ) * (1 - 1 / 2 ^ 24) ≤ (r32 x : ℝ) ∧ (r32 x : ℝ) ≤ (x : ℝ) * (1 + 1 / 2 ^ 24) := by
  have h := r32_bounds' hx
  have h1 : ((x * (1 - 1 / 2 ^ 24) : ℚ) : ℝ) ≤ ((r32 x : ℚ) : ℝ) := by exact_mod_cast h.1
  have h2 : ((r32 x : ℚ) : ℝ) ≤ ((x * (1 + 1 / 2 ^ 24) : ℚ) : ℝ) := by exact_mod_cast h.2
  push_cast at h1 h2
  exact ⟨h1, h2⟩

/-- The limits in float32 are the squares of the limits up to six roundings. -/
theorem edge32_bounds {R mult : ℚ} (hR : 0 < R) (hm : 0 < mult) :
    ((R : ℝ) * mult) ^ 2 * (1 - 6 / 2 ^ 24) ≤ (edge32 R mult : ℝ) ∧ (edge32 R mult : ℝ) ≤ ((R : ℝ) * mult) ^ 2 * (1 + 6 / 2 ^ 24) := by
  have hm32 := r32_bounds' hm.le
  have h0 : 0 ≤ r32 mult := le_trans (mul_nonneg hm.le (by norm_num)) hm32.1
  have b1 := r32_bounds' (mul_nonneg hR.le h0)
  have h1 : 0 ≤ r32 (R * r32 mult) := le_trans (mul_nonneg (mul_nonneg hR.le h0) (by norm_num)) b1.1
  have b2 := r32_bounds' (mul_nonneg h1 h1)
  have l1 : R * mult * (1 - 1 / 2 ^ 24) ^ 2 ≤ r32 (R * r32 mult) := by
    refine le_trans ?_ b1.1
    have := mul_le_mul_of_nonneg_left hm32.1 hR.le
    nlinarith [mul_pos hR hm]
  have u1 : r32 (R * r32 mult) ≤ R * mult * (1 + 1 / 2 ^ 24) ^ 2 := by
    refine le_trans b1.2 ?_
    have := mul_le_mul_of_nonneg_left hm32.2 hR.le
    nlinarith [mul_pos hR hm]
  have hp : 0 < R * mult := mul_pos hR hm
  have l2 : (R * mult) ^ 2 * (1 - 6 / 2 ^ 24) ≤ edge32 R mult := by
    unfold edge32
    refine le_trans ?_ b2.1
    have h2 := mul_self_le_mul_self (mul_nonneg hp.le (by norm_num)) l1
    calc (R * mult) ^ 2 * (1 - 6 / 2 ^ 24) ≤ (R * mult * (1 - 1 / 2 ^ 24) ^ 2) * (R * mult * (1 - 1 / 2 ^ 24) ^ 2) * (1 - 1 / 2 ^ 24) := by
            rw [show (R * mult * (1 - 1 / 2 ^ 24) ^ 2) * (R * mult * (1 - 1 / 2 ^ 24) ^ 2) * (1 - 1 / 2 ^ 24) = (R * mult) ^ 2 * (1 - 1 / 2 ^ 24) ^ 5 by ring]
            exact mul_le_mul_of_nonneg_left (by norm_num) (sq_nonneg _)
      _ ≤ _ := mul_le_mul_of_nonneg_right h2 (by norm_num)
  have u2 : edge32 R mult ≤ (R * mult) ^ 2 * (1 + 6 / 2 ^ 24) := by
    unfold edge32
    refine le_trans b2.2 ?_
    have h2 := mul_self_le_mul_self h1 u1
    calc _ ≤ (R * mult * (1 + 1 / 2 ^ 24) ^ 2) * (R * mult * (1 + 1 / 2 ^ 24) ^ 2) * (1 + 1 / 2 ^ 24) := mul_le_mul_of_nonneg_right h2 (by norm_num)
      _ = (R * mult) ^ 2 * (1 + 1 / 2 ^ 24) ^ 5 := by ring
      _ ≤ _ := mul_le_mul_of_nonneg_left (by norm_num) (sq_nonneg _)
  have h3 : (((R * mult) ^ 2 * (1 - 6 / 2 ^ 24) : ℚ) : ℝ) ≤ ((edge32 R mult : ℚ) : ℝ) := by exact_mod_cast l2
  have h4 : ((edge32 R mult : ℚ) : ℝ) ≤ (((R * mult) ^ 2 * (1 + 6 / 2 ^ 24) : ℚ) : ℝ) := by exact_mod_cast u2
  push_cast at h3 h4
  exact ⟨h3, h4⟩

/-- The squared distance in float32. -/
theorem r2_32_bounds (x y z : ℚ) : ((x : ℝ) ^ 2 + (y : ℝ) ^ 2 + (z : ℝ) ^ 2) * (1 - 4 / 2 ^ 24) ≤ (r2_32 x y z : ℝ) ∧ (r2_32 x y z : ℝ) ≤ ((x : ℝ) ^ 2 + (y : ℝ) ^ 2 + (z : ℝ) ^ 2) * (1 + 4 / 2 ^ 24) := by
  have bx := r32_bounds' (mul_self_nonneg x)
  have by' := r32_bounds' (mul_self_nonneg y)
  have bz := r32_bounds' (mul_self_nonneg z)
  have x0 : 0 ≤ r32 (x * x) := le_trans (mul_nonneg (mul_self_nonneg x) (by norm_num)) bx.1
  have y0 : 0 ≤ r32 (y * y) := le_trans (mul_nonneg (mul_self_nonneg y) (by norm_num)) by'.1
  have z0 : 0 ≤ r32 (z * z) := le_trans (mul_nonneg (mul_self_nonneg z) (by norm_num)) bz.1
  have b1 := r32_bounds' (add_nonneg x0 y0)
  have s0 : 0 ≤ r32 (r32 (x * x) + r32 (y * y)) := le_trans (mul_nonneg (add_nonneg x0 y0) (by norm_num)) b1.1
  have b2 := r32_bounds' (add_nonneg s0 z0)
  have sx := mul_self_nonneg x
  have sy := mul_self_nonneg y
  have sz := mul_self_nonneg z
  have lo : (x ^ 2 + y ^ 2 + z ^ 2) * (1 - 4 / 2 ^ 24) ≤ r2_32 x y z := by
    unfold r2_32
    refine le_trans ?_ b2.1
    norm_num at bx by' bz b1 ⊢
    nlinarith
  have hi : r2_32 x y z ≤ (x ^ 2 + y ^ 2 + z ^ 2) * (1 + 4 / 2 ^ 24) := by
    unfold r2_32
    refine le_trans b2.2 ?_
    norm_num at bx by' bz b1 ⊢
    nlinarith
  have h3 : (((x ^ 2 + y ^ 2 + z ^ 2) * (1 - 4 / 2 ^ 24) : ℚ) : ℝ) ≤ ((r2_32 x y z : ℚ) : ℝ) := by exact_mod_cast lo
  have h4 : ((r2_32 x y z : ℚ) : ℝ) ≤ (((x ^ 2 + y ^ 2 + z ^ 2) * (1 + 4 / 2 ^ 24) : ℚ) : ℝ) := by exact_mod_cast hi
  push_cast at h3 h4
  exact ⟨h3, h4⟩

/-! ### Radial bins of the prof mode -/

/-- Limits and bins for which the statement is made: the profile starts above `2^-64` and ends below `2^64` (in the units of the catalogue), and a bin covers at least a millionth of its radius. -/
structure ProfOk (R minMult maxMult : ℚ) (n : ℕ) : Prop where
  posR : 0 < R
  posMin : 0 < minMult
  posMax : 0 < maxMult
  posN : 0 < n
  low : 1 / 2 ^ 64 ≤ R * minMult
  high : R * maxMult ≤ 2 ^ 64
  wide : (n : ℝ) / 2 ^ 20 ≤ Real.log ((R : ℝ) * maxMult) - Real.log ((R : ℝ) * minMult)

theorem cast_low {x : ℚ} (h : 1 / 2 ^ 64 ≤ x) : (1 : ℝ) / 2 ^ 64 ≤ (x : ℝ) := by
  have : ((1 / 2 ^ 64 : ℚ) : ℝ) ≤ ((x : ℚ) : ℝ) := Rat.cast_le.mpr h
  rw [show ((1 / 2 ^ 64 : ℚ) : ℝ) = 1 / 2 ^ 64 by push_cast; rfl] at this
  exact this

theorem cast_low2 {x y : ℚ} (h : 1 / 2 ^ 64 ≤ x * y) : (1 : ℝ) / 2 ^ 64 ≤ (x : ℝ) * y := by
  have := cast_low h
  rwa [Rat.cast_mul] at this

theorem lg_limit {lg : ℚ → ℚ} (hlg : LogOk lg) {x : ℚ} (h1 : 1 / 2 ^ 64 ≤ x) (h2 : x ≤ 2 ^ 64) : |(lg (r64 x) : ℝ) - Real.log x| ≤ 1 / 2 ^ 41 := by
  have hx : 0 < x := lt_of_lt_of_le (by positivity) h1
  have hb := r64_bounds hx.le
  have b1 : ((x : ℝ)) * (1 - 1 / 2 ^ 53) ≤ (r64 x : ℝ) := by
    have : ((x * (1 - 1 / 2 ^ 53) : ℚ) : ℝ) ≤ ((r64 x : ℚ) : ℝ) := by exact_mod_cast hb.1
    push_cast at this
    exact this
  have b2 : (r64 x : ℝ) ≤ (x : ℝ) * (1 + 1 / 2 ^ 53) := by
    have : ((r64 x : ℚ) : ℝ) ≤ ((x * (1 + 1 / 2 ^ 53) : ℚ) : ℝ) := by exact_mod_cast hb.2
    push_cast at this
    exact this
  have hxR : (0 : ℝ) < x := by exact_mod_cast hx
  have x1 : (1 : ℝ) / 2 ^ 64 ≤ x := by
    have : ((1 / 2 ^ 64 : ℚ) : ℝ) ≤ ((x : ℚ) : ℝ) := by exact_mod_cast h1
    push_cast at this
    exact this
  have x2 : (x : ℝ) ≤ 2 ^ 64 := by
    have : ((x : ℚ) : ℝ) ≤ ((2 ^ 64 : ℚ) : ℝ) := by exact_mod_cast h2
    push_cast at this
    exact this
  have c := log_close hxR (by norm_num : (0 : ℝ) ≤ 1 / 2 ^ 53) (by norm_num) b1 b2
  have r0 : 0 < r64 x := lt_of_lt_of_le (mul_pos hx (by norm_num)) hb.1
  have e := hlg (r64 x) r0
  have l := log_pow2 (x := (r64 x : ℝ)) (k := 65) (by norm_num at x1 b1 ⊢; linarith) (by norm_num at x2 b2 ⊢; linarith)
  have e2 : |(lg (r64 x) : ℝ) - Real.log (r64 x)| ≤ (7 / 10 * (65 : ℕ)) / 2 ^ 50 := e.trans (div_le_div_of_nonneg_right l (by positivity))
  have := abs_sub_le (lg (r64 x) : ℝ) (Real.log (r64 x)) (Real.log x)
  norm_num at this c e2 ⊢
  linarith

/-- The bin of a radius whose logarithm is nearly known. -/
theorem logBin_spec {lg : ℚ → ℚ} (hlg : LogOk lg) {R minMult maxMult : ℚ} {n : ℕ} (h : ProfOk R minMult maxMult n) (lr : ℚ) (t : ℝ) (hlr : |(lr : ℝ) - t| ≤ 1 / 2 ^ 41)
    (h1 : Real.log ((R : ℝ) * minMult) - 1 / 2 ^ 21 ≤ t) (h2 : t ≤ Real.log ((R : ℝ) * maxMult) + 1 / 2 ^ 21) :
    let w := (Real.log ((R : ℝ) * maxMult) - Real.log ((R : ℝ) * minMult)) / n
    ∃ j : ℕ, j < n ∧ logBin lg R minMult maxMult n n lr = j ∧ Real.log ((R : ℝ) * minMult) + j * w - 1 / 2 ^ 21 ≤ t ∧ t ≤ Real.log ((R : ℝ) * minMult) + (j + 1) * w + 1 / 2 ^ 21 := by
  intro w
  have pmin : 0 < R * minMult := mul_pos h.posR h.posMin
  have pmax : 0 < R * maxMult := mul_pos h.posR h.posMax
  have hnp : (0 : ℝ) < n := by exact_mod_cast h.posN
  have pR1 : (0 : ℝ) < (R : ℝ) * minMult := by exact_mod_cast pmin
  have pR2 : (0 : ℝ) < (R : ℝ) * maxMult := by exact_mod_cast pmax
  have hlt : R * minMult < R * maxMult := by
    have h3 : Real.log ((R : ℝ) * minMult) < Real.log ((R : ℝ) * maxMult) := by
      have := h.wide
      have : (0 : ℝ) < n / 2 ^ 20 := by positivity
      linarith
    have := (Real.log_lt_log_iff pR1 pR2).mp h3
    exact_mod_cast this
  have g1 := lg_limit hlg h.low (hlt.le.trans h.high)
  have g2 := lg_limit hlg (h.low.trans hlt.le) h.high
  push_cast at g1 g2
  have l1 : |Real.log ((R : ℝ) * minMult)| ≤ 7 / 10 * (64 : ℕ) := log_pow2 (cast_low2 h.low) (by exact_mod_cast hlt.le.trans h.high)
  have l2 : |Real.log ((R : ℝ) * maxMult)| ≤ 7 / 10 * (64 : ℕ) := log_pow2 (cast_low2 (h.low.trans hlt.le)) (by exact_mod_cast h.high)
  have hL' : Real.log ((R : ℝ) * maxMult) - Real.log ((R : ℝ) * minMult) ≤ 2 ^ 8 := by
    rw [abs_le] at l1 l2
    norm_num at l1 l2 ⊢
    linarith [l1.1, l2.2]
  have hn : r64 (n : ℚ) = n := by
    apply r64_float
    have h3 := h.wide.trans hL'
    rw [div_le_iff₀ (by positivity)] at h3
    have h4 : n ≤ 2 ^ 28 := by
      have : (n : ℝ) ≤ ((2 ^ 28 : ℕ) : ℝ) := by push_cast; norm_num at h3 ⊢; linarith
      exact_mod_cast this
    exact ⟨n, 0, by push_cast; rw [abs_of_nonneg (by positivity)]; omega, by simp⟩
  obtain ⟨c1, c2, c3, c4, c5⟩ := bin_core n h.posN (lg (r64 (R * minMult))) (lg (r64 (R * maxMult))) lr _ _ t g1 g2 hlr h.wide hL' h1 h2
  have e : logBin lg R minMult maxMult n n lr =
      (if toInt (r64 (r64 (lr - lg (r64 (R * minMult))) / r64 (r64 (lg (r64 (R * maxMult)) - lg (r64 (R * minMult))) / (n : ℚ)))) = (n : ℤ)
        then toInt (r64 (r64 (lr - lg (r64 (R * minMult))) / r64 (r64 (lg (r64 (R * maxMult)) - lg (r64 (R * minMult))) / (n : ℚ)))) - 1
        else toInt (r64 (r64 (lr - lg (r64 (R * minMult))) / r64 (r64 (lg (r64 (R * maxMult)) - lg (r64 (R * minMult))) / (n : ℚ))))) := by
    unfold logBin quotInt
    dsimp only
    rw [hn, if_neg c1]
  rw [e]
  generalize toInt (r64 (r64 (lr - lg (r64 (R * minMult))) / r64 (r64 (lg (r64 (R * maxMult)) - lg (r64 (R * minMult))) / (n : ℚ)))) = z at *
  have hwn : w * n = Real.log ((R : ℝ) * maxMult) - Real.log ((R : ℝ) * minMult) := by
    change (Real.log ((R : ℝ) * maxMult) - Real.log ((R : ℝ) * minMult)) / n * n = _
    field_simp
  change 1 ≤ z → _ + z * w - _ ≤ t at c4
  change t ≤ _ + (z + 1) * w + _ at c5
  have hw0 : 0 ≤ w := by
    apply div_nonneg _ hnp.le
    have := h.wide
    have : (0 : ℝ) < n / 2 ^ 20 := by positivity
    linarith
  by_cases hz : z = n
  · rw [if_pos hz]
    refine ⟨n - 1, by have := h.posN; omega, by rw [hz]; have := h.posN; omega, ?_, ?_⟩
    · have h3 := c4 (by rw [hz]; have := h.posN; omega)
      rw [hz] at h3
      rw [Nat.cast_sub h.posN]
      push_cast at h3 ⊢
      nlinarith
    · rw [Nat.cast_sub h.posN]
      push_cast
      rw [show ((n : ℝ) - 1 + 1) * w = w * n by ring, hwn]
      linarith
  · rw [if_neg hz]
    refine ⟨z.toNat, by omega, by omega, ?_, ?_⟩
    · have e3 : ((z.toNat : ℕ) : ℝ) = (z : ℝ) := by exact_mod_cast Int.toNat_of_nonneg c2
      rw [e3]
      rcases lt_or_ge z 1 with h3 | h3
      · have : z = 0 := by omega
        rw [this]
        push_cast
        linarith
      · have := c4 h3
        norm_num at this ⊢
        linarith
    · have e3 : ((z.toNat : ℕ) : ℝ) = (z : ℝ) := by exact_mod_cast Int.toNat_of_nonneg c2
      rw [e3]
      norm_num at c5 ⊢
      linarith

/-- The logarithm of the radius, from the squared distance. -/
theorem half_log {lg : ℚ → ℚ} (hlg : LogOk lg) {r2 : ℚ} (h0 : 0 < r2) (h : |Real.log r2| ≤ 100) : |(r64 (lg r2 / 2) : ℝ) - Real.log r2 / 2| ≤ 1 / 2 ^ 41 := by
  have e := hlg r2 h0
  have e1 : |(lg r2 : ℝ) - Real.log r2| ≤ 100 / 2 ^ 50 := e.trans (div_le_div_of_nonneg_right h (by positivity))
  have e2 := r64_errR (lg r2 / 2)
  push_cast at e2
  have h3 : |(lg r2 : ℝ) / 2| ≤ 64 := by
    rw [abs_le] at *
    norm_num at e1 ⊢
    constructor <;> linarith [e1.1, e1.2, h.1, h.2]
  have e3 : |(r64 (lg r2 / 2) : ℝ) - (lg r2 : ℝ) / 2| ≤ 64 / 2 ^ 53 := e2.trans (div_le_div_of_nonneg_right h3 (by positivity))
  rw [abs_le] at *
  norm_num at e1 e3 ⊢
  constructor <;> linarith [e1.1, e1.2, e3.1, e3.2]

/-- A particle that is not passed over. -/
theorem inside_spec {R minMult maxMult : ℚ} {n : ℕ} (h : ProfOk R minMult maxMult n) {r2 : ℚ} (hin : ¬outside32 R minMult maxMult r2) :
    0 < r2 ∧ Real.log ((R : ℝ) * minMult) - 1 / 2 ^ 21 ≤ Real.log r2 / 2 ∧ Real.log r2 / 2 ≤ Real.log ((R : ℝ) * maxMult) + 1 / 2 ^ 21 ∧ |Real.log r2| ≤ 100 := by
  unfold outside32 at hin
  push Not at hin
  have pmin : (0 : ℝ) < (R : ℝ) * minMult := by exact_mod_cast mul_pos h.posR h.posMin
  have pmax : (0 : ℝ) < (R : ℝ) * maxMult := by exact_mod_cast mul_pos h.posR h.posMax
  have b1 := (edge32_bounds h.posR h.posMin).1
  have b2 := (edge32_bounds h.posR h.posMax).2
  have i1 : (edge32 R minMult : ℝ) < r2 := by exact_mod_cast hin.1
  have i2 : (r2 : ℝ) < edge32 R maxMult := by exact_mod_cast hin.2
  have s1 : (0 : ℝ) < ((R : ℝ) * minMult) ^ 2 := by positivity
  have r0 : (0 : ℝ) < r2 := lt_trans (lt_of_lt_of_le (mul_pos s1 (by norm_num)) b1) i1
  have s2 : (0 : ℝ) < ((R : ℝ) * maxMult) ^ 2 := by positivity
  have a1 : Real.log ((R : ℝ) * minMult) - 1 / 2 ^ 21 ≤ Real.log r2 / 2 := by
    have c := log_close s1 (by norm_num : (0 : ℝ) ≤ 6 / 2 ^ 24) (by norm_num) le_rfl (by nlinarith)
    have m := Real.log_le_log (mul_pos s1 (by norm_num)) (b1.trans i1.le)
    rw [Real.log_pow] at c
    rw [abs_le] at c
    push_cast at c
    norm_num at c m ⊢
    linarith [c.1]
  have a2 : Real.log r2 / 2 ≤ Real.log ((R : ℝ) * maxMult) + 1 / 2 ^ 21 := by
    have c := log_close s2 (by norm_num : (0 : ℝ) ≤ 6 / 2 ^ 24) (by norm_num) (by nlinarith) le_rfl
    have m := Real.log_le_log r0 (i2.le.trans b2)
    rw [Real.log_pow] at c
    rw [abs_le] at c
    push_cast at c
    norm_num at c m ⊢
    linarith [c.2]
  refine ⟨by exact_mod_cast r0, a1, a2, ?_⟩
  have k1 := Real.log_le_log (by positivity) (cast_low2 h.low)
  have k2 := Real.log_le_log pmax (show (R : ℝ) * maxMult ≤ 2 ^ 64 by exact_mod_cast h.high)
  have q1 := log_pow2 (x := (1 : ℝ) / 2 ^ 64) (k := 64) le_rfl (by norm_num)
  have q2 := log_pow2 (x := (2 : ℝ) ^ 64) (k := 64) (by norm_num) le_rfl
  rw [abs_le] at q1 q2 ⊢
  push_cast at q1 q2
  generalize Real.log ((1 : ℝ) / 2 ^ 64) = u at *
  generalize Real.log ((2 : ℝ) ^ 64) = v at *
  constructor <;> linarith [q1.1, q2.2]

/-! ### Sums -/

/-- Adding the masses of the particles to the entries they belong to. -/
theorem fold_place (f : List ℚ → BinPoint → Option (List ℚ)) (n : ℕ) (place : BinPoint → Option ℕ) (ps : List BinPoint) (hlt : ∀ p ∈ ps, ∀ k, place p = some k → k < n)
    (hf : ∀ p ∈ ps, ∀ rhos : List ℚ, rhos.length = n → f rhos p = match place p with | none => some rhos | some k => addAtR rhos k p.m) (rhos : List ℚ) (hl : rhos.length = n) :
    ∃ out, ps.foldlM f rhos = some out ∧ out.length = n ∧ ∀ k < n, out.getD k 0 = sum64 (rhos.getD k 0) ((ps.filter fun p => place p = some k).map (·.m)) := by
  induction ps generalizing rhos with
  | nil => exact ⟨rhos, rfl, hl, fun k _ => rfl⟩
  | cons p ps ih =>
    have h1 := hf p (List.mem_cons_self ..) rhos hl
    rw [List.foldlM_cons]
    cases hp : place p with
    | none =>
      rw [hp] at h1
      dsimp only at h1
      rw [h1]
      obtain ⟨out, o1, o2, o3⟩ := ih (fun q hq => hlt q (List.mem_cons_of_mem _ hq)) (fun q hq => hf q (List.mem_cons_of_mem _ hq)) rhos hl
      refine ⟨out, o1, o2, fun k hk => ?_⟩
      rw [List.filter_cons_of_neg (by simp [hp])]
      exact o3 k hk
    | some i =>
      rw [hp] at h1
      dsimp only at h1
      have hi := hlt p (List.mem_cons_self ..) i hp
      have e : addAtR rhos i p.m = some (rhos.modify i fun a => r64 (a + p.m)) := by
        unfold addAtR
        rw [if_pos ⟨by omega, by omega⟩, Int.toNat_natCast]
      rw [h1, e]
      obtain ⟨out, o1, o2, o3⟩ := ih (fun q hq => hlt q (List.mem_cons_of_mem _ hq)) (fun q hq => hf q (List.mem_cons_of_mem _ hq)) (rhos.modify i fun a => r64 (a + p.m)) (by simp [hl])
      refine ⟨out, o1, o2, fun k hk => ?_⟩
      rw [o3 k hk, getD_modifyR _ _ _ _ (by omega)]
      by_cases hk' : k = i
      · subst hk'
        rw [if_pos rfl, List.filter_cons_of_pos (by simp [hp]), List.map_cons]
        rfl
      · rw [if_neg hk', List.filter_cons_of_neg (by simp [hp]; omega)]

theorem sum64_acc (ms : List ℚ) (h : ∀ m ∈ ms, 0 ≤ m) : ∀ (x s : ℚ) (k : ℕ), Acc x s s k → 0 ≤ s → Acc (sum64 x ms) (s + ms.sum) (s + ms.sum) (k + ms.length) := by
  induction ms with
  | nil => intro x s k hx _; simpa [sum64] using hx
  | cons m ms ih =>
    intro x s k hx hs
    have hm := h m (List.mem_cons_self ..)
    have h1 : Acc m m m k := by
      have := acc_mono (acc_self m) (Nat.zero_le k)
      rwa [abs_of_nonneg hm] at this
    have h2 := ih (fun q hq => h q (List.mem_cons_of_mem _ hq)) (r64 (x + m)) (s + m) (k + 1) (acc_add hx h1) (add_nonneg hs hm)
    rw [List.sum_cons, List.length_cons, ← add_assoc, show k + (ms.length + 1) = k + 1 + ms.length by omega]
    exact h2

/-- C125: the mass in a bin is the sum of the masses up to the roundings of the additions. -/
theorem C125_mass (ms : List ℚ) (h : ∀ m ∈ ms, 0 ≤ m) (hn : ms.length ≤ 2 ^ 52) : |sum64 0 ms - ms.sum| ≤ ms.length / 2 ^ 52 * ms.sum := by
  have h1 := (sum64_acc ms h 0 0 0 (acc_zero 0) le_rfl).1
  rw [zero_add, zero_add] at h1
  refine h1.trans (mul_le_mul_of_nonneg_right ?_ (List.sum_nonneg h))
  refine (pow_bound _ hn).trans (le_of_eq ?_)
  ring

/-! ### The prof mode -/

theorem dist_log {p : BinPoint} (h : 0 < r2_32 p.dx p.dy p.dz) : 0 < p.dist ∧ |Real.log (r2_32 p.dx p.dy p.dz) / 2 - Real.log p.dist| ≤ 1 / 2 ^ 22 := by
  have b := r2_32_bounds p.dx p.dy p.dz
  have h' : (0 : ℝ) < r2_32 p.dx p.dy p.dz := by exact_mod_cast h
  have hs : 0 < (p.dx : ℝ) ^ 2 + (p.dy : ℝ) ^ 2 + (p.dz : ℝ) ^ 2 := by
    by_contra hc
    have : (p.dx : ℝ) ^ 2 + (p.dy : ℝ) ^ 2 + (p.dz : ℝ) ^ 2 = 0 := le_antisymm (not_lt.mp hc) (by positivity)
    rw [this] at b
    linarith [b.2]
  have hd : 0 < p.dist := Real.sqrt_pos.mpr hs
  have hsq : p.dist ^ 2 = (p.dx : ℝ) ^ 2 + (p.dy : ℝ) ^ 2 + (p.dz : ℝ) ^ 2 := Real.sq_sqrt hs.le
  rw [← hsq] at b
  refine ⟨hd, ?_⟩
  have c := log_close (by positivity : 0 < p.dist ^ 2) (by norm_num : (0 : ℝ) ≤ 4 / 2 ^ 24) (by norm_num) b.1 b.2
  rw [Real.log_pow] at c
  rw [abs_le] at c ⊢
  push_cast at c
  norm_num at c ⊢
  constructor <;> linarith [c.1, c.2]

theorem dist_sq (p : BinPoint) : p.dist ^ 2 = (p.dx : ℝ) ^ 2 + (p.dy : ℝ) ^ 2 + (p.dz : ℝ) ^ 2 := Real.sq_sqrt (by positivity)

theorem outside_spec {R minMult maxMult : ℚ} {n : ℕ} (h : ProfOk R minMult maxMult n) {p : BinPoint} (hout : outside32 R minMult maxMult (r2_32 p.dx p.dy p.dz)) :
    p.dist ≤ (R : ℝ) * minMult * (1 + 1 / 2 ^ 20) ∨ (R : ℝ) * maxMult * (1 - 1 / 2 ^ 20) ≤ p.dist := by
  have b := r2_32_bounds p.dx p.dy p.dz
  rw [← dist_sq] at b
  have hd : 0 ≤ p.dist := Real.sqrt_nonneg _
  have pmin : (0 : ℝ) < (R : ℝ) * minMult := by exact_mod_cast mul_pos h.posR h.posMin
  have pmax : (0 : ℝ) < (R : ℝ) * maxMult := by exact_mod_cast mul_pos h.posR h.posMax
  rcases hout with ho | ho
  · left
    have b1 := (edge32_bounds h.posR h.posMin).2
    have ho' : (r2_32 p.dx p.dy p.dz : ℝ) ≤ edge32 R minMult := by exact_mod_cast ho
    refine le_of_sq_le_sq ?_ (mul_nonneg pmin.le (by norm_num))
    generalize (R : ℝ) * minMult = A at *
    have hA : 0 ≤ A ^ 2 := sq_nonneg A
    have hD : 0 ≤ p.dist ^ 2 := sq_nonneg _
    rw [mul_pow]
    norm_num at b b1 ⊢
    linarith [b.1]
  · right
    have b1 := (edge32_bounds h.posR h.posMax).1
    have ho' : (edge32 R maxMult : ℝ) ≤ r2_32 p.dx p.dy p.dz := by exact_mod_cast ho
    refine le_of_sq_le_sq ?_ hd
    generalize (R : ℝ) * maxMult = A at *
    have hA : 0 ≤ A ^ 2 := sq_nonneg A
    have hD : 0 ≤ p.dist ^ 2 := sq_nonneg _
    rw [mul_pow]
    norm_num at b b1 ⊢
    linarith [b.2]

/-- C125, prof mode: no particle makes the program panic; every particle that is counted is in one bin, whose edges it respects up to a millionth; a particle that is left out is outside of the profile up to a
millionth; and the bins hold the sums of the masses of their particles. -/
theorem C125_prof (lg : ℚ → ℚ) (hlg : LogOk lg) (R minMult maxMult : ℚ) (n : ℕ) (h : ProfOk R minMult maxMult n) (rhos : List ℚ) (hl : rhos.length = n) (ps : List BinPoint) :
    ∃ (out : List ℚ) (bin : BinPoint → Option ℕ), profPoints64 lg R minMult maxMult n rhos ps = some out ∧ out.length = n ∧
      (∀ j < n, out.getD j 0 = sum64 (rhos.getD j 0) ((ps.filter fun p => bin p = some j).map (·.m))) ∧
      (∀ p ∈ ps, ∀ j, bin p = some j → j < n ∧ p.counted = true ∧ 0 < p.dist ∧
        Real.log ((R : ℝ) * minMult) + j * ((Real.log ((R : ℝ) * maxMult) - Real.log ((R : ℝ) * minMult)) / n) - 1 / 2 ^ 20 ≤ Real.log p.dist ∧
        Real.log p.dist ≤ Real.log ((R : ℝ) * minMult) + (j + 1) * ((Real.log ((R : ℝ) * maxMult) - Real.log ((R : ℝ) * minMult)) / n) + 1 / 2 ^ 20) ∧
      (∀ p ∈ ps, bin p = none → p.counted = false ∨ p.dist ≤ (R : ℝ) * minMult * (1 + 1 / 2 ^ 20) ∨ (R : ℝ) * maxMult * (1 - 1 / 2 ^ 20) ≤ p.dist) := by
  let bin : BinPoint → Option ℕ := fun p =>
    if outside32 R minMult maxMult (r2_32 p.dx p.dy p.dz) ∨ p.counted = false then none else some (logBin lg R minMult maxMult n n (r64 (lg (r2_32 p.dx p.dy p.dz) / 2))).toNat
  have key : ∀ p : BinPoint, ¬outside32 R minMult maxMult (r2_32 p.dx p.dy p.dz) → ∃ j : ℕ, j < n ∧ logBin lg R minMult maxMult n n (r64 (lg (r2_32 p.dx p.dy p.dz) / 2)) = j ∧ 0 < p.dist ∧
        Real.log ((R : ℝ) * minMult) + j * ((Real.log ((R : ℝ) * maxMult) - Real.log ((R : ℝ) * minMult)) / n) - 1 / 2 ^ 20 ≤ Real.log p.dist ∧
        Real.log p.dist ≤ Real.log ((R : ℝ) * minMult) + (j + 1) * ((Real.log ((R : ℝ) * maxMult) - Real.log ((R : ℝ) * minMult)) / n) + 1 / 2 ^ 20 := by
    intro p hin
    obtain ⟨i1, i2, i3, i4⟩ := inside_spec h hin
    obtain ⟨d1, d2⟩ := dist_log (p := p) i1
    obtain ⟨j, j1, j2, j3, j4⟩ := logBin_spec hlg h _ _ (half_log hlg i1 i4) i2 i3
    refine ⟨j, j1, j2, d1, ?_, ?_⟩
    · rw [abs_le] at d2
      norm_num at d2 j3 ⊢
      linarith [d2.1, d2.2]
    · rw [abs_le] at d2
      norm_num at d2 j4 ⊢
      linarith [d2.1, d2.2]
  have hbin : ∀ p j, bin p = some j → ¬outside32 R minMult maxMult (r2_32 p.dx p.dy p.dz) ∧ p.counted = true ∧ logBin lg R minMult maxMult n n (r64 (lg (r2_32 p.dx p.dy p.dz) / 2)) = j ∧ j < n := by
    intro p j hp
    change (if _ then _ else _) = _ at hp
    split_ifs at hp with hc
    push Not at hc
    obtain ⟨k, k1, k2, _⟩ := key p hc.1
    rw [k2, Int.toNat_natCast, Option.some_inj] at hp
    exact ⟨hc.1, by simpa using hc.2, by rw [k2, hp], by omega⟩
  obtain ⟨out, o1, o2, o3⟩ := fold_place (profPoint64 lg R minMult maxMult n) n bin ps (fun p _ k hk => (hbin p k hk).2.2.2) (by
    intro p _ rhos hl
    unfold profPoint64
    dsimp only
    by_cases h1 : outside32 R minMult maxMult (r2_32 p.dx p.dy p.dz)
    · rw [if_pos h1, show bin p = none from if_pos (Or.inl h1)]
    · rw [if_neg h1]
      by_cases h2 : p.counted = false
      · rw [if_pos h2, show bin p = none from if_pos (Or.inr h2)]
      · obtain ⟨k, k1, k2, _⟩ := key p h1
        rw [if_neg h2, show bin p = some _ from if_neg (not_or.mpr ⟨h1, h2⟩), hl, k2, Int.toNat_natCast]) rhos hl
  refine ⟨out, bin, o1, o2, o3, ?_, ?_⟩
  · intro p _ j hp
    obtain ⟨b1, b2, b3, b4⟩ := hbin p j hp
    obtain ⟨k, k1, k2, k3⟩ := key p b1
    have : k = j := by rw [k2] at b3; exact_mod_cast b3
    rw [this] at k3
    exact ⟨b4, b2, k3⟩
  · intro p _ hp
    change (if _ then _ else _) = _ at hp
    split_ifs at hp with hc
    rcases hc with hc | hc
    · exact Or.inr (outside_spec h hc)
    · exact Or.inl hc

/-- C125, median profiles: the radial bin of every particle that is not passed over exists, and the particle respects its edges up to a millionth. -/
theorem C125_median (lg : ℚ → ℚ) (hlg : LogOk lg) (R minMult maxMult : ℚ) (n : ℕ) (h : ProfOk R minMult maxMult n) (p : BinPoint) (hin : ¬outside32 R minMult maxMult (r2_32 p.dx p.dy p.dz)) :
    ∃ j : ℕ, medianBin64 lg R minMult maxMult n n (r2_32 p.dx p.dy p.dz) = j ∧ j < n ∧ 0 < p.dist ∧
      Real.log ((R : ℝ) * minMult) + j * ((Real.log ((R : ℝ) * maxMult) - Real.log ((R : ℝ) * minMult)) / n) - 1 / 2 ^ 20 ≤ Real.log p.dist ∧
      Real.log p.dist ≤ Real.log ((R : ℝ) * minMult) + (j + 1) * ((Real.log ((R : ℝ) * maxMult) - Real.log ((R : ℝ) * minMult)) / n) + 1 / 2 ^ 20 := by
  obtain ⟨i1, i2, i3, i4⟩ := inside_spec h hin
  obtain ⟨d1, d2⟩ := dist_log (p := p) i1
  generalize r2_32 p.dx p.dy p.dz = r2 at *
  have i1' : (0 : ℝ) < r2 := by exact_mod_cast i1
  have hs : 0 < Real.sqrt r2 := Real.sqrt_pos.mpr i1'
  have hr := rnReal_bounds hs.le
  have hr0 : 0 < rnReal (Real.sqrt r2) := by
    have : (0 : ℝ) < ((rnReal (Real.sqrt r2) : ℚ) : ℝ) := lt_of_lt_of_le (mul_pos hs (by norm_num)) hr.1
    exact_mod_cast this
  have c := log_close hs (by norm_num : (0 : ℝ) ≤ 1 / 2 ^ 53) (by norm_num) hr.1 hr.2
  have hl : Real.log (Real.sqrt r2) = Real.log r2 / 2 := by rw [Real.log_sqrt i1'.le]
  rw [hl] at c
  have e := hlg _ hr0
  have hb : |Real.log ((rnReal (Real.sqrt r2) : ℚ) : ℝ)| ≤ 64 := by
    rw [abs_le] at c i4 ⊢
    norm_num at c ⊢
    constructor <;> linarith [c.1, c.2, i4.1, i4.2]
  have e1 : |(lg (rnReal (Real.sqrt r2)) : ℝ) - Real.log r2 / 2| ≤ 1 / 2 ^ 41 := by
    have e2 := e.trans (div_le_div_of_nonneg_right hb (by positivity))
    have := abs_sub_le (lg (rnReal (Real.sqrt r2)) : ℝ) (Real.log ((rnReal (Real.sqrt r2) : ℚ) : ℝ)) (Real.log r2 / 2)
    norm_num at this c e2 ⊢
    linarith
  obtain ⟨j, j1, j2, j3, j4⟩ := logBin_spec hlg h _ _ e1 i2 i3
  refine ⟨j, ?_, j1, d1, ?_, ?_⟩
  · unfold medianBin64 sqrt64
    rw [if_neg (not_lt.mpr i1.le)]
    exact j2
  · rw [abs_le] at d2
    norm_num at d2 j3 ⊢
    linarith [d2.1, d2.2]
  · rw [abs_le] at d2
    norm_num at d2 j4 ⊢
    linarith [d2.1, d2.2]

/-! ### The phase mode -/

/-- A quotient by the width of a bin. -/
theorem quot_rel (n : ℕ) (hn : 0 < n) (D' x' : ℚ) (D x : ℝ) (hD : 0 < D) (hD' : |(D' : ℝ) - D| ≤ D / 2 ^ 53) (hx : |(x' : ℝ) - x| ≤ |x| / 2 ^ 53) :
    0 < r64 (D' / (n : ℚ)) ∧ |((r64 (x' / r64 (D' / (n : ℚ))) : ℚ) : ℝ) * (D / n) - x| ≤ |x| / 2 ^ 49 := by
  have hnp : (0 : ℝ) < n := by exact_mod_cast hn
  obtain ⟨w, hw⟩ : ∃ w, w = D / n := ⟨_, rfl⟩
  have hw0 : 0 < w := by rw [hw]; positivity
  obtain ⟨d, hd⟩ : ∃ d, d = r64 (D' / (n : ℚ)) := ⟨_, rfl⟩
  have ed := r64_errR (D' / (n : ℚ))
  rw [← hd] at ed ⊢
  push_cast at ed
  have hdw0 : |(D' : ℝ) / n - w| ≤ w / 2 ^ 53 := by
    rw [hw, ← sub_div, abs_div, abs_of_pos hnp]
    calc _ ≤ D / 2 ^ 53 / n := div_le_div_of_nonneg_right hD' hnp.le
      _ = _ := by ring
  have hdw : |(d : ℝ) - w| ≤ 3 * w / 2 ^ 53 := by
    have h1 : |(D' : ℝ) / n| ≤ 3 / 2 * w := by
      rw [abs_le] at hdw0 ⊢
      norm_num at hdw0 ⊢
      constructor <;> linarith [hdw0.1, hdw0.2]
    have h2 := ed.trans (div_le_div_of_nonneg_right h1 (by positivity))
    have := abs_sub_le (d : ℝ) ((D' : ℝ) / n) w
    norm_num at this h2 hdw0 ⊢
    linarith
  have hdlo : w / 2 ≤ d := by
    rw [abs_le] at hdw
    norm_num at hdw
    linarith [hdw.1]
  have hd0 : (0 : ℝ) < d := by linarith
  refine ⟨by exact_mod_cast hd0, ?_⟩
  rw [← hw]
  obtain ⟨q, hq⟩ : ∃ q, q = r64 (x' / d) := ⟨_, rfl⟩
  have eq := r64_errR (x' / d)
  rw [← hq] at eq ⊢
  push_cast at eq
  have hx0 := abs_nonneg x
  have hx1 : |(x' : ℝ)| ≤ 3 / 2 * |x| := by
    have := abs_sub_abs_le_abs_sub (x' : ℝ) x
    norm_num at hx ⊢
    linarith
  have h1 : |(q : ℝ) * d - x'| ≤ 3 / 2 * |x| / 2 ^ 53 := by
    rw [show (q : ℝ) * d - x' = ((q : ℝ) - x' / d) * d by field_simp, abs_mul, abs_of_pos hd0]
    calc _ ≤ |(x' : ℝ) / d| / 2 ^ 53 * d := mul_le_mul_of_nonneg_right eq hd0.le
      _ = |(x' : ℝ)| / 2 ^ 53 := by rw [abs_div, abs_of_pos hd0]; field_simp
      _ ≤ _ := div_le_div_of_nonneg_right hx1 (by positivity)
  have h2 : |(q : ℝ) * d - x| ≤ 5 / 2 * |x| / 2 ^ 53 := by
    have := abs_sub_le ((q : ℝ) * d) x' x
    norm_num at this h1 hx ⊢
    linarith
  have h3 : |(q : ℝ)| * w ≤ 4 * |x| := by
    have h4 : |(q : ℝ)| * d ≤ 2 * |x| := by
      rw [← abs_of_pos hd0, ← abs_mul]
      have := abs_sub_abs_le_abs_sub ((q : ℝ) * d) x
      norm_num at h2
      linarith
    have := mul_le_mul_of_nonneg_left hdlo (abs_nonneg (q : ℝ))
    linarith
  have h4 : |(q : ℝ) * w - (q : ℝ) * d| ≤ 12 * |x| / 2 ^ 53 := by
    rw [← mul_sub, abs_mul, abs_sub_comm]
    calc _ ≤ |(q : ℝ)| * (3 * w / 2 ^ 53) := mul_le_mul_of_nonneg_left hdw (abs_nonneg _)
      _ = 3 / 2 ^ 53 * (|(q : ℝ)| * w) := by ring
      _ ≤ 3 / 2 ^ 53 * (4 * |x|) := mul_le_mul_of_nonneg_left h3 (by positivity)
      _ = _ := by ring
  have := abs_sub_le ((q : ℝ) * w) ((q : ℝ) * d) x
  norm_num at this h4 h2 ⊢
  linarith

/-- The grids for which the statement is made. -/
structure PhaseGrid.Ok (g : PhaseGrid) : Prop where
  rpos : 0 < g.rMax
  vpos : 0 < g.vMax
  nr : 0 < g.rbins
  nv : 0 < g.vbins
  nr' : g.rbins ≤ 2 ^ 40
  nv' : g.vbins ≤ 2 ^ 40

/-- The velocity that the program computes for a particle. -/
noncomputable def velocity64 (g : PhaseGrid) (p : BinPoint) : Option ℚ := (sqrt64 (r2_32 p.dx p.dy p.dz)).bind (phaseV64 g p)

theorem r64_small {n : ℕ} (h : n ≤ 2 ^ 40) : r64 (n : ℚ) = n := r64_float ⟨n, 0, by push_cast; rw [abs_of_nonneg (by positivity)]; omega, by simp⟩

theorem r2_32_nonneg (x y z : ℚ) : 0 ≤ r2_32 x y z := by
  have b := (r2_32_bounds x y z).1
  have : (0 : ℝ) ≤ r2_32 x y z := le_trans (mul_nonneg (by positivity) (by norm_num)) b
  exact_mod_cast this

theorem sqrt_dist (p : BinPoint) : p.dist * (1 - 1 / 2 ^ 22) ≤ Real.sqrt (r2_32 p.dx p.dy p.dz) ∧ Real.sqrt (r2_32 p.dx p.dy p.dz) ≤ p.dist * (1 + 1 / 2 ^ 22) := by
  have b := r2_32_bounds p.dx p.dy p.dz
  rw [← dist_sq] at b
  have hd : 0 ≤ p.dist := Real.sqrt_nonneg _
  have h2 := sq_nonneg p.dist
  constructor
  · apply Real.le_sqrt_of_sq_le
    rw [mul_pow]
    norm_num at b ⊢
    linarith [b.1]
  · rw [Real.sqrt_le_left (mul_nonneg hd (by norm_num)), mul_pow]
    norm_num at b ⊢
    linarith [b.2]

/-- The radial bin of a particle that is not passed over. -/
theorem phase_radius (g : PhaseGrid) (h : g.Ok) (p : BinPoint) (hin : ¬r2_32 p.dx p.dy p.dz ≥ r64 (g.rMax * g.rMax)) : ∃ (r : ℚ) (i : ℕ), sqrt64 (r2_32 p.dx p.dy p.dz) = some r ∧ i < g.rbins ∧
    (if quotInt r (r64 (g.rMax / r64 (g.rbins : ℚ))) = (g.rbins : ℤ) then quotInt r (r64 (g.rMax / r64 (g.rbins : ℚ))) - 1 else quotInt r (r64 (g.rMax / r64 (g.rbins : ℚ)))) = (i : ℤ) ∧
    i * ((g.rMax : ℝ) / g.rbins) * (1 - 1 / 2 ^ 21) ≤ p.dist ∧ p.dist ≤ (i + 1) * ((g.rMax : ℝ) / g.rbins) * (1 + 1 / 2 ^ 21) := by
  have h0 := r2_32_nonneg p.dx p.dy p.dz
  have hs := sqrt_dist p
  generalize r2_32 p.dx p.dy p.dz = r2 at *
  have hR : (0 : ℝ) < g.rMax := by exact_mod_cast h.rpos
  have hnp : (0 : ℝ) < g.rbins := by exact_mod_cast h.nr
  have hn40 : (g.rbins : ℝ) ≤ 2 ^ 40 := by exact_mod_cast h.nr'
  have hsq0 : 0 ≤ Real.sqrt r2 := Real.sqrt_nonneg _
  have hr := rnReal_bounds hsq0
  have hd0 : 0 ≤ p.dist := Real.sqrt_nonneg _
  have hsome : sqrt64 r2 = some (rnReal (Real.sqrt r2)) := by
    unfold sqrt64
    rw [if_neg (not_lt.mpr h0)]
  refine ⟨rnReal (Real.sqrt r2), ?_⟩
  obtain ⟨q1, q2⟩ := quot_rel g.rbins h.nr g.rMax (rnReal (Real.sqrt r2)) g.rMax (Real.sqrt r2) hR (by rw [sub_self, abs_zero]; positivity) (by
    rw [abs_of_nonneg hsq0, abs_le]
    constructor <;> linarith [hr.1, hr.2])
  have hlt : Real.sqrt r2 ≤ g.rMax * (1 + 1 / 2 ^ 53) := by
    rw [Real.sqrt_le_left (mul_nonneg hR.le (by norm_num))]
    have h1 : (r2 : ℝ) ≤ r64 (g.rMax * g.rMax) := by exact_mod_cast (not_le.mp hin).le
    have h2 := (r64_bounds (mul_self_nonneg g.rMax)).2
    have h3 : ((r64 (g.rMax * g.rMax) : ℚ) : ℝ) ≤ ((g.rMax * g.rMax * (1 + 1 / 2 ^ 53) : ℚ) : ℝ) := by exact_mod_cast h2
    push_cast at h3
    have := mul_pos hR hR
    rw [mul_pow]
    norm_num at h3 ⊢
    nlinarith
  unfold quotInt
  rw [r64_small h.nr', if_neg q1.ne']
  have hq0 : 0 ≤ r64 (rnReal (Real.sqrt r2) / r64 (g.rMax / (g.rbins : ℚ))) := by
    apply r64_nonneg
    apply div_nonneg _ q1.le
    have : (0 : ℝ) ≤ ((rnReal (Real.sqrt r2) : ℚ) : ℝ) := le_trans (mul_nonneg hsq0 (by norm_num)) hr.1
    exact_mod_cast this
  obtain ⟨w, hw⟩ : ∃ w, w = (g.rMax : ℝ) / g.rbins := ⟨_, rfl⟩
  have hw0 : 0 < w := by rw [hw]; positivity
  have hwn : w * g.rbins = g.rMax := by rw [hw]; field_simp
  rw [← hw] at q2 ⊢
  rw [abs_of_nonneg hsq0, abs_le] at q2
  obtain ⟨z1, z2, z3⟩ := toInt_spec _ (by linarith : -1 < r64 (rnReal (Real.sqrt r2) / r64 (g.rMax / (g.rbins : ℚ))))
  generalize r64 (rnReal (Real.sqrt r2) / r64 (g.rMax / (g.rbins : ℚ))) = q at *
  generalize toInt q = z at *
  have z2' : (q : ℝ) < z + 1 := by exact_mod_cast z2
  have hq0' : (0 : ℝ) ≤ q := by exact_mod_cast hq0
  have z3' : (z : ℝ) ≤ q := by
    rcases lt_or_ge z 1 with hz | hz
    · have : z = 0 := by omega
      rw [this]
      simpa using hq0'
    · exact_mod_cast z3 hz
  generalize Real.sqrt r2 = sr at *
  generalize p.dist = D at *
  have zw := mul_le_mul_of_nonneg_right z3' hw0.le
  have zw2 := mul_le_mul_of_nonneg_right z2'.le hw0.le
  have lowD : z * w * (1 - 1 / 2 ^ 21) ≤ D := by
    have h1 : (z : ℝ) * w ≤ sr * (1 + 1 / 2 ^ 49) := by linarith [q2.2]
    have h2 := mul_le_mul_of_nonneg_right h1 (by norm_num : (0 : ℝ) ≤ 1 - 1 / 2 ^ 21)
    norm_num at h2 hs ⊢
    linarith [hs.2]
  have highD : D ≤ (z + 1) * w * (1 + 1 / 2 ^ 21) := by
    have h1 : sr * (1 - 1 / 2 ^ 49) ≤ (z + 1) * w := by linarith [q2.1]
    have h2 := mul_le_mul_of_nonneg_right h1 (by norm_num : (0 : ℝ) ≤ 1 + 1 / 2 ^ 21)
    norm_num at h2 hs ⊢
    linarith [hs.1]
  have hz : z ≤ g.rbins := by
    by_contra hc
    have h4 : (g.rbins : ℝ) + 1 ≤ z := by exact_mod_cast (show (g.rbins : ℤ) + 1 ≤ z by omega)
    have h5 : (q : ℝ) * w ≤ g.rMax * (1 + 1 / 2 ^ 48) := by
      norm_num at q2 hlt ⊢
      linarith [q2.2]
    have h6 : ((g.rbins : ℝ) + 1) * w ≤ g.rMax * (1 + 1 / 2 ^ 48) := le_trans (mul_le_mul_of_nonneg_right (h4.trans z3') hw0.le) h5
    rw [← hwn] at h6
    have h7 : (g.rbins : ℝ) + 1 ≤ g.rbins * (1 + 1 / 2 ^ 48) := by
      refine le_of_mul_le_mul_right ?_ hw0
      linarith
    generalize (g.rbins : ℝ) = nr at *
    norm_num at h7 hn40
    linarith
  by_cases hzn : z = g.rbins
  · rw [if_pos hzn]
    refine ⟨g.rbins - 1, hsome, by have := h.nr; omega, by have := h.nr; omega, ?_, ?_⟩
    · refine le_trans ?_ lowD
      rw [hzn, Nat.cast_sub h.nr]
      push_cast
      refine mul_le_mul_of_nonneg_right ?_ (by norm_num)
      linarith
    · rw [Nat.cast_sub h.nr]
      push_cast
      rw [show ((g.rbins : ℝ) - 1 + 1) * w = g.rMax by rw [← hwn]; ring]
      norm_num at hs hlt ⊢
      linarith [hs.1]
  · rw [if_neg hzn]
    have e3 : ((z.toNat : ℕ) : ℝ) = (z : ℝ) := by exact_mod_cast Int.toNat_of_nonneg z1
    exact ⟨z.toNat, hsome, by omega, by omega, by rw [e3]; exact lowD, by rw [e3]; exact highD⟩

theorem vMin_abs (g : PhaseGrid) (h : g.Ok) : 0 < g.vMax - g.vMin := by
  have := h.vpos
  unfold PhaseGrid.vMin
  split <;> linarith

theorem toInt_lt_zero {q : ℚ} (h : toInt q < 0) : q ≤ -1 := by
  by_contra hc
  have := (toInt_spec q (not_le.mp hc)).1
  omega

/-- The velocity bin of a particle: the first bin also holds the velocities below the lower limit by less than one bin. -/
theorem phase_vel (g : PhaseGrid) (h : g.Ok) (v : ℚ) (z : ℤ) (hz : quotInt (r64 (v - g.vMin)) (r64 (r64 (g.vMax - g.vMin) / r64 (g.vbins : ℚ))) = z) (w : ℝ) (hw : w = ((g.vMax : ℝ) - g.vMin) / g.vbins) :
    (0 ≤ z → (v : ℝ) - g.vMin ≤ (z + 1) * w * (1 + 1 / 2 ^ 48) ∧ (if z = 0 then -w * (1 + 1 / 2 ^ 48) else z * w * (1 - 1 / 2 ^ 48)) ≤ (v : ℝ) - g.vMin) ∧
    (z < 0 → (v : ℝ) - g.vMin ≤ -w * (1 - 1 / 2 ^ 48)) := by
  have hnp : (0 : ℝ) < g.vbins := by exact_mod_cast h.nv
  have hW : (0 : ℝ) < (g.vMax : ℝ) - g.vMin := by exact_mod_cast vMin_abs g h
  have e1 := r64_errR (g.vMax - g.vMin)
  have e2 := r64_errR (v - g.vMin)
  push_cast at e1 e2
  rw [abs_of_pos hW] at e1
  obtain ⟨q1, q2⟩ := quot_rel g.vbins h.nv _ _ _ _ hW e1 e2
  unfold quotInt at hz
  rw [r64_small h.nv', if_neg q1.ne'] at hz
  rw [← hw] at q2
  have hw0 : 0 < w := by rw [hw]; positivity
  generalize r64 (r64 (v - g.vMin) / r64 (r64 (g.vMax - g.vMin) / (g.vbins : ℚ))) = q at *
  generalize (v : ℝ) - g.vMin = x at *
  constructor
  · intro hz0
    have hq : -1 < q := by
      by_contra hc
      have hle : q ≤ -1 := not_lt.mp hc
      have : toInt q < 0 := by
        unfold Shellfish.Finder.toInt Shellfish.Los.modf
        rw [if_neg (by linarith)]
        have : ⌈q⌉ ≤ -1 := Int.ceil_le.mpr (by push_cast; exact hle)
        dsimp only
        omega
      omega
    obtain ⟨z1, z2, z3⟩ := toInt_spec q hq
    rw [hz] at z1 z2 z3
    have z2' : (q : ℝ) < z + 1 := by exact_mod_cast z2
    have hq' : (-1 : ℝ) < q := by exact_mod_cast hq
    have zw2 := mul_le_mul_of_nonneg_right z2'.le hw0.le
    have zw1 := mul_le_mul_of_nonneg_right hq'.le hw0.le
    have zp : (0 : ℝ) ≤ z := by exact_mod_cast z1
    have zwp := mul_nonneg zp hw0.le
    constructor
    · rcases le_or_gt 0 x with hx | hx
      · rw [abs_of_nonneg hx, abs_le] at q2
        have h1 : x * (1 - 1 / 2 ^ 49) ≤ (z + 1) * w := by linarith [q2.1]
        have h2 := mul_le_mul_of_nonneg_right h1 (by norm_num : (0 : ℝ) ≤ 1 + 1 / 2 ^ 48)
        norm_num at h2 ⊢
        linarith
      · exact hx.le.trans (mul_nonneg (by linarith) (by norm_num))
    · split
      · rcases le_or_gt 0 x with hx | hx
        · have : -w * (1 + 1 / 2 ^ 48) ≤ 0 := by norm_num; linarith
          linarith
        · rw [abs_of_neg hx, abs_le] at q2
          have h1 : -x * (1 - 1 / 2 ^ 49) ≤ w := by linarith [q2.1]
          have h2 := mul_le_mul_of_nonneg_right h1 (by norm_num : (0 : ℝ) ≤ 1 + 1 / 2 ^ 48)
          norm_num at h2 ⊢
          linarith
      · rename_i hne
        have z3' : (z : ℝ) ≤ q := by exact_mod_cast z3 (by omega)
        have zw := mul_le_mul_of_nonneg_right z3' hw0.le
        have zo : (1 : ℝ) ≤ z := by exact_mod_cast (show (1 : ℤ) ≤ z by omega)
        rcases le_or_gt 0 x with hx | hx
        · rw [abs_of_nonneg hx, abs_le] at q2
          have h1 : z * w ≤ x * (1 + 1 / 2 ^ 49) := by linarith [q2.2]
          have h2 := mul_le_mul_of_nonneg_right h1 (by norm_num : (0 : ℝ) ≤ 1 - 1 / 2 ^ 48)
          norm_num at h2 ⊢
          linarith
        · exfalso
          rw [abs_of_neg hx, abs_le] at q2
          have h1 : (1 : ℝ) * w ≤ q * w := mul_le_mul_of_nonneg_right (zo.trans z3') hw0.le
          have h3 : x - x / 2 ^ 49 < 0 := by norm_num; linarith
          linarith [q2.2, neg_div (2 ^ 49) x]
  · intro hz0
    have hq := toInt_lt_zero (by rw [hz]; exact hz0)
    have hq' : (q : ℝ) ≤ -1 := by exact_mod_cast hq
    have zw := mul_le_mul_of_nonneg_right hq' hw0.le
    rcases le_or_gt 0 x with hx | hx
    · exfalso
      rw [abs_of_nonneg hx, abs_le] at q2
      have : 0 ≤ x - x / 2 ^ 49 := by norm_num; linarith
      linarith [q2.1]
    · rw [abs_of_neg hx, abs_le] at q2
      have h1 : w ≤ -x * (1 + 1 / 2 ^ 49) := by linarith [q2.1, q2.2]
      have h2 := mul_le_mul_of_nonneg_right h1 (by norm_num : (0 : ℝ) ≤ 1 - 1 / 2 ^ 48)
      norm_num at h2 ⊢
      linarith

/-- C125, phase mode: no particle makes the program panic; every particle that is counted is in one cell (radius bin `i`, velocity bin `j`), whose edges it respects (the first velocity bin reaches one bin below
the limit); a particle that is left out is outside of the grid; and the cells hold the sums of the masses of their particles. -/
theorem C125_phase (g : PhaseGrid) (h : g.Ok) (rhos : List ℚ) (hl : rhos.length = g.rbins * g.vbins) (ps : List BinPoint) :
    ∃ (out : List ℚ) (cell : BinPoint → Option (ℕ × ℕ)), phasePoints64 g rhos ps = some out ∧ out.length = g.rbins * g.vbins ∧
      (∀ i < g.rbins, ∀ j < g.vbins, out.getD (i * g.vbins + j) 0 = sum64 (rhos.getD (i * g.vbins + j) 0) ((ps.filter fun p => cell p = some (i, j)).map (·.m))) ∧
      (∀ p ∈ ps, ∀ i j, cell p = some (i, j) → i < g.rbins ∧ j < g.vbins ∧
        i * ((g.rMax : ℝ) / g.rbins) * (1 - 1 / 2 ^ 21) ≤ p.dist ∧ p.dist ≤ (i + 1) * ((g.rMax : ℝ) / g.rbins) * (1 + 1 / 2 ^ 21) ∧
        ∃ v : ℚ, velocity64 g p = some v ∧ (v : ℝ) - g.vMin ≤ (j + 1) * (((g.vMax : ℝ) - g.vMin) / g.vbins) * (1 + 1 / 2 ^ 48) ∧
          (if j = 0 then -(((g.vMax : ℝ) - g.vMin) / g.vbins) * (1 + 1 / 2 ^ 48) else j * (((g.vMax : ℝ) - g.vMin) / g.vbins) * (1 - 1 / 2 ^ 48)) ≤ (v : ℝ) - g.vMin) ∧
      (∀ p ∈ ps, cell p = none → (g.rMax : ℝ) * (1 - 1 / 2 ^ 21) ≤ p.dist ∨ velocity64 g p = none ∨ ∃ v : ℚ, velocity64 g p = some v ∧
        (((g.vMax : ℝ) - g.vMin) * (1 - 1 / 2 ^ 48) ≤ (v : ℝ) - g.vMin ∨ (v : ℝ) - g.vMin ≤ -(((g.vMax : ℝ) - g.vMin) / g.vbins) * (1 - 1 / 2 ^ 48))) := by
  classical
  obtain ⟨w, hw⟩ : ∃ w, w = ((g.vMax : ℝ) - g.vMin) / g.vbins := ⟨_, rfl⟩
  have hnv : (0 : ℝ) < g.vbins := by exact_mod_cast h.nv
  have hwW : ((g.vMax : ℝ) - g.vMin) = g.vbins * w := by rw [hw]; field_simp
  rw [← hw]
  -- the velocity bin
  obtain ⟨iv, hiv⟩ : ∃ iv : BinPoint → ℤ, iv = fun p => match velocity64 g p with
        | none => -2 ^ 63
        | some v => quotInt (r64 (v - g.vMin)) (r64 (r64 (g.vMax - g.vMin) / r64 (g.vbins : ℚ))) := ⟨_, rfl⟩
  have key : ∀ p : BinPoint, ∃ c : Option (ℕ × ℕ), (∀ rhos : List ℚ, phasePoint64 g rhos p = match c with | none => some rhos | some (i, j) => addAtR rhos ((i * g.vbins + j : ℕ) : ℤ) p.m) ∧
      (∀ i j, c = some (i, j) → i < g.rbins ∧ j < g.vbins ∧
        i * ((g.rMax : ℝ) / g.rbins) * (1 - 1 / 2 ^ 21) ≤ p.dist ∧ p.dist ≤ (i + 1) * ((g.rMax : ℝ) / g.rbins) * (1 + 1 / 2 ^ 21) ∧
        ∃ v : ℚ, velocity64 g p = some v ∧ (v : ℝ) - g.vMin ≤ (j + 1) * w * (1 + 1 / 2 ^ 48) ∧
          (if j = 0 then -w * (1 + 1 / 2 ^ 48) else j * w * (1 - 1 / 2 ^ 48)) ≤ (v : ℝ) - g.vMin) ∧
      (c = none → (g.rMax : ℝ) * (1 - 1 / 2 ^ 21) ≤ p.dist ∨ velocity64 g p = none ∨ ∃ v : ℚ, velocity64 g p = some v ∧
        (((g.vMax : ℝ) - g.vMin) * (1 - 1 / 2 ^ 48) ≤ (v : ℝ) - g.vMin ∨ (v : ℝ) - g.vMin ≤ -w * (1 - 1 / 2 ^ 48))) := by
    intro p
    by_cases hin : r2_32 p.dx p.dy p.dz ≥ r64 (g.rMax * g.rMax)
    · refine ⟨none, fun rhos => ?_, fun i j hc => by simp at hc, fun _ => Or.inl ?_⟩
      · unfold phasePoint64
        dsimp only
        rw [if_pos hin]
      · have hR : (0 : ℝ) < g.rMax := by exact_mod_cast h.rpos
        have hs := (sqrt_dist p).2
        have hd0 : 0 ≤ p.dist := Real.sqrt_nonneg _
        have h1 : (g.rMax : ℝ) * (1 - 1 / 2 ^ 53) ≤ Real.sqrt (r2_32 p.dx p.dy p.dz) := by
          apply Real.le_sqrt_of_sq_le
          have h2 := (r64_bounds (mul_self_nonneg g.rMax)).1
          have h3 : ((g.rMax * g.rMax * (1 - 1 / 2 ^ 53) : ℚ) : ℝ) ≤ (r2_32 p.dx p.dy p.dz : ℝ) := by exact_mod_cast h2.trans hin
          push_cast at h3
          have := mul_pos hR hR
          refine le_trans ?_ h3
          rw [mul_pow]
          norm_num
          nlinarith
        have h2 := h1.trans hs
        norm_num at h2 ⊢
        linarith
    · obtain ⟨r, i, r1, r2, r3, r4, r5⟩ := phase_radius g h p hin
      have hv : velocity64 g p = phaseV64 g p r := by
        unfold velocity64
        rw [r1]
        rfl
      have hstep : ∀ rhos : List ℚ, phasePoint64 g rhos p = if iv p ≥ g.vbins ∨ iv p < 0 then some rhos else addAtR rhos (i * g.vbins + iv p) p.m := by
        intro rhos
        unfold phasePoint64
        dsimp only
        rw [if_neg hin, r1]
        dsimp only
        rw [r3, hiv]
        dsimp only
        simp only [hv]
        generalize (-2 ^ 63 : ℤ) = big
        cases phaseV64 g p r <;> rfl
      by_cases hc : iv p ≥ g.vbins ∨ iv p < 0
      · refine ⟨none, fun rhos => by rw [hstep, if_pos hc], fun i j hc => by simp at hc, fun _ => Or.inr ?_⟩
        cases hvv : velocity64 g p with
        | none => exact Or.inl rfl
        | some v =>
          refine Or.inr ⟨v, rfl, ?_⟩
          have hz : quotInt (r64 (v - g.vMin)) (r64 (r64 (g.vMax - g.vMin) / r64 (g.vbins : ℚ))) = iv p := by
            rw [hiv]
            dsimp only
            rw [hvv]
          obtain ⟨s1, s2⟩ := phase_vel g h v (iv p) hz w hw
          rcases hc with hc | hc
          · left
            have hnv' := h.nv
            have s3 := (s1 (by omega)).2
            rw [if_neg (by omega)] at s3
            have : (g.vbins : ℝ) ≤ (iv p : ℝ) := by exact_mod_cast hc
            have hw0 : 0 ≤ w := by
              have hW : (0 : ℝ) < (g.vMax : ℝ) - g.vMin := by exact_mod_cast vMin_abs g h
              rw [hw]
              positivity
            refine le_trans ?_ s3
            rw [hwW]
            refine mul_le_mul_of_nonneg_right ?_ (by norm_num)
            exact mul_le_mul_of_nonneg_right this hw0
          · exact Or.inr (s2 hc)
      · push Not at hc
        have e : (((iv p).toNat : ℕ) : ℤ) = iv p := Int.toNat_of_nonneg hc.2
        refine ⟨some (i, (iv p).toNat), fun rhos => ?_, fun i' j' hij => ?_, fun hcn => by simp at hcn⟩
        · rw [hstep, if_neg (by push Not; exact hc)]
          dsimp only
          push_cast
          rw [e]
        · simp only [Option.some.injEq, Prod.mk.injEq] at hij
          obtain ⟨rfl, rfl⟩ := hij
          refine ⟨r2, by omega, r4, r5, ?_⟩
          cases hvv : velocity64 g p with
          | none =>
            exfalso
            have : iv p < 0 := by
              rw [hiv]
              dsimp only
              rw [hvv]
              norm_num
            omega
          | some v =>
            have hz : quotInt (r64 (v - g.vMin)) (r64 (r64 (g.vMax - g.vMin) / r64 (g.vbins : ℚ))) = iv p := by
              rw [hiv]
              dsimp only
              rw [hvv]
            obtain ⟨s1, s2⟩ := (phase_vel g h v (iv p) hz w hw).1 hc.2
            have e3 : (((iv p).toNat : ℕ) : ℝ) = (iv p : ℝ) := by exact_mod_cast e
            refine ⟨v, rfl, by rw [e3]; exact s1, ?_⟩
            rw [e3]
            by_cases h0 : iv p = 0
            · rw [if_pos h0] at s2
              rw [if_pos (by omega)]
              exact s2
            · rw [if_neg h0] at s2
              rw [if_neg (by omega)]
              exact s2
  choose cell c1 c2 c3 using key
  have hidx : ∀ i j, i < g.rbins → j < g.vbins → i * g.vbins + j < g.rbins * g.vbins := by
    intro i j hi hj
    calc i * g.vbins + j < i * g.vbins + g.vbins := by omega
      _ = (i + 1) * g.vbins := by ring
      _ ≤ _ := Nat.mul_le_mul_right _ hi
  obtain ⟨out, o1, o2, o3⟩ := fold_place (phasePoint64 g) (g.rbins * g.vbins) (fun p => (cell p).map fun c => c.1 * g.vbins + c.2) ps (by
    intro p _ k hk
    cases hp : cell p with
    | none => simp [hp] at hk
    | some c =>
      obtain ⟨d1, d2, _⟩ := c2 p c.1 c.2 hp
      simp only [hp, Option.map_some, Option.some.injEq] at hk
      rw [← hk]
      exact hidx _ _ d1 d2) (by
    intro p _ rhos _
    rw [c1]
    cases hp : cell p with
    | none => rfl
    | some c => rfl) rhos hl
  refine ⟨out, cell, o1, o2, fun i hi j hj => ?_, fun p _ => c2 p, fun p _ => c3 p⟩
  rw [o3 _ (hidx i j hi hj)]
  congr 2
  apply List.filter_congr
  intro p _
  simp only [decide_eq_decide]
  cases hp : cell p with
  | none => simp
  | some c =>
    obtain ⟨d1, d2, _⟩ := c2 p c.1 c.2 hp
    obtain ⟨a, b⟩ := c
    simp only [Option.map_some, Option.some.injEq, Prod.mk.injEq]
    dsimp only at d1 d2
    constructor
    · intro e
      have hb : b = j := by
        have := congrArg (· % g.vbins) e
        simpa [Nat.add_mod, Nat.mod_eq_of_lt d2, Nat.mod_eq_of_lt hj] using this
      have ha : a = i := by
        rw [hb] at e
        have : a * g.vbins = i * g.vbins := by omega
        exact Nat.eq_of_mul_eq_mul_right h.nv this
      exact ⟨ha, hb⟩
    · rintro ⟨rfl, rfl⟩
      rfl

/-! ### The velocities -/

/-- The length of a vector. -/
noncomputable def len3 (x y z : ℝ) : ℝ := Real.sqrt (x ^ 2 + y ^ 2 + z ^ 2)

/-- The Hubble constant of the program, if it is asked to subtract the Hubble flow. -/
def PhaseGrid.hub (g : PhaseGrid) : ℝ := if g.subHub then 70 else 0

/-- The exact velocity of a particle: its radial velocity, or its speed, without the Hubble flow. -/
noncomputable def PhaseGrid.exactV (g : PhaseGrid) (p : BinPoint) : ℝ :=
  if g.radial then ((p.vx : ℝ) * p.dx + p.vy * p.dy + p.vz * p.dz) / p.dist - g.hub * p.dist
  else len3 (p.vx - g.hub * p.dx) (p.vy - g.hub * p.dy) (p.vz - g.hub * p.dz)

theorem len3_nonneg (x y z : ℝ) : 0 ≤ len3 x y z := Real.sqrt_nonneg _

theorem len3_sq (x y z : ℝ) : len3 x y z ^ 2 = x ^ 2 + y ^ 2 + z ^ 2 := Real.sq_sqrt (by positivity)

theorem le_of_sq_le_sq' {a b : ℝ} (h : a ^ 2 ≤ b ^ 2) (hb : 0 ≤ b) : a ≤ b := (abs_le_of_sq_le_sq h hb).trans' (le_abs_self a)

theorem len3_cs (a b c x y z : ℝ) : |a| * |x| + |b| * |y| + |c| * |z| ≤ len3 a b c * len3 x y z := by
  refine le_of_sq_le_sq' ?_ (mul_nonneg (len3_nonneg _ _ _) (len3_nonneg _ _ _))
  rw [mul_pow, len3_sq, len3_sq, ← sq_abs a, ← sq_abs b, ← sq_abs c, ← sq_abs x, ← sq_abs y, ← sq_abs z]
  nlinarith [sq_nonneg (|a| * |y| - |b| * |x|), sq_nonneg (|a| * |z| - |c| * |x|), sq_nonneg (|b| * |z| - |c| * |y|)]

theorem len3_mono {a b c x y z : ℝ} (h1 : |a| ≤ x) (h2 : |b| ≤ y) (h3 : |c| ≤ z) : len3 a b c ≤ len3 x y z := by
  apply Real.sqrt_le_sqrt
  have := sq_le_sq' (by linarith [neg_abs_le a]) ((le_abs_self a).trans h1)
  have := sq_le_sq' (by linarith [neg_abs_le b]) ((le_abs_self b).trans h2)
  have := sq_le_sq' (by linarith [neg_abs_le c]) ((le_abs_self c).trans h3)
  linarith

theorem len3_add (a b c x y z : ℝ) : len3 (a + x) (b + y) (c + z) ≤ len3 a b c + len3 x y z := by
  refine le_of_sq_le_sq' ?_ (add_nonneg (len3_nonneg _ _ _) (len3_nonneg _ _ _))
  rw [add_sq, len3_sq, len3_sq, len3_sq]
  have h := len3_cs a b c x y z
  have h1 := le_abs_self (a * x)
  have h2 := le_abs_self (b * y)
  have h3 := le_abs_self (c * z)
  rw [abs_mul] at h1 h2 h3
  nlinarith

theorem len3_smul {k : ℝ} (hk : 0 ≤ k) (x y z : ℝ) : len3 (k * x) (k * y) (k * z) = k * len3 x y z := by
  unfold len3
  rw [show (k * x) ^ 2 + (k * y) ^ 2 + (k * z) ^ 2 = k ^ 2 * (x ^ 2 + y ^ 2 + z ^ 2) by ring, Real.sqrt_mul (sq_nonneg k), Real.sqrt_sq hk]

theorem len3_abs (x y z : ℝ) : len3 |x| |y| |z| = len3 x y z := by
  unfold len3
  rw [sq_abs, sq_abs, sq_abs]

theorem len3_close {x' y' z' x y z ex ey ez : ℝ} (h1 : |x' - x| ≤ ex) (h2 : |y' - y| ≤ ey) (h3 : |z' - z| ≤ ez) : |len3 x' y' z' - len3 x y z| ≤ len3 ex ey ez := by
  rw [abs_le]
  have a := len3_add x y z (x' - x) (y' - y) (z' - z)
  have b := len3_add x' y' z' (x - x') (y - y') (z - z')
  have c := len3_mono h1 h2 h3
  have d := len3_mono (a := x - x') (b := y - y') (c := z - z') (x := ex) (y := ey) (z := ez) (by rwa [abs_sub_comm]) (by rwa [abs_sub_comm]) (by rwa [abs_sub_comm])
  rw [add_sub_cancel, add_sub_cancel, add_sub_cancel] at a b
  constructor <;> linarith

theorem r32_errR (x : ℚ) : |(r32 x : ℝ) - (x : ℝ)| ≤ |(x : ℝ)| / 2 ^ 24 := by
  have h : ((|r32 x - x| : ℚ) : ℝ) ≤ ((|x| / 2 ^ 24 : ℚ) : ℝ) := by exact_mod_cast r32_error x
  push_cast at h
  exact h

/-- The scalar product in float32. -/
theorem dot32 (a b c : ℚ) : |((r32 (r32 (r32 a + r32 b) + r32 c) : ℚ) : ℝ) - ((a : ℝ) + b + c)| ≤ (|(a : ℝ)| + |(b : ℝ)| + |(c : ℝ)|) * (4 / 2 ^ 24) := by
  have ea := r32_errR a
  have eb := r32_errR b
  have ec := r32_errR c
  have e1 := r32_errR (r32 a + r32 b)
  have e2 := r32_errR (r32 (r32 a + r32 b) + r32 c)
  push_cast at e1 e2
  generalize r32 (r32 (r32 a + r32 b) + r32 c) = s at *
  generalize r32 (r32 a + r32 b) = t at *
  generalize r32 a = a' at *
  generalize r32 b = b' at *
  generalize r32 c = c' at *
  generalize (a : ℝ) = a at *
  generalize (b : ℝ) = b at *
  generalize (c : ℝ) = c at *
  generalize (a' : ℝ) = a' at *
  generalize (b' : ℝ) = b' at *
  generalize (c' : ℝ) = c' at *
  generalize (s : ℝ) = s at *
  generalize (t : ℝ) = t at *
  have hA := abs_nonneg a
  have hB := abs_nonneg b
  have hC := abs_nonneg c
  have h1 : |a' + b'| ≤ |a' - a| + |a| + (|b' - b| + |b|) := by
    refine (abs_add_le _ _).trans (add_le_add ?_ ?_)
    · have := abs_add_le (a' - a) a; rwa [sub_add_cancel] at this
    · have := abs_add_le (b' - b) b; rwa [sub_add_cancel] at this
  have h2 : |t + c'| ≤ |t - (a' + b')| + |a' + b'| + (|c' - c| + |c|) := by
    refine (abs_add_le _ _).trans (add_le_add ?_ ?_)
    · have := abs_add_le (t - (a' + b')) (a' + b'); rwa [sub_add_cancel] at this
    · have := abs_add_le (c' - c) c; rwa [sub_add_cancel] at this
  have h3 : |s - (a + b + c)| ≤ |s - (t + c')| + |t - (a' + b')| + (|a' - a| + |b' - b| + |c' - c|) := by
    rw [show s - (a + b + c) = (s - (t + c')) + (t - (a' + b')) + ((a' - a) + (b' - b) + (c' - c)) by ring]
    refine (abs_add_le _ _).trans (add_le_add (abs_add_le _ _) ?_)
    exact (abs_add_le _ _).trans (add_le_add (abs_add_le _ _) le_rfl)
  norm_num at ea eb ec e1 e2 ⊢
  linarith

/-- The velocity in a component without the Hubble flow, in float32. -/
theorem hub32 (v x : ℚ) : |((r32 (v - r32 (70 * x)) : ℚ) : ℝ) - ((v : ℝ) - 70 * x)| ≤ 1 / 2 ^ 22 * (|(v : ℝ)| + 70 * |(x : ℝ)|) := by
  have e1 := r32_errR (70 * x)
  have e2 := r32_errR (v - r32 (70 * x))
  push_cast at e1 e2
  generalize r32 (v - r32 (70 * x)) = s at *
  generalize r32 (70 * x) = t at *
  generalize (x : ℝ) = x at *
  generalize (v : ℝ) = v at *
  generalize (s : ℝ) = s at *
  generalize (t : ℝ) = t at *
  rw [abs_mul, abs_of_pos (by norm_num : (0 : ℝ) < 70)] at e1
  have hv := abs_nonneg v
  have hx := abs_nonneg x
  have h1 : |v - t| ≤ |v| + (|t - 70 * x| + 70 * |x|) := by
    refine (abs_sub _ _).trans (add_le_add le_rfl ?_)
    have := abs_add_le (t - 70 * x) (70 * x)
    rwa [sub_add_cancel, abs_mul 70 x, abs_of_pos (by norm_num : (0 : ℝ) < 70)] at this
  have h2 : |s - (v - 70 * x)| ≤ |s - (v - t)| + |t - 70 * x| := by
    rw [show s - (v - 70 * x) = (s - (v - t)) - (t - 70 * x) by ring]
    exact abs_sub _ _
  norm_num at e1 e2 ⊢
  linarith

theorem sqrt_len (x y z : ℚ) : len3 x y z * (1 - 1 / 2 ^ 22) ≤ Real.sqrt (r2_32 x y z) ∧ Real.sqrt (r2_32 x y z) ≤ len3 x y z * (1 + 1 / 2 ^ 22) :=
  sqrt_dist ⟨x, y, z, 0, 0, 0, 0, true⟩

/-- The length of a vector in machine arithmetic. -/
theorem sqrt_len' (x y z : ℚ) : ∃ r : ℚ, sqrt64 (r2_32 x y z) = some r ∧ |(r : ℝ) - len3 x y z| ≤ len3 x y z * (1 / 2 ^ 22 + 1 / 2 ^ 50) := by
  refine ⟨rnReal (Real.sqrt (r2_32 x y z)), ?_, ?_⟩
  · unfold sqrt64
    rw [if_neg (not_lt.mpr (r2_32_nonneg x y z))]
  · have h1 := sqrt_len x y z
    have h2 := rnReal_bounds (Real.sqrt_nonneg (r2_32 x y z : ℝ))
    have h3 := len3_nonneg x y z
    generalize len3 (x : ℝ) y z = L at *
    generalize Real.sqrt (r2_32 x y z : ℝ) = s at *
    rw [abs_le]
    norm_num at h1 h2 ⊢
    constructor <;> linarith [h1.1, h1.2, h2.1, h2.2]

/-- C125, the velocity: the velocity by which a particle is placed is its exact velocity up to a millionth of its speed (and of the Hubble flow, if that is subtracted); it is no number only at the very centre. -/
theorem C125_speed (g : PhaseGrid) (p : BinPoint) :
    (velocity64 g p = none ↔ g.radial = true ∧ p.dist = 0) ∧
    ∀ v : ℚ, velocity64 g p = some v → |(v : ℝ) - g.exactV p| ≤ (len3 p.vx p.vy p.vz + g.hub * p.dist) / 2 ^ 20 := by
  have hD : p.dist = len3 p.dx p.dy p.dz := rfl
  have hD0 := len3_nonneg p.dx p.dy p.dz
  have hU0 := len3_nonneg p.vx p.vy p.vz
  obtain ⟨r, r1, r2⟩ := sqrt_len' p.dx p.dy p.dz
  have hvel : velocity64 g p = phaseV64 g p r := by
    unfold velocity64
    rw [r1]
    rfl
  rw [hvel, hD]
  unfold phaseV64 PhaseGrid.exactV
  rw [hD]
  cases hrad : g.radial with
  | false =>
    simp only [Bool.false_eq_true, if_false, false_and, iff_false]
    unfold PhaseGrid.hub
    cases hsub : g.subHub with
    | false =>
      simp only [Bool.false_eq_true, if_false, zero_mul, sub_zero, add_zero]
      obtain ⟨s, s1, s2⟩ := sqrt_len' p.vx p.vy p.vz
      rw [s1]
      refine ⟨by simp, fun v hv => ?_⟩
      obtain rfl := Option.some.inj hv
      norm_num at s2 ⊢
      linarith
    | true =>
      simp only [if_true]
      obtain ⟨s, s1, s2⟩ := sqrt_len' (r32 (p.vx - r32 (70 * p.dx))) (r32 (p.vy - r32 (70 * p.dy))) (r32 (p.vz - r32 (70 * p.dz)))
      rw [s1]
      refine ⟨by simp, fun v hv => ?_⟩
      obtain rfl := Option.some.inj hv
      have hc := len3_close (hub32 p.vx p.dx) (hub32 p.vy p.dy) (hub32 p.vz p.dz)
      rw [len3_smul (by norm_num)] at hc
      have ha := len3_add |(p.vx : ℝ)| |(p.vy : ℝ)| |(p.vz : ℝ)| (70 * |(p.dx : ℝ)|) (70 * |(p.dy : ℝ)|) (70 * |(p.dz : ℝ)|)
      rw [len3_smul (by norm_num), len3_abs, len3_abs] at ha
      have hs := len3_add (p.vx : ℝ) p.vy p.vz (-(70 * p.dx)) (-(70 * p.dy)) (-(70 * p.dz))
      have hs2 : len3 (-(70 * (p.dx : ℝ))) (-(70 * p.dy)) (-(70 * p.dz)) = 70 * len3 p.dx p.dy p.dz := by
        rw [← len3_smul (by norm_num)]
        unfold len3
        rw [neg_sq, neg_sq, neg_sq]
      rw [hs2, ← sub_eq_add_neg, ← sub_eq_add_neg, ← sub_eq_add_neg] at hs
      generalize len3 ((r32 (p.vx - r32 (70 * p.dx)) : ℚ) : ℝ) ((r32 (p.vy - r32 (70 * p.dy)) : ℚ) : ℝ) ((r32 (p.vz - r32 (70 * p.dz)) : ℚ) : ℝ) = A at *
      generalize len3 ((p.vx : ℝ) - 70 * p.dx) (p.vy - 70 * p.dy) (p.vz - 70 * p.dz) = B at *
      generalize len3 (|(p.vx : ℝ)| + 70 * |(p.dx : ℝ)|) (|(p.vy : ℝ)| + 70 * |(p.dy : ℝ)|) (|(p.vz : ℝ)| + 70 * |(p.dz : ℝ)|) = C at *
      generalize len3 (p.dx : ℝ) p.dy p.dz = D at *
      generalize len3 (p.vx : ℝ) p.vy p.vz = U at *
      generalize (s : ℝ) = s at *
      rw [abs_le] at s2 hc ⊢
      norm_num at s2 hc ⊢
      constructor <;> linarith [s2.1, s2.2, hc.1, hc.2]
  | true =>
    simp only [if_true, true_and]
    have hr0 : r = 0 ↔ len3 (p.dx : ℝ) p.dy p.dz = 0 := by
      constructor
      · intro h
        rw [h] at r2
        rw [abs_le] at r2
        norm_num at r2
        linarith [r2.1, r2.2]
      · intro h
        rw [h] at r2
        simp at r2
        exact_mod_cast r2
    by_cases hr : r = 0
    · rw [if_pos hr]
      exact ⟨by simp [hr0.mp hr], by simp⟩
    · rw [if_neg hr]
      refine ⟨by simp; exact fun h => hr (hr0.mpr h), ?_⟩
      have hDp : 0 < len3 (p.dx : ℝ) p.dy p.dz := lt_of_le_of_ne hD0 fun h => hr (hr0.mpr h.symm)
      have hcs := len3_cs p.vx p.vy p.vz p.dx p.dy p.dz
      have hd := dot32 (p.vx * p.dx) (p.vy * p.dy) (p.vz * p.dz)
      push_cast at hd
      rw [abs_mul, abs_mul, abs_mul] at hd
      have ht : |(p.vx : ℝ) * p.dx + p.vy * p.dy + p.vz * p.dz| ≤ len3 p.vx p.vy p.vz * len3 p.dx p.dy p.dz := by
        refine le_trans ((abs_add_le _ _).trans (add_le_add (abs_add_le _ _) le_rfl)) ?_
        rw [abs_mul, abs_mul, abs_mul]
        exact hcs
      have hd' := hd.trans (mul_le_mul_of_nonneg_right hcs (by norm_num))
      clear hd
      generalize (p.vx : ℝ) * p.dx + p.vy * p.dy + p.vz * p.dz = t at *
      have e0 := r64_errR (r32 (r32 (r32 (p.vx * p.dx) + r32 (p.vy * p.dy)) + r32 (p.vz * p.dz)) / r)
      push_cast at e0
      have e1 := r64_errR (r * 70)
      have e2 := r64_errR (r64 (r32 (r32 (r32 (p.vx * p.dx) + r32 (p.vy * p.dy)) + r32 (p.vz * p.dz)) / r) - r64 (r * 70))
      push_cast at e1 e2
      generalize r64 (r32 (r32 (r32 (p.vx * p.dx) + r32 (p.vy * p.dy)) + r32 (p.vz * p.dz)) / r) = q at *
      generalize r32 (r32 (r32 (p.vx * p.dx) + r32 (p.vy * p.dy)) + r32 (p.vz * p.dz)) = s at *
      generalize r64 (r * 70) = hr70 at *
      generalize len3 (p.dx : ℝ) p.dy p.dz = D at *
      generalize len3 (p.vx : ℝ) p.vy p.vz = U at *
      have hrlo : D * (1 - 1 / 2 ^ 21) ≤ r := by
        rw [abs_le] at r2
        norm_num at r2 ⊢
        linarith [r2.1]
      have hrp : (0 : ℝ) < r := lt_of_lt_of_le (mul_pos hDp (by norm_num)) hrlo
      have hrhi : (r : ℝ) ≤ D * (1 + 1 / 2 ^ 21) := by
        rw [abs_le] at r2
        norm_num at r2 ⊢
        linarith [r2.2]
      -- the quotient
      have hq1 : |(s : ℝ) / r - t / D| ≤ U * (5 / 2 ^ 23) := by
        have e : (s : ℝ) / r - t / D = ((s - t) + t / D * (D - r)) / r := by field_simp; ring
        rw [e, abs_div, abs_of_pos hrp, div_le_iff₀ hrp]
        have h1 : |t / D| ≤ U := by
          rw [abs_div, abs_of_pos hDp, div_le_iff₀ hDp]
          exact ht
        have h2 : |t / D * (D - r)| ≤ U * (D * (1 / 2 ^ 22 + 1 / 2 ^ 50)) := by
          rw [abs_mul, abs_sub_comm]
          exact mul_le_mul h1 r2 (abs_nonneg _) hU0
        have h3 := abs_add_le ((s : ℝ) - t) (t / D * (D - r))
        have h4 : U * (5 / 2 ^ 23) * (D * (1 - 1 / 2 ^ 21)) ≤ U * (5 / 2 ^ 23) * r := mul_le_mul_of_nonneg_left hrlo (by positivity)
        refine h3.trans (le_trans ?_ h4)
        have hUD := mul_nonneg hU0 hDp.le
        norm_num at h2 hd' ⊢
        linarith
      have h1 : |t / D| ≤ U := by
        rw [abs_div, abs_of_pos hDp, div_le_iff₀ hDp]
        exact ht
      have hsr : |(s : ℝ) / r| ≤ 2 * U := by
        have := abs_sub_abs_le_abs_sub ((s : ℝ) / r) (t / D)
        norm_num at hq1
        linarith
      have hq : |(q : ℝ) - t / D| ≤ U * (6 / 2 ^ 23) := by
        have := abs_sub_le (q : ℝ) ((s : ℝ) / r) (t / D)
        norm_num at e0 hq1 ⊢
        linarith
      intro v hv
      obtain rfl := Option.some.inj hv
      unfold PhaseGrid.hub
      cases hsub : g.subHub with
      | false =>
        simp only [Bool.false_eq_true, if_false, zero_mul, sub_zero, add_zero]
        norm_num at hq ⊢
        linarith
      | true =>
        simp only [if_true]
        rw [abs_mul, abs_of_pos hrp, abs_of_pos (by norm_num : (0 : ℝ) < 70)] at e1
        have hqa : |(q : ℝ)| ≤ 2 * U := by
          have := abs_sub_abs_le_abs_sub (q : ℝ) (t / D)
          norm_num at hq
          linarith
        have h70 : |(hr70 : ℝ) - 70 * D| ≤ 70 * D * (1 / 2 ^ 22 + 1 / 2 ^ 49) := by
          have h5 : |(r : ℝ) * 70 - 70 * D| ≤ 70 * (D * (1 / 2 ^ 22 + 1 / 2 ^ 50)) := by
            rw [show (r : ℝ) * 70 - 70 * D = 70 * (r - D) by ring, abs_mul, abs_of_pos (by norm_num : (0 : ℝ) < 70)]
            linarith
          have := abs_sub_le (hr70 : ℝ) ((r : ℝ) * 70) (70 * D)
          norm_num at e1 h5 hrhi ⊢
          linarith
        have h70a : |(hr70 : ℝ)| ≤ 140 * D := by
          have := abs_sub_abs_le_abs_sub (hr70 : ℝ) (70 * D)
          rw [abs_of_pos (by linarith : 0 < 70 * D)] at this
          norm_num at h70
          linarith
        have hqh := (abs_sub (q : ℝ) hr70).trans (add_le_add hqa h70a)
        have h6 := abs_sub_le ((r64 (q - hr70) : ℚ) : ℝ) ((q : ℝ) - hr70) (t / D - 70 * D)
        have h7 : |(q : ℝ) - hr70 - (t / D - 70 * D)| ≤ |(q : ℝ) - t / D| + |(hr70 : ℝ) - 70 * D| := by
          rw [show (q : ℝ) - hr70 - (t / D - 70 * D) = ((q : ℝ) - t / D) - (hr70 - 70 * D) by ring]
          exact abs_sub _ _
        generalize ((r64 (q - hr70) : ℚ) : ℝ) = v at *
        norm_num at h70 hq e2 ⊢
        linarith

/-! ### The hypotheses can be met -/

/-- A logarithm of the required accuracy: the correctly rounded one. -/
theorem logOk_rounded : LogOk fun x => rnReal (Real.log x) := by
  intro x _
  refine (rnReal_error _).trans ?_
  have := abs_nonneg (Real.log (x : ℝ))
  norm_num
  linarith

/-- The limits of the default configuration, for a halo of radius one with ten bins. -/
theorem profOk_default : ProfOk 1 (1 / 32) 4 10 where
  posR := by norm_num
  posMin := by norm_num
  posMax := by norm_num
  posN := by norm_num
  low := by norm_num
  high := by norm_num
  wide := by
    push_cast
    rw [← Real.log_div (by norm_num) (by norm_num), show (1 : ℝ) * 4 / (1 * (1 / 32)) = 2 ^ 7 by norm_num, Real.log_pow]
    have := Real.log_two_gt_d9
    norm_num at this ⊢
    linarith

theorem phaseOk_example : PhaseGrid.Ok ⟨2, 500, 20, 30, true, true⟩ := ⟨by norm_num, by norm_num, by norm_num, by norm_num, by norm_num, by norm_num⟩

/-- A particle at half of the radius is not passed over. -/
def binExample : BinPoint := ⟨1 / 2, 0, 0, 3, 100, 0, 0, true⟩

theorem binExample_r2 : r2_32 binExample.dx binExample.dy binExample.dz = 1 / 4 := by
  unfold r2_32 binExample
  dsimp only
  have h : ∀ x : ℚ, x = 1 / 4 ∨ x = 0 → r32 x = x := by
    intro x hx
    apply r32_float
    rcases hx with rfl | rfl
    · exact ⟨1, -2, by norm_num, by norm_num⟩
    · exact ⟨0, 0, by norm_num, by norm_num⟩
  norm_num
  rw [h _ (Or.inl rfl), h _ (Or.inr rfl)]
  norm_num
  rw [h _ (Or.inl rfl), h _ (Or.inl rfl)]

theorem binExample_inside : ¬outside32 1 (1 / 32) 4 (r2_32 binExample.dx binExample.dy binExample.dz) := by
  rw [binExample_r2]
  unfold outside32 edge32
  have h : ∀ k : ℤ, r32 ((2 : ℚ) ^ k) = 2 ^ k := fun k => r32_float ⟨1, k, by norm_num, by norm_num⟩
  have h1 := h (-5)
  have h2 := h 2
  have h3 := h (-10)
  have h4 := h 4
  norm_num at h1 h2 h3 h4 ⊢
  rw [h1, h2, h1, h2]
  norm_num
  rw [h3, h4]
  norm_num

example : ∃ (out : List ℚ) (bin : BinPoint → Option ℕ), profPoints64 (fun x => rnReal (Real.log x)) 1 (1 / 32) 4 10 (List.replicate 10 0) [binExample, binExample] = some out ∧ out.length = 10 ∧
    (bin binExample).isSome := by
  obtain ⟨out, bin, h1, h2, _, _, h5⟩ := C125_prof _ logOk_rounded 1 (1 / 32) 4 10 profOk_default (List.replicate 10 0) (by simp) [binExample, binExample]
  refine ⟨out, bin, h1, h2, ?_⟩
  rw [Option.isSome_iff_ne_none]
  intro hc
  rcases h5 binExample (by simp) hc with h | h | h
  · simp [binExample] at h
  · have : binExample.dist = 1 / 2 := by
      unfold BinPoint.dist binExample
      rw [show ((((1 / 2 : ℚ) : ℝ)) ^ 2 + ((0 : ℚ) : ℝ) ^ 2 + ((0 : ℚ) : ℝ) ^ 2) = (1 / 2) ^ 2 by norm_num]
      exact Real.sqrt_sq (by norm_num)
    rw [this] at h
    norm_num at h
  · have : binExample.dist = 1 / 2 := by
      unfold BinPoint.dist binExample
      rw [show ((((1 / 2 : ℚ) : ℝ)) ^ 2 + ((0 : ℚ) : ℝ) ^ 2 + ((0 : ℚ) : ℝ) ^ 2) = (1 / 2) ^ 2 by norm_num]
      exact Real.sqrt_sq (by norm_num)
    rw [this] at h
    norm_num at h

example : ∃ j : ℕ, j < 10 ∧ medianBin64 (fun x => rnReal (Real.log x)) 1 (1 / 32) 4 10 10 (r2_32 binExample.dx binExample.dy binExample.dz) = j := by
  obtain ⟨j, h1, h2, _⟩ := C125_median _ logOk_rounded 1 (1 / 32) 4 10 profOk_default binExample binExample_inside
  exact ⟨j, h2, h1⟩

example : ∃ out, phasePoints64 ⟨2, 500, 20, 30, true, true⟩ (List.replicate 600 0) [binExample] = some out ∧ out.length = 600 := by
  obtain ⟨out, _, h1, h2, _⟩ := C125_phase _ phaseOk_example (List.replicate 600 0) (List.length_replicate) [binExample]
  exact ⟨out, h1, h2⟩

example : |sum64 0 [1 / 3, 1 / 7, 5] - [1 / 3, 1 / 7, (5 : ℚ)].sum| ≤ 3 / 2 ^ 52 * [1 / 3, 1 / 7, (5 : ℚ)].sum :=
  C125_mass [1 / 3, 1 / 7, 5] (by intro m hm; simp at hm; rcases hm with rfl | rfl | rfl <;> norm_num) (by norm_num)

example : velocity64 ⟨2, 500, 20, 30, true, true⟩ binExample ≠ none := by
  intro hc
  have := ((C125_speed _ _).1.mp hc).2
  have e : binExample.dist = 1 / 2 := by
    unfold BinPoint.dist binExample
    rw [show ((((1 / 2 : ℚ) : ℝ)) ^ 2 + ((0 : ℚ) : ℝ) ^ 2 + ((0 : ℚ) : ℝ) ^ 2) = (1 / 2) ^ 2 by norm_num]
    exact Real.sqrt_sq (by norm_num)
  rw [e] at this
  norm_num at this

end Shellfish.Round
