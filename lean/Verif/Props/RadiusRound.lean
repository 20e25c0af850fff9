/-
C138: masses, radii and units in machine arithmetic.
-/
import Verif.Model.RadiusRound
import Verif.Props.Radius
import Verif.Props.BinRound
import Verif.Props.LosOuter
import Verif.Lemmas.FinderReach
import Mathlib.Analysis.SpecialFunctions.Log.Basic
import Mathlib.Analysis.Complex.ExponentialBounds

namespace Shellfish.Round
open Shellfish.Radius (Radius R200c R200m R500c R2500c radiusFromString Cosmo overdensity refDensity rhoCrit0 toStr unitName mpcMks gMks mSunMks)

/-! ### Specification -/

/-- The accuracy that is asked of `math.Pow` for positive numbers: the logarithm of the result is `y log x` up to `2⁻⁵⁰ (1 + |y log x|)`; and `0 ^ y = 0`. -/
structure PowOk (pw : ℚ → ℚ → ℚ) : Prop where
  pos : ∀ x y, 0 < x → 0 < pw x y
  close : ∀ x y : ℚ, 0 < x → |Real.log (pw x y : ℝ) - y * Real.log (x : ℝ)| ≤ (1 + |(y : ℝ) * Real.log (x : ℝ)|) / 2 ^ 50
  zero : ∀ y, 0 < y → pw 0 y = 0

/-- The cosmology as real numbers. -/
noncomputable def Cosmo64.real (c : Cosmo64) : Cosmo := ⟨c.z, c.omegaM, c.omegaL, c.h100⟩

/-- A flat universe, up to the rounding of the two densities. -/
def Cosmo64.Flat (c : Cosmo64) : Prop := |c.omegaM + c.omegaL - 1| ≤ 1 / 2 ^ 50

/-- The redshift is such that 1 + z is not absurd. -/
def Cosmo64.Usual (c : Cosmo64) : Prop := c.real.Ok ∧ 1 / 2 ^ 100 ≤ 1 + c.z ∧ 1 + c.z ≤ 2 ^ 100

/-- The mass of a sphere of comoving radius `R` with `delta` times the reference density. -/
noncomputable def sphereMass (delta : ℝ) (mean : Bool) (c : Cosmo64) (R : ℝ) : ℝ := 4 / 3 * Real.pi * (R / (1 + c.z)) ^ 3 * (delta * refDensity mean c.real)

/-! ### Relative errors as differences of logarithms -/

/-- `x` is `y` up to the factor `exp d`. -/
def LR (x : ℚ) (y d : ℝ) : Prop := 0 < x ∧ 0 < y ∧ |Real.log (x : ℝ) - Real.log y| ≤ d

theorem lr_self {x : ℚ} (h : 0 < x) : LR x x 0 := ⟨h, by exact_mod_cast h, by simp⟩

theorem LR.mono {x : ℚ} {y d e : ℝ} (h : LR x y d) (hd : d ≤ e) : LR x y e := ⟨h.1, h.2.1, h.2.2.trans hd⟩

theorem log_near {a b : ℝ} (ha : 0 < a) (h : |b - a| ≤ 1 / 2 ^ 53 * a) : 0 < b ∧ |Real.log b - Real.log a| ≤ 1 / 2 ^ 52 := by
  obtain ⟨h1, h2⟩ := abs_le.mp h
  have hb : 0 < b := by nlinarith
  refine ⟨hb, ?_⟩
  rw [← Real.log_div hb.ne' ha.ne']
  have hq : 0 < b / a := by positivity
  have u1 : b / a ≤ 1 + 1 / 2 ^ 53 := by rw [div_le_iff₀ ha]; nlinarith
  have u2 : 1 - 1 / 2 ^ 53 ≤ b / a := by rw [le_div_iff₀ ha]; nlinarith
  have l1 := Real.log_le_sub_one_of_pos hq
  have l2 := Real.one_sub_inv_le_log_of_pos hq
  have l3 : (b / a)⁻¹ ≤ 1 + 1 / 2 ^ 52 := by
    rw [inv_le_comm₀ hq (by norm_num)]
    refine le_trans ?_ u2
    norm_num
  rw [abs_le]
  constructor
  · linarith
  · have : (1 : ℝ) / 2 ^ 53 ≤ 1 / 2 ^ 52 := by norm_num
    linarith

theorem LR.round {x : ℚ} {y d : ℝ} (h : LR x y d) : LR (r64 x) y (d + 1 / 2 ^ 52) := by
  have hx : (0 : ℝ) < (x : ℝ) := by exact_mod_cast h.1
  have e := r64_errR x
  rw [abs_of_pos hx] at e
  obtain ⟨h1, h2⟩ := log_near hx (by rw [one_div, inv_mul_eq_div]; exact e)
  refine ⟨by exact_mod_cast h1, h.2.1, ?_⟩
  have := abs_sub_le (Real.log ((r64 x : ℚ) : ℝ)) (Real.log (x : ℝ)) (Real.log y)
  linarith [h.2.2]

theorem LR.mul {x x' : ℚ} {y y' d d' : ℝ} (h : LR x y d) (h' : LR x' y' d') : LR (x * x') (y * y') (d + d') := by
  have hx : (x : ℝ) ≠ 0 := by exact_mod_cast h.1.ne'
  have hx' : (x' : ℝ) ≠ 0 := by exact_mod_cast h'.1.ne'
  refine ⟨mul_pos h.1 h'.1, mul_pos h.2.1 h'.2.1, ?_⟩
  push_cast
  rw [Real.log_mul hx hx', Real.log_mul h.2.1.ne' h'.2.1.ne']
  have e : Real.log (x : ℝ) + Real.log (x' : ℝ) - (Real.log y + Real.log y') = (Real.log (x : ℝ) - Real.log y) + (Real.log (x' : ℝ) - Real.log y') := by ring
  rw [e]
  exact (abs_add_le _ _).trans (add_le_add h.2.2 h'.2.2)

theorem LR.div {x x' : ℚ} {y y' d d' : ℝ} (h : LR x y d) (h' : LR x' y' d') : LR (x / x') (y / y') (d + d') := by
  have hx : (x : ℝ) ≠ 0 := by exact_mod_cast h.1.ne'
  have hx' : (x' : ℝ) ≠ 0 := by exact_mod_cast h'.1.ne'
  refine ⟨div_pos h.1 h'.1, div_pos h.2.1 h'.2.1, ?_⟩
  push_cast
  rw [Real.log_div hx hx', Real.log_div h.2.1.ne' h'.2.1.ne']
  have e : Real.log (x : ℝ) - Real.log (x' : ℝ) - (Real.log y - Real.log y') = (Real.log (x : ℝ) - Real.log y) - (Real.log (x' : ℝ) - Real.log y') := by ring
  rw [e]
  exact (abs_sub _ _).trans (add_le_add h.2.2 h'.2.2)

/-- Reading off bounds. -/
theorem LR.bounds {x : ℚ} {y d : ℝ} (h : LR x y d) : y * Real.exp (-d) ≤ x ∧ (x : ℝ) ≤ y * Real.exp d := by
  have hx : (0 : ℝ) < (x : ℝ) := by exact_mod_cast h.1
  obtain ⟨h1, h2⟩ := abs_le.mp h.2.2
  constructor
  · rw [← Real.exp_log hx]
    conv_lhs => rw [← Real.exp_log h.2.1, ← Real.exp_add]
    exact Real.exp_le_exp.mpr (by linarith)
  · conv_lhs => rw [← Real.exp_log hx]
    conv_rhs => rw [← Real.exp_log h.2.1, ← Real.exp_add]
    exact Real.exp_le_exp.mpr (by linarith)

theorem lr_of {x : ℚ} {y d : ℝ} (hy : 0 < y) (h1 : y * Real.exp (-d) ≤ x) (h2 : (x : ℝ) ≤ y * Real.exp d) : LR x y d := by
  have hx : (0 : ℝ) < (x : ℝ) := lt_of_lt_of_le (mul_pos hy (Real.exp_pos _)) h1
  refine ⟨by exact_mod_cast hx, hy, ?_⟩
  have l1 := Real.log_le_log (mul_pos hy (Real.exp_pos _)) h1
  have l2 := Real.log_le_log hx h2
  rw [Real.log_mul hy.ne' (Real.exp_pos _).ne', Real.log_exp] at l1 l2
  rw [abs_le]
  constructor <;> linarith

/-- Adding a number without error. -/
theorem LR.add {x l : ℚ} {y d : ℝ} (h : LR x y d) (hd : 0 ≤ d) (hl : 0 ≤ l) : LR (x + l) (y + l) d := by
  obtain ⟨h1, h2⟩ := h.bounds
  have hl' : (0 : ℝ) ≤ (l : ℝ) := by exact_mod_cast hl
  have e1 : Real.exp (-d) ≤ 1 := Real.exp_le_one_iff.mpr (by linarith)
  have e2 : 1 ≤ Real.exp d := Real.one_le_exp hd
  refine lr_of (by linarith [h.2.1]) ?_ ?_
  · push_cast; nlinarith
  · push_cast; nlinarith

theorem LR.sqrt {x : ℚ} {y d : ℝ} (h : LR x y d) : ∃ s, sqrt64 x = some s ∧ LR s (Real.sqrt y) (d / 2 + 1 / 2 ^ 52) := by
  have hx : (0 : ℝ) < (x : ℝ) := by exact_mod_cast h.1
  refine ⟨rnReal (Real.sqrt (x : ℝ)), by unfold sqrt64; rw [if_neg (not_lt.mpr h.1.le)], ?_⟩
  have hs : 0 < Real.sqrt (x : ℝ) := Real.sqrt_pos.mpr hx
  have e := rnReal_error (Real.sqrt (x : ℝ))
  rw [abs_of_pos hs] at e
  obtain ⟨h1, h2⟩ := log_near hs e
  refine ⟨by exact_mod_cast h1, Real.sqrt_pos.mpr h.2.1, ?_⟩
  have h3 := abs_sub_le (Real.log ((rnReal (Real.sqrt (x : ℝ)) : ℚ) : ℝ)) (Real.log (Real.sqrt (x : ℝ))) (Real.log (Real.sqrt y))
  have h4 : |Real.log (Real.sqrt (x : ℝ)) - Real.log (Real.sqrt y)| ≤ d / 2 := by
    rw [Real.log_sqrt hx.le, Real.log_sqrt h.2.1.le, ← sub_div, abs_div, abs_of_pos (by norm_num : (0 : ℝ) < 2)]
    exact div_le_div_of_nonneg_right h.2.2 (by norm_num)
  linarith

theorem LR.cube {pw : ℚ → ℚ → ℚ} (hp : PowOk pw) {x : ℚ} {y d B : ℝ} (h : LR x y d) (hB : |Real.log y| ≤ B) : LR (pw x 3) (y ^ 3) (3 * d + (1 + 3 * (B + d)) / 2 ^ 50) := by
  refine ⟨hp.pos x 3 h.1, by have := h.2.1; positivity, ?_⟩
  have c := hp.close x 3 h.1
  have hlx : |Real.log (x : ℝ)| ≤ B + d := by
    have := abs_sub_abs_le_abs_sub (Real.log (x : ℝ)) (Real.log y)
    linarith [h.2.2]
  rw [Real.log_pow]
  push_cast at c ⊢
  rw [abs_mul, abs_of_pos (by norm_num : (0 : ℝ) < 3)] at c
  have h3 := abs_sub_le (Real.log ((pw x 3 : ℚ) : ℝ)) (3 * Real.log (x : ℝ)) (3 * Real.log y)
  have h4 : |3 * Real.log (x : ℝ) - 3 * Real.log y| ≤ 3 * d := by
    rw [← mul_sub, abs_mul, abs_of_pos (by norm_num : (0 : ℝ) < 3)]
    linarith [h.2.2]
  have h5 : (1 + 3 * |Real.log (x : ℝ)|) / 2 ^ 50 ≤ (1 + 3 * (B + d)) / 2 ^ 50 := by gcongr
  linarith

/-- The relative error. -/
theorem LR.rel {x : ℚ} {y d : ℝ} (h : LR x y d) (hd : d ≤ 1 / 2) : |(x : ℝ) - y| ≤ 2 * d * y := by
  obtain ⟨h1, h2⟩ := h.bounds
  have hd0 : 0 ≤ d := (abs_nonneg _).trans h.2.2
  have e1 := Real.add_one_le_exp (-d)
  have e2 : Real.exp d ≤ 1 + 2 * d := by
    have e3 : Real.exp d * Real.exp (-d) = 1 := by rw [← Real.exp_add]; simp
    have := Real.exp_pos d
    nlinarith
  have := h.2.1
  rw [abs_le]
  constructor <;> nlinarith

/-! ### Constants -/

theorem lr_const {x : ℚ} (hx : 0 < x) : LR (r64 x) x (1 / 2 ^ 52) := by
  have := (lr_self hx).round
  rwa [zero_add] at this

theorem lr_mpc : LR mpc64 mpcMks (1 / 2 ^ 52) := by
  have h := lr_const (x := 308560 * 10 ^ 17) (by norm_num)
  unfold mpc64 mpcMks
  push_cast at h
  exact h

theorem lr_sun : LR mSun64 mSunMks (1 / 2 ^ 52) := by
  have h := lr_const (x := 198900 * 10 ^ 25) (by norm_num)
  unfold mSun64 mSunMks
  push_cast at h
  exact h

theorem lr_near {x : ℚ} {y : ℝ} (hy : 0 < y) (h : |(x : ℝ) - y| ≤ 1 / 2 ^ 53 * y) : LR x y (1 / 2 ^ 52) := by
  obtain ⟨h1, h2⟩ := log_near hy h
  exact ⟨by exact_mod_cast h1, hy, h2⟩

theorem lr_pi : LR pi64 Real.pi (1 / 2 ^ 52) := by
  refine lr_near Real.pi_pos ?_
  obtain ⟨h1, h2⟩ := pi64_near
  have := Real.pi_gt_three
  rw [abs_le]
  constructor
  · have : (1 : ℝ) / 2 ^ 52 = 1 / 2 ^ 53 * 2 := by norm_num
    nlinarith
  · have : (0 : ℝ) ≤ 1 / 2 ^ 53 * Real.pi := by positivity
    linarith

theorem lr_goPi : LR goPi Real.pi (1 / 2 ^ 52) := by
  refine lr_near Real.pi_pos ?_
  have h1 := Real.pi_gt_d20
  have h2 := Real.pi_lt_d20
  have h3 := Real.pi_gt_three
  have e : (goPi : ℝ) = 314159265358979323846264338327950288419716939937510582097494459 / 10 ^ 62 := by unfold goPi; push_cast; rfl
  have e3 : (1 : ℝ) / 2 ^ 53 * 3 ≤ 1 / 2 ^ 53 * Real.pi := by nlinarith
  rw [e, abs_le]
  constructor
  · refine le_trans (neg_le_neg e3) ?_
    norm_num at h1 h2 ⊢
    linarith
  · refine le_trans ?_ e3
    norm_num at h1 h2 ⊢
    linarith

theorem lr_g : LR eightPiG64 (8 * Real.pi * gMks) (2 / 2 ^ 52) := by
  have h8 := lr_self (x := 8) (by norm_num)
  have hg := lr_self (x := 667259 / 10 ^ 16) (by norm_num)
  have h := ((h8.mul lr_goPi).mul hg).round
  unfold eightPiG64 gMks
  push_cast at h
  refine h.mono (by norm_num)

theorem log_mpc : |Real.log mpcMks| ≤ 53 := by
  have h2 := Real.log_two_lt_d9
  have e : Real.log mpcMks ≤ Real.log ((2 : ℝ) ^ 75) := Real.log_le_log (by unfold mpcMks; norm_num) (by unfold mpcMks; norm_num)
  rw [Real.log_pow] at e
  have e0 : 0 ≤ Real.log mpcMks := Real.log_nonneg (by unfold mpcMks; norm_num)
  rw [abs_of_nonneg e0]
  push_cast at e
  linarith

/-! ### Densities -/

/-- 2⁻⁵². -/
local notation "uu" => ((1 : ℝ) / 2 ^ 52)

theorem lr_onez {z : ℚ} (hz : 0 < 1 + z) : LR (r64 (1 + z)) (1 + z) uu := by
  have h := lr_const hz
  push_cast at h
  exact h

theorem lr_crit {pw : ℚ → ℚ → ℚ} (hp : PowOk pw) {h : ℚ} (hh : 0 < h) {m l z : ℚ} (hm : 0 < m) (hl : 0 ≤ l) {B : ℝ} (hz : 0 < 1 + z) (hB : |Real.log (1 + z : ℝ)| ≤ B) (hB0 : 0 ≤ B) :
    ∃ d, rhoCritical64 pw (r64 (h * 100)) m l z = some d ∧ LR d (Radius.rhoCritical (h * 100) m l z) ((680 + 12 * B) * uu) := by
  have hh0 : LR (r64 (h * 100)) (h * 100) uu := by
    have := ((lr_self hh).mul (lr_self (x := 100) (by norm_num))).round
    push_cast at this
    exact this.mono (by norm_num)
  have h1 := (((hh0.mul (lr_self (x := 1000) (by norm_num))).round).div lr_mpc).round
  have h2 := (hh0.div (lr_self (x := 100) (by norm_num))).round
  have h3 := (h1.div h2).round
  have e1 : LR (r64 (m * pw (r64 (1 + z)) 3)) (m * (1 + z) ^ 3) ((9 + 12 * B) * uu) := by
    refine ((lr_self hm).mul ((lr_onez hz).cube hp hB)).round.mono ?_
    norm_num
    linarith
  obtain ⟨hf, e2, e3⟩ := (e1.add (by positivity) hl).round.sqrt
  have h4 := (e3.mul h3).round
  have h5 := (((((lr_self (x := 3) (by norm_num)).mul h4).round).mul h4).round.div lr_g).round
  have h6 := ((h5.mul (lr_mpc.cube hp log_mpc)).round.div lr_sun).round
  push_cast at h6
  change LR _ (Radius.rhoCritical (h * 100) m l z) _ at h6
  refine ⟨_, ?_, h6.mono ?_⟩
  · unfold rhoCritical64 rhoCriticalMks64 hubbleFrac64
    rw [e2]
    simp only [Option.map_some]
  · norm_num
    linarith

theorem log_pow2_le {x : ℝ} {n : ℕ} (h1 : 1 / 2 ^ n ≤ x) (h2 : x ≤ 2 ^ n) : |Real.log x| ≤ 7 / 10 * n := by
  have hx : 0 < x := lt_of_lt_of_le (by positivity) h1
  have l2 := Real.log_two_lt_d9
  have l0 := Real.log_pos (by norm_num : (1 : ℝ) < 2)
  have a1 := Real.log_le_log (by positivity) h1
  have a2 := Real.log_le_log hx h2
  rw [Real.log_div (by norm_num) (by positivity), Real.log_one, Real.log_pow] at a1
  rw [Real.log_pow] at a2
  have hn : (0 : ℝ) ≤ (n : ℝ) := Nat.cast_nonneg _
  rw [abs_le]
  constructor <;> nlinarith

theorem lr_avg {pw : ℚ → ℚ → ℚ} (hp : PowOk pw) {h : ℚ} (hh : 0 < h) {m l z : ℚ} (hm : 0 < m) (hl : 0 ≤ l) (hz : 0 < 1 + z) (hB : |Real.log (1 + z : ℝ)| ≤ 70) :
    ∃ d, rhoAverage64 pw (r64 (h * 100)) m l z = some d ∧ LR d (Radius.rhoAverage (h * 100) m l z) (1535 * uu) := by
  obtain ⟨d, e1, e2⟩ := lr_crit hp hh hm hl (z := 0) (B := 0) (by norm_num) (by simp) le_rfl
  have h1 := ((e2.mul (lr_self hm)).round.mul ((lr_onez hz).cube hp hB)).round
  push_cast at h1
  change LR _ (Radius.rhoAverage (h * 100) m l z) _ at h1
  refine ⟨_, ?_, h1.mono ?_⟩
  · unfold rhoAverage64
    rw [e1, Option.map_some]
  · norm_num

theorem Cosmo64.Usual.log {c : Cosmo64} (h : c.Usual) : 0 < 1 + c.z ∧ |Real.log (1 + (c.z : ℝ))| ≤ 70 := by
  have h1 : (1 : ℝ) / 2 ^ 100 ≤ 1 + (c.z : ℝ) := by
    have := (Rat.cast_le (K := ℝ)).mpr h.2.1
    push_cast at this
    exact this
  have h2 : 1 + (c.z : ℝ) ≤ 2 ^ 100 := by
    have := (Rat.cast_le (K := ℝ)).mpr h.2.2
    push_cast at this
    exact this
  refine ⟨lt_of_lt_of_le (by norm_num) h.2.1, ?_⟩
  have := log_pow2_le h1 h2
  push_cast at this
  linarith

theorem flat_log {c : Cosmo64} (h : c.Flat) : |Real.log ((c.omegaM : ℝ) + c.omegaL)| ≤ 8 * uu := by
  have h1 : |((c.omegaM : ℝ) + c.omegaL) - 1| ≤ 1 / 2 ^ 50 := by
    have : (((|c.omegaM + c.omegaL - 1| : ℚ)) : ℝ) ≤ ((1 / 2 ^ 50 : ℚ) : ℝ) := by exact_mod_cast h
    push_cast at this
    exact this
  generalize (c.omegaM : ℝ) + c.omegaL = s at h1 ⊢
  obtain ⟨a, b⟩ := abs_le.mp h1
  have hs : 1 / 2 ≤ s := by norm_num at a ⊢; linarith
  have hs0 : 0 < s := by linarith
  have l1 := Real.log_le_sub_one_of_pos hs0
  have l2 := Real.one_sub_inv_le_log_of_pos hs0
  have l3 : s⁻¹ ≤ 1 + 8 * uu := by
    rw [inv_le_comm₀ hs0 (by norm_num)]
    refine le_trans ?_ (by linarith : (1 : ℝ) - 1 / 2 ^ 50 ≤ s)
    norm_num
  rw [abs_le]
  constructor
  · linarith
  · norm_num at b ⊢; linarith

theorem LR.shift {x : ℚ} {y s d e : ℝ} (h : LR x (y * s) d) (hs : 0 < s) (hl : |Real.log s| ≤ e) : LR x y (d + e) := by
  have hy : 0 < y := pos_of_mul_pos_left h.2.1 hs.le
  refine ⟨h.1, hy, ?_⟩
  have h2 := h.2.2
  rw [Real.log_mul hy.ne' hs.ne'] at h2
  have e1 : Real.log (x : ℝ) - Real.log y = (Real.log (x : ℝ) - (Real.log y + Real.log s)) + Real.log s := by ring
  rw [e1]
  exact (abs_add_le _ _).trans (add_le_add h2 hl)

/-- The threshold density. -/
theorem lr_rho {pw : ℚ → ℚ → ℚ} (hp : PowOk pw) {r : Radius} {s : String} (hs : toStr r = some s) {delta : ℝ} {mean : Bool} (ho : overdensity s = some (delta, mean)) {c : Cosmo64} (hc : c.Usual)
    (flat : mean = true → c.Flat) : ∃ d, rho64 pw r c = some (some d) ∧ LR d (delta * refDensity mean c.real) (1545 * uu) := by
  obtain ⟨hz, hB⟩ := hc.log
  have hh : 0 < c.h100 := by have : (0 : ℝ) < (c.h100 : ℝ) := hc.1.h; exact_mod_cast this
  have hm : 0 < c.omegaM := by have : (0 : ℝ) < (c.omegaM : ℝ) := hc.1.m; exact_mod_cast this
  have hl : 0 ≤ c.omegaL := by have : (0 : ℝ) ≤ (c.omegaL : ℝ) := hc.1.l; exact_mod_cast this
  obtain ⟨d1, a1, b1⟩ := lr_crit hp hh hm hl hz hB (by norm_num)
  obtain ⟨d2, a2, b2⟩ := lr_avg hp hh hm hl hz hB
  have hden := Radius.C47_densities c.real hc.1
  have b1' : LR d1 (refDensity false c.real) (1530 * uu) := by
    rw [← hden.1]
    exact b1.mono (by norm_num)
  have b2' : c.Flat → LR d2 (refDensity true c.real) (1543 * uu) := by
    intro hf
    have h : LR d2 (refDensity true c.real * (c.real.omegaM + c.real.omegaL)) (1535 * uu) := by
      rw [← hden.2]
      exact b2
    have hpos : 0 < c.real.omegaM + c.real.omegaL := by linarith [hc.1.m, hc.1.l]
    exact (h.shift hpos (flat_log hf)).mono (by norm_num)
  unfold rho64
  unfold toStr at hs
  unfold overdensity at ho
  split_ifs at hs with h1 h2 h3 h4 <;> cases hs <;> subst_vars <;> cases ho
  · refine ⟨r64 (200 * d2), by simp only [show R200m ≠ R200c by decide, if_false, if_true, a2, Option.map_some], ?_⟩
    have := ((lr_self (x := 200) (by norm_num)).mul (b2' (flat rfl))).round
    push_cast at this
    exact this.mono (by norm_num)
  · refine ⟨r64 (200 * d1), by simp only [if_true, a1, Option.map_some], ?_⟩
    have := ((lr_self (x := 200) (by norm_num)).mul b1').round
    push_cast at this
    exact this.mono (by norm_num)
  · refine ⟨r64 (500 * d1), by simp only [show R500c ≠ R200c by decide, show R500c ≠ R200m by decide, if_false, if_true, a1, Option.map_some], ?_⟩
    have := ((lr_self (x := 500) (by norm_num)).mul b1').round
    push_cast at this
    exact this.mono (by norm_num)
  · refine ⟨r64 (2500 * d1), by simp only [show R2500c ≠ R200c by decide, show R2500c ≠ R200m by decide, show R2500c ≠ R500c by decide, if_false, if_true, a1, Option.map_some], ?_⟩
    have := ((lr_self (x := 2500) (by norm_num)).mul b1').round
    push_cast at this
    exact this.mono (by norm_num)

/-! ### One mass, one radius -/

theorem lr_factor {rho : ℚ} {y d : ℝ} (h : LR rho y d) : LR (factor64 rho) (4 / 3 * Real.pi * y) (d + 4 * uu) := by
  have h1 := (((h.mul (lr_self (x := 4) (by norm_num))).round.mul lr_pi).round.div (lr_self (x := 3) (by norm_num))).round
  push_cast at h1
  have e : y * 4 * Real.pi / 3 = 4 / 3 * Real.pi * y := by ring
  rw [e] at h1
  exact h1.mono (by norm_num; linarith)

theorem lr_scale {z : ℚ} (hz : 0 < 1 + z) : LR (scale64 z) (1 / (1 + z)) (2 * uu) := by
  have h := ((lr_self (x := 1) (by norm_num)).div (lr_onez hz)).round
  push_cast at h
  exact h.mono (by norm_num)

theorem lr_mass {rho : ℚ} {y d : ℝ} (h : LR (factor64 rho) y d) {z : ℚ} (hz : 0 < 1 + z) {r : ℚ} {t e : ℝ} (hr : LR r t e) : LR (massOf64 rho z r) (y * (t / (1 + z)) ^ 3) (d + 3 * e + 12 * uu) := by
  have h1 := (hr.mul (lr_scale hz)).round
  have h2 := (h.mul (((h1.mul h1).round.mul h1).round)).round
  have e1 : y * (t * (1 / (1 + (z : ℝ))) * (t * (1 / (1 + (z : ℝ)))) * (t * (1 / (1 + (z : ℝ))))) = y * (t / (1 + z)) ^ 3 := by ring
  rw [e1] at h2
  exact h2.mono (by norm_num; linarith)

theorem lr_third {pw : ℚ → ℚ → ℚ} (hp : PowOk pw) {x : ℚ} {y d : ℝ} (h : LR x y d) (hB : |Real.log y| ≤ 351) (hd : d ≤ 1) :
    LR (pw x (r64 (1 / 3))) (y ^ ((1 : ℝ) / 3)) (d / 3 + 600 * uu) := by
  have e := r64_errR (1 / 3)
  push_cast at e
  rw [abs_of_pos (by norm_num : (0 : ℝ) < 1 / 3)] at e
  have c := hp.close x (r64 (1 / 3)) h.1
  refine ⟨hp.pos _ _ h.1, by have := h.2.1; positivity, ?_⟩
  rw [Real.log_rpow h.2.1]
  generalize ((r64 (1 / 3) : ℚ) : ℝ) = t at e c
  have hlx : |Real.log (x : ℝ)| ≤ 352 := by
    have := abs_sub_abs_le_abs_sub (Real.log (x : ℝ)) (Real.log y)
    linarith [h.2.2]
  have h1 : |t * Real.log (x : ℝ) - 1 / 3 * Real.log (x : ℝ)| ≤ 1 / 3 / 2 ^ 53 * 352 := by
    rw [← sub_mul, abs_mul]
    exact mul_le_mul e hlx (abs_nonneg _) (by norm_num)
  have h2 : |t * Real.log (x : ℝ)| ≤ 118 := by
    have a1 := abs_sub_abs_le_abs_sub (t * Real.log (x : ℝ)) (1 / 3 * Real.log (x : ℝ))
    have a2 : |1 / 3 * Real.log (x : ℝ)| ≤ 1 / 3 * 352 := by
      rw [abs_mul, abs_of_pos (by norm_num : (0 : ℝ) < 1 / 3)]
      linarith
    norm_num at a1 a2 h1 ⊢
    linarith
  have h3 : |1 / 3 * Real.log (x : ℝ) - 1 / 3 * Real.log y| ≤ d / 3 := by
    rw [← mul_sub, abs_mul, abs_of_pos (by norm_num : (0 : ℝ) < 1 / 3)]
    linarith [h.2.2]
  have h4 : (1 + |t * Real.log (x : ℝ)|) / 2 ^ 50 ≤ (1 + 118) / 2 ^ 50 := by gcongr
  have h5 := abs_sub_le (Real.log ((pw x (r64 (1 / 3)) : ℚ) : ℝ)) (t * Real.log (x : ℝ)) (1 / 3 * Real.log y)
  have h6 := abs_sub_le (t * Real.log (x : ℝ)) (1 / 3 * Real.log (x : ℝ)) (1 / 3 * Real.log y)
  norm_num at *
  linarith

theorem lr_radius {pw : ℚ → ℚ → ℚ} (hp : PowOk pw) {rho : ℚ} {y d : ℝ} (h : LR (factor64 rho) y d) (hd : d ≤ 1 / 2) {z : ℚ} (hz : 0 < 1 + z) {m : ℚ} (hm : 0 < m) (hB : |Real.log ((m : ℝ) / y)| ≤ 351) :
    LR (radiusOf64 pw rho z m) (((m : ℝ) / y) ^ ((1 : ℝ) / 3) * (1 + z)) (d / 3 + 604 * uu) := by
  have h1 := ((lr_self hm).div h).round
  have h2 := ((lr_third hp h1 hB (by norm_num; linarith)).div (lr_scale hz)).round
  have e1 : ((m : ℝ) / y) ^ ((1 : ℝ) / 3) / (1 / (1 + (z : ℝ))) = ((m : ℝ) / y) ^ ((1 : ℝ) / 3) * (1 + z) := by rw [div_div_eq_mul_div, div_one]
  rw [e1] at h2
  exact h2.mono (by norm_num; linarith)

/-! ### Radii and masses -/

/-- A mass that is zero, or within the factor 2⁵⁰⁰ of the mass inside of 1 Mpc/h (proper). -/
def MassOk (delta : ℝ) (mean : Bool) (c : Cosmo64) (m : ℚ) : Prop :=
  m = 0 ∨ sphereMass delta mean c (1 + c.z) / 2 ^ 500 ≤ m ∧ (m : ℝ) ≤ sphereMass delta mean c (1 + c.z) * 2 ^ 500

theorem over_pos {s : String} {delta : ℝ} {mean : Bool} (ho : overdensity s = some (delta, mean)) : 0 < delta := by
  unfold overdensity at ho
  split_ifs at ho <;> cases ho <;> norm_num

theorem sphereMass_eq {delta : ℝ} {mean : Bool} {c : Cosmo64} (R : ℝ) : sphereMass delta mean c R = 4 / 3 * Real.pi * (delta * refDensity mean c.real) * (R / (1 + c.z)) ^ 3 := by
  unfold sphereMass
  ring

theorem sphereMass_one {delta : ℝ} {mean : Bool} {c : Cosmo64} (hc : c.Usual) : sphereMass delta mean c (1 + c.z) = 4 / 3 * Real.pi * (delta * refDensity mean c.real) := by
  have hz : (0 : ℝ) < 1 + (c.z : ℝ) := hc.1.zpos
  rw [sphereMass_eq, div_self hz.ne']
  ring

theorem mass_log {F : ℝ} (hF : 0 < F) {m : ℚ} (h1 : F / 2 ^ 500 ≤ m) (h2 : (m : ℝ) ≤ F * 2 ^ 500) : 0 < m ∧ |Real.log ((m : ℝ) / F)| ≤ 350 := by
  have hm : (0 : ℝ) < (m : ℝ) := lt_of_lt_of_le (by positivity) h1
  refine ⟨by exact_mod_cast hm, ?_⟩
  have := log_pow2_le (x := (m : ℝ) / F) (n := 500) (by rw [le_div_iff₀ hF]; linarith [h1, show 1 / 2 ^ 500 * F = F / 2 ^ 500 by ring]) (by rw [div_le_iff₀ hF]; linarith)
  refine this.trans (le_of_eq ?_)
  norm_num

theorem cube_root {x : ℝ} (hx : 0 ≤ x) : (x ^ ((1 : ℝ) / 3)) ^ 3 = x := by
  rw [← Real.rpow_natCast, ← Real.rpow_mul hx]
  norm_num

theorem radius_zero {pw : ℚ → ℚ → ℚ} (hp : PowOk pw) (d z : ℚ) : radiusOf64 pw d z 0 = 0 := by
  unfold radiusOf64
  have h3 : 0 < r64 (1 / 3) := (lr_const (x := 1 / 3) (by norm_num)).1
  rw [zero_div, r64_zero, hp.zero _ h3, zero_div, r64_zero]

/-- The mass in the sphere of the radius of `m`. -/
theorem radius_sphere {pw : ℚ → ℚ → ℚ} (hp : PowOk pw) {delta : ℝ} {mean : Bool} {c : Cosmo64} (hc : c.Usual) {d : ℚ} (hd : LR d (delta * refDensity mean c.real) (1545 * uu)) {m : ℚ} (hm : MassOk delta mean c m) :
    (m = 0 ∧ radiusOf64 pw d c.z m = 0) ∨ 0 < m ∧ ∃ y, LR (radiusOf64 pw d c.z m) y (1125 * uu) ∧ sphereMass delta mean c y = m := by
  rcases hm with h | ⟨h1, h2⟩
  · left
    refine ⟨h, ?_⟩
    rw [h]
    exact radius_zero hp d c.z
  · right
    have hz : (0 : ℝ) < 1 + (c.z : ℝ) := hc.1.zpos
    have hf := lr_factor hd
    rw [sphereMass_one hc] at h1 h2
    obtain ⟨hm0, hB⟩ := mass_log hf.2.1 h1 h2
    have hmR : (0 : ℝ) < (m : ℝ) := by exact_mod_cast hm0
    refine ⟨hm0, _, (lr_radius hp hf (by norm_num) hc.log.1 hm0 (hB.trans (by norm_num))).mono (by norm_num), ?_⟩
    rw [sphereMass_eq, mul_div_cancel_right₀ _ hz.ne', cube_root (div_nonneg hmR.le hf.2.1.le), mul_div_cancel₀ _ hf.2.1.ne']

theorem sphere_lr {x : ℚ} {y d : ℝ} (h : LR x y d) {delta : ℝ} {mean : Bool} {c : Cosmo64} (hc : c.Usual) (hd : 0 < delta * refDensity mean c.real) (h0 : 3 * d ≤ 1 / 2) :
    |sphereMass delta mean c x - sphereMass delta mean c y| ≤ 6 * d * sphereMass delta mean c y := by
  have hz : 0 < 1 + c.z := hc.log.1
  have h1 := h.mul (h.mul h)
  have h2 := h1.rel (by linarith)
  have hzR : (0 : ℝ) < 1 + (c.z : ℝ) := by exact_mod_cast hz
  have hk : 0 < 4 / 3 * Real.pi * (delta * refDensity mean c.real) / (1 + c.z) ^ 3 := by have := Real.pi_pos; positivity
  have e : ∀ t : ℝ, sphereMass delta mean c t = 4 / 3 * Real.pi * (delta * refDensity mean c.real) / (1 + c.z) ^ 3 * (t * (t * t)) := by
    intro t
    rw [sphereMass_eq]
    field_simp
  push_cast at h2
  rw [e, e, ← mul_sub, abs_mul, abs_of_pos hk]
  nlinarith

theorem writeAll64_map {α β : Type} (f : α → β) (xs : List α) (out : List β) (h : out.length = xs.length) : writeAll64 f xs out = some (xs.map f) := by
  unfold writeAll64
  rw [if_pos h.ge, ← h, List.drop_length, List.append_nil]

/-- C138 (radii): `Radius` in machine arithmetic writes a radius for every mass, zero for zero, such that the sphere of this comoving radius with the overdensity of the definition holds the mass up to the relative error 2⁻³⁹.
(The range of the exponents of float64 is not modelled.) -/
theorem C138_radius_partial (pw : ℚ → ℚ → ℚ) (hp : PowOk pw) (r : Radius) (s : String) (hs : toStr r = some s) (delta : ℝ) (mean : Bool) (ho : overdensity s = some (delta, mean)) (c : Cosmo64) (hc : c.Usual)
    (flat : mean = true → c.Flat) (ms : List ℚ) (out : List (Option ℚ)) (hms : ∀ m ∈ ms, MassOk delta mean c m) (hlen : out.length = ms.length) :
    ∃ rs : List ℚ, radius64 pw r c ms out = some (rs.map some) ∧ rs.length = ms.length ∧
      ∀ (i : ℕ) (m R : ℚ), ms[i]? = some m → rs[i]? = some R → (0 < R ↔ 0 < m) ∧ 0 ≤ R ∧ |sphereMass delta mean c R - m| ≤ m / 2 ^ 39 := by
  obtain ⟨d, e1, e2⟩ := lr_rho hp hs ho hc flat
  refine ⟨ms.map (radiusOf64 pw d c.z), ?_, by simp, ?_⟩
  · unfold radius64
    rw [e1, Option.bind_some, writeAll64_map _ _ _ hlen]
    simp
  · intro i m R hm hR
    rw [List.getElem?_map, hm, Option.map_some, Option.some.injEq] at hR
    rw [← hR]
    rcases radius_sphere hp hc e2 (hms m (List.mem_of_getElem? hm)) with ⟨h0, h1⟩ | ⟨h0, y, h1, h2⟩
    · rw [h1, h0]
      simp [sphereMass]
    · refine ⟨iff_of_true h1.1 h0, h1.1.le, ?_⟩
      have := sphere_lr h1 hc e2.2.1 (by norm_num)
      rw [h2] at this
      refine this.trans ?_
      have hmR : (0 : ℝ) < (m : ℝ) := by exact_mod_cast h0
      rw [div_eq_mul_inv (m : ℝ), mul_comm (m : ℝ)]
      exact mul_le_mul_of_nonneg_right (by norm_num) hmR.le

/-- C138 (masses): `Mass` in machine arithmetic writes, for every positive radius, the mass of the sphere up to the relative error 2⁻⁴⁰. -/
theorem C138_mass_partial (pw : ℚ → ℚ → ℚ) (hp : PowOk pw) (r : Radius) (s : String) (hs : toStr r = some s) (delta : ℝ) (mean : Bool) (ho : overdensity s = some (delta, mean)) (c : Cosmo64) (hc : c.Usual)
    (flat : mean = true → c.Flat) (rs : List ℚ) (out : List (Option ℚ)) (hrs : ∀ R ∈ rs, 0 ≤ R) (hlen : out.length = rs.length) :
    ∃ ms : List ℚ, mass64 pw r c rs out = some (ms.map some) ∧ ms.length = rs.length ∧
      ∀ (i : ℕ) (R m : ℚ), rs[i]? = some R → ms[i]? = some m → |m - sphereMass delta mean c R| ≤ sphereMass delta mean c R / 2 ^ 40 := by
  obtain ⟨d, e1, e2⟩ := lr_rho hp hs ho hc flat
  refine ⟨rs.map (massOf64 d c.z), ?_, by simp, ?_⟩
  · unfold mass64
    rw [e1, writeAll64_map _ _ _ hlen]
    simp
  · intro i R m hR hm
    rw [List.getElem?_map, hR, Option.map_some, Option.some.injEq] at hm
    rw [← hm]
    rcases (hrs R (List.mem_of_getElem? hR)).eq_or_lt with h0 | h0
    · rw [← h0]
      have : massOf64 d c.z 0 = 0 := by
        unfold massOf64
        simp [r64_zero]
      rw [this]
      simp [sphereMass]
    · have h1 := lr_mass (lr_factor e2) hc.log.1 (lr_self h0)
      have h2 := (h1.mono (e := 1562 * uu) (by norm_num)).rel (by norm_num)
      rw [← sphereMass_eq] at h2
      refine h2.trans ?_
      have hp0 : 0 ≤ sphereMass delta mean c R := by
        rw [sphereMass_eq]
        exact h1.2.1.le
      rw [div_eq_mul_inv (sphereMass delta mean c R), mul_comm (sphereMass delta mean c R)]
      exact mul_le_mul_of_nonneg_right (by norm_num) hp0

/-- C138 (inverse): the mass of the radius of a mass is the mass, up to the relative error 2⁻⁴⁰. -/
theorem C138_inverse_partial (pw : ℚ → ℚ → ℚ) (hp : PowOk pw) (r : Radius) (s : String) (hs : toStr r = some s) (delta : ℝ) (mean : Bool) (ho : overdensity s = some (delta, mean)) (c : Cosmo64) (hc : c.Usual)
    (flat : mean = true → c.Flat) (ms : List ℚ) (o1 o2 : List (Option ℚ)) (hms : ∀ m ∈ ms, MassOk delta mean c m) (h1 : o1.length = ms.length) (h2 : o2.length = ms.length) :
    ∃ rs ns : List ℚ, radius64 pw r c ms o1 = some (rs.map some) ∧ mass64 pw r c rs o2 = some (ns.map some) ∧ ns.length = ms.length ∧
      ∀ (i : ℕ) (m n : ℚ), ms[i]? = some m → ns[i]? = some n → |(n : ℝ) - m| ≤ m / 2 ^ 40 := by
  obtain ⟨d, e1, e2⟩ := lr_rho hp hs ho hc flat
  refine ⟨ms.map (radiusOf64 pw d c.z), (ms.map (radiusOf64 pw d c.z)).map (massOf64 d c.z), ?_, ?_, by simp, ?_⟩
  · unfold radius64
    rw [e1, Option.bind_some, writeAll64_map _ _ _ h1]
    simp
  · unfold mass64
    rw [e1, writeAll64_map _ _ _ (by simpa using h2)]
    simp
  · intro i m n hm hn
    rw [List.getElem?_map, List.getElem?_map, hm, Option.map_some, Option.map_some, Option.some.injEq] at hn
    rw [← hn]
    have hz : (0 : ℝ) < 1 + (c.z : ℝ) := hc.1.zpos
    rcases hms m (List.mem_of_getElem? hm) with h0 | ⟨h3, h4⟩
    · rw [h0, radius_zero hp]
      have : massOf64 d c.z 0 = 0 := by
        unfold massOf64
        simp [r64_zero]
      rw [this]
      simp
    · rw [sphereMass_one hc] at h3 h4
      have hf := lr_factor e2
      obtain ⟨hm0, hB⟩ := mass_log hf.2.1 h3 h4
      have hmR : (0 : ℝ) < (m : ℝ) := by exact_mod_cast hm0
      have hself := lr_self hf.1
      have hfR : (0 : ℝ) < ((factor64 d : ℚ) : ℝ) := by exact_mod_cast hf.1
      have hB' : |Real.log ((m : ℝ) / ((factor64 d : ℚ) : ℝ))| ≤ 351 := by
        rw [Real.log_div hmR.ne' hfR.ne']
        rw [Real.log_div hmR.ne' hf.2.1.ne'] at hB
        have a := abs_sub_le (Real.log (m : ℝ)) (Real.log (4 / 3 * Real.pi * (delta * refDensity mean c.real))) (Real.log ((factor64 d : ℚ) : ℝ))
        have a2 : |Real.log (m : ℝ) - Real.log ((factor64 d : ℚ) : ℝ)| ≤ |Real.log (m : ℝ) - Real.log (4 / 3 * Real.pi * (delta * refDensity mean c.real))| + |Real.log (4 / 3 * Real.pi * (delta * refDensity mean c.real)) - Real.log ((factor64 d : ℚ) : ℝ)| := a
        rw [abs_sub_comm (Real.log (4 / 3 * Real.pi * (delta * refDensity mean c.real)))] at a2
        have a3 := hf.2.2
        have a4 : 1545 * uu + 4 * uu ≤ 1 := by norm_num
        linarith
      have k1 := lr_radius hp hself (by norm_num) hc.log.1 hm0 hB'
      have k2 := lr_mass hself hc.log.1 k1
      rw [mul_div_cancel_right₀ _ hz.ne', cube_root (div_nonneg hmR.le hfR.le), mul_div_cancel₀ _ hfR.ne'] at k2
      have k3 := (k2.mono (e := 1830 * uu) (by norm_num)).rel (by norm_num)
      refine k3.trans ?_
      rw [div_eq_mul_inv (m : ℝ), mul_comm (m : ℝ)]
      exact mul_le_mul_of_nonneg_right (by norm_num) hmR.le

/-! ### Units -/

/-- The length of a unit in comoving Mpc/h: 1/1000 for kpc, 1 + z for proper lengths, h for units without 1/h. -/
noncomputable def unitLength (proper kpc perH : Bool) (c : Cosmo64) : ℝ := (if kpc then 1 / 1000 else 1) * (if proper then 1 + (c.z : ℝ) else 1) * (if perH then 1 else (c.h100 : ℝ))

theorem lr_unit (proper kpc perH : Bool) {c : Cosmo64} (hc : c.Usual) : ∃ u, unitFactor64 (unitName proper kpc perH) c = some u ∧ LR u (unitLength proper kpc perH c) (5 * uu) := by
  have hz := lr_onez hc.log.1
  have hh : 0 < c.h100 := by have : (0 : ℝ) < (c.h100 : ℝ) := hc.1.h; exact_mod_cast this
  have h1 := lr_self hh
  have hk := lr_const (x := 1 / 1000) (by norm_num)
  push_cast at hk
  have h0 := lr_self (x := 1) (by norm_num)
  push_cast at h0
  cases proper <;> cases kpc <;> cases perH <;> simp only [unitName, unitLength, Bool.false_eq_true, if_false, if_true, mul_one, one_mul]
  · exact ⟨c.h100, rfl, h1.mono (by norm_num)⟩
  · exact ⟨1, rfl, h0.mono (by norm_num)⟩
  · exact ⟨_, rfl, (hk.mul h1).round.mono (by norm_num)⟩
  · exact ⟨_, rfl, hk.mono (by norm_num)⟩
  · exact ⟨_, rfl, (hz.mul h1).round.mono (by norm_num)⟩
  · exact ⟨_, rfl, hz.mono (by norm_num)⟩
  · exact ⟨_, rfl, ((hk.mul hz).round.mul h1).round.mono (by norm_num)⟩
  · exact ⟨_, rfl, (hk.mul hz).round.mono (by norm_num)⟩

/-- C138 (columns): the column of radii that is computed from a column of masses of the halo catalogue, in any of the eight units: the sphere of the named overdensity holds the mass up to the relative error 2⁻³⁹. -/
theorem C138_column_partial (pw : ℚ → ℚ → ℚ) (hp : PowOk pw) (name : String) (delta : ℝ) (mean : Bool) (ho : overdensity name = some (delta, mean)) (proper kpc perH : Bool) (c : Cosmo64) (hc : c.Usual)
    (flat : mean = true → c.Flat) (ms : List ℚ) (hms : ∀ m ∈ ms, MassOk delta mean c m) :
    ∃ rs : List ℚ, genColumn64 pw (unitName proper kpc perH) c name ms = some (rs.map some) ∧ rs.length = ms.length ∧
      ∀ (i : ℕ) (m R : ℚ), ms[i]? = some m → rs[i]? = some R → 0 ≤ R ∧ |sphereMass delta mean c (R * unitLength proper kpc perH c) - m| ≤ m / 2 ^ 39 := by
  have hs : toStr (radiusFromString name).1 = some name := by
    unfold overdensity at ho
    split_ifs at ho <;> subst_vars <;> rfl
  obtain ⟨d, e1, e2⟩ := lr_rho hp hs ho hc flat
  obtain ⟨u, u1, u2⟩ := lr_unit proper kpc perH hc
  refine ⟨ms.map fun m => r64 (radiusOf64 pw d c.z m / u), ?_, by simp, ?_⟩
  · unfold genColumn64 radius64
    rw [e1, Option.bind_some, writeAll64_map _ _ _ (by simp), Option.bind_some, u1, Option.bind_some]
    simp
  · intro i m R hm hR
    rw [List.getElem?_map, hm, Option.map_some, Option.some.injEq] at hR
    rw [← hR]
    rcases radius_sphere hp hc e2 (hms m (List.mem_of_getElem? hm)) with ⟨h0, h1⟩ | ⟨h0, y, h1, h2⟩
    · rw [h1, h0, zero_div, r64_zero]
      simp [sphereMass]
    · have h3 := (h1.div u2).round
      refine ⟨h3.1.le, ?_⟩
      have hmR : (0 : ℝ) < (m : ℝ) := by exact_mod_cast h0
      have h4 := (h3.mul (h3.mul h3)).rel (by norm_num)
      have hzR : (0 : ℝ) < 1 + (c.z : ℝ) := hc.1.zpos
      have hk : 0 < 4 / 3 * Real.pi * (delta * refDensity mean c.real) / (1 + c.z) ^ 3 * unitLength proper kpc perH c ^ 3 := by
        have := Real.pi_pos; have := e2.2.1; have := u2.2.1; positivity
      have e : ∀ t : ℝ, sphereMass delta mean c (t * unitLength proper kpc perH c) = 4 / 3 * Real.pi * (delta * refDensity mean c.real) / (1 + c.z) ^ 3 * unitLength proper kpc perH c ^ 3 * (t * (t * t)) := by
        intro t
        rw [sphereMass_eq]
        field_simp
      have hy : sphereMass delta mean c (y / unitLength proper kpc perH c * unitLength proper kpc perH c) = m := by rw [div_mul_cancel₀ _ u2.2.1.ne', h2]
      push_cast at h4
      rw [← hy, e, e, ← mul_sub, abs_mul, abs_of_pos hk]
      refine (mul_le_mul_of_nonneg_left (h4.trans ?_) hk.le).trans (le_of_eq (mul_div_assoc _ _ _).symm)
      have hq : 0 < y / unitLength proper kpc perH c := div_pos h1.2.1 u2.2.1
      rw [div_eq_mul_inv _ ((2 : ℝ) ^ 39), mul_comm _ (((2 : ℝ) ^ 39)⁻¹)]
      exact mul_le_mul_of_nonneg_right (by norm_num) (by positivity)

/-- C138 (coordinates): a length of the halo catalogue is converted to comoving Mpc/h up to the relative error 2⁻⁴⁸, whatever its sign. -/
theorem C138_lengths_partial (proper kpc perH : Bool) (c : Cosmo64) (hc : c.Usual) (xs : List ℚ) :
    ∃ ys : List ℚ, convertColumn64 (unitName proper kpc perH) c (xs.map some) = some (ys.map some) ∧ ys.length = xs.length ∧
      ∀ (i : ℕ) (x y : ℚ), xs[i]? = some x → ys[i]? = some y → |(y : ℝ) - x * unitLength proper kpc perH c| ≤ |(x : ℝ) * unitLength proper kpc perH c| / 2 ^ 48 := by
  obtain ⟨u, u1, u2⟩ := lr_unit proper kpc perH hc
  refine ⟨xs.map fun x => r64 (x * u), ?_, by simp, ?_⟩
  · unfold convertColumn64
    rw [u1, Option.map_some]
    simp
  · intro i x y hx hy
    rw [List.getElem?_map, hx, Option.map_some, Option.some.injEq] at hy
    rw [← hy]
    have h1 := r64_errR (x * u)
    have h2 := u2.rel (by norm_num)
    have hu := u2.2.1
    push_cast at h1
    generalize unitLength proper kpc perH c = t at *
    have h3 : |(x : ℝ) * u - x * t| ≤ |(x : ℝ)| * (10 * uu * t) := by
      rw [← mul_sub, abs_mul]
      exact mul_le_mul_of_nonneg_left (h2.trans (le_of_eq (by ring))) (abs_nonneg _)
    have h4 : |(x : ℝ) * u| ≤ |(x : ℝ)| * (2 * t) := by
      rw [abs_mul]
      refine mul_le_mul_of_nonneg_left ?_ (abs_nonneg _)
      have := abs_sub_abs_le_abs_sub (u : ℝ) t
      rw [abs_of_pos hu] at this
      norm_num at h2
      linarith
    have h5 := abs_sub_le ((r64 (x * u) : ℚ) : ℝ) ((x : ℝ) * u) (x * t)
    rw [abs_mul, abs_of_pos hu]
    have hq : 0 ≤ |(x : ℝ)| * t := mul_nonneg (abs_nonneg _) hu.le
    have e1 : |(x : ℝ) * u| / 2 ^ 53 ≤ (|(x : ℝ)| * t) * (2 / 2 ^ 53) := by
      rw [div_le_iff₀ (by norm_num)]
      refine h4.trans (le_of_eq ?_)
      ring
    have e2 : |(x : ℝ)| * (10 * uu * t) = (|(x : ℝ)| * t) * (10 * uu) := by ring
    rw [e2] at h3
    generalize |(x : ℝ)| * t = q at *
    have : q * (2 / 2 ^ 53) + q * (10 * uu) ≤ q / 2 ^ 48 := by norm_num; linarith
    linarith

/-- C138 (coord): radii that are computed from the masses of the catalogue, put into its units and converted back by coord mode, are comoving Mpc/h: the sphere of the named overdensity holds the mass up to the relative error 2⁻³⁹. -/
theorem C138_coord_partial (pw : ℚ → ℚ → ℚ) (hp : PowOk pw) (name : String) (delta : ℝ) (mean : Bool) (ho : overdensity name = some (delta, mean)) (proper kpc perH : Bool) (c : Cosmo64) (hc : c.Usual)
    (flat : mean = true → c.Flat) (ms : List ℚ) (hms : ∀ m ∈ ms, MassOk delta mean c m) :
    ∃ rs : List ℚ, (genColumn64 pw (unitName proper kpc perH) c name ms).bind (convertColumn64 (unitName proper kpc perH) c) = some (rs.map some) ∧ rs.length = ms.length ∧
      ∀ (i : ℕ) (m R : ℚ), ms[i]? = some m → rs[i]? = some R → 0 ≤ R ∧ |sphereMass delta mean c R - m| ≤ m / 2 ^ 39 := by
  have hs : toStr (radiusFromString name).1 = some name := by
    unfold overdensity at ho
    split_ifs at ho <;> subst_vars <;> rfl
  obtain ⟨d, e1, e2⟩ := lr_rho hp hs ho hc flat
  obtain ⟨u, u1, u2⟩ := lr_unit proper kpc perH hc
  refine ⟨ms.map fun m => r64 (r64 (radiusOf64 pw d c.z m / u) * u), ?_, by simp, ?_⟩
  · unfold genColumn64 radius64 convertColumn64
    rw [e1, Option.bind_some, writeAll64_map _ _ _ (by simp), Option.bind_some, u1, Option.bind_some, Option.bind_some, Option.map_some]
    simp
  · intro i m R hm hR
    rw [List.getElem?_map, hm, Option.map_some, Option.some.injEq] at hR
    rw [← hR]
    rcases radius_sphere hp hc e2 (hms m (List.mem_of_getElem? hm)) with ⟨h0, h1⟩ | ⟨h0, y, h1, h2⟩
    · rw [h1, h0, zero_div, r64_zero, zero_mul, r64_zero]
      simp [sphereMass]
    · have h3 := ((h1.div u2).round.mul u2).round
      rw [div_mul_cancel₀ _ u2.2.1.ne'] at h3
      refine ⟨h3.1.le, ?_⟩
      have := sphere_lr (h3.mono (e := 1140 * uu) (by norm_num)) hc e2.2.1 (by norm_num)
      rw [h2] at this
      refine this.trans ?_
      have hmR : (0 : ℝ) < (m : ℝ) := by exact_mod_cast h0
      rw [div_eq_mul_inv (m : ℝ), mul_comm (m : ℝ)]
      exact mul_le_mul_of_nonneg_right (by norm_num) hmR.le

/-- A correctly rounded power function has the accuracy that is asked for. -/
theorem powOk_rounded : PowOk fun x y => rnReal ((x : ℝ) ^ (y : ℝ)) := by
  have key : ∀ x y : ℚ, 0 < x → (0 : ℝ) < ((rnReal ((x : ℝ) ^ (y : ℝ)) : ℚ) : ℝ) ∧ |Real.log ((rnReal ((x : ℝ) ^ (y : ℝ)) : ℚ) : ℝ) - Real.log ((x : ℝ) ^ (y : ℝ))| ≤ 1 / 2 ^ 52 := by
    intro x y hx
    have hx' : (0 : ℝ) < (x : ℝ) := by exact_mod_cast hx
    have hp := Real.rpow_pos_of_pos hx' (y : ℝ)
    have e := rnReal_error ((x : ℝ) ^ (y : ℝ))
    rw [abs_of_pos hp] at e
    exact log_near hp e
  refine ⟨fun x y hx => by exact_mod_cast (key x y hx).1, fun x y hx => ?_, fun y hy => ?_⟩
  · have hx' : (0 : ℝ) < (x : ℝ) := by exact_mod_cast hx
    have h := (key x y hx).2
    rw [Real.log_rpow hx'] at h
    refine h.trans ?_
    have := abs_nonneg ((y : ℝ) * Real.log (x : ℝ))
    generalize |(y : ℝ) * Real.log (x : ℝ)| = t at this
    rw [le_div_iff₀ (by norm_num)]
    norm_num
    linarith
  · have hy' : (y : ℝ) ≠ 0 := by exact_mod_cast hy.ne'
    simp only [Rat.cast_zero, Real.zero_rpow hy', rnReal_zero]

/-- The hypotheses are met by the cosmology with ΩM = 0.3, ΩΛ = 0.7 (as float64 numbers, whose sum is not one) at z = 1/2, and a mass of 10¹⁴ Msun/h; the radius is then a number. -/
example : ∃ c : Cosmo64, c.Usual ∧ c.Flat ∧ c.omegaM + c.omegaL ≠ 1 ∧ MassOk 200 true c (10 ^ 14) ∧ ∃ R : ℚ, radius64 (fun x y => rnReal ((x : ℝ) ^ (y : ℝ))) R200m c [10 ^ 14] [none] = some [some R] ∧ 0 < R := by
  have hc : (⟨1 / 2, 5404319552844595 / 2 ^ 54, 3152519739159347 / 2 ^ 52, 7 / 10⟩ : Cosmo64).Usual := by
    refine ⟨⟨?_, ?_, ?_, ?_⟩, ?_, ?_⟩ <;> norm_num [Cosmo64.real]
  have hf : (⟨1 / 2, 5404319552844595 / 2 ^ 54, 3152519739159347 / 2 ^ 52, 7 / 10⟩ : Cosmo64).Flat := by
    unfold Cosmo64.Flat
    norm_num [abs_le]
  have hm : MassOk 200 true ⟨1 / 2, 5404319552844595 / 2 ^ 54, 3152519739159347 / 2 ^ 52, 7 / 10⟩ (10 ^ 14) := by
    right
    rw [sphereMass_one hc]
    have hv := Radius.C47_value 70 (3 / 10) (by norm_num)
    rw [Radius.rhoCritical_eq _ _ _ _ (by norm_num) (by norm_num)] at hv
    norm_num at hv
    have h3 := Real.pi_gt_three
    have h4 := Real.pi_lt_four
    have hr := hv.1
    have hr2 := hv.2
    simp only [refDensity, if_true, Cosmo64.real]
    push_cast
    have h500 : (2 : ℝ) ^ 100 ≤ 2 ^ 500 := pow_le_pow_right₀ (by norm_num) (by norm_num)
    constructor
    · rw [div_le_iff₀ (by positivity)]
      have : Real.pi * rhoCrit0 ≤ 4 * 277530000000 := by nlinarith
      calc _ = 4 / 3 * (200 * (5404319552844595 / 2 ^ 54) * (1 + 1 / 2) ^ 3) * (Real.pi * rhoCrit0) := by ring
        _ ≤ 4 / 3 * (200 * (5404319552844595 / 2 ^ 54) * (1 + 1 / 2) ^ 3) * (4 * 277530000000) := mul_le_mul_of_nonneg_left this (by norm_num)
        _ ≤ 10 ^ 14 * 2 ^ 100 := by norm_num
        _ ≤ _ := mul_le_mul_of_nonneg_left h500 (by norm_num)
    · have : 3 * 277510000000 ≤ Real.pi * rhoCrit0 := by nlinarith
      calc (10 ^ 14 : ℝ) ≤ 4 / 3 * (200 * (5404319552844595 / 2 ^ 54) * (1 + 1 / 2) ^ 3) * 2 ^ 100 * (3 * 277510000000) := by norm_num
        _ ≤ 4 / 3 * (200 * (5404319552844595 / 2 ^ 54) * (1 + 1 / 2) ^ 3) * 2 ^ 500 * (3 * 277510000000) := mul_le_mul_of_nonneg_right (mul_le_mul_of_nonneg_left h500 (by norm_num)) (by norm_num)
        _ ≤ 4 / 3 * (200 * (5404319552844595 / 2 ^ 54) * (1 + 1 / 2) ^ 3) * 2 ^ 500 * (Real.pi * rhoCrit0) := mul_le_mul_of_nonneg_left this (by positivity)
        _ = _ := by ring
  refine ⟨_, hc, hf, ?_, hm, ?_⟩
  · norm_num
  · obtain ⟨rs, h1, h2, h3⟩ := C138_radius_partial _ powOk_rounded R200m "R200m" rfl 200 true (by simp [overdensity]) _ hc (fun _ => hf) [10 ^ 14] [none] (by intro m hm'; rw [List.mem_singleton] at hm'; rw [hm']; exact hm) rfl
    obtain ⟨R, rfl⟩ := List.length_eq_one_iff.mp h2
    exact ⟨R, h1, (h3 0 (10 ^ 14) R rfl rfl).1.mpr (by norm_num)⟩

/-- A position of -12.5 proper kpc and a radius of 250 proper kpc at z = 1/2 and h = 0.7 are such lengths. -/
example : ∃ ys : List ℚ, convertColumn64 "pkpc" ⟨1 / 2, 3 / 10, 7 / 10, 7 / 10⟩ ([-25 / 2, 250].map some) = some (ys.map some) ∧ ys.length = 2 := by
  obtain ⟨ys, h1, h2, _⟩ := C138_lengths_partial true true false ⟨1 / 2, 3 / 10, 7 / 10, 7 / 10⟩ ⟨⟨by norm_num [Cosmo64.real], by norm_num [Cosmo64.real], by norm_num [Cosmo64.real], by norm_num [Cosmo64.real]⟩, by norm_num, by norm_num⟩ [-25 / 2, 250]
  exact ⟨ys, h1, h2⟩

end Shellfish.Round
