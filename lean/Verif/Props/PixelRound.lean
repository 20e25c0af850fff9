/- C113: pixels of the sphere in machine arithmetic. -/
import Verif.Model.PixelRound
import Verif.Props.LosRound
import Verif.Props.Round32
import Verif.Props.Pixel
import Mathlib.Analysis.Real.Pi.Bounds

namespace Shellfish.Round
open Shellfish.Finder (toInt)

theorem wrap64_small {x : ℤ} (h1 : -2 ^ 63 ≤ x) (h2 : x < 2 ^ 63) : wrap64 x = x := by unfold wrap64; omega

/-- The largest float64 number below `2 * math.Pi`. -/
def belowTurn : ℚ := 2 * pi64 - 1 / 2 ^ 50

theorem pi64_pos : 0 < pi64 := by unfold pi64; norm_num

theorem float_twoPi : Float64 (2 * pi64) := ⟨884279719003555, -47, by norm_num, by unfold pi64; norm_num⟩

/-- A float64 number less than a turn is at most `belowTurn`. -/
theorem le_belowTurn {x : ℚ} (hx : Float64 x) (h : x < 2 * pi64) : x ≤ belowTurn := by
  rcases lt_or_ge x 4 with h4 | h4
  · refine le_trans h4.le ?_
    unfold belowTurn pi64
    norm_num
  · obtain ⟨m, e, hm, rfl⟩ := hx
    have he : -50 ≤ e := by
      by_contra hc
      have hm' : (m : ℚ) ≤ 2 ^ 53 := by
        have := (abs_lt.mp hm).2
        exact_mod_cast this.le
      have h2 : (2 : ℚ) ^ e ≤ 2 ^ (-51 : ℤ) := zpow_le_zpow_right₀ (by norm_num) (by omega)
      have hm0 : (m : ℚ) < 2 ^ 53 := by exact_mod_cast (abs_lt.mp hm).2
      have hp : (0 : ℚ) < 2 ^ e := by positivity
      have : (m : ℚ) * 2 ^ e < 2 ^ 53 * 2 ^ (-51 : ℤ) := lt_of_lt_of_le (mul_lt_mul_of_pos_right hm0 hp) (mul_le_mul_of_nonneg_left h2 (by norm_num))
      norm_num at this
      linarith
    obtain ⟨k, hk⟩ := Int.eq_ofNat_of_zero_le (show 0 ≤ e + 50 by omega)
    have e1 : (m : ℚ) * 2 ^ e = ((m * 2 ^ k : ℤ) : ℚ) / 2 ^ 50 := by
      have : e = (k : ℤ) - 50 := by omega
      rw [this, zpow_sub₀ (by norm_num)]
      push_cast
      rw [zpow_natCast]
      norm_num
      ring
    have e2 : (2 : ℚ) * pi64 = ((7074237752028440 : ℤ) : ℚ) / 2 ^ 50 := by unfold pi64; norm_num
    rw [e1, e2, div_lt_div_iff_of_pos_right (by norm_num)] at h
    have h' : m * 2 ^ k < 7074237752028440 := by exact_mod_cast h
    have h'' : ((m * 2 ^ k : ℤ) : ℚ) ≤ 7074237752028439 := by exact_mod_cast (show m * 2 ^ k ≤ 7074237752028439 by omega)
    unfold belowTurn
    rw [e1, e2]
    rw [div_le_iff₀ (by norm_num)]
    push_cast at h'' ⊢
    norm_num
    exact h''

theorem turn_lt (n kA zA kQ zQ : ℤ) (hn : 0 < n) (a1 : (2 : ℚ) ^ kA ≤ |(n : ℚ) * belowTurn|) (a2 : |(n : ℚ) * belowTurn| < 2 ^ (kA + 1)) (a3 : |(n : ℚ) * belowTurn / 2 ^ (kA - (((53 : ℕ) : ℤ) - 1)) - zA| < 1 / 2)
    (q1 : (2 : ℚ) ^ kQ ≤ |zA * 2 ^ (kA - (((53 : ℕ) : ℤ) - 1)) / (2 * pi64)|) (q2 : |zA * 2 ^ (kA - (((53 : ℕ) : ℤ) - 1)) / (2 * pi64)| < 2 ^ (kQ + 1))
    (q3 : |zA * 2 ^ (kA - (((53 : ℕ) : ℤ) - 1)) / (2 * pi64) / 2 ^ (kQ - (((53 : ℕ) : ℤ) - 1)) - zQ| < 1 / 2) (hlt : (zQ : ℚ) * 2 ^ (kQ - (((53 : ℕ) : ℤ) - 1)) < n) (phi : ℚ) (h0 : 0 ≤ phi) (h : phi ≤ belowTurn) :
    0 ≤ r64 (r64 ((n : ℚ) * phi) / (2 * pi64)) ∧ r64 (r64 ((n : ℚ) * phi) / (2 * pi64)) < n := by
  have hn' : (0 : ℚ) < n := by exact_mod_cast hn
  have hpp : (0 : ℚ) < 2 * pi64 := by have := pi64_pos; linarith
  have hA : r64 ((n : ℚ) * belowTurn) = zA * 2 ^ (kA - (((53 : ℕ) : ℤ) - 1)) := rn_eq kA zA a1 a2 a3
  have hQ : r64 (r64 ((n : ℚ) * belowTurn) / (2 * pi64)) = zQ * 2 ^ (kQ - (((53 : ℕ) : ℤ) - 1)) := by
    rw [hA]
    exact rn_eq kQ zQ q1 q2 q3
  constructor
  · exact r64_nonneg (div_nonneg (r64_nonneg (mul_nonneg hn'.le h0)) hpp.le)
  · refine lt_of_le_of_lt ?_ hlt
    rw [← hQ]
    exact r64_mono (div_le_div_of_nonneg_right (r64_mono (mul_le_mul_of_nonneg_left h hn'.le)) hpp.le)

/-- The index in a ring, for the first 22 rings. -/
theorem ring_index (ir : ℤ) (h1 : 1 ≤ ir) (h2 : ir ≤ 22) : ∀ phi : ℚ, 0 ≤ phi → phi ≤ belowTurn →
    0 ≤ r64 (r64 (((8 * ir : ℤ) : ℚ) * phi) / (2 * pi64)) ∧ r64 (r64 (((8 * ir : ℤ) : ℚ) * phi) / (2 * pi64)) < ((8 * ir : ℤ) : ℚ) := by
  interval_cases ir
  · exact turn_lt 8 5 7074237752028439 2 9007199254740991 (by norm_num) (by unfold belowTurn pi64; norm_num [abs_of_pos]) (by unfold belowTurn pi64; norm_num [abs_of_pos]) (by unfold belowTurn pi64; rw [abs_lt]; norm_num) (by unfold pi64; norm_num [abs_of_pos]) (by unfold pi64; norm_num [abs_of_pos]) (by unfold pi64; rw [abs_lt]; norm_num) (by norm_num)
  · exact turn_lt 16 6 7074237752028439 3 9007199254740991 (by norm_num) (by unfold belowTurn pi64; norm_num [abs_of_pos]) (by unfold belowTurn pi64; norm_num [abs_of_pos]) (by unfold belowTurn pi64; rw [abs_lt]; norm_num) (by unfold pi64; norm_num [abs_of_pos]) (by unfold pi64; norm_num [abs_of_pos]) (by unfold pi64; rw [abs_lt]; norm_num) (by norm_num)
  · exact turn_lt 24 7 5305678314021329 4 6755399441055743 (by norm_num) (by unfold belowTurn pi64; norm_num [abs_of_pos]) (by unfold belowTurn pi64; norm_num [abs_of_pos]) (by unfold belowTurn pi64; rw [abs_lt]; norm_num) (by unfold pi64; norm_num [abs_of_pos]) (by unfold pi64; norm_num [abs_of_pos]) (by unfold pi64; rw [abs_lt]; norm_num) (by norm_num)
  · exact turn_lt 32 7 7074237752028439 4 9007199254740991 (by norm_num) (by unfold belowTurn pi64; norm_num [abs_of_pos]) (by unfold belowTurn pi64; norm_num [abs_of_pos]) (by unfold belowTurn pi64; rw [abs_lt]; norm_num) (by unfold pi64; norm_num [abs_of_pos]) (by unfold pi64; norm_num [abs_of_pos]) (by unfold pi64; rw [abs_lt]; norm_num) (by norm_num)
  · exact turn_lt 40 7 8842797190035549 5 5629499534213119 (by norm_num) (by unfold belowTurn pi64; norm_num [abs_of_pos]) (by unfold belowTurn pi64; norm_num [abs_of_pos]) (by unfold belowTurn pi64; rw [abs_lt]; norm_num) (by unfold pi64; norm_num [abs_of_pos]) (by unfold pi64; norm_num [abs_of_pos]) (by unfold pi64; rw [abs_lt]; norm_num) (by norm_num)
  · exact turn_lt 48 8 5305678314021329 5 6755399441055743 (by norm_num) (by unfold belowTurn pi64; norm_num [abs_of_pos]) (by unfold belowTurn pi64; norm_num [abs_of_pos]) (by unfold belowTurn pi64; rw [abs_lt]; norm_num) (by unfold pi64; norm_num [abs_of_pos]) (by unfold pi64; norm_num [abs_of_pos]) (by unfold pi64; rw [abs_lt]; norm_num) (by norm_num)
  · exact turn_lt 56 8 6189958033024884 5 7881299347898367 (by norm_num) (by unfold belowTurn pi64; norm_num [abs_of_pos]) (by unfold belowTurn pi64; norm_num [abs_of_pos]) (by unfold belowTurn pi64; rw [abs_lt]; norm_num) (by unfold pi64; norm_num [abs_of_pos]) (by unfold pi64; norm_num [abs_of_pos]) (by unfold pi64; rw [abs_lt]; norm_num) (by norm_num)
  · exact turn_lt 64 8 7074237752028439 5 9007199254740991 (by norm_num) (by unfold belowTurn pi64; norm_num [abs_of_pos]) (by unfold belowTurn pi64; norm_num [abs_of_pos]) (by unfold belowTurn pi64; rw [abs_lt]; norm_num) (by unfold pi64; norm_num [abs_of_pos]) (by unfold pi64; norm_num [abs_of_pos]) (by unfold pi64; rw [abs_lt]; norm_num) (by norm_num)
  · exact turn_lt 72 8 7958517471031994 6 5066549580791807 (by norm_num) (by unfold belowTurn pi64; norm_num [abs_of_pos]) (by unfold belowTurn pi64; norm_num [abs_of_pos]) (by unfold belowTurn pi64; rw [abs_lt]; norm_num) (by unfold pi64; norm_num [abs_of_pos]) (by unfold pi64; norm_num [abs_of_pos]) (by unfold pi64; rw [abs_lt]; norm_num) (by norm_num)
  · exact turn_lt 80 8 8842797190035549 6 5629499534213119 (by norm_num) (by unfold belowTurn pi64; norm_num [abs_of_pos]) (by unfold belowTurn pi64; norm_num [abs_of_pos]) (by unfold belowTurn pi64; rw [abs_lt]; norm_num) (by unfold pi64; norm_num [abs_of_pos]) (by unfold pi64; norm_num [abs_of_pos]) (by unfold pi64; rw [abs_lt]; norm_num) (by norm_num)
  · exact turn_lt 88 9 4863538454519552 6 6192449487634431 (by norm_num) (by unfold belowTurn pi64; norm_num [abs_of_pos]) (by unfold belowTurn pi64; norm_num [abs_of_pos]) (by unfold belowTurn pi64; rw [abs_lt]; norm_num) (by unfold pi64; norm_num [abs_of_pos]) (by unfold pi64; norm_num [abs_of_pos]) (by unfold pi64; rw [abs_lt]; norm_num) (by norm_num)
  · exact turn_lt 96 9 5305678314021329 6 6755399441055743 (by norm_num) (by unfold belowTurn pi64; norm_num [abs_of_pos]) (by unfold belowTurn pi64; norm_num [abs_of_pos]) (by unfold belowTurn pi64; rw [abs_lt]; norm_num) (by unfold pi64; norm_num [abs_of_pos]) (by unfold pi64; norm_num [abs_of_pos]) (by unfold pi64; rw [abs_lt]; norm_num) (by norm_num)
  · exact turn_lt 104 9 5747818173523107 6 7318349394477055 (by norm_num) (by unfold belowTurn pi64; norm_num [abs_of_pos]) (by unfold belowTurn pi64; norm_num [abs_of_pos]) (by unfold belowTurn pi64; rw [abs_lt]; norm_num) (by unfold pi64; norm_num [abs_of_pos]) (by unfold pi64; norm_num [abs_of_pos]) (by unfold pi64; rw [abs_lt]; norm_num) (by norm_num)
  · exact turn_lt 112 9 6189958033024884 6 7881299347898367 (by norm_num) (by unfold belowTurn pi64; norm_num [abs_of_pos]) (by unfold belowTurn pi64; norm_num [abs_of_pos]) (by unfold belowTurn pi64; rw [abs_lt]; norm_num) (by unfold pi64; norm_num [abs_of_pos]) (by unfold pi64; norm_num [abs_of_pos]) (by unfold pi64; rw [abs_lt]; norm_num) (by norm_num)
  · exact turn_lt 120 9 6632097892526662 6 8444249301319679 (by norm_num) (by unfold belowTurn pi64; norm_num [abs_of_pos]) (by unfold belowTurn pi64; norm_num [abs_of_pos]) (by unfold belowTurn pi64; rw [abs_lt]; norm_num) (by unfold pi64; norm_num [abs_of_pos]) (by unfold pi64; norm_num [abs_of_pos]) (by unfold pi64; rw [abs_lt]; norm_num) (by norm_num)
  · exact turn_lt 128 9 7074237752028439 6 9007199254740991 (by norm_num) (by unfold belowTurn pi64; norm_num [abs_of_pos]) (by unfold belowTurn pi64; norm_num [abs_of_pos]) (by unfold belowTurn pi64; rw [abs_lt]; norm_num) (by unfold pi64; norm_num [abs_of_pos]) (by unfold pi64; norm_num [abs_of_pos]) (by unfold pi64; rw [abs_lt]; norm_num) (by norm_num)
  · exact turn_lt 136 9 7516377611530216 7 4785074604081151 (by norm_num) (by unfold belowTurn pi64; norm_num [abs_of_pos]) (by unfold belowTurn pi64; norm_num [abs_of_pos]) (by unfold belowTurn pi64; rw [abs_lt]; norm_num) (by unfold pi64; norm_num [abs_of_pos]) (by unfold pi64; norm_num [abs_of_pos]) (by unfold pi64; rw [abs_lt]; norm_num) (by norm_num)
  · exact turn_lt 144 9 7958517471031994 7 5066549580791807 (by norm_num) (by unfold belowTurn pi64; norm_num [abs_of_pos]) (by unfold belowTurn pi64; norm_num [abs_of_pos]) (by unfold belowTurn pi64; rw [abs_lt]; norm_num) (by unfold pi64; norm_num [abs_of_pos]) (by unfold pi64; norm_num [abs_of_pos]) (by unfold pi64; rw [abs_lt]; norm_num) (by norm_num)
  · exact turn_lt 152 9 8400657330533771 7 5348024557502463 (by norm_num) (by unfold belowTurn pi64; norm_num [abs_of_pos]) (by unfold belowTurn pi64; norm_num [abs_of_pos]) (by unfold belowTurn pi64; rw [abs_lt]; norm_num) (by unfold pi64; norm_num [abs_of_pos]) (by unfold pi64; norm_num [abs_of_pos]) (by unfold pi64; rw [abs_lt]; norm_num) (by norm_num)
  · exact turn_lt 160 9 8842797190035549 7 5629499534213119 (by norm_num) (by unfold belowTurn pi64; norm_num [abs_of_pos]) (by unfold belowTurn pi64; norm_num [abs_of_pos]) (by unfold belowTurn pi64; rw [abs_lt]; norm_num) (by unfold pi64; norm_num [abs_of_pos]) (by unfold pi64; norm_num [abs_of_pos]) (by unfold pi64; rw [abs_lt]; norm_num) (by norm_num)
  · exact turn_lt 168 10 4642468524768663 7 5910974510923775 (by norm_num) (by unfold belowTurn pi64; norm_num [abs_of_pos]) (by unfold belowTurn pi64; norm_num [abs_of_pos]) (by unfold belowTurn pi64; rw [abs_lt]; norm_num) (by unfold pi64; norm_num [abs_of_pos]) (by unfold pi64; norm_num [abs_of_pos]) (by unfold pi64; rw [abs_lt]; norm_num) (by norm_num)
  · exact turn_lt 176 10 4863538454519552 7 6192449487634431 (by norm_num) (by unfold belowTurn pi64; norm_num [abs_of_pos]) (by unfold belowTurn pi64; norm_num [abs_of_pos]) (by unfold belowTurn pi64; rw [abs_lt]; norm_num) (by unfold pi64; norm_num [abs_of_pos]) (by unfold pi64; norm_num [abs_of_pos]) (by unfold pi64; rw [abs_lt]; norm_num) (by norm_num)

theorem toInt_lt {q : ℚ} {n : ℤ} (h0 : 0 ≤ q) (h : q < n) : 0 ≤ toInt q ∧ toInt q < n := by
  rw [toInt_nonneg h0]
  exact ⟨Int.floor_nonneg.mpr h0, Int.floor_lt.mpr h⟩

theorem r64_int {n : ℤ} (h : |n| < 2 ^ 53) : r64 (n : ℚ) = n := r64_float ⟨n, 0, h, by simp⟩

/-- The result of `DiskPixel` once the ring is known. -/
theorem disk_ring (ir : ℤ) (h1 : 1 ≤ ir) (h2 : ir ≤ 2 ^ 20) (phi : ℚ) (ith : ℤ) (hith : toInt (r64 (r64 (((8 * ir : ℤ) : ℚ) * phi) / (2 * pi64))) = ith) (b1 : 0 ≤ ith) (b2 : ith ≤ 8 * ir) :
    wrap64 (wrap64 (wrap64 (wrap64 (2 * wrap64 (ir - 1)) + 1) * wrap64 (wrap64 (2 * wrap64 (ir - 1)) + 1)) + int64 (some (r64 (r64 (r64 ((wrap64 (8 * ir) : ℤ) : ℚ) * phi) / (2 * pi64))))) =
      (2 * ir - 1) * (2 * ir - 1) + ith := by
  have w1 : wrap64 (ir - 1) = ir - 1 := wrap64_small (by omega) (by omega)
  have w2 : wrap64 (2 * (ir - 1)) = 2 * (ir - 1) := wrap64_small (by omega) (by omega)
  have w3 : wrap64 (2 * (ir - 1) + 1) = 2 * ir - 1 := by rw [wrap64_small (by omega) (by omega)]; ring
  have w4 : wrap64 (8 * ir) = 8 * ir := wrap64_small (by omega) (by omega)
  have hsq : 0 ≤ (2 * ir - 1) * (2 * ir - 1) ∧ (2 * ir - 1) * (2 * ir - 1) ≤ 2 ^ 42 := ⟨mul_self_nonneg _, by nlinarith⟩
  have w5 : wrap64 ((2 * ir - 1) * (2 * ir - 1)) = (2 * ir - 1) * (2 * ir - 1) := wrap64_small (by omega) (by omega)
  rw [w1, w2, w3, w4, r64_int (by rw [abs_lt]; omega), w5]
  show wrap64 (_ + toInt _) = _
  rw [hith, wrap64_small (by omega) (by omega)]

/-- C113, NaN: the pixel of a direction without a polar angle is in the first ring around the pole, at all levels (also at the first level, which has no such ring). -/
theorem C113_nan_disk (phi : ℚ) (h0 : 0 ≤ phi) (h : phi ≤ belowTurn) (lvl : ℤ) (hl : 0 ≤ lvl) :
    diskPixel64 none phi lvl = 1 + ⌊r64 (r64 (8 * phi) / (2 * pi64))⌋ ∧ 1 ≤ diskPixel64 none phi lvl ∧ diskPixel64 none phi lvl ≤ 8 := by
  obtain ⟨q0, q1⟩ := ring_index 1 le_rfl (by norm_num) phi h0 h
  have hi := toInt_lt q0 q1
  have e1 : Int.tdiv (wrap64 (-2 ^ 63 + 1)) 2 = -2 ^ 62 + 1 := by decide +kernel
  have e2 : wrap64 (8 * (-2 ^ 62 + 1)) = 8 * 1 := by decide +kernel
  have e3 : wrap64 (wrap64 (2 * wrap64 ((-2 ^ 62 + 1) - 1)) + 1) = -2 ^ 63 + 1 := by decide +kernel
  have e4 : wrap64 ((-2 ^ 63 + 1) * (-2 ^ 63 + 1)) = 1 := by decide +kernel
  have key : diskPixel64 none phi lvl = 1 + toInt (r64 (r64 (((8 * 1 : ℤ) : ℚ) * phi) / (2 * pi64))) := by
    unfold diskPixel64
    dsimp only [Option.map_none]
    have i0 : int64 none = -2 ^ 63 := rfl
    rw [i0, if_neg (by norm_num), e1, if_neg (by omega), e2, e3, e4, r64_int (by norm_num)]
    show wrap64 (1 + toInt _) = _
    rw [wrap64_small (by omega) (by omega)]
  rw [key]
  refine ⟨?_, by omega, by omega⟩
  rw [toInt_nonneg q0]
  norm_num

/-- Where a value of `theta64` comes from. -/
theorem theta64_nan (T : Trig) (dx dy dz r : ℚ) (hr : sqrt64 (r2_32 dx dy dz) = some r) : theta64 T dx dy dz = none ↔ 1 < |r64 (dz / r)| := by
  unfold theta64
  rw [hr, Option.bind_some, lt_abs]
  by_cases h : r64 (dz / r) < -1 ∨ r64 (dz / r) > 1
  · rw [if_pos h]
    simp only [true_iff]
    rcases h with h | h
    · right; linarith
    · left; exact h
  · rw [if_neg h]
    simp only [reduceCtorEq, false_iff]
    push Not at h ⊢
    constructor <;> linarith [h.1, h.2]

/-- What is known of the functions of `math`: their ranges. -/
structure Trig.Good (T : Trig) : Prop where
  atan2 : ∀ y x, -pi64 ≤ T.atan2 y x ∧ T.atan2 y x ≤ pi64
  acos : ∀ x, -1 ≤ x → x ≤ 1 → 0 ≤ T.acos x ∧ T.acos x ≤ pi64
  cos : ∀ x, 0 ≤ x → x ≤ pi64 / 2 → 0 ≤ T.cos x ∧ T.cos x ≤ 1
  cosPi4 : 1 / 2 ≤ T.cos (pi64 / 4)

theorem phi64_range (T : Trig) (hT : T.Good) (dx dy : ℚ) : 0 ≤ phi64 T dx dy ∧ phi64 T dx dy ≤ belowTurn := by
  have hp := pi64_pos
  have fp : Float64 pi64 := ⟨884279719003555, -48, by norm_num, by unfold pi64; norm_num⟩
  have f3 : Float64 (3 * pi64) := ⟨3 * 884279719003555, -48, by norm_num, by unfold pi64; norm_num⟩
  have hlo : pi64 ≤ r64 (T.atan2 dy dx + pi64 * 2) := le_r64 fp (by linarith [(hT.atan2 dy dx).1])
  have hhi : r64 (T.atan2 dy dx + pi64 * 2) ≤ 3 * pi64 := r64_le f3 (by linarith [(hT.atan2 dy dx).2])
  have ha : Float64 (r64 (T.atan2 dy dx + pi64 * 2)) := rep_rn (by norm_num) _
  unfold phi64
  dsimp only
  set a := r64 (T.atan2 dy dx + pi64 * 2)
  have h2 : (0 : ℚ) < pi64 * 2 := by linarith
  rcases lt_or_ge a (pi64 * 2) with h | h
  · have : ⌊a / (pi64 * 2)⌋ = 0 := by
      rw [Int.floor_eq_zero_iff]
      exact ⟨div_nonneg (by linarith) h2.le, (div_lt_one h2).mpr h⟩
    rw [this]
    simp only [Int.cast_zero, mul_zero, sub_zero]
    exact ⟨by linarith, le_belowTurn ha (by linarith)⟩
  · have : ⌊a / (pi64 * 2)⌋ = 1 := by
      rw [Int.floor_eq_iff]
      constructor
      · rw [Int.cast_one, le_div_iff₀ h2]; linarith
      · rw [Int.cast_one, div_lt_iff₀ h2]; linarith
    rw [this]
    simp only [Int.cast_one, mul_one]
    refine ⟨by linarith, ?_⟩
    have : pi64 ≤ belowTurn := by unfold belowTurn pi64; norm_num
    linarith

theorem disk_range (r phi : ℚ) (lvl : ℤ) (hr0 : 0 ≤ r) (hr : r ≤ 2) (h0 : 0 ≤ phi) (h : phi ≤ belowTurn) (hl : 1 ≤ lvl) (hl' : lvl ≤ 22) :
    0 ≤ diskPixel64 (some r) phi lvl ∧ diskPixel64 (some r) phi lvl < diskNum lvl := by
  have hw : wrap64 (2 * lvl + 1) = 2 * lvl + 1 := wrap64_small (by omega) (by omega)
  have hp : (0 : ℚ) ≤ r * ((2 * lvl + 1 : ℤ) : ℚ) := mul_nonneg hr0 (by exact_mod_cast (show (0 : ℤ) ≤ 2 * lvl + 1 by omega))
  have hq : r * ((2 * lvl + 1 : ℤ) : ℚ) ≤ 90 := by
    have : ((2 * lvl + 1 : ℤ) : ℚ) ≤ 45 := by exact_mod_cast (show 2 * lvl + 1 ≤ 45 by omega)
    have h3 : (0 : ℚ) ≤ ((2 * lvl + 1 : ℤ) : ℚ) := by exact_mod_cast (show (0 : ℤ) ≤ 2 * lvl + 1 by omega)
    nlinarith
  have b0 := r64_nonneg hp
  have b1 : r64 (r * ((2 * lvl + 1 : ℤ) : ℚ)) ≤ 90 := r64_le ⟨90, 0, by norm_num, by norm_num⟩ hq
  have hti := toInt_lt (n := 91) b0 (lt_of_le_of_lt b1 (by norm_num))
  have hnum : 0 < diskNum lvl := by unfold diskNum; nlinarith
  unfold diskPixel64
  dsimp only [Option.map_some]
  rw [hw, r64_int (by rw [abs_lt]; omega)]
  have hi : int64 (some (r64 (r * ((2 * lvl + 1 : ℤ) : ℚ)))) = toInt (r64 (r * ((2 * lvl + 1 : ℤ) : ℚ))) := rfl
  rw [hi]
  set k := toInt (r64 (r * ((2 * lvl + 1 : ℤ) : ℚ)))
  by_cases hk : k = 0
  · rw [if_pos hk]
    exact ⟨le_rfl, hnum⟩
  rw [if_neg hk, wrap64_small (x := k + 1) (by omega) (by omega)]
  set ir := if Int.tdiv (k + 1) 2 ≥ lvl then lvl else Int.tdiv (k + 1) 2 with hir
  have hir1 : 1 ≤ ir ∧ ir ≤ lvl := by
    have : Int.tdiv (k + 1) 2 = (k + 1) / 2 := Int.tdiv_eq_ediv_of_nonneg (by omega)
    rw [hir, this]
    split <;> omega
  obtain ⟨q0, q1⟩ := ring_index ir hir1.1 (by omega) phi h0 h
  have hith := toInt_lt q0 q1
  rw [disk_ring ir hir1.1 (by omega) phi _ rfl hith.1 hith.2.le]
  refine ⟨by nlinarith [mul_self_nonneg (2 * ir - 1), hith.1], ?_⟩
  unfold diskNum
  nlinarith [hith.2]

/-- C113, in range: at the pixel levels 2 to 23, every particle with a polar angle is counted in a pixel of its hemisphere. -/
theorem C113_range_partial (T : Trig) (hT : T.Good) (dx dy dz : ℚ) (lvl : ℤ) (h2 : 2 ≤ lvl) (h23 : lvl ≤ 23) (th : ℚ) (hth : theta64 T dx dy dz = some th) :
    if th > pi64 / 2 then 0 ≤ pixel64 T dx dy dz lvl ∧ pixel64 T dx dy dz lvl < diskNum (lvl - 1)
    else diskNum (lvl - 1) ≤ pixel64 T dx dy dz lvl ∧ pixel64 T dx dy dz lvl < sphereNum lvl := by
  have hp := pi64_pos
  obtain ⟨p0, p1⟩ := phi64_range T hT dx dy
  have hthr : 0 ≤ th ∧ th ≤ pi64 := by
    unfold theta64 at hth
    cases hs : sqrt64 (r2_32 dx dy dz) with
    | none => rw [hs] at hth; cases hth
    | some r =>
      rw [hs, Option.bind_some] at hth
      by_cases hc : r64 (dz / r) < -1 ∨ r64 (dz / r) > 1
      · rw [if_pos hc] at hth; cases hth
      · rw [if_neg hc] at hth
        injection hth with hth
        push Not at hc
        rw [← hth]
        exact hT.acos _ hc.1 hc.2
  have hc4 := hT.cosPi4
  have rad : ∀ x, 0 ≤ x → x ≤ pi64 / 2 → 0 ≤ r64 (T.cos x / cosPi4_64 T) ∧ r64 (T.cos x / cosPi4_64 T) ≤ 2 := by
    intro x hx0 hx1
    obtain ⟨c0, c1⟩ := hT.cos x hx0 hx1
    have hc : 1 / 2 ≤ cosPi4_64 T := hc4
    have hcp : 0 < cosPi4_64 T := by linarith
    refine ⟨r64_nonneg (div_nonneg c0 hcp.le), r64_le ⟨2, 0, by norm_num, by norm_num⟩ ?_⟩
    rw [div_le_iff₀ hcp]
    linarith
  have fp : Float64 pi64 := ⟨884279719003555, -48, by norm_num, by unfold pi64; norm_num⟩
  have hpix : pixel64 T dx dy dz lvl = if th > pi64 / 2 then diskPixel64 (some (r64 (T.cos (th / 2) / cosPi4_64 T))) (phi64 T dx dy) (lvl - 1)
      else diskNum (lvl - 1) + diskPixel64 (some (r64 (T.cos (r64 (pi64 - th) / 2) / cosPi4_64 T))) (phi64 T dx dy) (lvl - 1) := by
    unfold pixel64 spherePixel64
    rw [hth, if_neg (by omega)]
  rw [hpix]
  by_cases hs : th > pi64 / 2
  · rw [if_pos hs, if_pos hs]
    obtain ⟨r0, r1⟩ := rad (th / 2) (by linarith) (by linarith)
    exact disk_range _ _ _ r0 r1 p0 p1 (by omega) (by omega)
  · rw [if_neg hs, if_neg hs]
    have e0 : 0 ≤ r64 (pi64 - th) := r64_nonneg (by linarith)
    have e1 : r64 (pi64 - th) ≤ pi64 := r64_le fp (by linarith)
    obtain ⟨r0, r1⟩ := rad (r64 (pi64 - th) / 2) (by linarith) (by linarith)
    obtain ⟨d0, d1⟩ := disk_range _ _ _ r0 r1 p0 p1 (show 1 ≤ lvl - 1 by omega) (by omega)
    unfold sphereNum
    rw [if_neg (by omega)]
    constructor <;> linarith

/-- C113, NaN: when rounding makes the cosine of the polar angle larger than 1 or less than -1, the particle is counted in the first ring around the north pole, also if it is near the south pole; at the
first pixel level the program panics. -/
theorem C113_nan_false (T : Trig) (hT : T.Good) (dx dy dz : ℚ) (lvl : ℤ) (hl : 1 ≤ lvl) (hth : theta64 T dx dy dz = none) :
    (∃ j : ℤ, 1 ≤ j ∧ j ≤ 8 ∧ pixel64 T dx dy dz lvl = diskNum (lvl - 1) + j) ∧
      (lvl = 1 → ∀ (row : List ℚ) (m : ℚ), row.length = sphereNum 1 → addPixel row (pixel64 T dx dy dz 1) m = none) := by
  obtain ⟨p0, p1⟩ := phi64_range T hT dx dy
  have key : ∀ l : ℤ, 1 ≤ l → ∃ j : ℤ, 1 ≤ j ∧ j ≤ 8 ∧ pixel64 T dx dy dz l = diskNum (l - 1) + j := by
    intro l hl
    obtain ⟨_, g1, g2⟩ := C113_nan_disk (phi64 T dx dy) p0 p1 (l - 1) (by omega)
    refine ⟨_, g1, g2, ?_⟩
    unfold pixel64 spherePixel64
    rw [hth, if_neg (by omega)]
  refine ⟨key lvl hl, ?_⟩
  rintro rfl row m hrow
  obtain ⟨j, j1, _, e⟩ := key 1 le_rfl
  unfold addPixel addAtR
  rw [if_neg]
  rw [e, hrow]
  unfold sphereNum diskNum
  norm_num
  omega

theorem pole_nan (T : Trig) (z : ℚ) (hz : z = 1 + 1 / 2 ^ 13 ∨ z = -(1 + 1 / 2 ^ 13)) : theta64 T 0 0 z = none := by
  have hzz : z * z = 1 + 1 / 2 ^ 12 + 1 / 2 ^ 26 := by rcases hz with rfl | rfl <;> norm_num
  have hr2 : r2_32 0 0 z = 1 + 1 / 2 ^ 12 := by
    have z0 : r32 0 = 0 := rn_zero 24
    have h1 : r32 (1 + 1 / 2 ^ 12 + 1 / 2 ^ 26) = 1 + 1 / 2 ^ 12 := by
      unfold r32
      rw [rn_eq 0 (2 ^ 23 + 2 ^ 11) (by norm_num [abs_of_pos]) (by norm_num [abs_of_pos]) (by rw [abs_lt]; norm_num)]
      norm_num
    have h2 : r32 (1 + 1 / 2 ^ 12) = 1 + 1 / 2 ^ 12 := r32_float ⟨2 ^ 12 + 1, -12, by norm_num, by norm_num⟩
    unfold r2_32
    rw [hzz, mul_zero, z0, add_zero, z0, zero_add, h1, h2]
  have hs : sqrt64 (r2_32 0 0 z) = some (rnReal (Real.sqrt ((1 + 1 / 2 ^ 12 : ℚ) : ℝ))) := by
    rw [hr2]
    unfold sqrt64
    rw [if_neg (by norm_num)]
  rw [theta64_nan T 0 0 z _ hs]
  have hb := rnReal_bounds (Real.sqrt_nonneg ((1 + 1 / 2 ^ 12 : ℚ) : ℝ))
  have hsq : Real.sqrt ((1 + 1 / 2 ^ 12 : ℚ) : ℝ) ≤ 1 + 1 / 2 ^ 13 - 1 / 2 ^ 28 := by
    rw [Real.sqrt_le_left (by norm_num)]
    push_cast
    norm_num
  have hsq1 : 1 ≤ Real.sqrt ((1 + 1 / 2 ^ 12 : ℚ) : ℝ) := by
    rw [Real.le_sqrt' (by norm_num)]
    push_cast
    norm_num
  set s := rnReal (Real.sqrt ((1 + 1 / 2 ^ 12 : ℚ) : ℝ))
  have h1 : s ≤ 1 + 1 / 2 ^ 13 - 1 / 2 ^ 29 := by
    have : (s : ℝ) ≤ ((1 + 1 / 2 ^ 13 - 1 / 2 ^ 29 : ℚ) : ℝ) := by
      push_cast
      nlinarith [hb.2]
    exact_mod_cast this
  have h0 : 1 / 2 ≤ s := by
    have : ((1 / 2 : ℚ) : ℝ) ≤ (s : ℝ) := by
      push_cast
      nlinarith [hb.1]
    exact_mod_cast this
  have hsp : 0 < s := by linarith
  have big : 1 + 1 / 2 ^ 30 ≤ (1 + 1 / 2 ^ 13) / s := by
    rw [le_div_iff₀ hsp]
    nlinarith
  have f : Float64 (1 + 1 / 2 ^ 30 : ℚ) := ⟨2 ^ 30 + 1, -30, by norm_num, by norm_num⟩
  have fn : Float64 (-(1 + 1 / 2 ^ 30) : ℚ) := ⟨-(2 ^ 30 + 1), -30, by norm_num, by norm_num⟩
  rcases hz with rfl | rfl
  · have := le_r64 f big
    rw [lt_abs]
    left
    linarith
  · have : r64 (-(1 + 1 / 2 ^ 13) / s) ≤ -(1 + 1 / 2 ^ 30) := r64_le fn (by rw [neg_div]; linarith)
    rw [lt_abs]
    right
    linarith

theorem real_pole (z : ℝ) (hz : z ≠ 0) (lvl : ℤ) (hl : 1 ≤ lvl) : Geom.pixelOf ⟨0, 0, z⟩ lvl = if z < 0 then 0 else Geom.diskPixelNum (lvl - 1) := by
  have hphi : Geom.goMod (Geom.atan2 0 0 + Real.pi * 2) (Real.pi * 2) = 0 := by
    have hp : Real.pi * 2 ≠ 0 := by have := Real.pi_pos; positivity
    have : Geom.atan2 0 0 = 0 := Complex.arg_zero
    unfold Geom.goMod
    rw [this, zero_add, div_self hp, Int.floor_one]
    simp
  have hsq : Real.sqrt (0 * 0 + 0 * 0 + z * z) = |z| := by
    rw [mul_zero, zero_add, zero_add, ← Real.sqrt_sq_eq_abs, sq]
  have disk0 : ∀ l : ℤ, Geom.diskPixel 0 0 l = 0 := by
    intro l
    unfold Geom.diskPixel
    rw [zero_mul]
    have : Los.goInt (0 : ℝ) = 0 := by rw [Geom.goInt_nonneg le_rfl, Int.floor_zero]
    simp [this]
  unfold Geom.pixelOf
  dsimp only
  rw [hphi, hsq]
  unfold Geom.spherePixel
  rw [if_neg (by omega)]
  by_cases h : z < 0
  · have : z / |z| = -1 := by rw [abs_of_neg h, div_neg, div_self hz]
    rw [this, Real.arccos_neg_one, if_pos (by have := Real.pi_pos; linarith), Real.cos_pi_div_two, zero_div, disk0, if_pos h]
  · have hpos : 0 < z := lt_of_le_of_ne (not_lt.mp h) (Ne.symm hz)
    have : z / |z| = 1 := by rw [abs_of_pos hpos, div_self hz]
    rw [this, Real.arccos_one, if_neg (by have := Real.pi_pos; simp; linarith), sub_zero, Real.cos_pi_div_two, zero_div, disk0, if_neg h, add_zero]

/-- C113 is false near the poles: a particle straight above or below the halo at a distance of 1 + 2^-13 is counted in the second pixel of the northern hemisphere, although it belongs to the first one of
its own hemisphere (the pixel of exact arithmetic: 0 in the south, `DiskPixelNum(lvl-1)` in the north). -/
theorem C113_pole_false (T : Trig) (h00 : T.atan2 0 0 = 0) (z : ℚ) (hz : z = 1 + 1 / 2 ^ 13 ∨ z = -(1 + 1 / 2 ^ 13)) (lvl : ℤ) (hl : 1 ≤ lvl) :
    Float32 z ∧ pixel64 T 0 0 z lvl = diskNum (lvl - 1) + 1 ∧ Geom.pixelOf ⟨0, 0, (z : ℝ)⟩ lvl = if z < 0 then 0 else diskNum (lvl - 1) := by
  have hz0 : z ≠ 0 := by rcases hz with rfl | rfl <;> norm_num
  refine ⟨?_, ?_, ?_⟩
  · rcases hz with rfl | rfl
    · exact ⟨2 ^ 13 + 1, -13, by norm_num, by norm_num⟩
    · exact ⟨-(2 ^ 13 + 1), -13, by norm_num, by norm_num⟩
  · have hphi : phi64 T 0 0 = 0 := by
      have f2 : r64 (pi64 * 2) = pi64 * 2 := by rw [mul_comm]; exact r64_float float_twoPi
      have hp : pi64 * 2 ≠ 0 := by have := pi64_pos; positivity
      unfold phi64
      dsimp only
      rw [h00, zero_add, f2, div_self hp, Int.floor_one]
      simp
    have hb : (0 : ℚ) ≤ belowTurn := by unfold belowTurn pi64; norm_num
    have hd := (C113_nan_disk 0 le_rfl hb (lvl - 1) (by omega)).1
    unfold pixel64 spherePixel64
    rw [pole_nan T z hz, hphi, if_neg (by omega)]
    dsimp only
    have z0 : r64 0 = 0 := rn_zero 53
    rw [hd, mul_zero, z0, zero_div, z0, Int.floor_zero, add_zero]
  · rw [real_pole (z : ℝ) (by exact_mod_cast hz0) lvl hl]
    by_cases h : z < 0
    · rw [if_pos h, if_pos (by exact_mod_cast h)]
    · rw [if_neg h, if_neg (by exact_mod_cast h)]
      rfl

/-- C113 is false at the pixel level 24: a particle on the equator of the halo, just below the half plane of azimuth 0, gets a pixel index that is one too large, and the program panics. -/
theorem C113_level_false (T : Trig) (ha : T.acos 0 = pi64 / 2) (hc : 0 < T.cos (pi64 / 4)) (hat : -(3 / 2) / 2 ^ 50 < T.atan2 (-1 / 2 ^ 50) 1 ∧ T.atan2 (-1 / 2 ^ 50) 1 < -(1 / 2) / 2 ^ 50) :
    pixel64 T 1 (-1 / 2 ^ 50) 0 24 = sphereNum 24 ∧ ∀ (row : List ℚ) (m : ℚ), row.length = sphereNum 24 → addPixel row (pixel64 T 1 (-1 / 2 ^ 50) 0 24) m = none := by
  have hphi : phi64 T 1 (-1 / 2 ^ 50) = belowTurn := by
    have h1 : r64 (T.atan2 (-1 / 2 ^ 50) 1 + pi64 * 2) = belowTurn := by
      obtain ⟨hat1, hat2⟩ := hat
      generalize T.atan2 (-1 / 2 ^ 50) 1 = a at hat1 hat2 ⊢
      have hlo : (4 : ℚ) ≤ a + pi64 * 2 := by
        have : (5 : ℚ) ≤ pi64 * 2 := by unfold pi64; norm_num
        linarith [hat1]
      have hhi : a + pi64 * 2 < 8 := by
        have : pi64 * 2 ≤ (7 : ℚ) := by unfold pi64; norm_num
        linarith [hat2]
      unfold r64
      rw [rn_eq 2 7074237752028439 (by rw [abs_of_pos (by linarith)]; norm_num; exact hlo) (by rw [abs_of_pos (by linarith)]; norm_num; exact hhi) (by
        have e : pi64 * 2 = 7074237752028440 / 2 ^ 50 := by unfold pi64; norm_num
        rw [e, abs_lt]
        norm_num
        constructor <;> linarith [hat1, hat2])]
      unfold belowTurn pi64
      norm_num
    unfold phi64
    dsimp only
    rw [h1]
    have : ⌊belowTurn / (pi64 * 2)⌋ = 0 := by
      rw [Int.floor_eq_zero_iff]
      constructor
      · unfold belowTurn pi64; norm_num
      · show belowTurn / (pi64 * 2) < 1
        unfold belowTurn pi64; norm_num
    rw [this]
    simp
  have hr2 : ∃ r, sqrt64 (r2_32 1 (-1 / 2 ^ 50) 0) = some r := by
    unfold sqrt64
    rw [if_neg]
    · exact ⟨_, rfl⟩
    · rw [not_lt]
      unfold r2_32
      refine r32_nonneg (add_nonneg (r32_nonneg (add_nonneg (r32_nonneg (mul_self_nonneg _)) (r32_nonneg (mul_self_nonneg _)))) (r32_nonneg (mul_self_nonneg _)))
  have hth : theta64 T 1 (-1 / 2 ^ 50) 0 = some (pi64 / 2) := by
    obtain ⟨r, hr⟩ := hr2
    unfold theta64
    have z0 : r64 0 = 0 := rn_zero 53
    rw [hr, Option.bind_some, zero_div, z0, if_neg (by norm_num), ha]
  have key : pixel64 T 1 (-1 / 2 ^ 50) 0 24 = sphereNum 24 := by
    unfold pixel64 spherePixel64
    rw [hth, hphi, if_neg (by norm_num)]
    dsimp only
    rw [if_neg (lt_irrefl _)]
    have f1 : r64 (pi64 - pi64 / 2) / 2 = pi64 / 4 := by
      rw [r64_float ⟨884279719003555, -49, by norm_num, by unfold pi64; norm_num⟩]
      ring
    have e1 : r64 1 = 1 := r64_float ⟨1, 0, by norm_num, by norm_num⟩
    have e2 : T.cos (pi64 / 4) / cosPi4_64 T = 1 := div_self hc.ne'
    rw [f1, e2, e1]
    have hq : toInt (r64 (r64 (((8 * 23 : ℤ) : ℚ) * belowTurn) / (2 * pi64))) = 184 := by
      have hA : r64 (((8 * 23 : ℤ) : ℚ) * belowTurn) = 5084608384270441 / 2 ^ 42 := by
        unfold r64 belowTurn pi64
        rw [rn_eq 10 5084608384270441 (by norm_num [abs_of_pos]) (by norm_num [abs_of_pos]) (by rw [abs_lt]; norm_num)]
        norm_num
      have hQ : r64 (5084608384270441 / 2 ^ 42 / (2 * pi64)) = 184 := by
        unfold r64 pi64
        rw [rn_eq 7 6473924464345088 (by norm_num [abs_of_pos]) (by norm_num [abs_of_pos]) (by rw [abs_lt]; norm_num)]
        norm_num
      rw [hA, hQ, toInt_nonneg (by norm_num)]
      norm_num
    have hd : diskPixel64 (some 1) belowTurn (24 - 1) = 2209 := by
      unfold diskPixel64
      dsimp only [Option.map_some]
      have w : wrap64 (2 * (24 - 1) + 1) = 47 := by decide +kernel
      have i1 : int64 (some (r64 (1 * r64 ((47 : ℤ) : ℚ)))) = 47 := by
        rw [r64_int (by norm_num), one_mul, r64_int (by norm_num)]
        show toInt ((47 : ℤ) : ℚ) = 47
        exact toInt_int 47
      rw [w, i1, if_neg (by norm_num)]
      have w2 : (if Int.tdiv (wrap64 (47 + 1)) 2 ≥ 24 - 1 then (24 - 1 : ℤ) else Int.tdiv (wrap64 (47 + 1)) 2) = 23 := by decide +kernel
      rw [w2, disk_ring 23 (by norm_num) (by norm_num) belowTurn 184 hq (by norm_num) (by norm_num)]
      norm_num
    rw [hd]
    decide +kernel
  refine ⟨key, fun row m hrow => ?_⟩
  unfold addPixel addAtR
  rw [key, if_neg]
  rw [hrow]
  exact fun h => lt_irrefl _ h.2

/-! ### The hypotheses are met by the correctly rounded functions -/

theorem rnReal_eq {x : ℝ} (k z : ℤ) (h1 : (2 : ℝ) ^ k ≤ |x|) (h2 : |x| < 2 ^ (k + 1)) (h3 : |x / 2 ^ (k - 52) - z| < 1 / 2) : rnReal x = z * 2 ^ (k - 52) := by
  have hpos : 0 < |x| := lt_of_lt_of_le (by positivity) h1
  have hlog : Int.log 2 |x| = k := by
    apply le_antisymm
    · have := (Int.lt_zpow_iff_log_lt (b := 2) (by norm_num) hpos (x := k + 1)).mp (by push_cast; exact h2)
      omega
    · exact (Int.zpow_le_iff_le_log (b := 2) (by norm_num) hpos).mp (by push_cast; exact h1)
  have hr : round (x / 2 ^ (k - 52)) = z := by
    rw [round_eq, Int.floor_eq_iff]
    rw [abs_lt] at h3
    constructor <;> linarith [h3.1, h3.2]
  unfold rnReal
  rw [hlog, hr]

theorem rnReal_pi : rnReal Real.pi = pi64 := by
  have h1 := Real.pi_gt_d20
  have h2 := Real.pi_lt_d20
  rw [rnReal_eq 1 7074237752028440 (by rw [abs_of_pos Real.pi_pos]; norm_num; linarith) (by rw [abs_of_pos Real.pi_pos]; norm_num; linarith) (by rw [abs_lt]; norm_num at h1 h2 ⊢; constructor <;> linarith)]
  unfold pi64
  norm_num

theorem rnReal_neg_pi : rnReal (-Real.pi) = -pi64 := by
  have h1 := Real.pi_gt_d20
  have h2 := Real.pi_lt_d20
  rw [rnReal_eq 1 (-7074237752028440) (by rw [abs_neg, abs_of_pos Real.pi_pos]; norm_num; linarith) (by rw [abs_neg, abs_of_pos Real.pi_pos]; norm_num; linarith)
    (by rw [abs_lt]; norm_num at h1 h2 ⊢; constructor <;> linarith)]
  unfold pi64
  norm_num

theorem rnReal_half_pi : rnReal (Real.pi / 2) = pi64 / 2 := by
  have h1 := Real.pi_gt_d20
  have h2 := Real.pi_lt_d20
  have hp : 0 < Real.pi / 2 := by have := Real.pi_pos; linarith
  rw [rnReal_eq 0 7074237752028440 (by rw [abs_of_pos hp]; norm_num; linarith) (by rw [abs_of_pos hp]; norm_num; linarith) (by rw [abs_lt]; norm_num at h1 h2 ⊢; constructor <;> linarith)]
  unfold pi64
  norm_num

theorem rnReal_one : rnReal 1 = 1 := by
  rw [rnReal_eq 0 (2 ^ 52) (by norm_num) (by norm_num) (by norm_num)]
  norm_num

theorem pi64_lt_pi : (pi64 : ℝ) < Real.pi := by
  have h1 := Real.pi_gt_d20
  have : ((pi64 : ℚ) : ℝ) = 884279719003555 / 2 ^ 48 := by unfold pi64; push_cast; rfl
  rw [this]
  norm_num at h1 ⊢
  linarith

/-- The correctly rounded functions. -/
noncomputable def roundedTrig : Trig where
  atan2 y x := rnReal (Geom.atan2 (y : ℝ) (x : ℝ))
  acos x := rnReal (Real.arccos x)
  cos x := rnReal (Real.cos x)

theorem roundedTrig_good : roundedTrig.Good where
  atan2 y x := by
    have a1 : -Real.pi < Geom.atan2 (y : ℝ) (x : ℝ) := Complex.neg_pi_lt_arg _
    have a2 : Geom.atan2 (y : ℝ) (x : ℝ) ≤ Real.pi := Complex.arg_le_pi _
    show -pi64 ≤ rnReal (Geom.atan2 (y : ℝ) (x : ℝ)) ∧ rnReal (Geom.atan2 (y : ℝ) (x : ℝ)) ≤ pi64
    generalize Geom.atan2 (y : ℝ) (x : ℝ) = a at a1 a2 ⊢
    have hp := pi64_pos
    rcases le_or_gt 0 a with h | h
    · have h1 := rnReal_mono h a2
      have h2 := rnReal_mono le_rfl h
      rw [rnReal_pi] at h1
      rw [rnReal_zero] at h2
      exact ⟨by linarith, h1⟩
    · have herr := rnReal_error a
      rw [abs_of_neg h, abs_le] at herr
      have hup : rnReal a ≤ pi64 := by
        have h1 : ((rnReal a : ℚ) : ℝ) ≤ 0 := by nlinarith [herr.2]
        have h2 : rnReal a ≤ 0 := by exact_mod_cast h1
        linarith
      refine ⟨?_, hup⟩
      rcases le_or_gt (-3) a with h3 | h3
      · have h1 : ((-pi64 : ℚ) : ℝ) ≤ ((rnReal a : ℚ) : ℝ) := by
          have : ((-pi64 : ℚ) : ℝ) ≤ -(31 / 10) := by unfold pi64; push_cast; norm_num
          nlinarith [herr.1]
        exact_mod_cast h1
      · have l2 : Int.log 2 |a| = Int.log 2 |(-Real.pi)| := by
          have key : ∀ b : ℝ, 3 ≤ |b| → |b| < 4 → Int.log 2 |b| = 1 := by
            intro b b1 b2
            have hb : 0 < |b| := by linarith
            apply le_antisymm
            · have := (Int.lt_zpow_iff_log_lt (b := 2) (by norm_num) hb (x := 2)).mp (by norm_num; linarith)
              omega
            · exact (Int.zpow_le_iff_le_log (b := 2) (by norm_num) hb).mp (by norm_num; linarith)
          rw [key a (by rw [abs_of_neg h]; linarith) (by rw [abs_of_neg h]; linarith [Real.pi_lt_d2]), key (-Real.pi) (by rw [abs_neg, abs_of_pos Real.pi_pos]; exact Real.pi_gt_three.le)
            (by rw [abs_neg, abs_of_pos Real.pi_pos]; linarith [Real.pi_lt_d2])]
        rw [← rnReal_neg_pi]
        unfold rnReal
        rw [l2]
        refine mul_le_mul_of_nonneg_right ?_ (by positivity)
        have : round (-Real.pi / 2 ^ (Int.log 2 |(-Real.pi)| - 52)) ≤ round (a / 2 ^ (Int.log 2 |(-Real.pi)| - 52)) := by
          rw [round_eq, round_eq]
          apply Int.floor_mono
          have := div_le_div_of_nonneg_right a1.le (show (0 : ℝ) ≤ 2 ^ (Int.log 2 |(-Real.pi)| - 52) by positivity)
          linarith
        exact_mod_cast this
  acos x _ _ := by
    show 0 ≤ rnReal _ ∧ rnReal _ ≤ pi64
    have h1 := rnReal_mono le_rfl (Real.arccos_nonneg x)
    have h2 := rnReal_mono (Real.arccos_nonneg x) (Real.arccos_le_pi x)
    rw [rnReal_zero] at h1
    rw [rnReal_pi] at h2
    exact ⟨h1, h2⟩
  cos x h0 h1 := by
    have hx0 : (0 : ℝ) ≤ x := by exact_mod_cast h0
    have hx1 : (x : ℝ) ≤ Real.pi / 2 := by
      have : (x : ℝ) ≤ ((pi64 / 2 : ℚ) : ℝ) := by exact_mod_cast h1
      push_cast at this
      linarith [pi64_lt_pi]
    have hc : 0 ≤ Real.cos x := Real.cos_nonneg_of_mem_Icc ⟨by linarith, hx1⟩
    show 0 ≤ rnReal _ ∧ rnReal _ ≤ 1
    have g1 := rnReal_mono le_rfl hc
    have g2 := rnReal_mono hc (Real.cos_le_one x)
    rw [rnReal_zero] at g1
    rw [rnReal_one] at g2
    exact ⟨g1, g2⟩
  cosPi4 := by
    show 1 / 2 ≤ rnReal _
    have hp : (0 : ℝ) < pi64 := by exact_mod_cast pi64_pos
    have e : (((pi64 / 4 : ℚ)) : ℝ) = (pi64 : ℝ) / 4 := by push_cast; ring
    have h1 : Real.cos (Real.pi / 4) ≤ Real.cos (((pi64 / 4 : ℚ)) : ℝ) := by
      rw [e]
      exact Real.cos_le_cos_of_nonneg_of_le_pi (by linarith) (by linarith [Real.pi_pos]) (by linarith [pi64_lt_pi])
    have h2 : 7 / 10 ≤ Real.cos (Real.pi / 4) := by
      rw [Real.cos_pi_div_four]
      have : (14 / 10 : ℝ) ≤ Real.sqrt 2 := by rw [Real.le_sqrt' (by norm_num)]; norm_num
      linarith
    have h3 := (rnReal_bounds (show 0 ≤ Real.cos (((pi64 / 4 : ℚ)) : ℝ) by linarith)).1
    have h4 : ((1 / 2 : ℚ) : ℝ) ≤ ((rnReal (Real.cos (((pi64 / 4 : ℚ)) : ℝ)) : ℚ) : ℝ) := by
      have h5 : (((1 / 2 : ℚ)) : ℝ) = 1 / 2 := by norm_num
      rw [h5]
      nlinarith
    exact_mod_cast h4

/-- The hypotheses of `C113_range_partial`: a particle in the direction of the first axis. -/
example : roundedTrig.Good ∧ theta64 roundedTrig 1 0 0 = some (pi64 / 2) := by
  refine ⟨roundedTrig_good, ?_⟩
  have z0 : r64 0 = 0 := rn_zero 53
  have hs : ∃ r, sqrt64 (r2_32 1 0 0) = some r := by
    unfold sqrt64
    rw [if_neg]
    · exact ⟨_, rfl⟩
    · rw [not_lt]
      exact r32_nonneg (add_nonneg (r32_nonneg (add_nonneg (r32_nonneg (mul_self_nonneg _)) (r32_nonneg (mul_self_nonneg _)))) (r32_nonneg (mul_self_nonneg _)))
  obtain ⟨r, hr⟩ := hs
  unfold theta64
  rw [hr, Option.bind_some, zero_div, z0, if_neg (by norm_num)]
  show some (rnReal (Real.arccos ((0 : ℚ) : ℝ))) = _
  rw [Rat.cast_zero, Real.arccos_zero, rnReal_half_pi]

/-- The hypotheses of `C113_nan_false` and `C113_pole_false`. -/
example : roundedTrig.Good ∧ theta64 roundedTrig 0 0 (1 + 1 / 2 ^ 13) = none ∧ roundedTrig.atan2 0 0 = 0 := by
  refine ⟨roundedTrig_good, pole_nan _ _ (Or.inl rfl), ?_⟩
  show rnReal (Geom.atan2 ((0 : ℚ) : ℝ) ((0 : ℚ) : ℝ)) = 0
  rw [Rat.cast_zero]
  have : Geom.atan2 0 0 = 0 := Complex.arg_zero
  rw [this, rnReal_zero]

/-- The hypotheses of `C113_level_false`. -/
example : roundedTrig.acos 0 = pi64 / 2 ∧ 0 < roundedTrig.cos (pi64 / 4) ∧
    -(3 / 2) / 2 ^ 50 < roundedTrig.atan2 (-1 / 2 ^ 50) 1 ∧ roundedTrig.atan2 (-1 / 2 ^ 50) 1 < -(1 / 2) / 2 ^ 50 := by
  refine ⟨?_, lt_of_lt_of_le (by norm_num) roundedTrig_good.cosPi4, ?_⟩
  · show rnReal (Real.arccos ((0 : ℚ) : ℝ)) = _
    rw [Rat.cast_zero, Real.arccos_zero, rnReal_half_pi]
  · show _ < rnReal (Complex.arg ⟨((1 : ℚ) : ℝ), ((-1 / 2 ^ 50 : ℚ) : ℝ)⟩) ∧ rnReal (Complex.arg ⟨((1 : ℚ) : ℝ), ((-1 / 2 ^ 50 : ℚ) : ℝ)⟩) < _
    have earg : Complex.arg ⟨((1 : ℚ) : ℝ), ((-1 / 2 ^ 50 : ℚ) : ℝ)⟩ = -Real.arctan (1 / 2 ^ 50) := by
      rw [Complex.arg_of_re_nonneg (by show (0 : ℝ) ≤ ((1 : ℚ) : ℝ); norm_num), Real.arctan_eq_arcsin, ← Real.arcsin_neg]
      congr 1
      rw [Complex.norm_def, Complex.normSq_mk]
      push_cast
      norm_num [neg_div]
    rw [earg]
    have t0 : (0 : ℝ) < 1 / 2 ^ 50 := by norm_num
    have a0 : 0 < Real.arctan (1 / 2 ^ 50) := Real.arctan_pos.mpr t0
    have a2 : Real.arctan (1 / 2 ^ 50) < Real.pi / 2 := Real.arctan_lt_pi_div_two _
    have hlt : Real.arctan (1 / 2 ^ 50) ≤ 1 / 2 ^ 50 := by
      have := Real.le_tan a0.le a2
      rwa [Real.tan_arctan] at this
    have hge : 9 / 10 * (1 / 2 ^ 50) ≤ Real.arctan (1 / 2 ^ 50) := by
      have hs : Real.sin (Real.arctan (1 / 2 ^ 50)) ≤ Real.arctan (1 / 2 ^ 50) := Real.sin_le a0.le
      rw [Real.sin_arctan] at hs
      refine le_trans ?_ hs
      rw [le_div_iff₀ (Real.sqrt_pos.mpr (by norm_num))]
      have : Real.sqrt (1 + (1 / 2 ^ 50) ^ 2) ≤ 11 / 10 := by
        rw [Real.sqrt_le_left (by norm_num)]
        norm_num
      nlinarith
    have herr := rnReal_error (-Real.arctan (1 / 2 ^ 50))
    rw [abs_neg, abs_of_pos a0, abs_le] at herr
    constructor
    · have : ((-(3 / 2) / 2 ^ 50 : ℚ) : ℝ) < ((rnReal (-Real.arctan (1 / 2 ^ 50)) : ℚ) : ℝ) := by
        push_cast
        nlinarith [herr.1]
      exact_mod_cast this
    · have : ((rnReal (-Real.arctan (1 / 2 ^ 50)) : ℚ) : ℝ) < ((-(1 / 2) / 2 ^ 50 : ℚ) : ℝ) := by
        push_cast
        nlinarith [herr.2]
      exact_mod_cast this

end Shellfish.Round
