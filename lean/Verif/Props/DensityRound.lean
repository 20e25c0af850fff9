/-
C126: the densities of the prof and phase modes in machine arithmetic.
-/
import Verif.Model.DensityRound
import Verif.Props.BinRound
import Verif.Props.LosOuter

namespace Shellfish.Round

/-! ### Specification -/

/-- `math.Exp` is accurate to four units in the last place. -/
def ExpOk (ex : ℚ → ℚ) : Prop := ∀ x : ℚ, |x| ≤ 100 → |(ex x : ℝ) - Real.exp x| ≤ Real.exp x / 2 ^ 50

/-- The volume of the shell between two radii. -/
noncomputable def shellVol (lo hi : ℝ) : ℝ := 4 * Real.pi / 3 * (hi ^ 3 - lo ^ 3)

/-- The edges of the `n` bins between two radii, equally spaced in the logarithm (`t` = 0 is the inner limit, `t = n` the outer one). -/
noncomputable def logEdge (lo hi : ℝ) (n : ℕ) (t : ℝ) : ℝ := Real.exp (Real.log lo + t * ((Real.log hi - Real.log lo) / n))

/-! ### Volumes -/

theorem rel_round {x : ℚ} {y e : ℝ} (hy : 0 ≤ y) (he : 0 ≤ e) (he1 : e ≤ 1) (h : |(x : ℝ) - y| ≤ y * e) : |(r64 x : ℝ) - y| ≤ y * (e + 1 / 2 ^ 52) := by
  have h1 := r64_errR x
  have h2 := abs_sub_abs_le_abs_sub (x : ℝ) y
  rw [abs_of_nonneg hy] at h2
  have h3 : y * e ≤ y * 1 := mul_le_mul_of_nonneg_left he1 hy
  have := abs_sub_le (r64 x : ℝ) (x : ℝ) y
  norm_num at h1 ⊢
  linarith

theorem rel_mul {x y a b e f : ℝ} (ha : 0 ≤ a) (hb : 0 ≤ b) (he : 0 ≤ e) (hf : 0 ≤ f) (h1 : |x - a| ≤ a * e) (h2 : |y - b| ≤ b * f) : |x * y - a * b| ≤ a * b * (e + f + e * f) := by
  have h : x * y - a * b = (x - a) * (y - b) + (x - a) * b + a * (y - b) := by ring
  rw [h]
  refine ((abs_add_le _ _).trans (add_le_add (abs_add_le _ _) le_rfl)).trans ?_
  rw [abs_mul, abs_mul, abs_mul, abs_of_nonneg ha, abs_of_nonneg hb]
  have p1 := mul_le_mul h1 h2 (abs_nonneg _) (mul_nonneg ha he)
  have p2 := mul_le_mul_of_nonneg_right h1 hb
  have p3 := mul_le_mul_of_nonneg_left h2 ha
  linarith

theorem cube64 {x : ℚ} {y e : ℝ} (hy : 0 ≤ y) (he : 1 / 2 ^ 50 ≤ e) (he1 : e ≤ 1 / 2 ^ 30) (h : |(x : ℝ) - y| ≤ y * e) : |(r64 (r64 (x * x) * x) : ℝ) - y ^ 3| ≤ y ^ 3 * (5 * e) := by
  have he0 : 0 ≤ e := le_trans (by positivity) he
  have s1 := rel_mul hy hy he0 he0 h h
  have s1' : |((x * x : ℚ) : ℝ) - y * y| ≤ y * y * (e + e + e * e) := by push_cast; exact s1
  have e2 : e * e ≤ e * (1 / 2 ^ 30) := mul_le_mul_of_nonneg_left he1 he0
  have e20 : 0 ≤ e * e := mul_nonneg he0 he0
  have s2 := rel_round (mul_nonneg hy hy) (by linarith) (by norm_num at e2 he1 ⊢; linarith) s1'
  have hE1 : e + e + e * e + 1 / 2 ^ 52 ≤ 5 / 2 * e := by norm_num at e2 he ⊢; linarith
  have s2' : |(r64 (x * x) : ℝ) - y * y| ≤ y * y * (5 / 2 * e) := s2.trans (mul_le_mul_of_nonneg_left hE1 (mul_nonneg hy hy))
  have s3 := rel_mul (mul_nonneg hy hy) hy (by linarith) he0 s2' h
  have s3' : |((r64 (x * x) * x : ℚ) : ℝ) - y * y * y| ≤ y * y * y * (5 / 2 * e + e + 5 / 2 * e * e) := by push_cast; exact s3
  have s4 := rel_round (mul_nonneg (mul_nonneg hy hy) hy) (by nlinarith) (by norm_num at e2 he1 ⊢; nlinarith) s3'
  rw [show y ^ 3 = y * y * y by ring]
  refine s4.trans (mul_le_mul_of_nonneg_left ?_ (mul_nonneg (mul_nonneg hy hy) hy))
  norm_num at e2 he ⊢
  nlinarith

/-- The volume of a shell whose radii are nearly known. -/
theorem shell_close {lo hi : ℚ} {l h K e : ℝ} (hl : 0 ≤ l) (hlh : l ≤ h) (hh : 0 < h) (he : 1 / 2 ^ 50 ≤ e) (he1 : e ≤ 1 / 2 ^ 30) (hK1 : 1 ≤ K) (hK : h ^ 3 ≤ K * (h ^ 3 - l ^ 3)) (hKe : K * e ≤ 1 / 2 ^ 10)
    (h1 : |(lo : ℝ) - l| ≤ l * e) (h2 : |(hi : ℝ) - h| ≤ h * e) : |(shell64 lo hi : ℝ) - shellVol l h| ≤ shellVol l h * (12 * (K * e)) := by
  have he0 : 0 ≤ e := le_trans (by positivity) he
  have hK0 : 0 ≤ K := by linarith
  have c1 := cube64 hl he he1 h1
  have c2 := cube64 hh.le he he1 h2
  have hc : l ^ 3 ≤ h ^ 3 := pow_le_pow_left₀ hl hlh 3
  have hh3 : 0 < h ^ 3 := pow_pos hh 3
  have hd0 : 0 < h ^ 3 - l ^ 3 := by
    by_contra hcon
    have := mul_nonpos_of_nonneg_of_nonpos hK0 (not_lt.mp hcon)
    linarith
  unfold shell64 shellVol
  generalize r64 (r64 (lo * lo) * lo) = A at *
  generalize r64 (r64 (hi * hi) * hi) = B at *
  have hKe' : e ≤ K * e := by nlinarith
  obtain ⟨d, hd⟩ : ∃ d, d = h ^ 3 - l ^ 3 := ⟨_, rfl⟩
  rw [← hd] at hK hd0 ⊢
  have k1 : h ^ 3 * e ≤ K * d * e := mul_le_mul_of_nonneg_right hK he0
  have k2 : l ^ 3 * e ≤ K * d * e := (mul_le_mul_of_nonneg_right hc he0).trans k1
  have b1 : |((B - A : ℚ) : ℝ) - d| ≤ d * (10 * (K * e)) := by
    push_cast
    rw [hd] at *
    rw [show (B : ℝ) - A - (h ^ 3 - l ^ 3) = (B - h ^ 3) - (A - l ^ 3) by ring]
    refine (abs_sub _ _).trans ?_
    nlinarith
  have hsmall : K * e * (K * e) ≤ 1 / 2 ^ 10 * (K * e) := mul_le_mul_of_nonneg_right hKe (by nlinarith)
  have b2 := rel_round hd0.le (by nlinarith) (by norm_num at hKe ⊢; linarith) b1
  generalize r64 (B - A) = C at *
  have b3 : |((C * 4 : ℚ) : ℝ) - d * 4| ≤ d * 4 * (10 * (K * e) + 1 / 2 ^ 52) := by
    push_cast
    rw [← sub_mul, abs_mul, abs_of_pos (by norm_num : (0 : ℝ) < 4)]
    linarith
  have hd4 : 0 ≤ d * 4 := by linarith
  have b4 := rel_round hd4 (by nlinarith) (by norm_num at hKe ⊢; linarith) b3
  generalize r64 (C * 4) = D at *
  have hpi : |(pi64 : ℝ) - Real.pi| ≤ Real.pi * (1 / 2 ^ 52) := by
    have := pi64_near
    have := Real.pi_gt_three
    rw [abs_le]
    norm_num at *
    constructor <;> linarith
  have b5 := rel_mul hd4 Real.pi_pos.le (by nlinarith) (by norm_num) b4 hpi
  have b5' : |((D * pi64 : ℚ) : ℝ) - d * 4 * Real.pi| ≤ d * 4 * Real.pi * (10 * (K * e) + 1 / 2 ^ 50) := by
    push_cast
    refine b5.trans (mul_le_mul_of_nonneg_left ?_ (mul_nonneg hd4 Real.pi_pos.le))
    norm_num at hKe ⊢
    linarith
  have hdp : 0 ≤ d * 4 * Real.pi := mul_nonneg hd4 Real.pi_pos.le
  have b6 := rel_round hdp (by nlinarith) (by norm_num at hKe ⊢; linarith) b5'
  generalize r64 (D * pi64) = E at *
  have b7 : |((E / 3 : ℚ) : ℝ) - d * 4 * Real.pi / 3| ≤ d * 4 * Real.pi / 3 * (10 * (K * e) + 1 / 2 ^ 50 + 1 / 2 ^ 52) := by
    push_cast
    rw [← sub_div, abs_div, abs_of_pos (by norm_num : (0 : ℝ) < 3), div_mul_eq_mul_div]
    exact div_le_div_of_nonneg_right b6 (by norm_num)
  have b8 := rel_round (div_nonneg hdp (by norm_num)) (by nlinarith) (by norm_num at hKe ⊢; linarith) b7
  rw [show 4 * Real.pi / 3 * d = d * 4 * Real.pi / 3 by ring]
  refine b8.trans (mul_le_mul_of_nonneg_left ?_ (div_nonneg hdp (by norm_num)))
  norm_num at he ⊢
  linarith

/-- The quotient of a mass and a volume that is nearly known. -/
theorem div_close {m v : ℚ} {V e : ℝ} (hm : 0 ≤ m) (hV : 0 < V) (he : 1 / 2 ^ 50 ≤ e) (he1 : e ≤ 1 / 2 ^ 5) (h : |(v : ℝ) - V| ≤ V * e) :
    0 < v ∧ ∃ d : ℚ, div64 m v = some d ∧ |(d : ℝ) * V - m| ≤ (m : ℝ) * (2 * e) := by
  have hmR : (0 : ℝ) ≤ m := by exact_mod_cast hm
  have hb := abs_le.mp h
  have he0 : 0 ≤ e := le_trans (by positivity) he
  have hve : V * e ≤ V * (1 / 2 ^ 5) := mul_le_mul_of_nonneg_left he1 hV.le
  have hvlo : V * (1 - 1 / 2 ^ 5) ≤ v := by linarith [hb.1]
  have hv : (0 : ℝ) < v := lt_of_lt_of_le (mul_pos hV (by norm_num)) hvlo
  have hvq : 0 < v := by exact_mod_cast hv
  refine ⟨hvq, r64 (m / v), if_neg hvq.ne', ?_⟩
  have h1 := r64_errR (m / v)
  push_cast at h1
  rw [abs_of_nonneg (div_nonneg hmR hv.le)] at h1
  have h2 : |((r64 (m / v) : ℚ) : ℝ) * v - m| ≤ (m : ℝ) / 2 ^ 53 := by
    rw [show ((r64 (m / v) : ℚ) : ℝ) * v - m = (((r64 (m / v) : ℚ) : ℝ) - m / v) * v by field_simp, abs_mul, abs_of_pos hv]
    calc _ ≤ (m : ℝ) / v / 2 ^ 53 * v := mul_le_mul_of_nonneg_right h1 hv.le
      _ = _ := by field_simp
  generalize r64 (m / v) = d at *
  have hd0 : |(d : ℝ)| * v ≤ (m : ℝ) * (1 + 1 / 2 ^ 53) := by
    rw [← abs_of_pos hv, ← abs_mul]
    have := abs_sub_abs_le_abs_sub ((d : ℝ) * v) m
    rw [abs_of_nonneg hmR] at this
    linarith
  have h3 : |(d : ℝ) * V - d * v| ≤ (m : ℝ) * (5 / 4 * e) := by
    rw [← mul_sub, abs_mul, abs_sub_comm]
    have a1 : |(d : ℝ)| * |(v : ℝ) - V| ≤ |(d : ℝ)| * (V * e) := mul_le_mul_of_nonneg_left h (abs_nonneg _)
    have a2 : |(d : ℝ)| * (V * (1 - 1 / 2 ^ 5)) ≤ |(d : ℝ)| * v := mul_le_mul_of_nonneg_left hvlo (abs_nonneg _)
    have a3 := mul_le_mul_of_nonneg_right (a2.trans hd0) he0
    have a4 := mul_nonneg hmR he0
    refine a1.trans ?_
    norm_num at a3 ⊢
    nlinarith
  have := abs_sub_le ((d : ℝ) * V) ((d : ℝ) * v) m
  have a5 : (m : ℝ) * (1 / 2 ^ 50) ≤ m * e := mul_le_mul_of_nonneg_left he hmR
  norm_num at this h2 a5 ⊢
  linarith

/-! ### The prof mode -/

/-- The width of a bin computed from inexact logarithms. -/
theorem width_core (n : ℕ) (hn : 0 < n) (lo hi : ℚ) (a b : ℝ) (hlo : |(lo : ℝ) - a| ≤ 1 / 2 ^ 41) (hhi : |(hi : ℝ) - b| ≤ 1 / 2 ^ 41) (hL0 : 0 ≤ b - a) (hL' : b - a ≤ 2 ^ 8) :
    |(r64 (r64 (hi - lo) / (n : ℚ)) : ℝ) - (b - a) / n| * n ≤ 1 / 2 ^ 39 := by
  have hnp : (0 : ℝ) < n := by exact_mod_cast hn
  obtain ⟨L, hLd⟩ : ∃ L, L = b - a := ⟨_, rfl⟩
  rw [← hLd] at hL0 hL' ⊢
  have es := r64_errR (hi - lo)
  have es2 : |((hi - lo : ℚ) : ℝ) - L| ≤ 2 / 2 ^ 41 := by
    push_cast
    rw [hLd]
    rw [abs_le] at *
    constructor <;> linarith [hlo.1, hlo.2, hhi.1, hhi.2]
  have hs : |(r64 (hi - lo) : ℝ) - L| ≤ 1 / 2 ^ 40 + 1 / 2 ^ 43 := by
    have h3 : |((hi - lo : ℚ) : ℝ)| ≤ 2 ^ 9 := by
      rw [abs_le] at es2 ⊢
      norm_num at es2 hL' ⊢
      constructor <;> linarith [es2.1, es2.2]
    have h4 : |(r64 (hi - lo) : ℝ) - ((hi - lo : ℚ) : ℝ)| ≤ 2 ^ 9 / 2 ^ 53 := es.trans (div_le_div_of_nonneg_right h3 (by positivity))
    have := abs_sub_le (r64 (hi - lo) : ℝ) ((hi - lo : ℚ) : ℝ) L
    norm_num at this h4 es2 ⊢
    linarith
  have e := r64_errR (r64 (hi - lo) / (n : ℚ))
  push_cast at e
  have h3 : |(r64 (hi - lo) : ℝ)| ≤ 2 ^ 9 := by
    rw [abs_le] at hs ⊢
    norm_num at hs hL' ⊢
    constructor <;> linarith [hs.1, hs.2]
  generalize r64 (r64 (hi - lo) / (n : ℚ)) = d at *
  have h4 : |(d : ℝ) - (r64 (hi - lo) : ℝ) / n| * n ≤ 2 ^ 9 / 2 ^ 53 := by
    have : |(r64 (hi - lo) : ℝ) / n| / 2 ^ 53 * n = |(r64 (hi - lo) : ℝ)| / 2 ^ 53 := by
      rw [abs_div, abs_of_pos hnp]
      field_simp
    calc |(d : ℝ) - (r64 (hi - lo) : ℝ) / n| * n ≤ |(r64 (hi - lo) : ℝ) / n| / 2 ^ 53 * n := mul_le_mul_of_nonneg_right e hnp.le
      _ = |(r64 (hi - lo) : ℝ)| / 2 ^ 53 := this
      _ ≤ _ := div_le_div_of_nonneg_right h3 (by positivity)
  have h5 : |(r64 (hi - lo) : ℝ) / n - L / n| * n = |(r64 (hi - lo) : ℝ) - L| := by
    rw [← sub_div, abs_div, abs_of_pos hnp]
    field_simp
  have h6 := mul_le_mul_of_nonneg_right (abs_sub_le (d : ℝ) ((r64 (hi - lo) : ℝ) / n) (L / n)) hnp.le
  rw [add_mul, h5] at h6
  norm_num at h4 h6 hs ⊢
  linarith

/-- The exponent of an edge. -/
theorem edge_exp (n : ℕ) (hn : 0 < n) (lo hi : ℚ) (a b : ℝ) (hlo : |(lo : ℝ) - a| ≤ 1 / 2 ^ 41) (hhi : |(hi : ℝ) - b| ≤ 1 / 2 ^ 41) (hL0 : 0 ≤ b - a) (hL' : b - a ≤ 2 ^ 8) (ha : |a| ≤ 2 ^ 6)
    (t : ℚ) (ht0 : 0 ≤ t) (ht : t ≤ n) : |(r64 (r64 (r64 (r64 (hi - lo) / (n : ℚ)) * t) + lo) : ℝ) - (a + t * ((b - a) / n))| ≤ 1 / 2 ^ 38 := by
  have hw := width_core n hn lo hi a b hlo hhi hL0 hL'
  have hnp : (0 : ℝ) < n := by exact_mod_cast hn
  have ht0' : (0 : ℝ) ≤ t := by exact_mod_cast ht0
  have ht' : (t : ℝ) ≤ n := by exact_mod_cast ht
  generalize r64 (r64 (hi - lo) / (n : ℚ)) = d at *
  have e1 := r64_errR (d * t)
  have e2 := r64_errR (r64 (d * t) + lo)
  push_cast at e1 e2
  generalize r64 (r64 (d * t) + lo) = E at *
  generalize r64 (d * t) = P at *
  have hwt : (t : ℝ) * ((b - a) / n) ≤ 2 ^ 8 := by
    have : (t : ℝ) * ((b - a) / n) ≤ n * ((b - a) / n) := mul_le_mul_of_nonneg_right ht' (div_nonneg hL0 hnp.le)
    rw [mul_div_cancel₀ _ hnp.ne'] at this
    linarith
  have hwt0 : 0 ≤ (t : ℝ) * ((b - a) / n) := mul_nonneg ht0' (div_nonneg hL0 hnp.le)
  have h1 : |(d : ℝ) * t - t * ((b - a) / n)| ≤ 1 / 2 ^ 39 := by
    rw [show (d : ℝ) * t - t * ((b - a) / n) = (d - (b - a) / n) * t by ring, abs_mul, abs_of_nonneg ht0']
    exact (mul_le_mul_of_nonneg_left ht' (abs_nonneg _)).trans hw
  generalize (t : ℝ) * ((b - a) / n) = T at *
  generalize (d : ℝ) * t = Q at *
  have hQ : |Q| ≤ 2 ^ 9 := by
    rw [abs_le] at h1 ⊢
    norm_num at h1 hwt ⊢
    constructor <;> linarith [h1.1, h1.2]
  have e1' := e1.trans (div_le_div_of_nonneg_right hQ (by positivity))
  have hP : |(P : ℝ) + lo| ≤ 2 ^ 10 := by
    rw [abs_le] at *
    norm_num at *
    constructor <;> linarith [e1'.1, e1'.2, hlo.1, hlo.2, ha.1, ha.2, h1.1, h1.2]
  have e2' := e2.trans (div_le_div_of_nonneg_right hP (by positivity))
  rw [abs_le] at *
  norm_num at *
  constructor <;> linarith [e1'.1, e1'.2, hlo.1, hlo.2, h1.1, h1.2, e2'.1, e2'.2]

theorem exp_close {ex : ℚ → ℚ} (hex : ExpOk ex) {x : ℚ} {y : ℝ} (h : |(x : ℝ) - y| ≤ 1 / 2 ^ 38) (hy : |y| ≤ 90) : |(ex x : ℝ) - Real.exp y| ≤ Real.exp y * (1 / 2 ^ 36) := by
  have hx : |x| ≤ 100 := by
    have : |(x : ℝ)| ≤ 100 := by
      have := abs_sub_abs_le_abs_sub (x : ℝ) y
      norm_num at h
      linarith
    exact_mod_cast this
  have h1 := hex x hx
  have h2 : Real.exp x = Real.exp y * Real.exp ((x : ℝ) - y) := by rw [← Real.exp_add]; congr 1; ring
  have h3 := Real.abs_exp_sub_one_le (x := (x : ℝ) - y) (h.trans (by norm_num))
  have hp := Real.exp_pos y
  have h4 : |Real.exp x - Real.exp y| ≤ Real.exp y * (1 / 2 ^ 37) := by
    rw [h2, show Real.exp y * Real.exp ((x : ℝ) - y) - Real.exp y = Real.exp y * (Real.exp ((x : ℝ) - y) - 1) by ring, abs_mul, abs_of_pos hp]
    refine mul_le_mul_of_nonneg_left (h3.trans ?_) hp.le
    norm_num at h ⊢
    linarith
  have h5 : Real.exp x ≤ Real.exp y * 2 := by
    rw [abs_le] at h4
    norm_num at h4
    linarith [h4.2]
  have := abs_sub_le (ex x : ℝ) (Real.exp x) (Real.exp y)
  norm_num at this h1 h4 ⊢
  linarith

theorem logs_bounded {R minMult maxMult : ℚ} {n : ℕ} (h : ProfOk R minMult maxMult n) :
    |Real.log ((R : ℝ) * minMult)| ≤ 45 ∧ |Real.log ((R : ℝ) * maxMult)| ≤ 45 ∧ n ≤ 2 ^ 30 := by
  have l1 := cast_low2 h.low
  have hh : (R : ℝ) * maxMult ≤ 2 ^ 64 := by
    have : ((R * maxMult : ℚ) : ℝ) ≤ ((2 ^ 64 : ℚ) : ℝ) := by exact_mod_cast h.high
    push_cast at this
    exact this
  have hw := h.wide
  have hR : (0 : ℝ) < R := by exact_mod_cast h.posR
  have hm1 : (0 : ℝ) < minMult := by exact_mod_cast h.posMin
  have hm2 : (0 : ℝ) < maxMult := by exact_mod_cast h.posMax
  have hlt : (R : ℝ) * minMult ≤ R * maxMult := by
    apply (Real.log_le_log_iff (mul_pos hR hm1) (mul_pos hR hm2)).mp
    have : (0 : ℝ) ≤ (n : ℝ) / 2 ^ 20 := by positivity
    linarith
  have b1 := log_pow2 (x := (R : ℝ) * minMult) (k := 64) l1 (hlt.trans hh)
  have b2 := log_pow2 (x := (R : ℝ) * maxMult) (k := 64) (l1.trans hlt) hh
  norm_num at b1 b2
  refine ⟨b1.trans (by norm_num), b2.trans (by norm_num), ?_⟩
  have h1 : (n : ℝ) ≤ 2 ^ 20 * 90 := by
    rw [abs_le] at b1 b2
    rw [div_le_iff₀ (by positivity)] at hw
    refine hw.trans ?_
    norm_num
    linarith [b1.1, b2.2]
  have h2 : (n : ℝ) ≤ ((2 ^ 30 : ℕ) : ℝ) := h1.trans (by norm_num)
  exact_mod_cast h2

/-- The edges and the centres of the bins. -/
theorem edge_close {lg ex : ℚ → ℚ} (hlg : LogOk lg) (hex : ExpOk ex) {R minMult maxMult : ℚ} {n : ℕ} (h : ProfOk R minMult maxMult n) (t : ℚ) (ht0 : 0 ≤ t) (ht : t ≤ n) :
    |(ex (r64 (r64 (dlr64 lg n (r64 (R * minMult)) (r64 (R * maxMult)) * t) + lg (r64 (R * minMult)))) : ℝ) - logEdge (R * minMult) (R * maxMult) n t| ≤ logEdge (R * minMult) (R * maxMult) n t * (1 / 2 ^ 36) := by
  obtain ⟨b1, b2, hn30⟩ := logs_bounded h
  have hw := h.wide
  have hnn : (0 : ℝ) ≤ (n : ℝ) / 2 ^ 20 := by positivity
  have hRm : R * minMult ≤ R * maxMult := by
    have hR : (0 : ℝ) < R := by exact_mod_cast h.posR
    have hm1 : (0 : ℝ) < minMult := by exact_mod_cast h.posMin
    have hm2 : (0 : ℝ) < maxMult := by exact_mod_cast h.posMax
    have : (R : ℝ) * minMult ≤ R * maxMult := (Real.log_le_log_iff (mul_pos hR hm1) (mul_pos hR hm2)).mp (by linarith)
    exact_mod_cast this
  have l1 := lg_limit hlg h.low (hRm.trans h.high)
  have l2 := lg_limit hlg (h.low.trans hRm) h.high
  rw [Rat.cast_mul] at l1 l2
  have hnp : (0 : ℝ) < n := by exact_mod_cast h.posN
  have ht0' : (0 : ℝ) ≤ t := by exact_mod_cast ht0
  have ht' : (t : ℝ) ≤ n := by exact_mod_cast ht
  have hL0 : 0 ≤ Real.log ((R : ℝ) * maxMult) - Real.log ((R : ℝ) * minMult) := by linarith
  have key := edge_exp n h.posN _ _ _ _ l1 l2 hL0 (by rw [abs_le] at b1 b2; norm_num; linarith [b1.1, b2.2]) (b1.trans (by norm_num)) t ht0 ht
  unfold dlr64 logEdge
  rw [r64_small (hn30.trans (by norm_num))]
  refine exp_close hex key ?_
  have hwt : (t : ℝ) * ((Real.log ((R : ℝ) * maxMult) - Real.log ((R : ℝ) * minMult)) / n) ≤ Real.log ((R : ℝ) * maxMult) - Real.log ((R : ℝ) * minMult) := by
    have : (t : ℝ) * ((Real.log ((R : ℝ) * maxMult) - Real.log ((R : ℝ) * minMult)) / n) ≤ n * ((Real.log ((R : ℝ) * maxMult) - Real.log ((R : ℝ) * minMult)) / n) := mul_le_mul_of_nonneg_right ht' (div_nonneg hL0 hnp.le)
    rwa [mul_div_cancel₀ _ hnp.ne'] at this
  have hwt0 : 0 ≤ (t : ℝ) * ((Real.log ((R : ℝ) * maxMult) - Real.log ((R : ℝ) * minMult)) / n) := mul_nonneg ht0' (div_nonneg hL0 hnp.le)
  rw [abs_le] at b1 b2 ⊢
  constructor <;> linarith [b1.1, b1.2, b2.1, b2.2]

theorem r64_half {j : ℕ} (h : j ≤ 2 ^ 40) : r64 ((j : ℚ) + 1 / 2) = (j : ℚ) + 1 / 2 := by
  apply r64_float
  refine ⟨2 * j + 1, -1, ?_, ?_⟩
  · push_cast
    rw [abs_of_nonneg (by positivity)]
    omega
  · push_cast
    norm_num
    ring

theorem binRadius_close {R maxMult : ℚ} (hR : 0 < R) (hm : 0 < maxMult) : (R : ℝ) * (1 - 1 / 2 ^ 22) ≤ (binRadius R maxMult : ℝ) ∧ (binRadius R maxMult : ℝ) ≤ R * (1 + 1 / 2 ^ 22) := by
  unfold binRadius
  have hm0 : 0 < r32 maxMult := lt_of_lt_of_le (mul_pos hm (by norm_num)) (r32_bounds' hm.le).1
  have b1 := r32_bounds' hR.le
  generalize r32 R = A at *
  have hA : 0 < A := lt_of_lt_of_le (mul_pos hR (by norm_num)) b1.1
  generalize r32 maxMult = m at *
  have b2 := r32_bounds' (mul_pos hA hm0).le
  generalize r32 (A * m) = B at *
  have hB : 0 < B := lt_of_lt_of_le (mul_pos (mul_pos hA hm0) (by norm_num)) b2.1
  have b3 := r32_bounds' (div_pos hB hm0).le
  generalize r32 (B / m) = C at *
  have c1 : A * (1 - 1 / 2 ^ 24) ≤ B / m := by rw [le_div_iff₀ hm0]; linarith [b2.1]
  have c2 : B / m ≤ A * (1 + 1 / 2 ^ 24) := by rw [div_le_iff₀ hm0]; linarith [b2.2]
  have d1 : R * (1 - 1 / 2 ^ 22) ≤ C := by norm_num at *; linarith [b1.1, b3.1]
  have d2 : C ≤ R * (1 + 1 / 2 ^ 22) := by norm_num at *; linarith [b1.2, b3.2]
  constructor
  · have : ((R * (1 - 1 / 2 ^ 22) : ℚ) : ℝ) ≤ (C : ℝ) := by exact_mod_cast d1
    push_cast at this
    exact this
  · have : (C : ℝ) ≤ ((R * (1 + 1 / 2 ^ 22) : ℚ) : ℝ) := by exact_mod_cast d2
    push_cast at this
    exact this

/-- The halos for which the statement is made: as in `ProfOk`, with limits half as wide, because the bins are made with another radius than the volumes. -/
structure ProfOk' (R minMult maxMult : ℚ) (n : ℕ) : Prop where
  posR : 0 < R
  posMin : 0 < minMult
  posMax : 0 < maxMult
  posN : 0 < n
  low : 1 / 2 ^ 63 ≤ R * minMult
  high : R * maxMult ≤ 2 ^ 63
  wide : (n : ℝ) / 2 ^ 20 ≤ Real.log (maxMult : ℝ) - Real.log (minMult : ℝ)

theorem ProfOk'.ok {R minMult maxMult : ℚ} {n : ℕ} (h : ProfOk' R minMult maxMult n) {S : ℚ} (hS : 0 < S) (h1 : R / 2 ≤ S) (h2 : S ≤ 2 * R) : ProfOk S minMult maxMult n where
  posR := hS
  posMin := h.posMin
  posMax := h.posMax
  posN := h.posN
  low := by
    have a := mul_le_mul_of_nonneg_right h1 h.posMin.le
    have b := h.low
    norm_num at a b ⊢
    linarith
  high := by
    have a := mul_le_mul_of_nonneg_right h2 h.posMax.le
    have b := h.high
    norm_num at a b ⊢
    linarith
  wide := by
    have hS' : (S : ℝ) ≠ 0 := by exact_mod_cast hS.ne'
    have hm1 : (minMult : ℝ) ≠ 0 := by exact_mod_cast h.posMin.ne'
    have hm2 : (maxMult : ℝ) ≠ 0 := by exact_mod_cast h.posMax.ne'
    rw [Real.log_mul hS' hm1, Real.log_mul hS' hm2]
    have := h.wide
    linarith

theorem sum_nonneg' {ms : List ℚ} (h : ∀ m ∈ ms, 0 ≤ m) : 0 ≤ ms.sum := List.sum_nonneg h

theorem sum64_nonneg (ms : List ℚ) (h : ∀ m ∈ ms, 0 ≤ m) : ∀ a : ℚ, 0 ≤ a → 0 ≤ sum64 a ms := by
  induction ms with
  | nil => intro a ha; exact ha
  | cons m ms ih =>
    intro a ha
    exact ih (fun q hq => h q (List.mem_cons_of_mem _ hq)) _ (r64_nonneg (add_nonneg ha (h m (List.mem_cons_self ..))))

/-- A density from the rounded sum of masses and a volume that is nearly known. -/
theorem density_close {ms : List ℚ} (hm : ∀ m ∈ ms, 0 ≤ m) (hn : ms.length ≤ 2 ^ 52) {v : ℚ} {V e : ℝ} (hV : 0 < V) (he : 1 / 2 ^ 50 ≤ e) (he1 : e ≤ 1 / 2 ^ 5) (h : |(v : ℝ) - V| ≤ V * e) :
    ∃ d : ℚ, div64 (sum64 0 ms) v = some d ∧ |(d : ℝ) * V - (ms.sum : ℚ)| ≤ (ms.sum : ℚ) * (4 * e + ms.length / 2 ^ 52) := by
  obtain ⟨_, d, d1, d2⟩ := div_close (sum64_nonneg ms hm 0 le_rfl) hV he he1 h
  refine ⟨d, d1, ?_⟩
  have c := C125_mass ms hm hn
  have c' : |((sum64 0 ms : ℚ) : ℝ) - (ms.sum : ℚ)| ≤ (ms.length : ℝ) / 2 ^ 52 * (ms.sum : ℚ) := by
    generalize ms.sum = T at *
    generalize sum64 0 ms = U at *
    have : ((|U - T| : ℚ) : ℝ) ≤ ((ms.length / 2 ^ 52 * T : ℚ) : ℝ) := by exact_mod_cast c
    push_cast at this
    exact this
  have hs0 : (0 : ℝ) ≤ ((ms.sum : ℚ) : ℝ) := by exact_mod_cast sum_nonneg' hm
  have hk : (ms.length : ℝ) / 2 ^ 52 ≤ 1 := by
    rw [div_le_one (by positivity)]
    exact_mod_cast hn
  have he0 : 0 ≤ e := le_trans (by positivity) he
  have hk2 := mul_le_mul_of_nonneg_right hk hs0
  generalize ((ms.sum : ℚ) : ℝ) = S at *
  generalize ((sum64 0 ms : ℚ) : ℝ) = S' at *
  generalize (ms.length : ℝ) / 2 ^ 52 = k at *
  have hS' : S' ≤ 2 * S := by
    rw [abs_le] at c'
    linarith [c'.2]
  have := abs_sub_le ((d : ℝ) * V) S' S
  have q : S' * (2 * e) ≤ 2 * S * (2 * e) := mul_le_mul_of_nonneg_right hS' (by linarith)
  linarith

theorem getD_rangeMap {α : Type} (f : ℕ → α) (n i : ℕ) (d : α) (h : i < n) : ((List.range n).map f).getD i d = f i := by
  simp [List.getD_eq_getElem?_getD, h]

theorem logEdge_pos (lo hi : ℝ) (n : ℕ) (t : ℝ) : 0 < logEdge lo hi n t := Real.exp_pos _

/-- The cubes of the edges of a bin differ by a good part of the outer one. -/
theorem edge_cubes (lo hi : ℝ) (n : ℕ) (t w : ℝ) (hw : w = (Real.log hi - Real.log lo) / n) (hw0 : 0 < w) :
    logEdge lo hi n t ≤ logEdge lo hi n (t + 1) ∧ logEdge lo hi n (t + 1) ^ 3 ≤ (1 + 1 / w) * (logEdge lo hi n (t + 1) ^ 3 - logEdge lo hi n t ^ 3) := by
  unfold logEdge
  rw [← hw]
  constructor
  · apply Real.exp_le_exp.mpr
    nlinarith
  · have e1 : Real.exp (Real.log lo + t * w) ^ 3 = Real.exp (Real.log lo + (t + 1) * w) ^ 3 * Real.exp (-(3 * w)) := by
      rw [← Real.exp_nat_mul, ← Real.exp_nat_mul, ← Real.exp_add]
      congr 1
      push_cast
      ring
    rw [e1]
    have hX := pow_pos (Real.exp_pos (Real.log lo + (t + 1) * w)) 3
    generalize Real.exp (Real.log lo + (t + 1) * w) ^ 3 = X at *
    have h1 : Real.exp (-(3 * w)) * (1 + 3 * w) ≤ 1 := by
      have h2 := Real.add_one_le_exp (3 * w)
      have h3 := Real.exp_pos (-(3 * w))
      calc Real.exp (-(3 * w)) * (1 + 3 * w) ≤ Real.exp (-(3 * w)) * Real.exp (3 * w) := mul_le_mul_of_nonneg_left (by linarith) h3.le
        _ = 1 := by rw [← Real.exp_add]; simp
    generalize Real.exp (-(3 * w)) = y at *
    have h4 : 1 ≤ (1 + 1 / w) * (1 - y) := by
      have h5 : y ≤ 1 / (1 + 3 * w) := by rw [le_div_iff₀ (by linarith)]; exact h1
      have h6 : (1 + 1 / w) * (1 - 1 / (1 + 3 * w)) ≤ (1 + 1 / w) * (1 - y) := mul_le_mul_of_nonneg_left (by linarith) (by positivity)
      refine le_trans ?_ h6
      rw [show (1 + 1 / w) * (1 - 1 / (1 + 3 * w)) = 3 * (w + 1) / (1 + 3 * w) by field_simp; ring, le_div_iff₀ (by linarith)]
      linarith
    nlinarith

/-- C126, prof mode: for every halo the mode computes as many radii and densities as there are bins.  The radii are the (logarithmic) centres of the bins; the density of a bin, times the volume of the shell, is the mass
of the particles in the bin, up to a relative error of `(1 + 1/w)/2^30 + k/2^52`, where `w` is the width of a bin in the logarithm and `k` the number of particles in the bin; and the particles in the bin are those whose
distance is within its edges, up to two millionths. -/
theorem C126_prof (lg ex : ℚ → ℚ) (hlg : LogOk lg) (hex : ExpOk ex) (R minMult maxMult : ℚ) (n : ℕ) (h : ProfOk' R minMult maxMult n) (ps : List BinPoint) (hm : ∀ p ∈ ps, 0 ≤ p.m) (hps : ps.length ≤ 2 ^ 52) :
    ∃ (rs : List ℚ) (ds : List (Option ℚ)) (bin : BinPoint → Option ℕ), profile64 lg ex R minMult maxMult n ps = some (rs, ds) ∧ rs.length = n ∧ ds.length = n ∧
      (∀ j < n, |((rs.getD j 0 : ℚ) : ℝ) - logEdge (R * minMult) (R * maxMult) n (j + 1 / 2)| ≤ logEdge (R * minMult) (R * maxMult) n (j + 1 / 2) / 2 ^ 36 ∧
        0 < shellVol (logEdge (R * minMult) (R * maxMult) n j) (logEdge (R * minMult) (R * maxMult) n (j + 1)) ∧
        ∃ d : ℚ, ds.getD j none = some d ∧
          |(d : ℝ) * shellVol (logEdge (R * minMult) (R * maxMult) n j) (logEdge (R * minMult) (R * maxMult) n (j + 1)) - (((ps.filter fun p => bin p = some j).map (·.m)).sum : ℚ)| ≤
            (((ps.filter fun p => bin p = some j).map (·.m)).sum : ℚ) *
              ((1 + 1 / ((Real.log ((R : ℝ) * maxMult) - Real.log ((R : ℝ) * minMult)) / n)) / 2 ^ 30 + (ps.filter fun p => bin p = some j).length / 2 ^ 52)) ∧
      (∀ p ∈ ps, ∀ j, bin p = some j → j < n ∧ p.counted = true ∧ 0 < p.dist ∧
        Real.log (logEdge (R * minMult) (R * maxMult) n j) - 1 / 2 ^ 19 ≤ Real.log p.dist ∧ Real.log p.dist ≤ Real.log (logEdge (R * minMult) (R * maxMult) n (j + 1)) + 1 / 2 ^ 19) ∧
      (∀ p ∈ ps, bin p = none → p.counted = false ∨ p.dist ≤ (R : ℝ) * minMult * (1 + 1 / 2 ^ 19) ∨ (R : ℝ) * maxMult * (1 - 1 / 2 ^ 19) ≤ p.dist) := by
  have hS := binRadius_close h.posR h.posMax
  have hRR : (0 : ℝ) < R := by exact_mod_cast h.posR
  have hm1 : (0 : ℝ) < minMult := by exact_mod_cast h.posMin
  have hm2 : (0 : ℝ) < maxMult := by exact_mod_cast h.posMax
  obtain ⟨S, hSd⟩ : ∃ S, S = binRadius R maxMult := ⟨_, rfl⟩
  rw [← hSd] at hS
  have hS0 : (0 : ℝ) < S := lt_of_lt_of_le (mul_pos hRR (by norm_num)) hS.1
  have okS : ProfOk S minMult maxMult n := h.ok (by exact_mod_cast hS0)
    (by have : ((R / 2 : ℚ) : ℝ) ≤ (S : ℝ) := by { push_cast; norm_num at hS; linarith [hS.1] }
        exact_mod_cast this)
    (by have : (S : ℝ) ≤ ((2 * R : ℚ) : ℝ) := by { push_cast; norm_num at hS; linarith [hS.2] }
        exact_mod_cast this)
  have okR : ProfOk R minMult maxMult n := h.ok h.posR (by linarith [h.posR]) (by linarith [h.posR])
  have hlogS := log_close hRR (by norm_num : (0 : ℝ) ≤ 1 / 2 ^ 22) (by norm_num) hS.1 hS.2
  obtain ⟨out, bin, o1, o2, o3, o4, o5⟩ := C125_prof lg hlg S minMult maxMult n okS (List.replicate n 0) (by simp) ps
  obtain ⟨_, _, hn30⟩ := logs_bounded okR
  have hnp : (0 : ℝ) < n := by exact_mod_cast h.posN
  obtain ⟨w, hwd⟩ : ∃ w, w = (Real.log ((R : ℝ) * maxMult) - Real.log ((R : ℝ) * minMult)) / n := ⟨_, rfl⟩
  have hw : 1 / 2 ^ 20 ≤ w := by
    rw [hwd, le_div_iff₀ hnp]
    have := okR.wide
    rw [one_div, mul_comm, ← div_eq_mul_inv]
    exact this
  have hw0 : 0 < w := lt_of_lt_of_le (by positivity) hw
  have hwinv : 1 / w ≤ 2 ^ 20 := by
    rw [div_le_iff₀ hw0]
    norm_num at hw ⊢
    linarith
  have hwinv0 : 0 < 1 / w := by positivity
  refine ⟨_, _, bin, by unfold profile64; rw [← hSd, o1]; rfl, by simp [o2], by simp [o2], ?_, ?_, ?_⟩
  · intro j hj
    have hjn : j ≤ 2 ^ 40 := (hj.le.trans hn30).trans (by norm_num)
    refine ⟨?_, ?_⟩
    · rw [o2, getD_rangeMap _ _ _ _ hj, r64_small hjn, r64_half hjn, add_comm (lg _) _]
      have := edge_close hlg hex okR ((j : ℚ) + 1 / 2) (by positivity) (by
        have : (j : ℚ) + 1 ≤ n := by exact_mod_cast hj
        linarith)
      push_cast at this
      rw [mul_one_div] at this
      exact this
    · obtain ⟨g1, g2⟩ := edge_cubes ((R : ℝ) * minMult) ((R : ℝ) * maxMult) n j w hwd hw0
      have p1 := logEdge_pos ((R : ℝ) * minMult) ((R : ℝ) * maxMult) n j
      have p2 := logEdge_pos ((R : ℝ) * minMult) ((R : ℝ) * maxMult) n (j + 1)
      have hV : 0 < shellVol (logEdge (R * minMult) (R * maxMult) n j) (logEdge (R * minMult) (R * maxMult) n (j + 1)) := by
        unfold shellVol
        have h3 := pow_pos p2 3
        have : 0 < logEdge (R * minMult) (R * maxMult) n (j + 1) ^ 3 - logEdge (R * minMult) (R * maxMult) n j ^ 3 := by
          by_contra hc
          have := mul_nonpos_of_nonneg_of_nonpos (by linarith : 0 ≤ 1 + 1 / w) (not_lt.mp hc)
          linarith
        have := Real.pi_pos
        positivity
      refine ⟨hV, ?_⟩
      have c1 := edge_close hlg hex okR (j : ℚ) (by positivity) (by exact_mod_cast hj.le)
      have c2 := edge_close hlg hex okR ((j + 1 : ℕ) : ℚ) (by positivity) (by exact_mod_cast hj)
      push_cast at c1
      have e1 : (((j + 1 : ℕ) : ℚ) : ℝ) = (j : ℝ) + 1 := by push_cast; rfl
      rw [e1] at c2
      have sc := shell_close p1.le g1 p2 (by norm_num : (1 : ℝ) / 2 ^ 50 ≤ 1 / 2 ^ 36) (by norm_num) (by linarith : 1 ≤ 1 + 1 / w) g2 (by norm_num at hwinv ⊢; linarith) c1 c2
      rw [o2, getD_rangeMap _ _ _ _ hj, o3 j hj, Los.getD_replicate_zero]
      unfold edge64
      rw [r64_small hjn, r64_small (show j + 1 ≤ 2 ^ 40 by omega)]
      obtain ⟨d, d1, d2⟩ := density_close (ms := (ps.filter fun p => bin p = some j).map (·.m))
        (by intro m hmm; obtain ⟨p, hp, rfl⟩ := List.mem_map.mp hmm; exact hm p (List.mem_of_mem_filter hp))
        (by rw [List.length_map]; exact (List.length_filter_le _ _).trans hps) hV (by generalize 1 / w = iw at *; norm_num; linarith) (by generalize 1 / w = iw at *; norm_num at hwinv ⊢; linarith) sc
      refine ⟨d, d1, d2.trans ?_⟩
      rw [List.length_map, ← hwd]
      have hs0 : (0 : ℝ) ≤ ((((ps.filter fun p => bin p = some j).map (·.m)).sum : ℚ) : ℝ) := by
        have : 0 ≤ ((ps.filter fun p => bin p = some j).map (·.m)).sum := sum_nonneg' (by intro m hmm; obtain ⟨p, hp, rfl⟩ := List.mem_map.mp hmm; exact hm p (List.mem_of_mem_filter hp))
        exact_mod_cast this
      refine mul_le_mul_of_nonneg_left ?_ hs0
      generalize 1 / w = iw at *
      norm_num
      linarith
  · intro p hp j hj
    obtain ⟨q1, q2, q3, q4, q5⟩ := o4 p hp j hj
    refine ⟨q1, q2, q3, ?_⟩
    unfold logEdge
    rw [Real.log_exp, Real.log_exp]
    rw [Real.log_mul hS0.ne' hm1.ne', Real.log_mul hS0.ne' hm2.ne', add_sub_add_left_eq_sub] at q4 q5
    rw [Real.log_mul hRR.ne' hm1.ne', Real.log_mul hRR.ne' hm2.ne', add_sub_add_left_eq_sub]
    rw [abs_le] at hlogS
    norm_num at hlogS q4 q5 ⊢
    constructor <;> linarith [hlogS.1, hlogS.2]
  · intro p hp hj
    rcases o5 p hp hj with q | q | q
    · exact Or.inl q
    · right; left
      refine q.trans ?_
      have a : (S : ℝ) * minMult ≤ R * (1 + 1 / 2 ^ 22) * minMult := mul_le_mul_of_nonneg_right hS.2 hm1.le
      have b := mul_le_mul_of_nonneg_right a (by norm_num : (0 : ℝ) ≤ 1 + 1 / 2 ^ 20)
      have := mul_pos hRR hm1
      norm_num at b ⊢
      linarith
    · right; right
      refine le_trans ?_ q
      have a : (R : ℝ) * (1 - 1 / 2 ^ 22) * maxMult ≤ (S : ℝ) * maxMult := mul_le_mul_of_nonneg_right hS.1 hm2.le
      have b := mul_le_mul_of_nonneg_right a (by norm_num : (0 : ℝ) ≤ 1 - 1 / 2 ^ 20)
      have := mul_pos hRR hm2
      norm_num at b ⊢
      linarith

/-! ### The phase mode -/

/-- A multiple of a rounded width. -/
theorem mult_close {d t : ℚ} {w : ℝ} (hw : 0 ≤ w) (ht : 0 ≤ t) (h : |(d : ℝ) - w| ≤ w * (1 / 2 ^ 51)) : |(r64 (d * t) : ℝ) - t * w| ≤ t * w * (1 / 2 ^ 50) := by
  have ht' : (0 : ℝ) ≤ t := by exact_mod_cast ht
  have h1 : |((d * t : ℚ) : ℝ) - t * w| ≤ t * w * (1 / 2 ^ 51) := by
    push_cast
    rw [show (d : ℝ) * t - t * w = t * (d - w) by ring, abs_mul, abs_of_nonneg ht', mul_assoc]
    exact mul_le_mul_of_nonneg_left h ht'
  refine (rel_round (mul_nonneg ht' hw) (by norm_num) (by norm_num) h1).trans ?_
  exact mul_le_mul_of_nonneg_left (by norm_num) (mul_nonneg ht' hw)

theorem width_r {g : PhaseGrid} (h : g.Ok) : |(r64 (g.rMax / r64 (g.rbins : ℚ)) : ℝ) - (g.rMax : ℝ) / g.rbins| ≤ (g.rMax : ℝ) / g.rbins * (1 / 2 ^ 51) := by
  rw [r64_small h.nr']
  have hR : (0 : ℝ) < g.rMax := by exact_mod_cast h.rpos
  have hn : (0 : ℝ) < g.rbins := by exact_mod_cast h.nr
  have e := r64_errR (g.rMax / (g.rbins : ℚ))
  push_cast at e
  have hw : 0 < (g.rMax : ℝ) / g.rbins := by positivity
  rw [abs_of_pos hw] at e
  generalize (g.rMax : ℝ) / g.rbins = w at *
  norm_num at e ⊢
  linarith

theorem width_v {g : PhaseGrid} (h : g.Ok) : |(r64 (r64 (g.vMax - g.vMin) / r64 (g.vbins : ℚ)) : ℝ) - ((g.vMax : ℝ) - g.vMin) / g.vbins| ≤ ((g.vMax : ℝ) - g.vMin) / g.vbins * (1 / 2 ^ 51) := by
  rw [r64_small h.nv']
  have hW : (0 : ℝ) < (g.vMax : ℝ) - g.vMin := by exact_mod_cast vMin_abs g h
  have hn : (0 : ℝ) < g.vbins := by exact_mod_cast h.nv
  have e1 := r64_errR (g.vMax - g.vMin)
  push_cast at e1
  rw [abs_of_pos hW] at e1
  have h1 : |((r64 (g.vMax - g.vMin) / (g.vbins : ℚ) : ℚ) : ℝ) - ((g.vMax : ℝ) - g.vMin) / g.vbins| ≤ ((g.vMax : ℝ) - g.vMin) / g.vbins * (1 / 2 ^ 53) := by
    push_cast
    rw [← sub_div, abs_div, abs_of_pos hn, div_mul_eq_mul_div, mul_one_div]
    exact div_le_div_of_nonneg_right e1 hn.le
  have hw : 0 < ((g.vMax : ℝ) - g.vMin) / g.vbins := by positivity
  refine (rel_round hw.le (by norm_num) (by norm_num) h1).trans (mul_le_mul_of_nonneg_left (by norm_num) hw.le)

theorem bins32_ok {g : PhaseGrid} (h : g.Ok) : g.bins32.Ok where
  rpos := lt_of_lt_of_le (mul_pos h.rpos (by norm_num)) (r32_bounds' h.rpos.le).1
  vpos := lt_of_lt_of_le (mul_pos h.vpos (by norm_num)) (r32_bounds' h.vpos.le).1
  nr := h.nr
  nv := h.nv
  nr' := h.nr'
  nv' := h.nv'

/-- How far the velocity of a particle may be off the bins: by the rounding of the limit, of the velocity and of the Hubble flow. -/
noncomputable def PhaseGrid.slack (g : PhaseGrid) (p : BinPoint) : ℝ := g.vMax / 2 ^ 20 + (len3 p.vx p.vy p.vz + g.hub * p.dist) / 2 ^ 20

theorem vMin_cast (g : PhaseGrid) : (g.vMin : ℝ) = if g.radial then -(g.vMax : ℝ) else 0 := by
  unfold PhaseGrid.vMin
  split <;> push_cast <;> rfl

/-- The velocity limits in float32. -/
theorem bins32_v {g : PhaseGrid} (h : g.Ok) (s : ℝ) (hs0 : 0 ≤ s) (hs1 : s ≤ 2) :
    |((g.bins32.vMin : ℝ) + s * ((g.bins32.vMax : ℝ) - g.bins32.vMin)) - (g.vMin + s * ((g.vMax : ℝ) - g.vMin))| ≤ 3 * g.vMax / 2 ^ 24 := by
  have hV : (0 : ℝ) < g.vMax := by exact_mod_cast h.vpos
  rw [vMin_cast, vMin_cast]
  have e := r32_errR g.vMax
  rw [abs_of_pos hV] at e
  change |((if g.radial = true then -((r32 g.vMax : ℚ) : ℝ) else 0) + s * (((r32 g.vMax : ℚ) : ℝ) - (if g.radial = true then -((r32 g.vMax : ℚ) : ℝ) else 0))) - _| ≤ _
  generalize ((r32 g.vMax : ℚ) : ℝ) = V' at *
  generalize (g.vMax : ℝ) = V at *
  split
  · rw [show -V' + s * (V' - -V') - (-V + s * (V - -V)) = (2 * s - 1) * (V' - V) by ring, abs_mul]
    have : |2 * s - 1| ≤ 3 := by rw [abs_le]; constructor <;> linarith
    calc _ ≤ 3 * (V / 2 ^ 24) := mul_le_mul this e (abs_nonneg _) (by norm_num)
      _ = _ := by ring
  · rw [show 0 + s * (V' - 0) - (0 + s * (V - 0)) = s * (V' - V) by ring, abs_mul, abs_of_nonneg hs0]
    calc _ ≤ 3 * (V / 2 ^ 24) := mul_le_mul (by linarith) e (abs_nonneg _) (by norm_num)
      _ = _ := by ring

/-- C126, phase mode: for every halo the mode computes as many radii, velocities and densities as there are bins.  The radii and velocities are the centres of the bins; the density of a cell, times the volume of the
shell and the width of the velocity bin, is the mass of the particles in the cell, up to a relative error of `rbins/2^44 + k/2^52`; and the particles in the cell are those whose distance and velocity are within its edges, up
to a millionth of the distance and a millionth of the velocities (the first velocity bin reaches one bin below the limit). -/
theorem C126_phase (g : PhaseGrid) (h : g.Ok) (ps : List BinPoint) (hm : ∀ p ∈ ps, 0 ≤ p.m) (hps : ps.length ≤ 2 ^ 52) :
    ∃ (rs vs : List ℚ) (ds : List (Option ℚ)) (cell : BinPoint → Option (ℕ × ℕ)), phase64 g ps = some (rs, vs, ds) ∧ rs.length = g.rbins ∧ vs.length = g.vbins ∧ ds.length = g.rbins * g.vbins ∧
      (∀ i < g.rbins, |((rs.getD i 0 : ℚ) : ℝ) - (i + 1 / 2) * ((g.rMax : ℝ) / g.rbins)| ≤ (i + 1 / 2) * ((g.rMax : ℝ) / g.rbins) / 2 ^ 50) ∧
      (∀ j < g.vbins, |((vs.getD j 0 : ℚ) : ℝ) - (g.vMin + (j + 1 / 2) * (((g.vMax : ℝ) - g.vMin) / g.vbins))| ≤ (g.vMax : ℝ) / 2 ^ 48) ∧
      (∀ i < g.rbins, ∀ j < g.vbins, 0 < shellVol (i * ((g.rMax : ℝ) / g.rbins)) ((i + 1) * ((g.rMax : ℝ) / g.rbins)) * (((g.vMax : ℝ) - g.vMin) / g.vbins) ∧
        ∃ d : ℚ, ds.getD (i * g.vbins + j) none = some d ∧
          |(d : ℝ) * (shellVol (i * ((g.rMax : ℝ) / g.rbins)) ((i + 1) * ((g.rMax : ℝ) / g.rbins)) * (((g.vMax : ℝ) - g.vMin) / g.vbins)) - (((ps.filter fun p => cell p = some (i, j)).map (·.m)).sum : ℚ)| ≤
            (((ps.filter fun p => cell p = some (i, j)).map (·.m)).sum : ℚ) * ((g.rbins : ℝ) / 2 ^ 44 + (ps.filter fun p => cell p = some (i, j)).length / 2 ^ 52)) ∧
      (∀ p ∈ ps, ∀ i j, cell p = some (i, j) → i < g.rbins ∧ j < g.vbins ∧
        i * ((g.rMax : ℝ) / g.rbins) * (1 - 1 / 2 ^ 20) ≤ p.dist ∧ p.dist ≤ (i + 1) * ((g.rMax : ℝ) / g.rbins) * (1 + 1 / 2 ^ 20) ∧
        g.exactV p ≤ g.vMin + (j + 1) * (((g.vMax : ℝ) - g.vMin) / g.vbins) + g.slack p ∧
        g.vMin + (if j = 0 then -1 else (j : ℝ)) * (((g.vMax : ℝ) - g.vMin) / g.vbins) - g.slack p ≤ g.exactV p) ∧
      (∀ p ∈ ps, cell p = none → (g.rMax : ℝ) * (1 - 1 / 2 ^ 20) ≤ p.dist ∨ (g.radial = true ∧ p.dist = 0) ∨ (g.vMax : ℝ) - g.slack p ≤ g.exactV p ∨
        g.exactV p ≤ g.vMin - ((g.vMax : ℝ) - g.vMin) / g.vbins + g.slack p) := by
  have h32 := bins32_ok h
  obtain ⟨out, cell, o1, o2, o3, o4, o5⟩ := C125_phase g.bins32 h32 (List.replicate (g.rbins * g.vbins) 0) (List.length_replicate) ps
  change out.length = g.rbins * g.vbins at o2
  have hR : (0 : ℝ) < g.rMax := by exact_mod_cast h.rpos
  have hV : (0 : ℝ) < g.vMax := by exact_mod_cast h.vpos
  have hW : (0 : ℝ) < (g.vMax : ℝ) - g.vMin := by exact_mod_cast vMin_abs g h
  have hnr : (0 : ℝ) < g.rbins := by exact_mod_cast h.nr
  have hnv : (0 : ℝ) < g.vbins := by exact_mod_cast h.nv
  have hnr40 : (g.rbins : ℝ) ≤ 2 ^ 40 := by exact_mod_cast h.nr'
  have hnr1 : (1 : ℝ) ≤ g.rbins := by exact_mod_cast h.nr
  have hwr : 0 < (g.rMax : ℝ) / g.rbins := by positivity
  have hwv : 0 < ((g.vMax : ℝ) - g.vMin) / g.vbins := by positivity
  have hvm : |(g.vMin : ℝ)| ≤ g.vMax ∧ (g.vMax : ℝ) - g.vMin ≤ 2 * g.vMax := by
    rw [vMin_cast]
    split
    · rw [abs_neg, abs_of_pos hV]; exact ⟨le_rfl, by linarith⟩
    · rw [abs_zero]; exact ⟨hV.le, by linarith⟩
  refine ⟨_, _, _, cell, by unfold phase64; rw [o1]; rfl, by simp, by simp, by simp, ?_, ?_, ?_, ?_, ?_⟩
  · intro i hi
    have hi40 : i ≤ 2 ^ 40 := hi.le.trans h.nr'
    rw [getD_rangeMap _ _ _ _ hi, r64_small hi40, r64_half hi40]
    have := mult_close (t := (i : ℚ) + 1 / 2) hwr.le (by positivity) (width_r h)
    push_cast at this
    rw [mul_one_div] at this
    exact this
  · intro j hj
    have hj40 : j ≤ 2 ^ 40 := hj.le.trans h.nv'
    rw [getD_rangeMap _ _ _ _ hj, r64_small hj40, r64_half hj40]
    have m := mult_close (t := (j : ℚ) + 1 / 2) hwv.le (by positivity) (width_v h)
    push_cast at m
    have hjn : (j : ℝ) + 1 ≤ g.vbins := by exact_mod_cast hj
    have ht : ((j : ℝ) + 1 / 2) * (((g.vMax : ℝ) - g.vMin) / g.vbins) ≤ 2 * g.vMax := by
      have : ((j : ℝ) + 1 / 2) * (((g.vMax : ℝ) - g.vMin) / g.vbins) ≤ g.vbins * (((g.vMax : ℝ) - g.vMin) / g.vbins) := mul_le_mul_of_nonneg_right (by linarith) hwv.le
      rw [mul_div_cancel₀ _ hnv.ne'] at this
      linarith [hvm.2]
    have ht0 : 0 ≤ ((j : ℝ) + 1 / 2) * (((g.vMax : ℝ) - g.vMin) / g.vbins) := by positivity
    generalize r64 (r64 (r64 (g.vMax - g.vMin) / r64 (g.vbins : ℚ)) * ((j : ℚ) + 1 / 2)) = P at *
    have e := r64_errR (g.vMin + P)
    push_cast at e
    generalize ((j : ℝ) + 1 / 2) * (((g.vMax : ℝ) - g.vMin) / g.vbins) = T at *
    generalize ((r64 (g.vMin + P) : ℚ) : ℝ) = E at *
    have hP : |(g.vMin : ℝ) + P| ≤ 4 * g.vMax := by
      refine (abs_add_le _ _).trans ?_
      have hp : |(P : ℝ)| ≤ 3 * g.vMax := by
        rw [abs_le] at m ⊢
        norm_num at m
        constructor <;> linarith [m.1, m.2]
      linarith [hvm.1]
    have e' := e.trans (div_le_div_of_nonneg_right hP (by positivity))
    rw [abs_le] at m e' ⊢
    norm_num at m e' ⊢
    constructor <;> linarith [m.1, m.2, e'.1, e'.2]
  · intro i hi j hj
    have hi40 : i + 1 ≤ 2 ^ 40 := (Nat.succ_le_of_lt hi).trans h.nr'
    have hi0 : (0 : ℝ) ≤ i := by positivity
    have hin : (i : ℝ) + 1 ≤ g.rbins := by exact_mod_cast hi
    have hk : i * g.vbins + j < g.rbins * g.vbins := by
      calc i * g.vbins + j < i * g.vbins + g.vbins := by omega
        _ = (i + 1) * g.vbins := by ring
        _ ≤ _ := Nat.mul_le_mul_right _ hi
    have hdiv : (i * g.vbins + j) / g.vbins = i := by
      rw [mul_comm, Nat.mul_add_div h.nv, Nat.div_eq_of_lt hj, add_zero]
    have c1 := mult_close (t := (i : ℚ)) hwr.le (by positivity) (width_r h)
    have c2 := mult_close (t := ((i + 1 : ℕ) : ℚ)) hwr.le (by positivity) (width_r h)
    have e1 : (((i + 1 : ℕ) : ℚ) : ℝ) = (i : ℝ) + 1 := by push_cast; rfl
    rw [e1] at c2
    have e0 : (((i : ℕ) : ℚ) : ℝ) = (i : ℝ) := by push_cast; rfl
    rw [e0] at c1
    have wv := width_v h
    rw [getD_rangeMap _ _ _ _ hk, hdiv, r64_small (show i ≤ 2 ^ 40 by omega), r64_small hi40]
    have o3' := o3 i hi j hj
    change out.getD (i * g.vbins + j) 0 = _ at o3'
    rw [o3', Los.getD_replicate_zero]
    generalize r64 (r64 (g.rMax / r64 (g.rbins : ℚ)) * (i : ℚ)) = lo at *
    generalize r64 (r64 (g.rMax / r64 (g.rbins : ℚ)) * ((i + 1 : ℕ) : ℚ)) = hi' at *
    generalize r64 (r64 (g.vMax - g.vMin) / r64 (g.vbins : ℚ)) = dv at *
    generalize (g.rMax : ℝ) / g.rbins = w at *
    generalize ((g.vMax : ℝ) - g.vMin) / g.vbins = u at *
    have hlt : (i : ℝ) * w ≤ (i + 1) * w := by linarith
    have hcube : (((i : ℝ) + 1) * w) ^ 3 ≤ (g.rbins : ℝ) * ((((i : ℝ) + 1) * w) ^ 3 - ((i : ℝ) * w) ^ 3) := by
      have hw3 := pow_pos hwr 3
      have : ((i : ℝ) + 1) ^ 3 ≤ g.rbins * (((i : ℝ) + 1) ^ 3 - (i : ℝ) ^ 3) := by
        have h1 : 0 ≤ ((i : ℝ) + 1) ^ 3 - (i : ℝ) ^ 3 := by nlinarith [pow_nonneg hi0 2]
        refine le_trans ?_ (mul_le_mul_of_nonneg_right hin h1)
        nlinarith [pow_nonneg hi0 2, pow_nonneg hi0 3]
      have := mul_le_mul_of_nonneg_right this hw3.le
      rw [mul_pow, mul_pow]
      linarith
    have hsv : 0 < shellVol (i * w) ((i + 1) * w) := by
      unfold shellVol
      have : 0 < (((i : ℝ) + 1) * w) ^ 3 - ((i : ℝ) * w) ^ 3 := by
        have h1 : (0 : ℝ) < (((i : ℝ) + 1) * w) ^ 3 := by positivity
        by_contra hc
        have := mul_nonpos_of_nonneg_of_nonpos hnr.le (not_lt.mp hc)
        linarith
      have := Real.pi_pos
      positivity
    have sc := shell_close (mul_nonneg hi0 hwr.le) hlt (mul_pos (by linarith) hwr) (le_refl ((1 : ℝ) / 2 ^ 50)) (by norm_num) hnr1 hcube (by generalize (g.rbins : ℝ) = N at *; norm_num at hnr40 ⊢; linarith) c1 c2
    refine ⟨mul_pos hsv hwv, ?_⟩
    generalize shellVol (i * w) ((i + 1) * w) = Vs at *
    generalize shell64 lo hi' = sh at *
    have m1 := rel_mul hsv.le hwv.le (by positivity) (by norm_num) sc wv
    have m2 : |((sh * dv : ℚ) : ℝ) - Vs * u| ≤ Vs * u * (51 / 4 * (g.rbins / 2 ^ 50)) := by
      push_cast
      refine m1.trans (mul_le_mul_of_nonneg_left ?_ (mul_nonneg hsv.le hwv.le))
      generalize (g.rbins : ℝ) = N at *
      norm_num at hnr40 ⊢
      linarith
    have m3 := rel_round (mul_nonneg hsv.le hwv.le) (by positivity) (by generalize (g.rbins : ℝ) = N at *; norm_num at hnr40 ⊢; linarith) m2
    have m4 : |((r64 (sh * dv) : ℚ) : ℝ) - Vs * u| ≤ Vs * u * (13 * (g.rbins / 2 ^ 50)) := by
      refine m3.trans (mul_le_mul_of_nonneg_left ?_ (mul_nonneg hsv.le hwv.le))
      generalize (g.rbins : ℝ) = N at *
      norm_num at hnr40 ⊢
      linarith
    obtain ⟨d, d1, d2⟩ := density_close (ms := (ps.filter fun p => cell p = some (i, j)).map (·.m))
      (by intro m hmm; obtain ⟨p, hp, rfl⟩ := List.mem_map.mp hmm; exact hm p (List.mem_of_mem_filter hp))
      (by rw [List.length_map]; exact (List.length_filter_le _ _).trans hps) (mul_pos hsv hwv) (by generalize (g.rbins : ℝ) = N at *; norm_num at hnr40 ⊢; linarith)
      (by generalize (g.rbins : ℝ) = N at *; norm_num at hnr40 ⊢; linarith) m4
    refine ⟨d, d1, d2.trans ?_⟩
    rw [List.length_map]
    have hs0 : (0 : ℝ) ≤ ((((ps.filter fun p => cell p = some (i, j)).map (·.m)).sum : ℚ) : ℝ) := by
      have : 0 ≤ ((ps.filter fun p => cell p = some (i, j)).map (·.m)).sum := sum_nonneg' (by intro m hmm; obtain ⟨p, hp, rfl⟩ := List.mem_map.mp hmm; exact hm p (List.mem_of_mem_filter hp))
      exact_mod_cast this
    refine mul_le_mul_of_nonneg_left ?_ hs0
    generalize (g.rbins : ℝ) = N at *
    norm_num
    linarith
  · intro p hp i j hij
    obtain ⟨q1, q2, q3, q4, v, q5, q6, q7⟩ := o4 p hp i j hij
    change i < g.rbins at q1
    change j < g.vbins at q2
    have hb : (g.rMax : ℝ) * (1 - 1 / 2 ^ 24) ≤ (g.bins32.rMax : ℝ) ∧ (g.bins32.rMax : ℝ) ≤ g.rMax * (1 + 1 / 2 ^ 24) := r32_boundsR h.rpos.le
    have hi0 : (0 : ℝ) ≤ i := by positivity
    refine ⟨q1, q2, ?_, ?_, ?_⟩
    · refine le_trans ?_ q3
      change _ ≤ (i : ℝ) * ((g.bins32.rMax : ℝ) / g.rbins) * (1 - 1 / 2 ^ 21)
      have a : (g.rMax : ℝ) / g.rbins * (1 - 1 / 2 ^ 24) ≤ (g.bins32.rMax : ℝ) / g.rbins := by
        rw [div_mul_eq_mul_div]
        exact div_le_div_of_nonneg_right hb.1 hnr.le
      have b := mul_le_mul_of_nonneg_left a hi0
      have c := mul_nonneg hi0 hwr.le
      norm_num at b c ⊢
      linarith
    · refine q4.trans ?_
      change ((i : ℝ) + 1) * ((g.bins32.rMax : ℝ) / g.rbins) * (1 + 1 / 2 ^ 21) ≤ _
      have a : (g.bins32.rMax : ℝ) / g.rbins ≤ (g.rMax : ℝ) / g.rbins * (1 + 1 / 2 ^ 24) := by
        rw [div_mul_eq_mul_div]
        exact div_le_div_of_nonneg_right hb.2 hnr.le
      have b := mul_le_mul_of_nonneg_left a (by linarith : (0 : ℝ) ≤ i + 1)
      have c := mul_nonneg (by linarith : (0 : ℝ) ≤ i + 1) hwr.le
      norm_num at b c ⊢
      linarith
    · have sp := (C125_speed g.bins32 p).2 v q5
      change |(v : ℝ) - g.exactV p| ≤ (len3 p.vx p.vy p.vz + g.hub * p.dist) / 2 ^ 20 at sp
      have hjv : (j : ℝ) + 1 ≤ g.vbins := by exact_mod_cast q2
      have hj0 : (0 : ℝ) ≤ j := by positivity
      change (v : ℝ) - g.bins32.vMin ≤ ((j : ℝ) + 1) * (((g.bins32.vMax : ℝ) - g.bins32.vMin) / g.vbins) * (1 + 1 / 2 ^ 48) at q6
      change (if j = 0 then -(((g.bins32.vMax : ℝ) - g.bins32.vMin) / g.vbins) * (1 + 1 / 2 ^ 48) else (j : ℝ) * (((g.bins32.vMax : ℝ) - g.bins32.vMin) / g.vbins) * (1 - 1 / 2 ^ 48)) ≤ (v : ℝ) - g.bins32.vMin at q7
      have hW32 : (0 : ℝ) < (g.bins32.vMax : ℝ) - g.bins32.vMin := by exact_mod_cast vMin_abs g.bins32 h32
      have hW32' : (g.bins32.vMax : ℝ) - g.bins32.vMin ≤ 3 * g.vMax := by
        have b1 := bins32_v h 0 le_rfl (by norm_num)
        have b2 := bins32_v h 1 (by norm_num) (by norm_num)
        rw [abs_le] at b1 b2
        norm_num at b1 b2
        linarith [b1.1, b1.2, b2.1, b2.2, hvm.2]
      have key : ∀ s : ℝ, 0 ≤ s → s ≤ g.vbins → |(g.bins32.vMin : ℝ) + s * (((g.bins32.vMax : ℝ) - g.bins32.vMin) / g.vbins) - (g.vMin + s * (((g.vMax : ℝ) - g.vMin) / g.vbins))| ≤ 3 * g.vMax / 2 ^ 24 ∧
          0 ≤ s * (((g.bins32.vMax : ℝ) - g.bins32.vMin) / g.vbins) ∧ s * (((g.bins32.vMax : ℝ) - g.bins32.vMin) / g.vbins) ≤ 3 * g.vMax := by
        intro s s0 s1
        have := bins32_v h (s / g.vbins) (by positivity) (by rw [div_le_iff₀ hnv]; linarith)
        rw [← mul_div_assoc, ← mul_div_assoc]
        rw [div_mul_eq_mul_div, div_mul_eq_mul_div] at this
        refine ⟨this, by positivity, ?_⟩
        rw [div_le_iff₀ hnv]
        have := mul_le_mul s1 hW32' hW32.le hnv.le
        linarith
      unfold PhaseGrid.slack
      constructor
      · obtain ⟨k1, k2, k3⟩ := key (j + 1) (by linarith) hjv
        generalize ((j : ℝ) + 1) * (((g.bins32.vMax : ℝ) - g.bins32.vMin) / g.vbins) = A at *
        rw [abs_le] at k1 sp
        norm_num at k1 sp q6 ⊢
        linarith [k1.1, k1.2, sp.1, sp.2]
      · by_cases hj : j = 0
        · rw [if_pos hj] at q7 ⊢
          obtain ⟨k1, k2, k3⟩ := key 1 (by linarith) (by linarith)
          obtain ⟨l1, l2, l3⟩ := key 0 (by linarith) hnv.le
          rw [one_mul] at k1 k2 k3
          rw [zero_mul, zero_mul, add_zero, add_zero] at l1
          rw [one_mul] at k1
          generalize ((g.bins32.vMax : ℝ) - g.bins32.vMin) / g.vbins = A at *
          generalize ((g.vMax : ℝ) - g.vMin) / g.vbins = B at *
          rw [abs_le] at k1 l1 sp
          norm_num at k1 l1 sp q7 ⊢
          linarith [k1.1, k1.2, sp.1, sp.2, l1.1, l1.2]
        · rw [if_neg hj] at q7 ⊢
          obtain ⟨k1, k2, k3⟩ := key j hj0 (by linarith)
          generalize (j : ℝ) * (((g.bins32.vMax : ℝ) - g.bins32.vMin) / g.vbins) = A at *
          rw [abs_le] at k1 sp
          norm_num at k1 sp q7 ⊢
          linarith [k1.1, k1.2, sp.1, sp.2]
  · intro p hp hc
    have hb : (g.rMax : ℝ) * (1 - 1 / 2 ^ 24) ≤ (g.bins32.rMax : ℝ) := (r32_boundsR h.rpos.le).1
    rcases o5 p hp hc with q | q | ⟨v, q1, q2⟩
    · left
      refine le_trans ?_ q
      have := mul_le_mul_of_nonneg_right hb (by norm_num : (0 : ℝ) ≤ 1 - 1 / 2 ^ 21)
      norm_num at this ⊢
      linarith
    · right; left
      exact (C125_speed g.bins32 p).1.mp q
    · right; right
      have sp := (C125_speed g.bins32 p).2 v q1
      change |(v : ℝ) - g.exactV p| ≤ (len3 p.vx p.vy p.vz + g.hub * p.dist) / 2 ^ 20 at sp
      have b0 := bins32_v h 0 le_rfl (by norm_num)
      have b1 := bins32_v h 1 (by norm_num) (by norm_num)
      have b2 := bins32_v h (1 / g.vbins) (by positivity) (by
        rw [div_le_iff₀ hnv]
        have : (1 : ℝ) ≤ g.vbins := by exact_mod_cast h.nv
        linarith)
      rw [div_mul_eq_mul_div, div_mul_eq_mul_div, one_mul, one_mul] at b2
      unfold PhaseGrid.slack
      have hW32 : (0 : ℝ) < (g.bins32.vMax : ℝ) - g.bins32.vMin := by exact_mod_cast vMin_abs g.bins32 h32
      have hu : ((g.vMax : ℝ) - g.vMin) / g.vbins ≤ (g.vMax : ℝ) - g.vMin := by
        apply div_le_self hW.le
        exact_mod_cast h.nv
      rcases q2 with q2 | q2
      · left
        rw [abs_le] at b0 b1 sp
        norm_num at b0 b1 sp q2 ⊢
        linarith [b0.1, b0.2, b1.1, b1.2, sp.1, sp.2, hvm.2]
      · right
        change (v : ℝ) - g.bins32.vMin ≤ -(((g.bins32.vMax : ℝ) - g.bins32.vMin) / g.vbins) * (1 - 1 / 2 ^ 48) at q2
        generalize ((g.bins32.vMax : ℝ) - g.bins32.vMin) / g.vbins = A at *
        generalize ((g.vMax : ℝ) - g.vMin) / g.vbins = B at *
        rw [abs_le] at b0 b2 sp
        norm_num at b0 b2 sp q2 ⊢
        linarith [b0.1, b0.2, b2.1, b2.2, sp.1, sp.2, hvm.2]

/-! ### The hypotheses can be met -/

theorem expOk_rounded : ExpOk fun x => rnReal (Real.exp x) := by
  intro x _
  refine (rnReal_error _).trans ?_
  have := Real.exp_pos (x : ℝ)
  rw [abs_of_pos this]
  norm_num
  linarith

theorem profOk'_example : ProfOk' 1 (1 / 32) 4 10 where
  posR := by norm_num
  posMin := by norm_num
  posMax := by norm_num
  posN := by norm_num
  low := by norm_num
  high := by norm_num
  wide := by
    push_cast
    rw [← Real.log_div (by norm_num) (by norm_num), show (4 : ℝ) / (1 / 32) = 2 ^ 7 by norm_num, Real.log_pow]
    have := Real.log_two_gt_d9
    norm_num at this ⊢
    linarith

example : ∃ rs ds, profile64 (fun x => rnReal (Real.log x)) (fun x => rnReal (Real.exp x)) 1 (1 / 32) 4 10 [binExample, binExample] = some (rs, ds) ∧ rs.length = 10 ∧ ds.length = 10 ∧ ds.getD 5 none ≠ none := by
  obtain ⟨rs, ds, _, h1, h2, h3, h4, _⟩ := C126_prof _ _ logOk_rounded expOk_rounded 1 (1 / 32) 4 10 profOk'_example [binExample, binExample]
    (by intro p hp; simp at hp; subst hp; simp [binExample]) (by norm_num)
  obtain ⟨_, _, d, hd, _⟩ := h4 5 (by norm_num)
  exact ⟨rs, ds, h1, h2, h3, by rw [hd]; simp⟩

example : ∃ rs vs ds, phase64 ⟨2, 500, 20, 30, true, true⟩ [binExample] = some (rs, vs, ds) ∧ rs.length = 20 ∧ vs.length = 30 ∧ ds.length = 600 := by
  obtain ⟨rs, vs, ds, _, h1, h2, h3, h4, _⟩ := C126_phase _ phaseOk_example [binExample] (by intro p hp; simp at hp; subst hp; simp [binExample]) (by norm_num)
  exact ⟨rs, vs, ds, h1, h2, h3, h4⟩

end Shellfish.Round
