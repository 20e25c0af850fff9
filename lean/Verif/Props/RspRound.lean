/-
C139: the column R_sp in machine arithmetic.
-/
import Verif.Model.RspRound
import Verif.Props.RadiusRound
import Verif.Props.SampleRound

namespace Shellfish.Round

/-! ### Specification -/

/-- The volume of the shell according to the sampled directions: that of a ball with the mean cube of the radii. -/
noncomputable def sampledVolume (cs : List ℚ) (order : ℕ) (draws : List (ℚ × ℚ)) : ℝ := 4 * Real.pi / 3 * ((draws.map fun d => radiusOf cs order order 2 d ^ 3).sum / draws.length)

/-- The error of the sampled volume in machine arithmetic (C129). -/
noncomputable def volumeErr (cs : List ℚ) (order : ℕ) (e : ℝ) (n : ℕ) : ℝ :=
  13 * (shellErr order order 2 e * sizeOf cs) * (sizeOf cs + shellErr order order 2 e * sizeOf cs) ^ 2 + (n + 8) / 2 ^ 49 * (sizeOf cs + shellErr order order 2 e * sizeOf cs) ^ 3

/-! ### The power -/

local notation "uu" => ((1 : ℝ) / 2 ^ 52)

theorem lr_ball : LR (r64 (goPi * 4 / 3)) (4 / 3 * Real.pi) (2 * uu) := by
  have h := ((lr_goPi.mul (lr_self (x := 4) (by norm_num))).div (lr_self (x := 3) (by norm_num))).round
  push_cast at h
  have e : Real.pi * 4 / 3 = 4 / 3 * Real.pi := by ring
  rw [e] at h
  exact h.mono (by norm_num)

theorem lr_rsp {pw : ℚ → ℚ → ℚ} (hp : PowOk pw) {x : ℚ} {y d : ℝ} (h : LR x y d) (hB : |Real.log y| ≤ 351) (hd : d ≤ 1) :
    0 < pw x (r64 (33333 / 100000)) ∧ |Real.log ((pw x (r64 (33333 / 100000)) : ℚ) : ℝ) - 1 / 3 * Real.log y| ≤ |Real.log y| / 300000 + d / 3 + 600 * uu := by
  have e := r64_errR (33333 / 100000)
  push_cast at e
  rw [abs_of_pos (by norm_num : (0 : ℝ) < 33333 / 100000)] at e
  have c := hp.close x (r64 (33333 / 100000)) h.1
  refine ⟨hp.pos _ _ h.1, ?_⟩
  generalize ((r64 (33333 / 100000) : ℚ) : ℝ) = t at e c
  generalize Real.log ((pw x (r64 (33333 / 100000)) : ℚ) : ℝ) = w at c ⊢
  have h2' := h.2.2
  generalize Real.log (x : ℝ) = lx at c h2'
  generalize Real.log y = ly at hB h2' ⊢
  have hlx : |lx| ≤ 352 := by
    have := abs_sub_abs_le_abs_sub lx ly
    linarith
  have h1 : |t * lx - 33333 / 100000 * lx| ≤ 33333 / 100000 / 2 ^ 53 * 352 := by
    rw [← sub_mul, abs_mul]
    exact mul_le_mul e hlx (abs_nonneg _) (by norm_num)
  have h2 : |t * lx| ≤ 118 := by
    have a1 := abs_sub_abs_le_abs_sub (t * lx) (33333 / 100000 * lx)
    have a2 : |33333 / 100000 * lx| ≤ 33333 / 100000 * 352 := by
      rw [abs_mul, abs_of_pos (by norm_num : (0 : ℝ) < 33333 / 100000)]
      linarith
    generalize |t * lx - 33333 / 100000 * lx| = q1 at *
    generalize |33333 / 100000 * lx| = q2 at *
    generalize |t * lx| = q3 at *
    norm_num at h1 ⊢
    linarith
  have h3 : |33333 / 100000 * lx - 33333 / 100000 * ly| ≤ d / 3 := by
    rw [← mul_sub, abs_mul, abs_of_pos (by norm_num : (0 : ℝ) < 33333 / 100000)]
    have := abs_nonneg (lx - ly)
    linarith
  have h3' : |33333 / 100000 * ly - 1 / 3 * ly| ≤ |ly| / 300000 := by
    rw [← sub_mul, abs_mul, show |(33333 / 100000 - 1 / 3 : ℝ)| = 1 / 300000 by rw [abs_of_neg (by norm_num)]; norm_num]
    linarith
  have h4 : (1 + |t * lx|) / 2 ^ 50 ≤ (1 + 118) / 2 ^ 50 := by gcongr
  have h5 := abs_sub_le w (t * lx) (1 / 3 * ly)
  have h6 := abs_sub_le (t * lx) (33333 / 100000 * lx) (1 / 3 * ly)
  have h7 := abs_sub_le (33333 / 100000 * lx) (33333 / 100000 * ly) (1 / 3 * ly)
  generalize |w - 1 / 3 * ly| = q1 at *
  generalize |t * lx - 33333 / 100000 * lx| = q2 at *
  generalize |33333 / 100000 * lx - 33333 / 100000 * ly| = q3 at *
  generalize |33333 / 100000 * ly - 1 / 3 * ly| = q4 at *
  generalize |33333 / 100000 * lx - 1 / 3 * ly| = q5 at *
  generalize |t * lx - 1 / 3 * ly| = q6 at *
  generalize |w - t * lx| = q7 at *
  generalize (1 + |t * lx|) / 2 ^ 50 = q8 at *
  norm_num at h1 h4 ⊢
  linarith

/-- C139 (radius of a volume): for every positive volume `R_sp` is a positive number, the logarithm of which is that of the radius of the ball with this volume up to the 1/100000-th part of the latter (the exponent is 0.33333) and 2⁻⁴¹. -/
theorem C139_rsp_partial (pw : ℚ → ℚ → ℚ) (hp : PowOk pw) (v : ℚ) (r : ℝ) (hr : 0 < r) (hv : (v : ℝ) = 4 / 3 * Real.pi * r ^ 3) (h1 : 1 / 2 ^ 160 ≤ r) (h2 : r ≤ 2 ^ 160) :
    ∃ R : ℚ, rsp64 pw v = some R ∧ 0 < R ∧ |Real.log (R : ℝ) - Real.log r| ≤ |Real.log r| / 100000 + 1 / 2 ^ 41 := by
  have hpi := Real.pi_pos
  have hvR : (0 : ℝ) < (v : ℝ) := by rw [hv]; positivity
  have hv0 : 0 < v := by exact_mod_cast hvR
  have h := ((lr_self hv0).div lr_ball).round
  have e : (v : ℝ) / (4 / 3 * Real.pi) = r ^ 3 := by rw [hv]; field_simp
  rw [e] at h
  have hl : Real.log (r ^ 3) = 3 * Real.log r := by rw [Real.log_pow]; norm_num
  have hB := log_pow2_le h1 h2
  have hB' : |Real.log (r ^ 3)| ≤ 351 := by
    rw [hl, abs_mul, abs_of_pos (by norm_num : (0 : ℝ) < 3)]
    push_cast at hB
    linarith
  obtain ⟨k1, k2⟩ := lr_rsp hp h hB' (by norm_num)
  refine ⟨_, by unfold rsp64; rw [if_neg (not_lt.mpr hv0.le)], k1, ?_⟩
  rw [hl, abs_mul, abs_of_pos (by norm_num : (0 : ℝ) < 3), show 1 / 3 * (3 * Real.log r) = Real.log r by ring] at k2
  refine k2.trans ?_
  norm_num
  linarith

/-- C139: the two columns of stats for a fitted shell: if the sampled volume is between 2⁻³⁰ and 2³⁰ (and is not lost in the rounding errors), then `R_sp` is the radius of the ball with the sampled volume up to the 5000th part. -/
theorem C139_columns_partial (F : ShellMath) (e : ℝ) (pw : ℚ → ℚ → ℚ) (hp : PowOk pw) (cs : List ℚ) (order : ℕ) (draws : List (ℚ × ℚ)) (h : Sampling F e cs order order 2 draws) (hn : 0 < draws.length) (hn' : draws.length < 2 ^ 50)
    (r : ℝ) (hr : 0 < r) (hV : sampledVolume cs order draws = 4 / 3 * Real.pi * r ^ 3) (h1 : 1 / 2 ^ 10 ≤ r) (h2 : r ≤ 2 ^ 10) (herr : volumeErr cs order e draws.length ≤ sampledVolume cs order draws / 2 ^ 16) :
    ∃ v R : ℚ, rspColumns64 F pw cs order draws = some (v, some R) ∧ |(v : ℝ) - sampledVolume cs order draws| ≤ volumeErr cs order e draws.length ∧ |(R : ℝ) - r| ≤ r / 5000 := by
  have hpi := Real.pi_pos
  obtain ⟨v, e1, e2⟩ := C129_volume F e cs order order 2 draws h hn hn'
  change |(v : ℝ) - sampledVolume cs order draws| ≤ volumeErr cs order e draws.length at e2
  have hV0 : 0 < sampledVolume cs order draws := by rw [hV]; positivity
  have e3 := e2.trans herr
  -- the volume has the right logarithm
  have hlr : LR v (4 / 3 * Real.pi * r ^ 3) (1 / 2 ^ 15) := by
    rw [← hV]
    generalize sampledVolume cs order draws = V at *
    obtain ⟨a, b⟩ := abs_le.mp e3
    have hvp : (0 : ℝ) < (v : ℝ) := by linarith [show V / 2 ^ 16 ≤ V / 2 by gcongr; norm_num]
    refine ⟨by exact_mod_cast hvp, hV0, ?_⟩
    rw [← Real.log_div hvp.ne' hV0.ne']
    have hq : 0 < (v : ℝ) / V := by positivity
    have u1 : (v : ℝ) / V ≤ 1 + 1 / 2 ^ 16 := by rw [div_le_iff₀ hV0]; linarith
    have u2 : 1 - 1 / 2 ^ 16 ≤ (v : ℝ) / V := by rw [le_div_iff₀ hV0]; linarith
    have l1 := Real.log_le_sub_one_of_pos hq
    have l2 := Real.one_sub_inv_le_log_of_pos hq
    have l3 : ((v : ℝ) / V)⁻¹ ≤ 1 + 1 / 2 ^ 15 := by
      rw [inv_le_comm₀ hq (by norm_num)]
      refine le_trans ?_ u2
      norm_num
    rw [abs_le]
    constructor
    · linarith
    · have : (1 : ℝ) / 2 ^ 16 ≤ 1 / 2 ^ 15 := by norm_num
      linarith
  have hdiv := (hlr.div lr_ball).round
  rw [show 4 / 3 * Real.pi * r ^ 3 / (4 / 3 * Real.pi) = r ^ 3 by field_simp] at hdiv
  have hl : Real.log (r ^ 3) = 3 * Real.log r := by rw [Real.log_pow]; norm_num
  have hB := log_pow2_le h1 h2
  push_cast at hB
  have hB' : |Real.log (r ^ 3)| ≤ 21 := by
    rw [hl, abs_mul, abs_of_pos (by norm_num : (0 : ℝ) < 3)]
    linarith
  obtain ⟨k1, k2⟩ := lr_rsp hp hdiv (hB'.trans (by norm_num)) (by norm_num)
  refine ⟨v, _, by unfold rspColumns64 rsp64; rw [e1, Option.map_some, if_neg (not_lt.mpr hlr.1.le)], e2, ?_⟩
  have k3 : LR (pw (r64 (v / r64 (goPi * 4 / 3))) (r64 (33333 / 100000))) r (1 / 10000) := by
    refine ⟨k1, hr, ?_⟩
    have e5 : 1 / 3 * Real.log (r ^ 3) = Real.log r := by rw [hl]; ring
    rw [e5] at k2
    refine k2.trans ?_
    have : |Real.log (r ^ 3)| / 300000 ≤ 21 / 300000 := by gcongr
    generalize |Real.log (r ^ 3)| / 300000 = q at *
    norm_num at this ⊢
    linarith
  exact (k3.rel (by norm_num)).trans (le_of_eq (by ring))

/-- The shell with the radius 2 + x, sampled in the directions of the y axis (2) and of the x axis (3): `R_sp` is the cube root of 35/2 up to the 5000th part. -/
example : ∃ (r : ℝ) (v R : ℚ), r ^ 3 = 35 / 2 ∧ rspColumns64 cutMath (fun x y => rnReal ((x : ℝ) ^ (y : ℝ))) (2 :: 1 :: List.replicate 16 0) 3 [(1 / 4, 1 / 2), (0, 1 / 2)] = some (v, some R) ∧ |(R : ℝ) - r| ≤ r / 5000 := by
  have hs : sizeOf (2 :: 1 :: List.replicate 16 0) = 3 := by simp [sizeOf]; norm_num
  have hr : ∀ d, radiusOf (2 :: 1 :: List.replicate 16 0) 3 3 2 d = 2 + Real.sin (Real.arccos (2 * d.2 - 1)) * Real.cos (2 * Real.pi * d.1) := by
    intro d
    unfold radiusOf shellAt
    simp [Finset.sum_range_succ]
  have r1 : radiusOf (2 :: 1 :: List.replicate 16 0) 3 3 2 (1 / 4, 1 / 2) = 2 := by
    rw [hr]
    have : (2 * Real.pi * ((1 / 4 : ℚ) : ℝ)) = Real.pi / 2 := by push_cast; ring
    dsimp only
    rw [this, Real.cos_pi_div_two]
    ring
  have r2 : radiusOf (2 :: 1 :: List.replicate 16 0) 3 3 2 (0, 1 / 2) = 3 := by
    rw [hr]
    have : (2 * ((1 / 2 : ℚ) : ℝ) - 1) = 0 := by push_cast; ring
    dsimp only
    rw [this, Real.arccos_zero, Real.sin_pi_div_two, Rat.cast_zero, mul_zero, Real.cos_zero]
    norm_num
  have he : shellErr 3 3 2 (1 / 2 ^ 49) ≤ 1 / 2 ^ 19 := by unfold shellErr; norm_num
  have he0 : 0 ≤ shellErr 3 3 2 (1 / 2 ^ 49) := by unfold shellErr; positivity
  have hV : sampledVolume (2 :: 1 :: List.replicate 16 0) 3 [(1 / 4, 1 / 2), (0, 1 / 2)] = 4 / 3 * Real.pi * (35 / 2) := by
    unfold sampledVolume
    simp only [List.map_cons, List.map_nil, List.sum_cons, List.sum_nil, List.length_cons, List.length_nil, r1, r2]
    norm_num
    ring
  have hc : ((35 / 2 : ℝ) ^ ((1 : ℝ) / 3)) ^ 3 = 35 / 2 := cube_root (by norm_num)
  have hpos : 0 < (35 / 2 : ℝ) ^ ((1 : ℝ) / 3) := Real.rpow_pos_of_pos (by norm_num) _
  generalize (35 / 2 : ℝ) ^ ((1 : ℝ) / 3) = r at hc hpos
  have hlo : 1 ≤ r := by
    by_contra hlt
    have := pow_lt_one₀ hpos.le (not_le.mp hlt) (by norm_num : (3 : ℕ) ≠ 0)
    linarith
  have hhi : r ≤ 18 := by nlinarith [mul_self_nonneg (r - 1)]
  obtain ⟨v, R, h1, _, h3⟩ := C139_columns_partial _ _ _ powOk_rounded _ 3 _ egg_sampling (by simp) (by norm_num) r hpos (by rw [hc, hV]) (by norm_num; linarith) (by norm_num; linarith) (by
    rw [hV]
    unfold volumeErr
    rw [hs]
    generalize shellErr 3 3 2 (1 / 2 ^ 49) = x at *
    have hpi := Real.pi_gt_three
    have hx2 : x ^ 2 ≤ x := by nlinarith
    have hx3 : x ^ 3 ≤ x := by nlinarith
    simp only [List.length_cons, List.length_nil]
    norm_num at he ⊢
    nlinarith)
  exact ⟨r, v, R, hc, h1, h3⟩

end Shellfish.Round
