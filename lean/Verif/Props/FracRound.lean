/-
C137: the angular fraction profile in machine arithmetic.
-/
import Verif.Model.FracRound
import Verif.Props.DensityRound
import Verif.Props.ShellBins

namespace Shellfish.Round
open Shellfish.Analyze (revCumSum revCumSum_length revCumSum_getD)
open Shellfish.Finder (toInt)

/-! ### Specification -/

open Classical in
/-- The number of the sampled radii that are at least `e`. -/
noncomputable def countFrom (radii : List ℚ) (e : ℝ) : ℕ := (radii.filter fun r : ℚ => decide (e ≤ (r : ℝ))).length

/-! ### The bin of a sample -/

theorem fracBin_inside {lg : ℚ → ℚ} (hlg : LogOk lg) {R minMult maxMult : ℚ} {n : ℕ} (h : ProfOk R minMult maxMult n) {r : ℚ} (h1 : (R : ℝ) * minMult ≤ r) (h2 : (r : ℝ) ≤ R * maxMult * (1 - 1 / 2 ^ 30)) :
    ∃ j : ℕ, j < n ∧ fracBin64 lg n (r64 (R * minMult)) (r64 (R * maxMult)) r = some j ∧
      (1 ≤ j → logEdge (R * minMult) (R * maxMult) n j * (1 - 1 / 2 ^ 35) ≤ r) ∧ (r : ℝ) < logEdge (R * minMult) (R * maxMult) n (j + 1) * (1 + 1 / 2 ^ 35) := by
  obtain ⟨b1, b2, hn30⟩ := logs_bounded h
  have hw := h.wide
  have hnp : (0 : ℝ) < n := by exact_mod_cast h.posN
  have hnn : (0 : ℝ) ≤ (n : ℝ) / 2 ^ 20 := by positivity
  have hR : (0 : ℝ) < R := by exact_mod_cast h.posR
  have hm1 : (0 : ℝ) < minMult := by exact_mod_cast h.posMin
  have hm2 : (0 : ℝ) < maxMult := by exact_mod_cast h.posMax
  have hRm' : (R : ℝ) * minMult ≤ R * maxMult := (Real.log_le_log_iff (mul_pos hR hm1) (mul_pos hR hm2)).mp (by linarith)
  have hRm : R * minMult ≤ R * maxMult := by exact_mod_cast hRm'
  have l1 := lg_limit hlg h.low (hRm.trans h.high)
  have l2 := lg_limit hlg (h.low.trans hRm) h.high
  rw [Rat.cast_mul] at l1 l2
  have hr0 : (0 : ℝ) < r := lt_of_lt_of_le (mul_pos hR hm1) h1
  have hr0' : 0 < r := by exact_mod_cast hr0
  have t1 : Real.log ((R : ℝ) * minMult) ≤ Real.log r := Real.log_le_log (mul_pos hR hm1) h1
  have t2 : Real.log r ≤ Real.log ((R : ℝ) * maxMult) - 1 / 2 ^ 30 := by
    have e := Real.log_le_log hr0 h2
    rw [Real.log_mul (mul_pos hR hm2).ne' (by norm_num)] at e
    have := Real.log_le_sub_one_of_pos (show (0 : ℝ) < 1 - 1 / 2 ^ 30 by norm_num)
    linarith
  have l3 : |(lg r : ℝ) - Real.log r| ≤ 1 / 2 ^ 41 := by
    refine (hlg r hr0').trans ?_
    have : |Real.log r| ≤ 45 := by
      rw [abs_le] at b1 b2 ⊢
      norm_num at t2
      constructor <;> linarith [b1.1, b2.2]
    norm_num
    linarith
  have key := bin_core n h.posN _ _ (lg r) _ _ (Real.log r) l1 l2 l3 hw (by rw [abs_le] at b1 b2; norm_num; linarith [b1.1, b2.2]) (by norm_num at t1 ⊢; linarith) (by norm_num at t2 ⊢; linarith)
  dsimp only at key
  obtain ⟨k1, k2, k3, k4, k5⟩ := key
  have hdl : dlr64 lg n (r64 (R * minMult)) (r64 (R * maxMult)) = r64 (r64 (lg (r64 (R * maxMult)) - lg (r64 (R * minMult))) / (n : ℚ)) := by
    unfold dlr64
    rw [r64_small (hn30.trans (by norm_num))]
  rw [← hdl] at k1 k2 k3 k4 k5
  have hq : quotInt (r64 (lg r - lg (r64 (R * minMult)))) (dlr64 lg n (r64 (R * minMult)) (r64 (R * maxMult))) = toInt (r64 (r64 (lg r - lg (r64 (R * minMult))) / dlr64 lg n (r64 (R * minMult)) (r64 (R * maxMult)))) := by
    unfold quotInt
    rw [if_neg k1]
  rw [← hq] at k2 k3 k4 k5
  generalize hz : quotInt (r64 (lg r - lg (r64 (R * minMult)))) (dlr64 lg n (r64 (R * minMult)) (r64 (R * maxMult))) = z at *
  obtain ⟨j, rfl⟩ := Int.eq_ofNat_of_zero_le k2
  have hjn : j < n := by
    rcases Nat.lt_or_ge j n with hj | hj
    · exact hj
    · exfalso
      have ej : j = n := by omega
      subst ej
      have := k4 (by have := h.posN; omega)
      rw [Int.cast_natCast, mul_div_cancel₀ _ hnp.ne'] at this
      norm_num at this t2
      linarith
  refine ⟨j, hjn, ?_, fun hj => ?_, ?_⟩
  · unfold fracBin64
    rw [if_neg (not_le.mpr hr0')]
    dsimp only
    rw [hz, if_neg (by omega)]
    rfl
  · have := k4 (by omega)
    rw [Int.cast_natCast] at this
    unfold logEdge
    have e : Real.exp (Real.log ((R : ℝ) * minMult) + j * ((Real.log ((R : ℝ) * maxMult) - Real.log ((R : ℝ) * minMult)) / n) - 1 / 2 ^ 37) ≤ r := by
      conv_rhs => rw [← Real.exp_log hr0]
      exact Real.exp_le_exp.mpr this
    rw [sub_eq_add_neg, Real.exp_add] at e
    refine le_trans (mul_le_mul_of_nonneg_left ?_ (Real.exp_pos _).le) e
    have := Real.add_one_le_exp (-(1 / 2 ^ 37 : ℝ))
    norm_num at this ⊢
    linarith
  · rw [Int.cast_natCast] at k5
    unfold logEdge
    have e : (r : ℝ) ≤ Real.exp (Real.log ((R : ℝ) * minMult) + (j + 1) * ((Real.log ((R : ℝ) * maxMult) - Real.log ((R : ℝ) * minMult)) / n) + 1 / 2 ^ 37) := by
      conv_lhs => rw [← Real.exp_log hr0]
      exact Real.exp_le_exp.mpr k5
    rw [Real.exp_add] at e
    refine lt_of_le_of_lt e (mul_lt_mul_of_pos_left ?_ (Real.exp_pos _))
    have := Real.abs_exp_sub_one_le (x := (1 / 2 ^ 37 : ℝ)) (by norm_num [abs_le])
    rw [abs_le] at this
    have h3 := this.2
    rw [abs_of_pos (by norm_num)] at h3
    norm_num at h3 ⊢
    linarith

/-! ### Counting -/

theorem modify_drop_sum (ns : List ℕ) (k i : ℕ) (hk : k < ns.length) : ((ns.modify k (· + 1)).drop i).sum = (ns.drop i).sum + if i ≤ k then 1 else 0 := by
  induction ns generalizing k i with
  | nil => simp at hk
  | cons a l ih =>
    cases k with
    | zero =>
      cases i with
      | zero => simp; omega
      | succ i => simp
    | succ k =>
      have hk' : k < l.length := by simpa using hk
      cases i with
      | zero =>
        have := ih k 0 hk'
        simp at this ⊢
        omega
      | succ i =>
        have := ih k i hk'
        simpa using this

theorem frac_fold (lg : ℚ → ℚ) (n : ℕ) (lo hi : ℚ) (radii : List ℚ) (hj : ∀ r ∈ radii, ∃ j, j < n ∧ fracBin64 lg n lo hi r = some j) : ∀ ns : List ℕ, ns.length = n →
    (radii.foldl (fracStep64 lg n lo hi) ns).length = n ∧
      ∀ i, ((radii.foldl (fracStep64 lg n lo hi) ns).drop i).sum = (ns.drop i).sum + (radii.filter fun r => decide (i ≤ (fracBin64 lg n lo hi r).getD 0)).length := by
  induction radii with
  | nil => intro ns hl; exact ⟨hl, fun i => by simp⟩
  | cons r rs ih =>
    intro ns hl
    obtain ⟨j, hjn, e⟩ := hj r List.mem_cons_self
    have es : fracStep64 lg n lo hi ns r = ns.modify j (· + 1) := by unfold fracStep64; rw [e]
    rw [List.foldl_cons, es]
    obtain ⟨g1, g2⟩ := ih (fun r hr => hj r (List.mem_cons_of_mem _ hr)) (ns.modify j (· + 1)) (by rw [List.length_modify]; exact hl)
    refine ⟨g1, fun i => ?_⟩
    rw [g2, modify_drop_sum ns j i (by omega), List.filter_cons, e]
    simp only [Option.getD_some, decide_eq_true_eq]
    split_ifs <;> simp <;> omega

theorem filter_length_mono {α : Type} (l : List α) (p q : α → Bool) (h : ∀ x ∈ l, p x = true → q x = true) : (l.filter p).length ≤ (l.filter q).length := by
  rw [← List.countP_eq_length_filter, ← List.countP_eq_length_filter]
  exact List.countP_mono_left h

/-! ### C137 -/

theorem nat_r64 {k : ℕ} (h : k < 2 ^ 53) : r64 (k : ℚ) = k := r64_float ⟨k, 0, by rw [abs_of_nonneg (by positivity)]; exact_mod_cast h, by simp⟩

/-- **C137 (partial).** The angular fraction profile of prof mode in machine arithmetic, for samples of a shell between the limits of the profile: the radii are the logarithmic centres of the bins up to a relative error of 2⁻³⁶;
the first fraction is 1; every fraction is a number between 0 and 1, no larger than those before it; and it is the fraction of the samples from the lower edge of the bin on, to the last bit, for an edge that may be moved by a
factor of `1 ± 2⁻³⁵`.  (Missing: shells that leave the limits, see `C73_beyond_false` and `C73_below_false`.) -/
theorem C137_fraction_partial (lg ex : ℚ → ℚ) (hlg : LogOk lg) (hex : ExpOk ex) (R minMult maxMult : ℚ) (n : ℕ) (h : ProfOk R minMult maxMult n) (radii : List ℚ) (hne : radii ≠ []) (hlen : radii.length < 2 ^ 53)
    (hin : ∀ r ∈ radii, (R : ℝ) * minMult ≤ r ∧ (r : ℝ) ≤ R * maxMult * (1 - 1 / 2 ^ 30)) :
    (fractionRow64 lg ex R minMult maxMult n radii).1.length = n ∧ (fractionRow64 lg ex R minMult maxMult n radii).2.length = n ∧
    (∀ j < n, |(((fractionRow64 lg ex R minMult maxMult n radii).1.getD j 0 : ℚ) : ℝ) - logEdge (R * minMult) (R * maxMult) n (j + 1 / 2)| ≤ logEdge (R * minMult) (R * maxMult) n (j + 1 / 2) / 2 ^ 36) ∧
    (fractionRow64 lg ex R minMult maxMult n radii).2.getD 0 none = some 1 ∧
    ∃ f : ℕ → ℚ, (∀ j < n, (fractionRow64 lg ex R minMult maxMult n radii).2.getD j none = some (f j)) ∧ (∀ j < n, 0 ≤ f j ∧ f j ≤ 1) ∧ (∀ j k, j ≤ k → k < n → f k ≤ f j) ∧
      ∀ j < n, (countFrom radii (logEdge (R * minMult) (R * maxMult) n j * (1 + 1 / 2 ^ 35)) : ℝ) / radii.length * (1 - 1 / 2 ^ 53) ≤ f j ∧
        (f j : ℝ) ≤ (countFrom radii (logEdge (R * minMult) (R * maxMult) n j * (1 - 1 / 2 ^ 35)) : ℝ) / radii.length * (1 + 1 / 2 ^ 53) := by
  obtain ⟨b1, b2, hn30⟩ := logs_bounded h
  have hb : ∀ r ∈ radii, ∃ j : ℕ, j < n ∧ fracBin64 lg n (r64 (R * minMult)) (r64 (R * maxMult)) r = some j ∧
      (1 ≤ j → logEdge (R * minMult) (R * maxMult) n j * (1 - 1 / 2 ^ 35) ≤ r) ∧ (r : ℝ) < logEdge (R * minMult) (R * maxMult) n (j + 1) * (1 + 1 / 2 ^ 35) :=
    fun r hr => fracBin_inside hlg h (hin r hr).1 (hin r hr).2
  obtain ⟨g1, g2⟩ := frac_fold lg n (r64 (R * minMult)) (r64 (R * maxMult)) radii (fun r hr => by obtain ⟨j, h1, h2, _⟩ := hb r hr; exact ⟨j, h1, h2⟩) (List.replicate n 0) (List.length_replicate ..)
  obtain ⟨c, hc⟩ : ∃ c : ℕ → ℕ, c = fun i => (radii.filter fun r => decide (i ≤ (fracBin64 lg n (r64 (R * minMult)) (r64 (R * maxMult)) r).getD 0)).length := ⟨_, rfl⟩
  have g3 : ∀ i, (revCumSum (radii.foldl (fracStep64 lg n (r64 (R * minMult)) (r64 (R * maxMult))) (List.replicate n 0))).getD i 0 = c i := by
    intro i
    rw [revCumSum_getD, g2, hc]
    simp
  have c0 : c 0 = radii.length := by rw [hc]; simp
  have cle : ∀ i, c i ≤ radii.length := by intro i; rw [hc]; exact List.length_filter_le _ _
  have cmono : ∀ i j, i ≤ j → c j ≤ c i := by
    intro i j hij
    rw [hc]
    exact filter_length_mono radii _ _ fun r _ hr => by simp only [decide_eq_true_eq] at hr ⊢; omega
  have hN : 0 < radii.length := List.length_pos_of_ne_nil hne
  have hNQ : (0 : ℚ) < radii.length := by exact_mod_cast hN
  have hNR : (0 : ℝ) < radii.length := by exact_mod_cast hN
  have ef : ∀ j < n, (fractionRow64 lg ex R minMult maxMult n radii).2.getD j none = some (r64 ((c j : ℚ) / radii.length)) := by
    intro j hj
    unfold fractionRow64 fractions64
    dsimp only
    have hlj : j < (revCumSum (radii.foldl (fracStep64 lg n (r64 (R * minMult)) (r64 (R * maxMult))) (List.replicate n 0))).length := by rw [revCumSum_length, g1]; exact hj
    have gj := g3 j
    rw [List.getD_eq_getElem _ _ hlj] at gj
    rw [List.getD_eq_getElem _ _ (by rw [List.length_map]; exact hlj), List.getElem_map, gj, g3 0, c0]
    unfold div64
    rw [nat_r64 hlen, nat_r64 (lt_of_le_of_lt (cle j) hlen), if_neg hNQ.ne']
  have cn : ∀ j, (0 : ℚ) ≤ (c j : ℚ) / radii.length := fun j => div_nonneg (by positivity) hNQ.le
  have one : r64 1 = 1 := r64_float ⟨1, 0, by norm_num, by norm_num⟩
  refine ⟨?_, ?_, ?_, ?_, fun j => r64 ((c j : ℚ) / radii.length), ef, ?_, ?_, ?_⟩
  · unfold fractionRow64 fractions64
    simp
  · unfold fractionRow64 fractions64
    dsimp only
    rw [List.length_map, revCumSum_length, g1]
  · intro j hj
    have e : (fractionRow64 lg ex R minMult maxMult n radii).1.getD j 0 = ex (r64 (r64 (dlr64 lg n (r64 (R * minMult)) (r64 (R * maxMult)) * ((j : ℚ) + 1 / 2)) + lg (r64 (R * minMult)))) := by
      unfold fractionRow64 fractions64
      dsimp only
      rw [getD_rangeMap _ _ _ _ hj, r64_small (by omega : j ≤ 2 ^ 40), r64_half (by omega), mul_comm (((j : ℚ) + 1 / 2)), add_comm]
    rw [e]
    have hjn : (j : ℚ) + 1 ≤ n := by exact_mod_cast hj
    have := edge_close hlg hex h ((j : ℚ) + 1 / 2) (by positivity) (by linarith)
    push_cast at this
    rw [mul_one_div] at this
    exact this
  · rw [ef 0 h.posN, c0, div_self hNQ.ne', one]
  · intro j hj
    constructor
    · have := (r64_bounds (cn j)).1
      exact le_trans (mul_nonneg (cn j) (by norm_num)) this
    · have : (c j : ℚ) / radii.length ≤ 1 := by
        rw [div_le_one hNQ]
        exact_mod_cast cle j
      have := r64_mono this
      rwa [one] at this
  · intro j k hjk hk
    apply r64_mono
    exact div_le_div_of_nonneg_right (by exact_mod_cast cmono j k hjk) hNQ.le
  · intro j hj
    have hE : ∀ i k : ℕ, i ≤ k → logEdge (R * minMult) (R * maxMult) n i ≤ logEdge (R * minMult) (R * maxMult) n k := by
      intro i k hik
      unfold logEdge
      apply Real.exp_le_exp.mpr
      have hw := h.wide
      have hik' : (i : ℝ) ≤ k := by exact_mod_cast hik
      have hL : 0 ≤ (Real.log ((R : ℝ) * maxMult) - Real.log ((R : ℝ) * minMult)) / n := div_nonneg (le_trans (by positivity) hw) (by positivity)
      have := mul_le_mul_of_nonneg_right hik' hL
      linarith
    have hlo : countFrom radii (logEdge (R * minMult) (R * maxMult) n j * (1 + 1 / 2 ^ 35)) ≤ c j := by
      rw [hc]
      unfold countFrom
      refine filter_length_mono radii _ _ fun r hr hp => ?_
      simp only [decide_eq_true_eq] at hp ⊢
      obtain ⟨z, z1, z2, -, z4⟩ := hb r hr
      rw [z2, Option.getD_some]
      by_contra hlt
      have hz := hE (z + 1) j (by omega)
      push_cast at hz
      have := mul_le_mul_of_nonneg_right hz (by norm_num : (0 : ℝ) ≤ 1 + 1 / 2 ^ 35)
      linarith
    have hhi : c j ≤ countFrom radii (logEdge (R * minMult) (R * maxMult) n j * (1 - 1 / 2 ^ 35)) := by
      rw [hc]
      unfold countFrom
      refine filter_length_mono radii _ _ fun r hr hp => ?_
      simp only [decide_eq_true_eq] at hp ⊢
      obtain ⟨z, z1, z2, z3, -⟩ := hb r hr
      rw [z2, Option.getD_some] at hp
      rcases Nat.eq_zero_or_pos z with hz | hz
      · have : j = 0 := by omega
        subst this
        have e0 : logEdge (R * minMult) (R * maxMult) n ((0 : ℕ) : ℝ) = (R : ℝ) * minMult := by
          unfold logEdge
          have hR : (0 : ℝ) < R := by exact_mod_cast h.posR
          have hm1 : (0 : ℝ) < minMult := by exact_mod_cast h.posMin
          rw [Nat.cast_zero, zero_mul, add_zero, Real.exp_log (mul_pos hR hm1)]
        rw [e0]
        have := (hin r hr).1
        have hp0 : (0 : ℝ) ≤ (R : ℝ) * minMult := by rw [← e0]; exact (logEdge_pos _ _ _ _).le
        refine le_trans (mul_le_of_le_one_right hp0 (by norm_num)) this
      · exact (mul_le_mul_of_nonneg_right (hE j z hp) (by norm_num)).trans (z3 hz)
    have e1 : (((c j : ℚ) / radii.length : ℚ) : ℝ) = (c j : ℝ) / radii.length := by push_cast; rfl
    have er := r64_errR ((c j : ℚ) / radii.length)
    rw [e1, abs_of_nonneg (div_nonneg (Nat.cast_nonneg (c j)) hNR.le), abs_le] at er
    have q1 : (c j : ℝ) / radii.length * (1 - 1 / 2 ^ 53) ≤ (r64 ((c j : ℚ) / radii.length) : ℝ) := by linarith [er.1]
    have q2 : (r64 ((c j : ℚ) / radii.length) : ℝ) ≤ (c j : ℝ) / radii.length * (1 + 1 / 2 ^ 53) := by linarith [er.2]
    constructor
    · refine le_trans (mul_le_mul_of_nonneg_right (div_le_div_of_nonneg_right ?_ hNR.le) (by norm_num)) q1
      exact_mod_cast hlo
    · refine q2.trans (mul_le_mul_of_nonneg_right (div_le_div_of_nonneg_right ?_ hNR.le) (by norm_num))
      exact_mod_cast hhi

/-! ### Examples: the hypotheses are met -/

/-- Three samples of a shell, for the limits of the prof mode: the first fraction is 1, and the fraction of a bin whose edges are clear of the samples is exact to the last bit. -/
example : ProfOk 1 (1 / 32) 4 10 ∧ (∀ r ∈ ([1 / 2, 1, 5 / 4] : List ℚ), ((1 : ℚ) : ℝ) * ((1 / 32 : ℚ) : ℝ) ≤ r ∧ (r : ℝ) ≤ ((1 : ℚ) : ℝ) * ((4 : ℚ) : ℝ) * (1 - 1 / 2 ^ 30)) ∧
    (fractionRow64 (fun x => rnReal (Real.log x)) (fun x => rnReal (Real.exp x)) 1 (1 / 32) 4 10 [1 / 2, 1, 5 / 4]).2.getD 0 none = some 1 := by
  have h : ∀ r ∈ ([1 / 2, 1, 5 / 4] : List ℚ), ((1 : ℚ) : ℝ) * ((1 / 32 : ℚ) : ℝ) ≤ r ∧ (r : ℝ) ≤ ((1 : ℚ) : ℝ) * ((4 : ℚ) : ℝ) * (1 - 1 / 2 ^ 30) := by
    intro r hr
    simp only [List.mem_cons, List.not_mem_nil, or_false] at hr
    rcases hr with rfl | rfl | rfl <;> norm_num
  exact ⟨profOk_default, h, (C137_fraction_partial _ _ logOk_rounded expOk_rounded 1 (1 / 32) 4 10 profOk_default [1 / 2, 1, 5 / 4] (by simp) (by norm_num) h).2.2.2.1⟩

end Shellfish.Round
