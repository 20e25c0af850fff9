/-
C76: points for which the tree exists.
-/
import Verif.Props.KdeFilter

namespace Shellfish.Kde
open Shellfish.Interp (Spline newSpline calcY2s calcCoeff piece)

/-- The spline of a table with the step `d` whose values are between 0 and 2: its values, with second derivatives of at most `12 / d²`. -/
theorem spline_value (d : ℝ) (hd : 0 < d) (xs ys : List ℝ) (n : Nat) (hn : 3 ≤ n) (hx : xs.length = n) (hy : ys.length = n) (hxs : ∀ i < n, xs.getD i 0 = d * (i : ℝ))
    (hb : ∀ i < n, 0 ≤ ys.getD i 0 ∧ ys.getD i 0 ≤ 2) : ∃ (sp : Spline ℝ) (M : Nat → ℝ), newSpline xs ys = some sp ∧ (∀ i < n, |M i| ≤ 12 / d ^ 2) ∧
      ∀ i, i + 1 < n → ∀ t, 0 ≤ t → t ≤ 1 → sp.eval (d * (i : ℝ) + t * d) =
        some ((1 - t) * ys.getD i 0 + t * ys.getD (i + 1) 0 - d ^ 2 / 6 * (((1 - t) - (1 - t) ^ 3) * M i + (t - t ^ 3) * M (i + 1))) := by
  have hs : xs.Pairwise (· < ·) := by
    rw [List.pairwise_iff_getElem]
    intro i j hi hj hij
    rw [← List.getD_eq_getElem xs 0 hi, ← List.getD_eq_getElem xs 0 hj, hxs i (by omega), hxs j (by omega)]
    have : (i : ℝ) < j := by exact_mod_cast hij
    nlinarith
  obtain ⟨sp, p, hsp, hspx, _, hp, _, hev, _⟩ := Interp.spline_core (K := ℝ) true xs ys (by simpa using hs) (by omega) (by omega)
  obtain ⟨M, hM, h0, h1, heq⟩ := Interp.calcY2s_spec (K := ℝ) (incr := true) (xs := xs) (ys := ys) (by unfold Interp.Monotone; simpa using hs) (by omega)
  have hco : sp.coeffs = calcCoeff xs ys M := by
    unfold newSpline at hsp
    dsimp only at hsp
    split_ifs at hsp
    all_goals
      rw [hM] at hsp
      rw [← Option.some.inj hsp]
  rw [hx] at h1 heq
  refine ⟨sp, M, hsp, ?_, fun i hi t ht0 ht1 => ?_⟩
  · obtain ⟨k, hk, hmax⟩ := Finset.exists_max_image (Finset.range n) (fun i => |M i|) ⟨0, Finset.mem_range.2 (by omega)⟩
    rw [Finset.mem_range] at hk
    have hkb : |M k| ≤ 12 / d ^ 2 := by
      by_cases hk0 : k = 0
      · rw [hk0, h0, abs_zero]; positivity
      by_cases hkn : k = n - 1
      · rw [hkn, h1, abs_zero]; positivity
      obtain ⟨j, rfl⟩ : ∃ j, k = j + 1 := ⟨k - 1, by omega⟩
      have e := heq j (by omega)
      rw [hxs j (by omega), hxs (j + 1) (by omega), hxs (j + 2) (by omega)] at e
      push_cast at e
      have e1 : d * ((j : ℝ) + 1) - d * j = d := by ring
      have e2 : d * ((j : ℝ) + 2) - d * j = 2 * d := by ring
      have e3 : d * ((j : ℝ) + 2) - d * (j + 1) = d := by ring
      rw [e1, e2, e3] at e
      have m1 := hmax j (Finset.mem_range.2 (by omega))
      have m2 := hmax (j + 2) (Finset.mem_range.2 (by omega))
      obtain ⟨a1, a2⟩ := abs_le.1 m1
      obtain ⟨c1, c2⟩ := abs_le.1 m2
      have y0 := hb j (by omega)
      have y1 := hb (j + 1) (by omega)
      have y2 := hb (j + 2) (by omega)
      have e4 : d ^ 2 * (M j + 4 * M (j + 1) + M (j + 2)) = 6 * (ys.getD (j + 2) 0 - 2 * ys.getD (j + 1) 0 + ys.getD j 0) := by
        field_simp at e; linarith
      rw [le_div_iff₀ (by positivity)]
      have hd2 : 0 < d ^ 2 := by positivity
      rcases le_total 0 (M (j + 1)) with hm | hm
      · rw [abs_of_nonneg hm] at *
        nlinarith
      · rw [abs_of_nonpos hm] at *
        nlinarith
    intro i hi
    exact (hmax i (Finset.mem_range.2 hi)).trans hkb
  · have hin := (hev i (d * (i : ℝ) + t * d) (by omega) (by
      rw [hxs i (by omega), hxs (i + 1) (by omega)]
      push_cast
      simp only [if_true]
      constructor <;> nlinarith)).1
    rw [hin, hp]
    dsimp only
    rw [Interp.piece_eval, hco, hxs i (by omega)]
    refine congrArg some ?_
    unfold calcCoeff
    dsimp only
    rw [hxs i (by omega), hxs (i + 1) (by omega)]
    push_cast
    have e1 : d * ((i : ℝ) + 1) - d * i = d := by ring
    have e2 : d * (i : ℝ) + t * d - d * i = t * d := by ring
    rw [e1, e2]
    field_simp
    ring

theorem exp_small (u : ℝ) (hu : 100 ≤ u ^ 2) : Real.exp (-(u ^ 2)) ≤ 1 / 100 := by
  rw [Real.exp_neg]
  have := Real.add_one_le_exp (u ^ 2)
  rw [inv_eq_one_div]
  exact one_div_le_one_div_of_le (by norm_num) (by linarith)

/-- The points with the radii 1/99 and 1, and a narrow kernel. -/
theorem usable_example : Usable [1 / 99, 1] [0, 3] (1 / 990) where
  some := by simp
  lengths := rfl
  radius := by intro r hr; rcases List.mem_pair.1 hr with rfl | rfl <;> norm_num
  angle := by
    intro t ht
    have := Real.two_le_pi
    rcases List.mem_pair.1 ht with rfl | rfl <;> constructor <;> linarith
  width := by norm_num

/-- These points have a maximum at the radius 1/100. -/
theorem max_example : BinMax [1 / 99, 1] [0, 3] (1 / 990) 0 0 (1 / 100) := by
  have hmr : maxRadius [1 / 99, 1] = 1 := by unfold maxRadius; norm_num
  unfold BinMax binKde
  rw [inBin_whole [1 / 99, 1] [0, 3] rfl usable_example.angle, hmr]
  obtain ⟨sp0, hsp0, hv⟩ := C76_kde [1 / 99, 1] (1 / 990) 0 1 100 (by norm_num) (by norm_num) (by norm_num)
  obtain ⟨hlen, _⟩ := kde_sum (1 / 990) 0 1 100 [1 / 99, 1] (List.replicate 100 0) (by simp)
  obtain ⟨sp1, hsp1, hk⟩ := Interp.C42_spline_knots (K := ℝ) true (kdeXs 0 1 100) ([1 / 99, 1].foldl (kdeAdd (1 / 990) 0 1 100) (List.replicate 100 0))
    (by simpa using kdeXs_sorted 0 1 100 (by omega) (by norm_num)) (by rw [kdeXs_length]; omega) (by rw [kdeXs_length, hlen])
  have : sp1 = sp0 := Option.some.inj (hsp1.symm.trans hsp0)
  subst this
  unfold gaussianKDE at hsp0 ⊢
  have hys : ∀ i : Nat, i < 100 → sp1.eval (0 + (1 - 0) / ((100 : Nat) - 1) * (i : ℝ)) = some (([1 / 99, 1].foldl (kdeAdd (1 / 990) 0 1 100) (List.replicate 100 0)).getD i 0) := by
    intro i hi
    have := hk i (by rw [kdeXs_length]; exact hi)
    rwa [kdeXs_get 0 1 100 (by omega) i hi] at this
  generalize hY : [1 / 99, 1].foldl (kdeAdd (1 / 990) 0 1 100) (List.replicate 100 0) = Y at *
  have hnode : ∀ i : Nat, i < 100 → 0 ≤ Y.getD i 0 ∧ Y.getD i 0 ≤ Real.exp (-((((i : ℝ) - 1) * 10) ^ 2)) + Real.exp (-((((i : ℝ) - 99) * 10) ^ 2)) ∧
      Real.exp (-((((i : ℝ) - 1) * 10) ^ 2)) + Real.exp (-((((i : ℝ) - 99) * 10) ^ 2)) ≤ Y.getD i 0 + 2 * Real.exp (-9) := by
    intro i hi
    obtain ⟨v, h1, h2, h3, h4⟩ := hv i hi
    rw [hys i hi] at h1
    rw [Option.some.inj h1]
    simp only [List.map_cons, List.map_nil, List.sum_cons, List.sum_nil, add_zero, List.length_cons, List.length_nil] at h3 h4
    push_cast at h3 h4
    have e1 : (0 + (1 - 0) / ((100 : ℝ) - 1) * (i : ℝ) - 1 / 99) / (1 / 990) = ((i : ℝ) - 1) * 10 := by field_simp; ring
    have e2 : (0 + (1 - 0) / ((100 : ℝ) - 1) * (i : ℝ) - 1) / (1 / 990) = ((i : ℝ) - 99) * 10 := by field_simp; ring
    rw [e1, e2] at h3 h4
    exact ⟨h2, h3, by linarith⟩
  have hle1 : ∀ u : ℝ, Real.exp (-(u ^ 2)) ≤ 1 := fun u => Real.exp_le_one_iff.2 (by nlinarith [sq_nonneg u])
  have hpos : ∀ u : ℝ, 0 < Real.exp u := Real.exp_pos
  obtain ⟨sp2, M, hsp2, hM, hval⟩ := spline_value (1 / 99) (by norm_num) (kdeXs 0 1 100) Y 100 (by omega) (kdeXs_length _ _ _) hlen
    (fun i hi => by rw [kdeXs_get 0 1 100 (by omega) i hi]; push_cast; ring)
    (fun i hi => ⟨(hnode i hi).1, by have := hnode i hi; have a := hle1 (((i : ℝ) - 1) * 10); have b := hle1 (((i : ℝ) - 99) * 10); linarith⟩)
  have : sp2 = sp1 := Option.some.inj (hsp2.symm.trans hsp0)
  subst this
  have hy0 : Y.getD 0 0 ≤ 1 / 50 := by
    have := (hnode 0 (by omega)).2.1
    have a := exp_small ((((0 : Nat) : ℝ) - 1) * 10) (by norm_num)
    have b := exp_small ((((0 : Nat) : ℝ) - 99) * 10) (by norm_num)
    exact (this.trans (add_le_add a b)).trans (by norm_num)
  have hy2 : Y.getD 2 0 ≤ 1 / 50 := by
    have := (hnode 2 (by omega)).2.1
    have a := exp_small ((((2 : Nat) : ℝ) - 1) * 10) (by norm_num)
    have b := exp_small ((((2 : Nat) : ℝ) - 99) * 10) (by norm_num)
    exact (this.trans (add_le_add a b)).trans (by norm_num)
  have hy1 : 4 / 5 ≤ Y.getD 1 0 ∧ Y.getD 1 0 ≤ 2 := by
    have h := hnode 1 (by omega)
    have a : Real.exp (-((((1 : Nat) : ℝ) - 1) * 10) ^ 2) = 1 := by norm_num
    have b := hle1 ((((1 : Nat) : ℝ) - 99) * 10)
    have c : Real.exp (-9) ≤ 1 / 10 := by
      rw [Real.exp_neg, inv_eq_one_div]
      exact one_div_le_one_div_of_le (by norm_num) (by linarith [Real.add_one_le_exp (9 : ℝ)])
    have b' := hpos (-((((1 : Nat) : ℝ) - 99) * 10) ^ 2)
    constructor <;> linarith [h.2.1, h.2.2, hle1 ((((1 : Nat) : ℝ) - 1) * 10)]
  have n0 := (hnode 0 (by omega)).1
  have n2 := (hnode 2 (by omega)).1
  have m1 := abs_le.1 (hM 1 (by omega))
  have m0 := abs_le.1 (hM 0 (by omega))
  have m2 := abs_le.1 (hM 2 (by omega))
  have v0 := hval 0 (by omega) 0 (by norm_num) (by norm_num)
  have v1 := hval 0 (by omega) (99 / 100) (by norm_num) (by norm_num)
  have v2 := hval 1 (by omega) (98 / 100) (by norm_num) (by norm_num)
  have g0 : gridR 1 0 = 1 / 99 * ((0 : Nat) : ℝ) + 0 * (1 / 99) := by unfold gridR; norm_num
  have g1 : gridR 1 1 = 1 / 99 * ((0 : Nat) : ℝ) + 99 / 100 * (1 / 99) := by unfold gridR; norm_num
  have g2 : gridR 1 2 = 1 / 99 * ((1 : Nat) : ℝ) + 98 / 100 * (1 / 99) := by unfold gridR; norm_num
  refine ⟨sp2, hsp0, 1, _, _, _, by omega, by omega, by unfold gridR; norm_num, by rw [g0]; exact v0, by rw [g1]; exact v1, by rw [g2]; exact v2, ?_, ?_⟩
  · norm_num at m0 m1 m2 ⊢
    norm_num at n0 n2 hy0 hy1 hy2
    linarith
  · norm_num at m0 m1 m2 ⊢
    norm_num at n0 n2 hy0 hy1 hy2
    linarith

/-- The tree of these points exists, with any number of levels. -/
theorem tree_example (splits : Nat) : ∃ kt, newKDETree [1 / 99, 1] [0, 3] splits (1 / 990) = some (kt, true) := by
  rcases C76_tree _ _ splits _ usable_example with ⟨h, _⟩ | ⟨kt, h, _⟩
  · exact absurd max_example (h _)
  · exact ⟨kt, h⟩

example : ∃ kt ms ths, newKDETree [1 / 99, 1] [0, 3] 3 (1 / 990) = some (kt, true) ∧ getConnMaxes kt.thTree kt.connMaxes 3 = some (ms, ths) ∧ ms.length = 8 := by
  obtain ⟨kt, h⟩ := tree_example 3
  obtain ⟨ms, ths, h1, h2, _⟩ := C76_anchors _ _ 3 _ usable_example kt true h 3 (le_refl _)
  exact ⟨kt, ms, ths, h, h1, h2⟩

end Shellfish.Kde
