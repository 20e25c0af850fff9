/- C72: histograms and medians of splashback shells.  C73: angular fractions. -/
import Verif.Props.Shell
import Verif.Props.Sort
import Mathlib.Analysis.SpecialFunctions.Pow.Real

namespace Shellfish.Analyze
noncomputable section
open Shellfish.Geom (Vec atan2)
open Shellfish.Los (goInt)
open Shellfish.Cmd (edge)
open Real

/-! Specification -/

open Classical in
/-- The number of the samples whose radius has the property `p`. -/
def samples (s : Shell) (draws : List (ℝ × ℝ)) (p : ℝ → Prop) : Nat := (draws.filter fun d => decide (p (s.at d))).length

/-! Medians -/

/-- The median radius of a nonempty sample is one of the sampled radii; for an even number of samples it is a median of them.
Missing: with an odd number of samples (at least three) it is the next larger one (`C02_median_odd_rank`). -/
theorem C72_median_partial (s : Shell) (draws : List (ℝ × ℝ)) (hne : draws ≠ []) :
    ∃ r, s.medianRadius draws = some r ∧ r ∈ draws.map s.at ∧ (draws.length % 2 = 0 → Sort.IsMedian (draws.map s.at) r) := by
  have hl := List.length_pos_of_ne_nil hne
  unfold Shell.medianRadius
  dsimp only
  by_cases h1 : draws.length = 1
  · obtain ⟨d, rfl⟩ := List.length_eq_one_iff.1 h1
    refine ⟨s.at d, ?_, by simp, by intro h; simp at h⟩
    simp [Sort.median, Sort.nthLargest, Sort.nthLargestFuel]
  · obtain ⟨r, h2, h3, _⟩ := Sort.C02_nthLargest (draws.map s.at) ((draws.length / 2 : Nat) : Int) (some (draws.map s.at)) (by omega) (by rw [List.length_map]; omega)
      (by intro b hb; cases hb; rfl)
    have e : Sort.median (draws.map s.at) (some (draws.map s.at)) = some r := by
      unfold Sort.median
      rw [List.length_map, if_neg (by omega)]; exact h2
    refine ⟨r, e, h3, fun h => ?_⟩
    obtain ⟨q, h4, h5⟩ := Sort.C02_median_even_partial (draws.map s.at) (some (draws.map s.at)) (draws.length / 2) (by omega) (by rw [List.length_map]; omega) (by intro b hb; cases hb; rfl)
    rw [e] at h4
    cases h4
    exact h5

/-- So it is between the smallest and the largest radius of the shell. -/
theorem C72_median_between (s : Shell) (lo hi : ℝ) (hs : Between s lo hi) (draws : List (ℝ × ℝ)) (hne : draws ≠ []) (hd : ∀ d ∈ draws, Draw d) :
    ∃ r, s.medianRadius draws = some r ∧ lo ≤ r ∧ r ≤ hi := by
  obtain ⟨r, h1, h2, _⟩ := C72_median_partial s draws hne
  obtain ⟨d, hm, rfl⟩ := List.mem_map.1 h2
  exact ⟨_, h1, at_between hs (hd d hm)⟩

/-! Histograms -/

theorem bin_index {bins : Nat} {rMin rMax r : ℝ} (hb : 0 < bins) (h : rMin < rMax) (h0 : rMin ≤ r) :
    ∃ j : Nat, goInt ((r - rMin) / ((rMax - rMin) / (bins : ℝ))) = j ∧ (∀ i : Nat, i = j ↔ rMin + (rMax - rMin) / bins * i ≤ r ∧ r < rMin + (rMax - rMin) / bins * (i + 1)) ∧
      (j < bins ↔ r < rMax) := by
  have hbr : (0 : ℝ) < bins := by exact_mod_cast hb
  have hd : 0 < (rMax - rMin) / (bins : ℝ) := div_pos (by linarith) hbr
  obtain ⟨j, e, h1, h2⟩ := Shellfish.Cmd.linear_bin hd (show 0 ≤ r - rMin by linarith)
  have hN : (rMax - rMin) / (bins : ℝ) * bins = rMax - rMin := by field_simp
  refine ⟨j, e, fun i => ⟨?_, ?_⟩, ?_, ?_⟩
  · rintro rfl; constructor <;> linarith
  · rintro ⟨h3, h4⟩; exact Shellfish.Cmd.linear_unique hd (by linarith) (by linarith) h1 h2
  · intro hj
    have : ((j : ℝ) + 1) ≤ bins := by exact_mod_cast hj
    have := mul_le_mul_of_nonneg_left this hd.le
    linarith
  · intro hr
    by_contra hc
    have : (bins : ℝ) ≤ j := by exact_mod_cast not_lt.1 hc
    have := mul_le_mul_of_nonneg_left this hd.le
    linarith

theorem hist_fold (s : Shell) (bins : Nat) (rMin rMax : ℝ) (hb : 0 < bins) (h : rMin < rMax) (draws : List (ℝ × ℝ)) (st : List ℝ × Nat) (hst : st.1.length = bins) :
    let o := draws.foldl (histStep s bins rMin ((rMax - rMin) / bins)) st
    o.1.length = bins ∧ o.2 = st.2 + samples s draws (fun r => rMin ≤ r ∧ r < rMax) ∧ o.1.sum = st.1.sum + samples s draws (fun r => rMin ≤ r ∧ r < rMax) ∧
    ∀ i < bins, o.1.getD i 0 = st.1.getD i 0 + samples s draws (fun r => rMin + (rMax - rMin) / bins * i ≤ r ∧ r < rMin + (rMax - rMin) / bins * (i + 1)) := by
  have hbr : (0 : ℝ) < bins := by exact_mod_cast hb
  have hdr : 0 < (rMax - rMin) / (bins : ℝ) := div_pos (by linarith) hbr
  induction draws generalizing st with
  | nil => simp [samples, hst]
  | cons d ds ih =>
    dsimp only
    rw [List.foldl_cons]
    have key : (histStep s bins rMin ((rMax - rMin) / bins) st d).1.length = bins ∧
        (histStep s bins rMin ((rMax - rMin) / bins) st d).2 = st.2 + samples s [d] (fun r => rMin ≤ r ∧ r < rMax) ∧
        (histStep s bins rMin ((rMax - rMin) / bins) st d).1.sum = st.1.sum + samples s [d] (fun r => rMin ≤ r ∧ r < rMax) ∧
        ∀ i < bins, (histStep s bins rMin ((rMax - rMin) / bins) st d).1.getD i 0 =
          st.1.getD i 0 + samples s [d] (fun r => rMin + (rMax - rMin) / bins * i ≤ r ∧ r < rMin + (rMax - rMin) / bins * (i + 1)) := by
      unfold histStep samples
      dsimp only
      by_cases h0 : rMin ≤ s.at d
      · rw [if_neg (not_lt.2 (div_nonneg (by linarith) hdr.le))]
        obtain ⟨j, e, hj, hj'⟩ := bin_index hb h h0
        rw [e]
        by_cases hr : s.at d < rMax
        · have hjb := hj'.2 hr
          rw [if_neg (by push Not; exact_mod_cast hjb)]
          dsimp only
          rw [Int.toNat_natCast]
          refine ⟨by rw [List.length_modify]; exact hst, ?_, ?_, ?_⟩
          · simp [h0, hr]
          · rw [Shellfish.Cmd.sum_modify _ _ _ (by omega)]; simp [h0, hr]
          · intro i hi
            rw [Shellfish.Cmd.getD_modify _ _ _ _ (by omega)]
            by_cases hij : i = j
            · have := (hj i).1 hij
              simp [hij, this.1, this.2]
              rw [← hij]; simp [this.1, this.2]
            · have : ¬ (rMin + (rMax - rMin) / ↑bins * ↑i ≤ s.at d ∧ s.at d < rMin + (rMax - rMin) / ↑bins * (↑i + 1)) := fun hc => hij ((hj i).2 hc)
              rw [if_neg hij]
              rw [List.filter_cons, if_neg (by simpa using this)]; simp
        · rw [if_pos (by exact_mod_cast not_lt.1 (fun hc => hr (hj'.1 hc)))]
          refine ⟨hst, by simp [hr], by simp [hr], fun i hi => ?_⟩
          have : ¬ (rMin + (rMax - rMin) / ↑bins * ↑i ≤ s.at d ∧ s.at d < rMin + (rMax - rMin) / ↑bins * (↑i + 1)) := fun hc => hr (hj'.1 ((hj i).2 hc ▸ hi))
          rw [List.filter_cons, if_neg (by simpa using this)]; simp
      · have hneg : (s.at d - rMin) / ((rMax - rMin) / bins) < 0 := div_neg_of_neg_of_pos (by linarith [not_le.1 h0]) hdr
        rw [if_pos hneg]
        refine ⟨hst, by simp [h0], by simp [h0], fun i hi => ?_⟩
        have : ¬ (rMin + (rMax - rMin) / ↑bins * ↑i ≤ s.at d ∧ s.at d < rMin + (rMax - rMin) / ↑bins * (↑i + 1)) := fun hc => by
          have h5 : 0 ≤ (rMax - rMin) / (bins : ℝ) * i := by positivity
          exact h0 (by linarith [hc.1])
        rw [List.filter_cons, if_neg (by simpa using this)]; simp
    obtain ⟨k1, k2, k3, k4⟩ := key
    obtain ⟨i1, i2, i3, i4⟩ := ih _ k1
    have split : ∀ p : ℝ → Prop, samples s (d :: ds) p = samples s [d] p + samples s ds p := by
      intro p
      unfold samples
      rw [← List.singleton_append, List.filter_append, List.length_append]
    refine ⟨i1, ?_, ?_, fun i hi => ?_⟩
    · rw [i2, k2, split]; omega
    · rw [i3, k3, split]; push_cast; ring
    · rw [i4 i hi, k4 i hi, split]; push_cast; ring

/-- Value `i` of the histogram is the density of the sampled radii in bin `i` of `bins` equal bins between `rMin` and `rMax`, and the radii are the middles of the bins. -/
theorem C72_histogram (s : Shell) (draws : List (ℝ × ℝ)) (bins : Nat) (rMin rMax : ℝ) (hb : 0 < bins) (h : rMin < rMax) :
    (s.radiusHistogram draws bins rMin rMax).1.length = bins ∧ (s.radiusHistogram draws bins rMin rMax).2.length = bins ∧
    ∀ i < bins, (s.radiusHistogram draws bins rMin rMax).1.getD i 0 = (rMin + (rMax - rMin) / bins * i + (rMin + (rMax - rMin) / bins * (i + 1))) / 2 ∧
      (s.radiusHistogram draws bins rMin rMax).2.getD i 0 =
        (samples s draws (fun r => rMin + (rMax - rMin) / bins * i ≤ r ∧ r < rMin + (rMax - rMin) / bins * (i + 1)) : ℝ) /
          ((samples s draws (fun r => rMin ≤ r ∧ r < rMax) : ℝ) * ((rMax - rMin) / bins)) := by
  obtain ⟨h1, h2, _, h4⟩ := hist_fold s bins rMin rMax hb h draws (List.replicate bins 0, 0) (by simp)
  refine ⟨by simp [Shell.radiusHistogram], by unfold Shell.radiusHistogram; dsimp only; rw [List.length_map]; exact h1, fun i hi => ⟨?_, ?_⟩⟩
  · unfold Shell.radiusHistogram
    dsimp only
    rw [List.getD_eq_getElem _ _ (by simpa using hi), List.getElem_map, List.getElem_range]
    ring
  · unfold Shell.radiusHistogram
    dsimp only
    rw [List.getD_eq_getElem _ _ (by rw [List.length_map, h1]; exact hi), List.getElem_map]
    have := h4 i hi
    rw [List.getD_eq_getElem _ _ (by rw [h1]; exact hi)] at this
    rw [this, h2]
    simp

/-- The integral of the histogram is one when a sample is in its range. -/
theorem C72_histogram_normed (s : Shell) (draws : List (ℝ × ℝ)) (bins : Nat) (rMin rMax : ℝ) (hb : 0 < bins) (h : rMin < rMax) (hr : ∃ d ∈ draws, rMin ≤ s.at d ∧ s.at d < rMax) :
    ((s.radiusHistogram draws bins rMin rMax).2.map fun v => v * ((rMax - rMin) / bins)).sum = 1 := by
  have hbr : (0 : ℝ) < bins := by exact_mod_cast hb
  have hdr : 0 < (rMax - rMin) / (bins : ℝ) := div_pos (by linarith) hbr
  obtain ⟨h1, h2, h3, _⟩ := hist_fold s bins rMin rMax hb h draws (List.replicate bins 0, 0) (by simp)
  have hn : 0 < samples s draws (fun r => rMin ≤ r ∧ r < rMax) := by
    obtain ⟨d, hd, h5⟩ := hr
    unfold samples
    exact List.length_pos_of_mem (List.mem_filter.2 ⟨hd, by simpa using h5⟩)
  have hn' : (0 : ℝ) < samples s draws (fun r => rMin ≤ r ∧ r < rMax) := by exact_mod_cast hn
  unfold Shell.radiusHistogram
  dsimp only
  rw [List.map_map]
  have e : ((fun v => v * ((rMax - rMin) / (bins : ℝ))) ∘ fun n => n / (((draws.foldl (histStep s bins rMin ((rMax - rMin) / bins)) (List.replicate bins 0, 0)).2 : ℝ) * ((rMax - rMin) / bins))) =
      fun n => (samples s draws (fun r => rMin ≤ r ∧ r < rMax) : ℝ)⁻¹ * n := by
    funext n
    rw [h2, Function.comp]
    dsimp only
    rw [Nat.zero_add]
    generalize (rMax - rMin) / (bins : ℝ) = w at hdr
    field_simp
  rw [e, List.sum_map_mul_left, List.map_id', h3]
  simp
  exact inv_mul_cancel₀ hn'.ne'

/-! Angular fractions -/

/-- The radius one bin below `rMin`. -/
def below (rMin rMax : ℝ) (n : Nat) : ℝ := rMin / (rMax / rMin) ^ ((1 : ℝ) / n)

theorem below_exp {a b : ℝ} (ha : 0 < a) (hb : 0 < b) (n : Nat) : below a b n = Real.exp (Real.log a - (Real.log b - Real.log a) / (n : ℝ)) := by
  unfold below
  rw [Real.rpow_def_of_pos (div_pos hb ha), Real.log_div hb.ne' ha.ne', Real.exp_sub, Real.exp_log ha]
  congr 2
  ring

theorem below_lt {a b : ℝ} (ha : 0 < a) (hab : a < b) (n : Nat) (hn : 0 < n) : below a b n < a := by
  rw [below_exp ha (ha.trans hab)]
  have : 0 < (Real.log b - Real.log a) / (n : ℝ) := div_pos (by linarith [Real.log_lt_log ha hab]) (by exact_mod_cast hn)
  calc Real.exp (Real.log a - (Real.log b - Real.log a) / (n : ℝ)) < Real.exp (Real.log a) := Real.exp_lt_exp.2 (by linarith)
    _ = a := Real.exp_log ha

/-- The radii that are counted in bin `i`. -/
def InBin (rMin rMax : ℝ) (n i : Nat) (r : ℝ) : Prop :=
  if i = 0 then below rMin rMax n < r ∧ r < edge rMin rMax n 1 else edge rMin rMax n i ≤ r ∧ r < edge rMin rMax n (i + 1)

theorem frac_index {rMin rMax r : ℝ} {n : Nat} (h0 : 0 < rMin) (h : rMin < rMax) (hn : 0 < n) (hr : 0 < r) (i : Nat) :
    goInt ((Real.log r - Real.log rMin) / ((Real.log rMax - Real.log rMin) / (n : ℝ))) = (i : Int) ↔ InBin rMin rMax n i r := by
  have hd : 0 < (Real.log rMax - Real.log rMin) / (n : ℝ) := div_pos (by linarith [Real.log_lt_log h0 h]) (by exact_mod_cast hn)
  have e1 : ∀ j : Nat, edge rMin rMax n j ≤ r ↔ (Real.log rMax - Real.log rMin) / (n : ℝ) * j ≤ Real.log r - Real.log rMin := by
    intro j
    rw [Shellfish.Cmd.edge_exp h0 (h0.trans h), ← Real.le_log_iff_exp_le hr]
    constructor <;> intro h <;> linarith
  have e2 : below rMin rMax n < r ↔ -((Real.log rMax - Real.log rMin) / (n : ℝ)) < Real.log r - Real.log rMin := by
    rw [below_exp h0 (h0.trans h), ← Real.lt_log_iff_exp_lt hr]
    constructor <;> intro h <;> linarith
  rw [Shellfish.Cmd.velocity_bin hd]
  unfold InBin
  have e3 := e1 (i + 1)
  have e4 := e1 1
  have e5 := e1 i
  push_cast at e3 e4
  by_cases hi : i = 0
  · subst hi
    have e4' := not_congr e4
    rw [not_le, not_le] at e4'
    rw [if_pos rfl, e2, e4']
    simp only [Nat.cast_zero, mul_zero, zero_add, true_and]
    constructor
    · rintro (⟨h1, h2⟩ | ⟨h1, h2⟩)
      · exact ⟨by linarith, by linarith⟩
      · exact ⟨by linarith, by linarith⟩
    · rintro ⟨h1, h2⟩
      by_cases hc : 0 ≤ Real.log r - Real.log rMin
      · exact .inl ⟨hc, by linarith⟩
      · exact .inr ⟨by linarith, by linarith⟩
  · have e3' := not_congr e3
    rw [not_le, not_le] at e3'
    rw [if_neg hi, e5, e3']
    simp [hi]

theorem frac_lt {rMin rMax r : ℝ} {n : Nat} (h0 : 0 < rMin) (h : rMin < rMax) (hn : 0 < n) {i : Nat} (hi : InBin rMin rMax n i r) :
    r < edge rMin rMax n (i + 1) := by
  unfold InBin at hi
  by_cases h0 : i = 0
  · rw [if_pos h0] at hi; rw [h0]; exact hi.2
  · rw [if_neg h0] at hi; exact hi.2

theorem getD_modify_nat (l : List Nat) (i j : Nat) (hi : i < l.length) : (l.modify i (· + 1)).getD j 0 = l.getD j 0 + if j = i then 1 else 0 := by
  simp only [List.getD_eq_getElem?_getD, List.getElem?_modify]
  by_cases h : j = i
  · subst h; rw [List.getElem?_eq_getElem hi]; simp
  · rw [if_neg h]; simp [Ne.symm h]

theorem frac_fold (s : Shell) (n : Nat) (rMin rMax : ℝ) (h0 : 0 < rMin) (h : rMin < rMax) (hn : 0 < n) (draws : List (ℝ × ℝ)) (hpos : ∀ d ∈ draws, 0 < s.at d)
    (ns : List Nat) (hl : ns.length = n) :
    let o := draws.foldl (fracStep s n (Real.log rMin) ((Real.log rMax - Real.log rMin) / n)) ns
    o.length = n ∧ ∀ i < n, o.getD i 0 = ns.getD i 0 + samples s draws (InBin rMin rMax n i) := by
  induction draws generalizing ns with
  | nil => simp [samples, hl]
  | cons d ds ih =>
    dsimp only
    rw [List.foldl_cons]
    have hr := hpos d List.mem_cons_self
    have key : (fracStep s n (Real.log rMin) ((Real.log rMax - Real.log rMin) / n) ns d).length = n ∧
        ∀ i < n, (fracStep s n (Real.log rMin) ((Real.log rMax - Real.log rMin) / n) ns d).getD i 0 = ns.getD i 0 + samples s [d] (InBin rMin rMax n i) := by
      unfold fracStep
      dsimp only
      have hx := fun i => frac_index h0 h hn hr i
      generalize goInt ((Real.log (s.at d) - Real.log rMin) / ((Real.log rMax - Real.log rMin) / n)) = x at hx
      have hsm : ∀ i : Nat, samples s [d] (InBin rMin rMax n i) = if x = (i : Int) then 1 else 0 := by
        intro i
        unfold samples
        by_cases hc : InBin rMin rMax n i (s.at d)
        · rw [if_pos ((hx i).2 hc)]; simp [hc]
        · rw [if_neg fun he => hc ((hx i).1 he)]; simp [hc]
      split_ifs with hc
      · refine ⟨hl, fun i hi => ?_⟩
        rw [hsm, if_neg (by omega)]; rfl
      · refine ⟨by rw [List.length_modify]; exact hl, fun i hi => ?_⟩
        rw [getD_modify_nat _ _ _ (by omega), hsm]
        congr 1
        by_cases hi : i = x.toNat
        · rw [if_pos hi, if_pos (by omega)]
        · rw [if_neg hi, if_neg (by omega)]
    obtain ⟨k1, k2⟩ := key
    obtain ⟨i1, i2⟩ := ih (fun d hd => hpos d (List.mem_cons_of_mem _ hd)) _ k1
    refine ⟨i1, fun i hi => ?_⟩
    rw [i2 i hi, k2 i hi]
    have : samples s (d :: ds) (InBin rMin rMax n i) = samples s [d] (InBin rMin rMax n i) + samples s ds (InBin rMin rMax n i) := by
      unfold samples
      rw [← List.singleton_append, List.filter_append, List.length_append]
    omega

theorem revCumSum_length (l : List Nat) : (revCumSum l).length = l.length := by
  induction l with
  | nil => rfl
  | cons n ns ih =>
    unfold revCumSum
    cases h : revCumSum ns with
    | nil => rw [h] at ih; simp at ih; simp [← ih]
    | cons m ms => rw [h] at ih; simp at ih ⊢; omega

theorem revCumSum_getD (l : List Nat) (i : Nat) : (revCumSum l).getD i 0 = (l.drop i).sum := by
  induction l generalizing i with
  | nil => simp [revCumSum]
  | cons n ns ih =>
    unfold revCumSum
    cases h : revCumSum ns with
    | nil =>
      have : ns = [] := by
        have := revCumSum_length ns
        rw [h] at this
        exact List.length_eq_zero_iff.1 this.symm
      subst this
      cases i <;> simp
    | cons m ms =>
      rw [h] at ih
      cases i with
      | zero =>
        have := ih 0
        simp at this ⊢
        exact this
      | succ i =>
        have := ih i
        simpa using this

/-- The radii that are counted at bin `i`. -/
def FromBin (rMin rMax : ℝ) (n i : Nat) (r : ℝ) : Prop := (if i = 0 then below rMin rMax n < r else edge rMin rMax n i ≤ r) ∧ r < rMax

theorem samples_add (s : Shell) (draws : List (ℝ × ℝ)) (p q w : ℝ → Prop) (h : ∀ r, w r ↔ p r ∨ q r) (hd : ∀ r, ¬ (p r ∧ q r)) : samples s draws w = samples s draws p + samples s draws q := by
  unfold samples
  induction draws with
  | nil => rfl
  | cons d ds ih =>
    simp only [List.filter_cons]
    have h1 := h (s.at d)
    have h2 := hd (s.at d)
    by_cases hp : p (s.at d)
    · by_cases hq : q (s.at d)
      · exact absurd ⟨hp, hq⟩ h2
      · rw [if_pos (by simpa using h1.2 (.inl hp)), if_pos (by simpa using hp), if_neg (by simpa using hq)]; simp only [List.length_cons]; omega
    · by_cases hq : q (s.at d)
      · rw [if_pos (by simpa using h1.2 (.inr hq)), if_neg (by simpa using hp), if_pos (by simpa using hq)]; simp only [List.length_cons]; omega
      · rw [if_neg (by simpa using fun hw => (h1.1 hw).elim hp hq), if_neg (by simpa using hp), if_neg (by simpa using hq)]; exact ih

theorem samples_zero (s : Shell) (draws : List (ℝ × ℝ)) (p : ℝ → Prop) (h : ∀ d ∈ draws, ¬ p (s.at d)) : samples s draws p = 0 := by
  unfold samples
  rw [List.length_eq_zero_iff, List.filter_eq_nil_iff]
  intro d hd; simpa using h d hd

theorem samples_congr (s : Shell) (draws : List (ℝ × ℝ)) (p q : ℝ → Prop) (h : ∀ d ∈ draws, p (s.at d) ↔ q (s.at d)) : samples s draws p = samples s draws q := by
  unfold samples
  congr 1
  refine List.filter_congr fun d hd => ?_
  exact decide_eq_decide.2 (h d hd)

theorem drop_sum (s : Shell) (draws : List (ℝ × ℝ)) (n : Nat) (rMin rMax : ℝ) (h0 : 0 < rMin) (h : rMin < rMax) (hn : 0 < n) (o : List Nat) (hl : o.length = n)
    (ho : ∀ i < n, o.getD i 0 = samples s draws (InBin rMin rMax n i)) (k : Nat) : ∀ i, i + k = n → (o.drop i).sum = samples s draws (FromBin rMin rMax n i) := by
  induction k with
  | zero =>
    intro i hi
    rw [List.drop_eq_nil_of_le (by omega), List.sum_nil, samples_zero]
    intro d _ hc
    unfold FromBin at hc
    rw [if_neg (by omega), show i = n by omega, Shellfish.Cmd.edge_last h0 n hn] at hc
    linarith [hc.1, hc.2]
  | succ k ih =>
    intro i hi
    have hin : i < n := by omega
    rw [List.drop_eq_getElem_cons (by omega), List.sum_cons, ih (i + 1) (by omega)]
    have := ho i hin
    rw [List.getD_eq_getElem _ _ (by omega)] at this
    rw [this, ← samples_add]
    · intro r
      unfold FromBin InBin
      have hlt := Shellfish.Cmd.edge_lt h0 h n hn (Nat.lt_succ_self i)
      have hle : edge rMin rMax n (i + 1) ≤ rMax := by
        rw [← Shellfish.Cmd.edge_last h0 n hn (a := rMin) (b := rMax)]
        rw [Shellfish.Cmd.edge_last h0 n hn (a := rMin) (b := rMax)]
        exact (Shellfish.Cmd.edge_le h0 h n hn (show i + 1 ≤ n by omega)).trans (le_of_eq (Shellfish.Cmd.edge_last h0 n hn))
      rw [if_neg (show ¬ i + 1 = 0 by omega)]
      by_cases hz : i = 0
      · subst hz
        rw [if_pos rfl, if_pos rfl]
        have hb := below_lt h0 h n hn
        rw [Shellfish.Cmd.edge_zero] at hlt
        rw [Nat.zero_add] at *
        constructor
        · rintro ⟨h1, h2⟩
          rcases lt_or_ge r (edge rMin rMax n 1) with h3 | h3
          · exact .inl ⟨h1, h3⟩
          · exact .inr ⟨h3, h2⟩
        · rintro (⟨h1, h2⟩ | ⟨h1, h2⟩)
          · exact ⟨h1, by linarith⟩
          · exact ⟨by linarith, h2⟩
      · rw [if_neg hz, if_neg hz]
        constructor
        · rintro ⟨h1, h2⟩
          rcases lt_or_ge r (edge rMin rMax n (i + 1)) with h3 | h3
          · exact .inl ⟨h1, h3⟩
          · exact .inr ⟨h3, h2⟩
        · rintro (⟨h1, h2⟩ | ⟨h1, h2⟩)
          · exact ⟨h1, by linarith⟩
          · exact ⟨by linarith, h2⟩
    · rintro r ⟨h1, h2⟩
      have := frac_lt h0 h hn h1
      unfold FromBin at h2
      rw [if_neg (by omega)] at h2
      linarith [h2.1]

/-- What the profile contains, whatever the radii of the shell: the number of the samples from the lower edge of the bin up to `rMax`, divided by the number of the samples below `rMax` (and above the radius one bin
below `rMin`); nothing is a number when there are no such samples. -/
theorem C73_counts (s : Shell) (draws : List (ℝ × ℝ)) (n : Nat) (rMin rMax : ℝ) (h0 : 0 < rMin) (h : rMin < rMax) (hn : 0 < n) (hpos : ∀ d ∈ draws, 0 < s.at d) :
    (s.angularFractionProfile draws n rMin rMax).1.length = n ∧ (s.angularFractionProfile draws n rMin rMax).2.length = n ∧
    ∀ i < n, (s.angularFractionProfile draws n rMin rMax).1.getD i 0 = Real.sqrt (edge rMin rMax n i * edge rMin rMax n (i + 1)) ∧
      (s.angularFractionProfile draws n rMin rMax).2.getD i none =
        if samples s draws (FromBin rMin rMax n 0) = 0 then none
        else some ((samples s draws (FromBin rMin rMax n i) : ℝ) / samples s draws (FromBin rMin rMax n 0)) := by
  obtain ⟨f1, f2⟩ := frac_fold s n rMin rMax h0 h hn draws hpos (List.replicate n 0) (by simp)
  have hg : ∀ i ≤ n, (revCumSum (draws.foldl (fracStep s n (Real.log rMin) ((Real.log rMax - Real.log rMin) / n)) (List.replicate n 0))).getD i 0 = samples s draws (FromBin rMin rMax n i) := by
    intro i hi
    rw [revCumSum_getD]
    exact drop_sum s draws n rMin rMax h0 h hn _ f1 (fun j hj => by rw [f2 j hj]; simp [List.getD_eq_getElem _ _ (show j < (List.replicate n 0).length by simpa using hj)]) (n - i) i (by omega)
  refine ⟨by simp [Shell.angularFractionProfile], ?_, fun i hi => ⟨?_, ?_⟩⟩
  · unfold Shell.angularFractionProfile
    dsimp only
    rw [List.length_map, revCumSum_length]; exact f1
  · unfold Shell.angularFractionProfile
    dsimp only
    rw [List.getD_eq_getElem _ _ (by simpa using hi), List.getElem_map, List.getElem_range, Shellfish.Cmd.edge_exp h0 (h0.trans h), Shellfish.Cmd.edge_exp h0 (h0.trans h), ← Real.exp_add,
      show Real.log rMin + (i : ℝ) * ((Real.log rMax - Real.log rMin) / n) + (Real.log rMin + ((i + 1 : Nat) : ℝ) * ((Real.log rMax - Real.log rMin) / n)) =
        (Real.log rMin + ((i : ℝ) + 1 / 2) * ((Real.log rMax - Real.log rMin) / n)) + (Real.log rMin + ((i : ℝ) + 1 / 2) * ((Real.log rMax - Real.log rMin) / n)) by push_cast; ring,
      Real.exp_add (Real.log rMin + _), Real.sqrt_mul_self (Real.exp_pos _).le]
  · unfold Shell.angularFractionProfile
    dsimp only
    have hlen := revCumSum_length (draws.foldl (fracStep s n (Real.log rMin) ((Real.log rMax - Real.log rMin) / n)) (List.replicate n 0))
    rw [List.getD_eq_getElem _ _ (by rw [List.length_map, hlen, f1]; exact hi), List.getElem_map, hg 0 (by omega)]
    have := hg i hi.le
    rw [List.getD_eq_getElem _ _ (by rw [hlen, f1]; exact hi)] at this
    rw [this]

/-- When the shell is between `rMin` and `rMax` in every direction that was drawn, value `i` is the fraction of the directions in which the lower edge of bin `i` is inside of the shell (or on it): at the first edge all of
them; at the radius that is listed with the value (the middle of the bin) the fraction is between this value and the next.
Missing: shells that reach below `rMin` or beyond `rMax` (`C73_beyond_false`, `C73_below_false`). -/
theorem C73_fraction_partial (s : Shell) (draws : List (ℝ × ℝ)) (n : Nat) (rMin rMax : ℝ) (h0 : 0 < rMin) (h : rMin < rMax) (hn : 0 < n) (hne : draws ≠ [])
    (hr : ∀ d ∈ draws, rMin ≤ s.at d ∧ s.at d < rMax) :
    (∀ i < n, (s.angularFractionProfile draws n rMin rMax).2.getD i none = some ((samples s draws (fun r => edge rMin rMax n i ≤ r) : ℝ) / draws.length)) ∧
    (s.angularFractionProfile draws n rMin rMax).2.getD 0 none = some 1 ∧
    (∀ i j, i ≤ j → j < n → ∃ a b, (s.angularFractionProfile draws n rMin rMax).2.getD i none = some a ∧ (s.angularFractionProfile draws n rMin rMax).2.getD j none = some b ∧ b ≤ a ∧ 0 ≤ b ∧ a ≤ 1) ∧
    (∀ i < n, ∃ a, (s.angularFractionProfile draws n rMin rMax).2.getD i none = some a ∧
      (samples s draws (fun r => (s.angularFractionProfile draws n rMin rMax).1.getD i 0 ≤ r) : ℝ) / draws.length ≤ a ∧
      ∀ b, (s.angularFractionProfile draws n rMin rMax).2.getD (i + 1) none = some b → b ≤ (samples s draws (fun r => (s.angularFractionProfile draws n rMin rMax).1.getD i 0 ≤ r) : ℝ) / draws.length) := by
  have hl : 0 < draws.length := List.length_pos_of_ne_nil hne
  have hl' : (0 : ℝ) < draws.length := by exact_mod_cast hl
  obtain ⟨_, hlen, hc⟩ := C73_counts s draws n rMin rMax h0 h hn fun d hd => h0.trans_le (hr d hd).1
  have hb := below_lt h0 h n hn
  have hall : samples s draws (FromBin rMin rMax n 0) = draws.length := by
    unfold samples
    congr 1
    rw [List.filter_eq_self]
    intro d hd
    have := hr d hd
    simp only [decide_eq_true_eq]
    exact ⟨by rw [if_pos rfl]; linarith, this.2⟩
  have hi : ∀ i, samples s draws (FromBin rMin rMax n i) = samples s draws (fun r => edge rMin rMax n i ≤ r) := by
    intro i
    refine samples_congr _ _ _ _ fun d hd => ?_
    have := hr d hd
    unfold FromBin
    by_cases hz : i = 0
    · subst hz
      rw [if_pos rfl, Shellfish.Cmd.edge_zero]
      exact ⟨fun _ => this.1, fun _ => ⟨by linarith, this.2⟩⟩
    · rw [if_neg hz]
      exact ⟨fun h => h.1, fun h => ⟨h, this.2⟩⟩
  have first : ∀ i < n, (s.angularFractionProfile draws n rMin rMax).2.getD i none = some ((samples s draws (fun r => edge rMin rMax n i ≤ r) : ℝ) / draws.length) := by
    intro i hin
    rw [(hc i hin).2, hall, if_neg (by omega), hi]
  have mono : ∀ x y : ℝ, x ≤ y → (samples s draws (fun r => y ≤ r) : ℝ) / draws.length ≤ (samples s draws (fun r => x ≤ r) : ℝ) / draws.length := by
    intro x y hxy
    have : samples s draws (fun r => y ≤ r) ≤ samples s draws (fun r => x ≤ r) := by
      unfold samples
      exact (List.monotone_filter_right draws fun d hd => by
        simp only [decide_eq_true_eq] at hd ⊢
        exact hxy.trans hd).length_le
    gcongr
  refine ⟨first, ?_, ?_, ?_⟩
  rotate_left 2
  · intro i hin
    refine ⟨_, first i hin, ?_, ?_⟩
    · rw [(hc i hin).1]
      refine mono _ _ (Real.le_sqrt_of_sq_le ?_)
      rw [sq]
      exact mul_le_mul_of_nonneg_left (Shellfish.Cmd.edge_le h0 h n hn (by omega)) (Shellfish.Cmd.edge_pos h0 (h0.trans h) _ _).le
    · intro b hb'
      by_cases hn1 : i + 1 < n
      · rw [first _ hn1] at hb'
        cases hb'
        rw [(hc i hin).1]
        refine mono _ _ ((Real.sqrt_le_left (Shellfish.Cmd.edge_pos h0 (h0.trans h) _ _).le).2 ?_)
        rw [sq]
        exact mul_le_mul_of_nonneg_right (Shellfish.Cmd.edge_le h0 h n hn (by omega)) (Shellfish.Cmd.edge_pos h0 (h0.trans h) _ _).le
      · rw [List.getD_eq_default _ _ (by omega)] at hb'
        cases hb'
  · rw [first 0 hn, ← hi, hall, div_self hl'.ne']
  · intro i j hij hj
    refine ⟨_, _, first i (by omega), first j hj, ?_, by positivity, ?_⟩
    · exact mono _ _ (Shellfish.Cmd.edge_le h0 h n hn hij)
    · rw [div_le_one hl']
      exact_mod_cast List.length_filter_le _ _

/-- Directions in which the shell is beyond `rMax` are left out although every radius of the profile is inside of the shell there: for a sphere outside of the range nothing is a number. -/
theorem C73_beyond_false (R : ℝ) (draws : List (ℝ × ℝ)) (n : Nat) (rMin rMax : ℝ) (h0 : 0 < rMin) (h : rMin < rMax) (hn : 0 < n) (hR : rMax ≤ R) :
    ∀ i < n, (Shell.angularFractionProfile (fun _ _ => R) draws n rMin rMax).2.getD i none = none := by
  intro i hi
  obtain ⟨_, _, hc⟩ := C73_counts (fun _ _ => R) draws n rMin rMax h0 h hn fun d _ => (h0.trans h).trans_le hR
  rw [(hc i hi).2, if_pos]
  refine samples_zero _ _ _ fun d _ hd => ?_
  exact absurd hd.2 (not_lt.2 hR)

/-- Directions in which the shell is far below `rMin` are left out too: the first value is one whatever their number is, although the radius is outside of the shell there. -/
theorem C73_below_false (s : Shell) (draws : List (ℝ × ℝ)) (n : Nat) (rMin rMax : ℝ) (h0 : 0 < rMin) (h : rMin < rMax) (hn : 0 < n) (hpos : ∀ d ∈ draws, 0 < s.at d)
    (hr : ∃ d ∈ draws, rMin ≤ s.at d ∧ s.at d < rMax) : (s.angularFractionProfile draws n rMin rMax).2.getD 0 none = some 1 := by
  obtain ⟨_, _, hc⟩ := C73_counts s draws n rMin rMax h0 h hn hpos
  obtain ⟨d, hd, hr⟩ := hr
  have hne : 0 < samples s draws (FromBin rMin rMax n 0) := by
    unfold samples
    refine List.length_pos_of_mem (List.mem_filter.2 ⟨hd, ?_⟩)
    simp only [decide_eq_true_eq]
    exact ⟨by rw [if_pos rfl]; linarith [below_lt h0 h n hn], hr.2⟩
  have hne' : (0 : ℝ) < samples s draws (FromBin rMin rMax n 0) := by exact_mod_cast hne
  rw [(hc 0 hn).2, if_neg (by omega), div_self hne'.ne']

/-- Two directions, the shell is at the radius 3/2 in one of them and at 1/8 in the other one: half of the directions are inside of the shell at the first edge of [1, 2], the profile says all. -/
theorem halfShell : ∃ (s : Shell) (draws : List (ℝ × ℝ)), (∀ d ∈ draws, Draw d) ∧ draws.length = 2 ∧ (∀ d ∈ draws, 0 < s.at d) ∧ samples s draws (fun r => 1 ≤ r) = 1 ∧
    (∃ d ∈ draws, 1 ≤ s.at d ∧ s.at d < 2) := by
  classical
  have hp := Real.pi_pos
  have e1 : Shell.at (fun phi _ => if phi < π then 3 / 2 else 1 / 8) (0, 1 / 2) = 3 / 2 := by unfold Shell.at randomAngle; simp [hp]
  have e2 : Shell.at (fun phi _ => if phi < π then 3 / 2 else 1 / 8) (1 / 2, 1 / 2) = 1 / 8 := by
    unfold Shell.at randomAngle
    dsimp only
    rw [if_neg (by linarith)]
  refine ⟨fun phi _ => if phi < π then 3 / 2 else 1 / 8, [(0, 1 / 2), (1 / 2, 1 / 2)], ?_, rfl, ?_, ?_, ?_⟩
  · intro d hd
    simp only [List.mem_cons, List.not_mem_nil, or_false] at hd
    rcases hd with rfl | rfl <;> unfold Draw <;> norm_num
  · intro d hd
    simp only [List.mem_cons, List.not_mem_nil, or_false] at hd
    rcases hd with rfl | rfl
    · rw [e1]; norm_num
    · rw [e2]; norm_num
  · unfold samples
    rw [List.filter_cons, List.filter_cons, List.filter_nil]
    dsimp only
    rw [e1, e2]
    norm_num
  · exact ⟨(0, 1 / 2), List.mem_cons_self, by rw [e1]; norm_num⟩

example : ∃ (s : Shell) (draws : List (ℝ × ℝ)), (∀ d ∈ draws, Draw d) ∧ (s.angularFractionProfile draws 4 1 2).2.getD 0 none = some 1 ∧ (samples s draws (fun r => 1 ≤ r) : ℝ) / draws.length = 1 / 2 := by
  obtain ⟨s, draws, h1, h2, h3, h4, h5⟩ := halfShell
  exact ⟨s, draws, h1, C73_below_false s draws 4 1 2 one_pos one_lt_two (by norm_num) h3 h5, by rw [h2, h4]; norm_num⟩

-- a sphere with the radius 3/2 in the range [1, 2]
example (draws : List (ℝ × ℝ)) (hne : draws ≠ []) : (Shell.angularFractionProfile (fun _ _ => 3 / 2) draws 4 1 2).2.getD 0 none = some 1 :=
  (C73_fraction_partial (fun _ _ => 3 / 2) draws 4 1 2 one_pos one_lt_two (by norm_num) hne fun d _ => by unfold Shell.at; norm_num).2.1

example (draws : List (ℝ × ℝ)) (hne : draws ≠ []) : ((Shell.radiusHistogram (fun _ _ => 3 / 2) draws 4 1 2).2.map fun v => v * (((2 : ℝ) - 1) / (4 : Nat))).sum = 1 := by
  obtain ⟨d, hd⟩ := List.exists_mem_of_ne_nil _ hne
  exact C72_histogram_normed (fun _ _ => 3 / 2) draws 4 1 2 (by norm_num) one_lt_two ⟨d, hd, by unfold Shell.at; norm_num⟩

end
end Shellfish.Analyze
