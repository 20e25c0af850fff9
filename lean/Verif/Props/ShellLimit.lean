/- C111: sampled distributions of the radii of shells converge to the distribution over the sky. -/
import Verif.Props.ShellVolume
import Verif.Props.ShellBins
import Mathlib.MeasureTheory.Measure.OpenPos

namespace Shellfish.Analyze
open Shellfish Shellfish.Los Real MeasureTheory Set ENNReal Filter Topology

/-! Specification -/

open Classical in
/-- The fraction of the sky in which the radius of the shell has the property `p`. -/
noncomputable def sky (s : Shell) (p : ℝ → Prop) : ℝ := sphereMean fun phi theta => if p (s phi theta) then 1 else 0

/-! Frequencies -/

open Classical in
/-- The shell with radius 1 where `p` holds and 0 elsewhere. -/
noncomputable def marked (s : Shell) (p : ℝ → Prop) : Shell := fun phi theta => if p (s phi theta) then 1 else 0

theorem marked_regular {s : Shell} {R : ℝ} (h : Regular s R) {p : ℝ → Prop} (hp : MeasurableSet {r | p r}) : Regular (marked s p) 1 where
  measurable := by
    unfold marked
    exact Measurable.ite (h.measurable hp) measurable_const measurable_const
  nonneg phi theta := by unfold marked; split_ifs <;> norm_num
  le phi theta := by unfold marked; split_ifs <;> norm_num
  periodic phi theta := by unfold marked; rw [h.periodic]

theorem samples_sum (s : Shell) (p : ℝ → Prop) (draws : List (ℝ × ℝ)) : ((draws.map (marked s p).at).sum : ℝ) = samples s draws p := by
  induction draws with
  | nil => simp [samples]
  | cons d ds ih =>
    rw [List.map_cons, List.sum_cons, ih]
    unfold samples
    by_cases h : p (s.at d)
    · rw [List.filter_cons_of_pos (by simpa using h), List.length_cons]
      have : (marked s p).at d = 1 := if_pos h
      rw [this]; push_cast; ring
    · rw [List.filter_cons_of_neg (by simpa using h)]
      have : (marked s p).at d = 0 := if_neg h
      rw [this, zero_add]

/-- The fraction of the samples with a property converges to the fraction of the sky. -/
theorem frequency (s : Shell) (R : ℝ) (h : Regular s R) {Ω : Type} [MeasurableSpace Ω] {μ : Measure Ω} [IsProbabilityMeasure μ] {X : ℕ → Ω → ℝ × ℝ} (hX : Draws μ uniform2 X)
    (p : ℝ → Prop) (hp : MeasurableSet {r | p r}) :
    ∀ᵐ ω ∂μ, Tendsto (fun n : ℕ => (samples s (first X n ω) p : ℝ) / n) atTop (𝓝 (sky s p)) := by
  have := (C89_mean_radius (marked s p) 1 (marked_regular h hp) μ X hX).2
  filter_upwards [this] with ω hω
  refine hω.congr fun n => ?_
  rw [meanRadius_eq]
  unfold mean
  rw [samples_sum, first_length]

/-- The fraction of the sky is the probability of a random direction. -/
theorem sky_eq (s : Shell) (R : ℝ) (h : Regular s R) (p : ℝ → Prop) (hp : MeasurableSet {r | p r}) : sky s p = uniform2.real {d | p (s.at d)} := by
  have e := expect_radius (marked_regular h hp)
  have hm : MeasurableSet {d | p (s.at d)} := h.measurable_at hp
  have : (marked s p).at = indicator {d | p (s.at d)} 1 := by
    funext d
    by_cases hd : p (s.at d)
    · rw [indicator_of_mem (by exact hd)]; exact if_pos hd
    · rw [indicator_of_notMem (by exact hd)]; exact if_neg hd
  rw [this, integral_indicator_one hm] at e
  exact e.symm

/-! Histograms -/

/-- C111: every value of the histogram of the radii converges to the fraction of the sky (of that part with radii in the range) in its bin, divided by the width of the bin. -/
theorem C111_histogram (s : Shell) (R : ℝ) (h : Regular s R) {Ω : Type} [MeasurableSpace Ω] (μ : Measure Ω) [IsProbabilityMeasure μ] (X : ℕ → Ω → ℝ × ℝ) (hX : Draws μ uniform2 X)
    (bins : Nat) (rMin rMax : ℝ) (hb : 0 < bins) (hr : rMin < rMax) (hsky : 0 < sky s fun r => rMin ≤ r ∧ r < rMax) :
    ∀ᵐ ω ∂μ, ∀ i < bins, Tendsto (fun n : ℕ => (s.radiusHistogram (first X n ω) bins rMin rMax).2.getD i 0) atTop
      (𝓝 (sky s (fun r => rMin + (rMax - rMin) / bins * i ≤ r ∧ r < rMin + (rMax - rMin) / bins * (i + 1)) / (sky s (fun r => rMin ≤ r ∧ r < rMax) * ((rMax - rMin) / bins)))) := by
  have hm : ∀ a b : ℝ, MeasurableSet {r : ℝ | a ≤ r ∧ r < b} := fun a b => measurableSet_Ico
  have h1 := frequency s R h hX (fun r => rMin ≤ r ∧ r < rMax) (hm _ _)
  have h2 : ∀ᵐ ω ∂μ, ∀ i : ℕ, Tendsto (fun n : ℕ => (samples s (first X n ω) (fun r => rMin + (rMax - rMin) / bins * i ≤ r ∧ r < rMin + (rMax - rMin) / bins * (i + 1)) : ℝ) / n) atTop
      (𝓝 (sky s fun r => rMin + (rMax - rMin) / bins * i ≤ r ∧ r < rMin + (rMax - rMin) / bins * (i + 1))) := ae_all_iff.2 fun i => frequency s R h hX _ (hm _ _)
  filter_upwards [h1, h2] with ω w1 w2 i hi
  have hw : (0 : ℝ) < (rMax - rMin) / bins := div_pos (by linarith) (by exact_mod_cast hb)
  refine ((w2 i).div (w1.mul_const ((rMax - rMin) / bins)) (mul_pos hsky hw).ne').congr' ?_
  filter_upwards [eventually_gt_atTop 0] with n hn
  rw [((C72_histogram s (first X n ω) bins rMin rMax hb hr).2.2 i hi).2]
  have hn' : (n : ℝ) ≠ 0 := by positivity
  have key : ∀ a b w N : ℝ, N ≠ 0 → a / N / (b / N * w) = a / (b * w) := fun a b w N hN => by rw [div_mul_eq_mul_div, div_div_div_cancel_right₀ hN]
  exact key _ _ _ _ hn'

/-! Angular fractions -/

/-- C111: for a shell inside of the range of the radii, every value of the angular fraction profile converges to the fraction of the sky in which the shell reaches the lower edge of the bin. -/
theorem C111_fraction (s : Shell) (R : ℝ) (h : Regular s R) {Ω : Type} [MeasurableSpace Ω] (μ : Measure Ω) [IsProbabilityMeasure μ] (X : ℕ → Ω → ℝ × ℝ) (hX : Draws μ uniform2 X)
    (bins : Nat) (rMin rMax : ℝ) (hb : 0 < bins) (h0 : 0 < rMin) (hr : rMin < rMax) (hs : ∀ phi theta, rMin ≤ s phi theta ∧ s phi theta < rMax) :
    ∀ᵐ ω ∂μ, ∀ i < bins, ∃ f : ℕ → ℝ, (∀ n, 0 < n → (s.angularFractionProfile (first X n ω) bins rMin rMax).2.getD i none = some (f n)) ∧
      Tendsto f atTop (𝓝 (sky s fun r => rMin * (rMax / rMin) ^ ((i : ℝ) / bins) ≤ r)) := by
  have h2 : ∀ᵐ ω ∂μ, ∀ i : ℕ, Tendsto (fun n : ℕ => (samples s (first X n ω) (fun r => Shellfish.Cmd.edge rMin rMax bins i ≤ r) : ℝ) / n) atTop
      (𝓝 (sky s fun r => Shellfish.Cmd.edge rMin rMax bins i ≤ r)) := ae_all_iff.2 fun i => frequency s R h hX _ measurableSet_Ici
  filter_upwards [h2] with ω w i hi
  refine ⟨_, fun n hn => ?_, w i⟩
  have := (C73_fraction_partial s (first X n ω) bins rMin rMax h0 hr hb (by rw [← List.length_pos_iff, first_length]; exact hn) fun d _ => hs _ _).1 i hi
  rw [first_length] at this
  exact this

/-! Medians -/

theorem samples_map (s : Shell) (draws : List (ℝ × ℝ)) (p : ℝ → Prop) [DecidablePred p] : ((draws.map s.at).filter fun r => decide (p r)).length = samples s draws p := by
  unfold samples
  rw [List.filter_map, List.length_map]
  congr 1
  refine List.filter_congr fun d _ => ?_
  simp

theorem samples_mono (s : Shell) (draws : List (ℝ × ℝ)) (p q : ℝ → Prop) (h : ∀ r, p r → q r) : samples s draws p ≤ samples s draws q := by
  classical
  unfold samples
  rw [← List.countP_eq_length_filter, ← List.countP_eq_length_filter]
  exact List.countP_mono_left fun d _ hd => by simpa using h _ (by simpa using hd)

theorem samples_split (s : Shell) (draws : List (ℝ × ℝ)) (r : ℝ) : samples s draws (fun x => r < x) + samples s draws (fun x => x ≤ r) = draws.length := by
  classical
  have h1 := samples_add s draws (fun x => r < x) (fun x => x ≤ r) (fun _ => True) (fun x => by simp [lt_or_ge]) (fun x hx => not_lt.2 hx.2 hx.1)
  rw [← h1]
  unfold samples
  simp

/-- The rank of the median that is returned. -/
theorem median_rank (s : Shell) (draws : List (ℝ × ℝ)) (h2 : 2 ≤ draws.length) :
    ∃ r, s.medianRadius draws = some r ∧ samples s draws (fun x => r < x) < draws.length / 2 ∧ draws.length / 2 ≤ samples s draws (fun x => r ≤ x) := by
  obtain ⟨r, e, _, c1, c2⟩ := Sort.C02_nthLargest (draws.map s.at) ((draws.length / 2 : Nat) : Int) (some (draws.map s.at)) (by omega) (by rw [List.length_map]; omega)
    (by intro b hb; cases hb; rfl)
  refine ⟨r, ?_, ?_, ?_⟩
  · unfold Shell.medianRadius Sort.median
    dsimp only
    rw [List.length_map, if_neg (by omega)]
    exact e
  · rw [samples_map s draws (fun x => r < x)] at c1; omega
  · rw [samples_map s draws (fun x => r ≤ x)] at c2; omega

/-- C111: the median radius converges to the median of the radii over the sky, if it is the only one. -/
theorem C111_median (s : Shell) (R : ℝ) (h : Regular s R) {Ω : Type} [MeasurableSpace Ω] (μ : Measure Ω) [IsProbabilityMeasure μ] (X : ℕ → Ω → ℝ × ℝ) (hX : Draws μ uniform2 X)
    (m : ℝ) (hlo : ∀ x, x < m → sky s (fun r => r ≤ x) < 1 / 2) (hhi : ∀ x, m < x → sky s (fun r => x ≤ r) < 1 / 2) :
    ∀ᵐ ω ∂μ, ∃ f : ℕ → ℝ, (∀ n, 0 < n → s.medianRadius (first X n ω) = some (f n)) ∧ Tendsto f atTop (𝓝 m) := by
  have h1 : ∀ᵐ ω ∂μ, ∀ k : ℕ, Tendsto (fun n : ℕ => (samples s (first X n ω) (fun r => r ≤ m - 1 / ((k : ℝ) + 1)) : ℝ) / n) atTop (𝓝 (sky s fun r => r ≤ m - 1 / ((k : ℝ) + 1))) :=
    ae_all_iff.2 fun k => frequency s R h hX _ measurableSet_Iic
  have h2 : ∀ᵐ ω ∂μ, ∀ k : ℕ, Tendsto (fun n : ℕ => (samples s (first X n ω) (fun r => m + 1 / ((k : ℝ) + 1) ≤ r) : ℝ) / n) atTop (𝓝 (sky s fun r => m + 1 / ((k : ℝ) + 1) ≤ r)) :=
    ae_all_iff.2 fun k => frequency s R h hX _ measurableSet_Ici
  filter_upwards [h1, h2] with ω w1 w2
  have hf : ∀ n, ∃ r, 0 < n → s.medianRadius (first X n ω) = some r := by
    intro n
    by_cases hn : 0 < n
    · obtain ⟨r, hr, _⟩ := C72_median_partial s (first X n ω) (by rw [← List.length_pos_iff, first_length]; exact hn)
      exact ⟨r, fun _ => hr⟩
    · exact ⟨0, fun h => absurd h hn⟩
  choose f hf using hf
  refine ⟨f, hf, ?_⟩
  rw [Metric.tendsto_atTop']
  intro ε hε
  obtain ⟨k, hk⟩ := exists_nat_one_div_lt hε
  have hkp : (0 : ℝ) < 1 / ((k : ℝ) + 1) := by positivity
  have a1 := hlo (m - 1 / ((k : ℝ) + 1)) (by linarith)
  have a2 := hhi (m + 1 / ((k : ℝ) + 1)) (by linarith)
  have e1 := (w1 k).eventually_lt_const a1
  obtain ⟨c, hc1, hc2⟩ := exists_between a2
  have e2 := (w2 k).eventually_lt_const hc1
  have e3 : ∀ᶠ n : ℕ in atTop, 1 / ((n : ℝ)) < 1 - 2 * c := by
    have := tendsto_one_div_atTop_nhds_zero_nat (𝕜 := ℝ)
    exact this.eventually_lt_const (by linarith)
  obtain ⟨N, hN⟩ := eventually_atTop.1 (e1.and (e2.and (e3.and (eventually_ge_atTop 2))))
  refine ⟨N, fun n hn => ?_⟩
  obtain ⟨b1, b2, b3, b4⟩ := hN n hn.le
  obtain ⟨r, hr, r1, r2⟩ := median_rank s (first X n ω) (by rw [first_length]; exact b4)
  rw [hf n (by omega), Option.some.injEq] at hr
  subst hr
  have hsp := samples_split s (first X n ω) (f n)
  rw [first_length] at r1 r2 hsp
  have hn0 : (0 : ℝ) < n := by positivity
  rw [Real.dist_eq]
  refine lt_of_lt_of_le ?_ hk.le
  rw [abs_lt]
  constructor
  · by_contra hc
    have hle : f n ≤ m - 1 / ((k : ℝ) + 1) := by linarith
    have := samples_mono s (first X n ω) (fun x => x ≤ f n) (fun r => r ≤ m - 1 / ((k : ℝ) + 1)) fun x hx => hx.trans hle
    rw [div_lt_iff₀ hn0] at b1
    have hnat : n < 2 * samples s (first X n ω) (fun r => r ≤ m - 1 / ((k : ℝ) + 1)) := by omega
    have : (n : ℝ) < 2 * samples s (first X n ω) (fun r => r ≤ m - 1 / ((k : ℝ) + 1)) := by exact_mod_cast hnat
    linarith
  · by_contra hc
    have hle : m + 1 / ((k : ℝ) + 1) ≤ f n := by linarith
    have := samples_mono s (first X n ω) (fun x => f n ≤ x) (fun r => m + 1 / ((k : ℝ) + 1) ≤ r) fun x hx => hle.trans hx
    rw [div_lt_iff₀ hn0] at b2 b3
    have hnat : n ≤ 2 * samples s (first X n ω) (fun r => m + 1 / ((k : ℝ) + 1) ≤ r) + 1 := by omega
    have : (n : ℝ) ≤ 2 * samples s (first X n ω) (fun r => m + 1 / ((k : ℝ) + 1) ≤ r) + 1 := by exact_mod_cast hnat
    linarith

/-! Extremes -/

/-- A continuous shell has a radius in every neighbourhood of one of its radii with positive probability. -/
theorem near_positive (s : Shell) (hs : Continuous fun p : ℝ × ℝ => s p.1 p.2) (phi theta : ℝ) (h1 : 0 ≤ phi) (h2 : phi ≤ 2 * π) (h3 : 0 ≤ theta) (h4 : theta ≤ π) (U : Set ℝ) (hU : IsOpen U)
    (hm : s phi theta ∈ U) : 0 < uniform2 {d | s.at d ∈ U} := by
  have hp := pi_pos
  have hcont : Continuous s.at := by
    unfold Shell.at randomAngle
    exact hs.comp (by fun_prop)
  set d0 : ℝ × ℝ := (phi / (2 * π), (1 + cos theta) / 2) with hd0
  have hat : s.at d0 = s phi theta := by
    unfold Shell.at randomAngle
    rw [hd0]
    dsimp only
    rw [show 2 * π * (phi / (2 * π)) = phi by field_simp, show 2 * ((1 + cos theta) / 2) - 1 = cos theta by ring, arccos_cos h3 h4]
  have hopen : IsOpen {d | s.at d ∈ U} := hU.preimage hcont
  have hmem : d0 ∈ {d | s.at d ∈ U} := by change s.at d0 ∈ U; rwa [hat]
  have hcl : d0 ∈ closure (Ioo (0 : ℝ) 1 ×ˢ Ioo (0 : ℝ) 1) := by
    rw [closure_prod_eq, closure_Ioo (by norm_num)]
    refine ⟨⟨by positivity, ?_⟩, ⟨?_, ?_⟩⟩
    · change phi / (2 * π) ≤ 1
      rw [div_le_one (by positivity)]; exact h2
    · change 0 ≤ (1 + cos theta) / 2
      linarith [neg_one_le_cos theta]
    · change (1 + cos theta) / 2 ≤ 1
      linarith [cos_le_one theta]
  obtain ⟨x, hx⟩ := mem_closure_iff.1 hcl _ hopen hmem
  have hpos : 0 < volume ({d | s.at d ∈ U} ∩ (Ioo (0 : ℝ) 1 ×ˢ Ioo (0 : ℝ) 1)) := (hopen.inter (isOpen_Ioo.prod isOpen_Ioo)).measure_pos volume ⟨x, hx⟩
  unfold uniform2
  rw [Measure.restrict_apply hopen.measurableSet]
  exact hpos.trans_le (measure_mono (inter_subset_inter_right _ (prod_mono Ioo_subset_Ico_self Ioo_subset_Ico_self)))

/-- Almost surely some sample is in the open set. -/
theorem hits (s : Shell) (R : ℝ) (h : Regular s R) {Ω : Type} [MeasurableSpace Ω] {μ : Measure Ω} [IsProbabilityMeasure μ] {X : ℕ → Ω → ℝ × ℝ} (hX : Draws μ uniform2 X)
    (U : Set ℝ) (hU : MeasurableSet U) (hpos : 0 < uniform2 {d | s.at d ∈ U}) : ∀ᵐ ω ∂μ, ∃ i, s.at (X i ω) ∈ U := by
  have hsky : 0 < sky s (fun r => r ∈ U) := by
    rw [sky_eq s R h (fun r => r ∈ U) hU]
    exact ENNReal.toReal_pos hpos.ne' (measure_ne_top _ _)
  filter_upwards [frequency s R h hX (fun r => r ∈ U) hU] with ω w
  obtain ⟨n, hn⟩ := (w.eventually_const_lt hsky).exists
  by_contra hc
  push Not at hc
  rw [samples_zero s (first X n ω) _ (by
    intro d hd
    unfold first at hd
    obtain ⟨i, _, rfl⟩ := List.mem_map.1 hd
    exact hc i)] at hn
  simp at hn

theorem first_succ {Ω α : Type} (X : ℕ → Ω → α) (n : Nat) (ω : Ω) : first X (n + 1) ω = X 0 ω :: first (fun i => X (i + 1)) n ω := by
  unfold first
  rw [List.range_succ_eq_map, List.map_cons, List.map_map]
  rfl

theorem mem_first {Ω α : Type} (X : ℕ → Ω → α) {n i : Nat} (h : i < n) (ω : Ω) : X i ω ∈ first X n ω := List.mem_map.2 ⟨i, List.mem_range.2 h, rfl⟩

/-- C111: the radial range of a continuous shell converges to its smallest and its largest radius. -/
theorem C111_range (s : Shell) (R : ℝ) (h : Regular s R) (hs : Continuous fun p : ℝ × ℝ => s p.1 p.2) {Ω : Type} [MeasurableSpace Ω] (μ : Measure Ω) [IsProbabilityMeasure μ] (X : ℕ → Ω → ℝ × ℝ)
    (hX : Draws μ uniform2 X) (L U : ℝ) (hL : IsLeast {r | ∃ phi theta, 0 ≤ phi ∧ phi ≤ 2 * π ∧ 0 ≤ theta ∧ theta ≤ π ∧ r = s phi theta} L)
    (hU : IsGreatest {r | ∃ phi theta, 0 ≤ phi ∧ phi ≤ 2 * π ∧ 0 ≤ theta ∧ theta ≤ π ∧ r = s phi theta} U) :
    ∀ᵐ ω ∂μ, (∀ i, Draw (X i ω)) ∧ Tendsto (fun n : ℕ => s.radialRange (X 0 ω) (first (fun i => X (i + 1)) n ω)) atTop (𝓝 (L, U)) := by
  obtain ⟨⟨p1, t1, a1, a2, a3, a4, rfl⟩, hLb⟩ := hL
  obtain ⟨⟨p2, t2, b1, b2, b3, b4, rfl⟩, hUb⟩ := hU
  have hdraw : ∀ᵐ ω ∂μ, ∀ i, Draw (X i ω) := by
    refine ae_all_iff.2 fun i => ?_
    have hmeas : MeasurableSet {d : ℝ × ℝ | Draw d} := by
      have : {d : ℝ × ℝ | Draw d} = Ico 0 1 ×ˢ Ico 0 1 := by
        ext d
        exact ⟨fun hd => ⟨⟨hd.1, hd.2.1⟩, hd.2.2⟩, fun hd => ⟨hd.1.1, hd.1.2, hd.2⟩⟩
      rw [this]
      exact measurableSet_Ico.prod measurableSet_Ico
    have : ∀ᵐ d ∂uniform2, Draw d := by
      unfold uniform2
      rw [ae_restrict_iff' (measurableSet_Ico.prod measurableSet_Ico)]
      exact Eventually.of_forall fun d hd => ⟨hd.1.1, hd.1.2, hd.2⟩
    rw [← hX.law i] at this
    exact (ae_map_iff (hX.measurable i).aemeasurable hmeas).1 this
  have hl : ∀ᵐ ω ∂μ, ∀ k : ℕ, ∃ i, s.at (X i ω) ∈ Iio (s p1 t1 + 1 / ((k : ℝ) + 1)) := ae_all_iff.2 fun k =>
    hits s R h hX _ measurableSet_Iio (near_positive s hs p1 t1 a1 a2 a3 a4 _ isOpen_Iio (by have : (0 : ℝ) < 1 / ((k : ℝ) + 1) := by positivity
                                                                                             simp only [mem_Iio]; linarith))
  have hu : ∀ᵐ ω ∂μ, ∀ k : ℕ, ∃ i, s.at (X i ω) ∈ Ioi (s p2 t2 - 1 / ((k : ℝ) + 1)) := ae_all_iff.2 fun k =>
    hits s R h hX _ measurableSet_Ioi (near_positive s hs p2 t2 b1 b2 b3 b4 _ isOpen_Ioi (by have : (0 : ℝ) < 1 / ((k : ℝ) + 1) := by positivity
                                                                                             simp only [mem_Ioi]; linarith))
  filter_upwards [hdraw, hl, hu] with ω wd wl wu
  refine ⟨wd, ?_⟩
  have hin : ∀ i, s p1 t1 ≤ s.at (X i ω) ∧ s.at (X i ω) ≤ s p2 t2 := by
    intro i
    obtain ⟨c1, c2, c3, c4⟩ := angle_range (wd i)
    exact ⟨hLb ⟨_, _, c1, c2.le, c3, c4, rfl⟩, hUb ⟨_, _, c1, c2.le, c3, c4, rfl⟩⟩
  have hall : ∀ n, ∀ d ∈ X 0 ω :: first (fun i => X (i + 1)) n ω, ∃ i, d = X i ω := by
    intro n d hd
    rw [← first_succ] at hd
    obtain ⟨i, _, rfl⟩ := List.mem_map.1 hd
    exact ⟨i, rfl⟩
  have ta : Tendsto (fun n : ℕ => (s.radialRange (X 0 ω) (first (fun i => X (i + 1)) n ω)).1) atTop (𝓝 (s p1 t1)) := by
    rw [Metric.tendsto_atTop']
    intro ε hε
    obtain ⟨k, hk⟩ := exists_nat_one_div_lt hε
    obtain ⟨i, hi⟩ := wl k
    refine ⟨i, fun n hn => ?_⟩
    obtain ⟨r1, ⟨d, hd, r2⟩, _⟩ := C72_range_partial s (X 0 ω) (first (fun i => X (i + 1)) n ω)
    obtain ⟨j, rfl⟩ := hall n d hd
    have hx := (r1 (X i ω) (by rw [← first_succ]; exact mem_first X (by omega) ω)).1
    have hy := (hin j).1
    rw [Real.dist_eq, abs_lt]
    simp only [mem_Iio] at hi
    constructor <;> linarith
  have tb : Tendsto (fun n : ℕ => (s.radialRange (X 0 ω) (first (fun i => X (i + 1)) n ω)).2) atTop (𝓝 (s p2 t2)) := by
    rw [Metric.tendsto_atTop']
    intro ε hε
    obtain ⟨k, hk⟩ := exists_nat_one_div_lt hε
    obtain ⟨i, hi⟩ := wu k
    refine ⟨i, fun n hn => ?_⟩
    obtain ⟨r1, _, ⟨d, hd, r2⟩⟩ := C72_range_partial s (X 0 ω) (first (fun i => X (i + 1)) n ω)
    obtain ⟨j, rfl⟩ := hall n d hd
    have hx := (r1 (X i ω) (by rw [← first_succ]; exact mem_first X (by omega) ω)).2
    have hy := (hin j).2
    rw [Real.dist_eq, abs_lt]
    simp only [mem_Ioi] at hi
    constructor <;> linarith
  exact ta.prodMk_nhds tb

/-- The distance of two shells is a shell. -/
theorem distance_regular {s t : Shell} {R T : ℝ} (h : Regular s R) (ht : Regular t T) : Regular (fun phi theta => |s phi theta - t phi theta|) (R + T) where
  measurable := continuous_abs.measurable.comp (h.measurable.sub ht.measurable)
  nonneg phi theta := abs_nonneg _
  le phi theta := by
    rw [abs_le]
    constructor <;> linarith [h.nonneg phi theta, ht.nonneg phi theta, h.le phi theta, ht.le phi theta]
  periodic phi theta := by rw [h.periodic, ht.periodic]

/-- C111: the largest difference of two continuous shells in the sampled directions converges to their largest difference. -/
theorem C111_max_difference (s t : Shell) (R T : ℝ) (h : Regular s R) (ht : Regular t T) (hs : Continuous fun p : ℝ × ℝ => s p.1 p.2) (htc : Continuous fun p : ℝ × ℝ => t p.1 p.2)
    {Ω : Type} [MeasurableSpace Ω] (μ : Measure Ω) [IsProbabilityMeasure μ] (X : ℕ → Ω → ℝ × ℝ) (hX : Draws μ uniform2 X) (D : ℝ)
    (hD : IsGreatest {r | ∃ phi theta, 0 ≤ phi ∧ phi ≤ 2 * π ∧ 0 ≤ theta ∧ theta ≤ π ∧ r = |s phi theta - t phi theta|} D) :
    ∀ᵐ ω ∂μ, Tendsto (fun n : ℕ => s.maxDiff t (first X n ω)) atTop (𝓝 D) := by
  have hreg := distance_regular h ht
  have hcont : Continuous fun p : ℝ × ℝ => |s p.1 p.2 - t p.1 p.2| := (hs.sub htc).abs
  obtain ⟨⟨p, q, a1, a2, a3, a4, rfl⟩, hub⟩ := hD
  obtain ⟨L, hL⟩ : ∃ L, IsLeast {r | ∃ phi theta, 0 ≤ phi ∧ phi ≤ 2 * π ∧ 0 ≤ theta ∧ theta ≤ π ∧ r = |s phi theta - t phi theta|} L := by
    have hK : IsCompact (Icc (0 : ℝ) (2 * π) ×ˢ Icc (0 : ℝ) π) := isCompact_Icc.prod isCompact_Icc
    obtain ⟨x, hx, hmin⟩ := hK.exists_isMinOn ⟨(p, q), ⟨a1, a2⟩, a3, a4⟩ hcont.continuousOn
    refine ⟨_, ⟨x.1, x.2, hx.1.1, hx.1.2, hx.2.1, hx.2.2, rfl⟩, ?_⟩
    rintro r ⟨phi, theta, c1, c2, c3, c4, rfl⟩
    exact hmin (show (phi, theta) ∈ _ from ⟨⟨c1, c2⟩, c3, c4⟩)
  filter_upwards [C111_range (fun phi theta => |s phi theta - t phi theta|) (R + T) hreg hcont μ X hX L _ hL ⟨⟨p, q, a1, a2, a3, a4, rfl⟩, hub⟩] with ω w
  have w2 := (continuous_snd.tendsto _).comp w.2
  rw [← tendsto_add_atTop_iff_nat 1]
  refine w2.congr fun n => ?_
  dsimp only [Function.comp]
  rw [first_succ]
  obtain ⟨r1, _, ⟨d, hd, r2⟩⟩ := C72_range_partial (fun phi theta => |s phi theta - t phi theta|) (X 0 ω) (first (fun i => X (i + 1)) n ω)
  obtain ⟨m1, ⟨e, he, m2⟩, _⟩ := C72_max_difference s t (X 0 ω :: first (fun i => X (i + 1)) n ω) (by simp)
  refine le_antisymm ?_ ?_
  · rw [r2]; exact m1 d hd
  · rw [m2]; exact (r1 e he).2

/-! The hypotheses are met -/

/-- A shell with radii from 1 (at the south pole) to 3 (at the north pole). -/
noncomputable def egg : Shell := fun _ theta => 2 + cos theta

theorem egg_regular : Regular egg 3 where
  measurable := by unfold egg; fun_prop
  nonneg phi theta := by unfold egg; linarith [neg_one_le_cos theta]
  le phi theta := by unfold egg; linarith [cos_le_one theta]
  periodic phi theta := rfl

theorem egg_continuous : Continuous fun p : ℝ × ℝ => egg p.1 p.2 := by unfold egg; fun_prop

theorem egg_at (d : ℝ × ℝ) (h : Draw d) : egg.at d = 1 + 2 * d.2 := by
  unfold Shell.at egg randomAngle
  dsimp only
  rw [cos_arccos (by linarith [h.2.2.1]) (by linarith [h.2.2.2])]
  ring

/-- The distribution of the radii is uniform. -/
theorem egg_sky (a b : ℝ) (ha : 1 ≤ a) (hab : a ≤ b) (hb : b ≤ 3) : sky egg (fun r => a ≤ r ∧ r < b) = (b - a) / 2 := by
  rw [sky_eq egg 3 egg_regular _ measurableSet_Ico]
  have hm : MeasurableSet {d : ℝ × ℝ | a ≤ egg.at d ∧ egg.at d < b} := egg_regular.measurable_at measurableSet_Ico
  unfold uniform2
  rw [Measure.real, Measure.restrict_apply hm]
  have : {d : ℝ × ℝ | a ≤ egg.at d ∧ egg.at d < b} ∩ Ico 0 1 ×ˢ Ico 0 1 = Ico 0 1 ×ˢ Ico ((a - 1) / 2) ((b - 1) / 2) := by
    ext d
    constructor
    · rintro ⟨⟨h1, h2⟩, h3, h4⟩
      rw [egg_at d ⟨h3.1, h3.2, h4⟩] at h1 h2
      exact ⟨h3, by linarith, by linarith⟩
    · rintro ⟨h3, h4, h5⟩
      have hd : Draw d := ⟨h3.1, h3.2, by linarith, by linarith⟩
      refine ⟨⟨?_, ?_⟩, h3, by linarith, by linarith⟩ <;> rw [egg_at d hd] <;> linarith
  rw [this, Measure.volume_eq_prod, Measure.prod_prod, Real.volume_Ico, Real.volume_Ico, ← ENNReal.ofReal_mul (by norm_num), ENNReal.toReal_ofReal (by linarith)]
  ring

-- the histogram of the egg converges to the uniform density 1/2
example : ∀ᵐ ω ∂(Measure.infinitePi fun _ : ℕ => uniform2), ∀ i < 4, Tendsto (fun n : ℕ => (egg.radiusHistogram (first (fun i ω => ω i) n ω) 4 1 3).2.getD i 0) atTop (𝓝 (1 / 2)) := by
  have hfull : sky egg (fun r => 1 ≤ r ∧ r < 3) = 1 := by rw [egg_sky 1 3 (by norm_num) (by norm_num) (by norm_num)]; norm_num
  have := C111_histogram egg 3 egg_regular _ _ (draws_exist uniform2) 4 1 3 (by norm_num) (by norm_num) (by rw [hfull]; norm_num)
  filter_upwards [this] with ω w i hi
  have hw := w i hi
  have hi' : (i : ℝ) + 1 ≤ 4 := by exact_mod_cast hi
  have hi0 : (0 : ℝ) ≤ i := by positivity
  rw [hfull, egg_sky _ _ (by push_cast; linarith) (by push_cast; linarith) (by push_cast; linarith)] at hw
  convert hw using 2
  push_cast
  ring

example : ∀ᵐ ω ∂(Measure.infinitePi fun _ : ℕ => uniform2), (∀ i, Draw (ω i)) ∧ Tendsto (fun n : ℕ => egg.radialRange (ω 0) (first (fun i ω => ω (i + 1)) n ω)) atTop (𝓝 (1, 3)) := by
  have hp := pi_pos
  refine C111_range egg 3 egg_regular egg_continuous _ _ (draws_exist uniform2) 1 3 ⟨⟨0, π, le_refl _, by positivity, hp.le, le_refl _, ?_⟩, ?_⟩ ⟨⟨0, 0, le_refl _, by positivity, le_refl _, hp.le, ?_⟩, ?_⟩
  · unfold egg; rw [cos_pi]; norm_num
  · rintro r ⟨_, theta, _, _, _, _, rfl⟩; unfold egg; linarith [neg_one_le_cos theta]
  · unfold egg; rw [cos_zero]; norm_num
  · rintro r ⟨_, theta, _, _, _, _, rfl⟩; unfold egg; linarith [cos_le_one theta]

theorem egg_low (x : ℝ) (hx : x < 2) : sky egg (fun r => r ≤ x) < 1 / 2 := by
  rw [sky_eq egg 3 egg_regular _ measurableSet_Iic]
  have hm : MeasurableSet {d : ℝ × ℝ | egg.at d ≤ x} := egg_regular.measurable_at measurableSet_Iic
  have hle : uniform2 {d : ℝ × ℝ | egg.at d ≤ x} ≤ ENNReal.ofReal ((x - 1) / 2) := by
    unfold uniform2
    rw [Measure.restrict_apply hm]
    refine (measure_mono (t := Ico 0 1 ×ˢ Icc 0 ((x - 1) / 2)) ?_).trans ?_
    · rintro d ⟨h1, h3, h4⟩
      change egg.at d ≤ x at h1
      rw [egg_at d ⟨h3.1, h3.2, h4⟩] at h1
      exact ⟨h3, h4.1, by linarith⟩
    · rw [Measure.volume_eq_prod, Measure.prod_prod, Real.volume_Ico, Real.volume_Icc]
      simp
  have := ENNReal.toReal_mono ENNReal.ofReal_ne_top hle
  refine lt_of_le_of_lt this ?_
  rw [ENNReal.toReal_ofReal']
  exact max_lt (by linarith) (by norm_num)

theorem egg_high (x : ℝ) (hx : 2 < x) : sky egg (fun r => x ≤ r) < 1 / 2 := by
  rw [sky_eq egg 3 egg_regular _ measurableSet_Ici]
  have hm : MeasurableSet {d : ℝ × ℝ | x ≤ egg.at d} := egg_regular.measurable_at measurableSet_Ici
  have hle : uniform2 {d : ℝ × ℝ | x ≤ egg.at d} ≤ ENNReal.ofReal (1 - (x - 1) / 2) := by
    unfold uniform2
    rw [Measure.restrict_apply hm]
    refine (measure_mono (t := Ico 0 1 ×ˢ Icc ((x - 1) / 2) 1) ?_).trans ?_
    · rintro d ⟨h1, h3, h4⟩
      change x ≤ egg.at d at h1
      rw [egg_at d ⟨h3.1, h3.2, h4⟩] at h1
      exact ⟨h3, by linarith, h4.2.le⟩
    · rw [Measure.volume_eq_prod, Measure.prod_prod, Real.volume_Ico, Real.volume_Icc]
      simp
  have := ENNReal.toReal_mono ENNReal.ofReal_ne_top hle
  refine lt_of_le_of_lt this ?_
  rw [ENNReal.toReal_ofReal']
  exact max_lt (by linarith) (by norm_num)

example : ∀ᵐ ω ∂(Measure.infinitePi fun _ : ℕ => uniform2), ∃ f : ℕ → ℝ, (∀ n, 0 < n → egg.medianRadius (first (fun i ω => ω i) n ω) = some (f n)) ∧ Tendsto f atTop (𝓝 2) :=
  C111_median egg 3 egg_regular _ _ (draws_exist uniform2) 2 egg_low egg_high

example : ∀ᵐ ω ∂(Measure.infinitePi fun _ : ℕ => uniform2), ∀ i < 5, ∃ f : ℕ → ℝ,
    (∀ n, 0 < n → (egg.angularFractionProfile (first (fun i ω => ω i) n ω) 5 (1 / 2) 4).2.getD i none = some (f n)) ∧ Tendsto f atTop (𝓝 (sky egg fun r => 1 / 2 * (4 / (1 / 2)) ^ ((i : ℝ) / (5 : Nat)) ≤ r)) :=
  C111_fraction egg 3 egg_regular _ _ (draws_exist uniform2) 5 (1 / 2) 4 (by norm_num) (by norm_num) (by norm_num) fun phi theta => by
    unfold egg; constructor <;> linarith [neg_one_le_cos theta, cos_le_one theta]

-- the egg and the sphere of radius 2 are at most 1 apart
example : ∀ᵐ ω ∂(Measure.infinitePi fun _ : ℕ => uniform2), Tendsto (fun n : ℕ => egg.maxDiff (fun _ _ => 2) (first (fun i ω => ω i) n ω)) atTop (𝓝 1) := by
  have hp := pi_pos
  refine C111_max_difference egg (fun _ _ => 2) 3 2 egg_regular ⟨measurable_const, fun _ _ => by norm_num, fun _ _ => le_refl _, fun _ _ => rfl⟩ egg_continuous continuous_const _ _ (draws_exist uniform2) 1
    ⟨⟨0, 0, le_refl _, by positivity, le_refl _, hp.le, ?_⟩, ?_⟩
  · unfold egg; rw [cos_zero]; norm_num
  · rintro r ⟨_, theta, _, _, _, _, rfl⟩
    unfold egg
    rw [abs_le]
    constructor <;> linarith [neg_one_le_cos theta, cos_le_one theta]

end Shellfish.Analyze
