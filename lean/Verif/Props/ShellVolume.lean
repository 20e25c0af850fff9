/-
C89: sampled volumes and radii are unbiased and converge to those of the shell.
-/
import Verif.Props.Shell
import Verif.Props.Penna
import Mathlib.Analysis.SpecialFunctions.PolarCoord
import Mathlib.MeasureTheory.Function.JacobianOneDim
import Mathlib.Analysis.SpecialFunctions.Trigonometric.InverseDeriv
import Mathlib.MeasureTheory.Function.SpecialFunctions.Arctan
import Mathlib.MeasureTheory.Function.SpecialFunctions.Basic
import Mathlib.Analysis.SpecialFunctions.Integrals.Basic
import Mathlib.MeasureTheory.Integral.IntervalIntegral.Periodic
import Mathlib.MeasureTheory.Measure.Haar.OfBasis
import Mathlib.Probability.StrongLaw
import Mathlib.Probability.Independence.InfinitePi

namespace Shellfish.Analyze
open Shellfish Shellfish.Los Real MeasureTheory Set ENNReal

/-- The shells of the claim: measurable, bounded, not negative, with the same radius at angles that differ by a full turn. -/
structure Regular (s : Shell) (R : ℝ) : Prop where
  measurable : Measurable fun p : ℝ × ℝ => s p.1 p.2
  nonneg : ∀ phi theta, 0 ≤ s phi theta
  le : ∀ phi theta, s phi theta ≤ R
  periodic : ∀ phi theta, s (phi + 2 * π) theta = s phi theta

/-- The points of space that are inside of a shell. -/
def region (s : Shell) : Set (ℝ × ℝ × ℝ) := {p | s.contains ⟨p.1, p.2.1, p.2.2⟩}

theorem measurableSet_region {s : Shell} (h : Measurable fun p : ℝ × ℝ => s p.1 p.2) : MeasurableSet (region s) := by
  have e : region s = {p : ℝ × ℝ × ℝ | Real.sqrt (p.1 * p.1 + p.2.1 * p.2.1 + p.2.2 * p.2.2) <
      (fun q : ℝ × ℝ => s q.1 q.2) (Complex.arg (Complex.mk p.1 p.2.1), Real.arccos (p.2.2 / Real.sqrt (p.1 * p.1 + p.2.1 * p.2.1 + p.2.2 * p.2.2)))} := by
    ext p
    simp only [region, Shell.contains, Geom.atan2, mem_setOf_eq, gt_iff_lt]
  rw [e]
  have hm : Measurable fun p : ℝ × ℝ × ℝ => Real.sqrt (p.1 * p.1 + p.2.1 * p.2.1 + p.2.2 * p.2.2) := by fun_prop
  have hc : Measurable fun p : ℝ × ℝ × ℝ => Complex.mk p.1 p.2.1 := by
    have : (fun p : ℝ × ℝ × ℝ => Complex.mk p.1 p.2.1) = fun p : ℝ × ℝ × ℝ => (p.1 : ℂ) + (p.2.1 : ℂ) * Complex.I := by
      funext p
      apply Complex.ext <;> simp
    rw [this]
    fun_prop
  refine measurableSet_lt hm (h.comp (Measurable.prodMk (Complex.measurable_arg.comp hc) ?_))
  exact Real.measurable_arccos.comp (Measurable.div (by fun_prop) hm)

/-- The volume below a direction. -/
theorem cone (c x : ℝ) (hc : 0 ≤ c) (hx : 0 ≤ x) : ∫⁻ r in Ioi (0 : ℝ), ENNReal.ofReal r * (ENNReal.ofReal (r * c) * (if r < x then 1 else 0)) = ENNReal.ofReal (c * (x ^ 3 / 3)) := by
  have e : ∀ r ∈ Ioi (0 : ℝ), ENNReal.ofReal r * (ENNReal.ofReal (r * c) * (if r < x then 1 else 0)) = (Iio x).indicator (fun r => ENNReal.ofReal (c * r ^ 2)) r := by
    intro r hr
    have hr : 0 < r := hr
    by_cases h : r < x
    · rw [indicator_of_mem (show r ∈ Iio x from h), if_pos h, mul_one, ← ENNReal.ofReal_mul hr.le]
      congr 1; ring
    · rw [indicator_of_notMem (show r ∉ Iio x from h), if_neg h, mul_zero, mul_zero]
  rw [setLIntegral_congr_fun measurableSet_Ioi e, lintegral_indicator measurableSet_Iio, Measure.restrict_restrict measurableSet_Iio, inter_comm, Ioi_inter_Iio,
    ← ofReal_integral_eq_lintegral_ofReal]
  · congr 1
    rw [← integral_Ioc_eq_integral_Ioo, ← intervalIntegral.integral_of_le hx, intervalIntegral.integral_const_mul, _root_.integral_pow]
    ring
  · exact (Continuous.integrableOn_Icc (by fun_prop)).mono_set Ioo_subset_Icc_self
  · exact Filter.Eventually.of_forall fun r => by positivity

open Classical in
/-- The volume inside of a shell as an integral over the directions. -/
theorem volume_region {s : Shell} {R : ℝ} (h : Regular s R) :
    volume (region s) = ∫⁻ phi in Ioo (-π) π, ∫⁻ theta in Ioo 0 π, ENNReal.ofReal (sin theta * (s phi theta ^ 3 / 3)) := by
  have hm := measurableSet_region h.measurable
  let F : ℝ → ℝ → ℝ → ℝ≥0∞ := fun x y z => if (x, y, z) ∈ region s then 1 else 0
  have hF : Measurable fun p : ℝ × ℝ × ℝ => F p.1 p.2.1 p.2.2 := by
    have : (fun p : ℝ × ℝ × ℝ => F p.1 p.2.1 p.2.2) = (region s).indicator fun _ => 1 := by
      funext p; simp only [F, indicator]
    rw [this]
    exact measurable_const.indicator hm
  have hF2 : ∀ {α : Type} [MeasurableSpace α] (f g k : α → ℝ), Measurable f → Measurable g → Measurable k → Measurable fun a => F (f a) (g a) (k a) :=
    fun f g k hf hg hk => hF.comp (hf.prodMk (hg.prodMk hk))
  calc volume (region s) = ∫⁻ p, (region s).indicator (fun _ => 1) p := by rw [lintegral_indicator hm, setLIntegral_one]
    _ = ∫⁻ p : ℝ × ℝ × ℝ, F p.1 p.2.1 p.2.2 := by
        exact lintegral_congr fun p => rfl
    _ = ∫⁻ q : ℝ × ℝ, ∫⁻ z, F q.1 q.2 z := by
        rw [Measure.volume_eq_prod, lintegral_prod _ hF.aemeasurable, Measure.volume_eq_prod ℝ ℝ, lintegral_prod (fun q : ℝ × ℝ => ∫⁻ z, F q.1 q.2 z) (Measurable.lintegral_prod_right' (f := fun p : (ℝ × ℝ) × ℝ => F p.1.1 p.1.2 p.2) (hF2 (fun p : (ℝ × ℝ) × ℝ => p.1.1) (fun p => p.1.2) (fun p => p.2) (by fun_prop) (by fun_prop) (by fun_prop))).aemeasurable]
        refine lintegral_congr fun x => ?_
        rw [lintegral_prod _ (hF2 (fun _ => x) (fun q : ℝ × ℝ => q.1) (fun q => q.2) (by fun_prop) (by fun_prop) (by fun_prop)).aemeasurable]
    _ = ∫⁻ p in polarCoord.target, ENNReal.ofReal p.1 * ∫⁻ z, F (p.1 * cos p.2) (p.1 * sin p.2) z := by
        rw [← lintegral_comp_polarCoord_symm]
        simp only [polarCoord_symm_apply, smul_eq_mul]
    _ = ∫⁻ phi in Ioo (-π) π, ∫⁻ rho in Ioi 0, ENNReal.ofReal rho * ∫⁻ z, F (rho * cos phi) (rho * sin phi) z := by
        rw [polarCoord_target, Measure.volume_eq_prod, ← Measure.prod_restrict, lintegral_prod_symm]
        refine (Measurable.mul (by fun_prop) ?_).aemeasurable
        exact Measurable.lintegral_prod_right' (f := fun p : (ℝ × ℝ) × ℝ => F (p.1.1 * cos p.1.2) (p.1.1 * sin p.1.2) p.2) (hF2 (fun p : (ℝ × ℝ) × ℝ => p.1.1 * cos p.1.2) (fun p => p.1.1 * sin p.1.2) (fun p => p.2) (by fun_prop) (by fun_prop) (by fun_prop))
    _ = ∫⁻ phi in Ioo (-π) π, ∫⁻ theta in Ioo 0 π, ENNReal.ofReal (sin theta * (s phi theta ^ 3 / 3)) := by
        refine setLIntegral_congr_fun measurableSet_Ioo ?_
        intro phi hphi
        dsimp only
        let G : ℝ × ℝ → ℝ≥0∞ := fun q => if 0 < q.2 then ENNReal.ofReal q.2 * F (q.2 * cos phi) (q.2 * sin phi) q.1 else 0
        have hG : Measurable G := by
          refine Measurable.ite (measurableSet_lt measurable_const measurable_snd) (Measurable.mul (by fun_prop) ?_) measurable_const
          exact hF2 _ _ _ (by fun_prop) (by fun_prop) (by fun_prop)
        calc ∫⁻ rho in Ioi 0, ENNReal.ofReal rho * ∫⁻ z, F (rho * cos phi) (rho * sin phi) z
            = ∫⁻ rho in Ioi (0 : ℝ), ∫⁻ z, ENNReal.ofReal rho * F (rho * cos phi) (rho * sin phi) z := by
              congr 1; funext rho
              rw [lintegral_const_mul _ (hF2 _ _ _ (by fun_prop) (by fun_prop) (by fun_prop))]
          _ = ∫⁻ rho, ∫⁻ z, G (z, rho) := by
              rw [← lintegral_indicator measurableSet_Ioi]
              congr 1; funext rho
              by_cases hr : 0 < rho
              · rw [indicator_of_mem (show rho ∈ Ioi (0 : ℝ) from hr)]
                simp only [G, hr, if_true]
              · rw [indicator_of_notMem (show rho ∉ Ioi (0 : ℝ) from hr)]
                simp only [G, hr, if_false, lintegral_zero]
          _ = ∫⁻ q : ℝ × ℝ, G q := by
              rw [Measure.volume_eq_prod ℝ ℝ, lintegral_prod_symm _ hG.aemeasurable]
          _ = ∫⁻ p in polarCoord.target, ENNReal.ofReal p.1 * G (p.1 * cos p.2, p.1 * sin p.2) := by
              rw [← lintegral_comp_polarCoord_symm]
              simp only [polarCoord_symm_apply, smul_eq_mul]
          _ = ∫⁻ theta in Ioo (-π) π, ∫⁻ r in Ioi 0, ENNReal.ofReal r * G (r * cos theta, r * sin theta) := by
              rw [polarCoord_target, Measure.volume_eq_prod, ← Measure.prod_restrict, lintegral_prod_symm]
              exact (Measurable.mul (by fun_prop) (hG.comp (by fun_prop))).aemeasurable
          _ = ∫⁻ theta in Ioo (-π) π, (Ioo 0 π).indicator (fun theta => ENNReal.ofReal (sin theta * (s phi theta ^ 3 / 3))) theta := by
              refine setLIntegral_congr_fun measurableSet_Ioo ?_
              intro theta htheta
              dsimp only
              by_cases ht : 0 < theta
              · have hsin : 0 < sin theta := sin_pos_of_pos_of_lt_pi ht htheta.2
                rw [indicator_of_mem (show theta ∈ Ioo 0 π from ⟨ht, htheta.2⟩), ← cone (sin theta) (s phi theta) hsin.le (h.nonneg _ _)]
                refine setLIntegral_congr_fun measurableSet_Ioi ?_
                intro r hr
                have hr : 0 < r := hr
                have hpos : 0 < r * sin theta := mul_pos hr hsin
                have hc := C72_contains s phi theta r hr hphi.1 hphi.2.le ht htheta.2
                simp only [G, hpos, if_true, F]
                congr 2
                unfold cartesian at hc
                by_cases hlt : r < s phi theta
                · rw [if_pos hlt, if_pos]
                  exact hc.2 hlt
                · rw [if_neg hlt, if_neg]
                  exact fun hx => hlt (hc.1 hx)
              · rw [indicator_of_notMem (show theta ∉ Ioo 0 π from fun hx => ht hx.1), ← lintegral_zero (μ := volume.restrict (Ioi (0 : ℝ)))]
                refine setLIntegral_congr_fun measurableSet_Ioi ?_
                intro r hr
                have hsin : sin theta ≤ 0 := sin_nonpos_of_nonpos_of_neg_pi_le (not_lt.1 ht) htheta.1.le
                have hneg : ¬ 0 < r * sin theta := not_lt.2 (mul_nonpos_of_nonneg_of_nonpos (le_of_lt hr) hsin)
                simp only [G, hneg, if_false, mul_zero]
          _ = ∫⁻ theta in Ioo 0 π, ENNReal.ofReal (sin theta * (s phi theta ^ 3 / 3)) := by
              rw [lintegral_indicator measurableSet_Ioo, Measure.restrict_restrict measurableSet_Ioo]
              congr 2
              ext x
              simp only [mem_inter_iff, mem_Ioo]
              constructor
              · exact fun hx => hx.1
              · exact fun hx => ⟨hx, by linarith [hx.1, pi_pos], hx.2⟩

/-- One turn of a periodic function is as good as another. -/
theorem turn (k : ℝ → ℝ≥0∞) (hk : ∀ x, k (x + 2 * π) = k x) : ∫⁻ x in Ioo 0 (2 * π), k x = ∫⁻ x in Ioo (-π) π, k x := by
  have hT : (0 : ℝ) < 2 * π := by positivity
  have hp : Function.Periodic k (2 * π) := hk
  rw [setLIntegral_congr Ioo_ae_eq_Ioc, setLIntegral_congr (Ioo_ae_eq_Ioc (a := -π) (b := π))]
  have h1 := isAddFundamentalDomain_Ioc hT 0 volume
  have h2 := isAddFundamentalDomain_Ioc hT (-π) volume
  have := h1.setLIntegral_eq h2 k (by
    rintro ⟨g, hg⟩ x
    obtain ⟨n, rfl⟩ := AddSubgroup.mem_zmultiples_iff.1 hg
    rw [AddSubgroup.vadd_def, vadd_eq_add, add_comm]
    exact (hp.zsmul n) x)
  rw [zero_add, show -π + 2 * π = π by ring] at this
  exact this

/-- The polar angle of a uniform draw has the density `sin θ / 2`. -/
theorem polar (k : ℝ → ℝ≥0∞) : ∫⁻ v in Ico (0 : ℝ) 1, k (arccos (2 * v - 1)) = ENNReal.ofReal (1 / 2) * ∫⁻ theta in Ioo 0 π, ENNReal.ofReal (sin theta) * k theta := by
  have himg : (fun theta => (1 + cos theta) / 2) '' Ioo 0 π = Ioo 0 1 := by
    ext v
    constructor
    · rintro ⟨t, ht, rfl⟩
      have h1 : cos t < 1 := by
        have := cos_lt_cos_of_nonneg_of_le_pi (le_refl 0) ht.2.le ht.1
        rwa [cos_zero] at this
      have h2 : -1 < cos t := by
        have := cos_lt_cos_of_nonneg_of_le_pi ht.1.le (le_refl π) ht.2
        rwa [cos_pi] at this
      exact ⟨by dsimp only; linarith, by dsimp only; linarith⟩
    · rintro ⟨h1, h2⟩
      refine ⟨arccos (2 * v - 1), ⟨arccos_pos.2 (by linarith), ?_⟩, ?_⟩
      · refine lt_of_le_of_ne (arccos_le_pi _) fun e => ?_
        rw [arccos_eq_pi] at e
        linarith
      · dsimp only
        rw [cos_arccos (by linarith) (by linarith)]
        ring
  have hinj : InjOn (fun theta => (1 + cos theta) / 2) (Ioo 0 π) := by
    intro x hx y hy hxy
    refine injOn_cos ⟨hx.1.le, hx.2.le⟩ ⟨hy.1.le, hy.2.le⟩ ?_
    dsimp only at hxy
    linarith
  have hder : ∀ x ∈ Ioo 0 π, HasDerivWithinAt (fun theta => (1 + cos theta) / 2) (-sin x / 2) (Ioo 0 π) x := by
    intro x _
    have := ((hasDerivAt_cos x).const_add 1).div_const 2
    exact this.hasDerivWithinAt
  rw [← setLIntegral_congr Ioo_ae_eq_Ico, ← himg, lintegral_image_eq_lintegral_abs_deriv_mul measurableSet_Ioo hder hinj, ← lintegral_const_mul' _ _ ENNReal.ofReal_ne_top]
  refine setLIntegral_congr_fun measurableSet_Ioo ?_
  intro t ht
  dsimp only
  have hs := sin_pos_of_pos_of_lt_pi ht.1 ht.2
  rw [show 2 * ((1 + cos t) / 2) - 1 = cos t by ring, arccos_cos ht.1.le ht.2.le, abs_div, abs_neg, abs_of_pos hs, abs_of_pos (by norm_num : (0 : ℝ) < 2), ← mul_assoc,
    ← ENNReal.ofReal_mul (by norm_num)]
  congr 2
  ring

/-- The other angle is uniform. -/
theorem azimuth (k : ℝ → ℝ≥0∞) : ∫⁻ u in Ico (0 : ℝ) 1, k (2 * π * u) = ENNReal.ofReal (1 / (2 * π)) * ∫⁻ phi in Ioo 0 (2 * π), k phi := by
  have hp := pi_pos
  have himg : (fun phi => phi / (2 * π)) '' Ioo 0 (2 * π) = Ioo 0 1 := by
    ext v
    constructor
    · rintro ⟨t, ht, rfl⟩
      exact ⟨div_pos ht.1 (by positivity), (div_lt_one (by positivity)).2 ht.2⟩
    · rintro ⟨h1, h2⟩
      exact ⟨2 * π * v, ⟨by positivity, by nlinarith⟩, by field_simp⟩
  have hinj : InjOn (fun phi => phi / (2 * π)) (Ioo 0 (2 * π)) := by
    intro x _ y _ hxy
    dsimp only at hxy
    field_simp at hxy
    exact hxy
  have hder : ∀ x ∈ Ioo 0 (2 * π), HasDerivWithinAt (fun phi => phi / (2 * π)) (1 / (2 * π)) (Ioo 0 (2 * π)) x :=
    fun x _ => ((hasDerivAt_id x).div_const (2 * π)).hasDerivWithinAt
  rw [← setLIntegral_congr Ioo_ae_eq_Ico, ← himg, lintegral_image_eq_lintegral_abs_deriv_mul measurableSet_Ioo hder hinj, ← lintegral_const_mul' _ _ ENNReal.ofReal_ne_top]
  refine setLIntegral_congr_fun measurableSet_Ioo ?_
  intro t _
  dsimp only
  rw [abs_of_pos (by positivity), show 2 * π * (t / (2 * π)) = t by field_simp]

/-- The directions of uniform draws are uniform on the sphere. -/
theorem directions (g : ℝ → ℝ → ℝ≥0∞) : ∫⁻ u in Ico (0 : ℝ) 1, ∫⁻ v in Ico (0 : ℝ) 1, g (randomAngle (u, v)).1 (randomAngle (u, v)).2 =
    ENNReal.ofReal (1 / (4 * π)) * ∫⁻ phi in Ioo 0 (2 * π), ∫⁻ theta in Ioo 0 π, ENNReal.ofReal (sin theta) * g phi theta := by
  have hp := pi_pos
  simp only [randomAngle]
  rw [azimuth fun phi => ∫⁻ v in Ico (0 : ℝ) 1, g phi (arccos (2 * v - 1))]
  simp only [polar]
  rw [lintegral_const_mul' _ _ ENNReal.ofReal_ne_top, ← mul_assoc, ← ENNReal.ofReal_mul (by positivity)]
  congr 2
  field_simp
  norm_num

/-! ### Random draws -/

/-- Two uniform random numbers. -/
noncomputable def uniform2 : Measure (ℝ × ℝ) := volume.restrict (Ico 0 1 ×ˢ Ico 0 1)

/-- Three uniform random numbers. -/
noncomputable def uniform3 : Measure (ℝ × ℝ × ℝ) := volume.restrict (Ico 0 1 ×ˢ (Ico 0 1 ×ˢ Ico 0 1))

theorem uniform2_prod : uniform2 = (volume.restrict (Ico (0 : ℝ) 1)).prod (volume.restrict (Ico (0 : ℝ) 1)) := by
  rw [uniform2, Measure.prod_restrict]; rfl

instance : IsProbabilityMeasure (volume.restrict (Ico (0 : ℝ) 1)) := ⟨by simp⟩

instance : IsProbabilityMeasure uniform2 := by rw [uniform2_prod]; infer_instance

theorem uniform3_prod : uniform3 = (volume.restrict (Ico (0 : ℝ) 1)).prod uniform2 := by
  rw [uniform3, uniform2, Measure.prod_restrict]; rfl

instance : IsProbabilityMeasure uniform3 := by rw [uniform3_prod]; infer_instance

/-- Independent draws from a distribution. -/
structure Draws {Ω α : Type} [MeasurableSpace Ω] [MeasurableSpace α] (μ : Measure Ω) (law : Measure α) (X : ℕ → Ω → α) : Prop where
  measurable : ∀ i, Measurable (X i)
  law : ∀ i, μ.map (X i) = law
  indep : ProbabilityTheory.iIndepFun X μ

/-- The first `n` draws. -/
def first {Ω α : Type} (X : ℕ → Ω → α) (n : Nat) (ω : Ω) : List α := (List.range n).map fun i => X i ω

/-- Non-vacuity: there are independent draws from every distribution. -/
theorem draws_exist {α : Type} [MeasurableSpace α] (law : Measure α) [IsProbabilityMeasure law] :
    Draws (Measure.infinitePi fun _ : ℕ => law) law fun i ω => ω i where
  measurable i := by fun_prop
  law i := Measure.infinitePi_map_eval _ i
  indep := ProbabilityTheory.iIndepFun_infinitePi (X := fun _ x => x) (by fun_prop)

/-- The mean of a bounded function of independent draws converges to its expected value. -/
theorem mean_converges {Ω α : Type} [MeasurableSpace Ω] [MeasurableSpace α] {μ : Measure Ω} [IsProbabilityMeasure μ] {law : Measure α} {X : ℕ → Ω → α} (hX : Draws μ law X)
    (f : α → ℝ) (hf : Measurable f) (B : ℝ) (hB : ∀ a, |f a| ≤ B) :
    ∀ᵐ ω ∂μ, Filter.Tendsto (fun n : ℕ => (∑ i ∈ Finset.range n, f (X i ω)) / n) Filter.atTop (nhds (∫ a, f a ∂law)) := by
  have hint : Integrable (fun ω => f (X 0 ω)) μ := by
    refine Integrable.of_bound (hf.comp (hX.measurable 0)).aestronglyMeasurable B ?_
    exact Filter.Eventually.of_forall fun ω => hB _
  have h := ProbabilityTheory.strong_law_ae_real (μ := μ) (fun i ω => f (X i ω)) hint (by
    intro i j hij
    exact (hX.indep.indepFun hij).comp hf hf) (by
    intro i
    refine ⟨(hf.comp (hX.measurable i)).aemeasurable, (hf.comp (hX.measurable 0)).aemeasurable, ?_⟩
    have e : ∀ i, μ.map (fun ω => f (X i ω)) = law.map f := by
      intro i
      rw [← hX.law i, Measure.map_map hf (hX.measurable i)]
      rfl
    rw [e, e])
  have e : ∫ ω, f (X 0 ω) ∂μ = ∫ a, f a ∂law := by
    rw [← hX.law 0, integral_map (hX.measurable 0).aemeasurable hf.aestronglyMeasurable]
  rwa [e] at h

/-- The expected value of the mean of a bounded function of draws is its expected value. -/
theorem mean_unbiased {Ω α : Type} [MeasurableSpace Ω] [MeasurableSpace α] {μ : Measure Ω} [IsProbabilityMeasure μ] {law : Measure α} {X : ℕ → Ω → α} (hX : Draws μ law X)
    (f : α → ℝ) (hf : Measurable f) (B : ℝ) (hB : ∀ a, |f a| ≤ B) (n : Nat) (hn : 0 < n) : ∫ ω, (∑ i ∈ Finset.range n, f (X i ω)) / n ∂μ = ∫ a, f a ∂law := by
  have hint : ∀ i, Integrable (fun ω => f (X i ω)) μ := by
    intro i
    refine Integrable.of_bound (hf.comp (hX.measurable i)).aestronglyMeasurable B ?_
    exact Filter.Eventually.of_forall fun ω => hB _
  have e : ∀ i, ∫ ω, f (X i ω) ∂μ = ∫ a, f a ∂law := by
    intro i
    rw [← hX.law i, integral_map (hX.measurable i).aemeasurable hf.aestronglyMeasurable]
  rw [integral_div, integral_finset_sum _ fun i _ => hint i]
  simp only [e, Finset.sum_const, Finset.card_range, nsmul_eq_mul]
  have : (n : ℝ) ≠ 0 := by positivity
  field_simp

theorem first_sum {Ω α : Type} (X : ℕ → Ω → α) (n : Nat) (ω : Ω) (f : α → ℝ) : ((first X n ω).map f).sum = ∑ i ∈ Finset.range n, f (X i ω) := by
  rw [first, List.map_map, Finset.sum_range]
  induction n with
  | zero => simp
  | succ n ih => rw [List.range_succ, List.map_append, List.sum_append, ih, Fin.sum_univ_castSucc]; simp

theorem first_length {Ω α : Type} (X : ℕ → Ω → α) (n : Nat) (ω : Ω) : (first X n ω).length = n := by simp [first]

theorem measurable_randomAngle : Measurable randomAngle := by
  unfold randomAngle
  exact Measurable.prodMk (by fun_prop) (Real.measurable_arccos.comp (by fun_prop))

theorem Regular.measurable_at {s : Shell} {R : ℝ} (h : Regular s R) : Measurable s.at := h.measurable.comp measurable_randomAngle

/-- The expected value of one sample of the volume. -/
theorem expect_volume {s : Shell} {R : ℝ} (h : Regular s R) :
    volume (region s) = ENNReal.ofReal (∫ d, s.at d * s.at d * s.at d * 4 * (π / 3) ∂uniform2) := by
  have hp := pi_pos
  have h0 : ∀ d, 0 ≤ s.at d := fun d => h.nonneg _ _
  have h1 : ∀ d, s.at d ≤ R := fun d => h.le _ _
  have hm := h.measurable_at
  have hint : Integrable (fun d => s.at d * s.at d * s.at d * 4 * (π / 3)) uniform2 := by
    refine Integrable.of_bound (by fun_prop) (R * R * R * 4 * (π / 3)) (Filter.Eventually.of_forall fun d => ?_)
    have a0 := h0 d
    have a1 := h1 d
    have a2 : 0 ≤ R := a0.trans a1
    rw [Real.norm_of_nonneg (by positivity)]
    gcongr
  rw [ofReal_integral_eq_lintegral_ofReal hint (Filter.Eventually.of_forall fun d => by have := h0 d; positivity), uniform2_prod, lintegral_prod _ (by fun_prop)]
  simp only [Shell.at]
  rw [directions fun phi theta => ENNReal.ofReal (s phi theta * s phi theta * s phi theta * 4 * (π / 3)), volume_region h, ← turn, ← lintegral_const_mul' _ _ ENNReal.ofReal_ne_top]
  · refine setLIntegral_congr_fun measurableSet_Ioo ?_
    intro phi _
    dsimp only
    rw [← lintegral_const_mul' _ _ ENNReal.ofReal_ne_top]
    refine setLIntegral_congr_fun measurableSet_Ioo ?_
    intro theta ht
    dsimp only
    have hs := sin_pos_of_pos_of_lt_pi ht.1 ht.2
    rw [← ENNReal.ofReal_mul hs.le, ← ENNReal.ofReal_mul (by positivity)]
    congr 1
    field_simp
  · intro x
    simp only [h.periodic]

/-- C89: the volume of a shell converges to the volume of the set of points that `Contains` accepts, and its expected value is this volume for every number of samples. -/
theorem C89_volume (s : Shell) (R : ℝ) (h : Regular s R) {Ω : Type} [MeasurableSpace Ω] (μ : Measure Ω) [IsProbabilityMeasure μ] (X : ℕ → Ω → ℝ × ℝ) (hX : Draws μ uniform2 X) :
    volume {p : ℝ × ℝ × ℝ | s.contains ⟨p.1, p.2.1, p.2.2⟩} < ⊤ ∧
    (∀ n, 0 < n → ∫ ω, s.volume (first X n ω) ∂μ = volume.real {p : ℝ × ℝ × ℝ | s.contains ⟨p.1, p.2.1, p.2.2⟩}) ∧
    ∀ᵐ ω ∂μ, Filter.Tendsto (fun n : ℕ => s.volume (first X n ω)) Filter.atTop (nhds (volume.real {p : ℝ × ℝ × ℝ | s.contains ⟨p.1, p.2.1, p.2.2⟩})) := by
  have hp := pi_pos
  have h0 : ∀ d, 0 ≤ s.at d := fun d => h.nonneg _ _
  have h1 : ∀ d, s.at d ≤ R := fun d => h.le _ _
  have hm := h.measurable_at
  have hv : ∀ n ω, s.volume (first X n ω) = (∑ i ∈ Finset.range n, (fun d => s.at d * s.at d * s.at d * 4 * (π / 3)) (X i ω)) / n := by
    intro n ω
    unfold Shell.volume
    dsimp only
    rw [foldl_add (fun d => s.at d * s.at d * s.at d), zero_add, first_sum, first_length, ← Finset.sum_mul, ← Finset.sum_mul]
    ring
  have he := expect_volume h
  have hpos : 0 ≤ ∫ d, s.at d * s.at d * s.at d * 4 * (π / 3) ∂uniform2 := integral_nonneg fun d => by have := h0 d; positivity
  have hreal : volume.real (region s) = ∫ d, s.at d * s.at d * s.at d * 4 * (π / 3) ∂uniform2 := by
    rw [Measure.real, he, ENNReal.toReal_ofReal hpos]
  have hb : ∀ d, |s.at d * s.at d * s.at d * 4 * (π / 3)| ≤ R * R * R * 4 * (π / 3) := by
    intro d
    have a0 := h0 d
    have a1 := h1 d
    have a2 : 0 ≤ R := a0.trans a1
    rw [abs_of_nonneg (by positivity)]
    gcongr
  refine ⟨?_, ?_, ?_⟩
  · change volume (region s) < ⊤
    rw [he]; exact ENNReal.ofReal_lt_top
  · intro n hn
    simp only [hv]
    rw [mean_unbiased hX _ (by fun_prop) _ hb n hn]
    exact hreal.symm
  · have := mean_converges hX _ (by fun_prop) _ hb
    simp only [hv]
    rw [← hreal] at this
    exact this

/-- The mean of a function of the direction over the sphere. -/
noncomputable def sphereMean (f : ℝ → ℝ → ℝ) : ℝ := (1 / (4 * π)) * ∫ phi in Ioo 0 (2 * π), ∫ theta in Ioo 0 π, sin theta * f phi theta

/-- The expected radius of a random direction is the mean radius over the sphere. -/
theorem expect_radius {s : Shell} {R : ℝ} (h : Regular s R) : ∫ d, s.at d ∂uniform2 = sphereMean s := by
  have hp := pi_pos
  have h0 : ∀ d, 0 ≤ s.at d := fun d => h.nonneg _ _
  have hR : 0 ≤ R := (h.nonneg 0 0).trans (h.le 0 0)
  have hm := h.measurable_at
  have hmf : Measurable fun p : ℝ × ℝ => sin p.2 * s p.1 p.2 := Measurable.mul (by fun_prop) h.measurable
  have hint : Integrable s.at uniform2 := by
    refine Integrable.of_bound (by fun_prop) R (Filter.Eventually.of_forall fun d => ?_)
    rw [Real.norm_of_nonneg (h0 d)]
    exact h.le _ _
  have hin : ∀ phi, IntegrableOn (fun theta => sin theta * s phi theta) (Ioo 0 π) := by
    intro phi
    refine Integrable.of_bound (hmf.comp (Measurable.prodMk measurable_const measurable_id)).aestronglyMeasurable R (Filter.Eventually.of_forall fun t => ?_)
    rw [Real.norm_eq_abs, abs_mul, abs_of_nonneg (h.nonneg phi t)]
    have := mul_le_mul (abs_sin_le_one t) (h.le phi t) (h.nonneg _ _) zero_le_one
    rwa [one_mul] at this
  have hin0 : ∀ phi, 0 ≤ ∫ theta in Ioo 0 π, sin theta * s phi theta := by
    intro phi
    refine setIntegral_nonneg measurableSet_Ioo fun t ht => ?_
    exact mul_nonneg (sin_pos_of_pos_of_lt_pi ht.1 ht.2).le (h.nonneg _ _)
  have hout : IntegrableOn (fun phi => ∫ theta in Ioo 0 π, sin theta * s phi theta) (Ioo 0 (2 * π)) := by
    refine Integrable.of_bound ?_ (R * (volume.restrict (Ioo 0 π)).real univ) (Filter.Eventually.of_forall fun phi => ?_)
    · exact (StronglyMeasurable.integral_prod_right (f := fun phi theta => sin theta * s phi theta) hmf.stronglyMeasurable).aestronglyMeasurable
    · refine norm_integral_le_of_norm_le_const (Filter.Eventually.of_forall fun t => ?_)
      rw [Real.norm_eq_abs, abs_mul, abs_of_nonneg (h.nonneg phi t)]
      have := mul_le_mul (abs_sin_le_one t) (h.le phi t) (h.nonneg _ _) zero_le_one
      rwa [one_mul] at this
  have hnn : 0 ≤ sphereMean s := by
    unfold sphereMean
    exact mul_nonneg (by positivity) (setIntegral_nonneg measurableSet_Ioo fun phi _ => hin0 phi)
  have key : ENNReal.ofReal (∫ d, s.at d ∂uniform2) = ENNReal.ofReal (sphereMean s) := by
    rw [ofReal_integral_eq_lintegral_ofReal hint (Filter.Eventually.of_forall h0), uniform2_prod, lintegral_prod _ (by fun_prop)]
    simp only [Shell.at]
    rw [directions fun phi theta => ENNReal.ofReal (s phi theta), sphereMean, ENNReal.ofReal_mul (by positivity),
      ofReal_integral_eq_lintegral_ofReal hout (Filter.Eventually.of_forall hin0)]
    congr 1
    refine lintegral_congr fun phi => ?_
    rw [ofReal_integral_eq_lintegral_ofReal (hin phi)]
    · refine setLIntegral_congr_fun measurableSet_Ioo ?_
      intro t ht
      dsimp only
      rw [ENNReal.ofReal_mul (sin_pos_of_pos_of_lt_pi ht.1 ht.2).le]
    · rw [Filter.EventuallyLE, ae_restrict_iff' measurableSet_Ioo]
      exact Filter.Eventually.of_forall fun t ht => mul_nonneg (sin_pos_of_pos_of_lt_pi ht.1 ht.2).le (h.nonneg _ _)
  exact (ENNReal.ofReal_eq_ofReal_iff (integral_nonneg h0) hnn).1 key

/-- C89: the mean radius converges to the mean radius over the sphere, and its expected value is the mean radius over the sphere for every number of samples. -/
theorem C89_mean_radius (s : Shell) (R : ℝ) (h : Regular s R) {Ω : Type} [MeasurableSpace Ω] (μ : Measure Ω) [IsProbabilityMeasure μ] (X : ℕ → Ω → ℝ × ℝ) (hX : Draws μ uniform2 X) :
    (∀ n, 0 < n → ∫ ω, s.meanRadius (first X n ω) ∂μ = sphereMean s) ∧
    ∀ᵐ ω ∂μ, Filter.Tendsto (fun n : ℕ => s.meanRadius (first X n ω)) Filter.atTop (nhds (sphereMean s)) := by
  have hm := h.measurable_at
  have hb : ∀ d, |s.at d| ≤ R := fun d => by
    have e : |s.at d| = s.at d := abs_of_nonneg (h.nonneg _ _)
    rw [e]; exact h.le _ _
  have hv : ∀ n ω, s.meanRadius (first X n ω) = (∑ i ∈ Finset.range n, s.at (X i ω)) / n := by
    intro n ω
    unfold Shell.meanRadius
    rw [foldl_add s.at, zero_add, first_sum, first_length]
  refine ⟨fun n hn => ?_, ?_⟩
  · simp only [hv]
    rw [mean_unbiased hX _ hm _ hb n hn, expect_radius h]
  · have := mean_converges hX _ hm _ hb
    simp only [hv]
    rwa [expect_radius h] at this

/-- The point of space of three numbers. -/
def toVec (p : ℝ × ℝ × ℝ) : Geom.Vec := ⟨p.1, p.2.1, p.2.2⟩

open Classical in
/-- The expected value of one sample of the cube. -/
theorem expect_cube {s : Shell} {R : ℝ} (h : Regular s R) (hR : 0 < R) :
    ∫ d, (if s.contains (cubePoint R (toVec d)) then (1 : ℝ) else 0) ∂uniform3 = volume.real (region s) / (2 * R) ^ 3 := by
  have hm := measurableSet_region h.measurable
  let A : Set (ℝ × ℝ × ℝ) := {d | s.contains (cubePoint R (toVec d))}
  have hA : A = (fun d => (2 * R) • d) ⁻¹' ((fun d => d + ((-R, -R, -R) : ℝ × ℝ × ℝ)) ⁻¹' region s) := by
    ext d
    simp only [A, mem_setOf_eq, mem_preimage, region, cubePoint, toVec, Prod.smul_fst, Prod.smul_snd, Prod.fst_add, Prod.snd_add, smul_eq_mul]
    rw [show d.1 * (2 * R) - R = 2 * R * d.1 + -R by ring, show d.2.1 * (2 * R) - R = 2 * R * d.2.1 + -R by ring, show d.2.2 * (2 * R) - R = 2 * R * d.2.2 + -R by ring]
  have hAm : MeasurableSet A := by
    rw [hA]
    exact (measurable_const_smul (2 * R)) ((measurable_add_const _) hm)
  haveI : (volume : Measure (ℝ × ℝ × ℝ)).IsAddHaarMeasure := by
    haveI h2 : ((volume : Measure ℝ).prod (volume : Measure ℝ)).IsAddHaarMeasure := Measure.prod.instIsAddHaarMeasure _ _
    exact Measure.prod.instIsAddHaarMeasure (volume : Measure ℝ) ((volume : Measure ℝ).prod (volume : Measure ℝ))
  have hvol : volume A = ENNReal.ofReal (((2 * R) ^ 3)⁻¹) * volume (region s) := by
    rw [hA, Measure.addHaar_preimage_smul volume (by positivity), measure_preimage_add_right]
    have : Module.finrank ℝ (ℝ × ℝ × ℝ) = 3 := by simp
    rw [this, abs_of_pos (by positivity)]
  have hsub : A ⊆ Ico 0 1 ×ˢ (Ico 0 1 ×ˢ Ico 0 1) := by
    intro d hd
    have hd : s.contains (cubePoint R (toVec d)) := hd
    unfold Shell.contains at hd
    have hlt := lt_of_lt_of_le hd (h.le _ _)
    rw [Real.sqrt_lt' hR] at hlt
    simp only [cubePoint, toVec] at hlt
    have q : ∀ x y z : ℝ, (x * (2 * R) - R) * (x * (2 * R) - R) + y * y + z * z < R ^ 2 → x ∈ Ico (0 : ℝ) 1 := by
      intro x y z hq
      have h2 : (x * (2 * R) - R) ^ 2 < R ^ 2 := by nlinarith [sq_nonneg y, sq_nonneg z]
      have h3 := abs_lt_of_sq_lt_sq' h2 hR.le
      constructor
      · by_contra hx
        nlinarith
      · by_contra hx
        nlinarith
    exact ⟨q _ _ _ hlt, q _ (d.1 * (2 * R) - R) (d.2.2 * (2 * R) - R) (by linarith), q _ (d.1 * (2 * R) - R) (d.2.1 * (2 * R) - R) (by linarith)⟩
  have e : (fun d => if s.contains (cubePoint R (toVec d)) then (1 : ℝ) else 0) = A.indicator fun _ => 1 := by
    funext d
    by_cases hd : s.contains (cubePoint R (toVec d))
    · rw [if_pos hd, indicator_of_mem (show d ∈ A from hd)]
    · rw [if_neg hd, indicator_of_notMem (show d ∉ A from hd)]
  rw [e, integral_indicator_const _ hAm, smul_eq_mul, mul_one, Measure.real, uniform3, Measure.restrict_apply hAm, inter_eq_left.2 hsub, hvol, ENNReal.toReal_mul,
    ENNReal.toReal_ofReal (by positivity), Measure.real]
  field_simp

/-- C89: the volume by sampling of a cube that contains the shell converges to the volume of the set of points that `Contains` accepts, and its expected value is this volume for every number of
samples. -/
theorem C89_cube (s : Shell) (rMax : ℝ) (h : Regular s rMax) (hR : 0 < rMax) {Ω : Type} [MeasurableSpace Ω] (μ : Measure Ω) [IsProbabilityMeasure μ] (X : ℕ → Ω → ℝ × ℝ × ℝ)
    (hX : Draws μ uniform3 X) :
    (∀ n, 0 < n → ∫ ω, s.cartesianSampledVolume ((first X n ω).map toVec) rMax ∂μ = volume.real {p : ℝ × ℝ × ℝ | s.contains ⟨p.1, p.2.1, p.2.2⟩}) ∧
    ∀ᵐ ω ∂μ, Filter.Tendsto (fun n : ℕ => s.cartesianSampledVolume ((first X n ω).map toVec) rMax) Filter.atTop (nhds (volume.real {p : ℝ × ℝ × ℝ | s.contains ⟨p.1, p.2.1, p.2.2⟩})) := by
  classical
  let f : ℝ × ℝ × ℝ → ℝ := fun d => (if s.contains (cubePoint rMax (toVec d)) then (1 : ℝ) else 0) * (2 * rMax) ^ 3
  have hm := measurableSet_region h.measurable
  have hfm : Measurable f := by
    refine Measurable.mul (Measurable.ite ?_ measurable_const measurable_const) measurable_const
    have : Measurable fun d : ℝ × ℝ × ℝ => ((d.1 * (2 * rMax) - rMax, d.2.1 * (2 * rMax) - rMax, d.2.2 * (2 * rMax) - rMax) : ℝ × ℝ × ℝ) := by fun_prop
    exact this hm
  have hb : ∀ d, |f d| ≤ (2 * rMax) ^ 3 := by
    intro d
    simp only [f]
    by_cases hd : s.contains (cubePoint rMax (toVec d))
    · rw [if_pos hd, one_mul, abs_of_pos (by positivity)]
    · rw [if_neg hd, zero_mul, abs_zero]; positivity
  have hv : ∀ n ω, s.cartesianSampledVolume ((first X n ω).map toVec) rMax = (∑ i ∈ Finset.range n, f (X i ω)) / n := by
    intro n ω
    rw [C72_cube, List.length_map, first_length, ← first_sum]
    have : ∀ l : List (ℝ × ℝ × ℝ), (l.map f).sum = (((l.map toVec).filter fun d => decide (s.contains (cubePoint rMax d))).length : ℝ) * (2 * rMax) ^ 3 := by
      intro l
      induction l with
      | nil => simp
      | cons d l ih =>
        rw [List.map_cons, List.sum_cons, ih, List.map_cons, List.filter_cons]
        by_cases hd : s.contains (cubePoint rMax (toVec d))
        · simp only [f, hd, if_true, decide_true, List.length_cons]; push_cast; ring
        · simp only [f, hd, if_false, decide_false, Bool.false_eq_true]; ring
    rw [this]
    ring
  have he : ∫ d, f d ∂uniform3 = volume.real (region s) := by
    simp only [f]
    rw [integral_mul_const, expect_cube h hR]
    field_simp
  refine ⟨fun n hn => ?_, ?_⟩
  · simp only [hv]
    rw [mean_unbiased hX _ hfm _ hb n hn, he]
    rfl
  · have := mean_converges hX _ hfm _ hb
    simp only [hv]
    rw [he] at this
    exact this

/-- Non-vacuity: a shell that is not a sphere, and independent uniform draws. -/
example : Regular (fun phi theta => 2 + cos phi * sin theta) 3 ∧ Draws (Measure.infinitePi fun _ : ℕ => uniform2) uniform2 (fun i ω => ω i) ∧
    Draws (Measure.infinitePi fun _ : ℕ => uniform3) uniform3 fun i ω => ω i := by
  refine ⟨⟨by fun_prop, fun phi theta => ?_, fun phi theta => ?_, fun phi theta => ?_⟩, draws_exist _, draws_exist _⟩
  · nlinarith [neg_one_le_cos phi, cos_le_one phi, neg_one_le_sin theta, sin_le_one theta]
  · nlinarith [neg_one_le_cos phi, cos_le_one phi, neg_one_le_sin theta, sin_le_one theta]
  · rw [cos_add_two_pi]

theorem mono_le (t : Nat × Nat × Nat) (phi th : ℝ) : |mono t phi th| ≤ 1 := by
  unfold mono
  simp only [abs_mul, abs_pow]
  have h1 := abs_sin_le_one phi
  have h2 := abs_cos_le_one phi
  have h3 := abs_sin_le_one th
  have h4 := abs_cos_le_one th
  have k : ∀ a b : ℝ, 0 ≤ a → 0 ≤ b → a ≤ 1 → b ≤ 1 → a * b ≤ 1 := fun a b a0 b0 a1 b1 => by nlinarith
  have a1 := pow_le_one₀ (by positivity) (k _ _ (abs_nonneg (sin th)) (abs_nonneg (cos phi)) h3 h2) (n := t.2.2)
  have a2 := pow_le_one₀ (by positivity) (k _ _ (abs_nonneg (sin th)) (abs_nonneg (sin phi)) h3 h1) (n := t.2.1)
  have a3 := pow_le_one₀ (abs_nonneg (cos th)) h4 (n := t.1)
  exact k _ _ (by positivity) (by positivity) (k _ _ (by positivity) (by positivity) a1 a2) a3

/-- C89: every fitted shell without negative radii satisfies the hypotheses of the claims above. -/
theorem C89_penna (cs : List ℝ) (I J K : Nat) (hl : I * J * K ≤ cs.length) (h0 : ∀ phi th, 0 ≤ pennaShell cs I J K phi th) :
    Regular (pennaShell cs I J K) (∑ n ∈ Finset.range (I * J * K), |cs.getD n 0|) where
  measurable := by
    simp only [shell_eq cs I J K hl, mono]
    refine Finset.measurable_sum _ fun n _ => ?_
    fun_prop
  nonneg := h0
  le phi th := by
    rw [shell_eq cs I J K hl]
    refine Finset.sum_le_sum fun n _ => ?_
    refine (le_abs_self _).trans ?_
    rw [abs_mul]
    have := mul_le_mul_of_nonneg_left (mono_le ((powers I J K).getD n (0, 0, 0)) phi th) (abs_nonneg (cs.getD n 0))
    rwa [mul_one] at this
  periodic phi th := by
    simp only [shell_eq cs I J K hl, mono, sin_add_two_pi, cos_add_two_pi]

/-- Non-vacuity: the fit `2 + x`. -/
example : 2 * 1 * 1 ≤ ([2, 1] : List ℝ).length ∧ ∀ phi th, 0 ≤ pennaShell [2, 1] 2 1 1 phi th := by
  refine ⟨by simp, fun phi th => ?_⟩
  rw [shell_eq _ _ _ _ (by simp)]
  simp [Finset.sum_range_succ, powers, mono, List.range_succ]
  nlinarith [neg_one_le_cos phi, cos_le_one phi, neg_one_le_sin th, sin_le_one th]

end Shellfish.Analyze
