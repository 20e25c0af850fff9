/- C72: statistics of splashback shells.  C73: angular fractions.  C74: axes. -/
import Verif.Model.Shell
import Verif.Props.ProfMedian
import Mathlib.Tactic.Positivity
import Mathlib.Tactic.FieldSimp
import Mathlib.Tactic.Linarith
import Mathlib.Tactic.LinearCombination

namespace Shellfish.Analyze
noncomputable section
open Shellfish.Geom (Vec atan2)
open Shellfish.Los (goInt)
open Real

/-! Specification -/

/-- The values of `rand.Float64`. -/
def Draw (d : ℝ × ℝ) : Prop := 0 ≤ d.1 ∧ d.1 < 1 ∧ 0 ≤ d.2 ∧ d.2 < 1

/-- The radius of the shell is between `lo` and `hi` in all directions. -/
def Between (s : Shell) (lo hi : ℝ) : Prop := ∀ phi theta, 0 ≤ phi → phi < 2 * π → 0 ≤ theta → theta ≤ π → lo ≤ s phi theta ∧ s phi theta ≤ hi

/-- The volume of a ball. -/
def ballVolume (r : ℝ) : ℝ := 4 / 3 * π * r ^ 3

/-- The mean of `f` over a list. -/
def mean {α : Type} (f : α → ℝ) (l : List α) : ℝ := (l.map f).sum / l.length

/-- A shell enlarged by the factor `c`. -/
def scaled (c : ℝ) (s : Shell) : Shell := fun phi theta => c * s phi theta

/-! Lemmas -/

theorem foldl_add {α : Type} (f : α → ℝ) (l : List α) (a : ℝ) : l.foldl (fun s d => s + f d) a = a + (l.map f).sum := by
  induction l generalizing a with
  | nil => simp
  | cons x l ih => rw [List.foldl_cons, ih, List.map_cons, List.sum_cons]; ring

theorem angle_range {d : ℝ × ℝ} (h : Draw d) : 0 ≤ (randomAngle d).1 ∧ (randomAngle d).1 < 2 * π ∧ 0 ≤ (randomAngle d).2 ∧ (randomAngle d).2 ≤ π := by
  obtain ⟨h1, h2, _, _⟩ := h
  have hp := Real.pi_pos
  refine ⟨by unfold randomAngle; positivity, ?_, Real.arccos_nonneg _, Real.arccos_le_pi _⟩
  show 2 * π * d.1 < 2 * π
  nlinarith

theorem at_between {s : Shell} {lo hi : ℝ} (hs : Between s lo hi) {d : ℝ × ℝ} (h : Draw d) : lo ≤ s.at d ∧ s.at d ≤ hi := by
  obtain ⟨a, b, c, e⟩ := angle_range h
  exact hs _ _ a b c e

theorem mean_between {α : Type} (f : α → ℝ) (l : List α) (hne : l ≠ []) {lo hi : ℝ} (h : ∀ d ∈ l, lo ≤ f d ∧ f d ≤ hi) : lo ≤ mean f l ∧ mean f l ≤ hi := by
  have hl : (0 : ℝ) < l.length := by exact_mod_cast List.length_pos_of_ne_nil hne
  have h1 : (l.length : ℝ) * lo ≤ (l.map f).sum ∧ (l.map f).sum ≤ l.length * hi := by
    clear hne hl
    induction l with
    | nil => simp
    | cons x l ih =>
      obtain ⟨i1, i2⟩ := ih fun d hd => h d (List.mem_cons_of_mem _ hd)
      obtain ⟨j1, j2⟩ := h x List.mem_cons_self
      rw [List.map_cons, List.sum_cons, List.length_cons]
      push_cast
      constructor <;> nlinarith
  constructor
  · unfold mean; rw [le_div_iff₀ hl]; linarith [h1.1]
  · unfold mean; rw [div_le_iff₀ hl]; linarith [h1.2]

theorem mean_mono {α : Type} (f g : α → ℝ) (l : List α) (h : ∀ d ∈ l, f d ≤ g d) : mean f l ≤ mean g l := by
  have : (l.map f).sum ≤ (l.map g).sum := List.sum_le_sum h
  unfold mean
  gcongr

theorem mean_mul {α : Type} (c : ℝ) (f : α → ℝ) (l : List α) : mean (fun d => c * f d) l = c * mean f l := by
  unfold mean
  rw [List.sum_map_mul_left, mul_div_assoc]

theorem mean_congr {α : Type} (f g : α → ℝ) (l : List α) (h : ∀ d ∈ l, f d = g d) : mean f l = mean g l := by
  unfold mean; rw [List.map_congr_left h]

theorem volume_eq (s : Shell) (draws : List (ℝ × ℝ)) : s.volume draws = mean (fun d => ballVolume (s.at d)) draws := by
  have e : mean (fun d => ballVolume (s.at d)) draws = 4 / 3 * π * mean (fun d => s.at d * s.at d * s.at d) draws := by
    rw [← mean_mul]
    exact mean_congr _ _ _ fun d _ => by unfold ballVolume; ring
  rw [e]
  unfold Shell.volume mean
  simp only [foldl_add (fun d => s.at d * s.at d * s.at d), zero_add]
  ring

theorem meanRadius_eq (s : Shell) (draws : List (ℝ × ℝ)) : s.meanRadius draws = mean s.at draws := by
  unfold Shell.meanRadius mean
  rw [foldl_add, zero_add]

theorem ballVolume_mono {a b : ℝ} (h0 : 0 ≤ a) (h : a ≤ b) : ballVolume a ≤ ballVolume b := by
  unfold ballVolume
  have := Real.pi_pos
  gcongr

/-! Volume and mean radius -/

/-- Whatever is drawn, the volume of a shell is between the volumes of the balls inside and outside of it, and its mean radius between their radii. -/
theorem C72_volume (s : Shell) (lo hi : ℝ) (h0 : 0 ≤ lo) (hs : Between s lo hi) (draws : List (ℝ × ℝ)) (hne : draws ≠ []) (hd : ∀ d ∈ draws, Draw d) :
    ballVolume lo ≤ s.volume draws ∧ s.volume draws ≤ ballVolume hi ∧ lo ≤ s.meanRadius draws ∧ s.meanRadius draws ≤ hi := by
  have h1 := mean_between s.at draws hne fun d h => at_between hs (hd d h)
  have h2 := mean_between (fun d => ballVolume (s.at d)) draws hne (lo := ballVolume lo) (hi := ballVolume hi) fun d h => by
    obtain ⟨a, b⟩ := at_between hs (hd d h)
    exact ⟨ballVolume_mono h0 a, ballVolume_mono (h0.trans a) b⟩
  rw [volume_eq, meanRadius_eq]
  exact ⟨h2.1, h2.2, h1.1, h1.2⟩

/-- For a sphere these are exact. -/
theorem C72_sphere (r : ℝ) (d0 : ℝ × ℝ) (draws : List (ℝ × ℝ)) (hne : draws ≠ []) :
    Shell.volume (fun _ _ => r) draws = ballVolume r ∧ Shell.meanRadius (fun _ _ => r) draws = r ∧ Shell.radialRange (fun _ _ => r) d0 draws = (r, r) := by
  refine ⟨?_, ?_, ?_⟩
  · rw [volume_eq]
    obtain ⟨a, b⟩ := mean_between (fun d => ballVolume (Shell.at (fun _ _ => r) d)) draws hne (lo := ballVolume r) (hi := ballVolume r) fun d _ => ⟨le_refl _, le_refl _⟩
    exact le_antisymm b a
  · rw [meanRadius_eq]
    obtain ⟨a, b⟩ := mean_between (Shell.at (fun _ _ => r)) draws hne (lo := r) (hi := r) fun d _ => ⟨le_refl _, le_refl _⟩
    exact le_antisymm b a
  · unfold Shell.radialRange
    clear hne
    induction draws with
    | nil => rfl
    | cons d ds ih =>
      rw [List.foldl_cons]
      have : ((if Shell.at (fun _ _ => r) d < Shell.at (fun _ _ => r) d0 then Shell.at (fun _ _ => r) d else Shell.at (fun _ _ => r) d0,
        if Shell.at (fun _ _ => r) d > Shell.at (fun _ _ => r) d0 then Shell.at (fun _ _ => r) d else Shell.at (fun _ _ => r) d0) : ℝ × ℝ) =
        (Shell.at (fun _ _ => r) d0, Shell.at (fun _ _ => r) d0) := by simp [Shell.at]
      exact (congrArg (fun z => List.foldl _ z ds) this).trans ih

/-- A shell inside of another one does not have a larger volume or mean radius, for the same draws. -/
theorem C72_monotone (s t : Shell) (draws : List (ℝ × ℝ)) (hd : ∀ d ∈ draws, Draw d)
    (h : ∀ phi theta, 0 ≤ phi → phi < 2 * π → 0 ≤ theta → theta ≤ π → 0 ≤ s phi theta ∧ s phi theta ≤ t phi theta) :
    s.volume draws ≤ t.volume draws ∧ s.meanRadius draws ≤ t.meanRadius draws := by
  have h1 : ∀ d ∈ draws, 0 ≤ s.at d ∧ s.at d ≤ t.at d := fun d hm => by
    obtain ⟨a, b, c, e⟩ := angle_range (hd d hm)
    exact h _ _ a b c e
  rw [volume_eq, volume_eq, meanRadius_eq, meanRadius_eq]
  exact ⟨mean_mono _ _ _ fun d hm => ballVolume_mono (h1 d hm).1 (h1 d hm).2, mean_mono _ _ _ fun d hm => (h1 d hm).2⟩

theorem at_scaled (c : ℝ) (s : Shell) (d : ℝ × ℝ) : (scaled c s).at d = c * s.at d := rfl

theorem cosNorm_scaled {c : ℝ} (hc : 0 < c) (s : Shell) (phi theta : ℝ) : cosNorm (scaled c s) phi theta = cosNorm s phi theta := by
  unfold cosNorm scaled cartesian
  dsimp only
  generalize s (phi - 1 / 1000) (theta - 1 / 1000) = r00
  generalize s (phi - 1 / 1000) (theta + 1 / 1000) = r01
  generalize s (phi + 1 / 1000) (theta - 1 / 1000) = r10
  generalize s (phi + 1 / 1000) (theta + 1 / 1000) = r11
  generalize Real.sin (phi - 1 / 1000) = sp0
  generalize Real.cos (phi - 1 / 1000) = cp0
  generalize Real.sin (phi + 1 / 1000) = sp1
  generalize Real.cos (phi + 1 / 1000) = cp1
  generalize Real.sin (theta - 1 / 1000) = st0
  generalize Real.cos (theta - 1 / 1000) = ct0
  generalize Real.sin (theta + 1 / 1000) = st1
  generalize Real.cos (theta + 1 / 1000) = ct1
  set nx := (r00 * st0 * sp0 - r11 * st1 * sp1) * (r01 * ct1 - r10 * ct0) - (r00 * ct0 - r11 * ct1) * (r01 * st1 * sp0 - r10 * st0 * sp1) with hx
  set ny := (r00 * ct0 - r11 * ct1) * (r01 * st1 * cp0 - r10 * st0 * cp1) - (r00 * st0 * cp0 - r11 * st1 * cp1) * (r01 * ct1 - r10 * ct0) with hy
  set nz := (r00 * st0 * cp0 - r11 * st1 * cp1) * (r01 * st1 * sp0 - r10 * st0 * sp1) - (r00 * st0 * sp0 - r11 * st1 * sp1) * (r01 * st1 * cp0 - r10 * st0 * cp1) with hz
  have ex : (c * r00 * st0 * sp0 - c * r11 * st1 * sp1) * (c * r01 * ct1 - c * r10 * ct0) - (c * r00 * ct0 - c * r11 * ct1) * (c * r01 * st1 * sp0 - c * r10 * st0 * sp1) = c ^ 2 * nx := by
    rw [hx]; ring
  have ey : (c * r00 * ct0 - c * r11 * ct1) * (c * r01 * st1 * cp0 - c * r10 * st0 * cp1) - (c * r00 * st0 * cp0 - c * r11 * st1 * cp1) * (c * r01 * ct1 - c * r10 * ct0) = c ^ 2 * ny := by
    rw [hy]; ring
  have ez : (c * r00 * st0 * cp0 - c * r11 * st1 * cp1) * (c * r01 * st1 * sp0 - c * r10 * st0 * sp1) - (c * r00 * st0 * sp0 - c * r11 * st1 * sp1) * (c * r01 * st1 * cp0 - c * r10 * st0 * cp1) = c ^ 2 * nz := by
    rw [hz]; ring
  rw [ex, ey, ez]
  have en : Real.sqrt (c ^ 2 * nx * (c ^ 2 * nx) + c ^ 2 * ny * (c ^ 2 * ny) + c ^ 2 * nz * (c ^ 2 * nz)) = c ^ 2 * Real.sqrt (nx * nx + ny * ny + nz * nz) := by
    rw [show c ^ 2 * nx * (c ^ 2 * nx) + c ^ 2 * ny * (c ^ 2 * ny) + c ^ 2 * nz * (c ^ 2 * nz) = (c ^ 2) ^ 2 * (nx * nx + ny * ny + nz * nz) by ring,
      Real.sqrt_mul (by positivity), Real.sqrt_sq (by positivity)]
  rw [en]
  have hc2 : c ^ 2 ≠ 0 := by positivity
  simp only [mul_div_mul_left _ _ hc2]

/-- Enlarging a shell multiplies radii by the factor, the area by its square and the volume by its cube. -/
theorem C72_scaling (c : ℝ) (hc : 0 < c) (s t : Shell) (d0 : ℝ × ℝ) (draws : List (ℝ × ℝ)) :
    (scaled c s).volume draws = c ^ 3 * s.volume draws ∧ (scaled c s).surfaceArea draws = c ^ 2 * s.surfaceArea draws ∧
    (scaled c s).meanRadius draws = c * s.meanRadius draws ∧ (scaled c s).radialRange d0 draws = (c * (s.radialRange d0 draws).1, c * (s.radialRange d0 draws).2) ∧
    (scaled c s).diffVolume (scaled c t) draws = c ^ 3 * s.diffVolume t draws ∧ (scaled c s).maxDiff (scaled c t) draws = c * s.maxDiff t draws := by
  refine ⟨?_, ?_, ?_, ?_, ?_, ?_⟩
  · rw [volume_eq, volume_eq, ← mean_mul]
    exact mean_congr _ _ _ fun d _ => by unfold ballVolume; rw [at_scaled]; ring
  · unfold Shell.surfaceArea
    rw [foldl_add, foldl_add, zero_add, zero_add]
    have : (draws.map (scaled c s).area) = draws.map fun d => c ^ 2 * s.area d := by
      refine List.map_congr_left fun d _ => ?_
      unfold Shell.area
      rw [cosNorm_scaled hc, at_scaled]
      ring
    rw [this, List.sum_map_mul_left]
    ring
  · rw [meanRadius_eq, meanRadius_eq, ← mean_mul]; rfl
  · unfold Shell.radialRange
    have : ∀ a b : ℝ, draws.foldl (fun lh d => ((if (scaled c s).at d < lh.1 then (scaled c s).at d else lh.1, if (scaled c s).at d > lh.2 then (scaled c s).at d else lh.2) : ℝ × ℝ)) (c * a, c * b) =
        (c * (draws.foldl (fun lh d => ((if s.at d < lh.1 then s.at d else lh.1, if s.at d > lh.2 then s.at d else lh.2) : ℝ × ℝ)) (a, b)).1,
         c * (draws.foldl (fun lh d => ((if s.at d < lh.1 then s.at d else lh.1, if s.at d > lh.2 then s.at d else lh.2) : ℝ × ℝ)) (a, b)).2) := by
      induction draws with
      | nil => intro a b; rfl
      | cons d ds ih =>
        intro a b
        rw [List.foldl_cons, List.foldl_cons, ← ih]
        congr 1
        simp only [at_scaled, gt_iff_lt, mul_lt_mul_iff_right₀ hc, Prod.mk.injEq]
        constructor <;> split_ifs <;> rfl
    exact this _ _
  · unfold Shell.diffVolume
    have : ∀ a : ℝ, draws.foldl (fun sum d => let r := ((scaled c s).at d + (scaled c t).at d) / 2; let dr := |(scaled c s).at d - (scaled c t).at d|; sum + dr * r * r) (c ^ 3 * a) =
        c ^ 3 * draws.foldl (fun sum d => let r := (s.at d + t.at d) / 2; let dr := |s.at d - t.at d|; sum + dr * r * r) a := by
      induction draws with
      | nil => intro a; rfl
      | cons d ds ih =>
        intro a
        rw [List.foldl_cons, List.foldl_cons, ← ih]
        congr 1
        simp only [at_scaled]
        rw [← mul_sub, abs_mul, abs_of_pos hc]
        ring
    have h0 := this 0
    rw [mul_zero] at h0
    rw [h0]
    ring
  · unfold Shell.maxDiff
    have : ∀ a : ℝ, draws.foldl (fun max d => let dr := |(scaled c s).at d - (scaled c t).at d|; if dr > max then dr else max) (c * a) =
        c * draws.foldl (fun max d => let dr := |s.at d - t.at d|; if dr > max then dr else max) a := by
      induction draws with
      | nil => intro a; rfl
      | cons d ds ih =>
        intro a
        rw [List.foldl_cons, List.foldl_cons, ← ih]
        congr 1
        have e : |(scaled c s).at d - (scaled c t).at d| = c * |s.at d - t.at d| := by
          rw [at_scaled, at_scaled, ← mul_sub, abs_mul, abs_of_pos hc]
        dsimp only
        rw [e]
        simp only [gt_iff_lt, mul_lt_mul_iff_right₀ hc]
        split_ifs <;> rfl
    have h0 := this 0
    rw [mul_zero] at h0
    exact h0

/-! The range of radii -/

theorem range_fold (s : Shell) (draws : List (ℝ × ℝ)) (a b : ℝ) :
    let p := draws.foldl (fun lh d => let r := s.at d; ((if r < lh.1 then r else lh.1, if r > lh.2 then r else lh.2) : ℝ × ℝ)) (a, b)
    p.1 ≤ a ∧ b ≤ p.2 ∧ (∀ d ∈ draws, p.1 ≤ s.at d ∧ s.at d ≤ p.2) ∧ (p.1 = a ∨ ∃ d ∈ draws, p.1 = s.at d) ∧ (p.2 = b ∨ ∃ d ∈ draws, p.2 = s.at d) := by
  induction draws generalizing a b with
  | nil => simp
  | cons d ds ih =>
    obtain ⟨h1, h2, h3, h4, h5⟩ := ih (if s.at d < a then s.at d else a) (if s.at d > b then s.at d else b)
    intro p
    have e : p = ds.foldl (fun lh d => let r := s.at d; ((if r < lh.1 then r else lh.1, if r > lh.2 then r else lh.2) : ℝ × ℝ)) (if s.at d < a then s.at d else a, if s.at d > b then s.at d else b) := rfl
    rw [e]
    have i1 : (if s.at d < a then s.at d else a) ≤ a ∧ (if s.at d < a then s.at d else a) ≤ s.at d := by split_ifs with h <;> constructor <;> linarith
    have i2 : b ≤ (if s.at d > b then s.at d else b) ∧ s.at d ≤ (if s.at d > b then s.at d else b) := by split_ifs with h <;> constructor <;> linarith
    refine ⟨h1.trans i1.1, i2.1.trans h2, ?_, ?_, ?_⟩
    · intro x hx
      rcases List.mem_cons.1 hx with rfl | hx
      · exact ⟨h1.trans i1.2, i2.2.trans h2⟩
      · exact h3 x hx
    · rcases h4 with h4 | ⟨x, hx, h4⟩
      · by_cases hlt : s.at d < a
        · rw [if_pos hlt] at h4; exact .inr ⟨d, List.mem_cons_self, by rw [if_pos hlt]; exact h4⟩
        · rw [if_neg hlt] at h4; exact .inl (by rw [if_neg hlt]; exact h4)
      · exact .inr ⟨x, List.mem_cons_of_mem _ hx, h4⟩
    · rcases h5 with h5 | ⟨x, hx, h5⟩
      · by_cases hlt : s.at d > b
        · rw [if_pos hlt] at h5; exact .inr ⟨d, List.mem_cons_self, by rw [if_pos hlt]; exact h5⟩
        · rw [if_neg hlt] at h5; exact .inl (by rw [if_neg hlt]; exact h5)
      · exact .inr ⟨x, List.mem_cons_of_mem _ hx, h5⟩

/-- The range is the smallest and the largest radius at the angles that were drawn. -/
theorem C72_range_partial (s : Shell) (d0 : ℝ × ℝ) (draws : List (ℝ × ℝ)) :
    (∀ d ∈ d0 :: draws, (s.radialRange d0 draws).1 ≤ s.at d ∧ s.at d ≤ (s.radialRange d0 draws).2) ∧
    (∃ d ∈ d0 :: draws, (s.radialRange d0 draws).1 = s.at d) ∧ ∃ d ∈ d0 :: draws, (s.radialRange d0 draws).2 = s.at d := by
  obtain ⟨h1, h2, h3, h4, h5⟩ := range_fold s draws (s.at d0) (s.at d0)
  refine ⟨fun d hd => ?_, ?_, ?_⟩
  · rcases List.mem_cons.1 hd with rfl | hd
    · exact ⟨h1, h2⟩
    · exact h3 d hd
  · rcases h4 with h4 | ⟨d, hd, h4⟩
    · exact ⟨d0, List.mem_cons_self, h4⟩
    · exact ⟨d, List.mem_cons_of_mem _ hd, h4⟩
  · rcases h5 with h5 | ⟨d, hd, h5⟩
    · exact ⟨d0, List.mem_cons_self, h5⟩
    · exact ⟨d, List.mem_cons_of_mem _ hd, h5⟩

/-- It is not the range of the radii of the shell: other directions have smaller and larger radii. -/
theorem C72_range_false : ∃ (s : Shell) (d0 : ℝ × ℝ) (draws : List (ℝ × ℝ)), Draw d0 ∧ (∀ d ∈ draws, Draw d) ∧ draws ≠ [] ∧ Continuous (fun p : ℝ × ℝ => s p.1 p.2) ∧
    s 0 (π / 2) > (s.radialRange d0 draws).2 ∧ s π (π / 2) < (s.radialRange d0 draws).1 := by
  have hd : Draw (1 / 4, 1 / 2) := by unfold Draw; norm_num
  have e : Shell.at (fun phi _ => 2 + Real.cos phi) (1 / 4, 1 / 2) = 2 := by
    unfold Shell.at randomAngle
    dsimp only
    rw [show 2 * π * (1 / 4) = π / 2 by ring, Real.cos_pi_div_two]; norm_num
  have er : Shell.radialRange (fun phi _ => 2 + Real.cos phi) (1 / 4, 1 / 2) [(1 / 4, 1 / 2)] = (2, 2) := by
    unfold Shell.radialRange
    rw [List.foldl_cons, List.foldl_nil, e]
    norm_num
  refine ⟨fun phi _ => 2 + Real.cos phi, (1 / 4, 1 / 2), [(1 / 4, 1 / 2)], hd, ?_, by simp, by fun_prop, ?_, ?_⟩
  · intro d h; rw [List.mem_singleton.1 h]; exact hd
  · rw [er]; simp
  · rw [er]; simp

/-! Differences of two shells -/

/-- The volume between two shells, sampled at the draws. -/
def volumeBetween (s t : Shell) (draws : List (ℝ × ℝ)) : ℝ := mean (fun d => |ballVolume (s.at d) - ballVolume (t.at d)|) draws

theorem diff_eq (s t : Shell) (draws : List (ℝ × ℝ)) : s.diffVolume t draws = mean (fun d => π / 3 * (|s.at d - t.at d| * (s.at d + t.at d) ^ 2)) draws := by
  rw [mean_mul]
  unfold Shell.diffVolume mean
  rw [foldl_add (fun d => |s.at d - t.at d| * ((s.at d + t.at d) / 2) * ((s.at d + t.at d) / 2)), zero_add]
  have : (draws.map fun d => |s.at d - t.at d| * (s.at d + t.at d) ^ 2) = draws.map fun d => 4 * (|s.at d - t.at d| * ((s.at d + t.at d) / 2) * ((s.at d + t.at d) / 2)) :=
    List.map_congr_left fun d _ => by ring
  rw [this, List.sum_map_mul_left]
  ring

theorem between_abs {a b : ℝ} (ha : 0 ≤ a) (hb : 0 ≤ b) : |ballVolume a - ballVolume b| = 4 / 3 * π * (|a - b| * (a ^ 2 + a * b + b ^ 2)) := by
  have hp := Real.pi_pos
  unfold ballVolume
  rw [show 4 / 3 * π * a ^ 3 - 4 / 3 * π * b ^ 3 = 4 / 3 * π * ((a - b) * (a ^ 2 + a * b + b ^ 2)) by ring, abs_mul (4 / 3 * π), abs_mul (a - b), abs_of_pos (by positivity : 0 < 4 / 3 * π),
    abs_of_nonneg (by positivity : 0 ≤ a ^ 2 + a * b + b ^ 2)]

/-- `DiffVolume` is too small by a factor between 3 and 4. -/
theorem C72_difference_partial (s t : Shell) (draws : List (ℝ × ℝ)) (h : ∀ d ∈ draws, 0 ≤ s.at d ∧ 0 ≤ t.at d) :
    volumeBetween s t draws / 4 ≤ s.diffVolume t draws ∧ s.diffVolume t draws ≤ volumeBetween s t draws / 3 ∧ s.diffVolume t draws = t.diffVolume s draws := by
  have hp := Real.pi_pos
  refine ⟨?_, ?_, ?_⟩
  · rw [diff_eq, div_eq_inv_mul (volumeBetween s t draws), volumeBetween, ← mean_mul]
    refine mean_mono _ _ _ fun d hd => ?_
    obtain ⟨h1, h2⟩ := h d hd
    rw [between_abs h1 h2]
    have h3 := abs_nonneg (s.at d - t.at d)
    have h4 : |s.at d - t.at d| * (s.at d ^ 2 + s.at d * t.at d + t.at d ^ 2) ≤ |s.at d - t.at d| * (s.at d + t.at d) ^ 2 :=
      mul_le_mul_of_nonneg_left (by nlinarith [mul_nonneg h1 h2]) h3
    have h5 := mul_le_mul_of_nonneg_left h4 (by positivity : 0 ≤ π / 3)
    calc _ = π / 3 * (|s.at d - t.at d| * (s.at d ^ 2 + s.at d * t.at d + t.at d ^ 2)) := by ring
      _ ≤ _ := h5
  · rw [diff_eq, div_eq_inv_mul (volumeBetween s t draws), volumeBetween, ← mean_mul]
    refine mean_mono _ _ _ fun d hd => ?_
    obtain ⟨h1, h2⟩ := h d hd
    rw [between_abs h1 h2]
    have h3 := abs_nonneg (s.at d - t.at d)
    have h4 : |s.at d - t.at d| * (s.at d + t.at d) ^ 2 ≤ |s.at d - t.at d| * (4 / 3 * (s.at d ^ 2 + s.at d * t.at d + t.at d ^ 2)) :=
      mul_le_mul_of_nonneg_left (by nlinarith [sq_nonneg (s.at d - t.at d)]) h3
    have h5 := mul_le_mul_of_nonneg_left h4 (by positivity : 0 ≤ π / 3)
    calc _ ≤ _ := h5
      _ = _ := by ring
  · rw [diff_eq, diff_eq]
    exact mean_congr _ _ _ fun d _ => by rw [abs_sub_comm, add_comm]

/-- The space between the spheres with the radii 1 and 3: `DiffVolume` is 16π/3·2, the volume is 104π/3. -/
theorem C72_difference_false (draws : List (ℝ × ℝ)) (hne : draws ≠ []) :
    Shell.diffVolume (fun _ _ => 3) (fun _ _ => 1) draws = 32 / 3 * π ∧ ballVolume 3 - ballVolume 1 = 104 / 3 * π := by
  constructor
  · rw [diff_eq]
    obtain ⟨a, b⟩ := mean_between (fun d : ℝ × ℝ => π / 3 * (|Shell.at (fun _ _ => 3) d - Shell.at (fun _ _ => 1) d| * (Shell.at (fun _ _ => 3) d + Shell.at (fun _ _ => 1) d) ^ 2)) draws hne
      (lo := 32 / 3 * π) (hi := 32 / 3 * π) fun d _ => by
        unfold Shell.at
        norm_num
        constructor <;> linarith
    exact le_antisymm b a
  · unfold ballVolume; ring

theorem maxDiff_fold (s t : Shell) (draws : List (ℝ × ℝ)) (a : ℝ) :
    let m := draws.foldl (fun max d => let dr := |s.at d - t.at d|; if dr > max then dr else max) a
    a ≤ m ∧ (∀ d ∈ draws, |s.at d - t.at d| ≤ m) ∧ (m = a ∨ ∃ d ∈ draws, m = |s.at d - t.at d|) := by
  induction draws generalizing a with
  | nil => simp
  | cons d ds ih =>
    intro m
    have e : m = ds.foldl (fun max d => let dr := |s.at d - t.at d|; if dr > max then dr else max) (if |s.at d - t.at d| > a then |s.at d - t.at d| else a) := rfl
    obtain ⟨h1, h2, h3⟩ := ih (if |s.at d - t.at d| > a then |s.at d - t.at d| else a)
    rw [← e] at h1 h2 h3
    have i1 : a ≤ (if |s.at d - t.at d| > a then |s.at d - t.at d| else a) ∧ |s.at d - t.at d| ≤ (if |s.at d - t.at d| > a then |s.at d - t.at d| else a) := by
      split_ifs with h <;> constructor <;> linarith
    refine ⟨i1.1.trans h1, ?_, ?_⟩
    · intro x hx
      rcases List.mem_cons.1 hx with rfl | hx
      · exact i1.2.trans h1
      · exact h2 x hx
    · rcases h3 with h3 | ⟨x, hx, h3⟩
      · by_cases hgt : |s.at d - t.at d| > a
        · rw [if_pos hgt] at h3; exact .inr ⟨d, List.mem_cons_self, h3⟩
        · rw [if_neg hgt] at h3; exact .inl h3
      · exact .inr ⟨x, List.mem_cons_of_mem _ hx, h3⟩

/-- `MaxDiff` is the largest distance of the two shells in the directions that were drawn. -/
theorem C72_max_difference (s t : Shell) (draws : List (ℝ × ℝ)) (hne : draws ≠ []) :
    (∀ d ∈ draws, |s.at d - t.at d| ≤ s.maxDiff t draws) ∧ (∃ d ∈ draws, s.maxDiff t draws = |s.at d - t.at d|) ∧ s.maxDiff t draws = t.maxDiff s draws := by
  obtain ⟨h1, h2, h3⟩ := maxDiff_fold s t draws 0
  refine ⟨h2, ?_, ?_⟩
  · rcases h3 with h3 | h3
    · obtain ⟨d, hd⟩ := List.exists_mem_of_ne_nil _ hne
      exact ⟨d, hd, le_antisymm (show s.maxDiff t draws ≤ _ from (le_of_eq h3).trans (abs_nonneg _)) (h2 d hd)⟩
    · exact h3
  · unfold Shell.maxDiff
    congr 1
    funext m d
    rw [abs_sub_comm]

/-! Points inside of a shell -/

theorem norm_cartesian (phi theta : ℝ) {r : ℝ} (hr : 0 ≤ r) :
    Real.sqrt ((cartesian phi theta r).x * (cartesian phi theta r).x + (cartesian phi theta r).y * (cartesian phi theta r).y + (cartesian phi theta r).z * (cartesian phi theta r).z) = r := by
  unfold cartesian
  dsimp only
  have h1 := Real.sin_sq_add_cos_sq phi
  have h2 := Real.sin_sq_add_cos_sq theta
  rw [show r * Real.sin theta * Real.cos phi * (r * Real.sin theta * Real.cos phi) + r * Real.sin theta * Real.sin phi * (r * Real.sin theta * Real.sin phi) + r * Real.cos theta * (r * Real.cos theta) = r ^ 2 by
    linear_combination r ^ 2 * Real.sin theta ^ 2 * h1 + r ^ 2 * h2, Real.sqrt_sq hr]

/-- A point in the direction (phi, theta) is inside of the shell when it is nearer to the center than the shell in this direction. -/
theorem C72_contains (s : Shell) (phi theta r : ℝ) (hr : 0 < r) (hp : -π < phi) (hp' : phi ≤ π) (ht : 0 < theta) (ht' : theta < π) :
    s.contains (cartesian phi theta r) ↔ r < s phi theta := by
  unfold Shell.contains
  dsimp only
  rw [norm_cartesian phi theta hr.le]
  have e1 : (cartesian phi theta r).z / r = Real.cos theta := by unfold cartesian; field_simp
  have e2 : atan2 (cartesian phi theta r).y (cartesian phi theta r).x = phi := by
    unfold atan2 cartesian
    have hs : 0 < r * Real.sin theta := mul_pos hr (Real.sin_pos_of_pos_of_lt_pi ht ht')
    have : (⟨r * Real.sin theta * Real.cos phi, r * Real.sin theta * Real.sin phi⟩ : ℂ) = ((r * Real.sin theta : ℝ) : ℂ) * (Complex.cos phi + Complex.sin phi * Complex.I) := by
      apply Complex.ext
      · simp [← Complex.ofReal_cos, ← Complex.ofReal_sin]
      · simp [← Complex.ofReal_cos, ← Complex.ofReal_sin]
    rw [this]
    exact Complex.arg_mul_cos_add_sin_mul_I hs ⟨hp, hp'⟩
  rw [e1, e2, Real.arccos_cos ht.le ht'.le, gt_iff_lt]

open Classical in
/-- The volume by sampling of a cube is the volume of the cube times the fraction of the points that are inside of the shell. -/
theorem C72_cube (s : Shell) (draws : List Vec) (rMax : ℝ) :
    s.cartesianSampledVolume draws rMax = ((draws.filter fun d => decide (s.contains (cubePoint rMax d))).length : ℝ) / draws.length * (2 * rMax) ^ 3 := by
  have : ∀ n : Nat, draws.foldl (fun (n : Nat) d => if s.contains (cubePoint rMax d) then n + 1 else n) n = n + (draws.filter fun d => decide (s.contains (cubePoint rMax d))).length := by
    induction draws with
    | nil => intro n; rfl
    | cons d ds ih =>
      intro n
      rw [List.foldl_cons, ih, List.filter_cons]
      by_cases h : s.contains (cubePoint rMax d)
      · simp only [h, if_true, decide_true, List.length_cons]; omega
      · simp only [h, if_false, decide_false, Bool.false_eq_true]
  unfold Shell.cartesianSampledVolume
  dsimp only
  rw [this, Nat.zero_add]
  ring

/-! Areas -/

theorem unit_dot (u n : Vec) (hu : u.x ^ 2 + u.y ^ 2 + u.z ^ 2 = 1) :
    |u.x * (n.x / Real.sqrt (n.x * n.x + n.y * n.y + n.z * n.z)) + u.y * (n.y / Real.sqrt (n.x * n.x + n.y * n.y + n.z * n.z)) + u.z * (n.z / Real.sqrt (n.x * n.x + n.y * n.y + n.z * n.z))| ≤ 1 := by
  have h0 : 0 ≤ n.x * n.x + n.y * n.y + n.z * n.z := by nlinarith [sq_nonneg n.x, sq_nonneg n.y, sq_nonneg n.z]
  rcases h0.eq_or_lt with h | h
  · rw [← h]; simp
  · have hs := Real.sqrt_pos.2 h
    rw [show u.x * (n.x / Real.sqrt (n.x * n.x + n.y * n.y + n.z * n.z)) + u.y * (n.y / Real.sqrt (n.x * n.x + n.y * n.y + n.z * n.z)) + u.z * (n.z / Real.sqrt (n.x * n.x + n.y * n.y + n.z * n.z)) =
      (u.x * n.x + u.y * n.y + u.z * n.z) / Real.sqrt (n.x * n.x + n.y * n.y + n.z * n.z) by ring, abs_div, abs_of_pos hs, div_le_one hs]
    refine Real.abs_le_sqrt ?_
    have : (u.x * n.x + u.y * n.y + u.z * n.z) ^ 2 ≤ (u.x ^ 2 + u.y ^ 2 + u.z ^ 2) * (n.x * n.x + n.y * n.y + n.z * n.z) := by
      nlinarith [sq_nonneg (u.x * n.y - u.y * n.x), sq_nonneg (u.y * n.z - u.z * n.y), sq_nonneg (u.z * n.x - u.x * n.z)]
    rwa [hu, one_mul] at this

theorem cosNorm_le (s : Shell) (phi theta : ℝ) : |cosNorm s phi theta| ≤ 1 := by
  unfold cosNorm
  dsimp only
  refine unit_dot (cartesian phi theta 1) ⟨_, _, _⟩ ?_
  unfold cartesian
  dsimp only
  linear_combination Real.sin theta ^ 2 * Real.sin_sq_add_cos_sq phi + Real.sin_sq_add_cos_sq theta

/-- A tilted surface is larger than a sphere: when the outward normals that the code finds at the samples point away from the center, the area is at least the mean area of the spheres through the samples. -/
theorem C72_area (s : Shell) (draws : List (ℝ × ℝ)) (h : ∀ d ∈ draws, 0 < cosNorm s (randomAngle d).1 (randomAngle d).2) :
    mean (fun d => 4 * π * s.at d ^ 2) draws ≤ s.surfaceArea draws := by
  have hp := Real.pi_pos
  have e : s.surfaceArea draws = mean (fun d => 4 * π * s.area d) draws := by
    rw [mean_mul]
    unfold Shell.surfaceArea mean
    rw [foldl_add, zero_add]
    ring
  rw [e]
  refine mean_mono _ _ _ fun d hd => ?_
  have h1 := h d hd
  have h2 := (abs_le.1 (cosNorm_le s (randomAngle d).1 (randomAngle d).2)).2
  have h3 : s.at d ^ 2 ≤ s.area d := by
    unfold Shell.area
    rw [le_div_iff₀ h1]
    nlinarith [sq_nonneg (s.at d)]
  gcongr

/-! The hypotheses are met -/

/-- A shell whose radius is between 1 and 3. -/
def wavy : Shell := fun phi _ => 2 + Real.cos phi

theorem wavy_between : Between wavy 1 3 := fun phi _ _ _ _ _ => by
  unfold wavy
  constructor <;> linarith [Real.neg_one_le_cos phi, Real.cos_le_one phi]

theorem two_draws : ∀ d ∈ [((1 / 3 : ℝ), (1 / 2 : ℝ)), (1 / 7, 1 / 5)], Draw d := by
  intro d hd
  simp only [List.mem_cons, List.not_mem_nil, or_false] at hd
  rcases hd with rfl | rfl <;> unfold Draw <;> norm_num

example : ballVolume 1 ≤ wavy.volume [(1 / 3, 1 / 2), (1 / 7, 1 / 5)] := (C72_volume wavy 1 3 zero_le_one wavy_between _ (by simp) two_draws).1

example : wavy.volume [(1 / 3, 1 / 2), (1 / 7, 1 / 5)] ≤ Shell.volume (fun _ _ => 3) [(1 / 3, 1 / 2), (1 / 7, 1 / 5)] :=
  (C72_monotone wavy (fun _ _ => 3) _ two_draws fun phi theta a b c e => ⟨zero_le_one.trans (wavy_between phi theta a b c e).1, (wavy_between phi theta a b c e).2⟩).1

example : volumeBetween wavy (fun _ _ => 3) [(1 / 3, 1 / 2), (1 / 7, 1 / 5)] / 4 ≤ wavy.diffVolume (fun _ _ => 3) [(1 / 3, 1 / 2), (1 / 7, 1 / 5)] :=
  (C72_difference_partial wavy (fun _ _ => 3) _ fun d hd => ⟨zero_le_one.trans (at_between wavy_between (two_draws d hd)).1, by unfold Shell.at; norm_num⟩).1

example : wavy.contains (cartesian 0 (π / 2) (5 / 2)) := by
  have hp := Real.pi_pos
  rw [C72_contains wavy 0 (π / 2) (5 / 2) (by norm_num) (by linarith) hp.le (by linarith) (by linarith)]
  unfold wavy
  rw [Real.cos_zero]
  norm_num

theorem sphere_normal : 0 < cosNorm (fun _ _ => 1) (randomAngle (0, 1 / 2)).1 (randomAngle (0, 1 / 2)).2 := by
  have e1 : (randomAngle (0, 1 / 2)).1 = 0 := by unfold randomAngle; simp
  have e2 : (randomAngle (0, 1 / 2)).2 = π / 2 := by unfold randomAngle; simp
  have hp := Real.two_le_pi
  have h1 : 0 < Real.sin (1 / 1000) := Real.sin_pos_of_pos_of_lt_pi (by norm_num) (by linarith)
  have h2 : 0 < Real.cos (1 / 1000) := Real.cos_pos_of_mem_Ioo ⟨by linarith, by linarith⟩
  rw [e1, e2]
  unfold cosNorm cartesian
  dsimp only
  simp only [zero_sub, zero_add, Real.sin_neg, Real.cos_neg, Real.sin_pi_div_two_sub, Real.cos_pi_div_two_sub, add_comm (π / 2) (1 / 1000), Real.sin_add_pi_div_two, Real.cos_add_pi_div_two,
    Real.sin_zero, Real.cos_zero, Real.sin_pi_div_two, Real.cos_pi_div_two, one_mul, mul_one, mul_zero, zero_mul, add_zero]
  generalize Real.sin (1 / 1000) = a at h1
  generalize Real.cos (1 / 1000) = b at h2
  refine div_pos ?_ (Real.sqrt_pos.2 ?_)
  · have := mul_pos (mul_pos h2 h1) h1; nlinarith
  · have := mul_pos (mul_pos h2 h1) h1
    have h3 : 0 < (b * -a - b * a) * (-a - a) - (a - -a) * (b * -a - b * a) := by nlinarith
    nlinarith [mul_pos h3 h3, mul_self_nonneg ((a - -a) * (b * b - b * b) - (b * b - b * b) * (-a - a)), mul_self_nonneg ((b * b - b * b) * (b * -a - b * a) - (b * -a - b * a) * (b * b - b * b))]

example : mean (fun d => 4 * π * Shell.at (fun _ _ => 1) d ^ 2) [(0, 1 / 2)] ≤ Shell.surfaceArea (fun _ _ => 1) [(0, 1 / 2)] :=
  C72_area (fun _ _ => 1) [(0, 1 / 2)] fun d hd => by rw [List.mem_singleton.1 hd]; exact sphere_normal

end
end Shellfish.Analyze
