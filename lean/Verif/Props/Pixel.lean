/-
C39: the pixel numbers of directions lie in the arrays that cmd/prof.go allocates for them, and every pixel is the pixel of some direction.
-/
import Verif.Model.Pixel
import Mathlib.Tactic.Linarith
import Mathlib.Tactic.Positivity
import Mathlib.Tactic.FieldSimp
import Mathlib.Tactic.Ring
import Mathlib.Tactic.NormNum
import Mathlib.Analysis.SpecialFunctions.Trigonometric.Basic

namespace Shellfish.Geom
open Shellfish.Los (goInt modf)

theorem goInt_nonneg {x : ℝ} (h : 0 ≤ x) : goInt x = ⌊x⌋ := by unfold goInt modf; rw [if_pos h]

theorem angle_floor {ir : Int} {theta : ℝ} (hi : 0 ≤ ir) (h0 : 0 ≤ theta) (h1 : theta < 2 * Real.pi) :
    0 ≤ goInt (((8 * ir : Int) : ℝ) * theta / (2 * Real.pi)) ∧ (0 < ir → goInt (((8 * ir : Int) : ℝ) * theta / (2 * Real.pi)) < 8 * ir) := by
  have hp := Real.pi_pos
  have hir : (0 : ℝ) ≤ ((8 * ir : Int) : ℝ) := by exact_mod_cast (by omega : 0 ≤ 8 * ir)
  have hx : 0 ≤ ((8 * ir : Int) : ℝ) * theta / (2 * Real.pi) := by positivity
  rw [goInt_nonneg hx]
  refine ⟨Int.floor_nonneg.mpr hx, fun hpos => ?_⟩
  rw [Int.floor_lt, div_lt_iff₀ (by positivity)]
  have : (0 : ℝ) < ((8 * ir : Int) : ℝ) := by exact_mod_cast (by omega : 0 < 8 * ir)
  exact mul_lt_mul_of_pos_left h1 this

/-- The pixel of a point in the disk, with its ring number `ir`. -/
theorem diskPixel_ring {r theta : ℝ} {lvl : Int} (hr : 0 ≤ r) (hl : 0 ≤ lvl) :
    (⌊r * ((2 * lvl + 1 : Int) : ℝ)⌋ = 0 ∧ diskPixel r theta lvl = 0) ∨
    (∃ ir, ir = min lvl ((⌊r * ((2 * lvl + 1 : Int) : ℝ)⌋ + 1) / 2) ∧ 0 < ⌊r * ((2 * lvl + 1 : Int) : ℝ)⌋ ∧
      diskPixel r theta lvl = (2 * (ir - 1) + 1) * (2 * (ir - 1) + 1) + goInt (((8 * ir : Int) : ℝ) * theta / (2 * Real.pi))) := by
  have hc : (0 : ℝ) ≤ ((2 * lvl + 1 : Int) : ℝ) := by exact_mod_cast (by omega : 0 ≤ 2 * lvl + 1)
  have hx : 0 ≤ r * ((2 * lvl + 1 : Int) : ℝ) := mul_nonneg hr hc
  unfold diskPixel
  simp only [goInt_nonneg hx]
  generalize hk : ⌊r * ((2 * lvl + 1 : Int) : ℝ)⌋ = k
  have hk0 : 0 ≤ k := hk ▸ Int.floor_nonneg.mpr hx
  by_cases hz : k = 0
  · left; exact ⟨hz, if_pos hz⟩
  · right
    refine ⟨min lvl ((k + 1) / 2), rfl, by omega, ?_⟩
    rw [if_neg hz, Int.tdiv_eq_ediv_of_nonneg (by omega : 0 ≤ k + 1)]
    by_cases hge : (k + 1) / 2 ≥ lvl
    · rw [if_pos hge, min_eq_left hge]
    · rw [if_neg hge, min_eq_right (by omega)]

/-- C39 (partial; the missing case is `C39_disk_false`): on the disk, every level from 1 on and every point (also outside of the unit disk) has a pixel in range; on level 0 only
the points inside of the open unit disk. -/
theorem C39_disk_partial (r theta : ℝ) (lvl : Int) (hr : 0 ≤ r) (h0 : 0 ≤ theta) (h1 : theta < 2 * Real.pi) (hl : 0 ≤ lvl) (hcase : 1 ≤ lvl ∨ r < 1) :
    0 ≤ diskPixel r theta lvl ∧ diskPixel r theta lvl < diskPixelNum lvl := by
  have hnum : 0 < diskPixelNum lvl := by unfold diskPixelNum; nlinarith
  rcases diskPixel_ring (theta := theta) hr hl with ⟨_, h⟩ | ⟨ir, hir, hk, h⟩
  · rw [h]; exact ⟨le_refl _, hnum⟩
  · have hl1 : 1 ≤ lvl := by
      rcases hcase with h' | h'
      · exact h'
      · by_contra hlt
        have : lvl = 0 := by omega
        subst this
        have : ⌊r * ((2 * 0 + 1 : Int) : ℝ)⌋ < 1 := by rw [Int.floor_lt]; push_cast; linarith
        omega
    have hir1 : 1 ≤ ir := by rw [hir]; refine le_min hl1 ?_; omega
    have hirl : ir ≤ lvl := by rw [hir]; exact min_le_left _ _
    obtain ⟨ha, hb⟩ := angle_floor (ir := ir) (by omega) h0 h1
    have hb := hb (by omega)
    rw [h]
    generalize goInt (((8 * ir : Int) : ℝ) * theta / (2 * Real.pi)) = ith at ha hb
    unfold diskPixelNum
    constructor <;> nlinarith

/-- non-vacuity -/
example : (1 : ℝ) ≤ 1 ∧ (0 : ℝ) ≤ 1 ∧ (1 : ℝ) < 2 * Real.pi ∧ (0 : Int) ≤ 2 ∧ ((1 : Int) ≤ 2 ∨ (1 : ℝ) < 1) := by
  have := Real.two_le_pi
  exact ⟨le_refl _, by norm_num, by linarith, by norm_num, Or.inl (by norm_num)⟩

/-- C39 is false on the disk of level 0: the points of the unit circle have pixel 1, and there is one pixel. -/
theorem C39_disk_false : ¬ ∀ (r theta : ℝ) (lvl : Int), 0 ≤ r → r ≤ 1 → 0 ≤ theta → theta < 2 * Real.pi → 0 ≤ lvl → diskPixel r theta lvl < diskPixelNum lvl := by
  intro h
  have := h 1 0 0 (by norm_num) (by norm_num) (by norm_num) (by have := Real.pi_pos; linarith) (by norm_num)
  revert this
  have h1 : goInt (1 * ((2 * 0 + 1 : Int) : ℝ)) = 1 := by rw [goInt_nonneg (by norm_num)]; norm_num
  have h2 : ∀ k : Int, goInt ((k : ℝ) * 0 / (2 * Real.pi)) = 0 := fun k => by rw [goInt_nonneg (by simp)]; simp
  unfold diskPixel diskPixelNum
  simp only [h1, h2]
  decide

/-! The sphere -/

theorem cosPi4_pos : 0 < cosPi4 := Real.cos_pos_of_mem_Ioo ⟨by have := Real.pi_pos; linarith, by have := Real.pi_pos; linarith⟩

/-- Radii of the southern hemisphere. -/
theorem south_radius {theta : ℝ} (h : Real.pi / 2 < theta) (h1 : theta ≤ Real.pi) : 0 ≤ Real.cos (theta / 2) / cosPi4 ∧ Real.cos (theta / 2) / cosPi4 < 1 := by
  have hp := Real.pi_pos
  refine ⟨div_nonneg (Real.cos_nonneg_of_mem_Icc ⟨by linarith, by linarith⟩) cosPi4_pos.le, ?_⟩
  rw [div_lt_one cosPi4_pos]
  exact Real.cos_lt_cos_of_nonneg_of_le_pi (by linarith) (by linarith) (by linarith)

/-- Radii of the northern hemisphere; 1 is the equator. -/
theorem north_radius {theta : ℝ} (h0 : 0 ≤ theta) (h : theta ≤ Real.pi / 2) :
    0 ≤ Real.cos ((Real.pi - theta) / 2) / cosPi4 ∧ Real.cos ((Real.pi - theta) / 2) / cosPi4 ≤ 1 ∧ (theta ≠ Real.pi / 2 → Real.cos ((Real.pi - theta) / 2) / cosPi4 < 1) := by
  have hp := Real.pi_pos
  refine ⟨div_nonneg (Real.cos_nonneg_of_mem_Icc ⟨by linarith, by linarith⟩) cosPi4_pos.le, ?_, fun hne => ?_⟩
  · rw [div_le_one cosPi4_pos]
    exact Real.cos_le_cos_of_nonneg_of_le_pi (by linarith) (by linarith) (by linarith)
  · have : theta < Real.pi / 2 := lt_of_le_of_ne h hne
    rw [div_lt_one cosPi4_pos]
    exact Real.cos_lt_cos_of_nonneg_of_le_pi (by linarith) (by linarith) (by linarith)

/-- C39 (partial; the missing case is `C39_sphere_false`): every direction has a pixel between 0 and the number of pixels minus one, except that on level 1 the equator is excluded. -/
theorem C39_sphere_partial (phi theta : ℝ) (lvl : Int) (hp0 : 0 ≤ phi) (hp1 : phi < 2 * Real.pi) (ht0 : 0 ≤ theta) (ht1 : theta ≤ Real.pi) (hl : 0 ≤ lvl)
    (heq : lvl = 1 → theta ≠ Real.pi / 2) : 0 ≤ spherePixel phi theta lvl ∧ spherePixel phi theta lvl < spherePixelNum lvl := by
  unfold spherePixel spherePixelNum
  by_cases hz : lvl = 0
  · rw [if_pos hz, if_pos hz]; decide
  · rw [if_neg hz, if_neg hz]
    have hl1 : 0 ≤ lvl - 1 := by omega
    have hnum : 0 < diskPixelNum (lvl - 1) := by unfold diskPixelNum; nlinarith
    by_cases hth : theta > Real.pi / 2
    · rw [if_pos hth]
      obtain ⟨ha, hb⟩ := south_radius hth ht1
      obtain ⟨h1, h2⟩ := C39_disk_partial _ phi (lvl - 1) ha hp0 hp1 hl1 (Or.inr hb)
      exact ⟨h1, by omega⟩
    · rw [if_neg hth]
      obtain ⟨ha, _, hc⟩ := north_radius ht0 (not_lt.mp hth)
      have hcase : 1 ≤ lvl - 1 ∨ Real.cos ((Real.pi - theta) / 2) / cosPi4 < 1 := by
        by_cases h1 : lvl = 1
        · exact Or.inr (hc (heq h1))
        · exact Or.inl (by omega)
      obtain ⟨h1, h2⟩ := C39_disk_partial _ phi (lvl - 1) ha hp0 hp1 hl1 hcase
      exact ⟨by omega, by omega⟩

/-- non-vacuity: the equator on level 3, the default level of the configuration -/
example : (0 : ℝ) ≤ 0 ∧ 0 < 2 * Real.pi ∧ 0 ≤ Real.pi / 2 ∧ Real.pi / 2 ≤ Real.pi ∧ (0 : Int) ≤ 3 ∧ ((3 : Int) = 1 → Real.pi / 2 ≠ Real.pi / 2) := by
  have := Real.pi_pos
  exact ⟨le_refl _, by linarith, by linarith, by linarith, by norm_num, fun h => by omega⟩

/-- C39 is false on level 1: the direction (phi, theta) = (0, pi/2) has pixel 2, and there are two pixels. -/
theorem C39_sphere_false : ¬ ∀ (phi theta : ℝ) (lvl : Int), 0 ≤ phi → phi < 2 * Real.pi → 0 ≤ theta → theta ≤ Real.pi → 0 ≤ lvl → spherePixel phi theta lvl < spherePixelNum lvl := by
  intro h
  have hp := Real.pi_pos
  have := h 0 (Real.pi / 2) 1 (le_refl _) (by linarith) (by linarith) (by linarith) (by norm_num)
  revert this
  unfold spherePixel spherePixelNum
  rw [if_neg (by norm_num), if_neg (lt_irrefl _), if_neg (by norm_num)]
  have hr : Real.cos ((Real.pi - Real.pi / 2) / 2) / cosPi4 = 1 := by
    unfold cosPi4; rw [show (Real.pi - Real.pi / 2) / 2 = Real.pi / 4 by ring]; exact div_self cosPi4_pos.ne'
  rw [hr]
  have h1 : goInt (1 * ((2 * (1 - 1) + 1 : Int) : ℝ)) = 1 := by rw [goInt_nonneg (by norm_num)]; norm_num
  have h2 : ∀ k : Int, goInt ((k : ℝ) * 0 / (2 * Real.pi)) = 0 := fun k => by rw [goInt_nonneg (by simp)]; simp
  unfold diskPixel diskPixelNum
  simp only [h1, h2]
  decide

theorem goMod_range {x y : ℝ} (hy : 0 < y) : 0 ≤ goMod x y ∧ goMod x y < y := by
  unfold goMod
  have h1 := Int.floor_le (x / y)
  have h2 := Int.lt_floor_add_one (x / y)
  rw [le_div_iff₀ hy] at h1
  rw [div_lt_iff₀ hy] at h2
  constructor <;> nlinarith

/-- C39 for the median profiles of cmd/prof.go: whatever the displacement of the particle, its pixel is in the range of the array of the halo, if the level is not 1 or the particle
is not in the equatorial plane. -/
theorem C39_particle_partial (d : Vec) (lvl : Int) (hl : 0 ≤ lvl) (heq : lvl = 1 → d.z ≠ 0) :
    0 ≤ pixelOf d lvl ∧ pixelOf d lvl < spherePixelNum lvl := by
  have hp := Real.pi_pos
  obtain ⟨h1, h2⟩ := goMod_range (x := atan2 d.y d.x + Real.pi * 2) (y := Real.pi * 2) (by positivity)
  refine C39_sphere_partial _ _ lvl h1 (by linarith) (Real.arccos_nonneg _) (Real.arccos_le_pi _) hl fun hl1 he => ?_
  have hz := heq hl1
  have hpos : 0 < d.x * d.x + d.y * d.y + d.z * d.z := by
    have : 0 < d.z * d.z := mul_self_pos.mpr hz
    nlinarith [mul_self_nonneg d.x, mul_self_nonneg d.y]
  rw [Real.arccos_eq_pi_div_two, div_eq_zero_iff] at he
  rcases he with he | he
  · exact hz he
  · exact (Real.sqrt_pos.mpr hpos).ne' he

/-- non-vacuity -/
example : (0 : Int) ≤ 1 ∧ ((1 : Int) = 1 → (⟨1, 1, 1⟩ : Vec).z ≠ 0) := ⟨by norm_num, fun _ => by norm_num⟩

/-! Every pixel is used -/

/-- The ring of a pixel number. -/
theorem exists_ring (lvl p : Int) (hl : 0 ≤ lvl) (h0 : 0 < p) (h1 : p < diskPixelNum lvl) :
    ∃ ir, 1 ≤ ir ∧ ir ≤ lvl ∧ (2 * ir - 1) * (2 * ir - 1) ≤ p ∧ p < (2 * ir + 1) * (2 * ir + 1) := by
  have key : ∀ n : Nat, p < (2 * (n : Int) + 1) * (2 * (n : Int) + 1) → ∃ ir, 1 ≤ ir ∧ ir ≤ (n : Int) ∧ (2 * ir - 1) * (2 * ir - 1) ≤ p ∧ p < (2 * ir + 1) * (2 * ir + 1) := by
    intro n
    induction n with
    | zero => intro h; exfalso; norm_num at h; omega
    | succ n ih =>
      intro h
      by_cases hlt : p < (2 * (n : Int) + 1) * (2 * (n : Int) + 1)
      · obtain ⟨ir, ha, hb, hc⟩ := ih hlt
        exact ⟨ir, ha, by push_cast; omega, hc⟩
      · refine ⟨(n : Int) + 1, by omega, by push_cast; omega, ?_, by push_cast at h; exact h⟩
        have : (2 * ((n : Int) + 1) - 1) = 2 * (n : Int) + 1 := by ring
        rw [this]; omega
  have := key lvl.toNat (by rw [Int.toNat_of_nonneg hl]; unfold diskPixelNum at h1; rw [mul_comm lvl 2] at h1; exact h1)
  rwa [Int.toNat_of_nonneg hl] at this

/-- C39: every pixel of the disk is the pixel of a point of the open unit disk. -/
theorem C39_disk_onto (lvl p : Int) (hl : 0 ≤ lvl) (h0 : 0 ≤ p) (h1 : p < diskPixelNum lvl) :
    ∃ r theta : ℝ, 0 ≤ r ∧ r < 1 ∧ 0 ≤ theta ∧ theta < 2 * Real.pi ∧ diskPixel r theta lvl = p := by
  have hp := Real.pi_pos
  by_cases hz : p = 0
  · refine ⟨0, 0, le_refl _, by norm_num, le_refl _, by linarith, ?_⟩
    unfold diskPixel
    have : goInt (0 * ((2 * lvl + 1 : Int) : ℝ)) = 0 := by rw [goInt_nonneg (by simp)]; simp
    simp only [this]; rw [if_pos trivial]; exact hz.symm
  · obtain ⟨ir, hi1, hil, ha, hb⟩ := exists_ring lvl p hl (by omega) h1
    have hc : (0 : ℝ) < ((2 * lvl + 1 : Int) : ℝ) := by exact_mod_cast (by omega : 0 < 2 * lvl + 1)
    have h8 : (0 : ℝ) < ((8 * ir : Int) : ℝ) := by exact_mod_cast (by omega : 0 < 8 * ir)
    have hr0 : (0 : ℝ) ≤ ((2 * ir : Int) : ℝ) / ((2 * lvl + 1 : Int) : ℝ) := div_nonneg (by exact_mod_cast (by omega : 0 ≤ 2 * ir)) hc.le
    have hq0 : (0 : ℝ) ≤ ((p - (2 * ir - 1) * (2 * ir - 1) : Int) : ℝ) := by exact_mod_cast (by omega)
    have hq1 : ((p - (2 * ir - 1) * (2 * ir - 1) : Int) : ℝ) < ((8 * ir : Int) : ℝ) := by exact_mod_cast (by nlinarith)
    have hfl : ⌊((2 * ir : Int) : ℝ) / ((2 * lvl + 1 : Int) : ℝ) * ((2 * lvl + 1 : Int) : ℝ)⌋ = 2 * ir := by
      rw [div_mul_cancel₀ _ hc.ne', Int.floor_intCast]
    refine ⟨((2 * ir : Int) : ℝ) / ((2 * lvl + 1 : Int) : ℝ), ((p - (2 * ir - 1) * (2 * ir - 1) : Int) : ℝ) / ((8 * ir : Int) : ℝ) * (2 * Real.pi), hr0, ?_, by positivity, ?_, ?_⟩
    · rw [div_lt_one hc]; exact_mod_cast (by omega : 2 * ir < 2 * lvl + 1)
    · have : ((p - (2 * ir - 1) * (2 * ir - 1) : Int) : ℝ) / ((8 * ir : Int) : ℝ) < 1 := (div_lt_one h8).mpr hq1
      nlinarith
    · rcases diskPixel_ring (theta := ((p - (2 * ir - 1) * (2 * ir - 1) : Int) : ℝ) / ((8 * ir : Int) : ℝ) * (2 * Real.pi)) hr0 hl with ⟨h, _⟩ | ⟨jr, hj, _, h⟩
      · rw [hfl] at h; omega
      · rw [hfl] at hj
        have hji : jr = ir := by rw [hj, show (2 * ir + 1) / 2 = ir by omega]; exact min_eq_right hil
        rw [hji] at h
        rw [h]
        have : ((8 * ir : Int) : ℝ) * (((p - (2 * ir - 1) * (2 * ir - 1) : Int) : ℝ) / ((8 * ir : Int) : ℝ) * (2 * Real.pi)) / (2 * Real.pi) =
            ((p - (2 * ir - 1) * (2 * ir - 1) : Int) : ℝ) := by field_simp
        rw [this, goInt_nonneg hq0, Int.floor_intCast]
        ring

/-- non-vacuity -/
example : (0 : Int) ≤ 3 ∧ (0 : Int) ≤ 48 ∧ (48 : Int) < diskPixelNum 3 := by decide

/-- The polar angles that belong to a radius. -/
theorem angle_of_radius {r : ℝ} (h0 : 0 ≤ r) (h1 : r < 1) : ∃ a, Real.pi / 4 < a ∧ a ≤ Real.pi / 2 ∧ Real.cos a / cosPi4 = r := by
  have hc := cosPi4_pos
  have hle : cosPi4 ≤ 1 := Real.cos_le_one _
  have hx : r * cosPi4 < cosPi4 := by nlinarith
  have hx0 : 0 ≤ r * cosPi4 := by positivity
  refine ⟨Real.arccos (r * cosPi4), ?_, Real.arccos_le_pi_div_two.mpr hx0, ?_⟩
  · have : Real.pi / 4 = Real.arccos cosPi4 := (Real.arccos_cos (by have := Real.pi_pos; linarith) (by have := Real.pi_pos; linarith)).symm
    rw [this]
    exact Real.arccos_lt_arccos (by linarith) hx hle
  · rw [Real.cos_arccos (by linarith) (by linarith)]; field_simp

/-- C39: every pixel of the sphere is the pixel of some direction; the first half of the numbers belongs to the southern and the second half to the northern hemisphere. -/
theorem C39_sphere_onto (lvl p : Int) (hl : 0 ≤ lvl) (h0 : 0 ≤ p) (h1 : p < spherePixelNum lvl) :
    ∃ phi theta : ℝ, 0 ≤ phi ∧ phi < 2 * Real.pi ∧ 0 ≤ theta ∧ theta ≤ Real.pi ∧ spherePixel phi theta lvl = p ∧
      (lvl ≠ 0 → (p < diskPixelNum (lvl - 1) ↔ Real.pi / 2 < theta)) := by
  have hp := Real.pi_pos
  by_cases hz : lvl = 0
  · refine ⟨0, 0, le_refl _, by linarith, le_refl _, by linarith, ?_, fun h => absurd hz h⟩
    unfold spherePixel; rw [if_pos hz]
    unfold spherePixelNum at h1; rw [if_pos hz] at h1; omega
  · unfold spherePixelNum at h1; rw [if_neg hz] at h1
    unfold spherePixel
    by_cases hlt : p < diskPixelNum (lvl - 1)
    · obtain ⟨r, phi, hr0, hr1, hp0, hp1, hpx⟩ := C39_disk_onto (lvl - 1) p (by omega) h0 hlt
      obtain ⟨a, ha1, ha2, ha⟩ := angle_of_radius hr0 hr1
      refine ⟨phi, 2 * a, hp0, hp1, by linarith, by linarith, ?_, fun _ => ⟨fun _ => by linarith, fun _ => hlt⟩⟩
      rw [if_neg hz, if_pos (by linarith), show 2 * a / 2 = a by ring, ha, hpx]
    · obtain ⟨r, phi, hr0, hr1, hp0, hp1, hpx⟩ := C39_disk_onto (lvl - 1) (p - diskPixelNum (lvl - 1)) (by omega) (by omega) (by omega)
      obtain ⟨a, ha1, ha2, ha⟩ := angle_of_radius hr0 hr1
      refine ⟨phi, Real.pi - 2 * a, hp0, hp1, by linarith, by linarith, ?_, fun _ => ⟨fun h => absurd h hlt, fun h => by linarith⟩⟩
      rw [if_neg hz, if_neg (by linarith), show (Real.pi - (Real.pi - 2 * a)) / 2 = a by ring, ha, hpx]
      ring

/-- non-vacuity -/
example : (0 : Int) ≤ 2 ∧ (0 : Int) ≤ 17 ∧ (17 : Int) < spherePixelNum 2 := by decide

end Shellfish.Geom
