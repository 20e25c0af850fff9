/- C72, C110: areas and axes of spheres. -/
import Verif.Props.EllipseGrid
import Mathlib.Analysis.SpecialFunctions.Trigonometric.Bounds

namespace Shellfish.Analyze
noncomputable section
open Shellfish.Geom (Vec)
open Shellfish.Interp Real

theorem step_pos : 0 < sin (1 / 1000 : ℝ) ∧ 0 < cos (1 / 1000 : ℝ) := by
  have hp := Real.two_le_pi
  exact ⟨Real.sin_pos_of_pos_of_lt_pi (by norm_num) (by linarith), Real.cos_pos_of_mem_Ioo ⟨by linarith, by linarith⟩⟩

/-- The cosine that the code finds on a sphere. -/
theorem cosNorm_sphere (r : ℝ) (hr : 0 < r) (phi theta : ℝ) (ht : 0 < sin theta) :
    cosNorm (fun _ _ => r) phi theta = (sin theta ^ 2 + cos theta ^ 2 * cos (1 / 1000)) / Real.sqrt (sin theta ^ 2 + cos theta ^ 2 * cos (1 / 1000) ^ 2) := by
  have e : (fun _ _ => r : Shell) = scaled r (fun _ _ => 1) := by funext a b; simp [scaled]
  rw [e, cosNorm_scaled hr]
  obtain ⟨hs, hc⟩ := step_pos
  unfold cosNorm cartesian
  dsimp only
  simp only [one_mul, mul_one, sin_sub, sin_add, cos_sub, cos_add]
  generalize sin (1 / 1000) = sd at hs ⊢
  generalize cos (1 / 1000) = cd at hc ⊢
  have hp := sin_sq_add_cos_sq phi
  have hth := sin_sq_add_cos_sq theta
  generalize sin phi = sp at hp ⊢
  generalize cos phi = cp at hp ⊢
  generalize sin theta = st at hth ht ⊢
  generalize cos theta = ct at hth ⊢
  set K := 8 * st * cd * sd ^ 2 with hK
  have hKp : 0 < K := by positivity
  have n1 : ∀ X Y Z l1 l2 l3 A : ℝ, X = K * (st * cp) → Y = K * (st * sp) → Z = K * (ct * cd) → A = Real.sqrt (st ^ 2 + ct ^ 2 * cd ^ 2) → 
      l1 = st * cp → l2 = st * sp → l3 = ct →
      l1 * (X / Real.sqrt (X * X + Y * Y + Z * Z)) + l2 * (Y / Real.sqrt (X * X + Y * Y + Z * Z)) + l3 * (Z / Real.sqrt (X * X + Y * Y + Z * Z)) = (st ^ 2 + ct ^ 2 * cd) / A := by
    intro X Y Z l1 l2 l3 A hX hY hZ hA h1 h2 h3
    have e : X * X + Y * Y + Z * Z = K ^ 2 * (st ^ 2 + ct ^ 2 * cd ^ 2) := by
      rw [hX, hY, hZ]; linear_combination K ^ 2 * st ^ 2 * hp
    have hA0 : 0 < A := by rw [hA]; exact Real.sqrt_pos.2 (by positivity)
    rw [e, Real.sqrt_mul (by positivity), Real.sqrt_sq hKp.le, ← hA, hX, hY, hZ, h1, h2, h3]
    have hKA : K * A ≠ 0 := (mul_pos hKp hA0).ne'
    rw [← mul_div_assoc, ← mul_div_assoc, ← mul_div_assoc, ← add_div, ← add_div, div_eq_div_iff hKA hA0.ne']
    linear_combination K * A * st ^ 2 * hp
  refine n1 _ _ _ _ _ _ _ ?_ ?_ ?_ rfl rfl rfl rfl
  · rw [hK]; ring
  · rw [hK]; ring
  · rw [hK]; linear_combination 8 * st * cd ^ 2 * sd ^ 2 * ct * hp

/-- The cosine is 1 up to 10⁻¹². -/
theorem cosNorm_sphere_near (r : ℝ) (hr : 0 < r) (phi theta : ℝ) (ht : 0 < sin theta) :
    1 - 1 / 10 ^ 12 ≤ cosNorm (fun _ _ => r) phi theta ∧ cosNorm (fun _ _ => r) phi theta ≤ 1 := by
  refine ⟨?_, (abs_le.1 (cosNorm_le _ phi theta)).2⟩
  rw [cosNorm_sphere r hr phi theta ht]
  obtain ⟨hs, hc⟩ := step_pos
  have hc1 : 1 - (1 / 1000 : ℝ) ^ 2 / 2 ≤ cos (1 / 1000) := one_sub_sq_div_two_le_cos
  have hc2 := cos_le_one (1 / 1000 : ℝ)
  have hth := sin_sq_add_cos_sq theta
  generalize cos (1 / 1000) = u at hc hc1 hc2 ⊢
  have hx : cos theta ^ 2 = 1 - sin theta ^ 2 := by linarith
  have hx1 : sin theta ^ 2 ≤ 1 := by nlinarith [sq_nonneg (cos theta)]
  rw [hx]
  generalize hX : sin theta ^ 2 = x at hx1 ⊢
  have hx0 : 0 < x := by rw [← hX]; positivity
  have hD : 0 < x + (1 - x) * u ^ 2 := by nlinarith [mul_nonneg (sub_nonneg.2 hx1) (sq_nonneg u)]
  rw [le_div_iff₀ (Real.sqrt_pos.2 hD)]
  have hN : 0 ≤ x + (1 - x) * u := by nlinarith [mul_nonneg (sub_nonneg.2 hx1) hc.le]
  have hu : (1 - u) ^ 2 ≤ 1 / 10 ^ 12 := by
    norm_num at hc1 ⊢
    nlinarith
  have hD2 : 1 / 2 ≤ x + (1 - x) * u ^ 2 := by
    have : (1 / 2 : ℝ) ≤ u ^ 2 := by norm_num at hc1; nlinarith
    nlinarith
  have hm : x * (1 - x) ≤ 1 / 4 := by nlinarith [sq_nonneg (x - 1 / 2)]
  have key : ((1 - 1 / 10 ^ 12) * Real.sqrt (x + (1 - x) * u ^ 2)) ^ 2 ≤ (x + (1 - x) * u) ^ 2 := by
    rw [mul_pow, Real.sq_sqrt hD.le]
    have h4 : x * (1 - x) * (1 - u) ^ 2 ≤ 1 / 4 * (1 / 10 ^ 12) := mul_le_mul hm hu (sq_nonneg _) (by norm_num)
    have : (x + (1 - x) * u) ^ 2 = x + (1 - x) * u ^ 2 - x * (1 - x) * (1 - u) ^ 2 := by ring
    rw [this]
    norm_num at h4 ⊢
    nlinarith
  exact le_of_sq_le_sq key hN

/-- C72: the surface area of a sphere is exact up to a relative error of 2·10⁻¹², for all draws but those at the poles. -/
theorem C72_sphere_area (r : ℝ) (hr : 0 < r) (draws : List (ℝ × ℝ)) (hne : draws ≠ []) (hd : ∀ d ∈ draws, 0 < d.2 ∧ d.2 < 1) :
    4 * π * r ^ 2 ≤ Shell.surfaceArea (fun _ _ => r) draws ∧ Shell.surfaceArea (fun _ _ => r) draws ≤ 4 * π * r ^ 2 * (1 + 2 / 10 ^ 12) := by
  have hp := Real.pi_pos
  have e : Shell.surfaceArea (fun _ _ => r) draws = mean (fun d => 4 * π * Shell.area (fun _ _ => r) d) draws := by
    rw [mean_mul]
    unfold Shell.surfaceArea mean
    rw [foldl_add, zero_add]
    ring
  rw [e]
  refine mean_between _ _ hne fun d hm => ?_
  obtain ⟨h0, h1⟩ := hd d hm
  have ht : 0 < sin (randomAngle d).2 := by
    unfold randomAngle
    dsimp only
    rw [sin_arccos]
    exact Real.sqrt_pos.2 (by nlinarith)
  obtain ⟨hlo, hhi⟩ := cosNorm_sphere_near r hr (randomAngle d).1 (randomAngle d).2 ht
  unfold Shell.area Shell.at
  generalize cosNorm (fun _ _ => r) (randomAngle d).1 (randomAngle d).2 = k at hlo hhi
  have hk : 0 < k := by norm_num at hlo; linarith
  constructor
  · have : r ^ 2 ≤ r * r / k := by rw [le_div_iff₀ hk]; nlinarith
    gcongr
  · have : r * r / k ≤ r ^ 2 * (1 + 2 / 10 ^ 12) := by
      rw [div_le_iff₀ hk]
      have : 1 ≤ (1 + 2 / 10 ^ 12) * k := by norm_num at hlo ⊢; linarith
      nlinarith [mul_pos hr hr]
    calc 4 * π * (r * r / k) ≤ 4 * π * (r ^ 2 * (1 + 2 / 10 ^ 12)) := by gcongr
      _ = _ := by ring

example : Shell.surfaceArea (fun _ _ => 3) [(1 / 3, 1 / 2), (1 / 7, 1 / 5)] ≤ 4 * π * 3 ^ 2 * (1 + 2 / 10 ^ 12) :=
  (C72_sphere_area 3 (by norm_num) _ (by simp) (by intro d hd; simp only [List.mem_cons, List.not_mem_nil, or_false] at hd; rcases hd with rfl | rfl <;> norm_num)).2

/-! Axes of a sphere -/

/-- Four draws: the directions of the corners of a tetrahedron. -/
def tetraDraws : List (ℝ × ℝ) :=
  [(1 / 8, (1 + 1 / Real.sqrt 3) / 2), (5 / 8, (1 + 1 / Real.sqrt 3) / 2), (3 / 8, (1 - 1 / Real.sqrt 3) / 2), (7 / 8, (1 - 1 / Real.sqrt 3) / 2)]

theorem sqrt3_bounds : 1 < Real.sqrt 3 := by
  rw [Real.lt_sqrt (by norm_num)]; norm_num

theorem inv_sqrt3 : 0 < 1 / Real.sqrt 3 ∧ 1 / Real.sqrt 3 < 1 := by
  have := sqrt3_bounds
  exact ⟨by positivity, by rw [div_lt_one (by linarith)]; exact this⟩

theorem tetra_draws : ∀ d ∈ tetraDraws, Draw d := by
  obtain ⟨h0, h1⟩ := inv_sqrt3
  intro d hd
  simp only [tetraDraws, List.mem_cons, List.not_mem_nil, or_false] at hd
  rcases hd with rfl | rfl | rfl | rfl <;> exact ⟨by norm_num, by norm_num, by dsimp only; linarith, by dsimp only; linarith⟩

/-- Equal weights, points at the corners of a tetrahedron: all moments of inertia are equal. -/
theorem inertia_tetra (s : Shell) (d1 d2 d3 d4 : ℝ × ℝ) (w p q : ℝ) (hw : 0 < w) (h1 : s.area d1 = w) (h2 : s.area d2 = w) (h3 : s.area d3 = w) (h4 : s.area d4 = w)
    (p1 : s.point d1 = ⟨p, p, q⟩) (p2 : s.point d2 = ⟨-p, -p, q⟩) (p3 : s.point d3 = ⟨-p, p, -q⟩) (p4 : s.point d4 = ⟨p, -p, -q⟩) (hpq : p ^ 2 = q ^ 2) (i j : Fin 3) :
    inertia s [d1, d2, d3, d4] i j = if i = j then 2 * q ^ 2 else 0 := by
  have hpq' : p * p = q * q := by nlinarith
  unfold inertia
  simp only [wmean_eq, weighted, List.map_cons, List.map_nil, List.sum_cons, List.sum_nil, h1, h2, h3, h4, p1, p2, p3, p4]
  fin_cases i <;> fin_cases j <;> simp <;> field_simp <;> nlinarith

theorem tetra_point (r : ℝ) (hr : 0 < r) (sg : ℝ) (hsg : sg = 1 ∨ sg = -1) (k : ℝ) :
    (0 < sin (randomAngle (k, (1 + sg * (1 / Real.sqrt 3)) / 2)).2) ∧ sin (randomAngle (k, (1 + sg * (1 / Real.sqrt 3)) / 2)).2 = Real.sqrt (2 / 3) ∧
    cos (randomAngle (k, (1 + sg * (1 / Real.sqrt 3)) / 2)).2 = sg / Real.sqrt 3 := by
  obtain ⟨h0, h1⟩ := inv_sqrt3
  have h3 : (1 / Real.sqrt 3) ^ 2 = 1 / 3 := by rw [div_pow, Real.sq_sqrt (by norm_num)]; norm_num
  unfold randomAngle
  dsimp only
  rw [sin_arccos, cos_arccos]
  · have e : 1 - (2 * ((1 + sg * (1 / Real.sqrt 3)) / 2) - 1) ^ 2 = 2 / 3 := by
      have : sg ^ 2 = 1 := by rcases hsg with rfl | rfl <;> norm_num
      linear_combination -(1 / Real.sqrt 3) ^ 2 * this - h3
    rw [e]
    exact ⟨Real.sqrt_pos.2 (by norm_num), rfl, by ring⟩
  · rcases hsg with rfl | rfl <;> linarith
  · rcases hsg with rfl | rfl <;> linarith

theorem tetra_angles : cos (2 * π * (1 / 8)) = Real.sqrt 2 / 2 ∧ sin (2 * π * (1 / 8)) = Real.sqrt 2 / 2 ∧ cos (2 * π * (5 / 8)) = -(Real.sqrt 2 / 2) ∧ sin (2 * π * (5 / 8)) = -(Real.sqrt 2 / 2) ∧
    cos (2 * π * (3 / 8)) = -(Real.sqrt 2 / 2) ∧ sin (2 * π * (3 / 8)) = Real.sqrt 2 / 2 ∧ cos (2 * π * (7 / 8)) = Real.sqrt 2 / 2 ∧ sin (2 * π * (7 / 8)) = -(Real.sqrt 2 / 2) := by
  rw [show 2 * π * (1 / 8) = π / 4 by ring, show 2 * π * (5 / 8) = π / 4 + π by ring, show 2 * π * (3 / 8) = π - π / 4 by ring, show 2 * π * (7 / 8) = 2 * π - π / 4 by ring]
  rw [cos_add_pi, sin_add_pi, cos_pi_sub, sin_pi_sub, cos_two_pi_sub, sin_two_pi_sub, cos_pi_div_four, sin_pi_div_four]
  simp

/-- The inertia of a sphere, sampled at the corners of a tetrahedron. -/
theorem inertia_sphere (r : ℝ) (hr : 0 < r) (i j : Fin 3) : inertia (fun _ _ => r) tetraDraws i j = if i = j then 2 * (r ^ 2 / 3) else 0 := by
  have e : tetraDraws = [(1 / 8, (1 + 1 * (1 / Real.sqrt 3)) / 2), (5 / 8, (1 + 1 * (1 / Real.sqrt 3)) / 2), (3 / 8, (1 + -1 * (1 / Real.sqrt 3)) / 2), (7 / 8, (1 + -1 * (1 / Real.sqrt 3)) / 2)] := by
    unfold tetraDraws
    rw [show (1 + 1 * (1 / Real.sqrt 3)) / 2 = (1 + 1 / Real.sqrt 3) / 2 by ring, show (1 + -1 * (1 / Real.sqrt 3)) / 2 = (1 - 1 / Real.sqrt 3) / 2 by ring]
  have area : ∀ sg : ℝ, (sg = 1 ∨ sg = -1) → ∀ k : ℝ, Shell.area (fun _ _ => r) (k, (1 + sg * (1 / Real.sqrt 3)) / 2) =
      r * r / ((2 / 3 + 1 / 3 * cos (1 / 1000)) / Real.sqrt (2 / 3 + 1 / 3 * cos (1 / 1000) ^ 2)) := by
    intro sg hsg k
    obtain ⟨h1, h2, h3⟩ := tetra_point r hr sg hsg k
    have hc2 : (sg / Real.sqrt 3) ^ 2 = 1 / 3 := by
      rw [div_pow, Real.sq_sqrt (by norm_num)]
      rcases hsg with rfl | rfl <;> norm_num
    unfold Shell.area Shell.at
    rw [cosNorm_sphere r hr _ _ h1, h2, h3, hc2, Real.sq_sqrt (by norm_num)]
  have point : ∀ sg : ℝ, (sg = 1 ∨ sg = -1) → ∀ k : ℝ, Shell.point (fun _ _ => r) (k, (1 + sg * (1 / Real.sqrt 3)) / 2) =
      ⟨r * Real.sqrt (2 / 3) * cos (2 * π * k), r * Real.sqrt (2 / 3) * sin (2 * π * k), r * (sg / Real.sqrt 3)⟩ := by
    intro sg hsg k
    obtain ⟨_, h2, h3⟩ := tetra_point r hr sg hsg k
    unfold Shell.point Shell.at cartesian
    rw [h2, h3]
    rfl
  obtain ⟨a1, a2, a3, a4, a5, a6, a7, a8⟩ := tetra_angles
  have hw : 0 < r * r / ((2 / 3 + 1 / 3 * cos (1 / 1000)) / Real.sqrt (2 / 3 + 1 / 3 * cos (1 / 1000) ^ 2)) := by
    have := step_pos.2
    positivity
  have hq : (r * (1 / Real.sqrt 3)) ^ 2 = r ^ 2 / 3 := by rw [mul_pow, div_pow, Real.sq_sqrt (by norm_num)]; ring
  rw [e, inertia_tetra (fun _ _ => r) _ _ _ _ _ (r * Real.sqrt (2 / 3) * (Real.sqrt 2 / 2)) (r * (1 / Real.sqrt 3)) hw (area 1 (Or.inl rfl) _) (area 1 (Or.inl rfl) _)
    (area (-1) (Or.inr rfl) _) (area (-1) (Or.inr rfl) _), hq]
  · rw [point 1 (Or.inl rfl), a1, a2]
  · rw [point 1 (Or.inl rfl), a3, a4, mul_neg]
  · rw [point (-1) (Or.inr rfl), a5, a6, mul_neg, neg_div, mul_neg]
  · rw [point (-1) (Or.inr rfl), a7, a8, mul_neg, neg_div, mul_neg]
  · rw [hq, mul_pow, mul_pow, div_pow, Real.sq_sqrt (by norm_num), Real.sq_sqrt (by norm_num)]
    ring

/-- C110 is false: the axes that are returned for a sphere of radius `r` are `1.1153 r`, `1.1164 r` and `1.1073 r`, whatever correct eigenvalue routine is used (and, by `C110_history`, whatever was measured before). -/
theorem C110_sphere_false (ai : AxisInterpolators) (hai : axisInit = some ai) (r : ℝ) (hr : 0 < r)
    (eigen : (Fin 3 → Fin 3 → ℝ) → Option ((Fin 3 → ℝ) × (Fin 3 → Fin 3 → ℝ))) (vals : Fin 3 → ℝ) (vecs : Fin 3 → Fin 3 → ℝ)
    (he : eigen (inertia (fun _ _ => r) tetraDraws) = some (vals, vecs)) (hd : Decomposition (inertia (fun _ _ => r) tetraDraws) vals vecs) :
    (∀ d ∈ tetraDraws, Draw d) ∧ ∃ v, Shell.axes (fun _ _ => r) ai.ratios eigen tetraDraws = some (1.1153 * r, 1.001 * (1.1153 * r), 0.99285 * (1.1153 * r), v) := by
  refine ⟨tetra_draws, ?_⟩
  have hm := inertia_sphere r hr
  unfold Shell.axes
  rw [he, Option.bind_some]
  have hrat : ai.ratios = corrections := by
    obtain ⟨b1, e1, o1⟩ := interp_exists acGridN acGrid_length
    obtain ⟨b2, e2, o2⟩ := interp_exists bcGridN bcGrid_length
    obtain ⟨b3, e3, o3⟩ := interp_exists cGridN cGrid_length
    unfold axisInit at hai
    rw [e1, e2, e3] at hai
    simp only [Option.bind_eq_bind, Option.bind_some, Option.some.injEq] at hai
    rw [← hai]
    exact AxisInterpolators.Ok.ratios ⟨o1, o2, o3⟩
  rw [hrat]
  have hv : ∀ k, vals k = 2 * (r ^ 2 / 3) := by
    intro k
    have h1 := C74_extent _ vals vecs hd k
    have h2 := hd.2 k k
    rw [if_pos rfl] at h2
    simp only [hm] at h1
    simp at h1
    rw [← h1]
    linear_combination 2 * (r ^ 2 / 3) * h2
  refine round_axes vals vecs r hr fun k => ?_
  unfold roughLength extent2
  rw [hv, hv, hv, hv, show 3 * ((2 * (r ^ 2 / 3) + 2 * (r ^ 2 / 3) + 2 * (r ^ 2 / 3)) / 2 - 2 * (r ^ 2 / 3)) = r ^ 2 by ring, Real.sqrt_sq hr.le]

/-! The hypotheses are met -/

/-- Eigenvalues of a body with the squared extents 4, 1, 1. -/
def longVals : Fin 3 → ℝ := ![2, 5, 5]

theorem rough (x y z : ℝ) : roughLength ![x, y, z] 0 = Real.sqrt (3 * ((x + y + z) / 2 - x)) ∧ roughLength ![x, y, z] 1 = Real.sqrt (3 * ((x + y + z) / 2 - y)) ∧
    roughLength ![x, y, z] 2 = Real.sqrt (3 * ((x + y + z) / 2 - z)) := ⟨rfl, rfl, rfl⟩

theorem longVals_lengths : roughLength longVals 0 = Real.sqrt 12 ∧ roughLength longVals 1 = Real.sqrt 3 ∧ roughLength longVals 2 = Real.sqrt 3 := by
  obtain ⟨h0, h1, h2⟩ := rough 2 5 5
  unfold longVals
  rw [h0, h1, h2]
  refine ⟨?_, ?_, ?_⟩ <;> congr 1 <;> norm_num

-- an elongated body is measured ...
example : ∃ ai, axisInit = some ai ∧ ai.axesAll [(longVals, exVecs)] ≠ none := by
  obtain ⟨ai, hai, _⟩ := C110_history
  obtain ⟨l0, l1, l2⟩ := longVals_lengths
  have h12 : Real.sqrt 12 = 2 * Real.sqrt 3 := by rw [show (12 : ℝ) = 2 ^ 2 * 3 by norm_num, Real.sqrt_mul (by norm_num), Real.sqrt_sq (by norm_num)]
  have h3 := sqrt3_bounds
  refine ⟨ai, hai, fun hn => ?_⟩
  obtain ⟨k, l, h⟩ := (C110_range_partial ai hai [] [] rfl longVals exVecs ⟨0, by rw [l0]; positivity⟩ (by rw [l0, l1, l2, h12]; intro h; linarith [h.1])).1 hn
  have hb : ∀ k, Real.sqrt 3 ≤ roughLength longVals k ∧ roughLength longVals k ≤ 2 * Real.sqrt 3 := by
    intro k
    fin_cases k
    · rw [show roughLength longVals ((fun i => i) ⟨0, by omega⟩) = _ from l0, h12]; exact ⟨by linarith, le_refl _⟩
    · rw [show roughLength longVals ((fun i => i) ⟨1, by omega⟩) = _ from l1]; exact ⟨le_refl _, by linarith⟩
    · rw [show roughLength longVals ((fun i => i) ⟨2, by omega⟩) = _ from l2]; exact ⟨le_refl _, by linarith⟩
  have := (hb k).1
  have := (hb l).2
  norm_num at h
  nlinarith

/-- C110 is false: a body five times as long as it is thick makes `Axes` panic. -/
theorem C110_elongated_false (ai : AxisInterpolators) (hai : axisInit = some ai) : ai.axesAll [(![2, 26, 26], exVecs)] = none := by
  obtain ⟨h0, h1, h2⟩ := rough 2 26 26
  rw [show 3 * ((2 + 26 + 26 : ℝ) / 2 - 2) = (5 : ℝ) ^ 2 * 3 by norm_num, Real.sqrt_mul (by norm_num), Real.sqrt_sq (by norm_num)] at h0
  rw [show 3 * ((2 + 26 + 26 : ℝ) / 2 - 26) = (3 : ℝ) by norm_num] at h1 h2
  have h3 := sqrt3_bounds
  refine (C110_range_partial ai hai [] [] rfl ![2, 26, 26] exVecs ⟨0, by rw [h0]; positivity⟩ (by rw [h0, h2]; intro h; linarith [h.1])).2 ⟨1, 0, ?_⟩
  rw [h0, h1]
  norm_num
  linarith

-- a body with the squared extents 4, 1, 4
example : ∃ ai, axisInit = some ai ∧ ai.axesAll [(![5, 8, 5], exVecs)] = none := by
  obtain ⟨ai, hai, _⟩ := C110_history
  obtain ⟨h0, h1, h2⟩ := rough 5 8 5
  rw [show 3 * ((5 + 8 + 5 : ℝ) / 2 - 5) = 12 by norm_num] at h0 h2
  rw [show 3 * ((5 + 8 + 5 : ℝ) / 2 - 8) = 3 by norm_num] at h1
  exact ⟨ai, hai, C110_oblate_false ai hai _ _ (by rw [h1]; positivity) (by rw [h0, h2]) (by rw [h0, h1]; exact Real.sqrt_lt_sqrt (by norm_num) (by norm_num))⟩

-- a body with the axes 1, 0.72414 and 0.48276: the corrections are the entries (8, 15) of the tables
example : ∃ v, axesOf corrections ![(0.72414 ^ 2 + 0.48276 ^ 2) / 3, (1 + 0.72414 ^ 2) / 3, (1 + 0.48276 ^ 2) / 3] exVecs =
    some (tableEntry cGridN 8 15 * 1, tableEntry bcGridN 8 15 * (0.72414 / 1) * (tableEntry cGridN 8 15 * 1), tableEntry acGridN 8 15 * (0.48276 / 1) * (tableEntry cGridN 8 15 * 1), v) := by
  obtain ⟨h0, h1, h2⟩ := rough ((0.72414 ^ 2 + 0.48276 ^ 2) / 3) ((1 + 0.72414 ^ 2) / 3) ((1 + 0.48276 ^ 2) / 3)
  refine C110_nodes_partial _ _ 8 15 (by omega) (by omega) 0.48276 0.72414 1 one_pos (by norm_num [acRatiosN]) (by norm_num [bcRatiosN]) ?_ (by norm_num) (by norm_num)
  rw [h0, h1, h2]
  refine congrArg₂ _ ?_ (congrArg₂ _ ?_ (congrArg₂ _ ?_ rfl)) <;> rw [Real.sqrt_eq_iff_mul_self_eq (by norm_num) (by norm_num)] <;> norm_num

/-- A correct result for the sphere. -/
theorem unit_decomposition : Decomposition (inertia (fun _ _ => 1) tetraDraws) (fun _ => 2 * (1 ^ 2 / 3)) exVecs := by
  refine ⟨?_, ?_⟩
  · intro i k
    simp only [inertia_sphere 1 one_pos]
    fin_cases i <;> fin_cases k <;> simp [exVecs]
  · intro k l; fin_cases k <;> fin_cases l <;> simp [exVecs]

example : ∃ ai v, axisInit = some ai ∧ Shell.axes (fun _ _ => 1) ai.ratios (fun _ => some (fun _ => 2 * (1 ^ 2 / 3), exVecs)) tetraDraws =
    some (1.1153 * 1, 1.001 * (1.1153 * 1), 0.99285 * (1.1153 * 1), v) := by
  obtain ⟨ai, hai, _⟩ := C110_history
  obtain ⟨_, v, hv⟩ := C110_sphere_false ai hai 1 one_pos (fun _ => some (fun _ => 2 * (1 ^ 2 / 3), exVecs)) _ _ rfl unit_decomposition
  exact ⟨ai, v, hai, hv⟩

end
end Shellfish.Analyze
