/- C74: axes of splashback shells. -/
import Verif.Props.Shell
import Mathlib.Tactic.FinCases

namespace Shellfish.Analyze
noncomputable section
open Shellfish.Geom (Vec)
open Real

/-! Specification -/

/-- Weighted mean. -/
def weighted {α : Type} (w f : α → ℝ) (l : List α) : ℝ := (l.map fun x => w x * f x).sum / (l.map w).sum

/-- The point of the shell in the direction of a draw. -/
def Shell.point (s : Shell) (d : ℝ × ℝ) : Vec := cartesian (randomAngle d).1 (randomAngle d).2 (s.at d)

/-- The center of mass of the sampled surface. -/
def Shell.center (s : Shell) (draws : List (ℝ × ℝ)) : Vec := ⟨weighted s.area (fun d => (s.point d).x) draws, weighted s.area (fun d => (s.point d).y) draws, weighted s.area (fun d => (s.point d).z) draws⟩

/-- The squared distance of `p` from the axis through `c` in the direction `u` (not normed), times `|u|²`. -/
def axisDist2 (u c p : Vec) : ℝ :=
  ((p.x - c.x) ^ 2 + (p.y - c.y) ^ 2 + (p.z - c.z) ^ 2) * (u.x ^ 2 + u.y ^ 2 + u.z ^ 2) - (u.x * (p.x - c.x) + u.y * (p.y - c.y) + u.z * (p.z - c.z)) ^ 2

/-- `vals`, `vecs` are eigenvalues and orthonormal eigenvectors of `m`. -/
def Decomposition (m : Fin 3 → Fin 3 → ℝ) (vals : Fin 3 → ℝ) (vecs : Fin 3 → Fin 3 → ℝ) : Prop :=
  (∀ i k, m i 0 * vecs 0 k + m i 1 * vecs 1 k + m i 2 * vecs 2 k = vals k * vecs i k) ∧
  ∀ k l, vecs 0 k * vecs 0 l + vecs 1 k * vecs 1 l + vecs 2 k * vecs 2 l = if k = l then 1 else 0

/-- The mean squared extent of the surface along axis `k` when the moments of inertia about the axes are `vals`. -/
def extent2 (vals : Fin 3 → ℝ) (k : Fin 3) : ℝ := (vals 0 + vals 1 + vals 2) / 2 - vals k

/-! The matrix -/

theorem wmean_eq (s : Shell) (draws : List (ℝ × ℝ)) (f : Vec → ℝ) : wmean s draws f = weighted s.area (fun d => f (s.point d)) draws := by
  unfold wmean weighted
  rw [foldl_add (fun d => s.area d * f (cartesian (randomAngle d).1 (randomAngle d).2 (s.at d))), foldl_add, zero_add, zero_add]
  rfl

theorem weighted_add {α : Type} (w f g : α → ℝ) (l : List α) : weighted w (fun x => f x + g x) l = weighted w f l + weighted w g l := by
  unfold weighted
  rw [← add_div, ← List.sum_map_add]
  congr 2
  exact List.map_congr_left fun x _ => by ring

theorem weighted_mul {α : Type} (c : ℝ) (w f : α → ℝ) (l : List α) : weighted w (fun x => c * f x) l = c * weighted w f l := by
  unfold weighted
  rw [← mul_div_assoc, ← List.sum_map_mul_left]
  congr 2
  exact List.map_congr_left fun x _ => by ring

theorem weighted_const {α : Type} (c : ℝ) (w : α → ℝ) (l : List α) (h : (l.map w).sum ≠ 0) : weighted w (fun _ => c) l = c := by
  unfold weighted
  rw [List.sum_map_mul_right]
  field_simp

/-- The matrix is the inertia tensor of the sampled surface about its center of mass: the quadratic form of `u` is the mean squared distance from the axis in the direction of `u`. -/
theorem C74_inertia (s : Shell) (draws : List (ℝ × ℝ)) (hw : (draws.map s.area).sum ≠ 0) (u : Vec) :
    let m := inertia s draws
    u.x * (m 0 0 * u.x + m 0 1 * u.y + m 0 2 * u.z) + u.y * (m 1 0 * u.x + m 1 1 * u.y + m 1 2 * u.z) + u.z * (m 2 0 * u.x + m 2 1 * u.y + m 2 2 * u.z) =
      weighted s.area (fun d => axisDist2 u (s.center draws) (s.point d)) draws := by
  intro m
  set W := fun f : ℝ × ℝ → ℝ => weighted s.area f draws with hW
  have e : W (fun d => axisDist2 u (s.center draws) (s.point d)) =
      W (fun d => (u.y ^ 2 + u.z ^ 2) * ((s.point d).x * (s.point d).x) + ((u.x ^ 2 + u.z ^ 2) * ((s.point d).y * (s.point d).y) + ((u.x ^ 2 + u.y ^ 2) * ((s.point d).z * (s.point d).z) +
        ((-2 * u.x * u.y) * ((s.point d).x * (s.point d).y) + ((-2 * u.y * u.z) * ((s.point d).y * (s.point d).z) + ((-2 * u.z * u.x) * ((s.point d).z * (s.point d).x) +
        ((-2 * (u.y ^ 2 + u.z ^ 2) * (s.center draws).x + 2 * u.x * u.y * (s.center draws).y + 2 * u.z * u.x * (s.center draws).z) * (s.point d).x +
        ((-2 * (u.x ^ 2 + u.z ^ 2) * (s.center draws).y + 2 * u.x * u.y * (s.center draws).x + 2 * u.y * u.z * (s.center draws).z) * (s.point d).y +
        ((-2 * (u.x ^ 2 + u.y ^ 2) * (s.center draws).z + 2 * u.z * u.x * (s.center draws).x + 2 * u.y * u.z * (s.center draws).y) * (s.point d).z +
        (axisDist2 u (s.center draws) ⟨0, 0, 0⟩)))))))))) := by
    congr 1; funext d; unfold axisDist2; ring
  refine Eq.trans ?_ e.symm
  rw [hW]
  dsimp only
  simp only [weighted_add, weighted_mul, weighted_const _ _ _ hw]
  unfold axisDist2 Shell.center
  dsimp only
  have ei : m = inertia s draws := rfl
  rw [ei]
  unfold inertia
  simp only [wmean_eq, Matrix.cons_val_zero, Matrix.cons_val_one, Matrix.cons_val]
  ring

/-! Sorting three numbers -/

/-- `trisort` sorts three numbers downwards and tells the position of the largest.
Missing: the first two are equal and larger than the third (`C74_trisort_false`). -/
theorem C74_trisort_partial (x y z : ℝ) (h : ¬ (x = y ∧ z < x)) :
    let t := trisort x y z
    t.2.2.1 ≤ t.2.1 ∧ t.2.1 ≤ t.1 ∧ ([t.1, t.2.1, t.2.2.1].Perm [x, y, z]) ∧ t.1 = ![x, y, z] t.2.2.2 := by
  have p1 : [y, z, x].Perm [x, y, z] := (List.perm_append_comm (l₁ := [y, z]) (l₂ := [x]))
  have p2 : [z, x, y].Perm [x, y, z] := (List.perm_append_comm (l₁ := [z]) (l₂ := [x, y]))
  have sw : ∀ a b c : ℝ, [a, c, b].Perm [a, b, c] := fun a b c => (List.Perm.swap b c []).cons a
  unfold trisort
  dsimp only
  split_ifs with h1 h2 h3 h4 h5
  · exact ⟨h2.le, h1.1.le, .refl _, rfl⟩
  · exact ⟨not_lt.1 h2, h1.2.le, sw _ _ _, rfl⟩
  · exact ⟨h4.le, h3.2.le, p1, rfl⟩
  · exact ⟨not_lt.1 h4, h3.1.le, (sw _ _ _).trans p1, rfl⟩
  all_goals
    have hz : x ≤ z ∧ y ≤ z := by
      by_contra hc
      rcases lt_trichotomy x y with hxy | hxy | hxy
      · exact h3 ⟨hxy, by by_contra hz; exact hc ⟨by linarith, by linarith⟩⟩
      · exact h ⟨hxy, by by_contra hz; exact hc ⟨by linarith, by linarith⟩⟩
      · exact h1 ⟨hxy, by by_contra hz; exact hc ⟨by linarith, by linarith⟩⟩
  · exact ⟨h5.le, hz.1, p2, rfl⟩
  · exact ⟨not_lt.1 h5, hz.2, (sw _ _ _).trans p2, rfl⟩

/-- If the first two are equal and larger than the third, the third is returned as the largest. -/
theorem C74_trisort_false (x z : ℝ) (h : z < x) : trisort x x z = (z, x, x, 2) := by
  unfold trisort
  simp

example : ¬ ((3 : ℝ) = 2 ∧ (1 : ℝ) < 3) := by norm_num

/-! Axes -/

theorem extents (vals : Fin 3 → ℝ) : 3 * (vals 1 + vals 2 - vals 0) / 2 = 3 * extent2 vals 0 ∧ 3 * vals 1 - 3 * (vals 1 + vals 2 - vals 0) / 2 = 3 * extent2 vals 2 ∧
    3 * vals 2 - 3 * (vals 1 + vals 2 - vals 0) / 2 = 3 * extent2 vals 1 := by
  unfold extent2
  refine ⟨by ring, by ring, by ring⟩

/-- Before the correction by the tables the axes are √3 times the extents along the eigenvectors, the longest first; the tables are asked for the ratios to the longest axis, and multiply the ratios and the longest axis.
Missing: the extents along eigenvectors 0 and 2 are equal and larger than the third one. -/
theorem C74_lengths_partial (rt : Ratios) (vals : Fin 3 → ℝ) (vecs : Fin 3 → Fin 3 → ℝ)
    (hne : ¬ (Real.sqrt (3 * extent2 vals 0) = Real.sqrt (3 * extent2 vals 2) ∧ Real.sqrt (3 * extent2 vals 1) < Real.sqrt (3 * extent2 vals 0))) :
    ∃ a b c : ℝ, a ≤ b ∧ b ≤ c ∧ [c, b, a].Perm [Real.sqrt (3 * extent2 vals 0), Real.sqrt (3 * extent2 vals 1), Real.sqrt (3 * extent2 vals 2)] ∧
      (axesOf rt vals vecs = none ↔ rt.ac (a / c) (b / c) = none ∨ rt.bc (a / c) (b / c) = none ∨ rt.c (a / c) (b / c) = none) ∧
      ∀ C B A v, axesOf rt vals vecs = some (C, B, A, v) → ∃ rac rbc rc, rt.ac (a / c) (b / c) = some rac ∧ rt.bc (a / c) (b / c) = some rbc ∧ rt.c (a / c) (b / c) = some rc ∧
        C = rc * c ∧ B = rbc * (b / c) * C ∧ A = rac * (a / c) * C := by
  obtain ⟨t1, t2, t3, _⟩ := C74_trisort_partial _ _ _ hne
  obtain ⟨e0, e2, e1⟩ := extents vals
  refine ⟨_, _, _, t1, t2, t3.trans ((List.Perm.swap _ _ []).cons _), ?_, ?_⟩
  · unfold axesOf
    dsimp only
    rw [e2, e1, e0]
    rcases h1 : rt.ac ((trisort √(3 * extent2 vals 0) √(3 * extent2 vals 2) √(3 * extent2 vals 1)).2.2.1 / (trisort √(3 * extent2 vals 0) √(3 * extent2 vals 2) √(3 * extent2 vals 1)).1)
      ((trisort √(3 * extent2 vals 0) √(3 * extent2 vals 2) √(3 * extent2 vals 1)).2.1 / (trisort √(3 * extent2 vals 0) √(3 * extent2 vals 2) √(3 * extent2 vals 1)).1) with _ | rac
    · simp
    rcases h2 : rt.bc ((trisort √(3 * extent2 vals 0) √(3 * extent2 vals 2) √(3 * extent2 vals 1)).2.2.1 / (trisort √(3 * extent2 vals 0) √(3 * extent2 vals 2) √(3 * extent2 vals 1)).1)
      ((trisort √(3 * extent2 vals 0) √(3 * extent2 vals 2) √(3 * extent2 vals 1)).2.1 / (trisort √(3 * extent2 vals 0) √(3 * extent2 vals 2) √(3 * extent2 vals 1)).1) with _ | rbc
    · simp
    rcases h3 : rt.c ((trisort √(3 * extent2 vals 0) √(3 * extent2 vals 2) √(3 * extent2 vals 1)).2.2.1 / (trisort √(3 * extent2 vals 0) √(3 * extent2 vals 2) √(3 * extent2 vals 1)).1)
      ((trisort √(3 * extent2 vals 0) √(3 * extent2 vals 2) √(3 * extent2 vals 1)).2.1 / (trisort √(3 * extent2 vals 0) √(3 * extent2 vals 2) √(3 * extent2 vals 1)).1) with _ | rc
    · simp
    simp
  · intro C B A v h
    unfold axesOf at h
    dsimp only at h
    rw [e2, e1, e0] at h
    simp only [Option.bind_eq_bind, Option.bind_eq_some_iff, Option.some.injEq, Prod.mk.injEq] at h
    obtain ⟨rac, h1, rbc, h2, rc, h3, h4, h5, h6, _⟩ := h
    exact ⟨rac, rbc, rc, h1, h2, h3, h4.symm, by rw [← h5, ← h4], by rw [← h6, ← h4]⟩

/-- The column that is normed and returned. -/
theorem axes_direction (rt : Ratios) (m : Fin 3 → Fin 3 → ℝ) (vals : Fin 3 → ℝ) (vecs : Fin 3 → Fin 3 → ℝ) (hd : Decomposition m vals vecs) (C B A : ℝ) (v : Fin 3 → ℝ)
    (h : axesOf rt vals vecs = some (C, B, A, v)) :
    v = fun i => vecs i (trisort (Real.sqrt (3 * extent2 vals 0)) (Real.sqrt (3 * extent2 vals 2)) (Real.sqrt (3 * extent2 vals 1))).2.2.2 := by
  obtain ⟨e0, e2, e1⟩ := extents vals
  unfold axesOf at h
  dsimp only at h
  rw [e2, e1, e0] at h
  simp only [Option.bind_eq_bind, Option.bind_eq_some_iff, Option.some.injEq, Prod.mk.injEq] at h
  obtain ⟨_, _, _, _, _, _, _, _, _, hv⟩ := h
  rw [← hv]
  generalize (trisort (Real.sqrt (3 * extent2 vals 0)) (Real.sqrt (3 * extent2 vals 2)) (Real.sqrt (3 * extent2 vals 1))).2.2.2 = k
  have := hd.2 k k
  rw [if_pos rfl] at this
  rw [this, Real.sqrt_one]
  funext i
  rw [div_one]

open Classical in
theorem trisort_index (x y z : ℝ) : (trisort x y z).2.2.2 = if x > y ∧ x > z then 0 else if y > x ∧ y > z then 1 else 2 := by
  unfold trisort
  dsimp only
  split_ifs <;> rfl

theorem sqrt3_lt {a b : ℝ} (hb : 0 ≤ a) (h : a < b) : Real.sqrt (3 * a) < Real.sqrt (3 * b) := Real.sqrt_lt_sqrt (by positivity) (by linarith)

/-- When the surface is longest along eigenvector 0, this is the direction that is returned.
Missing: the other two cases (`C74_direction_false`). -/
theorem C74_direction_partial (rt : Ratios) (m : Fin 3 → Fin 3 → ℝ) (vals : Fin 3 → ℝ) (vecs : Fin 3 → Fin 3 → ℝ) (hd : Decomposition m vals vecs) (C B A : ℝ) (v : Fin 3 → ℝ)
    (h : axesOf rt vals vecs = some (C, B, A, v)) (h0 : ∀ k, 0 ≤ extent2 vals k) (h1 : extent2 vals 1 < extent2 vals 0) (h2 : extent2 vals 2 < extent2 vals 0) : v = fun i => vecs i 0 := by
  rw [axes_direction rt m vals vecs hd C B A v h]
  rw [trisort_index, if_pos ⟨sqrt3_lt (h0 2) h2, sqrt3_lt (h0 1) h1⟩]

/-- When the surface is longest along eigenvector 1 or 2, the direction that is returned is perpendicular to the one in which it is longest. -/
theorem C74_direction_false (rt : Ratios) (m : Fin 3 → Fin 3 → ℝ) (vals : Fin 3 → ℝ) (vecs : Fin 3 → Fin 3 → ℝ) (hd : Decomposition m vals vecs) (C B A : ℝ) (v : Fin 3 → ℝ)
    (h : axesOf rt vals vecs = some (C, B, A, v)) (h0 : ∀ k, 0 ≤ extent2 vals k) (k : Fin 3) (hk : k ≠ 0) (hmax : ∀ l, l ≠ k → extent2 vals l < extent2 vals k) :
    v 0 * vecs 0 k + v 1 * vecs 1 k + v 2 * vecs 2 k = 0 := by
  rw [axes_direction rt m vals vecs hd C B A v h]
  have hk' : k = 1 ∨ k = 2 := by revert hk; fin_cases k <;> simp
  rcases hk' with rfl | rfl
  · have a := sqrt3_lt (h0 0) (hmax 0 (by decide))
    have b := sqrt3_lt (h0 2) (hmax 2 (by decide))
    have e : (trisort (Real.sqrt (3 * extent2 vals 0)) (Real.sqrt (3 * extent2 vals 2)) (Real.sqrt (3 * extent2 vals 1))).2.2.2 = 2 := by
      rw [trisort_index, if_neg (fun hc => by linarith [hc.2]), if_neg (fun hc => by linarith [hc.2])]
    rw [e]
    exact hd.2 2 1
  · have a := sqrt3_lt (h0 0) (hmax 0 (by decide))
    have b := sqrt3_lt (h0 1) (hmax 1 (by decide))
    have e : (trisort (Real.sqrt (3 * extent2 vals 0)) (Real.sqrt (3 * extent2 vals 2)) (Real.sqrt (3 * extent2 vals 1))).2.2.2 = 1 := by
      rw [trisort_index, if_neg (fun hc => by linarith [hc.1]), if_pos ⟨a, b⟩]
    rw [e]
    exact hd.2 1 2

/-- The eigenvalues are the moments of inertia about the eigenvectors (the quadratic forms of `C74_inertia`). -/
theorem C74_extent (m : Fin 3 → Fin 3 → ℝ) (vals : Fin 3 → ℝ) (vecs : Fin 3 → Fin 3 → ℝ) (hd : Decomposition m vals vecs) (k : Fin 3) :
    vecs 0 k * (m 0 0 * vecs 0 k + m 0 1 * vecs 1 k + m 0 2 * vecs 2 k) + vecs 1 k * (m 1 0 * vecs 0 k + m 1 1 * vecs 1 k + m 1 2 * vecs 2 k) +
      vecs 2 k * (m 2 0 * vecs 0 k + m 2 1 * vecs 1 k + m 2 2 * vecs 2 k) = vals k := by
  rw [hd.1 0 k, hd.1 1 k, hd.1 2 k]
  have := hd.2 k k
  rw [if_pos rfl] at this
  linear_combination vals k * this

-- a body with the squared extents 1, 2, 3 along the coordinate axes: the axes are sorted, the direction that is returned is y
def exVals : Fin 3 → ℝ := ![5, 4, 3]
def exVecs : Fin 3 → Fin 3 → ℝ := fun i k => if i = k then 1 else 0
def exRatios : Ratios := ⟨fun _ _ => some 1, fun _ _ => some 1, fun _ _ => some 1⟩

theorem exDecomposition : Decomposition (fun i j => if i = j then exVals i else 0) exVals exVecs := by
  constructor
  · intro i k; fin_cases i <;> fin_cases k <;> simp [exVecs]
  · intro k l; fin_cases k <;> fin_cases l <;> simp [exVecs]

example : ∃ C B A v, axesOf exRatios exVals exVecs = some (C, B, A, v) ∧ v 2 = 0 := by
  have ha : ∃ C B A v, axesOf exRatios exVals exVecs = some (C, B, A, v) := by simp [axesOf, exRatios]
  obtain ⟨C, B, A, v, h⟩ := ha
  refine ⟨C, B, A, v, h, ?_⟩
  have := C74_direction_false exRatios _ exVals exVecs exDecomposition C B A v h (by intro k; fin_cases k <;> simp [extent2, exVals] <;> norm_num) 2 (by decide)
    (by intro l hl; fin_cases l <;> simp [extent2, exVals] at hl ⊢ <;> norm_num)
  simpa [exVecs] using this

end
end Shellfish.Analyze
