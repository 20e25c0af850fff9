/-
C87: lines through two points and their intersection.
-/
import Verif.Model.Slice
import Mathlib.Tactic.Linarith
import Mathlib.Tactic.FieldSimp
import Mathlib.Tactic.LinearCombination
import Mathlib.Tactic.NormNum

namespace Shellfish.Geom
open Classical

/-- A point of the plane is on a line. -/
def Line.Has (l : Line) (x y : ℝ) : Prop := if l.vertical = true then x = l.y0 else y = l.y0 + l.m * x

theorem lineEpsEq_iff (x y : ℝ) : lineEpsEq x y ↔ |x - y| < 1 / 100000 := by
  unfold lineEpsEq lineEps
  rw [abs_lt]
  constructor <;> rintro ⟨h1, h2⟩ <;> constructor <;> linarith

/-- C87: a line is refused exactly for two points that differ by less than 1e-5 in both coordinates, and is then left as it was. -/
theorem C87_refused (l : Line) (x1 y1 x2 y2 : ℝ) :
    ((l.init x1 y1 x2 y2).2 = false ↔ |x1 - x2| < 1 / 100000 ∧ |y1 - y2| < 1 / 100000) ∧
    ((l.init x1 y1 x2 y2).2 = false → (l.init x1 y1 x2 y2).1 = l) := by
  rw [← lineEpsEq_iff, ← lineEpsEq_iff]
  unfold Line.init
  by_cases h1 : lineEpsEq x1 x2 <;> by_cases h2 : lineEpsEq y1 y2 <;> simp [h1, h2]

/-- C87: an accepted line passes through the first point; it passes through the second point too, or it is vertical and the second point is less than 1e-5 beside
it. -/
theorem C87_through (l : Line) (x1 y1 x2 y2 : ℝ) (hok : (l.init x1 y1 x2 y2).2 = true) :
    (l.init x1 y1 x2 y2).1.Has x1 y1 ∧
    ((l.init x1 y1 x2 y2).1.Has x2 y2 ∨ ((l.init x1 y1 x2 y2).1.vertical = true ∧ x1 ≠ x2 ∧ |x1 - x2| < 1 / 100000)) := by
  rw [← lineEpsEq_iff]
  unfold Line.init at hok ⊢
  by_cases h1 : lineEpsEq x1 x2
  · by_cases h2 : lineEpsEq y1 y2
    · simp [h1, h2] at hok
    · simp only [h1, h2, if_true, if_false]
      refine ⟨by simp [Line.Has], ?_⟩
      by_cases h : x1 = x2
      · left; simp [Line.Has, h]
      · right; exact ⟨trivial, h, trivial⟩
  · have hne : x1 - x2 ≠ 0 := by
      intro h
      exact h1 ((lineEpsEq_iff x1 x2).2 (by rw [h]; norm_num))
    simp only [h1, if_false]
    refine ⟨by simp [Line.Has], Or.inl ?_⟩
    simp only [Line.Has, Bool.false_eq_true, if_false]
    field_simp
    ring

/-- C87: a line through points that are at least 1e-5 apart in x contains exactly the points of the line through them. -/
theorem C87_exact (l : Line) (x1 y1 x2 y2 : ℝ) (h : 1 / 100000 ≤ |x1 - x2|) (x y : ℝ) :
    (l.init x1 y1 x2 y2).2 = true ∧ ((l.init x1 y1 x2 y2).1.Has x y ↔ ∃ s : ℝ, x = x1 + s * (x2 - x1) ∧ y = y1 + s * (y2 - y1)) := by
  have h1 : ¬ lineEpsEq x1 x2 := by rw [lineEpsEq_iff]; exact not_lt.mpr h
  have hne : x1 - x2 ≠ 0 := by
    intro hc
    rw [hc] at h
    norm_num at h
  have hne' : x2 - x1 ≠ 0 := by
    intro hc
    exact hne (by linarith)
  simp only [Line.init, h1, if_false, Line.Has, Bool.false_eq_true, true_and]
  constructor
  · intro hy
    refine ⟨(x - x1) / (x2 - x1), by field_simp; ring, ?_⟩
    rw [hy]
    field_simp
    ring
  · rintro ⟨s, rfl, rfl⟩
    field_simp
    ring

/-- C87: a reported intersection point is on both lines and is the only such point. -/
theorem C87_solve (l1 l2 : Line) (x y : ℝ) (h : solve l1 l2 = some (x, y)) :
    l1.Has x y ∧ l2.Has x y ∧ ∀ x' y', l1.Has x' y' → l2.Has x' y' → x' = x ∧ y' = y := by
  unfold solve at h
  by_cases hp : areParallel l1 l2
  · simp [hp] at h
  simp only [hp, if_false] at h
  unfold areParallel at hp
  rw [not_or, not_and] at hp
  have hm : l1.m - l2.m ≠ 0 := by
    intro hc
    exact hp.2 ((lineEpsEq_iff _ _).2 (by rw [hc]; norm_num))
  by_cases hv1 : l1.vertical = true
  · have hv2 : ¬ l2.vertical = true := hp.1 hv1
    simp only [hv1, if_true, Option.some.injEq, Prod.mk.injEq] at h
    obtain ⟨rfl, rfl⟩ := h
    rw [Bool.not_eq_true] at hv2
    simp only [Line.Has, hv1, hv2, if_true, if_false, Bool.false_eq_true]
    refine ⟨trivial, trivial, ?_⟩
    rintro x' y' rfl rfl
    exact ⟨rfl, rfl⟩
  · by_cases hv2 : l2.vertical = true
    · simp only [hv1, hv2, if_true, if_false, Option.some.injEq, Prod.mk.injEq] at h
      obtain ⟨rfl, rfl⟩ := h
      rw [Bool.not_eq_true] at hv1
      simp only [Line.Has, hv1, hv2, if_true, if_false, Bool.false_eq_true]
      refine ⟨trivial, trivial, ?_⟩
      rintro x' y' h1 rfl
      exact ⟨rfl, h1⟩
    · simp only [hv1, hv2, if_false, Option.some.injEq, Prod.mk.injEq] at h
      obtain ⟨rfl, rfl⟩ := h
      rw [Bool.not_eq_true] at hv1 hv2
      simp only [Line.Has, hv1, hv2, if_false, Bool.false_eq_true]
      refine ⟨trivial, ?_, ?_⟩
      · field_simp
        ring
      · rintro x' y' h1 h2
        have hx : x' = (l2.y0 - l1.y0) / (l1.m - l2.m) := by
          rw [eq_div_iff hm]
          linarith
        exact ⟨hx, by rw [h1, hx]⟩

/-- C87, with the missing cases excluded: lines that meet in exactly one point are solved when neither is vertical and the slopes differ by at least 1e-5, or when
one of them is vertical and the slope stored in it (which has no meaning) differs by at least 1e-5 from the slope of the other. -/
theorem C87_solved_partial (l1 l2 : Line) (hv : ¬ (l1.vertical = true ∧ l2.vertical = true)) (hm : 1 / 100000 ≤ |l1.m - l2.m|) :
    ∃ x y, solve l1 l2 = some (x, y) := by
  have hp : ¬ areParallel l1 l2 := by
    unfold areParallel
    rw [not_or, lineEpsEq_iff]
    exact ⟨hv, not_lt.mpr hm⟩
  unfold solve
  simp only [hp, if_false]
  by_cases h1 : l1.vertical = true
  · simp [h1]
  · by_cases h2 : l2.vertical = true <;> simp [h1, h2]

/-- C87, refusals: no intersection is reported exactly for two vertical lines or for stored slopes that differ by less than 1e-5. -/
theorem C87_none_iff (l1 l2 : Line) : solve l1 l2 = none ↔ (l1.vertical = true ∧ l2.vertical = true) ∨ |l1.m - l2.m| < 1 / 100000 := by
  rw [← lineEpsEq_iff]
  constructor
  · intro h
    by_contra hc
    rw [not_or, lineEpsEq_iff, not_lt] at hc
    obtain ⟨x, y, e⟩ := C87_solved_partial l1 l2 hc.1 hc.2
    rw [e] at h
    cases h
  · intro h
    have : areParallel l1 l2 := h
    simp [solve, this]

/-- A new line (`new(Line)`, all fields zero). -/
def freshLine : Line := ⟨0, 0, false⟩

/-- C87 is false of a vertical and a horizontal line: they meet in one point, but they are reported as parallel. -/
theorem C87_vertical_false :
    (freshLine.init 1 0 1 1).2 = true ∧ (freshLine.init 0 0 2 0).2 = true ∧
    (freshLine.init 1 0 1 1).1.Has 1 0 ∧ (freshLine.init 0 0 2 0).1.Has 1 0 ∧
    (∀ x y, (freshLine.init 1 0 1 1).1.Has x y → (freshLine.init 0 0 2 0).1.Has x y → x = 1 ∧ y = 0) ∧
    solve (freshLine.init 1 0 1 1).1 (freshLine.init 0 0 2 0).1 = none := by
  have e1 : freshLine.init 1 0 1 1 = (⟨1, 0, true⟩, true) := by
    norm_num [Line.init, lineEpsEq, lineEps, freshLine]
  have e2 : freshLine.init 0 0 2 0 = (⟨0, 0, false⟩, true) := by
    norm_num [Line.init, lineEpsEq, lineEps, freshLine]
  rw [e1, e2]
  refine ⟨rfl, rfl, by simp [Line.Has], by simp [Line.Has], ?_, by simp [solve, areParallel, lineEpsEq, lineEps]⟩
  simp only [Line.Has, if_true, Bool.false_eq_true, if_false]
  rintro x y rfl h
  exact ⟨rfl, by simpa using h⟩

/-- C87 is false of a line that is used again: whether the lines through the same points are found to meet depends on the line the variable held before. -/
theorem C87_stale_false : ∃ old : Line,
    solve (freshLine.init 1 0 1 1).1 (freshLine.init 0 0 1 1).1 = some (1, 1) ∧
    solve ((old.init 0 0 1 1).1.init 1 0 1 1).1 (freshLine.init 0 0 1 1).1 = none := by
  refine ⟨freshLine, ?_, ?_⟩ <;> norm_num [Line.init, lineEpsEq, lineEps, freshLine, solve, areParallel]

/-- C87, rays: a line made from a ray is the projection of the ray when the ray starts at the origin (in the plane) and its direction is not within 1e-5 of the
z axis or of a vertical line. -/
theorem C87_ray_partial (l : Line) (p u : Vec) (hp : p.x = 0 ∧ p.y = 0) (hu : 1 / 100000 ≤ |u.x|) (x y : ℝ) :
    (l.initFromPlucker (.init p u)).Has x y ↔ ∃ s : ℝ, x = p.x + s * u.x ∧ y = p.y + s * u.y := by
  have h := (C87_exact l p.x p.y u.x u.y (by rw [hp.1, zero_sub, abs_neg]; exact hu) x y).2
  unfold Line.initFromPlucker Anchored.init Plucker.init
  dsimp only
  rw [h, hp.1, hp.2]
  simp

/-- C87 is false of rays that do not start at the origin: the ray from (1, 2) along the x axis becomes the line x = 1, so that the ray's own points are not on it. -/
theorem C87_ray_false :
    (freshLine.initFromPlucker (.init ⟨1, 2, 0⟩ ⟨1, 0, 0⟩)).vertical = true ∧ ¬ (freshLine.initFromPlucker (.init ⟨1, 2, 0⟩ ⟨1, 0, 0⟩)).Has (1 + 1 * 1) (2 + 1 * 0) := by
  have e : freshLine.initFromPlucker (.init ⟨1, 2, 0⟩ ⟨1, 0, 0⟩) = ⟨1, 0, true⟩ := by
    norm_num [Line.initFromPlucker, Line.init, lineEpsEq, lineEps, freshLine, Anchored.init, Plucker.init]
  rw [e]
  refine ⟨rfl, ?_⟩
  norm_num [Line.Has]

/-! Non-vacuity -/

example : ∃ x y, solve (freshLine.init 0 0 2 2).1 (freshLine.init 0 2 2 0).1 = some (x, y) ∧ x = 1 ∧ y = 1 := by
  refine ⟨1, 1, ?_, rfl, rfl⟩
  norm_num [Line.init, lineEpsEq, lineEps, freshLine, solve, areParallel]

example : (freshLine.init 3 1 3 5).2 = true := by
  norm_num [Line.init, lineEpsEq, lineEps, freshLine]

example : (1 : ℝ) / 100000 ≤ |(0 : ℝ) - 2| := by norm_num

end Shellfish.Geom
