/-
C40: Plücker coordinates commute with translations; C63: the intersection points of a ray and a tetrahedron lie on both; C64: spheres.
-/
import Verif.Model.Plucker
import Mathlib.Tactic.Linarith
import Mathlib.Tactic.LinearCombination
import Mathlib.Tactic.Positivity
import Mathlib.Tactic.FieldSimp
import Mathlib.Tactic.Ring
import Mathlib.Tactic.NormNum
import Mathlib.Tactic.FinCases
import Mathlib.GroupTheory.Perm.Sign

namespace Shellfish.Geom

/-! C40 -/

/-- C40: translating a ray is the same as starting it at the translated point. -/
theorem C40_ray (p l d : Vec) : (Plucker.init p l).translate d = .init (p.add d) l := by
  ext <;> simp [Plucker.init, Plucker.translate, moment, Vec.add] <;> ring

/-- C40: translating the line of a segment is the same as taking the line of the translated segment. -/
theorem C40_segment (p q d : Vec) : (Plucker.segment p q).translate d = .segment (p.add d) (q.add d) := by
  ext <;> simp [Plucker.segment, Plucker.translate, moment, Vec.add, Vec.sub] <;> ring

/-- C40: the same for rays that remember their origin. -/
theorem C40_anchored (p l d : Vec) : (Anchored.init p l).translate d = .init (p.add d) l ∧ (Anchored.segment p l).translate d = .segment (p.add d) (l.add d) :=
  ⟨Anchored.ext (C40_ray p l d) rfl, Anchored.ext (C40_segment p l d) rfl⟩

/-- C40: the permuted inner product of two lines does not change when both are translated, and neither does its sign. -/
theorem C40_dot (p q : Plucker) (d : Vec) (flip : Bool) : (p.translate d).dot (q.translate d) flip = p.dot q flip ∧ (p.translate d).sign (q.translate d) flip = p.sign q flip := by
  have h : (p.translate d).dot (q.translate d) flip = p.dot q flip := by
    unfold Plucker.dot Plucker.translate moment Vec.add
    cases flip <;> simp <;> ring
  exact ⟨h, by unfold Plucker.sign; rw [h]⟩

/-- C40: a translated tetrahedron of lines is the tetrahedron of lines of the translated tetrahedron. -/
theorem C40_tetra (t : Tetra) (d : Vec) : (PluckerTetra.init t).translate d = .init (t.translate d) := by
  funext i
  fin_cases i <;> exact C40_segment _ _ _

theorem vec_get_add (a b : Vec) (k : Fin 3) : (a.add b).get k = a.get k + b.get k := by fin_cases k <;> rfl

theorem faceWeights_translate (pt : PluckerTetra) (p : Plucker) (d : Vec) (face : Fin 4) : faceWeights (pt.translate d) (p.translate d) face = faceWeights pt p face :=
  funext fun _ => (C40_dot _ _ _ _).1

theorem baryLoop_translate (pt : PluckerTetra) (p : Plucker) (d : Vec) (fs : List (Fin 4)) (e l : Option Bary) :
    baryLoop (pt.translate d) (p.translate d) fs e l = baryLoop pt p fs e l := by
  induction fs generalizing e l with
  | nil => cases e <;> cases l <;> rfl
  | cons f fs ih =>
    have hs : ∀ k, (p.translate d).sign ((pt.translate d) (edgeIdx f k)) (edgeFlip f k) = p.sign (pt (edgeIdx f k)) (edgeFlip f k) := fun k => (C40_dot _ _ _ _).2
    unfold baryLoop
    simp only [hs, faceWeights_translate, ih]

theorem dist_translate {s a b c P U p0 p1 p2 d : ℝ} (hs : a + b + c = s) (hz : s ≠ 0) :
    ((a / s * (p0 + d) + b / s * (p1 + d) + c / s * (p2 + d)) - (P + d)) / U = ((a / s * p0 + b / s * p1 + c / s * p2) - P) / U := by
  have : a / s + b / s + c / s = 1 := by rw [← add_div, ← add_div, hs, div_self hz]
  congr 1
  linear_combination d * this

/-- The weights of a face do not all vanish. -/
def Bary.proper (b : Bary) : Prop := b.w 0 + b.w 1 + b.w 2 ≠ 0

theorem distance_translate (t : Tetra) (ap : Anchored) (b : Bary) (d : Vec) (hb : b.proper) : (t.translate d).distance (ap.translate d) b = t.distance ap b := by
  unfold Tetra.distance
  refine congrFun (congrArg Option.map (funext fun dim => ?_)) _
  show ((b.w 0 / _ * ((t _).add d).get dim + b.w 1 / _ * ((t _).add d).get dim + b.w 2 / _ * ((t _).add d).get dim) - (ap.p.add d).get dim) / ap.pl.u.get dim = _
  simp only [vec_get_add]
  exact dist_translate rfl hb

/-- C40: the distances to the two intersection points of a ray and a tetrahedron do not change when both are translated (as long as the ray does not lie in the plane of one of
the two faces). -/
theorem C40_distance (t : Tetra) (ap : Anchored) (d : Vec) (hproper : ∀ e l, intersectionBary (.init t) ap.pl = some (e, l) → e.proper ∧ l.proper) :
    intersectionDistance (.init (t.translate d)) (t.translate d) (ap.translate d) = intersectionDistance (.init t) t ap := by
  unfold intersectionDistance
  have h : intersectionBary (.init (t.translate d)) (ap.translate d).pl = intersectionBary (.init t) ap.pl := by
    rw [← C40_tetra]; exact baryLoop_translate _ _ _ _ _ _
  rw [h]
  match hm : intersectionBary (.init t) ap.pl with
  | none => rfl
  | some (e, l) =>
    obtain ⟨he, hl⟩ := hproper e l hm
    simp only [distance_translate _ _ _ _ he, distance_translate _ _ _ _ hl]

/-! C63: the points of intersection -/

/-- What the loop finds: an entry face with weights that are not negative and an exit face with weights that are not positive. -/
def GoodPair (pt : PluckerTetra) (p : Plucker) (e l : Bary) : Prop :=
  e.w = faceWeights pt p e.face ∧ l.w = faceWeights pt p l.face ∧ (∀ k, 0 ≤ e.w k) ∧ (∀ k, l.w k ≤ 0)

theorem sign_nonneg {p q : Plucker} {f : Bool} (h : p.sign q f ≥ 0) : 0 ≤ p.dot q f := by
  unfold Plucker.sign at h
  split at h
  · rename_i h0; rw [h0]
  · split at h
    · rename_i h1; exact le_of_lt h1
    · omega

theorem sign_nonpos {p q : Plucker} {f : Bool} (h : p.sign q f ≤ 0) : p.dot q f ≤ 0 := by
  unfold Plucker.sign at h
  split at h
  · rename_i h0; rw [h0]
  · split at h
    · omega
    · rename_i h1; exact not_lt.mp h1

theorem baryLoop_good (pt : PluckerTetra) (p : Plucker) (fs : List (Fin 4)) (e l : Option Bary)
    (he : ∀ b, e = some b → b.w = faceWeights pt p b.face ∧ ∀ k, 0 ≤ b.w k) (hl : ∀ b, l = some b → b.w = faceWeights pt p b.face ∧ ∀ k, b.w k ≤ 0)
    {x y : Bary} (h : baryLoop pt p fs e l = some (x, y)) : GoodPair pt p x y := by
  induction fs generalizing e l with
  | nil =>
    match e, l, h with
    | some e, some l, h =>
      obtain ⟨rfl, rfl⟩ : e = x ∧ l = y := by simpa [baryLoop] using h
      exact ⟨(he _ rfl).1, (hl _ rfl).1, (he _ rfl).2, (hl _ rfl).2⟩
  | cons f fs ih =>
    unfold baryLoop at h
    split at h
    · exact absurd h (by simp)
    · dsimp only at h
      split at h
      · rename_i hs
        have hw : ∀ k, 0 ≤ faceWeights pt p f k := by
          intro k
          fin_cases k
          · exact sign_nonneg hs.2.1
          · exact sign_nonneg hs.2.2.1
          · exact sign_nonneg hs.2.2.2
        match l, h with
        | some l, h =>
          simp only [Option.some.injEq, Prod.mk.injEq] at h
          obtain ⟨rfl, rfl⟩ := h
          exact ⟨rfl, (hl _ rfl).1, hw, (hl _ rfl).2⟩
        | none, h => exact ih (some ⟨faceWeights pt p f, f⟩) none (fun b hb => by cases hb; exact ⟨rfl, hw⟩) (fun b hb => by simp at hb) h
      · split at h
        · rename_i hs
          have hw : ∀ k, faceWeights pt p f k ≤ 0 := by
            intro k
            fin_cases k
            · exact sign_nonpos hs.2.1
            · exact sign_nonpos hs.2.2.1
            · exact sign_nonpos hs.2.2.2
          match e, h with
          | some e, h =>
            simp only [Option.some.injEq, Prod.mk.injEq] at h
            obtain ⟨rfl, rfl⟩ := h
            exact ⟨(he _ rfl).1, rfl, (he _ rfl).2, hw⟩
          | none, h => exact ih none (some ⟨faceWeights pt p f, f⟩) (fun b hb => by simp at hb) (fun b hb => by cases hb; exact ⟨rfl, hw⟩) h
        · exact ih e l he hl h

/-- The point at distance `s` on a ray. -/
def Anchored.at (a : Anchored) (s : ℝ) : Vec := ⟨a.p.x + s * a.pl.u.x, a.p.y + s * a.pl.u.y, a.p.z + s * a.pl.u.z⟩

/-- A point is in the triangle of a face: it is a combination of the three vertices with weights that are not negative and add up to 1. -/
def OnFace (t : Tetra) (face : Fin 4) (x : Vec) : Prop :=
  ∃ i j k : Fin 4, ({i, j, k} : Finset (Fin 4)) = Finset.univ.erase face ∧ ∃ a b c : ℝ, 0 ≤ a ∧ 0 ≤ b ∧ 0 ≤ c ∧ a + b + c = 1 ∧
    x = ⟨a * (t i).x + b * (t j).x + c * (t k).x, a * (t i).y + b * (t j).y + c * (t k).y, a * (t i).z + b * (t j).z + c * (t k).z⟩

/-- Cramer's rule: the weighted sum of the vertices is on the ray. -/
theorem weights_on_ray (t : Tetra) (p u : Vec) (f : Fin 4) :
    ∃ m : ℝ, ∀ k, faceWeights (.init t) (.init p u) f 0 * ((t (vertexIdx f 0)).get k - p.get k) + faceWeights (.init t) (.init p u) f 1 * ((t (vertexIdx f 1)).get k - p.get k) +
      faceWeights (.init t) (.init p u) f 2 * ((t (vertexIdx f 2)).get k - p.get k) = m * u.get k := by
  have hdet : ∀ a b c : Vec, ∃ m : ℝ, ∀ k,
      (Plucker.init p u).dot (.segment b c) true * (a.get k - p.get k) + (Plucker.init p u).dot (.segment c a) true * (b.get k - p.get k) +
        (Plucker.init p u).dot (.segment a b) true * (c.get k - p.get k) = m * u.get k := by
    intro a b c
    refine ⟨-((a.x - p.x) * ((b.y - p.y) * (c.z - p.z) - (b.z - p.z) * (c.y - p.y)) + (a.y - p.y) * ((b.z - p.z) * (c.x - p.x) - (b.x - p.x) * (c.z - p.z)) +
      (a.z - p.z) * ((b.x - p.x) * (c.y - p.y) - (b.y - p.y) * (c.x - p.x))), fun k => ?_⟩
    fin_cases k <;> simp [Plucker.init, Plucker.segment, Plucker.dot, moment, Vec.sub, Vec.get] <;> ring
  have hflip : ∀ a b : Vec, (Plucker.init p u).dot (.segment a b) false = (Plucker.init p u).dot (.segment b a) true := by
    intro a b
    simp [Plucker.init, Plucker.segment, Plucker.dot, moment, Vec.sub]; ring
  fin_cases f
  · obtain ⟨m, hm⟩ := hdet (t 3) (t 1) (t 2)
    refine ⟨m, fun k => ?_⟩
    have := hm k
    simp only [faceWeights, edgeIdx, edgeFlip, vertexIdx, PluckerTetra.init] at *
    simp [hflip] at *
    linarith
  · obtain ⟨m, hm⟩ := hdet (t 2) (t 0) (t 3)
    refine ⟨m, fun k => ?_⟩
    have := hm k
    simp only [faceWeights, edgeIdx, edgeFlip, vertexIdx, PluckerTetra.init] at *
    simp [hflip] at *
    linarith
  · obtain ⟨m, hm⟩ := hdet (t 1) (t 3) (t 0)
    refine ⟨m, fun k => ?_⟩
    have := hm k
    simp only [faceWeights, edgeIdx, edgeFlip, vertexIdx, PluckerTetra.init] at *
    simp [hflip] at *
    linarith
  · obtain ⟨m, hm⟩ := hdet (t 0) (t 2) (t 1)
    refine ⟨m, fun k => ?_⟩
    have := hm k
    simp only [faceWeights, edgeIdx, edgeFlip, vertexIdx, PluckerTetra.init] at *
    simp [hflip] at *
    linarith

theorem rayDim_ne {u : Vec} {k : Fin 3} (h : rayDim u = some k) : u.get k ≠ 0 := by
  have h6 : (0 : ℝ) < 1 / 10 ^ 6 := by norm_num
  unfold rayDim at h
  split at h
  · rename_i hx; cases h; intro h0; simp [Vec.get] at h0; rcases hx with hx | hx <;> rw [h0] at hx <;> linarith
  · split at h
    · rename_i hx; cases h; intro h0; simp [Vec.get] at h0; rcases hx with hx | hx <;> rw [h0] at hx <;> linarith
    · split at h
      · rename_i hx; cases h; intro h0; simp [Vec.get] at h0; rcases hx with hx | hx <;> rw [h0] at hx <;> linarith
      · simp at h

theorem vertices_face (f : Fin 4) : ({vertexIdx f 0, vertexIdx f 1, vertexIdx f 2} : Finset (Fin 4)) = Finset.univ.erase f := by
  revert f; unfold vertexIdx; decide

/-- The point at the distance that `Distance` returns is on the face, if its weights have one sign and do not all vanish. -/
theorem distance_on_face (t : Tetra) (p u : Vec) (b : Bary) (hw : b.w = faceWeights (.init t) (.init p u) b.face) (hp : b.proper) (hs : (∀ k, 0 ≤ b.w k) ∨ ∀ k, b.w k ≤ 0) {s : ℝ}
    (h : t.distance (.init p u) b = some s) : OnFace t b.face ((Anchored.init p u).at s) := by
  unfold Tetra.distance at h
  obtain ⟨dim, hd, hval⟩ := Option.map_eq_some_iff.mp h
  have hu := rayDim_ne hd
  simp only [Anchored.init, Plucker.init] at hu hval
  obtain ⟨m, hm⟩ := weights_on_ray t p u b.face
  rw [← hw] at hm
  have hsum : b.w 0 + b.w 1 + b.w 2 ≠ 0 := hp
  set S := b.w 0 + b.w 1 + b.w 2 with hS
  have hone : b.w 0 / S + b.w 1 / S + b.w 2 / S = 1 := by rw [← add_div, ← add_div, ← hS, div_self hsum]
  have key : ∀ k, b.w 0 / S * (t (vertexIdx b.face 0)).get k + b.w 1 / S * (t (vertexIdx b.face 1)).get k + b.w 2 / S * (t (vertexIdx b.face 2)).get k = p.get k + m / S * u.get k := by
    intro k
    have := hm k
    field_simp
    rw [hS]
    linarith
  have hsm : s = m / S := by
    rw [← hval, key dim]
    field_simp
    ring
  have hw0 : ∀ k, 0 ≤ b.w k / S := by
    intro k
    rcases hs with hs | hs
    · exact div_nonneg (hs k) (by rw [hS]; linarith [hs 0, hs 1, hs 2])
    · exact div_nonneg_of_nonpos (hs k) (by rw [hS]; linarith [hs 0, hs 1, hs 2])
  refine ⟨_, _, _, vertices_face b.face, b.w 0 / S, b.w 1 / S, b.w 2 / S, hw0 0, hw0 1, hw0 2, hone, ?_⟩
  have h0 := key 0
  have h1 := key 1
  have h2 := key 2
  simp [Vec.get] at h0 h1 h2
  ext
  · show p.x + s * u.x = _; rw [hsm]; exact h0.symm
  · show p.y + s * u.y = _; rw [hsm]; exact h1.symm
  · show p.z + s * u.z = _; rw [hsm]; exact h2.symm

/-- C63 (partial: rays in the plane of a face, where the code divides 0 by 0, are excluded by `hproper`): when an intersection is reported, the two points on the ray at the reported
distances lie on faces of the tetrahedron. -/
theorem C63_on_tetra_partial (t : Tetra) (p u : Vec) {a b : ℝ} (h : intersectionDistance (.init t) t (.init p u) = some (some (a, b)))
    (hproper : ∀ e l, intersectionBary (.init t) (.init p u) = some (e, l) → e.proper ∧ l.proper) :
    (∃ f, OnFace t f ((Anchored.init p u).at a)) ∧ ∃ f, OnFace t f ((Anchored.init p u).at b) := by
  unfold intersectionDistance at h
  match hm : intersectionBary (.init t) (.init p u) with
  | none => rw [show (Anchored.init p u).pl = .init p u from rfl, hm] at h; simp at h
  | some (e, l) =>
    rw [show (Anchored.init p u).pl = .init p u from rfl, hm] at h
    obtain ⟨he, hl⟩ := hproper e l hm
    obtain ⟨g1, g2, g3, g4⟩ := baryLoop_good _ _ _ none none (fun b hb => by simp at hb) (fun b hb => by simp at hb) hm
    simp only [Option.bind_eq_some_iff, Option.map_eq_some_iff, Option.some.injEq, Prod.mk.injEq] at h
    obtain ⟨x, hx, y, hy, rfl, rfl⟩ := h
    exact ⟨⟨e.face, distance_on_face t p u e g1 he (Or.inl g3) hx⟩, l.face, distance_on_face t p u l g2 hl (Or.inr g4) hy⟩

/-! Completeness -/

/-- A point is inside of a tetrahedron. -/
def Inside (t : Tetra) (x : Vec) : Prop :=
  ∃ w : Fin 4 → ℝ, (∀ i, 0 < w i) ∧ w 0 + w 1 + w 2 + w 3 = 1 ∧
    x = ⟨w 0 * (t 0).x + w 1 * (t 1).x + w 2 * (t 2).x + w 3 * (t 3).x, w 0 * (t 0).y + w 1 * (t 1).y + w 2 * (t 2).y + w 3 * (t 3).y,
      w 0 * (t 0).z + w 1 * (t 1).z + w 2 * (t 2).z + w 3 * (t 3).z⟩

/-- The permuted product of a ray and the line from vertex `i` to vertex `j`. -/
noncomputable def edge (t : Tetra) (p u : Vec) (i j : Fin 4) : ℝ := (Plucker.init p u).dot (.segment (t i) (t j)) true

theorem edge_flip (t : Tetra) (p u : Vec) (i j : Fin 4) : (Plucker.init p u).dot (.segment (t i) (t j)) false = -edge t p u i j := by
  simp [edge, Plucker.dot]

/-- The weights of the four faces. -/
theorem weights_edges (t : Tetra) (p u : Vec) (k : Fin 3) :
    faceWeights (.init t) (.init p u) 0 k = ![edge t p u 1 2, -edge t p u 1 3, edge t p u 2 3] k ∧
    faceWeights (.init t) (.init p u) 1 k = ![edge t p u 0 3, -edge t p u 0 2, -edge t p u 2 3] k ∧
    faceWeights (.init t) (.init p u) 2 k = ![-edge t p u 0 3, edge t p u 1 3, edge t p u 0 1] k ∧
    faceWeights (.init t) (.init p u) 3 k = ![-edge t p u 1 2, edge t p u 0 2, -edge t p u 0 1] k := by
  fin_cases k <;> refine ⟨?_, ?_, ?_, ?_⟩ <;>
    simp [faceWeights, edgeIdx, edgeFlip, PluckerTetra.init, edge_flip] <;> rfl

theorem edge_relations (t : Tetra) (p u : Vec) (s : ℝ) (w : Fin 4 → ℝ) (hsum : w 0 + w 1 + w 2 + w 3 = 1)
    (hx : (Anchored.init p u).at s = ⟨w 0 * (t 0).x + w 1 * (t 1).x + w 2 * (t 2).x + w 3 * (t 3).x, w 0 * (t 0).y + w 1 * (t 1).y + w 2 * (t 2).y + w 3 * (t 3).y,
      w 0 * (t 0).z + w 1 * (t 1).z + w 2 * (t 2).z + w 3 * (t 3).z⟩) :
    w 1 * edge t p u 0 1 + w 2 * edge t p u 0 2 + w 3 * edge t p u 0 3 = 0 ∧ -w 0 * edge t p u 0 1 + w 2 * edge t p u 1 2 + w 3 * edge t p u 1 3 = 0 ∧
    -w 0 * edge t p u 0 2 - w 1 * edge t p u 1 2 + w 3 * edge t p u 2 3 = 0 ∧ w 0 * edge t p u 0 3 + w 1 * edge t p u 1 3 + w 2 * edge t p u 2 3 = 0 := by
  have h1 := congrArg Vec.x hx
  have h2 := congrArg Vec.y hx
  have h3 := congrArg Vec.z hx
  simp only [Anchored.at, Anchored.init, Plucker.init] at h1 h2 h3
  have h0 : w 0 = 1 - w 1 - w 2 - w 3 := by linarith
  simp only [edge, Plucker.dot, Plucker.init, Plucker.segment, moment, Vec.sub, if_true]
  rw [h0] at h1 h2 h3 ⊢
  refine ⟨?_, ?_, ?_, ?_⟩
  · linear_combination (u.y * ((t 0).z - p.z) - u.z * ((t 0).y - p.y)) * h1 + (u.z * ((t 0).x - p.x) - u.x * ((t 0).z - p.z)) * h2 + (u.x * ((t 0).y - p.y) - u.y * ((t 0).x - p.x)) * h3
  · linear_combination (u.y * ((t 1).z - p.z) - u.z * ((t 1).y - p.y)) * h1 + (u.z * ((t 1).x - p.x) - u.x * ((t 1).z - p.z)) * h2 + (u.x * ((t 1).y - p.y) - u.y * ((t 1).x - p.x)) * h3
  · linear_combination (u.y * ((t 2).z - p.z) - u.z * ((t 2).y - p.y)) * h1 + (u.z * ((t 2).x - p.x) - u.x * ((t 2).z - p.z)) * h2 + (u.x * ((t 2).y - p.y) - u.y * ((t 2).x - p.x)) * h3
  · linear_combination -((u.y * ((t 3).z - p.z) - u.z * ((t 3).y - p.y)) * h1 + (u.z * ((t 3).x - p.x) - u.x * ((t 3).z - p.z)) * h2 + (u.x * ((t 3).y - p.y) - u.y * ((t 3).x - p.x)) * h3)

/-- One of the four faces has weights of one sign. -/
theorem some_face {A B C D E F : ℝ} (h1 : A + B + C = 0) (h2 : -A + D + E = 0) (h3 : -B - D + F = 0) :
    (0 ≤ D ∧ E ≤ 0 ∧ 0 ≤ F) ∨ (0 ≤ C ∧ B ≤ 0 ∧ F ≤ 0) ∨ (C ≤ 0 ∧ 0 ≤ E ∧ 0 ≤ A) ∨ (D ≤ 0 ∧ 0 ≤ B ∧ A ≤ 0) := by
  rcases le_total A 0 with a | a <;> rcases le_total B 0 with b | b <;> rcases le_total C 0 with c | c <;> rcases le_total D 0 with d | d <;>
    rcases le_total E 0 with e | e <;> rcases le_total F 0 with f | f <;>
    first
    | exact Or.inl ⟨by linarith, by linarith, by linarith⟩
    | exact Or.inr (Or.inl ⟨by linarith, by linarith, by linarith⟩)
    | exact Or.inr (Or.inr (Or.inl ⟨by linarith, by linarith, by linarith⟩))
    | exact Or.inr (Or.inr (Or.inr ⟨by linarith, by linarith, by linarith⟩))

theorem sign_ge_iff {p q : Plucker} {f : Bool} : p.sign q f ≥ 0 ↔ 0 ≤ p.dot q f := by
  refine ⟨sign_nonneg, fun h => ?_⟩
  unfold Plucker.sign
  split
  · omega
  · rename_i h0; rw [if_pos (lt_of_le_of_ne h (Ne.symm h0))]; omega

theorem sign_le_iff {p q : Plucker} {f : Bool} : p.sign q f ≤ 0 ↔ p.dot q f ≤ 0 := by
  refine ⟨sign_nonpos, fun h => ?_⟩
  unfold Plucker.sign
  split
  · omega
  · rw [if_neg (not_lt.mpr h)]; omega

theorem pos_iff (pt : PluckerTetra) (p : Plucker) (f : Fin 4) :
    (p.sign (pt (edgeIdx f 0)) (edgeFlip f 0) ≥ 0 ∧ p.sign (pt (edgeIdx f 1)) (edgeFlip f 1) ≥ 0 ∧ p.sign (pt (edgeIdx f 2)) (edgeFlip f 2) ≥ 0) ↔ ∀ k, 0 ≤ faceWeights pt p f k := by
  rw [sign_ge_iff, sign_ge_iff, sign_ge_iff, Fin.forall_fin_succ, Fin.forall_fin_succ, Fin.forall_fin_one]; rfl

theorem neg_iff (pt : PluckerTetra) (p : Plucker) (f : Fin 4) :
    (p.sign (pt (edgeIdx f 0)) (edgeFlip f 0) ≤ 0 ∧ p.sign (pt (edgeIdx f 1)) (edgeFlip f 1) ≤ 0 ∧ p.sign (pt (edgeIdx f 2)) (edgeFlip f 2) ≤ 0) ↔ ∀ k, faceWeights pt p f k ≤ 0 := by
  rw [sign_le_iff, sign_le_iff, sign_le_iff, Fin.forall_fin_succ, Fin.forall_fin_succ, Fin.forall_fin_one]; rfl

theorem baryLoop_cons (pt : PluckerTetra) (p : Plucker) (f : Fin 4) (fs : List (Fin 4)) (e l : Option Bary) :
    ¬ (f = 0 ∧ e.isNone ∧ l.isNone) → baryLoop pt p (f :: fs) e l = (open Classical in
      if e.isNone ∧ ∀ k, 0 ≤ faceWeights pt p f k then
        match l with
        | some l => some (⟨faceWeights pt p f, f⟩, l)
        | none => baryLoop pt p fs (some ⟨faceWeights pt p f, f⟩) none
      else if l.isNone ∧ ∀ k, faceWeights pt p f k ≤ 0 then
        match e with
        | some e => some (e, ⟨faceWeights pt p f, f⟩)
        | none => baryLoop pt p fs none (some ⟨faceWeights pt p f, f⟩)
      else baryLoop pt p fs e l) := by
  intro h0
  rw [baryLoop, if_neg h0]
  simp only [pos_iff, neg_iff]
  split_ifs <;> cases e <;> cases l <;> rfl

theorem baryLoop_second (pt : PluckerTetra) (p : Plucker) (fs : List (Fin 4)) (e l : Option Bary) (hel : e.isSome ∨ l.isSome)
    (hP : e.isSome ∨ ∃ f ∈ fs, ∀ k, 0 ≤ faceWeights pt p f k) (hN : l.isSome ∨ ∃ f ∈ fs, ∀ k, faceWeights pt p f k ≤ 0) : ∃ x, baryLoop pt p fs e l = some x := by
  induction fs with
  | nil =>
    obtain ⟨e, rfl⟩ := Option.isSome_iff_exists.mp (hP.resolve_right (by simp))
    obtain ⟨l, rfl⟩ := Option.isSome_iff_exists.mp (hN.resolve_right (by simp))
    exact ⟨_, rfl⟩
  | cons f fs ih =>
    rw [baryLoop_cons _ _ _ _ _ _ (by intro h; cases e <;> cases l <;> simp at hel h)]
    split
    · rename_i h
      have : l.isSome := by cases e <;> simp at hel h; exact hel
      obtain ⟨l, rfl⟩ := Option.isSome_iff_exists.mp this
      exact ⟨_, rfl⟩
    · rename_i h1
      split
      · rename_i h
        have : e.isSome := by cases l <;> simp at hel h; exact hel
        obtain ⟨e, rfl⟩ := Option.isSome_iff_exists.mp this
        exact ⟨_, rfl⟩
      · rename_i h2
        refine ih ?_ ?_
        · rcases hP with h | ⟨g, hg, hk⟩
          · exact Or.inl h
          · rcases List.mem_cons.mp hg with rfl | hg
            · cases e
              · exact absurd ⟨rfl, hk⟩ h1
              · exact Or.inl rfl
            · exact Or.inr ⟨g, hg, hk⟩
        · rcases hN with h | ⟨g, hg, hk⟩
          · exact Or.inl h
          · rcases List.mem_cons.mp hg with rfl | hg
            · cases l
              · exact absurd ⟨rfl, hk⟩ h2
              · exact Or.inl rfl
            · exact Or.inr ⟨g, hg, hk⟩

theorem baryLoop_first (pt : PluckerTetra) (p : Plucker) (fs : List (Fin 4)) (f : Fin 4) (hf : f ≠ 0) (hdis : ∀ f, ¬ ((∀ k, 0 ≤ faceWeights pt p f k) ∧ ∀ k, faceWeights pt p f k ≤ 0))
    (hP : ∃ g ∈ f :: fs, ∀ k, 0 ≤ faceWeights pt p g k) (hN : ∃ g ∈ f :: fs, ∀ k, faceWeights pt p g k ≤ 0)
    (ih : (∃ g ∈ fs, ∀ k, 0 ≤ faceWeights pt p g k) → (∃ g ∈ fs, ∀ k, faceWeights pt p g k ≤ 0) → ∃ x, baryLoop pt p fs none none = some x) :
    ∃ x, baryLoop pt p (f :: fs) none none = some x := by
  rw [baryLoop_cons _ _ _ _ _ _ (by intro h; exact hf h.1)]
  split
  · rename_i h
    refine baryLoop_second _ _ _ _ _ (Or.inl rfl) (Or.inl rfl) (Or.inr ?_)
    obtain ⟨g, hg, hk⟩ := hN
    rcases List.mem_cons.mp hg with rfl | hg
    · exact absurd ⟨h.2, hk⟩ (hdis _)
    · exact ⟨g, hg, hk⟩
  · rename_i h1
    split
    · rename_i h
      refine baryLoop_second _ _ _ _ _ (Or.inr rfl) (Or.inr ?_) (Or.inl rfl)
      obtain ⟨g, hg, hk⟩ := hP
      rcases List.mem_cons.mp hg with rfl | hg
      · exact absurd ⟨hk, h.2⟩ (hdis _)
      · exact ⟨g, hg, hk⟩
    · rename_i h2
      obtain ⟨g, hg, hk⟩ := hP
      obtain ⟨g', hg', hk'⟩ := hN
      rcases List.mem_cons.mp hg with rfl | hg
      · exact absurd ⟨rfl, hk⟩ h1
      · rcases List.mem_cons.mp hg' with rfl | hg'
        · exact absurd ⟨rfl, hk'⟩ h2
        · exact ih ⟨g, hg, hk⟩ ⟨g', hg', hk'⟩

/-- The loop finds an entry and an exit if both exist. -/
theorem baryLoop_finds (pt : PluckerTetra) (p : Plucker) (hdis : ∀ f, ¬ ((∀ k, 0 ≤ faceWeights pt p f k) ∧ ∀ k, faceWeights pt p f k ≤ 0)) (hP : ∃ f, ∀ k, 0 ≤ faceWeights pt p f k)
    (hN : ∃ f, ∀ k, faceWeights pt p f k ≤ 0) : ∃ e l, intersectionBary pt p = some (e, l) := by
  have hall : ∀ f : Fin 4, f ∈ ([3, 2, 1, 0] : List (Fin 4)) := by decide
  obtain ⟨f, hf⟩ := hP
  obtain ⟨g, hg⟩ := hN
  suffices h : ∃ x, intersectionBary pt p = some x from h.elim fun x hx => ⟨x.1, x.2, hx⟩
  refine baryLoop_first _ _ _ _ (by decide) hdis ⟨f, hall f, hf⟩ ⟨g, hall g, hg⟩ fun h1 h2 => ?_
  refine baryLoop_first _ _ _ _ (by decide) hdis h1 h2 fun h1 h2 => ?_
  refine baryLoop_first _ _ _ _ (by decide) hdis h1 h2 fun h1 h2 => ?_
  obtain ⟨f, hf, hf'⟩ := h1
  obtain ⟨g, hg, hg'⟩ := h2
  obtain rfl := List.mem_singleton.mp hf
  obtain rfl := List.mem_singleton.mp hg
  exact absurd ⟨hf', hg'⟩ (hdis _)

/-- Six times the signed volume. -/
def vol6 (t : Tetra) : ℝ :=
  ((t 1).x - (t 0).x) * (((t 2).y - (t 0).y) * ((t 3).z - (t 0).z) - ((t 2).z - (t 0).z) * ((t 3).y - (t 0).y)) +
  ((t 1).y - (t 0).y) * (((t 2).z - (t 0).z) * ((t 3).x - (t 0).x) - ((t 2).x - (t 0).x) * ((t 3).z - (t 0).z)) +
  ((t 1).z - (t 0).z) * (((t 2).x - (t 0).x) * ((t 3).y - (t 0).y) - ((t 2).y - (t 0).y) * ((t 3).x - (t 0).x))

theorem init_at (p u : Vec) (s : ℝ) : Plucker.init ((Anchored.init p u).at s) u = Plucker.init p u := by
  ext <;> simp [Plucker.init, Anchored.init, Anchored.at, moment] <;> ring

/-- Cramer's rule. -/
theorem cramer (p u a b c : Vec) (k : Fin 3) :
    (Plucker.init p u).dot (.segment b c) true * (a.get k - p.get k) + (Plucker.init p u).dot (.segment c a) true * (b.get k - p.get k) +
        (Plucker.init p u).dot (.segment a b) true * (c.get k - p.get k) =
      -((a.x - p.x) * ((b.y - p.y) * (c.z - p.z) - (b.z - p.z) * (c.y - p.y)) + (a.y - p.y) * ((b.z - p.z) * (c.x - p.x) - (b.x - p.x) * (c.z - p.z)) +
      (a.z - p.z) * ((b.x - p.x) * (c.y - p.y) - (b.y - p.y) * (c.x - p.x))) * u.get k := by
  fin_cases k <;> simp [Plucker.init, Plucker.segment, Plucker.dot, moment, Vec.sub, Vec.get] <;> ring

/-- Cramer's rule from a point of the tetrahedron. -/
theorem weights_from (t : Tetra) (x u : Vec) (w : Fin 4 → ℝ) (hsum : w 0 + w 1 + w 2 + w 3 = 1)
    (hx : x = ⟨w 0 * (t 0).x + w 1 * (t 1).x + w 2 * (t 2).x + w 3 * (t 3).x, w 0 * (t 0).y + w 1 * (t 1).y + w 2 * (t 2).y + w 3 * (t 3).y,
      w 0 * (t 0).z + w 1 * (t 1).z + w 2 * (t 2).z + w 3 * (t 3).z⟩) (f : Fin 4) (k : Fin 3) :
    faceWeights (.init t) (.init x u) f 0 * ((t (vertexIdx f 0)).get k - x.get k) +
      faceWeights (.init t) (.init x u) f 1 * ((t (vertexIdx f 1)).get k - x.get k) +
      faceWeights (.init t) (.init x u) f 2 * ((t (vertexIdx f 2)).get k - x.get k) = -(w f * vol6 t) * u.get k := by
  have hflip : ∀ a b : Vec, (Plucker.init x u).dot (.segment a b) false = (Plucker.init x u).dot (.segment b a) true := by
    intro a b
    simp [Plucker.init, Plucker.segment, Plucker.dot, moment, Vec.sub]; ring
  have h0 : w 0 = 1 - w 1 - w 2 - w 3 := by linarith
  have h1 := congrArg Vec.x hx
  have h2 := congrArg Vec.y hx
  have h3 := congrArg Vec.z hx
  dsimp only at h1 h2 h3
  rw [h0] at h1 h2 h3
  have hu : ∀ {a b c d e m : ℝ}, a + b + c = -d * e → d = m → a + b + c = -m * e := fun h h' => h' ▸ h
  fin_cases f
  · have := hu (m := w 0 * vol6 t) (cramer x u (t 3) (t 1) (t 2) k) (by rw [h0, h1, h2, h3, vol6]; ring)
    simp only [faceWeights, edgeIdx, edgeFlip, vertexIdx, PluckerTetra.init] at *
    simp [hflip] at *
    linarith
  · have := hu (m := w 1 * vol6 t) (cramer x u (t 2) (t 0) (t 3) k) (by rw [h1, h2, h3, vol6]; ring)
    simp only [faceWeights, edgeIdx, edgeFlip, vertexIdx, PluckerTetra.init] at *
    simp [hflip] at *
    linarith
  · have := hu (m := w 2 * vol6 t) (cramer x u (t 1) (t 3) (t 0) k) (by rw [h1, h2, h3, vol6]; ring)
    simp only [faceWeights, edgeIdx, edgeFlip, vertexIdx, PluckerTetra.init] at *
    simp [hflip] at *
    linarith
  · have := hu (m := w 3 * vol6 t) (cramer x u (t 0) (t 2) (t 1) k) (by rw [h1, h2, h3, vol6]; ring)
    simp only [faceWeights, edgeIdx, edgeFlip, vertexIdx, PluckerTetra.init] at *
    simp [hflip] at *
    linarith

theorem rayDim_unit {u : Vec} (h : u.x * u.x + u.y * u.y + u.z * u.z = 1) : ∃ k, rayDim u = some k := by
  unfold rayDim
  split
  · exact ⟨_, rfl⟩
  · rename_i hx
    split
    · exact ⟨_, rfl⟩
    · rename_i hy
      split
      · exact ⟨_, rfl⟩
      · rename_i hz
        exfalso
        push Not at hx hy hz
        have a : |u.x| ≤ 1 / 10 ^ 6 := abs_le.mpr ⟨hx.2, hx.1⟩
        have b : |u.y| ≤ 1 / 10 ^ 6 := abs_le.mpr ⟨hy.2, hy.1⟩
        have c : |u.z| ≤ 1 / 10 ^ 6 := abs_le.mpr ⟨hz.2, hz.1⟩
        have ha := mul_le_mul a a (abs_nonneg _) (by norm_num)
        have hb := mul_le_mul b b (abs_nonneg _) (by norm_num)
        have hc := mul_le_mul c c (abs_nonneg _) (by norm_num)
        rw [abs_mul_abs_self] at ha hb hc
        norm_num at ha hb hc
        linarith

theorem distance_from (t : Tetra) (p u : Vec) (s : ℝ) (b : Bary) (hw : b.w = faceWeights (.init t) (.init p u) b.face) (hp : b.proper) {k : Fin 3} (hk : rayDim u = some k)
    (w : Fin 4 → ℝ) (hsum : w 0 + w 1 + w 2 + w 3 = 1)
    (hx : (Anchored.init p u).at s = ⟨w 0 * (t 0).x + w 1 * (t 1).x + w 2 * (t 2).x + w 3 * (t 3).x, w 0 * (t 0).y + w 1 * (t 1).y + w 2 * (t 2).y + w 3 * (t 3).y,
      w 0 * (t 0).z + w 1 * (t 1).z + w 2 * (t 2).z + w 3 * (t 3).z⟩) :
    t.distance (.init p u) b = some (s - w b.face * vol6 t / (b.w 0 + b.w 1 + b.w 2)) := by
  have h := weights_from t _ u w hsum hx b.face k
  rw [init_at, ← hw] at h
  have hget : ((Anchored.init p u).at s).get k = p.get k + s * u.get k := by fin_cases k <;> rfl
  rw [hget] at h
  have hS : b.w 0 + b.w 1 + b.w 2 ≠ 0 := hp
  have hu := rayDim_ne hk
  unfold Tetra.distance
  rw [show (Anchored.init p u).pl.u = u from rfl, hk]
  simp only [Option.map_some, Option.some.injEq]
  show (b.w 0 / _ * _ + b.w 1 / _ * _ + b.w 2 / _ * _ - p.get k) / u.get k = _
  field_simp
  linarith

/-- C63: a ray (with a unit direction) that passes through a point inside of a tetrahedron that is not flat meets it: an intersection is reported, with one intersection point on each
side of the inner point; the entry comes first when the tetrahedron has a positive orientation. -/
theorem C63_complete (t : Tetra) (p u : Vec) (s : ℝ) (hunit : u.x * u.x + u.y * u.y + u.z * u.z = 1) (hvol : vol6 t ≠ 0) (hin : Inside t ((Anchored.init p u).at s)) :
    ∃ a b, intersectionDistance (.init t) t (.init p u) = some (some (a, b)) ∧
      (∃ f, OnFace t f ((Anchored.init p u).at a)) ∧ (∃ f, OnFace t f ((Anchored.init p u).at b)) ∧ (0 < vol6 t → a < s ∧ s < b) ∧ (vol6 t < 0 → b < s ∧ s < a) := by
  obtain ⟨w, hw, hsum, hx⟩ := hin
  obtain ⟨k, hk⟩ := rayDim_unit hunit
  have hu := rayDim_ne hk
  have hzero : ∀ f, ¬ ∀ k, faceWeights (.init t) (.init p u) f k = 0 := by
    intro f h
    have := weights_from t _ u w hsum hx f k
    rw [init_at, h 0, h 1, h 2] at this
    have h2 : w f * vol6 t * u.get k = 0 := by linarith
    rcases mul_eq_zero.mp h2 with h2 | h2
    · rcases mul_eq_zero.mp h2 with h2 | h2
      · exact absurd h2 (ne_of_gt (hw f))
      · exact hvol h2
    · exact hu h2
  have hdis : ∀ f, ¬ ((∀ k, 0 ≤ faceWeights (.init t) (.init p u) f k) ∧ ∀ k, faceWeights (.init t) (.init p u) f k ≤ 0) :=
    fun f h => hzero f fun k => le_antisymm (h.2 k) (h.1 k)
  obtain ⟨r0, r1, r2, -⟩ := edge_relations t p u s w hsum hx
  have m01 := mul_pos (hw 0) (hw 1)
  have m02 := mul_pos (hw 0) (hw 2)
  have m03 := mul_pos (hw 0) (hw 3)
  have m12 := mul_pos (hw 1) (hw 2)
  have m13 := mul_pos (hw 1) (hw 3)
  have m23 := mul_pos (hw 2) (hw 3)
  have pn : ∀ {x y : ℝ}, 0 < x → 0 ≤ x * y → 0 ≤ y := fun hx h => nonneg_of_mul_nonneg_right h hx
  have np : ∀ {x y : ℝ}, 0 < x → x * y ≤ 0 → y ≤ 0 := fun hx h => by
    by_contra hy
    exact absurd h (not_le.mpr (mul_pos hx (not_le.mp hy)))
  have hface : ∀ σ : ℝ, (∃ f, ∀ k, 0 ≤ σ * faceWeights (.init t) (.init p u) f k) := by
    intro σ
    have a0 : w 0 * w 1 * (σ * edge t p u 0 1) + w 0 * w 2 * (σ * edge t p u 0 2) + w 0 * w 3 * (σ * edge t p u 0 3) = 0 := by linear_combination σ * w 0 * r0
    have a1 : -(w 0 * w 1 * (σ * edge t p u 0 1)) + w 1 * w 2 * (σ * edge t p u 1 2) + w 1 * w 3 * (σ * edge t p u 1 3) = 0 := by linear_combination σ * w 1 * r1
    have a2 : -(w 0 * w 2 * (σ * edge t p u 0 2)) - w 1 * w 2 * (σ * edge t p u 1 2) + w 2 * w 3 * (σ * edge t p u 2 3) = 0 := by linear_combination σ * w 2 * r2
    rcases some_face a0 a1 a2 with ⟨x, y, z⟩ | ⟨x, y, z⟩ | ⟨x, y, z⟩ | ⟨x, y, z⟩
    · have := pn m12 x; have := np m13 y; have := pn m23 z
      refine ⟨0, fun k => ?_⟩
      rw [(weights_edges t p u k).1]
      fin_cases k <;> simp <;> linarith
    · have := pn m03 x; have := np m02 y; have := np m23 z
      refine ⟨1, fun k => ?_⟩
      rw [(weights_edges t p u k).2.1]
      fin_cases k <;> simp <;> linarith
    · have := np m03 x; have := pn m13 y; have := pn m01 z
      refine ⟨2, fun k => ?_⟩
      rw [(weights_edges t p u k).2.2.1]
      fin_cases k <;> simp <;> linarith
    · have := np m12 x; have := pn m02 y; have := np m01 z
      refine ⟨3, fun k => ?_⟩
      rw [(weights_edges t p u k).2.2.2]
      fin_cases k <;> simp <;> linarith
  have hP : ∃ f, ∀ k, 0 ≤ faceWeights (.init t) (.init p u) f k := by
    obtain ⟨f, hf⟩ := hface 1
    exact ⟨f, fun k => by have := hf k; linarith⟩
  have hN : ∃ f, ∀ k, faceWeights (.init t) (.init p u) f k ≤ 0 := by
    obtain ⟨f, hf⟩ := hface (-1)
    exact ⟨f, fun k => by have := hf k; linarith⟩
  obtain ⟨e, l, hel⟩ := baryLoop_finds _ _ hdis hP hN
  obtain ⟨g1, g2, g3, g4⟩ := baryLoop_good _ _ _ none none (fun b hb => by simp at hb) (fun b hb => by simp at hb) hel
  have he : 0 < e.w 0 + e.w 1 + e.w 2 := by
    by_contra hc
    refine hzero e.face fun k => ?_
    rw [← g1]
    have := g3 0; have := g3 1; have := g3 2
    fin_cases k <;> simp <;> linarith
  have hl : l.w 0 + l.w 1 + l.w 2 < 0 := by
    by_contra hc
    refine hzero l.face fun k => ?_
    rw [← g2]
    have := g4 0; have := g4 1; have := g4 2
    fin_cases k <;> simp <;> linarith
  have d1 := distance_from t p u s e g1 (ne_of_gt he) hk w hsum hx
  have d2 := distance_from t p u s l g2 (ne_of_lt hl) hk w hsum hx
  have hres : intersectionDistance (.init t) t (.init p u) = some (some (s - w e.face * vol6 t / (e.w 0 + e.w 1 + e.w 2), s - w l.face * vol6 t / (l.w 0 + l.w 1 + l.w 2))) := by
    unfold intersectionDistance
    rw [show (Anchored.init p u).pl = .init p u from rfl, hel]
    simp only [d1, d2, Option.bind_some, Option.map_some]
  refine ⟨_, _, hres, ⟨e.face, distance_on_face t p u e g1 (ne_of_gt he) (Or.inl g3) d1⟩, ⟨l.face, distance_on_face t p u l g2 (ne_of_lt hl) (Or.inr g4) d2⟩, fun hv => ?_, fun hv => ?_⟩
  · have x1 := div_pos (mul_pos (hw e.face) hv) he
    have x2 := div_neg_of_pos_of_neg (mul_pos (hw l.face) hv) hl
    exact ⟨by linarith, by linarith⟩
  · have x1 := div_neg_of_neg_of_pos (mul_neg_of_pos_of_neg (hw e.face) hv) he
    have x2 := div_pos_of_neg_of_neg (mul_neg_of_pos_of_neg (hw l.face) hv) hl
    exact ⟨by linarith, by linarith⟩

/-- A ray through the inside of a tetrahedron that is not flat does not lie in the plane of a face. -/
theorem proper_of_inside (t : Tetra) (p u : Vec) (s : ℝ) (hunit : u.x * u.x + u.y * u.y + u.z * u.z = 1) (hvol : vol6 t ≠ 0) (hin : Inside t ((Anchored.init p u).at s)) :
    ∀ e l, intersectionBary (.init t) (.init p u) = some (e, l) → e.proper ∧ l.proper := by
  intro e l hel
  obtain ⟨w, hw, hsum, hx⟩ := hin
  obtain ⟨k, hk⟩ := rayDim_unit hunit
  have hu := rayDim_ne hk
  obtain ⟨g1, g2, g3, g4⟩ := baryLoop_good _ _ _ none none (fun b hb => by simp at hb) (fun b hb => by simp at hb) hel
  have hzero : ∀ f, ¬ (faceWeights (.init t) (.init p u) f 0 = 0 ∧ faceWeights (.init t) (.init p u) f 1 = 0 ∧ faceWeights (.init t) (.init p u) f 2 = 0) := by
    rintro f ⟨h0, h1, h2⟩
    have := weights_from t _ u w hsum hx f k
    rw [init_at, h0, h1, h2] at this
    exact mul_ne_zero (mul_ne_zero (ne_of_gt (hw f)) hvol) hu (by linarith)
  refine ⟨fun h => hzero e.face ?_, fun h => hzero l.face ?_⟩
  · rw [← g1]
    have := g3 0; have := g3 1; have := g3 2
    exact ⟨by linarith, by linarith, by linarith⟩
  · rw [← g2]
    have := g4 0; have := g4 1; have := g4 2
    exact ⟨by linarith, by linarith, by linarith⟩

/-- The tetrahedron of the examples: the corner of the unit cube. -/
def corner : Tetra := ![⟨0, 0, 0⟩, ⟨1, 0, 0⟩, ⟨0, 1, 0⟩, ⟨0, 0, 1⟩]

theorem corner_vol : vol6 corner = 1 := by simp [vol6, corner]

theorem corner_inside : Inside corner ((Anchored.init ⟨1 / 4, 1 / 4, -1⟩ ⟨0, 0, 1⟩).at (5 / 4)) :=
  ⟨fun _ => 1 / 4, fun _ => by norm_num, by norm_num, by simp [corner, Anchored.at, Anchored.init, Plucker.init]; norm_num⟩

/-- Non-vacuity of `C40_distance`, `C63_on_tetra_partial` and `C63_complete`: a ray through the corner. -/
example : (∃ a b, intersectionDistance (.init corner) corner (.init ⟨1 / 4, 1 / 4, -1⟩ ⟨0, 0, 1⟩) = some (some (a, b)) ∧ a < 5 / 4 ∧ 5 / 4 < b) ∧
    ∀ e l, intersectionBary (.init corner) (.init ⟨1 / 4, 1 / 4, -1⟩ ⟨0, 0, 1⟩) = some (e, l) → e.proper ∧ l.proper := by
  have hv : vol6 corner ≠ 0 := by rw [corner_vol]; norm_num
  obtain ⟨a, b, h, -, -, h2, -⟩ := C63_complete corner ⟨1 / 4, 1 / 4, -1⟩ ⟨0, 0, 1⟩ (5 / 4) (by norm_num) hv corner_inside
  exact ⟨⟨a, b, h, (h2 (by rw [corner_vol]; norm_num)).1, (h2 (by rw [corner_vol]; norm_num)).2⟩, proper_of_inside _ _ _ _ (by norm_num) hv corner_inside⟩

/-- C63 does not extend to rays in the plane of a face: for the ray along the x axis direction through the bottom face of the corner an intersection is reported, but the three weights of
the entry face are 0, so that the distance is 0/0. -/
theorem C63_coplanar_false : ∃ e l, intersectionBary (.init corner) (.init ⟨-1, 1 / 4, 0⟩ ⟨1, 0, 0⟩) = some (e, l) ∧ ¬ e.proper := by
  have hw : ∀ f k, faceWeights (.init corner) (.init ⟨-1, 1 / 4, 0⟩ ⟨1, 0, 0⟩) f k =
      (![![0, -(1 / 4 : ℝ), -(3 / 4)], ![1 / 4, 0, 3 / 4], ![-(1 / 4), 1 / 4, 0], ![0, 0, 0]] : Fin 4 → Fin 3 → ℝ) f k := by
    intro f k
    fin_cases f <;> fin_cases k <;>
    simp [faceWeights, edgeIdx, edgeFlip, PluckerTetra.init, corner, Plucker.dot, Plucker.init, Plucker.segment, moment, Vec.sub] <;> norm_num
  have h3 : ∀ k, faceWeights (.init corner) (.init ⟨-1, 1 / 4, 0⟩ ⟨1, 0, 0⟩) 3 k = 0 := fun k => by rw [hw]; fin_cases k <;> rfl
  have h0 : ∀ k, faceWeights (.init corner) (.init ⟨-1, 1 / 4, 0⟩ ⟨1, 0, 0⟩) 0 k ≤ 0 := fun k => by rw [hw]; fin_cases k <;> simp <;> norm_num
  obtain ⟨x, hx⟩ := baryLoop_second (.init corner) (.init ⟨-1, 1 / 4, 0⟩ ⟨1, 0, 0⟩) [2, 1, 0] (some ⟨faceWeights (.init corner) (.init ⟨-1, 1 / 4, 0⟩ ⟨1, 0, 0⟩) 3, 3⟩) none
    (Or.inl rfl) (Or.inl rfl) (Or.inr ⟨0, by simp, h0⟩)
  have hstart : intersectionBary (.init corner) (.init ⟨-1, 1 / 4, 0⟩ ⟨1, 0, 0⟩) = some x := by
    unfold intersectionBary
    rw [baryLoop_cons _ _ _ _ _ _ (by decide), if_pos ⟨rfl, fun k => (h3 k).ge⟩]
    exact hx
  refine ⟨x.1, x.2, hstart, ?_⟩
  have hkeep : ∀ (fs : List (Fin 4)) (e : Bary) (y : Bary × Bary), baryLoop (.init corner) (.init ⟨-1, 1 / 4, 0⟩ ⟨1, 0, 0⟩) fs (some e) none = some y → y.1 = e := by
    intro fs
    induction fs with
    | nil => intro e y h; simp [baryLoop] at h
    | cons f fs ih =>
      intro e y h
      rw [baryLoop_cons _ _ _ _ _ _ (by simp), if_neg (by simp)] at h
      split at h
      · cases h; rfl
      · exact ih e y h
  rw [hkeep _ _ _ hx]
  intro h
  exact h (by dsimp only; rw [h3, h3, h3]; norm_num)

/-! C64: spheres -/

/-- The square of the distance of two points. -/
def dist2 (a b : Vec) : ℝ := (a.x - b.x) ^ 2 + (a.y - b.y) ^ 2 + (a.z - b.z) ^ 2

theorem within_iff (a b : Vec) (r2 : ℝ) : within a b r2 ↔ dist2 a b ≤ r2 := by
  unfold within dist2
  have hx := mul_self_nonneg (a.x - b.x)
  have hy := mul_self_nonneg (a.y - b.y)
  have hz := mul_self_nonneg (a.z - b.z)
  constructor
  · rintro ⟨-, -, h⟩
    have := not_lt.mp h
    nlinarith
  · intro h
    exact ⟨not_lt.mpr (by nlinarith), not_lt.mpr (by nlinarith), not_lt.mpr (by nlinarith)⟩

/-- A point is in a closed ball. -/
def Ball.Has (s : Ball) (v : Vec) : Prop := dist2 s.c v ≤ s.r ^ 2

/-- C64: a point is in a sphere iff its distance to the centre is at most the radius. -/
theorem C64_point (s : Ball) (v : Vec) : s.hasVec v ↔ s.Has v := by
  rw [Ball.hasVec, within_iff, Ball.Has, sq]

theorem cs3 (a b c x y z : ℝ) : (a * x + b * y + c * z) ^ 2 ≤ (a ^ 2 + b ^ 2 + c ^ 2) * (x ^ 2 + y ^ 2 + z ^ 2) := by
  nlinarith [sq_nonneg (a * y - b * x), sq_nonneg (a * z - c * x), sq_nonneg (b * z - c * y)]

theorem tri2 {a b : Vec} {x : Vec} {p q : ℝ} (hp : 0 ≤ p) (hq : 0 ≤ q) (h1 : dist2 a x ≤ p ^ 2) (h2 : dist2 b x ≤ q ^ 2) : dist2 a b ≤ (p + q) ^ 2 := by
  have h := cs3 (a.x - x.x) (a.y - x.y) (a.z - x.z) (x.x - b.x) (x.y - b.y) (x.z - b.z)
  unfold dist2 at *
  have h' : ((a.x - x.x) * (x.x - b.x) + (a.y - x.y) * (x.y - b.y) + (a.z - x.z) * (x.z - b.z)) ^ 2 ≤ (p * q) ^ 2 := by
    refine le_trans h ?_
    rw [mul_pow]
    exact mul_le_mul h1 (by nlinarith) (by positivity) (by positivity)
  have := abs_le.mp (abs_le_of_sq_le_sq h' (mul_nonneg hp hq))
  nlinarith [this.1, this.2]

/-- C64: two spheres (of positive radius) are reported as intersecting iff they have a point in common. -/
theorem C64_spheres (s1 s2 : Ball) (h1 : 0 < s1.r) (h2 : 0 < s2.r) : s1.intersects s2 ↔ ∃ v, s1.Has v ∧ s2.Has v := by
  rw [Ball.intersects, within_iff, ← sq]
  constructor
  · intro h
    refine ⟨⟨(s2.r * s1.c.x + s1.r * s2.c.x) / (s1.r + s2.r), (s2.r * s1.c.y + s1.r * s2.c.y) / (s1.r + s2.r), (s2.r * s1.c.z + s1.r * s2.c.z) / (s1.r + s2.r)⟩, ?_, ?_⟩
    · have : dist2 s1.c ⟨(s2.r * s1.c.x + s1.r * s2.c.x) / (s1.r + s2.r), (s2.r * s1.c.y + s1.r * s2.c.y) / (s1.r + s2.r), (s2.r * s1.c.z + s1.r * s2.c.z) / (s1.r + s2.r)⟩ =
          (s1.r / (s1.r + s2.r)) ^ 2 * dist2 s1.c s2.c := by
        unfold dist2; field_simp; ring
      rw [Ball.Has, this]
      calc _ ≤ (s1.r / (s1.r + s2.r)) ^ 2 * (s1.r + s2.r) ^ 2 := by gcongr
        _ = _ := by field_simp
    · have : dist2 s2.c ⟨(s2.r * s1.c.x + s1.r * s2.c.x) / (s1.r + s2.r), (s2.r * s1.c.y + s1.r * s2.c.y) / (s1.r + s2.r), (s2.r * s1.c.z + s1.r * s2.c.z) / (s1.r + s2.r)⟩ =
          (s2.r / (s1.r + s2.r)) ^ 2 * dist2 s1.c s2.c := by
        unfold dist2; field_simp; ring
      rw [Ball.Has, this]
      calc _ ≤ (s2.r / (s1.r + s2.r)) ^ 2 * (s1.r + s2.r) ^ 2 := by gcongr
        _ = _ := by field_simp
  · rintro ⟨v, ha, hb⟩
    exact tri2 h1.le h2.le ha hb

/-- Non-vacuity of `C64_spheres`. -/
example : (⟨⟨0, 0, 0⟩, 1⟩ : Ball).intersects ⟨⟨3, 0, 0⟩, 2⟩ ∧ ¬ (⟨⟨0, 0, 0⟩, 1⟩ : Ball).intersects ⟨⟨4, 0, 0⟩, 2⟩ := by
  rw [Ball.intersects, Ball.intersects, within_iff, within_iff]; norm_num [dist2]

/-- C64: when a sphere is reported to contain another, it does. -/
theorem C64_contain (s1 s2 : Ball) (h2 : 0 ≤ s2.r) (h : s1.contains s2) (v : Vec) (hv : s2.Has v) : s1.Has v := by
  obtain ⟨hr, hw⟩ := h
  rw [within_iff, ← sq] at hw
  have hlt := not_le.mp hr
  have hs : ∀ a b, dist2 a b = dist2 b a := fun a b => by unfold dist2; ring
  have := tri2 (p := s1.r - s2.r) (q := s2.r) (a := s1.c) (b := v) (x := s2.c) (by linarith) h2 hw (by rw [hs]; exact hv)
  rw [Ball.Has]
  calc _ ≤ _ := this
    _ = _ := by ring

/-- C64: conversely a sphere that contains another of smaller radius is reported to do so (a sphere is not reported to contain itself). -/
theorem C64_contain_complete (s1 s2 : Ball) (h2 : 0 ≤ s2.r) (hr : s2.r < s1.r) (h : ∀ v, s2.Has v → s1.Has v) : s1.contains s2 := by
  refine ⟨not_le.mpr hr, ?_⟩
  rw [within_iff, ← sq]
  by_cases hd : dist2 s1.c s2.c = 0
  · rw [hd]; positivity
  have hnn : 0 ≤ dist2 s1.c s2.c := by unfold dist2; positivity
  have hpos : 0 < dist2 s1.c s2.c := lt_of_le_of_ne hnn (Ne.symm hd)
  obtain ⟨D, hD0, hD⟩ : ∃ D : ℝ, 0 < D ∧ dist2 s1.c s2.c = D ^ 2 := ⟨Real.sqrt _, Real.sqrt_pos.mpr hpos, (Real.sq_sqrt hnn).symm⟩
  have hD' := hD
  unfold dist2 at hD'
  have hv := h ⟨s2.c.x + s2.r / D * (s2.c.x - s1.c.x), s2.c.y + s2.r / D * (s2.c.y - s1.c.y), s2.c.z + s2.r / D * (s2.c.z - s1.c.z)⟩ (by
    rw [Ball.Has]
    have : dist2 s2.c ⟨s2.c.x + s2.r / D * (s2.c.x - s1.c.x), s2.c.y + s2.r / D * (s2.c.y - s1.c.y), s2.c.z + s2.r / D * (s2.c.z - s1.c.z)⟩ = (s2.r / D) ^ 2 * D ^ 2 := by
      rw [← hD']; unfold dist2; ring
    rw [this, div_pow, div_mul_cancel₀ _ (by positivity)])
  have he : dist2 s1.c ⟨s2.c.x + s2.r / D * (s2.c.x - s1.c.x), s2.c.y + s2.r / D * (s2.c.y - s1.c.y), s2.c.z + s2.r / D * (s2.c.z - s1.c.z)⟩ = (D + s2.r) ^ 2 := by
    have : dist2 s1.c ⟨s2.c.x + s2.r / D * (s2.c.x - s1.c.x), s2.c.y + s2.r / D * (s2.c.y - s1.c.y), s2.c.z + s2.r / D * (s2.c.z - s1.c.z)⟩ = (1 + s2.r / D) ^ 2 * D ^ 2 := by
      rw [← hD']; unfold dist2; ring
    rw [this, ← mul_pow]
    congr 1
    field_simp
  rw [Ball.Has, he] at hv
  have := abs_le.mp (abs_le_of_sq_le_sq hv (by linarith))
  rw [hD]
  exact pow_le_pow_left₀ hD0.le (by linarith [this.2]) 2

/-- Non-vacuity of `C64_contain` and `C64_contain_complete`. -/
example : (⟨⟨0, 0, 0⟩, 3⟩ : Ball).contains ⟨⟨1, 0, 0⟩, 2⟩ := by
  refine ⟨by norm_num, ?_⟩; rw [within_iff]; norm_num [dist2]

theorem max4 (d : Fin 4 → ℝ) (i : Fin 4) : d i ≤ (let m1 := if d 1 > d 0 then d 1 else d 0; let m2 := if d 2 > m1 then d 2 else m1; if d 3 > m2 then d 3 else m2) := by
  dsimp only
  split_ifs <;> fin_cases i <;> simp at * <;> linarith

theorem jensen4 {w y : Fin 4 → ℝ} (hw : ∀ i, 0 ≤ w i) (hs : w 0 + w 1 + w 2 + w 3 = 1) :
    (w 0 * y 0 + w 1 * y 1 + w 2 * y 2 + w 3 * y 3) ^ 2 ≤ w 0 * y 0 ^ 2 + w 1 * y 1 ^ 2 + w 2 * y 2 ^ 2 + w 3 * y 3 ^ 2 := by
  have h : ∀ i j, 0 ≤ w i * w j * (y i - y j) ^ 2 := fun i j => mul_nonneg (mul_nonneg (hw i) (hw j)) (sq_nonneg _)
  have e : w 0 * y 0 ^ 2 + w 1 * y 1 ^ 2 + w 2 * y 2 ^ 2 + w 3 * y 3 ^ 2 - (w 0 * y 0 + w 1 * y 1 + w 2 * y 2 + w 3 * y 3) ^ 2 =
      w 0 * w 1 * (y 0 - y 1) ^ 2 + w 0 * w 2 * (y 0 - y 2) ^ 2 + w 0 * w 3 * (y 0 - y 3) ^ 2 + w 1 * w 2 * (y 1 - y 2) ^ 2 + w 1 * w 3 * (y 1 - y 3) ^ 2 + w 2 * w 3 * (y 2 - y 3) ^ 2 := by
    linear_combination -(w 0 * y 0 ^ 2 + w 1 * y 1 ^ 2 + w 2 * y 2 ^ 2 + w 3 * y 3 ^ 2) * hs
  linarith [h 0 1, h 0 2, h 0 3, h 1 2, h 1 3, h 2 3]

/-- A ball that contains the vertices of a tetrahedron contains its points. -/
theorem ball_convex (s : Ball) (t : Tetra) (hv : ∀ i, s.Has (t i)) (w : Fin 4 → ℝ) (hw : ∀ i, 0 ≤ w i) (hs : w 0 + w 1 + w 2 + w 3 = 1) :
    s.Has ⟨w 0 * (t 0).x + w 1 * (t 1).x + w 2 * (t 2).x + w 3 * (t 3).x, w 0 * (t 0).y + w 1 * (t 1).y + w 2 * (t 2).y + w 3 * (t 3).y,
        w 0 * (t 0).z + w 1 * (t 1).z + w 2 * (t 2).z + w 3 * (t 3).z⟩ := by
  have m : ∀ i, w i * dist2 s.c (t i) ≤ w i * s.r ^ 2 := fun i => mul_le_mul_of_nonneg_left (hv i) (hw i)
  have m0 := m 0; have m1 := m 1; have m2 := m 2; have m3 := m 3
  have jx := jensen4 (y := fun i => s.c.x - (t i).x) hw hs
  have jy := jensen4 (y := fun i => s.c.y - (t i).y) hw hs
  have jz := jensen4 (y := fun i => s.c.z - (t i).z) hw hs
  unfold Ball.Has
  unfold dist2 at *
  dsimp only at *
  have c : ∀ q : ℝ, ∀ y : Fin 4 → ℝ, q - (w 0 * y 0 + w 1 * y 1 + w 2 * y 2 + w 3 * y 3) = w 0 * (q - y 0) + w 1 * (q - y 1) + w 2 * (q - y 2) + w 3 * (q - y 3) := by
    intro q y; linear_combination -q * hs
  have cx := c s.c.x fun i => (t i).x
  have cy := c s.c.y fun i => (t i).y
  have cz := c s.c.z fun i => (t i).z
  rw [cx, cy, cz]
  have hr : w 0 * s.r ^ 2 + w 1 * s.r ^ 2 + w 2 * s.r ^ 2 + w 3 * s.r ^ 2 = s.r ^ 2 := by linear_combination s.r ^ 2 * hs
  linarith

/-- C64: the bounding sphere of a tetrahedron contains all four vertices, and with them every point of the tetrahedron. -/
theorem C64_bounding (t : Tetra) : t.boundingSphere.hasTetra t ∧
    ∀ w : Fin 4 → ℝ, (∀ i, 0 ≤ w i) → w 0 + w 1 + w 2 + w 3 = 1 →
      t.boundingSphere.Has ⟨w 0 * (t 0).x + w 1 * (t 1).x + w 2 * (t 2).x + w 3 * (t 3).x, w 0 * (t 0).y + w 1 * (t 1).y + w 2 * (t 2).y + w 3 * (t 3).y,
        w 0 * (t 0).z + w 1 * (t 1).z + w 2 * (t 2).z + w 3 * (t 3).z⟩ := by
  have hv : ∀ i, t.boundingSphere.Has (t i) := by
    intro i
    unfold Ball.Has Tetra.boundingSphere
    dsimp only
    have hm := max4 (fun i : Fin 4 => dist2 ⟨((t 0).x + (t 1).x + (t 2).x + (t 3).x) / 4, ((t 0).y + (t 1).y + (t 2).y + (t 3).y) / 4, ((t 0).z + (t 1).z + (t 2).z + (t 3).z) / 4⟩ (t i)) i
    have h0 : 0 ≤ dist2 ⟨((t 0).x + (t 1).x + (t 2).x + (t 3).x) / 4, ((t 0).y + (t 1).y + (t 2).y + (t 3).y) / 4, ((t 0).z + (t 1).z + (t 2).z + (t 3).z) / 4⟩ (t i) := by
      unfold dist2; positivity
    simp only [← sq]
    rw [Real.sq_sqrt]
    · exact hm
    · exact le_trans h0 hm
  exact ⟨fun i => (C64_point _ _).mpr (hv i), fun w hw hs => ball_convex _ t hv w hw hs⟩

/-- C64: a tetrahedron is reported to be in a sphere iff every point of it is. -/
theorem C64_tetra_contain (s : Ball) (t : Tetra) : s.hasTetra t ↔ ∀ w : Fin 4 → ℝ, (∀ i, 0 ≤ w i) → w 0 + w 1 + w 2 + w 3 = 1 →
    s.Has ⟨w 0 * (t 0).x + w 1 * (t 1).x + w 2 * (t 2).x + w 3 * (t 3).x, w 0 * (t 0).y + w 1 * (t 1).y + w 2 * (t 2).y + w 3 * (t 3).y,
      w 0 * (t 0).z + w 1 * (t 1).z + w 2 * (t 2).z + w 3 * (t 3).z⟩ := by
  constructor
  · intro h w hw hs
    exact ball_convex s t (fun i => (C64_point _ _).mp (h i)) w hw hs
  · intro h i
    rw [C64_point]
    have := h (Pi.single i 1) (fun j => by by_cases hj : j = i <;> simp [hj, Pi.single_apply]) (by fin_cases i <;> simp [Pi.single_apply])
    fin_cases i <;> simpa [Pi.single_apply] using this

/-- C64 (partial: see `C64_tetra_false`): when a sphere and a tetrahedron are reported to intersect they have a point in common. -/
theorem C64_tetra_partial (s : Ball) (t : Tetra) (h : s.meetsTetra t) : ∃ w : Fin 4 → ℝ, (∀ i, 0 ≤ w i) ∧ w 0 + w 1 + w 2 + w 3 = 1 ∧
    s.Has ⟨w 0 * (t 0).x + w 1 * (t 1).x + w 2 * (t 2).x + w 3 * (t 3).x, w 0 * (t 0).y + w 1 * (t 1).y + w 2 * (t 2).y + w 3 * (t 3).y,
      w 0 * (t 0).z + w 1 * (t 1).z + w 2 * (t 2).z + w 3 * (t 3).z⟩ := by
  obtain ⟨i, hi⟩ := h
  rw [C64_point] at hi
  refine ⟨Pi.single i 1, fun j => by by_cases hj : j = i <;> simp [hj, Pi.single_apply], by fin_cases i <;> simp [Pi.single_apply], ?_⟩
  fin_cases i <;> simpa [Pi.single_apply] using hi

/-- C64 does not hold in the other direction: a small sphere around the barycentre of the corner touches no vertex and is not reported to intersect it. -/
theorem C64_tetra_false : Inside corner ⟨1 / 4, 1 / 4, 1 / 4⟩ ∧ (⟨⟨1 / 4, 1 / 4, 1 / 4⟩, 1 / 10⟩ : Ball).Has ⟨1 / 4, 1 / 4, 1 / 4⟩ ∧
    ¬ (⟨⟨1 / 4, 1 / 4, 1 / 4⟩, 1 / 10⟩ : Ball).meetsTetra corner := by
  refine ⟨⟨fun _ => 1 / 4, fun _ => by norm_num, by norm_num, by simp [corner]⟩, by norm_num [Ball.Has, dist2], ?_⟩
  rintro ⟨i, hi⟩
  rw [C64_point] at hi
  fin_cases i <;> norm_num [Ball.Has, dist2, corner] at hi

/-- Non-vacuity of `C64_tetra_contain` and `C64_tetra_partial`: a sphere around the corner, and one at a vertex. -/
example : (⟨⟨0, 0, 0⟩, 1⟩ : Ball).hasTetra corner ∧ (⟨⟨0, 0, 0⟩, 1 / 2⟩ : Ball).meetsTetra corner ∧ ¬ (⟨⟨0, 0, 0⟩, 1 / 2⟩ : Ball).hasTetra corner := by
  refine ⟨fun i => ?_, ⟨0, ?_⟩, fun h => ?_⟩
  · rw [C64_point]; fin_cases i <;> norm_num [Ball.Has, dist2, corner]
  · rw [C64_point]; norm_num [Ball.Has, dist2, corner]
  · have := (C64_point _ _).mp (h 1); norm_num [Ball.Has, dist2, corner] at this

/-! Volume and orientation -/

theorem volume_eq (t : Tetra) : t.volume = |vol6 t| / 6 := by
  have : ∀ x : ℝ, (if x / 6 < 0 then -(x / 6) else x / 6) = |x| / 6 := by
    intro x
    split
    · rename_i h; rw [abs_of_neg (by linarith)]; ring
    · rename_i h; rw [abs_of_nonneg (by linarith)]
  rw [← this]
  rfl

theorem vol6_swap (t : Tetra) (i j : Fin 4) : |vol6 fun k => t (Equiv.swap i j k)| = |vol6 t| := by
  by_cases hij : i = j
  · subst hij; simp
  · have : vol6 (fun k => t (Equiv.swap i j k)) = -vol6 t := by
      fin_cases i <;> fin_cases j <;> first | exact absurd rfl hij | (simp [vol6, Equiv.swap_apply_def]; ring)
    rw [this, abs_neg]

theorem vol6_perm (σ : Equiv.Perm (Fin 4)) : ∀ t : Tetra, |vol6 fun k => t (σ k)| = |vol6 t| := by
  induction σ using Equiv.Perm.swap_induction_on with
  | one => intro t; rfl
  | swap_mul f x y _ ih => intro t; exact (ih fun k => t (Equiv.swap x y k)).trans (vol6_swap t x y)

/-- C64: the volume of a tetrahedron does not depend on where it is nor on the order of the vertices, is not negative, and scales with the cube. -/
theorem C64_volume (t : Tetra) (d : Vec) (σ : Equiv.Perm (Fin 4)) (c : ℝ) :
    (t.translate d).volume = t.volume ∧ Tetra.volume (fun i => t (σ i)) = t.volume ∧ 0 ≤ t.volume ∧
      Tetra.volume (fun i => ⟨c * (t i).x, c * (t i).y, c * (t i).z⟩) = |c| ^ 3 * t.volume := by
  refine ⟨?_, ?_, ?_, ?_⟩
  · rw [volume_eq, volume_eq]; congr 2; simp only [vol6, Tetra.translate, Vec.add]; ring
  · rw [volume_eq, volume_eq, vol6_perm]
  · rw [volume_eq]; positivity
  · rw [volume_eq, volume_eq]
    have : vol6 (fun i => ⟨c * (t i).x, c * (t i).y, c * (t i).z⟩) = c ^ 3 * vol6 t := by simp only [vol6]; ring
    rw [this, abs_mul, abs_pow]; ring

/-- Non-vacuity of `C64_volume`: the corner has the volume 1/6. -/
example : corner.volume = 1 / 6 := by rw [volume_eq, corner_vol]; norm_num

/-- C64: `Orient` only reorders the vertices, and gives the tetrahedron the orientation `dir`. -/
theorem C64_orient (t : Tetra) : (∃ σ : Equiv.Perm (Fin 4), t.orient 1 = fun i => t (σ i)) ∧ (∃ σ : Equiv.Perm (Fin 4), t.orient (-1) = fun i => t (σ i)) ∧
    0 ≤ vol6 (t.orient 1) ∧ vol6 (t.orient (-1)) ≤ 0 := by
  have hswap : (fun i => if i = 0 then t 1 else if i = 1 then t 0 else t i) = fun i => t (Equiv.swap 0 1 i) := by
    funext i; fin_cases i <;> simp [Equiv.swap_apply_def]
  have hdot : ∀ d : Int, t.orient d = (open Classical in if (-vol6 t < 0 ∧ d = -1) ∨ (-vol6 t > 0 ∧ d = 1) then fun i => t (Equiv.swap 0 1 i) else t) := by
    intro d
    unfold Tetra.orient
    dsimp only
    rw [hswap]
    have : (moment ((t 1).sub (t 0)) ((t 2).sub (t 0))).x * ((t 3).sub (t 0)).x + (moment ((t 1).sub (t 0)) ((t 2).sub (t 0))).y * ((t 3).sub (t 0)).y +
        (moment ((t 1).sub (t 0)) ((t 2).sub (t 0))).z * ((t 3).sub (t 0)).z = -vol6 t := by
      simp only [moment, Vec.sub, vol6]; ring
    rw [this]
  have hneg : vol6 (fun i => t (Equiv.swap 0 1 i)) = -vol6 t := by simp [vol6, Equiv.swap_apply_def]; ring
  rw [hdot, hdot]
  refine ⟨?_, ?_, ?_, ?_⟩
  · split
    · exact ⟨_, rfl⟩
    · exact ⟨1, rfl⟩
  · split
    · exact ⟨_, rfl⟩
    · exact ⟨1, rfl⟩
  · split
    · rename_i h; rw [hneg]; simp at h; linarith
    · rename_i h; simp at h; linarith
  · split
    · rename_i h; rw [hneg]; simp at h; linarith
    · rename_i h; simp at h; linarith

/-- C63, C64: for a tetrahedron that went through `Orient(+1)` the distance of the entry is smaller than that of the exit. -/
theorem C63_oriented (t : Tetra) (p u : Vec) (s : ℝ) (hunit : u.x * u.x + u.y * u.y + u.z * u.z = 1) (hvol : t.volume ≠ 0) (hin : Inside (t.orient 1) ((Anchored.init p u).at s)) :
    ∃ a b, intersectionDistance (.init (t.orient 1)) (t.orient 1) (.init p u) = some (some (a, b)) ∧ a < s ∧ s < b := by
  obtain ⟨⟨σ, hσ⟩, -, h1, -⟩ := C64_orient t
  have hne : vol6 (t.orient 1) ≠ 0 := by
    rw [hσ]
    intro h
    refine hvol ?_
    rw [volume_eq, ← vol6_perm σ, h]; norm_num
  obtain ⟨a, b, h, -, -, hab, -⟩ := C63_complete (t.orient 1) p u s hunit hne hin
  exact ⟨a, b, h, hab (lt_of_le_of_ne h1 (Ne.symm hne))⟩

/-- Non-vacuity of `C63_oriented`: the corner is left as it is. -/
example : corner.volume ≠ 0 ∧ Inside (corner.orient 1) ((Anchored.init ⟨1 / 4, 1 / 4, -1⟩ ⟨0, 0, 1⟩).at (5 / 4)) := by
  refine ⟨by rw [volume_eq, corner_vol]; norm_num, ?_⟩
  have : corner.orient 1 = corner := by
    unfold Tetra.orient
    rw [if_neg]
    simp [corner, moment, Vec.sub]
  rw [this]; exact corner_inside

/-! Line segments -/

/-- C64 (partial: only segments along the x axis, see `C64_segment_false`): a line meets a sphere iff the discriminant is not negative, and the two reported distances are those of the points
where it does; the two flags say whether they are between the ends of the segment. -/
theorem C64_segment_partial (s : Ball) (ls : Segment) (hdir : ls.dir.x ^ 2 = 1 ∧ ls.dir.y = 0 ∧ ls.dir.z = 0) :
    (∀ r, dist2 s.c ⟨ls.origin.x + r * ls.dir.x, ls.origin.y + r * ls.dir.y, ls.origin.z + r * ls.dir.z⟩ = s.r ^ 2 → r = (s.lineSegment ls).1 ∨ r = (s.lineSegment ls).2.1) ∧
    ((∃ r, dist2 s.c ⟨ls.origin.x + r * ls.dir.x, ls.origin.y + r * ls.dir.y, ls.origin.z + r * ls.dir.z⟩ = s.r ^ 2) →
      dist2 s.c ⟨ls.origin.x + (s.lineSegment ls).1 * ls.dir.x, ls.origin.y + (s.lineSegment ls).1 * ls.dir.y, ls.origin.z + (s.lineSegment ls).1 * ls.dir.z⟩ = s.r ^ 2 ∧
      dist2 s.c ⟨ls.origin.x + (s.lineSegment ls).2.1 * ls.dir.x, ls.origin.y + (s.lineSegment ls).2.1 * ls.dir.y, ls.origin.z + (s.lineSegment ls).2.1 * ls.dir.z⟩ = s.r ^ 2 ∧
      (s.lineSegment ls).1 ≤ (s.lineSegment ls).2.1 ∧
      ((s.lineSegment ls).2.2.1 ↔ ls.startR < (s.lineSegment ls).1 ∧ (s.lineSegment ls).1 < ls.endR) ∧
      ((s.lineSegment ls).2.2.2 ↔ ls.startR < (s.lineSegment ls).2.1 ∧ (s.lineSegment ls).2.1 < ls.endR)) := by
  obtain ⟨hx, hy, hz⟩ := hdir
  set dx := ls.origin.x - s.c.x with hdx
  set dy := ls.origin.y - s.c.y with hdy
  set dz := ls.origin.z - s.c.z with hdz
  set b := 2 * ls.dir.x * dx with hb
  set c := dx * dx + dy * dy + dz * dz - s.r * s.r with hc
  have hd : ∀ r, dist2 s.c ⟨ls.origin.x + r * ls.dir.x, ls.origin.y + r * ls.dir.y, ls.origin.z + r * ls.dir.z⟩ - s.r ^ 2 = r ^ 2 + b * r + c := by
    intro r
    simp only [dist2, hy, hz, hb, hc, hdx, hdy, hdz]
    linear_combination r ^ 2 * hx
  have hl : s.lineSegment ls = (open Classical in if b * b - 4 * c < 0 then (0, 0, False, False)
      else ((-b - Real.sqrt (b * b - 4 * c)) / 2, (-b + Real.sqrt (b * b - 4 * c)) / 2,
        ls.startR < (-b - Real.sqrt (b * b - 4 * c)) / 2 ∧ ls.endR > (-b - Real.sqrt (b * b - 4 * c)) / 2,
        ls.startR < (-b + Real.sqrt (b * b - 4 * c)) / 2 ∧ ls.endR > (-b + Real.sqrt (b * b - 4 * c)) / 2)) := by
    simp only [Ball.lineSegment, Vec.sub, hy, hz, zero_mul, add_zero, ← hdx, ← hdy, ← hdz, ← hb, ← hc]
  clear_value c b
  clear_value dx dy dz
  have hroot : ∀ r, dist2 s.c ⟨ls.origin.x + r * ls.dir.x, ls.origin.y + r * ls.dir.y, ls.origin.z + r * ls.dir.z⟩ = s.r ^ 2 → ¬ b * b - 4 * c < 0 := by
    intro r hr h
    have := hd r
    nlinarith [sq_nonneg (2 * r + b)]
  refine ⟨fun r hr => ?_, fun ⟨r, hr⟩ => ?_⟩
  · have hn := hroot r hr
    rw [hl, if_neg hn]
    have hsq := Real.mul_self_sqrt (not_lt.mp hn)
    have h := hd r
    have h0 : (r - (-b - Real.sqrt (b * b - 4 * c)) / 2) * (r - (-b + Real.sqrt (b * b - 4 * c)) / 2) = 0 := by
      linear_combination hr - h - hsq / 4
    rcases mul_eq_zero.mp h0 with h0 | h0
    · left; linarith
    · right; linarith
  · have hn := hroot r hr
    rw [hl, if_neg hn]
    have hsq := Real.mul_self_sqrt (not_lt.mp hn)
    have hnn := Real.sqrt_nonneg (b * b - 4 * c)
    refine ⟨?_, ?_, ?_, Iff.rfl, Iff.rfl⟩
    · have := hd ((-b - Real.sqrt (b * b - 4 * c)) / 2)
      dsimp only
      linear_combination this + hsq / 4
    · have := hd ((-b + Real.sqrt (b * b - 4 * c)) / 2)
      dsimp only
      linear_combination this + hsq / 4
    · dsimp only; linarith

/-- Non-vacuity of `C64_segment_partial`. -/
example : ∃ r : ℝ, dist2 (⟨⟨0, 0, 0⟩, 1⟩ : Ball).c ⟨-2 + r * 1, 0 + r * 0, 0 + r * 0⟩ = (⟨⟨0, 0, 0⟩, 1⟩ : Ball).r ^ 2 := ⟨1, by norm_num [dist2]⟩

/-- C64 is false for segments in other directions: a line along the y axis through the centre of a sphere is reported to miss it. -/
theorem C64_segment_false : dist2 (⟨⟨0, 0, 0⟩, 1⟩ : Ball).c ⟨0 + 1 * 0, -2 + 1 * 1, 0 + 1 * 0⟩ = (⟨⟨0, 0, 0⟩, 1⟩ : Ball).r ^ 2 ∧
    (⟨⟨0, 0, 0⟩, 1⟩ : Ball).lineSegment ⟨⟨0, -2, 0⟩, ⟨0, 1, 0⟩, 0, 10⟩ = (0, 0, False, False) := by
  refine ⟨by norm_num [dist2], ?_⟩
  unfold Ball.lineSegment Vec.sub
  dsimp only
  rw [if_pos (by norm_num)]

end Shellfish.Geom
