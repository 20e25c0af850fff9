/-
C86: slices of a tetrahedron by a horizontal plane.
-/
import Verif.Props.Lines
import Verif.Props.Plucker
import Verif.Props.Rotation
import Mathlib.Analysis.Convex.Combination
import Mathlib.Data.Fintype.Pi
import Mathlib.Data.List.GetD
import Mathlib.Algebra.BigOperators.Field

namespace Shellfish.Geom
/-- The edges between vertices that are on different sides. -/
def crossedB (b : Fin 4 → Bool) : List (Fin 6) := (List.finRange 6).filter fun i => b (edgeStart i) != b (edgeEnd i)

/-- An edge joins two vertices. -/
abbrev joins (e : Fin 6) (i k : Fin 4) : Prop := (edgeStart e = i ∧ edgeEnd e = k) ∨ (edgeStart e = k ∧ edgeEnd e = i)

/-- Four edges around a quadrilateral. -/
abbrev quad (b : Fin 4 → Bool) (e0 e1 e2 e3 : Fin 6) : Prop :=
  ∃ i j k l : Fin 4, b i = true ∧ b j = true ∧ b k = false ∧ b l = false ∧ joins e0 i k ∧ joins e2 j l ∧ ((joins e1 i l ∧ joins e3 j k) ∨ (joins e1 j k ∧ joins e3 i l))

instance (b : Fin 4 → Bool) (e0 e1 e2 e3 : Fin 6) : Decidable (quad b e0 e1 e2 e3) := inferInstance

theorem quad_edges : ∀ b : Fin 4 → Bool, ∀ e0 ∈ crossedB b, ∀ e1 ∈ crossedB b, ∀ e2 ∈ crossedB b, ∀ e3 ∈ crossedB b,
    (faceShare e0 e1 && faceShare e1 e2 && faceShare e2 e3 && faceShare e3 e0 && decide (e0 ≠ e2) && decide (e1 ≠ e3)) = true → quad b e0 e1 e2 e3 := by
  decide +kernel

open Classical Real

/-! ### Specification -/

/-- A point belongs to the (closed) tetrahedron. -/
def InTetra (t : Tetra) (x : Vec) : Prop :=
  ∃ w : Fin 4 → ℝ, (∀ i, 0 ≤ w i) ∧ w 0 + w 1 + w 2 + w 3 = 1 ∧
    x = ⟨w 0 * (t 0).x + w 1 * (t 1).x + w 2 * (t 2).x + w 3 * (t 3).x, w 0 * (t 0).y + w 1 * (t 1).y + w 2 * (t 2).y + w 3 * (t 3).y,
      w 0 * (t 0).z + w 1 * (t 1).z + w 2 * (t 2).z + w 3 * (t 3).z⟩

/-- A point is on the edge between two vertices. -/
def OnEdge (a b x : Vec) : Prop := ∃ s : ℝ, 0 ≤ s ∧ s ≤ 1 ∧ x = ⟨(1 - s) * a.x + s * b.x, (1 - s) * a.y + s * b.y, (1 - s) * a.z + s * b.z⟩

/-- The points of the plane spanned by a list of corners. -/
def polygon (cs : List Corner) : Set (ℝ × ℝ) := convexHull ℝ {p | ∃ c ∈ cs, p = (c.x, c.y)}

/-- Two edges of a tetrahedron bound a common face. -/
def CommonFace (e f : Fin 6) : Prop := ∃ (face : Fin 4) (j k : Fin 3), j ≠ k ∧ edgeIdx face j = e ∧ edgeIdx face k = f

/-- Two corners are less than 1e-5 apart in both coordinates. -/
def Corner.close (a b : Corner) : Prop := |a.x - b.x| < 1 / 100000 ∧ |a.y - b.y| < 1 / 100000

/-! ### Which edges cross -/

/-- The side of every vertex. -/
noncomputable def below (t : Tetra) (z : ℝ) : Fin 4 → Bool := fun i => decide ((t i).z < z)

theorem crossed_eq (t : Tetra) (z : ℝ) : t.crossed z = crossedB (below t z) := rfl

theorem crossedB_length : ∀ b : Fin 4 → Bool, (crossedB b).length ≤ 4 ∧ (3 ≤ (crossedB b).length ↔ ∃ i j, b i = true ∧ b j = false) := by
  decide +kernel

theorem crossedB_edge : ∀ b : Fin 4 → Bool, ∀ i j, b i = true → b j = false →
    ∃ e ∈ crossedB b, (edgeStart e = i ∧ edgeEnd e = j) ∨ (edgeStart e = j ∧ edgeEnd e = i) := by
  decide +kernel

theorem faceShare_iff : ∀ e f : Fin 6, faceShare e f = true ↔ ∃ (face : Fin 4) (j k : Fin 3), j ≠ k ∧ edgeIdx face j = e ∧ edgeIdx face k = f := by
  decide +kernel

/-- The order in which the corners are linked. -/
def linkOrder (edges : List (Fin 6)) : List Nat := (linkPairs edges).map fun p => p.1.getD 0

theorem link_ok : ∀ b : Fin 4 → Bool, 3 ≤ (crossedB b).length →
    (linkOrder (crossedB b)).Nodup ∧ (linkOrder (crossedB b)).length = (crossedB b).length ∧ (∀ k ∈ linkOrder (crossedB b), k < (crossedB b).length) ∧
    linkPairs (crossedB b) = (List.range (crossedB b).length).map (fun i =>
      ((some ((linkOrder (crossedB b)).getD i 0), some ((linkOrder (crossedB b)).getD ((i + 1) % (crossedB b).length) 0)) : Option Nat × Option Nat)) ∧
    (∀ i ∈ List.range (crossedB b).length, faceShare ((crossedB b).getD ((linkOrder (crossedB b)).getD i 0) 0)
      ((crossedB b).getD ((linkOrder (crossedB b)).getD ((i + 1) % (crossedB b).length) 0) 0) = true) ∧
    (∀ j ∈ List.range (crossedB b).length, ∀ k ∈ List.range (crossedB b).length, faceShare ((crossedB b).getD j 0) ((crossedB b).getD k 0) = true →
      (some j, some k) ∈ linkPairs (crossedB b) ∨ (some k, some j) ∈ linkPairs (crossedB b)) := by
  decide +kernel

/-! ### The corners and the cross-section -/

theorem init_u (t : Tetra) (e : Fin 6) : (PluckerTetra.init t e).u = (t (edgeEnd e)).sub (t (edgeStart e)) := by
  fin_cases e <;> rfl

/-- Where the segment from vertex `i` to vertex `j` meets the plane. -/
noncomputable def meet (t : Tetra) (z : ℝ) (p : Fin 4 × Fin 4) : ℝ × ℝ :=
  (((t p.1).x * ((t p.2).z - z) + (t p.2).x * (z - (t p.1).z)) / ((t p.2).z - (t p.1).z),
   ((t p.1).y * ((t p.2).z - z) + (t p.2).y * (z - (t p.1).z)) / ((t p.2).z - (t p.1).z))

theorem corner_meet (t : Tetra) (z : ℝ) (e : Fin 6) (i j : Fin 4) (hi : (t i).z < z) (hj : z ≤ (t j).z)
    (he : (edgeStart e = i ∧ edgeEnd e = j) ∨ (edgeStart e = j ∧ edgeEnd e = i)) :
    ((cornerAt (.init t) t z e).x, (cornerAt (.init t) t z e).y) = meet t z (i, j) := by
  have h1 : (t j).z - (t i).z ≠ 0 := by
    have : 0 < (t j).z - (t i).z := by linarith
    exact this.ne'
  have h2 : (t i).z - (t j).z ≠ 0 := by
    have : (t i).z - (t j).z < 0 := by linarith
    exact this.ne
  unfold cornerAt intersectZPlane meet
  rw [init_u]
  rcases he with ⟨rfl, rfl⟩ | ⟨rfl, rfl⟩
  · simp only [Vec.sub, h1, if_false]
    ext <;> dsimp only <;> field_simp <;> ring
  · simp only [Vec.sub, h2, if_false]
    ext
    · dsimp only
      rw [eq_div_iff h1, ← sub_eq_zero]
      field_simp
      ring
    · dsimp only
      rw [eq_div_iff h1, ← sub_eq_zero]
      field_simp
      ring

theorem mem_crossed_iff (t : Tetra) (z : ℝ) (e : Fin 6) : e ∈ t.crossed z ↔
    ∃ i j, (t i).z < z ∧ z ≤ (t j).z ∧ ((edgeStart e = i ∧ edgeEnd e = j) ∨ (edgeStart e = j ∧ edgeEnd e = i)) := by
  simp only [Tetra.crossed, List.mem_filter, List.mem_finRange, true_and, Tetra.crosses, bne_iff_ne, ne_eq, decide_eq_decide]
  constructor
  · intro h
    by_cases h1 : (t (edgeStart e)).z < z
    · have h2 : ¬ (t (edgeEnd e)).z < z := fun h2 => h ⟨fun _ => h2, fun _ => h1⟩
      exact ⟨_, _, h1, not_lt.mp h2, Or.inl ⟨rfl, rfl⟩⟩
    · have h2 : (t (edgeEnd e)).z < z := by
        by_contra h2
        exact h ⟨fun h3 => absurd h3 h1, fun h3 => absurd h3 h2⟩
      exact ⟨_, _, h2, not_lt.mp h1, Or.inr ⟨rfl, rfl⟩⟩
  · rintro ⟨i, j, h1, h2, ⟨rfl, rfl⟩ | ⟨rfl, rfl⟩⟩ h
    · exact absurd (h.1 h1) (not_lt.mpr h2)
    · exact absurd (h.2 h1) (not_lt.mpr h2)

/-- The corners of the slice. -/
noncomputable def theCorners (t : Tetra) (z : ℝ) : List Corner := (t.crossed z).map (cornerAt (.init t) t z)

theorem corners_set (t : Tetra) (z : ℝ) : {p | ∃ c ∈ theCorners t z, p = (c.x, c.y)} = {p | ∃ i j, (t i).z < z ∧ z ≤ (t j).z ∧ p = meet t z (i, j)} := by
  ext p
  simp only [Set.mem_setOf_eq, theCorners, List.mem_map]
  constructor
  · rintro ⟨c, ⟨e, he, rfl⟩, rfl⟩
    obtain ⟨i, j, h1, h2, h3⟩ := (mem_crossed_iff t z e).1 he
    exact ⟨i, j, h1, h2, corner_meet t z e i j h1 h2 h3⟩
  · rintro ⟨i, j, h1, h2, rfl⟩
    obtain ⟨e, he, h3⟩ := crossedB_edge (below t z) i j (by simpa [below] using h1) (by simpa [below] using h2)
    exact ⟨_, ⟨e, he, rfl⟩, (corner_meet t z e i j h1 h2 h3).symm⟩

theorem meet_onEdge (t : Tetra) (z : ℝ) (i j : Fin 4) (hi : (t i).z < z) (hj : z ≤ (t j).z) :
    OnEdge (t i) (t j) ⟨(meet t z (i, j)).1, (meet t z (i, j)).2, z⟩ := by
  have h0 : 0 < (t j).z - (t i).z := by linarith
  refine ⟨(z - (t i).z) / ((t j).z - (t i).z), div_nonneg (by linarith) h0.le, (div_le_one h0).2 (by linarith), ?_⟩
  have h1 := h0.ne'
  ext <;> simp only [meet] <;> field_simp <;> ring

theorem onEdge_inTetra (t : Tetra) (i j : Fin 4) (x : Vec) (h : OnEdge (t i) (t j) x) : InTetra t x := by
  obtain ⟨s, h0, h1, rfl⟩ := h
  refine ⟨fun k => (if k = i then 1 - s else 0) + (if k = j then s else 0), fun k => ?_, ?_, ?_⟩
  · apply add_nonneg
    · by_cases hk : k = i <;> simp [hk, h1]
    · by_cases hk : k = j <;> simp [hk, h0]
  · fin_cases i <;> fin_cases j <;> simp
  · ext <;> fin_cases i <;> fin_cases j <;> simp <;> ring

theorem inTetra_sum (t : Tetra) (x : Vec) : InTetra t x ↔ ∃ w : Fin 4 → ℝ, (∀ i, 0 ≤ w i) ∧ ∑ i, w i = 1 ∧
    x.x = ∑ i, w i * (t i).x ∧ x.y = ∑ i, w i * (t i).y ∧ x.z = ∑ i, w i * (t i).z := by
  unfold InTetra
  simp only [Fin.sum_univ_four, Vec.ext_iff]

theorem convex_section (t : Tetra) (z : ℝ) : Convex ℝ {p : ℝ × ℝ | InTetra t ⟨p.1, p.2, z⟩} := by
  intro p hp q hq a b ha hb hab
  simp only [Set.mem_setOf_eq, inTetra_sum] at hp hq ⊢
  obtain ⟨w, w0, w1, wx, wy, wz⟩ := hp
  obtain ⟨v, v0, v1, vx, vy, vz⟩ := hq
  refine ⟨fun i => a * w i + b * v i, fun i => add_nonneg (mul_nonneg ha (w0 i)) (mul_nonneg hb (v0 i)), ?_, ?_, ?_, ?_⟩
  · rw [Finset.sum_add_distrib, ← Finset.mul_sum, ← Finset.mul_sum, w1, v1]
    linarith
  · simp only [add_mul, Finset.sum_add_distrib, mul_assoc, ← Finset.mul_sum, ← wx, ← vx]
    simp
  · simp only [add_mul, Finset.sum_add_distrib, mul_assoc, ← Finset.mul_sum, ← wy, ← vy]
    simp
  · simp only [add_mul, Finset.sum_add_distrib, mul_assoc, ← Finset.mul_sum, ← wz, ← vz]
    linear_combination (-z) * hab

theorem pair_sum (B A : Finset (Fin 4)) (w h : Fin 4 → ℝ) (zs : Fin 4 → ℝ) (z : ℝ) :
    ∑ p ∈ B ×ˢ A, w p.1 * w p.2 * (h p.1 * (zs p.2 - z) + h p.2 * (z - zs p.1)) =
      (∑ i ∈ B, w i * h i) * (∑ j ∈ A, w j * (zs j - z)) + (∑ i ∈ B, w i * (z - zs i)) * (∑ j ∈ A, w j * h j) := by
  rw [Finset.sum_mul_sum, Finset.sum_mul_sum, Finset.sum_product, ← Finset.sum_add_distrib]
  refine Finset.sum_congr rfl fun i _ => ?_
  rw [← Finset.sum_add_distrib]
  exact Finset.sum_congr rfl fun j _ => by ring

theorem section_in_hull (t : Tetra) (z : ℝ) (i0 : Fin 4) (hi0 : (t i0).z < z) (x y : ℝ) (h : InTetra t ⟨x, y, z⟩) :
    (x, y) ∈ convexHull ℝ {p | ∃ i j, (t i).z < z ∧ z ≤ (t j).z ∧ p = meet t z (i, j)} := by
  obtain ⟨w, w0, w1, wx, wy, wz⟩ := (inTetra_sum _ _).1 h
  dsimp only at wx wy wz
  set B : Finset (Fin 4) := Finset.univ.filter fun i => (t i).z < z with hB
  set A : Finset (Fin 4) := Finset.univ.filter fun i => ¬ (t i).z < z with hA
  have split : ∀ g : Fin 4 → ℝ, ∑ i, g i = ∑ i ∈ B, g i + ∑ i ∈ A, g i := fun g => (Finset.sum_filter_add_sum_filter_not _ _ _).symm
  have mB : ∀ i, i ∈ B ↔ (t i).z < z := fun i => by simp [hB]
  have mA : ∀ i, i ∈ A ↔ z ≤ (t i).z := fun i => by simp [hA]
  set D := ∑ j ∈ A, w j * ((t j).z - z) with hD
  have hDB : ∑ i ∈ B, w i * (z - (t i).z) = D := by
    have e : ∑ i, w i * ((t i).z - z) = 0 := by
      simp only [mul_sub, Finset.sum_sub_distrib, ← Finset.sum_mul, ← wz, w1]
      ring
    rw [split] at e
    have e2 : ∑ i ∈ B, w i * (z - (t i).z) = - ∑ i ∈ B, w i * ((t i).z - z) := by
      rw [← Finset.sum_neg_distrib]
      exact Finset.sum_congr rfl fun i _ => by ring
    rw [e2]
    linarith
  have hDnn : 0 ≤ D := Finset.sum_nonneg fun j hj => mul_nonneg (w0 j) (by have := (mA j).1 hj; linarith)
  have hconv := convex_convexHull ℝ {p | ∃ i j, (t i).z < z ∧ z ≤ (t j).z ∧ p = meet t z (i, j)}
  have hmem : ∀ i j, (t i).z < z → z ≤ (t j).z → meet t z (i, j) ∈ convexHull ℝ {p | ∃ i j, (t i).z < z ∧ z ≤ (t j).z ∧ p = meet t z (i, j)} :=
    fun i j h1 h2 => subset_convexHull ℝ _ ⟨i, j, h1, h2, rfl⟩
  rcases hDnn.lt_or_eq with hpos | hzero
  · have key : ∀ h : Fin 4 → ℝ, ∑ p ∈ B ×ˢ A, w p.1 * w p.2 * (h p.1 * ((t p.2).z - z) + h p.2 * (z - (t p.1).z)) = D * ∑ i, w i * h i := by
      intro g
      rw [pair_sum B A w g (fun i => (t i).z) z, hDB, split]
      ring
    have hsum := hconv.sum_mem (t := B ×ˢ A) (w := fun p => w p.1 * w p.2 * ((t p.2).z - (t p.1).z) / D) (z := fun p => meet t z p)
      (fun p hp => by
        rw [Finset.mem_product, mB, mA] at hp
        exact div_nonneg (mul_nonneg (mul_nonneg (w0 _) (w0 _)) (by linarith [hp.1, hp.2])) hpos.le)
      (by
        have k := key fun _ => 1
        rw [← Finset.sum_div, div_eq_one_iff_eq hpos.ne']
        simp only [mul_one, one_mul, w1] at k
        rw [← k]
        exact Finset.sum_congr rfl fun p _ => by ring)
      (fun p hp => by
        rw [Finset.mem_product, mB, mA] at hp
        exact hmem p.1 p.2 hp.1 hp.2)
    convert hsum using 1
    have nz : ∀ p ∈ B ×ˢ A, (t p.2).z - (t p.1).z ≠ 0 := fun p hp => by
      rw [Finset.mem_product, mB, mA] at hp
      have : 0 < (t p.2).z - (t p.1).z := by linarith [hp.1, hp.2]
      exact this.ne'
    ext
    · rw [Prod.fst_sum]
      dsimp only
      rw [wx, eq_comm, ← mul_right_inj' hpos.ne', ← key, Finset.mul_sum]
      refine Finset.sum_congr rfl fun p hp => ?_
      have := nz p hp
      have hD0 := hpos.ne'
      simp only [meet, Prod.smul_mk, smul_eq_mul]
      field_simp
    · rw [Prod.snd_sum]
      dsimp only
      rw [wy, eq_comm, ← mul_right_inj' hpos.ne', ← key, Finset.mul_sum]
      refine Finset.sum_congr rfl fun p hp => ?_
      have := nz p hp
      have hD0 := hpos.ne'
      simp only [meet, Prod.smul_mk, smul_eq_mul]
      field_simp
  · have zB : ∀ i ∈ B, w i = 0 := by
      have e := (Finset.sum_eq_zero_iff_of_nonneg (fun i hi => mul_nonneg (w0 i) (by have := (mB i).1 hi; linarith))).1 (hDB.trans hzero.symm)
      intro i hi
      rcases mul_eq_zero.1 (e i hi) with h1 | h1
      · exact h1
      · have := (mB i).1 hi
        linarith
    have zA : ∀ j ∈ A, w j = 0 ∨ (t j).z = z := by
      have e := (Finset.sum_eq_zero_iff_of_nonneg (fun j hj => mul_nonneg (w0 j) (by have := (mA j).1 hj; linarith))).1 hzero.symm
      intro j hj
      rcases mul_eq_zero.1 (e j hj) with h1 | h1
      · exact Or.inl h1
      · exact Or.inr (by linarith)
    have sB : ∀ g : Fin 4 → ℝ, ∑ i ∈ B, w i * g i = 0 := fun g => Finset.sum_eq_zero fun i hi => by rw [zB i hi, zero_mul]
    have hsum := hconv.sum_mem (t := A) (w := w) (z := fun j => meet t z (i0, j)) (fun j _ => w0 j)
      (by
        rw [split] at w1
        have := sB fun _ => 1
        simp only [mul_one] at this
        linarith)
      (fun j hj => hmem i0 j hi0 ((mA j).1 hj))
    convert hsum using 1
    have hv : ∀ j ∈ A, w j • meet t z (i0, j) = w j • ((t j).x, (t j).y) := by
      intro j hj
      rcases zA j hj with h1 | h1
      · rw [h1, zero_smul, zero_smul]
      · congr 1
        have h2 : z - (t i0).z ≠ 0 := by
          have : 0 < z - (t i0).z := by linarith
          exact this.ne'
        simp only [meet, h1]
        ext <;> dsimp only <;> field_simp <;> ring
    rw [Finset.sum_congr rfl hv]
    ext
    · rw [Prod.fst_sum]
      simp only [Prod.smul_mk, smul_eq_mul]
      rw [wx, split, sB, zero_add]
    · rw [Prod.snd_sum]
      simp only [Prod.smul_mk, smul_eq_mul]
      rw [wy, split, sB, zero_add]

theorem section_eq (t : Tetra) (z : ℝ) (i0 : Fin 4) (hi0 : (t i0).z < z) (x y : ℝ) : (x, y) ∈ polygon (theCorners t z) ↔ InTetra t ⟨x, y, z⟩ := by
  unfold polygon
  rw [corners_set]
  constructor
  · intro h
    have := convexHull_min (s := {p | ∃ i j, (t i).z < z ∧ z ≤ (t j).z ∧ p = meet t z (i, j)}) (t := {p : ℝ × ℝ | InTetra t ⟨p.1, p.2, z⟩}) ?_
      (convex_section t z) h
    · exact this
    · rintro p ⟨i, j, h1, h2, rfl⟩
      exact onEdge_inTetra t i j _ (meet_onEdge t z i j h1 h2)
  · exact section_in_hull t z i0 hi0 x y


/-! ### Angles and linking -/

theorem cornerPhi_range (x y : ℝ) : 0 ≤ cornerPhi x y ∧ cornerPhi x y < 2 * π := by
  have h1 := Complex.neg_pi_lt_arg ⟨x, y⟩
  have h2 := Complex.arg_le_pi ⟨x, y⟩
  have hpi := pi_pos
  unfold cornerPhi atan2
  by_cases h : Complex.arg ⟨x, y⟩ < 0
  · rw [if_pos h]
    constructor <;> linarith
  · rw [if_neg h]
    constructor <;> linarith

theorem cornerPhi_polar (x y : ℝ) : x = sqrt (x ^ 2 + y ^ 2) * cos (cornerPhi x y) ∧ y = sqrt (x ^ 2 + y ^ 2) * sin (cornerPhi x y) := by
  have hn : ‖(⟨x, y⟩ : ℂ)‖ = sqrt (x ^ 2 + y ^ 2) := by
    rw [Complex.norm_def, Complex.normSq_mk]
    congr 1
    ring
  have h1 := Complex.norm_mul_cos_arg ⟨x, y⟩
  have h2 := Complex.norm_mul_sin_arg ⟨x, y⟩
  rw [hn] at h1 h2
  unfold cornerPhi atan2
  by_cases h : Complex.arg ⟨x, y⟩ < 0
  · rw [if_pos h, cos_add_two_pi, sin_add_two_pi]
    exact ⟨h1.symm, h2.symm⟩
  · rw [if_neg h]
    exact ⟨h1.symm, h2.symm⟩

theorem angularDistance_anti (a b : ℝ) : angularDistance b a = -angularDistance a b := by
  have hpi := pi_pos
  unfold angularDistance
  by_cases h1 : b - a > π
  · rw [if_neg (by linarith), if_pos (by linarith), if_pos h1]
    ring
  · by_cases h2 : b - a < -π
    · rw [if_pos (by linarith), if_neg h1, if_pos h2]
      ring
    · rw [if_neg (by linarith), if_neg (by linarith), if_neg h1, if_neg h2]
      ring

/-- What `link` stores about the side between the corners `a` and `b`. -/
def GoodSide (cs : List Corner) (a b : Nat) (s : Side) : Prop :=
  ((s.start = a ∧ s.stop = b) ∨ (s.start = b ∧ s.stop = a)) ∧ ∃ c d, cs[s.start]? = some c ∧ cs[s.stop]? = some d ∧ s.phiStart = c.phi ∧
    s.phiWidth = angularDistance c.phi d.phi ∧ 0 ≤ s.phiWidth ∧ ∃ old : Line, old.init c.x c.y d.x d.y = (s.line, true)

theorem close_symm (a b : Corner) : a.close b ↔ b.close a := by
  unfold Corner.close
  rw [abs_sub_comm a.x, abs_sub_comm a.y]

theorem linkSides_spec (cs : List Corner) (old : Nat → Line) (pairs : List (Nat × Nat)) (hp : ∀ p ∈ pairs, p.1 < cs.length ∧ p.2 < cs.length) (i : Nat) :
    (∃ r, linkSides cs old i (pairs.map fun p => (some p.1, some p.2)) = some r) ∧
    (∀ ss, linkSides cs old i (pairs.map fun p => (some p.1, some p.2)) = some (some ss) →
      List.Forall₂ (fun (p : Nat × Nat) s => GoodSide cs p.1 p.2 s) pairs ss ∧
        ∀ p ∈ pairs, ∀ c d, cs[p.1]? = some c → cs[p.2]? = some d → ¬ c.close d) ∧
    (linkSides cs old i (pairs.map fun p => (some p.1, some p.2)) = some none →
      ∃ p ∈ pairs, ∃ c d, cs[p.1]? = some c ∧ cs[p.2]? = some d ∧ c.close d) := by
  induction pairs generalizing i with
  | nil =>
    refine ⟨⟨_, rfl⟩, ?_, ?_⟩
    · intro ss h
      simp only [List.map_nil, linkSides, Option.some.injEq] at h
      subst h
      exact ⟨.nil, fun p hp => by simp at hp⟩
    · intro h
      simp [linkSides] at h
  | cons p rest ih =>
    obtain ⟨a, b⟩ := p
    obtain ⟨ha, hb⟩ := hp (a, b) (by simp)
    dsimp only at ha hb
    obtain ⟨ih1, ih2, ih3⟩ := ih (fun q hq => hp q (by simp [hq])) (i + 1)
    have ea : cs[a]? = some cs[a] := List.getElem?_eq_getElem ha
    have eb : cs[b]? = some cs[b] := List.getElem?_eq_getElem hb
    -- the side without its line
    obtain ⟨s, es, c1, c2, e1, e2, hs1, hs2, hs3, hs4, hcl⟩ : ∃ s, sideOf cs a b = some s ∧ ∃ c1 c2, cs[s.start]? = some c1 ∧ cs[s.stop]? = some c2 ∧
        ((s.start = a ∧ s.stop = b) ∨ (s.start = b ∧ s.stop = a)) ∧ s.phiStart = c1.phi ∧ s.phiWidth = angularDistance c1.phi c2.phi ∧ 0 ≤ s.phiWidth ∧
        (c1.close c2 ↔ cs[a].close cs[b]) := by
      unfold sideOf
      simp only [ea, eb, Option.bind_eq_bind, Option.bind_some]
      by_cases hw : angularDistance cs[a].phi cs[b].phi < 0
      · simp only [hw, if_true]
        refine ⟨_, rfl, _, _, eb, ea, Or.inr ⟨rfl, rfl⟩, rfl, (angularDistance_anti _ _).symm, ?_, close_symm _ _⟩
        dsimp only
        linarith
      · simp only [hw, if_false]
        exact ⟨_, rfl, _, _, ea, eb, Or.inl ⟨rfl, rfl⟩, rfl, rfl, not_lt.mp hw, Iff.rfl⟩
    have key : linkSides cs old i (((a, b) :: rest).map fun p => (some p.1, some p.2)) =
        if ((old i).init c1.x c1.y c2.x c2.y).2 = false then some none
        else (linkSides cs old (i + 1) (rest.map fun p => (some p.1, some p.2))).map fun r =>
          r.map fun ss => { s with line := ((old i).init c1.x c1.y c2.x c2.y).1 } :: ss := by
      simp only [List.map_cons, linkSides, Option.bind_eq_bind, Option.bind_some, es, e1, e2]
    rw [key]
    have href := (C87_refused (old i) c1.x c1.y c2.x c2.y).1
    by_cases hl : ((old i).init c1.x c1.y c2.x c2.y).2 = false
    · simp only [hl, if_true]
      refine ⟨⟨_, rfl⟩, fun ss h => by simp at h, fun _ => ⟨(a, b), by simp, _, _, ea, eb, hcl.1 (href.1 hl)⟩⟩
    · rw [if_neg hl]
      have hncl : ¬ cs[a].close cs[b] := fun hc => hl (href.2 (hcl.2 hc))
      obtain ⟨r, hr⟩ := ih1
      rw [hr]
      refine ⟨⟨_, rfl⟩, ?_, ?_⟩
      · intro ss h
        cases r with
        | none => simp at h
        | some rs =>
          simp only [Option.map_some, Option.some.injEq] at h
          subst h
          obtain ⟨g1, g2⟩ := ih2 rs hr
          refine ⟨.cons ⟨hs1, c1, c2, e1, e2, hs2, hs3, hs4, old i, ?_⟩ g1, ?_⟩
          · exact Prod.ext rfl (by simpa using hl)
          · intro q hq
            rcases List.mem_cons.1 hq with rfl | hq
            · intro c d hc hd
              dsimp only at hc hd
              rw [ea] at hc
              rw [eb] at hd
              cases hc
              cases hd
              exact hncl
            · exact g2 q hq
      · intro h
        cases r with
        | some rs => simp at h
        | none =>
          obtain ⟨q, hq, x⟩ := ih3 hr
          exact ⟨q, by simp [hq], x⟩

/-- The pairs of corners that are linked. -/
def orderPairs (o : List Nat) (n : Nat) : List (Nat × Nat) := (List.range n).map fun i => (o.getD i 0, o.getD ((i + 1) % n) 0)

theorem slice_cases (t : Tetra) (z : ℝ) (old : Nat → Line) :
    ((∃ i j, (t i).z < z ∧ z ≤ (t j).z) ↔ 3 ≤ (t.crossed z).length) ∧ (t.crossed z).length ≤ 4 := by
  rw [crossed_eq]
  refine ⟨?_, (crossedB_length _).1⟩
  rw [(crossedB_length (below t z)).2]
  simp [below]

theorem slice_eq (t : Tetra) (z : ℝ) (old : Nat → Line) (h : 3 ≤ (t.crossed z).length) :
    ∃ o : List Nat, o.Nodup ∧ o.length = (t.crossed z).length ∧ (∀ k ∈ o, k < (t.crossed z).length) ∧
      (∀ i < (t.crossed z).length, faceShare ((t.crossed z).getD (o.getD i 0) 0) ((t.crossed z).getD (o.getD ((i + 1) % (t.crossed z).length) 0) 0) = true) ∧
      (∀ j < (t.crossed z).length, ∀ k < (t.crossed z).length, faceShare ((t.crossed z).getD j 0) ((t.crossed z).getD k 0) = true →
        (j, k) ∈ orderPairs o (t.crossed z).length ∨ (k, j) ∈ orderPairs o (t.crossed z).length) ∧
      zPlaneSlice (.init t) t z old =
        (linkSides (theCorners t z) old 0 ((orderPairs o (t.crossed z).length).map fun p => (some p.1, some p.2))).map fun r => r.map fun ss => ⟨theCorners t z, ss⟩ := by
  rw [crossed_eq] at h ⊢
  obtain ⟨l1, l2, l3, l4, l5, l6⟩ := link_ok _ h
  have e : (orderPairs (linkOrder (crossedB (below t z))) (crossedB (below t z)).length).map (fun p => ((some p.1, some p.2) : Option Nat × Option Nat)) =
      linkPairs (crossedB (below t z)) := by
    rw [l4, orderPairs, List.map_map]
    rfl
  refine ⟨linkOrder (crossedB (below t z)), l1, l2, l3, fun i hi => l5 i (List.mem_range.2 hi), fun j hj k hk hs => ?_, ?_⟩
  · have := l6 j (List.mem_range.2 hj) k (List.mem_range.2 hk) hs
    rw [← e] at this
    simpa using this
  · unfold zPlaneSlice
    simp only [crossed_eq]
    have hle := (crossedB_length (below t z)).1
    have h1 : ¬ (crossedB (below t z)).length > 4 := Nat.not_lt.mpr hle
    have h2 : ¬ (crossedB (below t z)).length < 3 := Nat.not_lt.mpr h
    simp only [h1, h2, if_false, e]
    rfl


/-! ### C86: corners, section and sides -/

theorem slice_some (t : Tetra) (z : ℝ) (old : Nat → Line) (s : Slice) (h : zPlaneSlice (.init t) t z old = some (some s)) :
    3 ≤ (t.crossed z).length ∧ s.corners = theCorners t z := by
  by_cases h3 : 3 ≤ (t.crossed z).length
  · refine ⟨h3, ?_⟩
    obtain ⟨o, -, -, -, -, -, e⟩ := slice_eq t z old h3
    rw [e] at h
    simp only [Option.map_eq_some_iff] at h
    obtain ⟨r, -, ss, -, rfl⟩ := h
    rfl
  · have h4 : (t.crossed z).length < 3 := Nat.not_le.mp h3
    have h5 : ¬ (t.crossed z).length > 4 := by omega
    simp [zPlaneSlice, h4, h5] at h

/-- C86: the code never leaves its arrays, for every tetrahedron and plane. -/
theorem C86_no_panic (t : Tetra) (z : ℝ) (old : Nat → Line) : ∃ r, zPlaneSlice (.init t) t z old = some r := by
  by_cases h3 : 3 ≤ (t.crossed z).length
  · obtain ⟨o, o1, o2, o3, -, -, e⟩ := slice_eq t z old h3
    have hp : ∀ p ∈ orderPairs o (t.crossed z).length, p.1 < (theCorners t z).length ∧ p.2 < (theCorners t z).length := by
      intro p hp
      simp only [orderPairs, List.mem_map, List.mem_range] at hp
      obtain ⟨i, hi, rfl⟩ := hp
      have hm : (i + 1) % (t.crossed z).length < o.length := by rw [o2]; exact Nat.mod_lt _ (by omega)
      have hi' : i < o.length := by omega
      simp only [theCorners, List.length_map]
      rw [List.getD_eq_getElem _ _ hi', List.getD_eq_getElem _ _ hm]
      exact ⟨o3 _ (List.getElem_mem _), o3 _ (List.getElem_mem _)⟩
    obtain ⟨r, hr⟩ := (linkSides_spec (theCorners t z) old _ hp 0).1
    rw [e, hr]
    exact ⟨_, rfl⟩
  · have h4 : (t.crossed z).length < 3 := Nat.not_le.mp h3
    have h5 : ¬ (t.crossed z).length > 4 := by omega
    exact ⟨none, by simp [zPlaneSlice, h4, h5]⟩

/-- C86: a slice has three or four corners, one on each of as many different edges of the tetrahedron; every corner is in the plane, on its edge, and has its
polar angle in [0, 2π). -/
theorem C86_corners (t : Tetra) (z : ℝ) (old : Nat → Line) (s : Slice) (h : zPlaneSlice (.init t) t z old = some (some s)) :
    (s.corners.length = 3 ∨ s.corners.length = 4) ∧ (s.corners.map Corner.edge).Nodup ∧
    ∀ c ∈ s.corners, OnEdge (t (edgeStart c.edge)) (t (edgeEnd c.edge)) ⟨c.x, c.y, z⟩ ∧ 0 ≤ c.phi ∧ c.phi < 2 * π ∧
      c.x = sqrt (c.x ^ 2 + c.y ^ 2) * cos c.phi ∧ c.y = sqrt (c.x ^ 2 + c.y ^ 2) * sin c.phi := by
  obtain ⟨h3, e⟩ := slice_some t z old s h
  have h4 := (slice_cases t z old).2
  rw [e]
  refine ⟨by simp only [theCorners, List.length_map]; omega, ?_, ?_⟩
  · have : (theCorners t z).map Corner.edge = t.crossed z := by
      unfold theCorners
      rw [List.map_map]
      exact List.map_id _
    rw [this]
    exact (List.nodup_finRange 6).filter _
  · intro c hc
    simp only [theCorners, List.mem_map] at hc
    obtain ⟨e, he, rfl⟩ := hc
    obtain ⟨i, j, h1, h2, h3⟩ := (mem_crossed_iff t z e).1 he
    have hm := corner_meet t z e i j h1 h2 h3
    have hx : (cornerAt (.init t) t z e).x = (meet t z (i, j)).1 := congrArg Prod.fst hm
    have hy : (cornerAt (.init t) t z e).y = (meet t z (i, j)).2 := congrArg Prod.snd hm
    refine ⟨?_, (cornerPhi_range _ _).1, (cornerPhi_range _ _).2, cornerPhi_polar _ _⟩
    rw [hx, hy]
    have ho := meet_onEdge t z i j h1 h2
    show OnEdge (t (edgeStart e)) (t (edgeEnd e)) _
    rcases h3 with ⟨rfl, rfl⟩ | ⟨rfl, rfl⟩
    · exact ho
    · obtain ⟨s, s0, s1, hs⟩ := ho
      refine ⟨1 - s, by linarith, by linarith, ?_⟩
      rw [hs]
      ext <;> dsimp only <;> ring

/-- C86: the polygon with these corners is exactly the cross-section of the tetrahedron with the plane. -/
theorem C86_section (t : Tetra) (z : ℝ) (old : Nat → Line) (s : Slice) (h : zPlaneSlice (.init t) t z old = some (some s)) (x y : ℝ) :
    (x, y) ∈ polygon s.corners ↔ InTetra t ⟨x, y, z⟩ := by
  obtain ⟨h3, e⟩ := slice_some t z old s h
  obtain ⟨i, j, hi, -⟩ := (slice_cases t z old).1.2 h3
  rw [e]
  exact section_eq t z i hi x y

theorem crossed_getD (t : Tetra) (z : ℝ) (k : Nat) (hk : k < (t.crossed z).length) (c : Corner) (hc : (theCorners t z)[k]? = some c) :
    c.edge = (t.crossed z).getD k 0 ∧ c = cornerAt (.init t) t z ((t.crossed z).getD k 0) := by
  rw [List.getD_eq_getElem _ _ hk]
  simp only [theCorners, List.getElem?_map, List.getElem?_eq_getElem hk, Option.map_some, Option.some.injEq] at hc
  subst hc
  exact ⟨rfl, rfl⟩

/-- C86: the sides of a slice run once around its corners: in a suitable order `o` of the corners, side number `i` joins corner `o i` with the next one (the last
with the first).  Both ends of a side are on a common face of the tetrahedron, its line passes through its ends (through the second one up to 1e-5 when it is
vertical), and its angular range starts at the angle of one end and turns by at most π to the angle of the other. -/
theorem C86_sides (t : Tetra) (z : ℝ) (old : Nat → Line) (s : Slice) (h : zPlaneSlice (.init t) t z old = some (some s)) :
    s.sides.length = s.corners.length ∧
    ∃ o : List Nat, o.Nodup ∧ o.length = s.corners.length ∧ (∀ k ∈ o, k < s.corners.length) ∧
      ∀ (i : Nat) (d : Side), s.sides[i]? = some d → ∃ a b c1 c2, o[i]? = some a ∧ o[(i + 1) % s.corners.length]? = some b ∧
        ((d.start = a ∧ d.stop = b) ∨ (d.start = b ∧ d.stop = a)) ∧ s.corners[d.start]? = some c1 ∧ s.corners[d.stop]? = some c2 ∧
        CommonFace c1.edge c2.edge ∧ d.phiStart = c1.phi ∧ 0 ≤ d.phiWidth ∧ d.phiWidth ≤ π ∧ (∃ k : ℤ, c2.phi = c1.phi + d.phiWidth + 2 * π * k) ∧
        d.line.Has c1.x c1.y ∧ (d.line.Has c2.x c2.y ∨ (d.line.vertical = true ∧ |c1.x - c2.x| < 1 / 100000)) := by
  obtain ⟨h3, ec⟩ := slice_some t z old s h
  obtain ⟨o, o1, o2, o3, o4, -, e⟩ := slice_eq t z old h3
  set n := (t.crossed z).length with hn
  have hcl : (theCorners t z).length = n := by simp [theCorners, hn]
  have hidx : ∀ i < n, o.getD i 0 < n := fun i hi => by
    rw [List.getD_eq_getElem _ _ (by omega)]
    exact o3 _ (List.getElem_mem _)
  have hmod : ∀ i, (i + 1) % n < n := fun i => Nat.mod_lt _ (by omega)
  have hp : ∀ p ∈ orderPairs o n, p.1 < (theCorners t z).length ∧ p.2 < (theCorners t z).length := by
    intro p hp
    simp only [orderPairs, List.mem_map, List.mem_range] at hp
    obtain ⟨i, hi, rfl⟩ := hp
    rw [hcl]
    exact ⟨hidx i hi, hidx _ (hmod i)⟩
  rw [e] at h
  simp only [Option.map_eq_some_iff] at h
  obtain ⟨r, hr, ss, rfl, rfl⟩ := h
  have hg := ((linkSides_spec (theCorners t z) old _ hp 0).2.1 ss hr).1
  have hlen : ss.length = n := by rw [← hg.length_eq]; simp [orderPairs]
  dsimp only at ec ⊢
  refine ⟨by rw [hlen, hcl], o, o1, by rw [o2, hcl], by rw [hcl]; exact o3, ?_⟩
  intro i d hd
  have hi : i < ss.length := (List.getElem?_eq_some_iff.1 hd).1
  have hi2 : i < (orderPairs o n).length := by rw [hg.length_eq]; exact hi
  have hgi := List.Forall₂.get hg hi2 hi
  have ed : ss.get ⟨i, hi⟩ = d := (List.getElem?_eq_some_iff.1 hd).2
  rw [ed] at hgi
  have ep : (orderPairs o n).get ⟨i, hi2⟩ = (o.getD i 0, o.getD ((i + 1) % n) 0) := by simp [orderPairs]
  rw [ep] at hgi
  obtain ⟨hends, c1, c2, hc1, hc2, g1, g2, g3, old', g4⟩ := hgi
  dsimp only at hends
  rw [hlen] at hi
  have hshare := o4 i hi
  have hoi : o[i]? = some (o.getD i 0) := by rw [List.getD_eq_getElem _ _ (by omega)]; exact List.getElem?_eq_getElem _
  have hoj : o[(i + 1) % n]? = some (o.getD ((i + 1) % n) 0) := by
    rw [List.getD_eq_getElem _ _ (by have := hmod i; omega)]
    exact List.getElem?_eq_getElem _
  have hcf : CommonFace c1.edge c2.edge := by
    rcases hends with ⟨h1, h2⟩ | ⟨h1, h2⟩
    · have e1 := (crossed_getD t z _ (by rw [h1]; exact hidx i hi) c1 hc1).1
      have e2 := (crossed_getD t z _ (by rw [h2]; exact hidx _ (hmod i)) c2 hc2).1
      rw [e1, e2, h1, h2]
      exact (faceShare_iff _ _).1 hshare
    · have e1 := (crossed_getD t z _ (by rw [h1]; exact hidx _ (hmod i)) c1 hc1).1
      have e2 := (crossed_getD t z _ (by rw [h2]; exact hidx i hi) c2 hc2).1
      rw [e1, e2, h1, h2]
      obtain ⟨f, j, k, q1, q2, q3⟩ := (faceShare_iff _ _).1 hshare
      exact ⟨f, k, j, q1.symm, q3, q2⟩
  have hphi : ∀ c ∈ theCorners t z, 0 ≤ c.phi ∧ c.phi < 2 * π := by
    intro c hc
    simp only [theCorners, List.mem_map] at hc
    obtain ⟨e, -, rfl⟩ := hc
    exact cornerPhi_range _ _
  have p1 := hphi c1 (List.mem_of_getElem? hc1)
  have p2 := hphi c2 (List.mem_of_getElem? hc2)
  obtain ⟨-, a2, k, a3⟩ := C55_angular_distance c1.phi c2.phi p1.1 p1.2 p2.1 p2.2
  have hthr := C87_through old' c1.x c1.y c2.x c2.y (by rw [g4])
  rw [g4] at hthr
  refine ⟨_, _, c1, c2, hoi, by rw [hcl]; exact hoj, hends, hc1, hc2, hcf, g1, g3, by rw [g2]; exact a2, ⟨-k, ?_⟩, hthr.1, ?_⟩
  · rw [g2, a3]
    push_cast
    ring
  · rcases hthr.2 with h1 | h1
    · exact Or.inl h1
    · exact Or.inr ⟨h1.1, h1.2.2⟩

/-- An edge has its ends on different sides of the plane. -/
def Crosses (t : Tetra) (z : ℝ) (e : Fin 6) : Prop := ¬ ((t (edgeStart e)).z < z ↔ (t (edgeEnd e)).z < z)

theorem mem_crossed (t : Tetra) (z : ℝ) (e : Fin 6) : e ∈ t.crossed z ↔ Crosses t z e := by
  simp [Tetra.crossed, Tetra.crosses, Crosses]

theorem onEdge_unique (a b : Vec) (z : ℝ) (hne : a.z ≠ b.z) (p q : Vec) (hp : OnEdge a b p) (hq : OnEdge a b q) (h1 : p.z = z) (h2 : q.z = z) : p = q := by
  obtain ⟨s, -, -, rfl⟩ := hp
  obtain ⟨r, -, -, rfl⟩ := hq
  dsimp only at h1 h2
  have : (s - r) * (b.z - a.z) = 0 := by linear_combination h1 - h2
  rcases mul_eq_zero.1 this with h | h
  · have : s = r := by linarith
    rw [this]
  · exact absurd (by linarith) hne

theorem corner_onEdge (t : Tetra) (z : ℝ) (e : Fin 6) (he : e ∈ t.crossed z) :
    OnEdge (t (edgeStart e)) (t (edgeEnd e)) ⟨(cornerAt (.init t) t z e).x, (cornerAt (.init t) t z e).y, z⟩ := by
  obtain ⟨i, j, h1, h2, h3⟩ := (mem_crossed_iff t z e).1 he
  have hm := corner_meet t z e i j h1 h2 h3
  have hx : (cornerAt (.init t) t z e).x = (meet t z (i, j)).1 := congrArg Prod.fst hm
  have hy : (cornerAt (.init t) t z e).y = (meet t z (i, j)).2 := congrArg Prod.snd hm
  rw [hx, hy]
  have ho := meet_onEdge t z i j h1 h2
  rcases h3 with ⟨rfl, rfl⟩ | ⟨rfl, rfl⟩
  · exact ho
  · obtain ⟨s, s0, s1, hs⟩ := ho
    refine ⟨1 - s, by linarith, by linarith, ?_⟩
    rw [hs]
    ext <;> dsimp only <;> ring

/-- C86, when there is a slice: exactly when a vertex is below the plane, a vertex is not below it, and any two edges of a face that cross the plane do so at points
that are at least 1e-5 apart in one coordinate. -/
theorem C86_ok_partial (t : Tetra) (z : ℝ) (old : Nat → Line) :
    (∃ s, zPlaneSlice (.init t) t z old = some (some s)) ↔
    (∃ i j, (t i).z < z ∧ z ≤ (t j).z) ∧
    ∀ e f, Crosses t z e → Crosses t z f → CommonFace e f → ∀ p q : Vec, p.z = z → q.z = z → OnEdge (t (edgeStart e)) (t (edgeEnd e)) p →
      OnEdge (t (edgeStart f)) (t (edgeEnd f)) q → ¬ (|p.x - q.x| < 1 / 100000 ∧ |p.y - q.y| < 1 / 100000) := by
  rw [(slice_cases t z old).1]
  constructor
  · rintro ⟨s, h⟩
    obtain ⟨h3, -⟩ := slice_some t z old s h
    refine ⟨h3, ?_⟩
    obtain ⟨o, o1, o2, o3, o4, o5, e⟩ := slice_eq t z old h3
    set n := (t.crossed z).length with hn
    have hcl : (theCorners t z).length = n := by simp [theCorners, hn]
    have hidx : ∀ i < n, o.getD i 0 < n := fun i hi => by
      rw [List.getD_eq_getElem _ _ (by omega)]
      exact o3 _ (List.getElem_mem _)
    have hp : ∀ p ∈ orderPairs o n, p.1 < (theCorners t z).length ∧ p.2 < (theCorners t z).length := by
      intro p hp
      simp only [orderPairs, List.mem_map, List.mem_range] at hp
      obtain ⟨i, hi, rfl⟩ := hp
      rw [hcl]
      exact ⟨hidx i hi, hidx _ (Nat.mod_lt _ (by omega))⟩
    rw [e] at h
    simp only [Option.map_eq_some_iff] at h
    obtain ⟨r, hr, ss, rfl, rfl⟩ := h
    have hg := ((linkSides_spec (theCorners t z) old _ hp 0).2.1 ss hr).2
    intro e f he hf hcf p q hpz hqz hpe hqf hclose
    have he' := (mem_crossed t z e).2 he
    have hf' := (mem_crossed t z f).2 hf
    have ez : (t (edgeStart e)).z ≠ (t (edgeEnd e)).z := fun hh => he (by rw [hh])
    have fz : (t (edgeStart f)).z ≠ (t (edgeEnd f)).z := fun hh => hf (by rw [hh])
    have hpc := onEdge_unique _ _ z ez _ _ hpe (corner_onEdge t z e he') hpz rfl
    have hqc := onEdge_unique _ _ z fz _ _ hqf (corner_onEdge t z f hf') hqz rfl
    obtain ⟨j, hj, ej⟩ := List.mem_iff_getElem.1 he'
    obtain ⟨k, hk, ek⟩ := List.mem_iff_getElem.1 hf'
    have gj : (t.crossed z).getD j 0 = e := by rw [List.getD_eq_getElem _ _ hj, ej]
    have gk : (t.crossed z).getD k 0 = f := by rw [List.getD_eq_getElem _ _ hk, ek]
    have cj : (theCorners t z)[j]? = some (cornerAt (.init t) t z e) := by
      simp [theCorners, List.getElem?_eq_getElem hj, ej]
    have ck : (theCorners t z)[k]? = some (cornerAt (.init t) t z f) := by
      simp [theCorners, List.getElem?_eq_getElem hk, ek]
    have hcc : (cornerAt (.init t) t z e).close (cornerAt (.init t) t z f) := by
      rw [hpc, hqc] at hclose
      exact hclose
    rcases o5 j hj k hk (by rw [gj, gk]; exact (faceShare_iff e f).2 hcf) with h1 | h1
    · exact hg _ h1 _ _ cj ck hcc
    · exact hg _ h1 _ _ ck cj ((close_symm _ _).1 hcc)
  · rintro ⟨h3, hsep⟩
    obtain ⟨o, o1, o2, o3, o4, o5, e⟩ := slice_eq t z old h3
    set n := (t.crossed z).length with hn
    have hcl : (theCorners t z).length = n := by simp [theCorners, hn]
    have hidx : ∀ i < n, o.getD i 0 < n := fun i hi => by
      rw [List.getD_eq_getElem _ _ (by omega)]
      exact o3 _ (List.getElem_mem _)
    have hmod : ∀ i, (i + 1) % n < n := fun i => Nat.mod_lt _ (by omega)
    have hp : ∀ p ∈ orderPairs o n, p.1 < (theCorners t z).length ∧ p.2 < (theCorners t z).length := by
      intro p hp
      simp only [orderPairs, List.mem_map, List.mem_range] at hp
      obtain ⟨i, hi, rfl⟩ := hp
      rw [hcl]
      exact ⟨hidx i hi, hidx _ (hmod i)⟩
    obtain ⟨⟨r, hr⟩, -, hnone⟩ := linkSides_spec (theCorners t z) old _ hp 0
    cases r with
    | some ss => exact ⟨⟨theCorners t z, ss⟩, by rw [e, hr]; rfl⟩
    | none =>
      exfalso
      obtain ⟨p, hpm, c, d, hc, hd, hclose⟩ := hnone hr
      simp only [orderPairs, List.mem_map, List.mem_range] at hpm
      obtain ⟨i, hi, rfl⟩ := hpm
      dsimp only at hc hd
      have e1 := (crossed_getD t z _ (hidx i hi) c hc).2
      have e2 := (crossed_getD t z _ (hidx _ (hmod i)) d hd).2
      have m1 : (t.crossed z).getD (o.getD i 0) 0 ∈ t.crossed z := by rw [List.getD_eq_getElem _ _ (hidx i hi)]; exact List.getElem_mem _
      have m2 : (t.crossed z).getD (o.getD ((i + 1) % n) 0) 0 ∈ t.crossed z := by
        rw [List.getD_eq_getElem _ _ (hidx _ (hmod i))]; exact List.getElem_mem _
      have := hsep _ _ ((mem_crossed t z _).1 m1) ((mem_crossed t z _).1 m2) ((faceShare_iff _ _).1 (o4 i hi)) _ _ rfl rfl
        (corner_onEdge t z _ m1) (corner_onEdge t z _ m2)
      rw [e1, e2] at hclose
      exact this hclose


/-! ### C86: which lines a direction meets -/

theorem angularWidth_spec (a b : ℝ) (ha : 0 ≤ a) (ha' : a < 2 * π) (hb : 0 ≤ b) (hb' : b < 2 * π) :
    0 < angularWidth a b ∧ angularWidth a b ≤ 2 * π ∧ ∃ k : ℤ, b = a + angularWidth a b + 2 * π * k := by
  unfold angularWidth
  by_cases h : a < b
  · rw [if_pos h]
    exact ⟨by linarith, by linarith, 0, by push_cast; ring⟩
  · rw [if_neg h]
    exact ⟨by linarith, by linarith, -1, by push_cast; ring⟩

theorem turn_unique (t t' : ℝ) (k : ℤ) (h : t - t' = 2 * π * k) (h1 : 0 < t) (h2 : t ≤ 2 * π) (h3 : 0 < t') (h4 : t' ≤ 2 * π) : t = t' := by
  have hpi := pi_pos
  have k1 : k < 1 := by
    by_contra hc
    have : (1 : ℝ) ≤ k := by exact_mod_cast not_lt.mp hc
    nlinarith
  have k2 : -1 < k := by
    by_contra hc
    have : (k : ℝ) ≤ -1 := by exact_mod_cast not_lt.mp hc
    nlinarith
  have : k = 0 := by omega
  subst this
  push_cast at h
  linarith

theorem angularWidth_unique (a b t : ℝ) (k : ℤ) (ha : 0 ≤ a) (ha' : a < 2 * π) (hb : 0 ≤ b) (hb' : b < 2 * π) (h : b = a + t + 2 * π * k) (h1 : 0 < t)
    (h2 : t ≤ 2 * π) : angularWidth a b = t := by
  obtain ⟨g1, g2, m, g3⟩ := angularWidth_spec a b ha ha' hb hb'
  exact turn_unique _ _ (k - m) (by push_cast; linarith) g1 g2 h1 h2

theorem sin_turn (a : ℝ) (k : ℤ) : sin (a + 2 * π * k) = sin a := by
  rw [show a + 2 * π * k = a + (k : ℝ) * (2 * π) by ring]
  exact sin_add_int_mul_two_pi a k

theorem cos_turn (a : ℝ) (k : ℤ) : cos (a + 2 * π * k) = cos a := by
  rw [show a + 2 * π * k = a + (k : ℝ) * (2 * π) by ring]
  exact cos_add_int_mul_two_pi a k

theorem segment_ray (a w d r1 r2 : ℝ) (hr1 : 0 < r1) (hr2 : 0 < r2) (hw : 0 < w) (hw' : w < π) (hd : 0 < d) (hd' : d ≤ 2 * π) :
    d < w ↔ ∃ R s : ℝ, 0 < R ∧ 0 < s ∧ s < 1 ∧ (1 - s) * (r1 * cos a) + s * (r2 * cos (a + w)) = R * cos (a + d) ∧
      (1 - s) * (r1 * sin a) + s * (r2 * sin (a + w)) = R * sin (a + d) := by
  have hpi := pi_pos
  have sw : 0 < sin w := sin_pos_of_pos_of_lt_pi hw hw'
  constructor
  · intro h
    have s1 : 0 < r1 * sin d := mul_pos hr1 (sin_pos_of_pos_of_lt_pi hd (by linarith))
    have s2 : 0 < r2 * sin (w - d) := mul_pos hr2 (sin_pos_of_pos_of_lt_pi (by linarith) (by linarith))
    have hs : 0 < r1 * sin d + r2 * sin (w - d) := by linarith
    have hs0 := hs.ne'
    refine ⟨r1 * r2 * sin w / (r1 * sin d + r2 * sin (w - d)), r1 * sin d / (r1 * sin d + r2 * sin (w - d)), div_pos (by positivity) hs, div_pos s1 hs,
      (div_lt_one hs).2 (by linarith), ?_, ?_⟩
    · field_simp
      rw [sin_sub, cos_add, cos_add]
      ring
    · field_simp
      rw [sin_sub, sin_add, sin_add]
      ring
  · rintro ⟨R, s, hR, hs0, hs1, hx, hy⟩
    have e1 : R * sin d = s * r2 * sin w := by
      have h1 : cos a * (R * sin (a + d)) - sin a * (R * cos (a + d)) = R * sin d := by
        rw [sin_add, cos_add]
        linear_combination R * sin d * (sin_sq_add_cos_sq a)
      have h2 : cos a * ((1 - s) * (r1 * sin a) + s * (r2 * sin (a + w))) - sin a * ((1 - s) * (r1 * cos a) + s * (r2 * cos (a + w))) = s * r2 * sin w := by
        rw [sin_add, cos_add]
        linear_combination s * r2 * sin w * (sin_sq_add_cos_sq a)
      rw [← h1, ← h2, hx, hy]
    have e2 : R * sin (w - d) = (1 - s) * r1 * sin w := by
      have h1 : sin (a + w) * (R * cos (a + d)) - cos (a + w) * (R * sin (a + d)) = R * sin (w - d) := by
        rw [show w - d = (a + w) - (a + d) by ring, sin_sub (a + w) (a + d)]
        ring
      have h2 : sin (a + w) * ((1 - s) * (r1 * cos a) + s * (r2 * cos (a + w))) - cos (a + w) * ((1 - s) * (r1 * sin a) + s * (r2 * sin (a + w))) =
          (1 - s) * r1 * sin w := by
        have : sin w = sin (a + w) * cos a - cos (a + w) * sin a := by rw [← sin_sub]; congr 1; ring
        rw [this]
        ring
      rw [← h1, ← h2, hx, hy]
    have p1 : 0 < sin d := by
      have : 0 < R * sin d := by rw [e1]; positivity
      exact (mul_pos_iff_of_pos_left hR).1 this
    have p2 : 0 < sin (w - d) := by
      have : 0 < R * sin (w - d) := by
        rw [e2]
        have : 0 < 1 - s := by linarith
        positivity
      exact (mul_pos_iff_of_pos_left hR).1 this
    by_contra hc
    have hc' : w ≤ d := not_lt.mp hc
    have hdpi : d < π := by
      by_contra hh
      have : sin d ≤ 0 := by
        have := sin_nonneg_of_nonneg_of_le_pi (x := d - π) (by linarith [not_lt.mp hh]) (by linarith)
        rw [sin_sub_pi] at this
        linarith
      linarith
    have : sin (w - d) ≤ 0 := sin_nonpos_of_nonpos_of_neg_pi_le (by linarith) (by linarith)
    linarith

theorem side_data (t : Tetra) (z : ℝ) (old : Nat → Line) (s : Slice) (h : zPlaneSlice (.init t) t z old = some (some s)) (d : Side) (hd : d ∈ s.sides) :
    ∃ c1 c2, s.corners[d.start]? = some c1 ∧ s.corners[d.stop]? = some c2 ∧ d.phiStart = c1.phi ∧ 0 ≤ d.phiWidth ∧ d.phiWidth ≤ π ∧
      (∃ k : ℤ, c2.phi = c1.phi + d.phiWidth + 2 * π * k) ∧ d.line.Has c1.x c1.y := by
  obtain ⟨-, o, -, -, -, hs⟩ := C86_sides t z old s h
  obtain ⟨i, hi, e⟩ := List.mem_iff_getElem.1 hd
  obtain ⟨a, b, c1, c2, -, -, -, h1, h2, -, h3, h4, h5, h6, h7, -⟩ := hs i d (List.getElem?_eq_some_iff.2 ⟨hi, e⟩)
  exact ⟨c1, c2, h1, h2, h3, h4, h5, h6, h7⟩

theorem hit_iff (d : Side) (phi : ℝ) (h0 : 0 ≤ d.phiStart) (h1 : d.phiStart < 2 * π) (hp : 0 ≤ phi) (hp' : phi < 2 * π) :
    d.hit phi ↔ angularWidth d.phiStart phi < d.phiWidth := by
  unfold Side.hit
  have := (angularWidth_spec d.phiStart phi h0 h1 hp hp').1
  exact ⟨fun h => h.2, fun h => ⟨this.le, h⟩⟩

/-- C86: for a side whose line does not pass through the origin, the test of a direction holds exactly when the ray from the origin in this direction meets the
side between its ends (the ends excluded). -/
theorem C86_direction_partial (t : Tetra) (z : ℝ) (old : Nat → Line) (s : Slice) (h : zPlaneSlice (.init t) t z old = some (some s)) (d : Side)
    (hd : d ∈ s.sides) (c1 c2 : Corner) (h1 : s.corners[d.start]? = some c1) (h2 : s.corners[d.stop]? = some c2) (hcol : c1.x * c2.y - c1.y * c2.x ≠ 0)
    (phi : ℝ) (hp : 0 ≤ phi) (hp' : phi < 2 * π) :
    d.hit phi ↔ ∃ R q : ℝ, 0 < R ∧ 0 < q ∧ q < 1 ∧ (1 - q) * c1.x + q * c2.x = R * cos phi ∧ (1 - q) * c1.y + q * c2.y = R * sin phi := by
  obtain ⟨c1', c2', e1, e2, g1, g2, g3, ⟨k, g4⟩, -⟩ := side_data t z old s h d hd
  rw [h1] at e1
  rw [h2] at e2
  cases e1
  cases e2
  obtain ⟨-, -, hc⟩ := C86_corners t z old s h
  obtain ⟨-, a1, a2, x1, y1⟩ := hc c1 (List.mem_of_getElem? h1)
  obtain ⟨-, -, -, x2, y2⟩ := hc c2 (List.mem_of_getElem? h2)
  rw [hit_iff d phi (by rw [g1]; exact a1) (by rw [g1]; exact a2) hp hp', g1]
  obtain ⟨b1, b2, m, b3⟩ := angularWidth_spec c1.phi phi a1 a2 hp hp'
  set r1 := sqrt (c1.x ^ 2 + c1.y ^ 2) with hr1
  set r2 := sqrt (c2.x ^ 2 + c2.y ^ 2) with hr2
  rw [g4, sin_turn] at y2
  rw [g4, cos_turn] at x2
  have hsin : c1.x * c2.y - c1.y * c2.x = r1 * r2 * sin d.phiWidth := by
    rw [x1, y1, x2, y2, sin_add, cos_add]
    linear_combination r1 * r2 * sin d.phiWidth * (sin_sq_add_cos_sq c1.phi)
  rw [hsin] at hcol
  have n1 : 0 < r1 := lt_of_le_of_ne (sqrt_nonneg _) fun hh => hcol (by rw [← hh]; ring)
  have n2 : 0 < r2 := lt_of_le_of_ne (sqrt_nonneg _) fun hh => hcol (by rw [← hh]; ring)
  have n3 : d.phiWidth ≠ 0 := fun hh => hcol (by rw [hh, sin_zero, mul_zero])
  have n4 : d.phiWidth ≠ π := fun hh => hcol (by rw [hh, sin_pi, mul_zero])
  have key := segment_ray c1.phi d.phiWidth (angularWidth c1.phi phi) r1 r2 n1 n2 (lt_of_le_of_ne g2 (Ne.symm n3)) (lt_of_le_of_ne g3 n4) b1 b2
  rw [key, ← x1, ← y1, ← x2, ← y2]
  have hcos : cos (c1.phi + angularWidth c1.phi phi) = cos phi := by
    conv_rhs => rw [b3, cos_turn]
  have hsn : sin (c1.phi + angularWidth c1.phi phi) = sin phi := by
    conv_rhs => rw [b3, sin_turn]
  rw [hcos, hsn]

/-- The side of the line through the origin in direction `phi` on which a point is. -/
noncomputable def sideOfRay (phi x y : ℝ) : ℝ := cos phi * y - sin phi * x

theorem hit_signs (t : Tetra) (z : ℝ) (old : Nat → Line) (s : Slice) (h : zPlaneSlice (.init t) t z old = some (some s)) (hne : ∀ c ∈ s.corners, ¬ (c.x = 0 ∧ c.y = 0))
    (d : Side) (hd : d ∈ s.sides) (c1 c2 : Corner) (h1 : s.corners[d.start]? = some c1) (h2 : s.corners[d.stop]? = some c2) (phi : ℝ) (hp : 0 ≤ phi)
    (hp' : phi < 2 * π) (hh : d.hit phi) : sideOfRay phi c1.x c1.y < 0 ∧ 0 < sideOfRay phi c2.x c2.y := by
  obtain ⟨c1', c2', e1, e2, g1, g2, g3, ⟨k, g4⟩, -⟩ := side_data t z old s h d hd
  rw [h1] at e1
  rw [h2] at e2
  cases e1
  cases e2
  obtain ⟨-, -, hc⟩ := C86_corners t z old s h
  obtain ⟨-, a1, a2, x1, y1⟩ := hc c1 (List.mem_of_getElem? h1)
  obtain ⟨-, -, -, x2, y2⟩ := hc c2 (List.mem_of_getElem? h2)
  rw [hit_iff d phi (by rw [g1]; exact a1) (by rw [g1]; exact a2) hp hp', g1] at hh
  obtain ⟨b1, b2, m, b3⟩ := angularWidth_spec c1.phi phi a1 a2 hp hp'
  have pos : ∀ c ∈ s.corners, 0 < sqrt (c.x ^ 2 + c.y ^ 2) := by
    intro c hcm
    apply sqrt_pos.2
    rcases not_and_or.1 (hne c hcm) with h0 | h0
    · have := pow_pos (abs_pos.2 h0) 2
      rw [sq_abs] at this
      nlinarith [sq_nonneg c.y]
    · have := pow_pos (abs_pos.2 h0) 2
      rw [sq_abs] at this
      nlinarith [sq_nonneg c.x]
  have n1 := pos c1 (List.mem_of_getElem? h1)
  have n2 := pos c2 (List.mem_of_getElem? h2)
  set r1 := sqrt (c1.x ^ 2 + c1.y ^ 2) with hr1
  set r2 := sqrt (c2.x ^ 2 + c2.y ^ 2) with hr2
  set w := angularWidth c1.phi phi with hw
  rw [g4, sin_turn] at y2
  rw [g4, cos_turn] at x2
  have hcos : cos (c1.phi + w) = cos phi := by
    conv_rhs => rw [b3, cos_turn]
  have hsn : sin (c1.phi + w) = sin phi := by
    conv_rhs => rw [b3, sin_turn]
  have q1 : sideOfRay phi c1.x c1.y = -(r1 * sin w) := by
    unfold sideOfRay
    rw [← hcos, ← hsn, x1, y1, sin_add, cos_add]
    linear_combination (-(r1 * sin w)) * (sin_sq_add_cos_sq c1.phi)
  have q2 : sideOfRay phi c2.x c2.y = r2 * sin (d.phiWidth - w) := by
    unfold sideOfRay
    rw [← hcos, ← hsn, x2, y2, show d.phiWidth - w = (c1.phi + d.phiWidth) - (c1.phi + w) by ring, sin_sub (c1.phi + d.phiWidth)]
    ring
  have sp1 : 0 < sin w := sin_pos_of_pos_of_lt_pi b1 (by linarith)
  have sp2 : 0 < sin (d.phiWidth - w) := sin_pos_of_pos_of_lt_pi (by linarith) (by linarith)
  rw [q1, q2]
  exact ⟨by have := mul_pos n1 sp1; linarith, mul_pos n2 sp2⟩

theorem no_alternation (t : Tetra) (z phi : ℝ) (e0 e1 e2 e3 : Fin 6) (m0 : e0 ∈ t.crossed z) (m1 : e1 ∈ t.crossed z) (m2 : e2 ∈ t.crossed z) (m3 : e3 ∈ t.crossed z)
    (f01 : faceShare e0 e1 = true) (f12 : faceShare e1 e2 = true) (f23 : faceShare e2 e3 = true) (f30 : faceShare e3 e0 = true) (n02 : e0 ≠ e2) (n13 : e1 ≠ e3)
    (X : Fin 6 → ℝ) (hX : ∀ e, X e = sideOfRay phi (cornerAt (.init t) t z e).x (cornerAt (.init t) t z e).y)
    (h01 : X e0 * X e1 < 0) (h12 : X e1 * X e2 < 0) (h23 : X e2 * X e3 < 0) : False := by
  rw [crossed_eq] at m0 m1 m2 m3
  obtain ⟨i, j, k, l, bi, bj, bk, bl, j0, j2, j13⟩ := quad_edges _ e0 m0 e1 m1 e2 m2 e3 m3 (by simp [f01, f12, f23, f30, n02, n13])
  simp only [below, decide_eq_true_eq, decide_eq_false_iff_not, not_lt] at bi bj bk bl
  set S : Fin 4 → ℝ := fun v => sideOfRay phi (t v).x (t v).y with hS
  have val : ∀ e a c, (t a).z < z → z ≤ (t c).z → joins e a c → X e * ((t c).z - (t a).z) = ((t c).z - z) * S a + (z - (t a).z) * S c := by
    intro e a c ha hc hj
    have hm := corner_meet t z e a c ha hc hj
    have hx : (cornerAt (.init t) t z e).x = (meet t z (a, c)).1 := congrArg Prod.fst hm
    have hy : (cornerAt (.init t) t z e).y = (meet t z (a, c)).2 := congrArg Prod.snd hm
    have h0 : (t c).z - (t a).z ≠ 0 := by
      have : 0 < (t c).z - (t a).z := by linarith
      exact this.ne'
    rw [hX, hx, hy]
    simp only [meet, sideOfRay, hS]
    field_simp
    ring
  -- the four corners, with signs alternating around the quadrilateral
  have main : ∀ p q r s : ℝ, ∀ (_ : p * ((t k).z - (t i).z) = ((t k).z - z) * S i + (z - (t i).z) * S k)
      (_ : q * ((t l).z - (t j).z) = ((t l).z - z) * S j + (z - (t j).z) * S l)
      (_ : r * ((t l).z - (t i).z) = ((t l).z - z) * S i + (z - (t i).z) * S l)
      (_ : s * ((t k).z - (t j).z) = ((t k).z - z) * S j + (z - (t j).z) * S k), ¬ (0 < p ∧ 0 < q ∧ r < 0 ∧ s < 0) ∧ ¬ (p < 0 ∧ q < 0 ∧ 0 < r ∧ 0 < s) := by
    intro p q r s hp hq hr hs
    have ak : 0 ≤ (t k).z - z := by linarith
    have al : 0 ≤ (t l).z - z := by linarith
    have bi' : 0 < z - (t i).z := by linarith
    have bj' : 0 < z - (t j).z := by linarith
    have ki : 0 < (t k).z - (t i).z := by linarith
    have lj : 0 < (t l).z - (t j).z := by linarith
    have li : 0 < (t l).z - (t i).z := by linarith
    have kj : 0 < (t k).z - (t j).z := by linarith
    have rel : ((t l).z - z) * (z - (t j).z) * (p * ((t k).z - (t i).z)) + ((t k).z - z) * (z - (t i).z) * (q * ((t l).z - (t j).z)) =
        ((t k).z - z) * (z - (t j).z) * (r * ((t l).z - (t i).z)) + ((t l).z - z) * (z - (t i).z) * (s * ((t k).z - (t j).z)) := by
      rw [hp, hq, hr, hs]
      ring
    have zero : ∀ p q r s : ℝ, 0 < p → 0 < q → r < 0 → s < 0 →
        ((t l).z - z) * (z - (t j).z) * (p * ((t k).z - (t i).z)) + ((t k).z - z) * (z - (t i).z) * (q * ((t l).z - (t j).z)) =
        ((t k).z - z) * (z - (t j).z) * (r * ((t l).z - (t i).z)) + ((t l).z - z) * (z - (t i).z) * (s * ((t k).z - (t j).z)) →
        (t l).z - z = 0 ∧ (t k).z - z = 0 := by
      intro p q r s hp hq hr hs rel
      have u1 : 0 ≤ ((t l).z - z) * (z - (t j).z) * (p * ((t k).z - (t i).z)) := by positivity
      have u2 : 0 ≤ ((t k).z - z) * (z - (t i).z) * (q * ((t l).z - (t j).z)) := by positivity
      have u3 : ((t k).z - z) * (z - (t j).z) * (r * ((t l).z - (t i).z)) ≤ 0 :=
        mul_nonpos_of_nonneg_of_nonpos (by positivity) (mul_nonpos_of_nonpos_of_nonneg hr.le li.le)
      have u4 : ((t l).z - z) * (z - (t i).z) * (s * ((t k).z - (t j).z)) ≤ 0 :=
        mul_nonpos_of_nonneg_of_nonpos (by positivity) (mul_nonpos_of_nonpos_of_nonneg hs.le kj.le)
      have w1 : ((t l).z - z) * (z - (t j).z) * (p * ((t k).z - (t i).z)) = 0 := by linarith
      have w2 : ((t k).z - z) * (z - (t i).z) * (q * ((t l).z - (t j).z)) = 0 := by linarith
      have nz1 : (z - (t j).z) ≠ 0 := bj'.ne'
      have nz2 : p * ((t k).z - (t i).z) ≠ 0 := (mul_pos hp ki).ne'
      have nz3 : (z - (t i).z) ≠ 0 := bi'.ne'
      have nz4 : q * ((t l).z - (t j).z) ≠ 0 := (mul_pos hq lj).ne'
      constructor
      · rcases mul_eq_zero.1 w1 with h | h
        · rcases mul_eq_zero.1 h with h | h
          · exact h
          · exact absurd h nz1
        · exact absurd h nz2
      · rcases mul_eq_zero.1 w2 with h | h
        · rcases mul_eq_zero.1 h with h | h
          · exact h
          · exact absurd h nz3
        · exact absurd h nz4
    constructor
    · rintro ⟨p0, q0, r0, s0⟩
      obtain ⟨z1, z2⟩ := zero p q r s p0 q0 r0 s0 rel
      rw [z2, zero_mul, zero_add] at hp hs
      have v1 : 0 < (z - (t i).z) * S k := by rw [← hp]; exact mul_pos p0 ki
      have v2 : (z - (t j).z) * S k < 0 := by rw [← hs]; exact mul_neg_of_neg_of_pos s0 kj
      have v3 := (mul_pos_iff_of_pos_left bi').1 v1
      have v4 := mul_pos bj' v3
      linarith
    · rintro ⟨p0, q0, r0, s0⟩
      obtain ⟨z1, z2⟩ := zero (-p) (-q) (-r) (-s) (by linarith) (by linarith) (by linarith) (by linarith) (by linear_combination -rel)
      rw [z2, zero_mul, zero_add] at hp hs
      have v1 : 0 < (z - (t j).z) * S k := by rw [← hs]; exact mul_pos s0 kj
      have v2 : (z - (t i).z) * S k < 0 := by rw [← hp]; exact mul_neg_of_neg_of_pos p0 ki
      have v3 := (mul_pos_iff_of_pos_left bj').1 v1
      have v4 := mul_pos bi' v3
      linarith
  have sgn : (0 < X e0 ∧ 0 < X e2 ∧ X e1 < 0 ∧ X e3 < 0) ∨ (X e0 < 0 ∧ X e2 < 0 ∧ 0 < X e1 ∧ 0 < X e3) := by
    rcases mul_neg_iff.1 h01 with ⟨a, b⟩ | ⟨a, b⟩ <;> rcases mul_neg_iff.1 h12 with ⟨c, d⟩ | ⟨c, d⟩ <;> rcases mul_neg_iff.1 h23 with ⟨e, f⟩ | ⟨e, f⟩ <;>
      first
        | exact Or.inl ⟨by linarith, by linarith, by linarith, by linarith⟩
        | exact Or.inr ⟨by linarith, by linarith, by linarith, by linarith⟩
  rcases j13 with ⟨j1, j3⟩ | ⟨j1, j3⟩
  · obtain ⟨m1, m2⟩ := main (X e0) (X e2) (X e1) (X e3) (val _ _ _ bi bk j0) (val _ _ _ bj bl j2) (val _ _ _ bi bl j1) (val _ _ _ bj bk j3)
    rcases sgn with ⟨a, b, c, d⟩ | ⟨a, b, c, d⟩
    · exact m1 ⟨a, b, c, d⟩
    · exact m2 ⟨a, b, c, d⟩
  · obtain ⟨m1, m2⟩ := main (X e0) (X e2) (X e3) (X e1) (val _ _ _ bi bk j0) (val _ _ _ bj bl j2) (val _ _ _ bi bl j3) (val _ _ _ bj bk j1)
    rcases sgn with ⟨a, b, c, d⟩ | ⟨a, b, c, d⟩
    · exact m1 ⟨a, b, d, c⟩
    · exact m2 ⟨a, b, d, c⟩


theorem hits_le_two (t : Tetra) (z : ℝ) (old : Nat → Line) (s : Slice) (h : zPlaneSlice (.init t) t z old = some (some s)) (hne : ∀ c ∈ s.corners, ¬ (c.x = 0 ∧ c.y = 0))
    (phi : ℝ) (hp : 0 ≤ phi) (hp' : phi < 2 * π) : (s.sides.filter fun d => d.hit phi).length ≤ 2 := by
  obtain ⟨hlen, o, o1, o2, o3, hs⟩ := C86_sides t z old s h
  obtain ⟨h3, ec⟩ := slice_some t z old s h
  obtain ⟨hn34, -, -⟩ := C86_corners t z old s h
  have hcl : s.corners.length = (t.crossed z).length := by rw [ec]; simp [theCorners]
  set n := s.corners.length with hn
  set E : Nat → Fin 6 := fun i => (t.crossed z).getD (o.getD i 0) 0 with hE
  set X : Fin 6 → ℝ := fun e => sideOfRay phi (cornerAt (.init t) t z e).x (cornerAt (.init t) t z e).y with hX
  have hidx : ∀ i < n, o.getD i 0 < n := fun i hi => by
    rw [List.getD_eq_getElem _ _ (by omega)]
    exact o3 _ (List.getElem_mem _)
  have hmem : ∀ i < n, E i ∈ t.crossed z := fun i hi => by
    have := hidx i hi
    simp only [hE]
    rw [List.getD_eq_getElem _ _ (by omega)]
    exact List.getElem_mem _
  have hdist : ∀ i < n, ∀ j < n, i ≠ j → E i ≠ E j := by
    intro i hi j hj hij he
    have nd : (t.crossed z).Nodup := (List.nodup_finRange 6).filter _
    have hi' := hidx i hi
    have hj' := hidx j hj
    have inj : ∀ a b, a < (t.crossed z).length → b < (t.crossed z).length → (t.crossed z).getD a 0 = (t.crossed z).getD b 0 → a = b := by
      intro a b ha hb hh
      rw [List.getD_eq_getElem _ _ ha, List.getD_eq_getElem _ _ hb] at hh
      exact nd.getElem_inj_iff.1 hh
    have injo : ∀ a b, a < o.length → b < o.length → o.getD a 0 = o.getD b 0 → a = b := by
      intro a b ha hb hh
      rw [List.getD_eq_getElem _ _ ha, List.getD_eq_getElem _ _ hb] at hh
      exact o1.getElem_inj_iff.1 hh
    exact hij (injo i j (by omega) (by omega) (inj _ _ (by omega) (by omega) he))
  have step : ∀ (i : Nat) (d : Side), s.sides[i]? = some d → faceShare (E i) (E ((i + 1) % n)) = true ∧ (d.hit phi → X (E i) * X (E ((i + 1) % n)) < 0) := by
    intro i d hd
    obtain ⟨a, b, c1, c2, ha, hb, hends, hc1, hc2, hcf, -⟩ := hs i d hd
    have hi : i < o.length := (List.getElem?_eq_some_iff.1 ha).1
    have hj : (i + 1) % n < o.length := (List.getElem?_eq_some_iff.1 hb).1
    have ga : o.getD i 0 = a := by rw [List.getD_eq_getElem _ _ hi]; exact (List.getElem?_eq_some_iff.1 ha).2
    have gb : o.getD ((i + 1) % n) 0 = b := by rw [List.getD_eq_getElem _ _ hj]; exact (List.getElem?_eq_some_iff.1 hb).2
    have la := hidx i (by omega)
    have lb := hidx ((i + 1) % n) (by omega)
    have hfs : ∀ e f, CommonFace e f → faceShare e f = true := fun e f hh => (faceShare_iff e f).2 hh
    have hcs : ∀ e f, CommonFace e f → CommonFace f e := fun e f ⟨x, j, k, q1, q2, q3⟩ => ⟨x, k, j, q1.symm, q3, q2⟩
    have hsg := hit_signs t z old s h hne d (List.mem_of_getElem? hd) c1 c2 hc1 hc2 phi hp hp'
    rw [ec] at hc1 hc2
    rcases hends with ⟨e1, e2⟩ | ⟨e1, e2⟩
    · rw [e1, ← ga] at hc1
      rw [e2, ← gb] at hc2
      obtain ⟨f1, g1⟩ := crossed_getD t z _ (by omega) c1 hc1
      obtain ⟨f2, g2⟩ := crossed_getD t z _ (by omega) c2 hc2
      rw [f1, f2] at hcf
      refine ⟨hfs _ _ hcf, fun hh => ?_⟩
      have := hsg hh
      rw [g1, g2] at this
      exact mul_neg_of_neg_of_pos this.1 this.2
    · rw [e1, ← gb] at hc1
      rw [e2, ← ga] at hc2
      obtain ⟨f1, g1⟩ := crossed_getD t z _ (by omega) c1 hc1
      obtain ⟨f2, g2⟩ := crossed_getD t z _ (by omega) c2 hc2
      rw [f1, f2] at hcf
      refine ⟨hfs _ _ (hcs _ _ hcf), fun hh => ?_⟩
      have := hsg hh
      rw [g1, g2] at this
      exact mul_neg_of_pos_of_neg this.2 this.1
  clear_value E X
  obtain ⟨cs, ss⟩ := s
  dsimp only at hlen hs step hn hn34 ⊢
  rcases hn34 with e3 | e4
  · rw [e3] at hlen step
    match ss, hlen with
    | [d0, d1, d2], _ =>
      have s0 := (step 0 d0 rfl).2
      have s1 := (step 1 d1 rfl).2
      have s2 := (step 2 d2 rfl).2
      by_cases h0 : d0.hit phi <;> by_cases h1 : d1.hit phi <;> by_cases h2 : d2.hit phi <;> simp [List.filter, h0, h1, h2]
      have p0 := s0 h0
      have p1 := s1 h1
      have p2 := s2 h2
      simp only [Nat.zero_add, Nat.reduceMod, Nat.reduceAdd] at p0 p1 p2
      rcases mul_neg_iff.1 p0 with ⟨a, b⟩ | ⟨a, b⟩ <;> rcases mul_neg_iff.1 p1 with ⟨c, d⟩ | ⟨c, d⟩ <;> rcases mul_neg_iff.1 p2 with ⟨e, f⟩ | ⟨e, f⟩ <;> linarith
  · rw [e4] at hlen step hmem hdist
    match ss, hlen with
    | [d0, d1, d2, d3], _ =>
      obtain ⟨f0, s0⟩ := step 0 d0 rfl
      obtain ⟨f1, s1⟩ := step 1 d1 rfl
      obtain ⟨f2, s2⟩ := step 2 d2 rfl
      obtain ⟨f3, s3⟩ := step 3 d3 rfl
      simp only [Nat.zero_add, Nat.reduceMod, Nat.reduceAdd] at f0 f1 f2 f3 s0 s1 s2 s3
      have m0 := hmem 0 (by omega)
      have m1 := hmem 1 (by omega)
      have m2 := hmem 2 (by omega)
      have m3 := hmem 3 (by omega)
      have d02 := hdist 0 (by omega) 2 (by omega) (by omega)
      have d13 := hdist 1 (by omega) 3 (by omega) (by omega)
      have k0 : d0.hit phi → d1.hit phi → d2.hit phi → False := fun a b c =>
        no_alternation t z phi _ _ _ _ m0 m1 m2 m3 f0 f1 f2 f3 d02 d13 X (fun e => by rw [hX]) (s0 a) (s1 b) (s2 c)
      have k1 : d1.hit phi → d2.hit phi → d3.hit phi → False := fun a b c =>
        no_alternation t z phi _ _ _ _ m1 m2 m3 m0 f1 f2 f3 f0 d13 d02.symm X (fun e => by rw [hX]) (s1 a) (s2 b) (s3 c)
      have k2 : d2.hit phi → d3.hit phi → d0.hit phi → False := fun a b c =>
        no_alternation t z phi _ _ _ _ m2 m3 m0 m1 f2 f3 f0 f1 d02.symm d13.symm X (fun e => by rw [hX]) (s2 a) (s3 b) (s0 c)
      have k3 : d3.hit phi → d0.hit phi → d1.hit phi → False := fun a b c =>
        no_alternation t z phi _ _ _ _ m3 m0 m1 m2 f3 f0 f1 f2 d13.symm d02 X (fun e => by rw [hX]) (s3 a) (s0 b) (s1 c)
      by_cases h0 : d0.hit phi <;> by_cases h1 : d1.hit phi <;> by_cases h2 : d2.hit phi <;> by_cases h3 : d3.hit phi <;> simp [List.filter, h0, h1, h2, h3] <;>
        first
          | exact k0 h0 h1 h2
          | exact k1 h1 h2 h3
          | exact k2 h2 h3 h0
          | exact k3 h3 h0 h1

/-- The ray from the origin in direction `phi` meets a side of the slice between its ends. -/
def RayMeets (s : Slice) (phi : ℝ) (d : Side) : Prop :=
  ∃ c1 c2, s.corners[d.start]? = some c1 ∧ s.corners[d.stop]? = some c2 ∧
    ∃ R q : ℝ, 0 < R ∧ 0 < q ∧ q < 1 ∧ (1 - q) * c1.x + q * c2.x = R * cos phi ∧ (1 - q) * c1.y + q * c2.y = R * sin phi

/-- No side of the slice is on a line through the origin. -/
def AwayFromOrigin (s : Slice) : Prop :=
  ∀ d ∈ s.sides, ∀ c1 c2, s.corners[d.start]? = some c1 → s.corners[d.stop]? = some c2 → c1.x * c2.y - c1.y * c2.x ≠ 0

theorem away_corners (t : Tetra) (z : ℝ) (old : Nat → Line) (s : Slice) (h : zPlaneSlice (.init t) t z old = some (some s)) (ha : AwayFromOrigin s) :
    ∀ c ∈ s.corners, ¬ (c.x = 0 ∧ c.y = 0) := by
  rintro c hc ⟨hx, hy⟩
  obtain ⟨hlen, o, o1, o2, o3, hs⟩ := C86_sides t z old s h
  obtain ⟨k, hk, ek⟩ := List.mem_iff_getElem.1 hc
  have hsub : ∀ m < s.corners.length, m ∈ o := by
    have hperm : o.Perm (List.range s.corners.length) := by
      apply (List.subperm_of_subset o1 fun x hx => List.mem_range.2 (o3 x hx)).perm_of_length_le
      rw [List.length_range, o2]
    intro m hm
    exact hperm.mem_iff.2 (List.mem_range.2 hm)
  obtain ⟨i, hi, ei⟩ := List.mem_iff_getElem.1 (hsub k hk)
  have hi' : i < s.sides.length := by omega
  obtain ⟨a, b, c1, c2, hoa, hob, hends, hc1, hc2, -⟩ := hs i s.sides[i] (List.getElem?_eq_getElem hi')
  have ea : a = k := by
    rw [List.getElem?_eq_getElem hi, ei] at hoa
    exact (Option.some.inj hoa).symm
  have ekk : s.corners[k]? = some c := List.getElem?_eq_some_iff.2 ⟨hk, ek⟩
  have := ha _ (List.getElem_mem hi') c1 c2 hc1 hc2
  rcases hends with ⟨e1, -⟩ | ⟨-, e2⟩
  · rw [e1, ea, ekk] at hc1
    cases hc1
    rw [hx, hy] at this
    exact this (by ring)
  · rw [e2, ea, ekk] at hc2
    cases hc2
    rw [hx, hy] at this
    exact this (by ring)

/-- C86: for a slice none of whose sides is on a line through the origin, the lines returned for a direction are exactly the lines of the sides that the ray in this
direction meets between their ends; there are at most two such sides, so that none is left out. -/
theorem C86_lines_partial (t : Tetra) (z : ℝ) (old : Nat → Line) (s : Slice) (h : zPlaneSlice (.init t) t z old = some (some s)) (ha : AwayFromOrigin s)
    (phi : ℝ) (hp : 0 ≤ phi) (hp' : phi < 2 * π) (l : Line) :
    ((s.intersectingLines phi).1 = some l ∨ (s.intersectingLines phi).2 = some l) ↔ ∃ d ∈ s.sides, RayMeets s phi d ∧ d.line = l := by
  have hle := hits_le_two t z old s h (away_corners t z old s h ha) phi hp hp'
  have hit : ∀ d ∈ s.sides, d.hit phi ↔ RayMeets s phi d := by
    intro d hd
    obtain ⟨c1, c2, e1, e2, -⟩ := side_data t z old s h d hd
    rw [C86_direction_partial t z old s h d hd c1 c2 e1 e2 (ha d hd c1 c2 e1 e2) phi hp hp']
    constructor
    · rintro hh
      exact ⟨c1, c2, e1, e2, hh⟩
    · rintro ⟨c1', c2', e1', e2', hh⟩
      rw [e1] at e1'
      rw [e2] at e2'
      cases e1'
      cases e2'
      exact hh
  have hmem : (∃ d ∈ s.sides, RayMeets s phi d ∧ d.line = l) ↔ ∃ d ∈ s.sides.filter (fun d => d.hit phi), d.line = l := by
    constructor
    · rintro ⟨d, hd, h1, h2⟩
      exact ⟨d, List.mem_filter.2 ⟨hd, by simpa using (hit d hd).2 h1⟩, h2⟩
    · rintro ⟨d, hd, h2⟩
      obtain ⟨h3, h4⟩ := List.mem_filter.1 hd
      exact ⟨d, h3, (hit d h3).1 (by simpa using h4), h2⟩
  rw [hmem]
  unfold Slice.intersectingLines
  generalize s.sides.filter (fun d => d.hit phi) = hits at hle
  match hits, hle with
  | [], _ => simp
  | [a], _ => simp
  | [a, b], _ => simp

/-! ### C86: angular range and radii -/

/-- An angle is reached from `start` by turning by at most `width`. -/
def InArc (start width phi : ℝ) : Prop := ∃ (k : ℤ) (t : ℝ), 0 ≤ t ∧ t ≤ width ∧ phi = start + t + 2 * π * k

/-- What is known of the state of the loop: the ends are angles in [0, 2π) and the width leads from the one to the other. -/
def RangeInv (seen : List ℝ) (s : ℝ × ℝ × ℝ) : Prop :=
  s.1 ∈ seen ∧ s.2.1 ∈ seen ∧ s.2.2 = angularWidth s.1 s.2.1 ∧ ∀ p ∈ seen, InArc s.1 s.2.2 p

theorem rangeStart_inv (a b : ℝ) (ha : 0 ≤ a ∧ a < 2 * π) (hb : 0 ≤ b ∧ b < 2 * π) : RangeInv [a, b] (rangeStart a b) := by
  have key : ∀ c d : ℝ, 0 ≤ c ∧ c < 2 * π → 0 ≤ d ∧ d < 2 * π → InArc c (angularWidth c d) c ∧ InArc c (angularWidth c d) d := by
    intro c d hc hd
    obtain ⟨h1, h2, k, h3⟩ := angularWidth_spec c d hc.1 hc.2 hd.1 hd.2
    exact ⟨⟨0, 0, le_refl _, h1.le, by push_cast; ring⟩, ⟨k, _, h1.le, le_refl _, h3⟩⟩
  unfold rangeStart
  by_cases h : angularWidth a b > angularWidth b a
  · simp only [h, if_true]
    refine ⟨by simp, by simp, rfl, ?_⟩
    intro p hp
    simp only [List.mem_cons, List.not_mem_nil, or_false] at hp
    rcases hp with rfl | rfl
    · exact (key _ _ hb ha).2
    · exact (key _ _ hb ha).1
  · simp only [h, if_false]
    refine ⟨by simp, by simp, rfl, ?_⟩
    intro p hp
    simp only [List.mem_cons, List.not_mem_nil, or_false] at hp
    rcases hp with rfl | rfl
    · exact (key _ _ ha hb).1
    · exact (key _ _ ha hb).2

theorem rangeStep_inv (seen : List ℝ) (hseen : ∀ p ∈ seen, 0 ≤ p ∧ p < 2 * π) (s : ℝ × ℝ × ℝ) (hs : RangeInv seen s) (phi : ℝ) (hphi : 0 ≤ phi ∧ phi < 2 * π) :
    RangeInv (seen ++ [phi]) (rangeStep s phi) := by
  obtain ⟨low, high, w⟩ := s
  obtain ⟨hl, hh, hw, hc⟩ := hs
  dsimp only at hl hh hw hc
  have bl := hseen _ hl
  have bh := hseen _ hh
  obtain ⟨w1, w2, kw, w3⟩ := angularWidth_spec low high bl.1 bl.2 bh.1 bh.2
  obtain ⟨a1, a2, ka, a3⟩ := angularWidth_spec low phi bl.1 bl.2 hphi.1 hphi.2
  obtain ⟨b1, b2, kb, b3⟩ := angularWidth_spec phi high hphi.1 hphi.2 bh.1 bh.2
  rw [← hw] at w1 w2 w3
  unfold rangeStep
  dsimp only
  set A := angularWidth low phi
  set B := angularWidth phi high
  have same : (InArc low w phi) → RangeInv (seen ++ [phi]) (low, high, w) := by
    intro hin
    refine ⟨by simp [hl], by simp [hh], hw, ?_⟩
    intro p hp
    rcases List.mem_append.1 hp with h | h
    · exact hc p h
    · rw [List.mem_singleton] at h
      rw [h]
      exact hin
  by_cases h1 : A < B
  · simp only [h1, if_true]
    by_cases h2 : A > w
    · simp only [h2, if_true]
      refine ⟨by simp [hl], by simp, rfl, ?_⟩
      intro p hp
      rcases List.mem_append.1 hp with h | h
      · obtain ⟨k, u, u1, u2, u3⟩ := hc p h
        exact ⟨k, u, u1, by dsimp only; linarith, u3⟩
      · rw [List.mem_singleton] at h
        rw [h]
        exact ⟨ka, A, a1.le, le_refl _, a3⟩
    · simp only [h2, if_false]
      exact same ⟨ka, A, a1.le, not_lt.mp h2, a3⟩
  · simp only [h1, if_false]
    by_cases h2 : B > w
    · simp only [h2, if_true]
      refine ⟨by simp, by simp [hh], rfl, ?_⟩
      intro p hp
      rcases List.mem_append.1 hp with h | h
      · obtain ⟨k, u, u1, u2, u3⟩ := hc p h
        refine ⟨k + kb - kw, B - w + u, by linarith, by dsimp only; linarith, ?_⟩
        dsimp only
        push_cast
        linear_combination u3 + b3 - w3
      · rw [List.mem_singleton] at h
        rw [h]
        exact ⟨0, 0, le_refl _, b1.le, by push_cast; ring⟩
    · simp only [h2, if_false]
      refine same ⟨kw - kb, w - B, by linarith, by linarith, ?_⟩
      push_cast
      linear_combination w3 - b3

theorem rangeFold_inv (rest seen : List ℝ) (hseen : ∀ p ∈ seen, 0 ≤ p ∧ p < 2 * π) (hrest : ∀ p ∈ rest, 0 ≤ p ∧ p < 2 * π) (s : ℝ × ℝ × ℝ) (hs : RangeInv seen s) :
    RangeInv (seen ++ rest) (rest.foldl rangeStep s) := by
  induction rest generalizing seen s with
  | nil => simpa using hs
  | cons p rest ih =>
    rw [List.foldl_cons, show seen ++ p :: rest = (seen ++ [p]) ++ rest by simp]
    refine ih (seen ++ [p]) ?_ (fun q hq => hrest q (by simp [hq])) _ (rangeStep_inv seen hseen s hs p (hrest p (by simp)))
    intro q hq
    rcases List.mem_append.1 hq with h | h
    · exact hseen q h
    · rw [List.mem_singleton] at h
      rw [h]
      exact hrest p (by simp)

/-- The range of the angles of two or more corners: all angles are in it; it is the whole circle, or it starts and ends at one of the angles and is at most π wide. -/
theorem angleRange_spec (ps : List ℝ) (hps : ∀ p ∈ ps, 0 ≤ p ∧ p < 2 * π) (h2 : 2 ≤ ps.length) :
    ∃ start width, angleRange ps = some (start, width) ∧ 0 < width ∧ (∀ p ∈ ps, InArc start width p) ∧
      ((start = 0 ∧ width = 2 * π) ∨ (width ≤ π ∧ start ∈ ps ∧ ∃ e ∈ ps, ∃ k : ℤ, e = start + width + 2 * π * k)) := by
  match ps, h2 with
  | a :: b :: rest, _ =>
    have ha := hps a (by simp)
    have hb := hps b (by simp)
    have hsab : ∀ p ∈ [a, b], 0 ≤ p ∧ p < 2 * π := by
      intro p hp
      simp only [List.mem_cons, List.not_mem_nil, or_false] at hp
      rcases hp with rfl | rfl
      · exact ha
      · exact hb
    have inv := rangeFold_inv rest [a, b] hsab (fun p hp => hps p (by simp [hp])) _ (rangeStart_inv a b ha hb)
    obtain ⟨i1, i2, i3, i4⟩ := inv
    simp only [angleRange]
    set s := rest.foldl rangeStep (rangeStart a b)
    simp only [List.cons_append, List.nil_append] at i1 i2 i4
    by_cases hw : s.2.2 > π
    · simp only [hw, if_true]
      refine ⟨0, 2 * π, rfl, by have := pi_pos; linarith, ?_, Or.inl ⟨rfl, rfl⟩⟩
      intro p hp
      exact ⟨0, p, (hps p hp).1, (hps p hp).2.le, by push_cast; ring⟩
    · simp only [hw, if_false]
      obtain ⟨w1, w2, k, w3⟩ := angularWidth_spec s.1 s.2.1 (hps _ i1).1 (hps _ i1).2 (hps _ i2).1 (hps _ i2).2
      rw [← i3] at w1 w3
      exact ⟨_, _, rfl, w1, i4, Or.inr ⟨not_lt.mp hw, i1, _, i2, k, w3⟩⟩

/-- The points whose angle is in a range. -/
def Cone (start width : ℝ) : Set (ℝ × ℝ) := {p | ∃ r t : ℝ, 0 ≤ r ∧ 0 ≤ t ∧ t ≤ width ∧ p = (r * cos (start + t), r * sin (start + t))}

theorem cone_eq (start width : ℝ) (h0 : 0 < width) (h1 : width ≤ π) : Cone start width =
    {p | 0 ≤ -p.1 * sin start + p.2 * cos start ∧ 0 ≤ (p.1 * cos start + p.2 * sin start) * sin width - (-p.1 * sin start + p.2 * cos start) * cos width} := by
  ext ⟨x, y⟩
  simp only [Cone, Set.mem_setOf_eq, Prod.mk.injEq]
  constructor
  · rintro ⟨r, t, hr, ht, htw, rfl, rfl⟩
    have e1 : -(r * cos (start + t)) * sin start + r * sin (start + t) * cos start = r * sin t := by
      rw [cos_add, sin_add]
      linear_combination r * sin t * (sin_sq_add_cos_sq start)
    have e2 : r * cos (start + t) * cos start + r * sin (start + t) * sin start = r * cos t := by
      rw [cos_add, sin_add]
      linear_combination r * cos t * (sin_sq_add_cos_sq start)
    rw [e1, e2]
    refine ⟨mul_nonneg hr (sin_nonneg_of_nonneg_of_le_pi ht (by linarith)), ?_⟩
    have : r * cos t * sin width - r * sin t * cos width = r * sin (width - t) := by rw [sin_sub]; ring
    rw [this]
    exact mul_nonneg hr (sin_nonneg_of_nonneg_of_le_pi (by linarith) (by linarith))
  · rintro ⟨hY, hZ⟩
    set X := x * cos start + y * sin start with hX
    set Y := -x * sin start + y * cos start with hYd
    obtain ⟨pX, pY⟩ := cornerPhi_polar X Y
    obtain ⟨f1, f2⟩ := cornerPhi_range X Y
    set r := sqrt (X ^ 2 + Y ^ 2)
    set a := cornerPhi X Y
    have hr : 0 ≤ r := sqrt_nonneg _
    have hx : x = X * cos start - Y * sin start := by
      rw [hX, hYd]
      linear_combination (-x) * (sin_sq_add_cos_sq start)
    have hy : y = X * sin start + Y * cos start := by
      rw [hX, hYd]
      linear_combination (-y) * (sin_sq_add_cos_sq start)
    rcases hr.lt_or_eq with hpos | hz
    · have sa : 0 ≤ sin a := by
        rw [pY] at hY
        exact nonneg_of_mul_nonneg_right hY hpos
      have sw : 0 ≤ sin (width - a) := by
        rw [pX, pY] at hZ
        have : r * cos a * sin width - r * sin a * cos width = r * sin (width - a) := by rw [sin_sub]; ring
        rw [this] at hZ
        exact nonneg_of_mul_nonneg_right hZ hpos
      have api : a ≤ π := by
        by_contra hc
        have : sin (a - π) > 0 := sin_pos_of_pos_of_lt_pi (by linarith [not_le.mp hc]) (by linarith)
        rw [sin_sub_pi] at this
        linarith
      have aw : a ≤ width := by
        by_contra hc
        have : sin (width - a) < 0 := sin_neg_of_neg_of_neg_pi_lt (by linarith [not_le.mp hc]) (by linarith)
        linarith
      refine ⟨r, a, hr, f1, aw, ?_, ?_⟩
      · rw [hx, pX, pY, cos_add]
        ring
      · rw [hy, pX, pY, sin_add]
        ring
    · have x0 : X = 0 := by rw [pX, ← hz, zero_mul]
      have y0 : Y = 0 := by rw [pY, ← hz, zero_mul]
      refine ⟨0, 0, le_refl _, le_refl _, h0.le, ?_, ?_⟩
      · rw [hx, x0, y0]
        ring
      · rw [hy, x0, y0]
        ring

theorem cone_convex (start width : ℝ) (h0 : 0 < width) (h1 : width ≤ π) : Convex ℝ (Cone start width) := by
  rw [cone_eq start width h0 h1]
  rintro p ⟨p1, p2⟩ q ⟨q1, q2⟩ a b ha hb -
  simp only [Set.mem_setOf_eq, Prod.fst_add, Prod.snd_add, Prod.smul_fst, Prod.smul_snd, smul_eq_mul]
  constructor
  · have := add_nonneg (mul_nonneg ha p1) (mul_nonneg hb q1)
    linarith
  · have := add_nonneg (mul_nonneg ha p2) (mul_nonneg hb q2)
    linarith

/-- C86: the angular range of a slice contains the direction of every point of the cross-section; it is the whole circle, or it is at most π wide and starts and ends
at the angles of corners. -/
theorem C86_angle_range (t : Tetra) (z : ℝ) (old : Nat → Line) (s : Slice) (h : zPlaneSlice (.init t) t z old = some (some s)) :
    ∃ start width, angleRange (s.corners.map Corner.phi) = some (start, width) ∧
      (∀ x y, InTetra t ⟨x, y, z⟩ → (x, y) ∈ Cone start width) ∧
      ((start = 0 ∧ width = 2 * π) ∨ (width ≤ π ∧ (∃ c ∈ s.corners, c.phi = start) ∧ ∃ c ∈ s.corners, ∃ k : ℤ, c.phi = start + width + 2 * π * k)) := by
  obtain ⟨hn, -, hc⟩ := C86_corners t z old s h
  have hps : ∀ p ∈ s.corners.map Corner.phi, 0 ≤ p ∧ p < 2 * π := by
    intro p hp
    obtain ⟨c, hcm, rfl⟩ := List.mem_map.1 hp
    exact ⟨(hc c hcm).2.1, (hc c hcm).2.2.1⟩
  obtain ⟨start, width, e, hw, hcov, htight⟩ := angleRange_spec _ hps (by rw [List.length_map]; omega)
  refine ⟨start, width, e, ?_, ?_⟩
  · intro x y hxy
    rw [← C86_section t z old s h] at hxy
    rcases htight with ⟨rfl, rfl⟩ | ⟨hwpi, -, -⟩
    · obtain ⟨f1, f2⟩ := cornerPhi_range x y
      obtain ⟨g1, g2⟩ := cornerPhi_polar x y
      refine ⟨_, cornerPhi x y, sqrt_nonneg (x ^ 2 + y ^ 2), f1, f2.le, ?_⟩
      rw [zero_add, ← g1, ← g2]
    · refine convexHull_min ?_ (cone_convex start width hw hwpi) hxy
      rintro p ⟨c, hcm, rfl⟩
      obtain ⟨-, -, -, g1, g2⟩ := hc c hcm
      obtain ⟨k, u, u1, u2, u3⟩ := hcov c.phi (List.mem_map.2 ⟨c, hcm, rfl⟩)
      rw [u3, cos_turn] at g1
      rw [u3, sin_turn] at g2
      refine ⟨sqrt (c.x ^ 2 + c.y ^ 2), u, sqrt_nonneg _, u1, u2, ?_⟩
      rw [← g1, ← g2]
  · rcases htight with h1 | ⟨h1, h2, e, h3, k, h4⟩
    · exact Or.inl h1
    · obtain ⟨c, hcm, hcp⟩ := List.mem_map.1 h2
      obtain ⟨c', hcm', rfl⟩ := List.mem_map.1 h3
      exact Or.inr ⟨h1, ⟨c, hcm, hcp⟩, c', hcm', k, h4⟩

theorem turn_position (al be : ℝ) (hbe : be < π) (p q tp tq : ℝ) (hp : 0 ≤ p ∧ p < 2 * π) (hq : 0 ≤ q ∧ q < 2 * π) (k m : ℤ) (ep : p = al + tp + 2 * π * k)
    (eq : q = al + tq + 2 * π * m) (htp : 0 ≤ tp ∧ tp ≤ be) (htq : 0 ≤ tq ∧ tq ≤ be) :
    angularWidth p q = if tp < tq then tq - tp else 2 * π + tq - tp := by
  have hpi := pi_pos
  by_cases h : tp < tq
  · rw [if_pos h]
    exact angularWidth_unique p q (tq - tp) (m - k) hp.1 hp.2 hq.1 hq.2 (by push_cast; linear_combination eq - ep) (by linarith) (by linarith)
  · rw [if_neg h]
    exact angularWidth_unique p q (2 * π + tq - tp) (m - k - 1) hp.1 hp.2 hq.1 hq.2 (by push_cast; linear_combination eq - ep) (by linarith) (by linarith)

/-- C86: when all corners are seen within an arc narrower than π and the first two of them not at the same angle, the range is no wider than this arc. -/
theorem C86_range_tight_partial (ps : List ℝ) (hps : ∀ p ∈ ps, 0 ≤ p ∧ p < 2 * π) (a b : ℝ) (rest : List ℝ) (e : ps = a :: b :: rest) (hab : a ≠ b)
    (al be : ℝ) (hbe : be < π) (harc : ∀ p ∈ ps, InArc al be p) : ∃ start width, angleRange ps = some (start, width) ∧ width ≤ be ∧ InArc al be start := by
  subst e
  have hpi := pi_pos
  -- the state of the loop is within the arc
  let Good : ℝ × ℝ × ℝ → Prop := fun s => (0 ≤ s.1 ∧ s.1 < 2 * π) ∧ (0 ≤ s.2.1 ∧ s.2.1 < 2 * π) ∧
    ∃ tl th : ℝ, 0 ≤ tl ∧ tl < th ∧ th ≤ be ∧ (∃ k : ℤ, s.1 = al + tl + 2 * π * k) ∧ (∃ k : ℤ, s.2.1 = al + th + 2 * π * k) ∧ s.2.2 = th - tl
  have hstart : Good (rangeStart a b) := by
    have ha := hps a (by simp)
    have hb := hps b (by simp)
    obtain ⟨k, ta, a1, a2, a3⟩ := harc a (by simp)
    obtain ⟨m, tb, b1, b2, b3⟩ := harc b (by simp)
    have wab := turn_position al be hbe a b ta tb ha hb k m a3 b3 ⟨a1, a2⟩ ⟨b1, b2⟩
    have wba := turn_position al be hbe b a tb ta hb ha m k b3 a3 ⟨b1, b2⟩ ⟨a1, a2⟩
    have hne : ta ≠ tb := by
      intro hh
      rw [hh, if_neg (lt_irrefl _)] at wab
      have : a - b = 2 * π * ((k - m : ℤ) : ℝ) := by push_cast; rw [hh] at a3; linear_combination a3 - b3
      apply hab
      have := turn_unique (2 * π + (a - b) / 2) (2 * π + (a - b) / 2) 0 (by simp) (by linarith [ha.1, hb.2]) (by
        by_contra hc
        have h9 : angularWidth b a = 2 * π := by rw [wba, hh, if_neg (lt_irrefl _)]; ring
        unfold angularWidth at h9
        have : b < a := by linarith [not_le.mp hc]
        rw [if_pos this] at h9
        linarith [ha.2, hb.1]) (by linarith [ha.1, hb.2]) (by
        by_contra hc
        have h9 : angularWidth b a = 2 * π := by rw [wba, hh, if_neg (lt_irrefl _)]; ring
        unfold angularWidth at h9
        have : b < a := by linarith [not_le.mp hc]
        rw [if_pos this] at h9
        linarith [ha.2, hb.1])
      have h9 : angularWidth b a = 2 * π := by rw [wba, hh, if_neg (lt_irrefl _)]; ring
      unfold angularWidth at h9
      by_cases hlt : b < a
      · rw [if_pos hlt] at h9
        linarith [ha.2, hb.1]
      · rw [if_neg hlt] at h9
        linarith
    unfold rangeStart
    rcases lt_or_gt_of_ne hne with hlt | hgt
    · rw [if_pos hlt] at wab
      rw [if_neg (by linarith)] at wba
      have : ¬ angularWidth a b > angularWidth b a := by rw [wab, wba]; linarith
      simp only [this, if_false]
      exact ⟨ha, hb, ta, tb, a1, hlt, b2, ⟨k, a3⟩, ⟨m, b3⟩, wab⟩
    · rw [if_neg (by linarith)] at wab
      rw [if_pos hgt] at wba
      have : angularWidth a b > angularWidth b a := by rw [wab, wba]; linarith
      simp only [this, if_true]
      exact ⟨hb, ha, tb, ta, b1, hgt, a2, ⟨m, b3⟩, ⟨k, a3⟩, wba⟩
  have hstep : ∀ s p, Good s → 0 ≤ p ∧ p < 2 * π → InArc al be p → Good (rangeStep s p) := by
    rintro ⟨low, high, w⟩ p ⟨hl, hh, tl, th, q1, q2, q3, ⟨kl, el⟩, ⟨kh, eh⟩, hw⟩ hp ⟨k, tp, u1, u2, u3⟩
    dsimp only at hl hh el eh hw
    have wl := turn_position al be hbe low p tl tp hl hp kl k el u3 ⟨q1, by linarith⟩ ⟨u1, u2⟩
    have wh := turn_position al be hbe p high tp th hp hh k kh u3 eh ⟨u1, u2⟩ ⟨by linarith, q3⟩
    unfold rangeStep
    dsimp only
    rcases lt_trichotomy tp tl with c | c | c
    · rw [if_neg (by linarith)] at wl
      rw [if_pos (by linarith)] at wh
      have c1 : ¬ angularWidth low p < angularWidth p high := by rw [wl, wh]; linarith
      have c2 : angularWidth p high > w := by rw [wh, hw]; linarith
      simp only [c1, c2, if_false, if_true]
      exact ⟨hp, hh, tp, th, u1, by linarith, q3, ⟨k, u3⟩, ⟨kh, eh⟩, wh⟩
    · rw [if_neg (by linarith)] at wl
      rw [if_pos (by linarith)] at wh
      have c1 : ¬ angularWidth low p < angularWidth p high := by rw [wl, wh]; linarith
      have c2 : ¬ angularWidth p high > w := by rw [wh, hw]; linarith
      simp only [c1, c2, if_false]
      exact ⟨hl, hh, tl, th, q1, q2, q3, ⟨kl, el⟩, ⟨kh, eh⟩, hw⟩
    · rw [if_pos c] at wl
      by_cases d : tp < th
      · rw [if_pos d] at wh
        have c1 : ¬ angularWidth low p > w := by rw [wl, hw]; linarith
        have c2 : ¬ angularWidth p high > w := by rw [wh, hw]; linarith
        simp only [c1, c2, if_false, ite_self]
        exact ⟨hl, hh, tl, th, q1, q2, q3, ⟨kl, el⟩, ⟨kh, eh⟩, hw⟩
      · rw [if_neg d] at wh
        have c1 : angularWidth low p < angularWidth p high := by rw [wl, wh]; linarith
        simp only [c1, if_true]
        by_cases f : angularWidth low p > w
        · simp only [f, if_true]
          exact ⟨hl, hp, tl, tp, q1, c, u2, ⟨kl, el⟩, ⟨k, u3⟩, wl⟩
        · simp only [f, if_false]
          exact ⟨hl, hh, tl, th, q1, q2, q3, ⟨kl, el⟩, ⟨kh, eh⟩, hw⟩
  have hfold : ∀ (l : List ℝ) s, Good s → (∀ p ∈ l, 0 ≤ p ∧ p < 2 * π) → (∀ p ∈ l, InArc al be p) → Good (l.foldl rangeStep s) := by
    intro l
    induction l with
    | nil => exact fun s hs _ _ => hs
    | cons p l ih =>
      intro s hs h1 h2
      exact ih _ (hstep s p hs (h1 p (by simp)) (h2 p (by simp))) (fun q hq => h1 q (by simp [hq])) (fun q hq => h2 q (by simp [hq]))
  have hg := hfold rest _ hstart (fun p hp => hps p (by simp [hp])) (fun p hp => harc p (by simp [hp]))
  simp only [angleRange]
  set s := rest.foldl rangeStep (rangeStart a b)
  obtain ⟨hl, hh, tl, th, q1, q2, q3, ⟨kl, el⟩, -, hw⟩ := hg
  have : ¬ s.2.2 > π := by rw [hw]; linarith
  simp only [this, if_false]
  exact ⟨_, _, rfl, by rw [hw]; linarith, kl, tl, q1, by linarith, el⟩

theorem rSqr_fold (rest : List Corner) (seen : List Corner) (m : ℝ × ℝ) (hm : m.1 ≤ m.2)
    (h1 : ∀ c ∈ seen, m.1 ≤ c.x ^ 2 + c.y ^ 2 ∧ c.x ^ 2 + c.y ^ 2 ≤ m.2) (h2 : ∃ c ∈ seen, c.x ^ 2 + c.y ^ 2 = m.1) (h3 : ∃ c ∈ seen, c.x ^ 2 + c.y ^ 2 = m.2) :
    ∃ m', rest.foldl (fun m d =>
      let r := d.x * d.x + d.y * d.y
      if r > m.2 then (m.1, r) else if r < m.1 then (r, m.2) else m) m = m' ∧ (∀ c ∈ seen ++ rest, m'.1 ≤ c.x ^ 2 + c.y ^ 2 ∧ c.x ^ 2 + c.y ^ 2 ≤ m'.2) ∧
      (∃ c ∈ seen ++ rest, c.x ^ 2 + c.y ^ 2 = m'.1) ∧ ∃ c ∈ seen ++ rest, c.x ^ 2 + c.y ^ 2 = m'.2 := by
  induction rest generalizing seen m with
  | nil => exact ⟨m, rfl, by simpa using h1, by simpa using h2, by simpa using h3⟩
  | cons d rest ih =>
    rw [List.foldl_cons, show seen ++ d :: rest = (seen ++ [d]) ++ rest by simp]
    have er : d.x * d.x + d.y * d.y = d.x ^ 2 + d.y ^ 2 := by ring
    dsimp only
    rw [er]
    obtain ⟨c2, c2m, c2e⟩ := h2
    obtain ⟨c3, c3m, c3e⟩ := h3
    have new : ∀ lo hi : ℝ, lo ≤ m.1 → m.2 ≤ hi → lo ≤ d.x ^ 2 + d.y ^ 2 → d.x ^ 2 + d.y ^ 2 ≤ hi →
        ∀ c ∈ seen ++ [d], lo ≤ c.x ^ 2 + c.y ^ 2 ∧ c.x ^ 2 + c.y ^ 2 ≤ hi := by
      intro lo hi g1 g2 g3 g4 c hc
      rcases List.mem_append.1 hc with h | h
      · exact ⟨g1.trans (h1 c h).1, (h1 c h).2.trans g2⟩
      · rw [List.mem_singleton] at h
        rw [h]
        exact ⟨g3, g4⟩
    by_cases q1 : d.x ^ 2 + d.y ^ 2 > m.2
    · simp only [q1, if_true]
      exact ih (seen ++ [d]) (m.1, d.x ^ 2 + d.y ^ 2) (by dsimp only; linarith) (new _ _ le_rfl q1.le (by linarith) le_rfl) ⟨c2, by simp [c2m], c2e⟩ ⟨d, by simp, rfl⟩
    · by_cases q2 : d.x ^ 2 + d.y ^ 2 < m.1
      · simp only [q1, q2, if_true, if_false]
        exact ih (seen ++ [d]) (d.x ^ 2 + d.y ^ 2, m.2) (by dsimp only; linarith) (new _ _ q2.le le_rfl le_rfl (by linarith)) ⟨d, by simp, rfl⟩ ⟨c3, by simp [c3m], c3e⟩
      · simp only [q1, q2, if_false]
        exact ih (seen ++ [d]) m hm (new _ _ le_rfl le_rfl (not_lt.mp q2) (not_lt.mp q1)) ⟨c2, by simp [c2m], c2e⟩ ⟨c3, by simp [c3m], c3e⟩

/-- C86: the greatest squared radius is the greatest one of all points of the cross-section and is taken at one of them; the least one is taken at a corner and is the
least one of the corners (not of the cross-section). -/
theorem C86_radii_partial (t : Tetra) (z : ℝ) (old : Nat → Line) (s : Slice) (h : zPlaneSlice (.init t) t z old = some (some s)) :
    ∃ lo hi, rSqrMinMax s.corners = some (lo, hi) ∧ (∀ x y, InTetra t ⟨x, y, z⟩ → x ^ 2 + y ^ 2 ≤ hi) ∧ (∃ x y, InTetra t ⟨x, y, z⟩ ∧ x ^ 2 + y ^ 2 = hi) ∧
      (∀ c ∈ s.corners, lo ≤ c.x ^ 2 + c.y ^ 2) ∧ ∃ x y, InTetra t ⟨x, y, z⟩ ∧ x ^ 2 + y ^ 2 = lo := by
  obtain ⟨hn, -, -⟩ := C86_corners t z old s h
  have hsec := C86_section t z old s h
  have hin : ∀ c ∈ s.corners, InTetra t ⟨c.x, c.y, z⟩ := fun c hc => (hsec c.x c.y).1 (subset_convexHull ℝ _ ⟨c, hc, rfl⟩)
  obtain ⟨m', e, m1, ⟨cl, clm, cle⟩, ⟨ch, chm, che⟩⟩ : ∃ m', rSqrMinMax s.corners = some m' ∧ (∀ c ∈ s.corners, m'.1 ≤ c.x ^ 2 + c.y ^ 2 ∧ c.x ^ 2 + c.y ^ 2 ≤ m'.2) ∧
      (∃ c ∈ s.corners, c.x ^ 2 + c.y ^ 2 = m'.1) ∧ ∃ c ∈ s.corners, c.x ^ 2 + c.y ^ 2 = m'.2 := by
    match hs : s.corners with
    | [] => rw [hs] at hn; simp at hn
    | c :: rest =>
      have er : c.x * c.x + c.y * c.y = c.x ^ 2 + c.y ^ 2 := by ring
      obtain ⟨m', g1, g2, g3, g4⟩ := rSqr_fold rest [c] (c.x ^ 2 + c.y ^ 2, c.x ^ 2 + c.y ^ 2) le_rfl (by simp) ⟨c, by simp, rfl⟩ ⟨c, by simp, rfl⟩
      refine ⟨m', ?_, g2, g3, g4⟩
      simp only [rSqrMinMax]
      rw [er, g1]
  refine ⟨m'.1, m'.2, e, ?_, ⟨ch.x, ch.y, hin ch chm, che⟩, fun c hc => (m1 c hc).1, ⟨cl.x, cl.y, hin cl clm, cle⟩⟩
  intro x y hxy
  rw [← hsec] at hxy
  have hconv : Convex ℝ {p : ℝ × ℝ | p.1 ^ 2 + p.2 ^ 2 ≤ m'.2} := by
    intro p hp q hq a b ha hb hab
    simp only [Set.mem_setOf_eq] at hp hq ⊢
    simp only [Prod.fst_add, Prod.snd_add, Prod.smul_fst, Prod.smul_snd, smul_eq_mul]
    have e1 : b = 1 - a := by linarith
    have e2 : 0 ≤ a * b * ((p.1 - q.1) ^ 2 + (p.2 - q.2) ^ 2) := by positivity
    have e3 := mul_le_mul_of_nonneg_left hp ha
    have e4 := mul_le_mul_of_nonneg_left hq hb
    subst e1
    nlinarith
  exact convexHull_min (by rintro p ⟨c, hc, rfl⟩; exact (m1 c hc).2) hconv hxy


/-! ### C86: concrete slices and the exceptions -/

theorem slice_of_apart (t : Tetra) (z : ℝ) (old : Nat → Line) (h3 : 3 ≤ (t.crossed z).length)
    (hsep : ∀ e ∈ t.crossed z, ∀ f ∈ t.crossed z, faceShare e f = true → ¬ (cornerAt (.init t) t z e).close (cornerAt (.init t) t z f)) :
    ∃ s, zPlaneSlice (.init t) t z old = some (some s) ∧ s.corners = theCorners t z := by
  have : ∃ s, zPlaneSlice (.init t) t z old = some (some s) := by
    rw [C86_ok_partial, (slice_cases t z old).1]
    refine ⟨h3, ?_⟩
    intro e f he hf hcf p q hpz hqz hpe hqf hclose
    have he' := (mem_crossed t z e).2 he
    have hf' := (mem_crossed t z f).2 hf
    have ez : (t (edgeStart e)).z ≠ (t (edgeEnd e)).z := fun hh => he (by rw [hh])
    have fz : (t (edgeStart f)).z ≠ (t (edgeEnd f)).z := fun hh => hf (by rw [hh])
    have hpc := onEdge_unique _ _ z ez _ _ hpe (corner_onEdge t z e he') hpz rfl
    have hqc := onEdge_unique _ _ z fz _ _ hqf (corner_onEdge t z f hf') hqz rfl
    rw [hpc, hqc] at hclose
    exact hsep e he' f hf' ((faceShare_iff e f).2 hcf) hclose
  obtain ⟨s, hs⟩ := this
  exact ⟨s, hs, (slice_some t z old s hs).2⟩

theorem at0 {α : Type} (a b c d : α) : (![a, b, c, d] : Fin 4 → α) 0 = a := rfl
theorem at1 {α : Type} (a b c d : α) : (![a, b, c, d] : Fin 4 → α) 1 = b := rfl
theorem at2 {α : Type} (a b c d : α) : (![a, b, c, d] : Fin 4 → α) 2 = c := rfl
theorem at3 {α : Type} (a b c d : α) : (![a, b, c, d] : Fin 4 → α) 3 = d := rfl
theorem edge0 : edgeStart 0 = 0 ∧ edgeEnd 0 = 1 := ⟨rfl, rfl⟩
theorem edge1 : edgeStart 1 = 0 ∧ edgeEnd 1 = 2 := ⟨rfl, rfl⟩
theorem edge2 : edgeStart 2 = 0 ∧ edgeEnd 2 = 3 := ⟨rfl, rfl⟩
theorem edge3 : edgeStart 3 = 1 ∧ edgeEnd 3 = 2 := ⟨rfl, rfl⟩
theorem edge4 : edgeStart 4 = 1 ∧ edgeEnd 4 = 3 := ⟨rfl, rfl⟩

theorem four {P : Fin 4 → Prop} (h0 : P 0) (h1 : P 1) (h2 : P 2) (h3 : P 3) (i : Fin 4) : P i := by
  fin_cases i
  · exact h0
  · exact h1
  · exact h2
  · exact h3

/-- A tetrahedron with one vertex below the plane z = 0. -/
noncomputable def fan (a b c : ℝ × ℝ) : Tetra := ![⟨0, 0, -1⟩, ⟨2 * a.1, 2 * a.2, 1⟩, ⟨2 * b.1, 2 * b.2, 1⟩, ⟨2 * c.1, 2 * c.2, 1⟩]

theorem fan_crossed (a b c : ℝ × ℝ) : (fan a b c).crossed 0 = [0, 1, 2] := by
  have : below (fan a b c) 0 = ![true, false, false, false] := by
    funext i
    refine four (P := fun i => below (fan a b c) 0 i = (![true, false, false, false] : Fin 4 → Bool) i) ?_ ?_ ?_ ?_ i <;> norm_num [below, fan, at0, at1, at2, at3]
  rw [crossed_eq, this]
  decide +kernel

theorem fan_corners (a b c : ℝ × ℝ) : theCorners (fan a b c) 0 = [⟨a.1, a.2, cornerPhi a.1 a.2, 0⟩, ⟨b.1, b.2, cornerPhi b.1 b.2, 1⟩, ⟨c.1, c.2, cornerPhi c.1 c.2, 2⟩] := by
  have key : ∀ x : ℝ, 2 * x * (1 / 2) = x := fun x => by ring
  simp only [theCorners, fan_crossed, List.map_cons, List.map_nil, cornerAt, intersectZPlane, init_u, edge0, edge1, edge2]
  simp only [fan, at0, at1, at2, at3, Vec.sub]
  norm_num [key]

theorem fan_slice (a b c : ℝ × ℝ) (old : Nat → Line) (hab : 1 ≤ |a.1 - b.1| ∨ 1 ≤ |a.2 - b.2|) (hbc : 1 ≤ |b.1 - c.1| ∨ 1 ≤ |b.2 - c.2|)
    (hca : 1 ≤ |c.1 - a.1| ∨ 1 ≤ |c.2 - a.2|) : ∃ s, zPlaneSlice (.init (fan a b c)) (fan a b c) 0 old = some (some s) ∧
      s.corners = [⟨a.1, a.2, cornerPhi a.1 a.2, 0⟩, ⟨b.1, b.2, cornerPhi b.1 b.2, 1⟩, ⟨c.1, c.2, cornerPhi c.1 c.2, 2⟩] := by
  have hc := fan_corners a b c
  have hx : ∀ p q : ℝ × ℝ, 1 ≤ |p.1 - q.1| ∨ 1 ≤ |p.2 - q.2| → ∀ (f g : ℝ) (e e' : Fin 6), ¬ (⟨p.1, p.2, f, e⟩ : Corner).close ⟨q.1, q.2, g, e'⟩ := by
    rintro p q (h | h) f g e e' ⟨h1, h2⟩
    · dsimp only at h1
      norm_num at h1
      linarith
    · dsimp only at h2
      norm_num at h2
      linarith
  have hsym : ∀ p q : ℝ × ℝ, (1 ≤ |p.1 - q.1| ∨ 1 ≤ |p.2 - q.2|) → (1 ≤ |q.1 - p.1| ∨ 1 ≤ |q.2 - p.2|) := by
    intro p q h
    rwa [abs_sub_comm q.1, abs_sub_comm q.2]
  simp only [theCorners, fan_crossed, List.map_cons, List.map_nil, List.cons.injEq, and_true] at hc
  obtain ⟨s, h1, h2⟩ := slice_of_apart (fan a b c) 0 old (by rw [fan_crossed]; decide) (by
    rw [fan_crossed]
    obtain ⟨c0, c1, c2⟩ := hc
    intro e he f hf hs
    simp only [List.mem_cons, List.not_mem_nil, or_false] at he hf
    rcases he with rfl | rfl | rfl <;> rcases hf with rfl | rfl | rfl <;> simp only [c0, c1, c2] <;>
      first
        | exact absurd hs (by decide)
        | exact hx _ _ hab _ _ _ _
        | exact hx _ _ hbc _ _ _ _
        | exact hx _ _ hca _ _ _ _
        | exact hx _ _ (hsym _ _ hab) _ _ _ _
        | exact hx _ _ (hsym _ _ hbc) _ _ _ _
        | exact hx _ _ (hsym _ _ hca) _ _ _ _)
  exact ⟨s, h1, by rw [h2, fan_corners]⟩

/-- Non-vacuity: there are slices. -/
example : ∃ s, zPlaneSlice (.init (fan (1, 0) (2, 2) (3, 0))) (fan (1, 0) (2, 2) (3, 0)) 0 (fun _ => freshLine) = some (some s) :=
  (fan_slice (1, 0) (2, 2) (3, 0) _ (by norm_num) (by norm_num) (by norm_num)).imp fun _ h => h.1

/-- C86 is false of a plane that touches the lowest face: the cross-section is the whole face, but no slice is made. -/
theorem C86_touch_false (old : Nat → Line) : InTetra corner ⟨1 / 4, 1 / 4, 0⟩ ∧ InTetra corner ⟨1 / 2, 1 / 4, 0⟩ ∧ InTetra corner ⟨1 / 4, 1 / 2, 0⟩ ∧
    zPlaneSlice (.init corner) corner 0 old = some none := by
  refine ⟨⟨![1 / 2, 1 / 4, 1 / 4, 0], ?_, ?_, ?_⟩, ⟨![1 / 4, 1 / 2, 1 / 4, 0], ?_, ?_, ?_⟩, ⟨![1 / 4, 1 / 4, 1 / 2, 0], ?_, ?_, ?_⟩, ?_⟩
  iterate 3
    · intro i; refine four (P := fun i => 0 ≤ (![_, _, _, _] : Fin 4 → ℝ) i) ?_ ?_ ?_ ?_ i <;> norm_num [at0, at1, at2, at3]
    · norm_num [at0, at1, at2, at3]
    · ext <;> norm_num [corner, at0, at1, at2, at3]
  · have : below corner 0 = ![false, false, false, false] := by
      funext i
      refine four (P := fun i => below corner 0 i = (![false, false, false, false] : Fin 4 → Bool) i) ?_ ?_ ?_ ?_ i <;> norm_num [below, corner, at0, at1, at2, at3]
    have hc : corner.crossed 0 = [] := by
      rw [crossed_eq, this]
      decide +kernel
    simp [zPlaneSlice, hc]

/-- C86 is false of small tetrahedra: with edges of 1e-6 no slice is made, whatever the plane. -/
theorem C86_small_false (old : Nat → Line) : ∃ t : Tetra, (∀ i, t i = ⟨(corner i).x / 1000000, (corner i).y / 1000000, (corner i).z / 1000000⟩) ∧
    Inside t ⟨1 / 4000000, 1 / 4000000, 1 / 4000000⟩ ∧ zPlaneSlice (.init t) t (1 / 4000000) old = some none := by
  refine ⟨fun i => ⟨(corner i).x / 1000000, (corner i).y / 1000000, (corner i).z / 1000000⟩, fun _ => rfl, ⟨fun _ => 1 / 4, fun _ => by norm_num, by norm_num, ?_⟩, ?_⟩
  · ext <;> norm_num [corner, at0, at1, at2, at3]
  · set t : Tetra := fun i => ⟨(corner i).x / 1000000, (corner i).y / 1000000, (corner i).z / 1000000⟩ with ht
    obtain ⟨r, hr⟩ := C86_no_panic t (1 / 4000000) old
    rw [hr]
    cases r with
    | none => rfl
    | some s =>
      exfalso
      have := ((C86_ok_partial t (1 / 4000000) old).1 ⟨s, hr⟩).2 2 4 (by norm_num [Crosses, ht, corner, edge2, edge4, at0, at1, at2, at3])
        (by norm_num [Crosses, ht, corner, edge2, edge4, at0, at1, at2, at3]) ⟨2, 0, 1, by decide, rfl, rfl⟩
        ⟨0, 0, 1 / 4000000⟩ ⟨3 / 4000000, 0, 1 / 4000000⟩ rfl rfl ⟨1 / 4, by norm_num, by norm_num, by ext <;> norm_num [ht, corner, edge2, edge4, at0, at1, at2, at3]⟩
        ⟨1 / 4, by norm_num, by norm_num, by ext <;> norm_num [ht, corner, edge2, edge4, at0, at1, at2, at3]⟩
      apply this
      constructor <;> norm_num [abs_lt]

theorem phi_zero (x : ℝ) (hx : 0 < x) : cornerPhi x 0 = 0 := by
  have : Complex.arg ⟨x, 0⟩ = 0 := by
    rw [show (⟨x, 0⟩ : ℂ) = ((x : ℝ) : ℂ) from rfl]
    exact Complex.arg_ofReal_of_nonneg hx.le
  simp [cornerPhi, atan2, this]

/-- C86 is false of the width of the range when the first two corners are seen at the same angle: all points of this slice are seen within a quarter turn, but the
range is the whole circle. -/
theorem C86_range_false (old : Nat → Line) : ∃ s, zPlaneSlice (.init (fan (1, 0) (2, 0) (1, 1))) (fan (1, 0) (2, 0) (1, 1)) 0 old = some (some s) ∧
    (∀ x y, InTetra (fan (1, 0) (2, 0) (1, 1)) ⟨x, y, 0⟩ → 0 ≤ y ∧ 1 ≤ x) ∧ angleRange (s.corners.map Corner.phi) = some (0, 2 * π) := by
  obtain ⟨s, h1, h2⟩ := fan_slice (1, 0) (2, 0) (1, 1) old (by norm_num) (by norm_num) (by norm_num)
  refine ⟨s, h1, ?_, ?_⟩
  · intro x y h
    rw [← C86_section _ _ _ _ h1] at h
    have hconv : Convex ℝ {p : ℝ × ℝ | 0 ≤ p.2 ∧ 1 ≤ p.1} := by
      rintro p ⟨p1, p2⟩ q ⟨q1, q2⟩ a b ha hb hab
      simp only [Set.mem_setOf_eq, Prod.fst_add, Prod.snd_add, Prod.smul_fst, Prod.smul_snd, smul_eq_mul]
      constructor
      · positivity
      · nlinarith
    refine convexHull_min ?_ hconv h
    rintro p ⟨c, hc, rfl⟩
    rw [h2] at hc
    simp only [List.mem_cons, List.not_mem_nil, or_false] at hc
    rcases hc with rfl | rfl | rfl <;> norm_num
  · rw [h2]
    have hpi := pi_pos
    have p3 := cornerPhi_range 1 1
    have p4 : cornerPhi 1 1 ≤ π := by
      have : Complex.arg ⟨1, 1⟩ ≥ 0 := Complex.arg_nonneg_iff.2 (by norm_num)
      simp only [cornerPhi, atan2, not_lt.mpr this, if_false]
      exact Complex.arg_le_pi _
    simp only [List.map_cons, List.map_nil, phi_zero 1 one_pos, phi_zero 2 two_pos, angleRange, List.foldl_cons, List.foldl_nil]
    have e0 : rangeStart 0 0 = (0, 0, 2 * π) := by simp [rangeStart, angularWidth]
    rw [e0]
    have hw1 : ¬ angularWidth 0 (cornerPhi 1 1) > 2 * π := by
      have := (angularWidth_spec 0 (cornerPhi 1 1) le_rfl (by linarith) p3.1 p3.2).2.1
      linarith
    have hw2 : ¬ angularWidth (cornerPhi 1 1) 0 > 2 * π := by
      have := (angularWidth_spec (cornerPhi 1 1) 0 p3.1 p3.2 le_rfl (by linarith)).2.1
      linarith
    have e1 : rangeStep (0, 0, 2 * π) (cornerPhi 1 1) = (0, 0, 2 * π) := by
      simp only [rangeStep, hw1, hw2, if_false, ite_self]
    have : (2 * π : ℝ) > π := by linarith
    simp only [e1, this, if_true]

/-- A tetrahedron whose slice at z = 0 has the corners (1, 0), (2, 1), (3, 0) and (2, -1). -/
noncomputable def kite : Tetra := ![⟨0, 0, -1⟩, ⟨2, -2, -1⟩, ⟨2, 0, 1⟩, ⟨4, 2, 1⟩]

theorem kite_crossed : kite.crossed 0 = [1, 2, 3, 4] := by
  have : below kite 0 = ![true, true, false, false] := by
    funext i
    refine four (P := fun i => below kite 0 i = (![true, true, false, false] : Fin 4 → Bool) i) ?_ ?_ ?_ ?_ i <;> norm_num [below, kite, at0, at1, at2, at3]
  rw [crossed_eq, this]
  decide +kernel

/-- The corners of the kite. -/
noncomputable def kiteCorner (e : Fin 6) (x y : ℝ) : Corner := ⟨x, y, cornerPhi x y, e⟩

theorem kite_corner : cornerAt (.init kite) kite 0 1 = kiteCorner 1 1 0 ∧ cornerAt (.init kite) kite 0 2 = kiteCorner 2 2 1 ∧
    cornerAt (.init kite) kite 0 3 = kiteCorner 3 2 (-1) ∧ cornerAt (.init kite) kite 0 4 = kiteCorner 4 3 0 := by
  simp only [cornerAt, intersectZPlane, init_u, edge1, edge2, edge3, edge4, kiteCorner]
  simp only [kite, at0, at1, at2, at3, Vec.sub]
  norm_num

/-- C86 is false of a direction that passes exactly through corners: the ray along the x axis runs through the inside of this slice from corner to corner, but no line
is returned for it. -/
theorem C86_corner_angle_false (old : Nat → Line) : ∃ s, zPlaneSlice (.init kite) kite 0 old = some (some s) ∧ Inside kite ⟨2, 0, 0⟩ ∧
    s.intersectingLines 0 = (none, none) := by
  obtain ⟨k1, k2, k3, k4⟩ := kite_corner
  have cl : ∀ (x y x' y' : ℝ) (e e' : Fin 6), (1 ≤ |x - x'|) → ¬ (kiteCorner e x y).close (kiteCorner e' x' y') := by
    rintro x y x' y' e e' h ⟨h1, -⟩
    simp only [kiteCorner] at h1
    norm_num at h1
    linarith
  obtain ⟨s, h1, h2⟩ := slice_of_apart kite 0 old (by rw [kite_crossed]; decide) (by
    rw [kite_crossed]
    intro e he f hf hs
    simp only [List.mem_cons, List.not_mem_nil, or_false] at he hf
    rcases he with rfl | rfl | rfl | rfl <;> rcases hf with rfl | rfl | rfl | rfl <;> simp only [k1, k2, k3, k4] <;>
      first
        | exact absurd hs (by decide)
        | (apply cl; norm_num))
  refine ⟨s, h1, ⟨fun _ => 1 / 4, fun _ => by norm_num, by norm_num, ?_⟩, ?_⟩
  · ext <;> norm_num [kite, at0, at1, at2, at3]
  · have hcs : s.corners = [kiteCorner 1 1 0, kiteCorner 2 2 1, kiteCorner 3 2 (-1), kiteCorner 4 3 0] := by
      rw [h2]
      simp only [theCorners, kite_crossed, List.map_cons, List.map_nil, k1, k2, k3, k4]
    -- the ends of a side
    have ends : ∀ d ∈ s.sides, ∀ c1 c2, s.corners[d.start]? = some c1 → s.corners[d.stop]? = some c2 →
        (c1.y = 0 ∧ c2.y ≠ 0 ∧ c1.x * c2.y - c1.y * c2.x ≠ 0) ∨ (c1.y ≠ 0 ∧ c2.y = 0 ∧ c1.x * c2.y - c1.y * c2.x ≠ 0) := by
      intro d hd c1 c2 e1 e2
      obtain ⟨-, o, -, -, -, hs⟩ := C86_sides kite 0 old s h1
      obtain ⟨i, hi, ei⟩ := List.mem_iff_getElem.1 hd
      obtain ⟨a, b, c1', c2', -, -, -, g1, g2, hcf, -⟩ := hs i d (List.getElem?_eq_some_iff.2 ⟨hi, ei⟩)
      rw [e1] at g1
      rw [e2] at g2
      cases g1
      cases g2
      have m1 := List.mem_of_getElem? e1
      have m2 := List.mem_of_getElem? e2
      rw [hcs] at m1 m2
      simp only [List.mem_cons, List.not_mem_nil, or_false] at m1 m2
      have hsh := (faceShare_iff _ _).2 hcf
      rcases m1 with rfl | rfl | rfl | rfl <;> rcases m2 with rfl | rfl | rfl | rfl <;> simp only [kiteCorner] at hsh ⊢ <;>
        first
          | exact absurd hsh (by decide)
          | norm_num
    have away : AwayFromOrigin s := by
      intro d hd c1 c2 e1 e2
      rcases ends d hd c1 c2 e1 e2 with h | h
      · exact h.2.2
      · exact h.2.2
    have none : ∀ l, ¬ ((s.intersectingLines 0).1 = some l ∨ (s.intersectingLines 0).2 = some l) := by
      intro l hl
      rw [C86_lines_partial kite 0 old s h1 away 0 le_rfl (by have := pi_pos; linarith)] at hl
      obtain ⟨d, hd, ⟨c1, c2, e1, e2, R, q, -, q0, q1, -, hy⟩, -⟩ := hl
      rw [sin_zero, mul_zero] at hy
      rcases ends d hd c1 c2 e1 e2 with ⟨y1, y2, -⟩ | ⟨y1, y2, -⟩
      · rw [y1, mul_zero, zero_add] at hy
        rcases mul_eq_zero.1 hy with h | h
        · linarith
        · exact y2 h
      · rw [y2, mul_zero, add_zero] at hy
        rcases mul_eq_zero.1 hy with h | h
        · linarith
        · exact y1 h
    apply Prod.ext
    · cases e : (s.intersectingLines 0).1 with
      | none => rfl
      | some l => exact absurd (Or.inl e) (none l)
    · cases e : (s.intersectingLines 0).2 with
      | none => rfl
      | some l => exact absurd (Or.inr e) (none l)

/-- C86 is false of the least radius: this slice contains the origin, but the least squared radius is 1. -/
theorem C86_radius_false (old : Nat → Line) : ∃ s, zPlaneSlice (.init (fan (1, 0) (-1, 1) (-1, -1))) (fan (1, 0) (-1, 1) (-1, -1)) 0 old = some (some s) ∧
    InTetra (fan (1, 0) (-1, 1) (-1, -1)) ⟨0, 0, 0⟩ ∧ rSqrMinMax s.corners = some (1, 2) := by
  obtain ⟨s, h1, h2⟩ := fan_slice (1, 0) (-1, 1) (-1, -1) old (by norm_num) (by norm_num) (by norm_num)
  refine ⟨s, h1, ⟨![1 / 2, 1 / 4, 1 / 8, 1 / 8], ?_, ?_, ?_⟩, ?_⟩
  · intro i; refine four (P := fun i => 0 ≤ (![_, _, _, _] : Fin 4 → ℝ) i) ?_ ?_ ?_ ?_ i <;> norm_num [at0, at1, at2, at3]
  · norm_num [at0, at1, at2, at3]
  · ext <;> norm_num [fan, at0, at1, at2, at3]
  · rw [h2]
    norm_num [rSqrMinMax]


end Shellfish.Geom
