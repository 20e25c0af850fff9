/- C102: bounding boxes of particle files in single precision.  C103: the ids of halo catalogues. -/
import Verif.Model.Round32
import Verif.Model.Box
import Verif.Lemmas.Round
import Verif.Lemmas.Memo
import Verif.Props.Round

namespace Shellfish.Round
open Shellfish.Finder (toInt)

/-! ### Specification -/

/-- A float32 number (without limits of the exponent). -/
def Float32 (x : ℚ) : Prop := ∃ m e : ℤ, |m| < 2 ^ 24 ∧ x = m * 2 ^ e

/-! ### Lemmas -/

theorem r32_mono {x y : ℚ} (h : x ≤ y) : r32 x ≤ r32 y := rn_mono (by norm_num) h
theorem r32_float {x : ℚ} (h : Float32 x) : r32 x = x := rn_rep h
theorem r32_nonneg {x : ℚ} (h : 0 ≤ x) : 0 ≤ r32 x := rn_nonneg h
theorem r32_le {x f : ℚ} (hf : Float32 f) (h : x ≤ f) : r32 x ≤ f := rn_le (by norm_num) hf h
theorem le_r32 {x f : ℚ} (hf : Float32 f) (h : f ≤ x) : f ≤ r32 x := le_rn (by norm_num) hf h
theorem r32_error (x : ℚ) : |r32 x - x| ≤ |x| / 2 ^ 24 := by
  have := rn_error (p := 24) (by norm_num) x
  have e : (2 : ℚ) ^ (-((24 : ℕ) : ℤ)) = 1 / 2 ^ 24 := by norm_num
  rw [e] at this
  unfold r32
  linarith
theorem r32_rep (x : ℚ) : Float32 (r32 x) := by
  exact rep_rn (by norm_num) x
theorem half_float {x : ℚ} (h : Float32 x) : Float32 (x / 2) := by
  obtain ⟨m, e, h1, h2⟩ := h
  refine ⟨m, e - 1, h1, ?_⟩
  rw [h2, zpow_sub₀ (by norm_num), zpow_one]; ring
theorem neg_float {x : ℚ} (h : Float32 x) : Float32 (-x) := by
  obtain ⟨m, e, h1, h2⟩ := h
  refine ⟨-m, e, by rwa [abs_neg], ?_⟩
  rw [h2]; push_cast; ring
theorem double_float {x : ℚ} (h : Float32 x) : Float32 (2 * x) := by
  obtain ⟨m, e, h1, h2⟩ := h
  refine ⟨m, e + 1, h1, ?_⟩
  rw [h2, zpow_add₀ (by norm_num), zpow_one]; ring

/-! ### The bounding box -/

/-- `x` is in the periodic box `s` with a margin `e`. -/
def Near (tw e x : ℚ) (s : ℚ × ℚ) : Prop := ∃ k : ℤ, s.1 - e ≤ x + k * tw ∧ x + k * tw ≤ s.1 + s.2 + e

structure GoodBox (tw : ℚ) (s : ℚ × ℚ) : Prop where
  f1 : Float32 s.1
  f2 : Float32 s.2
  nn : 0 ≤ s.2
  lo : -tw ≤ s.1
  hi : s.1 ≤ tw

/-- the periodic image that a step uses -/
def image (tw x o : ℚ) : ℚ := if r32 (x - o) > r32 (tw / 2) then r32 (x - tw) else if r32 (x - o) < -r32 (tw / 2) then r32 (x + tw) else x

theorem image_spec {tw x o : ℚ} (htw : 0 < tw) (ft : Float32 tw) (fx : Float32 x) (h0 : 0 ≤ x) (h1 : x ≤ tw) :
    Float32 (image tw x o) ∧ -tw ≤ image tw x o ∧ ∃ k : ℤ, |image tw x o - (x + k * tw)| ≤ 2 * tw / 2 ^ 24 := by
  unfold image
  split
  · refine ⟨r32_rep _, le_r32 (neg_float ft) (by linarith), -1, ?_⟩
    have := r32_error (x - tw)
    have e : |x - tw| ≤ tw := by rw [abs_le]; constructor <;> linarith
    have : |r32 (x - tw) - (x - tw)| ≤ 2 * tw / 2 ^ 24 := by
      refine this.trans ?_
      gcongr
      linarith
    push_cast
    rw [show x + -1 * tw = x - tw by ring]
    exact this
  · split
    · refine ⟨r32_rep _, le_trans (by linarith) (r32_nonneg (by linarith)), 1, ?_⟩
      have := r32_error (x + tw)
      have e : |x + tw| ≤ 2 * tw := by rw [abs_le]; constructor <;> linarith
      push_cast
      rw [one_mul]
      refine this.trans ?_
      gcongr
    · exact ⟨fx, by linarith, 0, by simp; positivity⟩

theorem boxStep32_eq (tw x : ℚ) (s : ℚ × ℚ) : boxStep32 tw x s =
    if x > s.1 ∧ x < r32 (s.1 + s.2) then s
    else if image tw x s.1 < s.1 then (image tw x s.1, r32 (s.2 + r32 (s.1 - image tw x s.1))) else if r32 (image tw x s.1 - s.1) > s.2 then (s.1, r32 (image tw x s.1 - s.1)) else s := rfl

theorem boxStep32_good {tw x : ℚ} {s : ℚ × ℚ} (htw : 0 < tw) (ft : Float32 tw) (fx : Float32 x) (h0 : 0 ≤ x) (h1 : x ≤ tw) (g : GoodBox tw s) :
    GoodBox tw (boxStep32 tw x s) ∧ s.2 ≤ (boxStep32 tw x s).2 := by
  rw [boxStep32_eq]
  obtain ⟨i1, i2, -⟩ := image_spec (o := s.1) htw ft fx h0 h1
  split
  · exact ⟨g, le_refl _⟩
  · split
    · rename_i h
      have hd : 0 ≤ r32 (s.1 - image tw x s.1) := r32_nonneg (by linarith)
      have hw : s.2 ≤ r32 (s.2 + r32 (s.1 - image tw x s.1)) := le_r32 g.f2 (by linarith)
      exact ⟨⟨i1, r32_rep _, le_trans g.nn hw, i2, le_trans h.le g.hi⟩, hw⟩
    · split
      · rename_i h
        exact ⟨⟨g.f1, r32_rep _, le_trans g.nn h.le, g.lo, g.hi⟩, h.le⟩
      · exact ⟨g, le_refl _⟩

theorem boxStep32_near {tw x : ℚ} {s : ℚ × ℚ} (htw : 0 < tw) (ft : Float32 tw) (fx : Float32 x) (h0 : 0 ≤ x) (h1 : x ≤ tw) (g : GoodBox tw s)
    (hw : (boxStep32 tw x s).2 ≤ tw / 2) :
    Near tw (tw / 2 ^ 22) x (boxStep32 tw x s) ∧ ∀ e y, Near tw e y s → Near tw (e + tw / 2 ^ 22) y (boxStep32 tw x s) := by
  have hu : (0 : ℚ) < tw / 2 ^ 24 := by positivity
  have e4 : tw / 2 ^ 22 = 4 * (tw / 2 ^ 24) := by ring
  have widen : ∀ e y, Near tw e y s → Near tw (e + tw / 2 ^ 22) y s := fun e y ⟨k, a, b⟩ => ⟨k, by linarith, by linarith⟩
  obtain ⟨i1, i2, k, ik⟩ := image_spec (o := s.1) htw ft fx h0 h1
  have ik' : |image tw x s.1 - (x + k * tw)| ≤ 2 * (tw / 2 ^ 24) := by rw [← mul_div_assoc]; exact ik
  rw [abs_le] at ik'
  rw [boxStep32_eq] at hw ⊢
  have nn := g.nn; have lo := g.lo; have hi := g.hi
  by_cases c1 : x > s.1 ∧ x < r32 (s.1 + s.2)
  · rw [if_pos c1] at hw ⊢
    refine ⟨⟨0, by push_cast; linarith [c1.1], ?_⟩, widen⟩
    have er := r32_error (s.1 + s.2)
    have ab : |s.1 + s.2| ≤ 2 * tw := by rw [abs_le]; constructor <;> linarith
    have : |s.1 + s.2| / 2 ^ 24 ≤ 2 * (tw / 2 ^ 24) := by rw [← mul_div_assoc]; gcongr
    rw [abs_le] at er
    push_cast
    linarith [c1.2, er.2]
  rw [if_neg c1] at hw ⊢
  by_cases c2 : image tw x s.1 < s.1
  · rw [if_pos c2] at hw ⊢
    dsimp only at hw ⊢
    set x' := image tw x s.1 with hx'
    have d0 : 0 ≤ s.1 - x' := by linarith
    have er1 := r32_error (s.1 - x')
    rw [abs_of_nonneg d0] at er1
    have dd0 := r32_nonneg d0
    set d := r32 (s.1 - x') with hd
    have er2 := r32_error (s.2 + d)
    rw [abs_of_nonneg (by linarith : 0 ≤ s.2 + d)] at er2
    set w' := r32 (s.2 + d) with hw'
    rw [abs_le] at er1 er2
    have b1 : s.2 + d ≤ tw := by linarith [er2.1, er2.2]
    have b2 : s.1 - x' ≤ 2 * tw := by linarith [er1.1, er1.2]
    have b1' : (s.2 + d) / 2 ^ 24 ≤ tw / 2 ^ 24 := by gcongr
    have b2' : (s.1 - x') / 2 ^ 24 ≤ 2 * (tw / 2 ^ 24) := by rw [← mul_div_assoc]; gcongr
    have hw0 : 0 ≤ w' := r32_nonneg (by linarith)
    refine ⟨⟨k, by linarith [ik'.1, ik'.2], by linarith [ik'.1, ik'.2]⟩, fun e y ⟨j, a, b⟩ => ⟨j, ?_, ?_⟩⟩
    · show x' - (e + tw / 2 ^ 22) ≤ _
      linarith
    · show _ ≤ x' + w' + (e + tw / 2 ^ 22)
      linarith [er1.1, er1.2, er2.1, er2.2]
  rw [if_neg c2] at hw ⊢
  by_cases c3 : r32 (image tw x s.1 - s.1) > s.2
  · rw [if_pos c3] at hw ⊢
    dsimp only at hw ⊢
    set x' := image tw x s.1 with hx'
    have d0 : 0 ≤ x' - s.1 := by linarith
    have er1 := r32_error (x' - s.1)
    rw [abs_of_nonneg d0, abs_le] at er1
    have b2 : x' - s.1 ≤ tw := by linarith [er1.1, er1.2]
    have b2' : (x' - s.1) / 2 ^ 24 ≤ tw / 2 ^ 24 := by gcongr
    refine ⟨⟨k, by show s.1 - tw / 2 ^ 22 ≤ _; linarith [ik'.1, ik'.2], ?_⟩, fun e y ⟨j, a, b⟩ => ⟨j, ?_, ?_⟩⟩
    · show _ ≤ s.1 + r32 (x' - s.1) + tw / 2 ^ 22
      linarith [ik'.1, ik'.2, er1.1, er1.2]
    · show s.1 - (e + tw / 2 ^ 22) ≤ _
      linarith
    · show _ ≤ s.1 + r32 (x' - s.1) + (e + tw / 2 ^ 22)
      linarith
  rw [if_neg c3] at hw ⊢
  set x' := image tw x s.1 with hx'
  have d0 : 0 ≤ x' - s.1 := by linarith
  have er1 := r32_error (x' - s.1)
  rw [abs_of_nonneg d0, abs_le] at er1
  have b2 : x' - s.1 ≤ tw := by linarith [er1.1, er1.2]
  have b2' : (x' - s.1) / 2 ^ 24 ≤ tw / 2 ^ 24 := by gcongr
  refine ⟨⟨k, by linarith [ik'.1, ik'.2], by linarith [ik'.1, ik'.2, er1.1, er1.2]⟩, widen⟩

theorem fold32 {tw : ℚ} (htw : 0 < tw) (ft : Float32 tw) (l : List ℚ) : ∀ s : ℚ × ℚ, (∀ x ∈ l, Float32 x ∧ 0 ≤ x ∧ x ≤ tw) → GoodBox tw s →
    GoodBox tw (l.foldl (fun s x => boxStep32 tw x s) s) ∧ s.2 ≤ (l.foldl (fun s x => boxStep32 tw x s) s).2 ∧
    ((l.foldl (fun s x => boxStep32 tw x s) s).2 ≤ tw / 2 →
      (∀ x ∈ l, Near tw (l.length * (tw / 2 ^ 22)) x (l.foldl (fun s x => boxStep32 tw x s) s)) ∧
      ∀ e y, Near tw e y s → Near tw (e + l.length * (tw / 2 ^ 22)) y (l.foldl (fun s x => boxStep32 tw x s) s)) := by
  induction l with
  | nil => intro s _ g; exact ⟨g, le_refl _, fun _ => ⟨by simp, fun e y h => by simpa using h⟩⟩
  | cons x l ih =>
    intro s hl g
    obtain ⟨fx, h0, h1⟩ := hl x List.mem_cons_self
    obtain ⟨g', hm⟩ := boxStep32_good htw ft fx h0 h1 g
    obtain ⟨g2, m2, n2⟩ := ih (boxStep32 tw x s) (fun y hy => hl y (List.mem_cons_of_mem _ hy)) g'
    rw [List.foldl_cons]
    refine ⟨g2, le_trans hm m2, fun hw => ?_⟩
    obtain ⟨a, b⟩ := n2 hw
    obtain ⟨c, d⟩ := boxStep32_near htw ft fx h0 h1 g (le_trans m2 hw)
    have hu : 0 ≤ tw / 2 ^ 22 := by positivity
    refine ⟨fun y hy => ?_, fun e y hy => ?_⟩
    · rcases List.mem_cons.mp hy with rfl | hy
      · obtain ⟨k, p, q⟩ := b _ _ c
        exact ⟨k, by rw [List.length_cons]; push_cast; linarith, by rw [List.length_cons]; push_cast; linarith⟩
      · obtain ⟨k, p, q⟩ := a y hy
        exact ⟨k, by rw [List.length_cons]; push_cast; linarith, by rw [List.length_cons]; push_cast; linarith⟩
    · obtain ⟨k, p, q⟩ := b _ _ (d e y hy)
      exact ⟨k, by rw [List.length_cons]; push_cast; linarith, by rw [List.length_cons]; push_cast; linarith⟩

/-- C102, what is left of it: every particle of a block of `n` is in the periodic box that is computed for it, up to a margin of `n·2⁻²²` box widths; the box is not wider than the
simulation box. -/
theorem C102_box_partial (tw : ℚ) (htw : 0 < tw) (ft : Float32 tw) (xs : List ℚ) (hne : xs ≠ []) (hx : ∀ x ∈ xs, Float32 x ∧ 0 ≤ x ∧ x ≤ tw) :
    ∃ o w, boundingBox32 xs tw = some (o, w) ∧ 0 ≤ w ∧ w ≤ tw ∧
      ∀ x ∈ xs, ∃ k : ℤ, o - xs.length * (tw / 2 ^ 22) ≤ x + k * tw ∧ x + k * tw ≤ o + w + xs.length * (tw / 2 ^ 22) := by
  obtain ⟨x0, l, rfl⟩ := List.exists_cons_of_ne_nil hne
  obtain ⟨f0, a0, b0⟩ := hx x0 List.mem_cons_self
  have g0 : GoodBox tw (x0, 0) := ⟨f0, ⟨0, 0, by norm_num, by norm_num⟩, le_refl _, by show -tw ≤ x0; linarith, b0⟩
  obtain ⟨g, -, n⟩ := fold32 htw ft (x0 :: l) (x0, 0) hx g0
  unfold boundingBox32
  rw [List.head?_cons, Option.map_some]
  dsimp only
  rw [r32_float ft, r32_float (half_float ft)]
  have hu : (0 : ℚ) ≤ (x0 :: l).length * (tw / 2 ^ 22) := by positivity
  by_cases c : ((x0 :: l).foldl (fun s x => boxStep32 tw x s) (x0, 0)).2 > tw / 2
  · rw [if_pos c]
    exact ⟨0, tw, rfl, htw.le, le_refl _, fun x h => ⟨0, by push_cast; linarith [(hx x h).2.1], by push_cast; linarith [(hx x h).2.2]⟩⟩
  · rw [if_neg c]
    exact ⟨_, _, rfl, g.nn, le_trans (not_lt.mp c) (by linarith), fun x h => (n (not_lt.mp c)).1 x h⟩

example : ∃ o w, boundingBox32 [1 / 4, 99, 3 / 2] 100 = some (o, w) ∧ ∃ k : ℤ, o - 3 * (100 / 2 ^ 22) ≤ 99 + k * 100 := by
  obtain ⟨o, w, h, -, -, hx⟩ := C102_box_partial 100 (by norm_num) ⟨100, 0, by norm_num, by norm_num⟩ [1 / 4, 99, 3 / 2] (by simp)
    (by
      intro x hx
      simp only [List.mem_cons, List.not_mem_nil, or_false] at hx
      rcases hx with rfl | rfl | rfl
      · exact ⟨⟨1, -2, by norm_num, by norm_num⟩, by norm_num, by norm_num⟩
      · exact ⟨⟨99, 0, by norm_num, by norm_num⟩, by norm_num, by norm_num⟩
      · exact ⟨⟨3, -1, by norm_num, by norm_num⟩, by norm_num, by norm_num⟩)
  obtain ⟨k, h1, -⟩ := hx 99 (by simp)
  exact ⟨o, w, h, k, by simpa using h1⟩

/-- The block of the counterexample: particles at 1/4 and 5/4, then `m` particles, each 2⁻²⁶ before the last one. -/
def drift (m : ℕ) : List ℚ := 1 / 4 :: 5 / 4 :: (List.range m).map fun k : ℕ => 1 / 4 - ((k : ℚ) + 1) / 2 ^ 26

theorem drift_float (m : ℕ) (hm : m ≤ 2 ^ 23) : ∀ x ∈ drift m, Float32 x ∧ 0 ≤ x ∧ x < 100 := by
  intro x hx
  unfold drift at hx
  rcases List.mem_cons.mp hx with rfl | hx
  · exact ⟨⟨1, -2, by norm_num, by norm_num⟩, by norm_num, by norm_num⟩
  rcases List.mem_cons.mp hx with rfl | hx
  · exact ⟨⟨5, -2, by norm_num, by norm_num⟩, by norm_num, by norm_num⟩
  obtain ⟨k, hk, rfl⟩ := List.mem_map.mp hx
  rw [List.mem_range] at hk
  have hk' : (k : ℚ) + 1 ≤ 2 ^ 23 := by exact_mod_cast le_trans hk hm
  have h0 : (0 : ℚ) ≤ k := by positivity
  refine ⟨⟨2 ^ 24 - (k + 1), -26, ?_, ?_⟩, ?_, ?_⟩
  · have : k + 1 ≤ 2 ^ 23 := le_trans hk hm
    rw [abs_lt]
    constructor <;> omega
  · push_cast
    rw [show ((2 : ℚ) ^ (-26 : ℤ)) = 1 / 2 ^ 26 by norm_num]
    ring
  · have : ((k : ℚ) + 1) / 2 ^ 26 ≤ 2 ^ 23 / 2 ^ 26 := by gcongr
    norm_num at this ⊢; linarith
  · have : 0 ≤ ((k : ℚ) + 1) / 2 ^ 26 := by positivity
    linarith

theorem one_step (o : ℚ) (ho : 0 ≤ o) (ho' : o ≤ 1 / 4) (fo : Float32 (o - 1 / 2 ^ 26)) : boxStep32 100 (o - 1 / 2 ^ 26) (o, 1) = (o - 1 / 2 ^ 26, 1) := by
  have q1 : r32 (1 / 2 ^ 26) = 1 / 2 ^ 26 := r32_float ⟨1, -26, by norm_num, by norm_num⟩
  have q1' : r32 (-(1 / 2 ^ 26)) = -(1 / 2 ^ 26) := r32_float ⟨-1, -26, by norm_num, by norm_num⟩
  have q2 : r32 ((100 : ℚ) / 2) = 50 := by
    rw [show (100 : ℚ) / 2 = 50 by norm_num]; exact r32_float ⟨50, 0, by norm_num, by norm_num⟩
  have q3 : r32 (1 + 1 / 2 ^ 26) = 1 := by
    have := rn_eq (p := 24) (x := 1 + 1 / 2 ^ 26) 0 (2 ^ 23) (by rw [abs_of_pos (by norm_num)]; norm_num) (by rw [abs_of_pos (by norm_num)]; norm_num)
      (by rw [abs_lt]; constructor <;> norm_num)
    rw [r32, this]; norm_num
  rw [boxStep32_eq]
  dsimp only
  rw [if_neg (by intro h; linarith [h.1])]
  have im : image 100 (o - 1 / 2 ^ 26) o = o - 1 / 2 ^ 26 := by
    unfold image
    rw [show o - 1 / 2 ^ 26 - o = -(1 / 2 ^ 26) by ring, q1', q2, if_neg (by norm_num), if_neg (by norm_num)]
  rw [im, if_pos (by linarith), show o - (o - 1 / 2 ^ 26) = 1 / 2 ^ 26 by ring, q1, q3]

/-- C102 is false: the box computed for this block of float32 positions begins at 1/4 - m·2⁻²⁶ and is 1 wide for every `m` up to 2²³: the particle at 5/4 is outside of it by m·2⁻²⁶, up to
1/8 (each of the small steps is lost when it is added to the width). -/
theorem C102_drift_false (m : ℕ) (hm : m ≤ 2 ^ 23) : boundingBox32 (drift m) 100 = some ((1 : ℚ) / 4 - (m : ℚ) / 2 ^ 26, (1 : ℚ)) := by
  have q0 : r32 100 = 100 := r32_float ⟨100, 0, by norm_num, by norm_num⟩
  have q2 : r32 ((100 : ℚ) / 2) = 50 := by
    rw [show (100 : ℚ) / 2 = 50 by norm_num]; exact r32_float ⟨50, 0, by norm_num, by norm_num⟩
  have q3 : r32 1 = 1 := r32_float ⟨1, 0, by norm_num, by norm_num⟩
  have q4 : r32 0 = 0 := r32_float ⟨0, 0, by norm_num, by norm_num⟩
  have q5 : r32 (1 / 4) = 1 / 4 := r32_float ⟨1, -2, by norm_num, by norm_num⟩
  have s1 : boxStep32 100 (1 / 4) (1 / 4, 0) = (1 / 4, 0) := by
    rw [boxStep32_eq]
    have im : image 100 (1 / 4) (1 / 4) = 1 / 4 := by
      unfold image
      rw [sub_self, q2, q4]; norm_num
    dsimp only
    rw [im, add_zero, q5, sub_self, q4, if_neg (by norm_num), if_neg (by norm_num), if_neg (by norm_num)]
  have s2 : boxStep32 100 (5 / 4) (1 / 4, 0) = (1 / 4, 1) := by
    rw [boxStep32_eq]
    have im : image 100 (5 / 4) (1 / 4) = 5 / 4 := by
      unfold image
      rw [show (5 : ℚ) / 4 - 1 / 4 = 1 by norm_num, q2, q3]; norm_num
    dsimp only
    rw [im, show (1 : ℚ) / 4 + 0 = 1 / 4 by norm_num, q5, if_neg (by norm_num), if_neg (by norm_num), show (5 : ℚ) / 4 - 1 / 4 = 1 by norm_num, q3, if_pos (by norm_num)]
  have fold : ∀ j, j ≤ m → ((List.range j).map fun k : ℕ => (1 : ℚ) / 4 - ((k : ℚ) + 1) / 2 ^ 26).foldl (fun s x => boxStep32 100 x s) ((1 : ℚ) / 4, (1 : ℚ)) = ((1 : ℚ) / 4 - (j : ℚ) / 2 ^ 26, (1 : ℚ)) := by
    intro j
    induction j with
    | zero => intro _; simp
    | succ j ih =>
      intro hj
      rw [List.range_succ, List.map_append, List.foldl_append, ih (by omega)]
      have hj' : (j : ℚ) + 1 ≤ 2 ^ 23 := by exact_mod_cast le_trans hj hm
      have h0 : (0 : ℚ) ≤ j := by positivity
      have e : (1 : ℚ) / 4 - ((j : ℚ) + 1) / 2 ^ 26 = 1 / 4 - j / 2 ^ 26 - 1 / 2 ^ 26 := by ring
      have b : (j : ℚ) / 2 ^ 26 ≤ 2 ^ 23 / 2 ^ 26 := by gcongr; linarith
      have b0 : 0 ≤ (j : ℚ) / 2 ^ 26 := by positivity
      have hf : Float32 (1 / 4 - j / 2 ^ 26 - 1 / 2 ^ 26) := by
        rw [← e]
        refine (drift_float m hm _ ?_).1
        exact List.mem_cons_of_mem _ (List.mem_cons_of_mem _ (List.mem_map.mpr ⟨j, List.mem_range.mpr (by omega), rfl⟩))
      show boxStep32 100 (1 / 4 - ((j : ℚ) + 1) / 2 ^ 26) _ = _
      rw [e, one_step _ (by norm_num at b ⊢; linarith) (by linarith) hf]
      push_cast
      rw [← e]
  unfold boundingBox32
  unfold drift
  rw [List.head?_cons, Option.map_some]
  dsimp only
  rw [q0, q2, List.foldl_cons, List.foldl_cons, s1, s2, fold m (le_refl m)]
  rw [if_neg (by norm_num)]

/-- … so that the file is not read for a halo of radius 1/10 whose center is that particle. -/
theorem C102_missed_false : ∃ xs : List ℚ, ∃ x ∈ xs, (∀ y ∈ xs, Float32 y ∧ 0 ≤ y ∧ y < 100) ∧ ∃ o w : ℚ, boundingBox32 xs 100 = some (o, w) ∧
    ∀ hd : Shellfish.Los.Region, hd.origin.x = o → hd.width.x = w → hd.totalWidth = 100 →
      ∀ s : Shellfish.Los.Sphere, s.c.x = x → s.r = 1 / 10 → ¬ Shellfish.Los.sphereSheetIntersect s hd := by
  refine ⟨drift (2 ^ 23), 5 / 4, by simp [drift], drift_float _ (le_refl _), _, _, C102_drift_false _ (le_refl _), ?_⟩
  rintro hd h1 h2 h3 s h4 h5 ⟨hx, -, -⟩
  rw [h1, h2, h3, h4, h5] at hx
  norm_num [Shellfish.Los.inRange, Shellfish.Los.wrapDist] at hx

/-! ### Ids -/

theorem toInt_int (n : ℤ) : toInt (n : ℚ) = n := by
  unfold Shellfish.Finder.toInt Shellfish.Los.modf
  by_cases h : (0 : ℚ) ≤ n
  · rw [if_pos h]; simp
  · rw [if_neg h]; simp

/-- C103: an id of at most 2⁵³ is read exactly. -/
theorem C103_exact (n : ℤ) (h : |n| ≤ 2 ^ 53) : idRead n = n := by
  have : Rep 53 (n : ℚ) := by
    rcases lt_or_eq_of_le h with h | h
    · exact rep_int n h
    rcases abs_eq (by norm_num : (0 : ℤ) ≤ 2 ^ 53) |>.mp h with rfl | rfl
    · exact ⟨1, 53, by norm_num, by norm_num⟩
    · exact ⟨-1, 53, by norm_num, by norm_num⟩
  unfold idRead r64
  rw [rn_rep this, toInt_int]

/-- C103, what is left of it: in a catalogue whose ids are different and at most 2⁵³, an id selects its own row, and an id that is not in the catalogue selects no row. -/
theorem C103_rows_partial (ids : List ℤ) (hn : ids.Nodup) (hs : ∀ n ∈ ids, |n| ≤ 2 ^ 53) : (∀ (i : ℕ) (n : ℤ), ids[i]? = some n → rowOf ids n = some i) ∧ ∀ n ∉ ids, rowOf ids n = none := by
  have e : ids.map idRead = ids := by
    conv_rhs => rw [← List.map_id ids]
    exact List.map_congr_left fun n h => C103_exact n (hs n h)
  unfold rowOf Shellfish.Memo.find
  rw [e]
  refine ⟨fun i n h => ?_, fun n h => ((Shellfish.Memo.newIntFinder_spec ids n).2).mpr h⟩
  rcases hf : Shellfish.Memo.newIntFinder ids n with _ | j
  · exact absurd (List.mem_of_getElem? h) (((Shellfish.Memo.newIntFinder_spec ids n).2).mp hf)
  · obtain ⟨h1, -⟩ := (Shellfish.Memo.newIntFinder_spec ids n).1 j hf
    obtain ⟨hi, hi'⟩ := List.getElem?_eq_some_iff.mp h
    obtain ⟨hj, hj'⟩ := List.getElem?_eq_some_iff.mp h1
    rw [(List.Nodup.getElem_inj_iff hn).mp (hj'.trans hi'.symm)]

example : rowOf [7, -3, 2 ^ 53] (-3) = some 1 ∧ rowOf [7, -3, 2 ^ 53] 8 = none := by
  have h := C103_rows_partial [7, -3, 2 ^ 53] (by decide) (by decide)
  exact ⟨h.1 1 _ rfl, h.2 8 (by decide)⟩

/-- C103 is false: an odd id above 2⁵³ selects no row, of no catalogue, although it is in the catalogue: the catalogue never contains it after it is read. -/
theorem C103_large_false (n : ℤ) (h : 2 ^ 53 < |n|) (ho : n % 2 = 1) (ids : List ℤ) : rowOf ids n = none := by
  unfold rowOf Shellfish.Memo.find
  rw [(Shellfish.Memo.newIntFinder_spec _ n).2]
  intro hm
  obtain ⟨k, -, hk⟩ := List.mem_map.mp hm
  unfold idRead r64 at hk
  obtain ⟨m, e, hb, he⟩ := rep_rn (p := 53) (by norm_num) (k : ℚ)
  rw [he] at hk
  rcases lt_or_ge e 0 with hneg | hpos
  · -- the absolute value is below 2⁵³
    have hlt : |(m : ℚ) * 2 ^ e| < 2 ^ 53 := by
      rw [abs_mul]
      have h1 : |((2 : ℚ) ^ e)| ≤ 1 := by
        rw [abs_of_pos (by positivity)]
        exact zpow_le_one_of_nonpos₀ (by norm_num) hneg.le
      have h2 : |(m : ℚ)| < 2 ^ 53 := by exact_mod_cast hb
      calc |(m : ℚ)| * |(2 : ℚ) ^ e| ≤ |(m : ℚ)| * 1 := by gcongr
        _ < 2 ^ 53 := by rwa [mul_one]
    rw [abs_lt] at hlt
    have : |n| ≤ 2 ^ 53 := by
      rw [← hk]
      unfold Shellfish.Finder.toInt Shellfish.Los.modf
      by_cases c : (0 : ℚ) ≤ (m : ℚ) * 2 ^ e
      · rw [if_pos c]
        have a1 : 0 ≤ ⌊(m : ℚ) * 2 ^ e⌋ := Int.floor_nonneg.mpr c
        have a2 : ⌊(m : ℚ) * 2 ^ e⌋ < 2 ^ 53 := Int.floor_lt.mpr (by push_cast; exact hlt.2)
        dsimp only
        rw [abs_le]; constructor <;> omega
      · rw [if_neg c]
        dsimp only
        have a1 : ⌈(m : ℚ) * 2 ^ e⌉ ≤ 0 := Int.ceil_le.mpr (by push_cast; linarith)
        have a2 : -(2 ^ 53) ≤ ⌈(m : ℚ) * 2 ^ e⌉ := by
          have := lt_of_lt_of_le hlt.1 (Int.le_ceil ((m : ℚ) * 2 ^ e))
          exact_mod_cast this.le
        rw [abs_le]; constructor <;> omega
    omega
  · obtain ⟨f, rfl⟩ := Int.eq_ofNat_of_zero_le hpos
    have ei : (m : ℚ) * 2 ^ ((f : ℕ) : ℤ) = ((m * 2 ^ f : ℤ) : ℚ) := by push_cast; rw [zpow_natCast]
    rw [ei, toInt_int] at hk
    rcases f with _ | f
    · rw [pow_zero, mul_one] at hk
      rw [← hk] at h
      omega
    · have : n = 2 * (m * 2 ^ f) := by rw [← hk, pow_succ]; ring
      omega

/-- … and its row is found under another id, where it hides the halo that has it. -/
theorem C103_hidden_false : rowOf [2 ^ 53, 2 ^ 53 + 1] (2 ^ 53) = some 1 ∧ rowOf [2 ^ 53, 2 ^ 53 + 1] (2 ^ 53 + 1) = none := by
  refine ⟨?_, C103_large_false _ (by norm_num) (by norm_num) _⟩
  have e1 : idRead (2 ^ 53) = 2 ^ 53 := C103_exact _ (by norm_num)
  have e2 : idRead (2 ^ 53 + 1) = 2 ^ 53 := by
    have h : rn 53 (((2 ^ 53 + 1 : ℤ) : ℚ)) = ((2 ^ 53 : ℤ) : ℚ) := by
      unfold rn lastBit
      rw [log_unique (k := 53) (by push_cast; rw [abs_of_pos (by norm_num)]; norm_num) (by push_cast; rw [abs_of_pos (by norm_num)]; norm_num)]
      have : nearest (((2 ^ 53 + 1 : ℤ) : ℚ) / 2 ^ ((53 : ℤ) - (((53 : ℕ) : ℤ) - 1))) = 2 ^ 52 := by
        unfold nearest
        norm_num
      rw [this]; norm_num
    unfold idRead r64
    rw [h, toInt_int]
  unfold rowOf
  rw [show ([2 ^ 53, 2 ^ 53 + 1] : List ℤ).map idRead = [2 ^ 53, 2 ^ 53] by rw [List.map_cons, List.map_cons, e1, e2]; rfl]
  rfl

end Shellfish.Round
