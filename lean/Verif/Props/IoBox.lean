/-
Positions in the box, bounding boxes, open buffers, Bolshoi blocks (C32, C33, C34, C61).
-/
import Verif.Model.Io
import Mathlib.Algebra.Order.Floor.Ring
import Mathlib.Data.Rat.Floor
import Mathlib.Data.List.Induction
import Mathlib.Tactic.Linarith
import Mathlib.Tactic.FieldSimp
import Mathlib.Tactic.Ring

namespace Shellfish.Io

section
variable {K : Type} [Field K] [LinearOrder K] [IsStrictOrderedRing K]

/-! C32: periodicity -/

/-- C32, in exact arithmetic: a position less than one box width outside of the box is moved into the box by a multiple of the box width. -/
theorem C32_wrapped_partial (tw x : K) (htw : 0 < tw) (h1 : -tw ≤ x) (h2 : x < 2 * tw) : ∃ y, fixCoord id tw x = some y ∧ 0 ≤ y ∧ y < tw ∧ ∃ k : Int, y = x + k * tw := by
  unfold fixCoord
  simp only [id]
  by_cases ha : x < 0
  · rw [if_pos ha, if_neg (by push_neg; constructor <;> linarith)]
    exact ⟨_, rfl, by linarith, by linarith, 1, by push_cast; ring⟩
  · rw [if_neg ha]
    push_neg at ha
    by_cases hb : x ≥ tw
    · rw [if_pos hb, if_neg (by push_neg; constructor <;> linarith)]
      exact ⟨_, rfl, by linarith, by linarith, -1, by push_cast; ring⟩
    · rw [if_neg hb]
      push_neg at hb
      rw [if_neg (by push_neg; constructor <;> linarith)]
      exact ⟨_, rfl, ha, hb, 0, by push_cast; ring⟩

example : fixCoord id (10 : Rat) (-3) = some 7 := by unfold fixCoord; norm_num

/-- C32, with rounding: for every monotone rounding that keeps 0 and the box width, the position ends in the closed box. -/
theorem C32_rounded_partial (rnd : K → K) (hmono : ∀ a b, a ≤ b → rnd a ≤ rnd b) (tw : K) (h0 : rnd 0 = 0) (htw' : rnd tw = tw) (htw : 0 < tw) (x : K) (h1 : -tw ≤ x) (h2 : x < 2 * tw) :
    ∃ y, fixCoord rnd tw x = some y ∧ 0 ≤ y ∧ y ≤ tw := by
  unfold fixCoord
  by_cases ha : x < 0
  · have l1 := hmono 0 (x + tw) (by linarith)
    have l2 := hmono (x + tw) tw (by linarith)
    rw [h0] at l1; rw [htw'] at l2
    simp only [if_pos ha]
    rw [if_neg (by push_neg; constructor <;> linarith)]
    exact ⟨_, rfl, l1, l2⟩
  · push_neg at ha
    simp only [if_neg (not_lt.mpr ha)]
    by_cases hb : x ≥ tw
    · have l1 := hmono 0 (x - tw) (by linarith)
      have l2 := hmono (x - tw) tw (by linarith)
      rw [h0] at l1; rw [htw'] at l2
      simp only [if_pos hb]
      rw [if_neg (by push_neg; constructor <;> linarith)]
      exact ⟨_, rfl, l1, l2⟩
    · push_neg at hb
      simp only [if_neg (not_le.mpr hb)]
      rw [if_neg (by push_neg; constructor <;> linarith)]
      exact ⟨_, rfl, ha, hb.le⟩

/-- Rounding down to an integer multiple of 1/4 -/
def rnd4 (x : Rat) : Rat := ⌊4 * x + 1 / 2⌋ / 4

example : (∀ a b, a ≤ b → rnd4 a ≤ rnd4 b) ∧ rnd4 0 = 0 ∧ rnd4 10 = 10 := by
  refine ⟨?_, ?_, ?_⟩
  · intro a b h
    unfold rnd4
    have : (⌊4 * a + 1 / 2⌋ : Int) ≤ ⌊4 * b + 1 / 2⌋ := Int.floor_mono (by linarith)
    have h2 : ((⌊4 * a + 1 / 2⌋ : Int) : Rat) ≤ (⌊4 * b + 1 / 2⌋ : Int) := by exact_mod_cast this
    linarith
  · unfold rnd4; norm_num
  · unfold rnd4; norm_num

/-- C32 fails at the rounding: a tiny negative coordinate comes out as the box width itself, which is outside of [0, tw). -/
theorem C32_rounding_false : fixCoord rnd4 10 (-1 / 16) = some 10 := by
  unfold fixCoord rnd4; norm_num

/-- C32 fails for what passes the corruption check: positions up to two box widths below the box (and up to three above it) are accepted and stay outside of the box. -/
theorem C32_far_false (tw x : K) (htw : 0 < tw) : (-(2 * tw) ≤ x → x < -tw → ∃ y, fixCoord id tw x = some y ∧ y < 0) ∧ (2 * tw ≤ x → x ≤ 3 * tw → ∃ y, fixCoord id tw x = some y ∧ tw ≤ y) := by
  unfold fixCoord
  constructor
  · intro h1 h2
    simp only [id, if_pos (show x < 0 by linarith)]
    rw [if_neg (by push_neg; constructor <;> linarith)]
    exact ⟨_, rfl, by linarith⟩
  · intro h1 h2
    simp only [id, if_neg (show ¬ x < 0 by push_neg; linarith), if_pos (show x ≥ tw by linarith)]
    rw [if_neg (by push_neg; constructor <;> linarith)]
    exact ⟨_, rfl, by linarith⟩

example : fixCoord id (10 : Rat) (-13) = some (-3) := by unfold fixCoord; norm_num

/-- C32: positions further out are reported as corrupt. -/
theorem C32_corrupt (tw x : K) (htw : 0 < tw) (h : x < -(2 * tw) ∨ 3 * tw < x) : fixCoord id tw x = none := by
  unfold fixCoord
  rcases h with h | h
  · simp only [id, if_pos (show x < 0 by linarith)]
    rw [if_pos (Or.inl (by linarith))]
  · simp only [id, if_neg (show ¬ x < 0 by push_neg; linarith), if_pos (show x ≥ tw by linarith)]
    rw [if_pos (Or.inr (by linarith))]

example : fixCoord id (10 : Rat) 31 = none := by unfold fixCoord; norm_num

/-- C32 for all the particles of a file, in exact arithmetic and with units: the positions are in the box (in the units of the program), equal to the stored ones up to multiples of the box
width, in the same order. -/
theorem C32_all_partial (tw units : K) (htw : 0 < tw) (hu : 0 < units) (xs : List (List K)) (h : ∀ p ∈ xs, ∀ x ∈ p, -tw ≤ x ∧ x < 2 * tw) :
    ∃ ys, fixAll id tw units xs = some ys ∧ List.Forall₂ (List.Forall₂ fun x y => 0 ≤ y ∧ y < tw * units ∧ ∃ k : Int, y = (x + k * tw) * units) xs ys := by
  have h1 : ∀ p : List K, (∀ x ∈ p, -tw ≤ x ∧ x < 2 * tw) → ∃ q, (p.mapM fun x => (fixCoord id tw x).map fun y => id (y * units)) = some q ∧
      List.Forall₂ (fun x y => 0 ≤ y ∧ y < tw * units ∧ ∃ k : Int, y = (x + k * tw) * units) p q := by
    intro p
    induction p with
    | nil => intro _; exact ⟨[], rfl, .nil⟩
    | cons x p ih =>
      intro hp
      obtain ⟨q, e, hq⟩ := ih (fun y hy => hp y (by simp [hy]))
      obtain ⟨y, e1, y0, y1, k, hk⟩ := C32_wrapped_partial tw x htw (hp x (by simp)).1 (hp x (by simp)).2
      refine ⟨y * units :: q, ?_, .cons ⟨by positivity, by nlinarith, k, by rw [hk]⟩ hq⟩
      rw [List.mapM_cons, e, e1]; rfl
  unfold fixAll
  induction xs with
  | nil => exact ⟨[], rfl, .nil⟩
  | cons p xs ih =>
    obtain ⟨ys, e, hys⟩ := ih (fun q hq => h q (by simp [hq]))
    obtain ⟨q, e1, hq⟩ := h1 p (h p (by simp))
    refine ⟨q :: ys, ?_, .cons hq hys⟩
    rw [List.mapM_cons, e, e1]; rfl

example : ∀ p ∈ [[(-3 : Rat), 4, 12], [0, 19, 10]], ∀ x ∈ p, -(10 : Rat) ≤ x ∧ x < 2 * 10 := by
  intro p hp x hx
  simp only [List.mem_cons, List.not_mem_nil, or_false] at hp
  rcases hp with rfl | rfl <;> simp only [List.mem_cons, List.not_mem_nil, or_false] at hx <;> rcases hx with rfl | rfl | rfl <;> norm_num

/-! C33: bounding boxes -/

/-- The particle (or one of its periodic images) is in the box. -/
def Inside (tw x : K) (s : K × K) : Prop := ∃ k : Int, s.1 ≤ x + k * tw ∧ x + k * tw ≤ s.1 + s.2

theorem boxStep_inside (tw x : K) (s : K × K) (h0 : 0 ≤ s.2) : Inside tw x (boxStep tw x s) ∧ 0 ≤ (boxStep tw x s).2 ∧ (boxStep tw x s).1 ≤ s.1 ∧ s.1 + s.2 ≤ (boxStep tw x s).1 + (boxStep tw x s).2 := by
  unfold boxStep
  by_cases hc : x > s.1 ∧ x < s.1 + s.2
  · rw [if_pos hc]
    exact ⟨⟨0, by push_cast; rw [zero_mul, add_zero]; exact hc.1.le, by push_cast; rw [zero_mul, add_zero]; exact hc.2.le⟩, h0, le_refl _, le_refl _⟩
  · rw [if_neg hc]
    have hx : ∃ k : Int, (if x - s.1 > tw / 2 then x - tw else if x - s.1 < -(tw / 2) then x + tw else x) = x + k * tw := by
      split
      · exact ⟨-1, by push_cast; ring⟩
      · split
        · exact ⟨1, by push_cast; ring⟩
        · exact ⟨0, by push_cast; ring⟩
    obtain ⟨k, hk⟩ := hx
    simp only [hk]
    generalize hx' : x + k * tw = x'
    by_cases h1 : x' < s.1
    · rw [if_pos h1]
      refine ⟨⟨k, by rw [hx'], by rw [hx']; simp only; linarith⟩, by simp only; linarith, by simp only; linarith, by simp only; linarith⟩
    · rw [if_neg h1]
      push_neg at h1
      by_cases h2 : x' - s.1 > s.2
      · rw [if_pos h2]
        exact ⟨⟨k, by rw [hx']; exact h1, by rw [hx']; simp only; linarith⟩, by simp only; linarith, le_refl _, by simp only; linarith⟩
      · rw [if_neg h2]
        push_neg at h2
        exact ⟨⟨k, by rw [hx']; exact h1, by rw [hx']; linarith⟩, h0, le_refl _, le_refl _⟩

theorem fold_inside (tw : K) (xs : List K) (s : K × K) (h0 : 0 ≤ s.2) :
    (∀ x ∈ xs, Inside tw x (xs.foldl (fun s x => boxStep tw x s) s)) ∧ 0 ≤ (xs.foldl (fun s x => boxStep tw x s) s).2 ∧ (xs.foldl (fun s x => boxStep tw x s) s).1 ≤ s.1 ∧
      s.1 + s.2 ≤ (xs.foldl (fun s x => boxStep tw x s) s).1 + (xs.foldl (fun s x => boxStep tw x s) s).2 := by
  induction xs generalizing s with
  | nil => exact ⟨by simp, h0, le_refl _, le_refl _⟩
  | cons x xs ih =>
    obtain ⟨i1, i2, i3, i4⟩ := boxStep_inside tw x s h0
    obtain ⟨j1, j2, j3, j4⟩ := ih (boxStep tw x s) i2
    rw [List.foldl_cons]
    refine ⟨?_, j2, le_trans j3 i3, le_trans i4 j4⟩
    intro y hy
    rcases List.mem_cons.mp hy with rfl | hy
    · obtain ⟨k, k1, k2⟩ := i1
      exact ⟨k, le_trans j3 k1, le_trans k2 j4⟩
    · exact j1 y hy

/-- C33: in exact arithmetic, every particle of the block, or a periodic image of it, is inside of the box that is computed for the block; the box is never wider than the simulation. -/
theorem C33_contains (tw : K) (htw : 0 < tw) (xs : List K) (hne : xs ≠ []) (hx : ∀ x ∈ xs, 0 ≤ x ∧ x ≤ tw) :
    ∃ o w, boundingBox xs tw = some (o, w) ∧ 0 ≤ w ∧ w ≤ tw ∧ ∀ x ∈ xs, ∃ k : Int, o ≤ x + k * tw ∧ x + k * tw ≤ o + w := by
  cases xs with
  | nil => exact absurd rfl hne
  | cons x0 xs =>
    unfold boundingBox
    obtain ⟨j1, j2, -, -⟩ := fold_inside tw (x0 :: xs) (x0, 0) (le_refl _)
    simp only [List.head?_cons, Option.map_some]
    by_cases h : ((x0 :: xs).foldl (fun s x => boxStep tw x s) (x0, 0)).2 > tw / 2
    · rw [if_pos h]
      refine ⟨0, tw, rfl, htw.le, le_refl _, ?_⟩
      intro x hxm
      have := hx x hxm
      exact ⟨0, by push_cast; linarith, by push_cast; linarith⟩
    · rw [if_neg h]
      push_neg at h
      exact ⟨_, _, rfl, j2, le_trans h (by linarith), j1⟩

example : boundingBox [(9 : Rat), 1, 8, 2] 10 = some (8, 4) := by
  unfold boundingBox boxStep; norm_num

/-- C33: as small as it can be: unless the box is the whole simulation, its origin is a particle (or an image of one) and so is its far end. -/
theorem C33_tight (tw : K) (htw : 0 < tw) (xs : List K) (o w : K) (h : boundingBox xs tw = some (o, w)) :
    (o = 0 ∧ w = tw) ∨ (w ≤ tw / 2 ∧ (∃ x ∈ xs, ∃ k : Int, o = x + k * tw) ∧ ∃ x ∈ xs, ∃ k : Int, o + w = x + k * tw) := by
  cases xs with
  | nil => simp [boundingBox] at h
  | cons x0 xs =>
    have key : ∀ (l : List K) (s : K × K), 0 ≤ s.2 → (∃ x ∈ x0 :: xs, ∃ k : Int, s.1 = x + k * tw) → (∃ x ∈ x0 :: xs, ∃ k : Int, s.1 + s.2 = x + k * tw) → (∀ x ∈ l, x ∈ x0 :: xs) →
        (∃ x ∈ x0 :: xs, ∃ k : Int, (l.foldl (fun s x => boxStep tw x s) s).1 = x + k * tw) ∧
        ∃ x ∈ x0 :: xs, ∃ k : Int, (l.foldl (fun s x => boxStep tw x s) s).1 + (l.foldl (fun s x => boxStep tw x s) s).2 = x + k * tw := by
      intro l
      induction l with
      | nil => intro s _ h1 h2 _; exact ⟨h1, h2⟩
      | cons x l ih =>
        intro s h0 h1 h2 hl
        rw [List.foldl_cons]
        have hx := hl x (by simp)
        refine ih (boxStep tw x s) (boxStep_inside tw x s h0).2.1 ?_ ?_ (fun y hy => hl y (by simp [hy]))
        all_goals
          unfold boxStep
          split
          · assumption
          · have hk : ∃ k : Int, (if x - s.1 > tw / 2 then x - tw else if x - s.1 < -(tw / 2) then x + tw else x) = x + k * tw := by
              split
              · exact ⟨-1, by push_cast; ring⟩
              · split
                · exact ⟨1, by push_cast; ring⟩
                · exact ⟨0, by push_cast; ring⟩
            obtain ⟨k, hk⟩ := hk
            simp only [hk]
            split
            · first
              | exact ⟨x, hx, k, rfl⟩
              | (obtain ⟨y, hy, j, hj⟩ := h2; exact ⟨y, hy, j, by rw [← hj]; simp only; ring⟩)
            · split
              · first
                | exact h1
                | exact ⟨x, hx, k, by simp only; ring⟩
              · assumption
    have hfin := key (x0 :: xs) (x0, 0) (le_refl _) ⟨x0, by simp, 0, by push_cast; ring⟩ ⟨x0, by simp, 0, by push_cast; ring⟩ (fun _ hx => hx)
    unfold boundingBox at h
    simp only [List.head?_cons, Option.map_some, Option.some.injEq] at h
    by_cases hw : ((x0 :: xs).foldl (fun s x => boxStep tw x s) (x0, 0)).2 > tw / 2
    · rw [if_pos hw] at h
      left
      exact ⟨(congrArg Prod.fst h).symm, (congrArg Prod.snd h).symm⟩
    · rw [if_neg hw] at h
      push_neg at hw
      right
      rw [h] at hfin hw
      exact ⟨hw, hfin⟩

example : boundingBox [(1 : Rat), 4, 8] 10 = some (0, 10) := by
  unfold boundingBox boxStep; norm_num

/-- C33 fails for a block without particles: ReadHeader panics. -/
theorem C33_empty_false (tw : K) : boundingBox [] tw = none := rfl

/-! C61: Bolshoi blocks -/

theorem bolshoiIn1_unique (box : K) (hb : 0 < box) (n : Int) (hn : 0 < n) (x : K) (i : Int) :
    bolshoiIn1 x (bolshoiRange box n i) ↔ (i : K) * box < n * x ∧ n * x ≤ (i + 1) * box := by
  have hnk : (0 : K) < n := by exact_mod_cast hn
  unfold bolshoiIn1 bolshoiRange
  simp only
  have e1 : (i : K) * (box / n) = (i * box) / n := by ring
  have e2 : (i : K) * (box / n) + box / n = ((i + 1) * box) / n := by ring
  rw [e2, e1, gt_iff_lt, div_lt_iff₀ hnk, le_div_iff₀ hnk, mul_comm x]

end

/-- C61: in exact arithmetic, a position of the box (0, L]^3 is kept from exactly one of the files 1, ..., nx ny nz. -/
theorem C61_exactly_once_partial {K : Type} [Field K] [LinearOrder K] [IsStrictOrderedRing K] [FloorRing K] (box : K) (hb : 0 < box) (ngrid nx ny nz : Int) (hg : 0 < ngrid) (hx : 0 < nx) (hy : 0 < ny)
    (hz : 0 < nz) (p : K × K × K) (h1 : 1 < p.1 ∧ p.1 ≤ ngrid + 1) (h2 : 1 < p.2.1 ∧ p.2.1 ≤ ngrid + 1) (h3 : 1 < p.2.2 ∧ p.2.2 ≤ ngrid + 1) :
    ∃ k : Int, (1 ≤ k ∧ k ≤ nx * ny * nz) ∧ bolshoiFilter box ngrid nx ny nz k [p] = [(bolshoiUnits box ngrid p.1, bolshoiUnits box ngrid p.2.1, bolshoiUnits box ngrid p.2.2)] ∧
      ∀ j : Int, 1 ≤ j → j ≤ nx * ny * nz → j ≠ k → bolshoiFilter box ngrid nx ny nz j [p] = [] := by
  have hgk : (0 : K) < ngrid := by exact_mod_cast hg
  have unit : ∀ g : K, 1 < g ∧ g ≤ ngrid + 1 → 0 < bolshoiUnits box ngrid g ∧ bolshoiUnits box ngrid g ≤ box := by
    intro g hg'
    unfold bolshoiUnits
    constructor
    · exact mul_pos (by linarith) (div_pos hb hgk)
    · rw [← mul_div_assoc, div_le_iff₀ hgk]
      nlinarith
  have cell : ∀ (n : Int), 0 < n → ∀ x : K, 0 < x ∧ x ≤ box → ∃ i : Int, 0 ≤ i ∧ i < n ∧ bolshoiIn1 x (bolshoiRange box n i) ∧ ∀ j : Int, bolshoiIn1 x (bolshoiRange box n j) → j = i := by
    intro n hn x hx'
    have hnk : (0 : K) < n := by exact_mod_cast hn
    have hq : 0 < (n : K) * x / box := div_pos (mul_pos hnk hx'.1) hb
    have hq2 : (n : K) * x / box ≤ n := by rw [div_le_iff₀ hb]; nlinarith
    refine ⟨⌈(n : K) * x / box⌉ - 1, ?_, ?_, ?_, ?_⟩
    · have := Int.ceil_pos.mpr hq; omega
    · have : ⌈(n : K) * x / box⌉ ≤ n := Int.ceil_le.mpr hq2
      omega
    · rw [bolshoiIn1_unique box hb n hn]
      have c1 := Int.le_ceil ((n : K) * x / box)
      have c2 := Int.ceil_lt_add_one ((n : K) * x / box)
      rw [div_le_iff₀ hb] at c1
      rw [← sub_lt_iff_lt_add, lt_div_iff₀ hb] at c2
      push_cast
      exact ⟨c2, by linarith⟩
    · intro j hj
      rw [bolshoiIn1_unique box hb n hn] at hj
      have : ⌈(n : K) * x / box⌉ = j + 1 := by
        rw [Int.ceil_eq_iff]
        push_cast
        constructor
        · rw [lt_div_iff₀ hb]; linarith [hj.1]
        · rw [div_le_iff₀ hb]; exact hj.2
      omega
  obtain ⟨ix, ix0, ix1, ixin, ixu⟩ := cell nx hx _ (unit p.1 h1)
  obtain ⟨iy, iy0, iy1, iyin, iyu⟩ := cell ny hy _ (unit p.2.1 h2)
  obtain ⟨iz, iz0, iz1, izin, izu⟩ := cell nz hz _ (unit p.2.2 h3)
  have hnn : 0 ≤ ix + nx * (iy + ny * iz) := by positivity
  have hcell : bolshoiCell (ix + nx * (iy + ny * iz) + 1) nx ny = (ix, iy, iz) := by
    unfold bolshoiCell
    have e : ix + nx * (iy + ny * iz) + 1 - 1 = ix + nx * (iy + ny * iz) := by ring
    have hn2 : 0 ≤ iy + ny * iz := by positivity
    have d1 : (ix + nx * (iy + ny * iz)) / nx = iy + ny * iz := by
      rw [Int.add_mul_ediv_left _ _ (by omega), Int.ediv_eq_zero_of_lt ix0 ix1, zero_add]
    rw [e, Int.tmod_eq_emod_of_nonneg hnn, Int.tdiv_eq_ediv_of_nonneg hnn, Int.tdiv_eq_ediv_of_nonneg hnn, d1, Int.tmod_eq_emod_of_nonneg hn2, Int.add_mul_emod_self_left, Int.add_mul_emod_self_left,
      Int.emod_eq_of_lt ix0 ix1, Int.emod_eq_of_lt iy0 iy1, ← Int.ediv_ediv_of_nonneg (by omega), d1, Int.add_mul_ediv_left _ _ (by omega), Int.ediv_eq_zero_of_lt iy0 iy1, zero_add]
  refine ⟨ix + nx * (iy + ny * iz) + 1, ⟨by omega, ?_⟩, ?_, ?_⟩
  · have a1 : ny * iz ≤ ny * (nz - 1) := by nlinarith
    have a2 : nx * (iy + ny * iz) ≤ nx * (ny * nz - 1) := by
      apply mul_le_mul_of_nonneg_left _ hx.le
      have : ny * (nz - 1) = ny * nz - ny := by ring
      omega
    have : nx * (ny * nz - 1) = nx * ny * nz - nx := by ring
    omega
  · unfold bolshoiFilter
    rw [hcell, List.map_cons, List.map_nil, List.filter_cons_of_pos]
    · rfl
    · simpa using ⟨ixin, iyin, izin⟩
  · intro j j1 j2 hne
    unfold bolshoiFilter
    rw [List.map_cons, List.map_nil, List.filter_cons_of_neg]
    · rfl
    · intro hin
      simp only [decide_eq_true_eq] at hin
      have c1 := ixu _ hin.1
      have c2 := iyu _ hin.2.1
      have c3 := izu _ hin.2.2
      apply hne
      unfold bolshoiCell at c1 c2 c3
      simp only at c1 c2 c3
      have hj : 0 ≤ j - 1 := by omega
      rw [Int.tmod_eq_emod_of_nonneg hj] at c1
      rw [Int.tdiv_eq_ediv_of_nonneg hj, Int.tmod_eq_emod_of_nonneg (Int.ediv_nonneg hj hx.le)] at c2
      rw [Int.tdiv_eq_ediv_of_nonneg hj, ← Int.ediv_ediv_of_nonneg hx.le] at c3
      have e1 := Int.emod_add_mul_ediv (j - 1) nx
      have e2 := Int.emod_add_mul_ediv ((j - 1) / nx) ny
      rw [c1] at e1
      rw [c2, c3] at e2
      rw [← e2] at e1
      omega

example : bolshoiFilter (10 : Rat) 5 2 2 2 2 [(6, 2, 3)] = [(10, 2, 4)] := by
  unfold bolshoiFilter bolshoiIn1 bolshoiRange bolshoiUnits bolshoiCell; norm_num [Int.tmod, Int.tdiv]

/-- C61 fails at the lower end of the box: a particle whose stored coordinate is exactly 1 (the lowest value of the format) is kept from no file. -/
theorem C61_origin_false {K : Type} [Field K] [LinearOrder K] [IsStrictOrderedRing K] (box : K) (hb : 0 < box) (ngrid nx ny nz : Int) (hx : 0 < nx) (y z : K) (k : Int) (hk : 1 ≤ k) :
    bolshoiFilter box ngrid nx ny nz k [(1, y, z)] = [] := by
  unfold bolshoiFilter
  rw [List.map_cons, List.map_nil, List.filter_cons_of_neg]
  · rfl
  · intro hin
    simp only [decide_eq_true_eq] at hin
    have h1 := hin.1
    rw [bolshoiIn1_unique box hb nx hx] at h1
    have h0 : (0 : Int) ≤ (bolshoiCell k nx ny).1 := Int.tmod_nonneg _ (by omega)
    have h0k : (0 : K) ≤ ((bolshoiCell k nx ny).1 : Int) := by exact_mod_cast h0
    have e : bolshoiUnits box ngrid 1 = 0 := by unfold bolshoiUnits; ring
    rw [e, mul_zero] at h1
    have := mul_nonneg h0k hb.le
    linarith [h1.1]

/-! C34: open buffers -/

/-- How often a call was made. -/
def count (c : Call) (cs : List Call) : Nat := cs.countP (· = c)

/-- The rule for one call after `pre`: Read only when everything is closed, Close only after a Read; ReadHeader of all formats but gotetra reads the file and needs a closed buffer. -/
def allowed (k : Kind) (pre : List Call) : Call → Prop
  | .read => count .read pre = count .close pre
  | .close => count .read pre = count .close pre + 1
  | .readHeader => k = .gotetra ∨ count .read pre = count .close pre

/-- C34 (gotetra, ARTIO, LGadget-2, Gadget-2): a history of calls on a new buffer is accepted exactly when every call is allowed by the rule; otherwise the program panics.  Afterwards the buffer
is open exactly if there was one more Read than Close. -/
theorem C34_discipline (k : Kind) (hk : k = .gotetra ∨ k = .artio ∨ k = .lgadget2 ∨ k = .gadget2) (cs : List Call) :
    ((∃ b, history k cs = some b) ↔ ∀ pre c post, cs = pre ++ c :: post → allowed k pre c) ∧
    (∀ b, history k cs = some b → count .read cs = count .close cs + if b then 1 else 0) := by
  have hfold : ∀ pre c, history k (pre ++ [c]) = (history k pre).bind fun s => step k s c := by
    intro pre c
    unfold history
    rw [List.foldlM_append]
    cases h : List.foldlM (fun s c => step k s c) false pre with
    | none => rfl
    | some s => simp
  have hcount : ∀ (d c : Call) (pre : List Call), count d (pre ++ [c]) = count d pre + if c = d then 1 else 0 := by
    intro d c pre
    unfold count
    rw [List.countP_append]
    congr 1
    simp [List.countP_cons]
  have hlast : ∀ pre c, (∀ p d q, pre ++ [c] = p ++ d :: q → allowed k p d) ↔ (∀ p d q, pre = p ++ d :: q → allowed k p d) ∧ allowed k pre c := by
    intro pre c
    constructor
    · intro h
      exact ⟨fun p d q e => h p d (q ++ [c]) (by rw [e]; simp), h pre c [] rfl⟩
    · rintro ⟨h1, h2⟩ p d q e
      rcases List.eq_nil_or_concat q with rfl | ⟨q', c', rfl⟩
      · obtain ⟨e1, e2⟩ := List.append_inj' e rfl
        rw [← e1]
        have := (List.cons.inj e2).1
        rw [← this]; exact h2
      · rw [List.concat_eq_append] at e
        rw [show p ++ d :: (q' ++ [c']) = (p ++ d :: q') ++ [c'] by simp] at e
        obtain ⟨e1, -⟩ := List.append_inj' e rfl
        exact h1 p d q' e1
  induction cs using List.reverseRec with
  | nil =>
    refine ⟨⟨fun _ pre c post h => by simp at h, fun _ => ⟨false, rfl⟩⟩, ?_⟩
    intro b hb
    have : b = false := by
      have := Option.some.inj hb; exact this.symm
    subst this; rfl
  | append_singleton pre c ih =>
    obtain ⟨ih1, ih2⟩ := ih
    rw [hlast, hfold, ← ih1]
    cases hp : history k pre with
    | none =>
      rw [hp] at ih1
      constructor
      · simp
      · intro b hb; simp at hb
    | some s =>
      have hs := ih2 s hp
      rw [Option.bind_some]
      rw [hcount, hcount]
      have hex : (∃ b : Bool, some s = some b) := ⟨s, rfl⟩
      rcases hk with rfl | rfl | rfl | rfl <;> cases c <;> cases s <;> simp_all [step, allowed]

example : history .lgadget2 [.readHeader, .read, .close, .read] = some true := by decide
example : history .gadget2 [.read, .read] = none := by decide

/-- C34 fails for the Bolshoi formats: they are never open, and a second Read without a Close is accepted (it overwrites the arrays of the first one). -/
theorem C34_bolshoi_false (k : Kind) (hk : k = .bolshoi ∨ k = .bolshoiP) (cs : List Call) : history k cs = some false := by
  unfold history
  induction cs with
  | nil => rfl
  | cons c cs ih =>
    rw [List.foldlM_cons]
    rcases hk with rfl | rfl <;> cases c <;> exact ih

example : history .bolshoi [.read, .read] = some false := by decide

end Shellfish.Io
