/-
C127: the cell box of a sphere (`Bounds`) answers questions about cells correctly across the periodic boundary.
-/
import Verif.Model.Bounds
import Verif.Lemmas.Search
import Verif.Lemmas.FinderReach

namespace Shellfish.Finder

/-- The cells of a box with `span` cells that starts at cell `origin`, on a ring of `W` cells: those that are reached from the first cell by fewer than `span` steps. -/
def OnRing (origin span W v : Int) : Prop := ∃ d k : Int, 0 ≤ d ∧ d < span ∧ v = origin + d + k * W

theorem onRing_mod {o s W v : Int} (hW : 0 < W) : OnRing o s W v ↔ (v - o) % W < s := by
  constructor
  · rintro ⟨d, k, h0, h1, rfl⟩
    have : o + d + k * W - o = d + k * W := by ring
    rw [this, Int.add_mul_emod_self_right]
    rcases lt_or_ge d W with h | h
    · rw [Int.emod_eq_of_lt h0 h]; exact h1
    · have := Int.emod_lt_of_pos d hW; omega
  · intro h
    refine ⟨(v - o) % W, (v - o) / W, Int.emod_nonneg _ hW.ne', h, ?_⟩
    have := Int.emod_add_mul_ediv (v - o) W
    linarith

/-- **C127**: for a box whose first cell is a cell of the grid, `Inside` says exactly whether a cell of the grid is one of the cells of the box, whatever the length of the box and whether or not it crosses the boundary. -/
theorem C127_inside (b : Span) (v W : Int) (ho : 0 ≤ b.origin ∧ b.origin < W) (hs : 0 ≤ b.span) (hv : 0 ≤ v ∧ v < W) :
    inside b v W = true ↔ OnRing b.origin b.span W v := by
  rw [onRing_mod (by omega)]
  have hmod : (v - b.origin) % W = if v < b.origin then v - b.origin + W else v - b.origin := by
    split_ifs with h
    · rw [← Int.add_emod_right, Int.emod_eq_of_lt] <;> omega
    · rw [Int.emod_eq_of_lt] <;> omega
  rw [hmod]
  unfold inside
  simp only [Bool.and_eq_true, decide_eq_true_eq]
  split_ifs <;> omega

example : inside ⟨8, 5⟩ 2 10 = true ∧ inside ⟨8, 5⟩ 3 10 = false ∧ inside ⟨8, 5⟩ 9 10 = true ∧ inside ⟨8, 5⟩ 7 10 = false := by decide

/-- **C127**: `ConvertIndices` gives, for each dimension, the number of steps from the first cell of the box to the cell: it is between 0 and the number of cells of the grid, going that many steps along the ring leads to the cell, and
the cell is in the box exactly if the number is less than the length of the box. -/
theorem C127_convert (bx by_ bz : Span) (x y z W : Int) (hx : 0 ≤ bx.origin ∧ bx.origin < W) (hy : 0 ≤ by_.origin ∧ by_.origin < W) (hz : 0 ≤ bz.origin ∧ bz.origin < W)
    (vx : 0 ≤ x ∧ x < W) (vy : 0 ≤ y ∧ y < W) (vz : 0 ≤ z ∧ z < W) :
    ∃ i j k : Int, convertIndices bx by_ bz x y z W = (i, j, k) ∧ (0 ≤ i ∧ i < W) ∧ (0 ≤ j ∧ j < W) ∧ (0 ≤ k ∧ k < W) ∧
      (bx.origin + i) % W = x ∧ (by_.origin + j) % W = y ∧ (bz.origin + k) % W = z ∧
      (OnRing bx.origin bx.span W x ↔ i < bx.span) ∧ (OnRing by_.origin by_.span W y ↔ j < by_.span) ∧ (OnRing bz.origin bz.span W z ↔ k < bz.span) := by
  have one : ∀ (b : Span) (v : Int), (0 ≤ b.origin ∧ b.origin < W) → (0 ≤ v ∧ v < W) →
      (0 ≤ convertIndex b v W ∧ convertIndex b v W < W) ∧ (b.origin + convertIndex b v W) % W = v ∧ (OnRing b.origin b.span W v ↔ convertIndex b v W < b.span) := by
    intro b v hb hv
    have e : convertIndex b v W = (v - b.origin) % W := by
      unfold convertIndex
      simp only
      split_ifs with h
      · rw [← Int.add_emod_right, Int.emod_eq_of_lt] <;> omega
      · rw [Int.emod_eq_of_lt] <;> omega
    rw [onRing_mod (by omega), e]
    refine ⟨⟨Int.emod_nonneg _ (by omega), Int.emod_lt_of_pos _ (by omega)⟩, ?_, Iff.rfl⟩
    rw [Int.add_emod_emod, show b.origin + (v - b.origin) = v by ring, Int.emod_eq_of_lt hv.1 hv.2]
  obtain ⟨a1, a2, a3⟩ := one bx x hx vx
  obtain ⟨b1, b2, b3⟩ := one by_ y hy vy
  obtain ⟨c1, c2, c3⟩ := one bz z hz vz
  exact ⟨_, _, _, rfl, a1, b1, c1, a2, b2, c2, a3, b3, c3⟩

example : convertIndices ⟨8, 5⟩ ⟨0, 3⟩ ⟨4, 4⟩ 1 2 3 10 = (3, 2, 9) := by decide

/-- **C127**: the cells that the search reads along one dimension are those for which `Inside` holds, and the `d`-th of them has `ConvertIndices` value `d`. -/
theorem C127_visited (b : Span) (c : Nat) (ho : 0 ≤ b.origin ∧ b.origin < c) (hs : 0 ≤ b.span ∧ b.span ≤ c) :
    (∀ v : Int, (0 ≤ v ∧ v < c) → (v ∈ cellsOf b c ↔ inside b v c = true)) ∧
    ∀ (d : Nat) (v : Int), (cellsOf b c)[d]? = some v → convertIndex b v c = d := by
  have wrap : ∀ d : Nat, (d : Int) < c → (0 ≤ wrapCell (b.origin + d) c ∧ wrapCell (b.origin + d) c < c) ∧ convertIndex b (wrapCell (b.origin + d) c) c = d := by
    intro d hd
    unfold wrapCell convertIndex
    simp only
    split_ifs <;> omega
  refine ⟨fun v hv => ?_, fun d v h => ?_⟩
  · rw [C127_inside b v c ho hs.1 hv]
    unfold cellsOf
    rw [List.mem_map]
    constructor
    · rintro ⟨d, hd, rfl⟩
      have := List.mem_range.mp hd
      refine ⟨d, if (c : Int) ≤ b.origin + d then -1 else 0, by omega, by omega, ?_⟩
      unfold wrapCell
      split_ifs <;> ring
    · intro h
      have h' := (onRing_mod (by omega)).mp h
      have hmod : (v - b.origin) % (c : Int) = if v < b.origin then v - b.origin + c else v - b.origin := by
        split_ifs with h
        · rw [← Int.add_emod_right, Int.emod_eq_of_lt] <;> omega
        · rw [Int.emod_eq_of_lt] <;> omega
      rw [hmod] at h'
      refine ⟨((v - b.origin) % (c : Int)).toNat, List.mem_range.mpr ?_, ?_⟩
      · rw [hmod]; split_ifs at h' ⊢ <;> omega
      · rw [hmod]
        unfold wrapCell
        split_ifs at h' ⊢ <;> omega
  · unfold cellsOf at h
    rw [List.getElem?_map, Option.map_eq_some_iff] at h
    obtain ⟨e, he, rfl⟩ := h
    have h1 := List.getElem?_eq_some_iff.mp he
    obtain ⟨h2, h3⟩ := h1
    rw [List.length_range] at h2
    rw [List.getElem_range] at h3
    subst h3
    exact (wrap d (by omega)).2

example : cellsOf ⟨8, 5⟩ 10 = [8, 9, 0, 1, 2] := by decide

/-- **C127**: if a point of the box lies, in one coordinate, within the radius of a periodic image of the centre, then its cell is inside the bounding box of the sphere. -/
theorem C127_sphere {K : Type} [Field K] [LinearOrder K] [IsStrictOrderedRing K] [FloorRing K] (c : Nat) (W p r q : K) (hc : 0 < c) (hW : 0 < W) (hp : 0 ≤ p ∧ p < W) (hr : 0 ≤ r)
    (hsmall : 2 * r + W / (c : K) ≤ W) (hq : 0 ≤ q ∧ q < W) (hd : ∃ k : ℤ, |p - q + k * W| ≤ r) :
    inside (sphereBounds p r (W / (c : K)) W) ⌊q / (W / (c : K))⌋ c = true := by
  have hc' : (0 : K) < c := by exact_mod_cast hc
  let g : Grid K := newGrid c W 0
  have hg : g.OK := by
    constructor <;> simp [g, newGrid, hc, hW]
  obtain ⟨_, h2, h3⟩ := cells_spec g hg p r hp hr hsmall
  have hm := h3 q hq hd
  have hcoord : coord g q = ⌊q / (W / (c : K))⌋ := coord_box g hg q hq
  rw [hcoord] at hm
  obtain ⟨lo, hi, l0, l1, hhi, _, hb⟩ := bounds_spec g hg p r hp hr hsmall
  have hcw : 0 < W / (c : K) := div_pos hW hc'
  have hv := h2 _ hm
  have hspan : 0 ≤ (sphereBounds p r (W / (c : K)) W).span := by
    change 0 ≤ (sphereBounds p r g.cw g.width).span
    rw [hb]
    have : ⌊lo / g.cw⌋ ≤ ⌊hi / g.cw⌋ := Int.floor_mono (div_le_div_of_nonneg_right (by linarith) (le_of_lt hcw))
    simp only
    omega
  have ho : 0 ≤ (sphereBounds p r (W / (c : K)) W).origin ∧ (sphereBounds p r (W / (c : K)) W).origin < c := by
    change 0 ≤ (sphereBounds p r g.cw g.width).origin ∧ (sphereBounds p r g.cw g.width).origin < c
    rw [hb]
    refine ⟨Int.floor_nonneg.mpr (div_nonneg l0 hcw.le), ?_⟩
    rw [Int.floor_lt]
    have h : lo / g.cw < W / g.cw := div_lt_div_of_pos_right l1 hcw
    have e : W / (W / (c : K)) = c := by field_simp
    have h' : lo / g.cw < (c : K) := by rw [← e]; exact h
    exact_mod_cast h'
  refine (C127_inside _ _ _ ho hspan hv).mpr ?_
  unfold cellsOf at hm
  obtain ⟨d, hd, he⟩ := List.mem_map.mp hm
  have := List.mem_range.mp hd
  refine ⟨d, if (c : Int) ≤ (sphereBounds p r g.cw g.width).origin + d then -1 else 0, by omega, by
    change (d : Int) < (sphereBounds p r g.cw g.width).span
    omega, ?_⟩
  rw [← he]
  change wrapCell _ c = (sphereBounds p r g.cw g.width).origin + (d : Int) + _
  unfold wrapCell
  split_ifs <;> ring

example : inside (sphereBounds (1/2 : ℚ) 1 (10 / ((10 : ℕ) : ℚ)) 10) ⌊(19/2 : ℚ) / (10 / ((10 : ℕ) : ℚ))⌋ 10 = true :=
  C127_sphere 10 10 (1/2) 1 (19/2) (by norm_num) (by norm_num) (by norm_num) (by norm_num) (by norm_num) (by norm_num) ⟨1, by norm_num⟩

/-- **C127**: neither query brings a cell number that is not one of the grid into the grid: for a number that is two boxes away, `Inside` denies what holds of the cell that it names. -/
theorem C127_outside_false : ¬ ∀ (b : Span) (v W : Int), (0 ≤ b.origin ∧ b.origin < W) → 0 ≤ b.span → (inside b v W = true ↔ OnRing b.origin b.span W v) := by
  intro h
  have h1 := (h ⟨3, 5⟩ 25 10 (by decide) (by decide)).mpr ⟨2, 2, by decide, by decide, by decide⟩
  exact absurd h1 (by decide)

end Shellfish.Finder
