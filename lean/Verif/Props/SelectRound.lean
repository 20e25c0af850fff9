/- C122: in machine arithmetic, too, every file with particles inside a halo is read for it. -/
import Verif.Model.SelectRound
import Verif.Props.Round32

namespace Shellfish.Round

/-! ### Specification -/

/-- `v` has all coordinates in `[0, tw)`. -/
def P3.InBox (tw : ℚ) (v : P3) : Prop := (0 ≤ v.x ∧ v.x < tw) ∧ (0 ≤ v.y ∧ v.y < tw) ∧ (0 ≤ v.z ∧ v.z < tw)

/-- Some periodic image of `p` in a box of width `tw` is closer to `c` than `r`. -/
def P3.Near (tw : ℚ) (c : P3) (r : ℚ) (p : P3) : Prop :=
  ∃ i j k : ℤ, (p.x + i * tw - c.x) ^ 2 + (p.y + j * tw - c.y) ^ 2 + (p.z + k * tw - c.z) ^ 2 < r ^ 2

/-- The region `o .. o + w` of one dimension is small enough, or it is the whole box. -/
def Small1 (tw r : ℚ) (s : ℚ × ℚ) : Prop := s.2 + r ≤ tw / 2 ∨ tw / 2 < s.2

/-! ### One dimension -/

theorem r64_err (y b : ℚ) (h : |y| ≤ b) : |r64 y - y| ≤ b / 2 ^ 53 := ((C95_rounding y).2.2.2.2).trans (div_le_div_of_nonneg_right h (by norm_num))

theorem f64_half {x : ℚ} (h : Float64 x) : Float64 (x / 2) := by
  obtain ⟨m, e, h1, h2⟩ := h
  refine ⟨m, e - 1, h1, ?_⟩
  rw [h2, zpow_sub₀ (by norm_num), zpow_one]; ring

theorem f64_neg {x : ℚ} (h : Float64 x) : Float64 (-x) := by
  obtain ⟨m, e, h1, h2⟩ := h
  exact ⟨-m, e, by rwa [abs_neg], by rw [h2]; push_cast; ring⟩

theorem inRangeR_complete (x r low width tw p : ℚ) (k : ℤ) (ft : Float64 tw) (hx : 0 ≤ x) (hx' : x < tw) (hl : r - tw ≤ low) (hl' : low ≤ tw) (hw : 0 ≤ width)
    (hr : 0 < r) (hsmall : width + r ≤ tw / 2) (hp : low - tw / 2 ^ 50 ≤ p) (hp' : p ≤ low + width + tw / 2 ^ 50) (hk : |p + k * tw - x| < r - tw / 2 ^ 49) : inRangeR x r low width tw := by
  have htw : 0 < tw := lt_of_le_of_lt hx hx'
  obtain ⟨u, hu⟩ : ∃ u, u = tw / 2 ^ 53 := ⟨_, rfl⟩
  have hu0 : 0 < u := by rw [hu]; positivity
  have hu1 : u < tw / 1000 := by
    rw [hu]
    exact div_lt_div_of_pos_left htw (by norm_num) (by norm_num)
  have e49 : tw / 2 ^ 49 = 16 * u := by rw [hu]; ring
  have e50 : tw / 2 ^ 50 = 8 * u := by rw [hu]; ring
  rw [e49] at hk
  rw [e50] at hp hp'
  obtain ⟨k1, k2⟩ := abs_lt.mp hk
  have err : ∀ y, |y| ≤ 2 * tw → |r64 y - y| ≤ 2 * u := fun y h => by
    have := r64_err y _ h
    rwa [mul_div_assoc, ← hu] at this
  have err3 : ∀ y, |y| ≤ 3 * tw → |r64 y - y| ≤ 3 * u := fun y h => by
    have := r64_err y _ h
    rwa [mul_div_assoc, ← hu] at this
  have d1 : x - low - k * tw > -r + 8 * u := by linarith
  have d2 : x - low - width - k * tw < r - 8 * u := by linarith
  have hS := abs_le.mp (err (low + width) (by rw [abs_le]; constructor <;> linarith))
  have hE1 := abs_le.mp (err (x - low) (by rw [abs_le]; constructor <;> linarith))
  have hE2 := abs_le.mp (err3 (x - r64 (low + width)) (by rw [abs_le]; constructor <;> linarith))
  have hh : r64 (tw / 2) = tw / 2 := r64_float (f64_half ft)
  have hh' : r64 (tw / -2) = -(tw / 2) := by
    rw [show tw / -2 = -(tw / 2) by ring]
    exact r64_float (f64_neg (f64_half ft))
  have hk' : k = 0 ∨ k = 1 ∨ k = -1 := by
    by_contra hc
    have : 2 ≤ k ∨ k ≤ -2 := by omega
    rcases this with h | h
    · have : (2 : ℚ) ≤ k := by exact_mod_cast h
      have := mul_le_mul_of_nonneg_right this htw.le
      linarith
    · have : (k : ℚ) ≤ -2 := by exact_mod_cast h
      have := mul_le_mul_of_nonneg_right this htw.le
      linarith
  unfold inRangeR wrapDistR
  dsimp only
  rw [hh, hh']
  generalize r64 (low + width) = S at *
  generalize r64 (x - low) = E1 at *
  generalize r64 (x - S) = E2 at *
  rcases hk' with rfl | rfl | rfl
  · left
    simp only [Int.cast_zero, zero_mul, sub_zero] at d1 d2
    have g1 := abs_le.mp (err (x + r) (by rw [abs_le]; constructor <;> linarith))
    have g2 := abs_le.mp (err (x - r) (by rw [abs_le]; constructor <;> linarith))
    constructor <;> linarith
  · right
    simp only [Int.cast_one, one_mul] at d1 d2
    rw [if_pos (by linarith : E1 > tw / 2), if_pos (by linarith : E2 > tw / 2)]
    have g1 := abs_le.mp (err (E1 - tw) (by rw [abs_le]; constructor <;> linarith))
    have g2 := abs_le.mp (err (E2 - tw) (by rw [abs_le]; constructor <;> linarith))
    constructor <;> linarith
  · right
    simp only [Int.cast_neg, Int.cast_one, neg_mul, one_mul] at d1 d2
    rw [if_neg (by linarith : ¬ E1 > tw / 2), if_neg (by linarith : ¬ E2 > tw / 2), if_pos (by linarith : E1 < -(tw / 2)), if_pos (by linarith : E2 < -(tw / 2))]
    have g1 := abs_le.mp (err (E1 + tw) (by rw [abs_le]; constructor <;> linarith))
    have g2 := abs_le.mp (err (E2 + tw) (by rw [abs_le]; constructor <;> linarith))
    constructor <;> linarith

theorem inRangeR_whole (x r tw : ℚ) (ft : Float64 tw) (hx : 0 ≤ x) (hx' : x < tw) (hr : tw / 2 ^ 49 < r) : inRangeR x r 0 tw tw := by
  have htw : 0 < tw := lt_of_le_of_lt hx hx'
  have hr0 : 0 < r := lt_of_le_of_lt (by positivity) hr
  left
  rw [zero_add, r64_float ft]
  constructor
  · refine lt_of_lt_of_le ?_ (r64_bounds (by linarith : 0 ≤ x + r)).1
    exact mul_pos (by linarith) (by norm_num)
  · rcases le_total (x - r) 0 with h | h
    · exact lt_of_le_of_lt (r64_le ⟨0, 0, by norm_num, by norm_num⟩ h) htw
    · have e := abs_le.mp (r64_err (x - r) tw (by rw [abs_le]; constructor <;> linarith))
      have : tw / 2 ^ 53 ≤ tw / 2 ^ 49 := div_le_div_of_nonneg_left htw.le (by norm_num) (by norm_num)
      linarith

/-! ### The region of a file -/

/-- The end of the region does not move down by more than a rounding. -/
theorem boxStep32_end {tw x : ℚ} {s : ℚ × ℚ} (htw : 0 < tw) (ft : Float32 tw) (fx : Float32 x) (h0 : 0 ≤ x) (h1 : x ≤ tw) (g : GoodBox tw s)
    (hw : (boxStep32 tw x s).2 ≤ tw / 2) : s.1 + s.2 - tw / 2 ^ 22 ≤ (boxStep32 tw x s).1 + (boxStep32 tw x s).2 := by
  have hu : (0 : ℚ) < tw / 2 ^ 24 := by positivity
  have e4 : tw / 2 ^ 22 = 4 * (tw / 2 ^ 24) := by ring
  rw [boxStep32_eq] at hw ⊢
  have nn := g.nn; have lo := g.lo; have hi := g.hi
  by_cases c1 : x > s.1 ∧ x < r32 (s.1 + s.2)
  · rw [if_pos c1]; linarith
  rw [if_neg c1] at hw ⊢
  by_cases c2 : image tw x s.1 < s.1
  · rw [if_pos c2] at hw ⊢
    obtain ⟨i1, i2, -⟩ := image_spec (o := s.1) htw ft fx h0 h1
    dsimp only at hw ⊢
    set x' := image tw x s.1 with hx'
    have d0 : 0 ≤ s.1 - x' := by linarith
    have er1 := r32_error (s.1 - x')
    rw [abs_of_nonneg d0] at er1
    have dd0 := r32_nonneg d0
    set d := r32 (s.1 - x') with hd
    have er2 := r32_error (s.2 + d)
    rw [abs_of_nonneg (by linarith : 0 ≤ s.2 + d)] at er2
    rw [abs_le] at er1 er2
    have b1 : s.2 + d ≤ tw := by linarith [er2.1, er2.2]
    have b2 : s.1 - x' ≤ 2 * tw := by linarith
    have b1' : (s.2 + d) / 2 ^ 24 ≤ tw / 2 ^ 24 := by gcongr
    have b2' : (s.1 - x') / 2 ^ 24 ≤ 2 * (tw / 2 ^ 24) := by rw [← mul_div_assoc]; gcongr
    linarith [er1.1, er2.1]
  rw [if_neg c2] at hw ⊢
  by_cases c3 : r32 (image tw x s.1 - s.1) > s.2
  · rw [if_pos c3]
    dsimp only
    linarith
  · rw [if_neg c3]
    linarith

theorem fold32_end {tw : ℚ} (htw : 0 < tw) (ft : Float32 tw) (l : List ℚ) : ∀ s : ℚ × ℚ, (∀ x ∈ l, Float32 x ∧ 0 ≤ x ∧ x ≤ tw) → GoodBox tw s →
    (l.foldl (fun s x => boxStep32 tw x s) s).2 ≤ tw / 2 →
      s.1 + s.2 - l.length * (tw / 2 ^ 22) ≤ (l.foldl (fun s x => boxStep32 tw x s) s).1 + (l.foldl (fun s x => boxStep32 tw x s) s).2 := by
  induction l with
  | nil => intro s _ _ _; simp
  | cons x l ih =>
    intro s hl g hw
    obtain ⟨fx, h0, h1⟩ := hl x List.mem_cons_self
    obtain ⟨g', hm⟩ := boxStep32_good htw ft fx h0 h1 g
    have hl' := fun y hy => hl y (List.mem_cons_of_mem x hy)
    have m2 := (fold32 htw ft l (boxStep32 tw x s) hl' g').2.1
    rw [List.foldl_cons] at hw ⊢
    have a := ih _ hl' g' hw
    have b := boxStep32_end htw ft fx h0 h1 g (m2.trans hw)
    rw [List.length_cons]
    push_cast
    linarith

theorem f32_64 {x : ℚ} (h : Float32 x) : Float64 x := by
  obtain ⟨m, e, h1, h2⟩ := h
  exact ⟨m, e, h1.trans (by norm_num), h2⟩

/-- One dimension: the region of a file with `n` particles is found by every halo that reaches one of its particles by a margin of `(n+1)·2⁻²²` box widths. -/
theorem select1 (tw : ℚ) (htw : 0 < tw) (ft : Float32 tw) (xs : List ℚ) (hx : ∀ x ∈ xs, Float32 x ∧ 0 ≤ x ∧ x ≤ tw) (c r p : ℚ) (hc : 0 ≤ c) (hc' : c < tw) (hp : p ∈ xs) (k : ℤ)
    (hk : |p + k * tw - c| < r - (xs.length + 1) * (tw / 2 ^ 22)) :
    ∃ s, boundingBox32 xs tw = some s ∧ (Small1 tw r s → inRangeR c r s.1 s.2 tw) := by
  obtain ⟨x0, l, rfl⟩ := List.exists_cons_of_ne_nil (List.ne_nil_of_mem hp)
  obtain ⟨f0, a0, b0⟩ := hx x0 List.mem_cons_self
  have g0 : GoodBox tw (x0, 0) := ⟨f0, ⟨0, 0, by norm_num, by norm_num⟩, le_refl _, by show -tw ≤ x0; linarith, b0⟩
  obtain ⟨g, -, n⟩ := fold32 htw ft (x0 :: l) (x0, 0) hx g0
  have hend := fold32_end htw ft (x0 :: l) (x0, 0) hx g0
  unfold boundingBox32
  rw [List.head?_cons, Option.map_some]
  dsimp only
  rw [r32_float ft, r32_float (half_float ft)]
  refine ⟨_, rfl, ?_⟩
  have hu : (0 : ℚ) ≤ (x0 :: l).length * (tw / 2 ^ 22) := by positivity
  have ht : tw / 2 ^ 49 < tw / 2 ^ 22 := div_lt_div_of_pos_left htw (by norm_num) (by norm_num)
  have ht0 : 0 < tw / 2 ^ 49 := by positivity
  have ha := abs_nonneg (p + k * tw - c)
  rw [add_mul, one_mul] at hk
  have hr : tw / 2 ^ 49 < r := by linarith
  by_cases cw : ((x0 :: l).foldl (fun s x => boxStep32 tw x s) (x0, 0)).2 > tw / 2
  · rw [if_pos cw]
    exact fun _ => inRangeR_whole c r tw (f32_64 ft) hc hc' hr
  · rw [if_neg cw]
    intro hs
    have hw := not_lt.mp cw
    have hs' := hs.resolve_right cw
    obtain ⟨j, j1, j2⟩ := (n hw).1 p hp
    have he := hend hw
    dsimp only at he
    generalize ((x0 :: l).foldl (fun s x => boxStep32 tw x s) (x0, 0)) = s at *
    generalize ((x0 :: l).length : ℚ) * (tw / 2 ^ 22) = M at *
    obtain ⟨k1, k2⟩ := abs_lt.mp hk
    have hlow : r - tw ≤ s.1 := by linarith [g.nn]
    -- the point of the region next to the particle
    refine inRangeR_complete c r s.1 s.2 tw (max s.1 (min (p + j * tw) (s.1 + s.2))) (k - j) (f32_64 ft) hc hc' hlow g.hi g.nn (by linarith) hs' ?_ ?_ ?_
    · have := le_max_left s.1 (min (p + j * tw) (s.1 + s.2))
      have : 0 < tw / 2 ^ 50 := by positivity
      linarith
    · have h1 : max s.1 (min (p + j * tw) (s.1 + s.2)) ≤ s.1 + s.2 := max_le (by linarith [g.nn]) (min_le_right _ _)
      have : 0 < tw / 2 ^ 50 := by positivity
      linarith
    · have hq : |max s.1 (min (p + j * tw) (s.1 + s.2)) - (p + j * tw)| ≤ M := by
        rw [abs_le]
        constructor
        · rcases le_total (p + j * tw) (s.1 + s.2) with h | h
          · rw [min_eq_left h]
            linarith [le_max_right s.1 (p + j * tw)]
          · rw [min_eq_right h]
            linarith [le_max_right s.1 (s.1 + s.2)]
        · rw [sub_le_iff_le_add]
          exact max_le (by linarith) ((min_le_left _ _).trans (by linarith))
      obtain ⟨q1, q2⟩ := abs_le.mp hq
      rw [abs_lt]
      push_cast
      constructor <;> linarith

/-! ### The files of a snapshot -/

theorem abs_of_sqR (a b c r : ℚ) (hr : 0 < r) (h : a ^ 2 + b ^ 2 + c ^ 2 < r ^ 2) : |a| < r ∧ |b| < r ∧ |c| < r := by
  refine ⟨?_, ?_, ?_⟩ <;> apply abs_lt_of_sq_lt_sq _ hr.le <;> nlinarith [sq_nonneg a, sq_nonneg b, sq_nonneg c]

/-- What rounding costs for a file of `n` particles: `(n+1)·2⁻²²` box widths. -/
def margin (tw : ℚ) (n : ℕ) : ℚ := ((n : ℚ) + 1) * (tw / 2 ^ 22)

/-- A file can be described: it has particles, and they are float32 numbers in the box. -/
def FileOk (tw : ℚ) (ps : List P3) : Prop :=
  ps ≠ [] ∧ ∀ p ∈ ps, (Float32 p.x ∧ Float32 p.y ∧ Float32 p.z) ∧ (0 ≤ p.x ∧ p.x ≤ tw) ∧ (0 ≤ p.y ∧ p.y ≤ tw) ∧ (0 ≤ p.z ∧ p.z ≤ tw)

/-- The region is small, or the whole box, in all dimensions. -/
def Box3.Small (tw r : ℚ) (hd : Box3) : Prop := Small1 tw r hd.x ∧ Small1 tw r hd.y ∧ Small1 tw r hd.z

/-- The regions of the files of a snapshot: every file with particles has one. -/
theorem region32_some (tw : ℚ) (htw : 0 < tw) (ft : Float32 tw) (ps : List P3) (h : FileOk tw ps) : ∃ hd, region32 ps tw = some hd ∧
    boundingBox32 (ps.map P3.x) tw = some hd.x ∧ boundingBox32 (ps.map P3.y) tw = some hd.y ∧ boundingBox32 (ps.map P3.z) tw = some hd.z := by
  obtain ⟨hne, hp⟩ := h
  obtain ⟨o, w, e1, -⟩ := C102_box_partial tw htw ft (ps.map P3.x) (by simpa using hne) (by
    intro x hx; obtain ⟨p, h, rfl⟩ := List.mem_map.mp hx; exact ⟨(hp p h).1.1, (hp p h).2.1⟩)
  obtain ⟨o2, w2, e2, -⟩ := C102_box_partial tw htw ft (ps.map P3.y) (by simpa using hne) (by
    intro x hx; obtain ⟨p, h, rfl⟩ := List.mem_map.mp hx; exact ⟨(hp p h).1.2.1, (hp p h).2.2.1⟩)
  obtain ⟨o3, w3, e3, -⟩ := C102_box_partial tw htw ft (ps.map P3.z) (by simpa using hne) (by
    intro x hx; obtain ⟨p, h, rfl⟩ := List.mem_map.mp hx; exact ⟨(hp p h).1.2.2, (hp p h).2.2.2⟩)
  exact ⟨⟨(o, w), (o2, w2), (o3, w3)⟩, by simp [region32, e1, e2, e3], e1, e2, e3⟩

/-- C122: every file that has a particle closer to the center of a sphere than its radius, by the margin, is read for the sphere. -/
theorem C122_selected_partial (tw : ℚ) (htw : 0 < tw) (ft : Float32 tw) (files : List (List P3)) (hf : ∀ ps ∈ files, FileOk tw ps) (spheres : List (P3 × ℚ)) :
    ∃ hds, files.mapM (fun ps => region32 ps tw) = some hds ∧ hds.length = files.length ∧
      ∀ (i si : ℕ) (ps : List P3) (hd : Box3) (c : P3) (r : ℚ), files[i]? = some ps → hds[i]? = some hd → hd.Small tw r → spheres[si]? = some (c, r) → c.InBox tw → margin tw ps.length < r →
        (∃ p ∈ ps, c.Near tw (r - margin tw ps.length) p) → ∃ bin, (binSpheresR hds tw spheres)[i]? = some bin ∧ si ∈ bin := by
  have hmap : ∀ files : List (List P3), (∀ ps ∈ files, FileOk tw ps) → ∃ hds, files.mapM (fun ps => region32 ps tw) = some hds ∧
      List.Forall₂ (fun (ps : List P3) (hd : Box3) => boundingBox32 (ps.map P3.x) tw = some hd.x ∧ boundingBox32 (ps.map P3.y) tw = some hd.y ∧ boundingBox32 (ps.map P3.z) tw = some hd.z) files hds := by
    intro files
    induction files with
    | nil => exact fun _ => ⟨[], rfl, List.Forall₂.nil⟩
    | cons ps files ih =>
      intro hf
      obtain ⟨hds, a, b⟩ := ih fun q hq => hf q (List.mem_cons_of_mem _ hq)
      obtain ⟨hd, c, d⟩ := region32_some tw htw ft ps (hf ps List.mem_cons_self)
      exact ⟨hd :: hds, by rw [List.mapM_cons, c, a]; rfl, List.Forall₂.cons d b⟩
  obtain ⟨hds, a, b⟩ := hmap files hf
  refine ⟨hds, a, b.length_eq.symm, fun i si ps hd c r hi hhd hs hsi hc hm ⟨p, hp, hn⟩ => ?_⟩
  have hbox : boundingBox32 (ps.map P3.x) tw = some hd.x ∧ boundingBox32 (ps.map P3.y) tw = some hd.y ∧ boundingBox32 (ps.map P3.z) tw = some hd.z := by
    obtain ⟨hl, hg⟩ := List.getElem?_eq_some_iff.mp hi
    obtain ⟨hl', hg'⟩ := List.getElem?_eq_some_iff.mp hhd
    have := b.get hl hl'
    rw [List.get_eq_getElem, List.get_eq_getElem, hg, hg'] at this
    exact this
  have hfile := hf ps (List.mem_of_getElem? hi)
  obtain ⟨n1, n2, n3, hn⟩ := hn
  obtain ⟨a1, a2, a3⟩ := abs_of_sqR _ _ _ _ (by linarith) hn
  have hsel : sheetIntersectR c r hd tw := by
    refine ⟨?_, ?_, ?_⟩
    · obtain ⟨s, e, f⟩ := select1 tw htw ft (ps.map P3.x) (by intro x hx; obtain ⟨q, h, rfl⟩ := List.mem_map.mp hx; exact ⟨(hfile.2 q h).1.1, (hfile.2 q h).2.1⟩) c.x r p.x hc.1.1 hc.1.2
        (List.mem_map_of_mem hp) n1 (by rw [List.length_map]; exact a1)
      rw [hbox.1] at e
      cases e
      exact f hs.1
    · obtain ⟨s, e, f⟩ := select1 tw htw ft (ps.map P3.y) (by intro x hx; obtain ⟨q, h, rfl⟩ := List.mem_map.mp hx; exact ⟨(hfile.2 q h).1.2.1, (hfile.2 q h).2.2.1⟩) c.y r p.y hc.2.1.1 hc.2.1.2
        (List.mem_map_of_mem hp) n2 (by rw [List.length_map]; exact a2)
      rw [hbox.2.1] at e
      cases e
      exact f hs.2.1
    · obtain ⟨s, e, f⟩ := select1 tw htw ft (ps.map P3.z) (by intro x hx; obtain ⟨q, h, rfl⟩ := List.mem_map.mp hx; exact ⟨(hfile.2 q h).1.2.2, (hfile.2 q h).2.2.2⟩) c.z r p.z hc.2.2.1 hc.2.2.2
        (List.mem_map_of_mem hp) n3 (by rw [List.length_map]; exact a3)
      rw [hbox.2.2] at e
      cases e
      exact f hs.2.2
  unfold binSpheresR
  rw [List.getElem?_map, hhd]
  refine ⟨_, rfl, List.mem_map.mpr ⟨((c, r), si), ?_, rfl⟩⟩
  rw [List.mem_filter]
  refine ⟨?_, by simpa using hsel⟩
  rw [List.mem_iff_getElem?]
  exact ⟨si, by rw [List.getElem?_zipIdx, hsi]; simp⟩

/-- C122: only spheres that exist are listed, each at most once and in order. -/
theorem C122_subset (hds : List Box3) (tw : ℚ) (spheres : List (P3 × ℚ)) : (binSpheresR hds tw spheres).length = hds.length ∧
    ∀ bin ∈ binSpheresR hds tw spheres, bin.Sublist (List.range spheres.length) := by
  unfold binSpheresR
  refine ⟨by simp, ?_⟩
  intro bin hb
  obtain ⟨hd, _, rfl⟩ := List.mem_map.mp hb
  have h := (List.filter_sublist (l := spheres.zipIdx) (p := fun s => decide (sheetIntersectR s.1.1 s.1.2 hd tw))).map Prod.snd
  rwa [List.zipIdx_map_snd, ← List.range_eq_range'] at h

/-! ### Where it fails -/

theorem f64_of {x : ℚ} (m e : ℤ) (hm : |m| < 2 ^ 53) (h : x = m * 2 ^ e) : r64 x = x := r64_float ⟨m, e, hm, h⟩

theorem box_const (y : ℚ) (fy : Float32 y) (n : ℕ) : boundingBox32 (List.replicate (n + 1) y) 100 = some (y, 0) := by
  have ft : Float32 100 := ⟨100, 0, by norm_num, by norm_num⟩
  have hstep : boxStep32 100 y (y, 0) = (y, 0) := by
    have hz : r32 0 = 0 := r32_float ⟨0, 0, by norm_num, by norm_num⟩
    unfold boxStep32
    simp only [add_zero, sub_self, hz, r32_float fy]
    rw [r32_float (half_float ft)]
    norm_num
    simp [hz]
  have hfold : ∀ n, (List.replicate n y).foldl (fun s x => boxStep32 100 x s) (y, 0) = (y, 0) := by
    intro n
    induction n with
    | zero => rfl
    | succ n ih => rw [List.replicate_succ, List.foldl_cons, hstep, ih]
  unfold boundingBox32
  rw [show (List.replicate (n + 1) y).head? = some y from rfl, Option.map_some]
  dsimp only
  rw [r32_float ft, r32_float (half_float ft), hfold, if_neg (by norm_num)]

/-- C122 is false of the code without a margin: a particle that is closer than the radius 1, by 2⁻⁶⁰, is alone in a file that is not read. -/
theorem C122_rounding_false : FileOk 100 [⟨1, 50, 50⟩] ∧ P3.InBox 100 ⟨1 / 2 ^ 60, 50, 50⟩ ∧ P3.Near 100 ⟨1 / 2 ^ 60, 50, 50⟩ 1 ⟨1, 50, 50⟩ ∧
    ∃ hds, [[⟨1, 50, 50⟩]].mapM (fun ps : List P3 => region32 ps 100) = some hds ∧ (∀ hd ∈ hds, hd.Small 100 1) ∧ binSpheresR hds 100 [(⟨1 / 2 ^ 60, 50, 50⟩, 1)] = [[]] := by
  have f1 : Float32 1 := ⟨1, 0, by norm_num, by norm_num⟩
  have f50 : Float32 50 := ⟨50, 0, by norm_num, by norm_num⟩
  refine ⟨⟨by simp, ?_⟩, ?_, ⟨0, 0, 0, by norm_num⟩, [⟨(1, 0), (50, 0), (50, 0)⟩], ?_, ?_, ?_⟩
  · intro p hp
    rw [List.mem_singleton.mp hp]
    exact ⟨⟨f1, f50, f50⟩, by norm_num⟩
  · norm_num [P3.InBox]
  · have e1 := box_const 1 f1 0
    have e2 := box_const 50 f50 0
    simp only [zero_add, List.replicate_one] at e1 e2
    simp [region32, e1, e2]
  · intro hd h
    rw [List.mem_singleton.mp h]
    norm_num [Box3.Small, Small1]
  · have hno : ¬ sheetIntersectR ⟨1 / 2 ^ 60, 50, 50⟩ 1 ⟨(1, 0), (50, 0), (50, 0)⟩ 100 := by
      intro h
      have h := h.1
      unfold inRangeR wrapDistR at h
      dsimp only at h
      have a : r64 (1 / 2 ^ 60 + 1) = 1 := by
        unfold r64
        rw [rn_eq 0 (2 ^ 52) (by rw [abs_of_pos (by norm_num)]; norm_num) (by rw [abs_of_pos (by norm_num)]; norm_num) (by rw [abs_lt]; norm_num)]
        norm_num
      have b : r64 (1 / 2 ^ 60 - 1) = -1 := by
        unfold r64
        rw [rn_eq (-1) (-(2 ^ 53)) (by rw [abs_of_neg (by norm_num)]; norm_num) (by rw [abs_of_neg (by norm_num)]; norm_num) (by rw [abs_lt]; norm_num)]
        norm_num
      have c : r64 (100 / 2) = 50 := by rw [show (100 : ℚ) / 2 = 50 by norm_num]; exact f64_of 50 0 (by norm_num) (by norm_num)
      have d : r64 (100 / -2) = -50 := by rw [show (100 : ℚ) / -2 = -50 by norm_num]; exact f64_of (-50) 0 (by norm_num) (by norm_num)
      rw [a, b, c, d] at h
      norm_num at h
    simpa [binSpheresR] using hno

theorem drift_length (m : ℕ) : (drift m).length = m + 1 + 1 := by simp [drift]

/-- C122 is false of the code with a small margin, too: in a large file the region loses 1/8 (C102), and a particle at half of the radius 1/8 is in a file that is not read. -/
theorem C122_drift_false : ∃ ps : List P3, FileOk 100 ps ∧ P3.InBox 100 ⟨21 / 16, 50, 50⟩ ∧ (∃ p ∈ ps, P3.Near 100 ⟨21 / 16, 50, 50⟩ (1 / 8 - 1 / 32) p) ∧
    ∃ hds, [ps].mapM (fun ps : List P3 => region32 ps 100) = some hds ∧ (∀ hd ∈ hds, hd.Small 100 (1 / 8)) ∧ binSpheresR hds 100 [(⟨21 / 16, 50, 50⟩, 1 / 8)] = [[]] := by
  have f50 : Float32 50 := ⟨50, 0, by norm_num, by norm_num⟩
  obtain ⟨m, hm⟩ : ∃ m : ℕ, m = 2 ^ 23 := ⟨_, rfl⟩
  have hb := C102_drift_false m hm.le
  have hfl := drift_float m hm.le
  have hmq : (m : ℚ) = 2 ^ 23 := by rw [hm]; norm_num
  clear hm
  refine ⟨(drift m).map fun x => ⟨x, 50, 50⟩, ⟨by simp [drift], ?_⟩, ?_, ⟨⟨5 / 4, 50, 50⟩, List.mem_map_of_mem (by simp [drift]), 0, 0, 0, by norm_num⟩, [⟨(1 / 8, 1), (50, 0), (50, 0)⟩], ?_, ?_, ?_⟩
  · intro p hp
    obtain ⟨x, h, rfl⟩ := List.mem_map.mp hp
    obtain ⟨a, b, c⟩ := hfl x h
    exact ⟨⟨a, f50, f50⟩, ⟨b, c.le⟩, by norm_num, by norm_num⟩
  · norm_num [P3.InBox]
  · have e2 := box_const 50 f50 (m + 1)
    have hx : ((drift m).map fun x => (⟨x, 50, 50⟩ : P3)).map P3.x = drift m := by rw [List.map_map]; exact List.map_id _
    have hy : ((drift m).map fun x => (⟨x, 50, 50⟩ : P3)).map P3.y = List.replicate (m + 1 + 1) 50 := by
      rw [List.map_map, ← drift_length]; exact List.map_const
    have hz : ((drift m).map fun x => (⟨x, 50, 50⟩ : P3)).map P3.z = List.replicate (m + 1 + 1) 50 := by
      rw [List.map_map, ← drift_length]; exact List.map_const
    have he : (1 : ℚ) / 4 - (m : ℚ) / 2 ^ 26 = 1 / 8 := by rw [hmq]; norm_num
    rw [he] at hb
    simp only [List.mapM_cons, List.mapM_nil, region32, hx, hy, hz, hb, e2]
    rfl
  · intro hd h
    rw [List.mem_singleton.mp h]
    norm_num [Box3.Small, Small1]
  · have hno : ¬ sheetIntersectR ⟨21 / 16, 50, 50⟩ (1 / 8) ⟨(1 / 8, 1), (50, 0), (50, 0)⟩ 100 := by
      intro h
      have h := h.1
      unfold inRangeR wrapDistR at h
      dsimp only at h
      have a : r64 (1 / 8 + 1) = 9 / 8 := by rw [show (1 : ℚ) / 8 + 1 = 9 / 8 by norm_num]; exact f64_of 9 (-3) (by norm_num) (by norm_num)
      have b : r64 (21 / 16 - 1 / 8) = 19 / 16 := by rw [show (21 : ℚ) / 16 - 1 / 8 = 19 / 16 by norm_num]; exact f64_of 19 (-4) (by norm_num) (by norm_num)
      have b' : r64 (21 / 16 - 9 / 8) = 3 / 16 := by rw [show (21 : ℚ) / 16 - 9 / 8 = 3 / 16 by norm_num]; exact f64_of 3 (-4) (by norm_num) (by norm_num)
      have c : r64 (100 / 2) = 50 := by rw [show (100 : ℚ) / 2 = 50 by norm_num]; exact f64_of 50 0 (by norm_num) (by norm_num)
      have d : r64 (100 / -2) = -50 := by rw [show (100 : ℚ) / -2 = -50 by norm_num]; exact f64_of (-50) 0 (by norm_num) (by norm_num)
      rw [a, b, b', c, d] at h
      norm_num at h
    simpa [binSpheresR] using hno

-- a file at the upper end of the box and a sphere around a point at its lower end
example : ∃ hds, [[⟨98, 50, 50⟩]].mapM (fun ps : List P3 => region32 ps 100) = some hds ∧ ∃ bin, (binSpheresR hds 100 [(⟨50, 50, 50⟩, 1), (⟨1, 51, 50⟩, 5)])[0]? = some bin ∧ 1 ∈ bin := by
  have f98 : Float32 98 := ⟨98, 0, by norm_num, by norm_num⟩
  have f50 : Float32 50 := ⟨50, 0, by norm_num, by norm_num⟩
  obtain ⟨hds, h1, h2, h3⟩ := C122_selected_partial 100 (by norm_num) ⟨100, 0, by norm_num, by norm_num⟩ [[⟨98, 50, 50⟩]] (by
    intro ps hps
    rw [List.mem_singleton.mp hps]
    refine ⟨by simp, fun p hp => ?_⟩
    rw [List.mem_singleton.mp hp]
    exact ⟨⟨f98, f50, f50⟩, by norm_num⟩) [(⟨50, 50, 50⟩, 1), (⟨1, 51, 50⟩, 5)]
  refine ⟨hds, h1, ?_⟩
  have e1 := box_const 98 f98 0
  have e2 := box_const 50 f50 0
  simp only [zero_add, List.replicate_one] at e1 e2
  have : hds = [⟨(98, 0), (50, 0), (50, 0)⟩] := by
    have : [[⟨98, 50, 50⟩]].mapM (fun ps : List P3 => region32 ps 100) = some [⟨(98, 0), (50, 0), (50, 0)⟩] := by simp [region32, e1, e2]
    rw [this] at h1
    exact (Option.some.inj h1).symm
  subst this
  refine h3 0 1 _ _ _ _ rfl rfl ?_ rfl ?_ ?_ ⟨_, List.mem_singleton.mpr rfl, -1, 0, 0, ?_⟩
  · norm_num [Box3.Small, Small1]
  · norm_num [P3.InBox]
  · norm_num [margin]
  · norm_num [margin]

end Shellfish.Round
