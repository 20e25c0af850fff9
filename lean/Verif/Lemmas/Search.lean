/- Lemmas about the search of cmd/halo/finder.go and cmd/halo/split_finder.go. -/
import Verif.Lemmas.Grid
import Mathlib.Data.List.Nodup

namespace Shellfish.Finder
open Shellfish.Los (modf)

variable {K : Type} [Field K] [LinearOrder K] [IsStrictOrderedRing K] [FloorRing K]

/-- Some periodic image of `q` in a box of width `L` is at most `r` away from `p`. -/
def Within (L r : K) (p q : Point K) : Prop :=
  ∃ i j k : ℤ, (p.x - q.x + i * L) ^ 2 + (p.y - q.y + j * L) ^ 2 + (p.z - q.z + k * L) ^ 2 ≤ r ^ 2

/-- All coordinates are in `[0, W)`. -/
def InBox (W : K) (p : Point K) : Prop := (0 ≤ p.x ∧ p.x < W) ∧ (0 ≤ p.y ∧ p.y < W) ∧ (0 ≤ p.z ∧ p.z < W)

theorem InBox.placed {W : K} {p : Point K} (h : InBox W p) : Placed W p := by
  obtain ⟨⟨a, b⟩, ⟨c, d⟩, e, f⟩ := h
  have : 0 < W := by linarith
  exact ⟨⟨by linarith, by linarith⟩, ⟨by linarith, by linarith⟩, by linarith, by linarith⟩

theorem nearest_spec (d L : K) (hL : 0 < L) (h : |d| < L) : (∃ k : ℤ, nearest d L = d + k * L) ∧ ∀ k : ℤ, nearest d L ^ 2 ≤ (d + k * L) ^ 2 := by
  obtain ⟨h1, h2⟩ := abs_lt.mp h
  have hval : (∃ k : ℤ, nearest d L = d + k * L) ∧ |nearest d L| ≤ L / 2 := by
    unfold nearest
    simp only
    by_cases ha : d > L / 2
    · rw [if_pos ha, if_neg (by linarith)]
      exact ⟨⟨-1, by push_cast; ring⟩, abs_le.mpr ⟨by linarith, by linarith⟩⟩
    · rw [if_neg ha]
      by_cases hb : d < -L / 2
      · rw [if_pos hb]
        exact ⟨⟨1, by push_cast; ring⟩, abs_le.mpr ⟨by linarith, by linarith⟩⟩
      · rw [if_neg hb]
        exact ⟨⟨0, by push_cast; ring⟩, abs_le.mpr ⟨by linarith, by linarith⟩⟩
  refine ⟨hval.1, fun k => ?_⟩
  obtain ⟨⟨k0, e⟩, hn⟩ := hval
  rw [sq_le_sq]
  by_cases hk : k = k0
  · rw [hk, e]
  · have hdiff : (1 : K) ≤ |((k - k0 : ℤ) : K)| := by
      rw [← Int.cast_abs]
      exact_mod_cast Int.one_le_abs (by omega)
    have e2 : d + k * L = nearest d L + ((k - k0 : ℤ) : K) * L := by rw [e]; push_cast; ring
    have h3 : L ≤ |((k - k0 : ℤ) : K) * L| := by
      rw [abs_mul, abs_of_pos hL]
      nlinarith
    have h4 : |((k - k0 : ℤ) : K) * L| ≤ |d + k * L| + |nearest d L| := by
      have : ((k - k0 : ℤ) : K) * L = (d + k * L) - nearest d L := by rw [e2]; ring
      rw [this]; exact abs_sub _ _
    linarith

theorem abs_sub_lt_of_box (a b W : K) (ha : 0 ≤ a ∧ a < W) (hb : 0 ≤ b ∧ b < W) : |a - b| < W := abs_lt.mpr ⟨by linarith [ha.1, hb.2], by linarith [ha.2, hb.1]⟩

theorem within_iff (W r : K) (hW : 0 < W) (p q : Point K) (hp : InBox W p) (hq : InBox W q) : r * r ≥ dist2 p q W ↔ Within W r p q := by
  obtain ⟨⟨i, ei⟩, mi⟩ := nearest_spec (p.x - q.x) W hW (abs_sub_lt_of_box _ _ _ hp.1 hq.1)
  obtain ⟨⟨j, ej⟩, mj⟩ := nearest_spec (p.y - q.y) W hW (abs_sub_lt_of_box _ _ _ hp.2.1 hq.2.1)
  obtain ⟨⟨k, ek⟩, mk⟩ := nearest_spec (p.z - q.z) W hW (abs_sub_lt_of_box _ _ _ hp.2.2 hq.2.2)
  unfold dist2 Within
  constructor
  · intro h
    refine ⟨i, j, k, ?_⟩
    rw [← ei, ← ej, ← ek]
    nlinarith
  · rintro ⟨i', j', k', h⟩
    have := mi i'
    have := mj j'
    have := mk k'
    nlinarith

/-! one dimension -/

theorem coord_box (g : Grid K) (hg : g.OK) (x : K) (h : 0 ≤ x ∧ x < g.width) : coord g x = ⌊x / g.cw⌋ := by
  have hc' : (0 : K) < g.cells := by exact_mod_cast hg.cells
  have hcwp : 0 < g.cw := by rw [hg.cw]; exact div_pos hg.width hc'
  unfold coord wrapIn
  rw [if_neg (by linarith [h.2]), if_neg (by linarith [h.1]), toInt_nonneg _ (div_nonneg h.1 hcwp.le)]

/-- the search interval in one dimension -/
theorem bounds_spec (g : Grid K) (hg : g.OK) (p r : K) (hp : 0 ≤ p ∧ p < g.width) (hr : 0 ≤ r) (hsmall : 2 * r + g.cw ≤ g.width) :
    ∃ lo hi : K, 0 ≤ lo ∧ lo < g.width ∧ hi = lo + 2 * r ∧ (∃ k : ℤ, lo = p - r + k * g.width) ∧
      sphereBounds p r g.cw g.width = ⟨⌊lo / g.cw⌋, ⌊hi / g.cw⌋ - ⌊lo / g.cw⌋ + 1⟩ := by
  have hc' : (0 : K) < g.cells := by exact_mod_cast hg.cells
  have hcwp : 0 < g.cw := by rw [hg.cw]; exact div_pos hg.width hc'
  obtain ⟨p0, p1⟩ := hp
  unfold sphereBounds
  by_cases h : p - r < 0
  · simp only [if_pos h]
    refine ⟨p - r + g.width, p + r + g.width, by linarith, by linarith, by ring, ⟨1, by push_cast; ring⟩, ?_⟩
    rw [toInt_nonneg _ (div_nonneg (by linarith) hcwp.le), toInt_nonneg _ (div_nonneg (by linarith) hcwp.le)]
  · simp only [if_neg h]
    refine ⟨p - r, p + r, by linarith, by linarith, by ring, ⟨0, by push_cast; ring⟩, ?_⟩
    rw [toInt_nonneg _ (div_nonneg (by linarith) hcwp.le), toInt_nonneg _ (div_nonneg (by linarith) hcwp.le)]

theorem cells_spec (g : Grid K) (hg : g.OK) (p r : K) (hp : 0 ≤ p ∧ p < g.width) (hr : 0 ≤ r) (hsmall : 2 * r + g.cw ≤ g.width) :
    (cellsOf (sphereBounds p r g.cw g.width) g.cells).Nodup ∧ (∀ x ∈ cellsOf (sphereBounds p r g.cw g.width) g.cells, 0 ≤ x ∧ x < g.cells) ∧
    ∀ q : K, 0 ≤ q ∧ q < g.width → (∃ k : ℤ, |p - q + k * g.width| ≤ r) → coord g q ∈ cellsOf (sphereBounds p r g.cw g.width) g.cells := by
  have hc' : (0 : K) < g.cells := by exact_mod_cast hg.cells
  have hcwp : 0 < g.cw := by rw [hg.cw]; exact div_pos hg.width hc'
  have hcw : g.width / g.cw = g.cells := by
    rw [hg.cw]; field_simp [hg.width.ne']
  obtain ⟨lo, hi, l0, l1, hhi, ⟨k0, hk0⟩, hb⟩ := bounds_spec g hg p r hp hr hsmall
  rw [hb]
  have hlo0 : 0 ≤ ⌊lo / g.cw⌋ := Int.floor_nonneg.mpr (div_nonneg l0 hcwp.le)
  have hloc : ⌊lo / g.cw⌋ < g.cells := by
    rw [Int.floor_lt]
    have : lo / g.cw < g.width / g.cw := div_lt_div_of_pos_right l1 hcwp
    rw [hcw] at this
    exact_mod_cast this
  have hspan : ⌊hi / g.cw⌋ - ⌊lo / g.cw⌋ + 1 ≤ g.cells := by
    have h1 : hi / g.cw ≤ lo / g.cw + (g.cells - 1) := by
      rw [hhi, add_div]
      have : 2 * r / g.cw ≤ g.cells - 1 := by
        rw [← hcw, div_le_iff₀ hcwp, sub_mul, div_mul_cancel₀ _ hcwp.ne', one_mul]
        linarith
      linarith
    have h2 : ⌊hi / g.cw⌋ ≤ ⌊lo / g.cw⌋ + (g.cells - 1) := by
      have : (⌊hi / g.cw⌋ : K) ≤ hi / g.cw := Int.floor_le _
      have h3 : lo / g.cw < ⌊lo / g.cw⌋ + 1 := Int.lt_floor_add_one _
      have : ((⌊hi / g.cw⌋ : ℤ) : K) < ((⌊lo / g.cw⌋ + 1 + (g.cells - 1) : ℤ) : K) := by push_cast; linarith
      have : ⌊hi / g.cw⌋ < ⌊lo / g.cw⌋ + 1 + (g.cells - 1) := by exact_mod_cast this
      omega
    omega
  have hval : ∀ d : Nat, d < (⌊hi / g.cw⌋ - ⌊lo / g.cw⌋ + 1).toNat → d < g.cells := by
    intro d hd
    omega
  refine ⟨?_, ?_, ?_⟩
  · unfold cellsOf
    refine List.Nodup.map_on ?_ List.nodup_range
    intro a ha b hb hab
    have a1 := hval a (List.mem_range.mp ha)
    have b1 := hval b (List.mem_range.mp hb)
    unfold wrapCell at hab
    split_ifs at hab <;> omega
  · intro x hx
    unfold cellsOf at hx
    obtain ⟨d, hd, rfl⟩ := List.mem_map.mp hx
    have d1 := hval d (List.mem_range.mp hd)
    show 0 ≤ wrapCell (⌊lo / g.cw⌋ + (d : Int)) g.cells ∧ wrapCell (⌊lo / g.cw⌋ + (d : Int)) g.cells < g.cells
    unfold wrapCell
    split_ifs <;> omega
  · rintro q hq ⟨k, hk⟩
    obtain ⟨k1, k2⟩ := abs_le.mp hk
    rw [coord_box g hg q hq]
    -- the image of q in [lo, hi]
    set m : ℤ := k0 - k with hm
    have i1 : lo ≤ q + m * g.width := by
      rw [hk0, hm]; push_cast; linarith
    have i2 : q + m * g.width ≤ hi := by
      rw [hhi, hk0, hm]; push_cast; linarith
    have m0 : 0 ≤ m := by
      by_contra hc
      have : (m : K) ≤ -1 := by exact_mod_cast (by omega : m ≤ -1)
      nlinarith [hq.2, hg.width]
    have m1 : m ≤ 1 := by
      by_contra hc
      have : (2 : K) ≤ m := by exact_mod_cast (by omega : 2 ≤ m)
      nlinarith [hq.1, hg.width]
    have hfl : ⌊(q + m * g.width) / g.cw⌋ = ⌊q / g.cw⌋ + m * g.cells := by
      rw [add_div, mul_div_assoc, hcw]
      have : (m : K) * (g.cells : K) = ((m * g.cells : ℤ) : K) := by push_cast; ring
      rw [this, Int.floor_add_intCast]
    have j1 : ⌊lo / g.cw⌋ ≤ ⌊(q + m * g.width) / g.cw⌋ := Int.floor_le_floor (div_le_div_of_nonneg_right i1 hcwp.le)
    have j2 : ⌊(q + m * g.width) / g.cw⌋ ≤ ⌊hi / g.cw⌋ := Int.floor_le_floor (div_le_div_of_nonneg_right i2 hcwp.le)
    have q0 : 0 ≤ ⌊q / g.cw⌋ := Int.floor_nonneg.mpr (div_nonneg hq.1 hcwp.le)
    have q1 : ⌊q / g.cw⌋ < g.cells := by
      rw [Int.floor_lt]
      have : q / g.cw < g.width / g.cw := div_lt_div_of_pos_right hq.2 hcwp
      rw [hcw] at this
      exact_mod_cast this
    unfold cellsOf
    rw [List.mem_map]
    refine ⟨(⌊(q + m * g.width) / g.cw⌋ - ⌊lo / g.cw⌋).toNat, List.mem_range.mpr (by show _ < (⌊hi / g.cw⌋ - ⌊lo / g.cw⌋ + 1).toNat; omega), ?_⟩
    rw [Int.toNat_of_nonneg (by omega)]
    simp only [add_sub_cancel]
    rw [hfl]
    unfold wrapCell
    have : m = 0 ∨ m = 1 := by omega
    rcases this with h | h
    · rw [h]; simp only [zero_mul, add_zero]; rw [if_neg (by omega)]
    · rw [h]; simp only [one_mul]; rw [if_pos (by omega)]; omega

/-! all cells -/

theorem visits_spec (c : Nat) (bx by_ bz : Span) (hx : (cellsOf bx c).Nodup ∧ ∀ x ∈ cellsOf bx c, 0 ≤ x ∧ x < c)
    (hy : (cellsOf by_ c).Nodup ∧ ∀ x ∈ cellsOf by_ c, 0 ≤ x ∧ x < c) (hz : (cellsOf bz c).Nodup ∧ ∀ x ∈ cellsOf bz c, 0 ≤ x ∧ x < c) :
    (visits bx by_ bz c).Nodup ∧ (∀ idx ∈ visits bx by_ bz c, ∃ m : Nat, idx = m ∧ m < c * c * c) ∧
    ∀ x y z, x ∈ cellsOf bx c → y ∈ cellsOf by_ c → z ∈ cellsOf bz c → x + y * (c : Int) + z * (c : Int) * (c : Int) ∈ visits bx by_ bz c := by
  have hord : ∀ x y z : Int, z * c * c + y * c + x = x + y * (c : Int) + z * (c : Int) * (c : Int) := by intros; ring
  refine ⟨?_, ?_, ?_⟩
  · unfold visits
    rw [List.nodup_flatMap]
    refine ⟨fun z hzm => ?_, ?_⟩
    · rw [List.nodup_flatMap]
      refine ⟨fun y hym => ?_, ?_⟩
      · refine hx.1.map_on ?_
        intro a _ b _ h; omega
      · refine hy.1.pairwise_of_forall_ne ?_
        intro y1 h1 y2 h2 hne
        simp only [Function.onFun, List.Disjoint, List.mem_map]
        rintro v ⟨x1, hx1, rfl⟩ ⟨x2, hx2, he⟩
        rw [hord, hord] at he
        exact hne (index_inj c _ _ _ _ _ _ (hx.2 _ hx2) (hy.2 _ h2) (hx.2 _ hx1) (hy.2 _ h1) he).2.1.symm
    · refine hz.1.pairwise_of_forall_ne ?_
      intro z1 h1 z2 h2 hne
      simp only [Function.onFun, List.Disjoint, List.mem_flatMap, List.mem_map]
      rintro v ⟨y1, hy1, x1, hx1, rfl⟩ ⟨y2, hy2, x2, hx2, he⟩
      rw [hord, hord] at he
      exact hne (index_inj c _ _ _ _ _ _ (hx.2 _ hx2) (hy.2 _ hy2) (hx.2 _ hx1) (hy.2 _ hy1) he).2.2.symm
  · intro idx hi
    unfold visits at hi
    simp only [List.mem_flatMap, List.mem_map] at hi
    obtain ⟨z, h1, y, h2, x, h3, rfl⟩ := hi
    obtain ⟨a, b⟩ := index_lt c x y z (hx.2 _ h3) (hy.2 _ h2) (hz.2 _ h1)
    rw [hord]
    exact ⟨(x + y * (c : Int) + z * (c : Int) * (c : Int)).toNat, by omega, by omega⟩
  · intro x y z h3 h2 h1
    unfold visits
    simp only [List.mem_flatMap, List.mem_map]
    exact ⟨z, h1, y, h2, x, h3, hord x y z⟩

theorem mapM_some' {α β : Type} (f : α → Option β) (g : α → β) (l : List α) (h : ∀ a ∈ l, f a = some (g a)) : l.mapM f = some (l.map g) := by
  induction l with
  | nil => rfl
  | cons a l ih => rw [List.mapM_cons, h a (by simp), ih (fun b hb => h b (by simp [hb]))]; rfl

/-- the indices in the cells around `h`, each once, among them all that matter -/
theorem around (g : Grid K) (ps : List (Point K)) (hb : Built g ps ps.length) (hps : ∀ p ∈ ps, InBox g.width p) (cap : Nat)
    (hcap : ∀ idx : Nat, idx < g.cells * g.cells * g.cells → (members g ps ps.length idx).length ≤ cap)
    (h : Point K) (hh : InBox g.width h) (R : K) (hR : 0 ≤ R) (hsmall : 2 * R + g.cw ≤ g.width) {β : Type} (f : List Int → Option (List β)) (F : Int → List β)
    (hf : ∀ idx : Nat, f (members g ps ps.length idx) = some ((members g ps ps.length idx).flatMap F)) :
    ∃ seen : List Int, seen.Nodup ∧ (∀ j ∈ seen, ∃ (i : Nat) (q : Point K), j = i ∧ ps[i]? = some q) ∧
      (∀ (i : Nat) (q : Point K), ps[i]? = some q → Within g.width R h q → (i : Int) ∈ seen) ∧
      (((visits (sphereBounds h.x R g.cw g.width) (sphereBounds h.y R g.cw g.width) (sphereBounds h.z R g.cw g.width) g.cells).mapM
        fun idx => (readIndexes g idx cap).bind f).map List.flatten) = some (seen.flatMap F) := by
  obtain ⟨x1, x2, x3⟩ := cells_spec g hb.ok h.x R hh.1 hR hsmall
  obtain ⟨y1, y2, y3⟩ := cells_spec g hb.ok h.y R hh.2.1 hR hsmall
  obtain ⟨z1, z2, z3⟩ := cells_spec g hb.ok h.z R hh.2.2 hR hsmall
  obtain ⟨v1, v2, v3⟩ := visits_spec g.cells _ _ _ ⟨x1, x2⟩ ⟨y1, y2⟩ ⟨z1, z2⟩
  generalize hv : visits (sphereBounds h.x R g.cw g.width) (sphereBounds h.y R g.cw g.width) (sphereBounds h.z R g.cw g.width) g.cells = vs at v1 v2 v3
  refine ⟨vs.flatMap fun idx => members g ps ps.length idx, ?_, ?_, ?_, ?_⟩
  · rw [List.nodup_flatMap]
    refine ⟨fun idx _ => (members_desc g ps _ idx).imp (by intro a b hab; omega), ?_⟩
    refine v1.pairwise_of_forall_ne ?_
    intro a _ b _ hne
    simp only [Function.onFun, List.Disjoint]
    intro j ha hb'
    obtain ⟨i, p, e1, _, e3, e4⟩ := (mem_members g ps _ a j).mp ha
    obtain ⟨i', p', f1, _, f3, f4⟩ := (mem_members g ps _ b j).mp hb'
    have : i = i' := by omega
    subst this
    rw [e3, Option.some.injEq] at f3
    subst f3
    exact hne (e4.symm.trans f4)
  · intro j hj
    obtain ⟨idx, _, hm⟩ := List.mem_flatMap.mp hj
    obtain ⟨i, p, e1, _, e3, _⟩ := (mem_members g ps _ idx j).mp hm
    exact ⟨i, p, e1, e3⟩
  · rintro i q hq ⟨a, b, c, hw⟩
    have hqb := hps q (List.mem_of_getElem? hq)
    have sqle : ∀ u v w : K, u ^ 2 + v ^ 2 + w ^ 2 ≤ R ^ 2 → |u| ≤ R := by
      intro u v w huvw
      apply abs_le_of_sq_le_sq _ hR
      nlinarith [sq_nonneg v, sq_nonneg w]
    have cx := x3 q.x hqb.1 ⟨a, sqle _ _ _ hw⟩
    have cy := y3 q.y hqb.2.1 ⟨b, sqle _ (h.x - q.x + a * g.width) (h.z - q.z + c * g.width) (by linarith)⟩
    have cz := z3 q.z hqb.2.2 ⟨c, sqle _ (h.x - q.x + a * g.width) (h.y - q.y + b * g.width) (by linarith)⟩
    have := v3 _ _ _ cx cy cz
    rw [List.mem_flatMap]
    refine ⟨_, this, (mem_members g ps _ _ _).mpr ⟨i, q, rfl, ?_, hq, cellOf_eq g q⟩⟩
    by_contra hc
    rw [List.getElem?_eq_none (by omega)] at hq; simp at hq
  · rw [mapM_some' _ (fun idx => (members g ps ps.length idx).flatMap F)]
    · simp only [Option.map_some, List.flatMap_assoc]
      rfl
    · intro idx hi
      obtain ⟨m, rfl, hm⟩ := v2 idx hi
      rw [built_read g ps hb m hm cap (hcap m hm), Option.bind_some, hf]

theorem filterMap_flatMap {α β : Type} (f : α → Option β) (l : List α) : l.filterMap f = l.flatMap fun a => (f a).toList := by
  induction l with
  | nil => rfl
  | cons a l ih => rw [List.flatMap_cons, List.filterMap_cons, ih]; cases f a <;> rfl

theorem searchOne_spec (g : Grid K) (ps : List (Point K)) (hb : Built g ps ps.length) (hps : ∀ p ∈ ps, InBox g.width p) (cap : Nat)
    (hcap : ∀ idx : Nat, idx < g.cells * g.cells * g.cells → (members g ps ps.length idx).length ≤ cap)
    (ih : Nat) (h : Point K) (hh : ps[ih]? = some h) (r m : K) (hr : 0 ≤ r) (hm : 0 ≤ m) (hsmall : 2 * (r + m) + g.cw ≤ g.width) :
    ∃ found, searchOne g ps cap ih h r m = some found ∧ found.Nodup ∧
      ∀ j, j ∈ found ↔ ∃ (i : Nat) (q : Point K), j = i ∧ ih < i ∧ ps[i]? = some q ∧ Within g.width r h q := by
  have hhb := hps h (List.mem_of_getElem? hh)
  obtain ⟨seen, s1, s2, s3, s4⟩ := around g ps hb hps cap hcap h hhb (r + m) (by linarith) hsmall (fun l => mark ps ih h r g.width l)
    (fun j => (if j ≤ (ih : Int) then none else (get ps j).bind fun q => if r * r ≥ dist2 h q g.width then some j else none).toList) (by
      intro idx
      unfold mark
      rw [mapM_some' _ (fun j => if j ≤ (ih : Int) then none else (get ps j).bind fun q => if r * r ≥ dist2 h q g.width then some j else none)]
      · simp only [Option.map_some]
        rw [List.filterMap_map, filterMap_flatMap]
        rfl
      · intro j hj
        obtain ⟨i, p, rfl, _, hp, _⟩ := (mem_members g ps _ idx j).mp hj
        split_ifs
        · rfl
        · rw [get_nat, hp]; rfl)
  refine ⟨_, s4, ?_, ?_⟩
  · rw [← filterMap_flatMap]
    refine List.Nodup.filterMap ?_ s1
    intro a a' b hb1 hb2
    simp only [Option.mem_def] at hb1 hb2
    have key : ∀ a b : Int, (if a ≤ (ih : Int) then none else (get ps a).bind fun q => if r * r ≥ dist2 h q g.width then some a else none) = some b → a = b := by
      intro a b hab
      split_ifs at hab
      cases hg : get ps a with
      | none => rw [hg] at hab; simp at hab
      | some q => rw [hg, Option.bind_some] at hab; split_ifs at hab; simpa using hab
    rw [key a b hb1, key a' b hb2]
  · intro j
    rw [← filterMap_flatMap, List.mem_filterMap]
    constructor
    · rintro ⟨a, ha, hab⟩
      obtain ⟨i, q, rfl, hq⟩ := s2 a ha
      split_ifs at hab with hle
      rw [get_nat, hq, Option.bind_some] at hab
      split_ifs at hab with hd
      simp only [Option.some.injEq] at hab
      exact ⟨i, q, hab.symm, by omega, hq, (within_iff g.width r hb.ok.width h q hhb (hps q (List.mem_of_getElem? hq))).mp hd⟩
    · rintro ⟨i, q, rfl, hlt, hq, hw⟩
      have hw2 : Within g.width (r + m) h q := by
        obtain ⟨a, b, c, he⟩ := hw
        exact ⟨a, b, c, by nlinarith⟩
      refine ⟨i, s3 i q hq hw2, ?_⟩
      rw [if_neg (by omega), get_nat, hq, Option.bind_some,
        if_pos ((within_iff g.width r hb.ok.width h q hhb (hps q (List.mem_of_getElem? hq))).mpr hw)]

theorem splitFind_spec (g : Grid K) (ps : List (Point K)) (hb : Built g ps ps.length) (hps : ∀ p ∈ ps, InBox g.width p)
    (h : Point K) (hhb : InBox g.width h) (r : K) (hr : 0 ≤ r) (hsmall : 2 * r + g.cw ≤ g.width) :
    ∃ found, splitFind g ps h r = some found ∧ (found.map Prod.fst).Nodup ∧
      ∀ j d, (j, d) ∈ found ↔ ∃ (i : Nat) (q : Point K), j = i ∧ ps[i]? = some q ∧ Within g.width r h q ∧ d = dist2 h q g.width := by
  obtain ⟨cap, c1, c2, _⟩ := built_maxLength g ps hb
  obtain ⟨seen, s1, s2, s3, s4⟩ := around g ps hb hps cap c2 h hhb r hr hsmall (fun l => addSubs ps h r g.width l)
    (fun j => ((get ps j).bind fun q => if r * r ≥ dist2 h q g.width then some (j, dist2 h q g.width) else none).toList) (by
      intro idx
      unfold addSubs
      rw [mapM_some' _ (fun j => (get ps j).bind fun q => if r * r ≥ dist2 h q g.width then some (j, dist2 h q g.width) else none)]
      · simp only [Option.map_some]
        rw [List.filterMap_map, filterMap_flatMap]
        rfl
      · intro j hj
        obtain ⟨i, p, rfl, _, hp, _⟩ := (mem_members g ps _ idx j).mp hj
        rw [get_nat, hp]; rfl)
  rw [← filterMap_flatMap] at s4
  generalize hF : (fun j : Int => (get ps j).bind fun q => if r * r ≥ dist2 h q g.width then some (j, dist2 h q g.width) else none) = F at s4
  have hfst : ∀ (j : Int) (b : Int × K), F j = some b → b.1 = j := by
    intro j b hb'
    rw [← hF] at hb'
    simp only at hb'
    cases hg : get ps j with
    | none => rw [hg] at hb'; simp at hb'
    | some q =>
      rw [hg, Option.bind_some] at hb'
      split_ifs at hb'
      simp only [Option.some.injEq] at hb'
      rw [← hb']
  have hnodup : ((seen.filterMap F).map Prod.fst).Nodup := by
    have : (seen.filterMap F).map Prod.fst = seen.filter fun j => (F j).isSome := by
      clear s1 s2 s3 s4
      induction seen with
      | nil => rfl
      | cons a l ih =>
        rw [List.filterMap_cons]
        cases ha : F a with
        | none => rw [List.filter_cons_of_neg (by simp [ha]), ← ih]
        | some b => simp only; rw [List.map_cons, List.filter_cons_of_pos (by simp [ha]), ih, hfst a b ha]
    rw [this]; exact s1.filter _
  have hlen : (seen.filterMap F).length ≤ ps.length := by
    have h1 : (seen.filterMap F).length ≤ seen.length := List.length_filterMap_le _ _
    have h2 : seen.length ≤ ps.length := by
      have hsub : seen ⊆ (List.range ps.length).map fun i : Nat => (i : Int) := by
        intro j hj
        obtain ⟨i, q, rfl, hq⟩ := s2 j hj
        refine List.mem_map.mpr ⟨i, List.mem_range.mpr ?_, rfl⟩
        by_contra hc
        rw [List.getElem?_eq_none (by omega)] at hq; simp at hq
      have := (List.subperm_of_subset s1 hsub).length_le
      simpa using this
    omega
  refine ⟨seen.filterMap F, ?_, hnodup, ?_⟩
  · unfold splitFind
    rw [c1, Option.bind_some, s4, Option.bind_some, if_pos (by rw [hb.next]; exact hlen)]
  · intro j d
    rw [List.mem_filterMap]
    constructor
    · rintro ⟨a, ha, hab⟩
      obtain ⟨i, q, rfl, hq⟩ := s2 a ha
      rw [← hF] at hab
      simp only at hab
      rw [get_nat, hq, Option.bind_some] at hab
      split_ifs at hab with hd
      simp only [Option.some.injEq, Prod.mk.injEq] at hab
      exact ⟨i, q, hab.1.symm, hq, (within_iff g.width r hb.ok.width h q hhb (hps q (List.mem_of_getElem? hq))).mp hd, hab.2.symm⟩
    · rintro ⟨i, q, rfl, hq, hw, rfl⟩
      refine ⟨i, s3 i q hq hw, ?_⟩
      rw [← hF]
      simp only
      rw [get_nat, hq, Option.bind_some, if_pos ((within_iff g.width r hb.ok.width h q hhb (hps q (List.mem_of_getElem? hq))).mpr hw)]

end Shellfish.Finder
