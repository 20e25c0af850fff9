/- C22: grid cells; C23: the subhalo search; C24: hosts and subhalos. -/
import Verif.Lemmas.FindSub
import Mathlib.Data.Rat.Floor
import Mathlib.Algebra.Order.Ring.Rat

namespace Shellfish.Finder

variable {K : Type} [Field K] [LinearOrder K] [IsStrictOrderedRing K] [FloorRing K]

/-! Specification -/

/-- The `m`-th of `cells` equal parts of `[0, W)`, repeated with period `W`, contains `x`. -/
def InPart (cells : Nat) (W x : K) (m : Nat) : Prop := ∃ k : ℤ, (m : K) * (W / (cells : K)) ≤ x + k * W ∧ x + k * W < ((m : K) + 1) * (W / (cells : K))

/-- Cell number `idx` (x fastest) of the `cells`³ cells of the periodic box contains the point. -/
def InCell (cells : Nat) (W : K) (p : Point K) (idx : Nat) : Prop :=
  ∃ ix iy iz : Nat, ix < cells ∧ iy < cells ∧ iz < cells ∧ idx = ix + iy * cells + iz * cells * cells ∧
    InPart cells W p.x ix ∧ InPart cells W p.y iy ∧ InPart cells W p.z iz

open Classical in
/-- The numbers below `n` with a property, in ascending order. -/
noncomputable def indices (n : Nat) (P : Nat → Prop) : List Int := ((List.range n).filter fun k => decide (P k)).map fun k : Nat => (k : Int)

/-- Halo `j` is in the radius of halo `i` and later in the list. -/
def IsSub (W mult : K) (ps : List (Point K)) (rs : List K) (i j : Nat) : Prop :=
  i < j ∧ ∃ p q r, ps[i]? = some p ∧ ps[j]? = some q ∧ rs[i]? = some r ∧ Within W (r * mult) p q

/-! C22 -/

theorem inPart_coord (g : Grid K) (hg : g.OK) (x : K) (h : -g.width ≤ x ∧ x < 2 * g.width) (m : Nat) (hm : m < g.cells) : InPart g.cells g.width x m ↔ coord g x = m := by
  obtain ⟨c0, c1, c2, c3⟩ := coord_range g hg.cells hg.width hg.cw x h.1 h.2
  obtain ⟨w0, w1, k0, hk0⟩ := wrapIn_range x g.width h.1 h.2
  have hW := hg.width
  have hc' : (0 : K) < g.cells := by exact_mod_cast hg.cells
  have hcwp : 0 < g.cw := by rw [hg.cw]; exact div_pos hg.width hc'
  have htot : g.cw * g.cells = g.width := by rw [hg.cw]; field_simp
  unfold InPart
  rw [← hg.cw]
  constructor
  · rintro ⟨k, h1, h2⟩
    have hk : k = k0 := by
      have a : 0 ≤ x + k * g.width := le_trans (by positivity) h1
      have b : x + k * g.width < g.width := by
        have : ((m : K) + 1) * g.cw ≤ g.cells * g.cw := by
          apply mul_le_mul_of_nonneg_right _ hcwp.le
          exact_mod_cast hm
        linarith
      rw [hk0] at w0 w1
      by_contra hne
      rcases lt_or_gt_of_ne hne with hl | hl
      · have : (k : K) + 1 ≤ k0 := by exact_mod_cast hl
        nlinarith
      · have : (k0 : K) + 1 ≤ k := by exact_mod_cast hl
        nlinarith
    subst hk
    rw [← hk0] at h1 h2
    have a : (m : K) < coord g x + 1 := lt_of_mul_lt_mul_right (lt_of_le_of_lt h1 c3) hcwp.le
    have b : (coord g x : K) < m + 1 := lt_of_mul_lt_mul_right (lt_of_le_of_lt c2 h2) hcwp.le
    have a' : (m : Int) < coord g x + 1 := by exact_mod_cast a
    have b' : coord g x < (m : Int) + 1 := by exact_mod_cast b
    omega
  · intro e
    have e' : (coord g x : K) = m := by rw [e]; simp
    rw [e', hk0] at c2 c3
    exact ⟨k0, c2, c3⟩

theorem inCell_iff (g : Grid K) (hg : g.OK) (p : Point K) (hp : Placed g.width p) (idx : Nat) : InCell g.cells g.width p idx ↔ cellOf g p = idx := by
  have a := coord_range g hg.cells hg.width hg.cw p.x hp.1.1 hp.1.2
  have b := coord_range g hg.cells hg.width hg.cw p.y hp.2.1.1 hp.2.1.2
  have c := coord_range g hg.cells hg.width hg.cw p.z hp.2.2.1 hp.2.2.2
  rw [cellOf_eq]
  constructor
  · rintro ⟨ix, iy, iz, h1, h2, h3, rfl, p1, p2, p3⟩
    rw [(inPart_coord g hg _ hp.1 ix h1).mp p1, (inPart_coord g hg _ hp.2.1 iy h2).mp p2, (inPart_coord g hg _ hp.2.2 iz h3).mp p3]
    push_cast; ring
  · intro e
    obtain ⟨ix, hx⟩ := Int.eq_ofNat_of_zero_le a.1
    obtain ⟨iy, hy⟩ := Int.eq_ofNat_of_zero_le b.1
    obtain ⟨iz, hz⟩ := Int.eq_ofNat_of_zero_le c.1
    have lx : ix < g.cells := by omega
    have ly : iy < g.cells := by omega
    have lz : iz < g.cells := by omega
    refine ⟨ix, iy, iz, lx, ly, lz, ?_, (inPart_coord g hg _ hp.1 ix lx).mpr hx, (inPart_coord g hg _ hp.2.1 iy ly).mpr hy, (inPart_coord g hg _ hp.2.2 iz lz).mpr hz⟩
    rw [hx, hy, hz] at e
    have : ((ix + iy * g.cells + iz * g.cells * g.cells : Nat) : Int) = idx := by push_cast; exact e
    exact_mod_cast this.symm

/-- C22: after `Insert` into a new grid of positions at most one box outside of the box, every cell lists (last first) exactly the points inside it, whatever the size
of the reader's buffer beyond the cell's length; `Length` and `MaxLength` agree with the lists; every point is in exactly one cell, and the lengths add up. -/
theorem C22_cells (cells : Nat) (W : K) (hc : 0 < cells) (hW : 0 < W) (ps : List (Point K)) (hp : ∀ p ∈ ps, Placed W p) :
    ∃ (g : Grid K) (cell : Nat → List Int), insert (newGrid cells W ps.length) ps = some g ∧
      (∀ idx, idx < cells * cells * cells → (∀ cap, (cell idx).length ≤ cap → readIndexes g idx cap = some (cell idx)) ∧ length g idx = some (cell idx).length ∧
        (cell idx).Pairwise (fun a b => b < a) ∧ ∀ j, j ∈ cell idx ↔ ∃ (i : Nat) (p : Point K), j = i ∧ ps[i]? = some p ∧ InCell cells W p idx) ∧
      (∀ p ∈ ps, ∃! idx, idx < cells * cells * cells ∧ InCell cells W p idx) ∧
      ((List.range (cells * cells * cells)).map fun idx => (cell idx).length).sum = ps.length ∧
      ∃ m, maxLength g = some m ∧ (∀ idx, idx < cells * cells * cells → (cell idx).length ≤ m) ∧ (m = 0 ∨ ∃ idx, idx < cells * cells * cells ∧ (cell idx).length = m) := by
  obtain ⟨g, g1, hb, rfl, rfl, _⟩ := insert_built cells W hc hW ps hp
  have hg := hb.ok
  refine ⟨g, fun idx => members g ps ps.length idx, g1, ?_, ?_, ?_, ?_⟩
  · intro idx hidx
    refine ⟨fun cap h => built_read g ps hb idx hidx cap h, built_length g ps hb idx hidx, members_desc _ _ _ _, fun j => ?_⟩
    rw [mem_members]
    constructor
    · rintro ⟨i, p, rfl, _, h2, h3⟩
      exact ⟨i, p, rfl, h2, (inCell_iff g hg p (hp p (List.mem_of_getElem? h2)) idx).mpr h3⟩
    · rintro ⟨i, p, rfl, h2, h3⟩
      refine ⟨i, p, rfl, ?_, h2, (inCell_iff g hg p (hp p (List.mem_of_getElem? h2)) idx).mp h3⟩
      by_contra hcon
      rw [List.getElem?_eq_none (by omega)] at h2; simp at h2
  · intro p hpm
    obtain ⟨r0, r1⟩ := cellOf_range g hg p (hp p hpm)
    obtain ⟨m, hm⟩ := Int.eq_ofNat_of_zero_le r0
    rw [hg.heads] at r1
    refine ⟨m, ⟨by have : (m : Int) < ((g.cells * g.cells * g.cells : Nat) : Int) := by rw [← hm]; exact r1
                   omega, (inCell_iff g hg p (hp p hpm) m).mpr hm⟩, ?_⟩
    rintro m' ⟨_, h⟩
    have := (inCell_iff g hg p (hp p hpm) m').mp h
    omega
  · have key : ∀ k, k ≤ ps.length → ((List.range (g.cells * g.cells * g.cells)).map fun idx : Nat => (members g ps k (idx : Int)).length).sum = k := by
      intro k
      induction k with
      | zero => intro _; simp [members]
      | succ k ih =>
        intro hk
        have hkp : ps[k]? = some ps[k] := List.getElem?_eq_getElem (by omega)
        obtain ⟨r0, r1⟩ := cellOf_range g hg ps[k] (hp _ (List.getElem_mem (by omega)))
        obtain ⟨m, hm⟩ := Int.eq_ofNat_of_zero_le r0
        rw [hg.heads] at r1
        have hml : m < g.cells * g.cells * g.cells := by
          have : (m : Int) < ((g.cells * g.cells * g.cells : Nat) : Int) := by rw [← hm]; exact r1
          exact_mod_cast this
        have e : (fun idx : Nat => (members g ps (k + 1) (idx : Int)).length) = fun idx : Nat => (if m = idx then 1 else 0) + (members g ps k (idx : Int)).length := by
          funext idx
          rw [members_succ g ps k _ hkp, hm]
          by_cases h : m = idx
          · subst h; simp [add_comm]
          · rw [if_neg (by exact_mod_cast h), if_neg h, Nat.zero_add]
        rw [e, List.sum_map_add, ih (by omega)]
        have : ∀ N, m < N → ((List.range N).map fun j => if m = j then 1 else 0).sum = 1 := by
          intro N
          induction N with
          | zero => intro h; omega
          | succ n ihn =>
            intro h
            rw [List.range_succ, List.map_append, List.sum_append]
            by_cases hmn : m = n
            · subst hmn
              have hz : (List.map (fun j => if m = j then 1 else 0) (List.range m)).sum = 0 := by
                rw [List.sum_eq_zero]
                intro x hx
                obtain ⟨j, hj, rfl⟩ := List.mem_map.mp hx
                rw [if_neg (by have := List.mem_range.mp hj; omega)]
              rw [hz]; simp
            · rw [ihn (by omega)]; simp [hmn]
        rw [this _ hml]; omega
    exact key ps.length le_rfl
  · exact built_maxLength g ps hb

/-- non-vacuity: three points in a box of width 4 with 2³ cells, one of them outside of the box -/
example : ∀ p ∈ ([⟨1, 1, 1⟩, ⟨-1, 1, 1⟩, ⟨3/2, 1/2, 0⟩] : List (Point ℚ)), Placed 4 p := by
  intro p hp
  simp only [List.mem_cons, List.not_mem_nil, or_false] at hp
  rcases hp with rfl | rfl | rfl <;> unfold Placed <;> norm_num

example : ((insert (newGrid 2 (4 : ℚ) 3) [⟨1, 1, 1⟩, ⟨-1, 1, 1⟩, ⟨3/2, 1/2, 0⟩]).bind fun g => readIndexes g 0 5) = some [2, 0] := by decide +kernel
example : ((insert (newGrid 2 (4 : ℚ) 3) [⟨1, 1, 1⟩, ⟨-1, 1, 1⟩, ⟨3/2, 1/2, 0⟩]).bind fun g => readIndexes g 1 5) = some [1] := by decide +kernel

/-- C22 is false for positions more than one box away: a point at x = 2W is listed by the cell (0, 1, 0), in which none of its images lies. -/
theorem C22_far_false : ((insert (newGrid 2 (4 : ℚ) 1) [⟨8, 1, 1⟩]).bind fun g => readIndexes g 2 1) = some [0] ∧ ¬ InCell 2 (4 : ℚ) ⟨8, 1, 1⟩ 2 := by
  refine ⟨by decide +kernel, ?_⟩
  rintro ⟨ix, iy, iz, h1, h2, h3, e, _, ⟨k, p1, p2⟩, _⟩
  have : iy = 1 := by omega
  subst this
  norm_num at p1 p2
  have a : (1 : ℚ) ≤ k * 4 := by linarith
  have b : (k : ℚ) * 4 < 3 := by linarith
  have a' : (1 : ℤ) ≤ k * 4 := by exact_mod_cast a
  have b' : (k : ℤ) * 4 < 3 := by exact_mod_cast b
  omega

/-- … and from the last row of cells the point leaves the grid. -/
theorem C22_far_panic_false : (insert (newGrid 2 (4 : ℚ) 1) [⟨8, 3, 3⟩]).isNone = true := by decide +kernel

/-! C23 and C24 -/

/-- the lists after a run that did not panic -/
theorem found_lists (s : Lists) (S : List (List Int)) (hv : ∀ (i : Nat) l, S[i]? = some l → ∀ j ∈ l, ∃ k : Nat, j = k ∧ i < k ∧ k < S.length)
    (h : crossMatch ⟨starts S, S.flatten⟩ = some s) (i : Nat) (l : List Int) (hi : S[i]? = some l) :
    hosts s i = some (sorted (hostsOf (pairList S) i)) ∧ subhalos s i = some (sorted l) ∧
      hostCount s i = some (sorted (hostsOf (pairList S) i)).length ∧ subhaloCount s i = some ((sorted l).length : Int) ∧
      intersects s i = some (sorted (hostsOf (pairList S) i) ++ sorted l) ∧
      intersectCount s i = some ((sorted (hostsOf (pairList S) i)).length + (sorted l).length : Int) := by
  obtain ⟨ls, l1, l2, l3⟩ := crossMatch_spec S (by
    intro l hl j hj
    obtain ⟨i, hi, rfl⟩ := List.getElem_of_mem hl
    obtain ⟨k, rfl, _, h2⟩ := hv i _ (List.getElem?_eq_getElem hi) j hj
    exact ⟨k, rfl, h2⟩)
  rw [h, Option.some.injEq] at l1
  subst l1
  have hA : ∀ a ∈ hostsOf (pairList S) i, a < (i : Int) := by
    intro a ha
    obtain ⟨k, rfl, hk⟩ := (mem_hostsOf _ _ _).mp ha
    obtain ⟨l', h1, h2⟩ := (mem_pairList S k _).mp hk
    obtain ⟨m, h3, h4, _⟩ := hv k l' h1 _ h2
    omega
  have hB : ∀ b ∈ l, (i : Int) < b := by
    intro b hb
    obtain ⟨m, rfl, h4, _⟩ := hv i l hi b hb
    omega
  have e := l3 i l hi
  rw [sorted_append _ _ i hA hB] at e
  have hint := intersects_flat ls i _ e
  have hse := startEnd_flat ls i _ e
  have hA' : ∀ a ∈ sorted (hostsOf (pairList S) i), a < (i : Int) := fun a ha => hA a ((List.mergeSort_perm _ _).mem_iff.mp ha)
  have hB' : ∀ b ∈ sorted l, (i : Int) < b := fun b hb => hB b ((List.mergeSort_perm _ _).mem_iff.mp hb)
  have hcount : hostCount ⟨starts ls, ls.flatten⟩ i = some (sorted (hostsOf (pairList S) i)).length := by
    unfold hostCount
    rw [hint, Option.map_some, hostLoop_append _ _ i hA' hB']
  have hic : intersectCount ⟨starts ls, ls.flatten⟩ i = some ((sorted (hostsOf (pairList S) i)).length + (sorted l).length : Int) := by
    unfold intersectCount
    rw [hse, Option.map_some]
    simp only [List.length_append]
    congr 1
    push_cast
    omega
  refine ⟨?_, ?_, hcount, ?_, hint, hic⟩
  · unfold hosts
    rw [hint, Option.bind_some, hcount, Option.map_some, List.take_left' rfl]
  · unfold subhalos
    rw [hint, Option.bind_some, hcount, Option.map_some, List.drop_left' rfl]
  · unfold subhaloCount
    rw [hic, Option.bind_some, hcount, Option.map_some]
    congr 1
    omega

theorem sorted_mem (l : List Int) (j : Int) : j ∈ sorted l ↔ j ∈ l := (List.mergeSort_perm _ _).mem_iff

theorem sorted_asc (l : List Int) : (sorted l).Pairwise (· ≤ ·) := by
  refine (List.pairwise_mergeSort (le := fun a b : Int => decide (a ≤ b)) ?_ ?_ l).imp (by intro a b h; simpa using h)
  · intro a b c h1 h2; simp only [decide_eq_true_eq] at *; omega
  · intro a b; simp only [Bool.or_eq_true, decide_eq_true_eq]; omega

/-- everything under the hypotheses of the exact search -/
theorem search_all (cells : Nat) (W : K) (hc : 0 < cells) (hW : 0 < W) (ps : List (Point K)) (rs : List K) (mult : K) (hlen : rs.length = ps.length) (hne : ps ≠ [])
    (hps : ∀ p ∈ ps, InBox W p) (hr : ∀ r ∈ rs, 0 ≤ r * mult) (hsmall : ∀ r ∈ rs, ∀ r' ∈ rs, 2 * (r * mult + r' * mult) + W / (cells : K) ≤ W) :
    ∃ g s rs', insert (newGrid cells W ps.length) ps = some g ∧ findSubhalos g ps rs mult = some (s, rs') ∧ (mult ≠ 0 → rs' = rs) ∧
      ∀ i, i < ps.length →
        subhalos s i = some (indices ps.length (IsSub W mult ps rs i)) ∧ hosts s i = some (indices ps.length fun k => IsSub W mult ps rs k i) ∧
        subhaloCount s i = some ((indices ps.length (IsSub W mult ps rs i)).length : Int) ∧
        hostCount s i = some (indices ps.length fun k => IsSub W mult ps rs k i).length ∧
        intersectCount s i = some (((indices ps.length fun k => IsSub W mult ps rs k i).length : Int) + (indices ps.length (IsSub W mult ps rs i)).length) := by
  classical
  obtain ⟨g, g1, hb, rfl, rfl, hcw⟩ := insert_built cells W hc hW ps (fun p hp => (hps p hp).placed)
  obtain ⟨cap, c1, c2, _⟩ := built_maxLength g ps hb
  have hlen' : (rs.map (· * mult)).length = ps.length := by simpa using hlen
  obtain ⟨S, s1, s2, s3⟩ := searchFrom_spec g ps hb hps cap c2 (rs.map (· * mult)) hlen' (by
      intro r hr'
      obtain ⟨r0, h0, rfl⟩ := List.mem_map.mp hr'
      exact hr r0 h0) (by
      intro r hr' m hm
      obtain ⟨r0, h0, rfl⟩ := List.mem_map.mp hr'
      obtain ⟨m0, h0', rfl⟩ := List.mem_map.mp hm
      rw [hcw]
      exact hsmall r0 h0 m0 h0') _ [] rfl (by
      rw [List.length_drop, List.length_zip, suffixMax_length]; simp [hlen]) (by simp)
  have hv : ∀ (i : Nat) l, S[i]? = some l → ∀ j ∈ l, ∃ k : Nat, j = k ∧ i < k ∧ k < S.length := by
    intro i l hl j hj
    obtain ⟨k, p, q, r, rfl, h1, _, h3, _⟩ := ((s3 i l hl).2 j).mp hj
    refine ⟨k, rfl, h1, ?_⟩
    rw [s2]
    by_contra hcon
    rw [List.getElem?_eq_none (by omega)] at h3; simp at h3
  obtain ⟨ls, m1, _, _⟩ := crossMatch_spec S (by
    intro l hl j hj
    obtain ⟨i, hi, rfl⟩ := List.getElem_of_mem hl
    obtain ⟨k, rfl, _, h2⟩ := hv i _ (List.getElem?_eq_getElem hi) j hj
    exact ⟨k, rfl, h2⟩)
  have hsub : ∀ i l, S[i]? = some l → ∀ k : Nat, ((k : Int) ∈ l ↔ IsSub g.width mult ps rs i k) := by
    intro i l hl k
    rw [(s3 i l hl).2]
    unfold IsSub
    constructor
    · rintro ⟨k', p, q, r, e, h1, h2, h3, h4, h5⟩
      have : k = k' := by omega
      subst this
      rw [List.getElem?_map, Option.map_eq_some_iff] at h4
      obtain ⟨r0, h6, rfl⟩ := h4
      exact ⟨h1, p, q, r0, h2, h3, h6, h5⟩
    · rintro ⟨h1, p, q, r, h2, h3, h4, h5⟩
      exact ⟨k, p, q, r * mult, rfl, h1, h2, h3, by rw [List.getElem?_map, h4]; rfl, h5⟩
  refine ⟨g, ⟨starts ls, ls.flatten⟩, (rs.map (· * mult)).map (· / mult), g1, ?_, ?_, ?_⟩
  · unfold findSubhalos
    rw [c1, Option.bind_some, if_neg (by rintro rfl; simp at hlen; exact hne (List.length_eq_zero_iff.mp hlen.symm))]
    have : (starts ([] : List (List Int)) ++ List.replicate ((List.map (fun x => x * mult) rs).zip (suffixMax (List.map (fun x => x * mult) rs))).length 0) = List.replicate g.next.length 0 := by
      rw [hb.next, List.length_zip, suffixMax_length]
      simp [starts, prefixSums, hlen]
    simp only [List.length_nil, List.drop_zero, List.flatten_nil] at s1
    rw [this] at s1
    rw [s1, Option.bind_some, m1]
    rfl
  · intro hm
    rw [List.map_map]
    conv_rhs => rw [← List.map_id rs]
    apply List.map_congr_left
    intro r _
    simp only [Function.comp, id]
    field_simp
  · intro i hi
    have hl : S[i]? = some S[i] := List.getElem?_eq_getElem (by omega)
    obtain ⟨f1, f2, f3, f4, f5, f6⟩ := found_lists _ S hv m1 i _ hl
    have e1 : sorted S[i] = indices ps.length (IsSub g.width mult ps rs i) := by
      apply eq_filter_range _ _ _ (s3 i _ hl).1
      intro j
      constructor
      · intro hj
        obtain ⟨k, rfl, _, h2⟩ := hv i _ hl j hj
        exact ⟨k, rfl, by omega, (hsub i _ hl k).mp hj⟩
      · rintro ⟨k, rfl, _, h⟩
        exact (hsub i _ hl k).mpr h
    have e2 : sorted (hostsOf (pairList S) i) = indices ps.length (fun k => IsSub g.width mult ps rs k i) := by
      apply eq_filter_range _ _ _ (hostsOf_nodup S (by
        intro l hl'
        obtain ⟨k, hk, rfl⟩ := List.getElem_of_mem hl'
        exact (s3 k _ (List.getElem?_eq_getElem hk)).1) i)
      intro j
      rw [mem_hostsOf]
      constructor
      · rintro ⟨k, rfl, hk⟩
        obtain ⟨l', h1, h2⟩ := (mem_pairList S k _).mp hk
        refine ⟨k, rfl, ?_, (hsub k l' h1 i).mp h2⟩
        by_contra hcon
        rw [List.getElem?_eq_none (by omega)] at h1; simp at h1
      · rintro ⟨k, rfl, hk, h⟩
        have hk' : S[k]? = some S[k] := List.getElem?_eq_getElem (by omega)
        exact ⟨k, rfl, (mem_pairList S k _).mpr ⟨_, hk', (hsub k _ hk' i).mpr h⟩⟩
    rw [← e1, ← e2]
    exact ⟨f2, f1, f4, f3, f6⟩

/-- C23: when every halo lies in the box and twice the sum of two radii and one cell width is at most the box width, `FindSubhalos` on a filled grid does not panic, and
`Subhalos(i)` lists, in ascending order and each once, exactly the later halos whose periodic distance to halo `i` is at most its radius times the multiplier; the
radii are restored. -/
theorem C23_exact_partial (cells : Nat) (W : K) (hc : 0 < cells) (hW : 0 < W) (ps : List (Point K)) (rs : List K) (mult : K) (hlen : rs.length = ps.length) (hne : ps ≠ [])
    (hps : ∀ p ∈ ps, InBox W p) (hr : ∀ r ∈ rs, 0 ≤ r * mult) (hsmall : ∀ r ∈ rs, ∀ r' ∈ rs, 2 * (r * mult + r' * mult) + W / (cells : K) ≤ W) :
    ∃ g s rs', insert (newGrid cells W ps.length) ps = some g ∧ findSubhalos g ps rs mult = some (s, rs') ∧ (mult ≠ 0 → rs' = rs) ∧
      ∀ i, i < ps.length → subhalos s i = some (indices ps.length (IsSub W mult ps rs i)) := by
  obtain ⟨g, s, rs', h1, h2, h3, h4⟩ := search_all cells W hc hW ps rs mult hlen hne hps hr hsmall
  exact ⟨g, s, rs', h1, h2, h3, fun i hi => (h4 i hi).1⟩

/-- C23 for the two-catalogue search: `SplitSubhaloFinder.FindSubhalos` returns each halo of the grid within the radius exactly once, with its smallest squared distance
over the periodic images. -/
theorem C23_split_partial (cells : Nat) (W : K) (hc : 0 < cells) (hW : 0 < W) (ps : List (Point K)) (hps : ∀ p ∈ ps, InBox W p) (h : Point K) (hh : InBox W h) (r : K)
    (hr : 0 ≤ r) (hsmall : 2 * r + W / (cells : K) ≤ W) :
    ∃ g found, insert (newGrid cells W ps.length) ps = some g ∧ splitFind g ps h r = some found ∧ (found.map Prod.fst).Nodup ∧
      ∀ j d, (j, d) ∈ found ↔ ∃ (i : Nat) (q : Point K), j = i ∧ ps[i]? = some q ∧ d ≤ r ^ 2 ∧
        IsLeast {e | ∃ a b c : ℤ, e = (h.x - q.x + a * W) ^ 2 + (h.y - q.y + b * W) ^ 2 + (h.z - q.z + c * W) ^ 2} d := by
  obtain ⟨g, g1, hb, rfl, rfl, hcw⟩ := insert_built cells W hc hW ps (fun p hp => (hps p hp).placed)
  obtain ⟨found, f1, f2, f3⟩ := splitFind_spec g ps hb hps h hh r hr (by rw [hcw]; exact hsmall)
  refine ⟨g, found, g1, f1, f2, fun j d => ?_⟩
  rw [f3]
  have least : ∀ q, InBox g.width q → IsLeast {e | ∃ a b c : ℤ, e = (h.x - q.x + a * g.width) ^ 2 + (h.y - q.y + b * g.width) ^ 2 + (h.z - q.z + c * g.width) ^ 2} (dist2 h q g.width) := by
    intro q hq
    obtain ⟨⟨i, ei⟩, mi⟩ := nearest_spec (h.x - q.x) g.width hW (abs_sub_lt_of_box _ _ _ hh.1 hq.1)
    obtain ⟨⟨j, ej⟩, mj⟩ := nearest_spec (h.y - q.y) g.width hW (abs_sub_lt_of_box _ _ _ hh.2.1 hq.2.1)
    obtain ⟨⟨k, ek⟩, mk⟩ := nearest_spec (h.z - q.z) g.width hW (abs_sub_lt_of_box _ _ _ hh.2.2 hq.2.2)
    constructor
    · exact ⟨i, j, k, by unfold dist2; rw [← ei, ← ej, ← ek]; ring⟩
    · rintro e ⟨a, b, c, rfl⟩
      have := mi a; have := mj b; have := mk c
      unfold dist2
      nlinarith
  constructor
  · rintro ⟨i, q, rfl, h1, h2, rfl⟩
    have hq := hps q (List.mem_of_getElem? h1)
    refine ⟨i, q, rfl, h1, ?_, least q hq⟩
    have := (within_iff g.width r hW h q hh hq).mpr h2
    rw [sq]; exact this
  · rintro ⟨i, q, rfl, h1, h2, h3⟩
    have hq := hps q (List.mem_of_getElem? h1)
    have e : d = dist2 h q g.width := h3.unique (least q hq)
    subst e
    refine ⟨i, q, rfl, h1, (within_iff g.width r hW h q hh hq).mp ?_, rfl⟩
    rw [← sq]; exact h2

/-- three halos in a box of width 8: the second is across the boundary from the first -/
def exPs : List (Point ℚ) := [⟨1/2, 1, 1⟩, ⟨15/2, 1, 1⟩, ⟨4, 4, 4⟩]

/-- non-vacuity -/
example : (∀ p ∈ exPs, InBox 8 p) ∧ (∀ r ∈ ([1, 1, 1/2] : List ℚ), 0 ≤ r * 1) ∧
    (∀ r ∈ ([1, 1, 1/2] : List ℚ), ∀ r' ∈ ([1, 1, 1/2] : List ℚ), 2 * (r * 1 + r' * 1) + 8 / ((4 : Nat) : ℚ) ≤ 8) := by
  refine ⟨?_, ?_, ?_⟩
  · intro p hp
    simp only [exPs, List.mem_cons, List.not_mem_nil, or_false] at hp
    rcases hp with rfl | rfl | rfl <;> unfold InBox <;> norm_num
  · decide +kernel
  · decide +kernel

example : ((insert (newGrid 4 (8 : ℚ) 3) exPs).bind fun g => (findSubhalos g exPs [1, 1, 1/2] 1).bind fun s => subhalos s.1 0) = some [1] := by decide +kernel
example : ((insert (newGrid 4 (8 : ℚ) 3) exPs).bind fun g => (findSubhalos g exPs [1, 1, 1/2] 1).bind fun s => hosts s.1 1) = some [0] := by decide +kernel
example : ((insert (newGrid 4 (8 : ℚ) 3) exPs).bind fun g => splitFind g exPs ⟨0, 1, 1⟩ 1) = some [(1, 1/4), (0, 1/4)] := by decide +kernel

/-- the witness of `C23_twice_false`: a box of width 8 with 2³ cells -/
def twicePs : List (Point ℚ) := [⟨5, 5, 5⟩, ⟨7/2, 5, 5⟩]

/-- C23 is false for large radii: with a search sphere almost as wide as the box the cells at the seam are read twice and a subhalo is listed twice … -/
theorem C23_twice_false : ∃ g s rs', insert (newGrid 2 (8 : ℚ) 2) twicePs = some g ∧ findSubhalos g twicePs [7/4, 0] 1 = some (s, rs') ∧ subhalos s 0 = some [1, 1] := by
  have h1 : ((insert (newGrid 2 (8 : ℚ) 2) twicePs).bind fun g => (maxLength g).bind fun cap =>
      (searchFrom g twicePs cap 0 ((([7/4, 0] : List ℚ).map (· * 1)).zip (suffixMax (([7/4, 0] : List ℚ).map (· * 1)))) ⟨List.replicate g.next.length 0, []⟩).map fun s =>
        (s.starts, s.subs)) = some (starts [[1, 1], []], [[1, 1], []].flatten) := by decide +kernel
  rw [Option.bind_eq_some_iff] at h1
  obtain ⟨g, g1, h1⟩ := h1
  rw [Option.bind_eq_some_iff] at h1
  obtain ⟨cap, c1, h1⟩ := h1
  rw [Option.map_eq_some_iff] at h1
  obtain ⟨⟨st, su⟩, s1, s2⟩ := h1
  rw [Prod.mk.injEq] at s2
  obtain ⟨rfl, rfl⟩ := s2
  have hv : ∀ (i : Nat) l, ([[1, 1], []] : List (List Int))[i]? = some l → ∀ j ∈ l, ∃ k : Nat, j = k ∧ i < k ∧ k < ([[1, 1], []] : List (List Int)).length := by
    intro i l hl j hj
    match i, hl with
    | 0, hl => simp at hl; subst hl; simp at hj; subst hj; exact ⟨1, rfl, by omega, by decide⟩
    | 1, hl => simp at hl; subst hl; simp at hj
    | i + 2, hl => simp at hl
  obtain ⟨ls, m1, _, _⟩ := crossMatch_spec [[1, 1], []] (by
    intro l hl j hj
    simp only [List.mem_cons, List.not_mem_nil, or_false] at hl
    rcases hl with rfl | rfl
    · simp at hj; subst hj; exact ⟨1, rfl, by decide⟩
    · simp at hj)
  obtain ⟨_, f2, _⟩ := found_lists _ _ hv m1 0 [1, 1] rfl
  refine ⟨g, _, (([7/4, 0] : List ℚ).map (· * 1)).map (· / 1), g1, ?_, f2.trans ?_⟩
  · unfold findSubhalos
    rw [c1, Option.bind_some, if_neg (by simp), s1, Option.bind_some, m1]
    rfl
  · unfold sorted
    rw [List.mergeSort_of_pairwise (by decide)]

/-- … with one that is wider the search leaves the grid … -/
theorem C23_panic_false : ((insert (newGrid 4 (8 : ℚ) 2) [⟨2, 2, 2⟩, ⟨2, 5/2, 2⟩]).bind fun g => findSubhalos g [⟨2, 2, 2⟩, ⟨2, 5/2, 2⟩] [10, 10] 1).isNone = true := by
  decide +kernel

/-- … and without any halo it panics (the running maximum reads the last radius). -/
theorem C23_empty_false : ((insert (newGrid 4 (8 : ℚ) 0) []).bind fun g => findSubhalos g [] [] 1).isNone = true := by decide +kernel

/-- C24: under the same hypotheses `Hosts` and `Subhalos` are the ascending lists of a relation and of its converse, `HostCount` and `SubhaloCount` are their lengths
and `IntersectCount` the sum. -/
theorem C24_lists_partial (cells : Nat) (W : K) (hc : 0 < cells) (hW : 0 < W) (ps : List (Point K)) (rs : List K) (mult : K) (hlen : rs.length = ps.length) (hne : ps ≠ [])
    (hps : ∀ p ∈ ps, InBox W p) (hr : ∀ r ∈ rs, 0 ≤ r * mult) (hsmall : ∀ r ∈ rs, ∀ r' ∈ rs, 2 * (r * mult + r' * mult) + W / (cells : K) ≤ W) :
    ∃ g s rs', insert (newGrid cells W ps.length) ps = some g ∧ findSubhalos g ps rs mult = some (s, rs') ∧
      ∀ i, i < ps.length → ∃ subs hs, subhalos s i = some subs ∧ hosts s i = some hs ∧ subs.Pairwise (· < ·) ∧ hs.Pairwise (· < ·) ∧
        subhaloCount s i = some (subs.length : Int) ∧ hostCount s i = some hs.length ∧ intersectCount s i = some ((hs.length : Int) + subs.length) ∧
        (∀ j ∈ subs, (i : Int) < j ∧ j < ps.length) ∧ (∀ j ∈ hs, 0 ≤ j ∧ j < i) := by
  classical
  obtain ⟨g, s, rs', h1, h2, h3, h4⟩ := search_all cells W hc hW ps rs mult hlen hne hps hr hsmall
  have asc : ∀ (n : Nat) (P : Nat → Prop), (indices n P).Pairwise (· < ·) := by
    intro n P
    unfold indices
    rw [List.pairwise_map]
    exact (List.Pairwise.filter _ List.pairwise_lt_range).imp (by intro a b h; omega)
  have mem : ∀ (n : Nat) (P : Nat → Prop) j, j ∈ indices n P ↔ ∃ k : Nat, j = k ∧ k < n ∧ P k := by
    intro n P j
    unfold indices
    simp only [List.mem_map, List.mem_filter, List.mem_range, decide_eq_true_eq]
    constructor
    · rintro ⟨k, ⟨a, b⟩, rfl⟩; exact ⟨k, rfl, a, b⟩
    · rintro ⟨k, rfl, a, b⟩; exact ⟨k, ⟨a, b⟩, rfl⟩
  refine ⟨g, s, rs', h1, h2, fun i hi => ?_⟩
  obtain ⟨a, b, c, d, e⟩ := h4 i hi
  refine ⟨_, _, a, b, asc _ _, asc _ _, c, d, e, ?_, ?_⟩
  · intro j hj
    obtain ⟨k, rfl, hk, hs, _⟩ := (mem _ _ _).mp hj
    omega
  · intro j hj
    obtain ⟨k, rfl, hk, hs, _⟩ := (mem _ _ _).mp hj
    omega

/-- what one halo appends: later halos that exist -/
theorem mark_valid (ps : List (Point K)) (ih : Nat) (h : Point K) (r L : K) (idxs found : List Int) (hm : mark ps ih h r L idxs = some found) :
    ∀ j ∈ found, ∃ k : Nat, j = k ∧ ih < k ∧ k < ps.length := by
  unfold mark at hm
  rw [Option.map_eq_some_iff] at hm
  obtain ⟨l, h1, rfl⟩ := hm
  intro j hj
  rw [List.mem_filterMap] at hj
  obtain ⟨o, ho, hoj⟩ := hj
  simp only [id] at hoj
  subst hoj
  have key : ∀ (idxs : List Int) (l : List (Option Int)), idxs.mapM (fun j => if j ≤ (ih : Int) then some none else (get ps j).map fun q => if r * r ≥ dist2 h q L then some j else none) = some l →
      some j ∈ l → ∃ k : Nat, j = k ∧ ih < k ∧ k < ps.length := by
    intro idxs
    induction idxs with
    | nil => intro l hl hmem; simp only [List.mapM_nil, Option.pure_def, Option.some.injEq] at hl; subst hl; simp at hmem
    | cons a idxs ihx =>
      intro l hl hmem
      rw [List.mapM_cons] at hl
      simp only [Option.bind_eq_bind, Option.pure_def] at hl
      rw [Option.bind_eq_some_iff] at hl
      obtain ⟨x, hx, hl⟩ := hl
      rw [Option.bind_eq_some_iff] at hl
      obtain ⟨l', hl', hl⟩ := hl
      rw [Option.some.injEq] at hl
      subst hl
      rw [List.mem_cons] at hmem
      rcases hmem with rfl | hmem
      · by_cases hle : a ≤ (ih : Int)
        · rw [if_pos hle] at hx; simp at hx
        rw [if_neg hle, Option.map_eq_some_iff] at hx
        obtain ⟨q, hq, hx⟩ := hx
        split_ifs at hx
        rw [Option.some.injEq] at hx
        subst hx
        unfold get at hq
        split_ifs at hq with hneg
        refine ⟨a.toNat, by omega, by omega, ?_⟩
        by_contra hcon
        rw [List.getElem?_eq_none (by omega)] at hq; simp at hq
      · exact ihx l' hl' hmem
  exact key idxs l h1 ho

theorem mapM_mem {α β : Type} (f : α → Option β) : ∀ (l : List α) (l' : List β), l.mapM f = some l' → ∀ b ∈ l', ∃ a ∈ l, f a = some b := by
  intro l
  induction l with
  | nil => intro l' h b hb; simp only [List.mapM_nil, Option.pure_def, Option.some.injEq] at h; subst h; simp at hb
  | cons a l ih =>
    intro l' h b hb
    rw [List.mapM_cons] at h
    simp only [Option.bind_eq_bind, Option.pure_def] at h
    rw [Option.bind_eq_some_iff] at h
    obtain ⟨x, hx, h⟩ := h
    rw [Option.bind_eq_some_iff] at h
    obtain ⟨l'', hl'', h⟩ := h
    rw [Option.some.injEq] at h
    subst h
    rw [List.mem_cons] at hb
    rcases hb with rfl | hb
    · exact ⟨a, by simp, hx⟩
    · obtain ⟨c, hc, hc'⟩ := ih l'' hl'' b hb
      exact ⟨c, by simp [hc], hc'⟩

theorem searchFrom_valid (g : Grid K) (ps : List (Point K)) (cap : Nat) : ∀ (rest : List (K × K)) (S : List (List Int)) (s : Lists),
    S.length + rest.length = ps.length → (∀ (i : Nat) l, S[i]? = some l → ∀ j ∈ l, ∃ k : Nat, j = k ∧ i < k ∧ k < ps.length) →
    searchFrom g ps cap S.length rest ⟨starts S ++ List.replicate rest.length 0, S.flatten⟩ = some s →
    ∃ S' : List (List Int), s = ⟨starts S', S'.flatten⟩ ∧ S'.length = ps.length ∧ ∀ (i : Nat) l, S'[i]? = some l → ∀ j ∈ l, ∃ k : Nat, j = k ∧ i < k ∧ k < ps.length := by
  intro rest
  induction rest with
  | nil =>
    intro S s hl hS h
    simp only [searchFrom, List.length_nil, List.replicate_zero, List.append_nil, Option.some.injEq] at h
    exact ⟨S, h.symm, by simpa using hl, hS⟩
  | cons rm rest ih =>
    intro S s hl hS h
    obtain ⟨r, m⟩ := rm
    simp only [List.length_cons] at hl h
    unfold searchFrom at h
    have hlt : S.length < ps.length := by omega
    rw [List.getElem?_eq_getElem hlt, Option.bind_some] at h
    have hput : ∀ found, put (starts S ++ List.replicate (rest.length + 1) 0) (S.length : Int) S.flatten.length = some (starts (S ++ [found]) ++ List.replicate rest.length 0) := by
      intro found
      rw [put_nat _ _ _ (by simp [starts_length]), starts_append, List.set_append_right _ _ (by rw [starts_length]), starts_length, Nat.sub_self,
        List.replicate_succ, List.set_cons_zero]
      simp
    rw [hput [], Option.bind_some, Option.bind_eq_some_iff] at h
    obtain ⟨found, hf, h⟩ := h
    have e : starts (S ++ [[]]) = starts (S ++ [found]) := by rw [starts_append, starts_append]
    rw [e, ← flatten_take_append] at h
    refine ih (S ++ [found]) s (by simp; omega) ?_ (by rw [List.length_append, List.length_singleton]; exact h)
    intro i l hi
    by_cases hil : i < S.length
    · rw [List.getElem?_append_left hil] at hi
      exact hS i l hi
    · have hie : i = S.length := by
        by_contra hc
        rw [List.getElem?_eq_none (by simp; omega)] at hi; simp at hi
      subst hie
      rw [List.getElem?_append_right le_rfl] at hi
      simp only [Nat.sub_self, List.getElem?_cons_zero, Option.some.injEq] at hi
      subst hi
      unfold searchOne at hf
      rw [Option.map_eq_some_iff] at hf
      obtain ⟨ll, h1, rfl⟩ := hf
      intro j hj
      rw [List.mem_flatten] at hj
      obtain ⟨l', hl', hj⟩ := hj
      obtain ⟨idx, _, h2⟩ := mapM_mem _ _ _ h1 l' hl'
      rw [Option.bind_eq_some_iff] at h2
      obtain ⟨buf, _, h3⟩ := h2
      exact mark_valid _ _ _ _ _ _ _ h3 j hj

/-- C24 for every grid, catalogue and set of radii: whenever `FindSubhalos` returns, `j` is in `Subhalos(i)` if and only if `i` is in `Hosts(j)`, both lists are in
ascending order, hosts come before and subhalos after the halo, and the counts are the lengths of the lists. -/
theorem C24_converse (g : Grid K) (ps : List (Point K)) (rs : List K) (mult : K) (hn : g.next.length = ps.length) (hlen : rs.length = ps.length) (s : Lists) (rs' : List K)
    (h : findSubhalos g ps rs mult = some (s, rs')) :
    ∃ sub host : Nat → List Int, (∀ i, i < ps.length → subhalos s i = some (sub i) ∧ hosts s i = some (host i) ∧ subhaloCount s i = some ((sub i).length : Int) ∧
        hostCount s i = some (host i).length ∧ intersects s i = some (host i ++ sub i) ∧ intersectCount s i = some ((host i).length + (sub i).length : Int) ∧
        (sub i).Pairwise (· ≤ ·) ∧ (host i).Pairwise (· ≤ ·) ∧ (∀ j ∈ sub i, (i : Int) < j ∧ j < ps.length) ∧ (∀ j ∈ host i, 0 ≤ j ∧ j < i)) ∧
      ∀ i j : Nat, i < ps.length → j < ps.length → ((j : Int) ∈ sub i ↔ (i : Int) ∈ host j) := by
  unfold findSubhalos at h
  rw [Option.bind_eq_some_iff] at h
  obtain ⟨cap, _, h⟩ := h
  split_ifs at h with hne
  rw [Option.bind_eq_some_iff] at h
  obtain ⟨s0, h0, h⟩ := h
  rw [Option.map_eq_some_iff] at h
  obtain ⟨s1, h1, h⟩ := h
  rw [Prod.mk.injEq] at h
  obtain ⟨rfl, _⟩ := h
  have hst : (starts ([] : List (List Int)) ++ List.replicate ((List.map (fun x => x * mult) rs).zip (suffixMax (List.map (fun x => x * mult) rs))).length 0) = List.replicate g.next.length 0 := by
    rw [hn, List.length_zip, suffixMax_length]
    simp [starts, prefixSums, hlen]
  obtain ⟨S, rfl, S2, S3⟩ := searchFrom_valid g ps cap ((rs.map (· * mult)).zip (suffixMax (rs.map (· * mult)))) [] s0
    (by rw [List.length_zip, suffixMax_length]; simp [hlen]) (by simp) (by rw [hst]; exact h0)
  have hv : ∀ (i : Nat) l, S[i]? = some l → ∀ j ∈ l, ∃ k : Nat, j = k ∧ i < k ∧ k < S.length := by rw [S2]; exact S3
  refine ⟨fun i => sorted (S.getD i []), fun i => sorted (hostsOf (pairList S) i), ?_, ?_⟩
  · intro i hi
    have hl : S[i]? = some (S.getD i []) := by
      rw [List.getD_eq_getElem?_getD, List.getElem?_eq_getElem (by omega)]; rfl
    obtain ⟨f1, f2, f3, f4, f5, f6⟩ := found_lists _ S hv h1 i _ hl
    refine ⟨f2, f1, f4, f3, f5, f6, sorted_asc _, sorted_asc _, ?_, ?_⟩
    · intro j hj
      obtain ⟨k, rfl, a, b⟩ := S3 i _ hl j ((sorted_mem _ _).mp hj)
      omega
    · intro j hj
      obtain ⟨k, rfl, hk⟩ := (mem_hostsOf _ _ _).mp ((sorted_mem _ _).mp hj)
      obtain ⟨l', g1, g2⟩ := (mem_pairList S k _).mp hk
      obtain ⟨m, g3, g4, _⟩ := hv k l' g1 _ g2
      omega
  · intro i j hi hj
    simp only [sorted_mem]
    rw [mem_hostsOf]
    have hl : S[i]? = some (S.getD i []) := by
      rw [List.getD_eq_getElem?_getD, List.getElem?_eq_getElem (by omega)]; rfl
    constructor
    · intro hm
      exact ⟨i, rfl, (mem_pairList S i _).mpr ⟨_, hl, hm⟩⟩
    · rintro ⟨k, e, hk⟩
      have : k = i := by omega
      subst this
      obtain ⟨l, hl', hm⟩ := (mem_pairList S k _).mp hk
      rw [hl, Option.some.injEq] at hl'
      rw [hl']; exact hm

/-- non-vacuity: a run that returns -/
example : ((insert (newGrid 4 (8 : ℚ) 3) exPs).bind fun g => findSubhalos g exPs [1, 1, 1/2] 1).isSome = true := by decide +kernel

end Shellfish.Finder
