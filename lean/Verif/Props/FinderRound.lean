/- C108: the subhalo search in float64 arithmetic. -/
import Verif.Lemmas.FinderReach
import Verif.Props.Finder

namespace Shellfish.Round
open Shellfish.Finder (Point Grid Span Lists toInt maxLength visits cellsOf suffixMax crossMatch starts subhalos hosts subhaloCount hostCount intersectCount indices Within sorted hostsOf pairList mem_hostsOf
  mem_pairList hostsOf_nodup eq_filter_range found_lists crossMatch_spec suffixMax_length suffixMax_mem visits_spec)

/-! ### Specification -/

/-- A float64 coordinate in a box of width `W`: clearly below its end, or anywhere below it when the number of cells is a power of two. -/
def Inside (cells : ℕ) (W x : ℚ) : Prop := Float64 x ∧ 0 ≤ x ∧ x < W ∧ (x ≤ W * (1 - 1 / 2 ^ 45) ∨ ∃ k, cells = 2 ^ k)

/-- A point of the box. -/
def InsideBox (cells : ℕ) (W : ℚ) (p : Point ℚ) : Prop := Inside cells W p.x ∧ Inside cells W p.y ∧ Inside cells W p.z

/-- The test that the program applies to a halo `i` and a later halo `j`, without any grid. -/
def Listed (W mult : ℚ) (ps : List (Point ℚ)) (rs : List ℚ) (i j : ℕ) : Prop :=
  i < j ∧ ∃ p q r, ps[i]? = some p ∧ ps[j]? = some q ∧ rs[i]? = some r ∧ dist2 p q W ≤ r64 (r64 (r * mult) * r64 (r * mult))

/-! ### Lemmas -/

theorem inside_cell {c : ℕ} {W x : ℚ} (hc : 0 < c) (hWf : Float64 W) (hW : 0 < W) (h : Inside c W x) : cellAt c W x < c := by
  obtain ⟨hf, h0, h1, h2⟩ := h
  unfold cellAt
  rw [Int.floor_lt]
  push_cast
  rcases h2 with h2 | ⟨k, rfl⟩
  · have hcq : (0 : ℚ) < c := by exact_mod_cast hc
    refine lt_of_le_of_lt (quot_both hc hW h0).2.2 ?_
    have hk : 0 < (c : ℚ) / W := by positivity
    have : x * (1 + 1 / 2 ^ 50) < W := by norm_num at h2 ⊢; linarith
    have := mul_lt_mul_of_pos_left this hk
    have hcw : (c : ℚ) / W * W = c := by field_simp
    linarith
  · have := (pow_quot_lt k hf hWf h0 h1).2
    push_cast at this ⊢
    exact this

theorem part_cell {c : ℕ} {W x : ℚ} (hc : 0 < c) (hW : 0 < W) (h0 : 0 ≤ x) (h1 : x < W) : part c W x = cellAt c W x := by
  unfold part wrapIn
  rw [if_neg (not_le.mpr h1), if_neg (not_lt.mpr h0), toInt_cell hc hW h0]

theorem inside_housed {c : ℕ} {W : ℚ} {p : Point ℚ} (hc : 0 < c) (hWf : Float64 W) (hW : 0 < W) (h : InsideBox c W p) : Housed c W p := by
  have one : ∀ x, Inside c W x → 0 ≤ part c W x ∧ part c W x < c := by
    intro x hx
    rw [part_cell hc hW hx.2.1 hx.2.2.1]
    exact ⟨cellAt_nonneg hc hW hx.2.1, inside_cell hc hWf hW hx⟩
  exact ⟨one _ h.1, one _ h.2.1, one _ h.2.2⟩

/-- the lists of a run, for any relation that describes what the single searches find -/
theorem find_lists (cells : ℕ) (W : ℚ) (ps : List (Point ℚ)) (rs : List ℚ) (mult : ℚ) (hlen : rs.length = ps.length) (hne : ps ≠ []) (hps : ∀ p ∈ ps, Housed cells W p) (Rel : ℕ → ℕ → Prop)
    (hfit : ∀ g : Grid ℚ, g.cells = cells → g.width = W → g.cw = r64 (W / (cells : ℚ)) → ∀ (i : ℕ) (h : Point ℚ) (r m : ℚ), ps[i]? = some h → (rs.map fun r => r64 (r * mult))[i]? = some r →
      (suffixMax (rs.map fun r => r64 (r * mult)))[i]? = some m → FitsAll g h (r64 (r + m)) ∧
        ∀ (k : ℕ) (q : Point ℚ), i < k → ps[k]? = some q → ((cellOf g q ∈ reach g h (r64 (r + m)) ∧ r64 (r * r) ≥ dist2 h q W) ↔ Rel i k))
    (hRel : ∀ i k, Rel i k → i < k ∧ k < ps.length) :
    ∃ g s, insertFrom (newGrid cells W ps.length) 0 ps = some g ∧ findSubhalos g ps rs mult = some (s, rs.map fun r => r64 (r64 (r * mult) / mult)) ∧
      ∀ i, i < ps.length →
        subhalos s i = some (indices ps.length (Rel i)) ∧ hosts s i = some (indices ps.length fun k => Rel k i) ∧
        subhaloCount s i = some ((indices ps.length (Rel i)).length : Int) ∧
        hostCount s i = some (indices ps.length fun k => Rel k i).length ∧
        intersectCount s i = some (((indices ps.length fun k => Rel k i).length : Int) + (indices ps.length (Rel i)).length) := by
  classical
  obtain ⟨g, g1, hb, hgc, hgw, hcw⟩ := insert_built cells W ps hps
  obtain ⟨cap, c1, c2, _⟩ := built_maxLength g ps hb
  have hfit' := hfit g hgc hgw hcw
  obtain ⟨S, s1, s2, s3⟩ := searchFrom_spec g ps hb cap c2 (rs.map fun r => r64 (r * mult)) (fun i h r m a b d => (hfit' i h r m a b d).1) _ [] rfl (by
      rw [List.length_drop, List.length_zip, suffixMax_length]; simp [hlen]) (by simp)
  have hsub : ∀ i l, S[i]? = some l → ∀ k : ℕ, ((k : Int) ∈ l ↔ Rel i k) := by
    intro i l hl k
    have hi : i < ps.length := by
      rw [← s2]
      by_contra hcon
      rw [List.getElem?_eq_none (by omega)] at hl; simp at hl
    have hp : ps[i]? = some ps[i] := List.getElem?_eq_getElem hi
    have hli : i < (rs.map fun r => r64 (r * mult)).length := by simpa [hlen] using hi
    have hr : (rs.map fun r => r64 (r * mult))[i]? = some _ := List.getElem?_eq_getElem hli
    have hm : (suffixMax (rs.map fun r => r64 (r * mult)))[i]? = some _ := List.getElem?_eq_getElem (by rw [suffixMax_length]; exact hli)
    rw [(s3 i l hl).2]
    constructor
    · rintro ⟨k', p, q, r, m, e, h1, h2, h3, h4, h5, h6, h7⟩
      have : k = k' := by omega
      subst this
      rw [hgw] at h7
      exact ((hfit' i p r m h2 h4 h5).2 k q h1 h3).mp ⟨h6, h7⟩
    · intro hrel
      obtain ⟨h1, h2⟩ := hRel i k hrel
      have hq : ps[k]? = some ps[k] := List.getElem?_eq_getElem h2
      obtain ⟨a, b⟩ := ((hfit' i _ _ _ hp hr hm).2 k _ h1 hq).mpr hrel
      exact ⟨k, _, _, _, _, rfl, h1, hp, hq, hr, hm, a, by rw [hgw]; exact b⟩
  have hv : ∀ (i : ℕ) l, S[i]? = some l → ∀ j ∈ l, ∃ k : ℕ, j = k ∧ i < k ∧ k < S.length := by
    intro i l hl j hj
    obtain ⟨k, _, _, _, _, rfl, _⟩ := ((s3 i l hl).2 j).mp hj
    have := hRel i k ((hsub i l hl k).mp hj)
    exact ⟨k, rfl, this.1, by omega⟩
  obtain ⟨ls, m1, _, _⟩ := crossMatch_spec S (by
    intro l hl j hj
    obtain ⟨i, hi, rfl⟩ := List.getElem_of_mem hl
    obtain ⟨k, rfl, _, h2⟩ := hv i _ (List.getElem?_eq_getElem hi) j hj
    exact ⟨k, rfl, h2⟩)
  refine ⟨g, ⟨starts ls, ls.flatten⟩, g1, ?_, ?_⟩
  · unfold findSubhalos
    rw [c1, Option.bind_some, if_neg (by rintro rfl; simp at hlen; exact hne (List.length_eq_zero_iff.mp hlen.symm))]
    have : (starts ([] : List (List Int)) ++ List.replicate ((rs.map fun r => r64 (r * mult)).zip (suffixMax (rs.map fun r => r64 (r * mult)))).length 0) = List.replicate g.next.length 0 := by
      rw [hb.next, List.length_zip, suffixMax_length]
      simp [starts, Shellfish.Finder.prefixSums, hlen]
    simp only [List.length_nil, List.drop_zero, List.flatten_nil] at s1
    rw [this] at s1
    dsimp only
    rw [s1, Option.bind_some, m1, Option.map_some, List.map_map]
    rfl
  · intro i hi
    have hl : S[i]? = some S[i] := List.getElem?_eq_getElem (by omega)
    obtain ⟨f1, f2, f3, f4, f5, f6⟩ := found_lists _ S hv m1 i _ hl
    have e1 : sorted S[i] = indices ps.length (Rel i) := by
      apply eq_filter_range _ _ _ (s3 i _ hl).1
      intro j
      constructor
      · intro hj
        obtain ⟨k, rfl, _, h2⟩ := hv i _ hl j hj
        exact ⟨k, rfl, by omega, (hsub i _ hl k).mp hj⟩
      · rintro ⟨k, rfl, _, h⟩
        exact (hsub i _ hl k).mpr h
    have e2 : sorted (hostsOf (pairList S) i) = indices ps.length (fun k => Rel k i) := by
      apply eq_filter_range _ _ _ (hostsOf_nodup S (by
        intro l hl'
        obtain ⟨k, hk, rfl⟩ := List.getElem_of_mem hl'
        exact (s3 k _ (List.getElem?_eq_getElem hk)).1) i)
      intro j
      rw [mem_hostsOf]
      constructor
      · rintro ⟨k, rfl, hk⟩
        obtain ⟨l', h1, h2⟩ := (mem_pairList S k _).mp hk
        refine ⟨k, rfl, ?_, (hsub k l' h1 i).mp h2⟩
        by_contra hcon
        rw [List.getElem?_eq_none (by omega)] at h1; simp at h1
      · rintro ⟨k, rfl, hk, h⟩
        have hk' : S[k]? = some S[k] := List.getElem?_eq_getElem (by omega)
        exact ⟨k, rfl, (mem_pairList S k _).mpr ⟨_, hk', (hsub k _ hk' i).mpr h⟩⟩
    rw [← e1, ← e2]
    exact ⟨f2, f1, f4, f3, f6⟩

/-- the suffix maxima are not below the values -/
theorem le_suffixMax (rs : List ℚ) : ∀ (i : ℕ) (r m : ℚ), rs[i]? = some r → (suffixMax rs)[i]? = some m → r ≤ m := by
  induction rs with
  | nil => intro i r m h; simp at h
  | cons a rs ih =>
    intro i r m h1 h2
    cases i with
    | succ i =>
      simp only [List.getElem?_cons_succ] at h1
      unfold suffixMax at h2
      simp only [List.getElem?_cons_succ] at h2
      exact ih i r m h1 h2
    | zero =>
      simp only [List.getElem?_cons_zero, Option.some.injEq] at h1
      subst h1
      unfold suffixMax at h2
      simp only [List.getElem?_cons_zero, Option.some.injEq] at h2
      subst h2
      cases suffixMax rs with
      | nil => exact le_rfl
      | cons b l =>
        dsimp only
        split_ifs with h
        · exact le_rfl
        · exact not_lt.mp h

/-- the sum of three rounded squares is not below any of them -/
theorem sum_ge (a b d : ℚ) : r64 (a * a) ≤ r64 (r64 (r64 (a * a) + r64 (b * b)) + r64 (d * d)) ∧ r64 (b * b) ≤ r64 (r64 (r64 (a * a) + r64 (b * b)) + r64 (d * d)) ∧
    r64 (d * d) ≤ r64 (r64 (r64 (a * a) + r64 (b * b)) + r64 (d * d)) := by
  have fa := (C95_rounding (a * a)).1
  have fb := (C95_rounding (b * b)).1
  have fd := (C95_rounding (d * d)).1
  have pa := r64_nonneg (mul_self_nonneg a)
  have pb := r64_nonneg (mul_self_nonneg b)
  have pd := r64_nonneg (mul_self_nonneg d)
  have ga : r64 (a * a) ≤ r64 (r64 (a * a) + r64 (b * b)) := le_r64 fa (by linarith)
  have gb : r64 (b * b) ≤ r64 (r64 (a * a) + r64 (b * b)) := le_r64 fb (by linarith)
  exact ⟨le_r64 fa (by linarith), le_r64 fb (by linarith), le_r64 fd (by linarith)⟩

/-- squares that are in order after rounding -/
theorem sq_le {d r : ℚ} (hr : 0 ≤ r) (h : r64 (d * d) ≤ r64 (r * r)) : |d| ≤ r * (1 + 1 / 2 ^ 51) := by
  have a := (r64_bounds (mul_self_nonneg d)).1
  have b := (r64_bounds (mul_self_nonneg r)).2
  have h1 : d * d * (1 - 1 / 2 ^ 53) ≤ r * r * (1 + 1 / 2 ^ 53) := by linarith
  apply abs_le_of_sq_le_sq _ (by positivity)
  have hrr := mul_self_nonneg r
  norm_num at h1 ⊢
  nlinarith

theorem le_radius {r m : ℚ} (hf : Float64 r) (h : r ≤ m) : 2 * r ≤ r64 (r + m) := by
  have : Float64 (2 * r) := by
    have := rep_two_pow hf 1
    rw [zpow_one, mul_comm] at this
    exact this
  exact le_r64 this (by linarith)

/-- all hypotheses on a catalogue for which the search is right -/
structure Catalogue (cells : ℕ) (W : ℚ) (ps : List (Point ℚ)) (rs : List ℚ) (mult : ℚ) : Prop where
  grid : 0 < cells ∧ cells ≤ 2 ^ 40
  width : Float64 W ∧ 0 < W
  lengths : rs.length = ps.length
  points : ps ≠ [] ∧ ∀ p ∈ ps, InsideBox cells W p
  radii : ∀ r ∈ rs, r64 (r * mult) = 0 ∨ W / 2 ^ 39 ≤ r64 (r * mult)
  small : ∀ r ∈ rs, ∀ r' ∈ rs, 2 * (r64 (r * mult) + r64 (r' * mult)) + 3 * (W / (cells : ℚ)) ≤ W

theorem radius_facts {cells : ℕ} {W : ℚ} {ps : List (Point ℚ)} {rs : List ℚ} {mult : ℚ} (hcat : Catalogue cells W ps rs mult) {i : ℕ} {r m : ℚ}
    (hr : (rs.map fun r => r64 (r * mult))[i]? = some r) (hm : (suffixMax (rs.map fun r => r64 (r * mult)))[i]? = some m) :
    0 ≤ r ∧ Float64 r ∧ r ≤ m ∧ 0 ≤ r64 (r + m) ∧ 2 * r64 (r + m) + 2 * (W / (cells : ℚ)) ≤ W ∧ (r64 (r + m) = 0 ∨ W / 2 ^ 40 ≤ r64 (r + m)) := by
  obtain ⟨r0, hr0, rfl⟩ := List.mem_map.mp (List.mem_of_getElem? hr)
  have hle := le_suffixMax _ _ _ _ hr hm
  obtain ⟨m0, hm0, rfl⟩ := List.mem_map.mp (suffixMax_mem _ _ (List.mem_of_getElem? hm))
  have hW := hcat.width.2
  have hcq : (0 : ℚ) < cells := by exact_mod_cast hcat.grid.1
  have pos : ∀ t ∈ rs, 0 ≤ r64 (t * mult) := by
    intro t ht
    rcases hcat.radii t ht with h | h
    · rw [h]
    · exact le_trans (by positivity) h
  have p1 := pos r0 hr0
  have p2 := pos m0 hm0
  have hs := hcat.small r0 hr0 m0 hm0
  have hwp : 0 < W / (cells : ℚ) := by positivity
  have hwc : W / 2 ^ 40 ≤ W / (cells : ℚ) := div_le_div_of_nonneg_left hW.le hcq (by exact_mod_cast hcat.grid.2)
  obtain ⟨n1, n2⟩ := r64_bounds (by linarith : 0 ≤ r64 (r0 * mult) + r64 (m0 * mult))
  have w40 : W / 2 ^ 40 = W * (1 / 2 ^ 40) := by ring
  have w39 : W / 2 ^ 39 = W * (2 / 2 ^ 40) := by ring
  refine ⟨p1, (C95_rounding _).1, hle, r64_nonneg (by linarith), ?_, ?_⟩
  · rw [w40] at hwc
    norm_num at n2 hwc
    linarith
  · rcases hcat.radii m0 hm0 with h | h
    · left
      have : r64 (r0 * mult) = 0 := le_antisymm (by rw [h] at hle; exact hle) p1
      rw [this, h, add_zero, r64_zero]
    · right
      rw [w39] at h
      rw [w40]
      norm_num at n1 h ⊢
      linarith

theorem catalogue_reach {cells : ℕ} {W : ℚ} {ps : List (Point ℚ)} {rs : List ℚ} {mult : ℚ} (hcat : Catalogue cells W ps rs mult) (g : Grid ℚ) (hgc : g.cells = cells) (hgw : g.width = W)
    (hcw : g.cw = r64 (W / (cells : ℚ))) (i : ℕ) (h : Point ℚ) (r m : ℚ) (hh : ps[i]? = some h) (hr : (rs.map fun r => r64 (r * mult))[i]? = some r)
    (hm : (suffixMax (rs.map fun r => r64 (r * mult)))[i]? = some m) :
    FitsAll g h (r64 (r + m)) ∧ ∀ (k : ℕ) (q : Point ℚ), ps[k]? = some q → r64 (r * r) ≥ dist2 h q W → cellOf g q ∈ reach g h (r64 (r + m)) := by
  subst hgc hgw
  obtain ⟨r0, rf, hle, R0, Rs, Rb⟩ := radius_facts hcat hr hm
  obtain ⟨hc, hc'⟩ := hcat.grid
  obtain ⟨hWf, hW⟩ := hcat.width
  have hhb := hcat.points.2 h (List.mem_of_getElem? hh)
  have hwp : 0 < g.width / (g.cells : ℚ) := by
    have hcq : (0 : ℚ) < g.cells := by exact_mod_cast hc
    positivity
  have fit : ∀ x, Inside g.cells g.width x → Fits (sphereBounds x (r64 (r + m)) g.cw g.width) g.cells := by
    intro x hx
    rw [hcw]
    exact fits_bounds hc hc' hW hx.2.1 hx.2.2.1 R0 Rs
  have hfit : FitsAll g h (r64 (r + m)) := ⟨fit _ hhb.1, fit _ hhb.2.1, fit _ hhb.2.2⟩
  refine ⟨hfit, fun k q hq htest => ?_⟩
  have hqb := hcat.points.2 q (List.mem_of_getElem? hq)
  unfold dist2 at htest
  obtain ⟨s1, s2, s3⟩ := sum_ge (nearImage (r64 (h.x - q.x)) g.width) (nearImage (r64 (h.y - q.y)) g.width) (nearImage (r64 (h.z - q.z)) g.width)
  have h2r := le_radius rf hle
  have one : ∀ x y, Inside g.cells g.width x → Inside g.cells g.width y → r64 (nearImage (r64 (x - y)) g.width * nearImage (r64 (x - y)) g.width) ≤ r64 (r * r) →
      part g.cells g.width y ∈ cellsOf (sphereBounds x (r64 (r + m)) g.cw g.width) g.cells := by
    intro x y hx hy hxy
    rw [part_cell hc hW hy.2.1 hy.2.2.1, hcw]
    refine cover hc hWf hW hx.2.1 hx.2.2.1 hx.1 hy.2.1 hy.2.2.1 hy.1 (inside_cell hc hWf hW hy) R0 (by linarith) Rb ?_
    have := sq_le r0 hxy
    norm_num at this
    linarith
  have hcell : cellOf g q = part g.cells g.width q.x + part g.cells g.width q.y * (g.cells : Int) + part g.cells g.width q.z * (g.cells : Int) * (g.cells : Int) := by
    unfold cellOf cellIdx part
    rw [hcw]
  rw [hcell]
  exact (visits_spec g.cells _ _ _ hfit.1 hfit.2.1 hfit.2.2).2.2 _ _ _ (one _ _ hhb.1 hqb.1 (s1.trans htest)) (one _ _ hhb.2.1 hqb.2.1 (s2.trans htest)) (one _ _ hhb.2.2 hqb.2.2 (s3.trans htest))

/-! ### The search -/

/-- C108, for catalogues in the box with radii that are zero or not tiny, and searches that do not reach around the box: the search over the grid neither panics nor misses a halo nor lists one twice:
`Subhalos(i)` is the ascending list of the later halos that pass the program's own test, `Hosts` is the converse, and the counts are their lengths. -/
theorem C108_search_partial (cells : ℕ) (W : ℚ) (ps : List (Point ℚ)) (rs : List ℚ) (mult : ℚ) (hcat : Catalogue cells W ps rs mult) :
    ∃ g s, insertFrom (newGrid cells W ps.length) 0 ps = some g ∧ findSubhalos g ps rs mult = some (s, rs.map fun r => r64 (r64 (r * mult) / mult)) ∧
      ∀ i, i < ps.length →
        subhalos s i = some (indices ps.length (Listed W mult ps rs i)) ∧ hosts s i = some (indices ps.length fun k => Listed W mult ps rs k i) ∧
        subhaloCount s i = some ((indices ps.length (Listed W mult ps rs i)).length : Int) ∧
        hostCount s i = some (indices ps.length fun k => Listed W mult ps rs k i).length ∧
        intersectCount s i = some (((indices ps.length fun k => Listed W mult ps rs k i).length : Int) + (indices ps.length (Listed W mult ps rs i)).length) := by
  refine find_lists cells W ps rs mult hcat.lengths hcat.points.1 (fun p hp => inside_housed hcat.grid.1 hcat.width.1 hcat.width.2 (hcat.points.2 p hp)) (Listed W mult ps rs) ?_ ?_
  · intro g hgc hgw hcw i h r m hh hr hm
    obtain ⟨a, b⟩ := catalogue_reach hcat g hgc hgw hcw i h r m hh hr hm
    refine ⟨a, fun k q hik hq => ?_⟩
    rw [List.getElem?_map, Option.map_eq_some_iff] at hr
    obtain ⟨r0, hr0, rfl⟩ := hr
    constructor
    · rintro ⟨_, h2⟩
      exact ⟨hik, h, q, r0, hh, hq, hr0, h2⟩
    · rintro ⟨_, p', q', r', h1, h2, h3, h4⟩
      rw [hh, Option.some.injEq] at h1
      rw [hq, Option.some.injEq] at h2
      rw [hr0, Option.some.injEq] at h3
      subst h1 h2 h3
      exact ⟨b k q hq h4, h4⟩
  · rintro i k ⟨h1, _, q, _, _, h2, _⟩
    refine ⟨h1, ?_⟩
    by_contra hcon
    rw [List.getElem?_eq_none (by omega)] at h2; simp at h2

/-! ### The test -/

/-- the displacement of the test is that of some image, and not longer than that of any image, up to rounding -/
theorem image_near {W x y : ℚ} (hWf : Float64 W) (hW : 0 < W) (hx0 : 0 ≤ x) (hxW : x < W) (hy0 : 0 ≤ y) (hyW : y < W) :
    (∃ k : ℤ, |nearImage (r64 (x - y)) W - (x - y + k * W)| ≤ W / 2 ^ 52) ∧ ∀ k : ℤ, |nearImage (r64 (x - y)) W| ≤ |x - y + k * W| + W / 2 ^ 51 := by
  have near := r64_near (t := x - y) (B := W) (abs_le.mpr ⟨by linarith, by linarith⟩)
  have w53 : W / 2 ^ 53 = W * (1 / 2 ^ 53) := by ring
  have w52 : W / 2 ^ 52 = W * (2 / 2 ^ 53) := by ring
  have w51 : W / 2 ^ 51 = W * (4 / 2 ^ 53) := by ring
  rw [w53] at near
  have hall : ∀ (d : ℚ) (k0 : ℤ), |d - (x - y + k0 * W)| ≤ W * (2 / 2 ^ 53) → |x - y + k0 * W| ≤ W / 2 + W * (1 / 2 ^ 53) → ∀ k : ℤ, |d| ≤ |x - y + k * W| + W * (4 / 2 ^ 53) := by
    intro d k0 h1 h2 k
    have h3 : |d| ≤ |x - y + k0 * W| + W * (2 / 2 ^ 53) := by
      have := abs_sub_abs_le_abs_sub d (x - y + k0 * W)
      linarith
    by_cases hk : k = k0
    · subst hk
      norm_num at h3 ⊢
      linarith
    · have hdiff : (1 : ℚ) ≤ |((k - k0 : ℤ) : ℚ)| := by
        rw [← Int.cast_abs]
        exact_mod_cast Int.one_le_abs (by omega)
      have h4 : W ≤ |((k - k0 : ℤ) : ℚ) * W| := by
        rw [abs_mul, abs_of_pos hW]
        nlinarith
      have h5 : |((k - k0 : ℤ) : ℚ) * W| ≤ |x - y + k * W| + |x - y + k0 * W| := by
        have : ((k - k0 : ℤ) : ℚ) * W = (x - y + k * W) - (x - y + k0 * W) := by push_cast; ring
        rw [this]; exact abs_sub _ _
      norm_num at h2 h3 ⊢
      linarith
  rw [w51]
  rcases image_cases hWf hW hx0 hxW hy0 hyW with ⟨h, h4, h5⟩ | ⟨h1, h2, h3⟩ | ⟨h1, h2, h3⟩
  · rw [h, w52]
    have e : |r64 (x - y) - (x - y)| ≤ W * (2 / 2 ^ 53) := by
      rw [abs_le]
      norm_num at near ⊢
      constructor <;> linarith
    refine ⟨⟨0, by push_cast; rw [zero_mul, add_zero]; exact e⟩, hall _ 0 (by push_cast; rw [zero_mul, add_zero]; exact e) ?_⟩
    rw [abs_le]
    push_cast
    norm_num at near ⊢
    constructor <;> linarith
  · rw [w52] at h3 ⊢
    refine ⟨⟨-1, by push_cast; rw [show x - y + -1 * W = x - y - W by ring]; exact h3⟩, hall _ (-1) (by push_cast; rw [show x - y + -1 * W = x - y - W by ring]; exact h3) ?_⟩
    rw [abs_le]
    push_cast
    norm_num at near ⊢
    constructor <;> linarith
  · rw [w52] at h3 ⊢
    refine ⟨⟨1, by push_cast; rw [one_mul]; exact h3⟩, hall _ 1 (by push_cast; rw [one_mul]; exact h3) ?_⟩
    rw [abs_le]
    push_cast
    norm_num at near ⊢
    constructor <;> linarith

/-- three rounded squares and two rounded sums -/
theorem sum_bounds (a b d : ℚ) : (a * a + b * b + d * d) * (1 - 1 / 2 ^ 51) ≤ r64 (r64 (r64 (a * a) + r64 (b * b)) + r64 (d * d)) ∧
    r64 (r64 (r64 (a * a) + r64 (b * b)) + r64 (d * d)) ≤ (a * a + b * b + d * d) * (1 + 1 / 2 ^ 51) := by
  have pa := mul_self_nonneg a
  have pb := mul_self_nonneg b
  have pd := mul_self_nonneg d
  generalize a * a = A at *
  generalize b * b = B at *
  generalize d * d = D at *
  have ha := r64_bounds pa
  have hb := r64_bounds pb
  have hd := r64_bounds pd
  have qa := r64_nonneg pa
  have qb := r64_nonneg pb
  have qd := r64_nonneg pd
  have h1 := r64_bounds (add_nonneg qa qb)
  have q1 := r64_nonneg (add_nonneg qa qb)
  have h2 := r64_bounds (add_nonneg q1 qd)
  norm_num at ha hb hd h1 h2 ⊢
  constructor <;> linarith

/-- C108: the test of the program is the comparison of the shortest distance over the periodic images with the radius, up to 2^-48 box widths. -/
theorem C108_accuracy (W : ℚ) (hWf : Float64 W) (hW : 0 < W) (cells : ℕ) (p q : Point ℚ) (hp : InsideBox cells W p) (hq : InsideBox cells W q) (r : ℚ) (h0 : 0 ≤ r) (hr : r ≤ W) :
    (dist2 p q W ≤ r64 (r * r) → Within W (r + W / 2 ^ 48) p q) ∧ ∀ s, 0 ≤ s → s + W / 2 ^ 48 ≤ r → Within W s p q → dist2 p q W ≤ r64 (r * r) := by
  obtain ⟨⟨i, hi⟩, mi⟩ := image_near hWf hW hp.1.2.1 hp.1.2.2.1 hq.1.2.1 hq.1.2.2.1
  obtain ⟨⟨j, hj⟩, mj⟩ := image_near hWf hW hp.2.1.2.1 hp.2.1.2.2.1 hq.2.1.2.1 hq.2.1.2.2.1
  obtain ⟨⟨k, hk⟩, mk⟩ := image_near hWf hW hp.2.2.2.1 hp.2.2.2.2.1 hq.2.2.2.1 hq.2.2.2.2.1
  obtain ⟨b1, b2⟩ := sum_bounds (nearImage (r64 (p.x - q.x)) W) (nearImage (r64 (p.y - q.y)) W) (nearImage (r64 (p.z - q.z)) W)
  have hD : dist2 p q W = r64 (r64 (r64 (nearImage (r64 (p.x - q.x)) W * nearImage (r64 (p.x - q.x)) W) + r64 (nearImage (r64 (p.y - q.y)) W * nearImage (r64 (p.y - q.y)) W)) +
      r64 (nearImage (r64 (p.z - q.z)) W * nearImage (r64 (p.z - q.z)) W)) := rfl
  rw [← hD] at b1 b2
  generalize nearImage (r64 (p.x - q.x)) W = a at *
  generalize nearImage (r64 (p.y - q.y)) W = b at *
  generalize nearImage (r64 (p.z - q.z)) W = d at *
  obtain ⟨r1, r2⟩ := r64_bounds (mul_self_nonneg r)
  have w48 : W / 2 ^ 48 = W * (1 / 2 ^ 48) := by ring
  have w51 : W / 2 ^ 51 = W * (1 / 2 ^ 51) := by ring
  have w52 : W / 2 ^ 52 = W * (1 / 2 ^ 52) := by ring
  rw [w52] at hi hj hk
  simp only [w51] at mi mj mk
  rw [w48]
  -- lengths of triples whose entries differ by at most `e`
  have tri : ∀ a b d a' b' d' R e : ℚ, 0 ≤ R → 0 ≤ e → a * a + b * b + d * d ≤ R * R → |a'| ≤ |a| + e → |b'| ≤ |b| + e → |d'| ≤ |d| + e → a' * a' + b' * b' + d' * d' ≤ (R + 3 * e) * (R + 3 * e) := by
    intro a b d a' b' d' R e hR he h ha hb hd
    have sa : |a| ≤ R := abs_le_of_sq_le_sq (by nlinarith [mul_self_nonneg b, mul_self_nonneg d]) hR
    have sb : |b| ≤ R := abs_le_of_sq_le_sq (by nlinarith [mul_self_nonneg a, mul_self_nonneg d]) hR
    have sd : |d| ≤ R := abs_le_of_sq_le_sq (by nlinarith [mul_self_nonneg b, mul_self_nonneg a]) hR
    have one : ∀ u v : ℚ, |v| ≤ R → |u| ≤ |v| + e → u * u ≤ v * v + 2 * e * R + e * e := by
      intro u v hv hu
      have h1 : |u| * |u| ≤ (|v| + e) * (|v| + e) := mul_self_le_mul_self (abs_nonneg u) hu
      rw [abs_mul_abs_self] at h1
      have h2 : (|v| + e) * (|v| + e) = |v| * |v| + 2 * e * |v| + e * e := by ring
      rw [h2, abs_mul_abs_self] at h1
      nlinarith
    have o1 := one a' a sa ha
    have o2 := one b' b sb hb
    have o3 := one d' d sd hd
    nlinarith [mul_self_nonneg e]
  have sub : ∀ u t e : ℚ, |u - t| ≤ e → |t| ≤ |u| + e := by
    intro u t e h
    have := abs_sub_abs_le_abs_sub t u
    rw [abs_sub_comm t u] at this
    linarith
  constructor
  · intro h
    have hS : a * a + b * b + d * d ≤ (r * (1 + 1 / 2 ^ 50)) * (r * (1 + 1 / 2 ^ 50)) := by
      have h1 : (a * a + b * b + d * d) * (1 - 1 / 2 ^ 51) ≤ r * r * (1 + 1 / 2 ^ 53) := by linarith
      have hrr := mul_self_nonneg r
      have : (r * (1 + 1 / 2 ^ 50)) * (r * (1 + 1 / 2 ^ 50)) = r * r * ((1 + 1 / 2 ^ 50) * (1 + 1 / 2 ^ 50)) := by ring
      rw [this]
      norm_num at h1 ⊢
      linarith
    have ht := tri a b d _ _ _ (r * (1 + 1 / 2 ^ 50)) (W * (1 / 2 ^ 52)) (by positivity) (by positivity) hS (sub _ _ _ hi) (sub _ _ _ hj) (sub _ _ _ hk)
    refine ⟨i, j, k, ?_⟩
    have hle : r * (1 + 1 / 2 ^ 50) + 3 * (W * (1 / 2 ^ 52)) ≤ r + W * (1 / 2 ^ 48) := by norm_num; linarith
    have h2 := mul_self_le_mul_self (by positivity) hle
    have e : ∀ u : ℚ, u ^ 2 = u * u := fun u => sq u
    rw [e, e, e, e]
    exact ht.trans h2
  · rintro s hs0 hs ⟨i', j', k', hw⟩
    have e : ∀ u : ℚ, u ^ 2 = u * u := fun u => sq u
    rw [e, e, e, e] at hw
    have ht := tri _ _ _ a b d s (W * (1 / 2 ^ 51)) hs0 (by positivity) hw (mi i') (mj j') (mk k')
    have hle : s + 3 * (W * (1 / 2 ^ 51)) ≤ r * (1 - 1 / 2 ^ 50) := by norm_num at hs ⊢; linarith
    have h2 := mul_self_le_mul_self (by positivity) hle
    have h3 : (r * (1 - 1 / 2 ^ 50)) * (r * (1 - 1 / 2 ^ 50)) = r * r * ((1 - 1 / 2 ^ 50) * (1 - 1 / 2 ^ 50)) := by ring
    rw [h3] at h2
    have hrr := mul_self_nonneg r
    norm_num at b2 r1 h2 ht
    linarith

/-- C108 in terms of distances: under the same hypotheses the list of halo `i` is ascending, contains every later halo that is within its scaled radius by more than 2^-48 box widths, and none that is
outside by more than that. -/
theorem C108_distances_partial (cells : ℕ) (W : ℚ) (ps : List (Point ℚ)) (rs : List ℚ) (mult : ℚ) (hcat : Catalogue cells W ps rs mult) :
    ∃ g s rs', insertFrom (newGrid cells W ps.length) 0 ps = some g ∧ findSubhalos g ps rs mult = some (s, rs') ∧
      ∀ (i : ℕ) (p : Point ℚ) (r : ℚ), ps[i]? = some p → rs[i]? = some r → ∃ l : List Int, subhalos s i = some l ∧ l.Pairwise (· < ·) ∧
        (∀ (j : ℕ) (q : Point ℚ) (t : ℚ), i < j → ps[j]? = some q → 0 ≤ t → t + W / 2 ^ 48 ≤ r64 (r * mult) → Within W t p q → (j : Int) ∈ l) ∧
        ∀ z ∈ l, ∃ (j : ℕ) (q : Point ℚ), z = j ∧ i < j ∧ ps[j]? = some q ∧ Within W (r64 (r * mult) + W / 2 ^ 48) p q := by
  classical
  obtain ⟨g, s, h1, h2, h3⟩ := C108_search_partial cells W ps rs mult hcat
  refine ⟨g, s, _, h1, h2, fun i p r hp hr => ?_⟩
  have hi : i < ps.length := by
    by_contra hcon
    rw [List.getElem?_eq_none (by omega)] at hp; simp at hp
  have hrm := List.mem_of_getElem? hr
  have hW := hcat.width.2
  have hcq : (0 : ℚ) < cells := by exact_mod_cast hcat.grid.1
  have hwp : 0 < W / (cells : ℚ) := by positivity
  have r0 : 0 ≤ r64 (r * mult) := by
    rcases hcat.radii r hrm with h | h
    · rw [h]
    · exact le_trans (by positivity) h
  have rW : r64 (r * mult) ≤ W := by have := hcat.small r hrm r hrm; linarith
  have acc : ∀ q, q ∈ ps → _ := fun q hq => C108_accuracy W hcat.width.1 hW cells p q (hcat.points.2 p (List.mem_of_getElem? hp)) (hcat.points.2 q hq) _ r0 rW
  have mem : ∀ j : Int, j ∈ indices ps.length (Listed W mult ps rs i) ↔ ∃ k : ℕ, j = k ∧ k < ps.length ∧ Listed W mult ps rs i k := by
    intro j
    unfold indices
    simp only [List.mem_map, List.mem_filter, List.mem_range, decide_eq_true_eq]
    constructor
    · rintro ⟨k, ⟨a, b⟩, rfl⟩; exact ⟨k, rfl, a, b⟩
    · rintro ⟨k, rfl, a, b⟩; exact ⟨k, ⟨a, b⟩, rfl⟩
  refine ⟨_, (h3 i hi).1, ?_, ?_, ?_⟩
  · unfold indices
    rw [List.pairwise_map]
    exact (List.Pairwise.filter _ List.pairwise_lt_range).imp (by intro a b h; omega)
  · intro j q t hij hq ht0 ht hw
    refine (mem _).mpr ⟨j, rfl, ?_, hij, p, q, r, hp, hq, hr, (acc q (List.mem_of_getElem? hq)).2 t ht0 ht hw⟩
    by_contra hcon
    rw [List.getElem?_eq_none (by omega)] at hq; simp at hq
  · intro z hz
    obtain ⟨k, rfl, _, hlt, p', q, r', a, b, c, d⟩ := (mem _).mp hz
    rw [hp, Option.some.injEq] at a
    rw [hr, Option.some.injEq] at c
    subst a c
    exact ⟨k, q, rfl, hlt, b, (acc q (List.mem_of_getElem? b)).1 d⟩

theorem small_float (m : ℤ) (h : |m| < 2 ^ 53) (e : ℤ) : Float64 (m * 2 ^ e) := ⟨m, e, h, rfl⟩

/-- two halos in a box of width 100 with the grid of the id mode -/
def exPoints : List (Point ℚ) := [⟨1, 1, 99⟩, ⟨3 / 2, 1, 99⟩]

theorem float_half (m : ℤ) (h : |m| < 2 ^ 53) : Float64 ((m : ℚ) / 2) := ⟨m, -1, h, by rw [zpow_neg_one]; rfl⟩
theorem float_int (m : ℤ) (h : |m| < 2 ^ 53) : Float64 (m : ℚ) := ⟨m, 0, h, by rw [zpow_zero, mul_one]⟩

/-- non-vacuity: all hypotheses hold of a catalogue of two halos, and the second is a subhalo of the first -/
theorem exCatalogue : Catalogue 150 100 exPoints [1, 1 / 2] 1 := by
  have f1 : r64 ((1 : ℚ) * 1) = 1 := by rw [one_mul]; exact r64_float (by simpa using float_int 1 (by norm_num))
  have f2 : r64 ((1 / 2 : ℚ) * 1) = 1 / 2 := by rw [mul_one]; exact r64_float (by simpa using float_half 1 (by norm_num))
  refine ⟨⟨by norm_num, by norm_num⟩, ⟨by simpa using float_int 100 (by norm_num), by norm_num⟩, rfl, ⟨by decide +kernel, ?_⟩, ?_, ?_⟩
  · have i1 : Inside 150 100 1 := ⟨by simpa using float_int 1 (by norm_num), by norm_num, by norm_num, Or.inl (by norm_num)⟩
    have i2 : Inside 150 100 99 := ⟨by simpa using float_int 99 (by norm_num), by norm_num, by norm_num, Or.inl (by norm_num)⟩
    have i3 : Inside 150 100 (3 / 2) := ⟨by simpa using float_half 3 (by norm_num), by norm_num, by norm_num, Or.inl (by norm_num)⟩
    intro p hp
    simp only [exPoints, List.mem_cons, List.not_mem_nil, or_false] at hp
    rcases hp with rfl | rfl
    · exact ⟨i1, i1, i2⟩
    · exact ⟨i3, i1, i2⟩
  · intro r hr
    simp only [List.mem_cons, List.not_mem_nil, or_false] at hr
    rcases hr with rfl | rfl
    · rw [f1]; norm_num
    · rw [f2]; norm_num
  · intro r hr r' hr'
    simp only [List.mem_cons, List.not_mem_nil, or_false] at hr hr'
    rcases hr with rfl | rfl <;> rcases hr' with rfl | rfl <;> simp only [f1, f2] <;> norm_num

example : ∃ g s rs', insertFrom (newGrid 150 100 2) 0 exPoints = some g ∧ findSubhalos g exPoints [1, 1 / 2] 1 = some (s, rs') ∧ ∃ l, subhalos s 0 = some l ∧ (1 : Int) ∈ l := by
  obtain ⟨g, s, rs', h1, h2, h3⟩ := C108_distances_partial 150 100 exPoints [1, 1 / 2] 1 exCatalogue
  obtain ⟨l, a, _, b, _⟩ := h3 0 ⟨1, 1, 99⟩ 1 rfl rfl
  refine ⟨g, s, rs', h1, h2, l, a, b 1 ⟨3 / 2, 1, 99⟩ (1 / 2) (by norm_num) rfl (by norm_num) ?_ ⟨0, 0, 0, by norm_num⟩⟩
  have f1 : r64 ((1 : ℚ) * 1) = 1 := by rw [one_mul]; exact r64_float (by simpa using float_int 1 (by norm_num))
  rw [f1]; norm_num

/-! ### The radii of the caller -/

theorem radius_back (r mult : ℚ) (hm : mult ≠ 0) : |r64 (r64 (r * mult) / mult) - r| ≤ |r| / 2 ^ 51 ∧ ∀ k : ℤ, mult = 2 ^ k → Float64 r → r64 (r64 (r * mult) / mult) = r := by
  constructor
  · have h1 := r64_abs (r * mult)
    have h2 := r64_abs (r64 (r * mult) / mult)
    have h3 : |r64 (r * mult) / mult - r| ≤ |r| / 2 ^ 53 := by
      have : r64 (r * mult) / mult - r = (r64 (r * mult) - r * mult) / mult := by field_simp
      rw [this, abs_div, div_le_iff₀ (abs_pos.mpr hm)]
      rw [abs_mul] at h1
      refine h1.trans (le_of_eq ?_)
      ring
    have h4 := abs_sub_abs_le_abs_sub (r64 (r * mult) / mult) r
    have h5 := abs_sub_le (r64 (r64 (r * mult) / mult)) (r64 (r * mult) / mult) r
    have w53 : |r| / 2 ^ 53 = |r| * (1 / 2 ^ 53) := by ring
    have w51 : |r| / 2 ^ 51 = |r| * (4 / 2 ^ 53) := by ring
    have v53 : |r64 (r * mult) / mult| / 2 ^ 53 = |r64 (r * mult) / mult| * (1 / 2 ^ 53) := by ring
    have := abs_nonneg r
    rw [w53] at h3
    rw [v53] at h2
    rw [w51]
    generalize |r64 (r64 (r * mult) / mult) - r64 (r * mult) / mult| = A at *
    generalize |r64 (r * mult) / mult - r| = B at *
    generalize |r64 (r * mult) / mult| = D at *
    generalize |r64 (r64 (r * mult) / mult) - r| = E at *
    norm_num at h2 h3 ⊢
    linarith
  · rintro k rfl hr
    rw [r64_float (rep_two_pow hr k), mul_div_assoc, div_self hm, mul_one, r64_float hr]

/-- C108: after every search (of any grid and catalogue) with a multiplier other than 0 that returns, the caller's radii are within one part in 2^51 of what they were; they are the same when the
multiplier is a power of two. -/
theorem C108_radii (g : Grid ℚ) (ps : List (Point ℚ)) (rs : List ℚ) (mult : ℚ) (hm : mult ≠ 0) (s : Lists) (rs' : List ℚ) (h : findSubhalos g ps rs mult = some (s, rs')) :
    rs'.length = rs.length ∧ (∀ (i : ℕ) (r r' : ℚ), rs[i]? = some r → rs'[i]? = some r' → |r' - r| ≤ |r| / 2 ^ 51) ∧ ∀ k : ℤ, mult = 2 ^ k → (∀ r ∈ rs, Float64 r) → rs' = rs := by
  unfold findSubhalos at h
  rw [Option.bind_eq_some_iff] at h
  obtain ⟨cap, _, h⟩ := h
  split_ifs at h
  dsimp only at h
  rw [Option.bind_eq_some_iff] at h
  obtain ⟨s0, _, h⟩ := h
  rw [Option.map_eq_some_iff] at h
  obtain ⟨s1, _, h⟩ := h
  rw [Prod.mk.injEq] at h
  obtain ⟨_, rfl⟩ := h
  refine ⟨by simp, ?_, ?_⟩
  · intro i r r' hr hr'
    rw [List.getElem?_map, List.getElem?_map, hr] at hr'
    simp only [Option.map_some, Option.some.injEq] at hr'
    subst hr'
    exact (radius_back r mult hm).1
  · intro k hk hf
    rw [List.map_map]
    conv_rhs => rw [← List.map_id rs]
    apply List.map_congr_left
    intro r hr
    exact (radius_back r mult hm).2 k hk (hf r hr)

/-- non-vacuity: the run of the example returns -/
example : ∃ g s, findSubhalos g exPoints [1, 1 / 2] 1 = some (s, [1, 1 / 2]) := by
  obtain ⟨g, s, _, h, _⟩ := C108_search_partial 150 100 exPoints [1, 1 / 2] 1 exCatalogue
  have := (C108_radii g exPoints [1, 1 / 2] 1 (by norm_num) s _ h).2.2 0 (by norm_num) (by
    intro r hr
    simp only [List.mem_cons, List.not_mem_nil, or_false] at hr
    rcases hr with rfl | rfl
    · simpa using float_int 1 (by norm_num)
    · simpa using float_half 1 (by norm_num))
  rw [this] at h
  exact ⟨g, s, h⟩

theorem radius_up : r64 (r64 ((29 / 8 : ℚ) * (3602879701896397 / 2 ^ 52)) / (3602879701896397 / 2 ^ 52)) = 29 / 8 + 1 / 2 ^ 51 := by
  have h1 : r64 ((29 / 8 : ℚ) * (3602879701896397 / 2 ^ 52)) = 1632554864921805 / 562949953421312 := by
    unfold r64
    rw [rn_eq 1 6530219459687220 (by norm_num [abs_of_pos]) (by norm_num [abs_of_pos]) (by rw [abs_lt]; norm_num)]
    norm_num
  rw [h1]
  unfold r64
  rw [rn_eq 1 8162774324609025 (by norm_num [abs_of_pos]) (by norm_num [abs_of_pos]) (by rw [abs_lt]; norm_num)]
  norm_num

/-- C108 is false of the caller's radii: after a search with the multiplier 0.8 that the documentation of the id mode gives as the default, a radius of 3.625 is the next larger number. -/
theorem C108_radii_false : ∃ g s, insertFrom (newGrid 150 100 1) 0 [⟨1, 1, 1⟩] = some g ∧ findSubhalos g [⟨1, 1, 1⟩] [29 / 8] (3602879701896397 / 2 ^ 52) = some (s, [29 / 8 + 1 / 2 ^ 51]) := by
  obtain ⟨b1, b2⟩ := r64_bounds (by norm_num : (0 : ℚ) ≤ 29 / 8 * (3602879701896397 / 2 ^ 52))
  obtain ⟨g, s, h1, h2, _⟩ := C108_search_partial 150 100 [⟨1, 1, 1⟩] [29 / 8] (3602879701896397 / 2 ^ 52) ⟨⟨by norm_num, by norm_num⟩, ⟨by simpa using float_int 100 (by norm_num), by norm_num⟩, rfl,
    ⟨by simp, by
      intro p hp
      have i1 : Inside 150 100 1 := ⟨by simpa using float_int 1 (by norm_num), by norm_num, by norm_num, Or.inl (by norm_num)⟩
      rw [List.mem_singleton] at hp
      subst hp
      exact ⟨i1, i1, i1⟩⟩, by
      intro r hr
      rw [List.mem_singleton] at hr
      subst hr
      right
      norm_num at b1 ⊢
      linarith, by
      intro r hr r' hr'
      rw [List.mem_singleton] at hr hr'
      subst hr hr'
      norm_num at b2 ⊢
      linarith⟩
  refine ⟨g, s, h1, ?_⟩
  rw [h2]
  simp only [List.map_cons, List.map_nil]
  rw [radius_up]

/-! ### Tiny radii -/

theorem width310 : r64 (310 / ((150 : ℕ) : ℚ)) = 4653719614949513 / 2 ^ 51 := by
  unfold r64
  rw [rn_eq 1 4653719614949513 (by norm_num [abs_of_pos]) (by norm_num [abs_of_pos]) (by rw [abs_lt]; norm_num)]
  norm_num

theorem top310 : r64 (310 / (4653719614949513 / 2 ^ 51)) = 5277655813324799 / 2 ^ 45 := by
  unfold r64
  rw [rn_eq 7 5277655813324799 (by norm_num [abs_of_pos]) (by norm_num [abs_of_pos]) (by rw [abs_lt]; norm_num)]
  norm_num

theorem round310 (t : ℚ) (h1 : 310 - 1 / 2 ^ 50 ≤ t) (h2 : t ≤ 310 + 1 / 2 ^ 50) : r64 t = 310 := by
  unfold r64
  have hp : 0 < t := by norm_num at h1; linarith
  rw [rn_eq 8 (310 * 2 ^ 44) (by rw [abs_of_pos hp]; norm_num at h1 ⊢; linarith) (by rw [abs_of_pos hp]; norm_num at h2 ⊢; linarith) (by rw [abs_lt]; norm_num at h1 h2 ⊢; constructor <;> linarith)]
  norm_num

theorem bounds310 : sphereBounds 0 (1 / 2 ^ 59) (r64 (310 / ((150 : ℕ) : ℚ))) 310 = ⟨149, 149 - 149 + 1⟩ := by
  have f : r64 (1 / 2 ^ 59 : ℚ) = 1 / 2 ^ 59 := r64_float ⟨1, -59, by norm_num, by norm_num⟩
  have fn : r64 (0 - 1 / 2 ^ 59 : ℚ) = -(1 / 2 ^ 59) := by rw [zero_sub]; exact r64_float ⟨-1, -59, by norm_num, by norm_num⟩
  unfold sphereBounds
  rw [fn, zero_add, f, if_pos (by norm_num), if_pos (by norm_num), round310 _ (by norm_num) (by norm_num), round310 _ (by norm_num) (by norm_num), width310]
  dsimp only
  rw [top310, toInt_nonneg (by norm_num)]
  have : ⌊(5277655813324799 / 2 ^ 45 : ℚ)⌋ = 149 := by rw [Int.floor_eq_iff]; norm_num
  rw [this]

/-- C108 is false for tiny radii: in a box of width 310 with the grid of the id mode, a halo at the origin whose radius is 2^-60 does not list a halo at the same place, although it passes the test: the
only cell that is read is the last one. -/
theorem C108_tiny_false : ∃ g s rs', insertFrom (newGrid 150 310 2) 0 [⟨0, 0, 0⟩, ⟨0, 0, 0⟩] = some g ∧
    findSubhalos g [⟨0, 0, 0⟩, ⟨0, 0, 0⟩] [1 / 2 ^ 60, 1 / 2 ^ 60] 1 = some (s, rs') ∧ subhalos s 0 = some [] ∧
    Listed 310 1 [⟨0, 0, 0⟩, ⟨0, 0, 0⟩] [1 / 2 ^ 60, 1 / 2 ^ 60] 0 1 ∧ Within (310 : ℚ) 0 ⟨0, 0, 0⟩ ⟨0, 0, 0⟩ := by
  have f : r64 ((1 / 2 ^ 60 : ℚ) * 1) = 1 / 2 ^ 60 := by rw [mul_one]; exact r64_float ⟨1, -60, by norm_num, by norm_num⟩
  have z : part 150 310 0 = 0 := by
    have : (cellAt 150 310 0 : ℤ) = 0 := by unfold cellAt; rw [zero_div, r64_zero, Int.floor_zero]
    rw [part_cell (by norm_num) (by norm_num) le_rfl (by norm_num), this]
  have hd : dist2 (⟨0, 0, 0⟩ : Point ℚ) ⟨0, 0, 0⟩ 310 = 0 := by
    have i0 : nearImage (r64 ((0 : ℚ) - 0)) 310 = 0 := by
      have h1 : 0 ≤ r64 ((310 : ℚ) / 2) := r64_nonneg (by norm_num)
      have h2 : r64 (-(310 : ℚ) / 2) ≤ 0 := (r64_neg_iff.mpr (by norm_num)).le
      rw [sub_zero, r64_zero]
      unfold nearImage
      simp only [if_neg (not_lt.mpr h1), if_neg (not_lt.mpr h2)]
    unfold dist2
    simp only [i0, mul_zero, r64_zero, add_zero]
  obtain ⟨g, s, h1, h2, h3⟩ := find_lists 150 310 [⟨0, 0, 0⟩, ⟨0, 0, 0⟩] [1 / 2 ^ 60, 1 / 2 ^ 60] 1 rfl (by decide +kernel) (by
      intro p hp
      simp only [List.mem_cons, List.not_mem_nil, or_false, or_self] at hp
      subst hp
      unfold Housed
      rw [z]; norm_num) (fun _ _ => False) (by
      intro g hgc hgw hcw i h r m hh hr hm
      have hh0 : h = ⟨0, 0, 0⟩ := by
        have := List.mem_of_getElem? hh
        simpa using this
      subst hh0
      have hr' : r = 1 / 2 ^ 60 := by
        have := List.mem_of_getElem? hr
        simp only [List.map_cons, List.map_nil, f, List.mem_cons, List.not_mem_nil, or_false, or_self] at this
        exact this
      have hm' : m = 1 / 2 ^ 60 := by
        have := suffixMax_mem _ _ (List.mem_of_getElem? hm)
        simp only [List.map_cons, List.map_nil, f, List.mem_cons, List.not_mem_nil, or_false, or_self] at this
        exact this
      subst hr' hm'
      have hR : r64 (1 / 2 ^ 60 + 1 / 2 ^ 60 : ℚ) = 1 / 2 ^ 59 := by
        have : (1 / 2 ^ 60 + 1 / 2 ^ 60 : ℚ) = 1 / 2 ^ 59 := by norm_num
        rw [this]
        exact r64_float ⟨1, -59, by norm_num, by norm_num⟩
      have hb : sphereBounds 0 (1 / 2 ^ 59) g.cw g.width = ⟨149, 149 - 149 + 1⟩ := by rw [hcw, hgw]; exact bounds310
      have hfit : Fits ⟨149, 149 - 149 + 1⟩ 150 := fits_of (by norm_num) (by norm_num) (by norm_num)
      rw [hR]
      refine ⟨?_, fun k q _ hq => iff_of_false ?_ id⟩
      · unfold FitsAll
        rw [hb, hgc]
        exact ⟨hfit, hfit, hfit⟩
      · rintro ⟨hc, _⟩
        have hq0 : q = ⟨0, 0, 0⟩ := by
          have := List.mem_of_getElem? hq
          simpa using this
        subst hq0
        have hcell : cellOf g (⟨0, 0, 0⟩ : Point ℚ) = 0 := by
          have : cellOf g (⟨0, 0, 0⟩ : Point ℚ) = part 150 310 0 + part 150 310 0 * (g.cells : Int) + part 150 310 0 * (g.cells : Int) * (g.cells : Int) := by
            unfold cellOf cellIdx part
            rw [hcw, hgw]
          rw [this, z]; simp
        rw [hcell] at hc
        unfold reach at hc
        dsimp only at hc
        rw [hb, hgc] at hc
        revert hc
        decide +kernel) (by intro i k h; exact h.elim)
  refine ⟨g, s, _, h1, h2, ?_, ⟨by norm_num, ⟨0, 0, 0⟩, ⟨0, 0, 0⟩, 1 / 2 ^ 60, rfl, rfl, rfl, ?_⟩, ⟨0, 0, 0, by norm_num⟩⟩
  · have := (h3 0 (by norm_num)).1
    rw [this]
    simp [indices]
  · rw [hd]
    exact r64_nonneg (mul_self_nonneg _)

end Shellfish.Round
