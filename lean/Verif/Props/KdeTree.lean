/-
C76: the tree of kernel density estimates, its anchors and the curve through them.
-/
import Verif.Props.Kde
import Verif.Props.PennaMore

namespace Shellfish.Kde
open Shellfish.Interp (Spline newSpline)
open Shellfish.Los (goInt Halo indices)

/-! ## Splines can be evaluated between their ends -/

theorem locate (xs : List ℝ) (h2 : 2 ≤ xs.length) (x : ℝ) (h0 : xs.getD 0 0 ≤ x) (h1 : x ≤ xs.getD (xs.length - 1) 0) : ∃ i, i + 1 < xs.length ∧ xs.getD i 0 ≤ x ∧ x ≤ xs.getD (i + 1) 0 := by
  by_contra hcon
  have key : ∀ k < xs.length, xs.getD k 0 ≤ x := by
    intro k
    induction k with
    | zero => exact fun _ => h0
    | succ k ih =>
      intro hk
      by_contra hc
      exact hcon ⟨k, hk, ih (by omega), (not_le.1 hc).le⟩
  refine hcon ⟨xs.length - 2, by omega, key _ (by omega), ?_⟩
  rw [show xs.length - 2 + 1 = xs.length - 1 by omega]; exact h1

theorem spline_total (xs ys : List ℝ) (hs : xs.Pairwise (· < ·)) (h3 : 3 ≤ xs.length) (hl : xs.length = ys.length) :
    ∃ sp, newSpline xs ys = some sp ∧ (∀ i < xs.length, sp.eval (xs.getD i 0) = some (ys.getD i 0)) ∧
      ∀ x, xs.getD 0 0 ≤ x → x ≤ xs.getD (xs.length - 1) 0 → ∃ v, sp.eval x = some v := by
  obtain ⟨sp, p, hsp, _, hev, _⟩ := Interp.C42_spline (K := ℝ) true xs ys (by simpa using hs) h3 hl
  obtain ⟨sp', hsp', hk⟩ := Interp.C42_spline_knots (K := ℝ) true xs ys (by simpa using hs) h3 hl
  have : sp' = sp := Option.some.inj (hsp'.symm.trans hsp)
  subst this
  refine ⟨sp', hsp, hk, fun x h0 h1 => ?_⟩
  obtain ⟨i, hi, ha, hb⟩ := locate xs (by omega) x h0 h1
  exact ⟨_, (hev i x hi (by simpa using ⟨ha, hb⟩)).1⟩

/-! ## What the tree is about -/

/-- The points are usable: there are some, their radii are positive, there are as many angles, which are in [0, 2π), and the width is positive. -/
structure Usable (rs phis : List ℝ) (h : ℝ) : Prop where
  some : rs ≠ []
  lengths : phis.length = rs.length
  radius : ∀ r ∈ rs, 0 < r
  angle : ∀ th ∈ phis, 0 ≤ th ∧ th < 2 * Real.pi
  width : 0 < h

/-- The radii of the grid on which maxima are looked for: 0, high/100, ..., 98 high/100, and high. -/
noncomputable def gridR (high : ℝ) (k : Nat) : ℝ := if k = 99 then high else high / 100 * (k : ℝ)

/-- `r` is an interior radius of the grid at which the estimate is larger than at the two neighbours. -/
def GridMax (high : ℝ) (sp : Spline ℝ) (r : ℝ) : Prop :=
  ∃ k a b c, 0 < k ∧ k < 99 ∧ r = gridR high k ∧ sp.eval (gridR high (k - 1)) = some a ∧ sp.eval (gridR high k) = some b ∧ sp.eval (gridR high (k + 1)) = some c ∧ a < b ∧ c < b

/-- The density estimate of the points in bin `i` of the `2^l` bins of level `l`. -/
noncomputable def binKde (rs phis : List ℝ) (h : ℝ) (l i : Nat) : Option (Spline ℝ) := gaussianKDE (inBin rs phis (2 ^ l) i) h 0 (maxRadius rs) 100

/-- `r` is a local maximum of the estimate of bin `i` of level `l`. -/
def BinMax (rs phis : List ℝ) (h : ℝ) (l i : Nat) (r : ℝ) : Prop := ∃ sp, binKde rs phis h l i = some sp ∧ GridMax (maxRadius rs) sp r

/-- The centre of bin `i` of level `l`. -/
noncomputable def centre (l i : Nat) : ℝ := 2 * Real.pi * ((i : ℝ) + 0.5) / ((2 ^ l : Nat) : ℝ)

/-- How a bin is connected to the bin above it.  `max` are the maxima of the bin, `prev` is the connected maximum of the bin above, `ρ` the curve of the level above at the angle of the bin, and
`first` says that the level above is the level 0: the maximum next to `prev` is taken (the smaller one of two) if it is closer than `h`, or in any case if `first`; otherwise the largest
maximum that is closer than `h` to the curve; otherwise none. -/
def Connects (h : ℝ) (first : Prop) (max : ℝ → Prop) (prev : Option ℝ) (ρ : ℝ) (e : Option ℝ) : Prop :=
  (∃ p c, prev = some p ∧ max c ∧ (∀ m, max m → |c - p| ≤ |m - p| ∧ (|c - p| = |m - p| → c ≤ m)) ∧ (first ∨ |c - p| < h) ∧ e = some c) ∨
  ((∀ p c, prev = some p → max c → ¬first ∧ h ≤ |c - p|) ∧
    ((∃ m, max m ∧ |m - ρ| < h ∧ (∀ m', max m' → |m' - ρ| < h → m' ≤ m) ∧ e = some m) ∨ ((∀ m, max m → h ≤ |m - ρ|) ∧ e = none)))

/-! ## The largest radius and the grid -/

theorem maxRadius_spec (rs : List ℝ) (h : rs ≠ []) : maxRadius rs ∈ rs ∧ ∀ r ∈ rs, r ≤ maxRadius rs := by
  have key : ∀ (l : List ℝ) (a : ℝ), (l.foldl (fun high r => if r > high then r else high) a = a ∨ l.foldl (fun high r => if r > high then r else high) a ∈ l) ∧
      a ≤ l.foldl (fun high r => if r > high then r else high) a ∧ ∀ r ∈ l, r ≤ l.foldl (fun high r => if r > high then r else high) a := by
    intro l
    induction l with
    | nil => exact fun a => ⟨Or.inl rfl, le_refl _, fun r hr => by cases hr⟩
    | cons x l ih =>
      intro a
      rw [List.foldl_cons]
      obtain ⟨h1, h2, h3⟩ := ih (if x > a then x else a)
      have hxa : a ≤ (if x > a then x else a) ∧ x ≤ (if x > a then x else a) := by
        split_ifs with hc
        · exact ⟨hc.le, le_refl _⟩
        · exact ⟨le_refl _, not_lt.1 hc⟩
      refine ⟨?_, hxa.1.trans h2, fun r hr => ?_⟩
      · rcases h1 with h1 | h1
        · rw [h1]
          split_ifs
          · exact Or.inr List.mem_cons_self
          · exact Or.inl rfl
        · exact Or.inr (List.mem_cons_of_mem _ h1)
      · rcases List.mem_cons.1 hr with rfl | hr
        · exact hxa.2.trans h2
        · exact h3 r hr
  cases rs with
  | nil => exact absurd rfl h
  | cons r0 rs =>
    obtain ⟨h1, _, h3⟩ := key (r0 :: rs) r0
    refine ⟨?_, h3⟩
    rcases h1 with h1 | h1
    · have e : maxRadius (r0 :: rs) = r0 := h1
      rw [e]; exact List.mem_cons_self
    · exact h1

theorem radii_length (low high : ℝ) : (radii low high).length = 100 := by simp [radii]

theorem radii_get (high : ℝ) (k : Nat) (hk : k < 100) : (radii 0 high).getD k 0 = gridR high k := by
  unfold radii gridR
  rw [List.getD_eq_getElem?_getD, List.getElem?_map, List.getElem?_range hk, Option.map_some, Option.getD_some]
  split_ifs <;> ring

theorem gridR_lt (high : ℝ) (hh : 0 < high) (i j : Nat) (hij : i < j) (hj : j < 100) : gridR high i < gridR high j := by
  unfold gridR
  rw [if_neg (by omega)]
  have hi : (i : ℝ) < j := by exact_mod_cast hij
  split_ifs with hc
  · have : (i : ℝ) < 99 := by exact_mod_cast (show i < 99 by omega)
    nlinarith
  · nlinarith

theorem gridR_range (high : ℝ) (hh : 0 < high) (k : Nat) (hk : k < 100) : 0 ≤ gridR high k ∧ gridR high k ≤ high := by
  unfold gridR
  split_ifs with hc
  · exact ⟨hh.le, le_refl _⟩
  · have h0 : (0 : ℝ) ≤ k := by positivity
    have : (k : ℝ) < 100 := by exact_mod_cast hk
    constructor
    · positivity
    · nlinarith

/-! ## The maxima of one estimate -/

/-- The maxima of an estimate, in order. -/
noncomputable def maxima (high : ℝ) (sp : Spline ℝ) : List ℝ :=
  ((List.range 100).filter fun i => decide (isPeak (fun k => (sp.eval (gridR high k)).getD 0) 100 i)).map (gridR high)

theorem maxima_spec (xs : List ℝ) (h high : ℝ) (hh : 0 < h) (hhigh : 0 < high) :
    ∃ sp, gaussianKDE xs h 0 high 100 = some sp ∧ localSplineMaxes (radii 0 high) sp = some (maxima high sp) ∧ (∀ r, r ∈ maxima high sp ↔ GridMax high sp r) ∧
      (maxima high sp).Pairwise (· < ·) := by
  obtain ⟨h1, _⟩ := kde_sum h 0 high 100 xs (List.replicate 100 0) (by simp)
  obtain ⟨sp, hsp, _, hev⟩ := spline_total (kdeXs 0 high 100) (xs.foldl (kdeAdd h 0 high 100) (List.replicate 100 0)) (kdeXs_sorted 0 high 100 (by omega) hhigh)
    (by rw [kdeXs_length]; omega) (by rw [kdeXs_length, h1])
  have hx0 : (kdeXs 0 high 100).getD 0 0 = 0 := by rw [kdeXs_get _ _ _ (by omega) _ (by omega)]; norm_num
  have hx1 : (kdeXs 0 high 100).getD ((kdeXs 0 high 100).length - 1) 0 = high := by
    rw [kdeXs_length, kdeXs_get _ _ _ (by omega) _ (by omega)]; push_cast; ring
  rw [hx0, hx1] at hev
  have hv : ∀ k < 100, sp.eval (gridR high k) = some ((sp.eval (gridR high k)).getD 0) := by
    intro k hk
    obtain ⟨v, hv⟩ := hev _ (gridR_range high hhigh k hk).1 (gridR_range high hhigh k hk).2
    rw [hv]; rfl
  refine ⟨sp, hsp, ?_, fun r => ?_, ?_⟩
  · rw [C76_maxes (radii 0 high) sp (fun k => (sp.eval (gridR high k)).getD 0) (by rw [radii_length]; omega) (fun i hi => by
      rw [radii_length] at hi; rw [radii_get _ _ hi]; exact hv i hi)]
    rw [radii_length]
    refine congrArg some (List.map_congr_left fun i hi => ?_)
    exact radii_get _ _ (List.mem_range.1 (List.mem_filter.1 hi).1)
  · constructor
    · intro hr
      obtain ⟨k, hk, rfl⟩ := List.mem_map.1 hr
      obtain ⟨hk1, hk2⟩ := List.mem_filter.1 hk
      obtain ⟨p1, p2, p3, p4⟩ := of_decide_eq_true hk2
      exact ⟨k, _, _, _, p1, by omega, rfl, hv _ (by omega), hv _ (by omega), hv _ (by omega), p3, p4⟩
    · rintro ⟨k, a, b, c, h0, h99, rfl, e1, e2, e3, h4, h5⟩
      refine List.mem_map.2 ⟨k, List.mem_filter.2 ⟨List.mem_range.2 (by omega), decide_eq_true ⟨h0, by omega, ?_, ?_⟩⟩, rfl⟩
      · dsimp only; rw [e1, e2]; exact h4
      · dsimp only; rw [e2, e3]; exact h5
  · unfold maxima
    rw [List.pairwise_map]
    refine List.Pairwise.imp_of_mem ?_ (List.pairwise_lt_range.filter _)
    intro i j _ hj hij
    exact gridR_lt high hhigh i j hij (List.mem_range.1 (List.mem_filter.1 hj).1)

/-! ## Connecting one bin -/

theorem nearest_spec (p : ℝ) (maxes : List ℝ) (hs : maxes.Pairwise (· < ·)) :
    (maxes = [] ∧ nearest p maxes = none) ∨ ∃ c ∈ maxes, nearest p maxes = some c ∧ ∀ m ∈ maxes, |c - p| ≤ |m - p| ∧ (|c - p| = |m - p| → c ≤ m) := by
  unfold nearest
  induction maxes using List.reverseRecOn with
  | nil => exact Or.inl ⟨rfl, rfl⟩
  | append_singleton l m ih =>
    right
    obtain ⟨hs1, _, hs2⟩ := List.pairwise_append.1 hs
    rw [List.foldl_append]
    rcases ih hs1 with ⟨rfl, h⟩ | ⟨c, hc, h, hmin⟩
    · exact ⟨m, by simp, rfl, fun m' hm' => by simp at hm'; subst hm'; exact ⟨le_refl _, fun _ => le_refl _⟩⟩
    · -- the state is `some (c, |p - c|)`
      have hst : ∀ (l : List ℝ) (st : Option (ℝ × ℝ)), (∀ b, st = some b → b.2 = |p - b.1|) → ∀ b, l.foldl (fun (best : Option (ℝ × ℝ)) m => match best with
          | none => some (m, |p - m|)
          | some b => if |p - m| < b.2 then some (m, |p - m|) else some b) st = some b → b.2 = |p - b.1| := by
        intro l
        induction l with
        | nil => exact fun st h => h
        | cons x l ih =>
          intro st h
          rw [List.foldl_cons]
          refine ih _ fun b hb => ?_
          cases st with
          | none => simp at hb; rw [← hb]
          | some b0 =>
            dsimp only at hb
            split_ifs at hb with hc
            · rw [← Option.some.inj hb]
            · exact h b hb
      obtain ⟨b, hb, hbc⟩ := Option.map_eq_some_iff.1 h
      have hb2 := hst l none (by simp) b hb
      rw [hb]
      simp only [List.foldl_cons, List.foldl_nil]
      rw [hb2]
      have e1 : b.1 = c := hbc
      rw [e1]
      have cm := hs2 c hc m (by simp)
      by_cases hlt : |p - m| < |p - c|
      · rw [if_pos hlt]
        refine ⟨m, by simp, rfl, fun m' hm' => ?_⟩
        rw [abs_sub_comm p m, abs_sub_comm p c] at hlt
        rcases List.mem_append.1 hm' with hm' | hm'
        · have := (hmin m' hm').1
          exact ⟨by linarith, fun he => by linarith⟩
        · simp at hm'; subst hm'; exact ⟨le_refl _, fun _ => le_refl _⟩
      · rw [if_neg hlt]
        refine ⟨c, by simp [hc], by simp [e1], fun m' hm' => ?_⟩
        rw [abs_sub_comm p m, abs_sub_comm p c] at hlt
        rcases List.mem_append.1 hm' with hm' | hm'
        · exact hmin m' hm'
        · simp at hm'; subst hm'; exact ⟨not_lt.1 hlt, fun _ => cm.le⟩

theorem nearCurve_spec (h ρ : ℝ) (maxes : List ℝ) (hs : maxes.Pairwise (· < ·)) :
    ∃ e, nearCurve h (some ρ) maxes = some e ∧ ((∃ m ∈ maxes, |m - ρ| < h ∧ (∀ m' ∈ maxes, |m' - ρ| < h → m' ≤ m) ∧ e = some m) ∨ ((∀ m ∈ maxes, h ≤ |m - ρ|) ∧ e = none)) := by
  unfold nearCurve
  induction maxes using List.reverseRecOn with
  | nil => exact ⟨none, rfl, Or.inr ⟨by simp, rfl⟩⟩
  | append_singleton l m ih =>
    obtain ⟨hs1, _, hs2⟩ := List.pairwise_append.1 hs
    obtain ⟨e, he, hcase⟩ := ih hs1
    rw [List.foldlM_append, he]
    simp only [Option.bind_eq_bind, Option.bind_some, List.foldlM_cons, List.foldlM_nil]
    by_cases hm : |m - ρ| < h
    · rw [if_pos hm]
      refine ⟨some m, rfl, Or.inl ⟨m, by simp, hm, fun m' hm' _ => ?_, rfl⟩⟩
      rcases List.mem_append.1 hm' with hm' | hm'
      · exact (hs2 m' hm' m (by simp)).le
      · simp at hm'; exact hm'.le
    · rw [if_neg hm]
      refine ⟨e, rfl, ?_⟩
      rcases hcase with ⟨m0, h0, h1, h2, h3⟩ | ⟨h1, h2⟩
      · refine Or.inl ⟨m0, by simp [h0], h1, fun m' hm' hd => ?_, h3⟩
        rcases List.mem_append.1 hm' with hm' | hm'
        · exact h2 m' hm' hd
        · simp at hm'; subst hm'; exact absurd hd hm
      · refine Or.inr ⟨fun m' hm' => ?_, h2⟩
        rcases List.mem_append.1 hm' with hm' | hm'
        · exact h1 m' hm'
        · simp at hm'; subst hm'; exact not_lt.1 hm

theorem connNode_spec (h : ℝ) (split : Nat) (ρ : ℝ) (prev : Option ℝ) (maxes : List ℝ) (hs : maxes.Pairwise (· < ·)) :
    ∃ e, connNode h split (some ρ) prev maxes = some e ∧ Connects h (split = 0) (· ∈ maxes) prev ρ e := by
  obtain ⟨e, he, hcase⟩ := nearCurve_spec h ρ maxes hs
  unfold connNode
  cases prev with
  | none => exact ⟨e, he, Or.inr ⟨fun p c hp => by simp at hp, hcase⟩⟩
  | some p =>
    rcases nearest_spec p maxes hs with ⟨rfl, hn⟩ | ⟨c, hc, hn, hmin⟩
    · dsimp only
      rw [hn]
      exact ⟨e, he, Or.inr ⟨fun p c _ hc => by simp at hc, hcase⟩⟩
    · dsimp only
      rw [hn]
      dsimp only
      by_cases hd : split = 0 ∨ |c - p| < h
      · rw [if_pos hd]
        exact ⟨some c, rfl, Or.inl ⟨p, c, rfl, hc, hmin, hd, rfl⟩⟩
      · rw [if_neg hd]
        refine ⟨e, he, Or.inr ⟨fun p' c' hp' hc' => ?_, hcase⟩⟩
        have : p = p' := Option.some.inj hp'
        subst this
        have := (hmin c' hc').1
        exact ⟨fun h0 => hd (Or.inl h0), by linarith [not_lt.1 fun hlt => hd (Or.inr hlt)]⟩

/-! ## The finest anchors and the curve -/

theorem getFinestMax_append (conn : List (List (Option ℝ))) (c : List (Option ℝ)) (level idx : Nat) (hl : level < conn.length) : getFinestMax (conn ++ [c]) level idx = getFinestMax conn level idx := by
  induction level generalizing idx with
  | zero => unfold getFinestMax; rw [List.getElem?_append_left hl]
  | succ level ih => unfold getFinestMax; rw [List.getElem?_append_left hl, ih _ (by omega)]

theorem getRFunc_append (th : List (List ℝ)) (conn : List (List (Option ℝ))) (c : List (Option ℝ)) (level : Nat) (hl : level < conn.length) :
    getConnMaxes th (conn ++ [c]) level = getConnMaxes th conn level ∧ getRFunc th (conn ++ [c]) level = getRFunc th conn level := by
  have : getConnMaxes th (conn ++ [c]) level = getConnMaxes th conn level := by
    unfold getConnMaxes
    rw [List.getElem?_append_left hl]
    simp only [getFinestMax_append conn c level _ hl]
  refine ⟨this, ?_⟩
  unfold getRFunc
  rw [this]

/-- The entries of the first levels. -/
def entry (conn : List (List (Option ℝ))) (l i : Nat) : Option ℝ := (conn.getD l []).getD i none

/-- The shape of the connected maxima: level `l` has `2^l` entries, and the one of level 0 is there. -/
def Shape (conn : List (List (Option ℝ))) : Prop := 0 < conn.length ∧ (∀ l < conn.length, (conn.getD l []).length = 2 ^ l) ∧ ∃ m, entry conn 0 0 = some m

theorem entry_get {conn : List (List (Option ℝ))} (hs : Shape conn) (l i : Nat) (hl : l < conn.length) (hi : i < 2 ^ l) : (conn[l]?).bind (·[i]?) = some (entry conn l i) := by
  have := hs.2.1 l hl
  unfold entry
  rw [List.getElem?_eq_getElem hl, Option.bind_some]
  rw [List.getD_eq_getElem _ _ hl] at this ⊢
  rw [List.getElem?_eq_getElem (by omega), List.getD_eq_getElem _ _ (by omega)]

theorem half_lt {i l : Nat} (h : i < 2 ^ (l + 1)) : i / 2 < 2 ^ l := by rw [pow_succ] at h; omega

theorem finest_some {conn : List (List (Option ℝ))} (hs : Shape conn) (l i : Nat) (hl : l < conn.length) (hi : i < 2 ^ l) :
    ∃ r, getFinestMax conn l i = some r ∧ (entry conn l i = some r ∨ (0 < l ∧ entry conn l i = none ∧ getFinestMax conn (l - 1) (i / 2) = some r)) := by
  induction l generalizing i with
  | zero =>
    obtain ⟨m, hm⟩ := hs.2.2
    have h0 : i = 0 := by simpa using hi
    subst h0
    unfold getFinestMax
    rw [entry_get hs 0 0 hl hi, hm]
    exact ⟨m, rfl, Or.inl rfl⟩
  | succ l ih =>
    have e : getFinestMax conn (l + 1) i = match (conn[l + 1]?).bind (·[i]?) with
      | none => none
      | some (some r) => some r
      | some none => getFinestMax conn l (i / 2) := by
      rw [getFinestMax]
      cases (conn[l + 1]?).bind (·[i]?) with
      | none => rfl
      | some o => cases o <;> rfl
    rw [e, entry_get hs (l + 1) i hl hi]
    cases he : entry conn (l + 1) i with
    | some r => exact ⟨r, rfl, Or.inl rfl⟩
    | none =>
      obtain ⟨r, hr, _⟩ := ih (i / 2) (by omega) (half_lt hi)
      exact ⟨r, hr, Or.inr ⟨by omega, rfl, by simpa using hr⟩⟩

/-- The anchors of a level. -/
noncomputable def anchor (conn : List (List (Option ℝ))) (l i : Nat) : ℝ := (getFinestMax conn l i).getD 0

theorem anchor_some {conn : List (List (Option ℝ))} (hs : Shape conn) (l i : Nat) (hl : l < conn.length) (hi : i < 2 ^ l) : getFinestMax conn l i = some (anchor conn l i) := by
  obtain ⟨r, hr, _⟩ := finest_some hs l i hl hi
  unfold anchor; rw [hr]; rfl

/-- The anchor of a bin is its connected maximum, or else the anchor of the bin above it. -/
theorem anchor_eq {conn : List (List (Option ℝ))} (hs : Shape conn) (l i : Nat) (hl : l < conn.length) (hi : i < 2 ^ l) :
    anchor conn l i = (entry conn l i).getD (anchor conn (l - 1) (i / 2)) := by
  obtain ⟨r, hr, h | ⟨h0, h1, h2⟩⟩ := finest_some hs l i hl hi
  · unfold anchor; rw [hr, h]; rfl
  · unfold anchor; rw [hr, h1, h2]; rfl

theorem connMaxes_eq {conn : List (List (Option ℝ))} (hs : Shape conn) (th : List (List ℝ)) (l : Nat) (hl : l < conn.length) (hth : th[l]? = some ((List.range (2 ^ l)).map (centre l))) :
    getConnMaxes th conn l = some ((List.range (2 ^ l)).map (anchor conn l), (List.range (2 ^ l)).map (centre l)) := by
  unfold getConnMaxes
  have hlen := hs.2.1 l hl
  rw [List.getD_eq_getElem _ _ hl] at hlen
  rw [hth, List.getElem?_eq_getElem hl]
  simp only [Option.bind_eq_bind, Option.bind_some]
  rw [hlen, Analyze.mapM_some _ (anchor conn l) _ (fun i hi => anchor_some hs l i hl (List.mem_range.1 hi))]
  rfl

theorem centre_range (l i : Nat) (hi : i < 2 ^ l) : 0 < centre l i ∧ centre l i < 2 * Real.pi := by
  have hp : (0 : ℝ) < ((2 ^ l : Nat) : ℝ) := by exact_mod_cast Nat.two_pow_pos l
  have h1 : (i : ℝ) + 1 ≤ ((2 ^ l : Nat) : ℝ) := by exact_mod_cast hi
  have h0 : (0 : ℝ) ≤ i := by positivity
  have := Real.pi_pos
  unfold centre
  constructor
  · positivity
  · rw [div_lt_iff₀ hp]
    have : (i : ℝ) + 0.5 < ((2 ^ l : Nat) : ℝ) := by norm_num; norm_num at h1; linarith
    nlinarith

theorem centre_lt (l i j : Nat) (hij : i < j) : centre l i < centre l j := by
  have hp : (0 : ℝ) < ((2 ^ l : Nat) : ℝ) := by exact_mod_cast Nat.two_pow_pos l
  have h1 : (i : ℝ) < j := by exact_mod_cast hij
  have := Real.pi_pos
  unfold centre
  rw [div_lt_div_iff_of_pos_right hp]
  nlinarith

/-- The extended angles are increasing and begin below 0 and end above 2π; the middle part is the unchanged one. -/
theorem extend_spec (ms ths : List ℝ) (hl : ms.length = ths.length) (hn : 0 < ths.length) (hs : ths.Pairwise (· < ·)) (hr : ∀ t ∈ ths, 0 < t ∧ t < 2 * Real.pi) :
    ((extendAngularRange ms ths).2).Pairwise (· < ·) ∧ 3 ≤ (extendAngularRange ms ths).2.length ∧ (extendAngularRange ms ths).2.length = (extendAngularRange ms ths).1.length ∧
      (extendAngularRange ms ths).2.getD 0 0 < 0 ∧ 2 * Real.pi < (extendAngularRange ms ths).2.getD ((extendAngularRange ms ths).2.length - 1) 0 ∧
      ∃ b, ∀ i < ths.length, b + i < (extendAngularRange ms ths).2.length ∧ (extendAngularRange ms ths).2.getD (b + i) 0 = ths.getD i 0 ∧ (extendAngularRange ms ths).1.getD (b + i) 0 = ms.getD i 0 := by
  unfold extendAngularRange
  dsimp only
  rw [hl]
  generalize hb : (if 5 > ths.length then ths.length else 5) = buf
  have hb1 : 0 < buf ∧ buf ≤ ths.length := by split_ifs at hb <;> omega
  set A := (ths.drop (ths.length - buf)).map (· - 2 * Real.pi) with hA
  set C := (ths.take buf).map (· + 2 * Real.pi) with hC
  have lA : A.length = buf := by simp [hA]; omega
  have lC : C.length = buf := by simp [hC]; omega
  have rA : ∀ t ∈ A, t < 0 := by
    intro t ht
    obtain ⟨u, hu, rfl⟩ := List.mem_map.1 ht
    have := (hr u (List.mem_of_mem_drop hu)).2
    linarith
  have rC : ∀ t ∈ C, 2 * Real.pi < t := by
    intro t ht
    obtain ⟨u, hu, rfl⟩ := List.mem_map.1 ht
    have := (hr u (List.mem_of_mem_take hu)).1
    linarith
  have hpi := Real.pi_pos
  refine ⟨?_, by simp [lA, lC]; omega, by simp [lA, lC, hl]; omega, ?_, ?_, buf, fun i hi => ⟨by simp [lA, lC]; omega, ?_, ?_⟩⟩
  · rw [List.pairwise_append, List.pairwise_append]
    refine ⟨⟨?_, hs, fun a ha b hb => (rA a ha).trans (hr b hb).1⟩, ?_, fun a ha b hb => ?_⟩
    · rw [hA, List.pairwise_map]
      exact (hs.sublist (List.drop_sublist _ _)).imp fun h => by linarith
    · rw [hC, List.pairwise_map]
      exact (hs.sublist (List.take_sublist _ _)).imp fun h => by linarith
    · rcases List.mem_append.1 ha with ha | ha
      · linarith [rA a ha, rC b hb]
      · exact (hr a ha).2.trans (rC b hb)
  · rw [List.getD_eq_getElem _ _ (by simp [lA]; omega), List.getElem_append_left (by simp [lA]; omega), List.getElem_append_left (by omega)]
    exact rA _ (List.getElem_mem _)
  · rw [List.getD_eq_getElem _ _ (by simp [lA, lC]; omega), List.getElem_append_right (by simp [lA, lC]; omega)]
    exact rC _ (List.getElem_mem _)
  · rw [List.getD_eq_getElem _ _ (by simp [lA, lC]; omega), List.getElem_append_left (by simp [lA]; omega), List.getElem_append_right (by omega), List.getD_eq_getElem _ _ hi]
    congr 1; omega
  · have lA' : (ms.drop (ths.length - buf)).length = buf := by simp; omega
    rw [List.getD_eq_getElem _ _ (by simp [lA']; omega), List.getElem_append_left (by simp [lA']; omega), List.getElem_append_right (by omega), List.getD_eq_getElem _ _ (by omega)]
    congr 1; omega

/-- The curve of a level: it can be evaluated at all angles of [0, 2π] and goes through the anchors. -/
theorem curve_spec {conn : List (List (Option ℝ))} (hs : Shape conn) (th : List (List ℝ)) (l : Nat) (hl : l < conn.length) (hth : th[l]? = some ((List.range (2 ^ l)).map (centre l))) :
    ∃ sp, getRFunc th conn l = some sp ∧ (∀ t, 0 ≤ t → t ≤ 2 * Real.pi → ∃ v, sp.eval t = some v) ∧ ∀ i < 2 ^ l, sp.eval (centre l i) = some (anchor conn l i) := by
  have hp := Nat.two_pow_pos l
  obtain ⟨h1, h2, h3, h4, h5, b, h6⟩ := extend_spec ((List.range (2 ^ l)).map (anchor conn l)) ((List.range (2 ^ l)).map (centre l)) (by simp) (by simpa using hp)
    (by rw [List.pairwise_map]; exact List.pairwise_lt_range.imp fun h => centre_lt l _ _ h)
    (by intro t ht; obtain ⟨i, hi, rfl⟩ := List.mem_map.1 ht; exact centre_range l i (List.mem_range.1 hi))
  obtain ⟨sp, hsp, hk, hev⟩ := spline_total _ _ h1 h2 h3
  refine ⟨sp, ?_, fun t h0 ht => hev t (by linarith) (by linarith), fun i hi => ?_⟩
  · unfold getRFunc
    rw [connMaxes_eq hs th l hl hth]
    exact hsp
  · obtain ⟨e1, e2, e3⟩ := h6 i (by simpa using hi)
    have := hk (b + i) e1
    rw [e2, e3] at this
    simpa [hi] using this

end Shellfish.Kde
