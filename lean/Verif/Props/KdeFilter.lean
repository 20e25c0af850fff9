/-
C76: `NewKDETree`, `FilterNearby` and `FilterPoints`.
-/
import Verif.Props.KdeTree

namespace Shellfish.Kde
open Shellfish.Interp (Spline newSpline)
open Shellfish.Los (goInt Halo indices)

/-! ## Loops over levels and bins -/

theorem zipIdx_range {α : Type} (g : Nat → α) (n : Nat) : ((List.range n).map g).zipIdx = (List.range n).map fun i => (g i, i) := by
  apply List.ext_getElem
  · simp
  · intro i h1 h2; simp

theorem mapM_range {α β : Type} (g : Nat → α) (f : α → Option β) (k : Nat → β) (n : Nat) (h : ∀ i < n, f (g i) = some (k i)) : ((List.range n).map g).mapM f = some ((List.range n).map k) := by
  induction n with
  | zero => rfl
  | succ n ih =>
    rw [List.range_succ, List.map_append, List.mapM_append, ih fun i hi => h i (by omega), List.map_append]
    simp only [List.map_cons, List.map_nil, List.mapM_cons, List.mapM_nil, Option.bind_eq_bind, Option.bind_some, Option.pure_def, h n (by omega)]

theorem set_loop {α : Type} (g : Nat → α) (F : α × Nat → Option (Option ℝ)) (val : Nat → Option ℝ) (N k : Nat) (hk : k ≤ N) (h : ∀ i < N, F (g i, i) = some (val i)) :
    ((List.range k).map fun i => (g i, i)).foldlM (fun (curr : List (Option ℝ)) (nm : α × Nat) => (F nm).bind fun v => if nm.2 < curr.length then some (curr.set nm.2 v) else none)
      (List.replicate N none) = some ((List.range k).map val ++ List.replicate (N - k) none) := by
  induction k with
  | zero => simp
  | succ k ih =>
    rw [List.range_succ, List.map_append, List.foldlM_append, ih (by omega)]
    simp only [List.map_cons, List.map_nil, List.foldlM_cons, List.foldlM_nil, Option.bind_eq_bind, Option.bind_some, Option.pure_def]
    rw [h k (by omega), Option.bind_some, if_pos (by simp; omega), Option.bind_some]
    refine congrArg some ?_
    rw [List.set_append_right _ _ (by simp)]
    simp only [List.length_map, List.length_range, Nat.sub_self, List.map_append, List.map_cons, List.map_nil, List.append_assoc, List.singleton_append]
    congr 1
    rw [show N - k = (N - (k + 1)) + 1 by omega, List.replicate_succ, List.set_cons_zero]

theorem connLevel_spec (h : ℝ) (th : List (List ℝ)) (conn : List (List (Option ℝ))) (split : Nat) (M : Nat → List ℝ) (hs : Shape conn) (hlen : conn.length = split + 1)
    (hth : th[split]? = some ((List.range (2 ^ split)).map (centre split))) (hth' : th[split + 1]? = some ((List.range (2 ^ (split + 1))).map (centre (split + 1))))
    (hM : ∀ i < 2 ^ (split + 1), (M i).Pairwise (· < ·)) :
    ∃ c curve, connLevel h th conn split ((List.range (2 ^ (split + 1))).map M) = some c ∧ c.length = 2 ^ (split + 1) ∧ getRFunc th conn split = some curve ∧
      ∀ i < 2 ^ (split + 1), ∃ ρ, curve.eval (centre (split + 1) i) = some ρ ∧ Connects h (split = 0) (· ∈ M i) (entry conn split (i / 2)) ρ (c.getD i none) := by
  obtain ⟨curve, hc, hev, _⟩ := curve_spec hs th split (by omega) hth
  have hρ : ∀ i < 2 ^ (split + 1), ∃ ρ e, curve.eval (centre (split + 1) i) = some ρ ∧ connNode h split (some ρ) (entry conn split (i / 2)) (M i) = some e ∧
      Connects h (split = 0) (· ∈ M i) (entry conn split (i / 2)) ρ e := by
    intro i hi
    have hr := centre_range (split + 1) i hi
    obtain ⟨ρ, hρ⟩ := hev _ hr.1.le hr.2.le
    obtain ⟨e, he, hc⟩ := connNode_spec h split ρ (entry conn split (i / 2)) (M i) (hM i hi)
    exact ⟨ρ, e, hρ, he, hc⟩
  choose! ρ e hρ1 hρ2 hρ3 using hρ
  have hlast : conn.getLast? = some (conn.getD split []) := by
    rw [List.getLast?_eq_getElem?, hlen, Nat.add_sub_cancel, List.getElem?_eq_getElem (by omega), List.getD_eq_getElem _ _ (by omega)]
  have hlen2 := hs.2.1 split (by omega)
  refine ⟨(List.range (2 ^ (split + 1))).map e, curve, ?_, by simp, hc, fun i hi => ⟨ρ i, hρ1 i hi, ?_⟩⟩
  · unfold connLevel
    rw [hlast]
    simp only [Option.bind_eq_bind, Option.bind_some]
    rw [zipIdx_range, hlen2, show 2 * 2 ^ split = 2 ^ (split + 1) by rw [pow_succ]; ring]
    have := set_loop M (fun nm => ((conn.getD split [])[nm.2 / 2]?).bind fun prev => connNode h split ((getRFunc th conn split).bind fun sp => ((th[split + 1]?).bind (·[nm.2]?)).bind sp.eval) prev nm.1)
      e (2 ^ (split + 1)) (2 ^ (split + 1)) (le_refl _) (fun i hi => by
        have hg := entry_get hs split (i / 2) (by omega) (half_lt hi)
        rw [List.getElem?_eq_getElem (by omega), Option.bind_some, ← List.getD_eq_getElem _ [] (by omega)] at hg
        dsimp only
        rw [hg, Option.bind_some, hc, Option.bind_some, hth', Option.bind_some]
        rw [List.getElem?_map, List.getElem?_range hi, Option.map_some, Option.bind_some, hρ1 i hi]
        exact hρ2 i hi)
    rw [Nat.sub_self, List.replicate_zero, List.append_nil] at this
    refine Eq.trans ?_ this
    congr 1
    funext curr nm
    cases (conn.getD split [])[nm.2 / 2]? <;> rfl
  · have : ((List.range (2 ^ (split + 1))).map e).getD i none = e i := by
      rw [List.getD_eq_getElem?_getD, List.getElem?_map, List.getElem?_range hi]; rfl
    rw [this]; exact hρ3 i hi

theorem entry_append (conn : List (List (Option ℝ))) (c : List (Option ℝ)) (l i : Nat) (hl : l < conn.length) : entry (conn ++ [c]) l i = entry conn l i := by
  unfold entry
  rw [List.getD_eq_getElem?_getD (l := conn ++ [c]), List.getElem?_append_left hl, ← List.getD_eq_getElem?_getD]

theorem connect_spec (h : ℝ) (splits : Nat) (th : List (List ℝ)) (M : Nat → Nat → List ℝ) (hth : ∀ l ≤ splits, th[l]? = some ((List.range (2 ^ l)).map (centre l)))
    (hM : ∀ l i, (M l i).Pairwise (· < ·)) (m : ℝ) (ms : List ℝ) (h0 : M 0 0 = m :: ms) :
    ∃ conn, connectMaxes h th ((List.range (splits + 1)).map fun l => (List.range (2 ^ l)).map (M l)) = some conn ∧ conn.length = splits + 1 ∧ Shape conn ∧ entry conn 0 0 = some m ∧
      ∀ l < splits, ∃ curve, getRFunc th conn l = some curve ∧
        ∀ i < 2 ^ (l + 1), ∃ ρ, curve.eval (centre (l + 1) i) = some ρ ∧ Connects h (l = 0) (· ∈ M (l + 1) i) (entry conn l (i / 2)) ρ (entry conn (l + 1) i) := by
  have hstart : connectMaxes h th ((List.range (splits + 1)).map fun l => (List.range (2 ^ l)).map (M l)) =
      ((List.range splits).map fun l => ((List.range (2 ^ (l + 1))).map (M (l + 1)), l)).foldlM
        (fun (conn : List (List (Option ℝ))) (ml : List (List ℝ) × Nat) => (connLevel h th conn ml.2 ml.1).map fun c => conn ++ [c]) [[some m]] := by
    unfold connectMaxes
    rw [List.range_succ_eq_map, List.map_cons, List.tail_cons, List.map_map]
    simp only [List.getElem?_cons_zero, Option.bind_eq_bind, Option.bind_some, pow_zero, List.range_one, List.map_cons, List.map_nil, h0]
    rw [zipIdx_range]
    rfl
  rw [hstart]
  have key : ∀ k ≤ splits, ∃ conn, ((List.range k).map fun l => ((List.range (2 ^ (l + 1))).map (M (l + 1)), l)).foldlM
        (fun (conn : List (List (Option ℝ))) (ml : List (List ℝ) × Nat) => (connLevel h th conn ml.2 ml.1).map fun c => conn ++ [c]) [[some m]] = some conn ∧
      conn.length = k + 1 ∧ Shape conn ∧ entry conn 0 0 = some m ∧
      ∀ l < k, ∃ curve, getRFunc th conn l = some curve ∧
        ∀ i < 2 ^ (l + 1), ∃ ρ, curve.eval (centre (l + 1) i) = some ρ ∧ Connects h (l = 0) (· ∈ M (l + 1) i) (entry conn l (i / 2)) ρ (entry conn (l + 1) i) := by
    intro k
    induction k with
    | zero =>
      intro _
      refine ⟨[[some m]], rfl, rfl, ⟨by simp, fun l hl => ?_, m, rfl⟩, rfl, fun l hl => absurd hl (Nat.not_lt_zero _)⟩
      have : l = 0 := by simpa using hl
      subst this; rfl
    | succ k ih =>
      intro hk
      obtain ⟨conn, h1, h2, h3, h4, h5⟩ := ih (by omega)
      obtain ⟨c, curve, g1, g2, g3, g4⟩ := connLevel_spec h th conn k (M (k + 1)) h3 h2 (hth k (by omega)) (hth (k + 1) hk) (fun i _ => hM _ i)
      refine ⟨conn ++ [c], ?_, by simp [h2], ⟨by simp, fun l hl => ?_, m, ?_⟩, ?_, fun l hl => ?_⟩
      · rw [List.range_succ, List.map_append, List.foldlM_append, h1]
        simp only [List.map_cons, List.map_nil, List.foldlM_cons, List.foldlM_nil, Option.bind_eq_bind, Option.bind_some, Option.pure_def]
        rw [g1]; rfl
      · by_cases hlk : l < conn.length
        · rw [List.getD_eq_getElem?_getD, List.getElem?_append_left hlk, ← List.getD_eq_getElem?_getD]; exact h3.2.1 l hlk
        · have : l = k + 1 := by simp [h2] at hl; omega
          subst this
          rw [List.getD_eq_getElem?_getD, List.getElem?_append_right (by omega), h2]; simpa using g2
      · rw [entry_append _ _ _ _ (by omega)]; exact h4
      · rw [entry_append _ _ _ _ (by omega)]; exact h4
      · rw [(getRFunc_append th conn c l (by omega)).2]
        by_cases hlk : l < k
        · obtain ⟨cv, hcv, hrest⟩ := h5 l hlk
          refine ⟨cv, hcv, fun i hi => ?_⟩
          rw [entry_append _ _ _ _ (by omega), entry_append _ _ _ _ (by omega)]
          exact hrest i hi
        · have : l = k := by omega
          subst this
          refine ⟨curve, g3, fun i hi => ?_⟩
          rw [entry_append _ _ _ _ (by omega)]
          have e : entry (conn ++ [c]) (l + 1) i = c.getD i none := by
            unfold entry
            rw [List.getD_eq_getElem?_getD (l := conn ++ [c]), List.getElem?_append_right (by omega), h2]; simp
          rw [e]
          exact g4 i hi
  exact key splits (le_refl _)

/-! ## The levels of the tree -/

theorem inBin_whole (rs phis : List ℝ) (hl : phis.length = rs.length) (ha : ∀ th ∈ phis, 0 ≤ th ∧ th < 2 * Real.pi) : inBin rs phis (2 ^ 0) 0 = rs := by
  unfold inBin
  rw [List.filter_eq_self.2, List.map_fst_zip (by omega)]
  intro p hp
  have := ha p.2 (List.of_mem_zip hp).2
  refine decide_eq_true ?_
  norm_num
  exact this

theorem growLevel_eq (rs phis : List ℝ) (h high : ℝ) (K : Nat → Nat → Spline ℝ) (hl : phis.length = rs.length) (ha : ∀ th ∈ phis, 0 ≤ th ∧ th < 2 * Real.pi)
    (hK : ∀ l i, gaussianKDE (inBin rs phis (2 ^ l) i) h 0 high 100 = some (K l i)) (split : Nat) :
    growLevel h 0 high rs phis split = some ((List.range (2 ^ (split + 1))).map (K (split + 1)), (List.range (2 ^ (split + 1))).map (centre (split + 1))) := by
  have hp := Nat.two_pow_pos (split + 1)
  obtain ⟨rb, tb, h1, h2, h3, h4⟩ := C76_bins rs phis (2 ^ (split + 1)) hp (by omega) ha
  have e1 : rb = (List.range (2 ^ (split + 1))).map (inBin rs phis (2 ^ (split + 1))) := by
    apply List.ext_getElem
    · simp [h2]
    · intro j hj hj'
      have := (h4 j (by omega)).1
      rw [List.getD_eq_getElem _ _ hj] at this
      simpa using this
  have e2 : tb = (List.range (2 ^ (split + 1))).map (centre (split + 1)) := by
    apply List.ext_getElem
    · simp [h3]
    · intro j hj hj'
      have := (h4 j (by omega)).2
      rw [List.getD_eq_getElem _ _ hj] at this
      rw [this]
      simp only [List.getElem_map, List.getElem_range]
      unfold centre; push_cast; ring
  unfold growLevel
  rw [show 1 + split = split + 1 by omega, h1]
  simp only [Option.bind_eq_bind, Option.bind_some]
  rw [e1, mapM_range (inBin rs phis (2 ^ (split + 1))) (fun rBin => gaussianKDE rBin h 0 high 100) (K (split + 1)) _ (fun i _ => hK _ i), e2]
  rfl

/-- C76: for usable points, `NewKDETree` either panics, and then the density estimate of all points has no interior maximum on the grid; or it makes a tree with the following properties.
Level `l` has `2^l` anchors, at the centres of the angular bins; the curve of a level can be evaluated at all angles and goes through its anchors.  The anchor of a bin is its connected
maximum, if it has one, and else the anchor of the bin above.  The connected maximum of level 0 is the smallest maximum; the others follow the rule `Connects`. -/
theorem C76_tree (rs phis : List ℝ) (splits : Nat) (h : ℝ) (hu : Usable rs phis h) :
    ((∀ r, ¬BinMax rs phis h 0 0 r) ∧ newKDETree rs phis splits h = none) ∨
    ∃ kt, newKDETree rs phis splits h = some (kt, true) ∧ kt.h = h ∧ ∃ (e : Nat → Nat → Option ℝ) (a : Nat → Nat → ℝ) (curve : Nat → Spline ℝ),
      (∀ l ≤ splits, getConnMaxes kt.thTree kt.connMaxes l = some ((List.range (2 ^ l)).map (a l), (List.range (2 ^ l)).map (centre l)) ∧
        getRFunc kt.thTree kt.connMaxes l = some (curve l) ∧ (∀ t, 0 ≤ t → t ≤ 2 * Real.pi → ∃ v, (curve l).eval t = some v) ∧ ∀ i < 2 ^ l, (curve l).eval (centre l i) = some (a l i)) ∧
      (∃ m, e 0 0 = some m ∧ BinMax rs phis h 0 0 m ∧ ∀ m', BinMax rs phis h 0 0 m' → m ≤ m') ∧
      (∀ l < splits, ∀ i < 2 ^ (l + 1), ∃ ρ, (curve l).eval (centre (l + 1) i) = some ρ ∧ Connects h (l = 0) (BinMax rs phis h (l + 1) i) (e l (i / 2)) ρ (e (l + 1) i)) ∧
      ∀ l ≤ splits, ∀ i < 2 ^ l, a l i = (e l i).getD (a (l - 1) (i / 2)) := by
  have hhigh : 0 < maxRadius rs := hu.radius _ (maxRadius_spec rs hu.some).1
  have hall : ∀ l i, ∃ sp, gaussianKDE (inBin rs phis (2 ^ l) i) h 0 (maxRadius rs) 100 = some sp ∧ localSplineMaxes (radii 0 (maxRadius rs)) sp = some (maxima (maxRadius rs) sp) ∧
      (∀ r, r ∈ maxima (maxRadius rs) sp ↔ GridMax (maxRadius rs) sp r) ∧ (maxima (maxRadius rs) sp).Pairwise (· < ·) := fun l i => maxima_spec _ h _ hu.width hhigh
  choose K hK hmax hmem hsort using hall
  have hbm : ∀ l i r, BinMax rs phis h l i r ↔ r ∈ maxima (maxRadius rs) (K l i) := by
    intro l i r
    rw [hmem l i r]
    constructor
    · rintro ⟨sp, hsp, hg⟩
      have : K l i = sp := Option.some.inj ((hK l i).symm.trans hsp)
      rw [this]; exact hg
    · exact fun hg => ⟨K l i, hK l i, hg⟩
  have h00 : gaussianKDE rs h 0 (maxRadius rs) 100 = some (K 0 0) := by
    have := hK 0 0
    rwa [inBin_whole rs phis hu.lengths hu.angle] at this
  have hlevels : (List.range splits).mapM (growLevel h 0 (maxRadius rs) rs phis) = some ((List.range splits).map fun s => ((List.range (2 ^ (s + 1))).map (K (s + 1)), (List.range (2 ^ (s + 1))).map (centre (s + 1)))) := by
    have := mapM_range id (growLevel h 0 (maxRadius rs) rs phis) (fun s => ((List.range (2 ^ (s + 1))).map (K (s + 1)), (List.range (2 ^ (s + 1))).map (centre (s + 1)))) splits
      (fun s _ => growLevel_eq rs phis h (maxRadius rs) K hu.lengths hu.angle hK s)
    rwa [List.map_id] at this
  have hsp : [K 0 0] :: ((List.range splits).map fun s => ((List.range (2 ^ (s + 1))).map (K (s + 1)), (List.range (2 ^ (s + 1))).map (centre (s + 1)))).map Prod.fst =
      (List.range (splits + 1)).map fun l => (List.range (2 ^ l)).map (K l) := by
    rw [List.range_succ_eq_map, List.map_cons, List.map_map, List.map_map]; rfl
  have hth : [Real.pi] :: ((List.range splits).map fun s => ((List.range (2 ^ (s + 1))).map (K (s + 1)), (List.range (2 ^ (s + 1))).map (centre (s + 1)))).map Prod.snd =
      (List.range (splits + 1)).map fun l => (List.range (2 ^ l)).map (centre l) := by
    rw [List.range_succ_eq_map, List.map_cons, List.map_map, List.map_map]
    have : (List.range (2 ^ 0)).map (centre 0) = [Real.pi] := by
      have : centre 0 0 = Real.pi := by unfold centre; norm_num; ring
      simp [this]
    rw [this]; rfl
  have hfind : findMaxes (radii 0 (maxRadius rs)) ((List.range (splits + 1)).map fun l => (List.range (2 ^ l)).map (K l)) =
      some ((List.range (splits + 1)).map fun l => (List.range (2 ^ l)).map fun i => maxima (maxRadius rs) (K l i)) := by
    unfold findMaxes
    exact mapM_range _ _ _ _ fun l _ => mapM_range _ _ _ _ fun i _ => hmax l i
  have htree : newKDETree rs phis splits h = (connectMaxes h ((List.range (splits + 1)).map fun l => (List.range (2 ^ l)).map (centre l))
      ((List.range (splits + 1)).map fun l => (List.range (2 ^ l)).map fun i => maxima (maxRadius rs) (K l i))).map fun conn =>
      (⟨h, 0, maxRadius rs, (List.range (splits + 1)).map fun l => (List.range (2 ^ l)).map (K l), (List.range (splits + 1)).map fun l => (List.range (2 ^ l)).map fun i => maxima (maxRadius rs) (K l i),
        (List.range (splits + 1)).map fun l => (List.range (2 ^ l)).map (centre l), conn, radii 0 (maxRadius rs)⟩, true) := by
    unfold newKDETree
    rw [if_neg (by simpa using hu.some)]
    dsimp only
    rw [h00]
    simp only [Option.bind_eq_bind, Option.bind_some]
    rw [hlevels]
    simp only [Option.bind_some]
    rw [hsp, hth, hfind]
    simp only [Option.bind_some]
    cases connectMaxes h ((List.range (splits + 1)).map fun l => (List.range (2 ^ l)).map (centre l))
      ((List.range (splits + 1)).map fun l => (List.range (2 ^ l)).map fun i => maxima (maxRadius rs) (K l i)) <;> rfl
  cases hm : maxima (maxRadius rs) (K 0 0) with
  | nil =>
    left
    refine ⟨fun r hr => ?_, ?_⟩
    · rw [hbm, hm] at hr; cases hr
    · rw [htree]
      unfold connectMaxes
      rw [List.range_succ_eq_map]
      simp [hm]
  | cons m ms =>
    right
    have hthget : ∀ l ≤ splits, ((List.range (splits + 1)).map fun l => (List.range (2 ^ l)).map (centre l))[l]? = some ((List.range (2 ^ l)).map (centre l)) := by
      intro l hl
      rw [List.getElem?_map, List.getElem?_range (by omega)]; rfl
    obtain ⟨conn, h1, h2, h3, h4, h5⟩ := connect_spec h splits _ (fun l i => maxima (maxRadius rs) (K l i)) hthget (fun l i => hsort l i) m ms hm
    have hcurve : ∀ l, l ≤ splits → ∃ sp, getRFunc ((List.range (splits + 1)).map fun l => (List.range (2 ^ l)).map (centre l)) conn l = some sp ∧
        (∀ t, 0 ≤ t → t ≤ 2 * Real.pi → ∃ v, sp.eval t = some v) ∧ ∀ i < 2 ^ l, sp.eval (centre l i) = some (anchor conn l i) :=
      fun l hl => curve_spec h3 _ l (by omega) (hthget l hl)
    have : Nonempty (Spline ℝ) := ⟨K 0 0⟩
    choose! curve hc1 hc2 hc3 using hcurve
    rw [htree, h1]
    refine ⟨_, rfl, rfl, entry conn, anchor conn, curve, fun l hl => ⟨connMaxes_eq h3 _ l (by omega) (hthget l hl), hc1 l hl, hc2 l hl, hc3 l hl⟩, ⟨m, h4, ?_, fun m' hm' => ?_⟩, fun l hl i hi => ?_, fun l hl i hi => ?_⟩
    · rw [hbm, hm]; exact List.mem_cons_self
    · rw [hbm, hm] at hm'
      have hs := hsort 0 0
      rw [hm] at hs
      rcases List.mem_cons.1 hm' with rfl | hm'
      · exact le_refl _
      · exact ((List.pairwise_cons.1 hs).1 m' hm').le
    · obtain ⟨cv, hcv, hrest⟩ := h5 l hl
      have : cv = curve l := Option.some.inj (hcv.symm.trans (hc1 l (by omega)))
      subst this
      obtain ⟨ρ, hρ, hcon⟩ := hrest i hi
      refine ⟨ρ, hρ, ?_⟩
      have : BinMax rs phis h (l + 1) i = (· ∈ maxima (maxRadius rs) (K (l + 1) i)) := by
        funext r; exact propext (hbm (l + 1) i r)
      rw [this]; exact hcon
    · exact anchor_eq h3 l i (by omega) hi

/-- C76: every anchor is a local maximum of the density estimate of its own bin or of a bin above it. -/
theorem C76_anchors (rs phis : List ℝ) (splits : Nat) (h : ℝ) (hu : Usable rs phis h) (kt : KDETree) (ok : Bool) (hkt : newKDETree rs phis splits h = some (kt, ok)) (level : Nat)
    (hl : level ≤ splits) : ∃ ms ths, getConnMaxes kt.thTree kt.connMaxes level = some (ms, ths) ∧ ms.length = 2 ^ level ∧
      ∀ i < 2 ^ level, ∃ l ≤ level, BinMax rs phis h l (i / 2 ^ (level - l)) (ms.getD i 0) := by
  rcases C76_tree rs phis splits h hu with ⟨_, hn⟩ | ⟨kt', hkt', _, e, a, curve, h1, ⟨m, h2, h3, _⟩, h4, h5⟩
  · rw [hn] at hkt; cases hkt
  · rw [hkt'] at hkt
    have : kt' = kt := congrArg Prod.fst (Option.some.inj hkt)
    subst this
    refine ⟨_, _, (h1 level hl).1, by simp, fun i hi => ?_⟩
    have hg : ((List.range (2 ^ level)).map (a level)).getD i 0 = a level i := by
      rw [List.getD_eq_getElem?_getD, List.getElem?_map, List.getElem?_range hi]; rfl
    rw [hg]
    clear hg
    have hown : ∀ l ≤ splits, ∀ i < 2 ^ l, ∀ r, e l i = some r → BinMax rs phis h l i r := by
      intro l hl i hi r hr
      cases l with
      | zero =>
        have : i = 0 := by simpa using hi
        subst this
        rw [h2] at hr
        rw [← Option.some.inj hr]; exact h3
      | succ l =>
        obtain ⟨ρ, _, hc⟩ := h4 l (by omega) i hi
        rcases hc with ⟨p, c, _, hc, _, _, he⟩ | ⟨_, ⟨m, hm, _, _, he⟩ | ⟨_, he⟩⟩
        · rw [he] at hr; rw [← Option.some.inj hr]; exact hc
        · rw [he] at hr; rw [← Option.some.inj hr]; exact hm
        · rw [he] at hr; cases hr
    induction level generalizing i with
    | zero =>
      have : i = 0 := by simpa using hi
      subst this
      refine ⟨0, le_refl _, ?_⟩
      rw [h5 0 hl 0 hi, h2]
      exact h3
    | succ level ih =>
      rw [h5 _ hl i hi]
      cases he : e (level + 1) i with
      | some r => exact ⟨level + 1, le_refl _, by simpa using hown _ hl i hi r he⟩
      | none =>
        obtain ⟨l, hl', hb⟩ := ih (by omega) (i / 2) (half_lt hi)
        refine ⟨l, by omega, ?_⟩
        rw [show level + 1 - l = (level - l) + 1 by omega, pow_succ', ← Nat.div_div_eq_div_mul]
        exact hb

/-- C76: no points: `NewKDETree` panics; and it never returns `ok = false`. -/
theorem C76_never_false (rs phis : List ℝ) (splits : Nat) (h : ℝ) : newKDETree [] phis splits h = none ∧ ∀ kt ok, newKDETree rs phis splits h = some (kt, ok) → ok = true := by
  refine ⟨rfl, fun kt ok hk => ?_⟩
  unfold newKDETree at hk
  split_ifs at hk
  simp only [Option.bind_eq_bind, Option.bind_eq_some_iff] at hk
  obtain ⟨_, _, _, _, _, _, _, _, hk⟩ := hk
  exact (congrArg Prod.snd (Option.some.inj hk)).symm

end Shellfish.Kde
