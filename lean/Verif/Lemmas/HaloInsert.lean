/- Lemmas about the model of los/halo.go: the calls of `Insert` for a sphere, and insertion into all rings. -/
import Verif.Lemmas.Halo

namespace Shellfish.Los
noncomputable section
open Real
open Shellfish.Geom (Vec Mat rotateVec eulerMatrixBetween atan2)

/-- the directions that `Init` stores -/
def stdVecs (n : Nat) : List (ℝ × ℝ) := (List.range n).map fun i => (cos (phiOf n i), sin (phiOf n i))

theorem stdVecs_get (n i : Nat) (hi : i < n) : (stdVecs n)[i]? = some (cos (phiOf n i), sin (phiOf n i)) := by
  simp [stdVecs, hi]

/-- the impact parameter of line of sight `i` -/
def impact (n : Nat) (c : Vec) (i : Nat) : ℝ := c.y * cos (phiOf n i) - c.x * sin (phiOf n i)
/-- the component of the center along line of sight `i` -/
def along (n : Nat) (c : Vec) (i : Nat) : ℝ := c.x * cos (phiOf n i) + c.y * sin (phiOf n i)

/-- the call for one line of sight outside the center, if there is one -/
def farOp (n : Nat) (c : Vec) (radius rho : ℝ) (i : Nat) : Option (Op ℝ) :=
  (twoValIntrDist (projDist2 c) (projRad2 c radius) (impact n c i)).map fun r => ⟨goLog r.1, goLog r.2, rho, i⟩

def nearOp (n : Nat) (c : Vec) (radius rho : ℝ) (i : Nat) : Op ℝ :=
  ⟨⊥, goLog (oneValIntrDist (projDist2 c) (projRad2 c radius) (impact n c i) (along n c i)), rho, i⟩

theorem projDist2_nonneg (c : Vec) : 0 ≤ projDist2 c := by unfold projDist2; nlinarith [sq_nonneg c.x, sq_nonneg c.y]


theorem mapM_some {α β : Type} (f : α → Option β) (g : α → β) (l : List α) (h : ∀ a ∈ l, f a = some (g a)) : l.mapM f = some (l.map g) := by
  induction l with
  | nil => rfl
  | cons a l ih =>
    rw [List.mapM_cons, h a (by simp), ih (fun b hb => h b (by simp [hb]))]; rfl

/-- the standard width of a step -/
abbrev stdPhi (n : Nat) : ℝ := 1 / (n : ℝ) * (2 * π)

theorem farIndices_valid (n : Nat) (hn : 0 < n) (c : Vec) (radius : ℝ) (j : Int) (hj : j ∈ farIndices n (stdPhi n) c radius) : 0 ≤ j ∧ j < n := by
  have hp := Complex.neg_pi_lt_arg ⟨c.x, c.y⟩
  have hq := Complex.arg_le_pi ⟨c.x, c.y⟩
  obtain ⟨a0, a1⟩ := halfWidth_range (projDist2 c) (projRad2 c radius)
  have := pi_pos
  refine idxRange_valid n hn _ _ ?_ ?_ j hj
  · show -(2 * π) ≤ Complex.arg ⟨c.x, c.y⟩ - _; linarith
  · show Complex.arg ⟨c.x, c.y⟩ + _ < 2 * π; linarith

theorem chords_near (n : Nat) (dPhi : ℝ) (c : Vec) (radius rho : ℝ) (h : projRad2 c radius > projDist2 c) :
    chords (stdVecs n) n dPhi c radius rho = some ((List.range n).map (nearOp n c radius rho)) := by
  unfold chords
  rw [if_pos h]
  apply mapM_some
  intro i hi
  unfold nearChord
  rw [stdVecs_get n i (List.mem_range.mp hi)]
  rfl

theorem chords_far (n : Nat) (hn : 0 < n) (c : Vec) (radius rho : ℝ) (h : ¬ projRad2 c radius > projDist2 c) :
    chords (stdVecs n) n (stdPhi n) c radius rho =
      some (((farIndices n (stdPhi n) c radius).map Int.toNat).filterMap (farOp n c radius rho)) := by
  unfold chords
  rw [if_neg h, mapM_some _ (fun j : Int => farOp n c radius rho j.toNat)]
  · simp only [Option.map_some]
    congr 1
    rw [List.filterMap_map, List.filterMap_map]; rfl
  · intro j hj
    obtain ⟨h0, h1⟩ := farIndices_valid n hn c radius j hj
    unfold farChord
    rw [if_neg (by omega), stdVecs_get n j.toNat (by omega)]
    rfl

theorem farOp_i (n : Nat) (c : Vec) (radius rho : ℝ) (i : Nat) (o : Op ℝ) (h : farOp n c radius rho i = some o) : o.i = i := by
  unfold farOp at h
  cases ht : twoValIntrDist (projDist2 c) (projRad2 c radius) (impact n c i) with
  | none => rw [ht] at h; simp at h
  | some r => rw [ht] at h; simp at h; rw [← h]

theorem farOp_sensible (n : Nat) (c : Vec) (radius rho : ℝ) (i : Nat) (o : Op ℝ) (h : farOp n c radius rho i = some o) : o.start ≤ o.stop := by
  unfold farOp at h
  cases ht : twoValIntrDist (projDist2 c) (projRad2 c radius) (impact n c i) with
  | none => rw [ht] at h; simp at h
  | some r =>
    rw [ht] at h; simp at h; rw [← h]
    apply goLog_mono
    unfold twoValIntrDist at ht
    split_ifs at ht
    simp only [Option.some.injEq] at ht
    rw [← ht]
    have := sqrt_nonneg (projRad2 c radius - impact n c i * impact n c i)
    simp only; linarith

/-- the calls are always sensible -/
theorem chords_sensible (n : Nat) (hn : 0 < n) (c : Vec) (radius rho : ℝ) :
    ∃ ops, chords (stdVecs n) n (stdPhi n) c radius rho = some ops ∧ Sensible n ops ∧ (∀ o ∈ ops, o.rho = rho) := by
  by_cases h : projRad2 c radius > projDist2 c
  · refine ⟨_, chords_near n _ c radius rho h, ?_, ?_⟩
    · intro o ho
      obtain ⟨i, hi, rfl⟩ := List.mem_map.mp ho
      exact ⟨List.mem_range.mp hi, bot_le⟩
    · intro o ho
      obtain ⟨i, hi, rfl⟩ := List.mem_map.mp ho
      rfl
  · refine ⟨_, chords_far n hn c radius rho h, ?_, ?_⟩
    · intro o ho
      obtain ⟨i, hi, hf⟩ := List.mem_filterMap.mp ho
      obtain ⟨j, hj, rfl⟩ := List.mem_map.mp hi
      obtain ⟨h0, h1⟩ := farIndices_valid n hn c radius j hj
      exact ⟨by rw [farOp_i _ _ _ _ _ _ hf]; omega, farOp_sensible _ _ _ _ _ _ hf⟩
    · intro o ho
      obtain ⟨i, hi, hf⟩ := List.mem_filterMap.mp ho
      unfold farOp at hf
      cases ht : twoValIntrDist (projDist2 c) (projRad2 c radius) (impact n c i) with
      | none => rw [ht] at hf; simp at hf
      | some r => rw [ht] at hf; simp at hf; rw [← hf]

theorem filter_filterMap_index (f : Nat → Option (Op ℝ)) (hf : ∀ i o, f i = some o → o.i = i) (l : List Nat) (k : Nat) :
    (l.filterMap f).filter (fun o => decide (o.i = k)) = (l.filter (fun i => decide (i = k))).filterMap f := by
  induction l with
  | nil => rfl
  | cons a l ih =>
    cases h : f a with
    | none =>
      rw [List.filterMap_cons_none h, ih]
      by_cases hk : a = k
      · rw [List.filter_cons_of_pos (by simpa using hk), List.filterMap_cons_none h]
      · rw [List.filter_cons_of_neg (by simpa using hk)]
    | some o =>
      rw [List.filterMap_cons_some h]
      have := hf a o h
      by_cases hk : a = k
      · rw [List.filter_cons_of_pos (by simpa [this] using hk), List.filter_cons_of_pos (by simpa using hk), List.filterMap_cons_some h, ih]
      · rw [List.filter_cons_of_neg (by simpa [this] using hk), List.filter_cons_of_neg (by simpa using hk), ih]

theorem filter_eq_replicate (l : List Nat) (k : Nat) : l.filter (fun i => decide (i = k)) = List.replicate (l.count k) k := by
  induction l with
  | nil => rfl
  | cons a l ih =>
    by_cases hk : a = k
    · subst hk
      rw [List.filter_cons_of_pos (by simp), ih, List.count_cons_self, List.replicate_succ]
    · rw [List.filter_cons_of_neg (by simpa using hk), ih, List.count_cons_of_ne hk]

theorem count_toNat (l : List Int) (h : ∀ j ∈ l, 0 ≤ j) (k : Nat) : (l.map Int.toNat).count k = l.count (k : Int) := by
  induction l with
  | nil => rfl
  | cons a l ih =>
    have ha := h a (by simp)
    rw [List.map_cons, List.count_cons, List.count_cons, ih (fun j hj => h j (by simp [hj]))]
    congr 1
    by_cases hk : a = k
    · subst hk; simp
    · have : ¬ a.toNat = k := by omega
      simp [hk, this]

/-- the covered part of bin `j` of line of sight `i`, in the plane of the ring -/
def planeCover (lowR highR : ℝ) (bins n : Nat) (c : Vec) (radius : ℝ) (i j : Nat) : ℝ :=
  (MeasureTheory.volume {t : ℝ | lowR + (highR - lowR) / (bins : ℝ) * j ≤ t ∧ t ≤ lowR + (highR - lowR) / (bins : ℝ) * (j + 1) ∧
    t ∈ {t : ℝ | InCircle c.x c.y (projRad2 c radius) (cos (phiOf n i)) (sin (phiOf n i)) (exp t)}}).toReal / ((highR - lowR) / (bins : ℝ))

theorem unit (n i : Nat) : cos (phiOf n i) ^ 2 + sin (phiOf n i) ^ 2 = 1 := by have := sin_sq_add_cos_sq (phiOf n i); linarith

theorem planeCover_zero (lowR highR : ℝ) (bins n : Nat) (c : Vec) (radius : ℝ) (i j : Nat)
    (h : ∀ r, 0 < r → ¬ InCircle c.x c.y (projRad2 c radius) (cos (phiOf n i)) (sin (phiOf n i)) r) :
    planeCover lowR highR bins n c radius i j = 0 := by
  unfold planeCover
  have : {t : ℝ | lowR + (highR - lowR) / (bins : ℝ) * j ≤ t ∧ t ≤ lowR + (highR - lowR) / (bins : ℝ) * (j + 1) ∧
    t ∈ {t : ℝ | InCircle c.x c.y (projRad2 c radius) (cos (phiOf n i)) (sin (phiOf n i)) (exp t)}} = ∅ := by
    ext t
    simp only [Set.mem_setOf_eq, Set.mem_empty_iff_false, iff_false]
    rintro ⟨_, _, h3⟩
    exact h _ (exp_pos t) h3
  rw [this]; simp

/-- the whole effect of a sphere on one line of sight -/
theorem total_chords (lowR highR : ℝ) (bins n : Nat) (hn : 2 ≤ n) (c : Vec) (radius rho : ℝ)
    (hpos : 0 < projRad2 c radius) (i : Nat) (hi : i < n) (hfront : projDist2 c < projRad2 c radius ∨ 0 ≤ along n c i) (ops : List (Op ℝ))
    (hops : chords (stdVecs n) n (stdPhi n) c radius rho = some ops) (j : Nat) :
    total lowR highR bins ops i j = rho * planeCover lowR highR bins n c radius i j := by
  have hu := unit n i
  by_cases h : projRad2 c radius > projDist2 c
  · rw [chords_near n _ c radius rho h, Option.some.injEq] at hops
    subst hops
    have hfil : ((List.range n).map (nearOp n c radius rho)).filter (fun o => decide (o.i = i)) = [nearOp n c radius rho i] := by
      have e : (List.range n).map (nearOp n c radius rho) = (List.range n).filterMap (fun i => some (nearOp n c radius rho i)) := by
        rw [← List.filterMap_eq_map]; rfl
      rw [e, filter_filterMap_index _ (by intro i o ho; simp only [Option.some.injEq] at ho; rw [← ho]; rfl), filter_eq_replicate,
        List.count_eq_one_of_mem List.nodup_range (List.mem_range.mpr hi)]
      rfl
    unfold total
    rw [hfil]
    simp only [List.map_cons, List.map_nil, List.sum_cons, List.sum_nil, add_zero, contribution, planeCover, nearOp]
    rw [overlap_volume]
    intro t _ _
    simp only [Set.mem_setOf_eq, bot_le, true_and]
    rw [le_goLog_iff]
    exact nearChord_correct c.x c.y _ _ _ _ hu h (exp_pos t)
  · rw [chords_far n (by omega) c radius rho h, Option.some.injEq] at hops
    subst hops
    have hfront' : 0 ≤ along n c i := hfront.resolve_left h
    have hd0 : 0 < projDist2 c := lt_of_lt_of_le hpos (not_lt.mp h)
    unfold total
    rw [filter_filterMap_index _ (farOp_i n c radius rho), filter_eq_replicate,
      count_toNat _ (fun j hj => (farIndices_valid n (by omega) c radius j hj).1)]
    by_cases hb : impact n c i * impact n c i ≤ projRad2 c radius
    · obtain ⟨lo, hi', h2, hle⟩ := twoVal_some c.x c.y (projRad2 c radius) _ _ hu hb
      obtain ⟨k, k1, k2⟩ := angle_cover c.x c.y (projRad2 c radius) (phiOf n i) hpos.le hd0 hfront' hb
      have hp : -π < atan2 c.y c.x := Complex.neg_pi_lt_arg ⟨c.x, c.y⟩
      have hq : atan2 c.y c.x ≤ π := Complex.arg_le_pi ⟨c.x, c.y⟩
      obtain ⟨a0, a1⟩ := halfWidth_range (c.x * c.x + c.y * c.y) (projRad2 c radius)
      have hpi := pi_pos
      have hcount : (farIndices n (stdPhi n) c radius).count (i : Int) = 1 :=
        (idxRange_cover n (by omega) (atan2 c.y c.x - halfAngularWidth (c.x * c.x + c.y * c.y) (projRad2 c radius))
          (atan2 c.y c.x + halfAngularWidth (c.x * c.x + c.y * c.y) (projRad2 c radius)) (by linarith) (by linarith) (by linarith) (by linarith) i hi k k1 k2).2 hn
      have hop : farOp n c radius rho i = some ⟨goLog lo, goLog hi', rho, i⟩ := by
        unfold farOp impact projDist2
        rw [h2]; rfl
      rw [hcount]
      simp only [List.replicate_succ, List.replicate_zero, List.filterMap_cons, hop, List.filterMap_nil, List.map_cons, List.map_nil, List.sum_cons,
        List.sum_nil, add_zero, contribution, planeCover]
      rw [overlap_volume]
      intro t _ _
      simp only [Set.mem_setOf_eq]
      rw [le_goLog_iff, goLog_le_iff]
      exact farChord_correct c.x c.y _ _ _ _ hu hfront' hb lo hi' h2
    · have hop : farOp n c radius rho i = none := by
        unfold farOp impact projDist2
        rw [twoVal_none c.x c.y _ _ _ (not_le.mp hb)]; rfl
      rw [planeCover_zero _ _ _ _ _ _ _ _ (fun r _ => far_miss c.x c.y _ _ _ r hu (not_le.mp hb))]
      have : (List.replicate ((farIndices n (stdPhi n) c radius).count (i : Int)) i).filterMap (farOp n c radius rho) = [] := by
        rw [List.filterMap_eq_nil_iff]
        intro a ha
        rw [List.eq_of_mem_replicate ha, hop]
      rw [this]; simp

/-! insertion into all rings -/

theorem foldlM_set {α : Type} (f : Nat → α → Option α) (step : List α → Nat → Option (List α)) (m : Nat)
    (hstep : ∀ l r p, r < m → l[r]? = some p → step l r = (f r p).map fun p' => l.set r p') :
    ∀ (todo from_ : Nat) (l : List α), from_ + todo = m → l.length = m → (∀ r p, r < m → from_ ≤ r → l[r]? = some p → (f r p).isSome) →
    ∃ l', (List.range' from_ todo).foldlM step l = some l' ∧ l'.length = m ∧
      ∀ r p, l[r]? = some p → l'[r]? = if from_ ≤ r then f r p else some p := by
  intro todo
  induction todo with
  | zero =>
    intro from_ l hm hl _
    refine ⟨l, rfl, hl, fun r p hr => ?_⟩
    have : r < l.length := by
      by_contra hc
      rw [List.getElem?_eq_none (by omega)] at hr; simp at hr
    rw [if_neg (by omega), hr]
  | succ todo ih =>
    intro from_ l hm hl hf
    have hlt : from_ < l.length := by omega
    have hget := List.getElem?_eq_getElem hlt
    obtain ⟨p', hp'⟩ := Option.isSome_iff_exists.mp (hf from_ _ (by omega) (le_refl _) hget)
    rw [List.range'_succ, List.foldlM_cons, hstep l from_ _ (by omega) hget, hp']
    obtain ⟨l', h1, h2, h3⟩ := ih (from_ + 1) (l.set from_ p') (by omega) (by simpa using hl) (by
      intro r p hr hle hg
      rw [List.getElem?_set_ne (by omega)] at hg
      exact hf r p hr (by omega) hg)
    refine ⟨l', h1, h2, fun r p hr => ?_⟩
    by_cases hrf : r = from_
    · subst hrf
      rw [hget, Option.some.injEq] at hr
      have := h3 r p' (by rw [List.getElem?_set_self hlt])
      rw [this, if_neg (by omega), if_pos (le_refl _), ← hr, hp']
    · have := h3 r p (by rw [List.getElem?_set_ne (fun e => hrf e.symm)]; exact hr)
      rw [this]
      by_cases hle : from_ ≤ r
      · rw [if_pos (by omega), if_pos hle]
      · rw [if_neg (by omega), if_neg hle]

/-- a halo as `Init` leaves it, up to what is stored in the profiles -/
structure Halo.WF (h : Halo) : Prop where
  norms_len : h.norms.length = h.rings
  norms_unit : ∀ v ∈ h.norms, Geom.dot v v = 1
  rots : h.rots = h.norms.map fun v => eulerMatrixBetween v zAxis
  vecs : h.ringVecs = stdVecs h.n
  dPhi : h.dPhi = stdPhi h.n
  profs_len : h.profs.length = h.rings
  profs : ∀ p ∈ h.profs, Los.WF p ∧ p.lowR = log h.rMin ∧ p.highR = log h.rMax ∧ p.bins = h.bins ∧ p.n = h.n
  rmin : 0 < h.rMin
  rmax : h.rMin < h.rMax
  bins_pos : 0 < h.bins
  n_pos : 0 < h.n

open Classical in
/-- the calls that a sphere causes on ring `ring`, with the test for the plane of the ring -/
def ringOps (h : Halo) (vec : Vec) (radius rho : ℝ) (ring : Nat) : List (Op ℝ) :=
  match h.norms[ring]? with
  | none => []
  | some nv => if sphereIntersectRing nv vec radius then (ringChords h vec radius rho ring).getD [] else []

theorem ringOps_sensible (h : Halo) (hw : h.WF) (vec : Vec) (radius rho : ℝ) (ring : Nat) : Sensible h.n (ringOps h vec radius rho ring) := by
  unfold ringOps
  cases hn : h.norms[ring]? with
  | none => simp [Sensible]
  | some nv =>
    simp only
    split_ifs
    · unfold ringChords
      rw [hw.rots, List.getElem?_map, hn]
      simp only [Option.map_some]
      obtain ⟨ops, h1, h2, _⟩ := chords_sensible h.n hw.n_pos (rotateVec vec (eulerMatrixBetween nv zAxis)) radius rho
      rw [hw.vecs, hw.dPhi, h1]
      exact h2
    · simp [Sensible]

theorem insertRing_eq (h : Halo) (hw : h.WF) (vec : Vec) (radius rho : ℝ) (l : List (ProfileRing ℝ)) (ring : Nat) (hr : ring < h.rings) (p : ProfileRing ℝ)
    (hp : l[ring]? = some p) :
    insertRing h vec radius rho l ring = (insertAll p (ringOps h vec radius rho ring)).map fun p' => l.set ring p' := by
  unfold insertRing ringOps
  have hlt : ring < h.norms.length := by rw [hw.norms_len]; exact hr
  rw [List.getElem?_eq_getElem hlt]
  simp only
  split_ifs with hs
  · have : ∃ ops, ringChords h vec radius rho ring = some ops := by
      unfold ringChords
      rw [hw.rots, List.getElem?_map, List.getElem?_eq_getElem hlt]
      simp only [Option.map_some]
      obtain ⟨ops, h1, _⟩ := chords_sensible h.n hw.n_pos (rotateVec vec (eulerMatrixBetween h.norms[ring] zAxis)) radius rho
      rw [hw.vecs, hw.dPhi, h1]
      exact ⟨ops, rfl⟩
    obtain ⟨ops, ho⟩ := this
    rw [ho, hp]
    rfl
  · simp only [insertAll, List.foldlM_nil, Option.pure_def, Option.map_some, Option.some.injEq]
    rw [List.getElem?_eq_some_iff] at hp
    obtain ⟨hl, he⟩ := hp
    rw [← he, List.set_getElem_self]

/-- `Insert` never panics and acts on ring `r` as the calls `ringOps` -/
theorem halo_insert_spec (h : Halo) (hw : h.WF) (vec : Vec) (radius rho : ℝ) :
    ∃ ps, h.insert vec radius rho = some { h with profs := ps } ∧ Halo.WF { h with profs := ps } ∧
      ∀ r p, h.profs[r]? = some p → ps[r]? = insertAll p (ringOps h (displace vec h.origin) radius rho r) := by
  have key := foldlM_set (fun r p => insertAll p (ringOps h (displace vec h.origin) radius rho r))
    (insertRing h (displace vec h.origin) radius rho) h.rings (fun l r p hr hp => insertRing_eq h hw _ radius rho l r hr p hp)
    h.rings 0 h.profs (by omega) hw.profs_len (by
      intro r p _ _ hp
      obtain ⟨w, _, _, _, hn⟩ := hw.profs p (List.mem_of_getElem? hp)
      obtain ⟨d, hd, _⟩ := insertAll_spec (ringOps h (displace vec h.origin) radius rho r) p w (by rw [hn]; exact ringOps_sensible h hw _ _ _ _)
      rw [hd]; rfl)
  obtain ⟨ps, h1, h2, h3⟩ := key
  refine ⟨ps, ?_, ?_, ?_⟩
  · unfold Halo.insert
    rw [List.range_eq_range', h1]; rfl
  · refine ⟨hw.norms_len, hw.norms_unit, hw.rots, hw.vecs, hw.dPhi, h2, ?_, hw.rmin, hw.rmax, hw.bins_pos, hw.n_pos⟩
    intro q hq
    change q ∈ ps at hq
    obtain ⟨r, hr⟩ := List.mem_iff_getElem?.mp hq
    have hrl : r < ps.length := by
      by_contra hc
      rw [List.getElem?_eq_none (by omega)] at hr; simp at hr
    have hrl' : r < h.profs.length := by rw [hw.profs_len, ← h2]; exact hrl
    have hget : h.profs[r]? = some (h.profs[r]) := List.getElem?_eq_getElem _
    have := h3 r _ hget
    simp only [Nat.zero_le, if_true] at this
    rw [hr] at this
    obtain ⟨w, e1, e2, e3, e4⟩ := hw.profs _ (List.mem_of_getElem? hget)
    obtain ⟨d, hd, hl, _⟩ := insertAll_spec (ringOps h (displace vec h.origin) radius rho r) _ w (by rw [e4]; exact ringOps_sensible h hw _ _ _ _)
    rw [hd, Option.some.injEq] at this
    subst this
    exact ⟨⟨hl, w.pos, w.lt, w.dr⟩, e1, e2, e3, e4⟩
  · intro r p hp
    have := h3 r p hp
    simpa using this

end
end Shellfish.Los
