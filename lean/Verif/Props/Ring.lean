/- C20 and C21 for a single ring of profiles (los/profile_ring.go). -/
import Verif.Lemmas.Ring
import Mathlib.Algebra.BigOperators.Group.List.Basic
import Mathlib.Data.List.Perm.Basic
import Mathlib.Algebra.Order.Field.Rat
import Mathlib.Data.Rat.Floor

namespace Shellfish.Los
open Finset

variable {K : Type} [Field K] [LinearOrder K] [IsStrictOrderedRing K] [FloorRing K]

/-! Specification -/

/-- The length of the part of the plateau from `start` to `stop` that lies in the interval from `c` to `d`. -/
def overlap (start stop : WithBot K) (c d : K) : K :=
  match start, stop with
  | _, ⊥ => 0
  | ⊥, (e : K) => max 0 (min e d - c)
  | (s : K), (e : K) => max 0 (min e d - max s c)

/-- What the call `o` contributes to bin `j` of its line of sight when `[lowR, highR]` is cut into `bins` equal bins: the density times the
covered fraction of the bin. -/
def contribution (lowR highR : K) (bins : Nat) (o : Op K) (j : Nat) : K :=
  let w := (highR - lowR) / (bins : K)
  o.rho * (overlap o.start o.stop (lowR + w * j) (lowR + w * (j + 1)) / w)

/-- The calls are sensible: the line of sight exists and the plateau does not end before it starts. -/
def Sensible (n : Nat) (ops : List (Op K)) : Prop := ∀ o ∈ ops, o.i < n ∧ o.start ≤ o.stop

/-- The profile that line of sight `i` must have after the calls `ops`. -/
def expected (lowR highR : K) (bins : Nat) (ops : List (Op K)) (i : Nat) : List K :=
  (List.range bins).map fun j => ((ops.filter (fun o => o.i = i)).map fun o => contribution lowR highR bins o j).sum

/-! Proofs -/

theorem ramp_sub (S E : K) (j : Nat) (h : S ≤ E) : ramp S j - ramp E j = max 0 (min E ((j : K) + 1) - max S j) := by
  unfold ramp
  simp only [min_def, max_def]
  split_ifs <;> linarith

theorem overlap_scale {p : ProfileRing K} (h : WF p) (s e : K) (j : Nat) :
    max 0 (min e (p.lowR + p.dr * (j + 1)) - max s (p.lowR + p.dr * j)) / p.dr = max 0 (min (pos p e) ((j : K) + 1) - max (pos p s) j) := by
  have hd := h.dr_pos
  have he : e = p.lowR + p.dr * pos p e := by unfold pos; field_simp; ring
  have hs : s = p.lowR + p.dr * pos p s := by unfold pos; field_simp; ring
  generalize pos p e = E at *
  generalize pos p s = S at *
  rw [he, hs, min_add_add_left, max_add_add_left, add_sub_add_left_eq_sub, ← mul_min_of_nonneg _ _ hd.le, ← mul_max_of_nonneg _ _ hd.le,
    ← mul_sub, ← mul_zero p.dr, ← mul_max_of_nonneg _ _ hd.le]
  field_simp
  simp

theorem overlap_scale_bot {p : ProfileRing K} (h : WF p) (e : K) (j : Nat) :
    max 0 (min e (p.lowR + p.dr * (j + 1)) - (p.lowR + p.dr * j)) / p.dr = max 0 (min (pos p e) ((j : K) + 1) - j) := by
  have := overlap_scale h (p.lowR + p.dr * j) e j
  rw [max_self] at this
  rw [this]
  have hd := h.dr_pos
  have : pos p (p.lowR + p.dr * j) = j := by unfold pos; field_simp; ring
  rw [this, max_self]

theorem gain_eq (p : ProfileRing K) (h : WF p) (start stop : WithBot K) (hse : start ≤ stop) (rho : K) (i j : Nat) (hj : j < p.bins) :
    gain p start stop rho j = contribution p.lowR p.highR p.bins ⟨start, stop, rho, i⟩ j := by
  unfold contribution
  simp only [← h.dr]
  have hjb : (j : K) + 1 ≤ p.bins := by exact_mod_cast hj
  have hj0 : (0 : K) ≤ j := Nat.cast_nonneg j
  induction stop using WithBot.recBotCoe with
  | bot => simp [gain, overlap]
  | coe e =>
    induction start using WithBot.recBotCoe with
    | bot =>
      simp only [gain, overlap, overlap_scale_bot h, rise]
      split_ifs with hc
      · rcases hc with hc | hc
        · have := pos_nonpos h e hc
          rw [max_eq_left]; · simp
          have := min_le_left (pos p e) ((j : K) + 1)
          linarith
        · exact absurd (le_bot_iff.mp hc) (WithBot.coe_ne_bot)
      · congr 1
        have h0 : 0 ≤ pos p e := by
          rw [not_or] at hc
          exact div_nonneg (by linarith [not_le.mp hc.1]) h.dr_pos.le
        have := ramp_sub 0 (pos p e) j h0
        rw [ramp_nonpos 0 j le_rfl, max_eq_right hj0] at this
        exact this
    | coe s =>
      have hse' : s ≤ e := WithBot.coe_le_coe.mp hse
      have hle : pos p s ≤ pos p e := by
        unfold pos
        exact div_le_div_of_nonneg_right (by linarith) h.dr_pos.le
      simp only [gain, overlap, overlap_scale h, rise]
      split_ifs with hc
      · rcases hc with hc | hc
        · have := pos_nonpos h e hc
          rw [max_eq_left]; · simp
          have := min_le_left (pos p e) ((j : K) + 1)
          have := le_max_right (pos p s) (j : K)
          linarith
        · have := pos_ge h s (WithBot.coe_le_coe.mp hc)
          rw [max_eq_left]; · simp
          have := min_le_right (pos p e) ((j : K) + 1)
          have := le_max_left (pos p s) (j : K)
          linarith
      · rw [ramp_sub _ _ _ hle]

theorem getD_replicate_zero (m t : Nat) : (List.replicate m (0 : K)).getD t 0 = 0 := by
  rw [List.getD_eq_getElem?_getD, List.getElem?_replicate]; split_ifs <;> rfl

theorem init_WF (lowR highR : K) (bins n : Nat) (hb : 0 < bins) (hlt : lowR < highR) : WF (init lowR highR bins n) :=
  ⟨by simp [init], hb, hlt, rfl⟩

/-- the total that the calls add to bin `j` of line of sight `k` -/
def total (lowR highR : K) (bins : Nat) (ops : List (Op K)) (k j : Nat) : K :=
  ((ops.filter (fun o => o.i = k)).map fun o => contribution lowR highR bins o j).sum

theorem insertAll_spec (ops : List (Op K)) : ∀ (p : ProfileRing K), WF p → Sensible p.n ops →
    ∃ d, insertAll p ops = some { p with derivs := d } ∧ d.length = p.bins * p.n ∧
      ∀ k j, j < p.bins → cumul p.bins d k j = cumul p.bins p.derivs k j + total p.lowR p.highR p.bins ops k j := by
  induction ops with
  | nil => exact fun p hw _ => ⟨p.derivs, rfl, hw.len, by simp [total]⟩
  | cons o ops ih =>
    intro p hw hs
    have ho := hs o (by simp)
    obtain ⟨d, h1, h2, h3⟩ := insert_spec p hw o.start o.stop o.rho o.i ho.1
    have hw' : WF { p with derivs := d } := ⟨h2, hw.pos, hw.lt, hw.dr⟩
    obtain ⟨d', g1, g2, g3⟩ := ih _ hw' (fun o ho => hs o (by simp [ho]))
    refine ⟨d', ?_, g2, fun k j hj => ?_⟩
    · unfold insertAll at g1 ⊢
      rw [List.foldlM_cons, h1]; exact g1
    · rw [g3 k j hj]
      simp only
      rw [h3 k j hj, gain_eq p hw o.start o.stop ho.2 o.rho o.i j hj]
      unfold total
      by_cases hk : o.i = k
      · have hk' : k = o.i := hk.symm
        rw [List.filter_cons_of_pos (by simpa using hk), List.map_cons, List.sum_cons, if_pos hk', add_assoc]
      · have hk' : ¬ k = o.i := fun e => hk e.symm
        rw [List.filter_cons_of_neg (by simpa using hk), if_neg hk', add_zero]

theorem retrieve_eq (p : ProfileRing K) (hl : p.derivs.length = p.bins * p.n) (i : Nat) (hi : i < p.n) (out : List K) (ho : out.length = p.bins) :
    retrieve p i out = some ((List.range p.bins).map fun j => cumul p.bins p.derivs i j) := by
  obtain ⟨out', h1, h2, h3⟩ := retrieve_spec p hl i hi out (by omega)
  rw [h1]
  congr 1
  apply List.ext_getElem?
  intro q
  rw [h3 q]
  by_cases hq : q < p.bins
  · rw [if_pos hq]; simp [hq]
  · rw [if_neg hq, List.getElem?_eq_none (by omega), List.getElem?_eq_none (by simp; omega)]

/-- C21: after any sequence of sensible calls of `Insert` on a fresh ring, none of which panics, `Retrieve` reports for every line of sight the
sum over the calls for that line of sight of density times covered fraction of the bin. -/
theorem C21_profile (lowR highR : K) (bins n : Nat) (hb : 0 < bins) (hlt : lowR < highR) (ops : List (Op K)) (hs : Sensible n ops) :
    ∃ p, insertAll (init lowR highR bins n) ops = some p ∧
      ∀ i out, i < n → out.length = bins → retrieve p i out = some (expected lowR highR bins ops i) := by
  obtain ⟨d, h1, h2, h3⟩ := insertAll_spec ops (init lowR highR bins n) (init_WF _ _ _ _ hb hlt) hs
  refine ⟨_, h1, fun i out hi ho => ?_⟩
  rw [retrieve_eq _ h2 i hi out ho]
  congr 1
  unfold expected
  apply List.map_congr_left
  intro j hj
  have hj' : j < bins := List.mem_range.mp hj
  have := h3 i j hj'
  rw [cumul_zero _ (init lowR highR bins n).derivs (fun t => getD_replicate_zero (K := K) _ _), zero_add] at this
  exact this

/-- C21: the order of the calls is irrelevant. -/
theorem C21_order_irrelevant (lowR highR : K) (bins n : Nat) (hb : 0 < bins) (hlt : lowR < highR) (ops ops' : List (Op K)) (hs : Sensible n ops)
    (hp : ops.Perm ops') (i : Nat) (hi : i < n) (out : List K) (ho : out.length = bins) :
    (insertAll (init lowR highR bins n) ops).bind (fun p => retrieve p i out) =
    (insertAll (init lowR highR bins n) ops').bind (fun p => retrieve p i out) := by
  obtain ⟨p, h1, h2⟩ := C21_profile lowR highR bins n hb hlt ops hs
  obtain ⟨p', h1', h2'⟩ := C21_profile lowR highR bins n hb hlt ops' (fun o ho => hs o (hp.mem_iff.mpr ho))
  rw [h1, h1', Option.bind_some, Option.bind_some, h2 i out hi ho, h2' i out hi ho]
  congr 1
  unfold expected
  apply List.map_congr_left
  intro j _
  exact ((hp.filter _).map _).sum_eq

/-- C21: a plateau entirely outside the radial range leaves the ring as it is, whatever the state of the ring. -/
theorem C21_outside (p : ProfileRing K) (start stop : WithBot K) (rho : K) (i : Nat) (h : stop ≤ (p.lowR : WithBot K) ∨ (p.highR : WithBot K) ≤ start) :
    insert p start stop rho i = some p := by
  induction stop using WithBot.recBotCoe with
  | bot => rfl
  | coe e =>
    simp only [insert]
    rw [if_pos (h.imp (fun h => WithBot.coe_le_coe.mp h) id)]

-- a ring of two lines of sight with four bins on [0, 2]: one plateau from 1/4 to 5/4 of height 2 on line 1, one from minus infinity on line 0
example : Sensible 2 ([⟨(1/4 : ℚ), (5/4 : ℚ), 2, 1⟩, ⟨⊥, (1 : ℚ), 3, 0⟩] : List (Op ℚ)) ∧
    expected (0 : ℚ) 2 4 [⟨(1/4 : ℚ), (5/4 : ℚ), 2, 1⟩, ⟨⊥, (1 : ℚ), 3, 0⟩] 1 = [1, 2, 1, 0] ∧
    expected (0 : ℚ) 2 4 [⟨(1/4 : ℚ), (5/4 : ℚ), 2, 1⟩, ⟨⊥, (1 : ℚ), 3, 0⟩] 0 = [3, 3, 0, 0] := by
  refine ⟨?_, ?_, ?_⟩
  · intro o ho
    simp only [List.mem_cons, List.not_mem_nil, or_false] at ho
    rcases ho with rfl | rfl
    · exact ⟨by decide, WithBot.coe_le_coe.mpr (by norm_num)⟩
    · exact ⟨by decide, bot_le⟩
  · norm_num [expected, contribution, overlap, List.range_succ]
  · norm_num [expected, contribution, overlap, List.range_succ]

/-! C20 for one ring -/

/-- A scratch ring that can be split off from `p`: it has another shape (then it is initialised), or it has the bin width of `p`. -/
def Usable (p q : ProfileRing K) : Prop :=
  (p.n ≠ q.n ∨ p.bins ≠ q.bins) ∨ (q.derivs.length = q.bins * q.n ∧ q.dr = p.dr)

theorem split_spec (p q : ProfileRing K) (hw : WF p) (hu : Usable p q) :
    ∃ d, split p q = { p with derivs := d } ∧ d.length = p.bins * p.n ∧ ∀ t, d.getD t 0 = 0 := by
  unfold split
  by_cases hc : p.n ≠ q.n ∨ p.bins ≠ q.bins
  · rw [if_pos hc]
    refine ⟨List.replicate (p.bins * p.n) 0, by simp [init, hw.dr], by simp, fun t => ?_⟩
    exact getD_replicate_zero _ _
  · rw [if_neg hc]
    rcases hu with hu | ⟨h1, h2⟩
    · exact absurd hu hc
    · simp only [not_or, not_not] at hc
      refine ⟨q.derivs.map (fun _ => 0), by rw [h2, ← hc.1], by rw [List.length_map, h1, hc.1, hc.2], fun t => ?_⟩
      simp only [List.getD_eq_getElem?_getD, List.getElem?_map]
      cases q.derivs[t]? <;> rfl

theorem join_spec (p : ProfileRing K) (d1 d2 : List K) (h1 : d1.length = p.bins * p.n) (h2 : d2.length = p.bins * p.n) :
    ∃ d, join { p with derivs := d1 } { p with derivs := d2 } = some { p with derivs := d } ∧ d.length = p.bins * p.n ∧
      ∀ k j, cumul p.bins d k j = cumul p.bins d1 k j + cumul p.bins d2 k j := by
  obtain ⟨d, g1, g2, g3⟩ := joinDerivs_spec d1 d2 (by omega)
  refine ⟨d, by simp [join, g1], by omega, fun k j => ?_⟩
  unfold cumul
  rw [← Finset.sum_add_distrib]
  exact Finset.sum_congr rfl (fun t _ => g3 _)

theorem joinAll_spec (p : ProfileRing K) (ds : List (List K)) : ∀ (d1 : List K), d1.length = p.bins * p.n → (∀ d ∈ ds, d.length = p.bins * p.n) →
    ∃ d, joinAll { p with derivs := d1 } (ds.map fun d => { p with derivs := d }) = some { p with derivs := d } ∧ d.length = p.bins * p.n ∧
      ∀ k j, cumul p.bins d k j = cumul p.bins d1 k j + (ds.map fun d => cumul p.bins d k j).sum := by
  induction ds with
  | nil => exact fun d1 h1 _ => ⟨d1, rfl, h1, by simp⟩
  | cons d2 ds ih =>
    intro d1 h1 h2
    obtain ⟨d, g1, g2, g3⟩ := join_spec p d1 d2 h1 (h2 d2 (by simp))
    obtain ⟨d', f1, f2, f3⟩ := ih d g2 (fun d hd => h2 d (by simp [hd]))
    refine ⟨d', ?_, f2, fun k j => ?_⟩
    · unfold joinAll at f1 ⊢
      rw [List.map_cons, List.foldlM_cons, g1]; exact f1
    · rw [f3 k j, g3 k j, List.map_cons, List.sum_cons, add_assoc]

theorem workers_spec (p : ProfileRing K) (hw : WF p) (workers : List (ProfileRing K × List (Op K))) :
    (∀ w ∈ workers, Usable p w.1 ∧ Sensible p.n w.2) →
    ∃ ds : List (List K), (workers.mapM fun w => insertAll (split p w.1) w.2) = some (ds.map fun d => { p with derivs := d }) ∧
      (∀ d ∈ ds, d.length = p.bins * p.n) ∧
      ∀ k j, j < p.bins → (ds.map fun d => cumul p.bins d k j).sum = (workers.map fun w => total p.lowR p.highR p.bins w.2 k j).sum := by
  induction workers with
  | nil => exact fun _ => ⟨[], rfl, by simp, by simp⟩
  | cons w workers ih =>
    intro h
    obtain ⟨ds, h1, h2, h3⟩ := ih (fun w hw => h w (by simp [hw]))
    obtain ⟨hu, hs⟩ := h w (by simp)
    obtain ⟨d0, e1, e2, e3⟩ := split_spec p w.1 hw hu
    obtain ⟨d, g1, g2, g3⟩ := insertAll_spec w.2 { p with derivs := d0 } ⟨e2, hw.pos, hw.lt, hw.dr⟩ hs
    simp only at g1 g2 g3
    refine ⟨d :: ds, ?_, ?_, ?_⟩
    · rw [List.mapM_cons, e1, g1, h1]; rfl
    · intro d' hd'
      rcases List.mem_cons.mp hd' with rfl | hd'
      · exact g2
      · exact h2 _ hd'
    · intro k j hj
      rw [List.map_cons, List.sum_cons, List.map_cons, List.sum_cons, h3 k j hj, g3 k j hj, cumul_zero _ _ e3, zero_add]

theorem total_append (lowR highR : K) (bins : Nat) (a b : List (Op K)) (k j : Nat) :
    total lowR highR bins (a ++ b) k j = total lowR highR bins a k j + total lowR highR bins b k j := by
  simp [total, List.filter_append]

theorem total_flatten (lowR highR : K) (bins : Nat) (l : List (List (Op K))) (k j : Nat) :
    total lowR highR bins l.flatten k j = (l.map fun a => total lowR highR bins a k j).sum := by
  induction l with
  | nil => simp [total]
  | cons a l ih => rw [List.flatten_cons, total_append, ih, List.map_cons, List.sum_cons]

theorem parallel_spec (p : ProfileRing K) (hw : WF p) (own : List (Op K)) (hown : Sensible p.n own) (workers : List (ProfileRing K × List (Op K)))
    (h : ∀ w ∈ workers, Usable p w.1 ∧ Sensible p.n w.2) :
    ∃ d, parallel p own workers = some { p with derivs := d } ∧ d.length = p.bins * p.n ∧
      ∀ k j, j < p.bins → cumul p.bins d k j = cumul p.bins p.derivs k j + total p.lowR p.highR p.bins (own ++ (workers.map Prod.snd).flatten) k j := by
  obtain ⟨d1, h1, h2, h3⟩ := insertAll_spec own p hw hown
  obtain ⟨ds, g1, g2, g3⟩ := workers_spec p hw workers h
  obtain ⟨d, f1, f2, f3⟩ := joinAll_spec p ds d1 h2 g2
  refine ⟨d, ?_, f2, fun k j hj => ?_⟩
  · unfold parallel
    rw [h1, Option.bind_some, g1, Option.bind_some, f1]
  · rw [f3 k j, h3 k j hj, g3 k j hj, total_append, total_flatten, List.map_map, add_assoc]
    rfl

theorem total_perm (lowR highR : K) (bins : Nat) (a b : List (Op K)) (h : a.Perm b) (k j : Nat) : total lowR highR bins a k j = total lowR highR bins b k j :=
  ((h.filter _).map _).sum_eq

theorem retrieve_congr (p : ProfileRing K) (d d' : List K) (h : d.length = p.bins * p.n) (h' : d'.length = p.bins * p.n)
    (hc : ∀ k j, j < p.bins → cumul p.bins d k j = cumul p.bins d' k j) (i : Nat) (hi : i < p.n) (out : List K) (ho : out.length = p.bins) :
    retrieve { p with derivs := d } i out = retrieve { p with derivs := d' } i out := by
  rw [retrieve_eq { p with derivs := d } h i hi out ho, retrieve_eq { p with derivs := d' } h' i hi out ho]
  congr 1
  exact List.map_congr_left (fun j hj => hc i j (List.mem_range.mp hj))

/-- C20 for one ring: however the calls are distributed over the owner and the workers, splitting, inserting and joining gives, without a panic, the
profiles that inserting all of them into `p` in any order gives. -/
theorem C20_distribution_irrelevant (p : ProfileRing K) (hw : WF p) (own : List (Op K)) (hown : Sensible p.n own) (workers : List (ProfileRing K × List (Op K)))
    (h : ∀ w ∈ workers, Usable p w.1 ∧ Sensible p.n w.2) (all : List (Op K)) (hall : all.Perm (own ++ (workers.map Prod.snd).flatten)) :
    ∃ q s, parallel p own workers = some q ∧ insertAll p all = some s ∧
      ∀ i out, i < p.n → out.length = p.bins → retrieve q i out = retrieve s i out := by
  obtain ⟨d, h1, h2, h3⟩ := parallel_spec p hw own hown workers h
  have hs : Sensible p.n all := by
    intro o ho
    rcases List.mem_append.mp (hall.mem_iff.mp ho) with ho | ho
    · exact hown o ho
    · obtain ⟨l, hl, hol⟩ := List.mem_flatten.mp ho
      obtain ⟨w, hw, rfl⟩ := List.mem_map.mp hl
      exact (h w hw).2 o hol
  obtain ⟨d', g1, g2, g3⟩ := insertAll_spec all p hw hs
  refine ⟨_, _, h1, g1, fun i out hi ho => retrieve_congr p d d' h2 g2 (fun k j hj => ?_) i hi out ho⟩
  rw [h3 k j hj, g3 k j hj, total_perm _ _ _ _ _ hall]

/-- C20: rings with different numbers of lines of sight or of bins are never joined: that is a panic, not a wrong profile. -/
theorem C20_join_mismatch (p q : ProfileRing K) (h : p.n ≠ q.n ∨ p.bins ≠ q.bins) : join p q = none := by
  unfold join
  rw [if_pos h]

example : join (init (0 : ℚ) 1 3 2) (init 0 1 2 2) = none := C20_join_mismatch _ _ (Or.inr (by simp [init]))

/-- C20: splitting adds no mass: splitting scratch rings off and joining them at once changes no profile. -/
theorem C20_split_join_neutral (p : ProfileRing K) (hw : WF p) (qs : List (ProfileRing K)) (hq : ∀ q ∈ qs, Usable p q) :
    ∃ r, joinAll p (qs.map (split p)) = some r ∧ ∀ i out, i < p.n → out.length = p.bins → retrieve r i out = retrieve p i out := by
  obtain ⟨q, s, h1, h2, h3⟩ := C20_distribution_irrelevant p hw [] (by simp [Sensible]) (qs.map fun q => (q, [])) (by
    intro w hw
    obtain ⟨q, hq', rfl⟩ := List.mem_map.mp hw
    exact ⟨hq q hq', by simp [Sensible]⟩) [] (by
      have : ((qs.map fun q => ((q, []) : ProfileRing K × List (Op K))).map Prod.snd).flatten = [] := by simp
      rw [this]; exact List.Perm.nil)
  have hsp : s = p := by simp [insertAll] at h2; exact h2.symm
  subst hsp
  refine ⟨q, ?_, h3⟩
  have hm : ∀ l : List (ProfileRing K), ((l.map fun q => ((q, []) : ProfileRing K × List (Op K))).mapM fun w => insertAll (split s w.1) w.2) = some (l.map (split s)) := by
    intro l
    induction l with
    | nil => rfl
    | cons a l ih => rw [List.map_cons, List.mapM_cons, ih]; rfl
  unfold parallel at h1
  rw [h2, Option.bind_some, hm, Option.bind_some] at h1
  exact h1

/-- C20 without the condition on the bin width is false of the code: line 64 of `Split` keeps the stale width of a scratch ring with the same shape
but another range, and the share of that worker then lands in other bins. -/
theorem C20_stale_width_false : ∃ (p q : ProfileRing ℚ) (o : Op ℚ), WF p ∧ WF q ∧ Sensible p.n [o] ∧
    (parallel p [] [(q, [o])]).bind (fun r => retrieve r 0 [0, 0]) = some [0, 1] ∧
    (insertAll p [o]).bind (fun r => retrieve r 0 [0, 0]) = some [1/2, 1] := by
  refine ⟨init 0 2 2 2, init 0 1 2 2, ⟨((1/2 : ℚ) : WithBot ℚ), ((2 : ℚ) : WithBot ℚ), 1, 0⟩, init_WF _ _ _ _ (by norm_num) (by norm_num), init_WF _ _ _ _ (by norm_num) (by norm_num), ?_, ?_, ?_⟩
  · intro o ho
    rw [List.mem_singleton.mp ho]
    exact ⟨by decide, WithBot.coe_le_coe.mpr (by norm_num)⟩
  · decide +kernel
  · decide +kernel

-- the hypotheses of C20 are met by a fresh worker and by a worker used before for another halo with the same radial range in bins
example : Usable (init (1 : ℚ) 3 2 2) ⟨[], 0, 0, 0, 0, 0⟩ ∧ Usable (init (1 : ℚ) 3 2 2) (init 5 7 2 2) := by
  refine ⟨Or.inl (Or.inl (by decide)), Or.inr ⟨by simp [init], by norm_num [init]⟩⟩

end Shellfish.Los
