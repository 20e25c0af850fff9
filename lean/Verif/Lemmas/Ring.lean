/- Lemmas about the model of los/profile_ring.go. -/
import Verif.Model.Ring
import Mathlib.Algebra.BigOperators.Group.Finset.Basic
import Mathlib.Algebra.BigOperators.Ring.Finset
import Mathlib.Algebra.Order.BigOperators.Group.Finset
import Mathlib.Tactic.Ring
import Mathlib.Tactic.Linarith
import Mathlib.Tactic.FieldSimp
import Mathlib.Tactic.Positivity
import Mathlib.Tactic.SplitIfs
import Mathlib.Tactic.NormNum
import Mathlib.Algebra.BigOperators.Intervals

namespace Shellfish.Los
open Finset

variable {K : Type} [Field K] [LinearOrder K] [IsStrictOrderedRing K] [FloorRing K]

/-- the value that `Retrieve` reports for bin `j` of profile `k` of a block of derivatives -/
def cumul (bins : Nat) (d : List K) (k j : Nat) : K := ∑ t ∈ range (j + 1), d.getD (t + bins * k) 0

theorem addAt_some (l : List K) (m : Nat) (x : K) (h : m < l.length) :
    addAt l (m : Int) x = some (l.modify m (· + x)) := by
  unfold addAt
  rw [if_pos ⟨by omega, by omega⟩]; simp

theorem getD_modify (l : List K) (m t : Nat) (x : K) (h : m < l.length) :
    (l.modify m (· + x)).getD t 0 = l.getD t 0 + if t = m then x else 0 := by
  simp only [List.getD_eq_getElem?_getD, List.getElem?_modify]
  by_cases htm : t = m
  · subst htm
    simp [List.getElem?_eq_getElem h]
  · have : ¬ m = t := fun e => htm e.symm
    simp [htm, this]

theorem sum_ite_index (bins k i m j : Nat) (hm : m < bins) (hj : j < bins) (v : K) :
    ∑ t ∈ range (j + 1), (if t + bins * k = i * bins + m then v else 0) = if k = i ∧ m ≤ j then v else 0 := by
  have key : ∀ t, t < bins → (t + bins * k = i * bins + m ↔ k = i ∧ t = m) := by
    intro t ht
    constructor
    · intro h
      have h1 : (t + bins * k) / bins = k := by
        rw [Nat.add_mul_div_left _ _ (by omega), Nat.div_eq_of_lt ht]; simp
      have h2 : (i * bins + m) / bins = i := by
        rw [Nat.mul_comm i bins, Nat.mul_add_div (by omega), Nat.div_eq_of_lt hm]; simp
      have h3 : k = i := by rw [← h1, ← h2, h]
      subst h3
      exact ⟨rfl, by rw [Nat.mul_comm k bins] at h; omega⟩
    · rintro ⟨rfl, rfl⟩
      rw [Nat.mul_comm]; omega
  rw [Finset.sum_congr rfl (fun t ht => by
    rw [if_congr (key t (by have := mem_range.mp ht; omega)) rfl rfl])]
  by_cases hk : k = i
  · simp only [hk, true_and]
    rw [Finset.sum_ite_eq']
    simp [Nat.lt_succ_iff]
  · simp [hk]

theorem cumul_modify (bins n k i m j : Nat) (d : List K) (hl : d.length = bins * n) (hi : i < n) (hm : m < bins) (hj : j < bins) (x : K) :
    cumul bins (d.modify (i * bins + m) (· + x)) k j = cumul bins d k j + if k = i ∧ m ≤ j then x else 0 := by
  have hlt : i * bins + m < d.length := by
    rw [hl]
    calc i * bins + m < i * bins + bins := by omega
      _ = bins * (i + 1) := by ring
      _ ≤ bins * n := Nat.mul_le_mul_left _ hi
  unfold cumul
  simp only [getD_modify _ _ _ _ hlt, Finset.sum_add_distrib]
  rw [sum_ite_index bins k i m j hm hj]

/-- the response of bin `j` to a unit step at position `x` (in bins) -/
def ramp (x : K) (j : Nat) : K := max 0 (min 1 ((j : K) + 1 - x))

theorem ramp_floor (x : K) (hx : 0 ≤ x) (j : Nat) :
    ramp x j = (if ⌊x⌋.toNat ≤ j then 1 - (x - ⌊x⌋) else 0) + (if ⌊x⌋.toNat + 1 ≤ j then (x - ⌊x⌋) else 0) := by
  have h0 : (0 : Int) ≤ ⌊x⌋ := Int.floor_nonneg.mpr hx
  obtain ⟨m, hm⟩ := Int.eq_ofNat_of_zero_le h0
  have hle := Int.floor_le x
  have hlt := Int.lt_floor_add_one x
  rw [hm] at hle hlt ⊢
  simp only [Int.ofNat_eq_natCast, Int.toNat_natCast, Int.cast_natCast] at *
  unfold ramp
  rcases lt_trichotomy m j with h | h | h
  · have : ((m : K) + 1) ≤ j := by exact_mod_cast h
    rw [if_pos (by omega), if_pos (by omega), min_eq_left (by linarith), max_eq_right (by norm_num)]; ring
  · subst h
    rw [if_pos (by omega), if_neg (by omega), min_eq_right (by linarith), max_eq_right (by linarith)]; ring
  · have : ((j : K) + 1) ≤ m := by exact_mod_cast h
    rw [if_neg (by omega), if_neg (by omega), max_eq_left]; · simp
    exact le_trans (min_le_right _ _) (by linarith)

/-- one edge: it never panics on a block of the right size and raises exactly profile `i` -/
theorem step_spec (p : ProfileRing K) (r rho : K) (i : Nat) (d : List K) (hl : d.length = p.bins * p.n) (hi : i < p.n)
    (h0 : 0 ≤ (r - p.lowR) / p.dr) (h1 : (r - p.lowR) / p.dr < p.bins) :
    ∃ d', step p r rho i d = some d' ∧ d'.length = p.bins * p.n ∧
      ∀ k j, j < p.bins → cumul p.bins d' k j = cumul p.bins d k j + if k = i then rho * ramp ((r - p.lowR) / p.dr) j else 0 := by
  have hfl : (0 : Int) ≤ ⌊(r - p.lowR) / p.dr⌋ := Int.floor_nonneg.mpr h0
  obtain ⟨m, hm⟩ := Int.eq_ofNat_of_zero_le hfl
  have hmb : m < p.bins := by
    have : ⌊(r - p.lowR) / p.dr⌋ < (p.bins : Int) := by
      rw [Int.floor_lt]; exact_mod_cast h1
    rw [hm] at this; exact_mod_cast this
  have hramp := ramp_floor _ h0
  rw [hm] at hramp
  simp only [Int.ofNat_eq_natCast, Int.toNat_natCast, Int.cast_natCast] at hramp
  have hbound : ∀ q, q < p.bins → i * p.bins + q < d.length := by
    intro q hq
    rw [hl]
    calc i * p.bins + q < i * p.bins + p.bins := by omega
      _ = p.bins * (i + 1) := by ring
      _ ≤ p.bins * p.n := Nat.mul_le_mul_left _ hi
  unfold step modf
  rw [if_pos h0, hm]
  simp only [Int.ofNat_eq_natCast, Int.cast_natCast]
  rw [show ((i : Int) * p.bins + m) = ((i * p.bins + m : Nat) : Int) by push_cast; ring, addAt_some _ _ _ (hbound m hmb), Option.bind_some]
  by_cases hlast : (m : Int) < (p.bins : Int) - 1
  · rw [if_pos hlast, show (((i * p.bins + m : Nat) : Int) + 1) = ((i * p.bins + (m + 1) : Nat) : Int) by push_cast; ring,
      addAt_some _ _ _ (by rw [List.length_modify]; exact hbound _ (by omega))]
    refine ⟨_, rfl, by simp [hl], ?_⟩
    intro k j hj
    rw [cumul_modify p.bins p.n k i (m + 1) j _ (by simp [hl]) hi (by omega) hj, cumul_modify p.bins p.n k i m j _ hl hi hmb hj, hramp]
    by_cases hk : k = i <;> simp only [hk, true_and, false_and, if_true, if_false]
    · split_ifs <;> ring
    · ring
  · rw [if_neg hlast]
    refine ⟨_, rfl, by simp [hl], ?_⟩
    intro k j hj
    rw [cumul_modify p.bins p.n k i m j _ hl hi hmb hj, hramp]
    have : ¬ m + 1 ≤ j := by omega
    by_cases hk : k = i <;> simp only [hk, true_and, false_and, if_true, if_false, this]
    · split_ifs <;> ring

/-- a ring as `Init` leaves it, up to the derivatives -/
structure WF (p : ProfileRing K) : Prop where
  len : p.derivs.length = p.bins * p.n
  pos : 0 < p.bins
  lt : p.lowR < p.highR
  dr : p.dr = (p.highR - p.lowR) / (p.bins : K)

theorem WF.dr_pos {p : ProfileRing K} (h : WF p) : 0 < p.dr := by
  rw [h.dr]
  have : (0 : K) < p.bins := by exact_mod_cast h.pos
  have := h.lt
  apply div_pos <;> linarith

theorem WF.dr_mul {p : ProfileRing K} (h : WF p) : p.dr * p.bins = p.highR - p.lowR := by
  rw [h.dr]
  have : (p.bins : K) ≠ 0 := by exact_mod_cast h.pos.ne'
  field_simp

/-- the position of a radius in bins -/
def pos (p : ProfileRing K) (r : K) : K := (r - p.lowR) / p.dr

/-- the response of bin `j` to a rising edge at `start` -/
def rise (p : ProfileRing K) (start : WithBot K) (j : Nat) : K :=
  match start with
  | ⊥ => 1
  | (s : K) => ramp (pos p s) j

theorem ramp_nonpos (x : K) (j : Nat) (h : x ≤ 0) : ramp x j = 1 := by
  unfold ramp
  have : (0 : K) ≤ j := Nat.cast_nonneg j
  rw [min_eq_left (by linarith), max_eq_right (by norm_num)]

theorem ramp_ge (x : K) (j b : Nat) (hb : (b : K) ≤ x) (hj : j < b) : ramp x j = 0 := by
  unfold ramp
  have : (j : K) + 1 ≤ b := by exact_mod_cast hj
  exact max_eq_left (le_trans (min_le_right _ _) (by linarith))

theorem pos_range {p : ProfileRing K} (h : WF p) (r : K) (h1 : p.lowR ≤ r) (h2 : r < p.highR) : 0 ≤ pos p r ∧ pos p r < p.bins := by
  have hd := h.dr_pos
  refine ⟨div_nonneg (by linarith) hd.le, ?_⟩
  unfold pos
  rw [div_lt_iff₀ hd, mul_comm, h.dr_mul]; linarith

theorem pos_ge {p : ProfileRing K} (h : WF p) (r : K) (h2 : p.highR ≤ r) : (p.bins : K) ≤ pos p r := by
  have hd := h.dr_pos
  unfold pos
  rw [le_div_iff₀ hd, mul_comm, h.dr_mul]; linarith

theorem pos_nonpos {p : ProfileRing K} (h : WF p) (r : K) (h2 : r ≤ p.lowR) : pos p r ≤ 0 :=
  div_nonpos_of_nonpos_of_nonneg (by linarith) h.dr_pos.le

theorem addFirst_spec (p : ProfileRing K) (h : WF p) (rho : K) (i : Nat) (d : List K) (hl : d.length = p.bins * p.n) (hi : i < p.n) :
    ∃ d', addAt d (i * p.bins) rho = some d' ∧ d'.length = p.bins * p.n ∧
      ∀ k j, j < p.bins → cumul p.bins d' k j = cumul p.bins d k j + if k = i then rho else 0 := by
  have hb : i * p.bins < d.length := by
    rw [hl]
    calc i * p.bins < i * p.bins + p.bins := by have := h.pos; omega
      _ = p.bins * (i + 1) := by ring
      _ ≤ p.bins * p.n := Nat.mul_le_mul_left _ hi
  rw [show ((i : Int) * p.bins) = ((i * p.bins : Nat) : Int) by push_cast; ring, addAt_some _ _ _ hb]
  refine ⟨_, rfl, by simp [hl], ?_⟩
  intro k j hj
  have := cumul_modify p.bins p.n k i 0 j d hl hi h.pos hj rho
  simpa using this

theorem insertStart_spec (p : ProfileRing K) (h : WF p) (start : WithBot K) (hs : ¬ (p.highR : WithBot K) ≤ start) (rho : K) (i : Nat) (hi : i < p.n) (d : List K)
    (hl : d.length = p.bins * p.n) :
    ∃ d', insertStart p start rho i d = some d' ∧ d'.length = p.bins * p.n ∧
      ∀ k j, j < p.bins → cumul p.bins d' k j = cumul p.bins d k j + if k = i then rho * rise p start j else 0 := by
  induction start using WithBot.recBotCoe with
  | bot =>
    obtain ⟨d', h1, h2, h3⟩ := addFirst_spec p h rho i d hl hi
    exact ⟨d', h1, h2, fun k j hj => by rw [h3 k j hj]; simp [rise]⟩
  | coe s =>
    have hs' : s < p.highR := by
      by_contra hc
      exact hs (WithBot.coe_le_coe.mpr (not_lt.mp hc))
    simp only [insertStart]
    by_cases hlow : p.lowR < s
    · rw [if_pos hlow]
      have := pos_range h s hlow.le hs'
      exact step_spec p s rho i d hl hi this.1 this.2
    · rw [if_neg hlow]
      obtain ⟨d', h1, h2, h3⟩ := addFirst_spec p h rho i d hl hi
      refine ⟨d', h1, h2, fun k j hj => ?_⟩
      rw [h3 k j hj]
      simp only [rise]
      rw [ramp_nonpos _ _ (pos_nonpos h s (not_lt.mp hlow))]; simp

theorem insertEnd_spec (p : ProfileRing K) (h : WF p) (e : K) (he : p.lowR < e) (rho : K) (i : Nat) (hi : i < p.n) (d : List K)
    (hl : d.length = p.bins * p.n) :
    ∃ d', insertEnd p e rho i d = some d' ∧ d'.length = p.bins * p.n ∧
      ∀ k j, j < p.bins → cumul p.bins d' k j = cumul p.bins d k j - if k = i then rho * ramp (pos p e) j else 0 := by
  unfold insertEnd
  by_cases hh : e < p.highR
  · rw [if_pos hh]
    have := pos_range h e he.le hh
    obtain ⟨d', h1, h2, h3⟩ := step_spec p e (-rho) i d hl hi this.1 this.2
    refine ⟨d', h1, h2, fun k j hj => ?_⟩
    rw [h3 k j hj]; unfold pos; split_ifs <;> ring
  · rw [if_neg hh]
    refine ⟨d, rfl, hl, fun k j hj => ?_⟩
    rw [ramp_ge _ j p.bins (pos_ge h e (not_lt.mp hh)) hj]; simp

/-- what an insertion adds to bin `j` of its profile -/
def gain (p : ProfileRing K) (start stop : WithBot K) (rho : K) (j : Nat) : K :=
  match stop with
  | ⊥ => 0
  | (e : K) => if e ≤ p.lowR ∨ (p.highR : WithBot K) ≤ start then 0 else rho * (rise p start j - ramp (pos p e) j)

theorem insert_spec (p : ProfileRing K) (h : WF p) (start stop : WithBot K) (rho : K) (i : Nat) (hi : i < p.n) :
    ∃ d', insert p start stop rho i = some { p with derivs := d' } ∧ d'.length = p.bins * p.n ∧
      ∀ k j, j < p.bins → cumul p.bins d' k j = cumul p.bins p.derivs k j + if k = i then gain p start stop rho j else 0 := by
  induction stop using WithBot.recBotCoe with
  | bot => exact ⟨p.derivs, rfl, h.len, by simp [gain]⟩
  | coe e =>
    simp only [insert, gain]
    by_cases hc : e ≤ p.lowR ∨ (p.highR : WithBot K) ≤ start
    · simp only [if_pos hc]; exact ⟨p.derivs, rfl, h.len, by simp⟩
    · simp only [if_neg hc]
      rw [not_or] at hc
      obtain ⟨d1, h1, h2, h3⟩ := insertStart_spec p h start hc.2 rho i hi p.derivs h.len
      obtain ⟨d2, g1, g2, g3⟩ := insertEnd_spec p h e (not_le.mp hc.1) rho i hi d1 h2
      refine ⟨d2, by rw [h1, Option.bind_some, g1]; rfl, g2, fun k j hj => ?_⟩
      rw [g3 k j hj, h3 k j hj]
      split_ifs <;> ring

/-! `Retrieve` -/

theorem retrieveLoop_spec (p : ProfileRing K) (hl : p.derivs.length = p.bins * p.n) (i : Nat) (hi : i < p.n) (out : List K) :
    ∀ todo j sum, j + todo = p.bins → p.bins ≤ out.length →
      ∃ out', retrieveLoop p i todo j sum out = some out' ∧ out'.length = out.length ∧
        ∀ q, out'[q]? = if j ≤ q ∧ q < p.bins then some (sum + ∑ t ∈ Ico j (q + 1), p.derivs.getD (t + p.bins * i) 0) else out[q]? := by
  intro todo
  induction todo generalizing out with
  | zero =>
    intro j sum hj ho
    refine ⟨out, rfl, rfl, fun q => ?_⟩
    rw [if_neg (by omega)]
  | succ todo ih =>
    intro j sum hj ho
    have hidx : j + p.bins * i < p.derivs.length := by
      rw [hl]
      calc j + p.bins * i < p.bins + p.bins * i := by omega
        _ = p.bins * (i + 1) := by ring
        _ ≤ p.bins * p.n := Nat.mul_le_mul_left _ hi
    rw [retrieveLoop, List.getElem?_eq_getElem hidx]
    simp only
    rw [if_pos (by omega)]
    obtain ⟨out', h1, h2, h3⟩ := ih (out.set j (sum + p.derivs[j + p.bins * i])) (j + 1) (sum + p.derivs[j + p.bins * i]) (by omega) (by simpa using ho)
    refine ⟨out', h1, by simpa using h2, fun q => ?_⟩
    rw [h3 q]
    have hget : p.derivs.getD (j + p.bins * i) 0 = p.derivs[j + p.bins * i] := by simp [List.getD_eq_getElem?_getD, List.getElem?_eq_getElem hidx]
    rcases lt_trichotomy q j with hq | hq | hq
    · rw [if_neg (by omega), if_neg (by omega), List.getElem?_set_ne (by omega)]
    · subst hq
      rw [if_neg (by omega), if_pos ⟨le_refl _, by omega⟩, List.getElem?_set_self (by omega), Nat.Ico_succ_singleton,
        Finset.sum_singleton, hget]
    · by_cases hb : q < p.bins
      · rw [if_pos ⟨by omega, hb⟩, if_pos ⟨by omega, hb⟩, Finset.sum_eq_sum_Ico_succ_bot (show j < q + 1 by omega), hget, add_assoc]
      · rw [if_neg (by omega), if_neg (by omega), List.getElem?_set_ne (by omega)]

theorem retrieve_spec (p : ProfileRing K) (hl : p.derivs.length = p.bins * p.n) (i : Nat) (hi : i < p.n) (out : List K) (ho : p.bins ≤ out.length) :
    ∃ out', retrieve p i out = some out' ∧ out'.length = out.length ∧
      ∀ q, out'[q]? = if q < p.bins then some (cumul p.bins p.derivs i q) else out[q]? := by
  obtain ⟨out', h1, h2, h3⟩ := retrieveLoop_spec p hl i hi out p.bins 0 0 (by omega) ho
  refine ⟨out', h1, h2, fun q => ?_⟩
  rw [h3 q]
  simp only [zero_add, Nat.zero_le, true_and, cumul, Finset.range_eq_Ico]

/-! `Join` and `Split` -/

theorem joinDerivs_spec (d1 d2 : List K) (h : d1.length = d2.length) :
    ∃ d, joinDerivs d1 d2 = some d ∧ d.length = d1.length ∧ ∀ t, d.getD t 0 = d1.getD t 0 + d2.getD t 0 := by
  unfold joinDerivs
  rw [if_pos (by omega), h]
  refine ⟨_, rfl, by simp [h], fun t => ?_⟩
  simp only [Nat.sub_self, List.replicate_zero, List.append_nil, List.getD_eq_getElem?_getD, List.getElem?_zipWith]
  by_cases ht : t < d1.length
  · rw [List.getElem?_eq_getElem ht, List.getElem?_eq_getElem (h ▸ ht)]; simp
  · rw [List.getElem?_eq_none (by omega), List.getElem?_eq_none (by omega)]; simp

theorem cumul_zero (bins : Nat) (d : List K) (h : ∀ t, d.getD t 0 = 0) (k j : Nat) : cumul bins d k j = 0 := by
  unfold cumul; exact Finset.sum_eq_zero (fun t _ => h _)

end Shellfish.Los
