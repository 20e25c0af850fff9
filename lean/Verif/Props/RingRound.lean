/-
C121: the densities along a line of sight in machine arithmetic.
-/
import Verif.Model.RingRound
import Verif.Props.Ring
import Verif.Props.Round
import Verif.Props.BootRound

namespace Shellfish.Round
open Shellfish.Los
open Finset

/-! ### Errors of sums -/

/-- `x` is the sum `s`, of terms whose sizes add up to `a`, with the errors of up to `m` roundings of each term. -/
def Acc (x s a : ℚ) (m : ℕ) : Prop := |x - s| ≤ ((1 + 1 / 2 ^ 53) ^ m - 1) * a ∧ |s| ≤ a

theorem acc_self (x : ℚ) : Acc x x |x| 0 := by
  unfold Acc
  simp

theorem acc_zero (m : ℕ) : Acc 0 0 0 m := by
  unfold Acc
  simp

theorem acc_mono {x s a : ℚ} {m m' : ℕ} (h : Acc x s a m) (hm : m ≤ m') : Acc x s a m' := by
  refine ⟨h.1.trans (mul_le_mul_of_nonneg_right ?_ ((abs_nonneg _).trans h.2)), h.2⟩
  have := pow_le_pow_right₀ (by norm_num : (1 : ℚ) ≤ 1 + 1 / 2 ^ 53) hm
  linarith

theorem acc_add {x s a y t b : ℚ} {m : ℕ} (h : Acc x s a m) (h' : Acc y t b m) : Acc (r64 (x + y)) (s + t) (a + b) (m + 1) := by
  refine ⟨?_, (abs_add_le _ _).trans (add_le_add h.2 h'.2)⟩
  have e := (C95_rounding (x + y)).2.2.2.2
  have hg : (0 : ℚ) ≤ (1 + 1 / 2 ^ 53) ^ m - 1 := by
    have := one_le_pow₀ (by norm_num : (1 : ℚ) ≤ 1 + 1 / 2 ^ 53) (n := m)
    linarith
  have hd : |x + y - (s + t)| ≤ ((1 + 1 / 2 ^ 53) ^ m - 1) * (a + b) := by
    rw [show x + y - (s + t) = (x - s) + (y - t) by ring, mul_add]
    exact (abs_add_le _ _).trans (add_le_add h.1 h'.1)
  have hs : |x + y| ≤ (1 + 1 / 2 ^ 53) ^ m * (a + b) := by
    have := abs_sub_abs_le_abs_sub (x + y) (s + t)
    have h2 := (abs_add_le s t).trans (add_le_add h.2 h'.2)
    linarith
  have ht := abs_sub_le (r64 (x + y)) (x + y) (s + t)
  have hp : ((1 + 1 / 2 ^ 53 : ℚ) ^ (m + 1) - 1) * (a + b) = (1 + 1 / 2 ^ 53) ^ m * (a + b) / 2 ^ 53 + ((1 + 1 / 2 ^ 53) ^ m - 1) * (a + b) := by ring
  rw [hp]
  have hdiv : |x + y| / 2 ^ 53 ≤ (1 + 1 / 2 ^ 53) ^ m * (a + b) / 2 ^ 53 := div_le_div_of_nonneg_right hs (by norm_num)
  linarith

theorem pow_bound (m : ℕ) (h : m ≤ 2 ^ 52) : (1 + 1 / 2 ^ 53 : ℚ) ^ m - 1 ≤ 2 * m / 2 ^ 53 := by
  induction m with
  | zero => simp
  | succ m ih =>
    have hm := ih (by omega)
    have hm' : (m : ℚ) ≤ 2 ^ 52 := by exact_mod_cast (by omega : m ≤ 2 ^ 52)
    rw [pow_succ]
    push_cast
    generalize (1 + 1 / 2 ^ 53 : ℚ) ^ m = P at hm ⊢
    have h0 : (0 : ℚ) ≤ m := Nat.cast_nonneg m
    generalize (m : ℚ) = M at *
    have hP : P * (1 + 1 / 2 ^ 53) ≤ (1 + 2 * M / 2 ^ 53) * (1 + 1 / 2 ^ 53) := mul_le_mul_of_nonneg_right (by linarith) (by norm_num)
    have hM : (1 + 2 * M / 2 ^ 53) * (1 + 1 / 2 ^ 53) ≤ 1 + 2 * (M + 1) / 2 ^ 53 := by
      norm_num at hm' ⊢
      linarith
    linarith

/-! ### One line of sight -/

/-- The machine's derivatives `d` of line `k` stand for the densities `C`: up to `E` and the errors of `m` roundings of terms of total size `B`. -/
def Est (bins : ℕ) (d : List ℚ) (k : ℕ) (C : ℕ → ℚ) (E B : ℚ) (m : ℕ) : Prop :=
  ∃ S A : ℕ → ℚ, (∀ t < bins, Acc (d.getD (t + bins * k) 0) (S t) (A t) m) ∧ ∀ j < bins, |∑ t ∈ range (j + 1), S t - C j| ≤ E ∧ ∑ t ∈ range (j + 1), A t ≤ B

theorem est_zero (bins : ℕ) (d : List ℚ) (k : ℕ) (h : ∀ t, d.getD t 0 = 0) : Est bins d k (fun _ => 0) 0 0 0 :=
  ⟨fun _ => 0, fun _ => 0, fun t _ => by rw [h]; exact acc_zero 0, fun j _ => by simp⟩

theorem est_mono {bins : ℕ} {d : List ℚ} {k : ℕ} {C : ℕ → ℚ} {E B : ℚ} {m m' : ℕ} (h : Est bins d k C E B m) (hm : m ≤ m') : Est bins d k C E B m' := by
  obtain ⟨S, A, h1, h2⟩ := h
  exact ⟨S, A, fun t ht => acc_mono (h1 t ht) hm, h2⟩

theorem est_same {bins : ℕ} {d d' : List ℚ} {k : ℕ} {C : ℕ → ℚ} {E B : ℚ} {m : ℕ} (h : Est bins d k C E B m) (he : ∀ t < bins, d'.getD (t + bins * k) 0 = d.getD (t + bins * k) 0) : Est bins d' k C E B m := by
  obtain ⟨S, A, h1, h2⟩ := h
  exact ⟨S, A, fun t ht => by rw [he t ht]; exact h1 t ht, h2⟩

theorem getD_modifyR (l : List ℚ) (m t : ℕ) (x : ℚ) (h : m < l.length) : (l.modify m (fun a => r64 (a + x))).getD t 0 = if t = m then r64 (l.getD t 0 + x) else l.getD t 0 := by
  simp only [List.getD_eq_getElem?_getD, List.getElem?_modify]
  by_cases htm : t = m
  · subst htm
    simp [List.getElem?_eq_getElem h]
  · have : ¬ m = t := fun e => htm e.symm
    simp [htm, this]

/-- One update `derivs[i*bins+q] += x`. -/
theorem addR_spec (bins n i q : ℕ) (d : List ℚ) (x : ℚ) (hl : d.length = bins * n) (hi : i < n) (hq : q < bins) :
    ∃ d', addAtR d ((i : ℤ) * bins + q) x = some d' ∧ d'.length = bins * n ∧ (∀ k, k ≠ i → ∀ t < bins, d'.getD (t + bins * k) 0 = d.getD (t + bins * k) 0) ∧
      ∀ t < bins, d'.getD (t + bins * i) 0 = if t = q then r64 (d.getD (t + bins * i) 0 + x) else d.getD (t + bins * i) 0 := by
  have hlt : i * bins + q < d.length := by
    rw [hl]
    calc i * bins + q < i * bins + bins := by omega
      _ = bins * (i + 1) := by ring
      _ ≤ bins * n := Nat.mul_le_mul_left _ hi
  have e : ((i : ℤ) * bins + q) = ((i * bins + q : ℕ) : ℤ) := by push_cast; ring
  unfold addAtR
  rw [e, if_pos ⟨Int.natCast_nonneg _, by exact_mod_cast hlt⟩, Int.toNat_natCast]
  refine ⟨_, rfl, by rw [List.length_modify, hl], ?_, ?_⟩
  · intro k hk t ht
    rw [getD_modifyR _ _ _ _ hlt, if_neg]
    intro he
    apply hk
    have h1 : (t + bins * k) / bins = k := by rw [Nat.add_mul_div_left _ _ (by omega), Nat.div_eq_of_lt ht]; simp
    have h2 : (i * bins + q) / bins = i := by rw [Nat.mul_comm i bins, Nat.mul_add_div (by omega), Nat.div_eq_of_lt hq]; simp
    rw [← h1, ← h2, he]
  · intro t ht
    rw [getD_modifyR _ _ _ _ hlt]
    by_cases htq : t = q
    · rw [if_pos (by rw [htq, Nat.mul_comm]; omega), if_pos htq]
    · rw [if_neg (by rw [Nat.mul_comm]; omega), if_neg htq]

/-- The effect of one update on what the derivatives stand for. -/
theorem est_add {bins : ℕ} {d d' : List ℚ} {i q : ℕ} {x : ℚ} {C : ℕ → ℚ} {E B : ℚ} {m : ℕ} (h : Est bins d i C E B m) (hq : q < bins)
    (hd : ∀ t < bins, d'.getD (t + bins * i) 0 = if t = q then r64 (d.getD (t + bins * i) 0 + x) else d.getD (t + bins * i) 0) :
    Est bins d' i (fun j => C j + if q ≤ j then x else 0) E (B + |x|) (m + 1) := by
  obtain ⟨S, A, h1, h2⟩ := h
  refine ⟨fun t => S t + if t = q then x else 0, fun t => A t + if t = q then |x| else 0, fun t ht => ?_, fun j hj => ?_⟩
  · rw [hd t ht]
    by_cases htq : t = q
    · simp only [htq, if_true]
      exact acc_add (htq ▸ h1 t ht) (acc_mono (acc_self x) (Nat.zero_le _))
    · simp only [htq, if_false, add_zero]
      exact acc_mono (h1 t ht) (Nat.le_succ _)
  · have hsum : ∀ y : ℚ, ∑ t ∈ range (j + 1), (if t = q then y else 0) = if q ≤ j then y else 0 := by
      intro y
      rw [Finset.sum_ite_eq']
      simp [Nat.lt_succ_iff]
    rw [Finset.sum_add_distrib, Finset.sum_add_distrib, hsum, hsum]
    obtain ⟨g1, g2⟩ := h2 j hj
    refine ⟨by rw [add_sub_add_right_eq_sub]; exact g1, ?_⟩
    have : (if q ≤ j then |x| else 0) ≤ |x| := by split_ifs <;> [exact le_rfl; exact abs_nonneg x]
    linarith

theorem est_congr {bins : ℕ} {d : List ℚ} {k : ℕ} {C C' : ℕ → ℚ} {E E' B B' e : ℚ} {m : ℕ} (h : Est bins d k C E B m) (hC : ∀ j < bins, |C j - C' j| ≤ e) (hE : E + e ≤ E') (hB : B ≤ B') : Est bins d k C' E' B' m := by
  obtain ⟨S, A, h1, h2⟩ := h
  refine ⟨S, A, h1, fun j hj => ⟨?_, (h2 j hj).2.trans hB⟩⟩
  have := abs_sub_le (∑ t ∈ range (j + 1), S t) (C j) (C' j)
  linarith [(h2 j hj).1, hC j hj]

theorem quot_ge {s D : ℚ} {n : ℕ} (hn : 0 < n) (hs : 0 ≤ s) (hD : 0 < D) : s / D * n * (1 - 1 / 2 ^ 50) ≤ r64 (r64 s / r64 (r64 D / (n : ℚ))) := by
  have hn' : (0 : ℚ) < n := by exact_mod_cast hn
  have hD1 := (r64_bounds hD.le).2
  have hD1' : 0 < r64 D := lt_of_lt_of_le (by have : (0 : ℚ) < 1 - 1 / 2 ^ 53 := by norm_num
                                              positivity) (r64_bounds hD.le).1
  have hd := (r64_bounds (div_nonneg hD1'.le hn'.le)).2
  have hs1 := (r64_bounds hs).1
  have hdpos : 0 < r64 (r64 D / (n : ℚ)) := (quot_le hn hs hD).1
  have hq := (r64_bounds (div_nonneg (r64_nonneg hs) hdpos.le)).1
  have hdup : r64 (r64 D / (n : ℚ)) ≤ D * (1 + 1 / 2 ^ 53) / n * (1 + 1 / 2 ^ 53) := hd.trans (mul_le_mul_of_nonneg_right (div_le_div_of_nonneg_right hD1 hn'.le) (by norm_num))
  have h1 : s * (1 - 1 / 2 ^ 53) / (D * (1 + 1 / 2 ^ 53) / n * (1 + 1 / 2 ^ 53)) ≤ r64 s / r64 (r64 D / (n : ℚ)) := div_le_div₀ (r64_nonneg hs) hs1 hdpos hdup
  have h2 : s * (1 - 1 / 2 ^ 53) / (D * (1 + 1 / 2 ^ 53) / n * (1 + 1 / 2 ^ 53)) = s / D * n * ((1 - 1 / 2 ^ 53) / (1 + 1 / 2 ^ 53) ^ 2) := by
    have h3 : (1 + 1 / 2 ^ 53 : ℚ) ≠ 0 := by norm_num
    field_simp
  have h3 : 0 ≤ s / D * n := by positivity
  calc s / D * n * (1 - 1 / 2 ^ 50) ≤ s / D * n * ((1 - 1 / 2 ^ 53) / (1 + 1 / 2 ^ 53) ^ 2 * (1 - 1 / 2 ^ 53)) := mul_le_mul_of_nonneg_left (by norm_num) h3
    _ = s * (1 - 1 / 2 ^ 53) / (D * (1 + 1 / 2 ^ 53) / n * (1 + 1 / 2 ^ 53)) * (1 - 1 / 2 ^ 53) := by rw [h2]; ring
    _ ≤ r64 s / r64 (r64 D / (n : ℚ)) * (1 - 1 / 2 ^ 53) := mul_le_mul_of_nonneg_right h1 (by norm_num)
    _ ≤ _ := hq

theorem ramp_lipschitz (x y : ℚ) (j : ℕ) : |ramp x j - ramp y j| ≤ |x - y| := by
  unfold ramp
  have h1 := abs_max_sub_max_le_abs (min 1 ((j : ℚ) + 1 - x)) (min 1 ((j : ℚ) + 1 - y)) 0
  rw [max_comm 0, max_comm 0]
  refine h1.trans ?_
  have h2 := abs_min_sub_min_le_max 1 ((j : ℚ) + 1 - x) 1 ((j : ℚ) + 1 - y)
  rw [sub_self, abs_zero, max_eq_right (abs_nonneg _)] at h2
  refine h2.trans (le_of_eq ?_)
  rw [show (j : ℚ) + 1 - x - ((j : ℚ) + 1 - y) = -(x - y) by ring, abs_neg]

/-- A ring as the machine initialises it, with any derivatives. -/
structure WFR (p : ProfileRing ℚ) : Prop where
  pos : 0 < p.bins
  lt : p.lowR < p.highR
  dr : p.dr = r64 (r64 (p.highR - p.lowR) / (p.bins : ℚ))

/-- The error of one edge of height 1. -/
def edgeErr (bins : ℕ) : ℚ := (bins + 1) / 2 ^ 50

/-- The exact ring of the same shape. -/
def exactRing (p : ProfileRing ℚ) : ProfileRing ℚ := { p with dr := (p.highR - p.lowR) / (p.bins : ℚ), derivs := List.replicate (p.bins * p.n) 0 }

theorem exactRing_WF {p : ProfileRing ℚ} (h : WFR p) : WF (exactRing p) := ⟨by simp [exactRing], h.pos, h.lt, rfl⟩

/-- An edge of the machine. -/
theorem edge_spec (p : ProfileRing ℚ) (h : WFR p) (r rho : ℚ) (i : ℕ) (hi : i < p.n) (d : List ℚ) (hl : d.length = p.bins * p.n) (h1 : p.lowR < r) (h2 : Clear p.lowR p.highR r) :
    ∃ d', step p r rho i d = some d' ∧ d'.length = p.bins * p.n ∧ (∀ k, k ≠ i → ∀ t < p.bins, d'.getD (t + p.bins * k) 0 = d.getD (t + p.bins * k) 0) ∧
      ∀ C E B m, Est p.bins d i C E B m → Est p.bins d' i (fun j => C j + rho * ramp (Los.pos (exactRing p) r) j) (E + edgeErr p.bins * |rho|) (B + 2 * |rho|) (m + 2) := by
  have hb := h.pos
  have hq := quot_le (n := p.bins) (s := r - p.lowR) hb (by linarith) (by linarith [h.lt] : 0 < p.highR - p.lowR)
  have hq' := quot_ge (n := p.bins) (s := r - p.lowR) hb (by linarith) (by linarith [h.lt] : 0 < p.highR - p.lowR)
  rw [← h.dr] at hq hq'
  have hD : 0 < p.highR - p.lowR := by linarith [h.lt]
  have hb' : (0 : ℚ) < p.bins := by exact_mod_cast hb
  have hpos : Los.pos (exactRing p) r = (r - p.lowR) / (p.highR - p.lowR) * p.bins := by
    unfold Los.pos exactRing
    dsimp only
    field_simp
  have hx : (r - p.lowR) / (p.highR - p.lowR) ≤ 1 - 1 / 2 ^ 45 := by
    rw [div_le_iff₀ hD]
    unfold Clear at h2
    linarith
  have hx0 : 0 ≤ (r - p.lowR) / (p.highR - p.lowR) := div_nonneg (by linarith) hD.le
  rw [hpos]
  generalize (r - p.lowR) / (p.highR - p.lowR) = f at *
  unfold step modf
  generalize r64 (r64 (r - p.lowR) / p.dr) = q at *
  obtain ⟨_, q0, q1⟩ := hq
  have hfb : f * p.bins ≤ (1 - 1 / 2 ^ 45) * p.bins := mul_le_mul_of_nonneg_right hx hb'.le
  have hfb0 : 0 ≤ f * p.bins := mul_nonneg hx0 hb'.le
  have hlt : q < p.bins := by
    generalize f * (p.bins : ℚ) = F at *
    generalize (p.bins : ℚ) = b at *
    norm_num at q1 hfb hb' ⊢
    linarith
  have herr : |q - f * p.bins| ≤ p.bins / 2 ^ 50 := by
    rw [abs_le]
    generalize f * (p.bins : ℚ) = F at *
    generalize (p.bins : ℚ) = b at *
    norm_num at q1 hq' hfb hfb0 hb' ⊢
    constructor <;> linarith
  rw [if_pos q0]
  obtain ⟨idx, hidx⟩ := Int.eq_ofNat_of_zero_le (Int.floor_nonneg.mpr q0)
  have hidx' : idx < p.bins := by
    have := Int.floor_lt.mpr (by push_cast; exact hlt : q < ((p.bins : ℤ) : ℚ))
    omega
  have hramp := ramp_floor q q0
  have hfl := Int.floor_le q
  have hfl' := Int.lt_floor_add_one q
  rw [hidx] at hramp hfl hfl' ⊢
  simp only [Int.ofNat_eq_natCast, Int.toNat_natCast, Int.cast_natCast] at hramp hfl hfl' ⊢
  have hr0 : 0 ≤ q - idx := by linarith
  have hr1 : q - idx < 1 := by linarith
  generalize hrem : q - (idx : ℚ) = rem at *
  have e1 : |r64 (1 - rem) - (1 - rem)| ≤ 1 / 2 ^ 53 := by
    refine ((C95_rounding (1 - rem)).2.2.2.2).trans ?_
    rw [abs_of_nonneg (by linarith)]
    exact div_le_div_of_nonneg_right (by linarith) (by norm_num)
  have v1 : |r64 (rho * r64 (1 - rem)) - rho * (1 - rem)| ≤ |rho| * (3 / 2 ^ 53) := by
    have a := (C95_rounding (rho * r64 (1 - rem))).2.2.2.2
    have b : |rho * r64 (1 - rem) - rho * (1 - rem)| ≤ |rho| * (1 / 2 ^ 53) := by
      rw [← mul_sub, abs_mul]
      exact mul_le_mul_of_nonneg_left e1 (abs_nonneg _)
    have c : |rho * r64 (1 - rem)| ≤ |rho| * (1 + 1 / 2 ^ 53) := by
      rw [abs_mul]
      refine mul_le_mul_of_nonneg_left ?_ (abs_nonneg _)
      rw [abs_le] at e1 ⊢
      constructor <;> linarith
    have t := abs_sub_le (r64 (rho * r64 (1 - rem))) (rho * r64 (1 - rem)) (rho * (1 - rem))
    generalize |rho * r64 (1 - rem)| = X at *
    have := abs_nonneg rho
    generalize |rho| = R at *
    norm_num at *
    linarith
  have v2 : |r64 (rho * rem) - rho * rem| ≤ |rho| * (1 / 2 ^ 53) := by
    refine ((C95_rounding (rho * rem)).2.2.2.2).trans ?_
    rw [abs_mul, abs_of_nonneg hr0, mul_one_div]
    exact div_le_div_of_nonneg_right (mul_le_of_le_one_right (abs_nonneg _) hr1.le) (by norm_num)
  have s1 : |r64 (rho * r64 (1 - rem))| ≤ |rho| * (1 - rem) + |rho| * (3 / 2 ^ 53) := by
    have := abs_sub_abs_le_abs_sub (r64 (rho * r64 (1 - rem))) (rho * (1 - rem))
    rw [abs_mul rho (1 - rem), abs_of_nonneg (by linarith : 0 ≤ 1 - rem)] at this
    linarith
  have s2 : |r64 (rho * rem)| ≤ |rho| * rem + |rho| * (1 / 2 ^ 53) := by
    have := abs_sub_abs_le_abs_sub (r64 (rho * rem)) (rho * rem)
    rw [abs_mul rho rem, abs_of_nonneg hr0] at this
    linarith
  generalize r64 (rho * r64 (1 - rem)) = x1 at *
  generalize r64 (rho * rem) = x2 at *
  have hR := abs_nonneg rho
  have hlip : ∀ j, |rho * ramp q j - rho * ramp (f * p.bins) j| ≤ |rho| * (p.bins / 2 ^ 50) := by
    intro j
    rw [← mul_sub, abs_mul]
    exact mul_le_mul_of_nonneg_left ((ramp_lipschitz _ _ j).trans herr) hR
  obtain ⟨d1, a1, l1, k1, g1⟩ := addR_spec p.bins p.n i idx d x1 hl hi hidx'
  rw [a1, Option.bind_some]
  have hsize : |x1| + |x2| ≤ 2 * |rho| := by
    have : |rho| * (1 - rem) + |rho| * rem = |rho| := by ring
    generalize |rho| * (1 - rem) = u1 at *
    generalize |rho| * rem = u2 at *
    norm_num at s1 s2 ⊢
    linarith
  have hbound : |rho| * (3 / 2 ^ 53) + |rho| * (1 / 2 ^ 53) + |rho| * (p.bins / 2 ^ 50) ≤ edgeErr p.bins * |rho| := by
    unfold edgeErr
    rw [← mul_add, ← mul_add, mul_comm]
    refine mul_le_mul_of_nonneg_right ?_ hR
    norm_num
    linarith
  by_cases hlast : (idx : ℤ) < (p.bins : ℤ) - 1
  · rw [if_pos hlast]
    have hl' : idx + 1 < p.bins := by omega
    obtain ⟨d2, a2, l2, k2, g2⟩ := addR_spec p.bins p.n i (idx + 1) d1 x2 l1 hi hl'
    refine ⟨d2, ?_, l2, fun k hk t ht => (k2 k hk t ht).trans (k1 k hk t ht), fun C E B m hE => ?_⟩
    · rw [← a2]
      congr 1
    have := est_add (est_add hE hidx' g1) hl' g2
    refine est_congr this (e := |rho| * (3 / 2 ^ 53) + |rho| * (1 / 2 ^ 53) + |rho| * (p.bins / 2 ^ 50)) (fun j hj => ?_) (by linarith) (by linarith)
    have hl := hlip j
    rw [hramp j] at hl
    have t : C j + (if idx ≤ j then x1 else 0) + (if idx + 1 ≤ j then x2 else 0) - (C j + rho * ramp (f * p.bins) j) =
        ((if idx ≤ j then x1 else 0) - rho * (if idx ≤ j then 1 - rem else 0)) + ((if idx + 1 ≤ j then x2 else 0) - rho * (if idx + 1 ≤ j then rem else 0)) +
          (rho * ((if idx ≤ j then 1 - rem else 0) + (if idx + 1 ≤ j then rem else 0)) - rho * ramp (f * p.bins) j) := by ring
    rw [t]
    have b1 : |(if idx ≤ j then x1 else 0) - rho * (if idx ≤ j then 1 - rem else 0)| ≤ |rho| * (3 / 2 ^ 53) := by
      split_ifs
      · exact v1
      · rw [mul_zero, sub_zero, abs_zero]; positivity
    have b2 : |(if idx + 1 ≤ j then x2 else 0) - rho * (if idx + 1 ≤ j then rem else 0)| ≤ |rho| * (1 / 2 ^ 53) := by
      split_ifs
      · exact v2
      · rw [mul_zero, sub_zero, abs_zero]; positivity
    exact (abs_add_le _ _).trans (add_le_add ((abs_add_le _ _).trans (add_le_add b1 b2)) hl)
  · rw [if_neg hlast]
    refine ⟨d1, rfl, l1, k1, fun C E B m hE => ?_⟩
    have := est_mono (est_add hE hidx' g1) (Nat.le_succ _)
    refine est_congr this (e := |rho| * (3 / 2 ^ 53) + |rho| * (1 / 2 ^ 53) + |rho| * (p.bins / 2 ^ 50)) (fun j hj => ?_) (by linarith) (by linarith [abs_nonneg x2])
    have hl := hlip j
    rw [hramp j, if_neg (by omega : ¬ idx + 1 ≤ j), add_zero] at hl
    have t : C j + (if idx ≤ j then x1 else 0) - (C j + rho * ramp (f * p.bins) j) =
        ((if idx ≤ j then x1 else 0) - rho * (if idx ≤ j then 1 - rem else 0)) + (rho * (if idx ≤ j then 1 - rem else 0) - rho * ramp (f * p.bins) j) := by ring
    rw [t]
    have b1 : |(if idx ≤ j then x1 else 0) - rho * (if idx ≤ j then 1 - rem else 0)| ≤ |rho| * (3 / 2 ^ 53) := by
      split_ifs
      · exact v1
      · rw [mul_zero, sub_zero, abs_zero]; positivity
    have b2 : 0 ≤ |rho| * (1 / 2 ^ 53) := by positivity
    refine (abs_add_le _ _).trans ?_
    linarith

theorem edgeErr_nonneg (bins : ℕ) : 0 ≤ edgeErr bins := by unfold edgeErr; positivity

theorem first_spec (p : ProfileRing ℚ) (h : WFR p) (rho : ℚ) (i : ℕ) (hi : i < p.n) (d : List ℚ) (hl : d.length = p.bins * p.n) :
    ∃ d', addAtR d ((i : ℤ) * p.bins) rho = some d' ∧ d'.length = p.bins * p.n ∧ (∀ k, k ≠ i → ∀ t < p.bins, d'.getD (t + p.bins * k) 0 = d.getD (t + p.bins * k) 0) ∧
      ∀ C E B m, Est p.bins d i C E B m → Est p.bins d' i (fun j => C j + rho * 1) (E + edgeErr p.bins * |rho|) (B + 2 * |rho|) (m + 2) := by
  obtain ⟨d', a, l, k, g⟩ := addR_spec p.bins p.n i 0 d rho hl hi h.pos
  refine ⟨d', by rw [← a]; simp, l, k, fun C E B m hE => ?_⟩
  have := est_mono (est_add hE h.pos g) (Nat.le_succ _)
  have hR := abs_nonneg rho
  exact est_congr this (e := 0) (fun j hj => by simp) (by have := mul_nonneg (edgeErr_nonneg p.bins) hR; linarith) (by linarith)

theorem rise_spec (p : ProfileRing ℚ) (h : WFR p) (start : WithBot ℚ) (rho : ℚ) (i : ℕ) (hi : i < p.n) (d : List ℚ) (hl : d.length = p.bins * p.n)
    (hs : ∀ s : ℚ, start = s → Clear p.lowR p.highR s) :
    ∃ d', riseR p start rho i d = some d' ∧ d'.length = p.bins * p.n ∧ (∀ k, k ≠ i → ∀ t < p.bins, d'.getD (t + p.bins * k) 0 = d.getD (t + p.bins * k) 0) ∧
      ∀ C E B m, Est p.bins d i C E B m → Est p.bins d' i (fun j => C j + rho * rise (exactRing p) start j) (E + edgeErr p.bins * |rho|) (B + 2 * |rho|) (m + 2) := by
  induction start using WithBot.recBotCoe with
  | bot => exact first_spec p h rho i hi d hl
  | coe s =>
    simp only [riseR, rise]
    by_cases hc : p.lowR < s
    · rw [if_pos hc]
      exact edge_spec p h s rho i hi d hl hc (hs s rfl)
    · rw [if_neg hc]
      obtain ⟨d', a, l, k, g⟩ := first_spec p h rho i hi d hl
      refine ⟨d', a, l, k, fun C E B m hE => ?_⟩
      have hr : ∀ j, ramp (Los.pos (exactRing p) s) j = 1 := fun j => ramp_nonpos _ j (pos_nonpos (exactRing_WF h) s (not_lt.mp hc))
      simp only [hr]
      exact g C E B m hE

theorem fall_spec (p : ProfileRing ℚ) (h : WFR p) (stop rho : ℚ) (i : ℕ) (hi : i < p.n) (d : List ℚ) (hl : d.length = p.bins * p.n) (hlow : p.lowR < stop)
    (hs : p.highR ≤ stop ∨ Clear p.lowR p.highR stop) :
    ∃ d', fallR p stop rho i d = some d' ∧ d'.length = p.bins * p.n ∧ (∀ k, k ≠ i → ∀ t < p.bins, d'.getD (t + p.bins * k) 0 = d.getD (t + p.bins * k) 0) ∧
      ∀ C E B m, Est p.bins d i C E B m → Est p.bins d' i (fun j => C j - rho * ramp (Los.pos (exactRing p) stop) j) (E + edgeErr p.bins * |rho|) (B + 2 * |rho|) (m + 2) := by
  unfold fallR
  have hR := mul_nonneg (edgeErr_nonneg p.bins) (abs_nonneg rho)
  by_cases hc : stop < p.highR
  · rw [if_pos hc]
    rcases hs with hs | hs
    · exact absurd hs (not_le.mpr hc)
    obtain ⟨d', a, l, k, g⟩ := edge_spec p h stop (-rho) i hi d hl hlow hs
    refine ⟨d', a, l, k, fun C E B m hE => ?_⟩
    have := g C E B m hE
    rw [abs_neg] at this
    refine est_congr this (e := 0) (fun j hj => by ring_nf; simp) (by linarith) le_rfl
  · rw [if_neg hc]
    refine ⟨d, rfl, hl, fun _ _ _ _ => rfl, fun C E B m hE => ?_⟩
    refine est_congr (est_mono hE (by omega : m ≤ m + 2)) (e := 0) (fun j hj => ?_) (by linarith) (by linarith [abs_nonneg rho])
    have : ramp (Los.pos (exactRing p) stop) j = 0 := ramp_ge _ j p.bins (pos_ge (exactRing_WF h) stop (not_lt.mp hc)) hj
    rw [this]
    simp

/-- The calls are sensible, and the ends of the plateaus are beyond the outer radius or clearly below it. -/
def FitsRing (p : ProfileRing ℚ) (o : Op ℚ) : Prop :=
  o.i < p.n ∧ o.start ≤ o.stop ∧ (∀ s : ℚ, o.start = s → p.highR ≤ s ∨ Clear p.lowR p.highR s) ∧ ∀ e : ℚ, o.stop = e → p.highR ≤ e ∨ Clear p.lowR p.highR e

theorem insertR_spec (p : ProfileRing ℚ) (h : WFR p) (o : Op ℚ) (ho : FitsRing p o) (hl : p.derivs.length = p.bins * p.n) :
    ∃ d', insertR p o.start o.stop o.rho o.i = some { p with derivs := d' } ∧ d'.length = p.bins * p.n ∧
      (∀ k, k ≠ o.i → ∀ t < p.bins, d'.getD (t + p.bins * k) 0 = p.derivs.getD (t + p.bins * k) 0) ∧
      ∀ C E B m, Est p.bins p.derivs o.i C E B m →
        Est p.bins d' o.i (fun j => C j + contribution p.lowR p.highR p.bins o j) (E + 2 * edgeErr p.bins * |o.rho|) (B + 4 * |o.rho|) (m + 4) := by
  obtain ⟨start, stop, rho, i⟩ := o
  obtain ⟨hi, hse, h1, h2⟩ := ho
  dsimp only at *
  have hR := mul_nonneg (edgeErr_nonneg p.bins) (abs_nonneg rho)
  have hgain : ∀ j, j < p.bins → gain (exactRing p) start stop rho j = contribution p.lowR p.highR p.bins ⟨start, stop, rho, i⟩ j := fun j hj => gain_eq (exactRing p) (exactRing_WF h) start stop hse rho i j hj
  have hnone : (∀ j, gain (exactRing p) start stop rho j = 0) → ∀ C E B m, Est p.bins p.derivs i C E B m →
      Est p.bins p.derivs i (fun j => C j + contribution p.lowR p.highR p.bins ⟨start, stop, rho, i⟩ j) (E + 2 * edgeErr p.bins * |rho|) (B + 4 * |rho|) (m + 4) := by
    intro h0 C E B m hE
    refine est_congr (est_mono hE (by omega : m ≤ m + 4)) (e := 0) (fun j hj => ?_) (by linarith) (by linarith [abs_nonneg rho])
    rw [← hgain j hj, h0 j]
    simp
  induction stop using WithBot.recBotCoe with
  | bot => exact ⟨p.derivs, rfl, hl, fun _ _ _ _ => rfl, hnone (fun j => by simp [gain])⟩
  | coe e =>
    simp only [insertR]
    by_cases hc : e ≤ p.lowR ∨ (p.highR : WithBot ℚ) ≤ start
    · rw [if_pos hc]
      refine ⟨p.derivs, rfl, hl, fun _ _ _ _ => rfl, hnone (fun j => ?_)⟩
      simp only [gain]
      exact if_pos hc
    · rw [if_neg hc]
      rw [not_or] at hc
      obtain ⟨d1, a1, l1, k1, g1⟩ := rise_spec p h start rho i hi p.derivs hl (fun s hs => by
        rcases h1 s hs with h1 | h1
        · exact absurd (by rw [hs]; exact_mod_cast h1) hc.2
        · exact h1)
      obtain ⟨d2, a2, l2, k2, g2⟩ := fall_spec p h e rho i hi d1 l1 (not_le.mp hc.1) (h2 e rfl)
      rw [a1, Option.bind_some, a2]
      refine ⟨d2, rfl, l2, fun k hk t ht => (k2 k hk t ht).trans (k1 k hk t ht), fun C E B m hE => ?_⟩
      have := g2 _ _ _ _ (g1 C E B m hE)
      refine est_congr this (e := 0) (fun j hj => ?_) (by linarith) (by linarith)
      rw [← hgain j hj]
      simp only [gain]
      rw [if_neg (show ¬ (e ≤ (exactRing p).lowR ∨ ((exactRing p).highR : WithBot ℚ) ≤ start) from not_or.mpr hc)]
      ring_nf
      simp

/-- The number of calls for line `k`, and the sum of their densities. -/
def callsOn (ops : List (Op ℚ)) (k : ℕ) : ℕ := (ops.filter (fun o => o.i = k)).length
def weightOn (ops : List (Op ℚ)) (k : ℕ) : ℚ := ((ops.filter (fun o => o.i = k)).map fun o => |o.rho|).sum

theorem weightOn_nonneg (ops : List (Op ℚ)) (k : ℕ) : 0 ≤ weightOn ops k := by
  apply List.sum_nonneg
  intro x hx
  obtain ⟨o, _, rfl⟩ := List.mem_map.mp hx
  exact abs_nonneg _

theorem insertAllR_spec (ops : List (Op ℚ)) : ∀ (p : ProfileRing ℚ), WFR p → (∀ o ∈ ops, FitsRing p o) → p.derivs.length = p.bins * p.n →
    ∃ d, insertAllR p ops = some { p with derivs := d } ∧ d.length = p.bins * p.n ∧
      ∀ k C E B m, Est p.bins p.derivs k C E B m →
        Est p.bins d k (fun j => C j + total p.lowR p.highR p.bins ops k j) (E + 2 * edgeErr p.bins * weightOn ops k) (B + 4 * weightOn ops k) (m + 4 * callsOn ops k) := by
  induction ops with
  | nil => exact fun p _ _ hl => ⟨p.derivs, rfl, hl, fun k C E B m hE => by simpa [total, weightOn, callsOn] using hE⟩
  | cons o ops ih =>
    intro p hw hs hl
    obtain ⟨d, h1, h2, h3, h4⟩ := insertR_spec p hw o (hs o (by simp)) hl
    obtain ⟨d', g1, g2, g3⟩ := ih { p with derivs := d } ⟨hw.pos, hw.lt, hw.dr⟩ (fun o ho => hs o (by simp [ho])) h2
    refine ⟨d', ?_, g2, fun k C E B m hE => ?_⟩
    · unfold insertAllR at g1 ⊢
      rw [List.foldlM_cons, h1]
      exact g1
    · by_cases hk : o.i = k
      · subst hk
        have := g3 _ _ _ _ _ (h4 C E B m hE)
        dsimp only at this
        have e1 : total p.lowR p.highR p.bins (o :: ops) o.i = fun j => contribution p.lowR p.highR p.bins o j + total p.lowR p.highR p.bins ops o.i j := by
          funext j
          unfold total
          rw [List.filter_cons_of_pos (by simp), List.map_cons, List.sum_cons]
        have e2 : weightOn (o :: ops) o.i = |o.rho| + weightOn ops o.i := by
          unfold weightOn
          rw [List.filter_cons_of_pos (by simp), List.map_cons, List.sum_cons]
        have e3 : callsOn (o :: ops) o.i = callsOn ops o.i + 1 := by
          unfold callsOn
          rw [List.filter_cons_of_pos (by simp), List.length_cons]
        rw [e1, e2, e3]
        refine est_congr (est_mono this (by omega)) (e := 0) (fun j hj => by ring_nf; simp) (le_of_eq (by ring)) (le_of_eq (by ring))
      · have := g3 k _ _ _ _ (est_same hE (h3 k (fun e => hk e.symm)))
        have e1 : total p.lowR p.highR p.bins (o :: ops) k = total p.lowR p.highR p.bins ops k := by
          funext j
          unfold total
          rw [List.filter_cons_of_neg (by simpa using hk)]
        have e2 : weightOn (o :: ops) k = weightOn ops k := by
          unfold weightOn
          rw [List.filter_cons_of_neg (by simpa using hk)]
        have e3 : callsOn (o :: ops) k = callsOn ops k := by
          unfold callsOn
          rw [List.filter_cons_of_neg (by simpa using hk)]
        rw [e1, e2, e3]
        exact this

/-! ### Reading a line -/

theorem retrieveLoopR_spec (p : ProfileRing ℚ) (hl : p.derivs.length = p.bins * p.n) (i : ℕ) (hi : i < p.n) (S A : ℕ → ℚ) (m : ℕ)
    (hS : ∀ t < p.bins, Acc (p.derivs.getD (t + p.bins * i) 0) (S t) (A t) m) :
    ∀ (todo j : ℕ) (sum : ℚ) (out : List ℚ), j + todo = p.bins → out.length = p.bins → Acc sum (∑ t ∈ range j, S t) (∑ t ∈ range j, A t) (m + j) →
      ∃ out', retrieveLoopR p i todo j sum out = some out' ∧ out'.length = p.bins ∧ (∀ q < j, out'.getD q 0 = out.getD q 0) ∧
        ∀ q, j ≤ q → q < p.bins → Acc (out'.getD q 0) (∑ t ∈ range (q + 1), S t) (∑ t ∈ range (q + 1), A t) (m + q + 1)
  | 0, j, sum, out, hj, ho, _ => ⟨out, rfl, ho, fun _ _ => rfl, fun q h1 h2 => by omega⟩
  | todo + 1, j, sum, out, hj, ho, hsum => by
    have hlt : j + p.bins * i < p.derivs.length := by
      rw [hl]
      calc j + p.bins * i < p.bins + p.bins * i := by omega
        _ = p.bins * (i + 1) := by ring
        _ ≤ p.bins * p.n := Nat.mul_le_mul_left _ hi
    have hget : p.derivs[j + p.bins * i]? = some (p.derivs.getD (j + p.bins * i) 0) := by
      rw [List.getD_eq_getElem?_getD, List.getElem?_eq_getElem hlt]
      rfl
    have hacc := acc_add hsum (acc_mono (hS j (by omega)) (Nat.le_add_right m j))
    rw [← Finset.sum_range_succ, ← Finset.sum_range_succ] at hacc
    unfold retrieveLoopR
    rw [hget]
    dsimp only
    rw [if_pos (by omega)]
    obtain ⟨out', a, l, k, g⟩ := retrieveLoopR_spec p hl i hi S A m hS todo (j + 1) (r64 (sum + p.derivs.getD (j + p.bins * i) 0)) (out.set j (r64 (sum + p.derivs.getD (j + p.bins * i) 0))) (by omega) (by simp [ho]) hacc
    refine ⟨out', a, l, fun q hq => ?_, fun q h1 h2 => ?_⟩
    · rw [k q (by omega)]
      simp only [List.getD_eq_getElem?_getD]
      rw [List.getElem?_set_ne (by omega)]
    · rcases Nat.eq_or_lt_of_le h1 with rfl | h1
      · rw [k j (by omega)]
        have : (out.set j (r64 (sum + p.derivs.getD (j + p.bins * i) 0))).getD j 0 = r64 (sum + p.derivs.getD (j + p.bins * i) 0) := by
          rw [List.getD_eq_getElem?_getD, List.getElem?_set_self (by omega)]
          rfl
        rw [this]
        exact hacc
      · exact g q h1 h2

theorem retrieveR_spec (p : ProfileRing ℚ) (hl : p.derivs.length = p.bins * p.n) (i : ℕ) (hi : i < p.n) (out : List ℚ) (ho : out.length = p.bins)
    (C : ℕ → ℚ) (E B : ℚ) (m : ℕ) (h : Est p.bins p.derivs i C E B m) (hm : m + p.bins ≤ 2 ^ 52) :
    ∃ out', retrieveR p i out = some out' ∧ out'.length = p.bins ∧ ∀ j < p.bins, |out'.getD j 0 - C j| ≤ 2 * ((m : ℚ) + p.bins) / 2 ^ 53 * B + E := by
  obtain ⟨S, A, h1, h2⟩ := h
  obtain ⟨out', a, l, _, g⟩ := retrieveLoopR_spec p hl i hi S A m h1 p.bins 0 0 out (by omega) ho (by simpa using acc_zero _)
  refine ⟨out', a, l, fun j hj => ?_⟩
  obtain ⟨g1, g2⟩ := acc_mono (g j (Nat.zero_le _) hj) (by omega : m + j + 1 ≤ m + p.bins)
  obtain ⟨e1, e2⟩ := h2 j hj
  have hA : 0 ≤ ∑ t ∈ range (j + 1), A t := (abs_nonneg _).trans g2
  have hp := pow_bound (m + p.bins) hm
  push_cast at hp
  have hp0 : (0 : ℚ) ≤ 2 * ((m : ℚ) + p.bins) / 2 ^ 53 := by positivity
  have t := abs_sub_le (out'.getD j 0) (∑ t ∈ range (j + 1), S t) (C j)
  have b := mul_le_mul_of_nonneg_right hp hA
  have c := mul_le_mul_of_nonneg_left e2 hp0
  linarith

/-! ### Workers -/

theorem est_join {bins n : ℕ} {d1 d2 : List ℚ} {k : ℕ} (hk : k < n) (l1 : d1.length = bins * n) (l2 : d2.length = bins * n) {C1 C2 : ℕ → ℚ} {E1 E2 B1 B2 : ℚ} {m : ℕ} (h1 : Est bins d1 k C1 E1 B1 m) (h2 : Est bins d2 k C2 E2 B2 m) :
    Est bins (List.zipWith (fun a b => r64 (a + b)) d1 d2) k (fun j => C1 j + C2 j) (E1 + E2) (B1 + B2) (m + 1) := by
  obtain ⟨S1, A1, a1, b1⟩ := h1
  obtain ⟨S2, A2, a2, b2⟩ := h2
  refine ⟨fun t => S1 t + S2 t, fun t => A1 t + A2 t, fun t ht => ?_, fun j hj => ?_⟩
  · have hlt : t + bins * k < bins * n := by
      calc t + bins * k < bins + bins * k := by omega
        _ = bins * (k + 1) := by ring
        _ ≤ bins * n := Nat.mul_le_mul_left _ hk
    have : (List.zipWith (fun a b => r64 (a + b)) d1 d2).getD (t + bins * k) 0 = r64 (d1.getD (t + bins * k) 0 + d2.getD (t + bins * k) 0) := by
      simp only [List.getD_eq_getElem?_getD]
      rw [List.getElem?_eq_getElem (by simp; omega), List.getElem?_eq_getElem (by omega), List.getElem?_eq_getElem (by omega), List.getElem_zipWith]
      rfl
    rw [this]
    exact acc_add (a1 t ht) (a2 t ht)
  · rw [Finset.sum_add_distrib, Finset.sum_add_distrib]
    obtain ⟨x1, y1⟩ := b1 j hj
    obtain ⟨x2, y2⟩ := b2 j hj
    refine ⟨?_, by linarith⟩
    rw [add_sub_add_comm]
    exact (abs_add_le _ _).trans (add_le_add x1 x2)

theorem joinR_spec (p : ProfileRing ℚ) (d1 d2 : List ℚ) (l1 : d1.length = p.bins * p.n) (l2 : d2.length = p.bins * p.n) :
    joinR { p with derivs := d1 } { p with derivs := d2 } = some { p with derivs := List.zipWith (fun a b => r64 (a + b)) d1 d2 } := by
  unfold joinR joinDerivsR
  rw [if_neg (by simp)]
  dsimp only
  rw [if_pos (by omega), List.drop_eq_nil_of_le (by omega), List.append_nil]
  rfl

/-- Scratch rings for the workers: of another shape, or of the same shape and bin width. -/
def UsableR (p q : ProfileRing ℚ) : Prop := (p.n ≠ q.n ∨ p.bins ≠ q.bins) ∨ (q.derivs.length = q.bins * q.n ∧ q.dr = p.dr)

theorem splitR_spec (p q : ProfileRing ℚ) (hw : WFR p) (hu : UsableR p q) : ∃ d, splitR p q = { p with derivs := d } ∧ d.length = p.bins * p.n ∧ ∀ t, d.getD t 0 = 0 := by
  unfold splitR
  by_cases hc : p.n ≠ q.n ∨ p.bins ≠ q.bins
  · rw [if_pos hc]
    exact ⟨List.replicate (p.bins * p.n) 0, by simp [ringInit, hw.dr], by simp, fun t => getD_replicate_zero _ _⟩
  · rw [if_neg hc]
    rcases hu with hu | ⟨h1, h2⟩
    · exact absurd hu hc
    · simp only [not_or, not_not] at hc
      refine ⟨q.derivs.map (fun _ => 0), by rw [h2, ← hc.1], by rw [List.length_map, h1, hc.1, hc.2], fun t => ?_⟩
      simp only [List.getD_eq_getElem?_getD, List.getElem?_map]
      cases q.derivs[t]? <;> rfl

theorem total_perm (lowR highR : ℚ) (bins : ℕ) (a b : List (Op ℚ)) (h : a.Perm b) (k j : ℕ) : total lowR highR bins a k j = total lowR highR bins b k j :=
  ((h.filter _).map _).sum_eq

theorem weightOn_append (a b : List (Op ℚ)) (k : ℕ) : weightOn (a ++ b) k = weightOn a k + weightOn b k := by simp [weightOn, List.filter_append]
theorem callsOn_append (a b : List (Op ℚ)) (k : ℕ) : callsOn (a ++ b) k = callsOn a k + callsOn b k := by simp [callsOn, List.filter_append]
theorem weightOn_perm {a b : List (Op ℚ)} (h : a.Perm b) (k : ℕ) : weightOn a k = weightOn b k := ((h.filter _).map _).sum_eq
theorem callsOn_perm {a b : List (Op ℚ)} (h : a.Perm b) (k : ℕ) : callsOn a k = callsOn b k := (h.filter _).length_eq

theorem workersR_spec (p : ProfileRing ℚ) (hw : WFR p) (workers : List (ProfileRing ℚ × List (Op ℚ))) :
    (∀ w ∈ workers, UsableR p w.1 ∧ ∀ o ∈ w.2, FitsRing p o) →
    ∃ ds : List (List ℚ), (workers.mapM fun w => insertAllR (splitR p w.1) w.2) = some (ds.map fun d => { p with derivs := d }) ∧
      List.Forall₂ (fun (w : ProfileRing ℚ × List (Op ℚ)) (d : List ℚ) => d.length = p.bins * p.n ∧
        ∀ k, Est p.bins d k (fun j => total p.lowR p.highR p.bins w.2 k j) (2 * edgeErr p.bins * weightOn w.2 k) (4 * weightOn w.2 k) (4 * callsOn w.2 k)) workers ds := by
  induction workers with
  | nil => exact fun _ => ⟨[], rfl, .nil⟩
  | cons w workers ih =>
    intro h
    obtain ⟨ds, h1, h2⟩ := ih (fun w hw => h w (by simp [hw]))
    obtain ⟨hu, hs⟩ := h w (by simp)
    obtain ⟨d0, e1, e2, e3⟩ := splitR_spec p w.1 hw hu
    obtain ⟨d, g1, g2, g3⟩ := insertAllR_spec w.2 { p with derivs := d0 } ⟨hw.pos, hw.lt, hw.dr⟩ hs e2
    refine ⟨d :: ds, ?_, .cons ⟨g2, fun k => ?_⟩ h2⟩
    · rw [List.mapM_cons, e1, g1, h1]
      rfl
    · have := g3 k _ _ _ _ (est_zero p.bins d0 k e3)
      simpa using this

theorem joinAllR_spec (p : ProfileRing ℚ) (workers : List (ProfileRing ℚ × List (Op ℚ))) (ds : List (List ℚ))
    (h : List.Forall₂ (fun (w : ProfileRing ℚ × List (Op ℚ)) (d : List ℚ) => d.length = p.bins * p.n ∧
        ∀ k, Est p.bins d k (fun j => total p.lowR p.highR p.bins w.2 k j) (2 * edgeErr p.bins * weightOn w.2 k) (4 * weightOn w.2 k) (4 * callsOn w.2 k)) workers ds) :
    ∀ (d1 : List ℚ), d1.length = p.bins * p.n →
      ∃ d, joinAllR { p with derivs := d1 } (ds.map fun d => { p with derivs := d }) = some { p with derivs := d } ∧ d.length = p.bins * p.n ∧
        ∀ k < p.n, ∀ C E B m, Est p.bins d1 k C E B m →
          Est p.bins d k (fun j => C j + total p.lowR p.highR p.bins (workers.map Prod.snd).flatten k j) (E + 2 * edgeErr p.bins * weightOn (workers.map Prod.snd).flatten k)
            (B + 4 * weightOn (workers.map Prod.snd).flatten k) (m + 4 * callsOn (workers.map Prod.snd).flatten k + workers.length) := by
  induction h with
  | nil => exact fun d1 h1 => ⟨d1, rfl, h1, fun k _ C E B m hE => by simpa [total, weightOn, callsOn] using hE⟩
  | @cons w d2 workers ds hw _ ih =>
    intro d1 h1
    obtain ⟨d, g1, g2, g3⟩ := ih (List.zipWith (fun a b => r64 (a + b)) d1 d2) (by rw [List.length_zipWith, h1, hw.1, min_self])
    refine ⟨d, ?_, g2, fun k hk C E B m hE => ?_⟩
    · unfold joinAllR at g1 ⊢
      rw [List.map_cons, List.foldlM_cons, joinR_spec p d1 d2 h1 hw.1]
      exact g1
    · have := g3 k hk _ _ _ _ (est_join hk h1 hw.1 (est_mono hE (Nat.le_add_right m (4 * callsOn w.2 k))) (est_mono (hw.2 k) (Nat.le_add_left _ m)))
      rw [List.map_cons, List.flatten_cons, weightOn_append, callsOn_append, List.length_cons]
      refine est_congr (est_mono this (by omega)) (e := 0) (fun j hj => ?_) (le_of_eq (by ring)) (le_of_eq (by ring))
      rw [total_append]
      ring_nf
      simp

/-- The bound of the error of line `i`: so many calls, bins and workers, times the sum of the densities, in units of 2^-47. -/
def lineErr (ops : List (Op ℚ)) (bins workers i : ℕ) : ℚ := ((callsOn ops i : ℚ) + bins + workers) / 2 ^ 47 * weightOn ops i

theorem final_bound (ops : List (Op ℚ)) (bins workers i : ℕ) (hb : 0 < bins) :
    2 * (((4 * callsOn ops i + workers : ℕ) : ℚ) + bins) / 2 ^ 53 * (4 * weightOn ops i) + 2 * edgeErr bins * weightOn ops i ≤ lineErr ops bins workers i := by
  unfold lineErr edgeErr
  have hw := weightOn_nonneg ops i
  have hb' : (1 : ℚ) ≤ bins := by exact_mod_cast hb
  have h0 : (0 : ℚ) ≤ callsOn ops i := Nat.cast_nonneg _
  have h1 : (0 : ℚ) ≤ workers := Nat.cast_nonneg _
  push_cast
  generalize (callsOn ops i : ℚ) = N at *
  generalize (bins : ℚ) = b at *
  generalize (workers : ℚ) = w at *
  have : 2 * (4 * N + w + b) / 2 ^ 53 * 4 + 2 * ((b + 1) / 2 ^ 50) ≤ (N + b + w) / 2 ^ 47 := by
    norm_num
    linarith
  calc _ = (2 * (4 * N + w + b) / 2 ^ 53 * 4 + 2 * ((b + 1) / 2 ^ 50)) * weightOn ops i := by ring
    _ ≤ _ := mul_le_mul_of_nonneg_right this hw

theorem getRhosR_of {p : ProfileRing ℚ} {i : ℕ} {out out' : List ℚ} (h : retrieveR p i out = some out') (defaultRho : ℚ) (C : ℕ → ℚ) (e : ℚ) (he : ∀ j < out'.length, |out'.getD j 0 - C j| ≤ e) :
    ∃ res, getRhosR defaultRho p i out = some res ∧ res.length = out'.length ∧ ∀ j < out'.length, defaultRho ≤ res.getD j 0 ∧ |res.getD j 0 - max defaultRho (C j)| ≤ e := by
  refine ⟨_, by unfold getRhosR; rw [h]; rfl, by simp, fun j hj => ?_⟩
  have e1 : (out'.map fun rho => if rho < defaultRho then defaultRho else rho).getD j 0 = max defaultRho (out'.getD j 0) := by
    simp only [List.getD_eq_getElem?_getD, List.getElem?_map, List.getElem?_eq_getElem hj, Option.map_some, Option.getD_some]
    rw [max_def]
    split_ifs with a b b
    · exact absurd b (not_le.mpr a)
    · rfl
    · rfl
    · exact absurd (not_lt.mp a) b
  rw [e1]
  refine ⟨le_max_left _ _, ?_⟩
  rw [max_comm, max_comm defaultRho]
  exact (abs_max_sub_max_le_abs _ _ _).trans (he j hj)

theorem ringInit_WFR (lowR highR : ℚ) (bins n : ℕ) (hb : 0 < bins) (hlt : lowR < highR) : WFR (ringInit lowR highR bins n) := ⟨hb, hlt, rfl⟩

theorem expected_getD (lowR highR : ℚ) (bins : ℕ) (ops : List (Op ℚ)) (i j : ℕ) (hj : j < bins) : (expected lowR highR bins ops i).getD j 0 = total lowR highR bins ops i j := by
  unfold expected total
  rw [List.getD_eq_getElem?_getD, List.getElem?_map, List.getElem?_range hj]
  rfl

/-- C121: in machine arithmetic the densities read from a line of sight are those of the plateaus that were inserted, up to a small multiple of their sum, and not below the default density. -/
theorem C121_profile_partial (lowR highR : ℚ) (bins n : ℕ) (hb : 0 < bins) (hlt : lowR < highR) (ops : List (Op ℚ)) (hf : ∀ o ∈ ops, FitsRing (ringInit lowR highR bins n) o) :
    ∃ p, insertAllR (ringInit lowR highR bins n) ops = some p ∧
      ∀ i < n, 4 * callsOn ops i + bins ≤ 2 ^ 52 → ∀ (defaultRho : ℚ) (out : List ℚ), out.length = bins →
        ∃ res, getRhosR defaultRho p i out = some res ∧ res.length = bins ∧
          ∀ j < bins, defaultRho ≤ res.getD j 0 ∧ |res.getD j 0 - max defaultRho ((expected lowR highR bins ops i).getD j 0)| ≤ lineErr ops bins 0 i := by
  obtain ⟨d, h1, h2, h3⟩ := insertAllR_spec ops (ringInit lowR highR bins n) (ringInit_WFR _ _ _ _ hb hlt) hf (by simp [ringInit])
  refine ⟨_, h1, fun i hi hm defaultRho out ho => ?_⟩
  have hE := h3 i _ _ _ _ (est_zero bins _ i (fun t => getD_replicate_zero _ _))
  obtain ⟨out', a, l, g⟩ := retrieveR_spec { ringInit lowR highR bins n with derivs := d } h2 i hi out ho _ _ _ _ hE (by simpa [ringInit] using hm)
  dsimp only [ringInit] at g l
  have hfb := final_bound ops bins 0 i hb
  obtain ⟨res, b1, b2, b3⟩ := getRhosR_of a defaultRho (fun j => total lowR highR bins ops i j) (lineErr ops bins 0 i) (fun j hj => by
    have := g j (by omega)
    simp only [zero_add] at this
    exact this.trans (by simpa using hfb))
  refine ⟨res, b1, by omega, fun j hj => ?_⟩
  rw [expected_getD _ _ _ _ _ _ hj]
  exact b3 j (by omega)

/-- C121: with workers, too, for every distribution of the calls; so two distributions differ by little. -/
theorem C121_threads_partial (lowR highR : ℚ) (bins n : ℕ) (hb : 0 < bins) (hlt : lowR < highR) (own : List (Op ℚ)) (workers : List (ProfileRing ℚ × List (Op ℚ)))
    (hown : ∀ o ∈ own, FitsRing (ringInit lowR highR bins n) o) (hw : ∀ w ∈ workers, UsableR (ringInit lowR highR bins n) w.1 ∧ ∀ o ∈ w.2, FitsRing (ringInit lowR highR bins n) o)
    (all : List (Op ℚ)) (hall : all.Perm (own ++ (workers.map Prod.snd).flatten)) :
    ∃ p, parallelR (ringInit lowR highR bins n) own workers = some p ∧
      ∀ i < n, 4 * callsOn all i + workers.length + bins ≤ 2 ^ 52 → ∀ (defaultRho : ℚ) (out : List ℚ), out.length = bins →
        ∃ res, getRhosR defaultRho p i out = some res ∧ res.length = bins ∧
          ∀ j < bins, defaultRho ≤ res.getD j 0 ∧ |res.getD j 0 - max defaultRho ((expected lowR highR bins all i).getD j 0)| ≤ lineErr all bins workers.length i := by
  have hW := ringInit_WFR lowR highR bins n hb hlt
  obtain ⟨d, h1, h2, h3⟩ := insertAllR_spec own (ringInit lowR highR bins n) hW hown (by simp [ringInit])
  obtain ⟨ds, f1, f2⟩ := workersR_spec _ hW workers hw
  obtain ⟨d', j1, j2, j3⟩ := joinAllR_spec _ workers ds f2 d h2
  refine ⟨_, by unfold parallelR; rw [h1, Option.bind_some, f1, Option.bind_some]; exact j1, fun i hi hm defaultRho out ho => ?_⟩
  have hE := j3 i hi _ _ _ _ (h3 i _ _ _ _ (est_zero bins _ i (fun t => getD_replicate_zero _ _)))
  have ew : weightOn all i = weightOn own i + weightOn (workers.map Prod.snd).flatten i := by rw [weightOn_perm hall, weightOn_append]
  have ec : callsOn all i = callsOn own i + callsOn (workers.map Prod.snd).flatten i := by rw [callsOn_perm hall, callsOn_append]
  have et : ∀ j, total lowR highR bins all i j = total lowR highR bins own i j + total lowR highR bins (workers.map Prod.snd).flatten i j := fun j => by rw [total_perm _ _ _ _ _ hall, total_append]
  have hE' : Est bins d' i (fun j => total lowR highR bins all i j) (2 * edgeErr bins * weightOn all i) (4 * weightOn all i) (4 * callsOn all i + workers.length) := by
    refine est_congr (est_mono hE (by rw [ec]; omega)) (e := 0) (fun j hj => ?_) (le_of_eq ?_) (le_of_eq ?_)
    · rw [et]
      dsimp only [ringInit]
      simp
    · rw [ew]
      dsimp only [ringInit]
      ring
    · rw [ew]
      ring
  obtain ⟨out', a, l, g⟩ := retrieveR_spec { ringInit lowR highR bins n with derivs := d' } j2 i hi out ho _ _ _ _ hE' hm
  dsimp only [ringInit] at g l
  have hfb := final_bound all bins workers.length i hb
  obtain ⟨res, b1, b2, b3⟩ := getRhosR_of a defaultRho (fun j => total lowR highR bins all i j) (lineErr all bins workers.length i) (fun j hj => (g j (by omega)).trans hfb)
  refine ⟨res, b1, by omega, fun j hj => ?_⟩
  rw [expected_getD _ _ _ _ _ _ hj]
  exact b3 j (by omega)

/-! ### Where machine arithmetic differs -/

/-- A ring with four bins of width 1. -/
def ring4 (d : List ℚ) : ProfileRing ℚ := ⟨d, 4, 1, 0, 4, 1⟩

theorem ring4_init : ringInit 0 4 4 1 = ring4 [0, 0, 0, 0] := by
  unfold ringInit ring4
  have h4 : r64 (4 - 0) = 4 := by rw [sub_zero]; exact r64_float ⟨4, 0, by norm_num, by norm_num⟩
  have h1 : r64 (4 / ((4 : ℕ) : ℚ)) = 1 := by
    rw [show (4 : ℚ) / ((4 : ℕ) : ℚ) = 1 by norm_num]
    exact r64_float ⟨1, 0, by norm_num, by norm_num⟩
  rw [h4, h1]
  rfl

theorem step4 (d : List ℚ) (k : ℕ) (hk : k < 4) (rho : ℚ) (hrho : Float64 rho) :
    step (ring4 d) k rho 0 d = (addAtR d (k : ℤ) rho).bind fun d => if (k : ℤ) < 3 then addAtR d ((k : ℤ) + 1) 0 else some d := by
  have hk' : Float64 (k : ℚ) := ⟨k, 0, by rw [abs_of_nonneg (by positivity)]; exact_mod_cast (by omega : k < 2 ^ 53), by simp⟩
  have hz : r64 0 = 0 := r64_float ⟨0, 0, by norm_num, by norm_num⟩
  have ho : r64 1 = 1 := r64_float ⟨1, 0, by norm_num, by norm_num⟩
  have hq : r64 (r64 ((k : ℚ) - 0) / 1) = k := by rw [sub_zero, div_one, r64_float hk', r64_float hk']
  unfold step ring4 modf
  dsimp only
  rw [hq, if_pos (Nat.cast_nonneg k)]
  simp only [Int.floor_natCast, Int.cast_natCast, sub_self, sub_zero, ho, mul_one, mul_zero, hz, r64_float hrho, Nat.cast_zero, zero_mul, zero_add]
  norm_num

/-- Insert a plateau from below the inner radius to `k`. -/
theorem insert4 (d0 d1 d2 d3 : ℚ) (k : ℕ) (hk0 : 0 < k) (hk : k < 4) (rho : ℚ) (hrho : Float64 rho) (h0 : Float64 d0) (h1 : Float64 d1) (h2 : Float64 d2) (h3 : Float64 d3) :
    insertR (ring4 [d0, d1, d2, d3]) ⊥ ((k : ℚ) : WithBot ℚ) rho 0 =
      some (ring4 [r64 (d0 + rho), if k = 1 then r64 (d1 - rho) else d1, if k = 2 then r64 (d2 - rho) else d2, if k = 3 then r64 (d3 - rho) else d3]) := by
  have hneg : Float64 (-rho) := by
    obtain ⟨m, e, hm, he⟩ := hrho
    exact ⟨-m, e, by rwa [abs_neg], by rw [he]; push_cast; ring⟩
  have hkq : (0 : ℚ) < k := by exact_mod_cast hk0
  have hkq' : (k : ℚ) < 4 := by exact_mod_cast hk
  have hs := fun d => step4 d k hk (-rho) hneg
  simp only [insertR]
  rw [if_neg (by
    rw [not_or]
    exact ⟨not_le.mpr hkq, fun h => WithBot.coe_ne_bot (le_bot_iff.mp h)⟩)]
  have hrise : riseR (ring4 [d0, d1, d2, d3]) ⊥ rho 0 (ring4 [d0, d1, d2, d3]).derivs = some [r64 (d0 + rho), d1, d2, d3] := by
    unfold riseR ring4 addAtR
    simp
  rw [hrise, Option.bind_some]
  unfold fallR
  rw [if_pos (show (k : ℚ) < (ring4 [d0, d1, d2, d3]).highR from hkq')]
  have hstep : step (ring4 [d0, d1, d2, d3]) k (-rho) 0 [r64 (d0 + rho), d1, d2, d3] = step (ring4 [r64 (d0 + rho), d1, d2, d3]) k (-rho) 0 [r64 (d0 + rho), d1, d2, d3] := rfl
  rw [hstep, hs]
  have hk3 : k = 1 ∨ k = 2 ∨ k = 3 := by omega
  rcases hk3 with rfl | rfl | rfl <;> simp [addAtR, ring4, r64_float h2, r64_float h3, sub_eq_add_neg]

theorem retrieve4 (d0 d1 d2 d3 : ℚ) : retrieveR (ring4 [d0, d1, d2, d3]) 0 [0, 0, 0, 0] =
    some [r64 (0 + d0), r64 (r64 (0 + d0) + d1), r64 (r64 (r64 (0 + d0) + d1) + d2), r64 (r64 (r64 (r64 (0 + d0) + d1) + d2) + d3)] := rfl

theorem f_zero : Float64 0 := ⟨0, 0, by norm_num, by norm_num⟩
theorem f_one : Float64 1 := ⟨1, 0, by norm_num, by norm_num⟩
theorem f_tiny (k : ℕ) : Float64 (1 / 2 ^ k) := ⟨1, -k, by norm_num, by simp⟩
theorem f_neg {x : ℚ} (h : Float64 x) : Float64 (-x) := by
  obtain ⟨m, e, hm, he⟩ := h
  exact ⟨-m, e, by rwa [abs_neg], by rw [he]; push_cast; ring⟩

theorem one_tiny : r64 (1 + 1 / 2 ^ 60) = 1 := by
  unfold r64
  rw [rn_eq 0 (2 ^ 52) (by rw [abs_of_pos (by norm_num)]; norm_num) (by rw [abs_of_pos (by norm_num)]; norm_num) (by rw [abs_lt]; norm_num)]
  norm_num

/-- C121 is false in the strict sense: a dense and a thin plateau leave a negative density behind, and no density where only the thin one is. -/
theorem C121_negative_false : ∃ (ops : List (Op ℚ)) (p : ProfileRing ℚ), (∀ o ∈ ops, 0 < o.rho ∧ FitsRing (ringInit 0 4 4 1) o) ∧ insertAllR (ringInit 0 4 4 1) ops = some p ∧
    retrieveR p 0 [0, 0, 0, 0] = some [1, 0, -(1 / 2 ^ 60), -(1 / 2 ^ 60)] ∧ expected 0 4 4 ops 0 = [1 + 1 / 2 ^ 60, 1 / 2 ^ 60, 0, 0] := by
  refine ⟨[⟨⊥, ((1 : ℕ) : ℚ), 1, 0⟩, ⟨⊥, ((2 : ℕ) : ℚ), 1 / 2 ^ 60, 0⟩], ring4 [1, -1, -(1 / 2 ^ 60), 0], ?_, ?_, ?_, ?_⟩
  · intro o ho
    simp only [List.mem_cons, List.not_mem_nil, or_false] at ho
    rcases ho with rfl | rfl
    · refine ⟨by norm_num, by simp [ringInit], bot_le, fun s hs => absurd hs.symm WithBot.coe_ne_bot, fun e he => Or.inr ?_⟩
      rw [← WithBot.coe_inj.mp he]
      unfold Clear ringInit
      norm_num
    · refine ⟨by norm_num, by simp [ringInit], bot_le, fun s hs => absurd hs.symm WithBot.coe_ne_bot, fun e he => Or.inr ?_⟩
      rw [← WithBot.coe_inj.mp he]
      unfold Clear ringInit
      norm_num
  · unfold insertAllR
    rw [ring4_init, List.foldlM_cons]
    dsimp only
    rw [insert4 0 0 0 0 1 (by norm_num) (by norm_num) 1 f_one f_zero f_zero f_zero f_zero, zero_add, r64_float f_one, zero_sub, r64_float (f_neg f_one)]
    simp only [if_true, Option.bind_eq_bind, Option.bind_some, List.foldlM_cons, List.foldlM_nil]
    norm_num only [if_false]
    have := insert4 1 (-1) 0 0 2 (by norm_num) (by norm_num) (1 / 2 ^ 60) (f_tiny 60) f_one (f_neg f_one) f_zero f_zero
    rw [one_tiny, zero_sub, r64_float (f_neg (f_tiny 60))] at this
    norm_num at this ⊢
    exact this
  · rw [retrieve4, zero_add, r64_float f_one, show (1 : ℚ) + -1 = 0 by norm_num, r64_float f_zero, zero_add, r64_float (f_neg (f_tiny 60)), add_zero, r64_float (f_neg (f_tiny 60))]
  · norm_num [expected, contribution, overlap, List.range_succ]

theorem half_tie : r64 (1 + 1 / 2 ^ 53) = 1 := by
  unfold r64 rn
  have hl : lastBit 53 (1 + 1 / 2 ^ 53) = -52 := by
    unfold lastBit
    rw [show Int.log 2 |(1 + 1 / 2 ^ 53 : ℚ)| = 0 from log_unique (by rw [abs_of_pos (by norm_num)]; norm_num) (by rw [abs_of_pos (by norm_num)]; norm_num)]
    norm_num
  rw [hl]
  have hn : nearest ((1 + 1 / 2 ^ 53) / 2 ^ (-52 : ℤ)) = 2 ^ 52 := by
    rw [show ((1 + 1 / 2 ^ 53 : ℚ) / 2 ^ (-52 : ℤ)) = ((2 ^ 52 : ℤ) : ℚ) + 1 / 2 by norm_num]
    have hfl : ⌊(((2 ^ 52 : ℤ) : ℚ) + 1 / 2 : ℚ)⌋ = 2 ^ 52 := by rw [Int.floor_eq_iff]; constructor <;> norm_num
    unfold nearest
    rw [hfl, if_neg (by ring_nf; norm_num), if_neg (by ring_nf; norm_num), if_pos (by norm_num)]
  rw [hn]
  norm_num

/-- A plateau over the whole line. -/
theorem insertFull (d0 d1 d2 d3 rho : ℚ) : insertR (ring4 [d0, d1, d2, d3]) ⊥ ((4 : ℚ) : WithBot ℚ) rho 0 = some (ring4 [r64 (d0 + rho), d1, d2, d3]) := by
  simp only [insertR]
  rw [if_neg (by
    rw [not_or]
    exact ⟨by simp [ring4], fun h => WithBot.coe_ne_bot (le_bot_iff.mp h)⟩)]
  have hrise : riseR (ring4 [d0, d1, d2, d3]) ⊥ rho 0 (ring4 [d0, d1, d2, d3]).derivs = some [r64 (d0 + rho), d1, d2, d3] := by
    unfold riseR ring4 addAtR
    simp
  rw [hrise, Option.bind_some]
  unfold fallR
  rw [if_neg (by simp [ring4])]
  rfl

theorem insertFulls (d0 d1 d2 d3 : ℚ) (rhos : List ℚ) : insertAllR (ring4 [d0, d1, d2, d3]) (rhos.map fun rho => ⟨⊥, (4 : ℚ), rho, 0⟩) = some (ring4 [rhos.foldl (fun a b => r64 (a + b)) d0, d1, d2, d3]) := by
  induction rhos generalizing d0 with
  | nil => rfl
  | cons rho rhos ih =>
    have := ih (r64 (d0 + rho))
    unfold insertAllR at this ⊢
    rw [List.map_cons, List.foldlM_cons]
    dsimp only
    rw [insertFull]
    exact this

/-- C121 is false of exact equality between thread counts: three plateaus on one line give 1 in one thread and 1 + 2^-52 when a worker inserts the last two. -/
theorem C121_threads_false : ∃ (a b : List (Op ℚ)) (w : ProfileRing ℚ) (p q : ProfileRing ℚ), UsableR (ringInit 0 4 4 1) w ∧ (∀ o ∈ a ++ b, 0 < o.rho ∧ FitsRing (ringInit 0 4 4 1) o) ∧
    insertAllR (ringInit 0 4 4 1) (a ++ b) = some p ∧ parallelR (ringInit 0 4 4 1) a [(w, b)] = some q ∧
    retrieveR p 0 [0, 0, 0, 0] = some [1, 1, 1, 1] ∧ retrieveR q 0 [0, 0, 0, 0] = some [1 + 1 / 2 ^ 52, 1 + 1 / 2 ^ 52, 1 + 1 / 2 ^ 52, 1 + 1 / 2 ^ 52] := by
  have hf : Float64 (1 + 1 / 2 ^ 52) := ⟨2 ^ 52 + 1, -52, by norm_num, by norm_num⟩
  have hsum : r64 (1 / 2 ^ 53 + 1 / 2 ^ 53) = 1 / 2 ^ 52 := by
    rw [show (1 / 2 ^ 53 + 1 / 2 ^ 53 : ℚ) = 1 / 2 ^ 52 by norm_num]
    exact r64_float (f_tiny 52)
  refine ⟨[1].map fun rho => ⟨⊥, (4 : ℚ), rho, 0⟩, [1 / 2 ^ 53, 1 / 2 ^ 53].map fun rho => ⟨⊥, (4 : ℚ), rho, 0⟩, ⟨[], 0, 0, 0, 0, 0⟩, ring4 [1, 0, 0, 0], ring4 [1 + 1 / 2 ^ 52, 0, 0, 0], ?_, ?_, ?_, ?_, ?_, ?_⟩
  · exact Or.inl (Or.inl (by simp [ringInit]))
  · intro o ho
    have : o.start = ⊥ ∧ o.stop = (4 : ℚ) ∧ 0 < o.rho ∧ o.i = 0 := by
      simp only [List.map_cons, List.map_nil, List.cons_append, List.nil_append, List.mem_cons, List.not_mem_nil, or_false] at ho
      rcases ho with rfl | rfl | rfl <;> norm_num
    obtain ⟨h1, h2, h3, h4⟩ := this
    refine ⟨h3, by rw [h4]; simp [ringInit], by rw [h1]; exact bot_le, fun s hs => absurd (h1.symm.trans hs).symm WithBot.coe_ne_bot, fun e he => Or.inl ?_⟩
    rw [← WithBot.coe_inj.mp (h2.symm.trans he)]
    exact le_rfl
  · rw [← List.map_append, ring4_init, insertFulls]
    simp only [List.cons_append, List.nil_append, List.foldl_cons, List.foldl_nil, zero_add, r64_float f_one, half_tie]
  · unfold parallelR
    have hs : splitR (ringInit 0 4 4 1) ⟨[], 0, 0, 0, 0, 0⟩ = ring4 [0, 0, 0, 0] := by
      rw [← ring4_init]
      unfold splitR
      rw [if_pos (by simp [ringInit])]
      rfl
    simp only [List.mapM_cons, List.mapM_nil, hs]
    rw [ring4_init, insertFulls, insertFulls]
    simp only [List.foldl_cons, List.foldl_nil, zero_add, r64_float f_one, r64_float (f_tiny 53), hsum, Option.bind_some, Option.bind_eq_bind, Option.pure_def, joinAllR, List.foldlM_cons, List.foldlM_nil]
    unfold joinR joinDerivsR ring4
    simp [r64_float hf, r64_float f_zero]
    simpa using r64_float hf
  · rw [retrieve4]
    simp only [zero_add, add_zero, r64_float f_one]
  · rw [retrieve4]
    simp only [zero_add, add_zero, r64_float hf]

/-- The hypotheses are met by a plateau with two finite ends, one of no extent, and one that a worker inserts on a scratch ring of another shape. -/
example : ∃ p, parallelR (ringInit 0 4 4 2) [⟨((1 / 2 : ℚ) : WithBot ℚ), ((5 / 2 : ℚ) : WithBot ℚ), 3, 1⟩] [(⟨[7], 1, 1, 0, 1, 1⟩, [⟨⊥, ((1 / 3 : ℚ) : WithBot ℚ), 2, 1⟩, ⟨⊥, ⊥, 5, 0⟩])] = some p ∧
    ∃ res, getRhosR 1 p 1 [0, 0, 0, 0] = some res ∧ res.length = 4 ∧ ∀ j < 4, 1 ≤ res.getD j 0 ∧ |res.getD j 0 - [13 / 6, 3, 3 / 2, 1].getD j 0| ≤ 1 / 2 ^ 40 := by
  have hfit : ∀ o : Op ℚ, o ∈ [(⟨((1 / 2 : ℚ) : WithBot ℚ), ((5 / 2 : ℚ) : WithBot ℚ), 3, 1⟩ : Op ℚ), ⟨⊥, ((1 / 3 : ℚ) : WithBot ℚ), 2, 1⟩, ⟨⊥, ⊥, 5, 0⟩] → FitsRing (ringInit 0 4 4 2) o := by
    intro o ho
    simp only [List.mem_cons, List.not_mem_nil, or_false] at ho
    have hc : ∀ x : ℚ, x ≤ 3 → Clear (ringInit 0 4 4 2).lowR (ringInit 0 4 4 2).highR x := by
      intro x hx
      unfold Clear ringInit
      norm_num
      linarith
    rcases ho with rfl | rfl | rfl
    · refine ⟨by simp [ringInit], WithBot.coe_le_coe.mpr (by norm_num), fun s hs => Or.inr (hc s ?_), fun e he => Or.inr (hc e ?_)⟩
      · rw [← WithBot.coe_inj.mp hs]; norm_num
      · rw [← WithBot.coe_inj.mp he]; norm_num
    · refine ⟨by simp [ringInit], bot_le, fun s hs => absurd hs.symm WithBot.coe_ne_bot, fun e he => Or.inr (hc e ?_)⟩
      rw [← WithBot.coe_inj.mp he]; norm_num
    · exact ⟨by simp [ringInit], le_rfl, fun s hs => absurd hs.symm WithBot.coe_ne_bot, fun s hs => absurd hs.symm WithBot.coe_ne_bot⟩
  obtain ⟨p, h1, h2⟩ := C121_threads_partial 0 4 4 2 (by norm_num) (by norm_num) [⟨((1 / 2 : ℚ) : WithBot ℚ), ((5 / 2 : ℚ) : WithBot ℚ), 3, 1⟩]
    [(⟨[7], 1, 1, 0, 1, 1⟩, [⟨⊥, ((1 / 3 : ℚ) : WithBot ℚ), 2, 1⟩, ⟨⊥, ⊥, 5, 0⟩])] (fun o ho => hfit o (by simp at ho; simp [ho]))
    (fun w hw => by
      simp only [List.mem_cons, List.not_mem_nil, or_false] at hw
      subst hw
      exact ⟨Or.inl (Or.inl (by simp [ringInit])), fun o ho => hfit o (List.mem_cons_of_mem _ ho)⟩) _ (List.Perm.refl _)
  refine ⟨p, h1, ?_⟩
  obtain ⟨res, g1, g2, g3⟩ := h2 1 (by norm_num) (by norm_num [callsOn]) 1 [0, 0, 0, 0] rfl
  refine ⟨res, g1, g2, fun j hj => ⟨(g3 j hj).1, ?_⟩⟩
  have e : max 1 ((expected 0 4 4 [⟨((1 / 2 : ℚ) : WithBot ℚ), ((5 / 2 : ℚ) : WithBot ℚ), 3, 1⟩, ⟨⊥, ((1 / 3 : ℚ) : WithBot ℚ), 2, 1⟩, ⟨⊥, ⊥, 5, 0⟩] 1).getD j 0) = [13 / 6, 3, 3 / 2, 1].getD j 0 := by
    rw [expected_getD _ _ _ _ _ _ hj]
    interval_cases j <;> norm_num [total, contribution, overlap]
  rw [← e]
  refine (g3 j hj).2.trans ?_
  norm_num [lineErr, callsOn, weightOn]

end Shellfish.Round
