/-
C123: linear and bilinear interpolation in machine arithmetic.
-/
import Verif.Model.InterpRound
import Verif.Props.RingRound
import Verif.Props.SelectRound
import Verif.Props.Interp

namespace Shellfish.Round
open Shellfish.Interp (binSearch Between binSearch_spec)

/-! ### Specification -/

/-- The table of coordinates is strictly increasing. -/
def Increasing (xs : List ℚ) : Prop := xs.Pairwise (· < ·)

/-- The point of the straight line through `(x1, v1)` and `(x2, v2)` above `x`. -/
def lineAt (x1 x2 v1 v2 x : ℚ) : ℚ := v1 + (v2 - v1) * ((x - x1) / (x2 - x1))

/-- The bilinear surface through the values at the four corners. -/
def patchAt (x1 x2 y1 y2 v11 v12 v21 v22 x y : ℚ) : ℚ := lineAt y1 y2 (lineAt x1 x2 v11 v21 x) (lineAt x1 x2 v12 v22 x) y

/-! ### Errors of products and quotients -/

theorem acc_round {x s a : ℚ} {m : ℕ} (h : |x - s| ≤ ((1 + 1 / 2 ^ 53) ^ m - 1) * a) (h' : |s| ≤ a) : Acc (r64 x) s a (m + 1) := by
  refine ⟨?_, h'⟩
  have e := (C95_rounding x).2.2.2.2
  have hs : |x| ≤ (1 + 1 / 2 ^ 53) ^ m * a := by
    have := abs_sub_abs_le_abs_sub x s
    linarith
  have ht := abs_sub_le (r64 x) x s
  have hp : ((1 + 1 / 2 ^ 53 : ℚ) ^ (m + 1) - 1) * a = (1 + 1 / 2 ^ 53) ^ m * a / 2 ^ 53 + ((1 + 1 / 2 ^ 53) ^ m - 1) * a := by ring
  have hdiv : |x| / 2 ^ 53 ≤ (1 + 1 / 2 ^ 53) ^ m * a / 2 ^ 53 := div_le_div_of_nonneg_right hs (by norm_num)
  rw [hp]
  linarith

theorem acc_exact {x a : ℚ} (h : |x| ≤ a) (m : ℕ) : Acc x x a m := by
  refine ⟨?_, h⟩
  rw [sub_self, abs_zero]
  have := one_le_pow₀ (by norm_num : (1 : ℚ) ≤ 1 + 1 / 2 ^ 53) (n := m)
  exact mul_nonneg (by linarith) ((abs_nonneg _).trans h)

theorem acc_mul {x s a y t b : ℚ} {m n : ℕ} (h : Acc x s a m) (h' : Acc y t b n) : Acc (r64 (x * y)) (s * t) (a * b) (m + n + 1) := by
  have ha := (abs_nonneg _).trans h.2
  have hb := (abs_nonneg _).trans h'.2
  refine acc_round ?_ (by rw [abs_mul]; exact mul_le_mul h.2 h'.2 (abs_nonneg _) ha)
  have hy : |y| ≤ (1 + 1 / 2 ^ 53) ^ n * b := by
    have := abs_sub_abs_le_abs_sub y t
    linarith [h'.1, h'.2]
  have hpm := one_le_pow₀ (by norm_num : (1 : ℚ) ≤ 1 + 1 / 2 ^ 53) (n := m)
  have hpn := one_le_pow₀ (by norm_num : (1 : ℚ) ≤ 1 + 1 / 2 ^ 53) (n := n)
  have h1 := h.1
  have h2 := h'.1
  rw [pow_add]
  generalize (1 + 1 / 2 ^ 53 : ℚ) ^ m = P at *
  generalize (1 + 1 / 2 ^ 53 : ℚ) ^ n = Q at *
  calc |x * y - s * t| = |(x - s) * y + s * (y - t)| := by ring_nf
    _ ≤ |x - s| * |y| + |s| * |y - t| := (abs_add_le _ _).trans (le_of_eq (by rw [abs_mul, abs_mul]))
    _ ≤ ((P - 1) * a) * (Q * b) + a * ((Q - 1) * b) := add_le_add (mul_le_mul h1 hy (abs_nonneg _) (mul_nonneg (by linarith) ha)) (mul_le_mul h.2 h2 (abs_nonneg _) ha)
    _ = (P * Q - 1) * (a * b) := by ring

theorem acc_div {x s a y t : ℚ} {m n : ℕ} (h : Acc x s a m) (h' : Acc y t t n) (ht : 0 < t) (hn : (1 + 1 / 2 ^ 53 : ℚ) ^ n ≤ 3 / 2) : Acc (r64 (x / y)) (s / t) (a / t) (m + n + n + 1) := by
  have ha := (abs_nonneg _).trans h.2
  refine acc_round ?_ (by rw [abs_div, abs_of_pos ht]; exact div_le_div_of_nonneg_right h.2 ht.le)
  have hpm := one_le_pow₀ (by norm_num : (1 : ℚ) ≤ 1 + 1 / 2 ^ 53) (n := m)
  have hpn := one_le_pow₀ (by norm_num : (1 : ℚ) ≤ 1 + 1 / 2 ^ 53) (n := n)
  have h1 := h.1
  have h2 := h'.1
  have h3 := h.2
  rw [pow_add, pow_add]
  generalize (1 + 1 / 2 ^ 53 : ℚ) ^ m = P at *
  generalize (1 + 1 / 2 ^ 53 : ℚ) ^ n = Q at *
  have hy : (2 - Q) * t ≤ y := by
    have := (abs_le.mp h2).1
    linarith
  have hq : 0 < 2 - Q := by linarith
  have hy0 : 0 < y := lt_of_lt_of_le (mul_pos hq ht) hy
  have e : x / y - s / t = ((x - s) * t - s * (y - t)) / (y * t) := by field_simp; ring
  have hnum : |(x - s) * t - s * (y - t)| ≤ (P + Q - 2) * (a * t) := by
    calc |(x - s) * t - s * (y - t)| ≤ |x - s| * t + |s| * |y - t| := (abs_sub _ _).trans (le_of_eq (by rw [abs_mul, abs_mul, abs_of_pos ht]))
      _ ≤ ((P - 1) * a) * t + a * ((Q - 1) * t) := add_le_add (mul_le_mul_of_nonneg_right h1 ht.le) (mul_le_mul h3 h2 (abs_nonneg _) ha)
      _ = _ := by ring
  rw [e, abs_div, abs_of_pos (mul_pos hy0 ht), div_le_iff₀ (mul_pos hy0 ht)]
  refine hnum.trans ?_
  have key : P + Q - 2 ≤ (P * Q * Q - 1) * (2 - Q) := by
    have : (P * Q * Q - 1) * (2 - Q) - (P + Q - 2) = P * ((Q - 1) * (1 + Q - Q * Q)) := by ring
    have hf : 0 ≤ P * ((Q - 1) * (1 + Q - Q * Q)) := mul_nonneg (by linarith) (mul_nonneg (by linarith) (by nlinarith))
    linarith
  have hPQ : 0 ≤ P * Q * Q - 1 := by
    have : 1 ≤ P * Q := one_le_mul_of_one_le_of_one_le hpm hpn
    have : 1 ≤ P * Q * Q := one_le_mul_of_one_le_of_one_le this hpn
    linarith
  calc (P + Q - 2) * (a * t) ≤ (P * Q * Q - 1) * (2 - Q) * (a * t) := mul_le_mul_of_nonneg_right key (mul_nonneg ha ht.le)
    _ = (P * Q * Q - 1) * a * ((2 - Q) * t) := by ring
    _ ≤ (P * Q * Q - 1) * a * y := mul_le_mul_of_nonneg_left hy (mul_nonneg hPQ ha)
    _ = (P * Q * Q - 1) * (a / t) * (y * t) := by field_simp

/-- A difference that is not negative. -/
theorem acc_sub {x y : ℚ} (h : y ≤ x) : Acc (r64 (x - y)) (x - y) (x - y) 1 := acc_round (m := 0) (by simp) (by rw [abs_of_nonneg (by linarith)])

theorem acc_bound {x s a e : ℚ} {m : ℕ} (h : Acc x s a m) (hm : m ≤ 2 ^ 52) (he : 2 * m / 2 ^ 53 * a ≤ e) : |x - s| ≤ e :=
  h.1.trans ((mul_le_mul_of_nonneg_right (pow_bound m hm) ((abs_nonneg _).trans h.2)).trans he)

/-! ### The search -/

/-- The search finds an interval of the table with the point in it, and panics exactly outside of the table. -/
theorem searchR_spec (xs : List ℚ) (h2 : 2 ≤ xs.length) (hi : Increasing xs) (x : ℚ) :
    (xs.getD 0 0 ≤ x ∧ x ≤ xs.getD (xs.length - 1) 0 → ∃ i, searchR xs x = some i ∧ i + 1 < xs.length ∧ xs.getD i 0 ≤ x ∧ x ≤ xs.getD (i + 1) 0) ∧
      (x < xs.getD 0 0 ∨ xs.getD (xs.length - 1) 0 < x → searchR xs x = none) := by
  have hne : xs ≠ [] := by intro h; rw [h] at h2; simp at h2
  unfold searchR
  rw [if_neg hne]
  constructor
  · rintro ⟨h3, h4⟩
    rw [if_neg (by rw [not_or]; exact ⟨not_lt.mpr h4, not_lt.mpr h3⟩)]
    dsimp only
    have hlt : xs.getD 0 0 < xs.getD (xs.length - 1) 0 := by
      rw [List.getD_eq_getElem _ _ (by omega), List.getD_eq_getElem _ _ (by omega)]
      exact List.pairwise_iff_getElem.mp hi 0 (xs.length - 1) (by omega) (by omega) (by omega)
    have hdx : tableDx xs > 0 := by
      have := (quot_le (n := xs.length - 1) (s := 0) (by omega) le_rfl (by linarith : 0 < xs.getD (xs.length - 1) 0 - xs.getD 0 0)).1
      unfold tableDx
      rwa [Nat.cast_sub (by omega), Nat.cast_one] at this
    rw [decide_eq_true hdx]
    refine ⟨_, rfl, ?_⟩
    split_ifs with hg
    · obtain ⟨g1, g2, g3, g4⟩ := hg
      exact ⟨by omega, of_decide_eq_true g3, of_decide_eq_true g4⟩
    · obtain ⟨b1, b2, b3⟩ := binSearch_spec xs true x 0 (xs.length - 1) (by omega) (by unfold Between; simpa using ⟨h3, h4⟩)
      unfold Between at b3
      simp only [if_true] at b3
      exact ⟨by omega, b3⟩
  · intro h
    rw [if_pos (h.symm.imp id id)]

/-! ### The interval does not matter at a knot -/

theorem lineAt_left (x1 x2 v1 v2 : ℚ) : lineAt x1 x2 v1 v2 x1 = v1 := by unfold lineAt; simp
theorem lineAt_right {x1 x2 : ℚ} (v1 v2 : ℚ) (h : x1 < x2) : lineAt x1 x2 v1 v2 x2 = v2 := by
  unfold lineAt
  rw [div_self (by linarith)]
  ring

theorem inc_lt {xs : List ℚ} (hi : Increasing xs) {i j : ℕ} (h : i < j) (hj : j < xs.length) : xs.getD i 0 < xs.getD j 0 := by
  rw [List.getD_eq_getElem _ _ (by omega), List.getD_eq_getElem _ _ hj]
  exact List.pairwise_iff_getElem.mp hi i j (by omega) hj h

theorem inc_le {xs : List ℚ} (hi : Increasing xs) {i j : ℕ} (h : i ≤ j) (hj : j < xs.length) : xs.getD i 0 ≤ xs.getD j 0 := by
  rcases h.lt_or_eq with h | rfl
  · exact (inc_lt hi h hj).le
  · exact le_rfl

/-- Two intervals with the same point in them give the same line. -/
theorem line_agree_lt {xs : List ℚ} (hi : Increasing xs) (f : ℕ → ℚ) {x : ℚ} {i j : ℕ} (hij : i < j) (hj : j + 1 < xs.length)
    (i2 : x ≤ xs.getD (i + 1) 0) (j1 : xs.getD j 0 ≤ x) :
    lineAt (xs.getD i 0) (xs.getD (i + 1) 0) (f i) (f (i + 1)) x = lineAt (xs.getD j 0) (xs.getD (j + 1) 0) (f j) (f (j + 1)) x := by
  have e : j = i + 1 := by
    by_contra hne
    have := inc_lt hi (i := i + 1) (j := j) (by omega) (by omega)
    linarith
  subst e
  have ex : x = xs.getD (i + 1) 0 := le_antisymm i2 j1
  rw [ex, lineAt_left, lineAt_right _ _ (inc_lt hi (by omega) (by omega))]

theorem line_agree {xs : List ℚ} (hi : Increasing xs) (f : ℕ → ℚ) {x : ℚ} {i j : ℕ} (hi' : i + 1 < xs.length) (hj : j + 1 < xs.length)
    (i1 : xs.getD i 0 ≤ x) (i2 : x ≤ xs.getD (i + 1) 0) (j1 : xs.getD j 0 ≤ x) (j2 : x ≤ xs.getD (j + 1) 0) :
    lineAt (xs.getD i 0) (xs.getD (i + 1) 0) (f i) (f (i + 1)) x = lineAt (xs.getD j 0) (xs.getD (j + 1) 0) (f j) (f (j + 1)) x := by
  rcases lt_trichotomy i j with h | rfl | h
  · exact line_agree_lt hi f h hj i2 j1
  · rfl
  · exact (line_agree_lt hi f h hi' j2 i1).symm

theorem getElem?_getD' {xs : List ℚ} {i : ℕ} (h : i < xs.length) : xs[i]? = some (xs.getD i 0) := by
  rw [List.getElem?_eq_getElem h, List.getD_eq_getElem _ _ h]

theorem getD_bound {vals : List ℚ} {V : ℚ} (hv : ∀ v ∈ vals, |v| ≤ V) {i : ℕ} (h : i < vals.length) : |vals.getD i 0| ≤ V := by
  rw [List.getD_eq_getElem _ _ h]
  exact hv _ (List.getElem_mem h)

/-- One straight piece. -/
theorem linear_err {x x1 x2 v1 v2 V : ℚ} (h12 : x1 < x2) (h1 : x1 ≤ x) (h2 : x ≤ x2) (hv1 : |v1| ≤ V) (hv2 : |v2| ≤ V) :
    |r64 (r64 (r64 (r64 (v2 - v1) / r64 (x2 - x1)) * r64 (x - x1)) + v1) - lineAt x1 x2 v1 v2 x| ≤ V / 2 ^ 47 := by
  have hd : 0 < x2 - x1 := by linarith
  have a1 : Acc (r64 (v2 - v1)) (v2 - v1) |v2 - v1| 1 := acc_round (m := 0) (by simp) le_rfl
  have a2 := acc_div a1 (acc_sub h12.le) hd (by norm_num)
  have a3 := acc_mul a2 (acc_sub h1)
  have a4 := acc_add a3 (acc_exact (le_refl |v1|) _)
  have hV : 0 ≤ V := (abs_nonneg _).trans hv1
  have e : lineAt x1 x2 v1 v2 x = (v2 - v1) / (x2 - x1) * (x - x1) + v1 := by unfold lineAt; ring
  rw [e]
  refine acc_bound a4 (by norm_num) ?_
  have hdv : |v2 - v1| ≤ 2 * V := (abs_sub _ _).trans (by linarith)
  have ht : |v2 - v1| / (x2 - x1) * (x - x1) ≤ |v2 - v1| := by
    rw [div_mul_eq_mul_div, div_le_iff₀ hd]
    exact mul_le_mul_of_nonneg_left (by linarith) (abs_nonneg _)
  have hs : |v2 - v1| / (x2 - x1) * (x - x1) + |v1| ≤ 3 * V := by linarith
  generalize |v2 - v1| / (x2 - x1) * (x - x1) + |v1| = A at hs
  norm_num
  linarith

/-- One bilinear piece. -/
theorem bilinear_err {x y x1 x2 y1 y2 v11 v12 v21 v22 V : ℚ} (hx : x1 < x2) (hy : y1 < y2) (hx1 : x1 ≤ x) (hx2 : x ≤ x2) (hy1 : y1 ≤ y) (hy2 : y ≤ y2)
    (h11 : |v11| ≤ V) (h12 : |v12| ≤ V) (h21 : |v21| ≤ V) (h22 : |v22| ≤ V) :
    |biMixR x y x1 x2 y1 y2 v11 v12 v21 v22 - patchAt x1 x2 y1 y2 v11 v12 v21 v22 x y| ≤ V / 2 ^ 48 := by
  have hdx : 0 < x2 - x1 := by linarith
  have hdy : 0 < y2 - y1 := by linarith
  have t11 := acc_mul (acc_mul (acc_exact h11 0) (acc_sub hx2)) (acc_sub hy2)
  have t12 := acc_mul (acc_mul (acc_exact h12 0) (acc_sub hx2)) (acc_sub hy1)
  have t21 := acc_mul (acc_mul (acc_exact h21 0) (acc_sub hx1)) (acc_sub hy2)
  have t22 := acc_mul (acc_mul (acc_exact h22 0) (acc_sub hx1)) (acc_sub hy1)
  have s1 := acc_add t11 t12
  have s2 := acc_add s1 (acc_mono t21 (by norm_num : _ ≤ 0 + 1 + 1 + 1 + 1 + 1))
  have s3 := acc_add s2 (acc_mono t22 (by norm_num : _ ≤ 0 + 1 + 1 + 1 + 1 + 1 + 1))
  have d := acc_mul (acc_sub hx.le) (acc_sub hy.le)
  have q := acc_div s3 d (mul_pos hdx hdy) (by norm_num)
  have e : patchAt x1 x2 y1 y2 v11 v12 v21 v22 x y = (v11 * (x2 - x) * (y2 - y) + v12 * (x2 - x) * (y - y1) + v21 * (x - x1) * (y2 - y) + v22 * (x - x1) * (y - y1)) / ((x2 - x1) * (y2 - y1)) := by
    unfold patchAt lineAt
    have := hdx.ne'
    have := hdy.ne'
    field_simp
    ring
  rw [e]
  unfold biMixR
  refine acc_bound q (by norm_num) ?_
  have hs : (V * (x2 - x) * (y2 - y) + V * (x2 - x) * (y - y1) + V * (x - x1) * (y2 - y) + V * (x - x1) * (y - y1)) / ((x2 - x1) * (y2 - y1)) = V := by
    have := hdx.ne'
    have := hdy.ne'
    field_simp
    ring
  rw [hs]
  have hV : 0 ≤ V := (abs_nonneg _).trans h11
  norm_num
  linarith

/-! ### C123 -/

/-- **C123.** On every strictly increasing table of two or more points with values of size at most `V`, the float64 interpolator panics exactly outside of the table, and inside it returns, up to `V / 2 ^ 47`, the straight line
through the two neighbouring points of the table: for either of the intervals that meet at a point of the table. -/
theorem C123_linear (xs vals : List ℚ) (V : ℚ) (h2 : 2 ≤ xs.length) (hi : Increasing xs) (hl : vals.length = xs.length) (hv : ∀ v ∈ vals, |v| ≤ V) (x : ℚ) :
    (linearR xs vals x = none ↔ x < xs.getD 0 0 ∨ xs.getD (xs.length - 1) 0 < x) ∧
      ∀ i, i + 1 < xs.length → xs.getD i 0 ≤ x → x ≤ xs.getD (i + 1) 0 →
        ∃ r, linearR xs vals x = some r ∧ |r - lineAt (xs.getD i 0) (xs.getD (i + 1) 0) (vals.getD i 0) (vals.getD (i + 1) 0) x| ≤ V / 2 ^ 47 := by
  obtain ⟨s1, s2⟩ := searchR_spec xs h2 hi x
  have hin : xs.getD 0 0 ≤ x ∧ x ≤ xs.getD (xs.length - 1) 0 → ∃ r j, linearR xs vals x = some r ∧ j + 1 < xs.length ∧ xs.getD j 0 ≤ x ∧ x ≤ xs.getD (j + 1) 0 ∧
      |r - lineAt (xs.getD j 0) (xs.getD (j + 1) 0) (vals.getD j 0) (vals.getD (j + 1) 0) x| ≤ V / 2 ^ 47 := by
    intro h
    obtain ⟨j, e, j1, j2, j3⟩ := s1 h
    refine ⟨_, j, ?_, j1, j2, j3, linear_err (inc_lt hi (by omega) j1) j2 j3 (getD_bound hv (by omega)) (getD_bound hv (by omega))⟩
    unfold linearR
    rw [if_neg (by omega), e]
    simp only [Option.bind_eq_bind, Option.bind_some]
    rw [getElem?_getD' (by omega : j < xs.length), getElem?_getD' (by omega : j + 1 < xs.length), getElem?_getD' (by omega : j < vals.length), getElem?_getD' (by omega : j + 1 < vals.length)]
    rfl
  refine ⟨⟨fun h => ?_, fun h => ?_⟩, fun i h1 h3 h4 => ?_⟩
  · by_contra hc
    rw [not_or, not_lt, not_lt] at hc
    obtain ⟨r, j, e, _⟩ := hin hc
    rw [e] at h
    cases h
  · unfold linearR
    rw [if_neg (by omega), s2 h]
    rfl
  · obtain ⟨r, j, e, j1, j2, j3, j4⟩ := hin ⟨(inc_le hi (Nat.zero_le i) (by omega)).trans h3, h4.trans (inc_le hi (by omega) (by omega))⟩
    refine ⟨r, e, ?_⟩
    rw [line_agree hi (fun k => vals.getD k 0) h1 j1 h3 h4 j2 j3]
    exact j4

/-- **C123.** The same on a grid of two increasing tables: a panic exactly outside of the grid, and otherwise the bilinear surface of the grid cell, up to `V / 2 ^ 48`.  The value of the grid point `(i, j)` is the entry
`i + j · (number of columns)` of the list. -/
theorem C123_bilinear (xs ys vals : List ℚ) (V : ℚ) (hx2 : 2 ≤ xs.length) (hy2 : 2 ≤ ys.length) (hx : Increasing xs) (hy : Increasing ys) (hl : vals.length = xs.length * ys.length) (hv : ∀ v ∈ vals, |v| ≤ V) (x y : ℚ) :
    (bilinearR xs ys vals x y = none ↔ (x < xs.getD 0 0 ∨ xs.getD (xs.length - 1) 0 < x) ∨ (y < ys.getD 0 0 ∨ ys.getD (ys.length - 1) 0 < y)) ∧
      ∀ i j, i + 1 < xs.length → j + 1 < ys.length → xs.getD i 0 ≤ x → x ≤ xs.getD (i + 1) 0 → ys.getD j 0 ≤ y → y ≤ ys.getD (j + 1) 0 →
        ∃ r, bilinearR xs ys vals x y = some r ∧
          |r - patchAt (xs.getD i 0) (xs.getD (i + 1) 0) (ys.getD j 0) (ys.getD (j + 1) 0) (vals.getD (i + xs.length * j) 0) (vals.getD (i + xs.length * (j + 1)) 0)
            (vals.getD (i + 1 + xs.length * j) 0) (vals.getD (i + 1 + xs.length * (j + 1)) 0) x y| ≤ V / 2 ^ 48 := by
  obtain ⟨s1, s2⟩ := searchR_spec xs hx2 hx x
  obtain ⟨t1, t2⟩ := searchR_spec ys hy2 hy y
  have hidx : ∀ a b, a < xs.length → b < ys.length → a + xs.length * b < vals.length := by
    intro a b ha hb
    rw [hl]
    calc a + xs.length * b < xs.length + xs.length * b := by omega
      _ = xs.length * (b + 1) := by ring
      _ ≤ _ := Nat.mul_le_mul_left _ hb
  have hin : (xs.getD 0 0 ≤ x ∧ x ≤ xs.getD (xs.length - 1) 0) → (ys.getD 0 0 ≤ y ∧ y ≤ ys.getD (ys.length - 1) 0) →
      ∃ r i j, bilinearR xs ys vals x y = some r ∧ i + 1 < xs.length ∧ j + 1 < ys.length ∧ xs.getD i 0 ≤ x ∧ x ≤ xs.getD (i + 1) 0 ∧ ys.getD j 0 ≤ y ∧ y ≤ ys.getD (j + 1) 0 ∧
          |r - patchAt (xs.getD i 0) (xs.getD (i + 1) 0) (ys.getD j 0) (ys.getD (j + 1) 0) (vals.getD (i + xs.length * j) 0) (vals.getD (i + xs.length * (j + 1)) 0)
            (vals.getD (i + 1 + xs.length * j) 0) (vals.getD (i + 1 + xs.length * (j + 1)) 0) x y| ≤ V / 2 ^ 48 := by
    intro h h'
    obtain ⟨i, e, i1, i2, i3⟩ := s1 h
    obtain ⟨j, e', j1, j2, j3⟩ := t1 h'
    have k11 := hidx i j (by omega) (by omega)
    have k12 := hidx i (j + 1) (by omega) (by omega)
    have k21 := hidx (i + 1) j (by omega) (by omega)
    have k22 := hidx (i + 1) (j + 1) (by omega) (by omega)
    refine ⟨_, i, j, ?_, i1, j1, i2, i3, j2, j3, bilinear_err (inc_lt hx (by omega) i1) (inc_lt hy (by omega) j1) i2 i3 j2 j3 (getD_bound hv k11) (getD_bound hv k12) (getD_bound hv k21) (getD_bound hv k22)⟩
    unfold bilinearR
    rw [if_neg (by rw [hl]; exact fun h => h rfl), e, e']
    simp only [Option.bind_eq_bind, Option.bind_some]
    rw [getElem?_getD' (by omega : i < xs.length), getElem?_getD' i1, getElem?_getD' (by omega : j < ys.length), getElem?_getD' j1, getElem?_getD' k11, getElem?_getD' k12, getElem?_getD' k21, getElem?_getD' k22]
    rfl
  refine ⟨⟨fun h => ?_, fun h => ?_⟩, fun i j h1 h2 h3 h4 h5 h6 => ?_⟩
  · by_contra hc
    rw [not_or, not_or, not_or, not_lt, not_lt, not_lt, not_lt] at hc
    obtain ⟨r, i, j, e, _⟩ := hin hc.1 hc.2
    rw [e] at h
    cases h
  · unfold bilinearR
    rw [if_neg (by rw [hl]; exact fun h => h rfl)]
    rcases h with h | h
    · rw [s2 h]; rfl
    · rw [t2 h]
      cases searchR xs x <;> rfl
  · obtain ⟨r, i', j', e, a1, b1, a2, a3, b2, b3, g⟩ := hin ⟨(inc_le hx (Nat.zero_le i) (by omega)).trans h3, h4.trans (inc_le hx (by omega) (by omega))⟩
      ⟨(inc_le hy (Nat.zero_le j) (by omega)).trans h5, h6.trans (inc_le hy (by omega) (by omega))⟩
    refine ⟨r, e, ?_⟩
    have c : ∀ b, lineAt (xs.getD i 0) (xs.getD (i + 1) 0) (vals.getD (i + xs.length * b) 0) (vals.getD (i + 1 + xs.length * b) 0) x =
        lineAt (xs.getD i' 0) (xs.getD (i' + 1) 0) (vals.getD (i' + xs.length * b) 0) (vals.getD (i' + 1 + xs.length * b) 0) x :=
      fun b => line_agree hx (fun k => vals.getD (k + xs.length * b) 0) h1 a1 h3 h4 a2 a3
    unfold patchAt at g ⊢
    rw [c, c]
    rw [line_agree hy (fun k => lineAt (xs.getD i' 0) (xs.getD (i' + 1) 0) (vals.getD (i' + xs.length * k) 0) (vals.getD (i' + 1 + xs.length * k) 0) x) h2 b1 h5 h6 b2 b3]
    exact g

theorem r49 : r64 (1 / 49) = 5882252574524729 / 2 ^ 58 := by
  unfold r64
  rw [rn_eq (-6) 5882252574524729 (by rw [abs_of_pos (by norm_num)]; norm_num) (by rw [abs_of_pos (by norm_num)]; norm_num) (by rw [abs_lt]; norm_num)]
  norm_num

theorem r49' : r64 (5882252574524729 / 2 ^ 58 * 49) = 1 - 1 / 2 ^ 53 := by
  unfold r64
  rw [rn_eq (-1) (2 ^ 53 - 1) (by rw [abs_of_pos (by norm_num)]; norm_num) (by rw [abs_of_pos (by norm_num)]; norm_num) (by rw [abs_lt]; norm_num)]
  norm_num

/-- C123 does not hold exactly, not even at the points of the table: between the points (0, 0) and (49, 1) the interpolator gives 1 - 2⁻⁵³ at 49. -/
theorem C123_knots_false : ∃ xs vals : List ℚ, Increasing xs ∧ vals.length = xs.length ∧ (∀ x ∈ xs ++ vals, Float64 x) ∧
    ∃ i r, i < xs.length ∧ linearR xs vals (xs.getD i 0) = some r ∧ r ≠ vals.getD i 0 ∧ r < vals.getD i 0 := by
  have f0 : r64 0 = 0 := f64_of 0 0 (by norm_num) (by norm_num)
  have f1 : r64 1 = 1 := f64_of 1 0 (by norm_num) (by norm_num)
  have f49 : r64 49 = 49 := f64_of 49 0 (by norm_num) (by norm_num)
  have hi : Increasing [0, 49] := by unfold Increasing; simp
  refine ⟨[0, 49], [0, 1], hi, rfl, ?_, 1, 1 - 1 / 2 ^ 53, by decide, ?_, by norm_num, by norm_num⟩
  · intro x hx
    simp only [List.cons_append, List.nil_append, List.mem_cons, List.not_mem_nil, or_false] at hx
    rcases hx with rfl | rfl | rfl | rfl
    · exact ⟨0, 0, by norm_num, by norm_num⟩
    · exact ⟨49, 0, by norm_num, by norm_num⟩
    · exact ⟨0, 0, by norm_num, by norm_num⟩
    · exact ⟨1, 0, by norm_num, by norm_num⟩
  · obtain ⟨j, e, j1, -, -⟩ := (searchR_spec [0, 49] (by simp) hi 49).1 ⟨by norm_num, by norm_num⟩
    have j0 : j = 0 := by simp at j1; omega
    subst j0
    unfold linearR
    have e' : searchR [0, 49] (List.getD [0, 49] 1 0) = some 0 := e
    rw [if_neg (by simp), e']
    simp only [Option.bind_eq_bind, Option.bind_some, List.getElem?_cons_zero, List.getElem?_cons_succ, List.getD_cons_succ, List.getD_cons_zero, Nat.zero_add]
    rw [sub_zero, sub_zero, f1, f49, r49, r49', add_zero]
    exact congrArg some (f64_of (2 ^ 53 - 1) (-53) (by norm_num) (by norm_num))

/-! ### Examples: the hypotheses are met -/

example : (2 ≤ ([0, 1 / 2, 4] : List ℚ).length ∧ Increasing [0, 1 / 2, 4] ∧ ([3, -1, 2] : List ℚ).length = ([0, 1 / 2, 4] : List ℚ).length ∧ ∀ v ∈ ([3, -1, 2] : List ℚ), |v| ≤ 3) ∧
    (∃ r, linearR [0, 1 / 2, 4] [3, -1, 2] 1 = some r ∧ |r - (-4 / 7)| ≤ 3 / 2 ^ 47) ∧ linearR [0, 1 / 2, 4] [3, -1, 2] 5 = none := by
  have h1 : Increasing [0, 1 / 2, 4] := by unfold Increasing; norm_num
  have h2 : ∀ v ∈ ([3, -1, 2] : List ℚ), |v| ≤ 3 := by
    intro v hv
    simp only [List.mem_cons, List.not_mem_nil, or_false] at hv
    rcases hv with rfl | rfl | rfl <;> norm_num [abs_le]
  refine ⟨⟨by simp, h1, rfl, h2⟩, ?_, (C123_linear [0, 1 / 2, 4] [3, -1, 2] 3 (by simp) h1 rfl h2 5).1.mpr (Or.inr (by norm_num))⟩
  obtain ⟨r, e, hr⟩ := (C123_linear [0, 1 / 2, 4] [3, -1, 2] 3 (by simp) h1 rfl h2 1).2 1 (by simp) (by norm_num) (by norm_num)
  refine ⟨r, e, ?_⟩
  norm_num [lineAt] at hr ⊢
  exact hr

example : ∃ r, bilinearR [0, 2] [0, 1, 4] [0, 1, 2, 3, 4, 5] 1 2 = some r ∧ |r - (19 / 6)| ≤ 5 / 2 ^ 48 := by
  have h1 : Increasing [0, 2] := by unfold Increasing; norm_num
  have h1' : Increasing [0, 1, 4] := by unfold Increasing; norm_num
  have h2 : ∀ v ∈ ([0, 1, 2, 3, 4, 5] : List ℚ), |v| ≤ 5 := by
    intro v hv
    simp only [List.mem_cons, List.not_mem_nil, or_false] at hv
    rcases hv with rfl | rfl | rfl | rfl | rfl | rfl <;> norm_num [abs_le]
  obtain ⟨r, e, hr⟩ := (C123_bilinear _ _ _ 5 (by simp) (by simp) h1 h1' rfl h2 1 2).2 0 1 (by simp) (by simp) (by norm_num) (by norm_num) (by norm_num) (by norm_num)
  refine ⟨r, e, ?_⟩
  norm_num [lineAt, patchAt] at hr ⊢
  exact hr

end Shellfish.Round
