/-
C48: numerical derivatives.
-/
import Verif.Model.Deriv
import Verif.Props.Group
import Mathlib.Algebra.Polynomial.Derivative
import Mathlib.Algebra.Polynomial.Eval.Degree
import Mathlib.Algebra.Order.Field.Rat
import Mathlib.Tactic.FieldSimp
import Mathlib.Tactic.Ring
import Mathlib.Tactic.NormNum
import Mathlib.Tactic.ComputeDegree
import Mathlib.Tactic.LinearCombination
import Mathlib.Data.List.GetD

namespace Shellfish.Deriv
open Polynomial

variable {K : Type} [Field K]

/-- Specification: the grid `x0, x0 + h, …` with `n` points. -/
def grid (x0 h : K) (n : Nat) : List K := (List.range n).map fun (i : Nat) => x0 + (i : K) * h

theorem grid_length (x0 h : K) (n : Nat) : (grid x0 h n).length = n := by simp [grid]

theorem grid_get (x0 h : K) {n i : Nat} (hi : i < n) : (grid x0 h n)[i]? = some (x0 + (i : K) * h) := by
  simp [grid, hi]

theorem grid_map_get (x0 h : K) (f : K → K) {n i : Nat} (hi : i < n) : ((grid x0 h n).map f)[i]? = some (f (x0 + (i : K) * h)) := by
  simp [grid, hi]

theorem fromEnd_grid (x0 h : K) {n k : Nat} (h1 : 1 ≤ k) (hk : k ≤ n) : fromEnd (grid x0 h n) k = some (x0 + ((n - k : Nat) : K) * h) := by
  unfold fromEnd
  rw [grid_length, if_neg (by omega), grid_get x0 h (by omega)]

theorem fromEnd_grid_map (x0 h : K) (f : K → K) {n k : Nat} (h1 : 1 ≤ k) (hk : k ≤ n) :
    fromEnd ((grid x0 h n).map f) k = some (f (x0 + ((n - k : Nat) : K) * h)) := by
  unfold fromEnd
  rw [List.length_map, grid_length, if_neg (by omega), grid_map_get x0 h f (by omega)]

theorem mapM_isSome {α β : Type} (f : α → Option β) (l : List α) (h : ∀ x ∈ l, (f x).isSome) : (l.mapM f).isSome := by
  have h' : ∀ x ∈ l, ∃ v, f x = some v := fun x hx => Option.isSome_iff_exists.mp (h x hx)
  cases l with
  | nil => rfl
  | cons a l =>
    have : Nonempty β := ⟨(h' a (List.mem_cons_self ..)).choose⟩
    choose! g hg using h'
    rw [Cmd.mapM_ok f g _ hg]
    rfl

theorem eval_deg2 (p : K[X]) (hp : p.natDegree ≤ 2) (x : K) : p.eval x = p.coeff 0 + p.coeff 1 * x + p.coeff 2 * x ^ 2 := by
  rw [eval_eq_sum_range' (n := 3) (by omega)]
  simp [Finset.sum_range_succ]

theorem deriv_deg2 (p : K[X]) (hp : p.natDegree ≤ 2) (x : K) : p.derivative.eval x = p.coeff 1 + 2 * p.coeff 2 * x := by
  rw [eval_eq_sum_range' (n := 2) (lt_of_le_of_lt (natDegree_derivative_le p) (by omega))]
  simp only [Finset.sum_range_succ, coeff_derivative, Finset.range_zero, Finset.sum_empty]
  push_cast
  ring

theorem eval_deg4 (p : K[X]) (hp : p.natDegree ≤ 4) (x : K) :
    p.eval x = p.coeff 0 + p.coeff 1 * x + p.coeff 2 * x ^ 2 + p.coeff 3 * x ^ 3 + p.coeff 4 * x ^ 4 := by
  rw [eval_eq_sum_range' (n := 5) (by omega)]
  simp [Finset.sum_range_succ]

theorem deriv_deg4 (p : K[X]) (hp : p.natDegree ≤ 4) (x : K) :
    p.derivative.eval x = p.coeff 1 + 2 * p.coeff 2 * x + 3 * p.coeff 3 * x ^ 2 + 4 * p.coeff 4 * x ^ 3 := by
  rw [eval_eq_sum_range' (n := 4) (lt_of_le_of_lt (natDegree_derivative_le p) (by omega))]
  simp only [Finset.sum_range_succ, coeff_derivative, Finset.range_zero, Finset.sum_empty]
  push_cast
  ring

variable [CharZero K]

/-- C48 (order 2): on a uniform grid of at least three points the derivative of order 2 is exact for every polynomial of degree at most 2, the ends included. -/
theorem C48_order2 (p : K[X]) (hp : p.natDegree ≤ 2) (x0 h : K) (hh : h ≠ 0) (n : Nat) (hn : 3 ≤ n) :
    deriv (grid x0 h n) ((grid x0 h n).map fun x => p.eval x) 2 none = some ((grid x0 h n).map fun x => p.derivative.eval x) := by
  unfold deriv
  rw [if_neg (by simp), if_neg (by simp), if_neg (by decide), if_pos rfl]
  unfold deriv2 first2 last2
  obtain ⟨m, rfl⟩ : ∃ m, n = m + 3 := ⟨n - 3, by omega⟩
  rw [grid_map_get _ _ _ (by omega), grid_map_get _ _ _ (by omega), grid_map_get _ _ _ (by omega), grid_get _ _ (by omega), grid_get _ _ (by omega),
    fromEnd_grid_map _ _ _ (by omega) (by omega), fromEnd_grid_map _ _ _ (by omega) (by omega), fromEnd_grid_map _ _ _ (by omega) (by omega),
    fromEnd_grid _ _ (by omega) (by omega), fromEnd_grid _ _ (by omega) (by omega)]
  simp only [Option.bind_eq_bind, Option.bind_some, Option.pure_def]
  rw [Cmd.mapM_ok _ (fun (i : Nat) => p.derivative.eval (x0 + (i : K) * h)) _]
  · simp [grid, Function.comp_def, grid_length]
  intro i hi
  rw [List.mem_range, grid_length] at hi
  have h2 : (2 : K) ≠ 0 := by norm_num
  rw [grid_length]
  by_cases hi0 : i = 0
  · subst hi0
    rw [if_pos rfl]
    congr 1
    simp only [eval_deg2 p hp, deriv_deg2 p hp]
    push_cast
    rw [div_eq_iff (by ring_nf; exact mul_ne_zero hh h2)]
    ring
  rw [if_neg hi0]
  by_cases hi1 : i = m + 3 - 1
  · rw [if_pos hi1]
    congr 1
    simp only [eval_deg2 p hp, deriv_deg2 p hp]
    have e1 : m + 3 - 1 = m + 2 := by omega
    have e2 : m + 3 - 2 = m + 1 := by omega
    have e3 : m + 3 - 3 = m := by omega
    rw [hi1, e1, e2, e3]
    push_cast
    rw [div_eq_iff (by ring_nf; exact mul_ne_zero hh h2)]
    ring
  · rw [if_neg hi1]
    unfold mid2
    obtain ⟨j, rfl⟩ : ∃ j, i = j + 1 := ⟨i - 1, by omega⟩
    have e : j + 1 - 1 = j := rfl
    rw [e, grid_map_get _ _ _ (by omega), grid_map_get _ _ _ (by omega), grid_get _ _ (by omega), grid_get _ _ (by omega)]
    simp only [Option.bind_eq_bind, Option.bind_some, Option.pure_def]
    congr 1
    simp only [eval_deg2 p hp, deriv_deg2 p hp]
    push_cast
    rw [div_eq_iff (by ring_nf; exact mul_ne_zero hh h2)]
    ring

/-- C48 (order 4): on a uniform grid of at least five points the derivative of order 4 of a polynomial of degree at most 4 is exact at the first two and the last two points,
and 4/3 of the true derivative at every other point.  (The full property, exactness at every point, is false: see `C48_order4_false`.) -/
theorem C48_order4_partial (p : K[X]) (hp : p.natDegree ≤ 4) (x0 h : K) (hh : h ≠ 0) (n : Nat) (hn : 5 ≤ n) :
    ∃ out, deriv (grid x0 h n) ((grid x0 h n).map fun x => p.eval x) 4 none = some out ∧ out.length = n ∧
      (∀ i < n, i < 2 ∨ n ≤ i + 2 → out[i]? = some (p.derivative.eval (x0 + (i : K) * h))) ∧
      ∀ i < n, 2 ≤ i → i + 2 < n → out[i]? = some (4 / 3 * p.derivative.eval (x0 + (i : K) * h)) := by
  unfold deriv
  rw [if_neg (by simp), if_neg (by simp), if_neg (by decide), if_neg (by decide), if_pos rfl]
  unfold deriv4 first4 last4
  obtain ⟨m, rfl⟩ : ∃ m, n = m + 5 := ⟨n - 5, by omega⟩
  rw [grid_map_get _ _ _ (by omega), grid_map_get _ _ _ (by omega), grid_map_get _ _ _ (by omega), grid_map_get _ _ _ (by omega), grid_map_get _ _ _ (by omega),
    grid_get _ _ (by omega), grid_get _ _ (by omega),
    fromEnd_grid_map _ _ _ (by omega) (by omega), fromEnd_grid_map _ _ _ (by omega) (by omega), fromEnd_grid_map _ _ _ (by omega) (by omega),
    fromEnd_grid_map _ _ _ (by omega) (by omega), fromEnd_grid_map _ _ _ (by omega) (by omega),
    fromEnd_grid _ _ (by omega) (by omega), fromEnd_grid _ _ (by omega) (by omega)]
  simp only [Option.bind_eq_bind, Option.bind_some, Option.pure_def]
  have h2 : (2 : K) ≠ 0 := by norm_num
  have h12 : (12 : K) ≠ 0 := by norm_num
  have e1 : m + 5 - 1 = m + 4 := by omega
  have e2 : m + 5 - 2 = m + 3 := by omega
  have e3 : m + 5 - 3 = m + 2 := by omega
  have e4 : m + 5 - 4 = m + 1 := by omega
  have e5 : m + 5 - 5 = m := by omega
  rw [Cmd.mapM_ok _ (fun (i : Nat) => if i < 2 ∨ m + 5 ≤ i + 2 then p.derivative.eval (x0 + (i : K) * h) else 4 / 3 * p.derivative.eval (x0 + (i : K) * h)) _]
  · refine ⟨_, rfl, by simp [grid_length], fun i hi hc => ?_, fun i hi h1 h3 => ?_⟩
    · rw [List.getElem?_map, List.getElem?_range (by rw [grid_length]; exact hi), Option.map_some, if_pos hc]
    · rw [List.getElem?_map, List.getElem?_range (by rw [grid_length]; exact hi), Option.map_some, if_neg (by omega)]
  intro i hi
  rw [List.mem_range, grid_length] at hi
  rw [grid_length, e1, e2, e3, e4, e5]
  by_cases hi0 : i = 0
  · subst hi0
    rw [if_pos rfl, if_pos (by omega)]
    congr 1
    simp only [eval_deg4 p hp, deriv_deg4 p hp]
    push_cast
    rw [div_eq_iff (by ring_nf; exact mul_ne_zero hh h12)]
    ring
  rw [if_neg hi0]
  by_cases hi1 : i = 1
  · subst hi1
    rw [if_pos rfl, if_pos (by omega)]
    congr 1
    simp only [eval_deg4 p hp, deriv_deg4 p hp]
    push_cast
    rw [div_eq_iff (by ring_nf; exact mul_ne_zero hh h12)]
    ring
  rw [if_neg hi1]
  by_cases hi3 : i = m + 3
  · subst hi3
    rw [if_pos rfl, if_pos (by omega)]
    congr 1
    simp only [eval_deg4 p hp, deriv_deg4 p hp]
    push_cast
    rw [div_eq_iff (by ring_nf; exact neg_ne_zero.mpr (mul_ne_zero hh h12))]
    ring
  rw [if_neg hi3]
  by_cases hi4 : i = m + 4
  · subst hi4
    rw [if_pos rfl, if_pos (by omega)]
    congr 1
    simp only [eval_deg4 p hp, deriv_deg4 p hp]
    push_cast
    rw [div_eq_iff (by ring_nf; exact neg_ne_zero.mpr (mul_ne_zero hh h12))]
    ring
  · rw [if_neg hi4, if_neg (by omega)]
    unfold mid4
    obtain ⟨j, rfl⟩ : ∃ j, i = j + 2 := ⟨i - 2, by omega⟩
    have e : j + 2 - 1 = j + 1 := rfl
    have e' : j + 2 - 2 = j := rfl
    rw [e, e', grid_map_get _ _ _ (by omega), grid_map_get _ _ _ (by omega), grid_map_get _ _ _ (by omega), grid_map_get _ _ _ (by omega), grid_get _ _ (by omega),
      grid_get _ _ (by omega)]
    simp only [Option.bind_eq_bind, Option.bind_some, Option.pure_def]
    congr 1
    simp only [eval_deg4 p hp, deriv_deg4 p hp]
    push_cast
    have h9 : (9 : K) ≠ 0 := by norm_num
    rw [div_eq_iff (by ring_nf; exact mul_ne_zero hh h9)]
    ring

/-- C48 is false for order 4: already for the line `y = x` on the grid 0, 1, …, 4 the derivative in the middle is 4/3. -/
theorem C48_order4_false : ∃ out, deriv (grid (0 : ℚ) 1 5) ((grid (0 : ℚ) 1 5).map fun x => (X : ℚ[X]).eval x) 4 none = some out ∧ out[2]? = some (4 / 3) ∧
    (X : ℚ[X]).derivative.eval (0 + (2 : ℚ) * 1) = 1 := by
  obtain ⟨out, h1, _, _, h4⟩ := C48_order4_partial (X : ℚ[X]) (by rw [natDegree_X]; omega) 0 1 one_ne_zero 5 (le_refl 5)
  refine ⟨out, h1, ?_, by simp⟩
  rw [h4 2 (by omega) (le_refl 2) (by omega)]
  simp

/-- C48 on any grid: the inner values of order 2 are exact for straight lines whenever the neighbours are different. -/
theorem C48_line_inner (a b : K) (xs : List K) (i : Nat) (xp xn : K) (hi : 1 ≤ i) (hp : xs[i - 1]? = some xp) (hn : xs[i + 1]? = some xn) (hne : xn ≠ xp) :
    ∃ out, deriv xs (xs.map fun x => a * x + b) 2 none = some out ∧ out.length = xs.length ∧ out[i]? = some a := by
  have hlen : i + 1 < xs.length := (List.getElem?_eq_some_iff.mp hn).1
  unfold deriv
  rw [if_neg (by simp), if_neg (by simp), if_neg (by decide), if_pos rfl]
  have hget : ∀ k, k < xs.length → ∃ x, xs[k]? = some x ∧ (xs.map fun x => a * x + b)[k]? = some (a * x + b) := fun k hk =>
    ⟨xs[k], List.getElem?_eq_getElem hk, by simp [hk]⟩
  obtain ⟨f, hf⟩ : ∃ f, first2 xs (xs.map fun x => a * x + b) = some f := by
    obtain ⟨x0, a0, b0⟩ := hget 0 (by omega)
    obtain ⟨x1, a1, b1⟩ := hget 1 (by omega)
    obtain ⟨x2, a2, b2⟩ := hget 2 (by omega)
    unfold first2
    rw [b0, b1, b2, a0, a2]
    exact ⟨_, rfl⟩
  obtain ⟨l, hl⟩ : ∃ l, last2 xs (xs.map fun x => a * x + b) = some l := by
    obtain ⟨x1, a1, b1⟩ := hget (xs.length - 1) (by omega)
    obtain ⟨x2, a2, b2⟩ := hget (xs.length - 2) (by omega)
    obtain ⟨x3, a3, b3⟩ := hget (xs.length - 3) (by omega)
    unfold last2 fromEnd
    simp only [List.length_map]
    rw [if_neg (by omega), if_neg (by omega), if_neg (by omega), b1, b2, b3, if_neg (by omega), if_neg (by omega), a1, a3]
    exact ⟨_, rfl⟩
  have hm : ∀ k ∈ List.range xs.length, ∃ v, (if k = 0 then some f else if k = xs.length - 1 then some l else mid2 xs (xs.map fun x => a * x + b) k) = some v := by
    intro k hk
    rw [List.mem_range] at hk
    split_ifs with h1 h2
    · exact ⟨_, rfl⟩
    · exact ⟨_, rfl⟩
    · obtain ⟨x1, a1, b1⟩ := hget (k + 1) (by omega)
      obtain ⟨x2, a2, b2⟩ := hget (k - 1) (by omega)
      unfold mid2
      rw [b1, b2, a1, a2]
      exact ⟨_, rfl⟩
  choose! g hg using hm
  refine ⟨(List.range xs.length).map g, ?_, by simp, ?_⟩
  · unfold deriv2
    rw [hf, hl]
    exact Cmd.mapM_ok _ _ _ hg
  · rw [List.getElem?_map, List.getElem?_range (by omega), Option.map_some]
    have := hg i (List.mem_range.mpr (by omega))
    rw [if_neg (by omega), if_neg (by omega)] at this
    unfold mid2 at this
    rw [List.getElem?_map, List.getElem?_map, hn, hp] at this
    simp only [Option.map_some, Option.bind_eq_bind, Option.bind_some, Option.pure_def, Option.some.injEq] at this
    rw [← this]
    congr 1
    rw [div_eq_iff (sub_ne_zero.mpr hne)]
    ring

/-- C48: "the points do not need to be uniformly spaced" is false at the ends, already for the line `y = x`. -/
theorem C48_nonuniform_false : deriv ([0, 1, 3] : List ℚ) [0, 1, 3] 2 none = some [1 / 3, 1, 5 / 3] := by
  norm_num [deriv, deriv2, first2, last2, mid2, fromEnd, List.range, List.range.loop]

/-- C48: order 0, which should return the values, returns the positions. -/
theorem C48_order0_false : ∃ xs ys : List ℚ, deriv xs ys 0 none ≠ some ys ∧ deriv xs ys 0 none = some xs := by
  refine ⟨[0], [1], ?_, rfl⟩
  decide

omit [CharZero K] in
/-- C48: exactly which calls panic: different lengths, an output slice of another length, an unsupported order, or fewer points than the formula needs (three for order 2,
five for order 4). -/
theorem C48_panics (xs ys : List K) (order : Int) (outLen : Option Nat) :
    (deriv xs ys order outLen).isSome ↔ ys.length = xs.length ∧ (∀ m, outLen = some m → m = xs.length) ∧
      (order = 0 ∨ (order = 2 ∧ 3 ≤ xs.length) ∨ (order = 4 ∧ 5 ≤ xs.length)) := by
  have hout : outLen.getD xs.length = xs.length ↔ ∀ m, outLen = some m → m = xs.length := by
    cases outLen with
    | none => simp
    | some m => simp
  unfold deriv
  by_cases hl : ys.length = xs.length
  swap
  · rw [if_pos hl]
    simp [hl]
  rw [if_neg (by simpa using hl)]
  by_cases ho : outLen.getD xs.length = xs.length
  swap
  · rw [if_pos ho]
    rw [hout] at ho
    simp only [Option.isSome_none, Bool.false_eq_true, false_iff]
    exact fun h => ho h.2.1
  rw [if_neg (by simpa using ho)]
  have hget : ∀ k, k < xs.length → ∃ x y, xs[k]? = some x ∧ ys[k]? = some y := fun k hk =>
    ⟨xs[k], ys[k]'(by omega), List.getElem?_eq_getElem hk, List.getElem?_eq_getElem (by omega)⟩
  by_cases h0 : order = 0
  · rw [if_pos h0]
    simpa [hl, h0] using hout.mp ho
  rw [if_neg h0]
  by_cases h2 : order = 2
  · rw [if_pos h2]
    have hrhs : (ys.length = xs.length ∧ (∀ m, outLen = some m → m = xs.length) ∧
      (order = 0 ∨ (order = 2 ∧ 3 ≤ xs.length) ∨ (order = 4 ∧ 5 ≤ xs.length))) ↔ 3 ≤ xs.length := by
      constructor
      · rintro ⟨_, _, h | h | h⟩ <;> omega
      · exact fun h => ⟨hl, hout.mp ho, Or.inr (Or.inl ⟨h2, h⟩)⟩
    rw [hrhs]
    constructor
    · intro h
      by_contra hlt
      have : first2 xs ys = none := by
        unfold first2
        have : ys[2]? = none := List.getElem?_eq_none (by omega)
        rw [this]
        cases ys[0]? <;> cases ys[1]? <;> rfl
      unfold deriv2 at h
      rw [this] at h
      simp at h
    · intro h
      obtain ⟨x0, y0, a0, b0⟩ := hget 0 (by omega)
      obtain ⟨x1, y1, a1, b1⟩ := hget 1 (by omega)
      obtain ⟨x2, y2, a2, b2⟩ := hget 2 (by omega)
      obtain ⟨u1, v1, c1, d1⟩ := hget (xs.length - 1) (by omega)
      obtain ⟨u2, v2, c2, d2⟩ := hget (xs.length - 2) (by omega)
      obtain ⟨u3, v3, c3, d3⟩ := hget (xs.length - 3) (by omega)
      unfold deriv2 first2 last2 fromEnd
      rw [hl, if_neg (by omega), if_neg (by omega), if_neg (by omega), if_neg (by omega), if_neg (by omega), b0, b1, b2, a0, a2, d1, d2, d3, c1, c3]
      simp only [Option.bind_eq_bind, Option.bind_some, Option.pure_def]
      refine mapM_isSome _ _ fun k hk => ?_
      rw [List.mem_range] at hk
      split_ifs with h1 h2
      · rfl
      · rfl
      · obtain ⟨p1, q1, r1, s1⟩ := hget (k + 1) (by omega)
        obtain ⟨p2, q2, r2, s2⟩ := hget (k - 1) (by omega)
        unfold mid2
        rw [s1, s2, r1, r2]
        rfl
  rw [if_neg h2]
  by_cases h4 : order = 4
  · rw [if_pos h4]
    have hrhs : (ys.length = xs.length ∧ (∀ m, outLen = some m → m = xs.length) ∧
      (order = 0 ∨ (order = 2 ∧ 3 ≤ xs.length) ∨ (order = 4 ∧ 5 ≤ xs.length))) ↔ 5 ≤ xs.length := by
      constructor
      · rintro ⟨_, _, h | h | h⟩ <;> omega
      · exact fun h => ⟨hl, hout.mp ho, Or.inr (Or.inr ⟨h4, h⟩)⟩
    rw [hrhs]
    constructor
    · intro h
      by_contra hlt
      have : first4 xs ys = none := by
        unfold first4
        have : ys[4]? = none := List.getElem?_eq_none (by omega)
        rw [this]
        cases ys[0]? <;> cases ys[1]? <;> cases ys[2]? <;> cases ys[3]? <;> rfl
      unfold deriv4 at h
      rw [this] at h
      simp at h
    · intro h
      obtain ⟨x0, y0, a0, b0⟩ := hget 0 (by omega)
      obtain ⟨x1, y1, a1, b1⟩ := hget 1 (by omega)
      obtain ⟨x2, y2, a2, b2⟩ := hget 2 (by omega)
      obtain ⟨x3, y3, a3, b3⟩ := hget 3 (by omega)
      obtain ⟨x4, y4, a4, b4⟩ := hget 4 (by omega)
      obtain ⟨u1, v1, c1, d1⟩ := hget (xs.length - 1) (by omega)
      obtain ⟨u2, v2, c2, d2⟩ := hget (xs.length - 2) (by omega)
      obtain ⟨u3, v3, c3, d3⟩ := hget (xs.length - 3) (by omega)
      obtain ⟨u4, v4, c4, d4⟩ := hget (xs.length - 4) (by omega)
      obtain ⟨u5, v5, c5, d5⟩ := hget (xs.length - 5) (by omega)
      unfold deriv4 first4 last4 fromEnd
      rw [hl, if_neg (by omega), if_neg (by omega), if_neg (by omega), if_neg (by omega), if_neg (by omega), if_neg (by omega), if_neg (by omega),
        b0, b1, b2, b3, b4, a0, a4, d1, d2, d3, d4, d5, c1, c5]
      simp only [Option.bind_eq_bind, Option.bind_some, Option.pure_def]
      refine mapM_isSome _ _ fun k hk => ?_
      rw [List.mem_range] at hk
      split_ifs with h1 h2
      · rfl
      · rfl
      · rfl
      · rfl
      · obtain ⟨p1, q1, r1, s1⟩ := hget (k + 2) (by omega)
        obtain ⟨p2, q2, r2, s2⟩ := hget (k + 1) (by omega)
        obtain ⟨p3, q3, r3, s3⟩ := hget (k - 1) (by omega)
        obtain ⟨p4, q4, r4, s4⟩ := hget (k - 2) (by omega)
        unfold mid4
        rw [s1, s2, s3, s4, r1, r3]
        rfl
  rw [if_neg h4]
  simp only [Option.isSome_none, Bool.false_eq_true, false_iff]
  rintro ⟨_, _, h | h | h⟩
  · exact h0 h
  · exact h2 h.1
  · exact h4 h.1

/-- A parabola on three points meets the hypotheses of `C48_order2`: the derivative of x² + 1 at 1, 3, 5. -/
example : deriv (grid (1 : ℚ) 2 3) ((grid (1 : ℚ) 2 3).map fun x => (X ^ 2 + 1 : ℚ[X]).eval x) 2 none =
    some ((grid (1 : ℚ) 2 3).map fun x => (X ^ 2 + 1 : ℚ[X]).derivative.eval x) :=
  C48_order2 _ (by compute_degree) 1 2 (by norm_num) 3 (le_refl 3)

/-- x⁴ on six points meets the hypotheses of `C48_order4_partial`. -/
example : ∃ out, deriv (grid (0 : ℚ) 1 6) ((grid (0 : ℚ) 1 6).map fun x => (X ^ 4 : ℚ[X]).eval x) 4 none = some out ∧ out[1]? = some 4 ∧ out[3]? = some (4 / 3 * 108) := by
  obtain ⟨out, h1, _, h3, h4⟩ := C48_order4_partial (X ^ 4 : ℚ[X]) (by compute_degree) 0 1 one_ne_zero 6 (by omega)
  refine ⟨out, h1, ?_, ?_⟩
  · rw [h3 1 (by omega) (by omega)]
    norm_num
  · rw [h4 3 (by omega) (by omega) (by omega)]
    norm_num

/-- An uneven grid for `C48_line_inner`. -/
example : ∃ out, deriv ([0, 1, 3, 7] : List ℚ) ([0, 1, 3, 7].map fun x => 2 * x + 5) 2 none = some out ∧ out.length = 4 ∧ out[2]? = some 2 :=
  C48_line_inner 2 5 [0, 1, 3, 7] 2 1 7 (by omega) rfl rfl (by norm_num)

end Shellfish.Deriv
