/-
C42: cubic splines.
-/
import Verif.Props.Interp
import Mathlib.Algebra.Polynomial.Derivative
import Mathlib.Tactic.LinearCombination
import Mathlib.Tactic.ComputeDegree
import Mathlib.Tactic.IntervalCases

namespace Shellfish.Interp
open Polynomial

variable {K : Type} [Field K] [LinearOrder K] [FloorRing K] [IsStrictOrderedRing K]

/-! The tridiagonal solver -/

/-- The pivots of the elimination. -/
def pivot (as bs cs : Nat → K) : Nat → K
  | 0 => bs 0
  | i + 1 => bs (i + 1) - as (i + 1) * (cs i / pivot as bs cs i)

/-- The right hand side after the elimination. -/
def elim (as bs cs rs : Nat → K) : Nat → K
  | 0 => rs 0 / bs 0
  | i + 1 => (rs (i + 1) - as (i + 1) * elim as bs cs rs i) / pivot as bs cs (i + 1)

omit [FloorRing K] [IsStrictOrderedRing K] in
theorem triFwd_fold (as bs cs rs : Nat → K) (k : Nat) :
    ((∀ i, 1 ≤ i → i ≤ k → pivot as bs cs i ≠ 0) →
      ∃ s, (List.range' 1 k).foldlM (triFwd as bs cs rs) (bs 0, fun _ => 0, Function.update (fun _ => 0) 0 (rs 0 / bs 0)) = some s) ∧
    ∀ s, (List.range' 1 k).foldlM (triFwd as bs cs rs) (bs 0, fun _ => 0, Function.update (fun _ => 0) 0 (rs 0 / bs 0)) = some s →
      s.1 = pivot as bs cs k ∧ (∀ i, 1 ≤ i → i ≤ k → pivot as bs cs i ≠ 0) ∧ (∀ i, i < k → s.2.1 (i + 1) = cs i / pivot as bs cs i) ∧ ∀ i ≤ k, s.2.2 i = elim as bs cs rs i := by
  induction k with
  | zero =>
    refine ⟨fun _ => ⟨_, rfl⟩, ?_⟩
    intro s hs
    simp only [List.range'_zero, List.foldlM_nil, Option.pure_def, Option.some.injEq] at hs
    subst hs
    refine ⟨rfl, fun i h1 h2 => by omega, fun i hi => by omega, fun i hi => ?_⟩
    have : i = 0 := by omega
    subst this
    simp [elim]
  | succ k ih =>
    have hr : List.range' 1 (k + 1) = List.range' 1 k ++ [k + 1] := by
      rw [List.range'_concat]; congr 2; omega
    rw [hr, List.foldlM_append]
    generalize hF : (List.range' 1 k).foldlM (triFwd as bs cs rs) (bs 0, fun _ => 0, Function.update (fun _ => 0) 0 (rs 0 / bs 0)) = F at ih ⊢
    constructor
    · intro hp
      obtain ⟨s, hs⟩ := ih.1 (fun i h1 h2 => hp i h1 (by omega))
      obtain ⟨h1, _, _, _⟩ := ih.2 s hs
      rw [hs]
      simp only [Option.bind_eq_bind, Option.bind_some, List.foldlM_cons, List.foldlM_nil]
      unfold triFwd
      dsimp only
      rw [show k + 1 - 1 = k by omega, h1]
      have := hp (k + 1) (by omega) (le_refl _)
      unfold pivot at this
      rw [if_neg this]
      exact ⟨_, rfl⟩
    · intro s hs
      cases F with
      | none => simp at hs
      | some s' =>
        obtain ⟨h1, h2, h3, h4⟩ := ih.2 s' rfl
        simp only [Option.bind_eq_bind, Option.bind_some, List.foldlM_cons, List.foldlM_nil] at hs
        unfold triFwd at hs
        dsimp only at hs
        rw [show k + 1 - 1 = k by omega, h1, h4 k (le_refl _)] at hs
        by_cases hz : bs (k + 1) - as (k + 1) * (cs k / pivot as bs cs k) = 0
        · rw [if_pos hz] at hs; simp at hs
        · rw [if_neg hz] at hs
          simp only [Option.bind_some, Option.pure_def, Option.some.injEq] at hs
          subst hs
          refine ⟨rfl, fun i hi1 hi2 => ?_, fun i hi => ?_, fun i hi => ?_⟩
          · rcases Nat.lt_or_ge k i with h | h
            · have : i = k + 1 := by omega
              subst this; exact hz
            · exact h2 i hi1 h
          · dsimp only
            rcases Nat.lt_or_ge i k with h | h
            · rw [Function.update_of_ne (by omega), h3 i h]
            · have : i = k := by omega
              subst this; rw [Function.update_self]
          · dsimp only
            rcases Nat.lt_or_ge k i with h | h
            · have : i = k + 1 := by omega
              subst this; rw [Function.update_self]; rfl
            · rw [Function.update_of_ne (by omega), h4 i h]

omit [FloorRing K] [IsStrictOrderedRing K] [LinearOrder K] in
theorem triBack_fold (tmp : Nat → K) (m : Nat) (out : Nat → K) :
    (∀ j, m ≤ j → (List.range m).reverse.foldl (triBack tmp) out j = out j) ∧
    ∀ i, i < m → (List.range m).reverse.foldl (triBack tmp) out i = out i - tmp (i + 1) * (List.range m).reverse.foldl (triBack tmp) out (i + 1) := by
  induction m generalizing out with
  | zero => exact ⟨fun j _ => rfl, fun i hi => by omega⟩
  | succ m ih =>
    rw [List.range_succ, List.reverse_append]
    simp only [List.reverse_cons, List.reverse_nil, List.nil_append, List.singleton_append, List.foldl_cons]
    obtain ⟨h1, h2⟩ := ih (triBack tmp out m)
    have hne : ∀ j, j ≠ m → triBack tmp out m j = out j := fun j hj => by unfold triBack; rw [Function.update_of_ne hj]
    refine ⟨fun j hj => by rw [h1 j (by omega), hne j (by omega)], fun i hi => ?_⟩
    rcases Nat.lt_or_ge i m with h | h
    · rw [h2 i h, hne i (by omega)]
    · have : i = m := by omega
      subst this
      rw [h1 i (le_refl _), h1 (i + 1) (by omega), hne (i + 1) (by omega)]
      unfold triBack
      rw [Function.update_self]

omit [FloorRing K] [IsStrictOrderedRing K] in
/-- C42: `TriDiagAt` (and `TriDiag`), when it does not panic, solves the tridiagonal system: for every row, `a[i] out[i-1] + b[i] out[i] + c[i] out[i+1] = r[i]`, without the terms outside
of the matrix. -/
theorem C42_tridiag (n : Nat) (as bs cs rs u : Nat → K) (h : triDiag n as bs cs rs = some u) (i : Nat) (hi : i < n) :
    (if i = 0 then 0 else as i * u (i - 1)) + bs i * u i + (if i + 1 < n then cs i * u (i + 1) else 0) = rs i := by
  unfold triDiag at h
  rw [if_neg (by omega)] at h
  by_cases hb : bs 0 = 0
  · rw [if_pos hb] at h; simp at h
  rw [if_neg hb] at h
  generalize hF : (List.range' 1 (n - 1)).foldlM (triFwd as bs cs rs) (bs 0, fun _ => 0, Function.update (fun _ => 0) 0 (rs 0 / bs 0)) = F at h
  cases F with
  | none => simp at h
  | some s =>
    simp only [Option.bind_eq_bind, Option.bind_some, Option.some.injEq] at h
    obtain ⟨h1, h2, h3, h4⟩ := (triFwd_fold as bs cs rs (n - 1)).2 s hF
    obtain ⟨g1, g2⟩ := triBack_fold s.2.1 (n - 1) s.2.2
    rw [h] at g1 g2
    have hp : ∀ i, i ≤ n - 1 → pivot as bs cs i ≠ 0 := fun i hi => by
      rcases Nat.eq_zero_or_pos i with h0 | h0
      · subst h0; exact hb
      · exact h2 i h0 hi
    -- the solution in terms of the eliminated system
    have hu : ∀ i, i < n → u i + (if i + 1 < n then cs i / pivot as bs cs i * u (i + 1) else 0) = elim as bs cs rs i := by
      intro i hi
      rcases Nat.lt_or_ge i (n - 1) with h' | h'
      · rw [if_pos (by omega), g2 i h', h3 i h', h4 i (by omega)]; ring
      · rw [if_neg (by omega), g1 i h', h4 i (by omega)]; ring
    have hm : (if i + 1 < n then cs i * u (i + 1) else 0) = pivot as bs cs i * (elim as bs cs rs i - u i) := by
      rw [← hu i hi]
      have := hp i (by omega)
      split_ifs
      · field_simp; ring
      · ring
    rw [hm]
    rcases i with _ | j
    · rw [if_pos rfl]
      unfold pivot elim
      field_simp
      ring
    · rw [if_neg (by omega), show j + 1 - 1 = j by omega]
      have hj := hu j (by omega)
      rw [if_pos (by omega)] at hj
      have hpj := hp (j + 1) (by omega)
      have he : pivot as bs cs (j + 1) * elim as bs cs rs (j + 1) = rs (j + 1) - as (j + 1) * elim as bs cs rs j := by
        rw [elim]; field_simp
      have hpd : pivot as bs cs (j + 1) = bs (j + 1) - as (j + 1) * (cs j / pivot as bs cs j) := rfl
      rw [mul_sub, he]
      rw [← hj, hpd]
      ring

omit [FloorRing K] [IsStrictOrderedRing K] in
/-- `TriDiagAt` fails only if one of the pivots is 0. -/
theorem triDiag_some {n : Nat} {as bs cs : Nat → K} (rs : Nat → K) (hn : 0 < n) (hp : ∀ i < n, pivot as bs cs i ≠ 0) : ∃ u, triDiag n as bs cs rs = some u := by
  unfold triDiag
  rw [if_neg (by omega), if_neg (show bs 0 ≠ 0 from hp 0 hn)]
  obtain ⟨s, hs⟩ := (triFwd_fold as bs cs rs (n - 1)).1 (fun i h1 h2 => hp i (by omega))
  rw [hs]
  exact ⟨_, rfl⟩

/-- C42: the solver does not panic when the matrix is strictly diagonally dominant by rows. -/
theorem C42_tridiag_dominant (n : Nat) (as bs cs rs : Nat → K) (hn : 0 < n) (hd : ∀ i < n, (if i = 0 then 0 else |as i|) + |cs i| < |bs i|) : ∃ u, triDiag n as bs cs rs = some u := by
  apply triDiag_some rs hn
  have key : ∀ i < n, |cs i| < |pivot as bs cs i| := by
    intro i
    induction i with
    | zero => intro hi; have := hd 0 hi; simpa [pivot] using this
    | succ i ih =>
      intro hi
      have h1 := ih (by omega)
      have h2 := hd (i + 1) hi
      rw [if_neg (by omega)] at h2
      rw [pivot]
      have hpos : 0 < |pivot as bs cs i| := lt_of_le_of_lt (abs_nonneg _) h1
      have ht : |cs i / pivot as bs cs i| ≤ 1 := by
        rw [abs_div, div_le_one hpos]; exact h1.le
      have h3 : |as (i + 1) * (cs i / pivot as bs cs i)| ≤ |as (i + 1)| := by
        rw [abs_mul]
        exact mul_le_of_le_one_right (abs_nonneg _) ht
      have h4 := abs_sub_abs_le_abs_sub (bs (i + 1)) (as (i + 1) * (cs i / pivot as bs cs i))
      linarith
  intro i hi h0
  have := key i hi
  rw [h0, abs_zero] at this
  exact absurd this (not_lt.mpr (abs_nonneg _))

example : ∃ u, triDiag (K := ℚ) 2 (fun _ => 1) (fun _ => 3) (fun _ => 1) (fun _ => 4) = some u ∧ u 0 = 1 ∧ u 1 = 1 := by
  obtain ⟨u, hu⟩ := C42_tridiag_dominant (K := ℚ) 2 (fun _ => 1) (fun _ => 3) (fun _ => 1) (fun _ => 4) (by decide) (by intro i hi; interval_cases i <;> norm_num)
  have h0 := C42_tridiag _ _ _ _ _ u hu 0 (by decide)
  have h1 := C42_tridiag _ _ _ _ _ u hu 1 (by decide)
  norm_num at h0 h1
  exact ⟨u, hu, by linarith, by linarith⟩

/-! The spline -/

/-- The table is strictly increasing or strictly decreasing. -/
def Monotone (incr : Bool) (xs : List K) : Prop := if incr then xs.Pairwise (· < ·) else xs.Pairwise (· > ·)

omit [FloorRing K] [IsStrictOrderedRing K] in
theorem Monotone.lt {incr : Bool} {xs : List K} (h : Monotone incr xs) {i j : Nat} (hij : i < j) (hj : j < xs.length) :
    if incr then xs.getD i 0 < xs.getD j 0 else xs.getD j 0 < xs.getD i 0 := by
  unfold Monotone at h
  cases incr
  · simp only [Bool.false_eq_true, if_false] at h ⊢
    rw [List.getD_eq_getElem _ _ hj, List.getD_eq_getElem _ _ (show i < xs.length by omega)]
    exact List.pairwise_iff_getElem.mp h i j (by omega) hj hij
  · simp only [if_true] at h ⊢
    exact getD_lt h hij hj

omit [FloorRing K] [IsStrictOrderedRing K] in
theorem Monotone.ne {incr : Bool} {xs : List K} (h : Monotone incr xs) {i j : Nat} (hij : i < j) (hj : j < xs.length) : xs.getD j 0 - xs.getD i 0 ≠ 0 := by
  have := h.lt hij hj
  cases incr
  · simp only [Bool.false_eq_true, if_false] at this; exact sub_ne_zero.mpr this.ne
  · simp only [if_true] at this; exact sub_ne_zero.mpr this.ne'

/-- The second derivatives exist, vanish at the ends and satisfy the equations of the natural cubic spline. -/
theorem calcY2s_spec {incr : Bool} {xs ys : List K} (hm : Monotone incr xs) (h3 : 3 ≤ xs.length) :
    ∃ M, calcY2s xs ys = some M ∧ M 0 = 0 ∧ M (xs.length - 1) = 0 ∧ ∀ j, j + 2 < xs.length →
      (xs.getD (j + 1) 0 - xs.getD j 0) / 6 * M j + (xs.getD (j + 2) 0 - xs.getD j 0) / 3 * M (j + 1) + (xs.getD (j + 2) 0 - xs.getD (j + 1) 0) / 6 * M (j + 2) =
        (ys.getD (j + 2) 0 - ys.getD (j + 1) 0) / (xs.getD (j + 2) 0 - xs.getD (j + 1) 0) - (ys.getD (j + 1) 0 - ys.getD j 0) / (xs.getD (j + 1) 0 - xs.getD j 0) := by
  obtain ⟨u, hu⟩ := C42_tridiag_dominant (xs.length - 2) (fun i => (xs.getD (i + 1) 0 - xs.getD i 0) / 6) (fun i => (xs.getD (i + 2) 0 - xs.getD i 0) / 3)
    (fun i => (xs.getD (i + 2) 0 - xs.getD (i + 1) 0) / 6)
    (fun i => (ys.getD (i + 2) 0 - ys.getD (i + 1) 0) / (xs.getD (i + 2) 0 - xs.getD (i + 1) 0) - (ys.getD (i + 1) 0 - ys.getD i 0) / (xs.getD (i + 1) 0 - xs.getD i 0)) (by omega) (by
      intro i hi
      have h1 := hm.lt (show i < i + 1 by omega) (by omega)
      have h2 := hm.lt (show i + 1 < i + 2 by omega) (by omega)
      generalize xs.getD i 0 = a at *
      generalize xs.getD (i + 1) 0 = b at *
      generalize xs.getD (i + 2) 0 = c at *
      cases incr
      · simp only [Bool.false_eq_true, if_false] at h1 h2
        rw [abs_of_neg (show (b - a) / 6 < 0 by linarith), abs_of_neg (show (c - b) / 6 < 0 by linarith), abs_of_neg (show (c - a) / 3 < 0 by linarith)]
        split_ifs <;> linarith
      · simp only [if_true] at h1 h2
        rw [abs_of_pos (show 0 < (b - a) / 6 by linarith), abs_of_pos (show 0 < (c - b) / 6 by linarith), abs_of_pos (show 0 < (c - a) / 3 by linarith)]
        split_ifs <;> linarith)
  refine ⟨fun j => if j = 0 ∨ j = xs.length - 1 then 0 else u (j - 1), ?_, by simp, by simp, ?_⟩
  · unfold calcY2s
    dsimp only
    rw [hu]
    rfl
  · intro j hj
    have := C42_tridiag _ _ _ _ _ u hu j (by omega)
    dsimp only at this ⊢
    rw [← this, if_neg (show ¬(j + 1 = 0 ∨ j + 1 = xs.length - 1) by omega)]
    by_cases h0 : j = 0
    · rw [if_pos h0, if_pos (Or.inl h0)]
      by_cases h1 : j + 1 < xs.length - 2
      · rw [if_pos h1, if_neg (show ¬(j + 2 = 0 ∨ j + 2 = xs.length - 1) by omega)]
        simp
      · rw [if_neg h1, if_pos (show (j + 2 = 0 ∨ j + 2 = xs.length - 1) by omega)]
        simp
    · rw [if_neg h0, if_neg (show ¬(j = 0 ∨ j = xs.length - 1) by omega)]
      by_cases h1 : j + 1 < xs.length - 2
      · rw [if_pos h1, if_neg (show ¬(j + 2 = 0 ∨ j + 2 = xs.length - 1) by omega)]
        simp
      · rw [if_neg h1, if_pos (show (j + 2 = 0 ∨ j + 2 = xs.length - 1) by omega)]
        simp

/-- Specification: the pieces `p 0`, ..., `p (n-2)` are the natural cubic spline of the table: cubic polynomials through the points of the table which fit together with their first and
second derivatives, and whose second derivative vanishes at the ends. -/
structure NaturalSpline (xs ys : List K) (p : Nat → K[X]) : Prop where
  cubic : ∀ i, (p i).natDegree ≤ 3
  left : ∀ i, i + 1 < xs.length → (p i).eval (xs.getD i 0) = ys.getD i 0
  right : ∀ i, i + 1 < xs.length → (p i).eval (xs.getD (i + 1) 0) = ys.getD (i + 1) 0
  slope : ∀ i, i + 2 < xs.length → (derivative (p i)).eval (xs.getD (i + 1) 0) = (derivative (p (i + 1))).eval (xs.getD (i + 1) 0)
  curvature : ∀ i, i + 2 < xs.length → (derivative (derivative (p i))).eval (xs.getD (i + 1) 0) = (derivative (derivative (p (i + 1)))).eval (xs.getD (i + 1) 0)
  first : (derivative (derivative (p 0))).eval (xs.getD 0 0) = 0
  last : (derivative (derivative (p (xs.length - 2)))).eval (xs.getD (xs.length - 1) 0) = 0

/-- The piece with the coefficients `k` which starts at `x0`. -/
noncomputable def piece (k : Coeff K) (x0 : K) : K[X] := C k.a * (X - C x0) ^ 3 + C k.b * (X - C x0) ^ 2 + C k.c * (X - C x0) + C k.d

omit [LinearOrder K] [FloorRing K] [IsStrictOrderedRing K] in
theorem piece_eval (k : Coeff K) (x0 x : K) : (piece k x0).eval x = k.a * (x - x0) * (x - x0) * (x - x0) + k.b * (x - x0) * (x - x0) + k.c * (x - x0) + k.d := by
  unfold piece; simp; ring

omit [LinearOrder K] [FloorRing K] [IsStrictOrderedRing K] in
theorem piece_d1 (k : Coeff K) (x0 : K) : derivative (piece k x0) = C (3 * k.a) * (X - C x0) ^ 2 + C (2 * k.b) * (X - C x0) + C k.c := by
  unfold piece
  rw [derivative_add, derivative_add, derivative_add, derivative_C_mul, derivative_C_mul, derivative_C_mul, derivative_C, derivative_X_sub_C_pow, derivative_X_sub_C_pow, derivative_X_sub_C]
  simp only [map_mul, Nat.cast_ofNat, map_ofNat]
  norm_num
  ring

omit [LinearOrder K] [FloorRing K] [IsStrictOrderedRing K] in
theorem piece_d2 (k : Coeff K) (x0 : K) : derivative (derivative (piece k x0)) = C (6 * k.a) * (X - C x0) + C (2 * k.b) := by
  rw [piece_d1, derivative_add, derivative_add, derivative_C_mul, derivative_C_mul, derivative_C, derivative_X_sub_C_pow, derivative_X_sub_C]
  simp only [map_mul, Nat.cast_ofNat, map_ofNat]
  norm_num
  ring

omit [LinearOrder K] [FloorRing K] [IsStrictOrderedRing K] in
theorem piece_deriv (k : Coeff K) (x0 x : K) : (derivative (piece k x0)).eval x = 3 * k.a * (x - x0) * (x - x0) + 2 * k.b * (x - x0) + k.c := by
  rw [piece_d1]; simp; ring

omit [LinearOrder K] [FloorRing K] [IsStrictOrderedRing K] in
theorem piece_deriv2 (k : Coeff K) (x0 x : K) : (derivative (derivative (piece k x0))).eval x = 6 * k.a * (x - x0) + 2 * k.b := by
  rw [piece_d2]; simp

omit [LinearOrder K] [FloorRing K] [IsStrictOrderedRing K] in
theorem piece_deriv3 (k : Coeff K) (x0 x : K) : (derivative (derivative (derivative (piece k x0)))).eval x = 6 * k.a := by
  rw [piece_d2, derivative_add, derivative_C_mul, derivative_C, derivative_X_sub_C]; simp

omit [LinearOrder K] [FloorRing K] [IsStrictOrderedRing K] in
theorem piece_degree (k : Coeff K) (x0 : K) : (piece k x0).natDegree ≤ 3 := by
  unfold piece; compute_degree

omit [FloorRing K] in
theorem natural_of {incr : Bool} {xs ys : List K} {M : Nat → K} (hm : Monotone incr xs) (h3 : 3 ≤ xs.length) (h0 : M 0 = 0) (hn : M (xs.length - 1) = 0)
    (hM : ∀ j, j + 2 < xs.length →
      (xs.getD (j + 1) 0 - xs.getD j 0) / 6 * M j + (xs.getD (j + 2) 0 - xs.getD j 0) / 3 * M (j + 1) + (xs.getD (j + 2) 0 - xs.getD (j + 1) 0) / 6 * M (j + 2) =
        (ys.getD (j + 2) 0 - ys.getD (j + 1) 0) / (xs.getD (j + 2) 0 - xs.getD (j + 1) 0) - (ys.getD (j + 1) 0 - ys.getD j 0) / (xs.getD (j + 1) 0 - xs.getD j 0)) :
    NaturalSpline xs ys fun i => piece (calcCoeff xs ys M i) (xs.getD i 0) := by
  refine ⟨fun i => piece_degree _ _, fun i hi => ?_, fun i hi => ?_, fun i hi => ?_, fun i hi => ?_, ?_, ?_⟩
  · rw [piece_eval]; simp [calcCoeff]
  · rw [piece_eval]
    have hd := hm.ne (show i < i + 1 by omega) hi
    simp only [calcCoeff]
    generalize xs.getD (i + 1) 0 - xs.getD i 0 = d at *
    field_simp
    ring
  · rw [piece_deriv, piece_deriv, sub_self]
    have hd := hm.ne (show i < i + 1 by omega) (by omega)
    have hd' := hm.ne (show i + 1 < i + 2 by omega) hi
    have := hM i hi
    simp only [calcCoeff]
    have e : xs.getD (i + 2) 0 - xs.getD i 0 = (xs.getD (i + 2) 0 - xs.getD (i + 1) 0) + (xs.getD (i + 1) 0 - xs.getD i 0) := by ring
    rw [e] at this
    rw [show i + 1 + 1 = i + 2 by omega]
    generalize xs.getD (i + 1) 0 - xs.getD i 0 = d at *
    generalize xs.getD (i + 2) 0 - xs.getD (i + 1) 0 = d' at *
    have e1 : 3 * ((-M i / 6 + M (i + 1) / 6) / d) * d * d = 3 * (-M i / 6 + M (i + 1) / 6) * d := by field_simp
    rw [e1]
    linear_combination this
  · rw [piece_deriv2, piece_deriv2, sub_self]
    have hd := hm.ne (show i < i + 1 by omega) (by omega)
    simp only [calcCoeff]
    generalize xs.getD (i + 1) 0 - xs.getD i 0 = d at *
    field_simp
    ring
  · rw [piece_deriv2, sub_self]; simp [calcCoeff, h0]
  · rw [piece_deriv2]
    have hd := hm.ne (show xs.length - 2 < xs.length - 2 + 1 by omega) (by omega)
    simp only [calcCoeff]
    rw [show xs.length - 2 + 1 = xs.length - 1 by omega] at *
    rw [hn]
    generalize xs.getD (xs.length - 1) 0 - xs.getD (xs.length - 2) 0 = d at *
    field_simp
    ring

omit [FloorRing K] [IsStrictOrderedRing K] in
/-- Two intervals with a common point are equal or neighbours. -/
theorem between_unique {incr : Bool} {xs : List K} (hm : Monotone incr xs) {i j : Nat} {x : K} (hij : i < j) (hj : j + 1 < xs.length)
    (h1 : Between incr (xs.getD i 0) (xs.getD (i + 1) 0) x) (h2 : Between incr (xs.getD j 0) (xs.getD (j + 1) 0) x) : j = i + 1 ∧ x = xs.getD (i + 1) 0 := by
  have heq : j = i + 1 := by
    by_contra hne
    have := hm.lt (show i + 1 < j by omega) (by omega)
    unfold Between at *
    cases incr
    · simp only [Bool.false_eq_true, if_false] at *
      exact absurd (le_trans h1.1 h2.2) (not_le.mpr this)
    · simp only [if_true] at *
      exact absurd (le_trans h2.1 h1.2) (not_le.mpr this)
  subst heq
  refine ⟨rfl, ?_⟩
  unfold Between at *
  cases incr
  · simp only [Bool.false_eq_true, if_false] at *
    exact le_antisymm h2.2 h1.1
  · simp only [if_true] at *
    exact le_antisymm h1.2 h2.1

omit [FloorRing K] [IsStrictOrderedRing K] in
/-- The three values that are continuous do not depend on the interval. -/
theorem NaturalSpline.unique {incr : Bool} {xs ys : List K} {p : Nat → K[X]} (hp : NaturalSpline xs ys p) (hm : Monotone incr xs) {i j : Nat} {x : K}
    (hi : i + 1 < xs.length) (hj : j + 1 < xs.length) (h1 : Between incr (xs.getD i 0) (xs.getD (i + 1) 0) x) (h2 : Between incr (xs.getD j 0) (xs.getD (j + 1) 0) x) :
    (p i).eval x = (p j).eval x ∧ (derivative (p i)).eval x = (derivative (p j)).eval x ∧ (derivative (derivative (p i))).eval x = (derivative (derivative (p j))).eval x := by
  rcases lt_trichotomy i j with h | h | h
  · obtain ⟨rfl, rfl⟩ := between_unique hm h hj h1 h2
    exact ⟨by rw [hp.right i hi, hp.left (i + 1) hj], hp.slope i hj, hp.curvature i hj⟩
  · subst h; exact ⟨rfl, rfl, rfl⟩
  · obtain ⟨rfl, rfl⟩ := between_unique hm h hi h2 h1
    exact ⟨by rw [hp.right j hj, hp.left (j + 1) hi], (hp.slope j hi).symm, (hp.curvature j hi).symm⟩

omit [FloorRing K] [IsStrictOrderedRing K] in
theorem between_whole {incr : Bool} {xs : List K} (hm : Monotone incr xs) {i : Nat} {x : K} (hi : i + 1 < xs.length) (h1 : Between incr (xs.getD i 0) (xs.getD (i + 1) 0) x) :
    Between incr (xs.getD 0 0) (xs.getD (xs.length - 1) 0) x := by
  have hl : ∀ a b, a ≤ b → b < xs.length → if incr then xs.getD a 0 ≤ xs.getD b 0 else xs.getD b 0 ≤ xs.getD a 0 := by
    intro a b hab hb
    rcases Nat.eq_or_lt_of_le hab with h | h
    · subst h; cases incr <;> simp
    · have := hm.lt h hb
      cases incr
      · simp only [Bool.false_eq_true, if_false] at this ⊢; exact this.le
      · simp only [if_true] at this ⊢; exact this.le
  have ha := hl 0 i (by omega) (by omega)
  have hb := hl (i + 1) (xs.length - 1) (by omega) (by omega)
  unfold Between at *
  cases incr
  · simp only [Bool.false_eq_true, if_false] at *
    exact ⟨le_trans hb h1.1, le_trans h1.2 ha⟩
  · simp only [if_true] at *
    exact ⟨le_trans ha h1.1, le_trans h1.2 hb⟩

/-- The spline that `newSpline` builds. -/
theorem newSpline_spec {incr : Bool} {xs ys : List K} (hm : Monotone incr xs) (h3 : 3 ≤ xs.length) (hl : xs.length = ys.length) :
    ∃ sp M, newSpline xs ys = some sp ∧ sp.xs = xs ∧ sp.ys = ys ∧ sp.incr = incr ∧ sp.coeffs = calcCoeff xs ys M ∧ NaturalSpline xs ys fun i => piece (calcCoeff xs ys M i) (xs.getD i 0) := by
  obtain ⟨M, hM, h0, hn, hM'⟩ := calcY2s_spec (ys := ys) hm h3
  have hincr : decide (xs.getD 0 0 < xs.getD 1 0) = incr := by
    have := hm.lt (show 0 < 1 by omega) (by omega)
    cases incr
    · simp only [Bool.false_eq_true, if_false] at this; exact decide_eq_false (not_lt.mpr this.le)
    · simp only [if_true] at this; exact decide_eq_true this
  refine ⟨{ xs := xs, ys := ys, y2s := M, coeffs := calcCoeff xs ys M, incr := decide (xs.getD 0 0 < xs.getD 1 0), dx := (xs.getD (xs.length - 1) 0 - xs.getD 0 0) / ((xs.length : K) - 1) },
    M, ?_, rfl, rfl, hincr, rfl, natural_of hm h3 h0 hn hM'⟩
  unfold newSpline
  rw [if_neg (by simp [hl]), if_neg (by omega)]
  dsimp only
  rw [if_neg, hM]
  · rfl
  · rw [hincr, List.any_eq_true]
    rintro ⟨i, hi, h⟩
    rw [List.mem_range] at hi
    have := hm.lt (show i < i + 1 by omega) (by omega)
    cases incr
    · simp only [Bool.false_eq_true, if_false] at this h
      exact absurd this (not_lt.mpr (of_decide_eq_true h).le)
    · simp only [if_true] at this h
      exact absurd this (not_lt.mpr (of_decide_eq_true h).le)

omit [IsStrictOrderedRing K] in
/-- What the panics of `Deriv` and `Integrate` test: a decreasing table loses its two ends. -/
theorem in_range {incr : Bool} {first last x : K} (hw : Between incr first last x) (hx : incr = true ∨ (x ≠ first ∧ x ≠ last)) :
    ¬(decide (x < first) = incr ∨ decide (x > last) = incr) := by
  unfold Between at hw
  cases incr
  · simp only [Bool.false_eq_true, if_false, false_or] at hw hx
    rintro (h | h)
    · exact of_decide_eq_false h (lt_of_le_of_ne hw.2 hx.1)
    · exact of_decide_eq_false h (lt_of_le_of_ne hw.1 hx.2.symm)
  · simp only [if_true] at hw
    rintro (h | h)
    · exact absurd (of_decide_eq_true h) (not_lt.mpr hw.1)
    · exact absurd (of_decide_eq_true h) (not_lt.mpr hw.2)

/-- `C42_spline` with the coefficients of the pieces. -/
theorem spline_core (incr : Bool) (xs ys : List K) (hm : if incr then xs.Pairwise (· < ·) else xs.Pairwise (· > ·)) (h3 : 3 ≤ xs.length) (hl : xs.length = ys.length) :
    ∃ sp p, newSpline xs ys = some sp ∧ sp.xs = xs ∧ sp.incr = incr ∧ (p = fun i => piece (sp.coeffs i) (xs.getD i 0)) ∧ NaturalSpline xs ys p ∧
      (∀ i x, i + 1 < xs.length → (if incr then xs.getD i 0 ≤ x ∧ x ≤ xs.getD (i + 1) 0 else xs.getD (i + 1) 0 ≤ x ∧ x ≤ xs.getD i 0) →
        sp.eval x = some ((p i).eval x) ∧
        (incr = true ∨ (x ≠ xs.getD 0 0 ∧ x ≠ xs.getD (xs.length - 1) 0) →
          sp.deriv x 0 = some ((p i).eval x) ∧ sp.deriv x 1 = some ((derivative (p i)).eval x) ∧ sp.deriv x 2 = some ((derivative (derivative (p i))).eval x))) ∧
      (∀ i x, i + 1 < xs.length → (if incr then xs.getD i 0 < x ∧ x < xs.getD (i + 1) 0 else xs.getD (i + 1) 0 < x ∧ x < xs.getD i 0) →
        sp.deriv x 3 = some ((derivative (derivative (derivative (p i)))).eval x) ∧ ∀ o, 3 < o → sp.deriv x o = some 0) ∧
      ∀ x, (if incr then x < xs.getD 0 0 ∨ xs.getD (xs.length - 1) 0 < x else xs.getD 0 0 < x ∨ x < xs.getD (xs.length - 1) 0) → sp.eval x = none ∧ ∀ o, sp.deriv x o = none := by
  have hm : Monotone incr xs := hm
  obtain ⟨sp, M, hsp, rfl, rfl, rfl, hk, hnat⟩ := newSpline_spec (ys := ys) hm h3 hl
  refine ⟨sp, fun i => piece (calcCoeff sp.xs sp.ys M i) (sp.xs.getD i 0), hsp, rfl, rfl, by rw [hk], hnat, ?_, ?_, ?_⟩
  · intro i x hi hx
    have hx : Between sp.incr (sp.xs.getD i 0) (sp.xs.getD (i + 1) 0) x := hx
    have hw := between_whole hm hi hx
    have hsearch := tableSearch_spec sp.xs sp.dx sp.incr x (by omega) hw
    have hu := hnat.unique hm hi hsearch.1 hx hsearch.2
    dsimp only at hu ⊢
    constructor
    · have hfirst : x = sp.xs.getD 0 0 → eval x (piece (calcCoeff sp.xs sp.ys M i) (sp.xs.getD i 0)) = sp.ys.getD 0 0 := by
        intro h
        subst h
        have hlt := hm.lt (show 0 < 1 by omega) (by omega)
        have := hnat.unique hm hi (j := 0) (by omega) hx (by
          unfold Between
          generalize sp.incr = incr at *
          cases incr
          · simp only [Bool.false_eq_true, if_false] at *; exact ⟨hlt.le, le_refl _⟩
          · simp only [if_true] at *; exact ⟨le_refl _, hlt.le⟩)
        rw [this.1, hnat.left 0 (by omega)]
      have hlast : x = sp.xs.getD (sp.xs.length - 1) 0 → eval x (piece (calcCoeff sp.xs sp.ys M i) (sp.xs.getD i 0)) = sp.ys.getD (sp.ys.length - 1) 0 := by
        intro h
        subst h
        have hlt := hm.lt (show sp.xs.length - 2 < sp.xs.length - 1 by omega) (by omega)
        have e : sp.xs.length - 2 + 1 = sp.xs.length - 1 := by omega
        have := hnat.unique hm hi (j := sp.xs.length - 2) (by omega) hx (by
          rw [e]
          unfold Between
          generalize sp.incr = incr at *
          cases incr
          · simp only [Bool.false_eq_true, if_false] at *; exact ⟨le_refl _, hlt.le⟩
          · simp only [if_true] at *; exact ⟨hlt.le, le_refl _⟩)
        have hr := hnat.right (sp.xs.length - 2) (by omega)
        rw [e] at hr
        rw [this.1, hr, hl]
      unfold Spline.eval
      dsimp only
      by_cases hc : decide (x ≤ sp.xs.getD 0 0) = sp.incr ∨ decide (x ≥ sp.xs.getD (sp.xs.length - 1) 0) = sp.incr
      · rw [if_pos hc]
        by_cases h1 : x = sp.xs.getD 0 0
        · rw [if_pos h1, hfirst h1]
        · rw [if_neg h1]
          by_cases h2 : x = sp.xs.getD (sp.xs.length - 1) 0
          · rw [if_pos h2, hlast h2]
          · exfalso
            unfold Between at hw
            generalize sp.incr = incr at *
            cases incr
            · simp only [Bool.false_eq_true, if_false] at hw
              rcases hc with hc | hc
              · exact of_decide_eq_false hc hw.2
              · exact of_decide_eq_false hc hw.1
            · simp only [if_true] at hw
              rcases hc with hc | hc
              · exact h1 (le_antisymm (of_decide_eq_true hc) hw.1)
              · exact h2 (le_antisymm hw.2 (of_decide_eq_true hc))
      · rw [if_neg hc, hu.1, piece_eval, hk]
        rfl
    · intro hend
      have hin := in_range hw hend
      refine ⟨?_, ?_, ?_⟩
      · unfold Spline.deriv
        rw [if_neg hin, hu.1, piece_eval, hk]
        rfl
      · unfold Spline.deriv
        rw [if_neg hin, hu.2.1, piece_deriv, hk]
        rfl
      · unfold Spline.deriv
        rw [if_neg hin, hu.2.2, piece_deriv2, hk]
        rfl
  · intro i x hi hx
    have hx' : Between sp.incr (sp.xs.getD i 0) (sp.xs.getD (i + 1) 0) x := by
      unfold Between
      generalize sp.incr = incr at *
      cases incr
      · simp only [Bool.false_eq_true, if_false] at *; exact ⟨hx.1.le, hx.2.le⟩
      · simp only [if_true] at *; exact ⟨hx.1.le, hx.2.le⟩
    have hne : x ≠ sp.xs.getD i 0 ∧ x ≠ sp.xs.getD (i + 1) 0 := by
      generalize sp.incr = incr at *
      cases incr
      · simp only [Bool.false_eq_true, if_false] at *; exact ⟨hx.2.ne, hx.1.ne'⟩
      · simp only [if_true] at *; exact ⟨hx.1.ne', hx.2.ne⟩
    have hw := between_whole hm hi hx'
    have hsearch := tableSearch_spec sp.xs sp.dx sp.incr x (by omega) hw
    have heq : tableSearch sp.xs sp.dx sp.incr x = i := by
      rcases lt_trichotomy i (tableSearch sp.xs sp.dx sp.incr x) with h | h | h
      · exact absurd (between_unique hm h hsearch.1 hx' hsearch.2).2 hne.2
      · exact h.symm
      · have := between_unique hm h hi hsearch.2 hx'
        rw [← this.1] at this
        exact absurd this.2 hne.1
    have hin := in_range hw (by
      right
      constructor
      · rintro rfl
        rcases Nat.eq_zero_or_pos i with h0 | h0
        · subst h0; exact hne.1 rfl
        · have := between_unique hm h0 hi (by
            have hlt := hm.lt (show 0 < 1 by omega) (by omega)
            unfold Between
            generalize sp.incr = incr at *
            cases incr
            · simp only [Bool.false_eq_true, if_false] at *; exact ⟨hlt.le, le_refl _⟩
            · simp only [if_true] at *; exact ⟨le_refl _, hlt.le⟩) hx'
          exact hm.ne (show 0 < 0 + 1 by omega) (by omega) (by rw [← this.2, sub_self])
      · rintro rfl
        rcases Nat.lt_or_ge (i + 1) (sp.xs.length - 1) with h0 | h0
        · have hlt := hm.lt h0 (by omega)
          generalize sp.incr = incr at *
          cases incr
          · simp only [Bool.false_eq_true, if_false] at *; exact absurd hx.1 (not_lt.mpr hlt.le)
          · simp only [if_true] at *; exact absurd hx.2 (not_lt.mpr hlt.le)
        · exact hne.2 (by congr 1; omega))
    refine ⟨?_, fun o ho => ?_⟩
    · unfold Spline.deriv
      rw [if_neg hin, piece_deriv3, hk]
      dsimp only
      unfold Spline.bsearch
      rw [heq]
      rfl
    · unfold Spline.deriv
      rw [if_neg hin]
      dsimp only
      rw [if_neg (by omega), if_neg (by omega), if_neg (by omega), if_neg (by omega)]
  · intro x hx
    have hlt := hm.lt (show 0 < sp.xs.length - 1 by omega) (by omega)
    constructor
    · unfold Spline.eval
      dsimp only
      rw [if_pos, if_neg, if_neg]
      all_goals
        generalize sp.incr = incr at *
        cases incr
      · simp only [Bool.false_eq_true, if_false] at *
        rcases hx with h | h
        · exact (lt_trans hlt h).ne'
        · exact h.ne
      · simp only [if_true] at *
        rcases hx with h | h
        · exact (lt_trans h hlt).ne
        · exact h.ne'
      · simp only [Bool.false_eq_true, if_false] at *
        rcases hx with h | h
        · exact h.ne'
        · exact (lt_trans h hlt).ne
      · simp only [if_true] at *
        rcases hx with h | h
        · exact h.ne
        · exact (lt_trans hlt h).ne'
      · simp only [Bool.false_eq_true, if_false] at *
        rcases hx with h | h
        · left; exact decide_eq_false (not_le.mpr h)
        · right; exact decide_eq_false (not_le.mpr h)
      · simp only [if_true] at *
        rcases hx with h | h
        · left; exact decide_eq_true h.le
        · right; exact decide_eq_true h.le
    · intro o
      unfold Spline.deriv
      rw [if_pos]
      generalize sp.incr = incr at *
      cases incr
      · simp only [Bool.false_eq_true, if_false] at *
        rcases hx with h | h
        · left; exact decide_eq_false (not_lt.mpr h.le)
        · right; exact decide_eq_false (not_lt.mpr h.le)
      · simp only [if_true] at *
        rcases hx with h | h
        · left; exact decide_eq_true h
        · right; exact decide_eq_true h

/-- C42: for every strictly increasing or strictly decreasing table with at least three points, `NewSpline` gives the natural cubic spline of the table: in each interval `Eval` is a
cubic polynomial, `Deriv` of order 1, 2 its derivatives, the pieces go through the table and fit together with two derivatives, and points outside of the table panic.  (The third
derivative jumps at the table points.  `Deriv` panics at the ends of a decreasing table, see `C42_deriv_end_false`.) -/
theorem C42_spline (incr : Bool) (xs ys : List K) (hm : if incr then xs.Pairwise (· < ·) else xs.Pairwise (· > ·)) (h3 : 3 ≤ xs.length) (hl : xs.length = ys.length) :
    ∃ sp p, newSpline xs ys = some sp ∧ NaturalSpline xs ys p ∧
      (∀ i x, i + 1 < xs.length → (if incr then xs.getD i 0 ≤ x ∧ x ≤ xs.getD (i + 1) 0 else xs.getD (i + 1) 0 ≤ x ∧ x ≤ xs.getD i 0) →
        sp.eval x = some ((p i).eval x) ∧
        (incr = true ∨ (x ≠ xs.getD 0 0 ∧ x ≠ xs.getD (xs.length - 1) 0) →
          sp.deriv x 0 = some ((p i).eval x) ∧ sp.deriv x 1 = some ((derivative (p i)).eval x) ∧ sp.deriv x 2 = some ((derivative (derivative (p i))).eval x))) ∧
      (∀ i x, i + 1 < xs.length → (if incr then xs.getD i 0 < x ∧ x < xs.getD (i + 1) 0 else xs.getD (i + 1) 0 < x ∧ x < xs.getD i 0) →
        sp.deriv x 3 = some ((derivative (derivative (derivative (p i)))).eval x) ∧ ∀ o, 3 < o → sp.deriv x o = some 0) ∧
      ∀ x, (if incr then x < xs.getD 0 0 ∨ xs.getD (xs.length - 1) 0 < x else xs.getD 0 0 < x ∨ x < xs.getD (xs.length - 1) 0) → sp.eval x = none ∧ ∀ o, sp.deriv x o = none := by
  obtain ⟨sp, p, h, _, _, _, h'⟩ := spline_core incr xs ys hm h3 hl
  exact ⟨sp, p, h, h'⟩

/-- C42: the spline returns the tabulated values at the points of the table. -/
theorem C42_spline_knots (incr : Bool) (xs ys : List K) (hm : if incr then xs.Pairwise (· < ·) else xs.Pairwise (· > ·)) (h3 : 3 ≤ xs.length) (hl : xs.length = ys.length) :
    ∃ sp, newSpline xs ys = some sp ∧ ∀ i < xs.length, sp.eval (xs.getD i 0) = some (ys.getD i 0) := by
  obtain ⟨sp, p, hsp, hp, hev, _⟩ := C42_spline incr xs ys hm h3 hl
  have hm : Monotone incr xs := hm
  refine ⟨sp, hsp, fun i hi => ?_⟩
  by_cases h : i + 1 < xs.length
  · have hlt := hm.lt (show i < i + 1 by omega) h
    rw [(hev i (xs.getD i 0) h (by
      cases incr
      · simp only [Bool.false_eq_true, if_false] at *; exact ⟨hlt.le, le_refl _⟩
      · simp only [if_true] at *; exact ⟨le_refl _, hlt.le⟩)).1, hp.left i h]
  · obtain ⟨k, rfl⟩ : ∃ k, i = k + 1 := ⟨i - 1, by omega⟩
    have hlt := hm.lt (show k < k + 1 by omega) hi
    rw [(hev k (xs.getD (k + 1) 0) hi (by
      cases incr
      · simp only [Bool.false_eq_true, if_false] at *; exact ⟨le_refl _, hlt.le⟩
      · simp only [if_true] at *; exact ⟨hlt.le, le_refl _⟩)).1, hp.right k hi]

example : ∃ sp, newSpline (K := ℚ) [0, 1, 3] [5, 7, 2] = some sp ∧ sp.eval 1 = some 7 := by
  obtain ⟨sp, h, hk⟩ := C42_spline_knots (K := ℚ) true [0, 1, 3] [5, 7, 2] (by norm_num) (by decide) (by decide)
  exact ⟨sp, h, hk 1 (by decide)⟩

/-- C42 is false for `Deriv` at the ends of a decreasing table: it panics at every order. -/
theorem C42_deriv_end_false (xs ys : List K) (hm : xs.Pairwise (· > ·)) (h3 : 3 ≤ xs.length) (hl : xs.length = ys.length) :
    ∃ sp, newSpline xs ys = some sp ∧ ∀ o, sp.deriv (xs.getD 0 0) o = none ∧ sp.deriv (xs.getD (xs.length - 1) 0) o = none := by
  have hm : Monotone false xs := by unfold Monotone; simpa using hm
  obtain ⟨sp, M, hsp, rfl, rfl, hincr, hk, hnat⟩ := newSpline_spec (ys := ys) hm h3 hl
  refine ⟨sp, hsp, fun o => ⟨?_, ?_⟩⟩
  · unfold Spline.deriv
    rw [if_pos (Or.inl (by rw [hincr]; exact decide_eq_false (lt_irrefl _)))]
  · unfold Spline.deriv
    rw [if_pos (Or.inr (by rw [hincr]; exact decide_eq_false (lt_irrefl _)))]

omit [IsStrictOrderedRing K] in
/-- C42 is false for tables with two points, which `NewSpline` accepts according to its checks: it panics. -/
theorem C42_two_points_false (x0 x1 y0 y1 : K) : newSpline [x0, x1] [y0, y1] = none := by
  unfold newSpline calcY2s triDiag
  simp

omit [IsStrictOrderedRing K] in
/-- C42: no spline comes from a table with fewer than three points, from columns of different lengths, or from a table whose points go up and down: the call panics. -/
theorem C42_spline_rejects (xs ys : List K)
    (h : xs.length < 3 ∨ xs.length ≠ ys.length ∨ (∃ i, i + 1 < xs.length ∧ xs.getD 0 0 < xs.getD 1 0 ∧ xs.getD (i + 1) 0 < xs.getD i 0) ∨
      ∃ i, i + 1 < xs.length ∧ xs.getD 1 0 < xs.getD 0 0 ∧ xs.getD i 0 < xs.getD (i + 1) 0) : newSpline xs ys = none := by
  unfold newSpline
  by_cases hl : xs.length ≠ ys.length
  · rw [if_pos hl]
  rw [if_neg hl]
  by_cases h1 : xs.length ≤ 1
  · rw [if_pos h1]
  rw [if_neg h1]
  dsimp only
  rcases h with h | h | ⟨i, hi, h2, h3⟩ | ⟨i, hi, h2, h3⟩
  · have hy : calcY2s xs ys = none := by unfold calcY2s triDiag; dsimp only; rw [if_pos (by omega)]; rfl
    rw [hy]; simp
  · exact absurd h hl
  · rw [if_pos]
    rw [List.any_eq_true]
    refine ⟨i, List.mem_range.mpr (by omega), ?_⟩
    rw [decide_eq_true h2]; simpa using h3
  · rw [if_pos]
    rw [List.any_eq_true]
    refine ⟨i, List.mem_range.mpr (by omega), ?_⟩
    rw [decide_eq_false (not_lt.mpr h2.le)]; simpa using h3

example : newSpline [1, 2, 1, (3 : ℚ)] [0, 0, 0, 0] = none := C42_spline_rejects _ _ (Or.inr (Or.inr (Or.inl ⟨1, by decide, by norm_num, by norm_num⟩)))

end Shellfish.Interp
