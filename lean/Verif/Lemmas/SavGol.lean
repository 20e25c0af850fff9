/-
Lemmas for C66: the moment matrix of the Savitzky-Golay kernels, and the pivots of its first columns.
-/
import Verif.Model.Smooth
import Verif.Props.Mat
import Mathlib.Algebra.Order.BigOperators.Ring.Finset
import Mathlib.Algebra.Polynomial.Roots
import Mathlib.Algebra.Polynomial.Taylor
import Mathlib.Algebra.Polynomial.Degree.Lemmas
import Mathlib.LinearAlgebra.Matrix.ToLinearEquiv
import Mathlib.Algebra.BigOperators.Intervals
import Mathlib.Tactic.Positivity

namespace Shellfish.Mat

variable {K : Type} [Field K] [LinearOrder K] [IsStrictOrderedRing K] {n : Nat}

/-- Writing the unit vector `e_d` through the pivots gives `e_d`, if the pivots up to `d` are in place. -/
theorem permute_unit (pivot : Fin n → Fin n) (d : Fin n) (hle : ∀ i, i ≤ pivot i) (hd : ∀ i ≤ d, pivot i = i) :
    permute pivot (fun i => if i = d then (1 : K) else 0) (fun i => if i = d then 1 else 0) = fun i => if i = d then 1 else 0 := by
  unfold permute
  have : ∀ l : List (Fin n), l.foldl (fun (ys : Fin n → K) i => Function.update ys (pivot i) (if i = d then 1 else 0)) (fun i => if i = d then 1 else 0) = fun i => if i = d then 1 else 0 := by
    intro l
    induction l with
    | nil => rfl
    | cons a l ih =>
      rw [List.foldl_cons]
      have : Function.update (fun i => if i = d then (1 : K) else 0) (pivot a) (if a = d then 1 else 0) = fun i => if i = d then 1 else 0 := by
        have e : (if a = d then (1 : K) else 0) = if pivot a = d then 1 else 0 := by
          by_cases h : a ≤ d
          · rw [hd a h]
          · rw [not_le] at h
            rw [if_neg (ne_of_gt h), if_neg (ne_of_gt (lt_of_lt_of_le h (hle a)))]
        rw [e]
        exact Function.update_eq_self (pivot a) fun i => if i = d then (1 : K) else 0
      rw [this]; exact ih
  exact this _

/-- The solver is right for the unit vector `e_d` if no rows are exchanged up to row `d` (input and output are the same slice). -/
theorem solve_unit [NeZero n] (M : Fin n → Fin n → K) (hdet : (Matrix.of M).det ≠ 0) (d : Fin n) (s : LU K n) (hs : factorize M = some s) (hd : ∀ i ≤ d, s.pivot i = i) (i : Fin n) :
    ∑ j, M i j * s.solveVector (fun i => if i = d then 1 else 0) (fun i => if i = d then 1 else 0) j = if i = d then 1 else 0 := by
  obtain ⟨s', σ, h1, -, h2, h3, -, h4, -⟩ := factorize_fix M hdet
  rw [hs] at h1
  cases h1
  have hσ : ∀ i ≤ d, σ i = i := fun i hi => h4 (d.1 + 1) (fun i hi => hd i (by show i.1 ≤ d.1; omega)) i (by have : i.1 ≤ d.1 := hi; omega)
  have hσd : ∀ i, σ i = d ↔ i = d := fun i => ⟨fun h => σ.injective (by rw [h, hσ d (le_refl d)]), fun h => by rw [h, hσ d (le_refl d)]⟩
  unfold LU.solveVector
  rw [permute_unit s.pivot d (fun i => (h3 i).1) hd]
  obtain ⟨i, rfl⟩ := σ.surjective i
  have := subst_solves s.A (fun i => (h3 i).2) (fun i => if i = d then 1 else 0) i
  simp only [hσd]
  rw [← this]
  simp only [h2.prod, Matrix.mul_apply, Finset.sum_mul, Finset.mul_sum]
  rw [Finset.sum_comm]
  refine Finset.sum_congr rfl fun l _ => Finset.sum_congr rfl fun j _ => by ring

/-- The first row is the pivot if no other row has a larger scaled entry. -/
theorem findPivot_first (s : LU K n) (k : Fin n) (hpos : 0 < s.vv k * abs (s.A k k)) (h : ∀ i, k ≤ i → s.vv i * abs (s.A i k) ≤ s.vv k * abs (s.A k k)) : (findPivot s k).2 = k := by
  have key : ∀ (l : List (Fin n)), (∀ i ∈ l, k ≤ i) →
      l.foldl (fun b i => if s.vv i * abs (s.A i k) > b.1 then (s.vv i * abs (s.A i k), i) else b) (s.vv k * abs (s.A k k), k) = (s.vv k * abs (s.A k k), k) := by
    intro l
    induction l with
    | nil => intro _; rfl
    | cons a l ih =>
      intro hl
      rw [List.foldl_cons, if_neg (not_lt.mpr (h a (hl a (by simp))))]
      exact ih fun i hi => hl i (by simp [hi])
  have hfirst : ∃ l, ((List.finRange n).filter fun i => k ≤ i) = k :: l ∧ ∀ i ∈ l, k ≤ i := by
    have hsort : (List.finRange n).Pairwise (· < ·) := List.pairwise_lt_finRange n
    have hs' := hsort.filter (fun i => decide (k ≤ i))
    have hmem : k ∈ (List.finRange n).filter fun i => decide (k ≤ i) := by simp
    have hall : ∀ i ∈ (List.finRange n).filter fun i => decide (k ≤ i), k ≤ i := fun i hi => by simpa using hi
    revert hs' hmem hall
    generalize (List.finRange n).filter (fun i => decide (k ≤ i)) = L
    intro hs' hmem hall
    cases L with
    | nil => simp at hmem
    | cons a L =>
      rcases List.mem_cons.mp hmem with h | h
      · subst h; exact ⟨L, rfl, fun i hi => hall i (by simp [hi])⟩
      · have := (List.pairwise_cons.mp hs').1 k h
        exact absurd (hall a (by simp)) (not_le.mpr this)
  obtain ⟨l, hl, hl'⟩ := hfirst
  unfold findPivot
  rw [hl, List.foldl_cons, if_pos hpos, key l hl']

theorem luStep_pivot (s : LU K n) (k : Fin n) : (luStep s k).pivot = fun i => if i = k then (findPivot s k).2 else s.pivot i := by
  have h1 : (exchange s k (findPivot s k).2).imax = (findPivot s k).2 := by unfold exchange; split <;> rfl
  have h2 : (exchange s k (findPivot s k).2).pivot = s.pivot := by unfold exchange; split <;> rfl
  have h3 : ∀ t : LU K n, (fixPivot t k).pivot = t.pivot := fun t => by unfold fixPivot; split <;> rfl
  show (fixPivot _ k).pivot = _
  rw [h3, h1, h2]

theorem luLoop_pivot (s : LU K n) (i : Fin n) : ∀ m (hm : m ≤ n), i.1 < m → (luLoop s m hm).pivot i = (findPivot (luLoop s i.1 (le_of_lt i.2)) i).2 := by
  intro m
  induction m with
  | zero => intro hm h; omega
  | succ m ih =>
    intro hm h
    rw [luLoop, luStep_pivot]
    dsimp only
    by_cases hi : i = ⟨m, hm⟩
    · subst hi
      rw [if_pos rfl]
    · rw [if_neg hi]
      have : i.1 ≠ m := fun h => hi (Fin.ext h)
      exact ih (Nat.le_of_succ_le hm) (by omega)

/-- A step without an exchange. -/
theorem luStep_noex (s : LU K n) (k : Fin n) (hp : (findPivot s k).2 = k) (h0 : s.A k k ≠ 0) :
    (luStep s k).vv = s.vv ∧ (luStep s k).A = fun i j => if k < i then (if j = k then s.A i k / s.A k k else if k < j then s.A i j - s.A i k / s.A k k * s.A k j else s.A i j) else s.A i j := by
  unfold luStep
  dsimp only
  have he : exchange s k (findPivot s k).2 = { s with imax := k } := by unfold exchange; rw [hp, if_neg (by simp)]
  rw [he]
  unfold fixPivot
  dsimp only
  rw [if_neg h0]
  exact ⟨rfl, rfl⟩

theorem abs_eq_abs' (x : K) : abs x = |x| := by
  unfold abs
  split
  · rename_i h; rw [abs_of_neg h]
  · rename_i h; rw [abs_of_nonneg (not_lt.mp h)]

/-- The largest entry is one of the entries. -/
theorem rowBig_spec (M : Fin n → Fin n → K) (i : Fin n) : (∀ j, |M i j| ≤ rowBig M i) ∧ (rowBig M i = 0 ∨ ∃ j, rowBig M i = |M i j|) := by
  have key : ∀ (l : List (Fin n)) (b : K), (∀ j ∈ l, |M i j| ≤ l.foldl (fun big j => if abs (M i j) > big then abs (M i j) else big) b) ∧
      b ≤ l.foldl (fun big j => if abs (M i j) > big then abs (M i j) else big) b ∧
      (l.foldl (fun big j => if abs (M i j) > big then abs (M i j) else big) b = b ∨ ∃ j, l.foldl (fun big j => if abs (M i j) > big then abs (M i j) else big) b = |M i j|) := by
    intro l
    induction l with
    | nil => intro b; exact ⟨by simp, le_refl _, Or.inl rfl⟩
    | cons a l ih =>
      intro b
      rw [List.foldl_cons]
      obtain ⟨h1, h2, h3⟩ := ih (if abs (M i a) > b then abs (M i a) else b)
      refine ⟨?_, ?_, ?_⟩
      · intro j hj
        rcases List.mem_cons.mp hj with rfl | hj
        · refine le_trans ?_ h2
          split
          · rw [abs_eq_abs']
          · rename_i h; rw [← abs_eq_abs']; exact not_lt.mp h
        · exact h1 j hj
      · refine le_trans ?_ h2
        split
        · rename_i h; exact le_of_lt h
        · exact le_refl _
      · rcases h3 with h3 | h3
        · by_cases h : abs (M i a) > b
          · rw [if_pos h] at h3 ⊢; right; exact ⟨a, by rw [h3, abs_eq_abs']⟩
          · rw [if_neg h] at h3 ⊢; left; exact h3
        · right; exact h3
  obtain ⟨h1, h2, h3⟩ := key (List.finRange n) 0
  exact ⟨fun j => h1 j (List.mem_finRange j), h3⟩

end Shellfish.Mat

namespace Shellfish.Smooth

variable {K : Type} [Field K] [LinearOrder K] [IsStrictOrderedRing K]

/-- The sum of the `p`-th powers of the offsets `-n, ..., n`. -/
def power (n p : Nat) : K := ∑ j ∈ Finset.range (2 * n + 1), ((j : K) - n) ^ p

theorem foldl_sum (f : Nat → K) (n : Nat) (a : K) : (List.range n).foldl (fun s k => s + f k) a = a + ∑ k ∈ Finset.range n, f k := by
  induction n with
  | zero => simp
  | succ n ih => rw [List.range_succ, List.foldl_append, ih, Finset.sum_range_succ]; simp [add_assoc]

theorem moment_eq (n p : Nat) : (moment n p : K) = power n p := by
  unfold moment power
  dsimp only
  rw [foldl_sum (fun k => ((k + 1 : Nat) : K) ^ p), foldl_sum (fun k => (-((k + 1 : Nat) : K)) ^ p)]
  have e : (2 * n + 1) = n + (1 + n) := by ring
  rw [e, Finset.sum_range_add, Finset.sum_range_add]
  have h1 : ∑ x ∈ Finset.range n, ((x : K) - n) ^ p = ∑ k ∈ Finset.range n, (-((k + 1 : Nat) : K)) ^ p := by
    rw [← Finset.sum_range_reflect]
    refine Finset.sum_congr rfl fun j hj => ?_
    rw [Finset.mem_range] at hj
    congr 1
    rw [show n - 1 - j = n - (j + 1) by omega, Nat.cast_sub (by omega)]
    push_cast; ring
  have h2 : ∑ x ∈ Finset.range 1, (((n + x : Nat) : K) - n) ^ p = if p = 0 then 1 else 0 := by
    simp [zero_pow_eq]
  have h3 : ∑ x ∈ Finset.range n, (((n + (1 + x) : Nat) : K) - n) ^ p = ∑ k ∈ Finset.range n, ((k + 1 : Nat) : K) ^ p := by
    refine Finset.sum_congr rfl fun j _ => ?_
    congr 1
    push_cast; ring
  rw [h1, h2, h3]; ring

theorem power_odd (n p : Nat) (hp : Odd p) : (power n p : K) = 0 := by
  have h : (power n p : K) = -power n p := by
    conv_lhs => rw [power, ← Finset.sum_range_reflect]
    rw [power, ← Finset.sum_neg_distrib]
    refine Finset.sum_congr rfl fun j hj => ?_
    rw [Finset.mem_range] at hj
    rw [← hp.neg_pow, show 2 * n + 1 - 1 - j = 2 * n - j by omega, Nat.cast_sub (by omega)]
    congr 1
    push_cast; ring
  linarith

theorem power_nonneg (n p : Nat) (hp : Even p) : (0 : K) ≤ power n p := Finset.sum_nonneg fun j _ => hp.pow_nonneg _

/-- Even powers of larger numbers are larger. -/
theorem even_pow_mono {a b : K} (p : Nat) (hp : Even p) (h : |a| ≤ |b|) : a ^ p ≤ b ^ p := by
  rw [← hp.pow_abs a, ← hp.pow_abs b]
  exact pow_le_pow_left₀ (abs_nonneg a) h p

/-- Chebyshev's inequality for the even moments. -/
theorem power_chebyshev (n c a b : Nat) (hc : Even c) (ha : Even a) (hb : Even b) : (power n (c + a) : K) * power n (c + b) ≤ power n c * power n (c + a + b) := by
  set t : Nat → K := fun j => (j : K) - n with ht
  set R := Finset.range (2 * n + 1) with hR
  have h0 : (0 : K) ≤ ∑ j ∈ R, ∑ l ∈ R, t j ^ c * t l ^ c * ((t j ^ a - t l ^ a) * (t j ^ b - t l ^ b)) := by
    refine Finset.sum_nonneg fun j _ => Finset.sum_nonneg fun l _ => mul_nonneg (mul_nonneg (hc.pow_nonneg _) (hc.pow_nonneg _)) ?_
    rcases le_total |t j| |t l| with h | h
    · exact mul_nonneg_of_nonpos_of_nonpos (sub_nonpos.mpr (even_pow_mono a ha h)) (sub_nonpos.mpr (even_pow_mono b hb h))
    · exact mul_nonneg (sub_nonneg.mpr (even_pow_mono a ha h)) (sub_nonneg.mpr (even_pow_mono b hb h))
  have e : ∑ j ∈ R, ∑ l ∈ R, t j ^ c * t l ^ c * ((t j ^ a - t l ^ a) * (t j ^ b - t l ^ b)) =
      2 * (power n c * power n (c + a + b)) - 2 * (power n (c + a) * power n (c + b)) := by
    have : ∀ j l, t j ^ c * t l ^ c * ((t j ^ a - t l ^ a) * (t j ^ b - t l ^ b)) =
        t j ^ (c + a + b) * t l ^ c + t j ^ c * t l ^ (c + a + b) - t j ^ (c + a) * t l ^ (c + b) - t j ^ (c + b) * t l ^ (c + a) := fun j l => by
      simp only [pow_add]; ring
    simp only [this, Finset.sum_sub_distrib, Finset.sum_add_distrib, ← Finset.mul_sum, ← Finset.sum_mul]
    show power n (c + a + b) * power n c + power n c * power n (c + a + b) - power n (c + a) * power n (c + b) - power n (c + b) * power n (c + a) = _
    ring
  rw [e] at h0
  linarith

theorem power_pos (n p : Nat) (hp : Even p) (h : p = 0 ∨ 1 ≤ n) : (0 : K) < power n p := by
  refine lt_of_lt_of_le ?_ (Finset.single_le_sum (f := fun j : Nat => ((j : K) - n) ^ p) (fun j _ => hp.pow_nonneg _) (Finset.mem_range.mpr (show 2 * n < 2 * n + 1 by omega)))
  rcases h with rfl | h
  · simp
  · have : (0 : K) < n := by exact_mod_cast h
    refine pow_pos ?_ p
    push_cast; linarith

/-! The matrix -/

theorem cells_mem (m ipj : Nat) (h : ipj ≤ 2 * m) (c : Int × Int) : c ∈ cells m ipj ↔ 0 ≤ c.1 ∧ c.1 ≤ m ∧ 0 ≤ c.2 ∧ c.2 ≤ m ∧ c.1 + c.2 = ipj := by
  unfold cells
  obtain ⟨a, b⟩ := c
  simp only [List.mem_map, List.mem_range, Prod.mk.injEq]
  split
  · constructor
    · rintro ⟨t, ht, h1, h2⟩; omega
    · rintro ⟨h1, h2, h3, h4, h5⟩
      exact ⟨b.toNat, by omega, by omega, by omega⟩
  · constructor
    · rintro ⟨t, ht, h1, h2⟩; omega
    · rintro ⟨h1, h2, h3, h4, h5⟩
      refine ⟨(b - ipj + m).toNat, by omega, by omega, by omega⟩

theorem cells_fold {m : Nat} (v : K) (i j : Fin (m + 1)) : ∀ (l : List (Int × Int)) (a : Fin (m + 1) → Fin (m + 1) → K),
    l.foldl (fun a c => fun (i j : Fin (m + 1)) => if ((i : Int), (j : Int)) = c then v else a i j) a i j = if ((i : Int), (j : Int)) ∈ l then v else a i j := by
  intro l
  induction l with
  | nil => intro a; simp
  | cons c l ih =>
    intro a
    rw [List.foldl_cons, ih]
    by_cases h : ((i : Int), (j : Int)) = c
    · simp [h]
    · simp only [List.mem_cons, h, false_or, if_false]

theorem momentMatrix_eq (n m : Nat) (i j : Fin (m + 1)) : (momentMatrix n m i j : K) = power n (i.1 + j.1) := by
  unfold momentMatrix
  have key : ∀ N, N ≤ 2 * m + 1 → ∀ i j : Fin (m + 1), (List.range N).foldl (fun a ipj => (cells m ipj).foldl (fun a c => fun (i j : Fin (m + 1)) => if ((i : Int), (j : Int)) = c then (moment n ipj : K) else a i j) a) (fun _ _ => 0) i j =
      if i.1 + j.1 < N then power n (i.1 + j.1) else 0 := by
    intro N
    induction N with
    | zero => intro _ i j; simp
    | succ N ih =>
      intro hN i j
      rw [List.range_succ, List.foldl_append, List.foldl_cons, List.foldl_nil, cells_fold, ih (by omega)]
      have : (((i : Int), (j : Int)) ∈ cells m N) ↔ i.1 + j.1 = N := by
        rw [cells_mem m N (by omega)]
        have := i.2; have := j.2
        constructor
        · rintro ⟨-, -, -, -, h⟩; simp at h; omega
        · intro h; simp; omega
      simp only [this]
      by_cases h : i.1 + j.1 = N
      · rw [if_pos h, if_pos (by omega), moment_eq, h]
      · rw [if_neg h]
        by_cases h' : i.1 + j.1 < N
        · rw [if_pos h', if_pos (by omega)]
        · rw [if_neg h', if_neg (by omega)]
  rw [key _ (le_refl _) i j, if_pos (by have := i.2; have := j.2; omega)]

end Shellfish.Smooth
