/-
C134: smoothing and the splashback radius of a line of sight, in machine arithmetic.
-/
import Verif.Model.SmoothRound
import Verif.Props.Convolve
import Verif.Props.SmoothProf
import Verif.Props.RingRound
import Verif.Props.BinRound
import Mathlib.Algebra.BigOperators.Field

namespace Shellfish.SmoothRound
open Shellfish.Smooth Shellfish.Round
open Finset

/-! ### Specification -/

/-- `math.Exp` has a relative error of at most 2^-50. -/
def ExpOk (ex : ℚ → ℚ) : Prop := ∀ x : ℚ, |(ex x : ℝ) - Real.exp x| ≤ Real.exp x / 2 ^ 50

/-- The logarithm of a profile at point `i`; beyond its ends a profile goes on with its first and its last value. -/
noncomputable def logAt (ys : List ℚ) (i : ℤ) : ℝ := Real.log (ys.getD (min i.toNat (ys.length - 1)) 0)

/-- The logarithms around point `i`, weighted with the weights `K` of a kernel of `w` points with the given centre. -/
noncomputable def weighted (K : ℕ → ℝ) (w center : ℕ) (ys : List ℚ) (i : ℕ) : ℝ := ∑ j ∈ range w, K j * logAt ys ((i : ℤ) + j - center)

/-- The tolerance: the rounding of `w + 6` operations, relative to the sum of the sizes of the terms, and the error `e` of the weights. -/
noncomputable def tol (k : Kernel ℚ) (e : ℝ) (ys : List ℚ) (i : ℕ) : ℝ :=
  (k.cs.length + 6) / 2 ^ 52 * ∑ j ∈ range k.cs.length, |(k.cs.getD j 0 : ℝ)| * |logAt ys ((i : ℤ) + j - k.center)| + e * ∑ j ∈ range k.cs.length, |logAt ys ((i : ℤ) + j - k.center)|

/-- The kernel `k` has the weights `K` up to `e`, and its centre is one of its points. -/
structure Weights (k : Kernel ℚ) (K : ℕ → ℝ) (e : ℝ) : Prop where
  centre : k.center < k.cs.length
  size : k.cs.length ≤ 2 ^ 40
  close : ∀ j < k.cs.length, |(k.cs.getD j 0 : ℝ) - K j| ≤ e

/-! ### The convolution -/

/-- The rounded sum over the taps. -/
def dot64 (c g : ℕ → ℚ) : ℕ → ℚ
  | 0 => 0
  | n + 1 => r64 (dot64 c g n + r64 (g n * c n))

theorem tapSum64_eq (k : Kernel ℚ) (tap : Int → Option ℚ) (i : Int) (g : ℕ → ℚ) (h : ∀ j < k.cs.length, tap (i + j - k.center) = some (g j)) :
    tapSum64 k tap i = some (dot64 (fun j => k.cs.getD j 0) g k.cs.length) := by
  unfold tapSum64
  have key : ∀ n ≤ k.cs.length, (List.range n).foldlM (fun sum (j : Nat) => do
      let x ← tap (i + j - k.center)
      some (r64 (sum + r64 (x * k.cs.getD j 0)))) 0 = some (dot64 (fun j => k.cs.getD j 0) g n) := by
    intro n
    induction n with
    | zero => intro _; rfl
    | succ n ih =>
      intro hn
      rw [List.range_succ, List.foldlM_append, ih (by omega)]
      simp only [Option.bind_eq_bind, Option.bind_some, List.foldlM_cons, List.foldlM_nil, h n (by omega), Option.pure_def]
      rfl
  exact key _ le_rfl

theorem dot64_acc (c g : ℕ → ℚ) (n : ℕ) : Acc (dot64 c g n) (∑ j ∈ range n, g j * c j) (∑ j ∈ range n, |g j * c j|) (n + 1) := by
  induction n with
  | zero =>
    simp only [dot64, range_zero, sum_empty]
    exact acc_zero _
  | succ n ih =>
    rw [sum_range_succ, sum_range_succ, dot64]
    refine acc_add ih (acc_mono ?_ (by omega : 1 ≤ n + 1))
    refine ⟨?_, le_rfl⟩
    have := (C95_rounding (g n * c n)).2.2.2.2
    rw [pow_one]
    linarith

/-- The extended profile. -/
theorem extended_log (lg : ℚ → ℚ) (ys : List ℚ) (hy : ys ≠ []) (i : ℤ) : codeExtended .extension (ys.map lg) i = lg (ys.getD (min i.toNat (ys.length - 1)) 0) := by
  have hl : 0 < ys.length := List.length_pos_of_ne_nil hy
  unfold codeExtended codeIndex
  simp only [reduceCtorEq, false_and, if_false, List.length_map]
  have e : ∀ m < ys.length, (ys.map lg).getD m 0 = lg (ys.getD m 0) := by
    intro m hm
    rw [List.getD_eq_getElem _ _ (by rw [List.length_map]; exact hm), List.getElem_map, List.getD_eq_getElem _ _ hm]
  by_cases h1 : i < 0
  · rw [if_pos h1, e _ (by simpa using hl)]
    congr 2
    omega
  · rw [if_neg h1]
    by_cases h2 : i ≥ ys.length
    · rw [if_pos h2, e _ (by omega)]
      congr 2
      omega
    · rw [if_neg h2, e _ (by omega)]
      congr 2
      omega

theorem convolve64_eq (k : Kernel ℚ) (hk : k.center < k.cs.length) (xs : List ℚ) (hn : k.cs.length ≤ xs.length) :
    ∃ out, convolve64 k xs .extension = some out ∧ out.length = xs.length ∧
      ∀ i < xs.length, out.getD i 0 = dot64 (fun j => k.cs.getD j 0) (fun j => codeExtended .extension xs ((i : Int) + j - k.center)) k.cs.length := by
  set G : ℕ → ℚ := fun i => dot64 (fun j => k.cs.getD j 0) (fun j => codeExtended .extension xs ((i : Int) + j - k.center)) k.cs.length with hG
  set nr := k.cs.length - 1 - k.center with hnr
  obtain ⟨o1, a1, a2, a3⟩ := writeLoop (fun i => tapSum64 k (leftTap .extension xs) i) G 0 (k.center + 1) (List.replicate xs.length 0) (le_refl _) (by simp; omega) fun t ht => by
    exact tapSum64_eq _ _ _ _ fun j hj => leftTap_eq .extension xs _ k.center (by omega) (by omega) (by omega) (by simp)
  obtain ⟨o2, b1, b2, b3⟩ := writeLoop (fun t => tapSum64 k (getI xs) ((k.center + 1 + t : Nat) : Int)) (fun t => G (k.center + 1 + t)) ((k.center + 1 : Nat) : Int) (xs.length - nr - (k.center + 1)) o1
    (by omega) (by rw [a2]; simp; omega) fun t ht => by
    refine tapSum64_eq _ _ _ _ fun j hj => ?_
    rw [midTap_eq .extension xs _ (by omega) (by omega)]
  obtain ⟨o3, c1, c2, c3⟩ := writeLoop (fun t => tapSum64 k (rightTap .extension xs) ((xs.length : Int) - nr + t)) (fun t => G (xs.length - nr + t)) ((xs.length : Int) - nr) nr o2
    (by omega) (by rw [b2, a2]; simp) fun t ht => by
    refine tapSum64_eq _ _ _ _ fun j hj => ?_
    rw [rightTap_eq .extension xs _ (by omega) (by omega)]
    congr 2; push_cast [Nat.cast_sub (show nr ≤ xs.length by omega)]; ring
  refine ⟨o3, ?_, by rw [c2, b2, a2]; simp, fun i hi => ?_⟩
  · unfold convolve64
    simp only [zero_add] at a1
    simp only [Nat.cast_add, Option.bind_eq_bind] at a1 b1 c1 ⊢
    rw [a1, Option.bind_some, b1, Option.bind_some]
    exact c1
  · rw [c3, b3, a3]
    split
    · congr 1; omega
    · split
      · congr 1; omega
      · rw [if_pos (by omega)]; congr 1

/-- The weighted logarithms of a positive profile, in machine arithmetic. -/
theorem dot_close {lg : ℚ → ℚ} (hlg : LogOk lg) {k : Kernel ℚ} {K : ℕ → ℝ} {e : ℝ} (hk : Weights k K e) (ys : List ℚ) (hy : ys ≠ []) (pos : ∀ y ∈ ys, 0 < y) (i : ℕ) :
    |(dot64 (fun j => k.cs.getD j 0) (fun j => codeExtended .extension (ys.map lg) ((i : Int) + j - k.center)) k.cs.length : ℝ) - weighted K k.cs.length k.center ys i| ≤ tol k e ys i := by
  have hl : 0 < ys.length := List.length_pos_of_ne_nil hy
  have hlog : ∀ j : ℕ, |((codeExtended .extension (ys.map lg) ((i : Int) + j - k.center) : ℚ) : ℝ) - logAt ys ((i : ℤ) + j - k.center)| ≤ |logAt ys ((i : ℤ) + j - k.center)| / 2 ^ 50 := by
    intro j
    rw [extended_log lg ys hy]
    refine hlg _ (pos _ ?_)
    rw [List.getD_eq_getElem _ _ (by omega)]
    exact List.getElem_mem _
  have acc := dot64_acc (fun j => k.cs.getD j 0) (fun j => codeExtended .extension (ys.map lg) ((i : Int) + j - k.center)) k.cs.length
  have hw : (k.cs.length : ℝ) ≤ 2 ^ 40 := by exact_mod_cast hk.size
  have pb := pow_bound (k.cs.length + 1) (by have := hk.size; omega)
  have a1 := acc.1
  generalize hd : dot64 (fun j => k.cs.getD j 0) (fun j => codeExtended .extension (ys.map lg) ((i : Int) + j - k.center)) k.cs.length = d at *
  have a2 := a1.trans (mul_le_mul_of_nonneg_right pb (Finset.sum_nonneg fun _ _ => abs_nonneg _))
  clear a1 pb acc hd
  have a3 : |(d : ℝ) - ∑ j ∈ range k.cs.length, ((codeExtended .extension (ys.map lg) ((i : Int) + j - k.center) : ℚ) : ℝ) * (k.cs.getD j 0 : ℚ)| ≤
      2 * (k.cs.length + 1) / 2 ^ 53 * ∑ j ∈ range k.cs.length, |((codeExtended .extension (ys.map lg) ((i : Int) + j - k.center) : ℚ) : ℝ) * (k.cs.getD j 0 : ℚ)| := by
    have := (Rat.cast_le (K := ℝ)).mpr a2
    push_cast at this
    exact this
  clear a2
  set A := ∑ j ∈ range k.cs.length, |(k.cs.getD j 0 : ℝ)| * |logAt ys ((i : ℤ) + j - k.center)| with hA
  have A0 : 0 ≤ A := Finset.sum_nonneg fun _ _ => by positivity
  have s1 : ∑ j ∈ range k.cs.length, |((codeExtended .extension (ys.map lg) ((i : Int) + j - k.center) : ℚ) : ℝ) * (k.cs.getD j 0 : ℚ)| ≤ (1 + 1 / 2 ^ 50) * A := by
    rw [hA, Finset.mul_sum]
    refine Finset.sum_le_sum fun j _ => ?_
    rw [abs_mul]
    have := hlog j
    have t := abs_sub_abs_le_abs_sub ((codeExtended .extension (ys.map lg) ((i : Int) + j - k.center) : ℚ) : ℝ) (logAt ys ((i : ℤ) + j - k.center))
    have u : |((codeExtended .extension (ys.map lg) ((i : Int) + j - k.center) : ℚ) : ℝ)| ≤ (1 + 1 / 2 ^ 50) * |logAt ys ((i : ℤ) + j - k.center)| := by linarith
    have := mul_le_mul_of_nonneg_right u (abs_nonneg ((k.cs.getD j 0 : ℚ) : ℝ))
    linarith
  have s2 : |∑ j ∈ range k.cs.length, ((codeExtended .extension (ys.map lg) ((i : Int) + j - k.center) : ℚ) : ℝ) * (k.cs.getD j 0 : ℚ) - ∑ j ∈ range k.cs.length, (k.cs.getD j 0 : ℝ) * logAt ys ((i : ℤ) + j - k.center)| ≤ A / 2 ^ 50 := by
    rw [← Finset.sum_sub_distrib, hA, Finset.sum_div]
    refine (Finset.abs_sum_le_sum_abs _ _).trans (Finset.sum_le_sum fun j _ => ?_)
    rw [show ((codeExtended .extension (ys.map lg) ((i : Int) + j - k.center) : ℚ) : ℝ) * (k.cs.getD j 0 : ℚ) - (k.cs.getD j 0 : ℝ) * logAt ys ((i : ℤ) + j - k.center) =
      (k.cs.getD j 0 : ℝ) * (((codeExtended .extension (ys.map lg) ((i : Int) + j - k.center) : ℚ) : ℝ) - logAt ys ((i : ℤ) + j - k.center)) by ring, abs_mul, mul_div_assoc]
    exact mul_le_mul_of_nonneg_left (hlog j) (abs_nonneg _)
  have s3 : |∑ j ∈ range k.cs.length, (k.cs.getD j 0 : ℝ) * logAt ys ((i : ℤ) + j - k.center) - weighted K k.cs.length k.center ys i| ≤ e * ∑ j ∈ range k.cs.length, |logAt ys ((i : ℤ) + j - k.center)| := by
    unfold weighted
    rw [← Finset.sum_sub_distrib, Finset.mul_sum]
    refine (Finset.abs_sum_le_sum_abs _ _).trans (Finset.sum_le_sum fun j hj => ?_)
    rw [← sub_mul, abs_mul]
    exact mul_le_mul_of_nonneg_right (hk.close j (Finset.mem_range.mp hj)) (abs_nonneg _)
  unfold tol
  rw [← hA]
  have w0 : (0 : ℝ) ≤ k.cs.length := Nat.cast_nonneg _
  generalize (k.cs.length : ℝ) = w at *
  have s4 := a3.trans (mul_le_mul_of_nonneg_left s1 (by positivity))
  have s5 : 2 * (w + 1) / 2 ^ 53 * ((1 + 1 / 2 ^ 50) * A) + A / 2 ^ 50 ≤ (w + 6) / 2 ^ 52 * A := by
    have h1 : 2 * (w + 1) / 2 ^ 53 * (1 + 1 / 2 ^ 50) + 1 / 2 ^ 50 ≤ (w + 6) / 2 ^ 52 := by
      norm_num at hw ⊢
      linarith
    have := mul_le_mul_of_nonneg_right h1 A0
    linarith
  obtain ⟨x1, x2⟩ := abs_le.mp s4
  obtain ⟨x3, x4⟩ := abs_le.mp s2
  obtain ⟨x5, x6⟩ := abs_le.mp s3
  rw [abs_le]
  constructor <;> linarith

/-! ### Exponentials -/

theorem log_ex {ex : ℚ → ℚ} (hex : ExpOk ex) (x : ℚ) : 0 < ex x ∧ |Real.log (ex x) - x| ≤ 1 / 2 ^ 49 := by
  obtain ⟨h1, h2⟩ := abs_le.mp (hex x)
  have hE := Real.exp_pos (x : ℝ)
  have hp : (0 : ℝ) < ex x := by norm_num at h1; linarith
  refine ⟨by exact_mod_cast hp, ?_⟩
  have e : Real.log (ex x) - x = Real.log ((ex x : ℝ) / Real.exp x) := by rw [Real.log_div hp.ne' hE.ne', Real.log_exp]
  rw [e]
  have q1 : (ex x : ℝ) / Real.exp x ≤ 1 + 1 / 2 ^ 50 := by rw [div_le_iff₀ hE]; linarith
  have q2 : 1 - 1 / 2 ^ 50 ≤ (ex x : ℝ) / Real.exp x := by rw [le_div_iff₀ hE]; linarith
  generalize (ex x : ℝ) / Real.exp x = q at *
  have q0 : 0 < q := by norm_num at q2; linarith
  have l1 := Real.log_le_sub_one_of_pos q0
  have l2 := Real.one_sub_inv_le_log_of_pos q0
  have l3 : q⁻¹ ≤ 1 + 1 / 2 ^ 49 := by
    rw [inv_le_iff_one_le_mul₀ q0]
    have := mul_le_mul_of_nonneg_left q2 (by norm_num : (0 : ℝ) ≤ 1 + 1 / 2 ^ 49)
    norm_num at this ⊢
    linarith
  rw [abs_le]
  norm_num at *
  constructor <;> linarith

theorem restore {lg ex : ℚ → ℚ} (hlg : LogOk lg) (hex : ExpOk ex) {y : ℚ} (hy : 0 < y) (hb : |Real.log y| ≤ 1000) : |(ex (lg y) : ℝ) - y| ≤ y * ((|Real.log y| + 1) / 2 ^ 49) := by
  have hy' : (0 : ℝ) < y := by exact_mod_cast hy
  have h1 := hlg y hy
  have h2 := hex (lg y)
  have L0 := abs_nonneg (Real.log (y : ℝ))
  have e : Real.exp (lg y) = y * Real.exp ((lg y : ℝ) - Real.log y) := by rw [Real.exp_sub, Real.exp_log hy']; field_simp
  have small : |(lg y : ℝ) - Real.log y| ≤ 1 := by norm_num at h1 ⊢; linarith
  have h3 := Real.abs_exp_sub_one_le small
  have h4 : |Real.exp ((lg y : ℝ) - Real.log y) - 1| ≤ 2 * (|Real.log y| / 2 ^ 50) := h3.trans (mul_le_mul_of_nonneg_left h1 (by norm_num))
  rw [e] at h2
  generalize Real.exp ((lg y : ℝ) - Real.log y) = E at *
  generalize |Real.log (y : ℝ)| = L at *
  have h5 : |(y : ℝ) * E - y| ≤ y * (2 * (L / 2 ^ 50)) := by
    rw [show (y : ℝ) * E - y = y * (E - 1) by ring, abs_mul, abs_of_pos hy']
    exact mul_le_mul_of_nonneg_left h4 hy'.le
  have hE : E ≤ 2 := by have := (abs_le.mp h4).2; norm_num at this; linarith
  have h6 : (y : ℝ) * E / 2 ^ 50 ≤ y * (2 / 2 ^ 50) := by
    rw [mul_div_assoc]
    exact mul_le_mul_of_nonneg_left (by linarith) hy'.le
  have h7 := abs_sub_le (ex (lg y) : ℝ) (y * E) y
  have h8 : (y : ℝ) * ((L + 1) / 2 ^ 49) = y * (2 * (L / 2 ^ 50)) + y * (2 / 2 ^ 50) := by ring
  rw [h8]
  linarith

/-! ### The theorems -/

/-- C134: `Smooth` does not panic on a positive profile that is longer than the window.  The derivatives are the weighted logarithms of the profile with the weights of the derivative kernel, and the logarithms of the smoothed values are those with the
weights of the smoothing kernel, up to the tolerance.  The profile itself, which is overwritten and restored, changes by at most (|log y| + 1) 2^-49 of its values. -/
theorem C134_smoothed (lg ex : ℚ → ℚ) (hlg : LogOk lg) (hex : ExpOk ex) (k kd : Kernel ℚ) (K Kd : ℕ → ℝ) (e ed : ℝ) (hk : Weights k K e) (hkd : Weights kd Kd ed) (window : ℕ) (h1 : k.cs.length = window) (h2 : kd.cs.length = window)
    (xs ys : List ℚ) (hxy : xs.length = ys.length) (hlong : window < xs.length) (pos : ∀ y ∈ ys, 0 < y) :
    ∃ vals derivs ys' : List ℚ, smooth64 lg ex k kd window xs ys = some (some (vals, derivs, ys')) ∧ vals.length = ys.length ∧ derivs.length = ys.length ∧ ys'.length = ys.length ∧
      ∀ i < ys.length, |(derivs.getD i 0 : ℝ) - weighted Kd window kd.center ys i| ≤ tol kd ed ys i ∧ 0 < vals.getD i 0 ∧ |Real.log (vals.getD i 0) - weighted K window k.center ys i| ≤ tol k e ys i + 1 / 2 ^ 49 ∧
        (|Real.log (ys.getD i 0)| ≤ 1000 → |(ys'.getD i 0 : ℝ) - ys.getD i 0| ≤ ys.getD i 0 * ((|Real.log (ys.getD i 0)| + 1) / 2 ^ 49)) := by
  have hy : ys ≠ [] := by
    rintro rfl
    rw [hxy] at hlong
    simp at hlong
  obtain ⟨vals, a1, a2, a3⟩ := convolve64_eq k hk.centre (ys.map lg) (by rw [List.length_map]; omega)
  obtain ⟨derivs, b1, b2, b3⟩ := convolve64_eq kd hkd.centre (ys.map lg) (by rw [List.length_map]; omega)
  rw [List.length_map] at a2 a3 b2 b3
  refine ⟨vals.map ex, derivs, (ys.map lg).map ex, ?_, by rw [List.length_map, a2], b2, by simp, ?_⟩
  · unfold smooth64
    rw [if_neg (by simpa using hxy), if_neg (by omega)]
    simp only [a1, b1, Option.bind_eq_bind, Option.bind_some]
  · intro i hi
    have c1 := dot_close hlg hkd ys hy pos i
    have c2 := dot_close hlg hk ys hy pos i
    rw [← b3 i hi, h2] at c1
    rw [← a3 i hi, h1] at c2
    have ev : (vals.map ex).getD i 0 = ex (vals.getD i 0) := by
      rw [List.getD_eq_getElem _ _ (by rw [List.length_map]; omega), List.getElem_map, List.getD_eq_getElem _ _ (by omega)]
    have ey : ((ys.map lg).map ex).getD i 0 = ex (lg (ys.getD i 0)) := by
      rw [List.getD_eq_getElem _ _ (by simpa using hi), List.getElem_map, List.getElem_map, List.getD_eq_getElem _ _ hi]
    obtain ⟨l1, l2⟩ := log_ex hex (vals.getD i 0)
    rw [ev, ey]
    refine ⟨c1, l1, ?_, fun hb => restore hlg hex (pos _ ?_) hb⟩
    · have := abs_sub_le (Real.log (ex (vals.getD i 0))) (vals.getD i 0) (weighted K window k.center ys i)
      linarith
    · rw [List.getD_eq_getElem _ _ hi]
      exact List.getElem_mem _

/-- A point is a clear candidate: its slope is below those of both neighbours and below the limit, and its smoothed density is below all further in, by more than the tolerances `T` of the slopes and `V` of the logarithms of the densities. -/
def ClearCandidate (n : ℕ) (S D : ℕ → ℝ) (dLim T V : ℝ) (i : ℕ) : Prop :=
  1 ≤ i ∧ i + 1 < n ∧ (∀ j < i, S i + 2 * V < S j) ∧ D i + 2 * T < D (i - 1) ∧ D i + 2 * T < D (i + 1) ∧ D i + T < dLim

/-- C134: the radius of a line of sight.  With the exact smoothed slopes `D` and logarithms of the density `S` (weighted logarithms) and tolerances `T` and `V`: the program does not panic; the radius it reports is that of a point which is a candidate up to
the tolerances and whose slope is, up to the tolerance, as steep as that of every clear candidate; if it reports none, there is no clear candidate. -/
theorem C134_steepest (lg ex : ℚ → ℚ) (hlg : LogOk lg) (hex : ExpOk ex) (k kd : Kernel ℚ) (K Kd : ℕ → ℝ) (e ed : ℝ) (hk : Weights k K e) (hkd : Weights kd Kd ed) (window : ℕ) (h1 : k.cs.length = window) (h2 : kd.cs.length = window)
    (rs ys : List ℚ) (hxy : rs.length = ys.length) (hlong : window < rs.length) (pos : ∀ y ∈ ys, 0 < y) (dLim : ℚ) (T V : ℝ) (hT : ∀ i < ys.length, tol kd ed ys i ≤ T) (hV : ∀ i < ys.length, tol k e ys i + 1 / 2 ^ 49 ≤ V) :
    (lineRadius64 lg ex k kd window dLim rs ys = some none ∧ ∀ i, ¬ ClearCandidate rs.length (weighted K window k.center ys) (weighted Kd window kd.center ys) dLim T V i) ∨
    ∃ i, lineRadius64 lg ex k kd window dLim rs ys = some (some (rs.getD i 0)) ∧ 1 ≤ i ∧ i + 1 < rs.length ∧
      (∀ j < i, weighted K window k.center ys i < weighted K window k.center ys j + 2 * V) ∧
      weighted Kd window kd.center ys i < weighted Kd window kd.center ys (i - 1) + 2 * T ∧ weighted Kd window kd.center ys i < weighted Kd window kd.center ys (i + 1) + 2 * T ∧ weighted Kd window kd.center ys i < dLim + T ∧
      ∀ j, ClearCandidate rs.length (weighted K window k.center ys) (weighted Kd window kd.center ys) dLim T V j → weighted Kd window kd.center ys i ≤ weighted Kd window kd.center ys j + 2 * T := by
  obtain ⟨vals, derivs, ys', s1, s2, s3, -, s4⟩ := C134_smoothed lg ex hlg hex k kd K Kd e ed hk hkd window h1 h2 rs ys hxy hlong pos
  have hline : lineRadius64 lg ex k kd window dLim rs ys = splashbackRadius rs vals derivs dLim := by
    unfold lineRadius64
    rw [s1]
  rw [hline]
  set S := weighted K window k.center ys
  set D := weighted Kd window kd.center ys
  have hd : ∀ i < rs.length, |(derivs.getD i 0 : ℝ) - D i| ≤ T := fun i hi => (s4 i (by omega)).1.trans (hT i (by omega))
  have hv : ∀ i < rs.length, 0 < (vals.getD i 0 : ℝ) ∧ |Real.log (vals.getD i 0) - S i| ≤ V := fun i hi => ⟨by exact_mod_cast (s4 i (by omega)).2.1, (s4 i (by omega)).2.2.1.trans (hV i (by omega))⟩
  have clear : ∀ i, ClearCandidate rs.length S D dLim T V i → Candidate rs vals derivs dLim i := by
    rintro i ⟨c1, c2, c3, c4, c5, c6⟩
    have di := abs_le.mp (hd i (by omega))
    have dl := abs_le.mp (hd (i - 1) (by omega))
    have dr := abs_le.mp (hd (i + 1) (by omega))
    refine ⟨c1, c2, fun j hj => ?_, ?_, ?_, ?_⟩
    · obtain ⟨p1, q1⟩ := hv i (by omega)
      obtain ⟨p2, q2⟩ := hv j (by omega)
      have a := abs_le.mp q1
      have b := abs_le.mp q2
      have c := c3 j hj
      have : Real.log (vals.getD i 0) < Real.log (vals.getD j 0) := by linarith
      exact_mod_cast (Real.log_lt_log_iff p1 p2).mp this
    · have : (derivs.getD i 0 : ℝ) < derivs.getD (i - 1) 0 := by linarith
      exact_mod_cast this
    · have : (derivs.getD i 0 : ℝ) < derivs.getD (i + 1) 0 := by linarith
      exact_mod_cast this
    · have : (derivs.getD i 0 : ℝ) < dLim := by linarith
      exact_mod_cast this
  rcases C43_splashback rs vals derivs dLim (by omega) (by omega) with ⟨r1, r2⟩ | ⟨i, r1, r2, r3, -⟩
  · exact Or.inl ⟨r1, fun i hc => r2 i (clear i hc)⟩
  · right
    obtain ⟨c1, c2, c3, c4, c5, c6⟩ := r2
    have di := abs_le.mp (hd i (by omega))
    have dl := abs_le.mp (hd (i - 1) (by omega))
    have dr := abs_le.mp (hd (i + 1) (by omega))
    have c4' : (derivs.getD i 0 : ℝ) < derivs.getD (i - 1) 0 := by exact_mod_cast c4
    have c5' : (derivs.getD i 0 : ℝ) < derivs.getD (i + 1) 0 := by exact_mod_cast c5
    have c6' : (derivs.getD i 0 : ℝ) < dLim := by exact_mod_cast c6
    refine ⟨i, r1, c1, c2, fun j hj => ?_, by linarith, by linarith, by linarith, fun j hj => ?_⟩
    · obtain ⟨p1, q1⟩ := hv i (by omega)
      obtain ⟨p2, q2⟩ := hv j (by omega)
      have a := abs_le.mp q1
      have b := abs_le.mp q2
      have : Real.log (vals.getD i 0) < Real.log (vals.getD j 0) := Real.log_lt_log p1 (by exact_mod_cast c3 j hj)
      linarith
    · have b := abs_le.mp (hd j (by have := hj.2.1; omega))
      have : (derivs.getD i 0 : ℝ) ≤ derivs.getD j 0 := by exact_mod_cast r3 j (clear j hj)
      linarith

/-! ### Examples -/

theorem expOk_rounded : ExpOk fun x => rnReal (Real.exp x) := by
  intro x
  have h := rnReal_error (Real.exp (x : ℝ))
  have hE := Real.exp_pos (x : ℝ)
  rw [abs_of_pos hE] at h
  refine h.trans ?_
  norm_num
  linarith

/-- A profile that falls by 31 powers of two. -/
def profE : List ℚ := [1, 1 / 2 ^ 1, 1 / 2 ^ 12, 1 / 2 ^ 30, 1 / 2 ^ 31, 1 / 2 ^ 32]
def expE : List ℕ := [0, 1, 12, 30, 31, 32]

theorem logE (i : ℤ) : logAt profE i = -((expE.getD (min i.toNat 5) 0 : ℕ) : ℝ) * Real.log 2 := by
  unfold logAt
  have e : profE.length - 1 = 5 := rfl
  rw [e]
  have : min i.toNat 5 ≤ 5 := min_le_right _ _
  generalize min i.toNat 5 = m at *
  have lp : ∀ m : ℕ, Real.log ((1 : ℝ) / 2 ^ m) = -(m : ℝ) * Real.log 2 := by
    intro m
    rw [one_div, Real.log_inv, Real.log_pow]
    ring
  interval_cases m <;> simp only [profE, expE, List.getD_cons_zero, List.getD_cons_succ] <;> push_cast
  · simp
  · rw [lp]; norm_num
  · rw [lp]; norm_num
  · rw [lp]; norm_num
  · rw [lp]; norm_num
  · rw [lp]; norm_num

theorem logE_small (i : ℤ) : |logAt profE i| ≤ 32 := by
  rw [logE]
  have : min i.toNat 5 ≤ 5 := min_le_right _ _
  generalize min i.toNat 5 = m at *
  have l1 := Real.log_two_gt_d9
  have l2 := Real.log_two_lt_d9
  rw [abs_le]
  interval_cases m <;> simp only [expE, List.getD_cons_zero, List.getD_cons_succ] <;> push_cast <;> constructor <;> linarith

/-- The profile itself, and the difference of the neighbours. -/
def kernE : Kernel ℚ := ⟨[0, 1, 0], 1⟩
def derivE : Kernel ℚ := ⟨[-1 / 2, 0, 1 / 2], 1⟩

theorem weightsE : Weights kernE (fun j => (kernE.cs.getD j 0 : ℝ)) 0 ∧ Weights derivE (fun j => (derivE.cs.getD j 0 : ℝ)) 0 :=
  ⟨⟨by decide, by norm_num [kernE], fun j _ => by simp⟩, ⟨by decide, by norm_num [derivE], fun j _ => by simp⟩⟩

theorem tolE (i : ℕ) : tol derivE 0 profE i ≤ 1 / 100 ∧ tol kernE 0 profE i + 1 / 2 ^ 49 ≤ 1 / 100 := by
  have h0 := logE_small ((i : ℤ) + (0 : ℕ) - 1)
  have h1 := logE_small ((i : ℤ) + (1 : ℕ) - 1)
  have h2 := logE_small ((i : ℤ) + (2 : ℕ) - 1)
  unfold tol derivE kernE
  simp only [List.length_cons, List.length_nil, zero_add, Nat.reduceAdd, Finset.sum_range_succ, Finset.sum_range_zero, List.getD_cons_zero, List.getD_cons_succ, zero_mul, add_zero]
  push_cast at h0 h1 h2 ⊢
  have e : |(-1 / 2 : ℝ)| = 1 / 2 := by norm_num [abs_of_neg]
  have e' : |(1 / 2 : ℝ)| = 1 / 2 := by norm_num
  rw [e, e', abs_zero, abs_one]
  norm_num at h0 h1 h2 ⊢
  constructor <;> linarith

theorem slopeE (i : ℕ) : weighted (fun j => (derivE.cs.getD j 0 : ℝ)) 3 derivE.center profE i = (logAt profE ((i : ℤ) + 1) - logAt profE ((i : ℤ) - 1)) / 2 := by
  unfold weighted derivE
  simp only [Finset.sum_range_succ, Finset.sum_range_zero, List.getD_cons_zero, List.getD_cons_succ]
  push_cast
  rw [show (i : ℤ) + 0 - 1 = i - 1 by ring, show (i : ℤ) + 2 - 1 = i + 1 by ring]
  ring

theorem valueE (i : ℕ) : weighted (fun j => (kernE.cs.getD j 0 : ℝ)) 3 kernE.center profE i = logAt profE i := by
  unfold weighted kernE
  simp only [Finset.sum_range_succ, Finset.sum_range_zero, List.getD_cons_zero, List.getD_cons_succ]
  push_cast
  rw [show (i : ℤ) + 1 - 1 = i by ring]
  ring

/-- The steepest point of the profile is the third one, and its radius is reported. -/
example : lineRadius64 (fun x => rnReal (Real.log x)) (fun x => rnReal (Real.exp x)) kernE derivE 3 (-5) [1, 2, 3, 4, 5, 6] profE = some (some 3) := by
  have l1 := Real.log_two_gt_d9
  have l2 := Real.log_two_lt_d9
  have D : ∀ i : ℕ, weighted (fun j => (derivE.cs.getD j 0 : ℝ)) 3 derivE.center profE i = (((expE.getD (min ((i : ℤ) - 1).toNat 5) 0 : ℕ) : ℝ) - ((expE.getD (min ((i : ℤ) + 1).toNat 5) 0 : ℕ) : ℝ)) / 2 * Real.log 2 := by
    intro i
    rw [slopeE, logE, logE]
    ring
  have D1 : weighted (fun j => (derivE.cs.getD j 0 : ℝ)) 3 derivE.center profE 1 = -6 * Real.log 2 := by
    rw [D 1, show expE.getD (min (((1 : ℕ) : ℤ) - 1).toNat 5) 0 = 0 by decide, show expE.getD (min (((1 : ℕ) : ℤ) + 1).toNat 5) 0 = 12 by decide]
    norm_num
  have D2 : weighted (fun j => (derivE.cs.getD j 0 : ℝ)) 3 derivE.center profE 2 = -29 / 2 * Real.log 2 := by
    rw [D 2, show expE.getD (min (((2 : ℕ) : ℤ) - 1).toNat 5) 0 = 1 by decide, show expE.getD (min (((2 : ℕ) : ℤ) + 1).toNat 5) 0 = 30 by decide]
    norm_num
  have D3 : weighted (fun j => (derivE.cs.getD j 0 : ℝ)) 3 derivE.center profE 3 = -19 / 2 * Real.log 2 := by
    rw [D 3, show expE.getD (min (((3 : ℕ) : ℤ) - 1).toNat 5) 0 = 12 by decide, show expE.getD (min (((3 : ℕ) : ℤ) + 1).toNat 5) 0 = 31 by decide]
    norm_num
  have D4 : weighted (fun j => (derivE.cs.getD j 0 : ℝ)) 3 derivE.center profE 4 = -1 * Real.log 2 := by
    rw [D 4, show expE.getD (min (((4 : ℕ) : ℤ) - 1).toNat 5) 0 = 30 by decide, show expE.getD (min (((4 : ℕ) : ℤ) + 1).toNat 5) 0 = 32 by decide]
    norm_num
  have S0 : weighted (fun j => (kernE.cs.getD j 0 : ℝ)) 3 kernE.center profE 0 = 0 := by
    rw [valueE, logE, show expE.getD (min (((0 : ℕ) : ℤ)).toNat 5) 0 = 0 by decide]
    norm_num
  have S1 : weighted (fun j => (kernE.cs.getD j 0 : ℝ)) 3 kernE.center profE 1 = -1 * Real.log 2 := by
    rw [valueE, logE, show expE.getD (min (((1 : ℕ) : ℤ)).toNat 5) 0 = 1 by decide]
    norm_num
  have S2 : weighted (fun j => (kernE.cs.getD j 0 : ℝ)) 3 kernE.center profE 2 = -12 * Real.log 2 := by
    rw [valueE, logE, show expE.getD (min (((2 : ℕ) : ℤ)).toNat 5) 0 = 12 by decide]
    norm_num
  have clear : ClearCandidate 6 (weighted (fun j => (kernE.cs.getD j 0 : ℝ)) 3 kernE.center profE) (weighted (fun j => (derivE.cs.getD j 0 : ℝ)) 3 derivE.center profE) ((-5 : ℚ) : ℝ) (1 / 100) (1 / 100) 2 := by
    refine ⟨by norm_num, by norm_num, ?_, ?_, ?_, ?_⟩
    · intro j hj
      interval_cases j
      · rw [S0, S2]; linarith
      · rw [S1, S2]; linarith
    · rw [D2, D1]; linarith
    · rw [D2, D3]; linarith
    · rw [D2]; push_cast; linarith
  rcases C134_steepest _ _ logOk_rounded expOk_rounded kernE derivE _ _ 0 0 weightsE.1 weightsE.2 3 rfl rfl [1, 2, 3, 4, 5, 6] profE rfl (by norm_num) (by intro y hy; simp [profE] at hy; rcases hy with rfl | rfl | rfl | rfl | rfl | rfl <;> norm_num)
    (-5) (1 / 100) (1 / 100) (fun i _ => (tolE i).1) (fun i _ => (tolE i).2) with ⟨-, h⟩ | ⟨i, h, i1, i2, -, -, -, h3, h4⟩
  · exact absurd clear (h 2)
  · have h5 := h4 2 clear
    have i2' : i + 1 < 6 := i2
    have : i = 2 := by
      by_contra hne
      have hc : i = 1 ∨ i = 3 ∨ i = 4 := by omega
      rcases hc with rfl | rfl | rfl
      · rw [D1, D2] at h5; linarith
      · rw [D3, D2] at h5; linarith
      · rw [D4] at h3; push_cast at h3; linarith
    subst this
    exact h

/-! ### The profile is not restored exactly -/

/-- What is not true: that `Smooth` leaves the profile as it was.  Whatever `math.Exp` is, with correctly rounded logarithms some float64 density between 1024 and 2048 comes back changed. -/
theorem C134_restored_false (ex : ℚ → ℚ) : ∃ y : ℚ, Float64 y ∧ 1024 ≤ y ∧ y < 2048 ∧ ex (rnReal (Real.log y)) ≠ y := by
  classical
  by_contra hcon
  push Not at hcon
  set Y : ℕ → ℚ := fun m => 1024 + m / 2 ^ 42 with hY
  have hfl : ∀ m < 2 ^ 52, Float64 (Y m) ∧ 1024 ≤ Y m ∧ Y m < 2048 := by
    intro m hm
    have h0 : (0 : ℚ) ≤ m := Nat.cast_nonneg m
    have h1 : (m : ℚ) < 2 ^ 52 := by exact_mod_cast hm
    refine ⟨⟨2 ^ 52 + m, -42, ?_, ?_⟩, ?_, ?_⟩
    · rw [abs_of_nonneg (by positivity)]
      have : (m : ℤ) < 2 ^ 52 := by exact_mod_cast hm
      norm_num at this ⊢
      linarith
    · simp only [hY]
      push_cast
      norm_num
      ring
    · simp only [hY]
      have : (0 : ℚ) ≤ m / 2 ^ 42 := by positivity
      linarith
    · simp only [hY]
      generalize (m : ℚ) = q at *
      norm_num at h1 ⊢
      linarith
  have hlog : ∀ m < 2 ^ 52, 6 ≤ Real.log (Y m) ∧ Real.log (Y m) ≤ 77 / 10 := by
    intro m hm
    obtain ⟨-, a, b⟩ := hfl m hm
    have a' : (1024 : ℝ) ≤ Y m := by exact_mod_cast a
    have b' : (Y m : ℝ) ≤ 2048 := by exact_mod_cast b.le
    have l1 := Real.log_two_gt_d9
    have l2 := Real.log_two_lt_d9
    have e1 : Real.log 1024 = 10 * Real.log 2 := by rw [show (1024 : ℝ) = 2 ^ 10 by norm_num, Real.log_pow]; norm_num
    have e2 : Real.log 2048 = 11 * Real.log 2 := by rw [show (2048 : ℝ) = 2 ^ 11 by norm_num, Real.log_pow]; norm_num
    have c := Real.log_le_log (by norm_num) a'
    have d := Real.log_le_log (by linarith) b'
    constructor <;> linarith
  set M : ℕ → ℤ := fun m => round (Real.log (Y m) / 2 ^ (-50 : ℤ)) with hM
  have hrn : ∀ m < 2 ^ 52, rnReal (Real.log (Y m)) = M m * 2 ^ (-50 : ℤ) := by
    intro m hm
    obtain ⟨a, b⟩ := hlog m hm
    have e : Int.log 2 |Real.log (Y m)| = 2 := by
      rw [abs_of_nonneg (by linarith)]
      have h0 : 0 < Real.log (Y m) := by linarith
      apply le_antisymm
      · have : Int.log 2 (Real.log (Y m)) < 3 := (Int.lt_zpow_iff_log_lt (by norm_num) h0).mp (by norm_num; linarith)
        omega
      · exact (Int.zpow_le_iff_le_log (by norm_num) h0).mp (by norm_num; linarith)
    unfold rnReal
    rw [e]
    norm_num [hM]
  have hmaps : ∀ m ∈ Finset.range (2 ^ 52), M m ∈ Finset.Icc (6 * 2 ^ 50 : ℤ) (8 * 2 ^ 50) := by
    intro m hm
    obtain ⟨a, b⟩ := hlog m (Finset.mem_range.mp hm)
    rw [Finset.mem_Icc]
    have h1 : (6 * 2 ^ 50 : ℝ) ≤ Real.log (Y m) / 2 ^ (-50 : ℤ) := by
      rw [zpow_neg, div_inv_eq_mul]
      norm_num
      linarith
    have h2 : Real.log (Y m) / 2 ^ (-50 : ℤ) ≤ 8 * 2 ^ 50 - 1 := by
      rw [zpow_neg, div_inv_eq_mul]
      norm_num
      linarith
    have r := abs_le.mp (abs_sub_round (Real.log (Y m) / 2 ^ (-50 : ℤ)))
    constructor
    · have : (((6 * 2 ^ 50 : ℤ) : ℝ) - 1) < (M m : ℝ) := by push_cast; simp only [hM]; linarith [r.2]
      have : (6 * 2 ^ 50 : ℤ) - 1 < M m := by exact_mod_cast this
      omega
    · have : ((M m : ℤ) : ℝ) ≤ ((8 * 2 ^ 50 : ℤ) : ℝ) := by push_cast; simp only [hM]; linarith [r.1]
      exact_mod_cast this
  have hcard : (Finset.Icc (6 * 2 ^ 50 : ℤ) (8 * 2 ^ 50)).card < (Finset.range (2 ^ 52)).card := by
    rw [Int.card_Icc, Finset.card_range]
    norm_num
  obtain ⟨m1, h1, m2, h2, hne, heq⟩ := Finset.exists_ne_map_eq_of_card_lt_of_maps_to hcard hmaps
  rw [Finset.mem_range] at h1 h2
  obtain ⟨f1, g1, k1⟩ := hfl m1 h1
  obtain ⟨f2, g2, k2⟩ := hfl m2 h2
  have e1 := hcon _ f1 g1 k1
  have e2 := hcon _ f2 g2 k2
  rw [hrn m1 h1, heq, ← hrn m2 h2, e2] at e1
  apply hne
  simp only [hY] at e1
  have : (m1 : ℚ) = m2 := by
    have := add_left_cancel e1
    field_simp at this
    linarith
  exact_mod_cast this

end Shellfish.SmoothRound
