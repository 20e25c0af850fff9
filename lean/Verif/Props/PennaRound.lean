/-
C128: radii of fitted shells and the test whether a point is inside, in machine arithmetic.
-/
import Verif.Model.PennaRound
import Verif.Props.Penna
import Verif.Props.PolarRound
import Verif.Props.InterpRound
import Mathlib.Analysis.SpecialFunctions.Trigonometric.Bounds
import Mathlib.Analysis.SpecialFunctions.Complex.Arg

namespace Shellfish.Round
open Shellfish.Analyze (powers powers_length pennaFunc)
open Finset

/-- What is assumed of package math: on the numbers that occur, the functions are accurate to `e` (absolutely), sines and cosines and powers of numbers from -1 to 1 stay in that range. -/
structure ShellMath.Accurate (F : ShellMath) (e : ℝ) : Prop where
  atan2 : ∀ y x : ℚ, ¬(x = 0 ∧ y = 0) → |(F.atan2 y x : ℝ) - Complex.arg ⟨x, y⟩| ≤ e
  acos : ∀ x : ℚ, |x| ≤ 1 → |(F.acos x : ℝ) - Real.arccos x| ≤ e
  origin : |F.atan2 0 0| ≤ 8
  sin : ∀ x : ℚ, |x| ≤ 8 → |(F.sin x : ℝ) - Real.sin x| ≤ e ∧ |F.sin x| ≤ 1
  cos : ∀ x : ℚ, |x| ≤ 8 → |(F.cos x : ℝ) - Real.cos x| ≤ e ∧ |F.cos x| ≤ 1
  pow : ∀ (x : ℚ) (n : ℕ), |x| ≤ 1 → |(F.pow x n : ℝ) - (x : ℝ) ^ n| ≤ e ∧ |F.pow x n| ≤ 1

/-- The radius of the shell with coefficients `cs` in the direction of the point (x, y, z): a polynomial in the components of the unit vector. -/
noncomputable def radiusAt (cs : List ℚ) (I J K : ℕ) (x y z : ℚ) : ℝ :=
  ∑ k ∈ range K, ∑ j ∈ range J, ∑ i ∈ range I, (cs.getD ((k * J + j) * I + i) 0 : ℝ) * (((x : ℝ) / dist3 x y z) ^ i * ((y : ℝ) / dist3 x y z) ^ j * ((z : ℝ) / dist3 x y z) ^ k)

/-- The radius of the shell at the angles `phi` and `th`. -/
noncomputable def shellAt (cs : List ℚ) (I J K : ℕ) (phi th : ℝ) : ℝ :=
  ∑ k ∈ range K, ∑ j ∈ range J, ∑ i ∈ range I, (cs.getD ((k * J + j) * I + i) 0 : ℝ) * ((Real.sin th * Real.cos phi) ^ i * (Real.sin th * Real.sin phi) ^ j * Real.cos th ^ k)

/-- The sum of the sizes of the coefficients: the shell is nowhere farther from its centre. -/
def sizeOf (cs : List ℚ) : ℚ := (cs.map fun c => |c|).sum

/-- A bound for the error of the radius of a shell, relative to `sizeOf`, if the functions of package math are accurate to `e` and the polar angle has the additional error `d`. -/
noncomputable def shellErrA (I J K : ℕ) (e d : ℝ) : ℝ := (I + J + K) * (4 * e + d) + (I * J * K + 5) / 2 ^ 52

/-- A bound for the error of the radius of a shell, relative to `sizeOf`, if the functions of package math are accurate to `e`. -/
noncomputable def shellErr (I J K : ℕ) (e : ℝ) : ℝ := (I + J + K) * (4 * e + 1 / 2 ^ 23) + (I * J * K + 5) / 2 ^ 52

/-! Angles -/

theorem arccos_close {a b d : ℝ} (ha : |a| ≤ 1) (hb : |b| ≤ 1) (h : |a - b| ≤ d) : (Real.arccos a - Real.arccos b) ^ 2 ≤ Real.pi ^ 2 / 2 * d := by
  have hx := Real.arccos_nonneg a
  have hx' := Real.arccos_le_pi a
  have hy := Real.arccos_nonneg b
  have hy' := Real.arccos_le_pi b
  have ca := Real.cos_arccos (abs_le.mp ha).1 (abs_le.mp ha).2
  have cb := Real.cos_arccos (abs_le.mp hb).1 (abs_le.mp hb).2
  generalize Real.arccos a = x at *
  generalize Real.arccos b = y at *
  rw [← ca, ← cb] at h
  have main : ∀ x y : ℝ, 0 ≤ x → x ≤ y → y ≤ Real.pi → 1 - Real.cos (y - x) ≤ Real.cos x - Real.cos y := by
    intro x y h0 h1 h2
    have e1 : Real.cos x - Real.cos y = 2 * (Real.sin ((y + x) / 2) * Real.sin ((y - x) / 2)) := by
      rw [show Real.cos x = Real.cos ((y + x) / 2 - (y - x) / 2) by congr 1; ring, show Real.cos y = Real.cos ((y + x) / 2 + (y - x) / 2) by congr 1; ring, Real.cos_sub, Real.cos_add]
      ring
    have e2 : 1 - Real.cos (y - x) = 2 * (Real.sin ((y - x) / 2) * Real.sin ((y - x) / 2)) := by
      have := Real.cos_two_mul ((y - x) / 2)
      rw [show 2 * ((y - x) / 2) = y - x by ring] at this
      have s := Real.sin_sq_add_cos_sq ((y - x) / 2)
      nlinarith
    have s0 : 0 ≤ Real.sin ((y - x) / 2) := Real.sin_nonneg_of_nonneg_of_le_pi (by linarith) (by linarith)
    have s1 : Real.sin ((y - x) / 2) ≤ Real.sin ((y + x) / 2) := by
      rcases le_or_gt ((y + x) / 2) (Real.pi / 2) with h | h
      · exact Real.sin_le_sin_of_le_of_le_pi_div_two (by linarith [Real.pi_pos]) h (by linarith)
      · rw [← Real.sin_pi_sub ((y + x) / 2)]
        exact Real.sin_le_sin_of_le_of_le_pi_div_two (by linarith [Real.pi_pos]) (by linarith) (by linarith)
    rw [e1, e2]
    nlinarith
  have quad : ∀ t : ℝ, |t| ≤ Real.pi → 2 / Real.pi ^ 2 * t ^ 2 ≤ 1 - Real.cos t := by
    intro t ht
    have := Real.cos_le_one_sub_mul_cos_sq ht
    linarith
  have hp := Real.pi_pos
  have fin : 2 / Real.pi ^ 2 * (x - y) ^ 2 ≤ d := by
    rcases le_total x y with hxy | hxy
    · have := main x y hx hxy hy'
      have q := quad (y - x) (abs_le.mpr ⟨by linarith, by linarith⟩)
      have := (abs_le.mp h).2
      nlinarith
    · have := main y x hy hxy hx'
      have q := quad (x - y) (abs_le.mpr ⟨by linarith, by linarith⟩)
      have := (abs_le.mp h).1
      nlinarith
  have := mul_le_mul_of_nonneg_left fin (by positivity : 0 ≤ Real.pi ^ 2 / 2)
  calc (x - y) ^ 2 = Real.pi ^ 2 / 2 * (2 / Real.pi ^ 2 * (x - y) ^ 2) := by field_simp
    _ ≤ _ := this

theorem dist3_sq (x y z : ℚ) : dist3 x y z ^ 2 = (x : ℝ) ^ 2 + (y : ℝ) ^ 2 + (z : ℝ) ^ 2 := by
  unfold dist3
  rw [Real.sq_sqrt (by positivity)]

/-- The computed angles are close to angles of the point. -/
theorem angles_close {F : ShellMath} {e : ℝ} (hF : F.Accurate e) (he : e ≤ 1 / 4) {x y z c : ℚ} (h : ¬(x = 0 ∧ y = 0 ∧ z = 0)) (hc : |c| ≤ 1) {η d : ℝ} (hcz : |(c : ℝ) - (z : ℝ) / dist3 x y z| ≤ η) (hd : 5 * η ≤ d ^ 2) (hd0 : 0 ≤ d) :
    ∃ phi th : ℝ, |(F.atan2 y x : ℝ) - phi| ≤ e ∧ |(F.acos c : ℝ) - th| ≤ e + d ∧ |F.atan2 y x| ≤ 8 ∧ |F.acos c| ≤ 8 ∧
      Real.sin th * Real.cos phi = x / dist3 x y z ∧ Real.sin th * Real.sin phi = y / dist3 x y z ∧ Real.cos th = z / dist3 x y z := by
  have hD := dist3_pos h
  have hD2 := dist3_sq x y z
  have hzD := le_dist3 x y z
  set D := dist3 x y z with hDdef
  have hz1 : |(z : ℝ) / D| ≤ 1 := by rw [abs_div, abs_of_pos hD, div_le_one hD]; exact hzD
  have hcR : |(c : ℝ)| ≤ 1 := by exact_mod_cast hc
  have hac := hF.acos c hc
  have hpi := Real.pi_lt_d2
  have hpp := Real.pi_gt_three
  have t1 : |Real.arccos c - Real.arccos (z / D)| ≤ d := by
    have q := arccos_close hcR hz1 hcz
    refine abs_le_of_sq_le_sq (q.trans ?_) hd0
    have h10 : Real.pi ^ 2 ≤ 10 := by nlinarith
    have η0 : 0 ≤ η := (abs_nonneg _).trans hcz
    have := mul_le_mul_of_nonneg_right h10 η0
    linarith
  have t2 : |(F.acos c : ℝ) - Real.arccos (z / D)| ≤ e + d := (abs_sub_le _ _ _).trans (add_le_add hac t1)
  have t3 : |F.acos c| ≤ 8 := by
    have a0 := Real.arccos_nonneg (c : ℝ)
    have a1 := Real.arccos_le_pi (c : ℝ)
    have : |(F.acos c : ℝ)| ≤ 8 := by
      obtain ⟨l, u⟩ := abs_le.mp hac
      exact abs_le.mpr ⟨by linarith, by linarith⟩
    exact_mod_cast this
  have hcos : Real.cos (Real.arccos (z / D)) = z / D := Real.cos_arccos (abs_le.mp hz1).1 (abs_le.mp hz1).2
  have hsin := Real.sin_arccos ((z : ℝ) / D)
  by_cases h0 : x = 0 ∧ y = 0
  · obtain ⟨rfl, rfl⟩ := h0
    have hs : Real.sin (Real.arccos (z / D)) = 0 := by
      rw [hsin]
      have : D ^ 2 = (z : ℝ) ^ 2 := by rw [hD2]; push_cast; ring
      rw [div_pow, ← this, div_self (by positivity), sub_self, Real.sqrt_zero]
    refine ⟨F.atan2 0 0, Real.arccos (z / D), ?_, t2, hF.origin, t3, ?_, ?_, hcos⟩
    · have := (abs_nonneg _).trans hac
      simpa using this
    · rw [hs]; simp
    · rw [hs]; simp
  · have hat := hF.atan2 y x h0
    set w : ℂ := ⟨x, y⟩ with hw
    have hn : ‖w‖ ^ 2 = (x : ℝ) ^ 2 + (y : ℝ) ^ 2 := by
      rw [Complex.sq_norm, Complex.normSq_apply]; simp [hw]; ring
    have hs : Real.sin (Real.arccos (z / D)) = ‖w‖ / D := by
      rw [hsin]
      have : 1 - ((z : ℝ) / D) ^ 2 = (‖w‖ / D) ^ 2 := by
        rw [div_pow, div_pow, hn]
        have h2 : D ^ 2 ≠ 0 := by positivity
        field_simp
        linarith
      rw [this, Real.sqrt_sq (by positivity)]
    refine ⟨Complex.arg w, Real.arccos (z / D), hat, t2, ?_, t3, ?_, ?_, hcos⟩
    · have a0 := Complex.neg_pi_lt_arg w
      have a1 := Complex.arg_le_pi w
      have : |(F.atan2 y x : ℝ)| ≤ 8 := by
        obtain ⟨l, u⟩ := abs_le.mp hat
        exact abs_le.mpr ⟨by linarith, by linarith⟩
      exact_mod_cast this
    · rw [hs, div_mul_eq_mul_div, Complex.norm_mul_cos_arg]
    · rw [hs, div_mul_eq_mul_div, Complex.norm_mul_sin_arg]

/-! Products -/

theorem pow_close {a b d : ℝ} (ha : |a| ≤ 1) (hb : |b| ≤ 1) (h : |a - b| ≤ d) (n : ℕ) : |a ^ n - b ^ n| ≤ n * d := by
  induction n with
  | zero => simp
  | succ n ih =>
    have e : a ^ (n + 1) - b ^ (n + 1) = a ^ n * (a - b) + (a ^ n - b ^ n) * b := by ring
    have p : |a ^ n| ≤ 1 := by rw [abs_pow]; exact pow_le_one₀ (abs_nonneg _) ha
    calc |a ^ (n + 1) - b ^ (n + 1)| ≤ |a ^ n| * |a - b| + |a ^ n - b ^ n| * |b| := by rw [e, ← abs_mul, ← abs_mul]; exact abs_add_le _ _
      _ ≤ 1 * d + n * d * 1 := add_le_add (mul_le_mul p h (abs_nonneg _) (by norm_num)) (mul_le_mul ih hb (abs_nonneg _) ((abs_nonneg _).trans ih))
      _ = _ := by push_cast; ring

theorem mul_close {a b c d u v : ℝ} (ha : |a| ≤ 1) (hd : |d| ≤ 1) (h1 : |a - c| ≤ u) (h2 : |b - d| ≤ v) : |a * b - c * d| ≤ u + v := by
  have e : a * b - c * d = a * (b - d) + (a - c) * d := by ring
  calc |a * b - c * d| ≤ |a| * |b - d| + |a - c| * |d| := by rw [e, ← abs_mul, ← abs_mul]; exact abs_add_le _ _
    _ ≤ 1 * v + u * 1 := add_le_add (mul_le_mul ha h2 (abs_nonneg _) (by norm_num)) (mul_le_mul h1 hd (abs_nonneg _) ((abs_nonneg _).trans h1))
    _ = _ := by ring

theorem abs_mul_le_one {a b : ℝ} (ha : |a| ≤ 1) (hb : |b| ≤ 1) : |a * b| ≤ 1 := by
  rw [abs_mul]; exact mul_le_one₀ ha (abs_nonneg _) hb

theorem fpow_close {F : ShellMath} {e : ℝ} (hF : F.Accurate e) {q : ℚ} {b d : ℝ} (hq : |q| ≤ 1) (hb : |b| ≤ 1) (h : |(q : ℝ) - b| ≤ d) (n : ℕ) : |(F.pow q n : ℝ) - b ^ n| ≤ e + n * d := by
  have hq' : |(q : ℝ)| ≤ 1 := by exact_mod_cast hq
  exact (abs_sub_le _ _ _).trans (add_le_add (hF.pow q n hq).1 (pow_close hq' hb h n))

/-- The product of the computed powers. -/
def powProd (F : ShellMath) (phi th : ℚ) (t : ℕ × ℕ × ℕ) : ℚ :=
  F.pow (F.sin th) (t.2.2 + t.2.1) * F.pow (F.cos th) t.1 * F.pow (F.sin phi) t.2.1 * F.pow (F.cos phi) t.2.2

theorem prod_close {F : ShellMath} {e : ℝ} (hF : F.Accurate e) {p q : ℚ} {phi th d : ℝ} (hd0 : 0 ≤ d) (hp : |(p : ℝ) - phi| ≤ e) (hq : |(q : ℝ) - th| ≤ e + d) (hp4 : |p| ≤ 8) (hq4 : |q| ≤ 8)
    (t : ℕ × ℕ × ℕ) :
    |(powProd F p q t : ℝ) - Shellfish.Analyze.mono t phi th| ≤ 4 * e + (t.1 + t.2.1 + t.2.2 : ℕ) * (4 * e + d) := by
  obtain ⟨k, j, i⟩ := t
  have e0 : 0 ≤ e := (abs_nonneg _).trans hp
  have sp := hF.sin p hp4
  have cp := hF.cos p hp4
  have sq := hF.sin q hq4
  have cq := hF.cos q hq4
  have l1 : |Real.sin p - Real.sin phi| ≤ e := (Real.abs_sin_sub_sin_le _ _).trans hp
  have l2 : |Real.cos p - Real.cos phi| ≤ e := (Real.abs_cos_sub_cos_le _ _).trans hp
  have l3 : |Real.sin q - Real.sin th| ≤ e + d := (Real.abs_sin_sub_sin_le _ _).trans hq
  have l4 : |Real.cos q - Real.cos th| ≤ e + d := (Real.abs_cos_sub_cos_le _ _).trans hq
  have a1 := fpow_close hF sp.2 (Real.abs_sin_le_one phi) ((abs_sub_le _ _ _).trans (add_le_add sp.1 l1)) j
  have a2 := fpow_close hF cp.2 (Real.abs_cos_le_one phi) ((abs_sub_le _ _ _).trans (add_le_add cp.1 l2)) i
  have a3 := fpow_close hF sq.2 (Real.abs_sin_le_one th) ((abs_sub_le _ _ _).trans (add_le_add sq.1 l3)) (i + j)
  have a4 := fpow_close hF cq.2 (Real.abs_cos_le_one th) ((abs_sub_le _ _ _).trans (add_le_add cq.1 l4)) k
  have b3 : |(F.pow (F.sin q) (i + j) : ℝ)| ≤ 1 := by exact_mod_cast (hF.pow _ (i + j) sq.2).2
  have b4 : |(F.pow (F.cos q) k : ℝ)| ≤ 1 := by exact_mod_cast (hF.pow _ k cq.2).2
  have b1 : |(F.pow (F.sin p) j : ℝ)| ≤ 1 := by exact_mod_cast (hF.pow _ j sp.2).2
  have pl : ∀ (v : ℝ) (n : ℕ), |v| ≤ 1 → |v ^ n| ≤ 1 := fun v n h => by rw [abs_pow]; exact pow_le_one₀ (abs_nonneg _) h
  have m1 := mul_close b3 (pl _ k (Real.abs_cos_le_one th)) a3 a4
  have m2 := mul_close (abs_mul_le_one b3 b4) (pl _ j (Real.abs_sin_le_one phi)) m1 a1
  have m3 := mul_close (abs_mul_le_one (abs_mul_le_one b3 b4) b1) (pl _ i (Real.abs_cos_le_one phi)) m2 a2
  have hm : Shellfish.Analyze.mono (k, j, i) phi th = Real.sin th ^ (i + j) * Real.cos th ^ k * Real.sin phi ^ j * Real.cos phi ^ i := by
    unfold Shellfish.Analyze.mono
    rw [mul_pow, mul_pow, pow_add]
    ring
  rw [hm]
  unfold powProd
  push_cast at m3 ⊢
  refine m3.trans ?_
  have hi : (0 : ℝ) ≤ i := Nat.cast_nonneg _
  have hj : (0 : ℝ) ≤ j := Nat.cast_nonneg _
  have hk : (0 : ℝ) ≤ k := Nat.cast_nonneg _
  nlinarith [mul_nonneg hi e0, mul_nonneg hj e0, mul_nonneg hk e0, mul_nonneg hi hd0, mul_nonneg hj hd0, mul_nonneg hk hd0]

/-! The sum -/

theorem term_acc {F : ShellMath} {e : ℝ} (hF : F.Accurate e) {p q : ℚ} (hp4 : |p| ≤ 8) (hq4 : |q| ≤ 8) (c : ℚ) (t : ℕ × ℕ × ℕ) :
    Acc (pennaTerm64 F p q c t) (c * powProd F p q t) |c| 4 := by
  have b1 := (hF.pow _ t.2.1 (hF.sin p hp4).2).2
  have b2 := (hF.pow _ t.2.2 (hF.cos p hp4).2).2
  have b3 := (hF.pow _ (t.2.2 + t.2.1) (hF.sin q hq4).2).2
  have b4 := (hF.pow _ t.1 (hF.cos q hq4).2).2
  have h := acc_mul (acc_mul (acc_mul (acc_mul (acc_self c) (acc_exact b3 0)) (acc_exact b4 0)) (acc_exact b1 0)) (acc_exact b2 0)
  unfold pennaTerm64 powProd
  simp only [mul_one, add_zero, zero_add] at h
  rw [← mul_assoc, ← mul_assoc, ← mul_assoc]
  exact h

theorem fold_acc {F : ShellMath} {e : ℝ} (hF : F.Accurate e) {p q : ℚ} (hp4 : |p| ≤ 8) (hq4 : |q| ≤ 8) (cs : List ℚ) (l : List (ℕ × ℕ × ℕ)) (m n : ℕ) (a S A : ℚ) (h : m + l.length ≤ cs.length)
    (hacc : Acc a S A n) (hn : 4 ≤ n) :
    ∃ v, l.foldlM (fun (st : ℕ × ℚ) t => (cs[st.1]?).map fun c => (st.1 + 1, r64 (st.2 + pennaTerm64 F p q c t))) (m, a) = some (m + l.length, v) ∧
      Acc v (S + ∑ k ∈ range l.length, cs.getD (m + k) 0 * powProd F p q (l.getD k (0, 0, 0))) (A + ∑ k ∈ range l.length, |cs.getD (m + k) 0|) (n + l.length) := by
  induction l generalizing m n a S A with
  | nil => exact ⟨a, by simp, by simpa using hacc⟩
  | cons t l ih =>
    rw [List.length_cons] at h
    have hm : m < cs.length := by omega
    have hg : cs[m]? = some (cs.getD m 0) := by rw [List.getD_eq_getElem _ _ hm]; exact List.getElem?_eq_getElem hm
    obtain ⟨v, h1, h2⟩ := ih (m + 1) (n + 1) _ _ _ (by omega) (acc_add hacc (acc_mono (term_acc hF hp4 hq4 (cs.getD m 0) t) hn)) (by omega)
    refine ⟨v, ?_, ?_⟩
    · rw [List.foldlM_cons, hg]
      simp only [Option.map_some, Option.bind_eq_bind, Option.bind_some]
      rw [h1, List.length_cons]
      congr 2
      omega
    · rw [List.length_cons, sum_range_succ', sum_range_succ']
      have e1 : ∀ k, m + 1 + k = m + (k + 1) := fun k => by ring
      simp only [e1, Nat.add_zero, List.getD_cons_succ, List.getD_cons_zero] at h2 ⊢
      rw [show n + (l.length + 1) = n + 1 + l.length by ring]
      convert h2 using 1 <;> ring

theorem sum_le_size (cs : List ℚ) (n : ℕ) : ∑ k ∈ range n, |cs.getD k 0| ≤ sizeOf cs := by
  induction cs generalizing n with
  | nil => simp [sizeOf]
  | cons c cs ih =>
    have h : sizeOf (c :: cs) = |c| + sizeOf cs := by simp [sizeOf]
    rw [h]
    cases n with
    | zero =>
      have h0 := ih 0
      rw [range_zero, sum_empty] at h0 ⊢
      exact add_nonneg (abs_nonneg _) h0
    | succ n =>
      rw [sum_range_succ']
      simp only [List.getD_cons_succ, List.getD_cons_zero]
      linarith [ih n]

theorem mem_powers {I J K : ℕ} {t : ℕ × ℕ × ℕ} (h : t ∈ powers I J K) : t.1 < K ∧ t.2.1 < J ∧ t.2.2 < I := by
  unfold powers at h
  simp only [List.mem_flatMap, List.mem_map, List.mem_range] at h
  obtain ⟨k, hk, j, hj, i, hi, rfl⟩ := h
  exact ⟨hk, hj, hi⟩

/-- The polynomial as a sum in the order of the loops. -/
theorem radius_sum (cs : List ℚ) (I J K : ℕ) (h : I * J * K ≤ cs.length) (phi th : ℝ) :
    shellAt cs I J K phi th = ∑ n ∈ range (I * J * K), (cs.getD n 0 : ℝ) * Shellfish.Analyze.mono ((powers I J K).getD n (0, 0, 0)) phi th := by
  have hl : I * J * K ≤ (cs.map fun c : ℚ => (c : ℝ)).length := by simpa using h
  have hg : ∀ n, (cs.map fun c : ℚ => (c : ℝ)).getD n 0 = (cs.getD n 0 : ℝ) := by
    intro n
    have := List.getD_map (f := fun c : ℚ => (c : ℝ)) (l := cs) (d := 0) (n := n)
    simpa using this
  have e1 := Shellfish.Analyze.penna_eq _ I J K hl phi th
  have e2 := Shellfish.Analyze.C75_polynomial _ I J K hl phi th
  rw [e1, Option.some.injEq] at e2
  simp only [hg] at e2
  rw [e2]
  unfold shellAt
  refine sum_congr rfl fun k _ => sum_congr rfl fun j _ => sum_congr rfl fun i _ => ?_
  simp [Shellfish.Analyze.cartesian]

/-- The value at angles that are close to given ones. -/
theorem penna_closeA {F : ShellMath} {e : ℝ} (hF : F.Accurate e) (cs : List ℚ) (I J K : ℕ) (hcs : I * J * K ≤ cs.length) (hbig : I * J * K ≤ 2 ^ 50) {p q : ℚ} {phi th d : ℝ} (hd0 : 0 ≤ d)
    (hp : |(p : ℝ) - phi| ≤ e) (hq : |(q : ℝ) - th| ≤ e + d) (hp4 : |p| ≤ 8) (hq4 : |q| ≤ 8) :
    ∃ v : ℚ, pennaFunc64 F cs I J K p q = some v ∧ |(v : ℝ) - shellAt cs I J K phi th| ≤ shellErrA I J K e d * sizeOf cs := by
  have e0 : 0 ≤ e := (abs_nonneg _).trans hp
  obtain ⟨v, hv, hacc⟩ := fold_acc hF hp4 hq4 cs (powers I J K) 0 4 0 0 0 (by rw [powers_length]; omega) (acc_zero 4) le_rfl
  rw [powers_length] at hv hacc
  simp only [zero_add] at hv hacc
  refine ⟨v, by unfold pennaFunc64; rw [hv]; rfl, ?_⟩
  set N := I * J * K with hN
  set S := ∑ k ∈ range N, cs.getD k 0 * powProd F p q ((powers I J K).getD k (0, 0, 0)) with hS
  set A := ∑ k ∈ range N, |cs.getD k 0| with hA
  have hA0 : 0 ≤ A := sum_nonneg fun _ _ => abs_nonneg _
  have hAs : A ≤ sizeOf cs := sum_le_size cs N
  have b1 : |v - S| ≤ 2 * (4 + N : ℕ) / 2 ^ 53 * A := acc_bound hacc (by omega) le_rfl
  have b1R : |(v : ℝ) - (S : ℝ)| ≤ 2 * (4 + N : ℕ) / 2 ^ 53 * (A : ℝ) := by
    have := (Rat.cast_le (K := ℝ)).mpr b1
    push_cast at this ⊢
    exact this
  have b2 : |(S : ℝ) - shellAt cs I J K phi th| ≤ (I + J + K) * (4 * e + d) * (A : ℝ) := by
    rw [radius_sum cs I J K hcs phi th, hS]
    push_cast
    rw [← sum_sub_distrib]
    refine (abs_sum_le_sum_abs _ _).trans ?_
    rw [hA]
    push_cast
    rw [mul_sum]
    refine sum_le_sum fun n hn => ?_
    have hn' := mem_range.mp hn
    have hmem : (powers I J K).getD n (0, 0, 0) ∈ powers I J K := by
      rw [List.getD_eq_getElem _ _ (by rw [powers_length]; exact hn')]
      exact List.getElem_mem _
    obtain ⟨m1, m2, m3⟩ := mem_powers hmem
    generalize (powers I J K).getD n (0, 0, 0) = t at *
    rw [← mul_sub, abs_mul, mul_comm]
    refine mul_le_mul_of_nonneg_right ((prod_close hF hd0 hp hq hp4 hq4 t).trans ?_) (abs_nonneg _)
    have : (t.1 + t.2.1 + t.2.2 : ℕ) + 3 ≤ I + J + K := by omega
    have hR : ((t.1 + t.2.1 + t.2.2 : ℕ) : ℝ) + 3 ≤ I + J + K := by exact_mod_cast this
    generalize ((t.1 + t.2.1 + t.2.2 : ℕ) : ℝ) = a at *
    nlinarith [mul_le_mul_of_nonneg_right hR (by positivity : 0 ≤ 4 * e + d)]
  calc |(v : ℝ) - shellAt cs I J K phi th| ≤ |(v : ℝ) - S| + |(S : ℝ) - shellAt cs I J K phi th| := abs_sub_le _ _ _
    _ ≤ 2 * (4 + N : ℕ) / 2 ^ 53 * (A : ℝ) + (I + J + K) * (4 * e + d) * (A : ℝ) := add_le_add b1R b2
    _ ≤ shellErrA I J K e d * A := by
      have hA0' : (0 : ℝ) ≤ A := by exact_mod_cast hA0
      have : 2 * ((4 + N : ℕ) : ℝ) / 2 ^ 53 ≤ (I * J * K + 5) / 2 ^ 52 := by
        rw [hN]; push_cast
        rw [div_le_div_iff₀ (by norm_num) (by norm_num)]
        generalize (I : ℝ) * J * K = w
        norm_num
        linarith
      unfold shellErrA
      nlinarith [mul_le_mul_of_nonneg_right this hA0']
    _ ≤ shellErrA I J K e d * sizeOf cs := by
      refine mul_le_mul_of_nonneg_left (by exact_mod_cast hAs) ?_
      unfold shellErrA
      positivity

theorem shellErr_eq (I J K : ℕ) (e : ℝ) : shellErr I J K e = shellErrA I J K e (1 / 2 ^ 23) := rfl

theorem penna_close {F : ShellMath} {e : ℝ} (hF : F.Accurate e) (cs : List ℚ) (I J K : ℕ) (hcs : I * J * K ≤ cs.length) (hbig : I * J * K ≤ 2 ^ 50) {p q : ℚ} {phi th : ℝ}
    (hp : |(p : ℝ) - phi| ≤ e) (hq : |(q : ℝ) - th| ≤ e + 1 / 2 ^ 23) (hp4 : |p| ≤ 8) (hq4 : |q| ≤ 8) :
    ∃ v : ℚ, pennaFunc64 F cs I J K p q = some v ∧ |(v : ℝ) - shellAt cs I J K phi th| ≤ shellErr I J K e * sizeOf cs :=
  penna_closeA hF cs I J K hcs hbig (by norm_num) hp hq hp4 hq4

/-- C128: the radius that the program computes for the direction of a point (as `Contains` does, from its angles) differs from the radius of the shell in that direction by at most `shellErr` times the size of the shell. -/
theorem C128_radius (F : ShellMath) (e : ℝ) (hF : F.Accurate e) (he : e ≤ 1 / 4) (cs : List ℚ) (I J K : ℕ) (hcs : I * J * K ≤ cs.length) (hbig : I * J * K ≤ 2 ^ 50) (x y z : ℚ) (hz : Float64 z)
    (h : ¬(x = 0 ∧ y = 0 ∧ z = 0)) :
    ∃ c v : ℚ, polar64 x y z = some c ∧ pennaFunc64 F cs I J K (F.atan2 y x) (F.acos c) = some v ∧ |(v : ℝ) - radiusAt cs I J K x y z| ≤ shellErr I J K e * sizeOf cs := by
  obtain ⟨c, hc, hc1, hcz⟩ := C116_float64 x y z hz h
  obtain ⟨phi, th, hp, hq, hp4, hq4, g1, g2, g3⟩ := angles_close (d := 1 / 2 ^ 23) hF he h hc1 hcz (by norm_num) (by norm_num)
  obtain ⟨v, hv, hd⟩ := penna_close hF cs I J K hcs hbig hp hq hp4 hq4
  refine ⟨c, v, hc, hv, ?_⟩
  have : radiusAt cs I J K x y z = shellAt cs I J K phi th := by
    unfold radiusAt shellAt
    rw [g1, g2, g3]
  rw [this]
  exact hd

/-- C128: a point whose distance differs from the radius of the shell in its direction by more than the error of the radius and one part in 10^15 of the distance is said to be inside the shell exactly if it is. -/
theorem C128_contains (F : ShellMath) (e : ℝ) (hF : F.Accurate e) (he : e ≤ 1 / 4) (cs : List ℚ) (I J K : ℕ) (hcs : I * J * K ≤ cs.length) (hbig : I * J * K ≤ 2 ^ 50) (x y z : ℚ) (hz : Float64 z)
    (h : ¬(x = 0 ∧ y = 0 ∧ z = 0)) (hm : shellErr I J K e * sizeOf cs + dist3 x y z / 2 ^ 50 < |radiusAt cs I J K x y z - dist3 x y z|) :
    contains64 F cs I J K x y z ↔ dist3 x y z < radiusAt cs I J K x y z := by
  obtain ⟨c, v, hc, hv, hd⟩ := C128_radius F e hF he cs I J K hcs hbig x y z hz h
  obtain ⟨r, hr, r1, r2⟩ := norm64_bounds x y z
  have hD := dist3_pos h
  have key : contains64 F cs I J K x y z ↔ (r : ℝ) < v := by
    unfold contains64
    constructor
    · rintro ⟨r', c', v', h1, h2, h3, h4⟩
      rw [hr, Option.some.injEq] at h1
      rw [hc, Option.some.injEq] at h2
      subst h1 h2
      rw [hv, Option.some.injEq] at h3
      subst h3
      exact_mod_cast h4
    · intro h4
      exact ⟨r, c, v, hr, hc, hv, by exact_mod_cast h4⟩
  rw [key]
  obtain ⟨d1, d2⟩ := abs_le.mp hd
  generalize dist3 x y z = D at *
  generalize radiusAt cs I J K x y z = R at *
  generalize shellErr I J K e * (sizeOf cs : ℝ) = E at *
  norm_num at r1 r2 hm
  constructor
  · intro h4
    by_contra hcon
    push Not at hcon
    rw [abs_of_nonpos (by linarith)] at hm
    linarith
  · intro h4
    rw [abs_of_pos (by linarith)] at hm
    linarith

/-- C128: the centre of a shell is never said to be inside. -/
theorem C128_centre (F : ShellMath) (cs : List ℚ) (I J K : ℕ) : ¬ contains64 F cs I J K 0 0 0 := by
  rintro ⟨r, c, v, h1, h2, _, _⟩
  obtain ⟨s, hs, _⟩ := C116_sine 0 0 0 c ⟨0, 0, by norm_num, by norm_num⟩ h2
  unfold polar64 at h2
  rw [h1, Option.bind_some] at h2
  unfold acosArg at h2
  obtain ⟨r', hr', r1, r2⟩ := norm64_bounds 0 0 0
  have hd : dist3 0 0 0 = 0 := by simp [dist3]
  rw [hd, zero_mul] at r1 r2
  rw [h1, Option.some.injEq] at hr'
  have hr0 : r = 0 := by rw [hr']; exact_mod_cast le_antisymm r2 r1
  rw [if_pos hr0] at h2
  cases h2

/-- C128: for the default order 3 (18 coefficients) and functions that are accurate to 2^-45, the test is right for all points whose distance differs from the radius of the shell by more than two millionths of its size. -/
theorem C128_order3 (F : ShellMath) (hF : F.Accurate (1 / 2 ^ 45)) (cs : List ℚ) (hcs : cs.length = 18) (x y z : ℚ) (hz : Float64 z)
    (h : ¬(x = 0 ∧ y = 0 ∧ z = 0)) (hm : sizeOf cs / 2 ^ 19 + dist3 x y z / 2 ^ 50 < |radiusAt cs 3 3 2 x y z - dist3 x y z|) :
    contains64 F cs 3 3 2 x y z ↔ dist3 x y z < radiusAt cs 3 3 2 x y z := by
  refine C128_contains F _ hF (by norm_num) cs 3 3 2 (by omega) (by norm_num) x y z hz h (lt_of_le_of_lt ?_ hm)
  have h0 : (0 : ℝ) ≤ sizeOf cs := by
    have := sum_le_size cs 0
    rw [range_zero, sum_empty] at this
    exact_mod_cast this
  have : shellErr 3 3 2 (1 / 2 ^ 45) ≤ 1 / 2 ^ 19 := by unfold shellErr; norm_num
  have := mul_le_mul_of_nonneg_right this h0
  linarith

theorem ShellMath.Accurate.mono {F : ShellMath} {e e' : ℝ} (h : F.Accurate e) (he : e ≤ e') : F.Accurate e' :=
  ⟨fun y x g => (h.atan2 y x g).trans he, fun x g => (h.acos x g).trans he, h.origin, fun x g => ⟨(h.sin x g).1.trans he, (h.sin x g).2⟩,
    fun x g => ⟨(h.cos x g).1.trans he, (h.cos x g).2⟩, fun x n g => ⟨(h.pow x n g).1.trans he, (h.pow x n g).2⟩⟩

/-! There are such functions. -/

/-- A real number cut off after 60 binary places. -/
noncomputable def cut (t : ℝ) : ℚ := (⌊t * 2 ^ 60⌋ : ℚ) / 2 ^ 60

theorem cut_close (t : ℝ) : |(cut t : ℝ) - t| ≤ 1 / 2 ^ 60 := by
  unfold cut
  have h1 := Int.floor_le (t * 2 ^ 60)
  have h2 := Int.lt_floor_add_one (t * 2 ^ 60)
  push_cast
  generalize ((⌊t * 2 ^ 60⌋ : ℤ) : ℝ) = f at *
  rw [abs_le]
  constructor
  · rw [le_sub_iff_add_le, le_div_iff₀ (by norm_num)]; norm_num at *; linarith
  · rw [sub_le_iff_le_add, div_le_iff₀ (by norm_num)]; norm_num at *; linarith

theorem cut_one {t : ℝ} (h : |t| ≤ 1) : |cut t| ≤ 1 := by
  obtain ⟨h1, h2⟩ := abs_le.mp h
  have a1 : ⌊t * 2 ^ 60⌋ ≤ 2 ^ 60 := by
    have : ⌊t * 2 ^ 60⌋ ≤ ⌊((2 ^ 60 : ℤ) : ℝ)⌋ := Int.floor_mono (by push_cast; nlinarith)
    rwa [Int.floor_intCast] at this
  have a2 : -2 ^ 60 ≤ ⌊t * 2 ^ 60⌋ := Int.le_floor.mpr (by push_cast; nlinarith)
  unfold cut
  rw [abs_le, le_div_iff₀ (by norm_num), div_le_iff₀ (by norm_num)]
  have b1 : ((⌊t * 2 ^ 60⌋ : ℤ) : ℚ) ≤ 2 ^ 60 := by exact_mod_cast a1
  have b2 : (-2 ^ 60 : ℚ) ≤ ((⌊t * 2 ^ 60⌋ : ℤ) : ℚ) := by exact_mod_cast a2
  constructor <;> linarith

/-- Functions that are accurate to 2^-60. -/
noncomputable def cutMath : ShellMath := ⟨fun y x => cut (Complex.arg ⟨x, y⟩), fun x => cut (Real.arccos x), fun x => cut (Real.sin x), fun x => cut (Real.cos x), fun x n => x ^ n⟩

theorem cutMath_accurate : cutMath.Accurate (1 / 2 ^ 60) where
  atan2 y x _ := cut_close _
  acos x _ := cut_close _
  origin := by
    have : |(cut (Complex.arg ⟨(0 : ℚ), (0 : ℚ)⟩) : ℝ)| ≤ 8 := by
      have h := cut_close (Complex.arg ⟨((0 : ℚ) : ℝ), ((0 : ℚ) : ℝ)⟩)
      have : (⟨((0 : ℚ) : ℝ), ((0 : ℚ) : ℝ)⟩ : ℂ) = 0 := by apply Complex.ext <;> simp
      rw [this, Complex.arg_zero] at h ⊢
      rw [sub_zero] at h
      exact h.trans (by norm_num)
    have h' : |cut (Complex.arg ⟨((0 : ℚ) : ℝ), ((0 : ℚ) : ℝ)⟩)| ≤ 8 := by
      generalize cut (Complex.arg ⟨((0 : ℚ) : ℝ), ((0 : ℚ) : ℝ)⟩) = w at *
      exact_mod_cast this
    exact h'
  sin x _ := ⟨cut_close _, cut_one (Real.abs_sin_le_one _)⟩
  cos x _ := ⟨cut_close _, cut_one (Real.abs_cos_le_one _)⟩
  pow x n h := ⟨by simp [cutMath], by show |x ^ n| ≤ 1; rw [abs_pow]; exact pow_le_one₀ (abs_nonneg _) h⟩

/-- A sphere with radius 2, as a shell of order 3: (0, 0, 1) is inside, (0, 3, 0) is outside. -/
example : contains64 cutMath (2 :: List.replicate 17 0) 3 3 2 0 0 1 ∧ ¬ contains64 cutMath (2 :: List.replicate 17 0) 3 3 2 0 3 0 := by
  have hF : cutMath.Accurate (1 / 2 ^ 45) := cutMath_accurate.mono (by norm_num)
  have hs : sizeOf (2 :: List.replicate 17 0) = 2 := by simp [sizeOf]
  have hr : ∀ x y z, radiusAt (2 :: List.replicate 17 0) 3 3 2 x y z = 2 := by
    intro x y z
    unfold radiusAt
    simp [sum_range_succ]
  have d1 : dist3 0 0 1 = 1 := by unfold dist3; norm_num
  have d2 : dist3 0 3 0 = 3 := by unfold dist3; rw [Real.sqrt_eq_iff_mul_self_eq] <;> norm_num
  constructor
  · rw [C128_order3 cutMath hF _ (by simp) 0 0 1 ⟨1, 0, by norm_num, by norm_num⟩ (by norm_num) (by rw [hs, hr, d1]; norm_num), hr, d1]
    norm_num
  · rw [C128_order3 cutMath hF _ (by simp) 0 3 0 ⟨0, 0, by norm_num, by norm_num⟩ (by norm_num) (by rw [hs, hr, d2]; norm_num), hr, d2]
    norm_num

/-- C128: the test is not accurate to the precision of the numbers.  The point (2^-27, 0, 1) is inside the shell with radius 1 + x (x: the component of the unit vector) by more than 2^-28, which is millions of times the
spacing of float64 numbers; but its polar angle is taken to be 0, and it is said to be outside.  All functions of package math are exact here. -/
theorem C128_pole_false (F : ShellMath) (h1 : F.acos 1 = 0) (h2 : F.sin 0 = 0) (h3 : ∀ n, F.pow 0 (n + 1) = 0) (h4 : ∀ x, F.pow x 0 = 1) :
    ¬ contains64 F [1, 1] 2 1 1 (1 / 2 ^ 27) 0 1 ∧ dist3 (1 / 2 ^ 27) 0 1 + 1 / 2 ^ 28 < radiusAt [1, 1] 2 1 1 (1 / 2 ^ 27) 0 1 := by
  have f1 : Float64 1 := ⟨1, 0, by norm_num, by norm_num⟩
  have f54 : Float64 (1 / 2 ^ 54) := ⟨1, -54, by norm_num, by norm_num⟩
  have f0 : Float64 0 := ⟨0, 0, by norm_num, by norm_num⟩
  have e0 : r64 (1 / 2 ^ 54 + 1) = 1 := by
    unfold r64
    rw [rn_eq 0 (2 ^ 52)] <;> norm_num
  have hn : norm64 (1 / 2 ^ 27) 0 1 = some 1 := by
    unfold norm64
    rw [show (1 / 2 ^ 27 * (1 / 2 ^ 27) : ℚ) = 1 / 2 ^ 54 by norm_num, mul_zero, mul_one, r64_float f54, r64_float f0, add_zero, r64_float f54, r64_float f1, e0]
    unfold sqrt64
    rw [if_neg (by norm_num), Rat.cast_one, Real.sqrt_one]
    congr 1
    have := rnReal_float f1
    rwa [Rat.cast_one] at this
  have hp : polar64 (1 / 2 ^ 27) 0 1 = some 1 := by
    unfold polar64
    rw [hn, Option.bind_some]
    unfold acosArg
    rw [div_one, r64_float f1]
    norm_num
  constructor
  · rintro ⟨r, c, v, g1, g2, g3, g4⟩
    rw [hn, Option.some.injEq] at g1
    rw [hp, Option.some.injEq] at g2
    subst g1 g2
    have hpw : powers 2 1 1 = [(0, 0, 0), (0, 0, 1)] := by decide
    unfold pennaFunc64 at g3
    rw [hpw, h1] at g3
    simp only [List.foldlM_cons, List.foldlM_nil, pennaTerm64, h2, h3 0, h4, mul_one, mul_zero, zero_mul, r64_float f1, r64_float f0, Option.map_some, Option.bind_eq_bind, Option.bind_some,
      List.getElem?_cons_zero, List.getElem?_cons_succ, zero_add, add_zero, Option.pure_def] at g3
    rw [Option.some.injEq] at g3
    rw [← g3] at g4
    exact lt_irrefl _ g4
  · have hD : dist3 (1 / 2 ^ 27) 0 1 ≤ 1 + 1 / 2 ^ 54 := by
      unfold dist3
      rw [Real.sqrt_le_left (by norm_num)]
      norm_num
    have hD0 : 0 < dist3 (1 / 2 ^ 27) 0 1 := dist3_pos (by norm_num)
    have hr : radiusAt [1, 1] 2 1 1 (1 / 2 ^ 27) 0 1 = 1 + 1 / 2 ^ 27 / dist3 (1 / 2 ^ 27) 0 1 := by
      unfold radiusAt
      simp [sum_range_succ]
    rw [hr]
    have : 1 / 2 ^ 28 + 1 / 2 ^ 54 < 1 / 2 ^ 27 / dist3 (1 / 2 ^ 27) 0 1 := by
      rw [lt_div_iff₀ hD0]
      generalize dist3 (1 / 2 ^ 27) 0 1 = D at *
      norm_num at *
      linarith
    linarith

end Shellfish.Round
