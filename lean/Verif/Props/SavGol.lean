/-
C66: Savitzky-Golay kernels reproduce polynomials (math/interpolate/filter.go).
-/
import Verif.Lemmas.SavGol
import Verif.Props.Convolve

namespace Shellfish.Smooth

open Polynomial

variable {K : Type} [Field K] [LinearOrder K] [IsStrictOrderedRing K]

/-- The matrix is not singular if the window has more points than the order. -/
theorem momentMatrix_det (n m : Nat) (h : m ≤ 2 * n) : (Matrix.of (momentMatrix n m : Fin (m + 1) → Fin (m + 1) → K)).det ≠ 0 := by
  intro hdet
  obtain ⟨v, hv, hMv⟩ := Matrix.exists_mulVec_eq_zero_iff.mpr hdet
  set q : K[X] := ∑ i : Fin (m + 1), C (v i) * X ^ i.1 with hq
  have hev : ∀ t : K, q.eval t = ∑ i : Fin (m + 1), v i * t ^ i.1 := fun t => by rw [hq, eval_finset_sum]; simp
  have hsq : ∑ j ∈ Finset.range (2 * n + 1), (q.eval ((j : K) - n)) ^ 2 = 0 := by
    have h1 : ∑ i, v i * ∑ l, (momentMatrix n m i l : K) * v l = 0 := by
      refine Finset.sum_eq_zero fun i _ => ?_
      have := congrFun hMv i
      simp only [Matrix.mulVec, dotProduct, Matrix.of_apply, Pi.zero_apply] at this
      rw [this, mul_zero]
    rw [← h1]
    have : ∀ j ∈ Finset.range (2 * n + 1), (q.eval ((j : K) - n)) ^ 2 = ∑ i : Fin (m + 1), ∑ l : Fin (m + 1), v i * v l * ((j : K) - n) ^ (i.1 + l.1) := fun j _ => by
      rw [hev, sq, Finset.sum_mul_sum]
      refine Finset.sum_congr rfl fun i _ => Finset.sum_congr rfl fun l _ => by rw [pow_add]; ring
    rw [Finset.sum_congr rfl this, Finset.sum_comm]
    refine Finset.sum_congr rfl fun i _ => ?_
    rw [Finset.sum_comm, Finset.mul_sum]
    refine Finset.sum_congr rfl fun l _ => ?_
    rw [← Finset.mul_sum, momentMatrix_eq, power]; ring
  have hroot : ∀ j ∈ Finset.range (2 * n + 1), q.eval ((j : K) - n) = 0 := fun j hj => by
    have := (Finset.sum_eq_zero_iff_of_nonneg fun (j : Nat) _ => sq_nonneg (q.eval ((j : K) - n))).mp hsq j hj
    exact pow_eq_zero_iff (two_ne_zero) |>.mp this
  have hq0 : q = 0 := by
    refine eq_zero_of_natDegree_lt_card_of_eval_eq_zero' q ((Finset.range (2 * n + 1)).image fun j : Nat => (j : K) - n) ?_ ?_
    · intro x hx
      obtain ⟨j, hj, rfl⟩ := Finset.mem_image.mp hx
      exact hroot j hj
    · rw [Finset.card_image_of_injective _ fun a b hab => by simpa using hab, Finset.card_range]
      refine lt_of_le_of_lt (natDegree_sum_le_of_forall_le _ _ (n := m) fun i _ => ?_) (by omega)
      exact le_trans (natDegree_C_mul_X_pow_le _ _) (by have := i.2; omega)
  refine hv (funext fun i => ?_)
  have : q.coeff i.1 = v i := by
    rw [hq, finset_sum_coeff]
    simp only [coeff_C_mul, coeff_X_pow]
    rw [Finset.sum_eq_single i]
    · simp
    · intro b _ hb; rw [if_neg fun h => hb (Fin.ext h.symm), mul_zero]
    · simp
  rw [← this, hq0]; rfl

/-- The state before the first column. -/
def start (n m : Nat) : Mat.LU K (m + 1) := ⟨momentMatrix n m, fun i => 1 / Mat.rowBig (momentMatrix n m) i, 0, 1, fun _ => 0⟩

/-- If the scaled entries of two rows compare like the moments. -/
theorem scaled_le (n m : Nat) (c i : Nat) (hc1 : c ≤ 1) (hc : c ≤ m) (hi : i ≤ m) (hpos : ∀ i, 0 < Mat.rowBig (momentMatrix n m : Fin (m + 1) → Fin (m + 1) → K) i) (hci : c ≤ i) :
    1 / Mat.rowBig (momentMatrix n m) ⟨i, by omega⟩ * |(power n (i + c) : K)| ≤ 1 / Mat.rowBig (momentMatrix n m) ⟨c, by omega⟩ * |power n (c + c)| := by
  have h2c : Even (c + c) := ⟨c, rfl⟩
  rw [abs_of_nonneg (a := (power n (c + c) : K)) (power_nonneg n (c + c) h2c)]
  rcases Nat.even_or_odd (i + c) with hev | hodd
  swap
  · rw [power_odd n _ hodd, abs_zero, mul_zero]
    exact mul_nonneg (div_nonneg zero_le_one (hpos _).le) (power_nonneg n _ h2c)
  rw [abs_of_nonneg (power_nonneg n _ hev), one_div_mul_eq_div, one_div_mul_eq_div, div_le_div_iff₀ (hpos _) (hpos _)]
  obtain ⟨hle, hatt⟩ := Mat.rowBig_spec (momentMatrix n m : Fin (m + 1) → Fin (m + 1) → K) ⟨c, by omega⟩
  rcases hatt with h0 | ⟨j, hj⟩
  · exact absurd h0 (hpos _).ne'
  · rw [hj, momentMatrix_eq]
    show power n (i + c) * |power n (c + j.1)| ≤ _
    have hb := (Mat.rowBig_spec (momentMatrix n m : Fin (m + 1) → Fin (m + 1) → K) ⟨i, by omega⟩).1 j
    rw [momentMatrix_eq] at hb
    change |power n (i + j.1)| ≤ _ at hb
    rcases Nat.even_or_odd (c + j.1) with hej | hoj
    swap
    · rw [power_odd n _ hoj, abs_zero, mul_zero]
      exact mul_nonneg (power_nonneg n _ h2c) (hpos _).le
    by_cases hjc : c ≤ j.1
    · have hch := power_chebyshev (K := K) n (c + c) (i - c) (j.1 - c) h2c (by rw [Nat.even_sub hci]; rw [Nat.even_add] at hev; exact hev)
        (by rw [Nat.even_sub hjc]; rw [Nat.even_add] at hej; exact hej.symm)
      rw [show c + c + (i - c) + (j.1 - c) = i + j.1 by omega, show c + c + (i - c) = i + c by omega, show c + c + (j.1 - c) = c + j.1 by omega] at hch
      rw [abs_of_nonneg (power_nonneg n _ hej)]
      refine le_trans hch (mul_le_mul_of_nonneg_left (le_trans (le_abs_self _) hb) (power_nonneg n _ h2c))
    · have : c = 1 ∧ j.1 = 0 := by omega
      rw [this.1, this.2] at hej
      exact absurd hej (by decide)

theorem start_pivot0 (n m : Nat) (h : m ≤ 2 * n) (hpos : ∀ i, 0 < Mat.rowBig (momentMatrix n m : Fin (m + 1) → Fin (m + 1) → K) i) : (Mat.findPivot (start n m : Mat.LU K (m + 1)) 0).2 = 0 := by
  have hA : ∀ i : Fin (m + 1), (start n m : Mat.LU K (m + 1)).A i 0 = power n (i.1 + 0) := fun i => momentMatrix_eq n m i 0
  refine Mat.findPivot_first _ _ ?_ fun i _ => ?_
  · rw [hA, Mat.abs_eq_abs', abs_of_pos (power_pos n _ ⟨0, rfl⟩ (Or.inl rfl))]
    exact mul_pos (div_pos one_pos (hpos _)) (power_pos n _ ⟨0, rfl⟩ (Or.inl rfl))
  · rw [hA, hA, Mat.abs_eq_abs', Mat.abs_eq_abs']
    exact scaled_le n m 0 i.1 (by omega) (by omega) (by have := i.2; omega) hpos (by omega)

/-- The state after the first column. -/
theorem step0 (n m : Nat) (h : m ≤ 2 * n) (hpos : ∀ i, 0 < Mat.rowBig (momentMatrix n m : Fin (m + 1) → Fin (m + 1) → K) i) :
    (Mat.luStep (start n m : Mat.LU K (m + 1)) 0).vv = (fun i => 1 / Mat.rowBig (momentMatrix n m) i) ∧
    ∀ i j : Fin (m + 1), 0 < i → 0 < j → (Mat.luStep (start n m : Mat.LU K (m + 1)) 0).A i j = power n (i.1 + j.1) - power n i.1 / power n 0 * power n j.1 := by
  have h00 : (start n m : Mat.LU K (m + 1)).A 0 0 = power n 0 := momentMatrix_eq n m 0 0
  obtain ⟨h1, h2⟩ := Mat.luStep_noex (start n m : Mat.LU K (m + 1)) 0 (start_pivot0 n m h hpos) (by rw [h00]; exact (power_pos n 0 (by decide) (Or.inl rfl)).ne')
  refine ⟨h1, fun i j hi hj => ?_⟩
  rw [h2]
  dsimp only
  rw [if_pos hi, if_neg hj.ne', if_pos hj, h00]
  show momentMatrix n m i j - momentMatrix n m i 0 / _ * momentMatrix n m 0 j = _
  rw [momentMatrix_eq, momentMatrix_eq, momentMatrix_eq]
  simp

theorem start_pivot1 (n m : Nat) (h : m ≤ 2 * n) (hm : 1 ≤ m) (hpos : ∀ i, 0 < Mat.rowBig (momentMatrix n m : Fin (m + 1) → Fin (m + 1) → K) i) :
    (Mat.findPivot (Mat.luStep (start n m : Mat.LU K (m + 1)) 0) ⟨1, by omega⟩).2 = ⟨1, by omega⟩ := by
  obtain ⟨h1, h2⟩ := step0 (K := K) n m h hpos
  have hA : ∀ i : Fin (m + 1), ⟨1, by omega⟩ ≤ i → (Mat.luStep (start n m : Mat.LU K (m + 1)) 0).A i ⟨1, by omega⟩ = power n (i.1 + 1) := fun i hi => by
    rw [h2 i ⟨1, by omega⟩ (show 0 < i.1 from hi) (show 0 < 1 by omega), power_odd n 1 (by decide), mul_zero, sub_zero]
  refine Mat.findPivot_first _ _ ?_ fun i hi => ?_
  · rw [h1, hA _ (le_refl _), Mat.abs_eq_abs', abs_of_pos (power_pos n _ ⟨1, rfl⟩ (Or.inr (by omega)))]
    exact mul_pos (div_pos one_pos (hpos _)) (power_pos n _ ⟨1, rfl⟩ (Or.inr (by omega)))
  · rw [h1, hA _ (le_refl _), hA _ hi, Mat.abs_eq_abs', Mat.abs_eq_abs']
    exact scaled_le n m 1 i.1 (by omega) hm (by have := i.2; omega) hpos hi

/-- The pivots of the first two columns are in place. -/
theorem savgol_pivots (n m : Nat) (h : m ≤ 2 * n) (s : Mat.LU K (m + 1)) (hs : Mat.factorize (momentMatrix n m) = some s) (i : Fin (m + 1)) (hi : i.1 ≤ 1) : s.pivot i = i := by
  obtain ⟨s', σ, h1, h2, -, -, -, -, hpos⟩ := Mat.factorize_fix _ (momentMatrix_det (K := K) n m h)
  rw [hs] at h1
  cases h1
  rw [h2, Mat.luLoop_pivot _ i _ _ i.2]
  obtain ⟨i, hi'⟩ := i
  change i ≤ 1 at hi
  interval_cases i
  · exact start_pivot0 n m h hpos
  · exact start_pivot1 n m h (by omega) hpos

/-- The entries in places with an odd sum are 0. -/
def Parity {m : Nat} (A : Fin m → Fin m → K) : Prop := ∀ i j, Odd (i.1 + j.1) → A i j = 0

theorem Parity.step {m : Nat} {s : Mat.LU K m} {k : Fin m} (h : Parity s.A) (hp : (Mat.findPivot s k).2 = k) (h0 : s.A k k ≠ 0) : Parity (Mat.luStep s k).A := by
  intro i j hij
  rw [(Mat.luStep_noex s k hp h0).2]
  dsimp only
  split
  · split
    · rename_i hj; subst hj; rw [h i j hij, zero_div]
    · split
      · rw [h i j hij]
        rcases Nat.even_or_odd (i.1 + k.1) with he | ho
        · rw [h k j (by
            have : Odd (i.1 + j.1) := hij
            rw [Nat.odd_add'] at this ⊢
            rw [Nat.even_add] at he
            rw [this, ← he]), mul_zero, sub_zero]
        · rw [h i k ho, zero_div, zero_mul, sub_zero]
      · exact h i j hij
  · exact h i j hij

/-- No rows are exchanged up to order 3. -/
theorem savgol_pivots3 (n m : Nat) (h : m ≤ 2 * n) (hm : m ≤ 3) (s : Mat.LU K (m + 1)) (hs : Mat.factorize (momentMatrix n m) = some s) (i : Fin (m + 1)) : s.pivot i = i := by
  by_cases hi1 : i.1 ≤ 1
  · exact savgol_pivots n m h s hs i hi1
  obtain ⟨s', σ, h1, h2, -, h3, -, -, hpos⟩ := Mat.factorize_fix _ (momentMatrix_det (K := K) n m h)
  rw [hs] at h1
  cases h1
  have hle : i.1 ≤ (s.pivot i).1 := (h3 i).1
  have hlt := (s.pivot i).2
  by_cases hlast : i.1 = m
  · exact Fin.ext (by omega)
  obtain ⟨i, hi'⟩ := i
  have hi2 : i = 2 := by simp only at hi1 hlast; omega
  have hm3 : m = 3 := by simp only at hi1 hlast; omega
  subst hi2 hm3
  rw [h2, Mat.luLoop_pivot _ _ _ _ hi']
  have hdet := momentMatrix_det (K := K) n 3 h
  have hstart : Mat.Inv (momentMatrix n 3) (start n 3 : Mat.LU K 4) 0 1 := by
    refine ⟨fun i j => ?_, by simp [start], fun i => div_pos one_pos (hpos i)⟩
    have e1 : Mat.lower (start n 3 : Mat.LU K 4).A 0 = 1 := by
      ext i l; simp only [Mat.lower, Matrix.of_apply]; rw [Matrix.one_apply]
      by_cases h : l = i
      · rw [if_pos h, if_pos h.symm]
      · rw [if_neg h, if_neg (Ne.symm h), if_neg (by omega)]
    have e2 : Mat.upper (start n 3 : Mat.LU K 4).A 0 = Matrix.of (momentMatrix n 3) := by
      ext l j; simp only [Mat.upper, Matrix.of_apply]; rw [if_neg (by omega)]; rfl
    rw [e1, e2, one_mul]; rfl
  obtain ⟨τ, g1, -, -, -⟩ := Mat.loop_inv hdet hstart 2 (by omega)
  set s2 := Mat.luLoop (start n 3 : Mat.LU K 4) 2 (by omega) with hs2
  have hu : (Mat.upper s2.A 2).det ≠ 0 := by
    rw [← g1.det]
    refine mul_ne_zero ?_ hdet
    rcases Int.units_eq_one_or (Equiv.Perm.sign τ) with h | h <;> rw [h] <;> simp
  obtain ⟨k1, k2⟩ := Mat.findPivot_spec s2 ⟨2, hi'⟩ g1.scale (Mat.pivot_exists s2.A ⟨2, hi'⟩ hu)
  have hpar0 : Parity (start n 3 : Mat.LU K 4).A := fun i j hij => by
    show momentMatrix n 3 i j = 0
    rw [momentMatrix_eq, power_odd n _ hij]
  have h00 : (start n 3 : Mat.LU K 4).A 0 0 ≠ 0 := by
    show momentMatrix n 3 0 0 ≠ 0
    rw [momentMatrix_eq]; exact (power_pos n _ ⟨0, rfl⟩ (Or.inl rfl)).ne'
  have hpar1 : Parity (Mat.luStep (start n 3 : Mat.LU K 4) 0).A := hpar0.step (start_pivot0 n 3 h hpos) h00
  have h11 : (Mat.luStep (start n 3 : Mat.LU K 4) 0).A 1 1 ≠ 0 := by
    rw [(step0 n 3 h hpos).2 1 1 (by decide) (by decide)]
    show power n (1 + 1) - power n 1 / power n 0 * power n 1 ≠ (0 : K)
    rw [power_odd n 1 (by decide), mul_zero, sub_zero]
    exact (power_pos n _ ⟨1, rfl⟩ (Or.inr (by omega))).ne'
  have hpar2 : Parity s2.A := hpar1.step (start_pivot1 n 3 h (by omega) hpos) h11
  change (Mat.findPivot s2 ⟨2, hi'⟩).2 = _
  have hp := (Mat.findPivot s2 ⟨2, hi'⟩).2.2
  have k1' : 2 ≤ (Mat.findPivot s2 ⟨2, hi'⟩).2.1 := k1
  by_contra hne
  have h3' : (Mat.findPivot s2 ⟨2, hi'⟩).2.1 = 3 := by
    have : (Mat.findPivot s2 ⟨2, hi'⟩).2.1 ≠ 2 := fun h => hne (Fin.ext h)
    omega
  exact k2 (hpar2 _ _ (by rw [h3']; exact ⟨2, rfl⟩))

/-! The weights -/

theorem polyVal_eq {m : Nat} (b : Fin (m + 1) → K) (x : K) : polyVal b x = ∑ l, b l * x ^ l.1 := by
  unfold polyVal
  have key : ∀ N (hN : N ≤ m), ((List.finRange (m + 1)).tail.take N).foldl (fun (st : K × K) mm => (st.1 + b mm * (st.2 * x), st.2 * x)) (b 0, 1) =
      (∑ l ∈ Finset.range (N + 1), (if h : l < m + 1 then b ⟨l, h⟩ else 0) * x ^ l, x ^ N) := by
    intro N
    induction N with
    | zero => intro _; simp
    | succ N ih =>
      intro hN
      rw [List.take_succ_eq_append_getElem (by simp; omega), List.foldl_append, ih (by omega)]
      simp only [List.getElem_tail, List.getElem_finRange, List.foldl_cons, List.foldl_nil]
      rw [Finset.sum_range_succ _ (N + 1), dif_pos (by omega)]
      simp only [Prod.mk.injEq]
      constructor
      · rw [pow_succ]; rfl
      · rw [pow_succ]
  have := key m (le_refl _)
  rw [List.take_of_length_le (by simp)] at this
  rw [this]
  simp only
  rw [← Fin.sum_univ_eq_sum_range fun l => (if h : l < m + 1 then b ⟨l, h⟩ else 0) * x ^ l]
  refine Finset.sum_congr rfl fun l _ => ?_
  rw [dif_pos l.2]

/-- The weights, when the pivots up to the order of the derivative are in place: their moments are those of the unit vector, and they are the values of a polynomial. -/
theorem savgol_spec (n m d : Nat) (h : m ≤ 2 * n) (hd : d ≤ m) (hp : ∀ s, Mat.factorize (momentMatrix n m : Fin (m + 1) → Fin (m + 1) → K) = some s → ∀ i : Fin (m + 1), i.1 ≤ d → s.pivot i = i) :
    ∃ (cs : List K) (x : Fin (m + 1) → K), savgol n m d = some cs ∧ cs.length = 2 * n + 1 ∧ (∀ j < 2 * n + 1, cs.getD j 0 = ∑ l, x l * ((j : K) - n) ^ l.1) ∧
      ∀ p ≤ m, ∑ j ∈ Finset.range (2 * n + 1), cs.getD j 0 * ((j : K) - n) ^ p = if p = d then 1 else 0 := by
  have hdet := momentMatrix_det (K := K) n m h
  obtain ⟨s, -, hs, -⟩ := Mat.factorize_fix _ hdet
  have hb : (fun i : Fin (m + 1) => if i.1 = d then (1 : K) else 0) = fun i => if i = ⟨d, by omega⟩ then 1 else 0 := by
    funext i; simp only [Fin.ext_iff]
  set x := s.solveVector (fun i : Fin (m + 1) => if i.1 = d then (1 : K) else 0) (fun i => if i.1 = d then 1 else 0) with hx
  have hsol : ∀ i : Fin (m + 1), ∑ j, momentMatrix n m i j * x j = if i.1 = d then 1 else 0 := fun i => by
    have := Mat.solve_unit _ hdet ⟨d, by omega⟩ s hs (fun i hi => hp s hs i hi) i
    rw [hx, hb, this]
    simp only [Fin.ext_iff]
  have hg : ∀ j < 2 * n + 1, ((List.range (2 * n + 1)).map fun (i : Nat) => polyVal x ((i : K) - n)).getD j 0 = ∑ l, x l * ((j : K) - n) ^ l.1 := fun j hj => by
    rw [List.getD_eq_getElem _ _ (by simpa using hj)]
    simp only [List.getElem_map, List.getElem_range]
    exact polyVal_eq x _
  refine ⟨_, x, by unfold savgol; rw [hs, Option.map_some], by simp, hg, fun p hp => ?_⟩
  have : ∀ j ∈ Finset.range (2 * n + 1), ((List.range (2 * n + 1)).map fun (i : Nat) => polyVal x ((i : K) - n)).getD j 0 * ((j : K) - n) ^ p =
      ∑ l, x l * ((j : K) - n) ^ (p + l.1) := fun j hj => by
    rw [hg j (Finset.mem_range.mp hj), Finset.sum_mul]
    refine Finset.sum_congr rfl fun l _ => by rw [pow_add]; ring
  rw [Finset.sum_congr rfl this, Finset.sum_comm, ← hsol ⟨p, by omega⟩]
  refine Finset.sum_congr rfl fun l _ => ?_
  rw [← Finset.mul_sum, momentMatrix_eq, power]; ring

/-- Weights with the moments of a unit vector extract a coefficient of the Taylor expansion. -/
theorem weights_taylor (n m d : Nat) (hd : d ≤ m) (c : Nat → K) (hc : ∀ p ≤ m, ∑ j ∈ Finset.range (2 * n + 1), c j * ((j : K) - n) ^ p = if p = d then 1 else 0) (q : K[X]) (hq : q.natDegree ≤ m)
    (x h : K) : ∑ j ∈ Finset.range (2 * n + 1), c j * q.eval (x + ((j : K) - n) * h) = (taylor x q).coeff d * h ^ d := by
  have e : ∀ t, q.eval (x + t * h) = ∑ p ∈ Finset.range (m + 1), (taylor x q).coeff p * h ^ p * t ^ p := fun t => by
    rw [add_comm, ← taylor_eval, eval_eq_sum_range' (n := m + 1) (by rw [natDegree_taylor]; omega)]
    refine Finset.sum_congr rfl fun p _ => by rw [mul_pow]; ring
  simp only [e, Finset.mul_sum]
  rw [Finset.sum_comm]
  have : ∀ p ∈ Finset.range (m + 1), ∑ j ∈ Finset.range (2 * n + 1), c j * ((taylor x q).coeff p * h ^ p * ((j : K) - n) ^ p) = if p = d then (taylor x q).coeff d * h ^ d else 0 := fun p hp => by
    have : ∀ j ∈ Finset.range (2 * n + 1), c j * ((taylor x q).coeff p * h ^ p * ((j : K) - n) ^ p) = (taylor x q).coeff p * h ^ p * (c j * ((j : K) - n) ^ p) := fun j _ => by ring
    rw [Finset.sum_congr rfl this, ← Finset.mul_sum, hc p (by rw [Finset.mem_range] at hp; omega)]
    split
    · rename_i hpd; rw [hpd, mul_one]
    · rw [mul_zero]
  rw [Finset.sum_congr rfl this, Finset.sum_ite_eq']
  rw [if_pos (by rw [Finset.mem_range]; omega)]

theorem savgol_order0 (n m : Nat) (h : m ≤ 2 * n) (d : Nat) (hd : d ≤ 1) (s : Mat.LU K (m + 1)) (hs : Mat.factorize (momentMatrix n m) = some s) (i : Fin (m + 1)) (hi : i.1 ≤ d) : s.pivot i = i :=
  savgol_pivots n m h s hs i (by omega)

/-- C66: for every order and every odd width larger than the order, the smoothing kernel reproduces every polynomial up to that order, on every uniform grid: the weighted sum of its values
around a point is its value at that point.  Other widths are a panic. -/
theorem C66_savgol (order width : Nat) :
    if width % 2 = 1 ∧ order < width then ∃ k : Kernel K, newSavGolKernel order width = some k ∧ k.center = width / 2 ∧ k.cs.length = width ∧
      ∀ (q : K[X]), q.natDegree ≤ order → ∀ x h : K, ∑ j ∈ Finset.range width, k.cs.getD j 0 * q.eval (x + ((j : K) - (width / 2 : Nat)) * h) = q.eval x
    else (newSavGolKernel order width : Option (Kernel K)) = none := by
  split
  · rename_i hw
    obtain ⟨n, rfl⟩ : ∃ n, width = 2 * n + 1 := ⟨width / 2, by omega⟩
    have hn : (2 * n + 1) / 2 = n := by omega
    obtain ⟨cs, -, h1, h2, -, h4⟩ := savgol_spec (K := K) n order 0 (by omega) (by omega) (savgol_order0 n order (by omega) 0 (by omega))
    refine ⟨⟨cs, n⟩, ?_, hn.symm, h2, fun q hq x h => ?_⟩
    · unfold newSavGolKernel
      rw [if_neg (by omega), if_neg (by omega), hn, h1, Option.map_some]
    · rw [hn, weights_taylor n order 0 (by omega) _ h4 q hq x h, taylor_coeff_zero, pow_zero, mul_one]
  · rename_i hw
    unfold newSavGolKernel
    by_cases h1 : width % 2 = 1
    · rw [if_neg (by simpa using h1), if_pos (by omega)]
    · rw [if_pos h1]

/-- C66: the first derivative kernel gives the derivative of every polynomial up to the order, on every uniform grid with the spacing it was made for. -/
theorem C66_first_derivative (dx : K) (hdx : dx ≠ 0) (order width : Nat) (h1 : 1 ≤ order) (hodd : width % 2 = 1) (hw : order < width) :
    ∃ k : Kernel K, newSavGolDerivKernel dx 1 order width = some k ∧ k.center = width / 2 ∧ k.cs.length = width ∧
      ∀ (q : K[X]), q.natDegree ≤ order → ∀ x : K, ∑ j ∈ Finset.range width, k.cs.getD j 0 * q.eval (x + ((j : K) - (width / 2 : Nat)) * dx) = q.derivative.eval x := by
  obtain ⟨n, rfl⟩ : ∃ n, width = 2 * n + 1 := ⟨width / 2, by omega⟩
  have hn : (2 * n + 1) / 2 = n := by omega
  obtain ⟨cs, -, g1, g2, -, g4⟩ := savgol_spec (K := K) n order 1 (by omega) h1 (savgol_order0 n order (by omega) 1 (le_refl 1))
  refine ⟨⟨cs.map fun c => c * ((factorial 1 : K) / dx ^ 1), n⟩, ?_, hn.symm, by simpa using g2, fun q hq x => ?_⟩
  · unfold newSavGolDerivKernel
    rw [if_neg (by omega), if_neg (by omega), if_neg (by omega), hn, g1, Option.map_some]
  · rw [hn]
    have e : ∀ j ∈ Finset.range (2 * n + 1), (cs.map fun c => c * ((factorial 1 : K) / dx ^ 1)).getD j 0 * q.eval (x + ((j : K) - n) * dx) =
        1 / dx * (cs.getD j 0 * q.eval (x + ((j : K) - n) * dx)) := fun j hj => by
      rw [Finset.mem_range, ← g2] at hj
      rw [List.getD_eq_getElem _ _ (by simpa using hj), List.getElem_map, List.getD_eq_getElem _ _ hj]
      have : factorial 1 = 1 := rfl
      rw [this]; push_cast; ring
    rw [Finset.sum_congr rfl e, ← Finset.mul_sum, weights_taylor n order 1 h1 _ g4 q hq x dx, taylor_coeff_one]
    field_simp

theorem factorial_eq (d : Nat) : factorial d = d.factorial := by
  unfold factorial
  cases d with
  | zero => rfl
  | succ d =>
    simp only [Nat.add_sub_cancel]
    induction d with
    | zero => rfl
    | succ d ih => rw [List.range_succ, List.foldl_append, ih, List.foldl_cons, List.foldl_nil, Nat.factorial_succ (d + 1)]; ring

/-- C66 (partial: polynomials up to order 3; for order 4 see `C66_second_derivative_false`): the kernel of every derivative gives that derivative. -/
theorem C66_derivative_partial (dx : K) (hdx : dx ≠ 0) (d order width : Nat) (hd : d ≤ order) (h3 : order ≤ 3) (hodd : width % 2 = 1) (hw : order < width) :
    ∃ k : Kernel K, newSavGolDerivKernel dx d order width = some k ∧ k.center = width / 2 ∧ k.cs.length = width ∧
      ∀ (q : K[X]), q.natDegree ≤ order → ∀ x : K, ∑ j ∈ Finset.range width, k.cs.getD j 0 * q.eval (x + ((j : K) - (width / 2 : Nat)) * dx) = (derivative^[d] q).eval x := by
  obtain ⟨n, rfl⟩ : ∃ n, width = 2 * n + 1 := ⟨width / 2, by omega⟩
  have hn : (2 * n + 1) / 2 = n := by omega
  obtain ⟨cs, -, g1, g2, -, g4⟩ := savgol_spec (K := K) n order d (by omega) hd (fun s hs i _ => savgol_pivots3 n order (by omega) h3 s hs i)
  refine ⟨⟨cs.map fun c => c * ((factorial d : K) / dx ^ d), n⟩, ?_, hn.symm, by simpa using g2, fun q hq x => ?_⟩
  · unfold newSavGolDerivKernel
    rw [if_neg (by omega), if_neg (by omega), if_neg (by omega), hn, g1, Option.map_some]
  · rw [hn]
    have e : ∀ j ∈ Finset.range (2 * n + 1), (cs.map fun c => c * ((factorial d : K) / dx ^ d)).getD j 0 * q.eval (x + ((j : K) - n) * dx) =
        (factorial d : K) / dx ^ d * (cs.getD j 0 * q.eval (x + ((j : K) - n) * dx)) := fun j hj => by
      rw [Finset.mem_range, ← g2] at hj
      rw [List.getD_eq_getElem _ _ (by simpa using hj), List.getElem_map, List.getD_eq_getElem _ _ hj]
      ring
    rw [Finset.sum_congr rfl e, ← Finset.mul_sum, weights_taylor n order d hd _ g4 q hq x dx, taylor_coeff, factorial_eq]
    have := congrArg (fun p : K[X] => p.eval x) (congrFun (factorial_smul_hasseDeriv (R := K) d) q)
    simp only [LinearMap.smul_apply, Pi.smul_apply] at this
    rw [← this, eval_smul, nsmul_eq_mul]
    field_simp

/-- The least squares fit of order `m` to the values `y` at the offsets `-n, ..., n`. -/
def LeastSquares (n m : Nat) (y : Nat → K) (q : K[X]) : Prop :=
  q.natDegree ≤ m ∧ ∀ r : K[X], r.natDegree ≤ m → ∑ j ∈ Finset.range (2 * n + 1), (y j - q.eval ((j : K) - n)) ^ 2 ≤ ∑ j ∈ Finset.range (2 * n + 1), (y j - r.eval ((j : K) - n)) ^ 2

/-- The residuals of the fit are orthogonal to the polynomials. -/
theorem LeastSquares.orth {n m : Nat} {y : Nat → K} {q : K[X]} (h : LeastSquares n m y q) (r : K[X]) (hr : r.natDegree ≤ m) :
    ∑ j ∈ Finset.range (2 * n + 1), (y j - q.eval ((j : K) - n)) * r.eval ((j : K) - n) = 0 := by
  set R := Finset.range (2 * n + 1)
  set B := ∑ j ∈ R, (y j - q.eval ((j : K) - n)) * r.eval ((j : K) - n) with hB
  set A := ∑ j ∈ R, (r.eval ((j : K) - n)) ^ 2 with hA
  have key : ∀ t : K, 0 ≤ t ^ 2 * A - 2 * t * B := fun t => by
    have h1 := h.2 (q + C t * r) (le_trans (natDegree_add_le _ _) (max_le h.1 (le_trans (natDegree_C_mul_le _ _) hr)))
    have e : ∑ j ∈ R, (y j - (q + C t * r).eval ((j : K) - n)) ^ 2 = ∑ j ∈ R, (y j - q.eval ((j : K) - n)) ^ 2 + (t ^ 2 * A - 2 * t * B) := by
      rw [hA, hB, Finset.mul_sum, Finset.mul_sum, ← Finset.sum_sub_distrib, ← Finset.sum_add_distrib]
      refine Finset.sum_congr rfl fun j _ => ?_
      simp only [eval_add, eval_mul, eval_C]; ring
    rw [e] at h1
    linarith
  have hA0 : 0 ≤ A := Finset.sum_nonneg fun j _ => sq_nonneg _
  by_contra hB0
  by_cases hAz : A = 0
  · have := key B
    rw [hAz] at this
    have : 0 < B ^ 2 := by positivity
    nlinarith
  · have hAp : 0 < A := lt_of_le_of_ne hA0 (Ne.symm hAz)
    have := key (B / A)
    have e : (B / A) ^ 2 * A - 2 * (B / A) * B = -(B ^ 2 / A) := by field_simp; ring
    rw [e] at this
    have : 0 < B ^ 2 / A := by positivity
    linarith

/-- C66: for all values in the window, the smoothed value is the value at the centre of the least squares polynomial of the given order. -/
theorem C66_least_squares (order n : Nat) (ho : order < 2 * n + 1) : ∃ k : Kernel K, newSavGolKernel order (2 * n + 1) = some k ∧
    ∀ (y : Nat → K) (q : K[X]), LeastSquares n order y q → ∑ j ∈ Finset.range (2 * n + 1), k.cs.getD j 0 * y j = q.eval 0 := by
  have hn : (2 * n + 1) / 2 = n := by omega
  obtain ⟨cs, c, h1, h2, h3, h4⟩ := savgol_spec (K := K) n order 0 (by omega) (by omega) (savgol_order0 n order (by omega) 0 (by omega))
  refine ⟨⟨cs, n⟩, by unfold newSavGolKernel; rw [if_neg (by omega), if_neg (by omega), hn, h1, Option.map_some], fun y q hq => ?_⟩
  have h5 := weights_taylor n order 0 (by omega) _ h4 q hq.1 0 1
  rw [taylor_coeff_zero, pow_zero, mul_one] at h5
  rw [← h5]
  set r : K[X] := ∑ l : Fin (order + 1), C (c l) * X ^ l.1 with hr
  have hrev : ∀ t, r.eval t = ∑ l : Fin (order + 1), c l * t ^ l.1 := fun t => by rw [hr, eval_finset_sum]; simp
  have h6 := hq.orth r (natDegree_sum_le_of_forall_le _ _ fun i _ => le_trans (natDegree_C_mul_X_pow_le _ _) (by have := i.2; omega))
  rw [← sub_eq_zero, ← Finset.sum_sub_distrib]
  refine Eq.trans ?_ h6
  refine Finset.sum_congr rfl fun j hj => ?_
  show cs.getD j 0 * y j - cs.getD j 0 * q.eval (0 + ((j : K) - n) * 1) = _
  rw [hrev, ← h3 j (Finset.mem_range.mp hj), zero_add, mul_one]; ring

/-- Non-vacuity of `C66_least_squares`: the mean is the least squares fit of order 0. -/
example : LeastSquares 1 0 (fun j => if j = 2 then (9 : ℚ) else 0) (C 3) := by
  refine ⟨by simp, fun r hr => ?_⟩
  obtain ⟨a, rfl⟩ := natDegree_eq_zero.mp (Nat.le_zero.mp hr)
  simp only [eval_C, Finset.sum_range_succ, Finset.sum_range_zero]
  norm_num
  nlinarith [sq_nonneg (a - 3)]

/-- Non-vacuity of `C66_savgol`, `C66_first_derivative` and `C66_derivative_partial`: the widths and orders that are used in los/analyze/smooth.go, and a polynomial. -/
example : 21 % 2 = 1 ∧ 4 < 21 ∧ (1 : Nat) ≤ 4 ∧ (X ^ 4 + C 2 * X : ℚ[X]).natDegree ≤ 4 := by
  refine ⟨rfl, by omega, by omega, ?_⟩
  refine le_trans (natDegree_add_le _ _) (max_le (natDegree_X_pow_le 4) ?_)
  exact le_trans (natDegree_C_mul_le _ _) (by simp)

theorem getD_map_range (f : Nat → K) (n i : Nat) (h : i < n) : ((List.range n).map f).getD i 0 = f i := by
  rw [List.getD_eq_getElem _ _ (by simpa using h)]; simp

/-- C66: smoothing the values of a polynomial on a uniform grid gives the same values, at all points whose window is inside of the grid. -/
theorem C66_convolve (order width : Nat) (hodd : width % 2 = 1) (hw : order < width) (q : K[X]) (hq : q.natDegree ≤ order) (x0 h : K) (N : Nat) (hN : width < N) (b : Boundary) :
    ∃ (k : Kernel K) (out : List K), newSavGolKernel order width = some k ∧ k.convolve ((List.range N).map fun (i : Nat) => q.eval (x0 + i * h)) b = some out ∧
      ∀ i < N, width / 2 ≤ i → i + width / 2 < N → out.getD i 0 = q.eval (x0 + i * h) := by
  have h1 := C66_savgol (K := K) order width
  rw [if_pos ⟨hodd, hw⟩] at h1
  obtain ⟨k, h1, h2, h3, h4⟩ := h1
  obtain ⟨out, g1, g2⟩ := C52_interior k (by omega) ((List.range N).map fun (i : Nat) => q.eval (x0 + i * h)) (by simp; omega) b (fun _ => by simp; omega)
  refine ⟨k, out, h1, g1, fun i hi hi1 hi2 => ?_⟩
  rw [g2 i (by simpa using hi) (by omega) (by simp; omega), ← h4 q hq (x0 + i * h) h, h3]
  refine Finset.sum_congr rfl fun j hj => ?_
  rw [Finset.mem_range] at hj
  rw [getD_map_range _ _ _ (by omega)]
  congr 2
  rw [h2, Nat.cast_sub (by omega)]
  push_cast; ring

/-! The second derivative -/

/-- The order of the rows. -/
def rowOrder {m : Nat} (s : Mat.LU K m) : (k : Nat) → k ≤ m → Equiv.Perm (Fin m)
  | 0, _ => 1
  | k + 1, h => rowOrder s k (Nat.le_of_succ_le h) * Equiv.swap ⟨k, h⟩ (Mat.findPivot (Mat.luLoop s k (Nat.le_of_succ_le h)) ⟨k, h⟩).2

theorem rowOrder_inv {m : Nat} {M : Fin m → Fin m → K} (hdet : (Matrix.of M).det ≠ 0) {s : Mat.LU K m} (h : Mat.Inv M s 0 1) : ∀ k (hk : k ≤ m), Mat.Inv M (Mat.luLoop s k hk) k (rowOrder s k hk)
  | 0, _ => h
  | k + 1, hk => (Mat.step_inv hdet (k := ⟨k, hk⟩) (rowOrder_inv hdet h k (Nat.le_of_succ_le hk))).2.1

theorem power2 : (power 2 0 : ℚ) = 5 ∧ (power 2 2 : ℚ) = 10 ∧ (power 2 4 : ℚ) = 34 ∧ (power 2 6 : ℚ) = 130 ∧ (power 2 8 : ℚ) = 514 := by
  refine ⟨?_, ?_, ?_, ?_, ?_⟩ <;> norm_num [power, Finset.sum_range_succ]

theorem rowBig2 : Mat.rowBig (momentMatrix 2 4 : Fin 5 → Fin 5 → ℚ) 2 = 130 ∧ Mat.rowBig (momentMatrix 2 4 : Fin 5 → Fin 5 → ℚ) 4 = 514 := by
  obtain ⟨p0, p2, p4, p6, p8⟩ := power2
  have o : ∀ p, Odd p → (power 2 p : ℚ) = 0 := fun p hp => power_odd 2 p hp
  have h5 : List.finRange 5 = [0, 1, 2, 3, 4] := by decide
  constructor
  · norm_num [Mat.rowBig, Mat.abs, momentMatrix_eq, h5, p2, p4, p6, p8, o 3 (by decide), o 5 (by decide), o 7 (by decide)]
  · norm_num [Mat.rowBig, Mat.abs, momentMatrix_eq, h5, p2, p4, p6, p8, o 3 (by decide), o 5 (by decide), o 7 (by decide)]

/-- C66 is false for second derivatives with order 4: rows 2 and 4 of the matrix are exchanged, and the solver confuses them.  The kernel of the second derivative with five points gives 0
for the parabola `t²`, whose second derivative is 2 (and 2 for `t⁴`, whose second derivative is 0 at 0). -/
theorem C66_second_derivative_false : ∃ k : Kernel ℚ, newSavGolDerivKernel 1 2 4 5 = some k ∧
    ∑ j ∈ Finset.range 5, k.cs.getD j 0 * ((j : ℚ) - 2) ^ 2 = 0 ∧ ∑ j ∈ Finset.range 5, k.cs.getD j 0 * ((j : ℚ) - 2) ^ 4 = 2 := by
  obtain ⟨p0, p2, p4, p6, p8⟩ := power2
  have o : ∀ p, Odd p → (power 2 p : ℚ) = 0 := fun p hp => power_odd 2 p hp
  have hdet := momentMatrix_det (K := ℚ) 2 4 (by omega)
  obtain ⟨s, -, hs, hsl, -, hpd, -, -, hpos⟩ := Mat.factorize_fix _ hdet
  have hstart : Mat.Inv (momentMatrix 2 4) (start 2 4 : Mat.LU ℚ 5) 0 1 := by
    refine ⟨fun i j => ?_, by simp [start], fun i => div_pos one_pos (hpos i)⟩
    have e1 : Mat.lower (start 2 4 : Mat.LU ℚ 5).A 0 = 1 := by
      ext i l; simp only [Mat.lower, Matrix.of_apply]; rw [Matrix.one_apply]
      by_cases h : l = i
      · rw [if_pos h, if_pos h.symm]
      · rw [if_neg h, if_neg (Ne.symm h), if_neg (by omega)]
    have e2 : Mat.upper (start 2 4 : Mat.LU ℚ 5).A 0 = Matrix.of (momentMatrix 2 4) := by
      ext l j; simp only [Mat.upper, Matrix.of_apply]; rw [if_neg (by omega)]; rfl
    rw [e1, e2, one_mul]; rfl
  change s = Mat.luLoop (start 2 4) 5 (Nat.le_refl 5) at hsl
  have hinv := rowOrder_inv hdet hstart 5 (Nat.le_refl 5)
  rw [← hsl] at hinv
  have hpiv : ∀ i : Fin 5, s.pivot i = (Mat.findPivot (Mat.luLoop (start 2 4 : Mat.LU ℚ 5) i.1 (le_of_lt i.2)) i).2 := fun i => by rw [hsl]; exact Mat.luLoop_pivot _ i _ _ i.2
  have hp0 : s.pivot 0 = 0 := savgol_pivots 2 4 (by omega) s hs 0 (by decide)
  have hp1 : s.pivot 1 = 1 := savgol_pivots 2 4 (by omega) s hs 1 (by decide)
  have hs1 := step0 (K := ℚ) 2 4 (by omega) hpos
  have h11 : (Mat.luStep (start 2 4 : Mat.LU ℚ 5) 0).A 1 1 = 10 := by
    rw [hs1.2 1 1 (by decide) (by decide)]
    show power 2 2 - power 2 1 / power 2 0 * power 2 1 = (10 : ℚ)
    rw [o 1 (by decide), p2]; norm_num
  have hstep1 := Mat.luStep_noex (Mat.luStep (start 2 4 : Mat.LU ℚ 5) 0) 1 (start_pivot1 2 4 (by omega) (by omega) hpos) (by rw [h11]; norm_num)
  have hA2 : ∀ i : Fin 5, 2 ≤ i → (Mat.luLoop (start 2 4 : Mat.LU ℚ 5) 2 (by omega)).A i 2 = power 2 (i.1 + 2) - power 2 i.1 / 5 * 10 := fun i hi => by
    show (Mat.luStep (Mat.luStep (start 2 4 : Mat.LU ℚ 5) 0) 1).A i 2 = _
    rw [hstep1.2]
    dsimp only
    rw [if_pos (lt_of_lt_of_le (by decide) hi), if_neg (by decide), if_pos (by decide), hs1.2 i 2 (lt_of_lt_of_le (by decide) hi) (by decide), hs1.2 1 2 (by decide) (by decide)]
    show power 2 (i.1 + 2) - power 2 i.1 / power 2 0 * power 2 2 - _ / _ * (power 2 3 - power 2 1 / power 2 0 * power 2 2) = _
    rw [o 3 (by decide), o 1 (by decide), p0, p2]; ring
  have hvv : (Mat.luLoop (start 2 4 : Mat.LU ℚ 5) 2 (by omega)).vv = fun i => 1 / Mat.rowBig (momentMatrix 2 4) i := by
    show (Mat.luStep (Mat.luStep (start 2 4 : Mat.LU ℚ 5) 0) 1).vv = _
    rw [hstep1.1, hs1.1]
  have hp2 : s.pivot 2 = 4 := by
    rw [hpiv]
    show (Mat.findPivot (Mat.luLoop (start 2 4 : Mat.LU ℚ 5) 2 (by omega)) 2).2 = 4
    have hf : ((List.finRange 5).filter fun i => decide ((2 : Fin 5) ≤ i)) = [2, 3, 4] := by decide
    have a2 := hA2 2 (by decide)
    have a3 := hA2 3 (by decide)
    have a4 := hA2 4 (by decide)
    rw [show ((2 : Fin 5).1 + 2) = 4 from rfl, show (2 : Fin 5).1 = 2 from rfl, p4, p2] at a2
    rw [show ((3 : Fin 5).1 + 2) = 5 from rfl, show (3 : Fin 5).1 = 3 from rfl, o 5 (by decide), o 3 (by decide)] at a3
    rw [show ((4 : Fin 5).1 + 2) = 6 from rfl, show (4 : Fin 5).1 = 4 from rfl, p6, p4] at a4
    unfold Mat.findPivot
    rw [hf]
    simp only [List.foldl_cons, List.foldl_nil, a2, a3, a4, hvv, rowBig2.1, rowBig2.2]
    norm_num [Mat.abs]
  have hp4 : s.pivot 4 = 4 := le_antisymm (Fin.le_last _) (hpd 4).1
  have hp3 : s.pivot 3 = 3 ∨ s.pivot 3 = 4 := by
    have h1 : (3 : Fin 5) ≤ s.pivot 3 := (hpd 3).1
    revert h1
    generalize s.pivot 3 = p
    revert p
    decide
  -- the unit vector is written to its own place
  set b : Fin 5 → ℚ := fun i => if i.1 = 2 then 1 else 0 with hb
  have hperm : Mat.permute s.pivot b b = b := by
    have h5 : List.finRange 5 = [0, 1, 2, 3, 4] := by decide
    unfold Mat.permute
    simp only [h5, List.foldl_cons, List.foldl_nil, hp0, hp1, hp2, hp4]
    rcases hp3 with h | h <;> rw [h] <;> funext i <;> fin_cases i <;> simp [b, Function.update_apply]
  have hσ : rowOrder (start 2 4 : Mat.LU ℚ 5) 5 (Nat.le_refl 5) 2 = 4 ∧ rowOrder (start 2 4 : Mat.LU ℚ 5) 5 (Nat.le_refl 5) ((rowOrder (start 2 4 : Mat.LU ℚ 5) 5 (Nat.le_refl 5)).symm 4) = 4 := by
    refine ⟨?_, Equiv.apply_symm_apply _ _⟩
    have e : rowOrder (start 2 4 : Mat.LU ℚ 5) 5 (Nat.le_refl 5) = 1 * Equiv.swap 0 (s.pivot 0) * Equiv.swap 1 (s.pivot 1) * Equiv.swap 2 (s.pivot 2) * Equiv.swap 3 (s.pivot 3) * Equiv.swap 4 (s.pivot 4) := by
      rw [hpiv, hpiv, hpiv, hpiv, hpiv]; rfl
    rw [e, hp0, hp1, hp2, hp4]
    rcases hp3 with h | h <;> rw [h] <;> decide
  set σ := rowOrder (start 2 4 : Mat.LU ℚ 5) 5 (Nat.le_refl 5) with hσdef
  set x := s.solveVector b b with hx
  have hsol : ∀ i : Fin 5, ∑ j, momentMatrix 2 4 i j * x j = if i = 4 then 1 else 0 := fun i => by
    obtain ⟨i, rfl⟩ := σ.surjective i
    have h1 := Mat.subst_solves s.A (fun i => (hpd i).2) b i
    have h2 : (σ i = 4) ↔ i.1 = 2 := by
      constructor
      · intro h; rw [← hσ.1] at h; rw [σ.injective h]; rfl
      · intro h; rw [show i = 2 from Fin.ext h]; exact hσ.1
    simp only [h2]
    have h3 : (if i.1 = 2 then (1 : ℚ) else 0) = b i := rfl
    rw [h3, ← h1]
    simp only [hinv.prod, Matrix.mul_apply, Finset.sum_mul, Finset.mul_sum]
    rw [Finset.sum_comm]
    refine Finset.sum_congr rfl fun l _ => Finset.sum_congr rfl fun j _ => ?_
    rw [hx]
    unfold Mat.LU.solveVector
    rw [hperm]; ring
  have hmom : ∀ p (hp : p < 5), ∑ j ∈ Finset.range 5, ((List.range 5).map fun (i : Nat) => polyVal x ((i : ℚ) - (2 : Nat))).getD j 0 * ((j : ℚ) - 2) ^ p = if p = 4 then 1 else 0 := fun p hp => by
    have : ∀ j ∈ Finset.range 5, ((List.range 5).map fun (i : Nat) => polyVal x ((i : ℚ) - (2 : Nat))).getD j 0 * ((j : ℚ) - 2) ^ p = ∑ l, x l * ((j : ℚ) - 2) ^ (p + l.1) := fun j hj => by
      rw [getD_map_range _ _ _ (Finset.mem_range.mp hj), polyVal_eq, Finset.sum_mul]
      refine Finset.sum_congr rfl fun l _ => by rw [pow_add]; push_cast; ring
    rw [Finset.sum_congr rfl this, Finset.sum_comm]
    have h6 := hsol ⟨p, hp⟩
    simp only [Fin.ext_iff, show (4 : Fin 5).1 = 4 from rfl] at h6
    rw [← h6]
    refine Finset.sum_congr rfl fun l _ => ?_
    rw [← Finset.mul_sum, momentMatrix_eq, power]; push_cast; ring
  refine ⟨⟨((List.range 5).map fun (i : Nat) => polyVal x ((i : ℚ) - (2 : Nat))).map fun c => c * ((factorial 2 : ℚ) / 1 ^ 2), 2⟩, ?_, ?_, ?_⟩
  · unfold newSavGolDerivKernel
    rw [if_neg (by omega), if_neg (by omega), if_neg (by omega)]
    show (savgol 2 4 2).map _ = _
    unfold savgol
    rw [hs]; rfl
  all_goals
    have e : ∀ p, ∀ j ∈ Finset.range 5, (((List.range 5).map fun (i : Nat) => polyVal x ((i : ℚ) - (2 : Nat))).map fun c => c * ((factorial 2 : ℚ) / 1 ^ 2)).getD j 0 * ((j : ℚ) - 2) ^ p =
        2 * (((List.range 5).map fun (i : Nat) => polyVal x ((i : ℚ) - (2 : Nat))).getD j 0 * ((j : ℚ) - 2) ^ p) := fun p j hj => by
      rw [List.map_map, getD_map_range _ _ _ (Finset.mem_range.mp hj), getD_map_range _ _ _ (Finset.mem_range.mp hj)]
      have : factorial 2 = 2 := rfl
      simp only [Function.comp, this]; push_cast; ring
    dsimp only
    rw [Finset.sum_congr rfl (e _), ← Finset.mul_sum, hmom _ (by omega)]
    norm_num

theorem foldlM_stuck {β : Type} (f : List K → β → Option (List K)) (n : Nat) (hf : ∀ o x o', o.length = n → f o x = some o' → o'.length = n)
    (l : List β) (y : β) (hy : y ∈ l) (hn : ∀ o, o.length = n → f o y = none) : ∀ o, o.length = n → l.foldlM f o = none := by
  induction l with
  | nil => cases hy
  | cons x l ih =>
    intro o ho
    rw [List.foldlM_cons]
    cases hx : f o x with
    | none => rfl
    | some o' =>
      rcases List.mem_cons.mp hy with rfl | h
      · rw [hn o ho] at hx; cases hx
      · exact ih h o' (hf o x o' ho hx)

theorem foldlM_len {β : Type} (f : List K → β → Option (List K)) (n : Nat) (hf : ∀ o x o', o.length = n → f o x = some o' → o'.length = n)
    (l : List β) : ∀ o o', o.length = n → l.foldlM f o = some o' → o'.length = n := by
  induction l with
  | nil => intro o o' ho h; cases h; exact ho
  | cons x l ih =>
    intro o o' ho h
    rw [List.foldlM_cons] at h
    cases hx : f o x with
    | none => rw [hx] at h; cases h
    | some o1 => rw [hx] at h; exact ih o1 o' (hf o x o1 ho hx) h

theorem write_len (o : List K) (i : Int) (v : K) (o' : List K) (h : write o i v = some o') : o'.length = o.length := by
  unfold write at h
  split at h
  · cases h; simp
  · cases h

/-- C66: a target that is shorter than the data is a panic, never a partly written result. -/
theorem C66_short_target (k : Kernel K) (xs : List K) (b : Boundary) (out : List K) (hc : k.center < k.cs.length) (hk : k.cs.length < xs.length)
    (ho : out.length < xs.length) : k.convolveAt xs b out = none := by
  have step : ∀ (g : Nat → Int) (tap : Int → Option K) (o : List K) (x : Nat) (o' : List K), o.length = out.length →
      ((tapSum k tap (g x)).bind (write o (g x))) = some o' → o'.length = out.length := by
    intro g tap o x o' hl h
    rw [Option.bind_eq_some_iff] at h
    obtain ⟨v, _, hv⟩ := h
    rw [write_len _ _ _ _ hv, hl]
  have fail : ∀ (g : Nat → Int) (tap : Int → Option K) (y : Nat), (out.length : Int) ≤ g y → ∀ o : List K, o.length = out.length →
      ((tapSum k tap (g y)).bind (write o (g y))) = none := by
    intro g tap y hy o hl
    cases tapSum k tap (g y) with
    | none => rfl
    | some v => show write o (g y) v = none; unfold write; rw [if_neg (by omega)]
  unfold Kernel.convolveAt
  dsimp only
  simp only [Option.bind_eq_bind]
  cases h1 : (List.range (k.center + 1)).foldlM (fun out (i : Nat) => (tapSum k (leftTap b xs) i).bind (write out i)) out with
  | none => rfl
  | some o1 =>
    have l1 := foldlM_len _ out.length (fun o x o' => step (fun i => (i : Int)) (leftTap b xs) o x o') _ out o1 rfl h1
    simp only [Option.bind_some]
    cases h2 : (List.range (xs.length - (k.cs.length - 1 - k.center) - (k.center + 1))).foldlM (fun out (t : Nat) => (tapSum k (getI xs) ((k.center + 1 + t : Nat) : Int)).bind (write out ((k.center + 1 + t : Nat) : Int))) o1 with
    | none => rfl
    | some o2 =>
      have l2 := foldlM_len _ out.length (fun o x o' => step (fun t => ((k.center + 1 + t : Nat) : Int)) (getI xs) o x o') _ o1 o2 l1 h2
      simp only [Option.bind_some]
      rcases Nat.eq_zero_or_pos (k.cs.length - 1 - k.center) with h0 | h0
      · exfalso
        have := foldlM_stuck _ out.length (fun o x o' => step (fun t => ((k.center + 1 + t : Nat) : Int)) (getI xs) o x o')
          (List.range (xs.length - (k.cs.length - 1 - k.center) - (k.center + 1))) (xs.length - 1 - (k.center + 1)) (List.mem_range.mpr (by omega))
          (fail (fun t => ((k.center + 1 + t : Nat) : Int)) (getI xs) _ (by push_cast; omega)) o1 l1
        rw [h2] at this
        cases this
      · exact foldlM_stuck _ out.length (fun o x o' => step (fun t => ((xs.length : Int) - (k.cs.length - 1 - k.center : Nat) + t)) (rightTap b xs) o x o')
          _ (k.cs.length - 1 - k.center - 1) (List.mem_range.mpr (by omega))
          (fail (fun t => ((xs.length : Int) - (k.cs.length - 1 - k.center : Nat) + t)) (rightTap b xs) _ (by omega)) o2 l2

-- non-vacuity: a kernel of three taps, four points, room for three
example : (⟨[1, 2, 3], 1⟩ : Kernel ℚ).convolveAt [1, 2, 3, 4] .periodic [0, 0, 0] = none :=
  C66_short_target _ _ _ _ (by decide) (by decide) (by decide)

end Shellfish.Smooth
