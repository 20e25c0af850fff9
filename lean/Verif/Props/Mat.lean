/-
C41: linear algebra (math/mat/mat.go): the LU decomposition, the determinant, and when the solvers are right.
-/
import Verif.Model.Mat
import Mathlib.LinearAlgebra.Matrix.Block
import Mathlib.LinearAlgebra.Matrix.Determinant.Basic
import Mathlib.LinearAlgebra.Matrix.NonsingularInverse
import Mathlib.Data.Fintype.BigOperators
import Mathlib.Algebra.Order.Field.Basic
import Mathlib.Tactic.Linarith
import Mathlib.Tactic.LinearCombination
import Mathlib.Tactic.Ring
import Mathlib.Tactic.NormNum
import Mathlib.Tactic.FieldSimp
import Mathlib.Tactic.FinCases

namespace Shellfish.Mat

variable {K : Type} [Field K] [LinearOrder K] [IsStrictOrderedRing K] {n : Nat}

theorem abs_nonneg' (x : K) : 0 ≤ abs x := by
  unfold abs; split <;> linarith

theorem abs_eq_zero' {x : K} : abs x = 0 ↔ x = 0 := by
  unfold abs
  split
  · rename_i h; constructor <;> intro h' <;> linarith
  · rfl

/-! The search for the pivot -/

theorem findPivot_aux (s : LU K n) (k : Fin n) (l : List (Fin n)) (b : K × Fin n) :
    let r := l.foldl (fun b i => if s.vv i * abs (s.A i k) > b.1 then (s.vv i * abs (s.A i k), i) else b) b
    b.1 ≤ r.1 ∧ (∀ i ∈ l, s.vv i * abs (s.A i k) ≤ r.1) ∧ (r = b ∨ (r.2 ∈ l ∧ r.1 = s.vv r.2 * abs (s.A r.2 k))) := by
  induction l generalizing b with
  | nil => simp
  | cons i l ih =>
    simp only [List.foldl_cons]
    obtain ⟨h1, h2, h3⟩ := ih (if s.vv i * abs (s.A i k) > b.1 then (s.vv i * abs (s.A i k), i) else b)
    refine ⟨?_, ?_, ?_⟩
    · refine le_trans ?_ h1
      split
      · rename_i h; exact le_of_lt h
      · exact le_refl _
    · intro j hj
      rcases List.mem_cons.mp hj with rfl | hj
      · refine le_trans ?_ h1
        split
        · exact le_refl _
        · rename_i h; exact not_lt.mp h
      · exact h2 j hj
    · rcases h3 with h3 | ⟨h3, h4⟩
      · by_cases hc : s.vv i * abs (s.A i k) > b.1
        · rw [if_pos hc] at h3 ⊢
          right
          rw [h3]
          exact ⟨by simp, rfl⟩
        · rw [if_neg hc] at h3 ⊢
          exact Or.inl h3
      · exact Or.inr ⟨List.mem_cons_of_mem _ h3, h4⟩

/-- The pivot is a row at or below `k` with an entry that is not 0, if there is one. -/
theorem findPivot_spec (s : LU K n) (k : Fin n) (hvv : ∀ i, 0 < s.vv i) (h : ∃ i, k ≤ i ∧ s.A i k ≠ 0) :
    k ≤ (findPivot s k).2 ∧ s.A (findPivot s k).2 k ≠ 0 := by
  obtain ⟨h1, h2, h3⟩ := findPivot_aux s k ((List.finRange n).filter fun i => k ≤ i) (0, s.imax)
  obtain ⟨i, hi, hA⟩ := h
  have hpos : 0 < s.vv i * abs (s.A i k) := mul_pos (hvv i) (lt_of_le_of_ne (abs_nonneg' _) (fun h => hA (abs_eq_zero'.mp h.symm)))
  have hle := h2 i (by simp [hi])
  rcases h3 with h3 | ⟨h3, h4⟩
  · rw [h3] at hle; exact absurd hle (not_le.mpr hpos)
  · change (findPivot s k).2 ∈ _ at h3
    refine ⟨by simpa using h3, fun h0 => ?_⟩
    change (findPivot s k).1 = s.vv (findPivot s k).2 * abs (s.A (findPivot s k).2 k) at h4
    change _ ≤ (findPivot s k).1 at hle
    rw [h4, h0] at hle
    rw [abs_eq_zero'.mpr rfl, mul_zero] at hle
    exact absurd hle (not_le.mpr hpos)

/-- The pivot is `k` itself if the entries below are 0. -/
theorem findPivot_self (s : LU K n) (k : Fin n) (hvv : ∀ i, 0 < s.vv i) (h0 : s.A k k ≠ 0) (h : ∀ i, k < i → s.A i k = 0) : (findPivot s k).2 = k := by
  obtain ⟨h1, h2⟩ := findPivot_spec s k hvv ⟨k, le_refl _, h0⟩
  by_contra hc
  exact h2 (h _ (lt_of_le_of_ne h1 (Ne.symm hc)))

/-! The invariant -/

/-- The lower factor after `k` steps. -/
def lower (A : Fin n → Fin n → K) (k : Nat) : _root_.Matrix (Fin n) (Fin n) K := Matrix.of fun i l => if l = i then 1 else if l < i ∧ l.1 < k then A i l else 0

/-- The upper factor after `k` steps. -/
def upper (A : Fin n → Fin n → K) (k : Nat) : _root_.Matrix (Fin n) (Fin n) K := Matrix.of fun l j => if j < l ∧ j.1 < k then 0 else A l j

theorem lower_det (A : Fin n → Fin n → K) (k : Nat) : (lower A k).det = 1 := by
  rw [Matrix.det_of_lowerTriangular]
  · simp [lower]
  · intro i j hij
    have hij' : i < j := hij
    simp only [lower, Matrix.of_apply]
    rw [if_neg (ne_of_gt hij'), if_neg (by simp [not_lt.mpr hij'.le])]

theorem upper_det (A : Fin n → Fin n → K) : (upper A n).det = ∏ i, A i i := by
  rw [Matrix.det_of_upperTriangular]
  · simp [upper]
  · intro i j hij
    have hij' : j < i := hij
    simp only [upper, Matrix.of_apply]
    rw [if_pos ⟨hij', j.2⟩]

/-- The column of the next pivot is not 0 for a matrix that is not singular. -/
theorem pivot_exists (A : Fin n → Fin n → K) (k : Fin n) (h : (upper A k.1).det ≠ 0) : ∃ i, k ≤ i ∧ A i k ≠ 0 := by
  by_contra hc
  push Not at hc
  refine h ?_
  rw [Matrix.twoBlockTriangular_det _ (fun i => i.1 < k.1)]
  · refine mul_eq_zero_of_right _ ?_
    refine Matrix.det_eq_zero_of_column_eq_zero ⟨k, by simp⟩ ?_
    rintro ⟨i, hi⟩
    have hi' : k ≤ i := not_lt.mp hi
    show upper A k.1 i k = 0
    simp only [upper, Matrix.of_apply]
    rw [if_neg (by simp)]
    exact hc i hi'
  · intro i hi j hj
    simp only [upper, Matrix.of_apply]
    rw [if_pos ⟨lt_of_lt_of_le (show j < k from hj) (not_lt.mp hi), hj⟩]

/-- The invariant after `k` steps: the rows in the order `σ` are the product of the factors, the sign is that of the order, the scales are positive. -/
structure Inv (M : Fin n → Fin n → K) (s : LU K n) (k : Nat) (σ : Equiv.Perm (Fin n)) : Prop where
  prod : ∀ i j, M (σ i) j = (lower s.A k * upper s.A k) i j
  sign : s.d = (Equiv.Perm.sign σ : ℤˣ)
  scale : ∀ i, 0 < s.vv i

theorem Inv.det {M : Fin n → Fin n → K} {s : LU K n} {k : Nat} {σ : Equiv.Perm (Fin n)} (h : Inv M s k σ) :
    (Equiv.Perm.sign σ : ℤˣ) * (Matrix.of M).det = (upper s.A k).det := by
  have h1 : ((Matrix.of M).submatrix σ id) = lower s.A k * upper s.A k := by
    ext i j; exact h.prod i j
  have h2 := congrArg Matrix.det h1
  rw [Matrix.det_mul, lower_det, one_mul, Matrix.det_permute] at h2
  exact h2

theorem swap_ge {k p i : Fin n} (hp : k ≤ p) : k ≤ Equiv.swap k p i ↔ k ≤ i := by
  rw [Equiv.swap_apply_def]
  split
  · rename_i h; subst h; simp [hp]
  · split
    · rename_i h; subst h; simp [hp]
    · rfl

theorem swap_lt_fix {k p i : Fin n} (hp : k ≤ p) (hi : i < k) : Equiv.swap k p i = i :=
  Equiv.swap_apply_of_ne_of_ne (ne_of_lt hi) (ne_of_lt (lt_of_lt_of_le hi hp))

theorem swap_lt {k p i l : Fin n} (hp : k ≤ p) (hl : l < k) : l < Equiv.swap k p i ↔ l < i := by
  by_cases hi : k ≤ i
  · exact ⟨fun _ => lt_of_lt_of_le hl hi, fun _ => lt_of_lt_of_le hl ((swap_ge hp).mpr hi)⟩
  · rw [swap_lt_fix hp (not_le.mp hi)]

theorem exchange_inv {M : Fin n → Fin n → K} {s : LU K n} {k : Fin n} {σ : Equiv.Perm (Fin n)} (h : Inv M s k.1 σ) {p : Fin n} (hp : k ≤ p) :
    Inv M (exchange s k p) k.1 (σ * Equiv.swap k p) ∧ (exchange s k p).imax = p := by
  by_cases hkp : k = p
  · subst hkp
    unfold exchange
    rw [if_neg (by simp), Equiv.swap_self]
    exact ⟨⟨h.prod, h.sign, h.scale⟩, rfl⟩
  · unfold exchange
    rw [if_pos hkp]
    have hA : (fun i => if i = p then s.A k else if i = k then s.A p else s.A i) = fun i => s.A (Equiv.swap k p i) := by
      funext i
      rw [Equiv.swap_apply_def]
      by_cases h1 : i = p
      · rw [if_pos h1, if_neg (by rw [h1]; exact Ne.symm hkp), if_pos h1]
      · rw [if_neg h1, if_neg h1]
        split <;> rfl
    refine ⟨⟨?_, ?_, ?_⟩, rfl⟩
    · dsimp only
      rw [hA]
      have hl : ∀ i l, lower (fun i => s.A (Equiv.swap k p i)) k.1 i l = lower s.A k.1 (Equiv.swap k p i) (Equiv.swap k p l) := by
        intro i l
        simp only [lower, Matrix.of_apply]
        have e1 : (Equiv.swap k p l = Equiv.swap k p i) ↔ l = i := (Equiv.swap k p).injective.eq_iff
        by_cases hli : l = i
        · rw [if_pos hli, if_pos (e1.mpr hli)]
        · rw [if_neg hli, if_neg (fun h => hli (e1.mp h))]
          by_cases hlk : l < k
          · rw [swap_lt_fix hp hlk]
            by_cases h2 : l < i
            · rw [if_pos ⟨h2, hlk⟩, if_pos ⟨(swap_lt hp hlk).mpr h2, hlk⟩]
            · rw [if_neg (fun h => h2 h.1), if_neg (fun h => h2 ((swap_lt hp hlk).mp h.1))]
          · rw [if_neg (fun h => hlk h.2), if_neg (fun h => ?_)]
            exact absurd ((swap_ge hp).mpr (not_lt.mp hlk)) (not_le.mpr h.2)
      have hu : ∀ l j, upper (fun i => s.A (Equiv.swap k p i)) k.1 l j = upper s.A k.1 (Equiv.swap k p l) j := by
        intro l j
        simp only [upper, Matrix.of_apply]
        by_cases hjk : j < k
        · by_cases h2 : j < l
          · rw [if_pos ⟨h2, hjk⟩, if_pos ⟨(swap_lt hp hjk).mpr h2, hjk⟩]
          · rw [if_neg (fun h => h2 h.1), if_neg (fun h => h2 ((swap_lt hp hjk).mp h.1))]
        · rw [if_neg (fun h => hjk h.2), if_neg (fun h => hjk h.2)]
      intro i j
      rw [Equiv.Perm.mul_apply, h.prod, Matrix.mul_apply, Matrix.mul_apply]
      simp only [hl, hu]
      exact (Equiv.sum_comp (Equiv.swap k p) fun l => lower s.A k.1 (Equiv.swap k p i) l * upper s.A k.1 l j).symm
    · dsimp only
      rw [h.sign, Equiv.Perm.sign_mul, Equiv.Perm.sign_swap hkp]
      simp
    · intro i
      dsimp only
      split <;> exact h.scale _

theorem eliminate_inv {M : Fin n → Fin n → K} {s : LU K n} {k : Fin n} {σ : Equiv.Perm (Fin n)} (h : Inv M s k.1 σ) (h0 : s.A k k ≠ 0) : Inv M (eliminate s k) (k.1 + 1) σ := by
  refine ⟨?_, h.sign, h.scale⟩
  intro i j
  rw [h.prod, Matrix.mul_apply, Matrix.mul_apply, ← sub_eq_zero, ← Finset.sum_sub_distrib]
  have hA1 : ∀ a b, ¬ k < a → (eliminate s k).A a b = s.A a b := fun a b hab => by show (if k < a then _ else _) = _; rw [if_neg hab]
  have hA2 : ∀ a b, b < k → (eliminate s k).A a b = s.A a b := fun a b hab => by
    show (if k < a then (if b = k then _ else if k < b then _ else _) else _) = _
    rw [if_neg (ne_of_lt hab), if_neg (not_lt.mpr hab.le)]
    simp
  have hA3 : ∀ a, k < a → (eliminate s k).A a k = s.A a k / s.A k k := fun a ha => by
    show (if k < a then (if k = k then _ else if k < k then _ else _) else _) = _
    rw [if_pos ha, if_pos rfl]
  have hA4 : ∀ a b, k < a → k < b → (eliminate s k).A a b = s.A a b - s.A a k / s.A k k * s.A k b := fun a b ha hb => by
    show (if k < a then (if b = k then _ else if k < b then _ else _) else _) = _
    rw [if_pos ha, if_neg (ne_of_gt hb), if_pos hb]
  -- rows of the upper factor that do not change
  have hu : ∀ l, ¬ k < l → upper (eliminate s k).A (k.1 + 1) l j = upper s.A k.1 l j := by
    intro l hl
    simp only [upper, Matrix.of_apply]
    rw [hA1 l j hl]
    by_cases h1 : j < l
    · have : j.1 < k.1 := lt_of_lt_of_le h1 (not_lt.mp hl)
      rw [if_pos ⟨h1, by omega⟩, if_pos ⟨h1, this⟩]
    · rw [if_neg (fun h => h1 h.1), if_neg (fun h => h1 h.1)]
  have hl : ∀ l, l ≠ k → lower (eliminate s k).A (k.1 + 1) i l = lower s.A k.1 i l := by
    intro l hlk
    simp only [lower, Matrix.of_apply]
    split
    · rfl
    · by_cases h1 : l < k
      · rw [hA2 i l h1]
        have h1' : l.1 < k.1 := h1
        by_cases h2 : l < i
        · rw [if_pos ⟨h2, by omega⟩, if_pos ⟨h2, h1'⟩]
        · rw [if_neg (fun h => h2 h.1), if_neg (fun h => h2 h.1)]
      · have : ¬ l.1 < k.1 := h1
        have hne : l.1 ≠ k.1 := fun h => hlk (Fin.ext h)
        rw [if_neg (by omega), if_neg (by omega)]
  by_cases hi : k < i
  · rw [Fintype.sum_eq_add k i (ne_of_lt hi)]
    · have l1 : lower s.A k.1 i k = 0 := by simp only [lower, Matrix.of_apply]; rw [if_neg (ne_of_lt hi), if_neg (by simp)]
      have l2 : lower (eliminate s k).A (k.1 + 1) i k = s.A i k / s.A k k := by
        simp only [lower, Matrix.of_apply]; rw [if_neg (ne_of_lt hi), if_pos ⟨hi, by omega⟩, hA3 i hi]
      have l3 : lower s.A k.1 i i = 1 := by simp [lower]
      have l4 : lower (eliminate s k).A (k.1 + 1) i i = 1 := by simp [lower]
      rw [l1, l2, l3, l4, hu k (lt_irrefl k)]
      rcases lt_trichotomy j k with hj | hj | hj
      · have u1 : upper s.A k.1 k j = 0 := by simp only [upper, Matrix.of_apply]; rw [if_pos ⟨hj, hj⟩]
        have u2 : upper s.A k.1 i j = 0 := by simp only [upper, Matrix.of_apply]; rw [if_pos ⟨hj.trans hi, hj⟩]
        have u3 : upper (eliminate s k).A (k.1 + 1) i j = 0 := by simp only [upper, Matrix.of_apply]; rw [if_pos ⟨hj.trans hi, by have : j.1 < k.1 := hj; omega⟩]
        rw [u1, u2, u3]; ring
      · subst hj
        have u1 : upper s.A j.1 j j = s.A j j := by simp only [upper, Matrix.of_apply]; rw [if_neg (by simp)]
        have u2 : upper s.A j.1 i j = s.A i j := by simp only [upper, Matrix.of_apply]; rw [if_neg (by simp)]
        have u3 : upper (eliminate s j).A (j.1 + 1) i j = 0 := by simp only [upper, Matrix.of_apply]; rw [if_pos ⟨hi, by omega⟩]
        rw [u1, u2, u3]; field_simp; ring
      · have hj' : ¬ j.1 < k.1 := not_lt.mpr (le_of_lt hj)
        have hj'' : k.1 < j.1 := hj
        have u1 : upper s.A k.1 k j = s.A k j := by simp only [upper, Matrix.of_apply]; rw [if_neg (fun h => hj' h.2)]
        have u2 : upper s.A k.1 i j = s.A i j := by simp only [upper, Matrix.of_apply]; rw [if_neg (fun h => hj' h.2)]
        have u3 : upper (eliminate s k).A (k.1 + 1) i j = s.A i j - s.A i k / s.A k k * s.A k j := by
          simp only [upper, Matrix.of_apply]; rw [if_neg (by omega), hA4 i j hi hj]
        rw [u1, u2, u3]; ring
    · rintro l ⟨hlk, hli⟩
      rw [hl l hlk]
      by_cases h1 : k < l
      · have : lower s.A k.1 i l = 0 := by
          simp only [lower, Matrix.of_apply]; rw [if_neg hli, if_neg (fun h => absurd h.2 (not_lt.mpr (le_of_lt h1)))]
        rw [this]; ring
      · rw [hu l h1]; ring
  · refine Finset.sum_eq_zero fun l _ => ?_
    by_cases hlk : l = k
    · subst hlk
      have : lower (eliminate s l).A (l.1 + 1) i l = lower s.A l.1 i l := by
        simp only [lower, Matrix.of_apply]
        split
        · rfl
        · rw [if_neg (fun h => hi h.1), if_neg (fun h => hi h.1)]
      rw [this, hu l (lt_irrefl l)]; ring
    · rw [hl l hlk]
      by_cases h1 : k < l
      · have : lower s.A k.1 i l = 0 := by
          simp only [lower, Matrix.of_apply]
          rw [if_neg (fun h : l = i => hi (h ▸ h1)), if_neg (fun h => absurd h.2 (not_lt.mpr (le_of_lt h1)))]
        rw [this]; ring
      · rw [hu l h1]; ring

/-- One step. -/
theorem step_inv {M : Fin n → Fin n → K} (hdet : (Matrix.of M).det ≠ 0) {s : LU K n} {k : Fin n} {σ : Equiv.Perm (Fin n)} (h : Inv M s k.1 σ) :
    k ≤ (findPivot s k).2 ∧ Inv M (luStep s k) (k.1 + 1) (σ * Equiv.swap k (findPivot s k).2) ∧
      (luStep s k).pivot = (fun i => if i = k then (findPivot s k).2 else s.pivot i) ∧ (luStep s k).A k k ≠ 0 ∧ ∀ i, i < k → (luStep s k).A i i = s.A i i := by
  have hu : (upper s.A k.1).det ≠ 0 := by
    rw [← h.det]
    refine mul_ne_zero ?_ hdet
    rcases Int.units_eq_one_or (Equiv.Perm.sign σ) with h | h <;> rw [h] <;> simp
  obtain ⟨hk, hA⟩ := findPivot_spec s k h.scale (pivot_exists s.A k hu)
  obtain ⟨h1, h2⟩ := exchange_inv h hk
  have hpiv : (exchange s k (findPivot s k).2).A k k = s.A (findPivot s k).2 k := by
    unfold exchange
    split
    · rename_i hne
      simp [hne]
    · rename_i hne
      rw [not_not] at hne
      rw [← hne]
  have hfix : ∀ t : LU K n, t.A k k ≠ 0 → fixPivot t k = t := fun t ht => by unfold fixPivot; rw [if_neg ht]
  set s2 : LU K n := { exchange s k (findPivot s k).2 with pivot := fun i => if i = k then (exchange s k (findPivot s k).2).imax else (exchange s k (findPivot s k).2).pivot i } with hs2
  have hs2A : s2.A k k ≠ 0 := by show (exchange s k (findPivot s k).2).A k k ≠ 0; rw [hpiv]; exact hA
  have hstep : luStep s k = eliminate s2 k := by
    show eliminate (fixPivot s2 k) k = _
    rw [hfix s2 hs2A]
  refine ⟨hk, ?_, ?_, ?_, ?_⟩
  · rw [hstep]
    exact eliminate_inv (s := s2) ⟨h1.prod, h1.sign, h1.scale⟩ hs2A
  · rw [hstep]
    show (fun i => if i = k then (exchange s k (findPivot s k).2).imax else (exchange s k (findPivot s k).2).pivot i) = _
    rw [h2]
    have : (exchange s k (findPivot s k).2).pivot = s.pivot := by unfold exchange; split <;> rfl
    rw [this]
  · rw [hstep]
    show (if k < k then _ else s2.A k k) ≠ 0
    rw [if_neg (lt_irrefl k)]; exact hs2A
  · intro i hi
    rw [hstep]
    show (if k < i then _ else s2.A i i) = _
    rw [if_neg (not_lt.mpr hi.le)]
    show (exchange s k (findPivot s k).2).A i i = _
    unfold exchange
    split
    · dsimp only
      rw [if_neg (ne_of_lt (lt_of_lt_of_le hi hk)), if_neg (ne_of_lt hi)]
    · rfl

/-- All steps. -/
theorem loop_inv {M : Fin n → Fin n → K} (hdet : (Matrix.of M).det ≠ 0) {s : LU K n} (h : Inv M s 0 1) :
    ∀ m (hm : m ≤ n), ∃ σ, Inv M (luLoop s m hm) m σ ∧ (∀ i : Fin n, i.1 < m → i ≤ (luLoop s m hm).pivot i ∧ (luLoop s m hm).A i i ≠ 0) ∧
      ((∀ i : Fin n, i.1 < m → (luLoop s m hm).pivot i = i) → σ = 1) ∧
      ∀ d : Nat, (∀ i : Fin n, i.1 < d → i.1 < m → (luLoop s m hm).pivot i = i) → ∀ i : Fin n, i.1 < d → σ i = i := by
  intro m
  induction m with
  | zero => intro hm; exact ⟨1, h, fun i hi => absurd hi (by omega), fun _ => rfl, fun _ _ _ _ => rfl⟩
  | succ m ih =>
    intro hm
    obtain ⟨σ, h1, h2, h3, h4⟩ := ih (Nat.le_of_succ_le hm)
    obtain ⟨g1, g2, g3, g4, g5⟩ := step_inv hdet (k := ⟨m, hm⟩) h1
    have hold : ∀ i : Fin n, i.1 < m → (luStep (luLoop s m (Nat.le_of_succ_le hm)) ⟨m, hm⟩).pivot i = (luLoop s m (Nat.le_of_succ_le hm)).pivot i := by
      intro i hi
      rw [g3]
      show (if i = ⟨m, hm⟩ then _ else _) = _
      rw [if_neg (fun h => by rw [h] at hi; exact absurd hi (lt_irrefl m))]
    have hone : (∀ i : Fin n, i.1 < m + 1 → (luLoop s (m + 1) hm).pivot i = i) → σ * Equiv.swap ⟨m, hm⟩ (findPivot (luLoop s m (Nat.le_of_succ_le hm)) ⟨m, hm⟩).2 = 1 := by
      intro hall
      have hp : (findPivot (luLoop s m (Nat.le_of_succ_le hm)) ⟨m, hm⟩).2 = ⟨m, hm⟩ := by
        have := hall ⟨m, hm⟩ (by simp)
        change (luStep _ _).pivot _ = _ at this
        rw [g3] at this
        simpa using this
      rw [hp, Equiv.swap_self, h3 fun i hi => by rw [← hold i hi]; exact hall i (by omega)]
      rfl
    refine ⟨_, g2, ?_, hone, ?_⟩
    · intro i hi
      show i ≤ (luStep _ _).pivot i ∧ (luStep _ _).A i i ≠ 0
      by_cases hlast : i.1 = m
      · have : i = ⟨m, hm⟩ := Fin.ext hlast
        subst this
        refine ⟨?_, g4⟩
        rw [g3]
        simpa using g1
      · rw [hold i (by omega), g5 i (show i.1 < m by omega)]
        exact h2 i (by omega)
    · intro d hd i hi
      by_cases hmd : m < d
      · rw [hone fun i hi' => hd i (by omega) hi']; rfl
      · rw [Equiv.Perm.mul_apply, swap_lt_fix g1 (show i.1 < m by omega)]
        exact h4 d (fun i hi hi' => by rw [← hold i hi']; exact hd i hi (by omega)) i hi

theorem rowBig_aux (f : Fin n → K) (l : List (Fin n)) (b : K) (hb : 0 ≤ b) :
    0 ≤ l.foldl (fun big j => if abs (f j) > big then abs (f j) else big) b ∧
    (l.foldl (fun big j => if abs (f j) > big then abs (f j) else big) b = 0 → ∀ j ∈ l, f j = 0) ∧ b ≤ l.foldl (fun big j => if abs (f j) > big then abs (f j) else big) b := by
  induction l generalizing b with
  | nil => exact ⟨hb, fun _ => by simp, le_refl _⟩
  | cons j l ih =>
    rw [List.foldl_cons]
    have hb' : 0 ≤ (if abs (f j) > b then abs (f j) else b) := by split; exact abs_nonneg' _; exact hb
    obtain ⟨h1, h2, h3⟩ := ih _ hb'
    refine ⟨h1, fun h0 => ?_, ?_⟩
    · intro i hi
      rcases List.mem_cons.mp hi with rfl | hi
      · rw [h0] at h3
        by_contra hne
        have hpos : 0 < abs (f i) := lt_of_le_of_ne (abs_nonneg' _) (fun h => hne (abs_eq_zero'.mp h.symm))
        split at h3
        · exact absurd h3 (not_le.mpr hpos)
        · rename_i h4
          exact h4 (lt_of_le_of_lt h3 hpos)
      · exact h2 h0 i hi
    · refine le_trans ?_ h3
      split
      · rename_i h; exact le_of_lt h
      · exact le_refl _

theorem rowBig_zero (M : Fin n → Fin n → K) (i : Fin n) : 0 ≤ rowBig M i ∧ (rowBig M i = 0 → ∀ j, M i j = 0) :=
  ⟨(rowBig_aux (M i) _ 0 (le_refl _)).1, fun h j => (rowBig_aux (M i) _ 0 (le_refl _)).2.1 h j (List.mem_finRange j)⟩

/-- A matrix that is not singular is decomposed; rows before the first exchange stay in place. -/
theorem factorize_fix [NeZero n] (M : Fin n → Fin n → K) (hdet : (Matrix.of M).det ≠ 0) :
    ∃ s σ, factorize M = some s ∧ s = luLoop ⟨M, fun i => 1 / rowBig M i, 0, 1, fun _ => 0⟩ n (Nat.le_refl n) ∧ Inv M s n σ ∧ (∀ i, i ≤ s.pivot i ∧ s.A i i ≠ 0) ∧ ((∀ i, s.pivot i = i) → σ = 1) ∧
      (∀ d : Nat, (∀ i : Fin n, i.1 < d → s.pivot i = i) → ∀ i : Fin n, i.1 < d → σ i = i) ∧ ∀ i, 0 < rowBig M i := by
  have hrow : ¬ ∃ i, rowBig M i = 0 := by
    rintro ⟨i, hi⟩
    exact hdet (Matrix.det_eq_zero_of_row_eq_zero i ((rowBig_zero M i).2 hi))
  have h0 : Inv M (⟨M, fun i => 1 / rowBig M i, 0, 1, fun _ => 0⟩ : LU K n) 0 1 := by
    refine ⟨?_, by simp, fun i => ?_⟩
    · have h1 : lower M 0 = 1 := by
        ext i l; simp only [lower, Matrix.of_apply]; rw [Matrix.one_apply]
        by_cases h : l = i
        · rw [if_pos h, if_pos h.symm]
        · rw [if_neg h, if_neg (Ne.symm h), if_neg (by omega)]
      have h2 : upper M 0 = Matrix.of M := by
        ext l j; simp only [upper, Matrix.of_apply]; rw [if_neg (by omega)]
      intro i j
      show M i j = (lower M 0 * upper M 0) i j
      rw [h1, h2, one_mul, Matrix.of_apply]
    · exact div_pos one_pos (lt_of_le_of_ne (rowBig_zero M i).1 fun h => hrow ⟨i, h.symm⟩)
  obtain ⟨σ, h1, h2, h3, h4⟩ := loop_inv hdet h0 n (Nat.le_refl n)
  exact ⟨_, σ, by unfold factorize; rw [if_neg hrow], rfl, h1, fun i => h2 i i.2, fun h => h3 fun i _ => h i, fun d hd => h4 d fun i hi _ => hd i hi,
    fun i => lt_of_le_of_ne (rowBig_zero M i).1 fun h => hrow ⟨i, h.symm⟩⟩

/-- A matrix that is not singular is decomposed. -/
theorem factorize_inv [NeZero n] (M : Fin n → Fin n → K) (hdet : (Matrix.of M).det ≠ 0) :
    ∃ s σ, factorize M = some s ∧ Inv M s n σ ∧ (∀ i, i ≤ s.pivot i ∧ s.A i i ≠ 0) ∧ ((∀ i, s.pivot i = i) → σ = 1) := by
  obtain ⟨s, σ, h1, -, h2, h3, h4, -⟩ := factorize_fix M hdet
  exact ⟨s, σ, h1, h2, h3, h4⟩

/-- C41: for every matrix that is not singular the decomposition is one: with the rows in some order, the matrix is the product of the unit lower triangular matrix below the diagonal of
the result and the upper triangular matrix on and above it. -/
theorem C41_lu [NeZero n] (M : Fin n → Fin n → K) (hdet : (Matrix.of M).det ≠ 0) :
    ∃ (s : LU K n) (σ : Equiv.Perm (Fin n)), factorize M = some s ∧
      ∀ i j, M (σ i) j = ∑ l, (if l = i then 1 else if l < i then s.A i l else 0) * (if j < l then 0 else s.A l j) := by
  obtain ⟨s, σ, h1, h2, -, -⟩ := factorize_inv M hdet
  refine ⟨s, σ, h1, fun i j => ?_⟩
  rw [h2.prod, Matrix.mul_apply]
  refine Finset.sum_congr rfl fun l _ => ?_
  simp [lower, upper]

theorem foldl_mul (f : Fin n → K) (l : List (Fin n)) (d : K) : l.foldl (fun d i => d * f i) d = d * (l.map f).prod := by
  induction l generalizing d with
  | nil => simp
  | cons a l ih => rw [List.foldl_cons, ih, List.map_cons, List.prod_cons, mul_assoc]

/-- C41: the determinant of every matrix that is not singular is right. -/
theorem C41_determinant_partial [NeZero n] (M : Fin n → Fin n → K) (hdet : (Matrix.of M).det ≠ 0) :
    determinant M = some ((Matrix.of M).det) := by
  obtain ⟨s, σ, h1, h2, -, -⟩ := factorize_inv M hdet
  unfold determinant
  rw [h1, Option.map_some, LU.determinant, foldl_mul, ← List.ofFn_eq_map, List.prod_ofFn, h2.sign, ← upper_det, ← h2.det, ← mul_assoc]
  rcases Int.units_eq_one_or (Equiv.Perm.sign σ) with h | h <;> rw [h] <;> simp

/-- Non-vacuity of `C41_lu` and `C41_determinant_partial`: an exchange of rows is needed. -/
example : (Matrix.of (![![0, 2], ![1, 3]] : Fin 2 → Fin 2 → ℚ)).det ≠ 0 ∧ determinant (![![0, 2], ![1, 3]] : Fin 2 → Fin 2 → ℚ) = some (-2) := by
  have h : (Matrix.of (![![0, 2], ![1, 3]] : Fin 2 → Fin 2 → ℚ)).det = -2 := by rw [Matrix.det_fin_two]; norm_num
  refine ⟨by rw [h]; norm_num, ?_⟩
  rw [C41_determinant_partial _ (by rw [h]; norm_num), h]

/-- C41 is false for singular matrices: the determinant of the matrix of ones is 0, but -1 is returned (no pivot is found in the
second column, and the row of the previous pivot is exchanged). -/
theorem C41_determinant_false : (Matrix.of (![![1, 1], ![1, 1]] : Fin 2 → Fin 2 → ℚ)).det = 0 ∧ determinant (![![1, 1], ![1, 1]] : Fin 2 → Fin 2 → ℚ) = some (-1) := by
  refine ⟨by rw [Matrix.det_fin_two]; norm_num, ?_⟩
  have h2 : List.finRange 2 = [0, 1] := by decide
  norm_num [determinant, factorize, luLoop, luStep, exchange, findPivot, fixPivot, eliminate, rowBig, abs, LU.determinant, h2]

/-- C41 is false for the matrices `(a 0; c 0)` with a column of zeros: the determinant reported is not 0 but `-(c/a)·10⁻²⁰` (the pivot 0 is replaced by `10⁻²⁰`, after the row with the quotient
`c/a` has taken the place of the first pivot). -/
theorem C41_zero_column_false (a c : K) (ha : a ≠ 0) (hc : c ≠ 0) :
    (Matrix.of (![![a, 0], ![c, 0]] : Fin 2 → Fin 2 → K)).det = 0 ∧ determinant (![![a, 0], ![c, 0]] : Fin 2 → Fin 2 → K) = some (-(c / a) / 10 ^ 20) := by
  refine ⟨by rw [Matrix.det_fin_two]; simp, ?_⟩
  have h2 : List.finRange 2 = [0, 1] := by decide
  have pa : 0 < abs a := lt_of_le_of_ne (abs_nonneg' _) (fun h => ha (abs_eq_zero'.mp h.symm))
  have pc : 0 < abs c := lt_of_le_of_ne (abs_nonneg' _) (fun h => hc (abs_eq_zero'.mp h.symm))
  have p0 : abs (0 : K) = 0 := by simp [abs]
  have b0 : rowBig (![![a, 0], ![c, 0]] : Fin 2 → Fin 2 → K) 0 = abs a := by simp [rowBig, h2, pa, p0, not_lt.mpr pa.le]
  have b1 : rowBig (![![a, 0], ![c, 0]] : Fin 2 → Fin 2 → K) 1 = abs c := by simp [rowBig, h2, pc, p0, not_lt.mpr pc.le]
  have hz : ¬ ∃ i, rowBig (![![a, 0], ![c, 0]] : Fin 2 → Fin 2 → K) i = 0 := by
    rintro ⟨i, hi⟩
    fin_cases i
    · exact absurd (b0.symm.trans hi) pa.ne'
    · exact absurd (b1.symm.trans hi) pc.ne'
  unfold determinant factorize
  rw [if_neg hz]
  have q0 : (abs a)⁻¹ * abs a = 1 := inv_mul_cancel₀ pa.ne'
  have q1 : (abs c)⁻¹ * abs c = 1 := inv_mul_cancel₀ pc.ne'
  have f0 : findPivot (⟨![![a, 0], ![c, 0]], fun i => 1 / rowBig (![![a, 0], ![c, 0]] : Fin 2 → Fin 2 → K) i, 0, 1, fun _ => 0⟩ : LU K 2) 0 = (1, 0) := by
    simp [findPivot, h2, b0, b1, q0, q1]
  have s0 : luStep (⟨![![a, 0], ![c, 0]], fun i => 1 / rowBig (![![a, 0], ![c, 0]] : Fin 2 → Fin 2 → K) i, 0, 1, fun _ => 0⟩ : LU K 2) 0 =
      ⟨![![a, 0], ![c / a, 0]], fun i => 1 / rowBig (![![a, 0], ![c, 0]] : Fin 2 → Fin 2 → K) i, 0, 1, fun _ => 0⟩ := by
    unfold luStep
    rw [f0]
    have e : ∀ t : LU K 2, t.A 0 0 ≠ 0 → fixPivot t 0 = t := fun t ht => by unfold fixPivot; rw [if_neg ht]
    dsimp only [exchange]
    rw [if_neg (by simp)]
    rw [e _ (by simpa using ha)]
    unfold eliminate
    dsimp only
    congr 1
    · funext i j
      fin_cases i <;> fin_cases j <;> simp
    · funext i; simp
  have f1 : findPivot (⟨![![a, 0], ![c / a, 0]], fun i => 1 / rowBig (![![a, 0], ![c, 0]] : Fin 2 → Fin 2 → K) i, 0, 1, fun _ => 0⟩ : LU K 2) 1 = (0, 0) := by
    simp [findPivot, h2, p0]
  have s1 : (luStep (⟨![![a, 0], ![c / a, 0]], fun i => 1 / rowBig (![![a, 0], ![c, 0]] : Fin 2 → Fin 2 → K) i, 0, 1, fun _ => 0⟩ : LU K 2) 1).determinant = -(c / a) / 10 ^ 20 := by
    unfold luStep
    rw [f1]
    simp [exchange, fixPivot, eliminate, LU.determinant, h2]
    ring
  rw [Option.map_some, ← s1, ← s0]
  rfl

example : determinant (![![2, 0], ![6, 0]] : Fin 2 → Fin 2 → ℚ) = some (-(6 / 2) / 10 ^ 20) := (C41_zero_column_false 2 6 (by norm_num) (by norm_num)).2

/-! The triangular systems -/

theorem sumWhere_aux (p : Fin n → Bool) (f : Fin n → K) (l : List (Fin n)) (b : K) :
    l.foldl (fun sum j => if p j then sum + f j else sum) b = b + (l.map fun j => if p j then f j else 0).sum := by
  induction l generalizing b with
  | nil => simp
  | cons a l ih =>
    rw [List.foldl_cons, ih, List.map_cons, List.sum_cons]
    split <;> ring

theorem sumWhere_eq (p : Fin n → Bool) (f : Fin n → K) : sumWhere p f = ∑ j, if p j then f j else 0 := by
  rw [sumWhere, sumWhere_aux, zero_add, ← List.ofFn_eq_map, List.sum_ofFn]

theorem forward_spec (A : Fin n → Fin n → K) (ys : Fin n → K) (m : Nat) (hm : m ≤ n) :
    (∀ i : Fin n, i.1 < m → forward A ys m hm i = ys i - ∑ j, if j < i then A i j * forward A ys m hm j else 0) ∧ ∀ i : Fin n, m ≤ i.1 → forward A ys m hm i = ys i := by
  induction m with
  | zero => exact ⟨fun i hi => absurd hi (by omega), fun i _ => rfl⟩
  | succ m ih =>
    obtain ⟨h1, h2⟩ := ih (Nat.le_of_succ_le hm)
    have hold : ∀ i : Fin n, i ≠ ⟨m, hm⟩ → forward A ys (m + 1) hm i = forward A ys m (Nat.le_of_succ_le hm) i := fun i hi => by
      show Function.update _ _ _ i = _
      rw [Function.update_of_ne hi]
    have hnew : forward A ys (m + 1) hm ⟨m, hm⟩ = forward A ys m (Nat.le_of_succ_le hm) ⟨m, hm⟩ - sumWhere (fun j => j.1 < m) fun j => A ⟨m, hm⟩ j * forward A ys m (Nat.le_of_succ_le hm) j := by
      show Function.update _ _ _ _ = _
      rw [Function.update_self]
    refine ⟨fun i hi => ?_, fun i hi => ?_⟩
    · by_cases hlast : i = ⟨m, hm⟩
      · subst hlast
        rw [hnew, sumWhere_eq, h2 _ (le_refl m)]
        congr 1
        refine Finset.sum_congr rfl fun j _ => ?_
        by_cases hj : j < (⟨m, hm⟩ : Fin n)
        · have hj' : j.1 < m := hj
          rw [if_pos hj, if_pos (by simpa using hj'), hold j (ne_of_lt hj)]
        · rw [if_neg hj, if_neg (by simpa using (show ¬ j.1 < m from hj))]
      · have hi' : i.1 < m := by
          have : i.1 ≠ m := fun h => hlast (Fin.ext h)
          omega
        rw [hold i hlast, h1 i hi']
        congr 1
        refine Finset.sum_congr rfl fun j _ => ?_
        split
        · rename_i hj
          rw [hold j (fun h => by subst h; exact absurd (show m < i.1 from hj) (by omega))]
        · rfl
    · rw [hold i (fun h => by subst h; exact absurd hi (by simp)), h2 i (by omega)]

theorem backward_spec (A : Fin n → Fin n → K) (ys : Fin n → K) (m : Nat) (hm : m ≤ n) :
    (∀ i : Fin n, n - m ≤ i.1 → backward A ys m hm i = (ys i - ∑ j, if i < j then A i j * backward A ys m hm j else 0) / A i i) ∧
    ∀ i : Fin n, i.1 < n - m → backward A ys m hm i = ys i := by
  induction m with
  | zero => exact ⟨fun i hi => absurd i.2 (by omega), fun i _ => rfl⟩
  | succ m ih =>
    obtain ⟨h1, h2⟩ := ih (Nat.le_of_succ_le hm)
    have hlt : n - 1 - m < n := by omega
    have hold : ∀ i : Fin n, i ≠ ⟨n - 1 - m, hlt⟩ → backward A ys (m + 1) hm i = backward A ys m (Nat.le_of_succ_le hm) i := fun i hi => by
      show Function.update _ _ _ i = _
      rw [Function.update_of_ne hi]
    have hnew : backward A ys (m + 1) hm ⟨n - 1 - m, hlt⟩ = (backward A ys m (Nat.le_of_succ_le hm) ⟨n - 1 - m, hlt⟩ -
        sumWhere (fun j => (⟨n - 1 - m, hlt⟩ : Fin n) < j) fun j => A ⟨n - 1 - m, hlt⟩ j * backward A ys m (Nat.le_of_succ_le hm) j) / A ⟨n - 1 - m, hlt⟩ ⟨n - 1 - m, hlt⟩ := by
      show Function.update _ _ _ _ = _
      rw [Function.update_self]
    refine ⟨fun i hi => ?_, fun i hi => ?_⟩
    · by_cases hlast : i = ⟨n - 1 - m, hlt⟩
      · subst hlast
        rw [hnew, sumWhere_eq, h2 _ (show n - 1 - m < n - m by omega)]
        congr 2
        refine Finset.sum_congr rfl fun j _ => ?_
        by_cases hj : (⟨n - 1 - m, hlt⟩ : Fin n) < j
        · rw [if_pos hj, if_pos (by simpa using hj), hold j (ne_of_gt hj)]
        · rw [if_neg hj, if_neg (by simpa using hj)]
      · have hi' : n - m ≤ i.1 := by
          have : i.1 ≠ n - 1 - m := fun h => hlast (Fin.ext h)
          omega
        rw [hold i hlast, h1 i hi']
        congr 2
        refine Finset.sum_congr rfl fun j _ => ?_
        split
        · rename_i hj
          rw [hold j (fun h => by subst h; exact absurd (show i.1 < n - 1 - m from hj) (by omega))]
        · rfl
    · rw [hold i (fun h => by subst h; exact absurd (show n - 1 - m < n - (m + 1) from hi) (by omega)), h2 i (by omega)]

/-- The two substitutions solve the triangular systems. -/
theorem subst_solves (A : Fin n → Fin n → K) (hd : ∀ i, A i i ≠ 0) (b : Fin n → K) (i : Fin n) :
    ∑ l, lower A n i l * ∑ j, upper A n l j * backward A (forward A b n (Nat.le_refl n)) n (Nat.le_refl n) j = b i := by
  set y := forward A b n (Nat.le_refl n) with hy
  set x := backward A y n (Nat.le_refl n) with hx
  have hU : ∀ l, ∑ j, upper A n l j * x j = y l := by
    intro l
    have h := (backward_spec A y n (Nat.le_refl n)).1 l (by omega)
    rw [← hx, eq_div_iff (hd l)] at h
    have e : ∑ j, upper A n l j * x j = x l * A l l + ∑ j, if l < j then A l j * x j else 0 := by
      rw [← sub_eq_iff_eq_add, ← Finset.sum_sub_distrib, Fintype.sum_eq_single l]
      · simp [upper]; ring
      · intro j hj
        simp only [upper, Matrix.of_apply]
        rcases lt_or_gt_of_ne hj with h | h
        · rw [if_pos ⟨h, j.2⟩, if_neg (not_lt.mpr h.le)]; ring
        · rw [if_neg (fun h' => absurd h'.1 (not_lt.mpr h.le)), if_pos h]; ring
    rw [e, h]; ring
  simp only [hU]
  have h := (forward_spec A b n (Nat.le_refl n)).1 i i.2
  rw [← hy] at h
  have e : ∑ l, lower A n i l * y l = y i + ∑ j, if j < i then A i j * y j else 0 := by
    rw [← sub_eq_iff_eq_add, ← Finset.sum_sub_distrib, Fintype.sum_eq_single i]
    · simp [lower]
    · intro j hj
      simp only [lower, Matrix.of_apply]
      rw [if_neg hj]
      by_cases h : j < i
      · rw [if_pos ⟨h, j.2⟩, if_pos h]; ring
      · rw [if_neg (fun h' => h h'.1), if_neg h]; ring
  rw [e, h]; ring

/-! The vector solver -/

theorem permute_id (b ys : Fin n → K) : permute (fun i => i) b ys = b := by
  have key : ∀ (l : List (Fin n)) (ys : Fin n → K) (i : Fin n), (i ∈ l ∨ ys i = b i) → l.foldl (fun ys i => Function.update ys i (b i)) ys i = b i := by
    intro l
    induction l with
    | nil => intro ys i h; simpa using h
    | cons a l ih =>
      intro ys i h
      rw [List.foldl_cons]
      refine ih _ i ?_
      by_cases hia : i = a
      · right; rw [hia, Function.update_self]
      · rcases h with h | h
        · left; exact (List.mem_cons.mp h).resolve_left hia
        · right; rw [Function.update_of_ne hia]; exact h
  funext i
  exact key _ _ _ (Or.inl (List.mem_finRange i))

/-- An entry of `b` that is written over later is not used. -/
theorem permute_ignores (pivot : Fin n → Fin n) (b ys : Fin n → K) (i j : Fin n) (hij : i < j) (h : pivot i = pivot j) (x : K) :
    permute pivot (Function.update b i x) ys = permute pivot b ys := by
  have key : ∀ (l : List (Fin n)) (ys zs : Fin n → K), l.Nodup → (∀ a, a ≠ pivot i → ys a = zs a) → (i ∉ l → j ∈ l ∨ ys = zs) → (i ∈ l → j ∈ l ∧ l.idxOf i < l.idxOf j) →
      l.foldl (fun ys i' => Function.update ys (pivot i') (Function.update b i x i')) ys = l.foldl (fun ys i => Function.update ys (pivot i) (b i)) zs := by
    intro l
    induction l with
    | nil => intro ys zs _ h1 h2 _; simpa using h2 (by simp)
    | cons a l ih =>
      intro ys zs hnd h1 h2 h3
      rw [List.foldl_cons, List.foldl_cons]
      rw [List.nodup_cons] at hnd
      by_cases hai : a = i
      · subst hai
        obtain ⟨h3a, h3b⟩ := h3 (by simp)
        have hj : j ∈ l := (List.mem_cons.mp h3a).resolve_left (ne_of_gt hij)
        refine ih _ _ hnd.2 ?_ (fun _ => Or.inl hj) (fun h => absurd h hnd.1)
        intro c hc
        rw [Function.update_of_ne hc, Function.update_of_ne hc]
        exact h1 c hc
      · rw [Function.update_of_ne hai]
        refine ih _ _ hnd.2 ?_ ?_ ?_
        · intro c hc
          by_cases hcp : c = pivot a
          · rw [hcp, Function.update_self, Function.update_self]
          · rw [Function.update_of_ne hcp, Function.update_of_ne hcp]; exact h1 c hc
        · intro hil
          rcases h2 (by simp [hil, Ne.symm hai]) with h | h
          · rcases List.mem_cons.mp h with h | h
            · right
              subst h
              funext c
              by_cases hcp : c = pivot j
              · rw [hcp, Function.update_self, Function.update_self]
              · rw [Function.update_of_ne hcp, Function.update_of_ne hcp]
                exact h1 c (by rw [‹pivot i = pivot j›]; exact hcp)
            · exact Or.inl h
          · exact Or.inr (by rw [h])
        · intro hil
          obtain ⟨h3a, h3b⟩ := h3 (by simp [hil])
          rw [List.idxOf_cons_ne _ hai] at h3b
          have hja : a ≠ j := by
            intro haj
            subst haj
            rw [List.idxOf_cons_self] at h3b
            omega
          rw [List.idxOf_cons_ne _ hja] at h3b
          exact ⟨(List.mem_cons.mp h3a).resolve_left (Ne.symm hja), by omega⟩
  refine key _ ys ys (List.nodup_finRange n) (fun _ _ => rfl) (fun h => absurd (List.mem_finRange i) h) fun _ => ⟨List.mem_finRange j, ?_⟩
  rw [List.idxOf_finRange, List.idxOf_finRange]
  exact hij

/-- The rows were never exchanged. -/
def NoExchange [NeZero n] (M : Fin n → Fin n → K) : Prop := ∀ s, factorize M = some s → ∀ i, s.pivot i = i

/-- C41 (partial: exactly the matrices for which the search for pivots never exchanges rows): for a matrix that is not singular, `SolveVector` solves `M x = b` for every `b` if and only if
no rows are exchanged. -/
theorem C41_solve_partial [NeZero n] (M : Fin n → Fin n → K) (hdet : (Matrix.of M).det ≠ 0) :
    (∀ b, ∃ x, solveVector M b = some x ∧ ∀ i, ∑ j, M i j * x j = b i) ↔ NoExchange M := by
  obtain ⟨s, σ, h1, h2, h3, h4⟩ := factorize_inv M hdet
  have hsol : ∀ b, solveVector M b = some (s.solveVector b fun _ => 0) := fun b => by unfold solveVector; rw [h1]; rfl
  constructor
  · intro h s' hs'
    rw [h1] at hs'
    cases hs'
    by_contra hne
    -- two rows are written to the same place
    have hinj : ¬ Function.Injective s.pivot := by
      intro hinj
      refine hne fun i => ?_
      have : ∀ m : Nat, ∀ i : Fin n, n - 1 - i.1 = m → s.pivot i = i := by
        intro m
        induction m using Nat.strong_induction_on with
        | _ m ih =>
          intro i hi
          by_contra hc
          have hlt : i < s.pivot i := lt_of_le_of_ne (h3 i).1 (Ne.symm hc)
          have := ih (n - 1 - (s.pivot i).1) (by have : i.1 < (s.pivot i).1 := hlt; have := (s.pivot i).2; omega) (s.pivot i) rfl
          exact absurd (hinj this) (ne_of_gt hlt)
      exact this _ i rfl
    rw [Function.Injective] at hinj
    push Not at hinj
    obtain ⟨i, j, hp, hij⟩ := hinj
    have key : ∀ i j : Fin n, s.pivot i = s.pivot j → i < j → False := by
      intro i j hp hij
      obtain ⟨x, hx, hxb⟩ := h fun _ => 0
      obtain ⟨x', hx', hxb'⟩ := h (Function.update (fun _ => 0) i 1)
      have : x' = x := by
        rw [hsol] at hx hx'
        cases hx; cases hx'
        unfold LU.solveVector
        rw [permute_ignores s.pivot _ _ i j hij hp]
      have h5 := hxb i
      have h6 := hxb' i
      rw [this, h5, Function.update_self] at h6
      exact zero_ne_one h6
    rcases lt_or_gt_of_ne hij with h | h
    · exact key i j hp h
    · exact key j i hp.symm h
  · intro hne b
    have hpiv := hne s h1
    have hσ := h4 hpiv
    refine ⟨_, hsol b, fun i => ?_⟩
    have hp : s.pivot = fun i => i := funext hpiv
    unfold LU.solveVector
    rw [hp, permute_id]
    have := subst_solves s.A (fun i => (h3 i).2) b i
    rw [← this]
    have hM : ∀ j, M i j = ∑ l, lower s.A n i l * upper s.A n l j := fun j => by
      have := h2.prod i j
      rw [hσ, Equiv.Perm.one_apply, Matrix.mul_apply] at this
      exact this
    simp only [hM, Finset.sum_mul, Finset.mul_sum]
    rw [Finset.sum_comm]
    refine Finset.sum_congr rfl fun l _ => Finset.sum_congr rfl fun j _ => by ring

/-- C41 is false of the code: the permutation of two unknowns is not solved. -/
theorem C41_solve_false : (Matrix.of (![![0, 1], ![1, 0]] : Fin 2 → Fin 2 → ℚ)).det ≠ 0 ∧ solveVector (![![0, 1], ![1, 0]] : Fin 2 → Fin 2 → ℚ) ![1, 2] = some ![0, 2] := by
  refine ⟨by rw [Matrix.det_fin_two]; norm_num, ?_⟩
  have h2 : List.finRange 2 = [0, 1] := by decide
  norm_num [solveVector, factorize, luLoop, luStep, exchange, findPivot, fixPivot, eliminate, rowBig, abs, LU.solveVector, permute, forward, backward, sumWhere, h2]
  funext i
  fin_cases i <;> simp

/-- Rows are not exchanged in an upper triangular matrix. -/
theorem noExchange_upper [NeZero n] (M : Fin n → Fin n → K) (htri : ∀ i j, j < i → M i j = 0) (hd : ∀ i, M i i ≠ 0) : NoExchange M := by
  intro s hs
  unfold factorize at hs
  split at hs
  · simp at hs
  · rename_i hrow
    cases hs
    have hvv : ∀ i, 0 < 1 / rowBig M i := fun i => div_pos one_pos (lt_of_le_of_ne (rowBig_zero M i).1 fun h => hrow ⟨i, h.symm⟩)
    have key : ∀ m (hm : m ≤ n), (luLoop ⟨M, fun i => 1 / rowBig M i, 0, 1, fun _ => 0⟩ m hm).A = M ∧
        (luLoop ⟨M, fun i => 1 / rowBig M i, 0, 1, fun _ => 0⟩ m hm).vv = (fun i => 1 / rowBig M i) ∧
        ∀ i : Fin n, i.1 < m → (luLoop ⟨M, fun i => 1 / rowBig M i, 0, 1, fun _ => 0⟩ m hm).pivot i = i := by
      intro m
      induction m with
      | zero => intro hm; exact ⟨rfl, rfl, fun i hi => absurd hi (by omega)⟩
      | succ m ih =>
        intro hm
        obtain ⟨h1, h2, h3⟩ := ih (Nat.le_of_succ_le hm)
        rw [luLoop]
        set s := luLoop ⟨M, fun i => 1 / rowBig M i, 0, 1, fun _ => 0⟩ m (Nat.le_of_succ_le hm)
        have hp : (findPivot s ⟨m, hm⟩).2 = ⟨m, hm⟩ :=
          findPivot_self s ⟨m, hm⟩ (by rw [h2]; exact hvv) (by rw [h1]; exact hd _) fun i hi => by rw [h1]; exact htri _ _ hi
        have he : exchange s ⟨m, hm⟩ ⟨m, hm⟩ = { s with imax := ⟨m, hm⟩ } := by unfold exchange; rw [if_neg (by simp)]
        unfold luStep
        simp only [hp, he]
        have hf : fixPivot { s with imax := ⟨m, hm⟩, pivot := fun i => if i = ⟨m, hm⟩ then ⟨m, hm⟩ else s.pivot i } ⟨m, hm⟩ =
            { s with imax := ⟨m, hm⟩, pivot := fun i => if i = ⟨m, hm⟩ then ⟨m, hm⟩ else s.pivot i } := by
          unfold fixPivot; rw [if_neg (by show s.A _ _ ≠ 0; rw [h1]; exact hd _)]
        rw [hf]
        refine ⟨?_, h2, fun i hi => ?_⟩
        · funext i j
          unfold eliminate
          dsimp only
          rw [h1]
          by_cases hi : (⟨m, hm⟩ : Fin n) < i
          · rw [if_pos hi, htri i _ hi]
            by_cases hj : j = ⟨m, hm⟩
            · rw [if_pos hj, hj, htri i _ hi, zero_div]
            · rw [if_neg hj]
              split <;> simp
          · rw [if_neg hi]
        · show (if i = ⟨m, hm⟩ then _ else _) = _
          split
          · rename_i h; exact h.symm
          · rename_i h
            exact h3 i (by have : i.1 ≠ m := fun h' => h (Fin.ext h'); omega)
    exact fun i => (key n (Nat.le_refl n)).2.2 i i.2

/-- C41: upper triangular systems are solved. -/
theorem C41_solve_triangular [NeZero n] (M : Fin n → Fin n → K) (htri : ∀ i j, j < i → M i j = 0) (hd : ∀ i, M i i ≠ 0) (b : Fin n → K) :
    ∃ x, solveVector M b = some x ∧ ∀ i, ∑ j, M i j * x j = b i := by
  refine (C41_solve_partial M ?_).mpr (noExchange_upper M htri hd) b
  rw [Matrix.det_of_upperTriangular (M := Matrix.of M) (fun i j hij => htri i j hij)]
  exact Finset.prod_ne_zero_iff.mpr fun i _ => hd i

/-- Non-vacuity of `C41_solve_partial` and `C41_solve_triangular`. -/
example : (∀ i j : Fin 2, j < i → (![![2, 1], ![0, 3]] : Fin 2 → Fin 2 → ℚ) i j = 0) ∧ ∀ i, (![![2, 1], ![0, 3]] : Fin 2 → Fin 2 → ℚ) i i ≠ 0 := by
  constructor
  · intro i j h; fin_cases i <;> fin_cases j <;> simp at h ⊢
  · intro i; fin_cases i <;> simp

/-- C41 (partial: matrices whose rows are not exchanged): the inverse is one. -/
theorem C41_invert_partial [NeZero n] (M : Fin n → Fin n → K) (hdet : (Matrix.of M).det ≠ 0) (hne : NoExchange M) :
    ∃ X, invert M = some X ∧ ∀ i j, ∑ l, M i l * X l j = if i = j then 1 else 0 := by
  obtain ⟨s, σ, h1, h2, h3, h4⟩ := factorize_inv M hdet
  refine ⟨_, by unfold invert; rw [h1]; rfl, fun i j => ?_⟩
  obtain ⟨x, hx, hxb⟩ := (C41_solve_partial M hdet).mpr hne fun i => if i = j then 1 else 0
  rw [← hxb i]
  refine Finset.sum_congr rfl fun l _ => ?_
  unfold solveVector at hx
  rw [h1] at hx
  cases hx
  have hp : s.pivot = fun i => i := funext (hne s h1)
  show M i l * s.solveVector (fun i => if i = j then 1 else 0) (fun i => if i = j then 1 else 0) l = M i l * s.solveVector (fun i => if i = j then 1 else 0) (fun _ => 0) l
  unfold LU.solveVector
  rw [hp, permute_id, permute_id]

/-- C41 is false for inverses when rows are exchanged: the inverse of an exchange of two rows is the exchange itself. -/
theorem C41_invert_false : ∃ X, invert (![![0, 1], ![1, 0]] : Fin 2 → Fin 2 → ℚ) = some X ∧ X 0 0 = 1 := by
  have h2 : List.finRange 2 = [0, 1] := by decide
  have hf : factorize (![![0, 1], ![1, 0]] : Fin 2 → Fin 2 → ℚ) ≠ none := by
    unfold factorize
    rw [if_neg]
    · simp
    · rintro ⟨i, hi⟩
      have := (rowBig_zero _ i).2 hi
      fin_cases i
      · have := this 1; simp at this
      · have := this 0; simp at this
  obtain ⟨s, hs⟩ := Option.ne_none_iff_exists'.mp hf
  refine ⟨_, by unfold invert; rw [hs]; rfl, ?_⟩
  norm_num [factorize, luLoop, luStep, exchange, findPivot, fixPivot, eliminate, rowBig, abs, h2] at hs
  rw [← hs]
  norm_num [LU.solveMatrix, LU.solveVector, permute, forward, backward, sumWhere, h2, Function.update_apply]

theorem permute_zero (pivot : Fin n → Fin n) : permute pivot (fun _ => (0 : K)) (fun _ => 0) = fun _ => 0 := by
  unfold permute
  have : ∀ l : List (Fin n), l.foldl (fun (ys : Fin n → K) i => Function.update ys (pivot i) 0) (fun _ => 0) = fun _ => 0 := by
    intro l
    induction l with
    | nil => rfl
    | cons a l ih =>
      rw [List.foldl_cons]
      have : Function.update (fun _ => (0 : K)) (pivot a) 0 = fun _ => 0 := Function.update_eq_self (pivot a) fun _ => (0 : K)
      rw [this]; exact ih
  exact this _

theorem forward_zero (A : Fin n → Fin n → K) (m : Nat) (hm : m ≤ n) : forward A (fun _ => 0) m hm = fun _ => 0 := by
  induction m with
  | zero => rfl
  | succ m ih =>
    rw [forward]
    simp only [ih, mul_zero, sumWhere_eq, ite_self, Finset.sum_const_zero, sub_zero]
    exact Function.update_eq_self _ _

theorem backward_zero (A : Fin n → Fin n → K) (m : Nat) (hm : m ≤ n) : backward A (fun _ => 0) m hm = fun _ => 0 := by
  induction m with
  | zero => rfl
  | succ m ih =>
    rw [backward]
    simp only [ih, mul_zero, sumWhere_eq, ite_self, Finset.sum_const_zero, sub_zero, zero_div]
    exact Function.update_eq_self _ _

/-- C41 is false for `Matrix.SolveMatrix`: it does not use its argument and returns the matrix of zeros for every system (or panics). -/
theorem C41_solve_matrix_false [NeZero n] (M b : Fin n → Fin n → K) : solveMatrix M b = none ∨ solveMatrix M b = some fun _ _ => 0 := by
  unfold solveMatrix
  match h : factorize M with
  | none => left; rfl
  | some s =>
    right
    simp only [Option.map_some, Option.some.injEq]
    funext i j
    show s.solveVector (fun _ => 0) (fun _ => 0) i = 0
    unfold LU.solveVector
    rw [permute_zero, forward_zero, backward_zero]

end Shellfish.Mat
