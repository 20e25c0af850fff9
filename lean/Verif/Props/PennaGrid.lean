/- C75: for every order there are directions that determine the coefficients. -/
import Verif.Props.PennaMore
import Mathlib.Algebra.Polynomial.Roots
import Mathlib.Algebra.Polynomial.BigOperators

namespace Shellfish.Analyze
noncomputable section
open Shellfish.Geom (Vec)
open Real
open Finset (range)

/-- A polynomial with fewer coefficients than zeros vanishes. -/
theorem poly_zero (n : Nat) (a : Nat → ℝ) (x : Nat → ℝ) (hx : ∀ i < n, ∀ j < n, x i = x j → i = j) (h : ∀ m < n, ∑ i ∈ range n, a i * x m ^ i = 0) : ∀ i < n, a i = 0 := by
  classical
  set p : Polynomial ℝ := ∑ i ∈ range n, Polynomial.C (a i) * Polynomial.X ^ i with hp
  have hc : ∀ i < n, p.coeff i = a i := by
    intro i hi
    rw [hp, Polynomial.finsetSum_coeff]
    simp only [Polynomial.coeff_C_mul_X_pow]
    rw [Finset.sum_ite_eq, if_pos (Finset.mem_range.2 hi)]
  have hp0 : p = 0 := by
    by_contra hne
    have hdeg : p.natDegree < n := by
      rcases Nat.eq_zero_or_pos n with h0 | h0
      · subst h0; exact absurd (by simp [hp]) hne
      · refine lt_of_le_of_lt (Polynomial.natDegree_sum_le_of_forall_le (range n) _ (n := n - 1) fun i hi => ?_) (by omega)
        exact (Polynomial.natDegree_C_mul_X_pow_le _ _).trans (by have := Finset.mem_range.1 hi; omega)
    have hroots : (Finset.image x (range n)).card ≤ p.natDegree := by
      refine Polynomial.card_le_degree_of_subset_roots fun r hr => ?_
      obtain ⟨m, hm, rfl⟩ := Finset.mem_image.1 (Finset.mem_def.2 hr)
      rw [Polynomial.mem_roots hne, Polynomial.IsRoot.def, hp, Polynomial.eval_finsetSum]
      simpa using h m (Finset.mem_range.1 hm)
    rw [Finset.card_image_of_injOn (fun i hi j hj e => hx i (Finset.mem_range.1 hi) j (Finset.mem_range.1 hj) e), Finset.card_range] at hroots
    omega
  intro i hi
  rw [← hc i hi, hp0, Polynomial.coeff_zero]

/-- Angles of the direction (x, y, z). -/
theorem sight_exists (x y z : ℝ) (h : x ^ 2 + y ^ 2 + z ^ 2 = 1) (hz : z ^ 2 < 1) : ∃ p : Sight, p.offAxis ∧ cartesian p.phi p.theta 1 = ⟨x, y, z⟩ := by
  have hz' := abs_lt.1 ((sq_lt_one_iff_abs_lt_one z).1 hz)
  have hs : sin (arccos z) = Real.sqrt (x ^ 2 + y ^ 2) := by rw [Real.sin_arccos]; congr 1; linarith
  have hr : ‖(⟨x, y⟩ : ℂ)‖ = Real.sqrt (x ^ 2 + y ^ 2) := by rw [Complex.norm_def, Complex.normSq_mk]; congr 1; ring
  refine ⟨⟨Complex.arg ⟨x, y⟩, arccos z, 1⟩, ⟨one_pos, Real.arccos_pos.2 hz'.2, ?_⟩, ?_⟩
  · show arccos z < π
    refine lt_of_le_of_ne (Real.arccos_le_pi z) fun hc => ?_
    have := Real.arccos_eq_pi.1 hc
    linarith
  · unfold cartesian
    dsimp only
    rw [hs, ← hr, one_mul, one_mul, Complex.norm_mul_cos_arg, Complex.norm_mul_sin_arg, Real.cos_arccos hz'.1.le hz'.2.le]

/-- The coordinates of the grid. -/
def gridPos (n a : Nat) : ℝ := ((a : ℝ) + 1) / (2 * n)

theorem gridPos_range {n a : Nat} (h : a < n) : 0 < gridPos n a ∧ gridPos n a ≤ 1 / 2 := by
  unfold gridPos
  have hn : (0 : ℝ) < n := by exact_mod_cast (by omega : 0 < n)
  have ha : (a : ℝ) + 1 ≤ n := by exact_mod_cast h
  constructor
  · positivity
  · rw [div_le_iff₀ (by positivity)]; linarith

theorem gridPos_inj {n : Nat} : ∀ i < n, ∀ j < n, gridPos n i = gridPos n j → i = j := by
  intro i hi j hj h
  have hn : (0 : ℝ) < n := by exact_mod_cast (by omega : 0 < n)
  unfold gridPos at h
  rw [div_left_inj' (by positivity)] at h
  have : (i : ℝ) = j := by linarith
  exact_mod_cast this

/-- The height of the sphere over the grid. -/
def gridZ (n a b : Nat) : ℝ := Real.sqrt (1 - gridPos n a ^ 2 - gridPos n b ^ 2)

theorem gridZ_spec {n a b : Nat} (ha : a < n) (hb : b < n) : gridPos n a ^ 2 + gridPos n b ^ 2 + gridZ n a b ^ 2 = 1 ∧ 0 < gridZ n a b ∧ gridZ n a b ^ 2 < 1 := by
  obtain ⟨a1, a2⟩ := gridPos_range ha
  obtain ⟨b1, b2⟩ := gridPos_range hb
  have h : 0 < 1 - gridPos n a ^ 2 - gridPos n b ^ 2 := by nlinarith
  have e : gridZ n a b ^ 2 = 1 - gridPos n a ^ 2 - gridPos n b ^ 2 := Real.sq_sqrt h.le
  exact ⟨by rw [e]; ring, Real.sqrt_pos.2 h, by rw [e]; nlinarith⟩

/-- For every order some points determine the coefficients. -/
theorem C75_determined (n : Nat) (hn : 1 ≤ n) : ∃ pts : List Sight, pts ≠ [] ∧ (∀ p ∈ pts, p.offAxis) ∧ Determined n n 2 pts := by
  have hS : ∀ a b : Nat, ∃ p q : Sight, a < n → b < n → p.offAxis ∧ q.offAxis ∧ cartesian p.phi p.theta 1 = ⟨gridPos n a, gridPos n b, gridZ n a b⟩ ∧
      cartesian q.phi q.theta 1 = ⟨gridPos n a, gridPos n b, -gridZ n a b⟩ := by
    intro a b
    by_cases h : a < n ∧ b < n
    · obtain ⟨h1, h2, h3⟩ := gridZ_spec h.1 h.2
      obtain ⟨p, p1, p2⟩ := sight_exists _ _ _ h1 h3
      obtain ⟨q, q1, q2⟩ := sight_exists (gridPos n a) (gridPos n b) (-gridZ n a b) (by rw [neg_sq]; exact h1) (by rw [neg_sq]; exact h3)
      exact ⟨p, q, fun _ _ => ⟨p1, q1, p2, q2⟩⟩
    · exact ⟨⟨0, 0, 0⟩, ⟨0, 0, 0⟩, fun h1 h2 => absurd ⟨h1, h2⟩ h⟩
  choose P Q hPQ using hS
  set pts : List Sight := (List.range n).flatMap fun a => (List.range n).flatMap fun b => [P a b, Q a b] with hpts
  have hmem : ∀ a < n, ∀ b < n, P a b ∈ pts ∧ Q a b ∈ pts := by
    intro a ha b hb
    constructor <;> exact List.mem_flatMap.2 ⟨a, List.mem_range.2 ha, List.mem_flatMap.2 ⟨b, List.mem_range.2 hb, by simp⟩⟩
  refine ⟨pts, List.ne_nil_of_mem (hmem 0 (by omega) 0 (by omega)).1, ?_, ?_⟩
  · intro p hp
    simp only [hpts, List.mem_flatMap, List.mem_range, List.mem_cons, List.not_mem_nil, or_false] at hp
    obtain ⟨a, ha, b, hb, rfl | rfl⟩ := hp
    · exact (hPQ a b ha hb).1
    · exact (hPQ a b ha hb).2.1
  · intro c hc h
    have hval : ∀ phi th, pennaShell c n n 2 phi th = (∑ j ∈ range n, ∑ i ∈ range n, c.getD ((0 * n + j) * n + i) 0 * ((cartesian phi th 1).x ^ i * (cartesian phi th 1).y ^ j)) +
        (∑ j ∈ range n, ∑ i ∈ range n, c.getD ((1 * n + j) * n + i) 0 * ((cartesian phi th 1).x ^ i * (cartesian phi th 1).y ^ j)) * (cartesian phi th 1).z := by
      intro phi th
      unfold pennaShell
      rw [C75_polynomial c n n 2 hc.ge, Option.getD_some, Finset.sum_range_succ, Finset.sum_range_one, Finset.sum_mul]
      congr 1
      · simp
      · refine Finset.sum_congr rfl fun j _ => ?_
        rw [Finset.sum_mul]
        exact Finset.sum_congr rfl fun i _ => by ring
    have hgrid : ∀ k < 2, ∀ a < n, ∀ b < n, ∑ j ∈ range n, ∑ i ∈ range n, c.getD ((k * n + j) * n + i) 0 * (gridPos n a ^ i * gridPos n b ^ j) = 0 := by
      intro k hk a ha b hb
      obtain ⟨_, _, e1, e2⟩ := hPQ a b ha hb
      have h1 := h _ (hmem a ha b hb).1
      have h2 := h _ (hmem a ha b hb).2
      rw [hval, e1] at h1
      rw [hval, e2] at h2
      dsimp only at h1 h2
      have hz := (gridZ_spec ha hb).2.1
      have hk' : k = 0 ∨ k = 1 := by omega
      rcases hk' with rfl | rfl
      · linarith
      · have : (∑ j ∈ range n, ∑ i ∈ range n, c.getD ((1 * n + j) * n + i) 0 * (gridPos n a ^ i * gridPos n b ^ j)) * gridZ n a b = 0 := by linarith
        exact (mul_eq_zero.1 this).resolve_right hz.ne'
    have hzero : ∀ k < 2, ∀ j < n, ∀ i < n, c.getD ((k * n + j) * n + i) 0 = 0 := by
      intro k hk
      have step : ∀ a < n, ∀ j < n, ∑ i ∈ range n, c.getD ((k * n + j) * n + i) 0 * gridPos n a ^ i = 0 := by
        intro a ha
        refine poly_zero n _ (gridPos n) gridPos_inj fun b hb => ?_
        refine Eq.trans ?_ (hgrid k hk a ha b hb)
        refine Finset.sum_congr rfl fun j _ => ?_
        rw [Finset.sum_mul]
        exact Finset.sum_congr rfl fun i _ => by ring
      intro j hj
      exact poly_zero n _ (gridPos n) gridPos_inj fun a ha => step a ha j hj
    intro x hx
    obtain ⟨m, hm, rfl⟩ := List.getElem_of_mem hx
    rw [hc] at hm
    have hm2 : m / n / n < 2 := by
      rw [Nat.div_div_eq_div_mul, Nat.div_lt_iff_lt_mul (by positivity)]; linarith
    have := hzero (m / n / n) hm2 (m / n % n) (Nat.mod_lt _ hn) (m % n) (Nat.mod_lt _ hn)
    rw [show (m / n / n * n + m / n % n) * n + m % n = m by rw [Nat.div_add_mod', Nat.div_add_mod'], List.getD_eq_getElem _ _ (by omega)] at this
    exact this

end
end Shellfish.Analyze
