/-
C117: the bootstrap error of a percentile in machine arithmetic.
-/
import Verif.Model.BootRound
import Verif.Props.PolarRound
import Verif.Props.Sort

namespace Shellfish.Round
open Shellfish.Sort (percentile nthLargest)

/-- The variance of a list of numbers: the mean of the squared deviations from the mean. -/
def variance (ps : List ℚ) : ℚ := (ps.map fun p => (p - ps.sum / ps.length) ^ 2).sum / ps.length

theorem variance_eq (ps : List ℚ) (hn : ps ≠ []) : variance ps = (ps.map fun p => p * p).sum / ps.length - (ps.sum / ps.length) ^ 2 := by
  have hl : (0 : ℚ) < ps.length := by exact_mod_cast List.length_pos_iff.mpr hn
  have key : ∀ (l : List ℚ) (m : ℚ), (l.map fun p => (p - m) ^ 2).sum = (l.map fun p => p * p).sum - 2 * m * l.sum + l.length * m ^ 2 := by
    intro l m
    induction l with
    | nil => simp
    | cons p l ih => simp only [List.map_cons, List.sum_cons, ih, List.length_cons]; push_cast; ring
  unfold variance
  rw [key]
  field_simp
  ring

/-! Rounded sums -/

theorem pow_lo (n : Nat) : (1 : ℚ) - n / 2 ^ 53 ≤ (1 - 1 / 2 ^ 53) ^ n := by
  have := one_add_mul_le_pow (show (-2 : ℚ) ≤ -(1 / 2 ^ 53) by norm_num) n
  calc (1 : ℚ) - n / 2 ^ 53 = 1 + n * -(1 / 2 ^ 53) := by ring
    _ ≤ _ := this
    _ = _ := by ring

theorem pow_hi (n : Nat) (hn : n ≤ 2 ^ 50) : (1 + 1 / 2 ^ 53 : ℚ) ^ n ≤ 1 + 2 * n / 2 ^ 53 := by
  induction n with
  | zero => simp
  | succ n ih =>
    have h := ih (by omega)
    have hn' : (n : ℚ) ≤ 2 ^ 50 := by exact_mod_cast (show n ≤ 2 ^ 50 by omega)
    have h0 : (0 : ℚ) ≤ n := by positivity
    rw [pow_succ]
    push_cast
    calc (1 + 1 / 2 ^ 53 : ℚ) ^ n * (1 + 1 / 2 ^ 53) ≤ (1 + 2 * n / 2 ^ 53) * (1 + 1 / 2 ^ 53) := mul_le_mul_of_nonneg_right h (by norm_num)
      _ ≤ _ := by nlinarith

/-- The rounded sum of the rounded values `f p` of non-negative numbers. -/
theorem rsum_bounds (f : ℚ → ℚ) (g : ℚ → ℚ) (hg : ∀ p, 0 ≤ p → 0 ≤ g p) (j : Nat) (hf : ∀ p, 0 ≤ p → g p * (1 - 1 / 2 ^ 53) ^ j ≤ f p ∧ f p ≤ g p * (1 + 1 / 2 ^ 53) ^ j) :
    ∀ (ps : List ℚ), (∀ p ∈ ps, 0 ≤ p) → ∀ (k : Nat) (s S : ℚ), 0 ≤ S → S * (1 - 1 / 2 ^ 53) ^ (j + k) ≤ s → s ≤ S * (1 + 1 / 2 ^ 53) ^ (j + k) →
      (S + (ps.map g).sum) * (1 - 1 / 2 ^ 53) ^ (j + k + ps.length) ≤ ps.foldl (fun s p => r64 (s + f p)) s ∧
        ps.foldl (fun s p => r64 (s + f p)) s ≤ (S + (ps.map g).sum) * (1 + 1 / 2 ^ 53) ^ (j + k + ps.length)
  | [], _, k, s, S, _, h1, h2 => by simp only [List.foldl_nil, List.map_nil, List.sum_nil, add_zero, List.length_nil]; exact ⟨h1, h2⟩
  | p :: ps, hp, k, s, S, hS, h1, h2 => by
    have hp0 := hp p (by simp)
    have hgp := hg p hp0
    obtain ⟨f1, f2⟩ := hf p hp0
    have lo : (0 : ℚ) ≤ 1 - 1 / 2 ^ 53 := by norm_num
    have a1 : (1 - 1 / 2 ^ 53 : ℚ) ^ (j + k) ≤ (1 - 1 / 2 ^ 53) ^ j := pow_le_pow_of_le_one lo (by norm_num) (by omega)
    have a2 : (1 + 1 / 2 ^ 53 : ℚ) ^ j ≤ (1 + 1 / 2 ^ 53) ^ (j + k) := pow_le_pow_right₀ (by norm_num) (by omega)
    have b1 : g p * (1 - 1 / 2 ^ 53) ^ (j + k) ≤ f p := le_trans (mul_le_mul_of_nonneg_left a1 hgp) f1
    have b2 : f p ≤ g p * (1 + 1 / 2 ^ 53) ^ (j + k) := le_trans f2 (mul_le_mul_of_nonneg_left a2 hgp)
    obtain ⟨c1, c2⟩ := r64_sum_bounds hS hgp (pow_nonneg lo (j + k)) ⟨h1, h2⟩ ⟨b1, b2⟩
    have := rsum_bounds f g hg j hf ps (fun q hq => hp q (by simp [hq])) (k + 1) (r64 (s + f p)) (S + g p) (add_nonneg hS hgp)
      (by rw [← add_assoc, pow_succ]; exact c1) (by rw [← add_assoc, pow_succ]; exact c2)
    simp only [List.foldl_cons, List.map_cons, List.sum_cons, List.length_cons]
    rw [show j + k + (ps.length + 1) = j + (k + 1) + ps.length by ring, ← add_assoc]
    exact this

theorem r64_mul_bounds {a A l h : ℚ} (hA : 0 ≤ A) (hl : 0 ≤ l) (h1 : A * l ≤ a) (h2 : a ≤ A * h) : A * (l * (1 - 1 / 2 ^ 53)) ≤ r64 a ∧ r64 a ≤ A * (h * (1 + 1 / 2 ^ 53)) := by
  have h0 : 0 ≤ a := le_trans (mul_nonneg hA hl) h1
  obtain ⟨c1, c2⟩ := r64_bounds h0
  constructor
  · refine le_trans ?_ c1
    rw [← mul_assoc]
    exact mul_le_mul_of_nonneg_right h1 (by norm_num)
  · refine le_trans c2 ?_
    rw [← mul_assoc]
    exact mul_le_mul_of_nonneg_right h2 (by norm_num)

/-- The number of which the root is taken is close to the variance. -/
theorem spread_arg (ps : List ℚ) (hne : ps ≠ []) (hlen : ps.length ≤ 2 ^ 40) (M : ℚ) (hp : ∀ p ∈ ps, 0 ≤ p ∧ p ≤ M) :
    |r64 (r64 (ps.foldl (fun s p => r64 (s + r64 (p * p))) 0 / (ps.length : ℚ)) - r64 (r64 (ps.foldl (fun s p => r64 (s + p)) 0 / (ps.length : ℚ)) * r64 (ps.foldl (fun s p => r64 (s + p)) 0 / (ps.length : ℚ)))) -
      variance ps| ≤ ps.length * M ^ 2 / 2 ^ 48 := by
  have hl0 : 0 < ps.length := List.length_pos_iff.mpr hne
  have hl : (0 : ℚ) < ps.length := by exact_mod_cast hl0
  have hl1 : (1 : ℚ) ≤ ps.length := by exact_mod_cast hl0
  have lo : (0 : ℚ) ≤ 1 - 1 / 2 ^ 53 := by norm_num
  have hp0 : ∀ p ∈ ps, 0 ≤ p := fun p h => (hp p h).1
  obtain ⟨s1, s2⟩ := rsum_bounds (fun p => p) (fun p => p) (fun p h => h) 0 (fun p _ => by simp) ps hp0 0 0 0 le_rfl (by simp) (by simp)
  obtain ⟨q1, q2⟩ := rsum_bounds (fun p => r64 (p * p)) (fun p => p * p) (fun p _ => mul_self_nonneg p) 1 (fun p _ => by rw [pow_one, pow_one]; exact r64_bounds (mul_self_nonneg p)) ps hp0 0 0 0 le_rfl (by simp) (by simp)
  rw [variance_eq ps hne]
  simp only [List.map_id', zero_add, add_zero] at s1 s2 q1 q2
  have hsum0 : 0 ≤ ps.sum := List.sum_nonneg hp0
  have hsq0 : 0 ≤ (ps.map fun p => p * p).sum := List.sum_nonneg (by intro y hy; obtain ⟨p, _, rfl⟩ := List.mem_map.mp hy; exact mul_self_nonneg p)
  have hsumM : ∀ l : List ℚ, (∀ p ∈ l, 0 ≤ p ∧ p ≤ M) → l.sum ≤ l.length * M ∧ (l.map fun p => p * p).sum ≤ l.length * M ^ 2 := by
    intro l hl
    induction l with
    | nil => simp
    | cons p l ih =>
      obtain ⟨i1, i2⟩ := ih fun q hq => hl q (by simp [hq])
      have := hl p (by simp)
      simp only [List.map_cons, List.sum_cons, List.length_cons]
      push_cast
      constructor <;> nlinarith
  obtain ⟨hM1, hM2⟩ := hsumM ps hp
  have hM0 : 0 ≤ M := by
    obtain ⟨p, hpm⟩ := List.exists_mem_of_ne_nil _ hne
    have := hp p hpm
    linarith
  set n := ps.length with hn
  generalize ps.foldl (fun s p => r64 (s + p)) 0 = fs at *
  generalize ps.foldl (fun s p => r64 (s + r64 (p * p))) 0 = fq at *
  -- the means
  set mu := ps.sum / (n : ℚ) with hmu
  set Q := (ps.map fun p => p * p).sum / (n : ℚ) with hQ
  have hmu0 : 0 ≤ mu := div_nonneg hsum0 hl.le
  have hQ0 : 0 ≤ Q := div_nonneg hsq0 hl.le
  have hmuM : mu ≤ M := by rw [hmu, div_le_iff₀ hl]; linarith
  have hQM : Q ≤ M ^ 2 := by rw [hQ, div_le_iff₀ hl]; linarith
  have d1 : mu * (1 - 1 / 2 ^ 53) ^ n ≤ fs / n ∧ fs / n ≤ mu * (1 + 1 / 2 ^ 53) ^ n := by
    rw [hmu, div_mul_eq_mul_div, div_mul_eq_mul_div]
    exact ⟨div_le_div_of_nonneg_right s1 hl.le, div_le_div_of_nonneg_right s2 hl.le⟩
  have d2 : Q * (1 - 1 / 2 ^ 53) ^ (1 + n) ≤ fq / n ∧ fq / n ≤ Q * (1 + 1 / 2 ^ 53) ^ (1 + n) := by
    rw [hQ, div_mul_eq_mul_div, div_mul_eq_mul_div]
    exact ⟨div_le_div_of_nonneg_right q1 hl.le, div_le_div_of_nonneg_right q2 hl.le⟩
  have m1 := r64_mul_bounds hmu0 (pow_nonneg lo _) d1.1 d1.2
  have m2 := r64_mul_bounds hQ0 (pow_nonneg lo _) d2.1 d2.2
  rw [← pow_succ, ← pow_succ] at m1 m2
  generalize r64 (fs / n) = m at *
  generalize r64 (fq / n) = q at *
  have hm0 : 0 ≤ m := le_trans (mul_nonneg hmu0 (pow_nonneg lo _)) m1.1
  have mm : mu ^ 2 * ((1 - 1 / 2 ^ 53) ^ (n + 1)) ^ 2 ≤ m * m ∧ m * m ≤ mu ^ 2 * ((1 + 1 / 2 ^ 53) ^ (n + 1)) ^ 2 := by
    rw [← mul_pow, ← mul_pow, ← sq]
    exact ⟨pow_le_pow_left₀ (mul_nonneg hmu0 (pow_nonneg lo _)) m1.1 2, pow_le_pow_left₀ hm0 m1.2 2⟩
  have m3 := r64_mul_bounds (sq_nonneg mu) (pow_nonneg (pow_nonneg lo _) 2) mm.1 mm.2
  rw [← pow_mul, ← pow_succ, ← pow_mul, ← pow_succ] at m3
  generalize r64 (m * m) = w at *
  have hn40 : (n : ℚ) ≤ 2 ^ 40 := by exact_mod_cast hlen
  -- numerical bounds
  have P1 := pow_lo (1 + n + 1)
  have P2 := pow_hi (1 + n + 1) (by omega)
  have P3 := pow_lo ((n + 1) * 2 + 1)
  have P4 := pow_hi ((n + 1) * 2 + 1) (by omega)
  push_cast at P1 P2 P3 P4
  have hM2' : (0 : ℚ) ≤ M ^ 2 := sq_nonneg M
  have hmu2 : mu ^ 2 ≤ M ^ 2 := pow_le_pow_left₀ hmu0 hmuM 2
  have hqe : |q - Q| ≤ M ^ 2 * (2 * (n + 2) / 2 ^ 53) := by
    have t1 := mul_le_mul_of_nonneg_left P1 hQ0
    have t2 := mul_le_mul_of_nonneg_left P2 hQ0
    have t3 : Q * ((n + 2) / 2 ^ 53) ≤ M ^ 2 * ((n + 2) / 2 ^ 53) := mul_le_mul_of_nonneg_right hQM (by positivity)
    have t4 : (0 : ℚ) ≤ M ^ 2 * ((n + 2) / 2 ^ 53) := mul_nonneg hM2' (by positivity)
    have u1 : Q * (1 - (1 + (n : ℚ) + 1) / 2 ^ 53) = Q - Q * ((n + 2) / 2 ^ 53) := by ring
    have u2 : Q * (1 + 2 * (1 + (n : ℚ) + 1) / 2 ^ 53) = Q + 2 * (Q * ((n + 2) / 2 ^ 53)) := by ring
    have u3 : M ^ 2 * (2 * ((n : ℚ) + 2) / 2 ^ 53) = 2 * (M ^ 2 * ((n + 2) / 2 ^ 53)) := by ring
    rw [u1] at t1
    rw [u2] at t2
    rw [u3, abs_le]
    exact ⟨by linarith [m2.1], by linarith [m2.2]⟩
  have hwe : |w - mu ^ 2| ≤ M ^ 2 * (2 * (2 * n + 3) / 2 ^ 53) := by
    have t1 := mul_le_mul_of_nonneg_left P3 (sq_nonneg mu)
    have t2 := mul_le_mul_of_nonneg_left P4 (sq_nonneg mu)
    have t3 : mu ^ 2 * ((2 * n + 3) / 2 ^ 53) ≤ M ^ 2 * ((2 * n + 3) / 2 ^ 53) := mul_le_mul_of_nonneg_right hmu2 (by positivity)
    have t4 : (0 : ℚ) ≤ M ^ 2 * ((2 * n + 3) / 2 ^ 53) := mul_nonneg hM2' (by positivity)
    have u1 : mu ^ 2 * (1 - (((n : ℚ) + 1) * 2 + 1) / 2 ^ 53) = mu ^ 2 - mu ^ 2 * ((2 * n + 3) / 2 ^ 53) := by ring
    have u2 : mu ^ 2 * (1 + 2 * (((n : ℚ) + 1) * 2 + 1) / 2 ^ 53) = mu ^ 2 + 2 * (mu ^ 2 * ((2 * n + 3) / 2 ^ 53)) := by ring
    have u3 : M ^ 2 * (2 * (2 * (n : ℚ) + 3) / 2 ^ 53) = 2 * (M ^ 2 * ((2 * n + 3) / 2 ^ 53)) := by ring
    rw [u1] at t1
    rw [u2] at t2
    rw [u3, abs_le]
    exact ⟨by linarith [m3.1], by linarith [m3.2]⟩
  have herr := rn_error (p := 53) (by norm_num) (q - w)
  have h53 : (2 : ℚ) ^ (-((53 : ℕ) : ℤ)) = 1 / 2 ^ 53 := by norm_num
  rw [h53] at herr
  have hqw : |q - w| ≤ 3 * M ^ 2 := by
    have hb : M ^ 2 * (2 * (n + 2) / 2 ^ 53) ≤ M ^ 2 := by
      rw [mul_comm]; exact mul_le_of_le_one_left hM2' (by rw [div_le_one (by norm_num)]; linarith)
    have hb' : M ^ 2 * (2 * (2 * n + 3) / 2 ^ 53) ≤ M ^ 2 := by
      rw [mul_comm]; exact mul_le_of_le_one_left hM2' (by rw [div_le_one (by norm_num)]; linarith)
    obtain ⟨g1, g2⟩ := abs_le.mp hqe
    obtain ⟨g3, g4⟩ := abs_le.mp hwe
    have hm2 := sq_nonneg mu
    rw [abs_le]
    constructor <;> linarith
  show |rn 53 (q - w) - (Q - mu ^ 2)| ≤ _
  have e1 := abs_le.mp herr
  have e2 := abs_le.mp hqe
  have e3 := abs_le.mp hwe
  have hfin : M ^ 2 * (2 * (n + 2) / 2 ^ 53) + M ^ 2 * (2 * (2 * n + 3) / 2 ^ 53) + 1 / 2 ^ 53 * (3 * M ^ 2) ≤ n * M ^ 2 / 2 ^ 48 := by
    have : M ^ 2 * 1 ≤ M ^ 2 * n := mul_le_mul_of_nonneg_left hl1 hM2'
    have u1 : M ^ 2 * (2 * ((n : ℚ) + 2) / 2 ^ 53) + M ^ 2 * (2 * (2 * n + 3) / 2 ^ 53) + 1 / 2 ^ 53 * (3 * M ^ 2) = (6 * (M ^ 2 * n) + 13 * (M ^ 2 * 1)) / 2 ^ 53 := by ring
    have u2 : (n : ℚ) * M ^ 2 / 2 ^ 48 = 32 * (M ^ 2 * n) / 2 ^ 53 := by ring
    rw [u1, u2]
    have h0 : 0 ≤ M ^ 2 * n := mul_nonneg hM2' hl.le
    exact div_le_div_of_nonneg_right (by linarith) (by norm_num)
  have e4 : 1 / 2 ^ 53 * |q - w| ≤ 1 / 2 ^ 53 * (3 * M ^ 2) := mul_le_mul_of_nonneg_left hqw (by norm_num)
  rw [abs_le]
  constructor <;> linarith [e1.1, e1.2, e2.1, e2.2, e3.1, e3.2]

/-! The error -/

/-- C117: exactly when the error is NaN: there are no samples, or the rounded mean square is less than the rounded square of the rounded mean. -/
theorem C117_nan (ps : List ℚ) : spread64 ps = none ↔ ps = [] ∨
    r64 (ps.foldl (fun s p => r64 (s + r64 (p * p))) 0 / (ps.length : ℚ)) < r64 (r64 (ps.foldl (fun s p => r64 (s + p)) 0 / (ps.length : ℚ)) ^ 2) := by
  unfold spread64 sqrt64
  by_cases h : ps = []
  · subst h; simp
  · rw [if_neg (by simpa using h)]
    dsimp only
    rw [sq]
    by_cases hc : r64 (r64 (ps.foldl (fun s p => r64 (s + r64 (p * p))) 0 / (ps.length : ℚ)) - r64 (r64 (ps.foldl (fun s p => r64 (s + p)) 0 / (ps.length : ℚ)) * r64 (ps.foldl (fun s p => r64 (s + p)) 0 / (ps.length : ℚ)))) < 0
    · rw [if_pos hc]
      rw [r64_neg_iff, sub_neg] at hc
      exact ⟨fun _ => Or.inr hc, fun _ => rfl⟩
    · rw [if_neg hc]
      rw [r64_neg_iff, sub_neg] at hc
      constructor
      · intro h'; simp at h'
      · rintro (h' | h')
        · exact absurd h' h
        · exact absurd h' hc

theorem percentile_mem (xs : List ℚ) (pn pd : Nat) (hp : pn ≤ pd) (hx : 0 < xs.length) (b : List ℚ) (hb : b.length = xs.length) : ∃ v ∈ xs, percentile xs pn pd (some b) = some v := by
  have hle : pn * xs.length / pd ≤ xs.length := Nat.div_le_of_le_mul (Nat.mul_le_mul_right _ hp)
  obtain ⟨v, h1, h2, h3, h4⟩ := Sort.C02_nthLargest xs ((max 1 (pn * xs.length / pd) : Nat) : Int) none (by omega) (by omega) (by simp)
  refine ⟨v, h2, ?_⟩
  have hbuf : ∀ n : Int, nthLargest xs n (some b) = nthLargest xs n none := by intro n; unfold nthLargest; simp [hb]
  unfold percentile
  rw [if_neg (by omega), if_neg (by omega)]
  dsimp only
  rw [hbuf, ← h1]
  congr 2
  generalize pn * xs.length / pd = m
  split <;> omega

/-- A draw: as many positions as there are values. -/
def IsDraw (x : List ℚ) (d : List Nat) : Prop := d.length = x.length ∧ ∀ k ∈ d, k < x.length

theorem resampled_values (x : List ℚ) (hx : 0 < x.length) (pn pd : Nat) (hp : pn ≤ pd) (scratch : List ℚ) (hs : scratch.length = x.length) : ∀ (draws : List (List Nat)), (∀ d ∈ draws, IsDraw x d) →
    ∃ ps, resampled64 x pn pd scratch draws = some ps ∧ ps.length = draws.length ∧ ∀ p ∈ ps, p ∈ x
  | [], _ => ⟨[], rfl, rfl, by simp⟩
  | d :: draws, h => by
    obtain ⟨ps, h1, h2, h3⟩ := resampled_values x hx pn pd hp scratch hs draws (fun d hd => h d (by simp [hd]))
    obtain ⟨d1, d2⟩ := h d (by simp)
    have hpick : ∀ l : List Nat, (∀ k ∈ l, k < x.length) → ∃ ys, (l.mapM fun k => x[k]?) = some ys ∧ ys.length = l.length ∧ ∀ y ∈ ys, y ∈ x := by
      intro l hl
      induction l with
      | nil => exact ⟨[], rfl, rfl, by simp⟩
      | cons k l ih =>
        obtain ⟨ys, y1, y2, y3⟩ := ih fun k hk => hl k (by simp [hk])
        have hk := hl k (by simp)
        refine ⟨x[k] :: ys, ?_, by simp [y2], ?_⟩
        · rw [List.mapM_cons, List.getElem?_eq_getElem hk, y1]; rfl
        · intro y hy
          rw [List.mem_cons] at hy
          rcases hy with rfl | hy
          · exact List.getElem_mem hk
          · exact y3 y hy
    obtain ⟨ys, y1, y2, y3⟩ := hpick d d2
    obtain ⟨v, v1, v2⟩ := percentile_mem ys pn pd hp (by omega) scratch (by omega)
    refine ⟨v :: ps, ?_, by simp [h2], ?_⟩
    · unfold resampled64 at h1 ⊢
      rw [List.mapM_cons, h1, y1, Option.bind_some, v2]
      rfl
    · intro p hp
      rw [List.mem_cons] at hp
      rcases hp with rfl | hp
      · exact y3 _ v1
      · exact h3 p hp

/-- C117 (part that holds): if the percentiles of the samples differ enough - their variance is more than about `n` roundings of the largest square - the error is a number, and its square is the variance up
to roundings.  Missing: smaller variances, see `C117_equal_false`. -/
theorem C117_accurate_partial (x : List ℚ) (hx : 0 < x.length) (M : ℚ) (hM : ∀ v ∈ x, 0 ≤ v ∧ v ≤ M) (pn pd : Nat) (hp : pn ≤ pd) (scratch : List ℚ) (hs : scratch.length = x.length)
    (draws : List (List Nat)) (hd : ∀ d ∈ draws, IsDraw x d) (hne : draws ≠ []) (hlen : draws.length ≤ 2 ^ 40) :
    ∃ ps, resampled64 x pn pd scratch draws = some ps ∧ ps.length = draws.length ∧ (∀ p ∈ ps, p ∈ x) ∧
      (draws.length * M ^ 2 / 2 ^ 48 < variance ps → ∃ e, bootstrap64 x pn pd scratch draws = some (some e) ∧ 0 ≤ e ∧ |e ^ 2 - variance ps| ≤ draws.length * M ^ 2 / 2 ^ 47) := by
  obtain ⟨ps, h1, h2, h3⟩ := resampled_values x hx pn pd hp scratch hs draws hd
  refine ⟨ps, h1, h2, h3, ?_⟩
  intro hvar
  have hne' : ps ≠ [] := by
    intro h; rw [h] at h2; exact hne (List.length_eq_zero_iff.mp h2.symm)
  have hps : ∀ p ∈ ps, 0 ≤ p ∧ p ≤ M := fun p hp => hM p (h3 p hp)
  have key := spread_arg ps hne' (by omega) M hps
  unfold bootstrap64
  rw [h1, Option.map_some]
  unfold spread64 sqrt64
  rw [if_neg (by simpa using hne')]
  dsimp only
  rw [← h2] at hvar ⊢
  have hvM : variance ps ≤ M ^ 2 := by
    rw [variance_eq ps hne']
    have hl : (0 : ℚ) < ps.length := by exact_mod_cast List.length_pos_iff.mpr hne'
    have : (ps.map fun p => p * p).sum ≤ ps.length * M ^ 2 := by
      have : ∀ l : List ℚ, (∀ p ∈ l, 0 ≤ p ∧ p ≤ M) → (l.map fun p => p * p).sum ≤ l.length * M ^ 2 := by
        intro l hl
        induction l with
        | nil => simp
        | cons p l ih =>
          have i2 := ih fun q hq => hl q (by simp [hq])
          have := hl p (by simp)
          simp only [List.map_cons, List.sum_cons, List.length_cons]
          push_cast
          nlinarith
      exact this ps hps
    have hq : (ps.map fun p => p * p).sum / ps.length ≤ M ^ 2 := by rw [div_le_iff₀ hl]; linarith
    nlinarith [sq_nonneg (ps.sum / (ps.length : ℚ))]
  have hn1 : (1 : ℚ) ≤ ps.length := by exact_mod_cast List.length_pos_iff.mpr hne'
  have hn40 : (ps.length : ℚ) ≤ 2 ^ 40 := by rw [h2]; exact_mod_cast hlen
  generalize r64 (r64 (ps.foldl (fun s p => r64 (s + r64 (p * p))) 0 / (ps.length : ℚ)) - r64 (r64 (ps.foldl (fun s p => r64 (s + p)) 0 / (ps.length : ℚ)) * r64 (ps.foldl (fun s p => r64 (s + p)) 0 / (ps.length : ℚ)))) = v at *
  have hk := abs_le.mp key
  have hv0 : 0 < v := by linarith [hk.1]
  rw [if_neg (by linarith)]
  have hvR : (0 : ℝ) ≤ (v : ℝ) := by exact_mod_cast hv0.le
  obtain ⟨b1, b2⟩ := rnReal_bounds (Real.sqrt_nonneg (v : ℝ))
  have e0 : (0 : ℝ) ≤ rnReal (Real.sqrt (v : ℝ)) := le_trans (mul_nonneg (Real.sqrt_nonneg _) (by norm_num)) b1
  refine ⟨_, rfl, by exact_mod_cast e0, ?_⟩
  have s1 := pow_le_pow_left₀ (mul_nonneg (Real.sqrt_nonneg _) (by norm_num)) b1 2
  have s2 := pow_le_pow_left₀ e0 b2 2
  rw [mul_pow, Real.sq_sqrt hvR] at s1 s2
  have t1 : v * (1 - 1 / 2 ^ 53) ^ 2 ≤ rnReal (Real.sqrt (v : ℝ)) ^ 2 := by
    apply (Rat.cast_le (K := ℝ)).mp
    push_cast at s1 ⊢
    exact s1
  have t2 : rnReal (Real.sqrt (v : ℝ)) ^ 2 ≤ v * (1 + 1 / 2 ^ 53) ^ 2 := by
    apply (Rat.cast_le (K := ℝ)).mp
    push_cast at s2 ⊢
    exact s2
  generalize rnReal (Real.sqrt (v : ℝ)) ^ 2 = e2 at *
  have hM2 : 0 ≤ M ^ 2 := sq_nonneg M
  have hnM : M ^ 2 ≤ ps.length * M ^ 2 := le_mul_of_one_le_left hM2 hn1
  have hnM' : ps.length * M ^ 2 / 2 ^ 48 ≤ M ^ 2 := by
    rw [div_le_iff₀ (by norm_num), mul_comm]
    exact mul_le_mul_of_nonneg_left (by linarith) hM2
  have hv2 : v ≤ 2 * M ^ 2 := by linarith [hk.2]
  have w1 : v - 2 / 2 ^ 53 * v ≤ e2 := by nlinarith
  have w2 : e2 ≤ v + 3 / 2 ^ 53 * v := by nlinarith
  have w3 : 3 / 2 ^ 53 * v ≤ ps.length * M ^ 2 / 2 ^ 48 := by
    rw [le_div_iff₀ (by norm_num)]
    nlinarith
  have u : (ps.length : ℚ) * M ^ 2 / 2 ^ 47 = 2 * (ps.length * M ^ 2 / 2 ^ 48) := by ring
  rw [u, abs_le]
  constructor <;> linarith [hk.1, hk.2]

/-! Equal values -/

theorem rn_tie_up {p : ℕ} {x : ℚ} (k n : ℤ) (h1 : (2 : ℚ) ^ k ≤ |x|) (h2 : |x| < 2 ^ (k + 1)) (h3 : x / 2 ^ (k - ((p : ℤ) - 1)) = n + 1 / 2) (hn : n % 2 = 1) : rn p x = (n + 1) * 2 ^ (k - ((p : ℤ) - 1)) := by
  unfold rn lastBit
  rw [log_unique h1 h2, h3]
  have hfl : ⌊(n + 1 / 2 : ℚ)⌋ = n := by rw [Int.floor_eq_iff]; constructor <;> linarith
  have hnn : nearest (n + 1 / 2 : ℚ) = n + 1 := by
    unfold nearest
    rw [hfl, if_neg (by ring_nf; norm_num), if_neg (by ring_nf; norm_num), if_neg (by omega)]
  rw [hnn]
  push_cast
  ring

/-- The float64 number 0.1. -/
def tenth : ℚ := 7205759403792794 / 2 ^ 56

theorem tenth_float : Float64 tenth ∧ r64 (1 / 10) = tenth := by
  refine ⟨⟨7205759403792794, -56, by norm_num, by unfold tenth; norm_num⟩, ?_⟩
  unfold r64
  rw [rn_eq (-4) 7205759403792794 (by norm_num [abs_of_pos]) (by norm_num [abs_of_pos]) (by rw [abs_lt]; norm_num)]
  unfold tenth
  norm_num

theorem spread_tenths : spread64 [tenth, tenth, tenth] = none := by
  rw [C117_nan]
  right
  have a0 : r64 (0 + tenth) = tenth := by rw [zero_add]; exact r64_float tenth_float.1
  have a1 : r64 (tenth + tenth) = 7205759403792794 / 2 ^ 55 := by
    rw [show tenth + tenth = 7205759403792794 / 2 ^ 55 by unfold tenth; norm_num]
    exact r64_float ⟨7205759403792794, -55, by norm_num, by norm_num⟩
  have a2 : r64 (7205759403792794 / 2 ^ 55 + tenth) = 5404319552844596 / 2 ^ 54 := by
    unfold r64 tenth
    rw [rn_tie_up (-2) 5404319552844595 (by norm_num [abs_of_pos]) (by norm_num [abs_of_pos]) (by norm_num) (by norm_num)]
    norm_num
  have a3 : r64 (5404319552844596 / 2 ^ 54 / ((3 : ℕ) : ℚ)) = 7205759403792795 / 2 ^ 56 := by
    unfold r64
    rw [rn_eq (-4) 7205759403792795 (by norm_num [abs_of_pos]) (by norm_num [abs_of_pos]) (by rw [abs_lt]; norm_num)]
    norm_num
  have q0 : r64 (tenth * tenth) = 5764607523034236 / 2 ^ 59 := by
    unfold r64 tenth
    rw [rn_eq (-7) 5764607523034236 (by norm_num [abs_of_pos]) (by norm_num [abs_of_pos]) (by rw [abs_lt]; norm_num)]
    norm_num
  have q1 : r64 (0 + 5764607523034236 / 2 ^ 59) = 5764607523034236 / 2 ^ 59 := by
    rw [zero_add]
    exact r64_float ⟨5764607523034236, -59, by norm_num, by norm_num⟩
  have q2 : r64 (5764607523034236 / 2 ^ 59 + 5764607523034236 / 2 ^ 59) = 5764607523034236 / 2 ^ 58 := by
    rw [show (5764607523034236 / 2 ^ 59 + 5764607523034236 / 2 ^ 59 : ℚ) = 5764607523034236 / 2 ^ 58 by norm_num]
    exact r64_float ⟨5764607523034236, -58, by norm_num, by norm_num⟩
  have q3 : r64 (5764607523034236 / 2 ^ 58 + 5764607523034236 / 2 ^ 59) = 8646911284551354 / 2 ^ 58 := by
    rw [show (5764607523034236 / 2 ^ 58 + 5764607523034236 / 2 ^ 59 : ℚ) = 8646911284551354 / 2 ^ 58 by norm_num]
    exact r64_float ⟨8646911284551354, -58, by norm_num, by norm_num⟩
  have q4 : r64 (8646911284551354 / 2 ^ 58 / ((3 : ℕ) : ℚ)) = 5764607523034236 / 2 ^ 59 := by
    rw [show (8646911284551354 / 2 ^ 58 / ((3 : ℕ) : ℚ) : ℚ) = 5764607523034236 / 2 ^ 59 by norm_num]
    exact r64_float ⟨5764607523034236, -59, by norm_num, by norm_num⟩
  have w : r64 ((7205759403792795 / 2 ^ 56) ^ 2) = 5764607523034237 / 2 ^ 59 := by
    unfold r64
    rw [rn_eq (-7) 5764607523034237 (by norm_num [abs_of_pos]) (by norm_num [abs_of_pos]) (by rw [abs_lt]; norm_num)]
    norm_num
  simp only [List.foldl_cons, List.foldl_nil, List.length_cons, List.length_nil, Nat.zero_add, Nat.reduceAdd]
  rw [a0, a1, a2, a3, q0, q1, q2, q3, q4, w]
  norm_num

/-- C117 is false as stated: if all pixels hold the same mass 0.1, three samples give the error NaN, whatever is drawn, although all percentiles are equal. -/
theorem C117_equal_false (m : Nat) (hm : 0 < m) (pn pd : Nat) (hp : pn ≤ pd) (draws : List (List Nat)) (h3 : draws.length = 3) (hd : ∀ d ∈ draws, IsDraw (List.replicate m tenth) d) :
    bootstrap64 (List.replicate m tenth) pn pd (List.replicate m 0) draws = some none ∧ variance [tenth, tenth, tenth] = 0 := by
  obtain ⟨ps, h1, h2, h4⟩ := resampled_values (List.replicate m tenth) (by simpa using hm) pn pd hp (List.replicate m 0) (by simp) draws hd
  have hps : ps = [tenth, tenth, tenth] := by
    rw [List.eq_replicate_of_mem (a := tenth) (l := ps) (fun p hp => (List.mem_replicate.mp (h4 p hp)).2), h2, h3]
    rfl
  constructor
  · unfold bootstrap64
    rw [h1, hps, Option.map_some, spread_tenths]
  · unfold variance tenth
    norm_num

-- the hypotheses are met: two pixels, two samples, variance 1/4
example : (2 : ℚ) * 1 ^ 2 / 2 ^ 48 < variance [0, 1] ∧ IsDraw [0, 1] [0, 0] ∧ IsDraw [0, 1] [1, 1] := by
  refine ⟨?_, ⟨rfl, by simp⟩, ⟨rfl, by simp⟩⟩
  unfold variance
  norm_num
example : IsDraw (List.replicate 5 tenth) [0, 4, 4, 1, 2] := ⟨rfl, by simp⟩

end Shellfish.Round
