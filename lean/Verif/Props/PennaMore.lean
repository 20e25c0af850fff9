/- C75: Penna-Dines shells: singular cases, orders, fits to rings. -/
import Verif.Props.Penna
import Mathlib.LinearAlgebra.Matrix.Rank

namespace Shellfish.Analyze
noncomputable section
open Shellfish.Geom (Vec)
open Real
open Finset (range)

/-! Singular fits -/

/-- Fewer points than coefficients do not determine them. -/
theorem C75_few_points (I J K : Nat) (pts : List Sight) (h : pts.length < I * J * K) : ¬ Determined I J K pts := by
  rw [determined_iff, not_not]
  by_contra hdet
  have h1 := Matrix.rank_of_isUnit _ ((Matrix.isUnit_iff_isUnit_det _).2 (isUnit_iff_ne_zero.2 hdet))
  have h2 := Matrix.rank_mul_le_left (design I J K pts) (design I J K pts).transpose
  have h3 := Matrix.rank_le_card_width (design I J K pts)
  rw [Fintype.card_fin] at h1 h3
  omega

/-- 1 at one place. -/
def delta (a b e k j i : Nat) : ℝ := if k = a then if j = b then if i = e then 1 else 0 else 0 else 0

theorem sum_delta (I J K a b e : Nat) (ha : a < K) (hb : b < J) (he : e < I) (f : Nat → Nat → Nat → ℝ) :
    ∑ k ∈ range K, ∑ j ∈ range J, ∑ i ∈ range I, delta a b e k j i * f k j i = f a b e := by
  rw [Finset.sum_eq_single a, Finset.sum_eq_single b, Finset.sum_eq_single e]
  · simp [delta]
  · intro i _ hi; simp [delta, hi]
  · intro h; exact absurd (Finset.mem_range.2 he) h
  · intro j _ hj; exact Finset.sum_eq_zero fun i _ => by simp [delta, hj]
  · intro h; exact absurd (Finset.mem_range.2 hb) h
  · intro k _ hk; exact Finset.sum_eq_zero fun j _ => Finset.sum_eq_zero fun i _ => by simp [delta, hk]
  · intro h; exact absurd (Finset.mem_range.2 ha) h

/-- With three or more powers of each coordinate no points determine the coefficients: x² + y² + z² - 1 vanishes in all directions. -/
theorem C75_dependent (I J K : Nat) (hI : 3 ≤ I) (hJ : 3 ≤ J) (hK : 3 ≤ K) (pts : List Sight) : ¬ Determined I J K pts := by
  intro hd
  set g : Nat → Nat → Nat → ℝ := fun k j i => delta 0 0 2 k j i + delta 0 2 0 k j i + delta 2 0 0 k j i + -1 * delta 0 0 0 k j i with hg
  set c : List ℝ := (List.range (I * J * K)).map fun n => g (n / I / J) (n / I % J) (n % I) with hc
  have hlen : c.length = I * J * K := by simp [hc]
  have hget : ∀ k < K, ∀ j < J, ∀ i < I, c.getD ((k * J + j) * I + i) 0 = g k j i := by
    intro k hk j hj i hi
    have hlt : (k * J + j) * I + i < I * J * K := by
      have h1 : k * J + j + 1 ≤ K * J := by nlinarith
      nlinarith
    rw [List.getD_eq_getElem _ _ (by rw [hlen]; exact hlt)]
    simp only [hc, List.getElem_map, List.getElem_range]
    have e1 : ((k * J + j) * I + i) / I = k * J + j := by
      rw [Nat.add_comm, Nat.add_mul_div_right _ _ (by omega), Nat.div_eq_of_lt hi, Nat.zero_add]
    have e2 : ((k * J + j) * I + i) % I = i := by rw [Nat.add_comm, Nat.add_mul_mod_self_right, Nat.mod_eq_of_lt hi]
    have e3 : (k * J + j) / J = k := by rw [Nat.add_comm, Nat.add_mul_div_right _ _ (by omega), Nat.div_eq_of_lt hj, Nat.zero_add]
    have e4 : (k * J + j) % J = j := by rw [Nat.add_comm, Nat.add_mul_mod_self_right, Nat.mod_eq_of_lt hj]
    rw [e1, e2, e3, e4]
  have := hd c hlen fun p _ => by
    unfold pennaShell
    rw [C75_polynomial c I J K hlen.ge]
    have e : ∀ f : Nat → Nat → Nat → ℝ, ∑ k ∈ range K, ∑ j ∈ range J, ∑ i ∈ range I, c.getD ((k * J + j) * I + i) 0 * f k j i = f 0 0 2 + f 0 2 0 + f 2 0 0 + -1 * f 0 0 0 := by
      intro f
      rw [← sum_delta I J K 0 0 2 (by omega) (by omega) (by omega) f, ← sum_delta I J K 0 2 0 (by omega) (by omega) (by omega) f, ← sum_delta I J K 2 0 0 (by omega) (by omega) (by omega) f,
        ← sum_delta I J K 0 0 0 (by omega) (by omega) (by omega) f]
      simp only [Finset.mul_sum, ← Finset.sum_add_distrib]
      refine Finset.sum_congr rfl fun k hk => Finset.sum_congr rfl fun j hj => Finset.sum_congr rfl fun i hi => ?_
      rw [hget k (Finset.mem_range.1 hk) j (Finset.mem_range.1 hj) i (Finset.mem_range.1 hi), hg]
      ring
    rw [e, Option.getD_some]
    unfold cartesian
    dsimp only
    linear_combination (Real.sin p.theta ^ 2) * Real.sin_sq_add_cos_sq p.phi + Real.sin_sq_add_cos_sq p.theta
  have h0 := hget 0 (by omega) 0 (by omega) 0 (by omega)
  rw [List.getD_eq_getElem _ _ (by rw [hlen]; exact Nat.lt_of_lt_of_le (by omega : 0 * J + 0 < 1 * 1) (by nlinarith [Nat.mul_le_mul hI hJ]) |>.trans_le' (by simp))] at h0
  have h1 := this _ (List.getElem_mem (l := c) (n := (0 * J + 0) * I + 0) (by rw [hlen]; simp; omega))
  rw [h1] at h0
  simp [hg, delta] at h0

/-- The code does not notice this: whatever the points (off the axis) and whatever the failed inversion leaves, coefficients are returned. -/
theorem C75_singular_false (inverse : Inverse) (I J K : Nat) (hI : 0 < I * J * K) (pts : List Sight) (hN : pts ≠ []) (h : ∀ p ∈ pts, p.offAxis) :
    ∃ cs, pennaCoeffs inverse (pts.map Sight.point) I J K = some cs ∧ cs.length = I * J * K := by
  obtain ⟨cs, h1, h2, _⟩ := coeffs_eq inverse I J K pts h hI hN
  exact ⟨cs, h1, h2⟩

/-- Without points the code panics. -/
theorem C75_no_points (inverse : Inverse) (I J K : Nat) : pennaCoeffs inverse [] I J K = none := by
  unfold pennaCoeffs
  dsimp only
  cases h : pennaVals I J K (([] : List Vec).map trigOf) with
  | none => rfl
  | some v => simp [Shellfish.Mat.newMatrix]

theorem mapM_none {α β : Type} (f : α → Option β) (l : List α) (x : α) (hx : x ∈ l) (h : f x = none) : l.mapM f = none := by
  induction l with
  | nil => cases hx
  | cons y l ih =>
    rw [List.mapM_cons]
    rcases List.mem_cons.1 hx with rfl | hx
    · rw [h]; rfl
    · rw [ih hx]
      cases f y <;> rfl

theorem mem_powers (I J K k j i : Nat) : (k, j, i) ∈ powers I J K ↔ k < K ∧ j < J ∧ i < I := by
  unfold powers
  simp only [List.mem_flatMap, List.mem_range, List.mem_map, Prod.mk.injEq]
  constructor
  · rintro ⟨k', hk, j', hj, i', hi, rfl, rfl, rfl⟩; exact ⟨hk, hj, hi⟩
  · rintro ⟨hk, hj, hi⟩; exact ⟨k, hk, j, hj, i, hi, rfl, rfl, rfl⟩

theorem axis_trig (z : ℝ) : (trigOf ⟨0, 0, z⟩).cosphi = none ∧ (trigOf ⟨0, 0, z⟩).sinphi = none := by
  unfold trigOf
  dsimp only
  rw [show (0 : ℝ) * 0 + 0 * 0 + z * z = z ^ 2 by ring, Real.sqrt_sq_eq_abs]
  by_cases hz : z = 0
  · subst hz; simp [quot]
  · have ha : |z| ≠ 0 := abs_ne_zero.2 hz
    have h1 : z / |z| * (z / |z|) = 1 := by
      rw [div_mul_div_comm, abs_mul_abs_self, div_self (mul_ne_zero hz hz)]
    simp [quot, ha, h1]

/-- A point on the z axis makes the fit fail (the coefficients are not numbers), although the shell has a radius there. -/
theorem C75_axis_false (inverse : Inverse) (I J K : Nat) (hI : 0 < I) (hJ : 0 < J) (hK : 0 < K) (hIJ : 2 ≤ I ∨ 2 ≤ J) (points : List Vec) (z : ℝ) (h : (⟨0, 0, z⟩ : Vec) ∈ points) :
    pennaCoeffs inverse points I J K = none := by
  obtain ⟨h1, h2⟩ := axis_trig z
  have hm : trigOf ⟨0, 0, z⟩ ∈ points.map trigOf := List.mem_map.2 ⟨_, h, rfl⟩
  have : pennaVals I J K (points.map trigOf) = none := by
    unfold pennaVals
    rcases hIJ with hh | hh
    · rw [mapM_none _ _ (0, 0, 1) ((mem_powers _ _ _ _ _ _).2 ⟨hK, hJ, by omega⟩)]
      · rfl
      · refine mapM_none _ _ _ hm ?_
        have hb : powNat (trigOf ⟨0, 0, z⟩).cosphi 1 = none := by unfold powNat; rw [h1]; rfl
        unfold entry
        dsimp only
        rw [hb]
        cases powNat (trigOf ⟨0, 0, z⟩).sinth (1 + 0) <;> rfl
    · rw [mapM_none _ _ (0, 1, 0) ((mem_powers _ _ _ _ _ _).2 ⟨hK, by omega, hI⟩)]
      · rfl
      · refine mapM_none _ _ _ hm ?_
        have hb : powNat (trigOf ⟨0, 0, z⟩).sinphi 1 = none := by unfold powNat; rw [h2]; rfl
        unfold entry
        dsimp only
        rw [hb]
        cases powNat (trigOf ⟨0, 0, z⟩).sinth (0 + 1) <;> cases powNat (trigOf ⟨0, 0, z⟩).cosphi 0 <;> cases powNat (trigOf ⟨0, 0, z⟩).costh 0 <;> rfl
  unfold pennaCoeffs
  dsimp only
  rw [this]
  rfl

/-! The order of a shell -/

theorem order_from (len i : Nat) (hi : 1 ≤ i) (hlow : ∀ m, 1 ≤ m → m < i → 2 * m * m ≠ len) (n : Nat) : findOrderFrom len i = some n ↔ 1 ≤ n ∧ len = 2 * n * n := by
  fun_induction findOrderFrom len i with
  | case1 i h =>
    constructor
    · intro e; cases e; exact ⟨hi, h.symm⟩
    · rintro ⟨h1, h2⟩
      congr 1
      rcases lt_trichotomy i n with hl | hl | hl
      · exfalso; have : i * i < n * n := Nat.mul_lt_mul_of_lt_of_lt hl hl; rw [Nat.mul_assoc] at h h2; omega
      · exact hl
      · exact absurd h2.symm (hlow n h1 hl)
  | case2 i h h' =>
    constructor
    · intro e; cases e
    · rintro ⟨h1, h2⟩
      exfalso
      have : n < i := by
        by_contra hc
        have : i * i ≤ n * n := Nat.mul_le_mul (by omega) (by omega)
        rw [Nat.mul_assoc] at h' h2; omega
      exact hlow n h1 this h2.symm
  | case3 i h h' ih =>
    refine ih (by omega) fun m h1 h2 => ?_
    rcases Nat.lt_succ_iff_lt_or_eq.1 h2 with h3 | h3
    · exact hlow m h1 h3
    · rw [h3]; exact h

/-- The order is found from the number of coefficients exactly when it is twice a square; otherwise (also for none) the code panics. -/
theorem C75_order (cs : List ℝ) (n : Nat) : findOrder cs = some n ↔ 1 ≤ n ∧ cs.length = 2 * n * n := order_from _ _ (by omega) (by omega) n

/-- The coefficients of a fit of order n tell this order. -/
theorem C75_fit_order (inverse : Inverse) (n : Nat) (hn : 1 ≤ n) (pts : List Sight) (hN : pts ≠ []) (h : ∀ p ∈ pts, p.offAxis) :
    ∃ cs, pennaCoeffs inverse (pts.map Sight.point) n n 2 = some cs ∧ findOrder cs = some n := by
  obtain ⟨cs, h1, h2⟩ := C75_singular_false inverse n n 2 (by have := Nat.mul_le_mul hn hn; omega) pts hN h
  exact ⟨cs, h1, (C75_order cs n).2 ⟨hn, by rw [h2]; ring⟩⟩

example : findOrder (List.replicate 18 0) = some 3 := (C75_order _ 3).2 ⟨by decide, by simp⟩

/-! The fit to the points of the rings -/

/-- The points of ring `i` rotated by `irots[i]`. -/
def ringPoints (irots : List Shellfish.Geom.Mat) (rings : List (List (ℝ × ℝ))) : List Vec :=
  (rings.zipIdx.map fun (ring : List (ℝ × ℝ) × Nat) => ring.1.map fun p => Shellfish.Geom.rotateVec ⟨p.1, p.2, 0⟩ (irots.getD ring.2 ⟨0, 0, 0, 0, 0, 0, 0, 0, 0⟩)).flatten

theorem volume_fit_eq (inverse : Inverse) (irots : List Shellfish.Geom.Mat) (rings : List (List (ℝ × ℝ))) (hl : rings.length ≤ irots.length) (I J : Nat) :
    pennaVolumeFit inverse irots rings I J = (pennaCoeffs inverse (ringPoints irots rings) I J 2).map fun cs => (cs, pennaShell cs I J 2) := by
  unfold pennaVolumeFit
  rw [mapM_some _ fun (ring : List (ℝ × ℝ) × Nat) => ring.1.map fun p => Shellfish.Geom.rotateVec ⟨p.1, p.2, 0⟩ (irots.getD ring.2 ⟨0, 0, 0, 0, 0, 0, 0, 0, 0⟩)]
  · simp only [Option.bind_eq_bind, Option.bind_some]
    unfold ringPoints
    cases pennaCoeffs inverse (rings.zipIdx.map fun (ring : List (ℝ × ℝ) × Nat) => ring.1.map fun p => Shellfish.Geom.rotateVec ⟨p.1, p.2, 0⟩ (irots.getD ring.2 ⟨0, 0, 0, 0, 0, 0, 0, 0, 0⟩)).flatten I J 2 <;> rfl
  · intro ring hr
    refine mapM_some _ _ _ fun p _ => ?_
    have h2 : ring.2 < irots.length := by
      have := List.snd_lt_of_mem_zipIdx hr
      omega
    rw [List.getElem?_eq_getElem h2, List.getD_eq_getElem _ _ h2]
    rfl

/-- When the points of all rings, rotated out of the planes of their rings, are on one Penna-Dines shell and determine it, the fit returns its coefficients and its shell. -/
theorem C75_volume_fit (inverse : Inverse) (hinv : inverse.Correct) (irots : List Shellfish.Geom.Mat) (rings : List (List (ℝ × ℝ))) (hl : rings.length ≤ irots.length) (n : Nat) (hn : 1 ≤ n)
    (pts : List Sight) (hp : ringPoints irots rings = pts.map Sight.point) (hN : pts ≠ []) (h : ∀ p ∈ pts, p.offAxis) (hd : Determined n n 2 pts) (c : List ℝ) (hc : c.length = n * n * 2)
    (hon : ∀ p ∈ pts, p.r = pennaShell c n n 2 p.phi p.theta) : pennaVolumeFit inverse irots rings n n = some (c, pennaShell c n n 2) := by
  rw [volume_fit_eq inverse irots rings hl, hp, C75_recovers inverse hinv n n 2 (by have := Nat.mul_le_mul hn hn; omega) pts hN h hd c hc hon]
  rfl

/-! The hypotheses are met: two directions determine a shell of order 1. -/

def twoSights : List Sight := [⟨0, π / 3, 5⟩, ⟨1, π / 2, 4⟩]

theorem two_off : ∀ p ∈ twoSights, p.offAxis := by
  have hp := Real.pi_pos
  intro p hp
  unfold twoSights at hp
  simp only [List.mem_cons, List.not_mem_nil, or_false] at hp
  rcases hp with rfl | rfl <;> refine ⟨by norm_num, ?_, ?_⟩ <;> dsimp only <;> linarith

theorem order_one (a b phi th : ℝ) : pennaShell [a, b] 1 1 2 phi th = a + b * cos th := by
  rw [shell_eq [a, b] 1 1 2 (by simp)]
  simp [Finset.sum_range_succ, powers, mono, List.range_succ]

theorem two_determined : Determined 1 1 2 twoSights := by
  intro c hc h x hx
  obtain ⟨a, b, rfl⟩ := List.length_eq_two.1 hc
  have h1 := h ⟨0, π / 3, 5⟩ (by simp [twoSights])
  have h2 := h ⟨1, π / 2, 4⟩ (by simp [twoSights])
  rw [order_one] at h1 h2
  rw [Real.cos_pi_div_three] at h1
  rw [Real.cos_pi_div_two] at h2
  simp only [List.mem_cons, List.not_mem_nil, or_false] at hx
  rcases hx with rfl | rfl <;> linarith

/-- Mathlib's inverse. -/
def exInverse : Inverse := fun _ A => A⁻¹

theorem exInverse_correct : exInverse.Correct := fun _ A h => Matrix.nonsing_inv_mul A (isUnit_iff_ne_zero.2 h)

example : pennaCoeffs exInverse (twoSights.map Sight.point) 1 1 2 = some [4, 2] :=
  C75_recovers exInverse exInverse_correct 1 1 2 (by decide) twoSights (by simp [twoSights]) two_off two_determined [4, 2] rfl fun p hp => by
    unfold twoSights at hp
    simp only [List.mem_cons, List.not_mem_nil, or_false] at hp
    rw [order_one]
    rcases hp with rfl | rfl
    · dsimp only; rw [Real.cos_pi_div_three]; norm_num
    · dsimp only; rw [Real.cos_pi_div_two]; norm_num

end
end Shellfish.Analyze
