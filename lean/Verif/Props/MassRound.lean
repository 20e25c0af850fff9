/-
C130: which particles the stats mode adds to the mass of a shell and lists as its particles, in machine arithmetic.
-/
import Verif.Model.MassRound
import Verif.Props.PennaRound
import Verif.Props.BinRound
import Verif.Props.Repro

namespace Shellfish.Round
open Finset

/-! The displacement -/

theorem dist3_scale {x y z x' y' z' : ℚ} (hx : |(x' : ℝ) - x| ≤ |(x : ℝ)| / 2 ^ 24) (hy : |(y' : ℝ) - y| ≤ |(y : ℝ)| / 2 ^ 24) (hz : |(z' : ℝ) - z| ≤ |(z : ℝ)| / 2 ^ 24) :
    |dist3 x' y' z' - dist3 x y z| ≤ dist3 x y z / 2 ^ 24 := by
  have key : ∀ a b : ℝ, |b - a| ≤ |a| / 2 ^ 24 → a ^ 2 * (1 - 1 / 2 ^ 24) ^ 2 ≤ b ^ 2 ∧ b ^ 2 ≤ a ^ 2 * (1 + 1 / 2 ^ 24) ^ 2 := by
    intro a b h
    have h1 : |b| ≤ |a| * (1 + 1 / 2 ^ 24) := by
      have := abs_sub_abs_le_abs_sub b a
      linarith
    have h2 : |a| * (1 - 1 / 2 ^ 24) ≤ |b| := by
      have := abs_sub_abs_le_abs_sub a b
      rw [abs_sub_comm] at this
      linarith
    rw [← sq_abs a, ← sq_abs b, ← mul_pow, ← mul_pow]
    have ha := abs_nonneg a
    exact ⟨pow_le_pow_left₀ (mul_nonneg ha (by norm_num)) h2 2, pow_le_pow_left₀ (abs_nonneg b) h1 2⟩
  have kx := key _ _ hx
  have ky := key _ _ hy
  have kz := key _ _ hz
  have d := dist3_sq x y z
  have d' := dist3_sq x' y' z'
  have p : 0 ≤ dist3 x y z := Real.sqrt_nonneg _
  have p' : 0 ≤ dist3 x' y' z' := Real.sqrt_nonneg _
  have lo : dist3 x y z * (1 - 1 / 2 ^ 24) ≤ dist3 x' y' z' := by
    refine abs_le_of_sq_le_sq' ?_ p' |>.2
    rw [mul_pow, d, d']
    linarith [kx.1, ky.1, kz.1]
  have hi : dist3 x' y' z' ≤ dist3 x y z * (1 + 1 / 2 ^ 24) := by
    refine abs_le_of_sq_le_sq' ?_ (by positivity) |>.2
    rw [mul_pow, d, d']
    linarith [kx.2, ky.2, kz.2]
  rw [abs_le]
  constructor <;> linarith

theorem comp_close {a a' D D' : ℝ} (hD : 0 < D) (ha : |a| ≤ D) (h1 : |a' - a| ≤ |a| / 2 ^ 24) (h2 : |D' - D| ≤ D / 2 ^ 24) : |a' / D' - a / D| ≤ 1 / 2 ^ 22 := by
  have h2' := abs_le.mp h2
  have hD' : D * (1 - 1 / 2 ^ 24) ≤ D' := by linarith
  have hp : 0 < D' := by nlinarith
  have e : a' / D' - a / D = ((a' - a) * D + a * (D - D')) / (D' * D) := by field_simp; ring
  rw [e, abs_div, abs_of_pos (mul_pos hp hD), div_le_iff₀ (mul_pos hp hD)]
  have q : |D - D'| ≤ D / 2 ^ 24 := by rw [abs_sub_comm]; exact h2
  have q1 : |(a' - a) * D| ≤ |a| / 2 ^ 24 * D := by rw [abs_mul, abs_of_pos hD]; exact mul_le_mul_of_nonneg_right h1 hD.le
  have q2 : |a * (D - D')| ≤ |a| * (D / 2 ^ 24) := by rw [abs_mul]; exact mul_le_mul_of_nonneg_left q (abs_nonneg _)
  have q3 := abs_add_le ((a' - a) * D) (a * (D - D'))
  have q4 := mul_le_mul_of_nonneg_right ha hD.le
  have q5 := mul_le_mul_of_nonneg_right hD' hD.le
  norm_num at *
  nlinarith

theorem sum_blocks (f : ℕ → ℝ) (J K : ℕ) : ∑ k ∈ range K, ∑ j ∈ range J, f (k * J + j) = ∑ n ∈ range (K * J), f n := by
  induction K with
  | zero => simp
  | succ K ih => rw [sum_range_succ, ih, Nat.succ_mul, sum_range_add]

theorem sum_cube (f : ℕ → ℝ) (I J K : ℕ) : ∑ k ∈ range K, ∑ j ∈ range J, ∑ i ∈ range I, f ((k * J + j) * I + i) = ∑ n ∈ range (K * J * I), f n := by
  rw [sum_blocks (fun m => ∑ i ∈ range I, f (m * I + i)) J K, sum_blocks f I (K * J)]

theorem le_dist3x (x y z : ℚ) : |(x : ℝ)| ≤ dist3 x y z := by
  have := dist3_sq x y z
  refine abs_le_of_sq_le_sq ?_ (Real.sqrt_nonneg _)
  rw [this]; nlinarith [sq_nonneg (y : ℝ), sq_nonneg (z : ℝ)]

theorem le_dist3y (x y z : ℚ) : |(y : ℝ)| ≤ dist3 x y z := by
  have := dist3_sq x y z
  refine abs_le_of_sq_le_sq ?_ (Real.sqrt_nonneg _)
  rw [this]; nlinarith [sq_nonneg (x : ℝ), sq_nonneg (z : ℝ)]

theorem ratio_one {a D : ℝ} (hD : 0 < D) (h : |a| ≤ D) : |a / D| ≤ 1 := by
  rw [abs_div, abs_of_pos hD, div_le_one hD]; exact h

/-- The radius in a direction that is off by rounding. -/
theorem radius_move (cs : List ℚ) (I J K : ℕ) {x y z x' y' z' : ℚ} (hx : |(x' : ℝ) - x| ≤ |(x : ℝ)| / 2 ^ 24) (hy : |(y' : ℝ) - y| ≤ |(y : ℝ)| / 2 ^ 24) (hz : |(z' : ℝ) - z| ≤ |(z : ℝ)| / 2 ^ 24)
    (h : ¬(x = 0 ∧ y = 0 ∧ z = 0)) : |radiusAt cs I J K x' y' z' - radiusAt cs I J K x y z| ≤ (I + J + K) / 2 ^ 22 * sizeOf cs := by
  have hs := dist3_scale hx hy hz
  have hD := dist3_pos h
  have h2' := abs_le.mp hs
  have hD' : 0 < dist3 x' y' z' := by norm_num at h2'; linarith [h2'.1]
  have ax := comp_close hD (le_dist3x x y z) hx hs
  have ay := comp_close hD (le_dist3y x y z) hy hs
  have az := comp_close hD (le_dist3 x y z) hz hs
  have bx := ratio_one hD (le_dist3x x y z)
  have by' := ratio_one hD (le_dist3y x y z)
  have bz := ratio_one hD (le_dist3 x y z)
  have bx' := ratio_one hD' (le_dist3x x' y' z')
  have by'' := ratio_one hD' (le_dist3y x' y' z')
  have bz' := ratio_one hD' (le_dist3 x' y' z')
  unfold radiusAt
  generalize (x : ℝ) / dist3 x y z = a at *
  generalize (y : ℝ) / dist3 x y z = b at *
  generalize (z : ℝ) / dist3 x y z = c at *
  generalize (x' : ℝ) / dist3 x' y' z' = a' at *
  generalize (y' : ℝ) / dist3 x' y' z' = b' at *
  generalize (z' : ℝ) / dist3 x' y' z' = c' at *
  have pl : ∀ (v : ℝ) (n : ℕ), |v| ≤ 1 → |v ^ n| ≤ 1 := fun v n h => by rw [abs_pow]; exact pow_le_one₀ (abs_nonneg _) h
  have step : ∀ k ∈ range K, ∀ j ∈ range J, ∀ i ∈ range I, |a' ^ i * b' ^ j * c' ^ k - a ^ i * b ^ j * c ^ k| ≤ (I + J + K) / 2 ^ 22 := by
    intro k hk j hj i hi
    rw [mem_range] at hk hj hi
    have m1 := mul_close (pl _ i bx') (pl _ j by') (pow_close bx' bx ax i) (pow_close by'' by' ay j)
    have m2 := mul_close (abs_mul_le_one (pl _ i bx') (pl _ j by'')) (pl _ k bz) m1 (pow_close bz' bz az k)
    refine m2.trans ?_
    have : (i : ℝ) + j + k ≤ I + J + K := by exact_mod_cast (by omega : i + j + k ≤ I + J + K)
    norm_num at *
    linarith
  rw [← sum_sub_distrib]
  have hsum : (∑ k ∈ range K, ∑ j ∈ range J, ∑ i ∈ range I, (|cs.getD ((k * J + j) * I + i) 0| : ℝ)) ≤ sizeOf cs := by
    rw [sum_cube (fun n => (|cs.getD n 0| : ℝ))]
    have := (Rat.cast_le (K := ℝ)).mpr (sum_le_size cs (K * J * I))
    push_cast at this
    exact this
  refine le_trans ?_ (mul_le_mul_of_nonneg_left hsum (by positivity))
  rw [mul_sum]
  refine (abs_sum_le_sum_abs _ _).trans (sum_le_sum fun k hk => ?_)
  rw [← sum_sub_distrib, mul_sum]
  refine (abs_sum_le_sum_abs _ _).trans (sum_le_sum fun j hj => ?_)
  rw [← sum_sub_distrib, mul_sum]
  refine (abs_sum_le_sum_abs _ _).trans (sum_le_sum fun i hi => ?_)
  rw [← mul_sub, abs_mul, mul_comm]
  exact mul_le_mul_of_nonneg_right (step k hk j hj i hi) (abs_nonneg _)

/-- The displacement of a particle from a halo. -/
def Pos32.sub (x c : Pos32) : Pos32 := ⟨x.x - c.x, x.y - c.y, x.z - c.z⟩

/-- The distance of a particle from a halo. -/
noncomputable def distTo (c x : Pos32) : ℝ := dist3 (x.x - c.x) (x.y - c.y) (x.z - c.z)

/-- The radius of the shell around a halo in the direction of a particle. -/
noncomputable def radiusTo (cs : List ℚ) (order : ℕ) (c x : Pos32) : ℝ := radiusAt cs order order 2 (x.x - c.x) (x.y - c.y) (x.z - c.z)

/-- The particle is within half a box of the halo in all coordinates, so that no coordinate is shifted (`wrap` would shift it by the wrong length, C78). -/
def SameBox (tw : ℚ) (c x : Pos32) : Prop := |x.x - c.x| ≤ tw / 2 ∧ |x.y - c.y| ≤ tw / 2 ∧ |x.z - c.z| ≤ tw / 2

theorem disp32_same {tw x c : ℚ} (ft : Float32 tw) (h : |x - c| ≤ tw / 2) : disp32 tw x c = r32 (x - c) := by
  have fh := half_float ft
  obtain ⟨h1, h2⟩ := abs_le.mp h
  unfold disp32 wrap32
  rw [r32_float ft, r32_float fh]
  have u := r32_le fh h2
  have l := le_r32 (neg_float fh) h1
  rw [if_neg (not_lt.mpr u), if_neg (not_lt.mpr l)]

theorem r32_zero_iff (x : ℚ) : r32 x = 0 ↔ x = 0 := by
  constructor
  · intro h
    have := r32_error x
    rw [h, zero_sub, abs_neg] at this
    have h0 := abs_nonneg x
    have : |x| = 0 := by norm_num at this; linarith
    exact abs_eq_zero.mp this
  · rintro rfl
    exact r32_float ⟨0, 0, by norm_num, by norm_num⟩

theorem limit32_bounds (r : ℚ) : (r : ℝ) ^ 2 * (1 - 2 / 2 ^ 24) ≤ (limit32 r : ℝ) ∧ (limit32 r : ℝ) ≤ (r : ℝ) ^ 2 * (1 + 2 / 2 ^ 24) := by
  have h0 := mul_self_nonneg r
  have b1 := r64_bounds h0
  have b2 := r32_bounds' (le_trans (mul_nonneg h0 (by norm_num)) b1.1)
  have l : r ^ 2 * (1 - 2 / 2 ^ 24) ≤ limit32 r := by
    unfold limit32
    norm_num at *
    nlinarith
  have u : limit32 r ≤ r ^ 2 * (1 + 2 / 2 ^ 24) := by
    unfold limit32
    norm_num at *
    nlinarith
  constructor
  · have := (Rat.cast_le (K := ℝ)).mpr l
    push_cast at this
    exact this
  · have := (Rat.cast_le (K := ℝ)).mpr u
    push_cast at this
    exact this

/-- Comparing squares: if the squared distance is below the squared limit. -/
theorem below_limit {x y z r : ℚ} (hr : 0 ≤ r) (h : r2_32 x y z < limit32 r) : dist3 x y z * (1 - 4 / 2 ^ 24) < r := by
  have b := r2_32_bounds x y z
  rw [← dist3_sq] at b
  have l := limit32_bounds r
  have p : 0 ≤ dist3 x y z := Real.sqrt_nonneg _
  have hr' : (0 : ℝ) ≤ r := by exact_mod_cast hr
  have h' : (r2_32 x y z : ℝ) < limit32 r := by exact_mod_cast h
  by_contra hc
  push Not at hc
  have := pow_le_pow_left₀ hr' hc 2
  rw [mul_pow] at this
  generalize dist3 x y z = D at *
  generalize (r2_32 x y z : ℝ) = A at *
  generalize (limit32 r : ℝ) = B at *
  generalize (r : ℝ) = s at *
  have hD := sq_nonneg D
  norm_num at *
  nlinarith

theorem not_below_limit {x y z r : ℚ} (h0 : ¬(x = 0 ∧ y = 0 ∧ z = 0)) (hr : 0 ≤ r) (h : limit32 r ≤ r2_32 x y z) : (r : ℝ) < dist3 x y z * (1 + 4 / 2 ^ 24) := by
  have b := r2_32_bounds x y z
  rw [← dist3_sq] at b
  have l := limit32_bounds r
  have p := dist3_pos h0
  have hr' : (0 : ℝ) ≤ r := by exact_mod_cast hr
  have h' : (limit32 r : ℝ) ≤ r2_32 x y z := by exact_mod_cast h
  by_contra hc
  push Not at hc
  have := pow_le_pow_left₀ (by positivity) hc 2
  rw [mul_pow] at this
  generalize dist3 x y z = D at *
  generalize (r2_32 x y z : ℝ) = A at *
  generalize (limit32 r : ℝ) = B at *
  generalize (r : ℝ) = s at *
  have hD : 0 < D ^ 2 := by positivity
  norm_num at *
  nlinarith

/-- How far from the shell a particle must be for the test to be certain: the error of the radius, the error of the direction, and a millionth of the distance. -/
noncomputable def massMargin (cs : List ℚ) (order : ℕ) (e D : ℝ) : ℝ := (shellErr order order 2 e + (2 * order + 2) / 2 ^ 22) * sizeOf cs + D / 2 ^ 20

theorem size_nonneg (cs : List ℚ) : (0 : ℝ) ≤ sizeOf cs := by
  have := sum_le_size cs 0
  rw [range_zero, sum_empty] at this
  exact_mod_cast this

theorem shellErr_nonneg (I J K : ℕ) {e : ℝ} (he : 0 ≤ e) : 0 ≤ shellErr I J K e := by unfold shellErr; positivity

theorem accurate_nonneg {F : ShellMath} {e : ℝ} (hF : F.Accurate e) : 0 ≤ e := (abs_nonneg _).trans (hF.acos 0 (by norm_num))

/-- What is known of the displacement. -/
theorem offset_facts (cs : List ℚ) (order : ℕ) {tw : ℚ} {c x : Pos32} (ft : Float32 tw) (hb : SameBox tw c x) (hne : ¬(x.x = c.x ∧ x.y = c.y ∧ x.z = c.z)) :
    ∃ v : Pos32, offset32 tw c x = v ∧ Float64 v.z ∧ ¬(v.x = 0 ∧ v.y = 0 ∧ v.z = 0) ∧ |dist3 v.x v.y v.z - distTo c x| ≤ distTo c x / 2 ^ 24 ∧
      |radiusAt cs order order 2 v.x v.y v.z - radiusTo cs order c x| ≤ (2 * order + 2) / 2 ^ 22 * sizeOf cs ∧ 0 < distTo c x ∧ Float32 v.z ∧
      (|(v.x : ℝ) - (x.x - c.x : ℚ)| ≤ |((x.x - c.x : ℚ) : ℝ)| / 2 ^ 24 ∧ |(v.y : ℝ) - (x.y - c.y : ℚ)| ≤ |((x.y - c.y : ℚ) : ℝ)| / 2 ^ 24 ∧ |(v.z : ℝ) - (x.z - c.z : ℚ)| ≤ |((x.z - c.z : ℚ) : ℝ)| / 2 ^ 24) := by
  obtain ⟨h1, h2, h3⟩ := hb
  have hne' : ¬(x.x - c.x = 0 ∧ x.y - c.y = 0 ∧ x.z - c.z = 0) := by rintro ⟨a, b, d⟩; exact hne ⟨by linarith, by linarith, by linarith⟩
  refine ⟨⟨r32 (x.x - c.x), r32 (x.y - c.y), r32 (x.z - c.z)⟩, ?_, float_of_float32 (r32_rep _), ?_, ?_, ?_, dist3_pos hne', r32_rep _, r32_errR _, r32_errR _, r32_errR _⟩
  · unfold offset32
    rw [disp32_same ft h1, disp32_same ft h2, disp32_same ft h3]
  · simp only [r32_zero_iff]
    exact hne'
  · exact dist3_scale (r32_errR _) (r32_errR _) (r32_errR _)
  · have := radius_move cs order order 2 (r32_errR (x.x - c.x)) (r32_errR (x.y - c.y)) (r32_errR (x.z - c.z)) hne'
    push_cast at this
    rw [show (order : ℝ) + order + 2 = 2 * order + 2 by ring] at this
    exact this

/-- C130: a particle within half a box of the halo that is farther from the shell than `massMargin` is added to the mass exactly if it is inside.  `rLow` and `rHigh` may be off by the error of the radius, as those of
`RadialRange` are. -/
theorem C130_counted (F : ShellMath) (e : ℝ) (hF : F.Accurate e) (he : e ≤ 1 / 4) (cs : List ℚ) (order : ℕ) (hcs : cs.length = 2 * order * order) (hbig : 2 * order * order ≤ 2 ^ 50) (tw : ℚ) (ft : Float32 tw)
    (c x : Pos32) (hb : SameBox tw c x) (hne : ¬(x.x = c.x ∧ x.y = c.y ∧ x.z = c.z)) (rLow rHigh : ℚ) (h0 : 0 ≤ rLow)
    (hlow : rLow ≤ radiusTo cs order c x + shellErr order order 2 e * sizeOf cs) (hhigh : radiusTo cs order c x - shellErr order order 2 e * sizeOf cs ≤ rHigh)
    (hm : massMargin cs order e (distTo c x) < |radiusTo cs order c x - distTo c x|) :
    massCounted F cs order tw c rLow rHigh x ↔ distTo c x < radiusTo cs order c x := by
  obtain ⟨v, hv, fz, hv0, hd, hr, hD, -⟩ := offset_facts cs order ft hb hne
  have e0 := accurate_nonneg hF
  have hs := size_nonneg cs
  have hE : 0 ≤ shellErr order order 2 e * sizeOf cs := mul_nonneg (shellErr_nonneg _ _ _ e0) hs
  have hO : 0 ≤ (2 * (order : ℝ) + 2) / 2 ^ 22 * sizeOf cs := mul_nonneg (by positivity) hs
  have hk := C128_contains F e hF he cs order order 2 (by rw [hcs]; ring_nf; rfl) (by calc order * order * 2 = 2 * order * order := by ring
                                                                                      _ ≤ _ := hbig) v.x v.y v.z fz hv0
  unfold massMargin at hm
  rw [add_mul] at hm
  unfold massCounted
  rw [hv]
  dsimp only
  obtain ⟨d1, d2⟩ := abs_le.mp hd
  obtain ⟨r1, r2⟩ := abs_le.mp hr
  have bl := @below_limit v.x v.y v.z rLow h0
  have nb := @not_below_limit v.x v.y v.z rHigh hv0
  have hp := dist3_pos hv0
  generalize distTo c x = D at *
  generalize radiusTo cs order c x = R at *
  generalize shellErr order order 2 e * (sizeOf cs : ℝ) = E at *
  generalize (2 * (order : ℝ) + 2) / 2 ^ 22 * sizeOf cs = O at *
  generalize dist3 v.x v.y v.z = D' at *
  generalize radiusAt cs order order 2 v.x v.y v.z = R' at *
  have hk' : contains64 F cs order order 2 v.x v.y v.z ↔ D' < R' := by
    apply hk
    rcases le_total R D with h | h
    · rw [abs_of_nonpos (by linarith)] at hm
      rw [lt_abs]; right
      norm_num at *
      linarith
    · rw [abs_of_nonneg (by linarith)] at hm
      rw [lt_abs]; left
      norm_num at *
      linarith
  rw [hk']
  constructor
  · rintro (h | ⟨-, h⟩)
    · by_contra hcon
      push Not at hcon
      rw [abs_of_nonpos (by linarith)] at hm
      have := bl h
      norm_num at hm this d1
      linarith
    · by_contra hcon
      push Not at hcon
      rw [abs_of_nonpos (by linarith)] at hm
      norm_num at hm d1
      linarith
  · intro h
    rw [abs_of_pos (by linarith)] at hm
    refine Or.inr ⟨?_, by norm_num at hm d2; linarith⟩
    by_contra hcon
    push Not at hcon
    have hH : (0 : ℝ) ≤ rHigh := by norm_num at hm; linarith
    have := nb (by exact_mod_cast hH) hcon
    norm_num at hm this d2
    linarith

/-- C130: a particle at the position of the halo is counted exactly if the lower limit is not zero. -/
theorem C130_centre (F : ShellMath) (cs : List ℚ) (order : ℕ) (tw : ℚ) (ht : 0 ≤ tw) (ft : Float32 tw) (c : Pos32) (rLow rHigh : ℚ) : massCounted F cs order tw c rLow rHigh c ↔ rLow ≠ 0 := by
  have h : ∀ a : ℚ, disp32 tw a a = 0 := by
    intro a
    rw [disp32_same ft (by rw [sub_self, abs_zero]; linarith), sub_self]
    exact (r32_zero_iff 0).mpr rfl
  unfold massCounted offset32
  simp only [h]
  have z : r2_32 0 0 0 = 0 := by
    unfold r2_32
    simp only [mul_zero, (r32_zero_iff 0).mpr rfl, add_zero]
  rw [z]
  have l := limit32_bounds rLow
  constructor
  · rintro (h1 | ⟨-, h1⟩) rfl
    · have h1' : (0 : ℝ) < limit32 0 := by exact_mod_cast h1
      norm_num at l
      linarith [l.2]
    · exact C128_centre F cs order order 2 h1
  · intro hn
    left
    have : (0 : ℝ) < (rLow : ℝ) ^ 2 := by
      have : (rLow : ℝ) ≠ 0 := by exact_mod_cast hn
      positivity
    have : (0 : ℝ) < limit32 rLow := by
      refine lt_of_lt_of_le ?_ l.1
      norm_num
      assumption
    exact_mod_cast this

/-! The mass of a file -/

theorem sum_getElem {α : Type} (f : α → ℚ) (l : List α) (g : ℕ → ℚ) (hg : ∀ (i : ℕ) (a : α), l[i]? = some a → g i = f a) : ∑ i ∈ range l.length, g i = (l.map f).sum := by
  induction l generalizing g with
  | nil => simp
  | cons a l ih =>
    rw [List.length_cons, sum_range_succ', List.map_cons, List.sum_cons, ih (fun i => g (i + 1)) (fun i b h => hg (i + 1) b (by simpa using h)), hg 0 a (by simp), add_comm]

/-- A particle about which the test is certain. -/
structure Certain (F : ShellMath) (e : ℝ) (cs : List ℚ) (order : ℕ) (tw : ℚ) (c : Pos32) (rLow rHigh : ℚ) (x : Pos32) : Prop where
  box : SameBox tw c x
  apart : ¬(x.x = c.x ∧ x.y = c.y ∧ x.z = c.z)
  low : rLow ≤ radiusTo cs order c x + shellErr order order 2 e * sizeOf cs
  high : radiusTo cs order c x - shellErr order order 2 e * sizeOf cs ≤ rHigh
  margin : massMargin cs order e (distTo c x) < |radiusTo cs order c x - distTo c x|

open Classical in
/-- C130: the mass that `massContained` returns for a file, with any number of workers and any schedule, is the sum of the masses of the particles inside the shell, up to the rounding of the additions, if all
particles are far enough from the shell. -/
theorem C130_mass (workers : ℕ) (hw : 0 < workers) (F : ShellMath) (e : ℝ) (hF : F.Accurate e) (he : e ≤ 1 / 4) (cs : List ℚ) (order : ℕ) (hcs : cs.length = 2 * order * order) (hbig : 2 * order * order ≤ 2 ^ 50)
    (tw : ℚ) (ft : Float32 tw) (c : Pos32) (rLow rHigh : ℚ) (h0 : 0 ≤ rLow) (ps : List (Pos32 × ℚ)) (hm : ∀ p ∈ ps, 0 ≤ p.2) (hp : ∀ p ∈ ps, Certain F e cs order tw c rLow rHigh p.1)
    (s : Par.State ℚ) (h : Par.Reach (massSection64 workers F cs order tw c rLow rHigh ps) s) (hr : Par.Returned (massSection64 workers F cs order tw c rLow rHigh ps) s) (M : ℚ)
    (hM : M = (ps.map fun p => if distTo c p.1 < radiusTo cs order c p.1 then p.2 else 0).sum) :
    M * (1 - 1 / 2 ^ 53) ^ (ps.length + workers) ≤ s.res ∧ s.res ≤ M * (1 + 1 / 2 ^ 53) ^ (ps.length + workers) := by
  have hsum : ∑ i ∈ range ps.length, mass32 F cs order tw c rLow rHigh ps i = M := by
    rw [hM]
    apply sum_getElem
    intro i p hi
    have hmem : p ∈ ps := List.mem_of_getElem? hi
    have k := hp p hmem
    unfold mass32
    rw [hi]
    dsimp only
    simp only [C130_counted F e hF he cs order hcs hbig tw ft c p.1 k.box k.apart rLow rHigh h0 k.low k.high k.margin]
  have nn : ∀ i, 0 ≤ mass32 F cs order tw c rLow rHigh ps i := by
    intro i
    unfold mass32
    split
    · exact le_rfl
    · rename_i p hi
      split
      · exact hm p (List.mem_of_getElem? hi)
      · exact le_rfl
  have := Par.C101_close workers ps.length hw _ nn s h hr
  rw [hsum] at this
  exact this

/-! The list of particles -/

theorem lt_r64 {q : ℚ} {r : ℝ} (hr : 0 < r) (h : r * (1 + 1 / 2 ^ 52) < q) : r < r64 q := by
  have hq : (0 : ℝ) < q := lt_trans (by positivity) h
  have e := abs_le.mp (r64_errR q)
  rw [abs_of_pos hq] at e
  norm_num at h e
  nlinarith [e.1]

theorem lt_of_lt_r64 {q : ℚ} {r : ℝ} (hr : 0 < r) (h : r < r64 q) : r * (1 - 1 / 2 ^ 52) < q := by
  have hq : (0 : ℝ) < q := by
    by_contra hc
    have : q ≤ 0 := by exact_mod_cast not_lt.mp hc
    have z : r64 q ≤ 0 := r64_le ⟨0, 0, by norm_num, by norm_num⟩ this
    have : (r64 q : ℝ) ≤ 0 := by exact_mod_cast z
    linarith
  have e := abs_le.mp (r64_errR q)
  rw [abs_of_pos hq] at e
  norm_num at e ⊢
  nlinarith [e.2]

theorem r64_lt {q : ℚ} {r : ℝ} (hr : 0 < r) (h : q < r * (1 - 1 / 2 ^ 52)) : r64 q < r := by
  rcases le_or_gt (q : ℝ) 0 with hq | hq
  · have : q ≤ 0 := by exact_mod_cast hq
    have z : r64 q ≤ 0 := r64_le ⟨0, 0, by norm_num, by norm_num⟩ this
    have : (r64 q : ℝ) ≤ 0 := by exact_mod_cast z
    linarith
  · have e := abs_le.mp (r64_errR q)
    rw [abs_of_pos hq] at e
    norm_num at h e
    nlinarith [e.2]

theorem lt_of_r64_lt {q : ℚ} {r : ℝ} (hr : 0 < r) (h : r64 q < r) : q < r * (1 + 1 / 2 ^ 52) := by
  rcases le_or_gt (q : ℝ) 0 with hq | hq
  · have : 0 < r * (1 + 1 / 2 ^ 52) := by positivity
    linarith
  · have e := abs_le.mp (r64_errR q)
    rw [abs_of_pos hq] at e
    norm_num at e ⊢
    nlinarith [e.1]

theorem le_limit {x y z r : ℚ} (hr : 0 ≤ r) (h : r2_32 x y z ≤ limit32 r) : dist3 x y z * (1 - 4 / 2 ^ 24) ≤ r := by
  have b := r2_32_bounds x y z
  rw [← dist3_sq] at b
  have l := limit32_bounds r
  have p : 0 ≤ dist3 x y z := Real.sqrt_nonneg _
  have hr' : (0 : ℝ) ≤ r := by exact_mod_cast hr
  have h' : (r2_32 x y z : ℝ) ≤ limit32 r := by exact_mod_cast h
  by_contra hc
  push Not at hc
  have := pow_le_pow_left₀ hr' hc.le 2
  rw [mul_pow] at this
  generalize dist3 x y z = D at *
  generalize (r2_32 x y z : ℝ) = A at *
  generalize (limit32 r : ℝ) = B at *
  generalize (r : ℝ) = s at *
  have hD : 0 < D := by
    by_contra hD
    have : D = 0 := le_antisymm (not_lt.mp hD) p
    rw [this] at hc
    norm_num at hc
    linarith
  have hD2 : 0 < D ^ 2 := by positivity
  norm_num at *
  nlinarith

/-- The radius of the shell as `appendShellParticlesChan` finds it, from the distance in float32. -/
theorem radii32_close {F : ShellMath} {e : ℝ} (hF : F.Accurate e) (he : e ≤ 1 / 4) (cs : List ℚ) (order : ℕ) (hcs : cs.length = 2 * order * order) (hbig : 2 * order * order ≤ 2 ^ 50) {v : Pos32} (fz : Float32 v.z)
    (h0 : ¬(v.x = 0 ∧ v.y = 0 ∧ v.z = 0)) (hax : v.z ^ 2 ≤ 2 ^ 22 * (v.x ^ 2 + v.y ^ 2)) :
    ∃ r rs : ℚ, (∀ r' rs', radii32 F cs order v r' rs' ↔ r' = r ∧ rs' = rs) ∧ |(r : ℝ) - dist3 v.x v.y v.z| ≤ dist3 v.x v.y v.z * (1 / 2 ^ 22 + 1 / 2 ^ 50) ∧
      |(rs : ℝ) - radiusAt cs order order 2 v.x v.y v.z| ≤ shellErrA order order 2 e (1 / 900) * sizeOf cs := by
  obtain ⟨r, hr, hrd⟩ := sqrt_len' v.x v.y v.z
  obtain ⟨p, hp, hp1⟩ := C116_float32_partial v.x v.y v.z fz h0 hax
  have hl : len3 v.x v.y v.z = dist3 v.x v.y v.z := rfl
  rw [hl] at hrd
  have hD := dist3_pos h0
  have hz := le_dist3 v.x v.y v.z
  have hpz : p = r64 (v.z / r) ∧ r ≠ 0 := by
    unfold polar32 at hp
    rw [hr, Option.bind_some] at hp
    unfold acosArg at hp
    split at hp
    · cases hp
    · rename_i hr0
      split at hp
      · cases hp
      · exact ⟨(Option.some.inj hp).symm, hr0⟩
  have hη : |(p : ℝ) - (v.z : ℝ) / dist3 v.x v.y v.z| ≤ 1 / 2 ^ 22 + 1 / 2 ^ 42 := by
    have e1 := r64_errR (v.z / r)
    rw [← hpz.1] at e1
    push_cast at e1
    obtain ⟨l, u⟩ := abs_le.mp hrd
    generalize dist3 v.x v.y v.z = D at *
    have rpos : 0 < (r : ℝ) := by norm_num at l; linarith
    have e2 : |(v.z : ℝ) / r - v.z / D| ≤ 1 / 2 ^ 22 + 1 / 2 ^ 43 := by
      have : (v.z : ℝ) / r - v.z / D = v.z * (D - r) / (r * D) := by field_simp
      rw [this, abs_div, abs_mul, abs_of_pos (mul_pos rpos hD), div_le_iff₀ (mul_pos rpos hD), abs_sub_comm]
      have q := mul_le_mul hz hrd (abs_nonneg _) hD.le
      have q2 := mul_le_mul_of_nonneg_right l hD.le
      norm_num at *
      nlinarith
    have e3 : |(v.z : ℝ) / r| ≤ 2 := by
      have := abs_sub_abs_le_abs_sub ((v.z : ℝ) / r) (v.z / D)
      have := ratio_one hD hz
      norm_num at e2
      linarith
    have := abs_sub_le (p : ℝ) (v.z / r) (v.z / D)
    norm_num at *
    linarith
  obtain ⟨phi, th, hph, hth, hp4, hq4, g1, g2, g3⟩ := angles_close (d := 1 / 900) hF he h0 hp1 hη (by norm_num) (by norm_num)
  obtain ⟨rs, hrs, hd⟩ := penna_closeA hF cs order order 2 (by rw [hcs]; ring_nf; rfl) (by calc order * order * 2 = 2 * order * order := by ring
                                                                                          _ ≤ _ := hbig) (by norm_num) hph hth hp4 hq4
  refine ⟨r, rs, ?_, hrd, ?_⟩
  · intro r' rs'
    unfold radii32
    rw [hr]
    constructor
    · rintro ⟨h1, p', h2, h3⟩
      rw [hp, Option.some.injEq] at h2
      subst h2
      rw [hrs, Option.some.injEq] at h3
      exact ⟨(Option.some.inj h1).symm, h3.symm⟩
    · rintro ⟨rfl, rfl⟩
      exact ⟨rfl, p, hp, hrs⟩
  · have : radiusAt cs order order 2 v.x v.y v.z = shellAt cs order order 2 phi th := by
      unfold radiusAt shellAt
      rw [g1, g2, g3]
    rw [this]
    exact hd

/-- How far from the limits a particle must be for the test of the particle list to be certain.  The polar angle is taken from a distance in float32, which makes it less accurate than in `massMargin`. -/
noncomputable def idMargin (cs : List ℚ) (order : ℕ) (e D : ℝ) : ℝ := (shellErrA order order 2 e (1 / 900) + (2 * order + 2) / 2 ^ 22) * sizeOf cs + D / 2 ^ 19

/-- The particle is not close to the axis through the halo: its distance from the axis is at least a thousandth of its height. -/
def OffAxis (c x : Pos32) : Prop := (x.z - c.z) ^ 2 ≤ 2 ^ 20 * ((x.x - c.x) ^ 2 + (x.y - c.y) ^ 2)

theorem off_axis_move {x y z x' y' z' : ℚ} (hx : |(x' : ℝ) - x| ≤ |(x : ℝ)| / 2 ^ 24) (hy : |(y' : ℝ) - y| ≤ |(y : ℝ)| / 2 ^ 24) (hz : |(z' : ℝ) - z| ≤ |(z : ℝ)| / 2 ^ 24)
    (h : z ^ 2 ≤ 2 ^ 20 * (x ^ 2 + y ^ 2)) : z' ^ 2 ≤ 2 ^ 22 * (x' ^ 2 + y' ^ 2) := by
  have key : ∀ a b : ℝ, |b - a| ≤ |a| / 2 ^ 24 → a ^ 2 ≤ 2 * b ^ 2 ∧ b ^ 2 ≤ 2 * a ^ 2 := by
    intro a b h
    have h1 : |b| ≤ |a| * (1 + 1 / 2 ^ 24) := by
      have := abs_sub_abs_le_abs_sub b a
      linarith
    have h2 : |a| * (1 - 1 / 2 ^ 24) ≤ |b| := by
      have := abs_sub_abs_le_abs_sub a b
      rw [abs_sub_comm] at this
      linarith
    rw [← sq_abs a, ← sq_abs b]
    have ha := abs_nonneg a
    have hb := abs_nonneg b
    norm_num at h1 h2
    constructor <;> nlinarith
  have kx := (key _ _ hx).1
  have ky := (key _ _ hy).1
  have kz := (key _ _ hz).2
  have h' : (z : ℝ) ^ 2 ≤ 2 ^ 20 * ((x : ℝ) ^ 2 + (y : ℝ) ^ 2) := by exact_mod_cast h
  have : (z' : ℝ) ^ 2 ≤ 2 ^ 22 * ((x' : ℝ) ^ 2 + (y' : ℝ) ^ 2) := by linarith
  exact_mod_cast this

/-- Everything about a particle that the tests of the list depend on. -/
theorem listed_facts {F : ShellMath} {e : ℝ} (hF : F.Accurate e) (he : e ≤ 1 / 4) (cs : List ℚ) (order : ℕ) (hcs : cs.length = 2 * order * order) (hbig : 2 * order * order ≤ 2 ^ 50) {tw : ℚ} (ft : Float32 tw)
    {c x : Pos32} (hb : SameBox tw c x) (hne : ¬(x.x = c.x ∧ x.y = c.y ∧ x.z = c.z)) (hax : OffAxis c x) :
    ∃ (v : Pos32) (r rs : ℚ), offset32 tw c x = v ∧ ¬(v.x = 0 ∧ v.y = 0 ∧ v.z = 0) ∧ (∀ r' rs', radii32 F cs order v r' rs' ↔ r' = r ∧ rs' = rs) ∧ 0 < distTo c x ∧
      |dist3 v.x v.y v.z - distTo c x| ≤ distTo c x / 2 ^ 24 ∧ |(r : ℝ) - distTo c x| ≤ distTo c x / 2 ^ 21 ∧
      |(rs : ℝ) - radiusTo cs order c x| ≤ (shellErrA order order 2 e (1 / 900) + (2 * order + 2) / 2 ^ 22) * sizeOf cs := by
  obtain ⟨v, hv, fz, hv0, hd, hr, hD, f32, m1, m2, m3⟩ := offset_facts cs order ft hb hne
  obtain ⟨r, rs, h1, h2, h3⟩ := radii32_close hF he cs order hcs hbig f32 hv0 (off_axis_move m1 m2 m3 hax)
  refine ⟨v, r, rs, hv, hv0, h1, hD, hd, ?_, ?_⟩
  · refine (abs_sub_le _ _ _).trans (le_trans (add_le_add h2 hd) ?_)
    obtain ⟨l, u⟩ := abs_le.mp hd
    norm_num at *
    nlinarith
  · rw [add_mul]
    exact (abs_sub_le _ _ _).trans (add_le_add h3 hr)

/-- C130 (part that holds): with a negative width, all particles inside the shell are asked for; a particle off the axis that is farther from the shell than `idMargin` is listed exactly if it is inside.  Missing:
particles close to the axis (`C130_axis_false`). -/
theorem C130_inside_partial (F : ShellMath) (e : ℝ) (hF : F.Accurate e) (he : e ≤ 1 / 4) (cs : List ℚ) (order : ℕ) (hcs : cs.length = 2 * order * order) (hbig : 2 * order * order ≤ 2 ^ 50) (tw : ℚ)
    (ft : Float32 tw) (c x : Pos32) (hb : SameBox tw c x) (hne : ¬(x.x = c.x ∧ x.y = c.y ∧ x.z = c.z)) (hax : OffAxis c x) (R rLow rHigh width : ℚ) (hw : width < 0)
    (hhigh : radiusTo cs order c x - shellErr order order 2 e * sizeOf cs ≤ rHigh) (hm : idMargin cs order e (distTo c x) < |radiusTo cs order c x - distTo c x|) :
    idListed F cs order tw c R rLow rHigh width x ↔ distTo c x < radiusTo cs order c x := by
  obtain ⟨v, r, rs, hv, hv0, huniq, hD, hd, hr, hrs⟩ := listed_facts hF he cs order hcs hbig ft hb hne hax
  have e0 := accurate_nonneg hF
  have hs := size_nonneg cs
  have hE : shellErr order order 2 e * sizeOf cs ≤ (shellErrA order order 2 e (1 / 900) + (2 * order + 2) / 2 ^ 22) * sizeOf cs := by
    refine mul_le_mul_of_nonneg_right ?_ hs
    unfold shellErr shellErrA
    have : (0 : ℝ) ≤ order := Nat.cast_nonneg _
    push_cast
    norm_num
    nlinarith
  have hM0 : 0 ≤ shellErr order order 2 e * (sizeOf cs : ℝ) := mul_nonneg (shellErr_nonneg _ _ _ e0) hs
  unfold idMargin at hm
  unfold idListed
  simp only [hv, if_pos hw, huniq, add_zero]
  have hex : (∃ r' rs', (r' = r ∧ rs' = rs) ∧ rs' > r') ↔ r < rs := ⟨fun ⟨_, _, ⟨h1, h2⟩, h3⟩ => by rw [h1, h2] at h3; exact h3, fun h => ⟨r, rs, ⟨rfl, rfl⟩, h⟩⟩
  rw [hex]
  have hlt : r < rs ↔ (r : ℝ) < rs := by exact_mod_cast Iff.rfl
  rw [hlt]
  have nb := @not_below_limit v.x v.y v.z (r64 rHigh) hv0
  obtain ⟨d1, d2⟩ := abs_le.mp hd
  obtain ⟨r1, r2⟩ := abs_le.mp hr
  obtain ⟨s1, s2⟩ := abs_le.mp hrs
  generalize distTo c x = D at *
  generalize radiusTo cs order c x = Q at *
  generalize shellErr order order 2 e * (sizeOf cs : ℝ) = E at *
  generalize (shellErrA order order 2 e (1 / 900) + (2 * order + 2) / 2 ^ 22) * (sizeOf cs : ℝ) = G at *
  generalize dist3 v.x v.y v.z = D' at *
  constructor
  · rintro ⟨-, h⟩
    by_contra hcon
    push Not at hcon
    rw [abs_of_nonpos (by linarith)] at hm
    norm_num at hm r1 r2
    linarith
  · intro h
    rw [abs_of_pos (by linarith)] at hm
    refine ⟨?_, by norm_num at hm r1 r2; linarith⟩
    by_contra hcon
    push Not at hcon
    have hH : D * (1 + 1 / 2 ^ 20) < rHigh := by norm_num at hm ⊢; linarith
    have hH2 := lt_r64 (r := D * (1 + 1 / 2 ^ 21)) (by positivity) (lt_of_le_of_lt (by norm_num; nlinarith) hH)
    have hpos : (0 : ℝ) ≤ r64 rHigh := by nlinarith
    have := nb (by exact_mod_cast hpos) hcon
    norm_num at this d2 hH2
    linarith

/-- C130 (part that holds): with a width that is not negative and makes no lower limit negative, a particle off the axis is listed exactly if its distance from the shell along its direction is less than the width times the
radius of the halo, unless it is within `idMargin` of these limits.  Missing: particles close to the axis, and larger widths (`C78_width_false`). -/
theorem C130_width_partial (F : ShellMath) (e : ℝ) (hF : F.Accurate e) (he : e ≤ 1 / 4) (cs : List ℚ) (order : ℕ) (hcs : cs.length = 2 * order * order) (hbig : 2 * order * order ≤ 2 ^ 50) (tw : ℚ)
    (ft : Float32 tw) (c x : Pos32) (hb : SameBox tw c x) (hne : ¬(x.x = c.x ∧ x.y = c.y ∧ x.z = c.z)) (hax : OffAxis c x) (R rLow rHigh width : ℚ) (hw : 0 ≤ width) (delta : ℚ) (hdelta : delta = r64 (R * width))
    (hd0 : 0 ≤ delta) (hd1 : delta ≤ rLow)
    (hlow : rLow ≤ radiusTo cs order c x + shellErr order order 2 e * sizeOf cs) (hhigh : radiusTo cs order c x - shellErr order order 2 e * sizeOf cs ≤ rHigh)
    (hm : idMargin cs order e (distTo c x) < |(|radiusTo cs order c x - distTo c x| - delta)|) :
    idListed F cs order tw c R rLow rHigh width x ↔ |radiusTo cs order c x - distTo c x| < delta := by
  obtain ⟨v, r, rs, hv, hv0, huniq, hD, hd, hr, hrs⟩ := listed_facts hF he cs order hcs hbig ft hb hne hax
  have e0 := accurate_nonneg hF
  have hs := size_nonneg cs
  have hE : shellErr order order 2 e * sizeOf cs ≤ (shellErrA order order 2 e (1 / 900) + (2 * order + 2) / 2 ^ 22) * sizeOf cs := by
    refine mul_le_mul_of_nonneg_right ?_ hs
    unfold shellErr shellErrA
    have : (0 : ℝ) ≤ order := Nat.cast_nonneg _
    push_cast
    norm_num
    nlinarith
  have hM0 : 0 ≤ shellErr order order 2 e * (sizeOf cs : ℝ) := mul_nonneg (shellErr_nonneg _ _ _ e0) hs
  unfold idMargin at hm
  unfold idListed
  simp only [hv, if_neg (not_lt.mpr hw), huniq, ← hdelta]
  have hex : (∃ r' rs', (r' = r ∧ rs' = rs) ∧ r64 (rs' + delta) > r' ∧ r64 (rs' - delta) < r') ↔ (r : ℝ) < r64 (rs + delta) ∧ (r64 (rs - delta) : ℝ) < r := by
    constructor
    · rintro ⟨_, _, ⟨h1, h2⟩, h3, h4⟩
      rw [h1, h2] at h3 h4
      exact ⟨by exact_mod_cast h3, by exact_mod_cast h4⟩
    · rintro ⟨h3, h4⟩
      exact ⟨r, rs, ⟨rfl, rfl⟩, by exact_mod_cast h3, by exact_mod_cast h4⟩
  rw [hex]
  have nb := @not_below_limit v.x v.y v.z (r64 (rHigh + delta)) hv0
  have ll := @le_limit v.x v.y v.z (r64 (rLow - delta)) (r64_nonneg (by linarith))
  obtain ⟨d1, d2⟩ := abs_le.mp hd
  obtain ⟨r1, r2⟩ := abs_le.mp hr
  obtain ⟨s1, s2⟩ := abs_le.mp hrs
  have hd0' : (0 : ℝ) ≤ delta := by exact_mod_cast hd0
  generalize distTo c x = D at *
  generalize radiusTo cs order c x = Q at *
  generalize shellErr order order 2 e * (sizeOf cs : ℝ) = E at *
  generalize (shellErrA order order 2 e (1 / 900) + (2 * order + 2) / 2 ^ 22) * (sizeOf cs : ℝ) = G at *
  have hr0 : (0 : ℝ) < r := by norm_num at r1; linarith
  constructor
  · rintro ⟨-, h1, h2⟩
    have a1 := lt_of_lt_r64 hr0 h1
    have a2 := lt_of_r64_lt hr0 h2
    push_cast at a1 a2
    by_contra hcon
    push Not at hcon
    rw [abs_of_nonneg (by linarith)] at hm
    rcases abs_cases (Q - D) with ⟨hq, _⟩ | ⟨hq, _⟩ <;> rw [hq] at hm <;> norm_num at hm r1 r2 a1 a2 <;> nlinarith
  · intro h
    rw [abs_of_neg (by linarith)] at hm
    obtain ⟨q1, q2⟩ := abs_lt.mp (show |Q - D| < delta - (G + D / 2 ^ 19) by linarith)
    have b1 : D * (1 + 1 / 2 ^ 19) < rs + delta := by norm_num at q1 q2 ⊢; linarith
    have b2 : rs - delta < D * (1 - 1 / 2 ^ 19) := by norm_num at q1 q2 ⊢; linarith
    refine ⟨⟨?_, ?_⟩, lt_r64 hr0 (by push_cast; norm_num at b1 r2 ⊢; nlinarith), r64_lt hr0 (by push_cast; norm_num at b2 r1 ⊢; nlinarith)⟩
    · by_contra hcon
      push Not at hcon
      have := ll hcon
      have c1 : ((rLow - delta : ℚ) : ℝ) < D * (1 - 1 / 2 ^ 19) := by push_cast; norm_num at q1 q2 ⊢; linarith
      have c2 := r64_lt (r := D * (1 - 1 / 2 ^ 20)) (by norm_num; exact hD) (lt_of_lt_of_le c1 (by norm_num; nlinarith))
      generalize dist3 v.x v.y v.z = D' at *
      norm_num at this d1 c2
      linarith
    · by_contra hcon
      push Not at hcon
      have c1 : D * (1 + 1 / 2 ^ 19) < ((rHigh + delta : ℚ) : ℝ) := by push_cast; norm_num at q1 q2 ⊢; linarith
      have c2 := lt_r64 (r := D * (1 + 1 / 2 ^ 20)) (by positivity) (lt_of_le_of_lt (by norm_num; nlinarith) c1)
      have hpos : (0 : ℝ) ≤ r64 (rHigh + delta) := by nlinarith
      have := nb (by exact_mod_cast hpos) hcon
      generalize dist3 v.x v.y v.z = D' at *
      norm_num at this d2 c2
      linarith

/-! Examples: a sphere with radius 2 as a shell of order 3, around a halo at (1, 1, 1) in a box of 100. -/

/-- The coefficients of a sphere with radius 2. -/
def sphere2 : List ℚ := 2 :: List.replicate 17 0

theorem sphere2_size : sizeOf sphere2 = 2 := by simp [sizeOf, sphere2]

theorem sphere2_radius (c x : Pos32) : radiusTo sphere2 3 c x = 2 := by
  unfold radiusTo radiusAt sphere2
  simp [sum_range_succ]

theorem sphere2_err : shellErr 3 3 2 (1 / 2 ^ 45) ≤ 1 / 2 ^ 19 ∧ shellErrA 3 3 2 (1 / 2 ^ 45) (1 / 900) ≤ 1 / 100 := by
  unfold shellErr shellErrA
  norm_num

theorem cutMath45 : cutMath.Accurate (1 / 2 ^ 45) := cutMath_accurate.mono (by norm_num)

theorem example_dist : distTo ⟨1, 1, 1⟩ ⟨2, 1, 1⟩ = 1 ∧ distTo ⟨1, 1, 1⟩ ⟨1, 4, 1⟩ = 3 := by
  unfold distTo dist3
  constructor
  · norm_num
  · rw [Real.sqrt_eq_iff_mul_self_eq] <;> norm_num

/-- One particle inside the sphere, one outside: both are certain. -/
theorem example_certain : Certain cutMath (1 / 2 ^ 45) sphere2 3 100 ⟨1, 1, 1⟩ (31 / 16) (33 / 16) ⟨2, 1, 1⟩ ∧ Certain cutMath (1 / 2 ^ 45) sphere2 3 100 ⟨1, 1, 1⟩ (31 / 16) (33 / 16) ⟨1, 4, 1⟩ := by
  have hs : ((sizeOf sphere2 : ℚ) : ℝ) = 2 := by rw [sphere2_size]; norm_num
  have h0 : 0 ≤ shellErr 3 3 2 (1 / 2 ^ 45) := shellErr_nonneg _ _ _ (by norm_num)
  have h1 := sphere2_err.1
  constructor
  · refine ⟨by unfold SameBox; norm_num, by norm_num, ?_, ?_, ?_⟩
    · rw [sphere2_radius, hs]; push_cast; linarith
    · rw [sphere2_radius, hs]; push_cast; linarith
    · unfold massMargin
      rw [sphere2_radius, hs, example_dist.1]
      norm_num at h1 ⊢
      linarith
  · refine ⟨by unfold SameBox; norm_num, by norm_num, ?_, ?_, ?_⟩
    · rw [sphere2_radius, hs]; push_cast; linarith
    · rw [sphere2_radius, hs]; push_cast; linarith
    · unfold massMargin
      rw [sphere2_radius, hs, example_dist.2]
      norm_num at h1 ⊢
      linarith

theorem float100 : Float32 100 := ⟨100, 0, by norm_num, by norm_num⟩

example : massCounted cutMath sphere2 3 100 ⟨1, 1, 1⟩ (31 / 16) (33 / 16) ⟨2, 1, 1⟩ ∧ ¬ massCounted cutMath sphere2 3 100 ⟨1, 1, 1⟩ (31 / 16) (33 / 16) ⟨1, 4, 1⟩ := by
  obtain ⟨k1, k2⟩ := example_certain
  constructor
  · rw [C130_counted cutMath _ cutMath45 (by norm_num) sphere2 3 (by simp [sphere2]) (by norm_num) 100 float100 _ _ k1.box k1.apart _ _ (by norm_num) k1.low k1.high k1.margin, sphere2_radius, example_dist.1]
    norm_num
  · rw [C130_counted cutMath _ cutMath45 (by norm_num) sphere2 3 (by simp [sphere2]) (by norm_num) 100 float100 _ _ k2.box k2.apart _ _ (by norm_num) k2.low k2.high k2.margin, sphere2_radius, example_dist.2]
    norm_num

/-- The same two particles with masses 5 and 7, on three threads: the mass is 5, up to rounding. -/
example (s : Par.State ℚ) (h : Par.Reach (massSection64 3 cutMath sphere2 3 100 ⟨1, 1, 1⟩ (31 / 16) (33 / 16) [(⟨2, 1, 1⟩, 5), (⟨1, 4, 1⟩, 7)]) s)
    (hr : Par.Returned (massSection64 3 cutMath sphere2 3 100 ⟨1, 1, 1⟩ (31 / 16) (33 / 16) [(⟨2, 1, 1⟩, 5), (⟨1, 4, 1⟩, 7)]) s) : 5 * (1 - 1 / 2 ^ 53) ^ 5 ≤ s.res ∧ s.res ≤ 5 * (1 + 1 / 2 ^ 53) ^ 5 := by
  refine C130_mass 3 (by norm_num) cutMath _ cutMath45 (by norm_num) sphere2 3 (by simp [sphere2]) (by norm_num) 100 float100 _ _ _ (by norm_num) _ (by simp) ?_ s h hr 5 ?_
  · intro p hp
    rcases List.mem_cons.mp hp with rfl | hp
    · exact example_certain.1
    · rw [List.mem_singleton.mp hp]
      exact example_certain.2
  · simp only [List.map_cons, List.map_nil, sphere2_radius, example_dist.1, example_dist.2]
    norm_num

example : idListed cutMath sphere2 3 100 ⟨1, 1, 1⟩ 2 (31 / 16) (33 / 16) (-1) ⟨2, 1, 1⟩ ∧ ¬ idListed cutMath sphere2 3 100 ⟨1, 1, 1⟩ 2 (31 / 16) (33 / 16) (1 / 4) ⟨2, 1, 1⟩ := by
  obtain ⟨k1, -⟩ := example_certain
  have hs : ((sizeOf sphere2 : ℚ) : ℝ) = 2 := by rw [sphere2_size]; norm_num
  have h2 := sphere2_err.2
  constructor
  · rw [C130_inside_partial cutMath _ cutMath45 (by norm_num) sphere2 3 (by simp [sphere2]) (by norm_num) 100 float100 _ _ k1.box k1.apart (by unfold OffAxis; norm_num) _ _ _ _ (by norm_num) k1.high ?_, sphere2_radius, example_dist.1]
    · norm_num
    · unfold idMargin
      rw [sphere2_radius, hs, example_dist.1]
      norm_num at h2 ⊢
      linarith
  · have hd : (1 / 2 : ℚ) = r64 (2 * (1 / 4)) := by
      rw [show (2 * (1 / 4) : ℚ) = 1 / 2 by norm_num, r64_float ⟨1, -1, by norm_num, by norm_num⟩]
    rw [C130_width_partial cutMath _ cutMath45 (by norm_num) sphere2 3 (by simp [sphere2]) (by norm_num) 100 float100 _ _ k1.box k1.apart (by unfold OffAxis; norm_num) _ _ _ _ (by norm_num) (1 / 2) hd (by norm_num) (by norm_num)
      k1.low k1.high ?_, sphere2_radius, example_dist.1]
    · norm_num
    · unfold idMargin
      rw [sphere2_radius, hs, example_dist.1]
      norm_num at h2 ⊢
      linarith

/-- C130 is false close to the axis: a particle right above the halo, in the middle between the centre and a sphere with radius 2, is in the mass but never in the list of the particles, whatever width is asked for. -/
theorem C130_axis_false (z : ℚ) (hz : z = 1 + 1 / 2 ^ 13) : massCounted cutMath sphere2 3 100 ⟨0, 0, 0⟩ (31 / 16) (33 / 16) ⟨0, 0, z⟩ ∧ (distTo ⟨0, 0, 0⟩ ⟨0, 0, z⟩ < radiusTo sphere2 3 ⟨0, 0, 0⟩ ⟨0, 0, z⟩) ∧
    ∀ (F : ShellMath) (cs : List ℚ) (order : ℕ) (R rLow rHigh width : ℚ), ¬ idListed F cs order 100 ⟨0, 0, 0⟩ R rLow rHigh width ⟨0, 0, z⟩ := by
  obtain ⟨fz, hp, -⟩ := C116_axis_false z (Or.inl hz)
  have hzR : (z : ℝ) = 1 + 1 / 2 ^ 13 := by rw [hz]; push_cast; rfl
  have hd : distTo ⟨0, 0, 0⟩ ⟨0, 0, z⟩ = 1 + 1 / 2 ^ 13 := by
    unfold distTo dist3
    rw [sub_zero, sub_zero, hzR, Rat.cast_zero, show (0 : ℝ) ^ 2 + 0 ^ 2 + (1 + 1 / 2 ^ 13) ^ 2 = (1 + 1 / 2 ^ 13) ^ 2 by ring, Real.sqrt_sq (by norm_num)]
  have hs : ((sizeOf sphere2 : ℚ) : ℝ) = 2 := by rw [sphere2_size]; norm_num
  have h0 : 0 ≤ shellErr 3 3 2 (1 / 2 ^ 45) := shellErr_nonneg _ _ _ (by norm_num)
  have h1 := sphere2_err.1
  have hb : SameBox 100 ⟨0, 0, 0⟩ ⟨0, 0, z⟩ := by
    unfold SameBox
    rw [hz]
    norm_num
  refine ⟨?_, ?_, ?_⟩
  · rw [C130_counted cutMath _ cutMath45 (by norm_num) sphere2 3 (by simp [sphere2]) (by norm_num) 100 float100 _ _ hb (by rw [hz]; norm_num) _ _ (by norm_num)
      (by rw [sphere2_radius, hs]; push_cast; linarith) (by rw [sphere2_radius, hs]; push_cast; linarith)
      (by unfold massMargin; rw [sphere2_radius, hs, hd]; norm_num at h1 ⊢; linarith), sphere2_radius, hd]
    norm_num
  · rw [sphere2_radius, hd]
    norm_num
  · intro F cs order R rLow rHigh width h
    have hoff : offset32 100 ⟨0, 0, 0⟩ ⟨0, 0, z⟩ = ⟨0, 0, z⟩ := by
      obtain ⟨b1, b2, b3⟩ := hb
      unfold offset32
      rw [disp32_same float100 b1, disp32_same float100 b3]
      simp only [sub_zero, r32_float fz, (r32_zero_iff 0).mpr rfl]
    have no : ∀ r rs, ¬ radii32 F cs order ⟨0, 0, z⟩ r rs := by
      rintro r rs ⟨-, p, h2, -⟩
      dsimp only at h2
      rw [hp] at h2
      cases h2
    unfold idListed at h
    simp only [hoff, no, false_and, exists_false, and_false, ite_self] at h

/-- The coefficients of a shell with the radius 2 - 7 x (x: the component of the unit vector). -/
def dented : List ℚ := 2 :: -7 :: List.replicate 16 0

/-- C130 is false if the lower limit is negative: a fitted shell may have negative radii, `RadialRange` returns the least of them, and its square is compared.  The shell here has the radius -5 in one direction and 2 in a
direction in which a particle has the distance 3; it is counted. -/
theorem C130_negative_false (F : ShellMath) (rHigh : ℚ) : radiusTo dented 3 ⟨1, 1, 1⟩ ⟨2, 1, 1⟩ = -5 ∧ radiusTo dented 3 ⟨1, 1, 1⟩ ⟨1, 4, 1⟩ = 2 ∧ distTo ⟨1, 1, 1⟩ ⟨1, 4, 1⟩ = 3 ∧
    massCounted F dented 3 100 ⟨1, 1, 1⟩ (-5) rHigh ⟨1, 4, 1⟩ := by
  refine ⟨?_, ?_, example_dist.2, ?_⟩
  · have : dist3 1 0 0 = 1 := by unfold dist3; norm_num
    unfold radiusTo radiusAt dented
    norm_num [sum_range_succ, this]
  · unfold radiusTo radiusAt dented
    norm_num [sum_range_succ]
  have f3 : Float32 3 := ⟨3, 0, by norm_num, by norm_num⟩
  have f9 : Float32 9 := ⟨9, 0, by norm_num, by norm_num⟩
  have f25 : Float32 25 := ⟨25, 0, by norm_num, by norm_num⟩
  have z := (r32_zero_iff 0).mpr rfl
  have hoff : offset32 100 ⟨1, 1, 1⟩ ⟨1, 4, 1⟩ = ⟨0, 3, 0⟩ := by
    unfold offset32
    simp only
    rw [disp32_same float100 (by norm_num), disp32_same float100 (by norm_num), sub_self, z, show (4 - 1 : ℚ) = 3 by norm_num, r32_float f3]
  unfold massCounted
  rw [hoff]
  left
  dsimp only
  unfold r2_32 limit32
  rw [mul_zero, z, zero_add, show (3 * 3 : ℚ) = 9 by norm_num, show (-5 * -5 : ℚ) = 25 by norm_num, r64_float (float_of_float32 f25), r32_float f25, r32_float f9, r32_float f9, add_zero, r32_float f9]
  norm_num

end Shellfish.Round
