/-
C140: particle masses and the densities of particle spheres in machine arithmetic.
-/
import Verif.Model.KernelRound
import Verif.Props.RadiusRound

namespace Shellfish.Round
open Shellfish.Radius (refDensity)

/-! ### Specification -/

/-- The volume of a ball. -/
noncomputable def ballOf (r : ℝ) : ℝ := 4 / 3 * Real.pi * r ^ 3

/-- The mean matter density at the redshift of the cosmology (in proper units). -/
noncomputable def meanDensity (c : Cosmo64) : ℝ := refDensity true c.real

/-! ### Errors -/

local notation "uu" => ((1 : ℝ) / 2 ^ 52)

theorem lr_mean {pw : ℚ → ℚ → ℚ} (hp : PowOk pw) {c : Cosmo64} (hc : c.Usual) (hf : c.Flat) : ∃ d, rhoAverage64 pw (r64 (c.h100 * 100)) c.omegaM c.omegaL c.z = some d ∧ LR d (meanDensity c) (1543 * uu) := by
  obtain ⟨hz, hB⟩ := hc.log
  have hh : 0 < c.h100 := by have : (0 : ℝ) < (c.h100 : ℝ) := hc.1.h; exact_mod_cast this
  have hm : 0 < c.omegaM := by have : (0 : ℝ) < (c.omegaM : ℝ) := hc.1.m; exact_mod_cast this
  have hl : 0 ≤ c.omegaL := by have : (0 : ℝ) ≤ (c.omegaL : ℝ) := hc.1.l; exact_mod_cast this
  obtain ⟨d, a1, b1⟩ := lr_avg hp hh hm hl hz hB
  refine ⟨d, a1, ?_⟩
  have h : LR d (meanDensity c * (c.real.omegaM + c.real.omegaL)) (1535 * uu) := by
    unfold meanDensity
    rw [← (Radius.C47_densities c.real hc.1).2]
    exact b1
  have hpos : 0 < c.real.omegaM + c.real.omegaL := by linarith [hc.1.m, hc.1.l]
  exact (h.shift hpos (flat_log hf)).mono (by norm_num)

theorem lr_vol {rad : ℚ} {y d : ℝ} (h : LR rad y d) : LR (ballVol64 rad) (ballOf y) (3 * d + 5 * uu) := by
  have hk := ((((lr_self (x := 4) (by norm_num)).mul lr_goPi).div (lr_self (x := 3) (by norm_num))).round)
  have h1 := ((((hk.mul h).round).mul h).round.mul h).round
  push_cast at h1
  have e : 4 * Real.pi / 3 * y * y * y = ballOf y := by unfold ballOf; ring
  rw [e] at h1
  exact h1.mono (by norm_num; linarith)

theorem lr_density {pw : ℚ → ℚ → ℚ} (hp : PowOk pw) {c : Cosmo64} (hc : c.Usual) (hf : c.Flat) {m : ℚ} (hm : 0 < m) {sf : ℕ} (hsf : 0 < sf) {rad : ℚ} {y d : ℝ} (h : LR rad y d) :
    ∃ x, density64 pw c m sf rad = some x ∧ LR x (m * (sf : ℝ) ^ 3 / ballOf y / meanDensity c) (3 * d + 1552 * uu) := by
  obtain ⟨q, a1, b1⟩ := lr_mean hp hc hf
  have hs : (0 : ℚ) < ((sf * sf * sf : ℕ) : ℚ) := by exact_mod_cast by positivity
  have h1 := ((((((lr_self hm).mul (lr_const hs)).round).div (lr_vol h)).round).div b1).round
  push_cast at h1
  have e : (m : ℝ) * ((sf : ℝ) * sf * sf) = m * (sf : ℝ) ^ 3 := by ring
  rw [e] at h1
  refine ⟨_, by unfold density64; rw [a1, Option.map_some], ?_⟩
  push_cast
  exact h1.mono (by norm_num; linarith)

theorem lr_final {x : ℚ} {M k : ℝ} (hk : 0 < k) {d : ℝ} (h : LR x (M / k) d) (hd : d ≤ 2040 * uu) : |(x : ℝ) * k - M| ≤ M / 2 ^ 40 := by
  have h1 := (h.mono hd).rel (by norm_num)
  have hM : 0 < M := by
    have := mul_pos h.2.1 hk
    rwa [div_mul_cancel₀ _ hk.ne'] at this
  have e : (x : ℝ) * k - M = (x - M / k) * k := by rw [sub_mul, div_mul_cancel₀ _ hk.ne']
  rw [e, abs_mul, abs_of_pos hk]
  calc _ ≤ 2 * (2040 * uu) * (M / k) * k := mul_le_mul_of_nonneg_right h1 hk.le
    _ = 2 * (2040 * uu) * M := by rw [mul_assoc, div_mul_cancel₀ _ hk.ne']
    _ ≤ M / 2 ^ 40 := by
      rw [div_eq_mul_inv M, mul_comm M]
      exact mul_le_mul_of_nonneg_right (by norm_num) hM.le

/-- C140 (spheres): the density with which a particle is inserted is that of its mass (times the subsampling) spread over the ball with `rKernelMult` times the radius of the halo, in units of the mean density, up to the relative error 2⁻⁴⁰. -/
theorem C140_sphere_partial (pw : ℚ → ℚ → ℚ) (hp : PowOk pw) (c : Cosmo64) (hc : c.Usual) (hf : c.Flat) (r rMaxMult rKernelMult : ℚ) (hr : 0 < r) (h1 : 0 < rMaxMult) (h2 : 0 < rKernelMult) (sf : ℕ) (hsf : 0 < sf) (m : ℚ) (hm : 0 < m) :
    ∃ rho : ℚ, insertDensity64 pw c r rMaxMult rKernelMult sf m = some rho ∧ |rho * (meanDensity c * ballOf (r * rKernelMult)) - m * (sf : ℝ) ^ 3| ≤ m * (sf : ℝ) ^ 3 / 2 ^ 40 := by
  have hk := ((((lr_self hr).mul (lr_self h1)).round.mul (lr_self h2)).round.div (lr_self h1)).round
  have h1R : (rMaxMult : ℝ) ≠ 0 := by exact_mod_cast h1.ne'
  have e : (r : ℝ) * rMaxMult * rKernelMult / rMaxMult = r * rKernelMult := by field_simp
  rw [e] at hk
  obtain ⟨x, a1, b1⟩ := lr_density hp hc hf hm hsf (hk.mono (e := 3 * uu) (by norm_num))
  refine ⟨x, a1, ?_⟩
  obtain ⟨q, _, b2⟩ := lr_mean hp hc hf
  have hv : 0 < ballOf (r * rKernelMult) := (lr_vol hk).2.1
  rw [div_div, mul_comm (ballOf _)] at b1
  exact lr_final (mul_pos b2.2.1 hv) b1 (by norm_num)

/-- C140 (background): the background density of a halo is `backgroundRhoMult` times that of one particle of the smallest mass, up to the relative error 2⁻⁴⁰. -/
theorem C140_background_partial (pw : ℚ → ℚ → ℚ) (hp : PowOk pw) (c : Cosmo64) (hc : c.Usual) (hf : c.Flat) (r rKernelMult backgroundRhoMult : ℚ) (hr : 0 < r) (h2 : 0 < rKernelMult) (hb : 0 < backgroundRhoMult) (sf : ℕ) (hsf : 0 < sf)
    (m : ℚ) (hm : 0 < m) :
    ∃ rho : ℚ, background64 pw c r rKernelMult backgroundRhoMult sf m = some rho ∧
      |rho * (meanDensity c * ballOf (r * rKernelMult)) - backgroundRhoMult * (m * (sf : ℝ) ^ 3)| ≤ backgroundRhoMult * (m * (sf : ℝ) ^ 3) / 2 ^ 40 := by
  have hk := ((lr_self hr).mul (lr_self h2)).round
  obtain ⟨x, a1, b1⟩ := lr_density hp hc hf hm hsf (hk.mono (e := uu) (by norm_num))
  refine ⟨r64 (x * backgroundRhoMult), by unfold background64; rw [a1, Option.map_some], ?_⟩
  obtain ⟨q, _, b2⟩ := lr_mean hp hc hf
  have hv : 0 < ballOf (r * rKernelMult) := (lr_vol hk).2.1
  have b3 := (b1.mul (lr_self hb)).round
  rw [div_div, mul_comm (ballOf _), div_mul_eq_mul_div, mul_comm _ (backgroundRhoMult : ℝ)] at b3
  exact lr_final (mul_pos b2.2.1 hv) b3 (by norm_num)

/-- C140 (particles): the particles of a uniform simulation together have the mass of the box at the mean density of today, up to the relative error 2⁻²³ (the mass is a float32). -/
theorem C140_uniform_partial (pw : ℚ → ℚ → ℚ) (hp : PowOk pw) (c : Cosmo64) (hc : c.Usual) (hf : c.Flat) (count : ℕ) (hn : 0 < count) (tw : ℚ) (htw : 0 < tw) :
    ∃ m : ℚ, uniformMass32 pw count tw c = some m ∧ 0 < m ∧
      |count * (m : ℝ) - (tw : ℝ) ^ 3 * meanDensity { c with z := 0 }| ≤ (tw : ℝ) ^ 3 * meanDensity { c with z := 0 } / 2 ^ 23 := by
  have hc0 : ({ c with z := 0 } : Cosmo64).Usual := by
    refine ⟨⟨hc.1.h, by simp [Cosmo64.real], hc.1.m, hc.1.l⟩, by norm_num, by norm_num⟩
  obtain ⟨d, a1, b1⟩ := lr_mean hp hc0 hf
  have hnQ : (0 : ℚ) < (count : ℚ) := by exact_mod_cast hn
  have hnR : (0 : ℝ) < (count : ℝ) := by exact_mod_cast hn
  have htwR : (0 : ℝ) < (tw : ℝ) := by exact_mod_cast htw
  have ht := lr_self htw
  have h1 := ((((((ht.mul ht).round).mul ht).round.mul b1).round).div (lr_const hnQ)).round
  push_cast at h1
  refine ⟨_, by unfold uniformMass32; simp only [] at a1 ⊢; rw [a1, Option.map_some], ?_⟩
  have h2 := (h1.mono (e := 1560 * uu) (by norm_num)).rel (by norm_num)
  have hy := h1.2.1
  have e : (tw : ℝ) ^ 3 * meanDensity { c with z := 0 } = count * ((tw : ℝ) * tw * tw * meanDensity { c with z := 0 } / count) := by field_simp
  rw [e]
  generalize (tw : ℝ) * tw * tw * meanDensity { c with z := 0 } / count = y at *
  generalize r64 (r64 (r64 (r64 (tw * tw) * tw) * d) / r64 (count : ℚ)) = x at *
  have hx : (0 : ℝ) < (x : ℝ) := by exact_mod_cast h1.1
  have h3 := r32_errR x
  rw [abs_of_pos hx] at h3
  obtain ⟨q1, q2⟩ := abs_le.mp h2
  obtain ⟨q3, q4⟩ := abs_le.mp h3
  have k1 : |(r32 x : ℝ) - y| ≤ y / 2 ^ 23 := by
    rw [abs_le]
    norm_num at *
    constructor <;> linarith
  have k2 : (0 : ℝ) < (r32 x : ℝ) := by
    norm_num at q3
    linarith
  refine ⟨by exact_mod_cast k2, ?_⟩
  rw [← mul_sub, abs_mul, abs_of_pos hnR, mul_div_assoc]
  exact mul_le_mul_of_nonneg_left k1 hnR.le

/-- The hypotheses are met: 512³ particles in a box of 125 Mpc/h; a halo of radius 1/2 with the default parameters of shell mode. -/
example : ∃ (c : Cosmo64) (m rho : ℚ), c.omegaM + c.omegaL ≠ 1 ∧ uniformMass32 (fun x y => rnReal ((x : ℝ) ^ (y : ℝ))) (512 ^ 3) 125 c = some m ∧
    insertDensity64 (fun x y => rnReal ((x : ℝ) ^ (y : ℝ))) c (1 / 2) 3 (1 / 5) 1 m = some rho ∧ |rho * (meanDensity c * ballOf (1 / 10)) - m| ≤ m / 2 ^ 40 := by
  have hc : (⟨1 / 2, 5404319552844595 / 2 ^ 54, 3152519739159347 / 2 ^ 52, 7 / 10⟩ : Cosmo64).Usual := by
    refine ⟨⟨?_, ?_, ?_, ?_⟩, ?_, ?_⟩ <;> norm_num [Cosmo64.real]
  have hf : (⟨1 / 2, 5404319552844595 / 2 ^ 54, 3152519739159347 / 2 ^ 52, 7 / 10⟩ : Cosmo64).Flat := by
    unfold Cosmo64.Flat
    norm_num [abs_le]
  obtain ⟨m, h1, h2, _⟩ := C140_uniform_partial _ powOk_rounded _ hc hf (512 ^ 3) (by norm_num) 125 (by norm_num)
  obtain ⟨rho, h4, h5⟩ := C140_sphere_partial _ powOk_rounded _ hc hf (1 / 2) 3 (1 / 5) (by norm_num) (by norm_num) (by norm_num) 1 (by norm_num) m h2
  refine ⟨_, m, rho, by norm_num, h1, h4, ?_⟩
  norm_num at h5 ⊢
  exact h5

end Shellfish.Round
