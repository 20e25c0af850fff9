/-
C131: the profiles of the prof mode from positions and velocities, in machine arithmetic.
-/
import Verif.Model.BoundRound
import Verif.Props.MassRound

namespace Shellfish.Round
open Finset

/-! Relative errors, in units of 2^-24 -/

/-- `a` is `b` up to `k` units of 2^-24. -/
def Ulp24 (k : ℕ) (a b : ℝ) : Prop := 0 < b ∧ |a - b| ≤ b * (k / 2 ^ 24)

theorem Ulp24.pos {k : ℕ} {a b : ℝ} (h : Ulp24 k a b) (hk : k ≤ 2 ^ 20) : 0 < a := by
  obtain ⟨h0, h1⟩ := h
  have hk' : (k : ℝ) ≤ 2 ^ 20 := by exact_mod_cast hk
  have := (abs_le.mp h1).1
  have t := mul_le_mul_of_nonneg_left hk' h0.le
  generalize (k : ℝ) = K at *
  norm_num at *
  linarith

theorem Ulp24.mono {k l : ℕ} {a b : ℝ} (h : Ulp24 k a b) (hk : k ≤ l) : Ulp24 l a b :=
  ⟨h.1, h.2.trans (mul_le_mul_of_nonneg_left (by gcongr) h.1.le)⟩

theorem ulp_self {b : ℝ} (h : 0 < b) : Ulp24 0 b b := ⟨h, by simp⟩

theorem Ulp24.mul {k l : ℕ} {a b c d : ℝ} (h : Ulp24 k a b) (g : Ulp24 l c d) (hk : k ≤ 2 ^ 11) (hl : l ≤ 2 ^ 11) : Ulp24 (k + l + 1) (a * c) (b * d) := by
  obtain ⟨h0, h1⟩ := h
  obtain ⟨g0, g1⟩ := g
  have hk' : (k : ℝ) ≤ 2 ^ 11 := by exact_mod_cast hk
  have hl' : (l : ℝ) ≤ 2 ^ 11 := by exact_mod_cast hl
  have k0 : (0 : ℝ) ≤ k := Nat.cast_nonneg _
  have l0 : (0 : ℝ) ≤ l := Nat.cast_nonneg _
  refine ⟨mul_pos h0 g0, ?_⟩
  have e : a * c - b * d = (a - b) * (c - d) + (a - b) * d + b * (c - d) := by ring
  have t1 : |(a - b) * (c - d)| ≤ (b * (k / 2 ^ 24)) * (d * (l / 2 ^ 24)) := by rw [abs_mul]; exact mul_le_mul h1 g1 (abs_nonneg _) (by positivity)
  have t2 : |(a - b) * d| ≤ (b * (k / 2 ^ 24)) * d := by rw [abs_mul, abs_of_pos g0]; exact mul_le_mul_of_nonneg_right h1 g0.le
  have t3 : |b * (c - d)| ≤ b * (d * (l / 2 ^ 24)) := by rw [abs_mul, abs_of_pos h0]; exact mul_le_mul_of_nonneg_left g1 h0.le
  have t4 := abs_add_le ((a - b) * (c - d) + (a - b) * d) (b * (c - d))
  have t5 := abs_add_le ((a - b) * (c - d)) ((a - b) * d)
  rw [e]
  push_cast
  have hkl : (k : ℝ) * l ≤ 2 ^ 22 := by nlinarith
  have hbd : 0 < b * d := mul_pos h0 g0
  have t6 := mul_le_mul_of_nonneg_left hkl hbd.le
  norm_num at *
  nlinarith

theorem Ulp24.inv {l : ℕ} {c d : ℝ} (g : Ulp24 l c d) (hl : l ≤ 2 ^ 11) : Ulp24 (l + 1) (1 / c) (1 / d) := by
  have cp := g.pos (hl.trans (by norm_num))
  obtain ⟨g0, g1⟩ := g
  have hl' : (l : ℝ) ≤ 2 ^ 11 := by exact_mod_cast hl
  have l0 : (0 : ℝ) ≤ l := Nat.cast_nonneg _
  refine ⟨by positivity, ?_⟩
  have e : 1 / c - 1 / d = (d - c) / (c * d) := by field_simp
  rw [e, abs_div, abs_of_pos (mul_pos cp g0), abs_sub_comm, div_le_iff₀ (mul_pos cp g0)]
  have : 1 / d * (((l + 1 : ℕ) : ℝ) / 2 ^ 24) * (c * d) = c * ((l + 1) / 2 ^ 24) := by push_cast; field_simp
  rw [this]
  have := (abs_le.mp g1).1
  have t := mul_le_mul_of_nonneg_left hl' g0.le
  have t0 := mul_nonneg l0 g0.le
  have t1 := mul_le_mul_of_nonneg_right (sub_le_iff_le_add.mp (by linarith : d - c ≤ d * (l / 2 ^ 24))) l0
  have t2 := mul_le_mul_of_nonneg_left hl' t0
  generalize (l : ℝ) = L at *
  norm_num at *
  nlinarith

theorem Ulp24.div {k l : ℕ} {a b c d : ℝ} (h : Ulp24 k a b) (g : Ulp24 l c d) (hk : k ≤ 2 ^ 11) (hl : l + 1 ≤ 2 ^ 11) : Ulp24 (k + l + 2) (a / c) (b / d) := by
  have := h.mul (g.inv (by omega)) hk hl
  rw [mul_one_div, mul_one_div] at this
  exact this.mono (by omega)

theorem Ulp24.r32 {k : ℕ} {q : ℚ} {b : ℝ} (h : Ulp24 k q b) (hk : k ≤ 2 ^ 20) : Ulp24 (k + 2) (r32 q : ℝ) b := by
  have p := h.pos hk
  obtain ⟨h0, h1⟩ := h
  have hk' : (k : ℝ) ≤ 2 ^ 20 := by exact_mod_cast hk
  refine ⟨h0, ?_⟩
  have e := r32_errR q
  rw [abs_of_pos p] at e
  have t := abs_sub_le (Round.r32 q : ℝ) q b
  have := (abs_le.mp h1).2
  have t2 := mul_le_mul_of_nonneg_left hk' h0.le
  push_cast
  generalize (k : ℝ) = K at *
  generalize (Round.r32 q : ℝ) = R at *
  generalize (q : ℝ) = Q at *
  norm_num at *
  linarith

theorem Ulp24.r64 {k : ℕ} {q : ℚ} {b : ℝ} (h : Ulp24 k q b) (hk : k ≤ 2 ^ 20) : Ulp24 (k + 1) (r64 q : ℝ) b := by
  have p := h.pos hk
  obtain ⟨h0, h1⟩ := h
  have hk' : (k : ℝ) ≤ 2 ^ 20 := by exact_mod_cast hk
  refine ⟨h0, ?_⟩
  have e := r64_errR q
  rw [abs_of_pos p] at e
  have t := abs_sub_le (Round.r64 q : ℝ) q b
  have := (abs_le.mp h1).2
  have t2 := mul_le_mul_of_nonneg_left hk' h0.le
  push_cast
  generalize (k : ℝ) = K at *
  generalize (Round.r64 q : ℝ) = R at *
  generalize (q : ℝ) = Q at *
  norm_num at *
  linarith

theorem ulp_sqrt {k : ℕ} {a b : ℝ} (h : Ulp24 k a b) (hk : k ≤ 2 ^ 20) : Ulp24 k (Real.sqrt a) (Real.sqrt b) := by
  have p := h.pos hk
  obtain ⟨h0, h1⟩ := h
  have hs := Real.sqrt_pos.mpr h0
  refine ⟨hs, ?_⟩
  have e : a - b = (Real.sqrt a - Real.sqrt b) * (Real.sqrt a + Real.sqrt b) := by
    have h1 := Real.mul_self_sqrt p.le
    have h2 := Real.mul_self_sqrt h0.le
    nlinarith
  rw [e, abs_mul, abs_of_pos (by positivity : 0 < Real.sqrt a + Real.sqrt b)] at h1
  have ha := Real.sqrt_nonneg a
  have hb : b = Real.sqrt b * Real.sqrt b := (Real.mul_self_sqrt h0.le).symm
  have h3 : |Real.sqrt a - Real.sqrt b| * Real.sqrt b ≤ Real.sqrt b * (k / 2 ^ 24) * Real.sqrt b := by
    calc |Real.sqrt a - Real.sqrt b| * Real.sqrt b ≤ |Real.sqrt a - Real.sqrt b| * (Real.sqrt a + Real.sqrt b) := mul_le_mul_of_nonneg_left (by linarith) (abs_nonneg _)
      _ ≤ b * (k / 2 ^ 24) := h1
      _ = (Real.sqrt b * Real.sqrt b) * (k / 2 ^ 24) := by rw [← hb]
      _ = _ := by ring
  exact le_of_mul_le_mul_right h3 hs

theorem ulp_sqrt64 {k : ℕ} {q : ℚ} {b : ℝ} (h : Ulp24 k q b) (hk : k ≤ 2 ^ 20) : ∃ s : ℚ, sqrt64 q = some s ∧ Ulp24 (k + 1) s (Real.sqrt b) := by
  have p := h.pos hk
  have hq : 0 ≤ q := by exact_mod_cast p.le
  have hs := ulp_sqrt h hk
  have sp := hs.pos hk
  have hk' : (k : ℝ) ≤ 2 ^ 20 := by exact_mod_cast hk
  refine ⟨rnReal (Real.sqrt (q : ℝ)), by unfold sqrt64; rw [if_neg (not_lt.mpr hq)], hs.1, ?_⟩
  have e := rnReal_error (Real.sqrt (q : ℝ))
  rw [abs_of_pos sp] at e
  have t := abs_sub_le (rnReal (Real.sqrt (q : ℝ)) : ℝ) (Real.sqrt q) (Real.sqrt b)
  have h1 := hs.2
  have := (abs_le.mp h1).2
  have b0 := hs.1
  generalize Real.sqrt (q : ℝ) = A at *
  generalize Real.sqrt b = B at *
  have t2 := mul_le_mul_of_nonneg_left hk' b0.le
  push_cast
  generalize (k : ℝ) = K at *
  norm_num at *
  linarith

theorem Ulp24.one_add {k : ℕ} {a b : ℝ} (h : Ulp24 k a b) : Ulp24 k (1 + a) (1 + b) := by
  obtain ⟨h0, h1⟩ := h
  refine ⟨by linarith, ?_⟩
  rw [add_sub_add_left_eq_sub]
  refine h1.trans (mul_le_mul_of_nonneg_right (by linarith) (by positivity))

/-- The logarithm of a number that is off by `k` units. -/
theorem Ulp24.log {k : ℕ} {a b : ℝ} (h : Ulp24 k a b) (hk : k ≤ 2 ^ 11) : |Real.log a - Real.log b| ≤ 2 * k / 2 ^ 24 := by
  obtain ⟨h0, h1⟩ := h
  obtain ⟨l, u⟩ := abs_le.mp h1
  have hk' : (k : ℝ) ≤ 2 ^ 11 := by exact_mod_cast hk
  have c := log_close h0 (by positivity : (0 : ℝ) ≤ k / 2 ^ 24) (by rw [div_le_iff₀ (by norm_num)]; norm_num at hk' ⊢; linarith) (by linarith : b * (1 - k / 2 ^ 24) ≤ a) (by linarith)
  refine c.trans (le_of_eq (by ring))

/-! The escape velocity -/

/-- The mass function of an NFW profile with concentration `c`. -/
noncomputable def nfw (c : ℝ) : ℝ := Real.log (1 + c) - c / (1 + c)

/-- The square of the escape velocity (in km/s) of an NFW halo of mass `m` (in Msun/h), radius `r` and scale radius `rs` (in Mpc/h) at distance `D`: twice the potential, with 508 km/s for the circular velocity of 6e13 Msun/h at 1 Mpc/h. -/
noncomputable def escape2 (m r rs D : ℝ) : ℝ := 2 * (508 ^ 2 * (m / 60000000000000 / r)) * (Real.log (1 + D / rs) / (D / r * nfw (r / rs)))

theorem nfw_ge {c : ℝ} (hc : 1 ≤ c) : 19 / 100 ≤ nfw c := by
  unfold nfw
  have h2 := Real.log_two_gt_d9
  have e : Real.log (1 + c) = Real.log 2 + Real.log ((1 + c) / 2) := by rw [← Real.log_mul (by norm_num) (by positivity)]; congr 1; ring
  have l : 1 - 1 / ((1 + c) / 2) ≤ Real.log ((1 + c) / 2) := by
    have := Real.one_sub_inv_le_log_of_pos (by positivity : 0 < (1 + c) / 2)
    rwa [← one_div] at this
  have e2 : 1 - 1 / ((1 + c) / 2) - c / (1 + c) = -(1 / (1 + c)) := by field_simp; ring
  have e3 : 1 / (1 + c) ≤ 1 / 2 := one_div_le_one_div_of_le (by norm_num) (by linarith)
  rw [e]
  linarith

theorem prefactor_close {lg : ℚ → ℚ} (hlg : LogOk lg) {s : Ext32} (hr : 0 < s.r) (hrs : 0 < s.rs) (hc : s.rs ≤ s.r) : Ulp24 96 (prefactor32 lg s : ℝ) (1 / nfw ((s.r : ℝ) / s.rs)) := by
  have hc1 : (1 : ℝ) ≤ (s.r : ℝ) / s.rs := by
    rw [le_div_iff₀ (by exact_mod_cast hrs), one_mul]
    exact_mod_cast hc
  have hcp : (0 : ℝ) < (s.r : ℝ) / s.rs := by linarith
  have f := nfw_ge hc1
  have c1 : Ulp24 2 (cVir32 s : ℝ) ((s.r : ℝ) / s.rs) := by
    have : Ulp24 0 ((s.r / s.rs : ℚ) : ℝ) ((s.r : ℝ) / s.rs) := by push_cast; exact ulp_self hcp
    exact this.r32 (by norm_num)
  unfold prefactor32
  generalize (s.r : ℝ) / s.rs = c at *
  generalize cVir32 s = q at *
  have a1 : Ulp24 2 ((1 + q : ℚ) : ℝ) (1 + c) := by push_cast; exact c1.one_add
  have a2 := a1.r64 (by norm_num)
  have a3 := a1.r32 (by norm_num)
  have b1 : Ulp24 8 ((q / r32 (1 + q) : ℚ) : ℝ) (c / (1 + c)) := by push_cast; exact c1.div a3 (by norm_num) (by norm_num)
  have b2 := b1.r32 (by norm_num)
  have l1 := a2.log (by norm_num)
  have ap := a2.pos (by norm_num)
  have l2 := hlg (r64 (1 + q)) (by exact_mod_cast ap)
  have hcc : c / (1 + c) ≤ 1 := by rw [div_le_one (by linarith)]; linarith
  have hcc0 : 0 < c / (1 + c) := by positivity
  have hL : Real.log (1 + c) = nfw c + c / (1 + c) := by unfold nfw; ring
  have d1 : Ulp24 90 ((lg (r64 (1 + q)) - r32 (q / r32 (1 + q)) : ℚ) : ℝ) (nfw c) := by
    refine ⟨by linarith, ?_⟩
    have b3 := b2.2
    push_cast at l1 b3 ⊢
    rw [hL] at l1
    generalize Real.log (r64 (1 + q) : ℝ) = A at *
    generalize (lg (r64 (1 + q)) : ℝ) = B at *
    generalize (r32 (q / r32 (1 + q)) : ℝ) = C at *
    generalize c / (1 + c) = E at *
    generalize nfw c = N at *
    have hA : |A| ≤ N + 1 + 1 := by
      obtain ⟨u1, u2⟩ := abs_le.mp l1
      norm_num at u1 u2
      rw [abs_le]
      constructor <;> linarith
    rw [abs_le] at l1 b3 ⊢
    have l2' := abs_le.mp (l2.trans (div_le_div_of_nonneg_right hA (by norm_num)))
    obtain ⟨p1, p2⟩ := l1
    obtain ⟨p3, p4⟩ := b3
    obtain ⟨p5, p6⟩ := l2'
    norm_num at *
    constructor <;> linarith
  have d2 := (d1.r64 (by norm_num)).r32 (by norm_num)
  have d3 : Ulp24 94 ((1 / r32 (r64 (lg (r64 (1 + q)) - r32 (q / r32 (1 + q)))) : ℚ) : ℝ) (1 / nfw c) := by
    push_cast
    exact d2.inv (by norm_num)
  exact d3.r32 (by norm_num)

theorem vVir_close {s : Ext32} (hr : 0 < s.r) (hm : 0 < s.m) : ∃ w : ℚ, vVir32 s = some w ∧ Ulp24 15 (w : ℝ) (508 * Real.sqrt ((s.m : ℝ) / 60000000000000 / s.r)) := by
  have hm' : (0 : ℝ) < s.m := by exact_mod_cast hm
  have hr' : (0 : ℝ) < s.r := by exact_mod_cast hr
  have k1 : Ulp24 2 (r32 60000000000000 : ℝ) 60000000000000 := by
    have : Ulp24 0 ((60000000000000 : ℚ) : ℝ) 60000000000000 := by push_cast; exact ulp_self (by norm_num)
    exact this.r32 (by norm_num)
  have k2 : Ulp24 4 ((s.m / r32 60000000000000 : ℚ) : ℝ) ((s.m : ℝ) / 60000000000000) := by
    push_cast
    exact (ulp_self hm').div k1 (by norm_num) (by norm_num)
  have k3 := k2.r32 (by norm_num)
  have k4 : Ulp24 8 ((r32 (s.m / r32 60000000000000) / s.r : ℚ) : ℝ) ((s.m : ℝ) / 60000000000000 / s.r) := by
    push_cast
    exact k3.div (ulp_self hr') (by norm_num) (by norm_num)
  obtain ⟨q, hq, k5⟩ := ulp_sqrt64 (k4.r32 (by norm_num)) (by norm_num)
  have k6 : Ulp24 12 ((508 * q : ℚ) : ℝ) (508 * Real.sqrt ((s.m : ℝ) / 60000000000000 / s.r)) := by
    push_cast
    exact (ulp_self (by norm_num : (0 : ℝ) < 508)).mul k5 (by norm_num) (by norm_num)
  refine ⟨r32 (r64 (508 * q)), ?_, (k6.r64 (by norm_num)).r32 (by norm_num)⟩
  unfold vVir32
  rw [hq]
  rfl

/-- The squared escape velocity that the program computes. -/
theorem vesc_close {lg : ℚ → ℚ} (hlg : LogOk lg) {s : Ext32} (hr : 0 < s.r) (hm : 0 < s.m) (hrs : 0 < s.rs) (hc : s.rs ≤ s.r) {r2 : ℚ} {D : ℝ} (h2 : Ulp24 8 (r2 : ℝ) (D * D)) (hD : 0 < D)
    (hfar : (s.rs : ℝ) / 32 ≤ D) : ∃ v : ℚ, vesc32 lg s r2 = some v ∧ Ulp24 1659 (v : ℝ) (escape2 s.m s.r s.rs D) := by
  have hr' : (0 : ℝ) < s.r := by exact_mod_cast hr
  have hrs' : (0 : ℝ) < s.rs := by exact_mod_cast hrs
  have hm' : (0 : ℝ) < s.m := by exact_mod_cast hm
  obtain ⟨w, hw, kw⟩ := vVir_close hr hm
  obtain ⟨d, hd, kd⟩ := ulp_sqrt64 h2 (by norm_num)
  rw [Real.sqrt_mul_self hD.le] at kd
  have kp := prefactor_close hlg hr hrs hc
  have kx1 : Ulp24 13 ((r32 d / s.r : ℚ) : ℝ) (D / s.r) := by
    push_cast
    exact (kd.r32 (by norm_num)).div (ulp_self hr') (by norm_num) (by norm_num)
  have kx := kx1.r32 (by norm_num)
  have kc : Ulp24 2 (cVir32 s : ℝ) ((s.r : ℝ) / s.rs) := by
    have : Ulp24 0 ((s.r / s.rs : ℚ) : ℝ) ((s.r : ℝ) / s.rs) := by push_cast; exact ulp_self (by positivity)
    exact this.r32 (by norm_num)
  unfold vesc32
  rw [hw, hd]
  simp only [Option.bind_some, Option.map_some]
  refine ⟨_, rfl, ?_⟩
  generalize r32 (r32 d / s.r) = x at *
  have ky1 : Ulp24 18 ((cVir32 s * x : ℚ) : ℝ) (D / s.rs) := by
    have := kc.mul kx (by norm_num) (by norm_num)
    push_cast
    rw [show (s.r : ℝ) / s.rs * (D / s.r) = D / s.rs by field_simp] at this
    exact this
  have ky2 : Ulp24 20 ((1 + r32 (cVir32 s * x) : ℚ) : ℝ) (1 + D / s.rs) := by
    push_cast
    exact (ky1.r32 (by norm_num)).one_add
  have ky := ky2.r32 (by norm_num)
  have l1 := ky.log (by norm_num)
  have l2 := hlg (r32 (1 + r32 (cVir32 s * x))) (by exact_mod_cast ky.pos (by norm_num))
  have hy : 1 / 33 ≤ Real.log (1 + D / s.rs) := by
    have h1 : (1 : ℝ) / 32 ≤ D / s.rs := by rw [le_div_iff₀ hrs']; linarith
    have := Real.one_sub_inv_le_log_of_pos (by positivity : 0 < 1 + D / (s.rs : ℝ))
    refine le_trans ?_ this
    have : (1 + D / (s.rs : ℝ))⁻¹ ≤ (33 / 32)⁻¹ := inv_anti₀ (by norm_num) (by linarith)
    norm_num at this ⊢
    linarith
  have kl : Ulp24 1500 (lg (r32 (1 + r32 (cVir32 s * x))) : ℝ) (Real.log (1 + D / s.rs)) := by
    refine ⟨by linarith, ?_⟩
    push_cast at l1 ⊢
    generalize Real.log (r32 (1 + r32 (cVir32 s * x)) : ℝ) = A at *
    generalize (lg (r32 (1 + r32 (cVir32 s * x))) : ℝ) = B at *
    generalize Real.log (1 + D / s.rs) = L at *
    have hA : |A| ≤ L + 1 := by
      obtain ⟨u1, u2⟩ := abs_le.mp l1
      norm_num at u1 u2
      rw [abs_le]
      constructor <;> linarith
    have l2' := l2.trans (div_le_div_of_nonneg_right hA (by norm_num))
    have := abs_sub_le B A L
    norm_num at *
    linarith
  have m1 : Ulp24 31 ((w * w : ℚ) : ℝ) (508 ^ 2 * ((s.m : ℝ) / 60000000000000 / s.r)) := by
    have := kw.mul kw (by norm_num) (by norm_num)
    push_cast
    have e : 508 * Real.sqrt ((s.m : ℝ) / 60000000000000 / s.r) * (508 * Real.sqrt ((s.m : ℝ) / 60000000000000 / s.r)) = 508 ^ 2 * ((s.m : ℝ) / 60000000000000 / s.r) := by
      have := Real.mul_self_sqrt (by positivity : 0 ≤ (s.m : ℝ) / 60000000000000 / s.r)
      calc _ = 508 ^ 2 * (Real.sqrt ((s.m : ℝ) / 60000000000000 / s.r) * Real.sqrt ((s.m : ℝ) / 60000000000000 / s.r)) := by ring
        _ = _ := by rw [this]
    rw [e] at this
    exact this
  have m2 := (m1.r32 (by norm_num)).mul kp (by norm_num) (by norm_num)
  rw [← Rat.cast_mul] at m2
  have m3 := (m2.r32 (by norm_num)).mul (kl.r32 (by norm_num)) (by norm_num) (by norm_num)
  rw [← Rat.cast_mul] at m3
  have m4 := (m3.r32 (by norm_num)).div kx (by norm_num) (by norm_num)
  rw [← Rat.cast_div] at m4
  have m5 := (m4.r32 (by norm_num)).mul (ulp_self (by norm_num : (0 : ℝ) < 2)) (by norm_num) (by norm_num)
  rw [show (2 : ℝ) = ((2 : ℚ) : ℝ) by norm_num, ← Rat.cast_mul] at m5
  have m6 := m5.r32 (by norm_num)
  have e : 508 ^ 2 * ((s.m : ℝ) / 60000000000000 / s.r) * (1 / nfw ((s.r : ℝ) / s.rs)) * Real.log (1 + D / s.rs) / (D / s.r) * ((2 : ℚ) : ℝ) = escape2 s.m s.r s.rs D := by
    unfold escape2
    have hn : nfw ((s.r : ℝ) / s.rs) ≠ 0 := by
      have := nfw_ge (c := (s.r : ℝ) / s.rs) (by rw [le_div_iff₀ hrs', one_mul]; exact_mod_cast hc)
      linarith
    push_cast
    field_simp
  rw [show ((2 : ℚ) : ℝ) = 2 by norm_num] at e
  norm_num at m6 e ⊢
  rw [← e]
  exact m6

/-- The velocity of a particle with respect to the halo. -/
noncomputable def speedTo (s : Ext32) (p : Part32) : ℝ := dist3 (p.v.x - s.v.x) (p.v.y - s.v.y) (p.v.z - s.v.z)

theorem sq_close {x y z x' y' z' : ℚ} (hx : |(x' : ℝ) - x| ≤ |(x : ℝ)| / 2 ^ 24) (hy : |(y' : ℝ) - y| ≤ |(y : ℝ)| / 2 ^ 24) (hz : |(z' : ℝ) - z| ≤ |(z : ℝ)| / 2 ^ 24) :
    |(r2_32 x' y' z' : ℝ) - dist3 x y z ^ 2| ≤ dist3 x y z ^ 2 * (8 / 2 ^ 24) := by
  have h := dist3_scale hx hy hz
  have b := r2_32_bounds x' y' z'
  rw [← dist3_sq] at b
  have p : 0 ≤ dist3 x y z := Real.sqrt_nonneg _
  have p' : 0 ≤ dist3 x' y' z' := Real.sqrt_nonneg _
  obtain ⟨l, u⟩ := abs_le.mp h
  generalize dist3 x y z = D at *
  generalize dist3 x' y' z' = E at *
  generalize (r2_32 x' y' z' : ℝ) = A at *
  have q1 : D ^ 2 * (1 - 1 / 2 ^ 24) ^ 2 ≤ E ^ 2 := by
    rw [← mul_pow]
    exact pow_le_pow_left₀ (mul_nonneg p (by norm_num)) (by linarith) 2
  have q2 : E ^ 2 ≤ D ^ 2 * (1 + 1 / 2 ^ 24) ^ 2 := by
    rw [← mul_pow]
    exact pow_le_pow_left₀ p' (by linarith) 2
  have hD := sq_nonneg D
  rw [abs_le]
  norm_num at *
  constructor <;> linarith

/-- C131: in the bound density profile, a particle is counted exactly if it is slower than the escape velocity at its distance, unless the squares of the two differ by less than one part in 4096.  (The concentration is at least 1, and
the particle is not closer than a 32nd of the scale radius.) -/
theorem C131_bound (lg : ℚ → ℚ) (hlg : LogOk lg) (F : ShellMath) (cs : List ℚ) (order : ℕ) (tw : ℚ) (ft : Float32 tw) (s : Ext32) (hr : 0 < s.r) (hm : 0 < s.m) (hrs : 0 < s.rs) (hc : s.rs ≤ s.r) (p : Part32)
    (hb : SameBox tw s.c p.x) (hne : ¬(p.x.x = s.c.x ∧ p.x.y = s.c.y ∧ p.x.z = s.c.z)) (hfar : (s.rs : ℝ) / 32 ≤ distTo s.c p.x)
    (hmar : escape2 s.m s.r s.rs (distTo s.c p.x) / 2 ^ 12 < |speedTo s p ^ 2 - escape2 s.m s.r s.rs (distTo s.c p.x)|) :
    kept32 lg F cs order .bound tw s p ↔ speedTo s p ^ 2 < escape2 s.m s.r s.rs (distTo s.c p.x) := by
  obtain ⟨v, hv, -, hv0, -, -, hD, -, m1, m2, m3⟩ := offset_facts cs order ft hb hne
  have k1 := sq_close m1 m2 m3
  have k2 : Ulp24 8 (r2_32 v.x v.y v.z : ℝ) (distTo s.c p.x * distTo s.c p.x) := by
    refine ⟨by positivity, ?_⟩
    rw [← sq]
    exact k1
  obtain ⟨e, he, ke⟩ := vesc_close hlg hr hm hrs hc k2 hD hfar
  have sp := sq_close (r32_errR (p.v.x - s.v.x)) (r32_errR (p.v.y - s.v.y)) (r32_errR (p.v.z - s.v.z))
  unfold kept32
  simp only [hv]
  rw [he]
  have hex : (∃ e', some e = some e' ∧ e' > speed32 s p) ↔ (speed32 s p : ℝ) < e := by
    constructor
    · rintro ⟨e', h1, h2⟩
      rw [← Option.some.inj h1] at h2
      exact_mod_cast h2
    · intro h
      exact ⟨e, rfl, by exact_mod_cast h⟩
  rw [hex]
  have sp' : |(speed32 s p : ℝ) - speedTo s p ^ 2| ≤ speedTo s p ^ 2 * (8 / 2 ^ 24) := sp
  have ke0 := ke.1
  have ke1 := abs_le.mp ke.2
  have sp1 := abs_le.mp sp'
  have hV := sq_nonneg (speedTo s p)
  generalize speedTo s p ^ 2 = V at *
  generalize escape2 s.m s.r s.rs (distTo s.c p.x) = E at *
  generalize (speed32 s p : ℝ) = V' at *
  generalize (e : ℝ) = E' at *
  obtain ⟨a1, a2⟩ := ke1
  obtain ⟨b1, b2⟩ := sp1
  constructor
  · intro h
    by_contra hcon
    push Not at hcon
    rw [abs_of_nonneg (by linarith)] at hmar
    norm_num at *
    linarith
  · intro h
    rw [abs_of_neg (by linarith)] at hmar
    norm_num at *
    linarith

/-- C131: in the contained density profile, a particle is counted exactly if it is inside the shell, unless it is closer to it than `massMargin`. -/
theorem C131_contained (lg : ℚ → ℚ) (F : ShellMath) (e : ℝ) (hF : F.Accurate e) (he : e ≤ 1 / 4) (cs : List ℚ) (order : ℕ) (hcs : cs.length = 2 * order * order) (hbig : 2 * order * order ≤ 2 ^ 50) (tw : ℚ)
    (ft : Float32 tw) (s : Ext32) (p : Part32) (hb : SameBox tw s.c p.x) (hne : ¬(p.x.x = s.c.x ∧ p.x.y = s.c.y ∧ p.x.z = s.c.z))
    (hm : massMargin cs order e (distTo s.c p.x) < |radiusTo cs order s.c p.x - distTo s.c p.x|) :
    kept32 lg F cs order .contained tw s p ↔ distTo s.c p.x < radiusTo cs order s.c p.x := by
  obtain ⟨v, hv, fz, hv0, hd, hr, hD, -⟩ := offset_facts cs order ft hb hne
  have e0 := accurate_nonneg hF
  have hs := size_nonneg cs
  have hE : 0 ≤ shellErr order order 2 e * sizeOf cs := mul_nonneg (shellErr_nonneg _ _ _ e0) hs
  have hk := C128_contains F e hF he cs order order 2 (by rw [hcs]; ring_nf; rfl) (by calc order * order * 2 = 2 * order * order := by ring
                                                                                      _ ≤ _ := hbig) v.x v.y v.z fz hv0
  unfold massMargin at hm
  rw [add_mul] at hm
  unfold kept32
  simp only [hv]
  obtain ⟨d1, d2⟩ := abs_le.mp hd
  obtain ⟨r1, r2⟩ := abs_le.mp hr
  generalize distTo s.c p.x = D at *
  generalize radiusTo cs order s.c p.x = R at *
  generalize shellErr order order 2 e * (sizeOf cs : ℝ) = E at *
  generalize (2 * (order : ℝ) + 2) / 2 ^ 22 * sizeOf cs = O at *
  generalize dist3 v.x v.y v.z = D' at *
  generalize radiusAt cs order order 2 v.x v.y v.z = R' at *
  rw [hk]
  · rcases le_total R D with h | h
    · rw [abs_of_nonpos (by linarith)] at hm
      norm_num at *
      constructor <;> intro _ <;> linarith
    · rw [abs_of_nonneg (by linarith)] at hm
      norm_num at *
      constructor <;> intro _ <;> linarith
  · rcases le_total R D with h | h
    · rw [abs_of_nonpos (by linarith)] at hm
      rw [lt_abs]; right
      norm_num at *
      linarith
    · rw [abs_of_nonneg (by linarith)] at hm
      rw [lt_abs]; left
      norm_num at *
      linarith

/-- The exact criterion of a profile. -/
def Belongs (cs : List ℚ) (order : ℕ) (kind : Kind32) (s : Ext32) (p : Part32) : Prop :=
  match kind with
  | .density => True
  | .contained => distTo s.c p.x < radiusTo cs order s.c p.x
  | .bound => speedTo s p ^ 2 < escape2 s.m s.r s.rs (distTo s.c p.x)

/-- The particle is not so close to the limit of the criterion that rounding matters. -/
def ClearOf (e : ℝ) (cs : List ℚ) (order : ℕ) (kind : Kind32) (s : Ext32) (p : Part32) : Prop :=
  match kind with
  | .density => True
  | .contained => massMargin cs order e (distTo s.c p.x) < |radiusTo cs order s.c p.x - distTo s.c p.x|
  | .bound => (s.rs : ℝ) / 32 ≤ distTo s.c p.x ∧ escape2 s.m s.r s.rs (distTo s.c p.x) / 2 ^ 12 < |speedTo s p ^ 2 - escape2 s.m s.r s.rs (distTo s.c p.x)|

theorem filter_map_mass (f : Part32 → BinPoint) (hf : ∀ p, (f p).m = p.m) (bin : BinPoint → Option ℕ) (j : ℕ) (ps : List Part32) :
    ((ps.map f).filter fun q => bin q = some j).map (·.m) = (ps.filter fun p => bin (f p) = some j).map (·.m) := by
  induction ps with
  | nil => rfl
  | cons p ps ih =>
    rw [List.map_cons, List.filter_cons, List.filter_cons]
    by_cases h : bin (f p) = some j
    · simp only [h, decide_true, if_true, List.map_cons, ih, hf]
    · simp only [h, decide_false, Bool.false_eq_true, if_false, ih]

/-- C131: `insertPoints` as a whole.  No particle makes the program panic.  Each bin holds the sum of the masses of its particles; every particle in a bin belongs to the profile and its distance from the halo respects the edges of the bin,
and every particle that belongs to the profile is in a bin unless its distance is outside of the profile, all up to a millionth (in distance). -/
theorem C131_profile (lg : ℚ → ℚ) (hlg : LogOk lg) (F : ShellMath) (e : ℝ) (hF : F.Accurate e) (he : e ≤ 1 / 4) (cs : List ℚ) (order : ℕ) (hcs : cs.length = 2 * order * order) (hbig : 2 * order * order ≤ 2 ^ 50)
    (kind : Kind32) (tw : ℚ) (ft : Float32 tw) (s : Ext32) (hm : 0 < s.m) (hrs : 0 < s.rs) (hc : s.rs ≤ s.r) (minMult maxMult : ℚ) (n : ℕ) (h : ProfOk s.r minMult maxMult n) (rhos : List ℚ)
    (hl : rhos.length = n) (ps : List Part32) (hb : ∀ p ∈ ps, SameBox tw s.c p.x) (hne : ∀ p ∈ ps, ¬(p.x.x = s.c.x ∧ p.x.y = s.c.y ∧ p.x.z = s.c.z)) (hclear : ∀ p ∈ ps, ClearOf e cs order kind s p) :
    ∃ (out : List ℚ) (bin : Part32 → Option ℕ), insertPoints64 lg F cs order kind tw s minMult maxMult n rhos ps = some out ∧ out.length = n ∧
      (∀ j < n, out.getD j 0 = sum64 (rhos.getD j 0) ((ps.filter fun p => bin p = some j).map (·.m))) ∧
      (∀ p ∈ ps, ∀ j, bin p = some j → j < n ∧ Belongs cs order kind s p ∧ 0 < distTo s.c p.x ∧
        Real.log ((s.r : ℝ) * minMult) + j * ((Real.log ((s.r : ℝ) * maxMult) - Real.log ((s.r : ℝ) * minMult)) / n) - 1 / 2 ^ 19 ≤ Real.log (distTo s.c p.x) ∧
        Real.log (distTo s.c p.x) ≤ Real.log ((s.r : ℝ) * minMult) + (j + 1) * ((Real.log ((s.r : ℝ) * maxMult) - Real.log ((s.r : ℝ) * minMult)) / n) + 1 / 2 ^ 19) ∧
      (∀ p ∈ ps, bin p = none → ¬ Belongs cs order kind s p ∨ distTo s.c p.x ≤ (s.r : ℝ) * minMult * (1 + 1 / 2 ^ 19) ∨ (s.r : ℝ) * maxMult * (1 - 1 / 2 ^ 19) ≤ distTo s.c p.x) := by
  obtain ⟨out, bin, h1, h2, h3, h4, h5⟩ := C125_prof lg hlg s.r minMult maxMult n h rhos hl (ps.map (toBin lg F cs order kind tw s))
  have hkept : ∀ p ∈ ps, ((toBin lg F cs order kind tw s p).counted = true ↔ Belongs cs order kind s p) := by
    intro p hp
    have hx : (toBin lg F cs order kind tw s p).counted = true ↔ kept32 lg F cs order kind tw s p := by
      unfold toBin
      simp
    rw [hx]
    have hcl := hclear p hp
    cases kind with
    | density => simp [kept32, Belongs]
    | contained => exact C131_contained lg F e hF he cs order hcs hbig tw ft s p (hb p hp) (hne p hp) hcl
    | bound => exact C131_bound lg hlg F cs order tw ft s h.posR hm hrs hc p (hb p hp) (hne p hp) hcl.1 hcl.2
  have hdist : ∀ p ∈ ps, 0 < distTo s.c p.x ∧ |(toBin lg F cs order kind tw s p).dist - distTo s.c p.x| ≤ distTo s.c p.x / 2 ^ 24 := by
    intro p hp
    obtain ⟨v, hv, -, -, hd, -, hD, -⟩ := offset_facts cs order ft (hb p hp) (hne p hp)
    refine ⟨hD, ?_⟩
    unfold BinPoint.dist toBin
    simp only [hv]
    exact hd
  have hlog : ∀ p ∈ ps, |Real.log (toBin lg F cs order kind tw s p).dist - Real.log (distTo s.c p.x)| ≤ 1 / 2 ^ 23 := by
    intro p hp
    obtain ⟨hD, hd⟩ := hdist p hp
    have : Ulp24 1 (toBin lg F cs order kind tw s p).dist (distTo s.c p.x) := ⟨hD, hd.trans (le_of_eq (by push_cast; ring))⟩
    refine (this.log (by norm_num)).trans (by norm_num)
  refine ⟨out, fun p => bin (toBin lg F cs order kind tw s p), h1, h2, ?_, ?_, ?_⟩
  · intro j hj
    rw [h3 j hj, filter_map_mass (toBin lg F cs order kind tw s) (fun p => rfl) bin j ps]
  · intro p hp j hj
    obtain ⟨a1, a2, -, a4, a5⟩ := h4 _ (List.mem_map_of_mem hp) j hj
    have hl := abs_le.mp (hlog p hp)
    refine ⟨a1, (hkept p hp).mp a2, (hdist p hp).1, ?_, ?_⟩
    · norm_num at hl a4 ⊢
      linarith [hl.2]
    · norm_num at hl a5 ⊢
      linarith [hl.1]
  · intro p hp hj
    obtain ⟨hD, hd⟩ := hdist p hp
    obtain ⟨u1, u2⟩ := abs_le.mp hd
    have q1 : (0 : ℝ) < (s.r : ℝ) * minMult := by exact_mod_cast mul_pos h.posR h.posMin
    have q2 : (0 : ℝ) < (s.r : ℝ) * maxMult := by exact_mod_cast mul_pos h.posR h.posMax
    rcases h5 _ (List.mem_map_of_mem hp) hj with g | g | g
    · left
      intro hbel
      rw [(hkept p hp).mpr hbel] at g
      cases g
    · right; left
      generalize (s.r : ℝ) * minMult = A at *
      norm_num at g u1 u2 ⊢
      linarith
    · right; right
      generalize (s.r : ℝ) * maxMult = A at *
      norm_num at g u1 u2 ⊢
      linarith

/-! Examples: a halo of 2^46 Msun/h at (1, 1, 1), radius and scale radius 1 Mpc/h, and particles at distance 1 -/

def haloE : Ext32 := ⟨⟨1, 1, 1⟩, 1, 2 ^ 46, 1, ⟨0, 0, 0⟩⟩

def slowE : Part32 := ⟨⟨2, 1, 1⟩, ⟨0, 100, 0⟩, 5⟩

def fastE : Part32 := ⟨⟨2, 1, 1⟩, ⟨0, 2000, 0⟩, 5⟩

theorem speedE : speedTo haloE slowE ^ 2 = 10000 ∧ speedTo haloE fastE ^ 2 = 4000000 := by
  unfold speedTo
  rw [dist3_sq, dist3_sq]
  unfold haloE slowE fastE
  norm_num

theorem escapeE : 2000000 ≤ escape2 haloE.m haloE.r haloE.rs 1 ∧ escape2 haloE.m haloE.r haloE.rs 1 ≤ 2400000 := by
  have h1 := Real.log_two_gt_d9
  have h2 := Real.log_two_lt_d9
  have e : escape2 haloE.m haloE.r haloE.rs 1 = 2 * (508 ^ 2 * (2 ^ 46 / 60000000000000)) * (Real.log 2 / (Real.log 2 - 1 / 2)) := by
    unfold escape2 nfw haloE
    norm_num
  rw [e]
  have b1 : 35 / 10 ≤ Real.log 2 / (Real.log 2 - 1 / 2) := by
    rw [le_div_iff₀ (by linarith)]
    linarith
  have b2 : Real.log 2 / (Real.log 2 - 1 / 2) ≤ 37 / 10 := by
    rw [div_le_iff₀ (by linarith)]
    linarith
  generalize Real.log 2 / (Real.log 2 - 1 / 2) = q at *
  norm_num
  constructor <;> linarith

theorem distE : distTo haloE.c slowE.x = 1 ∧ distTo haloE.c fastE.x = 1 := ⟨example_dist.1, example_dist.1⟩

theorem clearE : ClearOf (1 / 2 ^ 45) sphere2 3 .bound haloE slowE ∧ ClearOf (1 / 2 ^ 45) sphere2 3 .bound haloE fastE := by
  obtain ⟨e1, e2⟩ := escapeE
  unfold ClearOf
  simp only [distE.1, distE.2, speedE.1, speedE.2]
  generalize escape2 haloE.m haloE.r haloE.rs 1 = E at *
  refine ⟨⟨by unfold haloE; norm_num, ?_⟩, by unfold haloE; norm_num, ?_⟩
  · rw [abs_of_neg (by linarith)]
    linarith
  · rw [abs_of_pos (by linarith)]
    linarith

/-- The slow particle is bound, the fast one is not. -/
example : kept32 (fun x => rnReal (Real.log x)) cutMath sphere2 3 .bound 100 haloE slowE ∧ ¬ kept32 (fun x => rnReal (Real.log x)) cutMath sphere2 3 .bound 100 haloE fastE := by
  obtain ⟨e1, e2⟩ := escapeE
  have b := example_certain.1.box
  have a := example_certain.1.apart
  constructor
  · rw [C131_bound _ logOk_rounded _ _ _ 100 float100 haloE (by norm_num [haloE]) (by norm_num [haloE]) (by norm_num [haloE]) (by norm_num [haloE]) slowE b a clearE.1.1 clearE.1.2, speedE.1, distE.1]
    linarith
  · rw [C131_bound _ logOk_rounded _ _ _ 100 float100 haloE (by norm_num [haloE]) (by norm_num [haloE]) (by norm_num [haloE]) (by norm_num [haloE]) fastE b a clearE.2.1 clearE.2.2, speedE.2, distE.2]
    linarith

/-- Both are inside of a shell of radius 2. -/
example : kept32 (fun x => rnReal (Real.log x)) cutMath sphere2 3 .contained 100 haloE fastE := by
  have k := example_certain.1
  rw [C131_contained _ cutMath _ cutMath45 (by norm_num) sphere2 3 (by simp [sphere2]) (by norm_num) 100 float100 haloE fastE k.box k.apart k.margin, sphere2_radius, distE.2]
  norm_num

/-- The bound density profile of the two: ten bins from 1/32 to 4 Mpc/h.  The slow particle is in a bin, the fast one is in none. -/
example : ∃ (out : List ℚ) (bin : Part32 → Option ℕ), insertPoints64 (fun x => rnReal (Real.log x)) cutMath sphere2 3 .bound 100 haloE (1 / 32) 4 10 (List.replicate 10 0) [slowE, fastE] = some out ∧
    (bin slowE).isSome ∧ bin fastE = none := by
  obtain ⟨e1, e2⟩ := escapeE
  have b := example_certain.1.box
  have a := example_certain.1.apart
  obtain ⟨out, bin, h1, -, -, h4, h5⟩ := C131_profile _ logOk_rounded cutMath _ cutMath45 (by norm_num) sphere2 3 (by simp [sphere2]) (by norm_num) .bound 100 float100 haloE (by norm_num [haloE]) (by norm_num [haloE])
    (by norm_num [haloE]) (1 / 32) 4 10 profOk_default (List.replicate 10 0) (by simp) [slowE, fastE] (by intro p hp; rcases List.mem_pair.mp hp with rfl | rfl <;> exact b)
    (by intro p hp; rcases List.mem_pair.mp hp with rfl | rfl <;> exact a) (by intro p hp; rcases List.mem_pair.mp hp with rfl | rfl; exacts [clearE.1, clearE.2])
  refine ⟨out, bin, h1, ?_, ?_⟩
  · rw [Option.isSome_iff_ne_none]
    intro hc
    rcases h5 slowE (by simp) hc with h | h | h
    · apply h
      unfold Belongs
      rw [speedE.1, distE.1]
      linarith
    · rw [distE.1] at h
      norm_num [haloE] at h
    · rw [distE.1] at h
      norm_num [haloE] at h
  · by_contra hc
    obtain ⟨j, hj⟩ := Option.ne_none_iff_exists'.mp hc
    have := (h4 fastE (by simp) j hj).2.1
    unfold Belongs at this
    rw [speedE.2, distE.2] at this
    linarith

end Shellfish.Round
