/-
C132: the potential maps in machine arithmetic.
-/
import Verif.Model.PotRound
import Verif.Props.BoundRound
import Verif.Props.Potential

namespace Shellfish.Round
open Finset
open Shellfish.Potential (Plane)
open Shellfish.Geom (Vec)

theorem potRadius_close {cfg : PotCfg} {hr : ℚ} (h0 : 0 < hr) (hM : 0 < cfg.rMaxMult) : Ulp24 9 (potRadius cfg hr : ℝ) hr := by
  have a : Ulp24 0 ((hr * cfg.rMaxMult : ℚ) : ℝ) ((hr * cfg.rMaxMult : ℚ) : ℝ) := ulp_self (by exact_mod_cast mul_pos h0 hM)
  have b := (a.r64 (by norm_num)).r32 (by norm_num)
  have c : Ulp24 2 (r32 cfg.rMaxMult : ℝ) cfg.rMaxMult := (ulp_self (by exact_mod_cast hM : (0 : ℝ) < cfg.rMaxMult)).r32 (by norm_num)
  have d := b.div c (by norm_num) (by norm_num)
  have e : ((hr * cfg.rMaxMult : ℚ) : ℝ) / (cfg.rMaxMult : ℝ) = hr := by
    push_cast
    have : (cfg.rMaxMult : ℝ) ≠ 0 := by exact_mod_cast hM.ne'
    field_simp
  rw [e, ← Rat.cast_div] at d
  exact d.r32 (by norm_num)

theorem potLimit_close {mult R : ℚ} {hr : ℝ} (hm : 0 < mult) (h : Ulp24 9 (R : ℝ) hr) : Ulp24 25 (potLimit mult R : ℝ) ((mult * hr) ^ 2) := by
  have a : Ulp24 1 ((mult * mult : ℚ) : ℝ) ((mult : ℝ) * mult) := by
    rw [Rat.cast_mul]
    exact (ulp_self (by exact_mod_cast mul_pos hm hm)).mono (by norm_num)
  have b := a.r64 (by norm_num)
  have c := h.mul h (by norm_num) (by norm_num)
  rw [← Rat.cast_mul] at c
  have d := b.mul (c.r32 (by norm_num)) (by norm_num) (by norm_num)
  rw [← Rat.cast_mul, show (mult : ℝ) * mult * (hr * hr) = (mult * hr) ^ 2 by ring] at d
  exact d.r64 (by norm_num)

theorem potLimit_zero (R : ℚ) : potLimit 0 R = 0 := by
  unfold potLimit
  rw [zero_mul, show r64 0 = 0 from rn_zero 53, zero_mul, show r64 0 = 0 from rn_zero 53]

/-- The squared distance of a particle from the halo. -/
theorem potSq_close (c x : Pos32) : |(potSq (potOffset c x) : ℝ) - distTo c x ^ 2| ≤ distTo c x ^ 2 * (4 / 2 ^ 24) ∧ 0 ≤ potSq (potOffset c x) := by
  have h := dist3_scale (r32_errR (x.x - c.x)) (r32_errR (x.y - c.y)) (r32_errR (x.z - c.z))
  have e : potSq (potOffset c x) = r64 (r64 (r64 (r32 (x.x - c.x) * r32 (x.x - c.x)) + r64 (r32 (x.y - c.y) * r32 (x.y - c.y))) + r64 (r32 (x.z - c.z) * r32 (x.z - c.z))) := rfl
  have e' : distTo c x = dist3 (x.x - c.x) (x.y - c.y) (x.z - c.z) := rfl
  rw [e, e']
  generalize r32 (x.x - c.x) = X at *
  generalize r32 (x.y - c.y) = Y at *
  generalize r32 (x.z - c.z) = Z at *
  have sx := r64_bounds (mul_self_nonneg X)
  have sy := r64_bounds (mul_self_nonneg Y)
  have sz := r64_bounds (mul_self_nonneg Z)
  have e1 := r64_sum_bounds (mul_self_nonneg X) (mul_self_nonneg Y) (by norm_num) sx sy
  have sz' : Z * Z * ((1 - 1 / 2 ^ 53) * (1 - 1 / 2 ^ 53)) ≤ r64 (Z * Z) ∧ r64 (Z * Z) ≤ Z * Z * ((1 + 1 / 2 ^ 53) * (1 + 1 / 2 ^ 53)) := by
    have := mul_self_nonneg Z
    constructor
    · refine le_trans ?_ sz.1
      exact mul_le_mul_of_nonneg_left (by norm_num) this
    · refine le_trans sz.2 ?_
      exact mul_le_mul_of_nonneg_left (by norm_num) this
  have e2 := r64_sum_bounds (add_nonneg (mul_self_nonneg X) (mul_self_nonneg Y)) (mul_self_nonneg Z) (by norm_num) e1 sz'
  generalize r64 (r64 (r64 (X * X) + r64 (Y * Y)) + r64 (Z * Z)) = S at *
  have hT0 : 0 ≤ X * X + Y * Y + Z * Z := add_nonneg (add_nonneg (mul_self_nonneg X) (mul_self_nonneg Y)) (mul_self_nonneg Z)
  refine ⟨?_, le_trans (mul_nonneg hT0 (by norm_num)) e2.1⟩
  have hs := dist3_sq X Y Z
  have s1 : dist3 X Y Z ^ 2 * (1 - 4 / 2 ^ 53) ≤ (S : ℝ) := by
    have : (X * X + Y * Y + Z * Z) * (1 - 4 / 2 ^ 53) ≤ S := le_trans (mul_le_mul_of_nonneg_left (by norm_num) hT0) e2.1
    have := (Rat.cast_le (K := ℝ)).mpr this
    rw [hs]
    push_cast at this ⊢
    linarith
  have s2 : (S : ℝ) ≤ dist3 X Y Z ^ 2 * (1 + 4 / 2 ^ 53) := by
    have : S ≤ (X * X + Y * Y + Z * Z) * (1 + 4 / 2 ^ 53) := le_trans e2.2 (mul_le_mul_of_nonneg_left (by norm_num) hT0)
    have := (Rat.cast_le (K := ℝ)).mpr this
    rw [hs]
    push_cast at this ⊢
    linarith
  have p : 0 ≤ dist3 (x.x - c.x) (x.y - c.y) (x.z - c.z) := Real.sqrt_nonneg _
  have p' : 0 ≤ dist3 X Y Z := Real.sqrt_nonneg _
  obtain ⟨l, u⟩ := abs_le.mp h
  generalize dist3 (x.x - c.x) (x.y - c.y) (x.z - c.z) = D at *
  generalize dist3 X Y Z = E at *
  generalize (S : ℝ) = A at *
  have q1 : D ^ 2 * (1 - 1 / 2 ^ 24) ^ 2 ≤ E ^ 2 := by
    rw [← mul_pow]
    exact pow_le_pow_left₀ (mul_nonneg p (by norm_num)) (by linarith) 2
  have q2 : E ^ 2 ≤ D ^ 2 * (1 + 1 / 2 ^ 24) ^ 2 := by
    rw [← mul_pow]
    exact pow_le_pow_left₀ p' (by linarith) 2
  have hD := sq_nonneg D
  clear hs h l u
  rw [abs_le]
  norm_num at *
  constructor <;> linarith

/-- The distance is not so close to `mult` times the radius of the halo that rounding matters. -/
def AwayFrom (mult hr : ℚ) (D : ℝ) : Prop := mult = 0 ∨ (mult : ℝ) * hr / 2 ^ 18 < |D - mult * hr|

theorem limit_lt {A B D L : ℝ} (h0 : 0 ≤ D) (hA : |A - D ^ 2| ≤ D ^ 2 * (4 / 2 ^ 24)) (hB : Ulp24 25 B (L ^ 2)) (hL : 0 < L) (hc : L / 2 ^ 18 < |D - L|) : (A < B ↔ D < L) ∧ (B < A ↔ L < D) := by
  obtain ⟨-, hB⟩ := hB
  obtain ⟨a1, a2⟩ := abs_le.mp hA
  obtain ⟨b1, b2⟩ := abs_le.mp hB
  have hL2 : 0 < L ^ 2 := by positivity
  rcases lt_or_ge D L with h | h
  · rw [abs_of_neg (by linarith)] at hc
    have q : D ^ 2 ≤ L ^ 2 * (1 - 1 / 2 ^ 18) ^ 2 := by
      rw [← mul_pow]
      exact pow_le_pow_left₀ h0 (by linarith) 2
    have : A < B := by
      norm_num at *
      linarith
    exact ⟨⟨fun _ => h, fun _ => this⟩, ⟨fun hx => by linarith, fun hx => by linarith⟩⟩
  · rw [abs_of_nonneg (by linarith)] at hc
    have q : L ^ 2 * (1 + 1 / 2 ^ 18) ^ 2 ≤ D ^ 2 := by
      rw [← mul_pow]
      exact pow_le_pow_left₀ (by positivity) (by linarith) 2
    have hL' : L < D := by
      have : 0 < L / 2 ^ 18 := by positivity
      linarith
    have : B < A := by
      norm_num at *
      linarith
    exact ⟨⟨fun hx => by linarith, fun hx => by linarith⟩, ⟨fun _ => hL', fun _ => this⟩⟩

/-- C132: a particle is used exactly if it is between `rMinMult` and `rMaxMult` radii from the halo, unless it is closer than 2^-18 of the radius to one of them. -/
theorem C132_used (cfg : PotCfg) (hr : ℚ) (h0 : 0 < hr) (hM : 0 < cfg.rMaxMult) (hmin : 0 ≤ cfg.rMinMult) (c x : Pos32) (h1 : AwayFrom cfg.rMaxMult hr (distTo c x)) (h2 : AwayFrom cfg.rMinMult hr (distTo c x)) :
    potUsed cfg (potRadius cfg hr) (potOffset c x) ↔ (cfg.rMinMult : ℝ) * hr ≤ distTo c x ∧ distTo c x ≤ cfg.rMaxMult * hr := by
  have hR := potRadius_close (cfg := cfg) h0 hM
  obtain ⟨hA, hA0⟩ := potSq_close c x
  have hD : 0 ≤ distTo c x := Real.sqrt_nonneg _
  have hr0 : (0 : ℝ) < hr := by exact_mod_cast h0
  have top := limit_lt hD hA (potLimit_close hM hR) (mul_pos (by exact_mod_cast hM) hr0) (h1.resolve_left hM.ne')
  have t1 : potSq (potOffset c x) > potLimit cfg.rMaxMult (potRadius cfg hr) ↔ (cfg.rMaxMult : ℝ) * hr < distTo c x := by
    rw [← top.2, Rat.cast_lt]
  have t2 : potSq (potOffset c x) < potLimit cfg.rMinMult (potRadius cfg hr) ↔ distTo c x < (cfg.rMinMult : ℝ) * hr := by
    rcases hmin.eq_or_lt with e | hpos
    · rw [← e, potLimit_zero, Rat.cast_zero, zero_mul]
      exact ⟨fun h => absurd h (not_lt.mpr hA0), fun h => absurd h (not_lt.mpr hD)⟩
    · rw [← (limit_lt hD hA (potLimit_close hpos hR) (mul_pos (by exact_mod_cast hpos) hr0) (h2.resolve_left hpos.ne')).1, Rat.cast_lt]
  unfold potUsed
  rw [t1, t2]
  push Not
  exact and_comm

/-! The points of the maps -/

/-- Positions and parameters as real numbers. -/
def vecOf (p : Pos32) : Vec := ⟨p.x, p.y, p.z⟩

/-- See `vecOf`. -/
def cfgOf (cfg : PotCfg) : Potential.Config := ⟨cfg.ncells, cfg.rGridMult, cfg.rMinMult, cfg.rMaxMult, cfg.frac⟩

/-- The point of a cell of a map, for a halo at `c` with radius `hr`. -/
noncomputable def gridPoint (cfg : PotCfg) (c : Pos32) (hr : ℚ) (cell : Plane × ℕ) : Vec := Potential.at' (vecOf c) (Potential.point (cfgOf cfg) hr cell)

/-- The distance of a particle from the point of a cell. -/
noncomputable def toGrid (cfg : PotCfg) (c : Pos32) (hr : ℚ) (cell : Plane × ℕ) (x : Pos32) : ℝ := Stats.distance (gridPoint cfg c hr cell) (vecOf x)

/-- A coordinate as seen from a row of the grid, exactly. -/
def seenX (cfg : PotCfg) (hr d : ℚ) (k : ℕ) : ℚ := d - hr * cfg.rGridMult + hr * cfg.rGridMult * 2 / ((cfg.ncells : ℚ) - 1) * k

theorem toGrid_eq (cfg : PotCfg) (c : Pos32) (hr : ℚ) (pl : Plane) (i : ℕ) (x : Pos32) :
    toGrid cfg c hr (pl, i) x = match pl with
      | .xy => dist3 (seenX cfg hr (x.x - c.x) (i % cfg.ncells)) (seenX cfg hr (x.y - c.y) (i / cfg.ncells)) (x.z - c.z)
      | .xz => dist3 (seenX cfg hr (x.x - c.x) (i % cfg.ncells)) (x.y - c.y) (seenX cfg hr (x.z - c.z) (i / cfg.ncells))
      | .yz => dist3 (x.x - c.x) (seenX cfg hr (x.y - c.y) (i % cfg.ncells)) (seenX cfg hr (x.z - c.z) (i / cfg.ncells)) := by
  unfold toGrid gridPoint Stats.distance Potential.at' Potential.point cfgOf vecOf
  cases pl
  all_goals
    unfold dist3 seenX Potential.delta Potential.gridR
    dsimp only
    congr 1
    push_cast
    ring

theorem gridR64_close {cfg : PotCfg} {R hr : ℚ} (hG : 0 < cfg.rGridMult) (h : Ulp24 9 (R : ℝ) hr) : Ulp24 11 (gridR64 cfg R : ℝ) ((hr : ℝ) * cfg.rGridMult) := by
  have a := h.mul (ulp_self (by exact_mod_cast hG : (0 : ℝ) < cfg.rGridMult)) (by norm_num) (by norm_num)
  rw [← Rat.cast_mul] at a
  exact a.r64 (by norm_num)

theorem delta64_close {cfg : PotCfg} {R hr : ℚ} (hG : 0 < cfg.rGridMult) (hn : 2 ≤ cfg.ncells) (h : Ulp24 9 (R : ℝ) hr) :
    Ulp24 16 (delta64 cfg R : ℝ) ((hr : ℝ) * cfg.rGridMult * 2 / ((cfg.ncells : ℝ) - 1)) := by
  have a := (gridR64_close hG h).mul (ulp_self (by norm_num : (0 : ℝ) < ((2 : ℚ) : ℝ))) (by norm_num) (by norm_num)
  rw [← Rat.cast_mul] at a
  have hn' : (2 : ℝ) ≤ cfg.ncells := by exact_mod_cast hn
  have b : Ulp24 0 (((cfg.ncells : ℚ) - 1 : ℚ) : ℝ) ((cfg.ncells : ℝ) - 1) := by
    push_cast
    exact ulp_self (by linarith)
  have d := (a.r64 (by norm_num)).div b (by norm_num) (by norm_num)
  rw [← Rat.cast_div] at d
  have e := d.r64 (by norm_num)
  rw [Rat.cast_ofNat] at e
  exact e

theorem seen_close {cfg : PotCfg} {R hr d dE : ℚ} {k : ℕ} (hG : 0 < cfg.rGridMult) (hn : 2 ≤ cfg.ncells) (hk : k + 1 ≤ cfg.ncells) (h : Ulp24 9 (R : ℝ) hr) (hd : |(d : ℝ) - dE| ≤ |(dE : ℝ)| / 2 ^ 24) :
    |(seen64 cfg R d k : ℝ) - seenX cfg hr dE k| ≤ (2 * |(dE : ℝ)| + 50 * ((hr : ℝ) * cfg.rGridMult)) / 2 ^ 24 ∧ |(seenX cfg hr dE k : ℝ)| ≤ |(dE : ℝ)| + 3 * ((hr : ℝ) * cfg.rGridMult) := by
  have g := gridR64_close hG h
  have de := delta64_close hG hn h
  have G0 := g.1
  have hn' : (2 : ℝ) ≤ cfg.ncells := by exact_mod_cast hn
  have hk' : (k : ℝ) + 1 ≤ cfg.ncells := by exact_mod_cast hk
  have ek : (seenX cfg hr dE k : ℝ) = dE - hr * cfg.rGridMult + hr * cfg.rGridMult * 2 / ((cfg.ncells : ℝ) - 1) * k := by
    unfold seenX
    push_cast
    ring
  have t1 : (hr : ℝ) * cfg.rGridMult * 2 / ((cfg.ncells : ℝ) - 1) * k ≤ 2 * ((hr : ℝ) * cfg.rGridMult) := by
    rw [div_mul_eq_mul_div, div_le_iff₀ (by linarith)]
    nlinarith
  have t0 : 0 ≤ (hr : ℝ) * cfg.rGridMult * 2 / ((cfg.ncells : ℝ) - 1) * k := mul_nonneg de.1.le (Nat.cast_nonneg _)
  have t2 : |(r64 (delta64 cfg R * k) : ℝ) - hr * cfg.rGridMult * 2 / ((cfg.ncells : ℝ) - 1) * k| ≤ 36 * ((hr : ℝ) * cfg.rGridMult) / 2 ^ 24 := by
    rcases Nat.eq_zero_or_pos k with rfl | hpos
    · rw [Nat.cast_zero, mul_zero, show r64 0 = 0 from rn_zero 53, Nat.cast_zero, mul_zero]
      norm_num
      positivity
    · have kk : Ulp24 0 ((k : ℚ) : ℝ) (k : ℝ) := by
        rw [Rat.cast_natCast]
        exact ulp_self (by exact_mod_cast hpos)
      have a := de.mul kk (by norm_num) (by norm_num)
      rw [← Rat.cast_mul] at a
      refine (a.r64 (by norm_num)).2.trans ?_
      generalize (hr : ℝ) * cfg.rGridMult * 2 / ((cfg.ncells : ℝ) - 1) * k = T at *
      generalize (hr : ℝ) * cfg.rGridMult = G at *
      norm_num
      linarith
  have e1 := r64_errR (d - gridR64 cfg R)
  have e2 := r64_errR (r64 (d - gridR64 cfg R) + r64 (delta64 cfg R * k))
  have es : seen64 cfg R d k = r64 (r64 (d - gridR64 cfg R) + r64 (delta64 cfg R * k)) := rfl
  rw [es, ek]
  rw [Rat.cast_sub] at e1
  rw [Rat.cast_add] at e2
  have g2 := g.2
  generalize (hr : ℝ) * cfg.rGridMult * 2 / ((cfg.ncells : ℝ) - 1) * k = T at *
  generalize (hr : ℝ) * cfg.rGridMult = G at *
  generalize (gridR64 cfg R : ℝ) = g' at *
  generalize (r64 (r64 (d - gridR64 cfg R) + r64 (delta64 cfg R * k)) : ℝ) = B at *
  generalize (r64 (d - gridR64 cfg R) : ℝ) = A at *
  generalize (r64 (delta64 cfg R * k) : ℝ) = T' at *
  generalize (d : ℝ) = d' at *
  generalize (dE : ℝ) = E at *
  have k1 := abs_le.mp hd
  have k2 := abs_le.mp g2
  have k3 := abs_le.mp t2
  have hE := abs_le.mp (le_refl |E|)
  generalize |E| = F at *
  have n1 : |d' - g'| ≤ 2 * F + 2 * G := by
    rw [abs_le]
    norm_num at k1 k2
    constructor <;> linarith [k1.1, k1.2, k2.1, k2.2, hE.1, hE.2]
  have k4 := abs_le.mp (e1.trans (div_le_div_of_nonneg_right n1 (by norm_num)))
  have n2 : |A + T'| ≤ 3 * F + 6 * G := by
    rw [abs_le] at n1 ⊢
    norm_num at k3 k4
    constructor <;> linarith [k3.1, k3.2, k4.1, k4.2, n1.1, n1.2, hE.1, hE.2]
  have k5 := abs_le.mp (e2.trans (div_le_div_of_nonneg_right n2 (by norm_num)))
  constructor
  · rw [abs_le]
    norm_num at k1 k2 k3 k4 k5 ⊢
    constructor <;> linarith [k1.1, k1.2, k2.1, k2.2, k3.1, k3.2, k4.1, k4.2, k5.1, k5.2, hE.1, hE.2]
  · rw [abs_le]
    constructor <;> linarith [hE.1, hE.2]

theorem dist3_le_sum (x y z : ℚ) : dist3 x y z ≤ |(x : ℝ)| + |(y : ℝ)| + |(z : ℝ)| := by
  unfold dist3
  rw [Real.sqrt_le_left (by positivity)]
  have := abs_nonneg (x : ℝ)
  have := abs_nonneg (y : ℝ)
  have := abs_nonneg (z : ℝ)
  rw [← sq_abs (x : ℝ), ← sq_abs (y : ℝ), ← sq_abs (z : ℝ)]
  nlinarith [mul_nonneg (abs_nonneg (x : ℝ)) (abs_nonneg (y : ℝ)), mul_nonneg (abs_nonneg (x : ℝ)) (abs_nonneg (z : ℝ)), mul_nonneg (abs_nonneg (y : ℝ)) (abs_nonneg (z : ℝ))]

theorem abs_le_dist3 (x y z : ℚ) : |(x : ℝ)| ≤ dist3 x y z ∧ |(y : ℝ)| ≤ dist3 x y z ∧ |(z : ℝ)| ≤ dist3 x y z := by
  unfold dist3
  refine ⟨Real.abs_le_sqrt ?_, Real.abs_le_sqrt ?_, Real.abs_le_sqrt ?_⟩ <;> nlinarith [sq_nonneg (x : ℝ), sq_nonneg (y : ℝ), sq_nonneg (z : ℝ)]

theorem dist3_tri (x y z x' y' z' : ℚ) : dist3 x' y' z' ≤ dist3 x y z + (|(x' : ℝ) - x| + |(y' : ℝ) - y| + |(z' : ℝ) - z|) := by
  have hD : 0 ≤ dist3 x y z := Real.sqrt_nonneg _
  have hs := dist3_sq x y z
  obtain ⟨hx, hy, hz⟩ := abs_le_dist3 x y z
  generalize dist3 x y z = D at *
  unfold dist3
  generalize (x : ℝ) = X at *
  generalize (y : ℝ) = Y at *
  generalize (z : ℝ) = Z at *
  generalize (x' : ℝ) = X' at *
  generalize (y' : ℝ) = Y' at *
  generalize (z' : ℝ) = Z' at *
  have key : ∀ a b : ℝ, |a| ≤ D → b ^ 2 ≤ a ^ 2 + 2 * D * |b - a| + |b - a| ^ 2 := by
    intro a b h
    have e : b ^ 2 = a ^ 2 + 2 * (a * (b - a)) + (b - a) ^ 2 := by ring
    have : a * (b - a) ≤ D * |b - a| := (le_abs_self _).trans (by rw [abs_mul]; exact mul_le_mul_of_nonneg_right h (abs_nonneg _))
    rw [sq_abs]
    linarith
  have kx := key X X' hx
  have ky := key Y Y' hy
  have kz := key Z Z' hz
  have p1 := abs_nonneg (X' - X)
  have p2 := abs_nonneg (Y' - Y)
  have p3 := abs_nonneg (Z' - Z)
  generalize |X' - X| = u at *
  generalize |Y' - Y| = v at *
  generalize |Z' - Z| = w at *
  rw [Real.sqrt_le_left (by positivity)]
  nlinarith [mul_nonneg p1 p2, mul_nonneg p1 p3, mul_nonneg p2 p3]

theorem dist3_near (x y z x' y' z' : ℚ) : |dist3 x' y' z' - dist3 x y z| ≤ |(x' : ℝ) - x| + |(y' : ℝ) - y| + |(z' : ℝ) - z| := by
  have a := dist3_tri x y z x' y' z'
  have b := dist3_tri x' y' z' x y z
  rw [abs_sub_comm (x : ℝ), abs_sub_comm (y : ℝ), abs_sub_comm (z : ℝ)] at b
  rw [abs_le]
  constructor <;> linarith

/-- The computed distance of a particle from the point of a cell. -/
theorem potDist_close (cfg : PotCfg) (hG : 0 < cfg.rGridMult) (hn : 2 ≤ cfg.ncells) (c x : Pos32) {R hr : ℚ} (h : Ulp24 9 (R : ℝ) hr) (pl : Plane) (i : ℕ) (hi : i < cfg.ncells * cfg.ncells) :
    ∃ dr : ℚ, potDist64 cfg R (potOffset c x) (pl, i) = some dr ∧ |(dr : ℝ) - toGrid cfg c hr (pl, i) x| ≤ (distTo c x + 15 * ((hr : ℝ) * cfg.rGridMult)) / 2 ^ 21 := by
  have hk1 : i % cfg.ncells + 1 ≤ cfg.ncells := Nat.mod_lt _ (by omega)
  have hk2 : i / cfg.ncells + 1 ≤ cfg.ncells := Nat.div_lt_of_lt_mul hi
  have ox := r32_errR (x.x - c.x)
  have oy := r32_errR (x.y - c.y)
  have oz := r32_errR (x.z - c.z)
  have G0 : 0 < (hr : ℝ) * cfg.rGridMult := (gridR64_close hG h).1
  obtain ⟨bx, by', bz⟩ := abs_le_dist3 (x.x - c.x) (x.y - c.y) (x.z - c.z)
  have fin : ∀ a b d a' b' d' : ℚ, |(a' : ℝ) - a| + |(b' : ℝ) - b| + |(d' : ℝ) - d| ≤ (6 * distTo c x + 100 * ((hr : ℝ) * cfg.rGridMult)) / 2 ^ 24 →
      |(a : ℝ)| + |(b : ℝ)| + |(d : ℝ)| ≤ 3 * distTo c x + 6 * ((hr : ℝ) * cfg.rGridMult) →
      ∃ dr : ℚ, norm64 a' b' d' = some dr ∧ |(dr : ℝ) - dist3 a b d| ≤ (distTo c x + 15 * ((hr : ℝ) * cfg.rGridMult)) / 2 ^ 21 := by
    intro a b d a' b' d' h1 h2
    obtain ⟨dr, n1, n2, n3⟩ := norm64_bounds a' b' d'
    refine ⟨dr, n1, ?_⟩
    have k1 := abs_le.mp ((dist3_near a b d a' b' d').trans h1)
    have k2 := (dist3_le_sum a b d).trans h2
    have hr0 : 0 ≤ distTo c x := Real.sqrt_nonneg _
    clear n1 h1 h2
    generalize distTo c x = r at *
    generalize (hr : ℝ) * cfg.rGridMult = G at *
    generalize dist3 a' b' d' = D' at *
    generalize dist3 a b d = D at *
    generalize (dr : ℝ) = s at *
    obtain ⟨k1a, k1b⟩ := k1
    rw [abs_le]
    norm_num at *
    constructor <;> linarith
  have er : distTo c x = dist3 (x.x - c.x) (x.y - c.y) (x.z - c.z) := rfl
  rw [toGrid_eq]
  cases pl
  · obtain ⟨s1, t1⟩ := seen_close (k := i % cfg.ncells) hG hn hk1 h ox
    obtain ⟨s2, t2⟩ := seen_close (k := i / cfg.ncells) hG hn hk2 h oy
    refine fin _ _ _ _ _ _ ?_ ?_
    · refine (add_le_add (add_le_add s1 s2) oz).trans ?_
      rw [er]
      linarith [abs_nonneg ((x.x - c.x : ℚ) : ℝ), abs_nonneg ((x.y - c.y : ℚ) : ℝ), abs_nonneg ((x.z - c.z : ℚ) : ℝ)]
    · refine (add_le_add (add_le_add t1 t2) (le_refl _)).trans ?_
      rw [er]
      linarith
  · obtain ⟨s1, t1⟩ := seen_close (k := i % cfg.ncells) hG hn hk1 h oy
    obtain ⟨s2, t2⟩ := seen_close (k := i / cfg.ncells) hG hn hk2 h oz
    refine fin _ _ _ _ _ _ ?_ ?_
    · refine (add_le_add (add_le_add ox s1) s2).trans ?_
      rw [er]
      linarith [abs_nonneg ((x.x - c.x : ℚ) : ℝ), abs_nonneg ((x.y - c.y : ℚ) : ℝ), abs_nonneg ((x.z - c.z : ℚ) : ℝ)]
    · refine (add_le_add (add_le_add (le_refl _) t1) t2).trans ?_
      rw [er]
      linarith
  · obtain ⟨s1, t1⟩ := seen_close (k := i % cfg.ncells) hG hn hk1 h ox
    obtain ⟨s2, t2⟩ := seen_close (k := i / cfg.ncells) hG hn hk2 h oz
    refine fin _ _ _ _ _ _ ?_ ?_
    · refine (add_le_add (add_le_add s1 oy) s2).trans ?_
      rw [er]
      linarith [abs_nonneg ((x.x - c.x : ℚ) : ℝ), abs_nonneg ((x.y - c.y : ℚ) : ℝ), abs_nonneg ((x.z - c.z : ℚ) : ℝ)]
    · refine (add_le_add (add_le_add t1 (le_refl _)) t2).trans ?_
      rw [er]
      linarith

/-! The value of a cell -/

theorem quotient_close {m D dr η : ℝ} (hm : 0 ≤ m) (hD : 0 < D) (h0 : 0 ≤ η) (h4 : η ≤ 1 / 4) (h : |dr - D| ≤ η * D) : 0 < dr ∧ |m / dr - m / D| ≤ m / D * (4 / 3 * η) := by
  obtain ⟨a, b⟩ := abs_le.mp h
  have hdr : 3 / 4 * D ≤ dr := by nlinarith
  have hp : 0 < dr := by linarith
  refine ⟨hp, ?_⟩
  have e : m / dr - m / D = m / D * ((D - dr) / dr) := by field_simp
  rw [e, abs_mul, abs_of_nonneg (by positivity : 0 ≤ m / D)]
  refine mul_le_mul_of_nonneg_left ?_ (by positivity)
  rw [abs_div, abs_of_pos hp, abs_sub_comm, div_le_iff₀ hp]
  refine h.trans ?_
  nlinarith

theorem pow53_le {n : ℕ} (h : n ≤ 2 ^ 30) : ((1 : ℚ) + 1 / 2 ^ 53) ^ n - 1 ≤ 1 / 2 ^ 22 := by
  have key : ∀ k : ℕ, k ≤ 2 ^ 30 → ((1 : ℚ) + 1 / 2 ^ 53) ^ k ≤ 1 + k / 2 ^ 52 := by
    intro k
    induction k with
    | zero => intro _; norm_num
    | succ k ih =>
      intro hk
      have i1 := ih (by omega)
      have hk' : (k : ℚ) ≤ 2 ^ 30 := by exact_mod_cast (by omega : k ≤ 2 ^ 30)
      have k0 : (0 : ℚ) ≤ k := Nat.cast_nonneg _
      rw [pow_succ]
      refine (mul_le_mul_of_nonneg_right i1 (by norm_num)).trans ?_
      push_cast
      generalize (k : ℚ) = K at *
      norm_num at *
      linarith
  have k1 := key n h
  have hn : (n : ℚ) ≤ 2 ^ 30 := by exact_mod_cast h
  generalize ((1 : ℚ) + 1 / 2 ^ 53) ^ n = P at *
  generalize (n : ℚ) = N at *
  norm_num at *
  linarith

open Classical in
/-- The computed term of a particle. -/
noncomputable def potTerm (cfg : PotCfg) (R : ℚ) (c : Pos32) (cell : Plane × ℕ) (p : Pos32 × ℚ) : ℚ := r64 (p.2 / (potDist64 cfg R (potOffset c p.1) cell).getD 0)

open Classical in
theorem fold_eq (cfg : PotCfg) (R : ℚ) (c : Pos32) (cell : Plane × ℕ) (ps : List (Pos32 × ℚ)) (h : ∀ p ∈ ps, ∃ dr, potDist64 cfg R (potOffset c p.1) cell = some dr ∧ (potUsed cfg R (potOffset c p.1) → dr ≠ 0)) (a : ℚ) :
    ps.foldlM (potInsert64 cfg R c cell) (-a) = some (-(sum64 a ((ps.filter fun p => potUsed cfg R (potOffset c p.1)).map (potTerm cfg R c cell)))) := by
  induction ps generalizing a with
  | nil => rfl
  | cons p ps ih =>
    obtain ⟨dr, h1, h2⟩ := h p (List.mem_cons_self ..)
    rw [List.foldlM_cons]
    by_cases hu : potUsed cfg R (potOffset c p.1)
    · have e : potInsert64 cfg R c cell (-a) p = some (-(r64 (a + potTerm cfg R c cell p))) := by
        unfold potInsert64 potTerm
        simp only [if_pos hu, h1, Option.bind_some, if_neg (h2 hu), Option.getD_some]
        rw [show -a - r64 (p.2 / dr) = -(a + r64 (p.2 / dr)) by ring]
        congr 1
        exact rn_neg 53 _
      rw [e, Option.bind_eq_bind, Option.bind_some, ih (fun q hq => h q (List.mem_cons_of_mem _ hq)), List.filter_cons_of_pos (by simpa using hu), List.map_cons]
      rfl
    · have e : potInsert64 cfg R c cell (-a) p = some (-a) := by
        unfold potInsert64
        simp only [if_neg hu]
      rw [e, Option.bind_eq_bind, Option.bind_some, ih (fun q hq => h q (List.mem_cons_of_mem _ hq)), List.filter_cons_of_neg (by simpa using hu)]

/-- The particles (position, mass) as the specification sees them. -/
def particleOf (p : Pos32 × ℚ) : Stats.Particle := ⟨vecOf p.1, p.2, 0⟩

/-- What the theorem needs of a particle: its distance from the halo is not within rounding of the limits, and it is not too close to the point of the cell: the error of the computed distance, at most
`(distance from the halo + 15 grid radii) / 2^21`, is at most a fraction `η` of the distance from the point. -/
structure PotClear (cfg : PotCfg) (c : Pos32) (hr : ℚ) (η : ℝ) (cell : Plane × ℕ) (p : Pos32 × ℚ) : Prop where
  mass : 0 ≤ p.2
  far : AwayFrom cfg.rMaxMult hr (distTo c p.1)
  near : AwayFrom cfg.rMinMult hr (distTo c p.1)
  apart : (distTo c p.1 + 15 * ((hr : ℝ) * cfg.rGridMult)) / 2 ^ 21 ≤ η * toGrid cfg c hr cell p.1

theorem sum_near (l : List (Pos32 × ℚ)) (f : Pos32 × ℚ → ℚ) (g : Pos32 × ℚ → ℝ) (κ : ℝ) (h : ∀ p ∈ l, |(f p : ℝ) - g p| ≤ g p * κ) : |((l.map f).sum : ℝ) - (l.map g).sum| ≤ (l.map g).sum * κ := by
  induction l with
  | nil => simp
  | cons p l ih =>
    have h1 := h p (List.mem_cons_self ..)
    have h2 := ih fun q hq => h q (List.mem_cons_of_mem _ hq)
    rw [List.map_cons, List.map_cons, List.sum_cons, List.sum_cons, Rat.cast_add, add_mul]
    refine le_trans ?_ (add_le_add h1 h2)
    rw [show (f p : ℝ) + ((l.map f).sum : ℚ) - (g p + (l.map g).sum) = (f p - g p) + (((l.map f).sum : ℚ) - (l.map g).sum) by ring]
    exact abs_add_le _ _

theorem scaled_close {E E' Q q κ : ℝ} (hE : 0 ≤ E) (hQ : 0 < Q) (hκ : 0 ≤ κ) (hκ1 : κ ≤ 3 / 4) (h : |E' - E| ≤ E * κ) (hq : |q - Q| ≤ Q * (4 / 2 ^ 24)) : |E' / q - E / Q| ≤ E / Q * (κ + 10 / 2 ^ 24) := by
  obtain ⟨a, b⟩ := abs_le.mp h
  obtain ⟨c, d⟩ := abs_le.mp hq
  have hq0 : Q * (1 - 4 / 2 ^ 24) ≤ q := by linarith
  have hqp : 0 < q := lt_of_lt_of_le (by positivity) hq0
  have e : E / Q * (κ + 10 / 2 ^ 24) = E * (κ + 10 / 2 ^ 24) / Q := by ring
  have x : 0 ≤ E * (3 / 4 - κ) := mul_nonneg hE (by linarith)
  have y := mul_nonneg hE hκ
  rw [abs_le]
  constructor
  · have : E * (1 - (κ + 10 / 2 ^ 24)) / Q ≤ E' / q := by
      rw [div_le_div_iff₀ hQ hqp]
      have s1 : q ≤ Q * (1 + 4 / 2 ^ 24) := by linarith
      have s2 : E * (1 - κ) ≤ E' := by linarith
      have s3 : 0 ≤ E * (1 - κ) := by linarith
      rcases le_or_gt (1 - (κ + 10 / 2 ^ 24)) 0 with hneg | hpos
      · have t1 : E * (1 - (κ + 10 / 2 ^ 24)) ≤ 0 := mul_nonpos_of_nonneg_of_nonpos hE hneg
        nlinarith [mul_nonneg (s3.trans s2) hQ.le]
      · have t2 : E * (1 - (κ + 10 / 2 ^ 24)) * q ≤ E * (1 - (κ + 10 / 2 ^ 24)) * (Q * (1 + 4 / 2 ^ 24)) := mul_le_mul_of_nonneg_left s1 (mul_nonneg hE hpos.le)
        have t3 : E * (1 - κ) * Q ≤ E' * Q := mul_le_mul_of_nonneg_right s2 hQ.le
        have t4 : E * (1 - (κ + 10 / 2 ^ 24)) * (1 + 4 / 2 ^ 24) ≤ E * (1 - κ) := by
          norm_num
          nlinarith
        have t5 := mul_le_mul_of_nonneg_right t4 hQ.le
        nlinarith
    rw [e]
    have e2 : E * (1 - (κ + 10 / 2 ^ 24)) / Q = E / Q - E * (κ + 10 / 2 ^ 24) / Q := by ring
    linarith
  · have : E' / q ≤ E * (1 + (κ + 10 / 2 ^ 24)) / Q := by
      rw [div_le_div_iff₀ hqp hQ]
      have s2 : E' ≤ E * (1 + κ) := by linarith
      have t1 : E' * Q ≤ E * (1 + κ) * Q := mul_le_mul_of_nonneg_right s2 hQ.le
      have t2 : E * (1 + (κ + 10 / 2 ^ 24)) * (Q * (1 - 4 / 2 ^ 24)) ≤ E * (1 + (κ + 10 / 2 ^ 24)) * q := mul_le_mul_of_nonneg_left hq0 (mul_nonneg hE (by positivity))
      have t4 : E * (1 + κ) ≤ E * (1 + (κ + 10 / 2 ^ 24)) * (1 - 4 / 2 ^ 24) := by
        norm_num
        nlinarith
      have t5 := mul_le_mul_of_nonneg_right t4 hQ.le
      nlinarith
    rw [e]
    have e2 : E * (1 + (κ + 10 / 2 ^ 24)) / Q = E / Q + E * (κ + 10 / 2 ^ 24) / Q := by ring
    linarith

open Classical in
/-- C132: every cell of the three maps is a number, and equals the potential (with gravitational constant 1) of the particles between `rMinMult` and `rMaxMult` radii at the point of the cell, in units of `frac * M / R`, up to a relative error of
`2 η + 2^-19`. -/
theorem C132_potential_partial (cfg : PotCfg) (hG : 0 < cfg.rGridMult) (hn : 2 ≤ cfg.ncells) (hM : 0 < cfg.rMaxMult) (hmin : 0 ≤ cfg.rMinMult) (hf : 0 < cfg.frac) (c : Pos32) (hr hm : ℚ) (h0 : 0 < hr) (hm0 : 0 < hm)
    (ps : List (Pos32 × ℚ)) (hlen : ps.length ≤ 2 ^ 30) (η : ℝ) (he : 0 ≤ η) (he4 : η ≤ 1 / 4) (pl : Plane) (i : ℕ) (hi : i < cfg.ncells * cfg.ncells) (hps : ∀ p ∈ ps, PotClear cfg c hr η (pl, i) p) :
    ∃ v : ℚ, potCell64 cfg c hr hm ps (pl, i) = some v ∧
      |(v : ℝ) - Potential.potential ((ps.filter fun p => (cfg.rMinMult : ℝ) * hr ≤ distTo c p.1 ∧ distTo c p.1 ≤ cfg.rMaxMult * hr).map particleOf) (gridPoint cfg c hr (pl, i)) / ((cfg.frac : ℝ) * hm / hr)| ≤
        |Potential.potential ((ps.filter fun p => (cfg.rMinMult : ℝ) * hr ≤ distTo c p.1 ∧ distTo c p.1 ≤ cfg.rMaxMult * hr).map particleOf) (gridPoint cfg c hr (pl, i)) / ((cfg.frac : ℝ) * hm / hr)| * (2 * η + 1 / 2 ^ 19) := by
  have hR := potRadius_close (cfg := cfg) h0 hM
  have hr0 : (0 : ℝ) < hr := by exact_mod_cast h0
  have hG0 : (0 : ℝ) < (hr : ℝ) * cfg.rGridMult := mul_pos hr0 (by exact_mod_cast hG)
  have hpos : ∀ p ∈ ps, 0 < toGrid cfg c hr (pl, i) p.1 := by
    intro p hp
    have h1 := (hps p hp).apart
    have : 0 ≤ distTo c p.1 := Real.sqrt_nonneg _
    by_contra hcon
    have : η * toGrid cfg c hr (pl, i) p.1 ≤ 0 := mul_nonpos_of_nonneg_of_nonpos he (not_lt.mp hcon)
    have : 0 < (distTo c p.1 + 15 * ((hr : ℝ) * cfg.rGridMult)) / 2 ^ 21 := by positivity
    linarith
  have hdist : ∀ p ∈ ps, ∃ dr : ℚ, potDist64 cfg (potRadius cfg hr) (potOffset c p.1) (pl, i) = some dr ∧ (0 : ℝ) < dr ∧ |((p.2 / dr : ℚ) : ℝ) - p.2 / toGrid cfg c hr (pl, i) p.1| ≤ p.2 / toGrid cfg c hr (pl, i) p.1 * (4 / 3 * η) := by
    intro p hp
    obtain ⟨dr, d1, d2⟩ := potDist_close cfg hG hn c p.1 hR pl i hi
    have q := quotient_close (m := p.2) (by exact_mod_cast (hps p hp).mass) (hpos p hp) he he4 (d2.trans (hps p hp).apart)
    refine ⟨dr, d1, q.1, ?_⟩
    rw [Rat.cast_div]
    exact q.2
  have hterm : ∀ p ∈ ps, |(potTerm cfg (potRadius cfg hr) c (pl, i) p : ℝ) - p.2 / toGrid cfg c hr (pl, i) p.1| ≤ p.2 / toGrid cfg c hr (pl, i) p.1 * (2 * η + 1 / 2 ^ 50) ∧ 0 ≤ potTerm cfg (potRadius cfg hr) c (pl, i) p := by
    intro p hp
    obtain ⟨dr, d1, d2, d3⟩ := hdist p hp
    have et : potTerm cfg (potRadius cfg hr) c (pl, i) p = r64 (p.2 / dr) := by
      unfold potTerm
      rw [d1, Option.getD_some]
    have dq : (0 : ℚ) < dr := by exact_mod_cast d2
    rw [et]
    refine ⟨?_, r64_nonneg (div_nonneg (hps p hp).mass dq.le)⟩
    have e1 := r64_errR (p.2 / dr)
    have t0 : 0 ≤ (p.2 : ℝ) / toGrid cfg c hr (pl, i) p.1 := div_nonneg (by exact_mod_cast (hps p hp).mass) (hpos p hp).le
    generalize (p.2 : ℝ) / toGrid cfg c hr (pl, i) p.1 = T at *
    generalize ((p.2 / dr : ℚ) : ℝ) = T' at *
    generalize (r64 (p.2 / dr) : ℝ) = T'' at *
    have b1 : |T'| ≤ 2 * T := by
      obtain ⟨u, v⟩ := abs_le.mp d3
      have : T * (4 / 3 * η) ≤ T * (1 / 3) := mul_le_mul_of_nonneg_left (by linarith) t0
      rw [abs_le]
      constructor <;> linarith
    have b2 := e1.trans (div_le_div_of_nonneg_right b1 (by norm_num))
    have b3 : 0 ≤ T * η := mul_nonneg t0 he
    obtain ⟨u, v⟩ := abs_le.mp d3
    obtain ⟨u', v'⟩ := abs_le.mp b2
    rw [abs_le]
    norm_num at *
    constructor <;> nlinarith
  have hfold := fold_eq cfg (potRadius cfg hr) c (pl, i) ps (fun p hp => by
    obtain ⟨dr, d1, d2, -⟩ := hdist p hp
    refine ⟨dr, d1, fun _ hz => ?_⟩
    rw [hz, Rat.cast_zero] at d2
    exact lt_irrefl _ d2) 0
  rw [neg_zero] at hfold
  have hsel : (ps.filter fun p => potUsed cfg (potRadius cfg hr) (potOffset c p.1)) = ps.filter fun p => (cfg.rMinMult : ℝ) * hr ≤ distTo c p.1 ∧ distTo c p.1 ≤ cfg.rMaxMult * hr := by
    apply List.filter_congr
    intro p hp
    rw [decide_eq_decide]
    exact C132_used cfg hr h0 hM hmin c p.1 (hps p hp).far (hps p hp).near
  rw [hsel] at hfold
  have hsub : ∀ p ∈ ps.filter fun p => (cfg.rMinMult : ℝ) * hr ≤ distTo c p.1 ∧ distTo c p.1 ≤ cfg.rMaxMult * hr, p ∈ ps := fun p hp => List.mem_of_mem_filter hp
  have hlen' : (ps.filter fun p => (cfg.rMinMult : ℝ) * hr ≤ distTo c p.1 ∧ distTo c p.1 ≤ cfg.rMaxMult * hr).length ≤ 2 ^ 30 := (List.length_filter_le _ _).trans hlen
  generalize (ps.filter fun p => (cfg.rMinMult : ℝ) * hr ≤ distTo c p.1 ∧ distTo c p.1 ≤ cfg.rMaxMult * hr) = l at *
  have hpot : Potential.potential (l.map particleOf) (gridPoint cfg c hr (pl, i)) = -(l.map fun p => (p.2 : ℝ) / toGrid cfg c hr (pl, i) p.1).sum := by
    unfold Potential.potential
    rw [List.map_map]
    rfl
  have s1 := sum_near l (potTerm cfg (potRadius cfg hr) c (pl, i)) (fun p => (p.2 : ℝ) / toGrid cfg c hr (pl, i) p.1) _ fun p hp => (hterm p (hsub p hp)).1
  have s2 := sum64_acc (l.map (potTerm cfg (potRadius cfg hr) c (pl, i))) (by
    intro m hm
    obtain ⟨p, hp, rfl⟩ := List.mem_map.mp hm
    exact (hterm p (hsub p hp)).2) 0 0 0 (by simpa using acc_self 0) le_rfl
  have E0 : 0 ≤ (l.map fun p => (p.2 : ℝ) / toGrid cfg c hr (pl, i) p.1).sum := by
    apply List.sum_nonneg
    intro x hx
    obtain ⟨p, hp, rfl⟩ := List.mem_map.mp hx
    exact div_nonneg (by exact_mod_cast (hps p (hsub p hp)).mass) (hpos p (hsub p hp)).le
  rw [zero_add, zero_add, List.length_map] at s2
  have s3 : |((sum64 0 (l.map (potTerm cfg (potRadius cfg hr) c (pl, i))) : ℚ) : ℝ) - ((l.map (potTerm cfg (potRadius cfg hr) c (pl, i))).sum : ℚ)| ≤ ((l.map (potTerm cfg (potRadius cfg hr) c (pl, i))).sum : ℚ) * (1 / 2 ^ 22) := by
    have hS : 0 ≤ (l.map (potTerm cfg (potRadius cfg hr) c (pl, i))).sum := (abs_nonneg _).trans s2.2
    have := s2.1.trans (mul_le_mul_of_nonneg_right (pow53_le hlen') hS)
    rw [mul_comm] at this
    have := (Rat.cast_le (K := ℝ)).mpr this
    push_cast at this ⊢
    exact this
  have hq : Ulp24 4 (r64 (r64 (cfg.frac * hm) / hr) : ℝ) ((cfg.frac : ℝ) * hm / hr) := by
    have a : Ulp24 0 ((cfg.frac * hm : ℚ) : ℝ) ((cfg.frac * hm : ℚ) : ℝ) := ulp_self (by exact_mod_cast mul_pos hf hm0)
    have b := (a.r64 (by norm_num)).div (ulp_self hr0) (by norm_num) (by norm_num)
    rw [← Rat.cast_div] at b
    have d := b.r64 (by norm_num)
    rw [Rat.cast_mul] at d
    exact d
  refine ⟨_, by unfold potCell64; rw [hfold]; rfl, ?_⟩
  rw [hpot]
  generalize (l.map fun p => (p.2 : ℝ) / toGrid cfg c hr (pl, i) p.1).sum = E at *
  have Q0 := hq.1
  have hq2 : |(r64 (r64 (cfg.frac * hm) / hr) : ℝ) - (cfg.frac : ℝ) * hm / hr| ≤ (cfg.frac : ℝ) * hm / hr * (4 / 2 ^ 24) := hq.2
  generalize r64 (r64 (cfg.frac * hm) / hr) = q at *
  generalize (cfg.frac : ℝ) * hm / hr = Q at *
  generalize sum64 0 (l.map (potTerm cfg (potRadius cfg hr) c (pl, i))) = s at *
  have k1 : |(s : ℝ) - E| ≤ E * (2 * η + 1 / 2 ^ 21) := by
    generalize (((l.map (potTerm cfg (potRadius cfg hr) c (pl, i))).sum : ℚ) : ℝ) = S at *
    have x1 : 0 ≤ E * η := mul_nonneg E0 he
    have x2 : E * η ≤ E * (1 / 4) := mul_le_mul_of_nonneg_left he4 E0
    obtain ⟨u, v⟩ := abs_le.mp s1
    obtain ⟨u', v'⟩ := abs_le.mp s3
    rw [abs_le]
    norm_num at *
    constructor <;> nlinarith
  have k2 := scaled_close E0 Q0 (by positivity) (by norm_num; linarith) k1 hq2
  have e1 := r64_errR (-s / q)
  have en : ((-s / q : ℚ) : ℝ) = -((s : ℝ) / q) := by push_cast; ring
  rw [en] at e1
  have ee : -E / Q = -(E / Q) := by ring
  have hEQ : 0 ≤ E / Q := div_nonneg E0 Q0.le
  rw [ee, abs_neg, abs_of_nonneg hEQ]
  rw [abs_neg] at e1
  generalize E / Q = F at *
  generalize (s : ℝ) / q = F' at *
  generalize (r64 (-s / q) : ℝ) = F'' at *
  obtain ⟨u, v⟩ := abs_le.mp k2
  have x1 : 0 ≤ F * η := mul_nonneg hEQ he
  have x2 : F * η ≤ F * (1 / 4) := mul_le_mul_of_nonneg_left he4 hEQ
  have b1 : |F'| ≤ 2 * F := by
    rw [abs_le]
    norm_num at *
    constructor <;> nlinarith
  obtain ⟨u', v'⟩ := abs_le.mp (e1.trans (div_le_div_of_nonneg_right b1 (by norm_num)))
  rw [abs_le]
  norm_num at *
  constructor <;> nlinarith

/-! Examples: a halo at (50, 50, 50) with radius 1, maps of 2 x 2 cells; the first cell of the xy map is the point (51, 51, 50) -/

def potE : PotCfg := ⟨2, 1, 0, 2, 1⟩

def centreE : Pos32 := ⟨50, 50, 50⟩

theorem potE_radius : potRadius potE 1 = 1 := by
  have f1 : Float32 1 := ⟨1, 0, by norm_num, by norm_num⟩
  have f2 : Float32 2 := ⟨2, 0, by norm_num, by norm_num⟩
  have g2 : Float64 2 := ⟨2, 0, by norm_num, by norm_num⟩
  unfold potRadius potE
  rw [show (1 * 2 : ℚ) = 2 by norm_num, r64_float g2, r32_float f2, show (2 / 2 : ℚ) = 1 by norm_num, r32_float f1]

/-- C132: a particle at the point of a cell makes the cell infinite. -/
theorem C132_infinite_false (hm m : ℚ) : toGrid potE centreE 1 (.xy, 0) ⟨51, 51, 50⟩ = 0 ∧ potCell64 potE centreE 1 hm [(⟨51, 51, 50⟩, m)] (.xy, 0) = none := by
  have f0 : r64 0 = 0 := rn_zero 53
  have f1 : r64 1 = 1 := r64_float ⟨1, 0, by norm_num, by norm_num⟩
  have f2 : r64 2 = 2 := r64_float ⟨2, 0, by norm_num, by norm_num⟩
  have g0 : r32 0 = 0 := rn_zero 24
  have g1 : r32 1 = 1 := r32_float ⟨1, 0, by norm_num, by norm_num⟩
  have g4 : r64 4 = 4 := r64_float ⟨4, 0, by norm_num, by norm_num⟩
  have off : potOffset centreE ⟨51, 51, 50⟩ = ⟨1, 1, 0⟩ := by
    unfold potOffset centreE
    norm_num [g0, g1]
  constructor
  · rw [toGrid_eq]
    unfold dist3 seenX potE centreE
    norm_num
  · have hu : potUsed potE 1 (potOffset centreE ⟨51, 51, 50⟩) := by
      rw [off]
      unfold potUsed potSq potLimit potE
      norm_num [f0, f1, f2, g1, g4]
    have hd : potDist64 potE 1 ⟨1, 1, 0⟩ (.xy, 0) = some 0 := by
      unfold potDist64 seen64 gridR64 delta64 potE
      norm_num [f0, f1, f2, norm64, sqrt64]
      exact rnReal_zero
    have hi : potInsert64 potE 1 centreE (.xy, 0) 0 (⟨51, 51, 50⟩, m) = none := by
      unfold potInsert64
      simp only [if_pos hu]
      rw [off, hd]
      simp
    unfold potCell64
    rw [potE_radius, List.foldlM_cons, hi]
    rfl

theorem potE_dist : distTo centreE ⟨51, 50, 50⟩ = 1 ∧ toGrid potE centreE 1 (.xy, 0) ⟨51, 50, 50⟩ = 1 := by
  constructor
  · unfold distTo dist3 centreE
    norm_num
  · rw [toGrid_eq]
    unfold dist3 seenX potE centreE
    norm_num

theorem potE_clear : ∀ p ∈ [((⟨51, 50, 50⟩ : Pos32), (3 : ℚ))], PotClear potE centreE 1 (1 / 2 ^ 17) (.xy, 0) p := by
  intro p hp
  rw [List.mem_singleton.mp hp]
  refine ⟨by norm_num, Or.inr ?_, Or.inl rfl, ?_⟩
  · rw [potE_dist.1]
    unfold potE
    norm_num
  · rw [potE_dist.1, potE_dist.2]
    unfold potE
    norm_num

/-- A particle of mass 3 at distance 1 from the first cell: the value is -3, up to a few parts in 2^17. -/
example : ∃ v : ℚ, potCell64 potE centreE 1 1 [(⟨51, 50, 50⟩, 3)] (.xy, 0) = some v ∧ |(v : ℝ) - -3| ≤ 1 / 2 ^ 13 := by
  classical
  obtain ⟨v, h1, h2⟩ := C132_potential_partial potE (by norm_num [potE]) (by norm_num [potE]) (by norm_num [potE]) (by norm_num [potE]) (by norm_num [potE]) centreE 1 1 (by norm_num) (by norm_num) [(⟨51, 50, 50⟩, 3)] (by norm_num)
    (1 / 2 ^ 17) (by norm_num) (by norm_num) .xy 0 (by norm_num [potE]) potE_clear
  refine ⟨v, h1, ?_⟩
  have hd : Stats.distance (gridPoint potE centreE 1 (.xy, 0)) (vecOf ⟨51, 50, 50⟩) = 1 := potE_dist.2
  have e : Potential.potential (([((⟨51, 50, 50⟩ : Pos32), (3 : ℚ))].filter fun p => (potE.rMinMult : ℝ) * (1 : ℚ) ≤ distTo centreE p.1 ∧ distTo centreE p.1 ≤ potE.rMaxMult * (1 : ℚ)).map particleOf) (gridPoint potE centreE 1 (.xy, 0)) /
      ((potE.frac : ℝ) * (1 : ℚ) / (1 : ℚ)) = -3 := by
    rw [List.filter_cons_of_pos (by rw [decide_eq_true_eq, potE_dist.1]; norm_num [potE]), List.filter_nil]
    unfold Potential.potential
    simp only [List.map_cons, List.map_nil, List.sum_cons, List.sum_nil, particleOf, hd]
    norm_num [potE]
  rw [e] at h2
  refine h2.trans ?_
  norm_num

end Shellfish.Round
