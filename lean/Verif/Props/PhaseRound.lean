/-
C133: the phase mode from positions and velocities, in machine arithmetic.
-/
import Verif.Model.PhaseRound
import Verif.Props.BoundRound

namespace Shellfish.Round
open Finset

/-- A particle with its exact displacement and velocity with respect to the halo. -/
def exactBin (row : PhaseRow) (p : Part32) : BinPoint := ⟨p.x.x - row.c.x, p.x.y - row.c.y, p.x.z - row.c.z, p.m, p.v.x - row.v.x, p.v.y - row.v.y, p.v.z - row.v.z, true⟩

/-- The distance of a particle from the halo. -/
noncomputable def PhaseRow.dist (row : PhaseRow) (p : Part32) : ℝ := len3 (p.x.x - row.c.x) (p.x.y - row.c.y) (p.x.z - row.c.z)

/-- The speed of a particle with respect to the halo. -/
noncomputable def PhaseRow.speed (row : PhaseRow) (p : Part32) : ℝ := len3 (p.v.x - row.v.x) (p.v.y - row.v.y) (p.v.z - row.v.z)

/-- The Hubble constant, if the Hubble flow is to be subtracted. -/
def PhaseCfg.hub (cfg : PhaseCfg) : ℝ := if cfg.subHub then 70 else 0

/-- The velocity of a particle that the mode is about: the radial velocity or the speed, with respect to the halo, and without the Hubble flow if that is asked for. -/
noncomputable def PhaseCfg.velocity (cfg : PhaseCfg) (row : PhaseRow) (p : Part32) : ℝ :=
  if cfg.radial then ((p.v.x - row.v.x : ℝ) * (p.x.x - row.c.x) + (p.v.y - row.v.y) * (p.x.y - row.c.y) + (p.v.z - row.v.z) * (p.x.z - row.c.z)) / row.dist p - cfg.hub * row.dist p
  else len3 (p.v.x - row.v.x - cfg.hub * (p.x.x - row.c.x)) (p.v.y - row.v.y - cfg.hub * (p.x.y - row.c.y)) (p.v.z - row.v.z - cfg.hub * (p.x.z - row.c.z))

theorem exactBin_dist (row : PhaseRow) (p : Part32) : (exactBin row p).dist = row.dist p := by
  unfold BinPoint.dist exactBin PhaseRow.dist len3
  push_cast
  rfl

theorem exactBin_V (cfg : PhaseCfg) (row : PhaseRow) (p : Part32) : (phaseGrid cfg row).exactV (exactBin row p) = cfg.velocity row p := by
  unfold PhaseGrid.exactV PhaseCfg.velocity
  rw [exactBin_dist]
  unfold exactBin phaseGrid PhaseGrid.hub PhaseCfg.hub
  push_cast
  rfl

/-- Rounding displacement and velocity changes the velocity little. -/
theorem exactV_close (g : PhaseGrid) (p q : BinPoint) (h1 : |(q.dx : ℝ) - p.dx| ≤ |(p.dx : ℝ)| / 2 ^ 24) (h2 : |(q.dy : ℝ) - p.dy| ≤ |(p.dy : ℝ)| / 2 ^ 24) (h3 : |(q.dz : ℝ) - p.dz| ≤ |(p.dz : ℝ)| / 2 ^ 24)
    (k1 : |(q.vx : ℝ) - p.vx| ≤ |(p.vx : ℝ)| / 2 ^ 24) (k2 : |(q.vy : ℝ) - p.vy| ≤ |(p.vy : ℝ)| / 2 ^ 24) (k3 : |(q.vz : ℝ) - p.vz| ≤ |(p.vz : ℝ)| / 2 ^ 24) (hp : g.radial = true → 0 < p.dist) :
    |g.exactV q - g.exactV p| ≤ (len3 p.vx p.vy p.vz + g.hub * p.dist) / 2 ^ 20 ∧ |q.dist - p.dist| ≤ p.dist / 2 ^ 24 ∧ |len3 q.vx q.vy q.vz - len3 p.vx p.vy p.vz| ≤ len3 p.vx p.vy p.vz / 2 ^ 24 := by
  have small : ∀ x y z : ℝ, len3 (|x| / 2 ^ 24) (|y| / 2 ^ 24) (|z| / 2 ^ 24) = len3 x y z / 2 ^ 24 := by
    intro x y z
    rw [show |x| / 2 ^ 24 = 1 / 2 ^ 24 * |x| by ring, show |y| / 2 ^ 24 = 1 / 2 ^ 24 * |y| by ring, show |z| / 2 ^ 24 = 1 / 2 ^ 24 * |z| by ring, len3_smul (by norm_num), len3_abs]
    ring
  have hd : |q.dist - p.dist| ≤ p.dist / 2 ^ 24 := by
    have := len3_close h1 h2 h3
    rw [small] at this
    exact this
  have hv := len3_close k1 k2 k3
  rw [small] at hv
  refine ⟨?_, hd, hv⟩
  have hub0 : 0 ≤ g.hub := by unfold PhaseGrid.hub; split <;> norm_num
  have W0 := len3_nonneg p.vx p.vy p.vz
  have D0 : 0 ≤ p.dist := len3_nonneg p.dx p.dy p.dz
  unfold PhaseGrid.exactV
  cases hrad : g.radial with
  | false =>
    simp only [Bool.false_eq_true, if_false]
    have key : ∀ a b a' b' : ℝ, |a' - a| ≤ |a| / 2 ^ 24 → |b' - b| ≤ |b| / 2 ^ 24 → |(a' - g.hub * b') - (a - g.hub * b)| ≤ |a| / 2 ^ 24 + g.hub * |b| / 2 ^ 24 := by
      intro a b a' b' x y
      rw [show (a' - g.hub * b') - (a - g.hub * b) = (a' - a) - g.hub * (b' - b) by ring]
      refine (abs_sub _ _).trans (add_le_add x ?_)
      rw [abs_mul, abs_of_nonneg hub0, mul_div_assoc]
      exact mul_le_mul_of_nonneg_left y hub0
    have c := len3_close (key _ _ _ _ k1 h1) (key _ _ _ _ k2 h2) (key _ _ _ _ k3 h3)
    have d := c.trans (len3_add _ _ _ _ _ _)
    rw [small] at d
    have e : len3 (g.hub * |(p.dx : ℝ)| / 2 ^ 24) (g.hub * |(p.dy : ℝ)| / 2 ^ 24) (g.hub * |(p.dz : ℝ)| / 2 ^ 24) = g.hub * (p.dist / 2 ^ 24) := by
      rw [mul_div_assoc, mul_div_assoc, mul_div_assoc, len3_smul hub0, small]
      rfl
    rw [e] at d
    refine d.trans ?_
    have := mul_nonneg hub0 D0
    norm_num
    linarith
  | true =>
    replace hp := hp hrad
    simp only [if_true]
    have cs := len3_cs p.vx p.vy p.vz p.dx p.dy p.dz
    have eD : len3 p.dx p.dy p.dz = p.dist := rfl
    rw [eD] at cs
    have key : ∀ a b a' b' : ℝ, |a' - a| ≤ |a| / 2 ^ 24 → |b' - b| ≤ |b| / 2 ^ 24 → |a' * b' - a * b| ≤ |a| * |b| * (3 / 2 ^ 24) := by
      intro a b a' b' x y
      rw [show a' * b' - a * b = (a' - a) * (b' - b) + (a' - a) * b + a * (b' - b) by ring]
      have t1 : |(a' - a) * (b' - b)| ≤ |a| / 2 ^ 24 * (|b| / 2 ^ 24) := by rw [abs_mul]; exact mul_le_mul x y (abs_nonneg _) (by positivity)
      have t2 : |(a' - a) * b| ≤ |a| / 2 ^ 24 * |b| := by rw [abs_mul]; exact mul_le_mul_of_nonneg_right x (abs_nonneg _)
      have t3 : |a * (b' - b)| ≤ |a| * (|b| / 2 ^ 24) := by rw [abs_mul]; exact mul_le_mul_of_nonneg_left y (abs_nonneg _)
      have t4 := abs_add_le ((a' - a) * (b' - b) + (a' - a) * b) (a * (b' - b))
      have t5 := abs_add_le ((a' - a) * (b' - b)) ((a' - a) * b)
      have t6 := mul_nonneg (abs_nonneg a) (abs_nonneg b)
      norm_num at *
      nlinarith
    have n1 := key _ _ _ _ k1 h1
    have n2 := key _ _ _ _ k2 h2
    have n3 := key _ _ _ _ k3 h3
    have hN : |((q.vx : ℝ) * q.dx + q.vy * q.dy + q.vz * q.dz) - ((p.vx : ℝ) * p.dx + p.vy * p.dy + p.vz * p.dz)| ≤ len3 p.vx p.vy p.vz * p.dist * (3 / 2 ^ 24) := by
      have t1 := abs_add_le (((q.vx : ℝ) * q.dx - p.vx * p.dx) + ((q.vy : ℝ) * q.dy - p.vy * p.dy)) ((q.vz : ℝ) * q.dz - p.vz * p.dz)
      have t2 := abs_add_le ((q.vx : ℝ) * q.dx - p.vx * p.dx) ((q.vy : ℝ) * q.dy - p.vy * p.dy)
      rw [show ((q.vx : ℝ) * q.dx + q.vy * q.dy + q.vz * q.dz) - ((p.vx : ℝ) * p.dx + p.vy * p.dy + p.vz * p.dz) = (((q.vx : ℝ) * q.dx - p.vx * p.dx) + ((q.vy : ℝ) * q.dy - p.vy * p.dy)) + ((q.vz : ℝ) * q.dz - p.vz * p.dz) by ring]
      have := mul_le_mul_of_nonneg_right cs (by norm_num : (0 : ℝ) ≤ 3 / 2 ^ 24)
      linarith
    have hN0 : |(p.vx : ℝ) * p.dx + p.vy * p.dy + p.vz * p.dz| ≤ len3 p.vx p.vy p.vz * p.dist := by
      refine le_trans ?_ cs
      refine (abs_add_le _ _).trans (add_le_add ((abs_add_le _ _).trans (add_le_add ?_ ?_)) ?_) <;> rw [abs_mul]
    generalize (q.vx : ℝ) * q.dx + q.vy * q.dy + q.vz * q.dz = N' at *
    generalize (p.vx : ℝ) * p.dx + p.vy * p.dy + p.vz * p.dz = N at *
    generalize len3 p.vx p.vy p.vz = W at *
    generalize p.dist = D at *
    generalize q.dist = D' at *
    obtain ⟨d1, d2⟩ := abs_le.mp hd
    have hD' : D / 2 ≤ D' := by norm_num at d1; linarith
    have hp' : 0 < D' := by linarith
    have e : N' / D' - N / D = ((N' - N) * D - N * (D' - D)) / (D' * D) := by field_simp; ring
    have b : |N' / D' - N / D| ≤ W * (8 / 2 ^ 24) := by
      rw [e, abs_div, abs_of_pos (mul_pos hp' hp), div_le_iff₀ (mul_pos hp' hp)]
      have u1 : |(N' - N) * D| ≤ W * D * (3 / 2 ^ 24) * D := by rw [abs_mul, abs_of_pos hp]; exact mul_le_mul_of_nonneg_right hN hp.le
      have u2 : |N * (D' - D)| ≤ W * D * (D / 2 ^ 24) := by rw [abs_mul]; exact mul_le_mul hN0 hd (abs_nonneg _) (mul_nonneg W0 hp.le)
      have u3 := abs_sub ((N' - N) * D) (N * (D' - D))
      have u4 : W * (D * (D / 2)) ≤ W * (D * D') := mul_le_mul_of_nonneg_left (mul_le_mul_of_nonneg_left hD' hp.le) W0
      norm_num at *
      nlinarith
    have b2 : |g.hub * D' - g.hub * D| ≤ g.hub * (D / 2 ^ 24) := by
      rw [← mul_sub, abs_mul, abs_of_nonneg hub0]
      exact mul_le_mul_of_nonneg_left hd hub0
    rw [show N' / D' - g.hub * D' - (N / D - g.hub * D) = (N' / D' - N / D) - (g.hub * D' - g.hub * D) by ring]
    refine (abs_sub _ _).trans ((add_le_add b b2).trans ?_)
    have := mul_nonneg hub0 hp.le
    norm_num
    linarith

theorem filter_map_mass' (f : Part32 → BinPoint) (hf : ∀ p, (f p).m = p.m) (cell : BinPoint → Option (ℕ × ℕ)) (c : ℕ × ℕ) (ps : List Part32) :
    ((ps.map f).filter fun q => cell q = some c).map (·.m) = (ps.filter fun p => cell (f p) = some c).map (·.m) := by
  induction ps with
  | nil => rfl
  | cons p ps ih =>
    rw [List.map_cons, List.filter_cons, List.filter_cons]
    by_cases h : cell (f p) = some c
    · simp only [h, decide_true, if_true, List.map_cons, ih, hf]
    · simp only [h, decide_false, Bool.false_eq_true, if_false, ih]

/-- The lowest velocity of the grid. -/
noncomputable def PhaseCfg.vLow (cfg : PhaseCfg) (row : PhaseRow) : ℝ := if cfg.radial then -((row.vr : ℝ) * cfg.vMaxMult) else 0

/-- The width of a velocity bin. -/
noncomputable def PhaseCfg.vWidth (cfg : PhaseCfg) (row : PhaseRow) : ℝ := ((row.vr : ℝ) * cfg.vMaxMult - cfg.vLow row) / cfg.vbins

/-- The tolerance of the velocities: 2^-18 of the speed, of the Hubble flow and of the largest velocity. -/
noncomputable def PhaseCfg.vTol (cfg : PhaseCfg) (row : PhaseRow) (p : Part32) : ℝ := (row.speed p + cfg.hub * row.dist p + (row.vr : ℝ) * cfg.vMaxMult) / 2 ^ 18

theorem vedge_close {V V' β t : ℝ} (hV : 0 < V) (h : |V' - V| ≤ V * (3 / 2 ^ 24)) (hb : β = 0 ∨ β = 1) (t0 : -1 ≤ t) (t1 : t ≤ 1) :
    |(-(β * V') + t * ((1 + β) * V') * (1 + 1 / 2 ^ 48)) - (-(β * V) + t * ((1 + β) * V))| ≤ V / 2 ^ 19 ∧ |(-(β * V') + t * ((1 + β) * V') * (1 - 1 / 2 ^ 48)) - (-(β * V) + t * ((1 + β) * V))| ≤ V / 2 ^ 19 := by
  obtain ⟨a, b⟩ := abs_le.mp h
  have hV' : 0 ≤ V' := by norm_num at a; linarith
  have s1 : |t * (V' - V)| ≤ V * (3 / 2 ^ 24) := by
    rw [abs_mul]
    have : |t| ≤ 1 := abs_le.mpr ⟨t0, t1⟩
    exact (mul_le_mul this h (abs_nonneg _) (by norm_num)).trans (by rw [one_mul])
  have s2 : |t * V'| ≤ 2 * V := by
    rw [abs_mul, abs_of_nonneg hV']
    have : |t| ≤ 1 := abs_le.mpr ⟨t0, t1⟩
    have h2 : V' ≤ 2 * V := by norm_num at b; linarith
    calc |t| * V' ≤ 1 * V' := mul_le_mul_of_nonneg_right this hV'
      _ ≤ _ := by linarith
  obtain ⟨u, v⟩ := abs_le.mp s1
  obtain ⟨x, y⟩ := abs_le.mp s2
  rcases hb with rfl | rfl
  · have e1 : (-(0 * V') + t * ((1 + 0) * V') * (1 + 1 / 2 ^ 48)) - (-(0 * V) + t * ((1 + 0) * V)) = t * (V' - V) + t * V' / 2 ^ 48 := by ring
    have e2 : (-(0 * V') + t * ((1 + 0) * V') * (1 - 1 / 2 ^ 48)) - (-(0 * V) + t * ((1 + 0) * V)) = t * (V' - V) - t * V' / 2 ^ 48 := by ring
    rw [e1, e2, abs_le, abs_le]
    norm_num at *
    refine ⟨⟨?_, ?_⟩, ?_, ?_⟩ <;> linarith
  · have e1 : (-(1 * V') + t * ((1 + 1) * V') * (1 + 1 / 2 ^ 48)) - (-(1 * V) + t * ((1 + 1) * V)) = -(V' - V) + 2 * (t * (V' - V)) + 2 * (t * V') / 2 ^ 48 := by ring
    have e2 : (-(1 * V') + t * ((1 + 1) * V') * (1 - 1 / 2 ^ 48)) - (-(1 * V) + t * ((1 + 1) * V)) = -(V' - V) + 2 * (t * (V' - V)) - 2 * (t * V') / 2 ^ 48 := by ring
    rw [e1, e2, abs_le, abs_le]
    norm_num at *
    refine ⟨⟨?_, ?_⟩, ?_, ?_⟩ <;> linarith

/-- C133: the phase mode as a whole.  No particle makes the program panic.  Each cell of the grid holds the sum of the masses of its particles; a particle in a cell has a distance between the edges of the radial bin (up to one part in 2^20) and a
velocity between the edges of the velocity bin (up to `vTol`), where the first velocity bin reaches one bin too low; a particle in no cell is outside of the grid, or at the centre of the halo, where it has no radial velocity. -/
theorem C133_phase_partial (cfg : PhaseCfg) (tw : ℚ) (ft : Float32 tw) (row : PhaseRow) (hr : 0 < row.r * cfg.rMaxMult) (hv : 0 < row.vr * cfg.vMaxMult) (hn : 0 < cfg.rbins ∧ cfg.rbins ≤ 2 ^ 40) (hk : 0 < cfg.vbins ∧ cfg.vbins ≤ 2 ^ 40)
    (rhos : List ℚ) (hl : rhos.length = cfg.rbins * cfg.vbins) (ps : List Part32) (hb : ∀ p ∈ ps, SameBox tw row.c p.x) :
    ∃ (out : List ℚ) (cell : Part32 → Option (ℕ × ℕ)), insertPhase64 cfg tw row rhos ps = some out ∧ out.length = cfg.rbins * cfg.vbins ∧
      (∀ i < cfg.rbins, ∀ j < cfg.vbins, out.getD (i * cfg.vbins + j) 0 = sum64 (rhos.getD (i * cfg.vbins + j) 0) ((ps.filter fun p => cell p = some (i, j)).map (·.m))) ∧
      (∀ p ∈ ps, ∀ i j, cell p = some (i, j) → i < cfg.rbins ∧ j < cfg.vbins ∧
        i * ((row.r : ℝ) * cfg.rMaxMult / cfg.rbins) * (1 - 1 / 2 ^ 20) ≤ row.dist p ∧ row.dist p ≤ (i + 1) * ((row.r : ℝ) * cfg.rMaxMult / cfg.rbins) * (1 + 1 / 2 ^ 20) ∧
        (cfg.radial = true → row.dist p ≠ 0) ∧ (if j = 0 then cfg.vLow row - cfg.vWidth row else cfg.vLow row + j * cfg.vWidth row) - cfg.vTol row p ≤ cfg.velocity row p ∧ cfg.velocity row p ≤ cfg.vLow row + (j + 1) * cfg.vWidth row + cfg.vTol row p) ∧
      (∀ p ∈ ps, cell p = none → (cfg.radial = true ∧ row.dist p = 0) ∨ (row.r : ℝ) * cfg.rMaxMult * (1 - 1 / 2 ^ 20) ≤ row.dist p ∨ (row.vr : ℝ) * cfg.vMaxMult - cfg.vTol row p ≤ cfg.velocity row p ∨ cfg.velocity row p ≤ cfg.vLow row - cfg.vWidth row + cfg.vTol row p) := by
  have uR : Ulp24 3 (r32 (r64 (row.r * cfg.rMaxMult)) : ℝ) ((row.r * cfg.rMaxMult : ℚ) : ℝ) := ((ulp_self (by exact_mod_cast hr)).r64 (by norm_num)).r32 (by norm_num)
  have uV : Ulp24 3 (r32 (r64 (row.vr * cfg.vMaxMult)) : ℝ) ((row.vr * cfg.vMaxMult : ℚ) : ℝ) := ((ulp_self (by exact_mod_cast hv)).r64 (by norm_num)).r32 (by norm_num)
  have hok : (phaseGrid cfg row).Ok := ⟨by exact_mod_cast uR.pos (by norm_num), by exact_mod_cast uV.pos (by norm_num), hn.1, hk.1, hn.2, hk.2⟩
  obtain ⟨out, cell, h1, h2, h3, h4, h5⟩ := C125_phase (phaseGrid cfg row) hok rhos hl (ps.map (toPhase tw row))
  have hub0 : 0 ≤ cfg.hub := by unfold PhaseCfg.hub; split <;> norm_num
  have hfacts : ∀ p ∈ ps, 0 ≤ row.dist p ∧ |(toPhase tw row p).dist - row.dist p| ≤ row.dist p / 2 ^ 24 ∧ (velocity64 (phaseGrid cfg row) (toPhase tw row p) = none → cfg.radial = true ∧ row.dist p = 0) ∧
      ∀ v : ℚ, velocity64 (phaseGrid cfg row) (toPhase tw row p) = some v → |(v : ℝ) - cfg.velocity row p| ≤ (row.speed p + cfg.hub * row.dist p) / 2 ^ 18 := by
    intro p hp
    obtain ⟨b1, b2, b3⟩ := hb p hp
    have D0 : 0 ≤ row.dist p := len3_nonneg _ _ _
    have et : toPhase tw row p = ⟨r32 (p.x.x - row.c.x), r32 (p.x.y - row.c.y), r32 (p.x.z - row.c.z), p.m, r32 (p.v.x - row.v.x), r32 (p.v.y - row.v.y), r32 (p.v.z - row.v.z), true⟩ := by
      unfold toPhase offset32
      rw [disp32_same ft b1, disp32_same ft b2, disp32_same ft b3]
    have c := exactV_close (phaseGrid cfg row) (exactBin row p) (toPhase tw row p) (by rw [et]; exact r32_errR _) (by rw [et]; exact r32_errR _) (by rw [et]; exact r32_errR _) (by rw [et]; exact r32_errR _) (by rw [et]; exact r32_errR _)
      (by rw [et]; exact r32_errR _)
    have es : len3 (exactBin row p).vx (exactBin row p).vy (exactBin row p).vz = row.speed p := by
      unfold exactBin PhaseRow.speed
      push_cast
      rfl
    have eh : (phaseGrid cfg row).hub = cfg.hub := rfl
    have ed : |(toPhase tw row p).dist - row.dist p| ≤ row.dist p / 2 ^ 24 := by
      have h1 : |(r32 (p.x.x - row.c.x) : ℝ) - ((p.x.x - row.c.x : ℚ) : ℝ)| ≤ |((p.x.x - row.c.x : ℚ) : ℝ)| / 2 ^ 24 := r32_errR _
      have h2 : |(r32 (p.x.y - row.c.y) : ℝ) - ((p.x.y - row.c.y : ℚ) : ℝ)| ≤ |((p.x.y - row.c.y : ℚ) : ℝ)| / 2 ^ 24 := r32_errR _
      have h3 : |(r32 (p.x.z - row.c.z) : ℝ) - ((p.x.z - row.c.z : ℚ) : ℝ)| ≤ |((p.x.z - row.c.z : ℚ) : ℝ)| / 2 ^ 24 := r32_errR _
      have := len3_close h1 h2 h3
      have small : ∀ x y z : ℝ, len3 (|x| / 2 ^ 24) (|y| / 2 ^ 24) (|z| / 2 ^ 24) = len3 x y z / 2 ^ 24 := by
        intro x y z
        rw [show |x| / 2 ^ 24 = 1 / 2 ^ 24 * |x| by ring, show |y| / 2 ^ 24 = 1 / 2 ^ 24 * |y| by ring, show |z| / 2 ^ 24 = 1 / 2 ^ 24 * |z| by ring, len3_smul (by norm_num), len3_abs]
        ring
      rw [small] at this
      rw [et]
      unfold PhaseRow.dist
      push_cast at this
      exact this
    rw [exactBin_V, exactBin_dist, es, eh] at c
    have sp := C125_speed (phaseGrid cfg row) (toPhase tw row p)
    have hz : (toPhase tw row p).dist = 0 → row.dist p = 0 := by
      intro this
      rw [this] at ed
      obtain ⟨u, -⟩ := abs_le.mp ed
      norm_num at u
      linarith
    have hz' : row.dist p = 0 → (toPhase tw row p).dist = 0 := by
      intro this
      rw [this, sub_zero, zero_div] at ed
      exact abs_nonpos_iff.mp ed
    refine ⟨D0, ed, fun hc => ⟨(sp.1.mp hc).1, hz (sp.1.mp hc).2⟩, ?_⟩
    intro v hv'
    obtain ⟨c1, c2, c3⟩ := c (by
      intro hrad
      refine lt_of_le_of_ne D0 fun h0 => ?_
      rw [sp.1.mpr ⟨hrad, hz' h0.symm⟩] at hv'
      cases hv')
    have s1 := sp.2 v hv'
    rw [eh] at s1
    have S0 : 0 ≤ row.speed p := len3_nonneg _ _ _
    clear hz hz' sp ed
    generalize len3 (toPhase tw row p).vx (toPhase tw row p).vy (toPhase tw row p).vz = S' at *
    generalize (toPhase tw row p).dist = D' at *
    generalize row.dist p = D at *
    generalize row.speed p = S at *
    generalize cfg.velocity row p = V at *
    generalize (phaseGrid cfg row).exactV (toPhase tw row p) = V' at *
    generalize cfg.hub = H at *
    generalize (v : ℝ) = v' at *
    obtain ⟨a1, a2⟩ := abs_le.mp c1
    obtain ⟨a3, a4⟩ := abs_le.mp c2
    obtain ⟨a5, a6⟩ := abs_le.mp c3
    obtain ⟨a7, a8⟩ := abs_le.mp s1
    have x1 : H * D' ≤ H * (D * (1 + 1 / 2 ^ 24)) := mul_le_mul_of_nonneg_left (by linarith) hub0
    have x2 := mul_nonneg hub0 D0
    rw [abs_le]
    norm_num at *
    constructor <;> linarith
  -- the edges of the velocity bins
  obtain ⟨β, hβ, hlow, hlow'⟩ : ∃ β : ℝ, (β = 0 ∨ β = 1) ∧ cfg.vLow row = -(β * ((row.vr : ℝ) * cfg.vMaxMult)) ∧ ((phaseGrid cfg row).vMin : ℝ) = -(β * (r32 (r64 (row.vr * cfg.vMaxMult)) : ℝ)) := by
    unfold PhaseCfg.vLow PhaseGrid.vMin phaseGrid
    cases cfg.radial with
    | false => exact ⟨0, Or.inl rfl, by simp, by simp⟩
    | true => exact ⟨1, Or.inr rfl, by simp, by simp⟩
  have hkk : (0 : ℝ) < cfg.vbins := by exact_mod_cast hk.1
  have eW : cfg.vWidth row = (1 + β) * ((row.vr : ℝ) * cfg.vMaxMult) / cfg.vbins := by
    unfold PhaseCfg.vWidth
    rw [hlow]
    ring
  have eW' : (((phaseGrid cfg row).vMax : ℝ) - (phaseGrid cfg row).vMin) = (1 + β) * (r32 (r64 (row.vr * cfg.vMaxMult)) : ℝ) := by
    rw [hlow']
    unfold phaseGrid
    ring
  have neg1 : -1 ≤ -(1 / (cfg.vbins : ℝ)) := by
    rw [neg_le_neg_iff, div_le_one hkk]
    exact_mod_cast hk.1
  have neg2 : -(1 / (cfg.vbins : ℝ)) ≤ 1 := by
    have : 0 < 1 / (cfg.vbins : ℝ) := by positivity
    linarith
  have eb : (phaseGrid cfg row).vbins = cfg.vbins := rfl
  have er : (phaseGrid cfg row).rbins = cfg.rbins := rfl
  have eR : ((phaseGrid cfg row).rMax : ℝ) = r32 (r64 (row.r * cfg.rMaxMult)) := rfl
  have uV2 := uV.2
  have V0 := uV.1
  have uR2 := uR.2
  have R0 := uR.1
  rw [Rat.cast_mul] at uV2 V0 uR2 R0
  rw [Nat.cast_ofNat] at uV2 uR2
  refine ⟨out, fun p => cell (toPhase tw row p), h1, h2, ?_, ?_, ?_⟩
  · intro i hi j hj
    have := h3 i hi j hj
    rw [filter_map_mass' (toPhase tw row) (fun p => rfl)] at this
    exact this
  · intro p hp i j hc
    obtain ⟨a1, a2, a3, a4, v, a5, a6, a7⟩ := h4 _ (List.mem_map_of_mem hp) i j hc
    obtain ⟨hD, hd, hnone, hsome⟩ := hfacts p hp
    have hvv := hsome v a5
    rw [eW', eb, hlow'] at a6 a7
    rw [eR, er] at a3 a4
    refine ⟨a1, a2, ?_, ?_, ?_, ?_, ?_⟩
    · obtain ⟨x, y⟩ := abs_le.mp uR2
      obtain ⟨z, w⟩ := abs_le.mp hd
      have i0 : (0 : ℝ) ≤ i / cfg.rbins := by positivity
      have m := mul_le_mul_of_nonneg_left (by linarith : (row.r : ℝ) * cfg.rMaxMult * (1 - 3 / 2 ^ 24) ≤ (r32 (r64 (row.r * cfg.rMaxMult)) : ℝ)) i0
      have q0 := mul_nonneg i0 R0.le
      rw [show (i : ℝ) * ((r32 (r64 (row.r * cfg.rMaxMult)) : ℝ) / cfg.rbins) = i / cfg.rbins * (r32 (r64 (row.r * cfg.rMaxMult)) : ℝ) by ring] at a3
      rw [show (i : ℝ) * ((row.r : ℝ) * cfg.rMaxMult / cfg.rbins) = i / cfg.rbins * ((row.r : ℝ) * cfg.rMaxMult) by ring]
      rw [← mul_assoc] at m
      generalize (i : ℝ) / cfg.rbins * ((row.r : ℝ) * cfg.rMaxMult) = A at *
      generalize (i : ℝ) / cfg.rbins * (r32 (r64 (row.r * cfg.rMaxMult)) : ℝ) = B at *
      generalize (toPhase tw row p).dist = D' at *
      generalize row.dist p = D at *
      clear h4 h5 h3 hfacts
      norm_num at a3 m z w ⊢
      linarith
    · obtain ⟨x, y⟩ := abs_le.mp uR2
      obtain ⟨z, w⟩ := abs_le.mp hd
      have i0 : (0 : ℝ) ≤ (i + 1) / cfg.rbins := by positivity
      have m := mul_le_mul_of_nonneg_left (by linarith : (r32 (r64 (row.r * cfg.rMaxMult)) : ℝ) ≤ (row.r : ℝ) * cfg.rMaxMult * (1 + 3 / 2 ^ 24)) i0
      have q0 := mul_nonneg i0 R0.le
      rw [show ((i : ℝ) + 1) * ((r32 (r64 (row.r * cfg.rMaxMult)) : ℝ) / cfg.rbins) = (i + 1) / cfg.rbins * (r32 (r64 (row.r * cfg.rMaxMult)) : ℝ) by ring] at a4
      rw [show ((i : ℝ) + 1) * ((row.r : ℝ) * cfg.rMaxMult / cfg.rbins) = (i + 1) / cfg.rbins * ((row.r : ℝ) * cfg.rMaxMult) by ring]
      rw [← mul_assoc] at m
      generalize ((i : ℝ) + 1) / cfg.rbins * ((row.r : ℝ) * cfg.rMaxMult) = A at *
      generalize ((i : ℝ) + 1) / cfg.rbins * (r32 (r64 (row.r * cfg.rMaxMult)) : ℝ) = B at *
      generalize (toPhase tw row p).dist = D' at *
      generalize row.dist p = D at *
      clear h4 h5 h3 hfacts
      norm_num at a4 m z w ⊢
      linarith
    · intro hrad h0
      have ed0 : (toPhase tw row p).dist = 0 := by
        rw [h0, sub_zero, zero_div] at hd
        exact abs_nonpos_iff.mp hd
      rw [(C125_speed (phaseGrid cfg row) (toPhase tw row p)).1.mpr ⟨hrad, ed0⟩] at a5
      cases a5
    · obtain ⟨x, y⟩ := abs_le.mp hvv
      have S0 : 0 ≤ row.speed p := len3_nonneg _ _ _
      unfold PhaseCfg.vTol
      rw [hlow, eW]
      by_cases hj : j = 0
      · rw [if_pos hj] at a7 ⊢
        have ec := (vedge_close V0 uV2 hβ (t := -(1 / (cfg.vbins : ℝ))) neg1 neg2).1
        obtain ⟨z, w⟩ := abs_le.mp ec
        have e1 : -((1 + β) * (r32 (r64 (row.vr * cfg.vMaxMult)) : ℝ) / cfg.vbins) * (1 + 1 / 2 ^ 48) = -(1 / (cfg.vbins : ℝ)) * ((1 + β) * (r32 (r64 (row.vr * cfg.vMaxMult)) : ℝ)) * (1 + 1 / 2 ^ 48) := by ring
        have e2 : -((1 + β) * ((row.vr : ℝ) * cfg.vMaxMult) / cfg.vbins) = -(1 / (cfg.vbins : ℝ)) * ((1 + β) * ((row.vr : ℝ) * cfg.vMaxMult)) := by ring
        rw [sub_eq_add_neg (-(β * ((row.vr : ℝ) * cfg.vMaxMult))), e2]
        rw [e1] at a7
        linarith
      · rw [if_neg hj] at a7 ⊢
        have jl : (j : ℝ) / cfg.vbins ≤ 1 := by rw [div_le_one hkk]; exact_mod_cast a2.le
        have j0 : 0 ≤ (j : ℝ) / cfg.vbins := by positivity
        obtain ⟨z, w⟩ := abs_le.mp (vedge_close V0 uV2 hβ (t := (j : ℝ) / cfg.vbins) (by linarith) jl).2
        have e1 : (j : ℝ) * ((1 + β) * (r32 (r64 (row.vr * cfg.vMaxMult)) : ℝ) / cfg.vbins) * (1 - 1 / 2 ^ 48) = (j : ℝ) / cfg.vbins * ((1 + β) * (r32 (r64 (row.vr * cfg.vMaxMult)) : ℝ)) * (1 - 1 / 2 ^ 48) := by ring
        have e2 : (j : ℝ) * ((1 + β) * ((row.vr : ℝ) * cfg.vMaxMult) / cfg.vbins) = (j : ℝ) / cfg.vbins * ((1 + β) * ((row.vr : ℝ) * cfg.vMaxMult)) := by ring
        rw [e2]
        rw [e1] at a7
        linarith
    · obtain ⟨x, y⟩ := abs_le.mp hvv
      unfold PhaseCfg.vTol
      rw [hlow, eW]
      have jl : ((j : ℝ) + 1) / cfg.vbins ≤ 1 := by rw [div_le_one hkk]; exact_mod_cast a2
      have j0 : 0 ≤ ((j : ℝ) + 1) / cfg.vbins := by positivity
      obtain ⟨z, w⟩ := abs_le.mp (vedge_close V0 uV2 hβ (t := ((j : ℝ) + 1) / cfg.vbins) (by linarith) jl).1
      have e1 : ((j : ℝ) + 1) * ((1 + β) * (r32 (r64 (row.vr * cfg.vMaxMult)) : ℝ) / cfg.vbins) * (1 + 1 / 2 ^ 48) = ((j : ℝ) + 1) / cfg.vbins * ((1 + β) * (r32 (r64 (row.vr * cfg.vMaxMult)) : ℝ)) * (1 + 1 / 2 ^ 48) := by ring
      have e2 : ((j : ℝ) + 1) * ((1 + β) * ((row.vr : ℝ) * cfg.vMaxMult) / cfg.vbins) = ((j : ℝ) + 1) / cfg.vbins * ((1 + β) * ((row.vr : ℝ) * cfg.vMaxMult)) := by ring
      rw [e2]
      rw [e1] at a6
      linarith
  · intro p hp hc
    obtain ⟨hD, hd, hnone, hsome⟩ := hfacts p hp
    have S0 : 0 ≤ row.speed p := len3_nonneg _ _ _
    have H0 := mul_nonneg hub0 hD
    rcases h5 _ (List.mem_map_of_mem hp) hc with g | g | ⟨v, g, g'⟩
    · right
      left
      rw [eR] at g
      obtain ⟨x, y⟩ := abs_le.mp uR2
      obtain ⟨z, w⟩ := abs_le.mp hd
      generalize (r32 (r64 (row.r * cfg.rMaxMult)) : ℝ) = B at *
      generalize (row.r : ℝ) * cfg.rMaxMult = A at *
      generalize (toPhase tw row p).dist = D' at *
      generalize row.dist p = D at *
      clear h4 h5 h3 hfacts
      norm_num at g x y z w ⊢
      linarith
    · exact Or.inl (hnone g)
    · right
      right
      obtain ⟨x, y⟩ := abs_le.mp (hsome v g)
      rw [eW', eb, hlow'] at g'
      unfold PhaseCfg.vTol
      rw [hlow, eW]
      rcases g' with g' | g'
      · left
        obtain ⟨z, w⟩ := abs_le.mp (vedge_close V0 uV2 hβ (t := 1) (by norm_num) le_rfl).2
        have e2 : (row.vr : ℝ) * cfg.vMaxMult = -(β * ((row.vr : ℝ) * cfg.vMaxMult)) + 1 * ((1 + β) * ((row.vr : ℝ) * cfg.vMaxMult)) := by ring
        rw [one_mul] at z w
        rw [one_mul] at e2
        linarith
      · right
        obtain ⟨z, w⟩ := abs_le.mp (vedge_close V0 uV2 hβ (t := -(1 / (cfg.vbins : ℝ))) neg1 neg2).2
        have e1 : -((1 + β) * (r32 (r64 (row.vr * cfg.vMaxMult)) : ℝ) / cfg.vbins) * (1 - 1 / 2 ^ 48) = -(1 / (cfg.vbins : ℝ)) * ((1 + β) * (r32 (r64 (row.vr * cfg.vMaxMult)) : ℝ)) * (1 - 1 / 2 ^ 48) := by ring
        have e2 : -((1 + β) * ((row.vr : ℝ) * cfg.vMaxMult) / cfg.vbins) = -(1 / (cfg.vbins : ℝ)) * ((1 + β) * ((row.vr : ℝ) * cfg.vMaxMult)) := by ring
        rw [sub_eq_add_neg (-(β * ((row.vr : ℝ) * cfg.vMaxMult))), e2]
        rw [e1] at g'
        linarith

/-- A halo at rest and a particle one Mpc/h away from it with the velocity `u` away from it. -/
def phaseRowE : PhaseRow := ⟨⟨1, 1, 1⟩, ⟨0, 0, 0⟩, 1, 100⟩
def phasePartE (u : ℚ) : Part32 := ⟨⟨2, 1, 1⟩, ⟨u, 0, 0⟩, 3⟩

theorem phaseE_facts (rad : Bool) (u : ℚ) :
    phaseRowE.dist (phasePartE u) = 1 ∧ phaseRowE.speed (phasePartE u) = |(u : ℝ)| ∧ (⟨4, 2, 2, 2, rad, false⟩ : PhaseCfg).velocity phaseRowE (phasePartE u) = if rad then (u : ℝ) else |(u : ℝ)| := by
  have l1 : ∀ x : ℝ, len3 x 0 0 = |x| := by
    intro x
    unfold len3
    rw [show x ^ 2 + 0 ^ 2 + 0 ^ 2 = x ^ 2 by ring, Real.sqrt_sq_eq_abs]
  have d : phaseRowE.dist (phasePartE u) = 1 := by
    unfold PhaseRow.dist phaseRowE phasePartE
    push_cast
    rw [show (1 : ℝ) - 1 = 0 by norm_num, show (2 : ℝ) - 1 = 1 by norm_num, l1, abs_one]
  refine ⟨d, ?_, ?_⟩
  · unfold PhaseRow.speed phaseRowE phasePartE
    push_cast
    rw [sub_zero, sub_zero, l1]
  · unfold PhaseCfg.velocity
    rw [d]
    cases rad with
    | true =>
      simp only [if_true]
      unfold PhaseCfg.hub phaseRowE phasePartE
      push_cast
      simp
      ring
    | false =>
      simp only [Bool.false_eq_true, if_false]
      unfold PhaseCfg.hub phaseRowE phasePartE
      push_cast
      simp only [Bool.false_eq_true, if_false, sub_zero, zero_mul]
      rw [l1]

theorem phaseE_box (u : ℚ) : ∀ p ∈ [phasePartE u], SameBox 100 phaseRowE.c p.x := by
  intro p hp
  rw [List.mem_singleton.mp hp]
  unfold SameBox phaseRowE phasePartE
  norm_num

theorem sum64_three : sum64 0 [(3 : ℚ)] = 3 := by
  unfold sum64
  simp only [List.foldl_cons, List.foldl_nil, zero_add]
  exact_mod_cast r64_int (n := 3) (by norm_num)

/-- The speeds from 0 to 200 km/s in two bins, the distances from 0 to 4 Mpc/h in two bins: a particle with 150 km/s at 1 Mpc/h is in the first radial and the second velocity bin. -/
example : ∃ out : List ℚ, insertPhase64 ⟨4, 2, 2, 2, false, false⟩ 100 phaseRowE (List.replicate 4 0) [phasePartE 150] = some out ∧ out.getD 1 0 = 3 := by
  obtain ⟨e1, e2, e3⟩ := phaseE_facts false 150
  obtain ⟨out, cell, h1, h2, h3, h4, h5⟩ := C133_phase_partial ⟨4, 2, 2, 2, false, false⟩ 100 float100 phaseRowE (by norm_num [phaseRowE]) (by norm_num [phaseRowE]) (by norm_num) (by norm_num) (List.replicate 4 0) (by simp) [phasePartE 150]
    (phaseE_box 150)
  refine ⟨out, h1, ?_⟩
  have low : (⟨4, 2, 2, 2, false, false⟩ : PhaseCfg).vLow phaseRowE = 0 := by unfold PhaseCfg.vLow; simp
  have wid : (⟨4, 2, 2, 2, false, false⟩ : PhaseCfg).vWidth phaseRowE = 100 := by unfold PhaseCfg.vWidth; rw [low]; norm_num [phaseRowE]
  have tol : (⟨4, 2, 2, 2, false, false⟩ : PhaseCfg).vTol phaseRowE (phasePartE 150) = 350 / 2 ^ 18 := by unfold PhaseCfg.vTol PhaseCfg.hub; rw [e1, e2]; norm_num [phaseRowE]
  simp only [Bool.false_eq_true, if_false] at e3
  have hc : cell (phasePartE 150) = some (0, 1) := by
    match hcell : cell (phasePartE 150) with
    | none =>
      rcases h5 _ (by simp) hcell with h | h | h | h
      · rw [e1] at h; norm_num at h
      · rw [e1] at h; norm_num [phaseRowE] at h
      · rw [e3, tol] at h; norm_num [phaseRowE] at h
      · rw [e3, tol, low, wid] at h; norm_num at h
    | some (i, j) =>
      obtain ⟨a1, a2, a3, -, -, -, a6⟩ := h4 _ (by simp) i j hcell
      have a1' : i < 2 := a1
      have a2' : j < 2 := a2
      rw [e1] at a3
      rw [e3, tol, low, wid] at a6
      have hi : i = 0 := by
        by_contra hne
        have : i = 1 := by omega
        subst this
        norm_num [phaseRowE] at a3
      have hj : j = 1 := by
        by_contra hne
        have : j = 0 := by omega
        subst this
        norm_num at a6
      rw [hi, hj]
  have := h3 0 (by norm_num) 1 (by norm_num)
  simp only [List.filter_cons, List.filter_nil, hc, decide_true, if_true, List.map_cons, List.map_nil, zero_mul, zero_add] at this
  rw [this]
  exact sum64_three

/-- What is not true of the radial velocities: a particle below the grid, with -250 km/s where the lowest velocity is -200 km/s, is in a cell. -/
theorem C133_low_false : ∃ (cfg : PhaseCfg) (row : PhaseRow) (p : Part32) (out : List ℚ), cfg.vLow row = -200 ∧ cfg.velocity row p = -250 ∧ insertPhase64 cfg 100 row (List.replicate 4 0) [p] = some out ∧ out.getD 0 0 = 3 := by
  obtain ⟨e1, e2, e3⟩ := phaseE_facts true (-250)
  obtain ⟨out, cell, h1, h2, h3, h4, h5⟩ := C133_phase_partial ⟨4, 2, 2, 2, true, false⟩ 100 float100 phaseRowE (by norm_num [phaseRowE]) (by norm_num [phaseRowE]) (by norm_num) (by norm_num) (List.replicate 4 0) (by simp) [phasePartE (-250)]
    (phaseE_box (-250))
  have low : (⟨4, 2, 2, 2, true, false⟩ : PhaseCfg).vLow phaseRowE = -200 := by unfold PhaseCfg.vLow; norm_num [phaseRowE]
  have wid : (⟨4, 2, 2, 2, true, false⟩ : PhaseCfg).vWidth phaseRowE = 200 := by unfold PhaseCfg.vWidth; rw [low]; norm_num [phaseRowE]
  have tol : (⟨4, 2, 2, 2, true, false⟩ : PhaseCfg).vTol phaseRowE (phasePartE (-250)) = 450 / 2 ^ 18 := by unfold PhaseCfg.vTol PhaseCfg.hub; rw [e1, e2]; norm_num [phaseRowE]
  simp only [if_true] at e3
  refine ⟨_, phaseRowE, phasePartE (-250), out, low, by rw [e3]; norm_num, h1, ?_⟩
  have hc : cell (phasePartE (-250)) = some (0, 0) := by
    match hcell : cell (phasePartE (-250)) with
    | none =>
      rcases h5 _ (by simp) hcell with h | h | h | h
      · rw [e1] at h; norm_num at h
      · rw [e1] at h; norm_num [phaseRowE] at h
      · rw [e3, tol] at h; norm_num [phaseRowE] at h
      · rw [e3, tol, low, wid] at h; norm_num at h
    | some (i, j) =>
      obtain ⟨a1, a2, a3, -, -, a5, -⟩ := h4 _ (by simp) i j hcell
      have a1' : i < 2 := a1
      have a2' : j < 2 := a2
      rw [e1] at a3
      rw [e3, tol, low, wid] at a5
      have hi : i = 0 := by
        by_contra hne
        have : i = 1 := by omega
        subst this
        norm_num [phaseRowE] at a3
      have hj : j = 0 := by
        by_contra hne
        have : j = 1 := by omega
        subst this
        norm_num at a5
      rw [hi, hj]
  have := h3 0 (by norm_num) 0 (by norm_num)
  simp only [List.filter_cons, List.filter_nil, hc, decide_true, if_true, List.map_cons, List.map_nil, zero_mul, zero_add] at this
  rw [this]
  exact sum64_three

end Shellfish.Round
