/- C50, C49: which particles a profile counts, and which runs of the prof and phase modes end early. -/
import Verif.Props.ProfRun
import Mathlib.Analysis.Complex.ExponentialBounds

namespace Shellfish.Cmd
noncomputable section
open Shellfish.Geom (Vec)
open Shellfish.Los (Region Sphere sphereSheetIntersect InBox Near)

/-! ## Specification -/

/-- The gravitational constant in (Mpc/h) (km/s)^2 / (Msun/h), as the code has it: `508^2` for a mass of `6e13` within 1 Mpc/h. -/
def gravity : ℝ := 508 ^ 2 / 60000000000000

/-- The mass profile of an NFW halo of concentration `c`, up to a factor. -/
def nfw (c : ℝ) : ℝ := Real.log (1 + c) - c / (1 + c)

/-- The squared escape velocity at distance `r` from the center of an NFW halo of mass `M` within `R`, with scale radius `rs`: twice the depth `G M log (1 + r/rs) / (r nfw (R/rs))` of its potential. -/
def escape2 (M R rs r : ℝ) : ℝ := 2 * (gravity * M / r * (Real.log (1 + r / rs) / nfw (R / rs)))

/-- The squared speed of a particle relative to the halo. -/
def speed2 (s : ExtSphere) (p : Particle) : ℝ := (p.v.x - s.v.x) ^ 2 + (p.v.y - s.v.y) ^ 2 + (p.v.z - s.v.z) ^ 2

open Classical in
/-- The mass of the particles of bin `j` that have property `P`. -/
def massOf (cfg : ProfConfig) (s : ExtSphere) (tw : ℝ) (j : Nat) (P : Particle → Prop) (ps : List Particle) : ℝ :=
  (ps.map fun p => if P p ∧ s.s.r * cfg.rMinMult < dist tw s.s.c p.x ∧ edge (s.s.r * cfg.rMinMult) (s.s.r * cfg.rMaxMult) cfg.bins j ≤ dist tw s.s.c p.x ∧
    dist tw s.s.c p.x < edge (s.s.r * cfg.rMinMult) (s.s.r * cfg.rMaxMult) cfg.bins (j + 1) then p.m else 0).sum

/-! ## Proofs -/

/-- The constant is that of the CODATA value to one part in ten thousand. -/
theorem gravity_value : |gravity / 4.30091e-9 - 1| < 1e-4 := by unfold gravity; norm_num [abs_lt]

theorem norm2_nonneg (d : Vec) : 0 ≤ norm2 d := by unfold norm2; nlinarith [mul_self_nonneg d.x, mul_self_nonneg d.y, mul_self_nonneg d.z]

theorem vesc2_eq (s : ExtSphere) (hR : 0 < s.s.r) (hM : 0 ≤ s.m) (r2 : ℝ) (hr : 0 < r2) : vesc2 s r2 = escape2 s.m s.s.r s.rs (Real.sqrt r2) := by
  have hs : 0 < Real.sqrt r2 := Real.sqrt_pos.2 hr
  unfold vesc2 escape2 gravity nfw
  dsimp only
  have h0 : 0 ≤ s.m / 60000000000000 / (s.s.r / 1) := by positivity
  have e1 : (508 * Real.sqrt (s.m / 60000000000000 / (s.s.r / 1))) * (508 * Real.sqrt (s.m / 60000000000000 / (s.s.r / 1))) = 508 ^ 2 * (s.m / 60000000000000 / s.s.r) := by
    rw [show ∀ a : ℝ, 508 * a * (508 * a) = 508 ^ 2 * (a * a) by intro a; ring, Real.mul_self_sqrt h0, div_one]
  rw [e1, show s.s.r / s.rs * (Real.sqrt r2 / s.s.r) = Real.sqrt r2 / s.rs by field_simp]
  field_simp

theorem counted_bin (cfg : ProfConfig) (s : ExtSphere) (hv : cfg.Valid s.s.r) (tw : ℝ) (j : Nat) (P : Particle → Prop) (ps : List Particle)
    (h : ∀ p ∈ ps, s.s.r * cfg.rMinMult < dist tw s.s.c p.x → (counted cfg s p (disp tw s.s.c p.x) ↔ P p)) : (ps.map (massIn cfg s tw j)).sum = massOf cfg s tw j P ps := by
  unfold massOf
  congr 1
  apply List.map_congr_left
  intro p hp
  unfold massIn
  dsimp only
  by_cases h1 : s.s.r * cfg.rMinMult < dist tw s.s.c p.x
  · have := h p hp h1
    by_cases h2 : P p
    · have hc := this.2 h2
      simp only [h1, h2, hc, true_and, and_true]
    · have hc : ¬ counted cfg s p (disp tw s.s.c p.x) := fun hc => h2 (this.1 hc)
      simp only [h2, hc, and_false, false_and, if_false]
  · simp only [h1, false_and, and_false, if_false]

/-- C50: a bound-density profile counts exactly the particles that move, relative to the halo, slower than the escape velocity of the NFW halo at their distance. -/
theorem C50_bound (cfg : ProfConfig) (ht : cfg.pType = .boundDensity) (s : ExtSphere) (hv : cfg.Valid s.s.r) (hR : 0 < s.s.r) (hM : 0 ≤ s.m) (tw : ℝ) (ps : List Particle) :
    ∃ out, insertPoints cfg s tw (List.replicate cfg.bins 0) ps = some out ∧ out.length = cfg.bins ∧
      ∀ j < cfg.bins, out.getD j 0 = massOf cfg s tw j (fun p => speed2 s p < escape2 s.m s.s.r s.rs (dist tw s.s.c p.x)) ps := by
  obtain ⟨out, o1, o2, o3, _⟩ := C50_density cfg s hv tw (List.replicate cfg.bins 0) (by simp) ps
  refine ⟨out, o1, o2, fun j hj => ?_⟩
  rw [o3 j hj, Los.getD_replicate_zero, zero_add]
  refine counted_bin cfg s hv tw j _ ps fun p _ hd => ?_
  have hpos : 0 < norm2 (disp tw s.s.c p.x) := by
    rcases (norm2_nonneg (disp tw s.s.c p.x)).eq_or_lt with e | e
    · rw [dist_eq] at hd
      rw [← e, Real.sqrt_zero] at hd
      linarith [hv.rMin]
    · exact e
  unfold counted
  rw [ht]
  dsimp only
  rw [vesc2_eq s hR hM _ hpos]
  unfold speed2
  rw [dist_eq]
  unfold norm2
  dsimp only
  rw [gt_iff_lt, sq, sq, sq]

/-- C50: a contained-density profile counts exactly the particles whose displacement from the halo is inside of the shell. -/
theorem C50_contained (cfg : ProfConfig) (ht : cfg.pType = .containedDensity) (s : ExtSphere) (hv : cfg.Valid s.s.r) (tw : ℝ) (ps : List Particle) :
    ∃ out, insertPoints cfg s tw (List.replicate cfg.bins 0) ps = some out ∧ out.length = cfg.bins ∧ ∀ j < cfg.bins, out.getD j 0 = massOf cfg s tw j (fun p => s.contains (disp tw s.s.c p.x)) ps := by
  obtain ⟨out, o1, o2, o3, _⟩ := C50_density cfg s hv tw (List.replicate cfg.bins 0) (by simp) ps
  refine ⟨out, o1, o2, fun j hj => ?_⟩
  rw [o3 j hj, Los.getD_replicate_zero, zero_add]
  refine counted_bin cfg s hv tw j _ ps fun p _ _ => ?_
  unfold counted
  rw [ht]

/-- C50: a density profile counts all particles. -/
theorem C50_plain (cfg : ProfConfig) (ht : cfg.pType = .density) (s : ExtSphere) (hv : cfg.Valid s.s.r) (tw : ℝ) (ps : List Particle) :
    ∃ out, insertPoints cfg s tw (List.replicate cfg.bins 0) ps = some out ∧ out.length = cfg.bins ∧ ∀ j < cfg.bins, out.getD j 0 = massOf cfg s tw j (fun _ => True) ps := by
  obtain ⟨out, o1, o2, o3, _⟩ := C50_density cfg s hv tw (List.replicate cfg.bins 0) (by simp) ps
  refine ⟨out, o1, o2, fun j hj => ?_⟩
  rw [o3 j hj, Los.getD_replicate_zero, zero_add]
  refine counted_bin cfg s hv tw j _ ps fun p _ _ => ?_
  unfold counted
  rw [ht]

/-- C50: the velocity of a particle in a phase-space profile: the component of its velocity relative to the halo away from the center, or the speed relative to the halo; with `SubtractHubble`, what a flow of
70 km/s per unit of distance away from the halo has is taken off. -/
theorem C50_phase_velocity (cfg : PhaseConfig) (hx hv : Sphere) (tw : ℝ) (p : Particle) (hd : 0 < dist tw hx.c p.x) :
    let d := disp tw hx.c p.x
    let h : ℝ := if cfg.subHub then 70 else 0
    (cfg.radial = true → relVelocity cfg hx hv tw p * dist tw hx.c p.x = (p.v.x - hv.c.x - h * d.x) * d.x + (p.v.y - hv.c.y - h * d.y) * d.y + (p.v.z - hv.c.z - h * d.z) * d.z) ∧
    (cfg.radial = false → 0 ≤ relVelocity cfg hx hv tw p ∧ relVelocity cfg hx hv tw p ^ 2 = (p.v.x - hv.c.x - h * d.x) ^ 2 + (p.v.y - hv.c.y - h * d.y) ^ 2 + (p.v.z - hv.c.z - h * d.z) ^ 2) := by
  intro d h
  have hsq : dist tw hx.c p.x * dist tw hx.c p.x = d.x * d.x + d.y * d.y + d.z * d.z := by
    rw [dist_eq]
    exact Real.mul_self_sqrt (norm2_nonneg _)
  constructor
  · intro hr
    unfold relVelocity phaseVelocity
    rw [if_pos hr]
    dsimp only
    simp only [← dist_eq]
    change (if cfg.subHub then _ / dist tw hx.c p.x - dist tw hx.c p.x * 70 else _ / dist tw hx.c p.x) * _ = _
    by_cases hs : cfg.subHub
    · have : h = 70 := by simp [h, hs]
      rw [if_pos hs, this, sub_mul, div_mul_cancel₀ _ hd.ne', mul_right_comm, hsq]
      ring
    · have : h = 0 := by simp [h, hs]
      rw [if_neg hs, this, div_mul_cancel₀ _ hd.ne']
      ring
  · intro hr
    unfold relVelocity phaseVelocity
    rw [if_neg (by simp [hr])]
    dsimp only
    refine ⟨Real.sqrt_nonneg _, ?_⟩
    rw [Real.sq_sqrt (by nlinarith [mul_self_nonneg (p.v.x), norm2_nonneg (if cfg.subHub = true then (⟨p.v.x - hv.c.x - 70 * (disp tw hx.c p.x).x, p.v.y - hv.c.y - 70 * (disp tw hx.c p.x).y, p.v.z - hv.c.z - 70 * (disp tw hx.c p.x).z⟩ : Vec) else ⟨p.v.x - hv.c.x, p.v.y - hv.c.y, p.v.z - hv.c.z⟩)])]
    by_cases hs : cfg.subHub
    · have : h = 70 := by simp [h, hs]
      rw [if_pos hs, this]; ring
    · have : h = 0 := by simp [h, hs]
      rw [if_neg hs, this]; ring

/-- C50: the velocities of a phase-space profile reach up to `VMaxMult` times the velocity of a circular orbit at the radius of the halo. -/
theorem C50_phase_range (cfg : PhaseConfig) (row : PhaseRow) (hr : 0 < row.r) (hm : 0 ≤ row.m) : (row.hx cfg).r = row.r * cfg.rMaxMult ∧ (row.hv cfg).c = row.v ∧ (row.hx cfg).c = row.x ∧
    (row.hv cfg).r = row.vr * cfg.vMaxMult ∧ 0 ≤ row.vr ∧ row.vr ^ 2 = gravity * row.m / row.r := by
  refine ⟨rfl, rfl, rfl, rfl, ?_, ?_⟩
  · unfold PhaseRow.vr; positivity
  · unfold PhaseRow.vr gravity
    rw [mul_pow, Real.sq_sqrt (by positivity)]
    field_simp

/-- C49 is false of the prof mode: whenever a file of the snapshot of a halo holds a particle inside of the halo's profile, the mode returns neither lines nor an error. -/
theorem C49_prof_particle_false (cfg : ProfConfig) (hm : ¬ cfg.Median) (rows : List ProfRow) (row0 : ProfRow) (h0 : rows[0]? = some row0) (sim : Sim) (hk : sim.known row0.snap)
    (hb : sim.bufOk row0.snap = true) (hv : ProfValid cfg rows) (hr : Readable sim (rows.map (·.snap))) (row : ProfRow) (hrow : row ∈ rows) (f : File) (hf : f ∈ filesOf sim row.snap)
    (hd : f.Described (row.s.s.r * cfg.rMaxMult)) (hin : InBox f.hd.totalWidth row.s.s.c) (ps : List Particle) (hps : f.particles = some ps) (p : Particle) (hp : p ∈ ps)
    (hu : Unwrapped f.hd.totalWidth row.s.s.c p.x) (hr' : dist f.hd.totalWidth row.s.s.c p.x < row.s.s.r * cfg.rMaxMult) :
    profRun cfg rows sim = .nothing := by
  have hpos : 0 < row.s.s.r * cfg.rMaxMult := (hv row hrow).rMin.trans (hv row hrow).lt
  refine C49_prof_false cfg hm rows row0 h0 sim hk hb hv hr ⟨row, hrow, f, hf, ?_⟩
  exact Shellfish.Los.box_complete f.hd row.s.s.c (row.s.s.r * cfg.rMaxMult) hpos hin hd.origin hd.small p.x (hd.inside ps hps p hp) (near_of_dist _ _ _ hu _ hpos hr')

/-- C49 is false of both modes when the first row has a snapshot outside of the range of the simulation: they crash. -/
theorem C49_unknown_false (cfg : ProfConfig) (pcfg : PhaseConfig) (row0 : ProfRow) (rows : List ProfRow) (prow0 : PhaseRow) (prows : List PhaseRow) (sim : Sim)
    (h : row0.snap < sim.snapMin ∨ sim.snapMin + sim.snapNum ≤ row0.snap) (h' : prow0.snap < sim.snapMin ∨ sim.snapMin + sim.snapNum ≤ prow0.snap) :
    profRun cfg (row0 :: rows) sim = .panic ∧ phaseRun pcfg (prow0 :: prows) sim = .panic := by
  have hk : ¬ sim.known row0.snap := by unfold Sim.known; omega
  have hk' : ¬ sim.known prow0.snap := by unfold Sim.known; omega
  constructor
  · obtain ⟨sb, ib, e, _⟩ := C44_groups ((row0 :: rows).map (·.snap)) ((row0 :: rows).map (·.id)) (by simp)
    unfold profRun
    rw [e]
    dsimp only
    rw [if_pos hk]
  · obtain ⟨sb, ib, e, _⟩ := C44_groups ((prow0 :: prows).map (·.snap)) ((prow0 :: prows).map (·.id)) (by simp)
    unfold phaseRun
    dsimp only
    rw [e]
    dsimp only
    rw [if_pos hk']

/-- C49: a snapshot is in the range of the simulation exactly if it is one of the `snapNum` snapshots from `snapMin` on. -/
theorem C49_known (sim : Sim) (snap : Int) : sim.known snap ↔ ∃ k : Nat, k < sim.snapNum ∧ snap = sim.snapMin + k := by
  unfold Sim.known
  constructor
  · rintro ⟨h1, h2⟩
    exact ⟨(snap - sim.snapMin).toNat, by omega, by omega⟩
  · rintro ⟨k, h1, rfl⟩
    omega

/-- C49: without input rows the phase mode reports an error. -/
theorem C49_phase_empty (cfg : PhaseConfig) (sim : Sim) : phaseRun cfg [] sim = .err := rfl

/-- C49 is false of the prof mode without input rows: it crashes. -/
theorem C49_prof_empty_false (cfg : ProfConfig) (sim : Sim) : profRun cfg [] sim = .panic := by
  obtain ⟨sb, ib, e, _⟩ := C44_groups (([] : List ProfRow).map (·.snap)) (([] : List ProfRow).map (·.id)) (by simp)
  unfold profRun
  rw [e]

-- an NFW halo of 6e13 Msun/h within 1 Mpc/h with concentration 5 and a particle at half of the radius that moves with 500 km/s: it is bound
example : ∃ (s : ExtSphere) (p : Particle), 0 < s.s.r ∧ 0 ≤ s.m ∧ speed2 s p < escape2 s.m s.s.r s.rs (dist 100 s.s.c p.x) := by
  refine ⟨⟨⟨⟨50, 50, 50⟩, 1⟩, 60000000000000, 1 / 5, ⟨0, 0, 0⟩, fun _ => True⟩, ⟨⟨50 + 1 / 2, 50, 50⟩, ⟨500, 0, 0⟩, 1⟩, by norm_num, by norm_num, ?_⟩
  have hd : dist 100 ⟨50, 50, 50⟩ ⟨50 + 1 / 2, 50, 50⟩ = 1 / 2 := by
    rw [show dist 100 ⟨50, 50, 50⟩ ⟨50 + 1 / 2, 50, 50⟩ = Real.sqrt ((1 / 2) ^ 2) by
      rw [dist_eq]; unfold norm2 disp Los.displacement Los.wrap; norm_num, Real.sqrt_sq (by norm_num)]
  dsimp only
  rw [hd]
  unfold speed2 escape2 gravity nfw
  dsimp only
  have h1 : Real.log (1 + 1 / (1 / 5)) ≤ 2 := by
    rw [show (1 : ℝ) + 1 / (1 / 5) = 6 by norm_num, Real.log_le_iff_le_exp (by norm_num)]
    have := Real.add_one_le_exp (1 : ℝ)
    have h2 : Real.exp 2 = Real.exp 1 * Real.exp 1 := by rw [← Real.exp_add]; norm_num
    have := Real.exp_one_gt_d9
    nlinarith
  have h2 : (1 : ℝ) ≤ Real.log (1 + 1 / 2 / (1 / 5)) := by
    rw [show (1 : ℝ) + 1 / 2 / (1 / 5) = 7 / 2 by norm_num, Real.le_log_iff_exp_le (by norm_num)]
    have := Real.exp_one_lt_d9
    linarith
  have h3 : 1 < Real.log (1 + 1 / (1 / 5)) := by
    rw [Real.lt_log_iff_exp_lt (by norm_num)]
    have := Real.exp_one_lt_d9
    norm_num
    linarith
  have h5 : (5 : ℝ) / 6 ≤ 1 / (Real.log (1 + 1 / (1 / 5)) - 1 / (1 / 5) / (1 + 1 / (1 / 5))) := by
    rw [le_div_iff₀ (by norm_num at h3 ⊢; linarith)]
    norm_num at h1 ⊢
    linarith
  rw [← mul_one_div (Real.log _) (Real.log _ - _)]
  have h6 : (5 : ℝ) / 6 ≤ Real.log (1 + 1 / 2 / (1 / 5)) * (1 / (Real.log (1 + 1 / (1 / 5)) - 1 / (1 / 5) / (1 + 1 / (1 / 5)))) := by
    nlinarith
  nlinarith

-- the halo and the file of C49_prof_particle_false
example : ∃ (cfg : ProfConfig) (row : ProfRow) (f : File) (ps : List Particle) (p : Particle), ¬ cfg.Median ∧ exSim.known row.snap ∧ ProfValid cfg [row] ∧ f ∈ filesOf exSim row.snap ∧ f.Described (row.s.s.r * cfg.rMaxMult) ∧
    InBox f.hd.totalWidth row.s.s.c ∧ f.particles = some ps ∧ p ∈ ps ∧ Unwrapped f.hd.totalWidth row.s.s.c p.x ∧ dist f.hd.totalWidth row.s.s.c p.x < row.s.s.r * cfg.rMaxMult := by
  refine ⟨⟨4, 1 / 8, 2, 0, .density⟩, ⟨7, 0, ⟨⟨⟨50, 50, 50⟩, 1⟩, 0, 0, ⟨0, 0, 0⟩, fun _ => True⟩⟩, exFile, [⟨⟨51, 50, 50⟩, ⟨-50, 0, 0⟩, 1⟩], _, (by intro h; rcases h with h | h <;> cases h), ?_, ?_, ?_,
    ⟨by norm_num [InBox, exFile], by norm_num [Region.Small, exFile], ?_⟩, by norm_num [InBox, exFile], rfl, List.mem_singleton.2 rfl, by norm_num [Unwrapped, exFile], ?_⟩
  · unfold Sim.known exSim; decide
  · intro row hr
    rw [List.mem_singleton.mp hr]
    exact ⟨by norm_num, by norm_num, by norm_num⟩
  · simp [filesOf, exSim]
  · intro ps hps p hp
    have : ps = [⟨⟨51, 50, 50⟩, ⟨-50, 0, 0⟩, 1⟩] := (Option.some.inj hps).symm
    rw [this, List.mem_singleton] at hp
    rw [hp]
    norm_num [Shellfish.Los.Region.Contains, exFile]
  · norm_num [dist, norm2, disp, Los.displacement, Los.wrap, exFile]

end
end Shellfish.Cmd
