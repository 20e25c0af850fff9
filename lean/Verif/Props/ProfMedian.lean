/- C50 for the median profiles and the phase-space profiles. -/
import Verif.Props.ProfBin

namespace Shellfish.Cmd
noncomputable section
open Shellfish.Geom (Vec pixelOf spherePixelNum)
open Shellfish.Los (Region Sphere displacement goInt addAt sphereSheetIntersect)

/-! Median profiles -/

/-- The median profiles count all particles. -/
def ProfConfig.Median (cfg : ProfConfig) : Prop := cfg.pType = .medianDensity ∨ cfg.pType = .medianError

/-- The table of a median profile: one row of pixels per radial bin. -/
def MedTable (cfg : ProfConfig) (med : List (List ℝ)) : Prop := med.length = cfg.bins ∧ ∀ row ∈ med, row.length = (spherePixelNum cfg.level).toNat

/-- Entry `(j, q)` of the table. -/
def cell (med : List (List ℝ)) (j q : Nat) : ℝ := (med.getD j []).getD q 0

open Classical in
/-- The mass that a particle adds to bin `j` and pixel `q`. -/
def massInPixel (cfg : ProfConfig) (s : ExtSphere) (tw : ℝ) (j q : Nat) (p : Particle) : ℝ :=
  if pixelOf (disp tw s.s.c p.x) cfg.level = q then massIn cfg s tw j p else 0

theorem counted_median (cfg : ProfConfig) (h : cfg.Median) (s : ExtSphere) (p : Particle) (d : Vec) : counted cfg s p d := by
  unfold counted
  rcases h with h | h <;> rw [h] <;> trivial

theorem cell_set (med : List (List ℝ)) (i j q : Nat) (row : List ℝ) (hi : i < med.length) : cell (med.set i row) j q = if j = i then row.getD q 0 else cell med j q := by
  unfold cell
  by_cases h : j = i
  · subst h; rw [if_pos rfl]; simp [List.getD_eq_getElem?_getD, hi]
  · rw [if_neg h]; simp [List.getD_eq_getElem?_getD, Ne.symm h]

theorem insertMedianPoint_spec (cfg : ProfConfig) (s : ExtSphere) (hv : cfg.Valid s.s.r) (hm : cfg.Median) (hl : 0 ≤ cfg.level) (tw : ℝ) (med : List (List ℝ)) (ht : MedTable cfg med)
    (p : Particle) (hz : cfg.level = 1 → (disp tw s.s.c p.x).z ≠ 0) :
    ∃ out, insertMedianPoint cfg s tw med p = some out ∧ MedTable cfg out ∧ ∀ j < cfg.bins, ∀ q < (spherePixelNum cfg.level).toNat,
      cell out j q = cell med j q + massInPixel cfg s tw j q p * (spherePixelNum cfg.level : ℝ) := by
  have hq := inProfile_iff cfg s.s.r hv (norm2 (disp tw s.s.c p.x))
  unfold insertMedianPoint
  dsimp only
  by_cases h1 : inProfile cfg s.s.r (norm2 (disp tw s.s.c p.x))
  · rw [if_neg (not_not.mpr h1)]
    obtain ⟨q1, q2⟩ := hq.mp h1
    obtain ⟨j, hj, e, e1, e2⟩ := radialBin_spec cfg s.s.r hv _ h1
    obtain ⟨p0, p1⟩ := Shellfish.Geom.C39_particle_partial (disp tw s.s.c p.x) cfg.level hl hz
    rw [ht.1, e, if_pos (by constructor <;> omega), Int.toNat_natCast]
    set d := disp tw s.s.c p.x with hd
    have hrow : (med.getD j []).length = (spherePixelNum cfg.level).toNat := by
      rw [List.getD_eq_getElem _ _ (by rw [ht.1]; exact hj)]
      exact ht.2 _ (List.getElem_mem _)
    obtain ⟨pix, hpix⟩ := Int.eq_ofNat_of_zero_le p0
    have hlt : pix < (spherePixelNum cfg.level).toNat := by omega
    rw [hpix, addAt_ok _ pix _ (by omega), Option.map_some]
    refine ⟨_, rfl, ⟨by simp [ht.1], ?_⟩, ?_⟩
    · intro row hr
      rcases List.mem_or_eq_of_mem_set hr with h | h
      · exact ht.2 _ h
      · rw [h]; simp only [List.length_modify]; exact hrow
    · intro i hi q hqq
      rw [cell_set _ _ _ _ _ (by rw [ht.1]; exact hj)]
      by_cases hij : i = j
      · subst hij
        rw [if_pos rfl, getD_modify _ _ _ _ (by omega)]
        unfold cell massInPixel massIn
        rw [dist_eq]
        dsimp only
        rw [← hd, hpix]
        by_cases hpq : q = pix
        · rw [if_pos hpq, if_pos (by exact_mod_cast hpq.symm), if_pos ⟨q1, e1, e2, counted_median cfg hm s p d⟩]
        · rw [if_neg hpq, if_neg (by intro hh; exact hpq (by exact_mod_cast hh.symm))]; ring
      · rw [if_neg hij]
        unfold massInPixel massIn
        rw [dist_eq]
        dsimp only
        have : ¬ (s.s.r * cfg.rMinMult < Real.sqrt (norm2 d) ∧ edge (s.s.r * cfg.rMinMult) (s.s.r * cfg.rMaxMult) cfg.bins i ≤ Real.sqrt (norm2 d) ∧
            Real.sqrt (norm2 d) < edge (s.s.r * cfg.rMinMult) (s.s.r * cfg.rMaxMult) cfg.bins (i + 1) ∧ counted cfg s p d) := by
          rintro ⟨_, g1, g2, _⟩
          exact hij (edge_unique hv.rMin hv.lt _ hv.bins g1 g2 e1 e2)
        rw [if_neg this]
        split_ifs <;> ring
  · rw [if_pos h1]
    refine ⟨_, rfl, ht, fun i hi q hqq => ?_⟩
    unfold massInPixel massIn
    rw [dist_eq]
    dsimp only
    have : ¬ (s.s.r * cfg.rMinMult < Real.sqrt (norm2 (disp tw s.s.c p.x)) ∧ edge (s.s.r * cfg.rMinMult) (s.s.r * cfg.rMaxMult) cfg.bins i ≤ Real.sqrt (norm2 (disp tw s.s.c p.x)) ∧
        Real.sqrt (norm2 (disp tw s.s.c p.x)) < edge (s.s.r * cfg.rMinMult) (s.s.r * cfg.rMaxMult) cfg.bins (i + 1) ∧ counted cfg s p (disp tw s.s.c p.x)) := by
      rintro ⟨g0, _, g2, _⟩
      apply h1
      rw [hq]
      refine ⟨g0, lt_of_lt_of_le g2 ?_⟩
      rw [← edge_last (b := s.s.r * cfg.rMaxMult) hv.rMin cfg.bins hv.bins]
      refine le_of_eq_of_le ?_ (edge_le hv.rMin hv.lt cfg.bins hv.bins hi)
      rw [edge_last hv.rMin cfg.bins hv.bins]
    rw [if_neg this]
    split_ifs <;> ring

/-- C50 for the median profiles, with the pixel boundary of C39 left out (at pixel level 1, a particle in the plane of the halo): the table cell of a bin and a pixel grows by the
mass of the particles in it times the number of pixels. -/
theorem C50_median_partial (cfg : ProfConfig) (s : ExtSphere) (hv : cfg.Valid s.s.r) (hm : cfg.Median) (hl : 0 ≤ cfg.level) (tw : ℝ) (med : List (List ℝ)) (ht : MedTable cfg med)
    (ps : List Particle) (hz : ∀ p ∈ ps, cfg.level = 1 → (disp tw s.s.c p.x).z ≠ 0) :
    ∃ out, insertMedianPoints cfg s tw med ps = some out ∧ MedTable cfg out ∧ ∀ j < cfg.bins, ∀ q < (spherePixelNum cfg.level).toNat,
      cell out j q = cell med j q + (ps.map (massInPixel cfg s tw j q)).sum * (spherePixelNum cfg.level : ℝ) := by
  induction ps generalizing med with
  | nil => exact ⟨med, rfl, ht, by simp⟩
  | cons p ps ih =>
    obtain ⟨o1, e1, l1, b1⟩ := insertMedianPoint_spec cfg s hv hm hl tw med ht p (hz p (by simp))
    obtain ⟨o2, e2, l2, b2⟩ := ih o1 l1 (fun p' hp' => hz p' (by simp [hp']))
    refine ⟨o2, ?_, l2, fun j hj q hq => ?_⟩
    · unfold insertMedianPoints at e2 ⊢
      rw [List.foldlM_cons, e1]
      exact e2
    · rw [b2 j hj q hq, b1 j hj q hq, List.map_cons, List.sum_cons]; ring

/-- The pixels of a bin share its mass: the masses of the particles over all pixels are the mass of the bin. -/
theorem C50_pixels_partial (cfg : ProfConfig) (s : ExtSphere) (hl : 0 ≤ cfg.level) (tw : ℝ) (j : Nat) (ps : List Particle)
    (hz : ∀ p ∈ ps, cfg.level = 1 → (disp tw s.s.c p.x).z ≠ 0) :
    ((List.range (spherePixelNum cfg.level).toNat).map fun q => (ps.map (massInPixel cfg s tw j q)).sum).sum = (ps.map (massIn cfg s tw j)).sum := by
  induction ps with
  | nil => simp
  | cons p ps ih =>
    have e : ((List.range (spherePixelNum cfg.level).toNat).map fun q => massInPixel cfg s tw j q p).sum = massIn cfg s tw j p := by
      obtain ⟨p0, p1⟩ := Shellfish.Geom.C39_particle_partial (disp tw s.s.c p.x) cfg.level hl (hz p (by simp))
      obtain ⟨pix, hpix⟩ := Int.eq_ofNat_of_zero_le p0
      unfold massInPixel
      rw [hpix]
      have : ∀ (n : Nat) (y : ℝ), pix < n → ((List.range n).map fun (q : Nat) => if (pix : Int) = (q : Int) then y else 0).sum = y := by
        intro n y hn
        induction n with
        | zero => omega
        | succ n ihn =>
          rw [List.range_succ, List.map_append, List.sum_append]
          simp only [List.map_cons, List.map_nil, List.sum_cons, List.sum_nil, add_zero]
          by_cases hh : pix = n
          · subst hh
            rw [if_pos rfl]
            have : ((List.range pix).map fun (q : Nat) => if (pix : Int) = (q : Int) then y else 0) = (List.range pix).map fun (_ : Nat) => (0 : ℝ) := by
              apply List.map_congr_left
              intro q hq
              rw [List.mem_range] at hq
              rw [if_neg (by omega)]
            rw [this]; simp
          · rw [ihn (by omega), if_neg (by omega), add_zero]
      exact this _ _ (by omega)
    simp only [List.map_cons, List.sum_cons]
    rw [← e, ← ih (fun p' hp' => hz p' (by simp [hp'])), List.sum_map_add]

/-- C50 for the median profiles is false of the code in full: at pixel level 1 a particle in the horizontal plane through the halo crashes the mode. -/
theorem C50_median_false : ∃ (cfg : ProfConfig) (s : ExtSphere) (med : List (List ℝ)) (p : Particle), cfg.Valid s.s.r ∧ cfg.Median ∧ 0 ≤ cfg.level ∧ MedTable cfg med ∧
    insertMedianPoints cfg s 100 med [p] = none := by
  refine ⟨⟨1, 1 / 8, 2, 1, .medianDensity⟩, ⟨⟨⟨50, 50, 50⟩, 1⟩, 0, 0, ⟨0, 0, 0⟩, fun _ => True⟩, [[0, 0]], ⟨⟨51, 50, 50⟩, ⟨0, 0, 0⟩, 1⟩,
    ⟨by norm_num, by norm_num, by norm_num⟩, Or.inl rfl, by norm_num, ⟨rfl, ?_⟩, ?_⟩
  · intro row hr
    rw [List.mem_singleton.mp hr]
    rfl
  · have hd : disp 100 ⟨50, 50, 50⟩ ⟨51, 50, 50⟩ = ⟨1, 0, 0⟩ := by
      unfold disp displacement Shellfish.Los.wrap; norm_num
    have hin : inProfile ⟨1, 1 / 8, 2, 1, .medianDensity⟩ 1 1 := by unfold inProfile; norm_num
    have hn : norm2 ⟨1, 0, 0⟩ = 1 := by unfold norm2; norm_num
    obtain ⟨j, hj, e, _⟩ := radialBin_spec ⟨1, 1 / 8, 2, 1, .medianDensity⟩ 1 ⟨by norm_num, by norm_num, by norm_num⟩ 1 hin
    have hj0 : j = 0 := by simp only at hj; omega
    subst hj0
    have hpix : ¬ pixelOf ⟨1, 0, 0⟩ 1 < 2 := by
      unfold pixelOf Shellfish.Geom.atan2 Shellfish.Geom.spherePixel Shellfish.Geom.goMod
      have hp := Real.pi_pos
      have : Real.arccos (0 / Real.sqrt (1 * 1 + 0 * 0 + 0 * 0)) = Real.pi / 2 := by simp
      dsimp only
      rw [this, if_neg (by norm_num), if_neg (lt_irrefl _), show (Real.pi - Real.pi / 2) / 2 = Real.pi / 4 by ring]
      have hc : Real.cos (Real.pi / 4) / Shellfish.Geom.cosPi4 = 1 := by
        unfold Shellfish.Geom.cosPi4
        rw [div_self]
        rw [Real.cos_pi_div_four]; positivity
      rw [hc]
      have h1 : goInt (1 * ((2 * (1 - 1) + 1 : Int) : ℝ)) = 1 := by rw [Shellfish.Geom.goInt_nonneg (by norm_num)]; norm_num
      unfold Shellfish.Geom.diskPixel Shellfish.Geom.diskPixelNum
      simp only [h1]
      norm_num
      rw [show goInt 0 = 0 by rw [Shellfish.Geom.goInt_nonneg (le_refl _)]; simp]
      norm_num
    have key : insertMedianPoint ⟨1, 1 / 8, 2, 1, .medianDensity⟩ ⟨⟨⟨50, 50, 50⟩, 1⟩, 0, 0, ⟨0, 0, 0⟩, fun _ => True⟩ 100 [[0, 0]] ⟨⟨51, 50, 50⟩, ⟨0, 0, 0⟩, 1⟩ = none := by
      unfold insertMedianPoint
      dsimp only
      rw [hd, hn, if_neg (not_not.mpr hin)]
      simp only [List.length_singleton]
      dsimp only at e
      rw [e]
      simp [addAt]
      intro _
      exact not_lt.mp hpix
    unfold insertMedianPoints
    rw [List.foldlM_cons, key]
    rfl

-- one bin, the two pixels of level 1, a particle above the plane
example : ∃ (cfg : ProfConfig) (s : ExtSphere) (med : List (List ℝ)) (p : Particle), cfg.Valid s.s.r ∧ cfg.Median ∧ 0 ≤ cfg.level ∧ MedTable cfg med ∧ cfg.level = 1 ∧
    (disp 100 s.s.c p.x).z ≠ 0 ∧ p.m = 1 := by
  refine ⟨⟨1, 1 / 8, 2, 1, .medianDensity⟩, ⟨⟨⟨50, 50, 50⟩, 1⟩, 0, 0, ⟨0, 0, 0⟩, fun _ => True⟩, [[0, 0]], ⟨⟨51, 50, 51⟩, ⟨0, 0, 0⟩, 1⟩,
    ⟨by norm_num, by norm_num, by norm_num⟩, Or.inl rfl, by norm_num, ⟨rfl, ?_⟩, rfl, ?_, rfl⟩
  · intro row hr
    rw [List.mem_singleton.mp hr]
    rfl
  · unfold disp displacement Shellfish.Los.wrap; norm_num

/-! Phase-space profiles -/

/-- The velocity range of a phase-space profile. -/
def vLow (cfg : PhaseConfig) (vMax : ℝ) : ℝ := if cfg.radial then -vMax else 0

/-- The width of a velocity bin. -/
def vStep (cfg : PhaseConfig) (vMax : ℝ) : ℝ := (vMax - vLow cfg vMax) / (cfg.vbins : ℝ)

/-- The velocity of a particle relative to the halo: along the line from the center, or in total. -/
def relVelocity (cfg : PhaseConfig) (hx hv : Sphere) (tw : ℝ) (p : Particle) : ℝ :=
  phaseVelocity cfg (disp tw hx.c p.x) ⟨p.v.x - hv.c.x, p.v.y - hv.c.y, p.v.z - hv.c.z⟩

/-- The particle is in radial bin `j`. -/
def inRadial (cfg : PhaseConfig) (hx : Sphere) (tw : ℝ) (j : Nat) (p : Particle) : Prop :=
  hx.r / cfg.rbins * j ≤ dist tw hx.c p.x ∧ dist tw hx.c p.x < hx.r / cfg.rbins * (j + 1) ∧ (cfg.radial = true → dist tw hx.c p.x ≠ 0)

open Classical in
/-- The mass that a particle adds to radial bin `j` and velocity bin `i`, if it is binned by the edges of the output. -/
def phaseMass (cfg : PhaseConfig) (hx hv : Sphere) (tw : ℝ) (j i : Nat) (p : Particle) : ℝ :=
  let v := relVelocity cfg hx hv tw p
  if inRadial cfg hx tw j p ∧ vLow cfg hv.r + vStep cfg hv.r * i ≤ v ∧ v < vLow cfg hv.r + vStep cfg hv.r * (i + 1) then p.m else 0

open Classical in
/-- What the code adds in addition: particles up to one bin below the velocity range go to the lowest velocity bin. -/
def phaseExtra (cfg : PhaseConfig) (hx hv : Sphere) (tw : ℝ) (j i : Nat) (p : Particle) : ℝ :=
  let v := relVelocity cfg hx hv tw p
  if inRadial cfg hx tw j p ∧ i = 0 ∧ vLow cfg hv.r - vStep cfg hv.r < v ∧ v < vLow cfg hv.r then p.m else 0

/-- The settings of a phase-space profile: at least one bin of each kind, positive ranges. -/
structure PhaseConfig.Valid (cfg : PhaseConfig) (hx hv : Sphere) : Prop where
  rbins : 0 < cfg.rbins
  vbins : 0 < cfg.vbins
  r : 0 < hx.r
  v : 0 < hv.r

theorem vStep_pos (cfg : PhaseConfig) (hx hv : Sphere) (h : cfg.Valid hx hv) : 0 < vStep cfg hv.r := by
  unfold vStep vLow
  have : (0 : ℝ) < cfg.vbins := by exact_mod_cast h.vbins
  have := h.v
  split_ifs <;> apply div_pos <;> linarith

theorem linear_bin {dr r : ℝ} (hd : 0 < dr) (h0 : 0 ≤ r) : ∃ j : Nat, goInt (r / dr) = j ∧ dr * j ≤ r ∧ r < dr * (j + 1) := by
  have h1 : 0 ≤ r / dr := div_nonneg h0 hd.le
  refine ⟨⌊r / dr⌋.toNat, ?_, ?_, ?_⟩
  · rw [Shellfish.Geom.goInt_nonneg h1]; have := Int.floor_nonneg.mpr h1; omega
  · have := Int.floor_le (r / dr)
    rw [← Int.toNat_of_nonneg (Int.floor_nonneg.mpr h1)] at this
    have h2 : ((⌊r / dr⌋.toNat : Nat) : ℝ) ≤ r / dr := by exact_mod_cast this
    rw [le_div_iff₀ hd] at h2
    linarith
  · have := Int.lt_floor_add_one (r / dr)
    rw [← Int.toNat_of_nonneg (Int.floor_nonneg.mpr h1)] at this
    have h2 : r / dr < ((⌊r / dr⌋.toNat : Nat) : ℝ) + 1 := by exact_mod_cast this
    rw [div_lt_iff₀ hd] at h2
    linarith

theorem linear_unique {dr r : ℝ} (hd : 0 < dr) {i j : Nat} (h1 : dr * i ≤ r) (h2 : r < dr * (i + 1)) (h3 : dr * j ≤ r) (h4 : r < dr * (j + 1)) : i = j := by
  have a : (i : ℝ) < (j : ℝ) + 1 := by by_contra hc; push Not at hc; nlinarith
  have b : (j : ℝ) < (i : ℝ) + 1 := by by_contra hc; push Not at hc; nlinarith
  have a' : i < j + 1 := by exact_mod_cast a
  have b' : j < i + 1 := by exact_mod_cast b
  omega

/-- The velocity bin: truncation towards zero also sends the values just below the range to bin 0. -/
theorem velocity_bin {dv u : ℝ} (hd : 0 < dv) (i : Nat) : goInt (u / dv) = (i : Int) ↔ (dv * i ≤ u ∧ u < dv * (i + 1)) ∨ (i = 0 ∧ -dv < u ∧ u < 0) := by
  rcases le_or_gt 0 u with h | h
  · obtain ⟨k, e, k1, k2⟩ := linear_bin hd h
    rw [e]
    constructor
    · intro hk
      have : k = i := by exact_mod_cast hk
      subst this
      exact Or.inl ⟨k1, k2⟩
    · rintro (⟨h1, h2⟩ | ⟨_, _, h3⟩)
      · rw [linear_unique hd k1 k2 h1 h2]
      · linarith
  · have hneg : u / dv < 0 := div_neg_of_neg_of_pos h hd
    rw [show goInt (u / dv) = ⌈u / dv⌉ by unfold goInt Shellfish.Los.modf; rw [if_neg (not_le.mpr hneg)]]
    have hc : ⌈u / dv⌉ ≤ 0 := by rw [Int.ceil_le]; push_cast; exact hneg.le
    constructor
    · intro he
      have hi : i = 0 := by omega
      subst hi
      refine Or.inr ⟨rfl, ?_, h⟩
      have : (-1 : Int) < ⌈u / dv⌉ := by rw [he]; norm_num
      rw [Int.lt_ceil, lt_div_iff₀ hd] at this
      push_cast at this
      linarith
    · rintro (⟨h1, _⟩ | ⟨rfl, h2, _⟩)
      · have : 0 ≤ dv * (i : ℝ) := by positivity
        linarith
      · have : (-1 : Int) < ⌈u / dv⌉ := by rw [Int.lt_ceil, lt_div_iff₀ hd]; push_cast; linarith
        push_cast
        omega

theorem velocity_iff (cfg : PhaseConfig) (hx hv : Sphere) (h : cfg.Valid hx hv) (v : ℝ) (i : Nat) : goInt ((v - vLow cfg hv.r) / vStep cfg hv.r) = (i : Int) ↔
    (vLow cfg hv.r + vStep cfg hv.r * i ≤ v ∧ v < vLow cfg hv.r + vStep cfg hv.r * (i + 1)) ∨ (i = 0 ∧ vLow cfg hv.r - vStep cfg hv.r < v ∧ v < vLow cfg hv.r) := by
  rw [velocity_bin (vStep_pos cfg hx hv h)]
  constructor
  · rintro (⟨h1, h2⟩ | ⟨h0, h1, h2⟩)
    · exact Or.inl ⟨by linarith, by linarith⟩
    · exact Or.inr ⟨h0, by linarith, by linarith⟩
  · rintro (⟨h1, h2⟩ | ⟨h0, h1, h2⟩)
    · exact Or.inl ⟨by linarith, by linarith⟩
    · exact Or.inr ⟨h0, by linarith, by linarith⟩

theorem insertPhasePoint_spec (cfg : PhaseConfig) (hx hv : Sphere) (h : cfg.Valid hx hv) (tw : ℝ) (rhos : List ℝ) (hl : rhos.length = cfg.rbins * cfg.vbins) (p : Particle) :
    ∃ out, insertPhasePoint cfg hx hv tw rhos p = some out ∧ out.length = cfg.rbins * cfg.vbins ∧ ∀ j < cfg.rbins, ∀ i < cfg.vbins,
      out.getD (j * cfg.vbins + i) 0 = rhos.getD (j * cfg.vbins + i) 0 + (phaseMass cfg hx hv tw j i p + phaseExtra cfg hx hv tw j i p) := by
  have hvs := vStep_pos cfg hx hv h
  have hrb : (0 : ℝ) < cfg.rbins := by exact_mod_cast h.rbins
  have hdr : 0 < hx.r / (cfg.rbins : ℝ) := div_pos h.r hrb
  have n0 : 0 ≤ norm2 (disp tw hx.c p.x) := by unfold norm2; nlinarith [mul_self_nonneg (disp tw hx.c p.x).x, mul_self_nonneg (disp tw hx.c p.x).y, mul_self_nonneg (disp tw hx.c p.x).z]
  have hsum : ∀ j i : Nat, phaseMass cfg hx hv tw j i p + phaseExtra cfg hx hv tw j i p =
      (open Classical in if inRadial cfg hx tw j p ∧ goInt ((relVelocity cfg hx hv tw p - vLow cfg hv.r) / vStep cfg hv.r) = (i : Int) then p.m else 0) := by
    intro j i
    have hi := velocity_iff cfg hx hv h (relVelocity cfg hx hv tw p) i
    unfold phaseMass phaseExtra
    dsimp only
    have hnn : (0 : ℝ) ≤ vStep cfg hv.r * i := by positivity
    by_cases hr : inRadial cfg hx tw j p
    · by_cases hA : vLow cfg hv.r + vStep cfg hv.r * i ≤ relVelocity cfg hx hv tw p ∧ relVelocity cfg hx hv tw p < vLow cfg hv.r + vStep cfg hv.r * (i + 1)
      · rw [if_pos ⟨hr, hA⟩, if_neg (by rintro ⟨_, _, _, h4⟩; linarith [hA.1]), if_pos ⟨hr, hi.mpr (Or.inl hA)⟩, add_zero]
      · rw [if_neg (fun hh => hA hh.2)]
        by_cases hB : i = 0 ∧ vLow cfg hv.r - vStep cfg hv.r < relVelocity cfg hx hv tw p ∧ relVelocity cfg hx hv tw p < vLow cfg hv.r
        · rw [if_pos ⟨hr, hB⟩, if_pos ⟨hr, hi.mpr (Or.inr hB)⟩, zero_add]
        · rw [if_neg (fun hh => hB hh.2), if_neg (fun hh => (hi.mp hh.2).elim hA hB), add_zero]
    · rw [if_neg (fun hh => hr hh.1), if_neg (fun hh => hr hh.1), if_neg (fun hh => hr hh.1), add_zero]
  unfold insertPhasePoint
  dsimp only
  rw [show (if cfg.radial = true then -hv.r else 0) = vLow cfg hv.r from rfl, show (hv.r - vLow cfg hv.r) / (cfg.vbins : ℝ) = vStep cfg hv.r from rfl]
  rw [show phaseVelocity cfg (disp tw hx.c p.x) ⟨p.v.x - hv.c.x, p.v.y - hv.c.y, p.v.z - hv.c.z⟩ = relVelocity cfg hx hv tw p from rfl]
  set iv := goInt ((relVelocity cfg hx hv tw p - vLow cfg hv.r) / vStep cfg hv.r) with hiv
  by_cases h1 : norm2 (disp tw hx.c p.x) ≥ hx.r * hx.r
  · rw [if_pos h1]
    refine ⟨_, rfl, hl, fun j hj i hi => ?_⟩
    rw [hsum, if_neg, add_zero]
    rintro ⟨⟨_, g2, _⟩, _⟩
    have : hx.r ≤ dist tw hx.c p.x := by rw [dist_eq]; exact Real.le_sqrt_of_sq_le (by rw [sq]; exact h1)
    have hj' : (j : ℝ) + 1 ≤ cfg.rbins := by exact_mod_cast hj
    have : hx.r / (cfg.rbins : ℝ) * ((j : ℝ) + 1) ≤ hx.r := by
      rw [div_mul_eq_mul_div, div_le_iff₀ hrb]; exact mul_le_mul_of_nonneg_left hj' h.r.le
    linarith
  rw [if_neg h1]
  push Not at h1
  by_cases h2 : cfg.radial = true ∧ norm2 (disp tw hx.c p.x) = 0
  · rw [if_pos h2]
    refine ⟨_, rfl, hl, fun j hj i hi => ?_⟩
    rw [hsum, if_neg, add_zero]
    rintro ⟨⟨_, _, g3⟩, _⟩
    exact g3 h2.1 (by rw [dist_eq, h2.2, Real.sqrt_zero])
  rw [if_neg h2]
  obtain ⟨jr, ejr, j1, j2⟩ := linear_bin hdr (Real.sqrt_nonneg (norm2 (disp tw hx.c p.x)))
  have hjr : jr < cfg.rbins := by
    have hlt : Real.sqrt (norm2 (disp tw hx.c p.x)) < hx.r := by rw [Real.sqrt_lt' h.r, sq]; exact h1
    have : (jr : ℝ) < cfg.rbins := by
      by_contra hc
      push Not at hc
      have : hx.r ≤ hx.r / (cfg.rbins : ℝ) * jr := by
        rw [div_mul_eq_mul_div, le_div_iff₀ hrb]; exact mul_le_mul_of_nonneg_left hc h.r.le
      linarith
    exact_mod_cast this
  rw [ejr, if_neg (show ¬ ((jr : Int) = (cfg.rbins : Int)) by omega)]
  rw [← dist_eq] at j1 j2
  have hrad : inRadial cfg hx tw jr p := ⟨j1, j2, fun hh h0 => h2 ⟨hh, (Real.sqrt_eq_zero n0).mp (by rw [← dist_eq]; exact h0)⟩⟩
  have hun : ∀ j, inRadial cfg hx tw j p → j = jr := fun j hj => linear_unique hdr hj.1 hj.2.1 j1 j2
  by_cases h3 : iv ≥ (cfg.vbins : Int) ∨ iv < 0
  · rw [if_pos h3]
    refine ⟨_, rfl, hl, fun j hj i hi => ?_⟩
    rw [hsum, if_neg, add_zero]
    rintro ⟨_, g⟩
    omega
  · rw [if_neg h3]
    push Not at h3
    obtain ⟨iv', hiv'⟩ := Int.eq_ofNat_of_zero_le h3.2
    have hlt : iv' < cfg.vbins := by omega
    have hidx : jr * cfg.vbins + iv' < rhos.length := by
      rw [hl]
      calc jr * cfg.vbins + iv' < jr * cfg.vbins + cfg.vbins := by omega
        _ = (jr + 1) * cfg.vbins := by ring
        _ ≤ cfg.rbins * cfg.vbins := Nat.mul_le_mul_right _ hjr
    rw [hiv', show (jr : Int) * (cfg.vbins : Int) + (iv' : Int) = ((jr * cfg.vbins + iv' : Nat) : Int) by push_cast; ring, addAt_ok _ _ _ hidx]
    refine ⟨_, rfl, by simp [hl], fun j hj i hi => ?_⟩
    rw [getD_modify _ _ _ _ hidx, hsum, hiv']
    congr 1
    by_cases hji : j = jr ∧ i = iv'
    · obtain ⟨rfl, rfl⟩ := hji
      rw [if_pos rfl, if_pos ⟨hrad, rfl⟩]
    · have hne : j * cfg.vbins + i ≠ jr * cfg.vbins + iv' := by
        intro he
        apply hji
        have h1 : (j * cfg.vbins + i) / cfg.vbins = j := by rw [mul_comm, Nat.mul_add_div h.vbins, Nat.div_eq_of_lt hi, add_zero]
        have h2 : (jr * cfg.vbins + iv') / cfg.vbins = jr := by rw [mul_comm, Nat.mul_add_div h.vbins, Nat.div_eq_of_lt hlt, add_zero]
        have h3 : (j * cfg.vbins + i) % cfg.vbins = i := by rw [mul_comm, Nat.mul_add_mod, Nat.mod_eq_of_lt hi]
        have h4 : (jr * cfg.vbins + iv') % cfg.vbins = iv' := by rw [mul_comm, Nat.mul_add_mod, Nat.mod_eq_of_lt hlt]
        exact ⟨by rw [← h1, he, h2], by rw [← h3, he, h4]⟩
      rw [if_neg hne, if_neg]
      rintro ⟨g1, g2⟩
      exact hji ⟨hun j g1, by omega⟩

/-- C50 for phase-space profiles, as far as it holds: inserting never panics, and every cell grows by the mass of the particles within its edges, plus, in the lowest velocity
bin, by the mass of the particles up to one bin below the velocity range. -/
theorem C50_phase_cells (cfg : PhaseConfig) (hx hv : Sphere) (h : cfg.Valid hx hv) (tw : ℝ) (rhos : List ℝ) (hl : rhos.length = cfg.rbins * cfg.vbins) (ps : List Particle) :
    ∃ out, insertPhasePoints cfg hx hv tw rhos ps = some out ∧ out.length = cfg.rbins * cfg.vbins ∧ ∀ j < cfg.rbins, ∀ i < cfg.vbins,
      out.getD (j * cfg.vbins + i) 0 = rhos.getD (j * cfg.vbins + i) 0 + ((ps.map (phaseMass cfg hx hv tw j i)).sum + (ps.map (phaseExtra cfg hx hv tw j i)).sum) := by
  induction ps generalizing rhos with
  | nil => exact ⟨rhos, rfl, hl, by simp⟩
  | cons p ps ih =>
    obtain ⟨o1, e1, l1, b1⟩ := insertPhasePoint_spec cfg hx hv h tw rhos hl p
    obtain ⟨o2, e2, l2, b2⟩ := ih o1 l1
    refine ⟨o2, ?_, l2, fun j hj i hi => ?_⟩
    · unfold insertPhasePoints at e2 ⊢
      rw [List.foldlM_cons, e1]
      exact e2
    · rw [b2 j hj i hi, b1 j hj i hi]; simp only [List.map_cons, List.sum_cons]; ring

theorem extra_zero (cfg : PhaseConfig) (hx hv : Sphere) (tw : ℝ) (j i : Nat) (p : Particle) (h : vLow cfg hv.r ≤ relVelocity cfg hx hv tw p) : phaseExtra cfg hx hv tw j i p = 0 := by
  unfold phaseExtra
  dsimp only
  rw [if_neg]
  rintro ⟨_, _, _, h4⟩
  linarith

/-- C50 for profiles in the total velocity: every cell grows by exactly the mass of the particles within its edges. -/
theorem C50_phase_total (cfg : PhaseConfig) (hx hv : Sphere) (h : cfg.Valid hx hv) (ht : cfg.radial = false) (tw : ℝ) (rhos : List ℝ) (hl : rhos.length = cfg.rbins * cfg.vbins)
    (ps : List Particle) : ∃ out, insertPhasePoints cfg hx hv tw rhos ps = some out ∧ out.length = cfg.rbins * cfg.vbins ∧ ∀ j < cfg.rbins, ∀ i < cfg.vbins,
      out.getD (j * cfg.vbins + i) 0 = rhos.getD (j * cfg.vbins + i) 0 + (ps.map (phaseMass cfg hx hv tw j i)).sum := by
  obtain ⟨out, e, l, b⟩ := C50_phase_cells cfg hx hv h tw rhos hl ps
  refine ⟨out, e, l, fun j hj i hi => ?_⟩
  rw [b j hj i hi]
  have : ps.map (phaseExtra cfg hx hv tw j i) = ps.map fun _ => 0 := by
    apply List.map_congr_left
    intro p _
    apply extra_zero
    unfold vLow relVelocity phaseVelocity
    rw [ht]
    simp only [Bool.false_eq_true, if_false]
    exact Real.sqrt_nonneg _
  rw [this]; simp

/-- C50 for profiles in the radial velocity, if no particle is slower than the velocity range. -/
theorem C50_phase_radial_partial (cfg : PhaseConfig) (hx hv : Sphere) (h : cfg.Valid hx hv) (tw : ℝ) (rhos : List ℝ) (hl : rhos.length = cfg.rbins * cfg.vbins)
    (ps : List Particle) (hp : ∀ p ∈ ps, -hv.r ≤ relVelocity cfg hx hv tw p) :
    ∃ out, insertPhasePoints cfg hx hv tw rhos ps = some out ∧ out.length = cfg.rbins * cfg.vbins ∧ ∀ j < cfg.rbins, ∀ i < cfg.vbins,
      out.getD (j * cfg.vbins + i) 0 = rhos.getD (j * cfg.vbins + i) 0 + (ps.map (phaseMass cfg hx hv tw j i)).sum := by
  by_cases ht : cfg.radial = false
  · exact C50_phase_total cfg hx hv h ht tw rhos hl ps
  obtain ⟨out, e, l, b⟩ := C50_phase_cells cfg hx hv h tw rhos hl ps
  refine ⟨out, e, l, fun j hj i hi => ?_⟩
  rw [b j hj i hi]
  have : ps.map (phaseExtra cfg hx hv tw j i) = ps.map fun _ => 0 := by
    apply List.map_congr_left
    intro p hpm
    apply extra_zero
    unfold vLow
    rw [if_pos (by simpa using ht)]
    exact hp p hpm
  rw [this]; simp

theorem fast_particle (v : ℝ) : relVelocity ⟨1, 2, 1, 1, true, false⟩ ⟨⟨50, 50, 50⟩, 2⟩ ⟨⟨0, 0, 0⟩, 100⟩ 100 ⟨⟨51, 50, 50⟩, ⟨v, 0, 0⟩, 1⟩ = v ∧ dist 100 ⟨50, 50, 50⟩ ⟨51, 50, 50⟩ = 1 := by
  have hd : disp 100 ⟨50, 50, 50⟩ ⟨51, 50, 50⟩ = ⟨1, 0, 0⟩ := by unfold disp displacement Shellfish.Los.wrap; norm_num
  have hn : norm2 ⟨1, 0, 0⟩ = 1 := by unfold norm2; norm_num
  unfold relVelocity phaseVelocity
  rw [dist_eq]
  simp only [hd, hn, Real.sqrt_one]
  norm_num

/-- C50 is false of the code for profiles in the radial velocity: with bins between -100 and 100, a particle falling in with velocity 150 is counted in the bin from -100 to 0. -/
theorem C50_phase_radial_false : ∃ (cfg : PhaseConfig) (hx hv : Sphere) (p : Particle) (out : List ℝ), cfg.Valid hx hv ∧ relVelocity cfg hx hv 100 p = -150 ∧ hv.r = 100 ∧
    insertPhasePoints cfg hx hv 100 (List.replicate (cfg.rbins * cfg.vbins) 0) [p] = some out ∧ out.getD 0 0 = 1 := by
  have hval : (⟨1, 2, 1, 1, true, false⟩ : PhaseConfig).Valid ⟨⟨50, 50, 50⟩, 2⟩ ⟨⟨0, 0, 0⟩, 100⟩ := ⟨by norm_num, by norm_num, by norm_num, by norm_num⟩
  obtain ⟨out, e, l, b⟩ := C50_phase_cells _ _ _ hval 100 (List.replicate 2 0) (by simp) [⟨⟨51, 50, 50⟩, ⟨-150, 0, 0⟩, 1⟩]
  refine ⟨_, _, _, _, out, hval, (fast_particle _).1, rfl, e, ?_⟩
  have := b 0 (by norm_num) 0 (by norm_num)
  simp only [zero_mul, zero_add, List.map_cons, List.map_nil, List.sum_cons, List.sum_nil, add_zero] at this
  rw [this]
  have h0 : (List.replicate 2 (0 : ℝ)).getD 0 0 = 0 := rfl
  rw [h0]
  unfold phaseMass phaseExtra inRadial
  simp only [(fast_particle _).1, (fast_particle 0).2]
  unfold vStep vLow
  norm_num

-- the settings of the last theorem and a particle in the range
example : (⟨1, 2, 1, 1, true, false⟩ : PhaseConfig).Valid ⟨⟨50, 50, 50⟩, 2⟩ ⟨⟨0, 0, 0⟩, 100⟩ ∧
    -100 ≤ relVelocity ⟨1, 2, 1, 1, true, false⟩ ⟨⟨50, 50, 50⟩, 2⟩ ⟨⟨0, 0, 0⟩, 100⟩ 100 ⟨⟨51, 50, 50⟩, ⟨-50, 0, 0⟩, 1⟩ ∧
    phaseMass ⟨1, 2, 1, 1, true, false⟩ ⟨⟨50, 50, 50⟩, 2⟩ ⟨⟨0, 0, 0⟩, 100⟩ 100 0 0 ⟨⟨51, 50, 50⟩, ⟨-50, 0, 0⟩, 1⟩ = 1 := by
  refine ⟨⟨by norm_num, by norm_num, by norm_num, by norm_num⟩, by rw [(fast_particle _).1]; norm_num, ?_⟩
  unfold phaseMass inRadial
  simp only [(fast_particle _).1, (fast_particle 0).2]
  unfold vStep vLow
  norm_num

/-- C50: a reported phase-space density times the volume and the width of its cell is the binned mass; radii and velocities are the centers of the bins. -/
theorem C50_phase_processed (cfg : PhaseConfig) (rhos : List ℝ) (rMax vMax : ℝ) (hr : 0 < rMax) (hvm : 0 < vMax) :
    (processPhaseProfile cfg rhos rMax vMax).1.length = cfg.rbins ∧ (processPhaseProfile cfg rhos rMax vMax).2.1.length = cfg.vbins ∧
    (processPhaseProfile cfg rhos rMax vMax).2.2.length = cfg.rbins * cfg.vbins ∧ ∀ j < cfg.rbins, ∀ i < cfg.vbins,
      (processPhaseProfile cfg rhos rMax vMax).1.getD j 0 = (rMax / cfg.rbins * j + rMax / cfg.rbins * (j + 1)) / 2 ∧
      (processPhaseProfile cfg rhos rMax vMax).2.1.getD i 0 = vLow cfg vMax + (vStep cfg vMax * i + vStep cfg vMax * (i + 1)) / 2 ∧
      (processPhaseProfile cfg rhos rMax vMax).2.2.getD (j * cfg.vbins + i) 0 * (shellVolume (rMax / cfg.rbins * j) (rMax / cfg.rbins * (j + 1)) * vStep cfg vMax) =
        rhos.getD (j * cfg.vbins + i) 0 := by
  unfold processPhaseProfile
  refine ⟨by simp, by simp, by simp, fun j hj i hi => ⟨?_, ?_, ?_⟩⟩
  · dsimp only
    rw [List.getD_eq_getElem _ _ (by simpa using hj)]
    simp only [List.getElem_map, List.getElem_range]
    ring
  · dsimp only
    rw [List.getD_eq_getElem _ _ (by simpa using hi)]
    simp only [List.getElem_map, List.getElem_range]
    rw [show (if cfg.radial = true then -vMax else 0) = vLow cfg vMax from rfl, show (vMax - vLow cfg vMax) / (cfg.vbins : ℝ) = vStep cfg vMax from rfl]
    ring
  · dsimp only
    have hv0 : 0 < cfg.vbins := by omega
    have hidx : j * cfg.vbins + i < cfg.rbins * cfg.vbins := by
      calc j * cfg.vbins + i < j * cfg.vbins + cfg.vbins := by omega
        _ = (j + 1) * cfg.vbins := by ring
        _ ≤ cfg.rbins * cfg.vbins := Nat.mul_le_mul_right _ hj
    rw [List.getD_eq_getElem _ _ (by simpa using hidx)]
    simp only [List.getElem_map, List.getElem_range]
    have hdiv : (j * cfg.vbins + i) / cfg.vbins = j := by rw [mul_comm, Nat.mul_add_div hv0, Nat.div_eq_of_lt hi, add_zero]
    rw [hdiv, show (if cfg.radial = true then -vMax else 0) = vLow cfg vMax from rfl, show (vMax - vLow cfg vMax) / (cfg.vbins : ℝ) = vStep cfg vMax from rfl]
    have hrb : (0 : ℝ) < cfg.rbins := by exact_mod_cast (by omega : 0 < cfg.rbins)
    have hvb : (0 : ℝ) < cfg.vbins := by exact_mod_cast hv0
    have hs : 0 < vStep cfg vMax := by unfold vStep vLow; split_ifs <;> apply div_pos <;> linarith
    have hd : 0 < rMax / (cfg.rbins : ℝ) := div_pos hr hrb
    have e : (rMax / ↑cfg.rbins * ↑(j + 1) * (rMax / ↑cfg.rbins * ↑(j + 1)) * (rMax / ↑cfg.rbins * ↑(j + 1)) -
        rMax / ↑cfg.rbins * ↑j * (rMax / ↑cfg.rbins * ↑j) * (rMax / ↑cfg.rbins * ↑j)) * 4 * Real.pi / 3 = shellVolume (rMax / cfg.rbins * j) (rMax / cfg.rbins * (j + 1)) := by
      unfold shellVolume; push_cast; ring
    have hpos : 0 < shellVolume (rMax / cfg.rbins * j) (rMax / cfg.rbins * (j + 1)) := by
      unfold shellVolume
      have h1 : (0 : ℝ) ≤ rMax / cfg.rbins * j := by positivity
      have h2 : rMax / cfg.rbins * (j : ℝ) < rMax / cfg.rbins * ((j : ℝ) + 1) := by nlinarith
      have := pow_lt_pow_left₀ h2 h1 (n := 3) (by norm_num)
      have := Real.pi_pos
      exact mul_pos (by positivity) (by linarith)
    rw [e, div_mul_cancel₀ _ (mul_pos hpos hs).ne']

end
end Shellfish.Cmd
