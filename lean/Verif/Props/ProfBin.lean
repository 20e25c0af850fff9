/- C50: binning of particles into profiles. -/
import Verif.Model.Prof
import Verif.Props.Pixel
import Mathlib.Data.List.GetD
import Mathlib.Algebra.BigOperators.Group.List.Basic

namespace Shellfish.Cmd
noncomputable section
open Shellfish.Geom (Vec pixelOf spherePixelNum)
open Shellfish.Los (Region Sphere displacement goInt addAt sphereSheetIntersect)

/-! Specification -/

/-- The lower edge of radial bin `j` of `n` bins between `rMin` and `rMax` with equal ratios. -/
def edge (rMin rMax : ℝ) (n j : Nat) : ℝ := rMin * (rMax / rMin) ^ ((j : ℝ) / (n : ℝ))

/-- The distance of the particle from the center, as the code sees it (C37 says when it is the distance to the nearest image). -/
def dist (tw : ℝ) (c x : Vec) : ℝ := Real.sqrt ((disp tw c x).x ^ 2 + (disp tw c x).y ^ 2 + (disp tw c x).z ^ 2)

open Classical in
/-- The mass that a particle adds to bin `j`. -/
def massIn (cfg : ProfConfig) (s : ExtSphere) (tw : ℝ) (j : Nat) (p : Particle) : ℝ :=
  let r := dist tw s.s.c p.x
  let rMin := s.s.r * cfg.rMinMult
  let rMax := s.s.r * cfg.rMaxMult
  if rMin < r ∧ edge rMin rMax cfg.bins j ≤ r ∧ r < edge rMin rMax cfg.bins (j + 1) ∧ counted cfg s p (disp tw s.s.c p.x) then p.m else 0

open Classical in
/-- The mass of a particle if it is between the radii of the profile and counted. -/
def massInProfile (cfg : ProfConfig) (s : ExtSphere) (tw : ℝ) (p : Particle) : ℝ :=
  let r := dist tw s.s.c p.x
  if s.s.r * cfg.rMinMult < r ∧ r < s.s.r * cfg.rMaxMult ∧ counted cfg s p (disp tw s.s.c p.x) then p.m else 0

/-- The settings of a profile: at least one bin, positive radii. -/
structure ProfConfig.Valid (cfg : ProfConfig) (R : ℝ) : Prop where
  bins : 0 < cfg.bins
  rMin : 0 < R * cfg.rMinMult
  lt : R * cfg.rMinMult < R * cfg.rMaxMult

theorem dist_eq (tw : ℝ) (c x : Vec) : dist tw c x = Real.sqrt (norm2 (disp tw c x)) := by
  unfold dist norm2
  rw [pow_two, pow_two, pow_two]

/-! Edges -/

theorem edge_exp {a b : ℝ} (ha : 0 < a) (hb : 0 < b) (n j : Nat) : edge a b n j = Real.exp (Real.log a + (j : ℝ) * ((Real.log b - Real.log a) / (n : ℝ))) := by
  unfold edge
  rw [Real.rpow_def_of_pos (div_pos hb ha), Real.log_div hb.ne' ha.ne', Real.exp_add, Real.exp_log ha]
  congr 2
  ring

theorem edge_zero {a b : ℝ} (n : Nat) : edge a b n 0 = a := by simp [edge]

theorem edge_last {a b : ℝ} (ha : 0 < a) (n : Nat) (hn : 0 < n) : edge a b n n = b := by
  unfold edge
  have : (n : ℝ) ≠ 0 := by exact_mod_cast hn.ne'
  rw [div_self this, Real.rpow_one]
  field_simp

theorem edge_lt {a b : ℝ} (ha : 0 < a) (hab : a < b) (n : Nat) (hn : 0 < n) {i j : Nat} (h : i < j) : edge a b n i < edge a b n j := by
  have hb := ha.trans hab
  rw [edge_exp ha hb, edge_exp ha hb, Real.exp_lt_exp]
  have h1 : Real.log a < Real.log b := Real.log_lt_log ha hab
  have h2 : (i : ℝ) < j := by exact_mod_cast h
  have hn' : (0 : ℝ) < n := by exact_mod_cast hn
  have : 0 < (Real.log b - Real.log a) / (n : ℝ) := div_pos (by linarith) hn'
  nlinarith

theorem edge_le {a b : ℝ} (ha : 0 < a) (hab : a < b) (n : Nat) (hn : 0 < n) {i j : Nat} (h : i ≤ j) : edge a b n i ≤ edge a b n j := by
  rcases h.lt_or_eq with h | rfl
  · exact (edge_lt ha hab n hn h).le
  · exact le_refl _

theorem edge_pos {a b : ℝ} (ha : 0 < a) (hb : 0 < b) (n j : Nat) : 0 < edge a b n j := by
  rw [edge_exp ha hb]; exact Real.exp_pos _

/-- At most one bin has a given radius. -/
theorem edge_unique {a b : ℝ} (ha : 0 < a) (hab : a < b) (n : Nat) (hn : 0 < n) {i j : Nat} {r : ℝ} (hi : edge a b n i ≤ r) (hi' : r < edge a b n (i + 1))
    (hj : edge a b n j ≤ r) (hj' : r < edge a b n (j + 1)) : i = j := by
  rcases Nat.lt_trichotomy i j with h | h | h
  · exact absurd ((edge_le ha hab n hn h).trans hj) (not_le.mpr hi')
  · exact h
  · exact absurd ((edge_le ha hab n hn h).trans hi) (not_le.mpr hj')

theorem radialBin_spec (cfg : ProfConfig) (R : ℝ) (hv : cfg.Valid R) (r2 : ℝ) (h : inProfile cfg R r2) :
    ∃ j : Nat, j < cfg.bins ∧ radialBin cfg R cfg.bins r2 = (j : Int) ∧ edge (R * cfg.rMinMult) (R * cfg.rMaxMult) cfg.bins j ≤ Real.sqrt r2 ∧
      Real.sqrt r2 < edge (R * cfg.rMinMult) (R * cfg.rMaxMult) cfg.bins (j + 1) := by
  obtain ⟨hb, ha, hab⟩ := hv
  unfold inProfile at h
  unfold radialBin
  set a := R * cfg.rMinMult
  set b := R * cfg.rMaxMult
  set n := cfg.bins
  push Not at h
  obtain ⟨h1, h2⟩ := h
  have hb0 := ha.trans hab
  have hr2 : 0 < r2 := lt_trans (mul_pos ha ha) h1
  have hlog : Real.log r2 / 2 = Real.log (Real.sqrt r2) := (Real.log_sqrt hr2.le).symm
  have hr : 0 < Real.sqrt r2 := Real.sqrt_pos.mpr hr2
  have har : a < Real.sqrt r2 := by rw [Real.lt_sqrt ha.le]; nlinarith
  have hrb : Real.sqrt r2 < b := by rw [Real.sqrt_lt' hb0]; nlinarith
  have hn' : (0 : ℝ) < n := by exact_mod_cast hb
  have hd : 0 < (Real.log b - Real.log a) / (n : ℝ) := div_pos (by have := Real.log_lt_log ha hab; linarith) hn'
  dsimp only
  rw [hlog]
  set r := Real.sqrt r2
  set t := (Real.log r - Real.log a) / ((Real.log b - Real.log a) / (n : ℝ)) with ht
  have t0 : 0 < t := div_pos (by have := Real.log_lt_log ha har; linarith) hd
  have tn : t < n := by
    rw [ht, div_lt_iff₀ hd]
    have := Real.log_lt_log hr hrb
    have : (n : ℝ) * ((Real.log b - Real.log a) / (n : ℝ)) = Real.log b - Real.log a := by field_simp
    linarith
  have lr : Real.log r = Real.log a + t * ((Real.log b - Real.log a) / (n : ℝ)) := by rw [ht, div_mul_cancel₀ _ hd.ne']; ring
  have er : r = Real.exp (Real.log a + t * ((Real.log b - Real.log a) / (n : ℝ))) := by rw [← lr, Real.exp_log hr]
  rw [Shellfish.Geom.goInt_nonneg t0.le]
  have f0 : 0 ≤ ⌊t⌋ := Int.floor_nonneg.mpr t0.le
  have fn : ⌊t⌋ < n := by rw [Int.floor_lt]; exact_mod_cast tn
  rw [if_neg fn.ne]
  refine ⟨⌊t⌋.toNat, by omega, by omega, ?_, ?_⟩
  · rw [er, edge_exp ha hb0, Real.exp_le_exp]
    have : ((⌊t⌋.toNat : Nat) : ℝ) ≤ t := by
      have := Int.floor_le t
      rw [← Int.toNat_of_nonneg f0] at this
      exact_mod_cast this
    nlinarith
  · rw [er, edge_exp ha hb0, Real.exp_lt_exp]
    have : t < ((⌊t⌋.toNat + 1 : Nat) : ℝ) := by
      have := Int.lt_floor_add_one t
      rw [← Int.toNat_of_nonneg f0] at this
      push_cast
      exact_mod_cast this
    nlinarith

theorem inProfile_iff (cfg : ProfConfig) (R : ℝ) (hv : cfg.Valid R) (r2 : ℝ) :
    inProfile cfg R r2 ↔ R * cfg.rMinMult < Real.sqrt r2 ∧ Real.sqrt r2 < R * cfg.rMaxMult := by
  obtain ⟨_, ha, hab⟩ := hv
  unfold inProfile
  push Not
  rw [Real.lt_sqrt ha.le, Real.sqrt_lt' (ha.trans hab), sq, sq]

/-! Adding -/

theorem getD_modify (l : List ℝ) (i j : Nat) (x : ℝ) (hi : i < l.length) : (l.modify i (· + x)).getD j 0 = l.getD j 0 + if j = i then x else 0 := by
  simp only [List.getD_eq_getElem?_getD, List.getElem?_modify]
  by_cases h : j = i
  · subst h; rw [List.getElem?_eq_getElem hi]; simp
  · rw [if_neg h]; simp [Ne.symm h]

theorem sum_modify (l : List ℝ) (i : Nat) (x : ℝ) (hi : i < l.length) : (l.modify i (· + x)).sum = l.sum + x := by
  induction l generalizing i with
  | nil => simp at hi
  | cons a l ih =>
    cases i with
    | zero => simp [List.modify]; ring
    | succ i =>
      have := ih i (by simpa using hi)
      simp only [List.modify_succ_cons, List.sum_cons, this]; ring

theorem addAt_ok (l : List ℝ) (j : Nat) (x : ℝ) (hj : j < l.length) : addAt l (j : Int) x = some (l.modify j (· + x)) := by
  unfold addAt
  rw [if_pos (by constructor <;> omega)]
  simp

theorem insertPoint_spec (cfg : ProfConfig) (s : ExtSphere) (hv : cfg.Valid s.s.r) (tw : ℝ) (rhos : List ℝ) (hl : rhos.length = cfg.bins) (p : Particle) :
    ∃ out, insertPoint cfg s tw rhos p = some out ∧ out.length = cfg.bins ∧ (∀ j < cfg.bins, out.getD j 0 = rhos.getD j 0 + massIn cfg s tw j p) ∧
      out.sum = rhos.sum + massInProfile cfg s tw p := by
  have hq := inProfile_iff cfg s.s.r hv (norm2 (disp tw s.s.c p.x))
  unfold insertPoint massIn massInProfile
  rw [dist_eq]
  dsimp only
  by_cases h1 : inProfile cfg s.s.r (norm2 (disp tw s.s.c p.x))
  · rw [if_neg (not_not.mpr h1)]
    obtain ⟨q1, q2⟩ := hq.mp h1
    by_cases h2 : counted cfg s p (disp tw s.s.c p.x)
    · rw [if_neg (not_not.mpr h2)]
      obtain ⟨j, hj, e, e1, e2⟩ := radialBin_spec cfg s.s.r hv _ h1
      rw [hl, e, addAt_ok rhos j p.m (by omega)]
      refine ⟨_, rfl, by simp [hl], fun i hi => ?_, ?_⟩
      · rw [getD_modify _ _ _ _ (by omega)]
        congr 1
        by_cases hij : i = j
        · subst hij; rw [if_pos rfl, if_pos ⟨q1, e1, e2, h2⟩]
        · rw [if_neg hij, if_neg]
          rintro ⟨_, g1, g2, _⟩
          exact hij (edge_unique hv.rMin hv.lt _ hv.bins g1 g2 e1 e2)
      · rw [sum_modify _ _ _ (by omega), if_pos ⟨q1, q2, h2⟩]
    · rw [if_pos h2]
      refine ⟨_, rfl, hl, fun i hi => ?_, ?_⟩
      · rw [if_neg (fun hh => h2 hh.2.2.2), add_zero]
      · rw [if_neg (fun hh => h2 hh.2.2), add_zero]
  · rw [if_pos h1]
    refine ⟨_, rfl, hl, fun i hi => ?_, ?_⟩
    · rw [if_neg, add_zero]
      rintro ⟨g0, _, g2, _⟩
      apply h1
      rw [hq]
      refine ⟨g0, lt_of_lt_of_le g2 ?_⟩
      rw [← edge_last (b := s.s.r * cfg.rMaxMult) hv.rMin cfg.bins hv.bins]
      refine le_of_eq_of_le ?_ (edge_le hv.rMin hv.lt cfg.bins hv.bins hi)
      rw [edge_last hv.rMin cfg.bins hv.bins]
    · rw [if_neg, add_zero]
      rintro ⟨g0, g1, _⟩
      exact h1 (hq.mpr ⟨g0, g1⟩)

/-- C50: inserting particles never panics and adds to every radial bin exactly the mass of the counted particles between its edges; nothing else changes. -/
theorem C50_density (cfg : ProfConfig) (s : ExtSphere) (hv : cfg.Valid s.s.r) (tw : ℝ) (rhos : List ℝ) (hl : rhos.length = cfg.bins) (ps : List Particle) :
    ∃ out, insertPoints cfg s tw rhos ps = some out ∧ out.length = cfg.bins ∧ (∀ j < cfg.bins, out.getD j 0 = rhos.getD j 0 + (ps.map (massIn cfg s tw j)).sum) ∧
      out.sum = rhos.sum + (ps.map (massInProfile cfg s tw)).sum := by
  induction ps generalizing rhos with
  | nil => exact ⟨rhos, rfl, hl, by simp, by simp⟩
  | cons p ps ih =>
    obtain ⟨o1, e1, l1, b1, s1⟩ := insertPoint_spec cfg s hv tw rhos hl p
    obtain ⟨o2, e2, l2, b2, s2⟩ := ih o1 l1
    refine ⟨o2, ?_, l2, fun j hj => ?_, ?_⟩
    · unfold insertPoints at e2 ⊢
      rw [List.foldlM_cons, e1]
      exact e2
    · rw [b2 j hj, b1 j hj, List.map_cons, List.sum_cons]; ring
    · rw [s2, s1, List.map_cons, List.sum_cons]; ring

/-- C50: the bins partition the range of the profile: a particle between the radii of the profile lies between the edges of exactly one bin. -/
theorem C50_one_bin (cfg : ProfConfig) (R : ℝ) (hv : cfg.Valid R) (r : ℝ) (h1 : R * cfg.rMinMult ≤ r) (h2 : r < R * cfg.rMaxMult) :
    ∃! j : Nat, j < cfg.bins ∧ edge (R * cfg.rMinMult) (R * cfg.rMaxMult) cfg.bins j ≤ r ∧ r < edge (R * cfg.rMinMult) (R * cfg.rMaxMult) cfg.bins (j + 1) := by
  set a := R * cfg.rMinMult
  set b := R * cfg.rMaxMult
  have hex : ∃ k, r < edge a b cfg.bins k := ⟨cfg.bins, by rw [edge_last hv.rMin _ hv.bins]; exact h2⟩
  classical
  have hk := Nat.find_spec hex
  have hmin := fun m => Nat.find_min hex (m := m)
  have hle : Nat.find hex ≤ cfg.bins := Nat.find_min' hex (by rw [edge_last hv.rMin _ hv.bins]; exact h2)
  have hne : Nat.find hex ≠ 0 := by intro h0; rw [h0, edge_zero] at hk; linarith
  refine ⟨Nat.find hex - 1, ⟨by omega, not_lt.mp (hmin _ (by omega)), by rw [Nat.sub_add_cancel (by omega)]; exact hk⟩, ?_⟩
  rintro i ⟨_, i1, i2⟩
  exact edge_unique hv.rMin hv.lt _ hv.bins i1 i2 (not_lt.mp (hmin _ (by omega))) (by rw [Nat.sub_add_cancel (by omega)]; exact hk)

/-- The volume of a spherical shell. -/
def shellVolume (a b : ℝ) : ℝ := 4 * Real.pi / 3 * (b ^ 3 - a ^ 3)

/-- C50: the reported radius of a bin is the geometric mean of its edges and the reported density times the volume of the bin is the binned mass; edges are the ones used
for the binning. -/
theorem C50_processed (rhos : List ℝ) (rMin rMax : ℝ) (h0 : 0 < rMin) (h : rMin < rMax) :
    (processProfile rhos rMin rMax).1.length = rhos.length ∧ (processProfile rhos rMin rMax).2.length = rhos.length ∧ ∀ j < rhos.length,
      (processProfile rhos rMin rMax).1.getD j 0 ^ 2 = edge rMin rMax rhos.length j * edge rMin rMax rhos.length (j + 1) ∧
      0 < shellVolume (edge rMin rMax rhos.length j) (edge rMin rMax rhos.length (j + 1)) ∧
      (processProfile rhos rMin rMax).2.getD j 0 * shellVolume (edge rMin rMax rhos.length j) (edge rMin rMax rhos.length (j + 1)) = rhos.getD j 0 := by
  have hb := h0.trans h
  unfold processProfile
  refine ⟨by simp, by simp, fun j hj => ?_⟩
  dsimp only
  have n0 : 0 < rhos.length := by omega
  have e1 := edge_pos h0 hb rhos.length j
  have lt := edge_lt h0 h rhos.length n0 (Nat.lt_succ_self j)
  have hpos : 0 < shellVolume (edge rMin rMax rhos.length j) (edge rMin rMax rhos.length (j + 1)) := by
    unfold shellVolume
    have : edge rMin rMax rhos.length j ^ 3 < edge rMin rMax rhos.length (j + 1) ^ 3 := pow_lt_pow_left₀ lt e1.le (by norm_num)
    have := Real.pi_pos
    exact mul_pos (by positivity) (by linarith)
  refine ⟨?_, hpos, ?_⟩
  · rw [List.getD_eq_getElem _ _ (by simpa using hj)]
    simp only [List.getElem_map, List.getElem_range]
    rw [edge_exp h0 hb, edge_exp h0 hb, ← Real.exp_add, ← Real.exp_nat_mul]
    congr 1
    push_cast
    ring
  · rw [List.getD_eq_getElem _ _ (by simpa using hj)]
    simp only [List.getElem_map, List.getElem_range]
    have : (Real.exp ((Real.log rMax - Real.log rMin) / ↑rhos.length * ↑(j + 1) + Real.log rMin) * Real.exp ((Real.log rMax - Real.log rMin) / ↑rhos.length * ↑(j + 1) + Real.log rMin) *
        Real.exp ((Real.log rMax - Real.log rMin) / ↑rhos.length * ↑(j + 1) + Real.log rMin) -
        Real.exp ((Real.log rMax - Real.log rMin) / ↑rhos.length * ↑j + Real.log rMin) * Real.exp ((Real.log rMax - Real.log rMin) / ↑rhos.length * ↑j + Real.log rMin) *
        Real.exp ((Real.log rMax - Real.log rMin) / ↑rhos.length * ↑j + Real.log rMin)) * 4 * Real.pi / 3 =
        shellVolume (edge rMin rMax rhos.length j) (edge rMin rMax rhos.length (j + 1)) := by
      unfold shellVolume
      rw [edge_exp h0 hb, edge_exp h0 hb, show Real.log rMin + (j : ℝ) * ((Real.log rMax - Real.log rMin) / (rhos.length : ℝ)) = (Real.log rMax - Real.log rMin) / ↑rhos.length * ↑j + Real.log rMin by ring,
        show Real.log rMin + ((j + 1 : Nat) : ℝ) * ((Real.log rMax - Real.log rMin) / (rhos.length : ℝ)) = (Real.log rMax - Real.log rMin) / ↑rhos.length * ↑(j + 1) + Real.log rMin by ring]
      ring
    rw [this, div_mul_cancel₀ _ hpos.ne']

/-- C50: the volumes of the bins add up to the volume of the profile. -/
theorem C50_volumes (rMin rMax : ℝ) (h0 : 0 < rMin) (n : Nat) (hn : 0 < n) :
    ((List.range n).map fun (j : Nat) => shellVolume (edge rMin rMax n j) (edge rMin rMax n (j + 1))).sum = shellVolume rMin rMax := by
  have : ∀ m, ((List.range m).map fun (j : Nat) => shellVolume (edge rMin rMax n j) (edge rMin rMax n (j + 1))).sum = shellVolume (edge rMin rMax n 0) (edge rMin rMax n m) := by
    intro m
    induction m with
    | zero => simp [shellVolume]
    | succ m ih => rw [List.range_succ, List.map_append, List.sum_append, ih]; simp [shellVolume]; ring
  rw [this n, edge_zero, edge_last h0 n hn]

-- two particles on the x axis at distances 1/4 and 1/2 of a halo of radius 1, four bins between 1/8 and 2
example : ∃ (cfg : ProfConfig) (s : ExtSphere) (ps : List Particle), cfg.Valid s.s.r ∧ cfg.bins = 4 ∧ ps.length = 2 ∧
    (ps.map (massIn cfg s 100 1)).sum = 3 ∧ (ps.map (massIn cfg s 100 2)).sum = 7 := by
  refine ⟨⟨4, 1 / 8, 2, 0, .density⟩, ⟨⟨⟨50, 50, 50⟩, 1⟩, 0, 0, ⟨0, 0, 0⟩, fun _ => True⟩,
    [⟨⟨50 + 1 / 4, 50, 50⟩, ⟨0, 0, 0⟩, 3⟩, ⟨⟨50 + 1 / 2, 50, 50⟩, ⟨0, 0, 0⟩, 7⟩], ⟨by norm_num, by norm_num, by norm_num⟩, rfl, rfl, ?_, ?_⟩
  all_goals
    have e : ∀ j : Nat, edge (1 / 8) 2 4 j = 1 / 8 * 2 ^ j := by
      intro j
      unfold edge
      rw [show (2 : ℝ) / (1 / 8) = 2 ^ (4 : ℝ) by norm_num, ← Real.rpow_mul (by norm_num)]
      rw [show (4 : ℝ) * ((j : ℝ) / ((4 : Nat) : ℝ)) = (j : ℝ) by push_cast; ring, Real.rpow_natCast]
    have d1 : ∀ t : ℝ, 0 ≤ t → t ≤ 1 → dist 100 ⟨50, 50, 50⟩ ⟨50 + t, 50, 50⟩ = t := by
      intro t h0 h1
      rw [dist_eq]; unfold norm2 disp displacement Shellfish.Los.wrap
      dsimp only
      rw [if_neg (by linarith), if_neg (by linarith), if_neg (by norm_num), if_neg (by norm_num)]
      rw [show (50 + t - 50) * (50 + t - 50) + (50 - 50) * (50 - 50) + (50 - 50) * (50 - 50) = t * t by ring, Real.sqrt_mul_self h0]
    simp only [List.map_cons, List.map_nil, List.sum_cons, List.sum_nil, massIn, d1 (1 / 4) (by norm_num) (by norm_num), d1 (1 / 2) (by norm_num) (by norm_num), counted]
    norm_num [e]

end
end Shellfish.Cmd
