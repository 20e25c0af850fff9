/-
C84: the check mode passes exactly when the stated values agree with the simulation.
-/
import Verif.Model.Check
import Verif.Props.Box
import Mathlib.Data.List.GetD

namespace Shellfish.Check
noncomputable section
open Shellfish.Geom (Vec)
open Shellfish.Los (Region Sphere displacement goInt binSphereIntersections sphereSheetIntersect inRange)

/-! ### Specification -/

/-- `x` is the value `y` up to ten percent of `y`. -/
def Agrees (x y : ℝ) : Prop := |x - y| < |y| / 10

/-- Some periodic image of `p` is not further than `r` from `c`. -/
def Within (tw : ℝ) (c : Vec) (r : ℝ) (p : Vec) : Prop :=
  ∃ i j k : ℤ, (p.x + i * tw - c.x) ^ 2 + (p.y + j * tw - c.y) ^ 2 + (p.z + k * tw - c.z) ^ 2 ≤ r ^ 2

open Classical in
/-- The mass of the particles of these files within `r` of `c`. -/
def enclosed (files : List File) (c : Vec) (r : ℝ) : ℝ :=
  (files.map fun f => (((f.particles.getD []).filter fun p => decide (Within f.region.totalWidth c r p.x)).map (·.m)).sum).sum

/-- The files can be read, each contains particles of its region only, the masses are not negative; no particle is further from `c` than half a box in one coordinate (no wrapping, see
C37), or at the distance `r`. -/
structure Plain (files : List File) (c : Vec) (r : ℝ) : Prop where
  readable : ∀ f ∈ files, f.particles.isSome
  inside : ∀ f ∈ files, ∀ p ∈ f.particles.getD [], f.region.Contains p.x
  mass : ∀ f ∈ files, ∀ p ∈ f.particles.getD [], 0 ≤ p.m
  unwrapped : ∀ f ∈ files, ∀ p ∈ f.particles.getD [], |p.x.x - c.x| ≤ f.region.totalWidth / 2 ∧ |p.x.y - c.y| ≤ f.region.totalWidth / 2 ∧ |p.x.z - c.z| ≤ f.region.totalWidth / 2
  apart : ∀ f ∈ files, ∀ p ∈ f.particles.getD [], (p.x.x - c.x) ^ 2 + (p.x.y - c.y) ^ 2 + (p.x.z - c.z) ^ 2 ≠ r ^ 2

/-! ### Proofs -/

theorem almostEq_iff (x y : ℝ) (h : 0 ≤ x ∨ 0 ≤ y) : almostEq x y ↔ Agrees x y := by
  unfold almostEq Agrees
  rcases le_or_gt 0 y with hy | hy
  · rw [abs_of_nonneg hy]
  · have hx : 0 ≤ x := by rcases h with h | h <;> [exact h; linarith]
    rw [abs_of_neg hy, abs_of_nonneg (by linarith : 0 ≤ x - y)]
    constructor <;> intro h <;> linarith

theorem sq_image (d tw : ℝ) (i : ℤ) (h : |d| ≤ tw / 2) : d ^ 2 ≤ (d + i * tw) ^ 2 := by
  obtain ⟨h1, h2⟩ := abs_le.mp h
  rcases lt_trichotomy i 0 with hi | rfl | hi
  · have : (i : ℝ) ≤ -1 := by exact_mod_cast (by omega : i ≤ -1)
    have h3 : (i : ℝ) * tw ≤ -tw := by nlinarith
    nlinarith
  · simp
  · have : (1 : ℝ) ≤ i := by exact_mod_cast (by omega : 1 ≤ i)
    have h3 : tw ≤ (i : ℝ) * tw := by nlinarith
    nlinarith

theorem within_iff (tw : ℝ) (c : Vec) (r : ℝ) (p : Vec) (h : |p.x - c.x| ≤ tw / 2 ∧ |p.y - c.y| ≤ tw / 2 ∧ |p.z - c.z| ≤ tw / 2) :
    Within tw c r p ↔ (p.x - c.x) ^ 2 + (p.y - c.y) ^ 2 + (p.z - c.z) ^ 2 ≤ r ^ 2 := by
  constructor
  · rintro ⟨i, j, k, hi⟩
    have e1 := sq_image _ tw i h.1
    have e2 := sq_image _ tw j h.2.1
    have e3 := sq_image _ tw k h.2.2
    have r1 : p.x - c.x + i * tw = p.x + i * tw - c.x := by ring
    have r2 : p.y - c.y + j * tw = p.y + j * tw - c.y := by ring
    have r3 : p.z - c.z + k * tw = p.z + k * tw - c.z := by ring
    rw [r1] at e1; rw [r2] at e2; rw [r3] at e3
    linarith
  · intro h
    exact ⟨0, 0, 0, by simpa using h⟩

open Classical in
theorem addMass_eq (s : Sphere) (tw : ℝ) (ps : List Particle)
    (h : ∀ p ∈ ps, |p.x.x - s.c.x| ≤ tw / 2 ∧ |p.x.y - s.c.y| ≤ tw / 2 ∧ |p.x.z - s.c.z| ≤ tw / 2) :
    addMass s tw ps = ((ps.filter fun p => decide (Within tw s.c s.r p.x)).map (·.m)).sum := by
  unfold addMass
  have key : ∀ (l : List Particle) (m : ℝ), (∀ p ∈ l, |p.x.x - s.c.x| ≤ tw / 2 ∧ |p.x.y - s.c.y| ≤ tw / 2 ∧ |p.x.z - s.c.z| ≤ tw / 2) →
      l.foldl (fun m p =>
        let dx := displacement tw p.x.x s.c.x
        let dy := displacement tw p.x.y s.c.y
        let dz := displacement tw p.x.z s.c.z
        if dx * dx + dy * dy + dz * dz ≤ s.r * s.r then m + p.m else m) m = m + ((l.filter fun p => decide (Within tw s.c s.r p.x)).map (·.m)).sum := by
    intro l
    induction l with
    | nil => intro m _; simp
    | cons p l ih =>
      intro m hl
      have hp := hl p List.mem_cons_self
      rw [List.foldl_cons, ih _ fun q hq => hl q (List.mem_cons_of_mem _ hq)]
      dsimp only
      rw [Shellfish.Los.C37_displacement_partial _ _ _ hp.1, Shellfish.Los.C37_displacement_partial _ _ _ hp.2.1, Shellfish.Los.C37_displacement_partial _ _ _ hp.2.2]
      have e : (p.x.x - s.c.x) * (p.x.x - s.c.x) + (p.x.y - s.c.y) * (p.x.y - s.c.y) + (p.x.z - s.c.z) * (p.x.z - s.c.z) ≤ s.r * s.r ↔ Within tw s.c s.r p.x := by
        rw [within_iff tw s.c s.r p.x hp]
        constructor <;> intro h <;> nlinarith
      by_cases hw : Within tw s.c s.r p.x
      · rw [if_pos (e.mpr hw), List.filter_cons_of_pos (by simpa using hw), List.map_cons, List.sum_cons]
        ring
      · rw [if_neg (fun h => hw (e.mp h)), List.filter_cons_of_neg (by simpa using hw)]
  rw [key ps 0 h, zero_add]

theorem touches (hd : Region) (s : Sphere) (hr : 0 < s.r) (p : Vec) (hp : hd.Contains p) (h : (p.x - s.c.x) ^ 2 + (p.y - s.c.y) ^ 2 + (p.z - s.c.z) ^ 2 < s.r ^ 2) :
    sphereSheetIntersect s hd := by
  obtain ⟨h1, h2, h3⟩ := Shellfish.Los.abs_of_sq _ _ _ s.r hr h
  have one : ∀ (x c low w : ℝ), low ≤ x → x ≤ low + w → |x - c| < s.r → inRange c s.r low w hd.totalWidth := by
    intro x c low w a b hx
    obtain ⟨k1, k2⟩ := abs_lt.mp hx
    exact Or.inl ⟨by linarith, by linarith⟩
  exact ⟨one _ _ _ _ hp.1.1 hp.1.2 h1, one _ _ _ _ hp.2.1.1 hp.2.1.2 h2, one _ _ _ _ hp.2.2.1 hp.2.2.2 h3⟩

open Classical in
theorem bin_length (files : List File) (s : Sphere) (i : Nat) (hi : i < files.length) :
    ((binSphereIntersections (files.map (·.region)) [s]).getD i []).length = 0 ↔ ¬ sphereSheetIntersect s (files[i]).region := by
  have e : (binSphereIntersections (files.map (·.region)) [s]).getD i [] = [(s, 0)].filter fun s => decide (sphereSheetIntersect s.1 (files[i]).region) := by
    unfold binSphereIntersections
    rw [List.getD_eq_getElem _ _ (by simpa using hi)]
    simp [List.zipIdx]
  rw [e]
  by_cases h : sphereSheetIntersect s (files[i]).region <;> simp [h]

open Classical in
/-- The loop over the files adds up the enclosed mass. -/
theorem haloMass (files : List File) (s : Sphere) (hr : 0 < s.r) (h : Plain files s.c s.r) :
    (List.range files.length).foldlM (fun (mass : ℝ) i =>
      if ((binSphereIntersections (files.map (·.region)) [s]).getD i []).length = 0 then some mass
      else (files[i]?).bind fun f => f.particles.map fun ps => mass + addMass s f.region.totalWidth ps) 0 = some (enclosed files s.c s.r) := by
  have key : ∀ (n : Nat) (hn : n ≤ files.length), (List.range n).foldlM (fun (mass : ℝ) i =>
      if ((binSphereIntersections (files.map (·.region)) [s]).getD i []).length = 0 then some mass
      else (files[i]?).bind fun f => f.particles.map fun ps => mass + addMass s f.region.totalWidth ps) 0 = some (enclosed (files.take n) s.c s.r) := by
    intro n
    induction n with
    | zero => intro _; rfl
    | succ n ih =>
      intro hn
      have hi : n < files.length := by omega
      rw [List.range_succ, List.foldlM_append, ih (by omega)]
      simp only [Option.bind_eq_bind, Option.bind_some, List.foldlM_cons, List.foldlM_nil]
      have et : enclosed (files.take (n + 1)) s.c s.r = enclosed (files.take n) s.c s.r +
          ((((files[n]).particles.getD []).filter fun p => decide (Within (files[n]).region.totalWidth s.c s.r p.x)).map (·.m)).sum := by
        unfold enclosed
        rw [List.take_add_one, List.getElem?_eq_getElem hi, Option.toList_some, List.map_append, List.sum_append]
        simp
      have hm : files[n] ∈ files := List.getElem_mem hi
      rw [et]
      by_cases ht : sphereSheetIntersect s (files[n]).region
      · rw [if_neg (by rw [bin_length files s n hi]; exact not_not.mpr ht), List.getElem?_eq_getElem hi, Option.bind_some]
        obtain ⟨ps, hps⟩ := Option.isSome_iff_exists.mp (h.readable _ hm)
        rw [hps, Option.map_some, Option.getD_some, addMass_eq s _ ps fun p hp => h.unwrapped _ hm p (by rw [hps]; exact hp)]
        rfl
      · rw [if_pos ((bin_length files s n hi).mpr ht)]
        have : (((files[n]).particles.getD []).filter fun p => decide (Within (files[n]).region.totalWidth s.c s.r p.x)) = [] := by
          rw [List.filter_eq_nil_iff]
          intro p hp hw
          rw [decide_eq_true_eq, within_iff _ _ _ _ (h.unwrapped _ hm p hp)] at hw
          exact ht (touches _ s hr p.x (h.inside _ hm p hp) (lt_of_le_of_ne hw (h.apart _ hm p hp)))
        rw [this]
        simp
  have := key files.length le_rfl
  rwa [List.take_length] at this

open Classical in
theorem enclosed_nonneg (files : List File) (c : Vec) (r : ℝ) (h : ∀ f ∈ files, ∀ p ∈ f.particles.getD [], 0 ≤ p.m) : 0 ≤ enclosed files c r := by
  unfold enclosed
  apply List.sum_nonneg
  intro x hx
  obtain ⟨f, hf, rfl⟩ := List.mem_map.mp hx
  apply List.sum_nonneg
  intro y hy
  obtain ⟨p, hp, rfl⟩ := List.mem_map.mp hy
  exact h f hf p (List.mem_filter.mp hp).1

open Classical in
theorem failureMass_iff (masses : List ℝ) (ps : List Particle) (h : ∀ p ∈ ps, 0 ≤ p.m) : failureMass masses ps ≠ -1 ↔ ∃ p ∈ ps, ∀ mm ∈ masses, ¬ Agrees p.m mm := by
  unfold failureMass
  cases hf : ps.find? fun p => decide (¬ ∃ mm ∈ masses, almostEq p.m mm) with
  | none =>
    rw [List.find?_eq_none] at hf
    simp only [Option.map_none, Option.getD_none, ne_eq, not_true, false_iff]
    rintro ⟨p, hp, hno⟩
    have := hf p hp
    rw [decide_eq_true_eq, not_not] at this
    obtain ⟨mm, hm, ha⟩ := this
    exact hno mm hm ((almostEq_iff _ _ (Or.inl (h p hp))).mp ha)
  | some p =>
    have hp : p ∈ ps := List.mem_of_find?_eq_some hf
    have h2 := List.find?_some hf
    rw [decide_eq_true_eq] at h2
    simp only [Option.map_some, Option.getD_some, ne_eq]
    constructor
    · intro _
      exact ⟨p, hp, fun mm hm ha => h2 ⟨mm, hm, (almostEq_iff _ _ (Or.inl (h p hp))).mpr ha⟩⟩
    · intro _ he
      have := h p hp
      linarith

/-- What the check needs of the simulation: the last snapshot has a first file that can be read, with masses that are not negative; if a halo is stated (six numbers) its radius is
positive, and the files of its snapshot are there and `Plain` for it. -/
structure Usable (disk : Int → Option (List File)) (c : Config) (f : File) : Prop where
  particles : ∃ ps, f.particles = some ps ∧ ∀ p ∈ ps, 0 ≤ p.m
  total : f.total.isSome
  halo : c.halo = [] ∨ ∃ snap x y z r m files, c.halo = [snap, x, y, z, r, m] ∧ 0 < r ∧ disk (goInt snap) = some files ∧ files ≠ [] ∧ Plain files ⟨x, y, z⟩ r

/-- The check with this name must fail: a value is stated and does not agree with the one read. -/
def Wrong (disk : Int → Option (List File)) (c : Config) (f : File) : Failure → Prop
  | .h0 => 0 < c.h0 ∧ ¬ Agrees c.h0 (100 * f.h100)
  | .omegaM => 0 < c.omegaM ∧ ¬ Agrees c.omegaM f.omegaM
  | .omegaL => 0 < c.omegaL ∧ ¬ Agrees c.omegaL f.omegaL
  | .boxWidth => 0 < c.boxWidth ∧ ¬ Agrees c.boxWidth f.region.totalWidth
  | .masses => c.masses ≠ [] ∧ ∃ p ∈ f.particles.getD [], ∀ m ∈ c.masses, ¬ Agrees p.m m
  | .count => 0 < c.count ∧ f.total ≠ some c.count
  | .halo => ∃ snap x y z r m, c.halo = [snap, x, y, z, r, m] ∧ ¬ Agrees m (enclosed ((disk (goInt snap)).getD []) ⟨x, y, z⟩ r)

open Classical in
/-- C84, partial: the messages of the check mode are those of the values that disagree with the simulation by ten percent or more, each once; without such values it passes.  Missing: halos
for which particles are wrapped around the box, and the masses in the other files. -/
theorem C84_failures_partial (disk : Int → Option (List File)) (snapMax : Int) (c : Config) (f : File) (rest : List File) (hd : disk snapMax = some (f :: rest)) (hu : Usable disk c f) :
    ∃ l : List Failure, l = [Failure.h0, .omegaM, .omegaL, .boxWidth, .masses, .count, .halo].filter (fun x => decide (Wrong disk c f x)) ∧
      run disk snapMax c = if l = [] then .passed else .failed l := by
  refine ⟨_, rfl, ?_⟩
  obtain ⟨ps, hps, hpos⟩ := hu.particles
  obtain ⟨n, hn⟩ := Option.isSome_iff_exists.mp hu.total
  have w1 : (c.h0 > 0 ∧ ¬ almostEq c.h0 (f.h100 * 100)) ↔ Wrong disk c f .h0 := by
    unfold Wrong
    rw [mul_comm]
    exact and_congr_right fun h => not_congr (almostEq_iff _ _ (Or.inl (le_of_lt h)))
  have w2 : (c.omegaM > 0 ∧ ¬ almostEq c.omegaM f.omegaM) ↔ Wrong disk c f .omegaM := and_congr_right fun h => not_congr (almostEq_iff _ _ (Or.inl (le_of_lt h)))
  have w3 : (c.omegaL > 0 ∧ ¬ almostEq c.omegaL f.omegaL) ↔ Wrong disk c f .omegaL := and_congr_right fun h => not_congr (almostEq_iff _ _ (Or.inl (le_of_lt h)))
  have w4 : (c.boxWidth > 0 ∧ ¬ almostEq c.boxWidth f.region.totalWidth) ↔ Wrong disk c f .boxWidth := and_congr_right fun h => not_congr (almostEq_iff _ _ (Or.inl (le_of_lt h)))
  have hh : headerChecks f c [] = [Failure.h0, .omegaM, .omegaL, .boxWidth].filter (fun x => decide (Wrong disk c f x)) := by
    unfold headerChecks
    dsimp only
    simp only [w1, w2, w3, w4]
    by_cases h1 : Wrong disk c f .h0 <;> by_cases h2 : Wrong disk c f .omegaM <;> by_cases h3 : Wrong disk c f .omegaL <;> by_cases h4 : Wrong disk c f .boxWidth <;> simp [h1, h2, h3, h4]
  have hp : ∀ l, particleChecks f c l = some (l ++ [Failure.masses, .count].filter (fun x => decide (Wrong disk c f x))) := by
    intro l
    have w5 : ((0 < c.masses.length) ∧ failureMass c.masses ps ≠ -1) ↔ Wrong disk c f .masses := by
      unfold Wrong
      rw [hps, Option.getD_some, failureMass_iff _ _ hpos, List.length_pos_iff]
    have w6 : (0 < c.count ∧ n ≠ c.count) ↔ Wrong disk c f .count := by
      unfold Wrong
      rw [hn]
      simp
    have e1 : (if c.masses.length > 0 then f.particles.map fun ps => if failureMass c.masses ps ≠ -1 then l ++ [.masses] else l else some l) =
        some (l ++ [Failure.masses].filter (fun x => decide (Wrong disk c f x))) := by
      by_cases h1 : c.masses.length > 0
      · rw [if_pos h1, hps, Option.map_some]
        by_cases h2 : failureMass c.masses ps ≠ -1
        · rw [if_pos h2, List.filter_cons_of_pos (by simpa using w5.mp ⟨h1, h2⟩)]; rfl
        · rw [if_neg h2, List.filter_cons_of_neg (by intro h; exact h2 (w5.mpr (by simpa using h)).2)]; simp
      · rw [if_neg h1, List.filter_cons_of_neg (by intro h; exact h1 (w5.mpr (by simpa using h)).1)]; simp
    unfold particleChecks
    rw [e1, Option.bind_some]
    have e2 : [Failure.masses, Failure.count].filter (fun x => decide (Wrong disk c f x)) =
        [Failure.masses].filter (fun x => decide (Wrong disk c f x)) ++ [Failure.count].filter (fun x => decide (Wrong disk c f x)) := by
      rw [← List.filter_append]; rfl
    rw [e2, ← List.append_assoc]
    generalize l ++ [Failure.masses].filter (fun x => decide (Wrong disk c f x)) = l'
    by_cases h1 : c.count > 0
    · rw [if_pos h1, hn, Option.map_some]
      by_cases h2 : n ≠ c.count
      · rw [if_pos h2, List.filter_cons_of_pos (by simpa using w6.mp ⟨h1, h2⟩)]; rfl
      · rw [if_neg h2, List.filter_cons_of_neg (by intro h; exact h2 (w6.mpr (by simpa using h)).2)]; simp
    · rw [if_neg h1, List.filter_cons_of_neg (by intro h; exact h1 (w6.mpr (by simpa using h)).1)]; simp
  have hhalo : ∀ l, haloChecks disk c l = some (l ++ [Failure.halo].filter (fun x => decide (Wrong disk c f x))) := by
    intro l
    rcases hu.halo with h0 | ⟨snap, x, y, z, r, m, files, h1, hr, h2, h3, h4⟩
    · have hw : ¬ Wrong disk c f .halo := by
        rintro ⟨_, _, _, _, _, _, h, _⟩
        rw [h0] at h
        cases h
      unfold haloChecks
      rw [h0]
      simp [hw]
    · have hw : (¬ almostEq m (enclosed files ⟨x, y, z⟩ r)) ↔ Wrong disk c f .halo := by
        rw [almostEq_iff _ _ (Or.inr (enclosed_nonneg files _ r h4.mass))]
        constructor
        · intro h
          exact ⟨snap, x, y, z, r, m, h1, by rw [h2]; exact h⟩
        · rintro ⟨_, _, _, _, _, _, h, h'⟩
          rw [h1] at h
          cases h
          rw [h2] at h'
          exact h'
      unfold haloChecks
      rw [h1]
      dsimp only
      rw [h2, Option.bind_some, if_neg h3, haloMass files ⟨⟨x, y, z⟩, r⟩ hr h4, Option.map_some]
      by_cases h : Wrong disk c f .halo
      · simp only [hw, h, if_true]
        simp [h]
      · simp only [hw, h, if_false]
        simp [h]
  unfold run
  rw [hd]
  dsimp only
  rw [hh, hp, Option.bind_some, hhalo, ← List.filter_append, ← List.filter_append]
  show (match some ([Failure.h0, .omegaM, .omegaL, .boxWidth, .masses, .count, .halo].filter fun x => decide (Wrong disk c f x)) with
    | none => Res.stopped | some [] => .passed | some l => .failed l) = _
  generalize [Failure.h0, .omegaM, .omegaL, .boxWidth, .masses, .count, .halo].filter (fun x => decide (Wrong disk c f x)) = l
  cases l <;> simp

/-- C84, partial: the check mode passes exactly when every stated value agrees with the simulation. -/
theorem C84_passed_partial (disk : Int → Option (List File)) (snapMax : Int) (c : Config) (f : File) (rest : List File) (hd : disk snapMax = some (f :: rest)) (hu : Usable disk c f) :
    run disk snapMax c = .passed ↔ ∀ x, ¬ Wrong disk c f x := by
  classical
  obtain ⟨l, hl, hr⟩ := C84_failures_partial disk snapMax c f rest hd hu
  rw [hr]
  constructor
  · intro h x hx
    have : x ∈ l := by
      rw [hl, List.mem_filter]
      refine ⟨?_, by simpa using hx⟩
      cases x <;> simp
    rw [if_neg (by intro e; rw [e] at this; cases this)] at h
    cases h
  · intro h
    have : l = [] := by
      rw [hl, List.filter_eq_nil_iff]
      intro x _
      simpa using h x
    rw [if_pos this]

/-! ### Examples -/

/-- A file of a box of width 100 with one particle. -/
def oneFile (origin width x : Vec) (m : ℝ) : File := ⟨⟨origin, width, 100⟩, 3/10, 7/10, 7/10, some 1, some [⟨x, m⟩]⟩

/-- A configuration that states nothing. -/
def noConfig : Config := ⟨-1, -1, -1, -1, [], -1, []⟩

theorem goInt_five : goInt 5 = 5 := by
  rw [Shellfish.Los.goInt_nonneg _ (by norm_num)]
  exact_mod_cast Int.floor_intCast (R := ℝ) 5

/-- Non-vacuous: a simulation and a configuration that states everything. -/
example : ∃ (disk : Int → Option (List File)) (snapMax : Int) (c : Config) (f : File) (rest : List File), disk snapMax = some (f :: rest) ∧ Usable disk c f ∧ c.masses ≠ [] ∧ 0 < c.h0 ∧
    0 < c.count ∧ c.halo ≠ [] := by
  refine ⟨fun s => if s = 5 then some [oneFile ⟨0, 0, 0⟩ ⟨100, 100, 100⟩ ⟨51, 50, 50⟩ 1] else none, 5, ⟨70, 3/10, 7/10, 100, [1], 1, [5, 50, 50, 50, 2, 1]⟩,
    oneFile ⟨0, 0, 0⟩ ⟨100, 100, 100⟩ ⟨51, 50, 50⟩ 1, [], rfl, ⟨⟨_, rfl, ?_⟩, rfl, Or.inr ⟨5, 50, 50, 50, 2, 1, _, rfl, by norm_num, by rw [goInt_five, if_pos rfl], by simp, ?_⟩⟩, by simp, by norm_num, by decide, by simp⟩
  · intro p hp
    rw [List.mem_singleton] at hp
    subst hp
    norm_num
  · constructor <;> intro f hf <;> rw [List.mem_singleton] at hf <;> subst hf
    · rfl
    all_goals
      intro p hp
      simp only [oneFile, Option.getD_some, List.mem_singleton] at hp
      subst hp
      norm_num [oneFile, Region.Contains, abs_le]

/-! ### What is missing -/

theorem wrong_none (disk : Int → Option (List File)) (c : Config) (f : File) (h1 : c.h0 ≤ 0) (h2 : c.omegaM ≤ 0) (h3 : c.omegaL ≤ 0) (h4 : c.boxWidth ≤ 0)
    (h5 : ¬ Wrong disk c f .masses) (h6 : c.count ≤ 0) (h7 : c.halo = []) (x : Failure) : ¬ Wrong disk c f x := by
  cases x with
  | h0 => exact fun h => absurd h.1 (not_lt.mpr h1)
  | omegaM => exact fun h => absurd h.1 (not_lt.mpr h2)
  | omegaL => exact fun h => absurd h.1 (not_lt.mpr h3)
  | boxWidth => exact fun h => absurd h.1 (not_lt.mpr h4)
  | masses => exact h5
  | count => exact fun h => absurd h.1 (not_lt.mpr h6)
  | halo =>
    rintro ⟨_, _, _, _, _, _, h, _⟩
    rw [h7] at h
    cases h

/-- C84 is false of the masses in other files than the first one: "all the valid DM particle masses" are only compared with the first file. -/
theorem C84_other_files_false : ∃ (disk : Int → Option (List File)) (snapMax : Int) (c : Config) (files : List File) (f : File) (p : Particle), disk snapMax = some files ∧ f ∈ files ∧
    p ∈ f.particles.getD [] ∧ c.masses ≠ [] ∧ (∀ m ∈ c.masses, ¬ Agrees p.m m) ∧ run disk snapMax c = .passed := by
  let f1 := oneFile ⟨0, 0, 0⟩ ⟨100, 100, 100⟩ ⟨50, 50, 50⟩ 1
  let f2 := oneFile ⟨0, 0, 0⟩ ⟨100, 100, 100⟩ ⟨60, 50, 50⟩ 5
  refine ⟨fun _ => some [f1, f2], 5, { noConfig with masses := [1] }, [f1, f2], f2, ⟨⟨60, 50, 50⟩, 5⟩, rfl, by simp, by simp [f2, oneFile], by simp, ?_, ?_⟩
  · intro m hm
    rw [List.mem_singleton] at hm
    subst hm
    norm_num [Agrees, abs_lt]
  · rw [C84_passed_partial _ _ _ f1 [f2] rfl ⟨⟨_, rfl, ?_⟩, rfl, Or.inl rfl⟩]
    · refine wrong_none _ _ _ (by norm_num [noConfig]) (by norm_num [noConfig]) (by norm_num [noConfig]) (by norm_num [noConfig]) ?_ (by norm_num [noConfig]) rfl
      rintro ⟨_, p, hp, hno⟩
      simp only [f1, oneFile, Option.getD_some, List.mem_singleton] at hp
      subst hp
      exact hno 1 (by simp) (by norm_num [Agrees])
    · intro p hp
      rw [List.mem_singleton] at hp
      subst hp
      norm_num

/-- C84 is false of stated zeros: a simulation with OmegaL = 0.7 passes a check that states OmegaL = 0. -/
theorem C84_zero_false : ∃ (disk : Int → Option (List File)) (snapMax : Int) (c : Config) (f : File), disk snapMax = some [f] ∧ c.omegaL = 0 ∧ ¬ Agrees c.omegaL f.omegaL ∧
    run disk snapMax c = .passed := by
  refine ⟨fun _ => some [oneFile ⟨0, 0, 0⟩ ⟨100, 100, 100⟩ ⟨50, 50, 50⟩ 1], 5, { noConfig with omegaL := 0 }, oneFile ⟨0, 0, 0⟩ ⟨100, 100, 100⟩ ⟨50, 50, 50⟩ 1, rfl, rfl, by norm_num [Agrees, oneFile], ?_⟩
  rw [C84_passed_partial _ _ _ (oneFile ⟨0, 0, 0⟩ ⟨100, 100, 100⟩ ⟨50, 50, 50⟩ 1) [] rfl ⟨⟨_, rfl, ?_⟩, rfl, Or.inl rfl⟩]
  · exact wrong_none _ _ _ (by norm_num [noConfig]) (by norm_num [noConfig]) (by norm_num) (by norm_num [noConfig]) (fun h => h.1 rfl) (by norm_num [noConfig]) rfl
  · intro p hp
    rw [List.mem_singleton] at hp
    subst hp
    norm_num

/-- A run that only states a halo, on one file which is read. -/
theorem run_halo (f : File) (ps : List Particle) (hps : f.particles = some ps) (s : Sphere) (ht : sphereSheetIntersect s f.region) (m : ℝ) :
    (almostEq m (addMass s f.region.totalWidth ps) → run (fun _ => some [f]) 5 { noConfig with halo := [5, s.c.x, s.c.y, s.c.z, s.r, m] } = .passed) ∧
    (¬ almostEq m (addMass s f.region.totalWidth ps) → run (fun _ => some [f]) 5 { noConfig with halo := [5, s.c.x, s.c.y, s.c.z, s.r, m] } = .failed [.halo]) := by
  classical
  have hh : headerChecks f { noConfig with halo := [5, s.c.x, s.c.y, s.c.z, s.r, m] } [] = [] := by norm_num [headerChecks, noConfig]
  have hp : particleChecks f { noConfig with halo := [5, s.c.x, s.c.y, s.c.z, s.r, m] } [] = some [] := by norm_num [particleChecks, noConfig]
  have hb : ¬ ((binSphereIntersections ([f].map (·.region)) [s]).getD 0 []).length = 0 := by
    rw [bin_length [f] s 0 (by simp), not_not]
    exact ht
  have hk : haloChecks (fun _ => some [f]) { noConfig with halo := [5, s.c.x, s.c.y, s.c.z, s.r, m] } [] = some (if ¬ almostEq m (addMass s f.region.totalWidth ps) then [.halo] else []) := by
    unfold haloChecks
    dsimp only
    rw [Option.bind_some, if_neg (by simp), List.length_singleton, List.range_one, List.foldlM_cons, if_neg hb]
    simp only [List.getElem?_cons_zero, Option.bind_some, hps, Option.map_some, Option.bind_eq_bind, List.foldlM_nil, zero_add, List.nil_append]
    rfl
  unfold run
  dsimp only
  rw [hh, hp, Option.bind_some, hk]
  constructor
  · intro h
    rw [if_neg (not_not.mpr h)]
  · intro h
    rw [if_pos h]

open Classical in
/-- C84 is false of a halo at the edge of the box: the right mass is stated, but the particles on the other side of the edge are not found. -/
theorem C84_edge_false : ∃ (disk : Int → Option (List File)) (snapMax : Int) (c : Config) (f : File) (x y z r m : ℝ), disk snapMax = some [f] ∧ c.halo = [5, x, y, z, r, m] ∧
    (0 ≤ x ∧ x < f.region.totalWidth) ∧ m = enclosed [f] ⟨x, y, z⟩ r ∧ run disk snapMax c = .failed [.halo] := by
  refine ⟨fun _ => some [oneFile ⟨90, 40, 40⟩ ⟨10, 20, 20⟩ ⟨98, 50, 50⟩ 1], 5, { noConfig with halo := [5, 1, 50, 50, 5, 1] }, oneFile ⟨90, 40, 40⟩ ⟨10, 20, 20⟩ ⟨98, 50, 50⟩ 1, 1, 50, 50, 5, 1,
    rfl, rfl, by norm_num [oneFile], ?_, ?_⟩
  · have hw : Within 100 ⟨1, 50, 50⟩ 5 ⟨98, 50, 50⟩ := ⟨-1, 0, 0, by norm_num⟩
    simp [enclosed, oneFile, hw]
  · refine (run_halo _ [⟨⟨98, 50, 50⟩, 1⟩] rfl ⟨⟨1, 50, 50⟩, 5⟩ ?_ 1).2 ?_
    · norm_num [sphereSheetIntersect, inRange, Shellfish.Los.wrapDist, oneFile]
    · norm_num [addMass, almostEq, oneFile, displacement, Shellfish.Los.wrap]

open Classical in
/-- C84 is false of particles far away: a particle half a box away is counted, and a wrong mass passes. -/
theorem C84_far_false : ∃ (disk : Int → Option (List File)) (snapMax : Int) (c : Config) (f : File) (x y z r m : ℝ), disk snapMax = some [f] ∧ c.halo = [5, x, y, z, r, m] ∧
    enclosed [f] ⟨x, y, z⟩ r = 0 ∧ m = 1 ∧ run disk snapMax c = .passed := by
  refine ⟨fun _ => some [oneFile ⟨0, 40, 40⟩ ⟨100, 20, 20⟩ ⟨61, 50, 50⟩ 1], 5, { noConfig with halo := [5, 10, 50, 50, 5, 1] }, oneFile ⟨0, 40, 40⟩ ⟨100, 20, 20⟩ ⟨61, 50, 50⟩ 1, 10, 50, 50, 5, 1,
    rfl, rfl, ?_, rfl, ?_⟩
  · have hw : ¬ Within 100 ⟨10, 50, 50⟩ 5 ⟨61, 50, 50⟩ := by
      rintro ⟨i, j, k, h⟩
      have h2 : ((61 : ℝ) + i * 100 - 10) ^ 2 ≤ 25 := by nlinarith [sq_nonneg ((50 : ℝ) + j * 100 - 50), sq_nonneg ((50 : ℝ) + k * 100 - 50)]
      have h3 : |(61 : ℝ) + i * 100 - 10| ≤ 5 := abs_le_of_sq_le_sq (by norm_num at h2 ⊢; linarith) (by norm_num)
      obtain ⟨a, b⟩ := abs_le.mp h3
      have a' : (-1 : ℝ) < i := by linarith
      have b' : (i : ℝ) < 0 := by linarith
      have : (-1 : ℤ) < i := by exact_mod_cast a'
      have : i < 0 := by exact_mod_cast b'
      omega
    simp [enclosed, oneFile, hw]
  · refine (run_halo _ [⟨⟨61, 50, 50⟩, 1⟩] rfl ⟨⟨10, 50, 50⟩, 5⟩ ?_ 1).1 ?_
    · norm_num [sphereSheetIntersect, inRange, Shellfish.Los.wrapDist, oneFile]
    · norm_num [addMass, almostEq, oneFile, displacement, Shellfish.Los.wrap]

end
end Shellfish.Check
