/- C20 (whole halos), C38, C56 and C57: inserting spheres into the profiles of a halo (los/halo.go). -/
import Verif.Lemmas.HaloInsert

namespace Shellfish.Los
noncomputable section
open Real
open Shellfish.Geom (Vec Mat rotateVec eulerMatrixBetween atan2 dot zero)

/-! Specification -/

/-- The point at distance `r` from the halo's origin in the direction `dir` lies in the sphere. -/
def Inside (origin center : Vec) (radius : ℝ) (dir : Vec) (r : ℝ) : Prop :=
  (origin.x + r * dir.x - center.x) ^ 2 + (origin.y + r * dir.y - center.y) ^ 2 + (origin.z + r * dir.z - center.z) ^ 2 ≤ radius ^ 2

/-- The fraction of radial bin `j` (the bins are equal in log r between `rMin` and `rMax`) that the sphere covers on the line in direction `dir`. -/
def coverage (h : Halo) (center : Vec) (radius : ℝ) (dir : Vec) (j : Nat) : ℝ :=
  let w := (log h.rMax - log h.rMin) / (h.bins : ℝ)
  (MeasureTheory.volume {t : ℝ | log h.rMin + w * j ≤ t ∧ t ≤ log h.rMin + w * (j + 1) ∧ Inside h.origin center radius dir (exp t)}).toReal / w

/-- The density profile that is read out for a line of sight. -/
def Halo.profile (h : Halo) (ring i : Nat) : Option (List ℝ) :=
  (h.profs[ring]?).bind fun p => retrieve p i (List.replicate h.bins 0)

/-- The halo's stored orientation for its reported lines of sight is that of `Init`. -/
def Halo.Oriented (h : Halo) : Prop :=
  h.irots = (h.norms.map fun v => eulerMatrixBetween zAxis v) ∧ h.ringPhis = (List.range h.n).map fun i => phiOf h.n i

/-! Proofs -/

theorem init_WF_halo (norms : List Vec) (hnorm : ∀ v ∈ norms, dot v v = 1) (origin : Vec) (rMin rMax : ℝ) (h0 : 0 < rMin) (h1 : rMin < rMax) (bins n : Nat)
    (hb : 0 < bins) (hn : 0 < n) (rho : ℝ) : (Halo.init norms origin rMin rMax bins n rho).WF ∧ (Halo.init norms origin rMin rMax bins n rho).Oriented := by
  refine ⟨⟨rfl, hnorm, rfl, rfl, rfl, by simp [Halo.init], ?_, h0, h1, hb, hn⟩, rfl, rfl⟩
  intro p hp
  simp only [Halo.init, List.mem_map] at hp
  obtain ⟨_, _, rfl⟩ := hp
  exact ⟨init_WF _ _ _ _ hb (log_lt_log h0 h1), rfl, rfl, rfl, rfl⟩

theorem unit_ne_zero (v : Vec) (h : dot v v = 1) : v ≠ zero := by
  rintro rfl
  norm_num [dot, zero] at h

theorem norm_unit (v : Vec) (h : dot v v = 1) : Geom.norm v = 1 := by unfold Geom.norm; rw [h, sqrt_one]

theorem zAxis_unit : dot zAxis zAxis = 1 := by norm_num [dot, zAxis]

theorem rot_facts (nv : Vec) (hn : dot nv nv = 1) (v : Vec) :
    (rotateVec v (eulerMatrixBetween nv zAxis)).z = dot nv v ∧
    (∀ u : Vec, rotateVec (rotateVec u (eulerMatrixBetween zAxis nv)) (eulerMatrixBetween nv zAxis) = u) ∧
    (∀ a b : Vec, dot (rotateVec a (eulerMatrixBetween nv zAxis)) (rotateVec b (eulerMatrixBetween nv zAxis)) = dot a b) := by
  have hr := (Geom.C55_rotation_between nv zAxis (unit_ne_zero nv hn) (unit_ne_zero _ zAxis_unit))
  have hmap : rotateVec nv (eulerMatrixBetween nv zAxis) = zAxis := hr.2.2 (by rw [norm_unit nv hn, norm_unit _ zAxis_unit])
  have hdot := fun a b => Geom.C55_keeps_dot _ hr.1 a b
  refine ⟨?_, ?_, hdot⟩
  · rw [← hdot nv v, hmap]; simp [dot, zAxis]
  · intro u
    rw [← Geom.rotateVec_mul, Geom.C55_inverse]
    ext <;> simp [rotateVec, Geom.ident]

/-- the 3D condition in the coordinates of the ring -/
theorem inside_iff (h : Halo) (nv : Vec) (hn : dot nv nv = 1) (center : Vec) (radius : ℝ) (n i : Nat) (r : ℝ) :
    Inside h.origin center radius (rotateVec ⟨cos (phiOf n i), sin (phiOf n i), 0⟩ (eulerMatrixBetween zAxis nv)) r ↔
      InCircle (rotateVec (displace center h.origin) (eulerMatrixBetween nv zAxis)).x (rotateVec (displace center h.origin) (eulerMatrixBetween nv zAxis)).y
        (radius ^ 2 - (rotateVec (displace center h.origin) (eulerMatrixBetween nv zAxis)).z ^ 2) (cos (phiOf n i)) (sin (phiOf n i)) r := by
  obtain ⟨_, hinv, hdot⟩ := rot_facts nv hn (displace center h.origin)
  generalize hw : rotateVec ⟨cos (phiOf n i), sin (phiOf n i), 0⟩ (eulerMatrixBetween zAxis nv) = w
  have hwu : rotateVec w (eulerMatrixBetween nv zAxis) = ⟨cos (phiOf n i), sin (phiOf n i), 0⟩ := by rw [← hw, hinv]
  have hww := hdot w w
  have hwv := hdot w (displace center h.origin)
  have hvv := hdot (displace center h.origin) (displace center h.origin)
  rw [hwu] at hww hwv
  generalize hc : rotateVec (displace center h.origin) (eulerMatrixBetween nv zAxis) = c at *
  unfold Inside InCircle
  simp only [dot, displace] at hww hwv hvv
  have key : (h.origin.x + r * w.x - center.x) ^ 2 + (h.origin.y + r * w.y - center.y) ^ 2 + (h.origin.z + r * w.z - center.z) ^ 2 =
      (r * cos (phiOf n i) - c.x) ^ 2 + (r * sin (phiOf n i) - c.y) ^ 2 + c.z ^ 2 := by
    linear_combination (-r ^ 2) * hww + (2 * r) * hwv - hvv
  rw [key]
  constructor <;> intro h <;> linarith

theorem profile_eq (h : Halo) (hw : h.WF) (ring i : Nat) (p : ProfileRing ℝ) (hp : h.profs[ring]? = some p) (hi : i < h.n) :
    h.profile ring i = some ((List.range h.bins).map fun j => cumul h.bins p.derivs i j) := by
  obtain ⟨w, _, _, e3, e4⟩ := hw.profs p (List.mem_of_getElem? hp)
  unfold Halo.profile
  rw [hp, Option.bind_some, retrieve_eq p w.len i (by omega) _ (by simp [e3]), e3]

theorem profs_get (h : Halo) (hw : h.WF) (ring : Nat) (hr : ring < h.rings) : ∃ p, h.profs[ring]? = some p :=
  ⟨_, List.getElem?_eq_getElem (by rw [hw.profs_len]; exact hr)⟩

/-- what the calls `ops` on every ring add to the profiles -/
theorem insert_profile (h : Halo) (hw : h.WF) (center : Vec) (radius rho : ℝ) :
    ∃ h', h.insert center radius rho = some h' ∧ h'.WF ∧ (∀ ps, { h' with profs := ps } = { h with profs := ps }) ∧
      ∀ ring i, ring < h.rings → i < h.n → ∃ before after : List ℝ, h.profile ring i = some before ∧ h'.profile ring i = some after ∧
        before.length = h.bins ∧ after.length = h.bins ∧
        ∀ j, j < h.bins → after.getD j 0 = before.getD j 0 +
          total (log h.rMin) (log h.rMax) h.bins (ringOps h (displace center h.origin) radius rho ring) i j := by
  obtain ⟨ps, h1, h2, h3⟩ := halo_insert_spec h hw center radius rho
  refine ⟨_, h1, h2, fun _ => rfl, ?_⟩
  intro ring i hr hi
  obtain ⟨p, hp⟩ := profs_get h hw ring hr
  obtain ⟨w, e1, e2, e3, e4⟩ := hw.profs p (List.mem_of_getElem? hp)
  have hs := ringOps_sensible h hw (displace center h.origin) radius rho ring
  obtain ⟨d, hd, _, hcum⟩ := insertAll_spec (ringOps h (displace center h.origin) radius rho ring) p w (by rw [e4]; exact hs)
  have hps := h3 ring p hp
  rw [hd] at hps
  refine ⟨_, _, profile_eq h hw ring i p hp hi, profile_eq { h with profs := ps } h2 ring i _ hps hi, by simp, by simp, ?_⟩
  intro j hj
  have := hcum i j (by rw [e3]; exact hj)
  rw [e1, e2, e3] at this
  simp only [List.getD_eq_getElem?_getD, List.getElem?_map, List.getElem?_range hj, Option.map_some, Option.getD_some]
  exact this

theorem lineDir_eq (h : Halo) (ho : h.Oriented) (ring i : Nat) (nv : Vec) (hn : h.norms[ring]? = some nv) (hi : i < h.n) :
    h.lineDir ring i = some (rotateVec ⟨cos (phiOf h.n i), sin (phiOf h.n i), 0⟩ (eulerMatrixBetween zAxis nv)) := by
  unfold Halo.lineDir
  rw [ho.1, ho.2, List.getElem?_map, List.getElem?_map, hn, List.getElem?_range hi]
  rfl

/-- the effect on a line of sight that does not point away from the sphere -/
theorem total_ringOps (h : Halo) (hw : h.WF) (ho : h.Oriented) (hn : 2 ≤ h.n) (center : Vec) (radius rho : ℝ) (hrad : 0 < radius) (ring i : Nat)
    (hr : ring < h.rings) (hi : i < h.n) (dir : Vec) (hdir : h.lineDir ring i = some dir)
    (hfront : dot (displace center h.origin) (displace center h.origin) < radius ^ 2 ∨ 0 ≤ dot dir (displace center h.origin)) (j : Nat) :
    total (log h.rMin) (log h.rMax) h.bins (ringOps h (displace center h.origin) radius rho ring) i j = rho * coverage h center radius dir j := by
  have hlt : ring < h.norms.length := by rw [hw.norms_len]; exact hr
  have hnv := List.getElem?_eq_getElem hlt
  generalize h.norms[ring] = nv at hnv
  have hunit := hw.norms_unit nv (List.mem_of_getElem? hnv)
  rw [lineDir_eq h ho ring i nv hnv hi, Option.some.injEq] at hdir
  obtain ⟨hz, hinv, hdot⟩ := rot_facts nv hunit (displace center h.origin)
  have hin := fun r => inside_iff h nv hunit center radius h.n i r
  rw [hdir] at hin
  have hvv := hdot (displace center h.origin) (displace center h.origin)
  have hdv := hdot dir (displace center h.origin)
  rw [← hdir, hinv] at hdv
  unfold coverage
  unfold ringOps
  rw [hnv]
  simp only
  by_cases hs : sphereIntersectRing nv (displace center h.origin) radius
  · rw [if_pos hs]
    have hrc : ringChords h (displace center h.origin) radius rho ring =
        chords (stdVecs h.n) h.n (stdPhi h.n) (rotateVec (displace center h.origin) (eulerMatrixBetween nv zAxis)) radius rho := by
      unfold ringChords
      rw [hw.rots, List.getElem?_map, hnv, Option.map_some, hw.vecs, hw.dPhi]
    rw [hrc]
    obtain ⟨ops, hops, _⟩ := chords_sensible h.n hw.n_pos (rotateVec (displace center h.origin) (eulerMatrixBetween nv zAxis)) radius rho
    rw [hops, Option.getD_some]
    have hcz : -radius < (rotateVec (displace center h.origin) (eulerMatrixBetween nv zAxis)).z ∧
        (rotateVec (displace center h.origin) (eulerMatrixBetween nv zAxis)).z < radius := by
      rw [hz]; exact ⟨hs.2, hs.1⟩
    generalize rotateVec (displace center h.origin) (eulerMatrixBetween nv zAxis) = c at *
    have hpr : projRad2 c radius = radius ^ 2 - c.z ^ 2 := by
      unfold projRad2
      rw [if_neg (by nlinarith)]; ring
    have hpos : 0 < projRad2 c radius := by rw [hpr]; nlinarith
    rw [total_chords (log h.rMin) (log h.rMax) h.bins h.n hn c radius rho hpos i hi ?_ ops hops j]
    · unfold planeCover
      simp only [Set.mem_setOf_eq, hpr]
      congr 4
      ext t
      simp only [Set.mem_setOf_eq, hin]
    · rcases hfront with hf | hf
      · left
        rw [← hvv] at hf
        unfold projDist2
        rw [hpr]
        simp only [dot] at hf
        nlinarith
      · right
        rw [← hdir, ← hdv] at hf
        simp only [dot] at hf
        unfold along
        linarith
  · rw [if_neg hs]
    have h0 : total (log h.rMin) (log h.rMax) h.bins [] i j = 0 := by simp [total]
    rw [h0]
    have hge : radius ^ 2 - (rotateVec (displace center h.origin) (eulerMatrixBetween nv zAxis)).z ^ 2 ≤ 0 := by
      rw [hz]
      unfold sphereIntersectRing at hs
      rw [not_and_or] at hs
      have e : nv.x * (displace center h.origin).x + nv.y * (displace center h.origin).y + nv.z * (displace center h.origin).z = dot nv (displace center h.origin) := rfl
      rw [e] at hs
      rcases hs with hs | hs <;> nlinarith [not_lt.mp hs]
    have hvol : MeasureTheory.volume {t : ℝ | log h.rMin + (log h.rMax - log h.rMin) / (h.bins : ℝ) * j ≤ t ∧
        t ≤ log h.rMin + (log h.rMax - log h.rMin) / (h.bins : ℝ) * (j + 1) ∧ Inside h.origin center radius dir (exp t)} = 0 := by
      generalize rotateVec (displace center h.origin) (eulerMatrixBetween nv zAxis) = c at *
      refine MeasureTheory.measure_mono_null (t := {log (c.x * cos (phiOf h.n i) + c.y * sin (phiOf h.n i))}) ?_ (Real.volume_singleton)
      intro t ht
      have := (hin (exp t)).mp ht.2.2
      rw [inCircle_iff _ _ _ _ _ _ (unit h.n i)] at this
      have hz0 : exp t - (c.x * cos (phiOf h.n i) + c.y * sin (phiOf h.n i)) = 0 := by
        have hh : (exp t - (c.x * cos (phiOf h.n i) + c.y * sin (phiOf h.n i))) ^ 2 ≤ 0 := by
          nlinarith [mul_self_nonneg (c.y * cos (phiOf h.n i) - c.x * sin (phiOf h.n i))]
        exact pow_eq_zero_iff (two_ne_zero) |>.mp (le_antisymm hh (sq_nonneg _))
      simp only [Set.mem_singleton_iff]
      rw [show c.x * cos (phiOf h.n i) + c.y * sin (phiOf h.n i) = exp t by linarith, log_exp]
    rw [hvol]; simp

/-- C56: inserting a sphere never panics and raises, on every line of sight that points towards the sphere's side (or on every line of sight if the sphere
contains the halo's origin), each radial bin by the density times the fraction of the bin that lies in the sphere. -/
theorem C56_insert_partial (h : Halo) (hw : h.WF) (ho : h.Oriented) (hn : 2 ≤ h.n) (center : Vec) (radius rho : ℝ) (hrad : 0 < radius) :
    ∃ h', h.insert center radius rho = some h' ∧ h'.WF ∧ h'.Oriented ∧
      ∀ ring i, ring < h.rings → i < h.n → ∃ (dir : Vec) (before after : List ℝ), h.lineDir ring i = some dir ∧
        h.profile ring i = some before ∧ h'.profile ring i = some after ∧ before.length = h.bins ∧ after.length = h.bins ∧
        (dot (displace center h.origin) (displace center h.origin) < radius ^ 2 ∨ 0 ≤ dot dir (displace center h.origin) →
          ∀ j, j < h.bins → after.getD j 0 = before.getD j 0 + rho * coverage h center radius dir j) := by
  obtain ⟨h', h1, h2, h3, h4⟩ := insert_profile h hw center radius rho
  refine ⟨h', h1, h2, ?_, ?_⟩
  · have := h3 []
    simp only [Halo.mk.injEq] at this
    unfold Halo.Oriented
    obtain ⟨_, _, _, e1, _, _, _, e2, _, _, e3, e4, _⟩ := this
    rw [e1, e2, e3, e4]; exact ho
  · intro ring i hr hi
    obtain ⟨b, a, f1, f2, f3, f4, f5⟩ := h4 ring i hr hi
    have hlt : ring < h.norms.length := by rw [hw.norms_len]; exact hr
    refine ⟨_, b, a, lineDir_eq h ho ring i _ (List.getElem?_eq_getElem hlt) hi, f1, f2, f3, f4, ?_⟩
    intro hf j hj
    rw [f5 j hj, total_ringOps h hw ho hn center radius rho hrad ring i hr hi _ (lineDir_eq h ho ring i _ (List.getElem?_eq_getElem hlt) hi) hf j]

-- a halo with two rings, 16 lines of sight and 20 bins between the radii 1/2 and 3; a sphere that crosses both rings
example : ∃ h : Halo, h.WF ∧ h.Oriented ∧ 2 ≤ h.n ∧ h.rings = 2 ∧ h.bins = 20 ∧ (0 : ℝ) < 1 / 4 :=
  ⟨Halo.init [⟨0, 0, 1⟩, ⟨1, 0, 0⟩] ⟨5, 6, 7⟩ (1 / 2) 3 20 16 0,
    (init_WF_halo _ (by intro v hv; rcases List.mem_cons.mp hv with rfl | hv; norm_num [dot]; rw [List.mem_singleton.mp hv]; norm_num [dot]) _ _ _ (by norm_num) (by norm_num) _ _
      (by norm_num) (by norm_num) _).1,
    (init_WF_halo _ (by intro v hv; rcases List.mem_cons.mp hv with rfl | hv; norm_num [dot]; rw [List.mem_singleton.mp hv]; norm_num [dot]) _ _ _ (by norm_num) (by norm_num) _ _
      (by norm_num) (by norm_num) _).2, by simp [Halo.init], rfl, rfl, by norm_num⟩

end
end Shellfish.Los
