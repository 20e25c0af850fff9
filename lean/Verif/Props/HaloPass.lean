/- C57: the cut on distances before insertion (los/halo.go, `Intersect`). -/
import Verif.Props.HaloCut

namespace Shellfish.Los
noncomputable section
open Real
open Shellfish.Geom (Vec Mat rotateVec eulerMatrixBetween atan2 dot zero)

/-- both ends of a chord, outside and inside -/
theorem chord_far_bound (D r z b : ℝ) (hD : r ≤ D) (hr : 0 ≤ r) (hb : 0 ≤ r * r - z * z - b * b) :
    D - r ≤ sqrt (D * D - z * z - b * b) - sqrt (r * r - z * z - b * b) := by
  set u := sqrt (D * D - z * z - b * b) with hu
  set v := sqrt (r * r - z * z - b * b) with hv
  have hDr : r * r ≤ D * D := by nlinarith
  have hu2 : u * u = D * D - z * z - b * b := mul_self_sqrt (by linarith)
  have hv2 : v * v = r * r - z * z - b * b := mul_self_sqrt hb
  have hu0 : 0 ≤ u := sqrt_nonneg _
  have hv0 : 0 ≤ v := sqrt_nonneg _
  have huD : u ≤ D := by
    rw [hu]
    refine sqrt_le_iff.mpr ⟨by linarith, ?_⟩
    nlinarith [sq_nonneg z, sq_nonneg b]
  have hvr : v ≤ r := by
    rw [hv]
    refine sqrt_le_iff.mpr ⟨by linarith, ?_⟩
    nlinarith [sq_nonneg z, sq_nonneg b]
  -- (D - r)(D + r) = (u - v)(u + v) with u + v ≤ D + r
  have key : (D - r) * (D + r) = (u - v) * (u + v) := by nlinarith
  by_contra hc
  push Not at hc
  have hDr0 : 0 ≤ D - r := by linarith
  rcases eq_or_lt_of_le (add_nonneg hu0 hv0) with h0 | h0
  · have : (D - r) * (D + r) = 0 := by rw [key, ← h0]; ring
    rcases mul_eq_zero.mp this with h | h
    · nlinarith
    · nlinarith
  · nlinarith

theorem chord_hi_bound (D r z b : ℝ) (hD : 0 ≤ D) (hr : 0 ≤ r) :
    sqrt (D * D - z * z - b * b) + sqrt (r * r - z * z - b * b) ≤ D + r := by
  have h1 : sqrt (D * D - z * z - b * b) ≤ D := sqrt_le_iff.mpr ⟨hD, by nlinarith [sq_nonneg z, sq_nonneg b]⟩
  have h2 : sqrt (r * r - z * z - b * b) ≤ r := sqrt_le_iff.mpr ⟨hr, by nlinarith [sq_nonneg z, sq_nonneg b]⟩
  linarith

/-- the calls for a sphere that the cut rejects are all outside the radial range -/
theorem chords_outside (n : Nat) (hn : 0 < n) (c : Vec) (radius rho rMin rMax : ℝ) (hz : -radius < c.z) (hz' : c.z < radius) (h0 : 0 < rMin) (h1 : rMin < rMax)
    (hcut : sqrt (dot c c) + radius ≤ rMin ∨ rMax + radius ≤ sqrt (dot c c)) (ops : List (Op ℝ))
    (ho : chords (stdVecs n) n (stdPhi n) c radius rho = some ops) (o : Op ℝ) (hm : o ∈ ops) :
    o.stop ≤ ((log rMin : ℝ) : WithBot ℝ) ∨ ((log rMax : ℝ) : WithBot ℝ) ≤ o.start := by
  have hrad : 0 < radius := by linarith
  set D := sqrt (dot c c) with hD
  have hD0 : 0 ≤ D := sqrt_nonneg _
  have hDD : D * D = c.x * c.x + c.y * c.y + c.z * c.z := by
    rw [hD, mul_self_sqrt]; · simp [dot]
    simp only [dot]; nlinarith [sq_nonneg c.x, sq_nonneg c.y, sq_nonneg c.z]
  have hpd : projDist2 c = D * D - c.z * c.z := by unfold projDist2; linarith
  have hpr : projRad2 c radius = radius * radius - c.z * c.z := by
    unfold projRad2
    rw [if_neg]
    nlinarith
  by_cases h : projRad2 c radius > projDist2 c
  · rw [chords_near n _ c radius rho h, Option.some.injEq] at ho
    subst ho
    obtain ⟨i, _, rfl⟩ := List.mem_map.mp hm
    have hlt : D < radius := by
      by_contra hc
      rw [hpr, hpd] at h
      nlinarith
    left
    unfold nearOp
    simp only
    rw [goLog_le_iff, exp_log h0]
    rcases hcut with hcut | hcut
    · refine le_trans ?_ hcut
      have := chord_hi_bound D radius c.z (impact n c i) hD0 hrad.le
      unfold oneValIntrDist
      rw [hpr, hpd]
      have := sqrt_nonneg (D * D - c.z * c.z - impact n c i * impact n c i)
      split_ifs <;> linarith
    · linarith
  · rw [chords_far n hn c radius rho h, Option.some.injEq] at ho
    subst ho
    obtain ⟨i, _, hf⟩ := List.mem_filterMap.mp hm
    have hle : radius ≤ D := by
      by_contra hc
      rw [hpr, hpd] at h
      nlinarith
    unfold farOp twoValIntrDist at hf
    rw [hpr, hpd] at hf
    split_ifs at hf with hneg
    · simp at hf
    · rw [not_or] at hneg
      simp only [Option.map_some, Option.some.injEq] at hf
      subst hf
      simp only
      rcases hcut with hcut | hcut
      · left
        rw [goLog_le_iff, exp_log h0]
        exact le_trans (chord_hi_bound D radius c.z (impact n c i) hD0 hrad.le) hcut
      · right
        rw [le_goLog_iff, exp_log (by linarith)]
        have := chord_far_bound D radius c.z (impact n c i) hle hrad.le (not_lt.mp hneg.2)
        linarith

theorem insertAll_outside (p : ProfileRing ℝ) (ops : List (Op ℝ))
    (h : ∀ o ∈ ops, o.stop ≤ (p.lowR : WithBot ℝ) ∨ (p.highR : WithBot ℝ) ≤ o.start) : insertAll p ops = some p := by
  induction ops with
  | nil => rfl
  | cons o ops ih =>
    unfold insertAll
    rw [List.foldlM_cons, C21_outside p o.start o.stop o.rho o.i (h o (by simp))]
    exact ih (fun o ho => h o (by simp [ho]))

theorem sq_zero (a b c : ℝ) (h : a * a + b * b + c * c ≤ 0) : a = 0 ∧ b = 0 ∧ c = 0 := by
  refine ⟨?_, ?_, ?_⟩ <;> nlinarith [sq_nonneg a, sq_nonneg b, sq_nonneg c]

/-- C57: a particle that the cut on distances rejects changes nothing when it is inserted nevertheless, unless it lies exactly at the center of the halo and
is larger than the inner radius. -/
theorem C57_cut_partial (h : Halo) (hw : h.WF) (center : Vec) (radius rho : ℝ) (hrej : ¬ h.intersects center radius)
    (hc : center ≠ h.origin ∨ radius ≤ h.rMin) : h.insert center radius rho = some h := by
  obtain ⟨ps, h1, h2, h3⟩ := halo_insert_spec h hw center radius rho
  have hps : ps = h.profs := by
    apply List.ext_getElem?
    intro r
    have hl : ps.length = h.profs.length := by rw [hw.profs_len]; exact h2.profs_len
    by_cases hr : r < h.profs.length
    · have hp : h.profs[r]? = some h.profs[r] := List.getElem?_eq_getElem hr
      rw [h3 r _ hp, hp]
      obtain ⟨_, e1, e2, _, _⟩ := hw.profs _ (List.mem_of_getElem? hp)
      apply insertAll_outside
      intro o ho
      rw [e1, e2]
      unfold ringOps at ho
      have hrn : r < h.norms.length := by rw [hw.norms_len, ← hw.profs_len]; exact hr
      rw [List.getElem?_eq_getElem hrn] at ho
      simp only at ho
      split_ifs at ho with hs
      · have hu := hw.norms_unit _ (List.getElem_mem hrn)
        have hnv : h.rots[r]? = some (eulerMatrixBetween h.norms[r] zAxis) := by
          rw [hw.rots, List.getElem?_map, List.getElem?_eq_getElem hrn]; rfl
        have hu' := hw.norms_unit _ (List.getElem_mem hrn)
        obtain ⟨hz, _, hdot⟩ := rot_facts h.norms[r] hu' (displace center h.origin)
        unfold ringChords at ho
        rw [hnv] at ho
        simp only at ho
        obtain ⟨ops, hops, _⟩ := chords_sensible h.n hw.n_pos (rotateVec (displace center h.origin) (eulerMatrixBetween h.norms[r] zAxis)) radius rho
        rw [hw.vecs, hw.dPhi, hops] at ho
        have hs' : sphereIntersectRing h.norms[r] (displace center h.origin) radius := hs
        unfold sphereIntersectRing at hs'
        refine chords_outside h.n hw.n_pos _ radius rho h.rMin h.rMax (by rw [hz]; exact hs'.2) (by rw [hz]; exact hs'.1) hw.rmin hw.rmax ?_ ops hops o ho
        rw [hdot]
        have hrad : 0 < radius := by linarith [hs'.1, hs'.2]
        unfold Halo.intersects at hrej
        simp only [not_and_or, not_lt, gt_iff_lt] at hrej
        have hdd : dot (displace center h.origin) (displace center h.origin) =
            (displace center h.origin).x * (displace center h.origin).x + (displace center h.origin).y * (displace center h.origin).y +
            (displace center h.origin).z * (displace center h.origin).z := rfl
        rw [← hdd] at hrej
        rcases hrej with hrej | hrej
        · left
          have hrr : radius ≤ h.rMin := by
            rcases hc with hc | hc
            · by_contra hlt
              rw [if_pos (by linarith)] at hrej
              apply hc
              have hz := sq_zero _ _ _ (by rw [hdd, mul_zero] at hrej; exact hrej)
              simp only [displace] at hz
              ext <;> linarith [hz.1, hz.2.1, hz.2.2]
            · exact hc
          rw [if_neg (by linarith)] at hrej
          have : sqrt (dot (displace center h.origin) (displace center h.origin)) ≤ h.rMin - radius :=
            sqrt_le_iff.mpr ⟨by linarith, by rw [sq]; exact hrej⟩
          linarith
        · right
          apply le_sqrt_of_sq_le
          rw [sq]; exact hrej
      · simp at ho
    · rw [List.getElem?_eq_none (by omega), List.getElem?_eq_none (by omega)]
  rw [h1, hps]

/-- C57 in full is false of the code: a particle exactly at the center of the halo is rejected (los/halo.go:160 asks for a distance larger than 0), although it
fills the profiles when it is larger than the inner radius. -/
theorem C57_center_false : ∃ (h h' : Halo) (center : Vec) (radius rho : ℝ) (before after : List ℝ), h.WF ∧ h.Oriented ∧ 0 < radius ∧
    ¬ h.intersects center radius ∧ h.insert center radius rho = some h' ∧ h.profile 0 0 = some before ∧ h'.profile 0 0 = some after ∧
    after.getD 0 0 = before.getD 0 0 + rho ∧ rho = 1 := by
  obtain ⟨hw, ho⟩ := demo_ok
  obtain ⟨h', h1, _, _, h4⟩ := C56_insert_partial demo hw ho (by simp [demo, Halo.init]) ⟨0, 0, 0⟩ 3 1 (by norm_num)
  obtain ⟨dir, b, a, f1, f2, f3, _, _, f6⟩ := h4 0 0 (by simp [demo, Halo.init]) (by simp [demo, Halo.init])
  refine ⟨demo, h', ⟨0, 0, 0⟩, 3, 1, b, a, hw, ho, by norm_num, ?_, h1, f2, f3, ?_, rfl⟩
  · simp only [Halo.intersects, demo, Halo.init, displace]; norm_num
  · rw [f6 (Or.inl (by simp [demo, Halo.init, displace, dot])) 0 (by simp [demo, Halo.init])]
    congr 1
    rw [one_mul]
    have hd : dot dir dir = 1 := by
      rw [lineDir_eq demo ho 0 0 ⟨0, 0, 1⟩ (by simp [demo, Halo.init]) (by simp [demo, Halo.init]), Option.some.injEq] at f1
      rw [← f1, show (⟨0, 0, 1⟩ : Vec) = zAxis from rfl, between_self, rotate_ident]
      have := unit demo.n 0
      simp only [dot]; nlinarith
    have hlog : log (1 / 2) < 0 := log_neg (by norm_num) (by norm_num)
    have e6 : demo.rMin = 1 / 2 := rfl
    have e7 : demo.rMax = 1 := rfl
    have e8 : demo.bins = 1 := rfl
    unfold coverage
    rw [e6, e7, e8]
    have hset : {t : ℝ | log (1 / 2) + (log 1 - log (1 / 2)) / ((1 : Nat) : ℝ) * ((0 : Nat) : ℝ) ≤ t ∧
        t ≤ log (1 / 2) + (log 1 - log (1 / 2)) / ((1 : Nat) : ℝ) * (((0 : Nat) : ℝ) + 1) ∧ Inside demo.origin ⟨0, 0, 0⟩ 3 dir (exp t)} = Set.Icc (log (1 / 2)) 0 := by
      ext t
      simp only [log_one, Nat.cast_one, div_one, Nat.cast_zero, mul_zero, add_zero, zero_add, mul_one, zero_sub, add_neg_cancel, Set.mem_setOf_eq, Set.mem_Icc]
      constructor
      · rintro ⟨g1, g2, _⟩; exact ⟨g1, g2⟩
      · rintro ⟨g1, g2⟩
        refine ⟨g1, g2, ?_⟩
        have h1 := exp_le_exp.mpr g2
        have h0 := exp_pos t
        rw [exp_zero] at h1
        have ho : demo.origin = ⟨0, 0, 0⟩ := rfl
        simp only [Inside, ho]
        simp only [dot] at hd
        have e : (0 + exp t * dir.x - 0) ^ 2 + (0 + exp t * dir.y - 0) ^ 2 + (0 + exp t * dir.z - 0) ^ 2 = exp t * exp t * (dir.x * dir.x + dir.y * dir.y + dir.z * dir.z) := by ring
        rw [e, hd]; nlinarith
    simp only [hset]
    rw [Real.volume_Icc, ENNReal.toReal_ofReal (by linarith), log_one]
    simp only [Nat.cast_one, div_one]
    rw [div_self (by linarith)]

-- a particle of radius 1/4 at distance 5/4 of the halo `demo` (whose outer radius is 1)
example : demo.WF ∧ ¬ demo.intersects ⟨0, 5 / 4, 0⟩ (1 / 4) ∧ (⟨0, 5 / 4, 0⟩ : Vec) ≠ demo.origin := by
  refine ⟨demo_ok.1, ?_, ?_⟩
  · simp only [Halo.intersects, demo, Halo.init, displace]; norm_num
  · simp [demo, Halo.init]

end
end Shellfish.Los
