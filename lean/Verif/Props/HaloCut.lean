/- C38: the ranges of lines of sight; C56: what fails; C57: the cut on distances (los/halo.go). -/
import Verif.Props.Halo

namespace Shellfish.Los
noncomputable section
open Real
open Shellfish.Geom (Vec Mat rotateVec eulerMatrixBetween atan2 dot zero)

/-! C38 -/

/-- All indices that the two loops of `insertToRing` visit for the angular range from `lo` to `hi`. -/
def visited (n : Nat) (lo hi : ℝ) : List Int :=
  indices (idxRange n (1 / (n : ℝ) * (2 * π)) lo hi).1 (idxRange n (1 / (n : ℝ) * (2 * π)) lo hi).2.1 ++
    indices (idxRange n (1 / (n : ℝ) * (2 * π)) lo hi).2.2.1 (idxRange n (1 / (n : ℝ) * (2 * π)) lo hi).2.2.2

/-- C38: for the extent of a sphere seen from outside (centre angle `phi` in (-π, π], half width `a` at most π/2) every visited index is the index of a line
of sight, and every line of sight `i` whose angle `2πi/n` lies in the extent, up to full turns, is visited; with two or more lines of sight it is visited exactly once. -/
theorem C38_cover (n : Nat) (hn : 0 < n) (phi a : ℝ) (h1 : -π < phi) (h2 : phi ≤ π) (ha : 0 ≤ a) (ha' : a ≤ π / 2) :
    (∀ j ∈ visited n (phi - a) (phi + a), 0 ≤ j ∧ j < n) ∧
    ∀ i : Nat, i < n → (∃ k : ℤ, |(i : ℝ) / n * (2 * π) + 2 * π * k - phi| ≤ a) →
      (i : Int) ∈ visited n (phi - a) (phi + a) ∧ (2 ≤ n → (visited n (phi - a) (phi + a)).count (i : Int) = 1) := by
  have hpi := pi_pos
  refine ⟨fun j hj => idxRange_valid n hn _ _ (by linarith) (by linarith) j hj, ?_⟩
  rintro i hi ⟨k, hk⟩
  obtain ⟨k1, k2⟩ := abs_le.mp hk
  exact idxRange_cover n hn _ _ (by linarith) (by linarith) (by linarith) (by linarith) i hi k (by unfold phiOf; linarith) (by unfold phiOf; linarith)

-- four lines of sight, a sphere around angle -π/4 of half width π/2
example : ∃ k : ℤ, |((3 : Nat) : ℝ) / (4 : Nat) * (2 * π) + 2 * π * k - (-(π / 4))| ≤ π / 2 := by
  refine ⟨-1, ?_⟩
  have hpi := pi_pos
  rw [abs_le]
  constructor
  · push_cast; linarith
  · push_cast; linarith

theorem visited_below (n : Nat) (hn : 0 < n) (lo hi : ℝ) (hlo : lo < 0) (hlo' : -(2 * π) < lo) (hhi : hi < 0) (i : Nat) (hi' : i < n) (hpos : 0 < i) (h : lo + 2 * π ≤ phiOf n i) :
    (i : Int) ∈ visited n lo hi ∧ (visited n lo hi).count (i : Int) = 1 := by
  have hd := dPhi_pos n hn
  have hpi := pi_pos
  have hphi := phiOf_eq n i
  unfold visited
  rw [idxRange_cases n _ lo hi (by linarith), if_pos hlo]
  simp only
  have h0 : 0 ≤ (lo + 2 * π) / (1 / (n : ℝ) * (2 * π)) := div_nonneg (by linarith) hd.le
  have hm : (i : Int) ∈ indices (goInt ((lo + 2 * π) / (1 / (n : ℝ) * (2 * π)))) (n : Int) := by
    rw [mem_indices]
    refine ⟨?_, by omega⟩
    rw [goInt_nonneg _ h0]
    have : ((⌊(lo + 2 * π) / (1 / (n : ℝ) * (2 * π))⌋ : ℤ) : ℝ) ≤ (i : ℤ) := by
      refine le_trans (Int.floor_le _) ?_
      rw [div_le_iff₀ hd, Int.cast_natCast, ← hphi]; exact h
    exact_mod_cast this
  refine ⟨List.mem_append_left _ hm, ?_⟩
  rw [List.count_append, List.count_eq_one_of_mem (nodup_indices _ _) hm, List.count_eq_zero_of_not_mem]
  rw [mem_indices]
  rintro ⟨_, hc⟩
  rw [goInt_neg _ (div_neg_of_neg_of_pos hhi hd)] at hc
  have : ⌈hi / (1 / (n : ℝ) * (2 * π))⌉ ≤ 0 := by rw [Int.ceil_le]; simpa using (div_neg_of_neg_of_pos hhi hd).le
  omega

/-- C38 "and no others, up to one spoke" is false of the code: for the extent from -7π/6 to -2π/3 and eight lines of sight, line 7 (at angle 7π/4, i.e. -π/4) is visited, and
so are lines 6 and 7 beyond the end of the extent at 4π/3. -/
theorem C38_no_extra_false : ∃ (n : Nat) (phi a : ℝ), 2 ≤ n ∧ -π < phi ∧ phi ≤ π ∧ 0 ≤ a ∧ a ≤ π / 2 ∧
    (∃ i : Nat, i < n ∧ (i : Int) ∈ visited n (phi - a) (phi + a) ∧ ∀ k : ℤ, 1 / (n : ℝ) * (2 * π) < |(i : ℝ) / n * (2 * π) + 2 * π * k - phi| - a) := by
  have hpi := pi_pos
  refine ⟨8, -(11 * π / 12), π / 4, by norm_num, by linarith, by linarith, by linarith, by linarith, 7, by norm_num, ?_, ?_⟩
  · refine (visited_below 8 (by norm_num) _ _ (by linarith) (by linarith) (by linarith) 7 (by norm_num) (by norm_num) ?_).1
    unfold phiOf
    push_cast; linarith
  · intro k
    rcases le_or_gt 0 k with hk | hk
    · have : (0 : ℝ) ≤ k := by exact_mod_cast hk
      have : 0 ≤ 2 * π * k := by positivity
      rw [abs_of_nonneg (by push_cast; linarith)]
      push_cast; linarith
    · rcases eq_or_lt_of_le (Int.le_sub_one_of_lt hk) with hk | hk
      · subst hk
        rw [abs_of_nonneg (by push_cast; linarith)]
        push_cast; linarith
      · have : (k : ℝ) ≤ -2 := by exact_mod_cast (by omega : k ≤ -2)
        have : 2 * π * k ≤ -(4 * π) := by nlinarith
        rw [abs_of_nonpos (by push_cast; linarith)]
        push_cast; linarith

/-- C38: with a single line of sight an extent around angle 0 makes it be visited twice, so that a sphere counts twice there. -/
theorem C38_one_spoke_false : (visited 1 (-(π / 4)) (π / 4)).count 0 = 2 := by
  have hpi := pi_pos
  unfold visited
  rw [idxRange_cases 1 _ _ _ (by linarith), if_pos (by linarith)]
  have e1 : goInt ((-(π / 4) + 2 * π) / (1 / ((1 : Nat) : ℝ) * (2 * π))) = 0 := by
    rw [goInt_nonneg _ (by apply div_nonneg; linarith; norm_num; linarith), Int.floor_eq_zero_iff]
    refine ⟨by apply div_nonneg; linarith; norm_num; linarith, ?_⟩
    rw [div_lt_one (by norm_num; linarith)]
    norm_num; linarith
  have e2 : goInt (π / 4 / (1 / ((1 : Nat) : ℝ) * (2 * π))) = 0 := by
    rw [goInt_nonneg _ (by apply div_nonneg; linarith; norm_num; linarith), Int.floor_eq_zero_iff]
    refine ⟨by apply div_nonneg; linarith; norm_num; linarith, ?_⟩
    rw [div_lt_one (by norm_num; linarith)]
    norm_num; linarith
  rw [e1, e2]
  decide

/-! C56: what fails -/

theorem between_self (v : Vec) : eulerMatrixBetween v v = Geom.ident := by
  unfold eulerMatrixBetween Geom.eulerMatrix
  rw [sub_self, Geom.aboutX_zero, Geom.ident_mul, Geom.aboutZ_add, ← Geom.aboutZ_zero]
  congr 1; ring

theorem rotate_ident (v : Vec) : rotateVec v Geom.ident = v := by ext <;> simp [rotateVec, Geom.ident]

/-- a halo with one ring in the x-y plane, eight lines of sight and one bin between the radii 1/2 and 1 -/
def demo : Halo := Halo.init [⟨0, 0, 1⟩] ⟨0, 0, 0⟩ (1 / 2) 1 1 8 0

theorem demo_ok : demo.WF ∧ demo.Oriented :=
  init_WF_halo _ (by intro v hv; rw [List.mem_singleton.mp hv]; norm_num [dot]) _ _ _ (by norm_num) (by norm_num) _ _ (by norm_num) (by norm_num) _

theorem phi87 : cos (phiOf 8 7) = sqrt 2 / 2 ∧ sin (phiOf 8 7) = -(sqrt 2 / 2) := by
  have e : phiOf 8 7 = 2 * π - π / 4 := by unfold phiOf; push_cast; ring
  rw [e, cos_two_pi_sub, sin_two_pi_sub, cos_pi_div_four, sin_pi_div_four]
  exact ⟨rfl, rfl⟩

/-- the circle around (-2, -1) with squared radius 4.8, in the plane of the ring of `demo` -/
theorem backward_op (rho : ℝ) : ∃ lo hi : ℝ, lo ≤ 1 / 2 ∧ 1 ≤ hi ∧ farOp 8 ⟨-2, -1, 0⟩ (sqrt (24 / 5)) rho 7 = some ⟨goLog lo, goLog hi, rho, 7⟩ := by
  have h2 : sqrt 2 * sqrt 2 = 2 := mul_self_sqrt (by norm_num)
  have hr : sqrt (24 / 5) * sqrt (24 / 5) = 24 / 5 := mul_self_sqrt (by norm_num)
  have himp : impact 8 ⟨-2, -1, 0⟩ 7 * impact 8 ⟨-2, -1, 0⟩ 7 = 9 / 2 := by
    unfold impact
    rw [phi87.1, phi87.2]
    nlinarith
  have hd : projDist2 ⟨-2, -1, 0⟩ = 5 := by norm_num [projDist2]
  have hp : projRad2 ⟨-2, -1, 0⟩ (sqrt (24 / 5)) = 24 / 5 := by
    unfold projRad2
    rw [hr]; norm_num
  refine ⟨sqrt (1 / 2) - sqrt (3 / 10), sqrt (1 / 2) + sqrt (3 / 10), ?_, ?_, ?_⟩
  · have a : sqrt (1 / 2) ≤ 3 / 4 := by rw [sqrt_le_left (by norm_num)]; norm_num
    have b : 1 / 2 ≤ sqrt (3 / 10) := by rw [le_sqrt (by norm_num) (by norm_num)]; norm_num
    linarith
  · have a : 7 / 10 ≤ sqrt (1 / 2) := by rw [le_sqrt (by norm_num) (by norm_num)]; norm_num
    have b : 1 / 2 ≤ sqrt (3 / 10) := by rw [le_sqrt (by norm_num) (by norm_num)]; norm_num
    linarith
  · unfold farOp twoValIntrDist
    rw [himp, hd, hp, if_neg (by norm_num)]
    norm_num

theorem backward_count : (farIndices 8 (stdPhi 8) ⟨-2, -1, 0⟩ (sqrt (24 / 5))).count 7 = 1 := by
  have hpi := pi_pos
  have hP := Complex.neg_pi_lt_arg ⟨-2, -1⟩
  have hP2 : Complex.arg ⟨-2, -1⟩ < -(π / 2) := by
    have h0 : Complex.arg ⟨-2, -1⟩ < 0 := Complex.arg_neg_iff.mpr (by norm_num)
    by_contra hc
    have : |Complex.arg ⟨-2, -1⟩| ≤ π / 2 := by rw [abs_of_neg h0]; linarith [not_lt.mp hc]
    have := Complex.abs_arg_le_pi_div_two_iff.mp this
    norm_num at this
  obtain ⟨a0, a1⟩ := halfWidth_range (projDist2 ⟨-2, -1, 0⟩) (projRad2 ⟨-2, -1, 0⟩ (sqrt (24 / 5)))
  refine (visited_below 8 (by norm_num) (Complex.arg ⟨-2, -1⟩ - halfAngularWidth (projDist2 ⟨-2, -1, 0⟩) (projRad2 ⟨-2, -1, 0⟩ (sqrt (24 / 5))))
    (Complex.arg ⟨-2, -1⟩ + halfAngularWidth (projDist2 ⟨-2, -1, 0⟩) (projRad2 ⟨-2, -1, 0⟩ (sqrt (24 / 5)))) (by linarith) (by linarith) (by linarith) 7 (by norm_num) (by norm_num) ?_).2
  unfold phiOf
  push_cast; linarith

/-- C56 in full is false of the code: a sphere in the quadrant with negative x and y, outside the origin, also raises a line of sight on the opposite side, which
does not meet it at all. -/
theorem C56_backward_false : ∃ (h h' : Halo) (center : Vec) (radius rho : ℝ) (ring i : Nat) (dir : Vec) (before after : List ℝ),
    h.WF ∧ h.Oriented ∧ 2 ≤ h.n ∧ 0 < radius ∧ rho ≠ 0 ∧ h.insert center radius rho = some h' ∧ h.lineDir ring i = some dir ∧
    h.profile ring i = some before ∧ h'.profile ring i = some after ∧ after.getD 0 0 = before.getD 0 0 + rho ∧
    (∀ r, 0 < r → ¬ Inside h.origin center radius dir r) := by
  have hr : sqrt (24 / 5) * sqrt (24 / 5) = 24 / 5 := mul_self_sqrt (by norm_num)
  have hrpos : 0 < sqrt (24 / 5) := sqrt_pos.mpr (by norm_num)
  obtain ⟨hw, ho⟩ := demo_ok
  obtain ⟨h', h1, _, _, h4⟩ := insert_profile demo hw ⟨-2, -1, 0⟩ (sqrt (24 / 5)) 1
  obtain ⟨b, a, f1, f2, _, _, f5⟩ := h4 0 7 (by simp [demo, Halo.init]) (by simp [demo, Halo.init])
  have hdisp : displace ⟨-2, -1, 0⟩ demo.origin = ⟨-2, -1, 0⟩ := by simp [displace, demo, Halo.init]
  have hrot : rotateVec ⟨-2, -1, 0⟩ (eulerMatrixBetween ⟨0, 0, 1⟩ zAxis) = ⟨-2, -1, 0⟩ := by
    rw [show (⟨0, 0, 1⟩ : Vec) = zAxis from rfl, between_self, rotate_ident]
  refine ⟨demo, h', ⟨-2, -1, 0⟩, sqrt (24 / 5), 1, 0, 7, _, b, a, hw, ho, by simp [demo, Halo.init], hrpos, one_ne_zero, h1,
    lineDir_eq demo ho 0 7 ⟨0, 0, 1⟩ (by simp [demo, Halo.init]) (by simp [demo, Halo.init]), f1, f2, ?_, ?_⟩
  · rw [f5 0 (by simp [demo, Halo.init]), hdisp]
    congr 1
    have hops : ringOps demo ⟨-2, -1, 0⟩ (sqrt (24 / 5)) 1 0 =
        ((farIndices 8 (stdPhi 8) ⟨-2, -1, 0⟩ (sqrt (24 / 5))).map Int.toNat).filterMap (farOp 8 ⟨-2, -1, 0⟩ (sqrt (24 / 5)) 1) := by
      unfold ringOps
      have e1 : demo.norms[0]? = some ⟨0, 0, 1⟩ := by simp [demo, Halo.init]
      rw [e1]
      simp only
      rw [if_pos (by unfold sphereIntersectRing; norm_num)]
      unfold ringChords
      have e2 : demo.rots[0]? = some (eulerMatrixBetween ⟨0, 0, 1⟩ zAxis) := by simp [demo, Halo.init]
      rw [e2]
      simp only
      rw [hrot]
      have hf := chords_far 8 (by norm_num) ⟨-2, -1, 0⟩ (sqrt (24 / 5)) 1 (by
        unfold projRad2 projDist2
        rw [hr]; norm_num)
      have e3 : demo.ringVecs = stdVecs 8 := rfl
      have e4 : demo.n = 8 := rfl
      have e5 : demo.dPhi = stdPhi 8 := rfl
      rw [e3, e4, e5, hf]
      rfl
    obtain ⟨lo, hi, hlo, hhi, hop⟩ := backward_op 1
    unfold total
    rw [hops, filter_filterMap_index _ (farOp_i 8 _ _ _), filter_eq_replicate,
      count_toNat _ (fun j hj => (farIndices_valid 8 (by norm_num) _ _ j hj).1), show ((7 : Nat) : Int) = 7 from rfl, backward_count]
    simp only [List.replicate_succ, List.replicate_zero, List.filterMap_cons, hop, List.filterMap_nil, List.map_cons, List.map_nil, List.sum_cons, List.sum_nil,
      add_zero, contribution]
    have e6 : demo.rMin = 1 / 2 := rfl
    have e7 : demo.rMax = 1 := rfl
    have e8 : demo.bins = 1 := rfl
    rw [e6, e7, e8]
    have hlog : log (1 / 2) < 0 := log_neg (by norm_num) (by norm_num)
    rw [overlap_volume (S := {t : ℝ | lo ≤ exp t ∧ exp t ≤ hi})]
    · have hset : {t : ℝ | log (1 / 2) + (log 1 - log (1 / 2)) / ((1 : Nat) : ℝ) * ((0 : Nat) : ℝ) ≤ t ∧
          t ≤ log (1 / 2) + (log 1 - log (1 / 2)) / ((1 : Nat) : ℝ) * (((0 : Nat) : ℝ) + 1) ∧ t ∈ {t : ℝ | lo ≤ exp t ∧ exp t ≤ hi}} = Set.Icc (log (1 / 2)) 0 := by
        ext t
        simp only [log_one, Nat.cast_one, div_one, Nat.cast_zero, mul_zero, add_zero, zero_add, mul_one, zero_sub, add_neg_cancel, Set.mem_setOf_eq, Set.mem_Icc]
        constructor
        · rintro ⟨g1, g2, _⟩; exact ⟨g1, g2⟩
        · rintro ⟨g1, g2⟩
          refine ⟨g1, g2, ?_, ?_⟩
          · have := exp_le_exp.mpr g1
            rw [exp_log (by norm_num)] at this
            linarith
          · have := exp_le_exp.mpr g2
            rw [exp_zero] at this
            linarith
      rw [hset, Real.volume_Icc, ENNReal.toReal_ofReal (by linarith), log_one]
      simp only [Nat.cast_one, div_one, zero_sub]
      rw [div_self (by linarith), one_mul]
    · intro t _ _
      simp only [Set.mem_setOf_eq]
      rw [le_goLog_iff, goLog_le_iff]
  · intro r hr0
    have hd : (displace ⟨-2, -1, 0⟩ demo.origin) = ⟨-2, -1, 0⟩ := hdisp
    rw [inside_iff demo ⟨0, 0, 1⟩ (by norm_num [dot]), hd, hrot]
    refine behind_miss _ _ _ _ _ _ (unit _ _) ?_ ?_ hr0
    · show sqrt (24 / 5) ^ 2 - 0 ^ 2 ≤ _
      rw [sq, hr]; norm_num
    · have e4 : demo.n = 8 := rfl
      rw [e4, phi87.1, phi87.2]
      have : 0 < sqrt 2 := sqrt_pos.mpr (by norm_num)
      simp only
      linarith

end
end Shellfish.Los
