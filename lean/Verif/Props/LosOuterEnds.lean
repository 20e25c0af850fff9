/-
C119: the lines of sight raised by a sphere that does not contain the center of the ring.
-/
import Verif.Props.LosOuter

namespace Shellfish.Round
open Shellfish.Finder (toInt)

/-- The point at the distance `x` on the line of sight `i` of `n` lies in the sphere (the ring is the plane z = 0). -/
def InSphere (n i : ℕ) (cx cy cz radius : ℚ) (x : ℝ) : Prop :=
  (x * Real.cos (lineAngle n i) - cx) ^ 2 + (x * Real.sin (lineAngle n i) - cy) ^ 2 + (0 - (cz : ℝ)) ^ 2 ≤ (radius : ℝ) ^ 2

/-- The scale of the sphere: the squares of its distance and its radius. -/
def scale (cx cy cz radius : ℚ) : ℝ := (cx : ℝ) ^ 2 + (cy : ℝ) ^ 2 + (cz : ℝ) ^ 2 + (radius : ℝ) ^ 2

/-- The square of half the length of the chord that the sphere cuts out of the line through the center of the ring (negative if the line misses the sphere). -/
noncomputable def halfChord2 (n i : ℕ) (cx cy cz radius : ℚ) : ℝ := (radius : ℝ) ^ 2 - (cz : ℝ) ^ 2 - acrossR n i cx cy ^ 2

theorem in_sphere_iff (n i : ℕ) (cx cy cz radius : ℚ) (x : ℝ) : InSphere n i cx cy cz radius x ↔ (x - alongR n i cx cy) ^ 2 ≤ halfChord2 n i cx cy cz radius := by
  unfold InSphere halfChord2
  have h1 := along_across n i cx cy
  have h2 := Real.sin_sq_add_cos_sq (lineAngle n i)
  have e : (x * Real.cos (lineAngle n i) - cx) ^ 2 + (x * Real.sin (lineAngle n i) - cy) ^ 2 = (x - alongR n i cx cy) ^ 2 + acrossR n i cx cy ^ 2 := by
    have : (x * Real.cos (lineAngle n i) - cx) ^ 2 + (x * Real.sin (lineAngle n i) - cy) ^ 2 =
        x ^ 2 * (Real.sin (lineAngle n i) ^ 2 + Real.cos (lineAngle n i) ^ 2) - 2 * x * alongR n i cx cy + ((cx : ℝ) ^ 2 + (cy : ℝ) ^ 2) := by unfold alongR; ring
    rw [this, h2, ← h1]
    ring
  rw [e]
  constructor <;> intro h <;> nlinarith

theorem rad2_near (cx cy cz radius : ℚ) (h : (cz : ℝ) ^ 2 ≤ (radius : ℝ) ^ 2) :
    |((projected cx cy cz radius).2 : ℝ) - ((radius : ℝ) ^ 2 - (cz : ℝ) ^ 2)| ≤ ((cz : ℝ) ^ 2 + (radius : ℝ) ^ 2) * (1 / 2 ^ 51) := by
  have e1 := r64_errR (radius * radius)
  have e2 := r64_errR (cz * cz)
  have e3 := r64_errR (r64 (radius * radius) - r64 (cz * cz))
  have key : |((r64 (r64 (radius * radius) - r64 (cz * cz)) : ℚ) : ℝ) - ((radius : ℝ) ^ 2 - (cz : ℝ) ^ 2)| ≤ ((cz : ℝ) ^ 2 + (radius : ℝ) ^ 2) * (1 / 2 ^ 51) := by
    push_cast at e1 e2 e3
    rw [show (radius : ℝ) * radius = (radius : ℝ) ^ 2 by ring] at e1
    rw [show (cz : ℝ) * cz = (cz : ℝ) ^ 2 by ring] at e2
    rw [abs_of_nonneg (sq_nonneg (radius : ℝ))] at e1
    rw [abs_of_nonneg (sq_nonneg (cz : ℝ))] at e2
    have n1 := sq_nonneg (radius : ℝ)
    have n2 := sq_nonneg (cz : ℝ)
    generalize ((r64 (r64 (radius * radius) - r64 (cz * cz)) : ℚ) : ℝ) = z at *
    generalize ((r64 (radius * radius) : ℚ) : ℝ) = a at *
    generalize ((r64 (cz * cz) : ℚ) : ℝ) = b at *
    generalize (radius : ℝ) ^ 2 = A at *
    generalize (cz : ℝ) ^ 2 = B at *
    have hab : |a - b| ≤ 2 * (A + B) := by
      rw [abs_le] at e1 e2 ⊢
      norm_num at e1 e2 ⊢
      constructor <;> linarith
    rw [abs_le] at e1 e2 e3 ⊢
    norm_num at e1 e2 e3 ⊢
    constructor <;> linarith
  unfold projected
  dsimp only
  split_ifs with hn
  · have hn' : ((r64 (r64 (radius * radius) - r64 (cz * cz)) : ℚ) : ℝ) < 0 := by exact_mod_cast hn
    rw [abs_le] at key ⊢
    push_cast
    constructor <;> linarith
  · exact key

theorem scale_bounds (cx cy cz radius : ℚ) : 0 ≤ scale cx cy cz radius ∧ (cx : ℝ) ^ 2 + (cy : ℝ) ^ 2 ≤ scale cx cy cz radius ∧ (cz : ℝ) ^ 2 + (radius : ℝ) ^ 2 ≤ scale cx cy cz radius := by
  unfold scale
  refine ⟨by positivity, ?_, ?_⟩ <;> nlinarith [sq_nonneg (cx : ℝ), sq_nonneg (cy : ℝ), sq_nonneg (cz : ℝ), sq_nonneg (radius : ℝ)]

/-- C119: a sphere that does not contain the center of the ring raises every line of sight that points towards it and cuts a chord of more than a 2^-19 of its scale out of it, between
the points where the line enters and leaves the sphere, up to errors of a 2^-19 of the scale.  Missing from the full property: shorter chords (in the machine, tangent lines may go either way). -/
theorem C119_long_partial (lib : OuterLib) (hl : lib.Good) (n i : ℕ) (hi : i < n) (hn : n ≤ 2 ^ 53) (cx cy cz radius : ℚ)
    (hout : (projected cx cy cz radius).2 ≤ (projected cx cy cz radius).1) (hal : 0 < cx * Real.cos (lineAngle n i) + cy * Real.sin (lineAngle n i))
    (hlong : scale cx cy cz radius / 2 ^ 39 ≤ halfChord2 n i cx cy cz radius) :
    ∃ calls, outerCalls lib n cx cy (projected cx cy cz radius).1 (projected cx cy cz radius).2 = some calls ∧
      ∃ (lo hi : ℚ) (near far : ℝ), (i, lo, hi) ∈ calls ∧ (∀ x : ℝ, InSphere n i cx cy cz radius x ↔ near ≤ x ∧ x ≤ far) ∧
        |(lo : ℝ) - near| ≤ Real.sqrt (scale cx cy cz radius) / 2 ^ 19 ∧ |(hi : ℝ) - far| ≤ Real.sqrt (scale cx cy cz radius) / 2 ^ 19 := by
  obtain ⟨w0, w1, w2⟩ := scale_bounds cx cy cz radius
  have hal' : 0 < alongR n i cx cy := hal
  have hhc : 0 ≤ halfChord2 n i cx cy cz radius := le_trans (by positivity) hlong
  have hz : (cz : ℝ) ^ 2 ≤ (radius : ℝ) ^ 2 := by
    unfold halfChord2 at hhc
    nlinarith [sq_nonneg (acrossR n i cx cy)]
  have hr := rad2_near cx cy cz radius hz
  have hlong2 : ((cx : ℝ) ^ 2 + (cy : ℝ) ^ 2) / 2 ^ 40 ≤ ((projected cx cy cz radius).2 : ℝ) - acrossR n i cx cy ^ 2 := by
    unfold halfChord2 at hlong
    rw [abs_le] at hr
    generalize acrossR n i cx cy ^ 2 = a2 at *
    generalize scale cx cy cz radius = W at *
    norm_num at hr hlong ⊢
    linarith
  have hxy := not_center n i cx cy hal'
  obtain ⟨_, calls, hc, hm⟩ := outer_calls lib hl n (by omega) cx cy _ _ (projected_pos cx cy cz radius hxy) (projected_nonneg cx cy cz radius) hout hxy
  obtain ⟨lo, hig, h1, h2, h3⟩ := twoVal_long lib hl n i hi cx cy cz radius hout hal' hlong2
  have hv := outer_visits lib hl n i hi hn cx cy cz radius hout hal' hlong2
  refine ⟨calls, hc, lo, hig, alongR n i cx cy - Real.sqrt (halfChord2 n i cx cy cz radius), alongR n i cx cy + Real.sqrt (halfChord2 n i cx cy cz radius), (hm i lo hig).mpr ⟨hv, h1⟩, fun x => ?_, ?_, ?_⟩
  · rw [in_sphere_iff]
    constructor
    · intro h
      have := abs_le.mp (Real.abs_le_sqrt h)
      constructor <;> linarith [this.1, this.2]
    · rintro ⟨a, b⟩
      rw [← Real.sq_sqrt hhc, sq_le_sq, abs_of_nonneg (Real.sqrt_nonneg _), abs_le]
      constructor <;> linarith
  all_goals
    have hsd := sqrt_diff (((projected cx cy cz radius).2 : ℝ) - acrossR n i cx cy ^ 2) (halfChord2 n i cx cy cz radius)
    have hse : Real.sqrt |((projected cx cy cz radius).2 : ℝ) - acrossR n i cx cy ^ 2 - halfChord2 n i cx cy cz radius| ≤ Real.sqrt (scale cx cy cz radius) * (1 / 2 ^ 25) := by
      rw [Real.sqrt_le_left (by positivity), mul_pow, Real.sq_sqrt w0]
      have e : ((projected cx cy cz radius).2 : ℝ) - acrossR n i cx cy ^ 2 - halfChord2 n i cx cy cz radius = ((projected cx cy cz radius).2 : ℝ) - ((radius : ℝ) ^ 2 - (cz : ℝ) ^ 2) := by
        unfold halfChord2; ring
      rw [e]
      refine hr.trans ?_
      generalize scale cx cy cz radius = W at *
      norm_num at w2 ⊢
      linarith
    have hsE : Real.sqrt ((cx : ℝ) ^ 2 + (cy : ℝ) ^ 2) ≤ Real.sqrt (scale cx cy cz radius) := Real.sqrt_le_sqrt w1
    have hs0 := Real.sqrt_nonneg (scale cx cy cz radius)
    generalize Real.sqrt (scale cx cy cz radius) = S at *
    generalize Real.sqrt ((cx : ℝ) ^ 2 + (cy : ℝ) ^ 2) = r at *
    generalize Real.sqrt (((projected cx cy cz radius).2 : ℝ) - acrossR n i cx cy ^ 2) = q at *
    generalize Real.sqrt (halfChord2 n i cx cy cz radius) = q' at *
    have hq : |q - q'| ≤ S * (1 / 2 ^ 25) := hsd.trans hse
    rw [abs_le] at h2 h3 hq ⊢
    norm_num at h2 h3 hq ⊢
    constructor <;> linarith

/-- C119: a line of sight that clearly misses a sphere is not raised by it, although it may be visited. -/
theorem C119_miss_partial (lib : OuterLib) (hl : lib.Good) (n i : ℕ) (hi : i < n) (cx cy cz radius : ℚ) (hz : |cz| ≤ |radius|) (hxy : ¬(cx = 0 ∧ cy = 0))
    (hout : (projected cx cy cz radius).2 ≤ (projected cx cy cz radius).1) (hmiss : scale cx cy cz radius / 2 ^ 39 ≤ -halfChord2 n i cx cy cz radius) :
    ∃ calls, outerCalls lib n cx cy (projected cx cy cz radius).1 (projected cx cy cz radius).2 = some calls ∧ ∀ lo hi : ℚ, (i, lo, hi) ∉ calls := by
  obtain ⟨w0, w1, w2⟩ := scale_bounds cx cy cz radius
  have hz' : (cz : ℝ) ^ 2 ≤ (radius : ℝ) ^ 2 := by
    have := sq_le_sq.mpr hz
    exact_mod_cast this
  have hr := rad2_near cx cy cz radius hz'
  have him := impact_near lib hl n i hi cx cy
  obtain ⟨_, calls, hc, hm⟩ := outer_calls lib hl n (by omega) cx cy _ _ (projected_pos cx cy cz radius hxy) (projected_nonneg cx cy cz radius) hout hxy
  refine ⟨calls, hc, fun lo hig hmem => ?_⟩
  have h := ((hm i lo hig).mp hmem).2
  rw [twoVal_none] at h
  · cases h
  have hE0 : (0 : ℝ) ≤ (cx : ℝ) ^ 2 + (cy : ℝ) ^ 2 := by positivity
  have hE2 := Real.sq_sqrt hE0
  have hr0 := Real.sqrt_nonneg ((cx : ℝ) ^ 2 + (cy : ℝ) ^ 2)
  have hacr : acrossR n i cx cy ^ 2 ≤ (cx : ℝ) ^ 2 + (cy : ℝ) ^ 2 := by
    have := along_across n i cx cy
    nlinarith [sq_nonneg (alongR n i cx cy)]
  have habs : |acrossR n i cx cy| ≤ Real.sqrt ((cx : ℝ) ^ 2 + (cy : ℝ) ^ 2) := Real.abs_le_sqrt hacr
  have hb := r64_bounds (mul_self_nonneg (impact64 cx cy (ringVec64 lib n i)))
  have hb' := (Rat.cast_le (K := ℝ)).mpr hb.1
  push_cast at hb'
  have hnn := mul_self_nonneg ((impact64 cx cy (ringVec64 lib n i) : ℚ) : ℝ)
  have goal : ((projected cx cy cz radius).2 : ℝ) < ((r64 (impact64 cx cy (ringVec64 lib n i) * impact64 cx cy (ringVec64 lib n i)) : ℚ) : ℝ) := by
    refine lt_of_lt_of_le ?_ hb'
    unfold halfChord2 at hmiss
    have hs : 0 < scale cx cy cz radius := by
      have h1 := projected_pos cx cy cz radius hxy
      have h2 := (dist2_near cx cy cz radius).2
      have h1' : (0 : ℝ) < ((projected cx cy cz radius).1 : ℝ) := by exact_mod_cast h1
      by_contra hcon
      have : (cx : ℝ) ^ 2 + (cy : ℝ) ^ 2 ≤ 0 := by linarith
      have := mul_nonpos_of_nonpos_of_nonneg this (show (0 : ℝ) ≤ 1 + 1 / 2 ^ 51 by norm_num)
      linarith
    generalize ((impact64 cx cy (ringVec64 lib n i) : ℚ) : ℝ) = b at *
    generalize acrossR n i cx cy = c at *
    have hd : c ^ 2 - ((cx : ℝ) ^ 2 + (cy : ℝ) ^ 2) * (1 / 2 ^ 45 * (2 + 1 / 2 ^ 45)) ≤ b * b := by
      have e : b * b = c ^ 2 + (b - c) * (b - c + 2 * c) := by ring
      rw [e]
      have k : |b - c + 2 * c| ≤ Real.sqrt ((cx : ℝ) ^ 2 + (cy : ℝ) ^ 2) * (2 + 1 / 2 ^ 45) := by
        refine (abs_add_le _ _).trans ?_
        rw [abs_mul, abs_two]
        linarith
      have k2 : |(b - c) * (b - c + 2 * c)| ≤ (Real.sqrt ((cx : ℝ) ^ 2 + (cy : ℝ) ^ 2) * (1 / 2 ^ 45)) * (Real.sqrt ((cx : ℝ) ^ 2 + (cy : ℝ) ^ 2) * (2 + 1 / 2 ^ 45)) := by
        rw [abs_mul]
        exact mul_le_mul him k (abs_nonneg _) (by positivity)
      have k3 := (abs_le.mp k2).1
      have e2 : (Real.sqrt ((cx : ℝ) ^ 2 + (cy : ℝ) ^ 2) * (1 / 2 ^ 45)) * (Real.sqrt ((cx : ℝ) ^ 2 + (cy : ℝ) ^ 2) * (2 + 1 / 2 ^ 45)) =
          Real.sqrt ((cx : ℝ) ^ 2 + (cy : ℝ) ^ 2) ^ 2 * (1 / 2 ^ 45 * (2 + 1 / 2 ^ 45)) := by ring
      rw [e2, hE2] at k3
      linarith
    rw [abs_le] at hr
    have hr2 := hr.2
    have n1 := sq_nonneg (radius : ℝ)
    have n2 := sq_nonneg (cz : ℝ)
    generalize scale cx cy cz radius = W at *
    generalize (cx : ℝ) ^ 2 + (cy : ℝ) ^ 2 = E at *
    generalize b * b = bb at *
    generalize c ^ 2 = cc at *
    generalize (radius : ℝ) ^ 2 = A at *
    generalize (cz : ℝ) ^ 2 = B at *
    norm_num at hr2 hd hmiss ⊢
    linarith
  exact_mod_cast goal

/-- C119: the insertion of a sphere that does not contain the center of the ring ends without a panic, and every call raises an existing line of sight between two distances in order. -/
theorem C119_safe (lib : OuterLib) (hl : lib.Good) (n : ℕ) (hn : 0 < n) (cx cy cz radius : ℚ) (hxy : ¬(cx = 0 ∧ cy = 0)) (hout : (projected cx cy cz radius).2 ≤ (projected cx cy cz radius).1) :
    ∃ calls, outerCalls lib n cx cy (projected cx cy cz radius).1 (projected cx cy cz radius).2 = some calls ∧ ∀ (k : ℕ) (lo hi : ℚ), (k, lo, hi) ∈ calls → k < n ∧ 0 ≤ lo ∧ lo ≤ hi := by
  obtain ⟨h0, calls, hc, hm⟩ := outer_calls lib hl n hn cx cy _ _ (projected_pos cx cy cz radius hxy) (projected_nonneg cx cy cz radius) hout hxy
  refine ⟨calls, hc, fun k lo hig hk => ?_⟩
  obtain ⟨h1, h2⟩ := (hm k lo hig).mp hk
  exact ⟨by have := (h0 _ h1).2; omega, twoVal_order _ _ _ _ _ hout h2⟩

/-- C119: a circle without extent in the center of the ring (a sphere on the axis that ends at the plane of the ring) crashes the program. -/
theorem C119_center_false (lib : OuterLib) (n : ℕ) (cz radius : ℚ) (h : |radius| ≤ |cz|) :
    (projected 0 0 cz radius).2 ≤ (projected 0 0 cz radius).1 ∧ outerCalls lib n 0 0 (projected 0 0 cz radius).1 (projected 0 0 cz radius).2 = none := by
  have h1 : (projected 0 0 cz radius).1 = 0 := by
    have z : r64 (0 : ℚ) = 0 := r64_float ⟨0, 0, by norm_num, by norm_num⟩
    show r64 (r64 (0 * 0) + r64 (0 * 0)) = 0
    rw [mul_zero, z, add_zero, z]
  have h2 : (projected 0 0 cz radius).2 = 0 := by
    have hle : r64 (radius * radius) ≤ r64 (cz * cz) := r64_mono (by have := sq_le_sq.mpr h; nlinarith)
    unfold projected
    dsimp only
    split_ifs with hn
    · rfl
    · have : r64 (r64 (radius * radius) - r64 (cz * cz)) ≤ 0 := r64_le ⟨0, 0, by norm_num, by norm_num⟩ (by linarith)
      linarith
  rw [h1, h2]
  refine ⟨le_rfl, ?_⟩
  have hg : ∀ y, ¬gtNum none y := by rintro y ⟨a, ha, _⟩; cases ha
  have hl : ∀ y, ¬ltNum none y := by rintro y ⟨a, ha, _⟩; cases ha
  have hlines : outerLines lib n 0 0 0 0 = [-2 ^ 63] := by
    unfold outerLines halfAngle64 idxRange64
    rw [if_pos rfl]
    simp only [Option.map_none, if_neg (hg _), if_neg (hl _), int64]
    rfl
  unfold outerCalls
  rw [hlines, List.mapM_cons]
  have : outerCall lib n 0 0 0 0 (-2 ^ 63) = none := by
    unfold outerCall
    rw [if_pos (Or.inl (by norm_num))]
  rw [this]
  rfl

theorem loopRange_nodup (a b : ℤ) : (loopRange a b).Nodup := by
  unfold loopRange
  exact (List.nodup_range).map fun x y h => by simpa using h

/-- The loops do not overlap. -/
theorem ranges_nodup (n : ℕ) (hn : 5 ≤ n) (lo hig : ℚ) (h1 : -5 ≤ (lo : ℝ)) (h2 : (hig : ℝ) ≤ 5) (h3 : (hig : ℝ) - lo ≤ 3.161) :
    (loopRange (idxRange64 n (some lo) (some hig)).1.1 (idxRange64 n (some lo) (some hig)).1.2 ++ loopRange (idxRange64 n (some lo) (some hig)).2.1 (idxRange64 n (some lo) (some hig)).2.2).Nodup := by
  have hn0 : 0 < n := by omega
  have hd := dPhi_pos n hn0
  rw [List.nodup_append]
  refine ⟨loopRange_nodup _ _, loopRange_nodup _ _, fun a ha b hb hab => ?_⟩
  subst hab
  unfold idxRange64 at ha hb
  simp only [if_neg (no_wrap_up hig h2)] at ha hb
  rw [mem_loopRange] at ha hb
  by_cases hneg : ltNum (some lo) 0
  · rw [if_pos hneg] at ha hb
    simp only [Option.map_some, int64] at ha hb
    have hw := wrapped_pos n hn0 lo h1
    have hp := pi64_near.1
    have hp2 := Real.pi_gt_d2
    have hp3 := Real.pi_lt_d2
    have hdn := dPhi_near n hn0
    have hn' : (0 : ℝ) < n := by exact_mod_cast hn0
    have hn5 : (5 : ℝ) ≤ n := by exact_mod_cast hn
    have hd' : (0 : ℝ) < dPhi64 n := by exact_mod_cast hd
    have hdn5 : n * (dPhi64 n : ℝ) ≤ 6.31 := by
      rw [abs_le] at hdn
      have := mul_le_mul_of_nonneg_left hdn.2 hn'.le
      rw [mul_sub] at this
      have e1 : (n : ℝ) * (2 * Real.pi / n) = 2 * Real.pi := by field_simp
      have e2 : (n : ℝ) * (1 / n * (1 / 2 ^ 48)) = 1 / 2 ^ 48 := by field_simp
      rw [e1, e2] at this
      norm_num at *
      linarith
    have hd5 : (dPhi64 n : ℝ) ≤ 1.262 := by
      have := mul_le_mul_of_nonneg_right hn5 hd'.le
      norm_num at *
      linarith
    -- the first index of the first loop
    have hx := r64_errR (lo + 2 * pi64)
    push_cast at hx
    have hlo0 : (lo : ℝ) < 0 := by
      obtain ⟨x, hx, hlt⟩ := hneg
      injection hx with hx
      rw [← hx] at hlt
      exact_mod_cast hlt
    have hpl := pi64_near.2
    have hsum : |(lo : ℝ) + 2 * (pi64 : ℝ)| ≤ 7 := by rw [abs_le]; norm_num at hp hp2 hp3 ⊢; constructor <;> linarith
    have hl : (lo : ℝ) + 6.279 ≤ ((r64 (lo + 2 * pi64) : ℚ) : ℝ) := by
      rw [abs_le] at hx
      norm_num at *
      linarith
    rcases lt_or_ge hig 0 with hh | hh
    · have hle : r64 (hig / dPhi64 n) ≤ 0 := r64_le ⟨0, 0, by norm_num, by norm_num⟩ (div_nonpos_of_nonpos_of_nonneg hh.le hd.le)
      have hi0 : toInt (r64 (hig / dPhi64 n)) ≤ 0 := by
        rcases hle.lt_or_eq with h1 | h1
        · exact toInt_neg h1
        · rw [h1, toInt_nonneg le_rfl]; simp
      have : ((1 : ℕ) : ℤ) ≤ toInt (r64 (r64 (lo + 2 * pi64) / dPhi64 n)) := le_index (by norm_num) hd (rat_le (by push_cast; norm_num at hd5 hl; linarith))
      omega
    · -- compare with the last index of the second loop
      have hhi0 : 0 ≤ r64 (hig / dPhi64 n) := r64_nonneg (div_nonneg hh hd.le)
      have key : r64 (hig / dPhi64 n) + 1 ≤ r64 (r64 (lo + 2 * pi64) / dPhi64 n) := by
        have b1 := (r64_bounds (div_nonneg hh hd.le)).2
        have hpos : 0 ≤ r64 (lo + 2 * pi64) := rat_le (by push_cast; norm_num at hl; linarith)
        have b2 := (r64_bounds (div_nonneg hpos hd.le)).1
        refine le_trans (add_le_add b1 le_rfl) (le_trans ?_ b2)
        apply rat_le
        push_cast
        have c1 : ((r64 (lo + 2 * pi64) : ℚ) : ℝ) / dPhi64 n * (1 - 1 / 2 ^ 53) = ((r64 (lo + 2 * pi64) : ℚ) : ℝ) * (1 - 1 / 2 ^ 53) / dPhi64 n := by ring
        have c2 : (hig : ℝ) / dPhi64 n * (1 + 1 / 2 ^ 53) + 1 = (hig * (1 + 1 / 2 ^ 53) + dPhi64 n) / dPhi64 n := by field_simp
        rw [c1, c2]
        apply div_le_div_of_nonneg_right _ hd'.le
        norm_num at *
        linarith
      rw [toInt_nonneg hhi0] at hb
      rw [toInt_nonneg hw] at ha
      have k1 : ⌊r64 (hig / dPhi64 n)⌋ + 1 ≤ ⌊r64 (r64 (lo + 2 * pi64) / dPhi64 n)⌋ := by
        rw [Int.le_floor]
        push_cast
        have := Int.floor_le (r64 (hig / dPhi64 n))
        linarith
      omega
  · rw [if_neg hneg] at hb
    simp only [] at hb
    omega

theorem filterMap_fst {α : Type} (f : ℤ → Option α) (l : List ℤ) (hl : ∀ x ∈ l, 0 ≤ x) (hnd : l.Nodup) : ((l.filterMap fun i => (f i).map fun r => (i.toNat, r)).map Prod.fst).Nodup := by
  have hsub : ((l.filterMap fun i => (f i).map fun r => (i.toNat, r)).map Prod.fst).Sublist (l.map Int.toNat) := by
    clear hl hnd
    induction l with
    | nil => simp
    | cons a t ih =>
      rw [List.filterMap_cons]
      cases f a with
      | none => simpa using ih.cons a.toNat
      | some r => simpa using ih
  refine List.Nodup.sublist hsub ?_
  rw [List.nodup_map_iff_inj_on hnd]
  intro x hx y hy hxy
  have := hl x hx
  have := hl y hy
  omega

/-- The calls, in order. -/
theorem calls_eq (lib : OuterLib) (n : ℕ) (cx cy dist2 rad2 : ℚ) (l : List ℤ) (hl : ∀ x ∈ l, 0 ≤ x ∧ x < n) :
    (l.mapM fun i => outerCall lib n cx cy dist2 rad2 i).map (fun cs => cs.filterMap id) =
      some (l.filterMap fun i => (twoVal64 dist2 rad2 (impact64 cx cy (ringVec64 lib n i.toNat))).map fun r => (i.toNat, r)) := by
  induction l with
  | nil => rfl
  | cons a t ih =>
    have ih := ih fun x hx => hl x (by simp [hx])
    have ha := hl a (by simp)
    obtain ⟨cs, hcs, hcs2⟩ := Option.map_eq_some_iff.mp ih
    have hc : outerCall lib n cx cy dist2 rad2 a = some ((twoVal64 dist2 rad2 (impact64 cx cy (ringVec64 lib n a.toNat))).map fun r => (a.toNat, r.1, r.2)) := by
      unfold outerCall
      rw [if_neg (by omega)]
    rw [List.mapM_cons, hc, hcs, List.filterMap_cons, ← hcs2]
    show some (List.filterMap id (_ :: cs)) = _
    rw [List.filterMap_cons]
    cases twoVal64 dist2 rad2 (impact64 cx cy (ringVec64 lib n a.toNat)) <;> rfl

/-- C119: with five or more lines of sight, no line is raised twice by a sphere. -/
theorem C119_once_partial (lib : OuterLib) (hl : lib.Good) (n : ℕ) (hn : 5 ≤ n) (cx cy cz radius : ℚ) (hxy : ¬(cx = 0 ∧ cy = 0)) (hout : (projected cx cy cz radius).2 ≤ (projected cx cy cz radius).1) :
    ∃ calls, outerCalls lib n cx cy (projected cx cy cz radius).1 (projected cx cy cz radius).2 = some calls ∧ (calls.map Prod.fst).Nodup := by
  obtain ⟨h0, _⟩ := outer_calls lib hl n (by omega) cx cy _ _ (projected_pos cx cy cz radius hxy) (projected_nonneg cx cy cz radius) hout hxy
  refine ⟨_, calls_eq lib n cx cy _ _ _ h0, filterMap_fst _ _ (fun x hx => (h0 x hx).1) ?_⟩
  obtain ⟨t, e, _, _, _, b1, _⟩ := half_angle lib hl _ _ (projected_pos cx cy cz radius hxy) (projected_nonneg cx cy cz radius) hout
  obtain ⟨c1, _⟩ := atan_bound lib hl cx cy hxy
  obtain ⟨⟨g1, _⟩, g2, g3⟩ := ends_bounded _ _ c1 b1
  unfold outerLines
  rw [e]
  exact ranges_nodup n hn _ _ g1 g2 g3

/-- C119: with a single line of sight, a sphere around a point of it is added twice. -/
theorem C119_once_false (lib : OuterLib) (hl : lib.Good) : ∃ lo hi : ℚ, outerCalls lib 1 2 0 (projected 2 0 0 1).1 (projected 2 0 0 1).2 = some [(0, lo, hi), (0, lo, hi)] := by
  have f4 : Float64 4 := ⟨1, 2, by norm_num, by norm_num⟩
  have f1 : Float64 1 := ⟨1, 0, by norm_num, by norm_num⟩
  have f0 : Float64 0 := ⟨0, 0, by norm_num, by norm_num⟩
  have h1 : (projected 2 0 0 1).1 = 4 := by
    show r64 (r64 (2 * 2) + r64 (0 * 0)) = 4
    rw [mul_zero, r64_float f0, show (2 * 2 : ℚ) = 4 by norm_num, r64_float f4, add_zero, r64_float f4]
  have h2 : (projected 2 0 0 1).2 = 1 := by
    unfold projected
    dsimp only
    rw [mul_zero, r64_float f0, show (1 * 1 : ℚ) = 1 by norm_num, r64_float f1, sub_zero, r64_float f1, if_neg (by norm_num)]
  have hxy : ¬((2 : ℚ) = 0 ∧ (0 : ℚ) = 0) := by norm_num
  have hout : (projected 2 0 0 1).2 ≤ (projected 2 0 0 1).1 := by rw [h1, h2]; norm_num
  obtain ⟨h0, _⟩ := outer_calls lib hl 1 (by norm_num) 2 0 _ _ (projected_pos 2 0 0 1 hxy) (projected_nonneg 2 0 0 1) hout hxy
  have hang : lineAngle 1 0 = 0 := by unfold lineAngle; simp
  have hal : alongR 1 0 (2 : ℚ) (0 : ℚ) = 2 := by unfold alongR; rw [hang]; simp
  have hac : acrossR 1 0 (2 : ℚ) (0 : ℚ) = 0 := by unfold acrossR; rw [hang]; simp
  obtain ⟨lo, hig, h3, _⟩ := twoVal_long lib hl 1 0 (by norm_num) 2 0 0 1 hout (by rw [hal]; norm_num) (by rw [hac, h2]; norm_num)
  obtain ⟨t, e, t0, t1, tr, b1, b2⟩ := half_angle lib hl _ _ (projected_pos 2 0 0 1 hxy) (projected_nonneg 2 0 0 1) hout
  obtain ⟨c1, c2⟩ := atan_bound lib hl 2 0 hxy
  obtain ⟨⟨g1, _⟩, g2, _⟩ := ends_bounded _ _ c1 b1
  have e1 := r64_errR (lib.atan2 0 2 - lib.asin t)
  have e2 := r64_errR (lib.atan2 0 2 + lib.asin t)
  push_cast at e1 e2
  have ht : (0.49 : ℝ) ≤ t := by
    have t0' : (0 : ℝ) ≤ t := by exact_mod_cast t0
    rw [h1, h2] at tr
    by_contra hc
    have := pow_lt_pow_left₀ (not_le.mp hc) t0' (two_ne_zero)
    norm_num at this tr
    linarith
  have hasin : (0.49 : ℝ) ≤ Real.arcsin t := by
    have t1' : (t : ℝ) ≤ 1 := by exact_mod_cast t1
    have t0' : (0 : ℝ) ≤ t := by exact_mod_cast t0
    have hs := Real.sin_le (Real.arcsin_nonneg.mpr t0')
    rw [Real.sin_arcsin (by linarith) t1'] at hs
    linarith
  have hat : Geom.atan2 ((0 : ℚ) : ℝ) ((2 : ℚ) : ℝ) = 0 := by
    unfold Geom.atan2
    rw [Complex.arg_eq_zero_iff]
    constructor <;> simp
  rw [hat] at c2
  have hlines : outerLines lib 1 2 0 (projected 2 0 0 1).1 (projected 2 0 0 1).2 = [0, 0] := by
    unfold outerLines
    rw [e]
    simp only [Option.map_some]
    have hA : |(lib.atan2 0 2 : ℝ) - lib.asin t| ≤ 8 := by
      rw [abs_le] at b1 c1 ⊢; norm_num at b1 c1 ⊢; constructor <;> linarith
    have hB : |(lib.atan2 0 2 : ℝ) + lib.asin t| ≤ 8 := by
      rw [abs_le] at b1 c1 ⊢; norm_num at b1 c1 ⊢; constructor <;> linarith
    have l1 : ((r64 (lib.atan2 0 2 - lib.asin t) : ℚ) : ℝ) ≤ -0.4 := by
      rw [abs_le] at e1 b2 c2
      norm_num at e1 b2 c2 hasin hA ⊢
      linarith
    have l2 : (0.4 : ℝ) ≤ ((r64 (lib.atan2 0 2 + lib.asin t) : ℚ) : ℝ) := by
      rw [abs_le] at e2 b2 c2
      norm_num at e2 b2 c2 hasin hB ⊢
      linarith
    generalize r64 (lib.atan2 0 2 - lib.asin t) = a at *
    generalize r64 (lib.atan2 0 2 + lib.asin t) = b at *
    have hd := dPhi_pos 1 (by norm_num)
    have hneg : ltNum (some a) 0 := ⟨a, rfl, by
      have : (a : ℝ) < 0 := by norm_num at l1; linarith
      exact_mod_cast this⟩
    unfold idxRange64
    simp only [if_neg (no_wrap_up b g2), if_pos hneg, Option.map_some, int64]
    have i1 := index_lt 1 (by norm_num) b g2
    have hb0 : 0 ≤ r64 (b / dPhi64 1) := r64_nonneg (div_nonneg (rat_le (by push_cast; norm_num at l2; linarith)) hd.le)
    have i2 : 0 ≤ toInt (r64 (b / dPhi64 1)) := by rw [toInt_nonneg hb0]; exact Int.floor_nonneg.mpr hb0
    have hw := wrapped_pos 1 (by norm_num) a g1
    have i3 : 0 ≤ toInt (r64 (r64 (a + 2 * pi64) / dPhi64 1)) := by rw [toInt_nonneg hw]; exact Int.floor_nonneg.mpr hw
    have i4 := index_lt6 1 (by norm_num) (r64 (a + 2 * pi64)) (by
      have hp := pi64_near.1
      have hpl := pi64_near.2
      have hp2 := Real.pi_gt_d2
      have hp3 := Real.pi_lt_d2
      have hx := r64_errR (a + 2 * pi64)
      push_cast at hx
      have hsum : |(a : ℝ) + 2 * (pi64 : ℝ)| ≤ 7 := by rw [abs_le]; norm_num at hp hp2 hp3 l1 ⊢; constructor <;> linarith
      rw [abs_le] at hx
      norm_num at hx hp3 l1 hsum
      linarith)
    have j1 : toInt (r64 (b / dPhi64 1)) = 0 := by push_cast at i1; omega
    have j2 : toInt (r64 (r64 (a + 2 * pi64) / dPhi64 1)) = 0 := by push_cast at i4; omega
    rw [j1, j2]
    rfl
  refine ⟨lo, hig, ?_⟩
  unfold outerCalls
  rw [calls_eq lib 1 2 0 _ _ _ h0, hlines]
  simp only [List.filterMap_cons, List.filterMap_nil, Int.toNat_zero, h3, Option.map_some]

/-! ### The ring -/

theorem ringInsertF_two (p : Shellfish.Los.ProfileRing ℚ) (hb : 0 < p.bins) (hlh : p.lowR < p.highR) (hdr : p.dr = r64 (r64 (p.highR - p.lowR) / (p.bins : ℚ))) (hd : p.derivs.length = p.bins * p.n)
    (start stop : Flt) (h1 : start.Safe p.lowR p.highR) (h2 : stop.Safe p.lowR p.highR) (rho : ℚ) (i : ℕ) (hi : i < p.n) :
    ∃ d, ringInsertF p start stop rho i = some { p with derivs := d } ∧ d.length = p.derivs.length ∧ ∀ j, j / p.bins ≠ i → d[j]? = p.derivs[j]? := by
  have hmod : ∀ j, j / p.bins ≠ i → (p.derivs.modify (i * p.bins) fun a => r64 (a + rho))[j]? = p.derivs[j]? := by
    intro j hj
    have : ¬i * p.bins = j := by
      rintro rfl
      exact hj (Nat.mul_div_cancel _ hb)
    rw [List.getElem?_modify]
    simp only [this, if_false]
    simp
  unfold ringInsertF
  by_cases hret : stop.leNum p.lowR ∨ start.geNum p.highR
  · rw [if_pos hret]
    exact ⟨p.derivs, rfl, rfl, fun _ _ => rfl⟩
  rw [if_neg hret]
  push Not at hret
  have hfirst : ∃ d, (match start with
      | .fin s => if p.lowR < s then step p s rho i p.derivs else addAtR p.derivs (i * p.bins) rho
      | _ => addAtR p.derivs (i * p.bins) rho) = some d ∧ d.length = p.derivs.length ∧ ∀ j, j / p.bins ≠ i → d[j]? = p.derivs[j]? := by
    have ha := addAtR_first p hb hd rho i hi
    cases start with
    | nan => exact ⟨_, ha, List.length_modify .., hmod⟩
    | ninf => exact ⟨_, ha, List.length_modify .., hmod⟩
    | pinf => exact ⟨_, ha, List.length_modify .., hmod⟩
    | fin s =>
      dsimp only
      by_cases hs : p.lowR < s
      · rw [if_pos hs]
        have hns : ¬p.highR ≤ s := fun h => hret.2 (by simp [Flt.geNum, h])
        exact step_clear p hb hlh hdr s rho hs (h1.resolve_left hns) i hi p.derivs hd
      · rw [if_neg hs]
        exact ⟨_, ha, List.length_modify .., hmod⟩
  obtain ⟨d1, e1, l1, k1⟩ := hfirst
  have hmain : ∀ f : Option (List ℚ), f = some d1 → ∃ d, (f.bind fun d => match stop with
      | .fin e => if e < p.highR then step p e (-rho) i d else some d
      | _ => some d).map (fun d => { p with derivs := d }) = some { p with derivs := d } ∧ d.length = p.derivs.length ∧ ∀ j, j / p.bins ≠ i → d[j]? = p.derivs[j]? := by
    intro f hf
    rw [hf, Option.bind_some]
    cases stop with
    | nan => exact ⟨d1, rfl, l1, k1⟩
    | ninf => exact ⟨d1, rfl, l1, k1⟩
    | pinf => exact ⟨d1, rfl, l1, k1⟩
    | fin e =>
      dsimp only
      by_cases hh : e < p.highR
      · rw [if_pos hh]
        have hlo : p.lowR < e := by
          by_contra hcon
          exact hret.1 (by simp [Flt.leNum, not_lt.mp hcon])
        obtain ⟨d2, e2, l2, k2⟩ := step_clear p hb hlh hdr e (-rho) hlo (h2.resolve_left (not_le.mpr hh)) i hi d1 (l1.trans hd)
        rw [e2, Option.map_some]
        exact ⟨d2, rfl, l2.trans l1, fun j hj => (k2 j hj).trans (k1 j hj)⟩
      · rw [if_neg hh]
        exact ⟨d1, rfl, l1, k1⟩
  exact hmain _ e1

theorem fold_lines (lg : ℚ → ℚ) (rho : ℚ) : ∀ (calls : List (ℕ × ℚ × ℚ)) (p : Shellfish.Los.ProfileRing ℚ), 0 < p.bins → p.lowR < p.highR → p.dr = r64 (r64 (p.highR - p.lowR) / (p.bins : ℚ)) →
    p.derivs.length = p.bins * p.n → (∀ c ∈ calls, c.1 < p.n ∧ (log64 lg (some c.2.1)).Safe p.lowR p.highR ∧ (log64 lg (some c.2.2)).Safe p.lowR p.highR) →
    ∃ d, calls.foldlM (fun p c => ringInsertF p (log64 lg (some c.2.1)) (log64 lg (some c.2.2)) rho c.1) p = some { p with derivs := d } ∧ d.length = p.derivs.length ∧
      ∀ j, (∀ c ∈ calls, j / p.bins ≠ c.1) → d[j]? = p.derivs[j]?
  | [], p, _, _, _, _, _ => ⟨p.derivs, rfl, rfl, fun _ _ => rfl⟩
  | c :: cs, p, hb, hlh, hdr, hd, hs => by
    obtain ⟨s1, s2, s3⟩ := hs c List.mem_cons_self
    obtain ⟨d1, e1, l1, k1⟩ := ringInsertF_two p hb hlh hdr hd _ _ s2 s3 rho c.1 s1
    obtain ⟨d2, e2, l2, k2⟩ := fold_lines lg rho cs { p with derivs := d1 } hb hlh hdr (l1.trans hd) (fun x hx => hs x (List.mem_cons_of_mem _ hx))
    refine ⟨d2, ?_, l2.trans l1, fun j hj => ?_⟩
    · rw [List.foldlM_cons, e1]
      exact e2
    · exact (k2 j fun x hx => hj x (List.mem_cons_of_mem _ hx)).trans (k1 j (hj c List.mem_cons_self))

/-- C119: the insertion into a ring of `n` lines does not crash, and the lines of sight that clearly miss the sphere keep their profiles, bit for bit (`hs`: no end of a chord hits the rounding of
the last bin, C95). -/
theorem C119_insert_partial (lib : OuterLib) (hl : lib.Good) (lg : ℚ → ℚ) (p : Shellfish.Los.ProfileRing ℚ) (hn : 0 < p.n) (hb : 0 < p.bins) (hlh : p.lowR < p.highR)
    (hdr : p.dr = r64 (r64 (p.highR - p.lowR) / (p.bins : ℚ))) (hd : p.derivs.length = p.bins * p.n) (cx cy cz radius rho : ℚ) (hz : |cz| ≤ |radius|) (hxy : ¬(cx = 0 ∧ cy = 0))
    (hout : (projected cx cy cz radius).2 ≤ (projected cx cy cz radius).1) (hs : ∀ x : ℚ, 0 ≤ x → (log64 lg (some x)).Safe p.lowR p.highR) :
    ∃ q, insertOuter lib lg p.n cx cy cz radius rho p = some q ∧ q.derivs.length = p.derivs.length ∧
      ∀ i < p.n, scale cx cy cz radius / 2 ^ 39 ≤ -halfChord2 p.n i cx cy cz radius → retrieve64 q i = retrieve64 p i := by
  obtain ⟨calls, hc, hm⟩ := C119_safe lib hl p.n hn cx cy cz radius hxy hout
  obtain ⟨d, e, l, k⟩ := fold_lines lg rho calls p hb hlh hdr hd (fun c h => by
    obtain ⟨h1, h2, h3⟩ := hm c.1 c.2.1 c.2.2 h
    exact ⟨h1, hs _ h2, hs _ (h2.trans h3)⟩)
  refine ⟨{ p with derivs := d }, ?_, l, fun i hi hmiss => ?_⟩
  · unfold insertOuter
    rw [hc]
    exact e
  · obtain ⟨calls', hc', hno⟩ := C119_miss_partial lib hl p.n i hi cx cy cz radius hz hxy hout hmiss
    rw [hc] at hc'
    injection hc' with hc'
    subst hc'
    unfold retrieve64
    have hsame : (d.drop (p.bins * i)).take p.bins = (p.derivs.drop (p.bins * i)).take p.bins := by
      apply List.ext_getElem?
      intro t
      rw [List.getElem?_take, List.getElem?_take]
      by_cases ht : t < p.bins
      · rw [if_pos ht, if_pos ht, List.getElem?_drop, List.getElem?_drop]
        apply k
        intro c hcm heq
        rw [Nat.mul_add_div hb, Nat.div_eq_of_lt ht, Nat.add_zero] at heq
        subst heq
        exact hno c.2.1 c.2.2 hcm
      · rw [if_neg ht, if_neg ht]
    dsimp only
    rw [hsame]

/-! ### The hypotheses are met -/

/-- Correctly rounded functions. -/
noncomputable def roundedOuter : OuterLib := ⟨fun y x => rnReal (Geom.atan2 (y : ℝ) (x : ℝ)), fun t => rnReal (Real.arcsin t), fun x => rnReal (Real.sin x), fun x => rnReal (Real.cos x)⟩

theorem rnReal_err4 (x : ℝ) (h : |x| ≤ 4) : |((rnReal x : ℚ) : ℝ) - x| ≤ 1 / 2 ^ 50 := by
  refine (rnReal_error x).trans ?_
  norm_num
  linarith

theorem roundedOuter_good : roundedOuter.Good := by
  refine ⟨fun y x _ => rnReal_err4 _ ?_, fun t _ _ => rnReal_err4 _ ?_, fun x _ _ => rnReal_err4 _ ?_, fun x _ _ => rnReal_err4 _ ?_⟩
  · have a1 : -Real.pi < Geom.atan2 (y : ℝ) (x : ℝ) := Complex.neg_pi_lt_arg _
    have a2 : Geom.atan2 (y : ℝ) (x : ℝ) ≤ Real.pi := Complex.arg_le_pi _
    have := Real.pi_le_four
    rw [abs_le]; constructor <;> linarith
  · have a1 := Real.arcsin_le_pi_div_two (t : ℝ)
    have a2 := Real.neg_pi_div_two_le_arcsin (t : ℝ)
    have := Real.pi_le_four
    rw [abs_le]; constructor <;> linarith
  · exact (Real.abs_sin_le_one _).trans (by norm_num)
  · exact (Real.abs_cos_le_one _).trans (by norm_num)

/-- A sphere of radius 1 around (2, 1/2, 1/4) and the first of 100 lines of sight: the chord is long. -/
example : (projected 2 (1 / 2) (1 / 4) 1).2 ≤ (projected 2 (1 / 2) (1 / 4) 1).1 ∧ 0 < ((2 : ℚ) : ℝ) * Real.cos (lineAngle 100 0) + ((1 / 2 : ℚ) : ℝ) * Real.sin (lineAngle 100 0) ∧
    scale 2 (1 / 2) (1 / 4) 1 / 2 ^ 39 ≤ halfChord2 100 0 2 (1 / 2) (1 / 4) 1 := by
  have hang : lineAngle 100 0 = 0 := by unfold lineAngle; simp
  refine ⟨?_, ?_, ?_⟩
  · have h := rad2_near 2 (1 / 2) (1 / 4) 1 (by norm_num)
    have h2 := (dist2_near 2 (1 / 2) (1 / 4) 1).1
    apply rat_le
    rw [abs_le] at h
    norm_num at h h2
    linarith [h.2]
  · rw [hang]; simp
  · unfold scale halfChord2 acrossR
    rw [hang]
    norm_num

/-- The line 25 of 100 (a right angle) misses that sphere. -/
example : scale 2 (1 / 2) (1 / 4) 1 / 2 ^ 39 ≤ -halfChord2 100 25 2 (1 / 2) (1 / 4) 1 := by
  have hang : lineAngle 100 25 = Real.pi / 2 := by unfold lineAngle; push_cast; ring
  unfold scale halfChord2 acrossR
  rw [hang, Real.cos_pi_div_two, Real.sin_pi_div_two]
  norm_num

/-- The hypotheses of `C119_insert_partial` about the ring are met by a new ring whose lines end outside of it. -/
example : (ringInit 0 1 10 100).n = 100 ∧ (ringInit 0 1 10 100).derivs.length = (ringInit 0 1 10 100).bins * (ringInit 0 1 10 100).n ∧
    ∀ x : ℚ, 0 ≤ x → (log64 (fun x => if x < 3 then 1 / 2 else 2) (some x)).Safe (ringInit 0 1 10 100).lowR (ringInit 0 1 10 100).highR := by
  refine ⟨rfl, by unfold ringInit; rw [List.length_replicate], fun x hx => ?_⟩
  unfold log64
  dsimp only
  rw [if_neg (not_lt.mpr hx)]
  show Flt.Safe 0 1 _
  split_ifs
  · trivial
  · exact Or.inr (by unfold Clear; norm_num)
  · exact Or.inl (by norm_num)

end Shellfish.Round
