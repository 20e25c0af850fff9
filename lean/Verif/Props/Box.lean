/- C36: matching halos with particle files; C37: periodic images. -/
import Verif.Model.Box
import Verif.Props.HaloPass

namespace Shellfish.Los
noncomputable section
open Real
open Shellfish.Geom (Vec Mat rotateVec eulerMatrixBetween atan2 dot zero)

/-! Specification -/

/-- The point `p` lies in the region. -/
def Region.Contains (hd : Region) (p : Vec) : Prop :=
  (hd.origin.x ≤ p.x ∧ p.x ≤ hd.origin.x + hd.width.x) ∧ (hd.origin.y ≤ p.y ∧ p.y ≤ hd.origin.y + hd.width.y) ∧
    (hd.origin.z ≤ p.z ∧ p.z ≤ hd.origin.z + hd.width.z)

/-- Some periodic image of `p` in a box of width `tw` is closer to `c` than `r`. -/
def Near (tw : ℝ) (c : Vec) (r : ℝ) (p : Vec) : Prop :=
  ∃ i j k : ℤ, (p.x + i * tw - c.x) ^ 2 + (p.y + j * tw - c.y) ^ 2 + (p.z + k * tw - c.z) ^ 2 < r ^ 2

/-- `v` has all coordinates in `[0, tw)`. -/
def InBox (tw : ℝ) (v : Vec) : Prop := (0 ≤ v.x ∧ v.x < tw) ∧ (0 ≤ v.y ∧ v.y < tw) ∧ (0 ≤ v.z ∧ v.z < tw)

/-- The region is small: its widths are not negative and at most half the box minus `r`. -/
def Region.Small (hd : Region) (r : ℝ) : Prop :=
  (0 ≤ hd.width.x ∧ hd.width.x + r ≤ hd.totalWidth / 2) ∧ (0 ≤ hd.width.y ∧ hd.width.y + r ≤ hd.totalWidth / 2) ∧
    (0 ≤ hd.width.z ∧ hd.width.z + r ≤ hd.totalWidth / 2)

/-! Proofs -/

theorem inRange_complete (x r low width tw p : ℝ) (k : ℤ) (hx : 0 ≤ x) (hx' : x < tw) (hl : 0 ≤ low) (hl' : low < tw) (hr : 0 < r) (hw : 0 ≤ width)
    (hsmall : width + r ≤ tw / 2) (hp : low ≤ p) (hp' : p ≤ low + width) (hk : |p + k * tw - x| < r) : inRange x r low width tw := by
  obtain ⟨k1, k2⟩ := abs_lt.mp hk
  have htw : 0 < tw := by linarith
  have hk' : k = 0 ∨ k = 1 ∨ k = -1 := by
    by_contra hc
    have : 2 ≤ k ∨ k ≤ -2 := by omega
    rcases this with h | h
    · have : (2 : ℝ) ≤ k := by exact_mod_cast h
      nlinarith
    · have : (k : ℝ) ≤ -2 := by exact_mod_cast h
      nlinarith
  unfold inRange wrapDist
  rcases hk' with rfl | rfl | rfl
  · left
    simp only [Int.cast_zero, zero_mul, add_zero] at k1 k2
    constructor <;> linarith
  · right
    simp only [Int.cast_one, one_mul] at k1 k2
    constructor
    · split_ifs <;> linarith
    · split_ifs <;> linarith
  · right
    simp only [Int.cast_neg, Int.cast_one, neg_mul, one_mul] at k1 k2
    constructor
    · split_ifs <;> linarith
    · split_ifs <;> linarith

theorem abs_of_sq (a b c r : ℝ) (hr : 0 < r) (h : a ^ 2 + b ^ 2 + c ^ 2 < r ^ 2) : |a| < r ∧ |b| < r ∧ |c| < r := by
  refine ⟨?_, ?_, ?_⟩ <;> apply abs_lt_of_sq_lt_sq _ hr.le <;> nlinarith [sq_nonneg a, sq_nonneg b, sq_nonneg c]

theorem box_complete (hd : Region) (c : Vec) (r : ℝ) (hr : 0 < r) (hc : InBox hd.totalWidth c) (ho : InBox hd.totalWidth hd.origin) (hs : hd.Small r)
    (p : Vec) (hp : hd.Contains p) (hn : Near hd.totalWidth c r p) :
    inRange c.x r hd.origin.x hd.width.x hd.totalWidth ∧ inRange c.y r hd.origin.y hd.width.y hd.totalWidth ∧
    inRange c.z r hd.origin.z hd.width.z hd.totalWidth := by
  obtain ⟨i, j, k, h⟩ := hn
  obtain ⟨h1, h2, h3⟩ := abs_of_sq _ _ _ r hr h
  exact ⟨inRange_complete _ _ _ _ _ p.x i hc.1.1 hc.1.2 ho.1.1 ho.1.2 hr hs.1.1 hs.1.2 hp.1.1 hp.1.2 h1,
    inRange_complete _ _ _ _ _ p.y j hc.2.1.1 hc.2.1.2 ho.2.1.1 ho.2.1.2 hr hs.2.1.1 hs.2.1.2 hp.2.1.1 hp.2.1.2 h2,
    inRange_complete _ _ _ _ _ p.z k hc.2.2.1 hc.2.2.2 ho.2.2.1 ho.2.2.2 hr hs.2.2.1 hs.2.2.2 hp.2.2.1 hp.2.2.2 h3⟩

/-- C36: every file whose region is small and contains a point within a halo's outer radius (in any periodic image) is given that halo. -/
theorem C36_selected_partial (hds : List Region) (halos : List Halo) (i : Nat) (hd : Region) (hi : hds[i]? = some hd) (h : Halo) (hh : h ∈ halos) (hr : 0 < h.rMax)
    (hc : InBox hd.totalWidth h.origin) (ho : InBox hd.totalWidth hd.origin) (hs : hd.Small h.rMax)
    (p : Vec) (hp : hd.Contains p) (hn : Near hd.totalWidth h.origin h.rMax p) : ∃ bin, (binIntersections hds halos)[i]? = some bin ∧ h ∈ bin := by
  unfold binIntersections
  rw [List.getElem?_map, hi]
  refine ⟨_, rfl, ?_⟩
  rw [List.mem_filter]
  exact ⟨hh, by simp only [decide_eq_true_eq]; exact box_complete hd h.origin h.rMax hr hc ho hs p hp hn⟩

/-- C36 for the modes that use spheres: the sphere is selected, with its own index. -/
theorem C36_sphere_partial (hds : List Region) (spheres : List Sphere) (i si : Nat) (hd : Region) (hi : hds[i]? = some hd) (s : Sphere) (hh : spheres[si]? = some s) (hr : 0 < s.r)
    (hc : InBox hd.totalWidth s.c) (ho : InBox hd.totalWidth hd.origin) (hs : hd.Small s.r)
    (p : Vec) (hp : hd.Contains p) (hn : Near hd.totalWidth s.c s.r p) : ∃ bin, (binSphereIntersections hds spheres)[i]? = some bin ∧ (s, si) ∈ bin := by
  unfold binSphereIntersections
  rw [List.getElem?_map, hi]
  refine ⟨_, rfl, ?_⟩
  rw [List.mem_filter]
  refine ⟨?_, by simp only [decide_eq_true_eq]; exact box_complete hd s.c s.r hr hc ho hs p hp hn⟩
  rw [List.mem_iff_getElem?]
  exact ⟨si, by rw [List.getElem?_zipIdx, hh]; simp⟩

/-- C36 and the selected ones are among the given ones (nothing is invented or duplicated). -/
theorem C36_subset (hds : List Region) (halos : List Halo) : (binIntersections hds halos).length = hds.length ∧
    ∀ bin ∈ binIntersections hds halos, bin.Sublist halos := by
  unfold binIntersections
  refine ⟨by simp, ?_⟩
  intro bin hb
  obtain ⟨hd, _, rfl⟩ := List.mem_map.mp hb
  exact List.filter_sublist

-- a halo near the lower edge of a box of width 100 and a file at its upper edge
example : let hd : Region := ⟨⟨90, 0, 0⟩, ⟨10, 20, 20⟩, 100⟩
    InBox hd.totalWidth ⟨1, 10, 10⟩ ∧ InBox hd.totalWidth hd.origin ∧ hd.Small 5 ∧ hd.Contains ⟨98, 11, 10⟩ ∧ Near hd.totalWidth ⟨1, 10, 10⟩ 5 ⟨98, 11, 10⟩ := by
  refine ⟨?_, ?_, ?_, ?_, ⟨-1, 0, 0, ?_⟩⟩
  · norm_num [InBox]
  · norm_num [InBox]
  · norm_num [Region.Small]
  · norm_num [Region.Contains]
  · norm_num

/-- C36 for regions that are larger than half the box is false of the code: a halo at the edge of the box does not see a file that covers [40, 100]. -/
theorem C36_large_region_false : ∃ (hd : Region) (h : Halo) (p : Vec), h.WF ∧ InBox hd.totalWidth h.origin ∧ InBox hd.totalWidth hd.origin ∧
    hd.Contains p ∧ InBox hd.totalWidth p ∧ Near hd.totalWidth h.origin h.rMax p ∧ ¬ h.sheetIntersect hd.origin hd.width hd.totalWidth := by
  refine ⟨⟨⟨40, 0, 0⟩, ⟨60, 100, 100⟩, 100⟩, Halo.init [⟨0, 0, 1⟩] ⟨0, 50, 50⟩ (1 / 2) 5 1 8 0, ⟨98, 50, 50⟩,
    (init_WF_halo _ (by intro v hv; rw [List.mem_singleton.mp hv]; norm_num [dot]) _ _ _ (by norm_num) (by norm_num) _ _ (by norm_num) (by norm_num) _).1, ?_, ?_, ?_, ?_, ⟨-1, 0, 0, ?_⟩, ?_⟩
  · norm_num [InBox, Halo.init]
  · norm_num [InBox]
  · norm_num [Region.Contains]
  · norm_num [InBox]
  · norm_num [Halo.init]
  · unfold Halo.sheetIntersect inRange wrapDist
    norm_num [Halo.init]

/-- C36 with the radius inside which particles count is false of the code: the selection uses the outer radius without the radius of the particles'
kernels, so a file can be skipped although a particle in it would have changed a profile. -/
theorem C36_kernel_false : ∃ (hd : Region) (h h' : Halo) (p : Vec) (radius rho : ℝ) (before after : List ℝ), h.WF ∧ h.Oriented ∧ hd.Small h.rMax ∧
    InBox hd.totalWidth h.origin ∧ InBox hd.totalWidth hd.origin ∧ hd.Contains p ∧ ¬ h.sheetIntersect hd.origin hd.width hd.totalWidth ∧
    h.intersects p radius ∧ h.insert p radius rho = some h' ∧ h.profile 0 0 = some before ∧ h'.profile 0 0 = some after ∧ before.getD 0 0 < after.getD 0 0 := by
  have hall := init_WF_halo [⟨0, 0, 1⟩] (by intro v hv; rw [List.mem_singleton.mp hv]; norm_num [dot]) ⟨50, 50, 50⟩ (1 / 2) 1 (by norm_num) (by norm_num) 1 8 (by norm_num) (by norm_num) 0
  set h := Halo.init [⟨0, 0, 1⟩] ⟨50, 50, 50⟩ (1 / 2) 1 1 8 0 with hh
  obtain ⟨hw, ho⟩ := hall
  have eo : h.origin = ⟨50, 50, 50⟩ := rfl
  have en : h.n = 8 := rfl
  have e6 : h.rMin = 1 / 2 := rfl
  have e7 : h.rMax = 1 := rfl
  have e8 : h.bins = 1 := rfl
  have er : h.rings = 1 := rfl
  have hd0 : h.lineDir 0 0 = some ⟨1, 0, 0⟩ := by
    rw [lineDir_eq h ho 0 0 ⟨0, 0, 1⟩ rfl (by rw [en]; norm_num), show (⟨0, 0, 1⟩ : Vec) = zAxis from rfl, between_self, rotate_ident]
    simp [phiOf]
  obtain ⟨h', h1, _, _, h4⟩ := C56_insert_partial h hw ho (by rw [en]; norm_num) ⟨51 + 1 / 10, 50, 50⟩ (1 / 5) 1 (by norm_num)
  obtain ⟨dir, b, a, f1, f2, f3, _, _, f6⟩ := h4 0 0 (by rw [er]; norm_num) (by rw [en]; norm_num)
  rw [hd0, Option.some.injEq] at f1
  subst f1
  refine ⟨⟨⟨51 + 1 / 10, 49, 49⟩, ⟨1, 2, 2⟩, 100⟩, h, h', ⟨51 + 1 / 10, 50, 50⟩, 1 / 5, 1, b, a, hw, ho, ?_, ?_, ?_, ?_, ?_, ?_, h1, f2, f3, ?_⟩
  · rw [e7]; norm_num [Region.Small]
  · rw [eo]; norm_num [InBox]
  · norm_num [InBox]
  · norm_num [Region.Contains]
  · unfold Halo.sheetIntersect inRange wrapDist
    rw [eo, e7]; norm_num
  · simp only [Halo.intersects, displace]
    rw [eo, e6, e7]
    norm_num
  · rw [f6 (Or.inr (by rw [eo]; norm_num [displace, dot])) 0 (by rw [e8]; norm_num), one_mul]
    have hlog : log (1 / 2) < 0 := log_neg (by norm_num) (by norm_num)
    have hlog9 : log (9 / 10) < 0 := log_neg (by norm_num) (by norm_num)
    have hlogle : log (1 / 2) ≤ log (9 / 10) := log_le_log (by norm_num) (by norm_num)
    suffices 0 < coverage h ⟨51 + 1 / 10, 50, 50⟩ (1 / 5) ⟨1, 0, 0⟩ 0 by linarith
    unfold coverage
    rw [e6, e7, e8, eo]
    have hset : {t : ℝ | log (1 / 2) + (log 1 - log (1 / 2)) / ((1 : Nat) : ℝ) * ((0 : Nat) : ℝ) ≤ t ∧
        t ≤ log (1 / 2) + (log 1 - log (1 / 2)) / ((1 : Nat) : ℝ) * (((0 : Nat) : ℝ) + 1) ∧ Inside ⟨50, 50, 50⟩ ⟨51 + 1 / 10, 50, 50⟩ (1 / 5) ⟨1, 0, 0⟩ (exp t)} = Set.Icc (log (9 / 10)) 0 := by
      ext t
      simp only [log_one, Nat.cast_one, div_one, Nat.cast_zero, mul_zero, add_zero, zero_add, mul_one, zero_sub, add_neg_cancel, Set.mem_setOf_eq, Set.mem_Icc, Inside, sub_self]
      have h0 := exp_pos t
      constructor
      · rintro ⟨g1, g2, g3⟩
        refine ⟨?_, g2⟩
        rw [log_le_iff_le_exp (by norm_num)]
        by_contra hc
        push Not at hc
        nlinarith
      · rintro ⟨g1, g2⟩
        have := exp_le_exp.mpr g2
        rw [exp_zero] at this
        rw [log_le_iff_le_exp (by norm_num)] at g1
        refine ⟨?_, g2, by nlinarith⟩
        rw [log_le_iff_le_exp (by norm_num)]
        linarith
    simp only [hset]
    rw [Real.volume_Icc, ENNReal.toReal_ofReal (by linarith), log_one]
    simp only [Nat.cast_one, div_one]
    apply div_pos <;> linarith

/-! C37 -/

theorem transform1_spec (x x0 tw : ℝ) (h : |x - x0| ≤ 3 * tw / 2) : |transform1 x x0 tw - x0| ≤ tw / 2 ∧ ∃ k : ℤ, transform1 x x0 tw = x + k * tw := by
  obtain ⟨h1, h2⟩ := abs_le.mp h
  unfold transform1
  split_ifs
  · exact ⟨abs_le.mpr ⟨by linarith, by linarith⟩, -1, by push_cast; ring⟩
  · exact ⟨abs_le.mpr ⟨by linarith, by linarith⟩, 1, by push_cast; ring⟩
  · exact ⟨abs_le.mpr ⟨by linarith, by linarith⟩, 0, by push_cast; ring⟩

/-- `v` is a periodic image of `u` and the closest one to `c` in every coordinate. -/
def NearestImage (tw : ℝ) (c u v : Vec) : Prop :=
  (|v.x - c.x| ≤ tw / 2 ∧ |v.y - c.y| ≤ tw / 2 ∧ |v.z - c.z| ≤ tw / 2) ∧
    (∃ k : ℤ, v.x = u.x + k * tw) ∧ (∃ k : ℤ, v.y = u.y + k * tw) ∧ ∃ k : ℤ, v.z = u.z + k * tw

theorem near3 (x c c' tw : ℝ) (h : |x - c'| ≤ tw / 2) (hc : 0 ≤ c) (hc1 : c < tw) (hc' : 0 ≤ c') (hc1' : c' < tw) : |x - c| ≤ 3 * tw / 2 := by
  obtain ⟨h1, h2⟩ := abs_le.mp h
  exact abs_le.mpr ⟨by linarith, by linarith⟩

theorem image_trans (tw x y z : ℝ) (h1 : ∃ k : ℤ, y = x + k * tw) (h2 : ∃ k : ℤ, z = y + k * tw) : ∃ k : ℤ, z = x + k * tw := by
  obtain ⟨k, rfl⟩ := h1
  obtain ⟨l, rfl⟩ := h2
  exact ⟨k + l, by push_cast; ring⟩

theorem transform_step (tw : ℝ) (h : Halo) (ho : InBox tw h.origin) (c u v : Vec) (hc : InBox tw c) (hv : NearestImage tw c u v) :
    NearestImage tw h.origin u (h.transform tw v) := by
  obtain ⟨⟨a1, a2, a3⟩, b1, b2, b3⟩ := hv
  have s1 := transform1_spec v.x h.origin.x tw (near3 _ _ c.x tw a1 ho.1.1 ho.1.2 hc.1.1 hc.1.2)
  have s2 := transform1_spec v.y h.origin.y tw (near3 _ _ c.y tw a2 ho.2.1.1 ho.2.1.2 hc.2.1.1 hc.2.1.2)
  have s3 := transform1_spec v.z h.origin.z tw (near3 _ _ c.z tw a3 ho.2.2.1 ho.2.2.2 hc.2.2.1 hc.2.2.2)
  exact ⟨⟨s1.1, s2.1, s3.1⟩, image_trans _ _ _ _ b1 s1.2, image_trans _ _ _ _ b2 s2.2, image_trans _ _ _ _ b3 s3.2⟩

/-- C37: however many halos of the box the positions of a file have been shifted for before, for the next one every position in the box ends up at its periodic
image that is nearest to the halo. -/
theorem C37_nearest (tw : ℝ) (before : List Halo) (h : Halo) (hb : ∀ h' ∈ before, InBox tw h'.origin) (ho : InBox tw h.origin) (v : Vec) (hv : InBox tw v) :
    NearestImage tw h.origin v (transformAll tw (before ++ [h]) v) := by
  have first : ∀ h : Halo, InBox tw h.origin → NearestImage tw h.origin v (h.transform tw v) := by
    intro h ho
    have near : ∀ x c : ℝ, 0 ≤ x ∧ x < tw → 0 ≤ c ∧ c < tw → |x - c| ≤ 3 * tw / 2 := by
      rintro x c ⟨x0, x1⟩ ⟨c0, c1⟩
      exact abs_le.mpr ⟨by linarith, by linarith⟩
    have s1 := transform1_spec v.x h.origin.x tw (near _ _ hv.1 ho.1)
    have s2 := transform1_spec v.y h.origin.y tw (near _ _ hv.2.1 ho.2.1)
    have s3 := transform1_spec v.z h.origin.z tw (near _ _ hv.2.2 ho.2.2)
    exact ⟨⟨s1.1, s2.1, s3.1⟩, s1.2, s2.2, s3.2⟩
  have main : ∀ (l : List Halo) (c w : Vec), (∀ h' ∈ l, InBox tw h'.origin) → InBox tw c → NearestImage tw c v w →
      ∃ c', InBox tw c' ∧ NearestImage tw c' v (l.foldl (fun v h => h.transform tw v) w) := by
    intro l
    induction l with
    | nil => exact fun c w _ hc hw => ⟨c, hc, hw⟩
    | cons a l ih =>
      intro c w hl hc hw
      exact ih a.origin _ (fun h' hh' => hl h' (by simp [hh'])) (hl a (by simp)) (transform_step tw a (hl a (by simp)) c v w hc hw)
  unfold transformAll
  rw [List.foldl_append, List.foldl_cons, List.foldl_nil]
  cases before with
  | nil => exact first h ho
  | cons a l =>
    obtain ⟨c', hc', hw⟩ := main l a.origin _ (fun h' hh' => hb h' (by simp [hh'])) (hb a (by simp)) (first a (hb a (by simp)))
    exact transform_step tw h ho c' v _ hc' hw

-- a box of width 100, two halos at opposite corners
example : let a := Halo.init [⟨0, 0, 1⟩] ⟨1, 1, 1⟩ (1 / 2) 5 1 8 0
    let b := Halo.init [⟨0, 0, 1⟩] ⟨99, 99, 99⟩ (1 / 2) 5 1 8 0
    InBox 100 a.origin ∧ InBox 100 b.origin ∧ InBox 100 ⟨97, 3, 50⟩ ∧ transformAll 100 [a, b] ⟨97, 3, 50⟩ = ⟨97, 103, 50⟩ := by
  refine ⟨by norm_num [InBox, Halo.init], by norm_num [InBox, Halo.init], by norm_num [InBox], ?_⟩
  norm_num [transformAll, Halo.transform, transform1, Halo.init]

/-- C37 for the displacements of the other modes: those within half a box are kept. -/
theorem C37_displacement_partial (tw x c : ℝ) (h : |x - c| ≤ tw / 2) : displacement tw x c = x - c := by
  obtain ⟨h1, h2⟩ := abs_le.mp h
  unfold displacement wrap
  rw [if_neg (by linarith), if_neg (by linarith)]

example : |(3 : ℝ) - 40| ≤ 100 / 2 := by rw [abs_le]; constructor <;> norm_num

/-- C37 for the displacements of the other modes is false of the code in full: they are shifted by half a box, so a particle across the boundary does not get the
displacement of any of its images. -/
theorem C37_displacement_false : ∃ tw x c : ℝ, (0 ≤ x ∧ x < tw) ∧ (0 ≤ c ∧ c < tw) ∧ ∀ k : ℤ, displacement tw x c ≠ x + k * tw - c := by
  refine ⟨100, 99, 1, by norm_num, by norm_num, ?_⟩
  intro k hk
  have : (48 : ℝ) = 98 + k * 100 := by
    have e : displacement 100 99 1 = 48 := by unfold displacement wrap; norm_num
    linarith
  have : (48 : ℤ) = 98 + k * 100 := by exact_mod_cast this
  omega

end
end Shellfish.Los
