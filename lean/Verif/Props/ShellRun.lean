/- C80: the shell mode: the densities of a halo of the catalog are those of its own particles. -/
import Verif.Lemmas.ShellRun
import Verif.Props.Stats

namespace Shellfish.ShellRun
open Real
open Shellfish.Geom (Vec dot)
open Shellfish.Los
open Shellfish.Cmd (GoMap binBySnap sortedSnaps rowsOf)

/-! ## Specification -/

/-- The image of the coordinate `x` in a periodic box of width `tw` that is nearest to `c`. -/
noncomputable def nearest (tw c x : ℝ) : ℝ := x - tw * round ((x - c) / tw)

/-- The image of a point nearest to `c`. -/
noncomputable def image (tw : ℝ) (c v : Vec) : Vec := ⟨nearest tw c.x v.x, nearest tw c.y v.y, nearest tw c.z v.z⟩

/-- The elements `0, k, 2k, ...` of a list. -/
def everyNth {α : Type} (k : Nat) (l : List α) : List α := ((List.range l.length).filter (k ∣ ·)).filterMap fun i => l[i]?

/-- The sphere of radius `rad` around `x` reaches into the shell between `rMin` and `rMax` around `c` (without the point `c`). -/
def Reaches (c x : Vec) (rMin rMax rad : ℝ) : Prop := max 0 (rMin - rad) < Stats.distance c x ∧ Stats.distance c x < rMax + rad

/-- The volume of a sphere. -/
noncomputable def volume (rad : ℝ) : ℝ := 4 / 3 * π * rad ^ 3

open Classical in
/-- The spheres a file contributes to a halo: every `sf³`-th particle that is near enough, as a sphere with the mass of `sf³` particles, density in units of the mean density of the file's header. -/
noncomputable def fileBalls (cfg : Config) (row : Row) (f : File) : List Ball :=
  let rad := row.r * cfg.rKernelMult
  ((everyNth (cfg.sf ^ 3) f.particles).filter fun p => decide (Reaches row.x (image f.region.totalWidth row.x p.x) (row.r * cfg.rMinMult) (row.r * cfg.rMaxMult) rad)).map fun p =>
    ⟨image f.region.totalWidth row.x p.x, rad, p.m * (cfg.sf : ℝ) ^ 3 / volume rad / f.rhoM⟩

open Classical in
/-- The spheres a halo gets: those of the files of its snapshot whose region touches the sphere of radius `rMaxMult r` around it. -/
noncomputable def rowBalls (cfg : Config) (row : Row) (files : List File) : List Ball :=
  (files.filter fun f => decide (sphereSheetIntersect ⟨row.x, row.r * cfg.rMaxMult⟩ f.region)).flatMap (fileBalls cfg row)

/-- The empty halo of a row: radii in units of the catalog radius; the lowest density is `backgroundRhoMult` times that of a single particle with the smallest mass, in units of the mean density `rho0`. -/
noncomputable def emptyHalo (cfg : Config) (norms : List Vec) (minMass rho0 : ℝ) (row : Row) : Halo :=
  Halo.init norms row.x (row.r * cfg.rMinMult) (row.r * cfg.rMaxMult) cfg.radialBins cfg.spokes (minMass * (cfg.sf : ℝ) ^ 3 / volume (row.r * cfg.rKernelMult) / rho0 * cfg.backgroundRhoMult)

/-- Sensible settings. -/
structure Config.Ok (cfg : Config) : Prop where
  bins : 0 < cfg.radialBins
  spokes : 0 < cfg.spokes
  sf : 0 < cfg.sf
  rmin : 0 < cfg.rMinMult
  rmax : cfg.rMinMult < cfg.rMaxMult
  kernel : 0 < cfg.rKernelMult

/-- A row that can be analysed: a positive radius, and a snapshot with at least one file; in each of them the halo and the particles are in the box and the halo, with the kernel, is not larger than half of it. -/
structure RowOk (cfg : Config) (disk : Int → Option (List File)) (row : Row) : Prop where
  radius : 0 < row.r
  marker : row.snap ≠ -1
  files : ∃ files, disk row.snap = some files ∧ files ≠ [] ∧ ∀ f ∈ files, InBox f.region.totalWidth row.x ∧ (∀ p ∈ f.particles, InBox f.region.totalWidth p.x) ∧
    row.r * cfg.rMaxMult + row.r * cfg.rKernelMult ≤ f.region.totalWidth / 2

/-! ## Proofs -/

theorem nearest_spec (tw c x : ℝ) (htw : 0 < tw) : |nearest tw c x - c| ≤ tw / 2 ∧ ∃ k : ℤ, nearest tw c x = x + k * tw := by
  constructor
  · have h := abs_sub_round ((x - c) / tw)
    have e : nearest tw c x - c = tw * ((x - c) / tw - round ((x - c) / tw)) := by unfold nearest; field_simp; ring
    rw [e, abs_mul, abs_of_pos htw]
    nlinarith
  · exact ⟨-round ((x - c) / tw), by unfold nearest; push_cast; ring⟩

theorem nearest_unique (tw c x a b : ℝ) (ha : |a - c| ≤ tw / 2) (hb : |b - c| < tw / 2) (ka : ∃ k : ℤ, a = x + k * tw) (kb : ∃ k : ℤ, b = x + k * tw) : a = b := by
  obtain ⟨k, rfl⟩ := ka
  obtain ⟨l, rfl⟩ := kb
  obtain ⟨a1, a2⟩ := abs_le.1 ha
  obtain ⟨b1, b2⟩ := abs_lt.1 hb
  have htw : 0 < tw := by linarith
  have h1 : ((k - l : ℤ) : ℝ) * tw < 1 * tw := by push_cast; linarith
  have h2 : (-1 : ℝ) * tw < ((k - l : ℤ) : ℝ) * tw := by push_cast; linarith
  have h1 := lt_of_mul_lt_mul_right h1 htw.le
  have h2 := lt_of_mul_lt_mul_right h2 htw.le
  have h3 : k - l < 1 := by exact_mod_cast h1
  have h4 : -1 < k - l := by exact_mod_cast h2
  have : k = l := by omega
  rw [this]

theorem image_nearest (tw : ℝ) (c v : Vec) (hc : InBox tw c) : NearestImage tw c v (image tw c v) := by
  have htw : 0 < tw := by linarith [hc.1.1, hc.1.2]
  have h1 := nearest_spec tw c.x v.x htw
  have h2 := nearest_spec tw c.y v.y htw
  have h3 := nearest_spec tw c.z v.z htw
  exact ⟨⟨h1.1, h2.1, h3.1⟩, h1.2, h2.2, h3.2⟩

theorem image_unique (tw : ℝ) (c v a b : Vec) (ha : NearestImage tw c v a) (hb : NearestImage tw c v b) (hd : Stats.distance c b < tw / 2) : a = b := by
  have hpos : 0 < tw / 2 := lt_of_le_of_lt (Real.sqrt_nonneg _) hd
  have hs : (b.x - c.x) ^ 2 + (b.y - c.y) ^ 2 + (b.z - c.z) ^ 2 < (tw / 2) ^ 2 := by
    unfold Stats.distance at hd
    rwa [Real.sqrt_lt' hpos] at hd
  obtain ⟨h1, h2, h3⟩ := abs_of_sq _ _ _ _ hpos hs
  have e1 := nearest_unique tw c.x v.x a.x b.x ha.1.1 h1 ha.2.1 hb.2.1
  have e2 := nearest_unique tw c.y v.y a.y b.y ha.1.2.1 h2 ha.2.2.1 hb.2.2.1
  have e3 := nearest_unique tw c.z v.z a.z b.z ha.1.2.2 h3 ha.2.2.2 hb.2.2.2
  cases a; cases b
  simp_all

theorem intersects_iff (h : Halo) (v : Vec) (rad : ℝ) (hm : 0 ≤ h.rMax + rad) : h.intersects v rad ↔ Reaches h.origin v h.rMin h.rMax rad := by
  unfold Halo.intersects Reaches Stats.distance displace
  dsimp only
  set D := (v.x - h.origin.x) ^ 2 + (v.y - h.origin.y) ^ 2 + (v.z - h.origin.z) ^ 2 with hD
  have e : (v.x - h.origin.x) * (v.x - h.origin.x) + (v.y - h.origin.y) * (v.y - h.origin.y) + (v.z - h.origin.z) * (v.z - h.origin.z) = D := by rw [hD]; ring
  have hmax : (if h.rMin - rad < 0 then 0 else h.rMin - rad) = max 0 (h.rMin - rad) := by
    split_ifs with hc
    · rw [max_eq_left hc.le]
    · rw [max_eq_right (not_lt.1 hc)]
  rw [e, hmax]
  have hD0 : 0 ≤ D := by rw [hD]; positivity
  rw [Real.lt_sqrt (le_max_left _ _), Real.sqrt_lt hD0 hm]
  simp only [sq, gt_iff_lt]

theorem share_perm (workers k n : Nat) (hk : 0 < k) (hw : 0 < workers) :
    (Par.share workers k n (workers - 1) ++ ((List.range (workers - 1)).map fun w => Par.share workers k n w).flatten).Perm ((List.range n).filter (k ∣ ·)) := by
  have e : (List.range workers).flatMap (fun w => Par.share workers k n w) = ((List.range (workers - 1)).map fun w => Par.share workers k n w).flatten ++ Par.share workers k n (workers - 1) := by
    obtain ⟨w, rfl⟩ : ∃ w, workers = w + 1 := ⟨workers - 1, by omega⟩
    rw [List.range_succ, List.flatMap_append, Nat.add_sub_cancel, List.flatMap_def, List.flatMap_cons, List.flatMap_nil, List.append_nil]
  refine List.perm_append_comm.trans ?_
  rw [← e, List.perm_ext_iff_of_nodup]
  · intro i
    simp only [List.mem_flatMap, List.mem_range, List.mem_filter, decide_eq_true_eq]
    constructor
    · rintro ⟨w, h1, h2⟩
      obtain ⟨h3, j, rfl, _⟩ := (Par.share_mem workers k n w i hk h1).1 h2
      exact ⟨h3, j, rfl⟩
    · rintro ⟨h1, j, rfl⟩
      exact ⟨j % workers, Nat.mod_lt _ hw, (Par.share_mem workers k n _ _ hk (Nat.mod_lt _ hw)).2 ⟨h1, j, rfl, rfl⟩⟩
  · rw [List.nodup_flatMap]
    refine ⟨fun w _ => Par.strided_nodup _ _ _, ?_⟩
    apply List.Pairwise.imp_of_mem _ List.nodup_range
    intro a b ha hb hne
    rw [Function.onFun, List.disjoint_left]
    intro i h1 h2
    exact hne (Par.C19_no_shared_index workers k n a b i hk (List.mem_range.1 ha) (List.mem_range.1 hb) h1 h2)
  · exact List.nodup_range.filter _

/-- The halo of a row, possibly with some particles in it. -/
structure IsHalo (cfg : Config) (row : Row) (h : Halo) : Prop where
  origin : h.origin = row.x
  rmin : h.rMin = row.r * cfg.rMinMult
  rmax : h.rMax = row.r * cfg.rMaxMult

theorem kernel_eq (cfg : Config) (hc : cfg.Ok) (row : Row) (h : Halo) (ih : IsHalo cfg row h) : kernel cfg h = row.r * cfg.rKernelMult := by
  have := hc.rmin; have := hc.rmax
  unfold kernel
  rw [ih.rmax]
  have : cfg.rMaxMult ≠ 0 := by linarith
  field_simp

theorem sphVol_eq (rad : ℝ) : sphVol rad = volume rad := by unfold sphVol volume; ring

theorem filter_map_eq {α β γ : Type} (g : α → Option β) (P : β → Prop) [DecidablePred P] (F : β → γ) (l : List α) :
    ((l.filterMap g).filter fun p => decide (P p)).map F = l.filterMap fun i => (g i).bind fun p => if P p then some (F p) else none := by
  induction l with
  | nil => rfl
  | cons a l ih =>
    rw [List.filterMap_cons, List.filterMap_cons, ← ih]
    cases g a with
    | none => rfl
    | some b => by_cases h : P b <;> simp [h]

open Classical in
theorem shares_perm (cfg : Config) (hc : cfg.Ok) (workers : Nat) (hw : 0 < workers) (row : Row) (h : Halo) (ih : IsHalo cfg row h) (f : File) (pos : Vec → Vec)
    (hbox : InBox f.region.totalWidth row.x) (hpos : ∀ p ∈ f.particles, NearestImage f.region.totalWidth row.x p.x (pos p.x))
    (hr : 0 < row.r) (hsmall : row.r * cfg.rMaxMult + row.r * cfg.rKernelMult ≤ f.region.totalWidth / 2) :
    (shareBalls cfg f h pos workers (workers - 1) ++ ((List.range (workers - 1)).map (shareBalls cfg f h pos workers)).flatten).Perm (fileBalls cfg row f) := by
  have hk : 0 < cfg.sf * cfg.sf * cfg.sf := by have := hc.sf; positivity
  have e3 : cfg.sf * cfg.sf * cfg.sf = cfg.sf ^ 3 := by ring
  have e3' : ((cfg.sf * cfg.sf * cfg.sf : Nat) : ℝ) = (cfg.sf : ℝ) ^ 3 := by push_cast; ring
  have hp := (share_perm workers (cfg.sf * cfg.sf * cfg.sf) f.particles.length hk hw).filterMap (fun i => (f.particles[i]?).bind fun p =>
    if h.intersects (pos p.x) (kernel cfg h) then some (⟨pos p.x, kernel cfg h, p.m * ((cfg.sf * cfg.sf * cfg.sf : Nat) : ℝ) / sphVol (kernel cfg h) / f.rhoM⟩ : Ball) else none)
  rw [List.filterMap_append, List.filterMap_flatten, List.map_map] at hp
  refine hp.trans (List.Perm.of_eq ?_)
  unfold fileBalls everyNth
  dsimp only
  rw [filter_map_eq, e3]
  apply List.filterMap_congr
  intro i _
  cases hi : f.particles[i]? with
  | none => rfl
  | some p =>
    have hn := hpos p (List.mem_of_getElem? hi)
    have hn' := image_nearest f.region.totalWidth row.x p.x hbox
    have hi1 := kernel_eq cfg hc row h ih
    have hm : 0 ≤ h.rMax + kernel cfg h := by
      rw [ih.rmax, hi1]
      have := hc.rmin; have := hc.rmax; have := hc.kernel
      have : 0 < cfg.rMaxMult := by linarith
      positivity
    have hiff : h.intersects (pos p.x) (kernel cfg h) ↔ Reaches row.x (image f.region.totalWidth row.x p.x) (row.r * cfg.rMinMult) (row.r * cfg.rMaxMult) (row.r * cfg.rKernelMult) := by
      rw [intersects_iff h _ _ hm, ih.origin, ih.rmin, ih.rmax, hi1]
      constructor
      · intro hh
        rw [image_unique _ _ _ _ _ hn' hn (by linarith [hh.2])]
        exact hh
      · intro hh
        rw [image_unique _ _ _ _ _ hn hn' (by linarith [hh.2])]
        exact hh
    rw [Option.bind_some, Option.bind_some]
    by_cases hx : Reaches row.x (image f.region.totalWidth row.x p.x) (row.r * cfg.rMinMult) (row.r * cfg.rMaxMult) (row.r * cfg.rKernelMult)
    · have ei : pos p.x = image f.region.totalWidth row.x p.x := image_unique _ _ _ _ _ hn hn' (by linarith [hx.2])
      rw [if_pos (hiff.2 hx), if_pos hx, ei, hi1, sphVol_eq, ← e3, e3']
    · rw [if_neg fun hh => hx (hiff.1 hh), if_neg hx]

theorem ballsOf_append (i : Nat) (a b : List Job) : ballsOf i (a ++ b) = ballsOf i a ++ ballsOf i b := by
  unfold ballsOf
  rw [List.filter_append, List.map_append, List.flatten_append]

theorem ballsOf_flatMap {α : Type} (i : Nat) (l : List α) (f : α → List Job) : ballsOf i (l.flatMap f) = l.flatMap fun a => ballsOf i (f a) := by
  induction l with
  | nil => rfl
  | cons a l ih => rw [List.flatMap_cons, ballsOf_append, ih, List.flatMap_cons]

theorem ballsOf_none (i : Nat) (jobs : List Job) (h : ∀ j ∈ jobs, j.halo ≠ i) : ballsOf i jobs = [] := by
  unfold ballsOf
  rw [List.filter_eq_nil_iff.2 (by intro j hj; simpa using h j hj)]
  rfl

theorem fileJobs_halo (cfg : Config) (workers : Nat) (f : File) (bin : List (Halo × Nat)) : ∀ (pos : Vec → Vec), ∀ j ∈ fileJobs cfg workers f pos bin, j.shares.length = workers - 1 ∧ j.halo ∈ bin.map Prod.snd := by
  induction bin with
  | nil => intro pos j hj; exact (nomatch hj)
  | cons b bin ih =>
    intro pos j hj
    obtain ⟨h, i⟩ := b
    unfold fileJobs at hj
    rcases List.mem_cons.1 hj with rfl | hj
    · exact ⟨by simp, by simp⟩
    · obtain ⟨h1, h2⟩ := ih _ j hj
      exact ⟨h1, by rw [List.map_cons]; exact List.mem_cons_of_mem _ h2⟩

/-- What the jobs of one file do to one halo. -/
theorem fileJobs_balls (cfg : Config) (hc : cfg.Ok) (workers : Nat) (hw : 0 < workers) (f : File) (bin : List (Halo × Nat)) (hn : (bin.map Prod.snd).Nodup)
    (hb : ∀ b ∈ bin, InBox f.region.totalWidth b.1.origin) (row : Row) (h : Halo) (ih : IsHalo cfg row h) (i : Nat) (hi : (h, i) ∈ bin) (hr : 0 < row.r)
    (hsmall : row.r * cfg.rMaxMult + row.r * cfg.rKernelMult ≤ f.region.totalWidth / 2) : ∀ pos : Vec → Vec,
    (∀ p ∈ f.particles, ∃ c, InBox f.region.totalWidth c ∧ NearestImage f.region.totalWidth c p.x (pos p.x)) → (ballsOf i (fileJobs cfg workers f pos bin)).Perm (fileBalls cfg row f) := by
  induction bin with
  | nil => exact (nomatch hi)
  | cons b bin ihb =>
    intro pos hpos
    obtain ⟨h', i'⟩ := b
    have hstep : ∀ p ∈ f.particles, NearestImage f.region.totalWidth h'.origin p.x (h'.transform f.region.totalWidth (pos p.x)) := by
      intro p hp
      obtain ⟨c, hc1, hc2⟩ := hpos p hp
      exact transform_step _ h' (hb (h', i') List.mem_cons_self) c _ _ hc1 hc2
    unfold fileJobs
    dsimp only
    rw [show ∀ (j : Job) (js : List Job), j :: js = [j] ++ js from fun _ _ => rfl, ballsOf_append]
    rw [List.map_cons, List.nodup_cons] at hn
    by_cases he : i' = i
    · subst he
      have heq : h = h' := by
        rcases List.mem_cons.1 hi with e | e
        · exact congrArg Prod.fst e
        · exact absurd (List.mem_map.2 ⟨_, e, rfl⟩) hn.1
      subst heq
      have e1 : ballsOf i' (fileJobs cfg workers f (fun v => h.transform f.region.totalWidth (pos v)) bin) = [] := by
        apply ballsOf_none
        intro j hj he
        exact hn.1 (he ▸ (fileJobs_halo cfg workers f bin _ j hj).2)
      rw [e1, List.append_nil]
      unfold ballsOf
      rw [List.filter_cons_of_pos (by simp), List.filter_nil, List.map_cons, List.map_nil, List.flatten_cons, List.flatten_nil, List.append_nil]
      have hx1 : InBox f.region.totalWidth row.x := by rw [← ih.origin]; exact hb (h, i') List.mem_cons_self
      have hx2 : ∀ p ∈ f.particles, NearestImage f.region.totalWidth row.x p.x (h.transform f.region.totalWidth (pos p.x)) := by rw [← ih.origin]; exact hstep
      exact shares_perm cfg hc workers hw row h ih f (fun v => h.transform f.region.totalWidth (pos v)) hx1 hx2 hr hsmall
    · rw [ballsOf_none i [_] (by intro j hj; rw [List.mem_singleton.1 hj]; exact he), List.nil_append]
      refine ihb hn.2 (fun b hb' => hb b (List.mem_cons_of_mem _ hb')) ?_ _ ?_
      · rcases List.mem_cons.1 hi with e | e
        · exact absurd (congrArg Prod.snd e).symm he
        · exact e
      · intro p hp
        exact ⟨_, hb (h', i') List.mem_cons_self, hstep p hp⟩

theorem bin_spec (halos : List Halo) (hd : Region) : ((bin halos hd).map Prod.snd).Nodup ∧ ∀ (h : Halo) (i : Nat), (h, i) ∈ bin halos hd ↔ halos[i]? = some h ∧ h.sheetIntersect hd.origin hd.width hd.totalWidth := by
  constructor
  · unfold bin
    refine List.Nodup.sublist (List.filter_sublist.map _) ?_
    rw [List.zipIdx_map_snd]
    exact List.nodup_range'
  · intro h i
    unfold bin
    rw [List.mem_filter, List.mem_zipIdx_iff_getElem?]
    simp

theorem createHalo_eq (cfg : Config) (norms : List Vec) (minMass : ℝ) (hd : File) (row : Row) (hr : 0 < row.r) : createHalo cfg norms minMass hd row = some (emptyHalo cfg norms minMass hd.rhoM row) := by
  unfold createHalo emptyHalo
  rw [if_neg (not_le.2 hr)]
  simp only [sphVol_eq]
  congr 3
  push_cast
  ring

theorem sum_filter_flatMap {α β : Type} (P : α → Prop) [DecidablePred P] (f : α → List β) (g : α → List β) (l : List α) (h : ∀ a ∈ l, if P a then (f a).Perm (g a) else f a = []) :
    (l.flatMap f).Perm ((l.filter fun a => decide (P a)).flatMap g) := by
  induction l with
  | nil => exact List.Perm.refl _
  | cons a l ih =>
    have ih := ih fun a ha => h a (List.mem_cons_of_mem _ ha)
    have ha := h a List.mem_cons_self
    rw [List.flatMap_cons]
    by_cases hp : P a
    · rw [if_pos hp] at ha
      rw [List.filter_cons_of_pos (by simpa using hp), List.flatMap_cons]
      exact ha.append ih
    · rw [if_neg hp] at ha
      rw [List.filter_cons_of_neg (by simpa using hp), ha, List.nil_append]
      exact ih

open Classical in
/-- All files of a snapshot. -/
theorem snap_balls (cfg : Config) (hc : cfg.Ok) (workers : Nat) (hw : 0 < workers) (files : List File) (rows : List Row) (halos : List Halo) (hl : halos.length = rows.length)
    (hh : ∀ (i : Nat) (row : Row) (h : Halo), rows[i]? = some row → halos[i]? = some h → IsHalo cfg row h)
    (hok : ∀ row ∈ rows, 0 < row.r ∧ ∀ f ∈ files, InBox f.region.totalWidth row.x ∧ (∀ p ∈ f.particles, InBox f.region.totalWidth p.x) ∧ row.r * cfg.rMaxMult + row.r * cfg.rKernelMult ≤ f.region.totalWidth / 2)
    (i : Nat) (row : Row) (h : Halo) (hrow : rows[i]? = some row) (hhalo : halos[i]? = some h) :
    (ballsOf i (files.flatMap fun f => fileJobs cfg workers f id (bin halos f.region))).Perm (rowBalls cfg row files) := by
  rw [ballsOf_flatMap]
  unfold rowBalls
  apply sum_filter_flatMap
  intro f hf
  have ih := hh i row h hrow hhalo
  have hiff : sphereSheetIntersect ⟨row.x, row.r * cfg.rMaxMult⟩ f.region ↔ h.sheetIntersect f.region.origin f.region.width f.region.totalWidth := by
    unfold sphereSheetIntersect Halo.sheetIntersect
    rw [ih.origin, ih.rmax]
  obtain ⟨b1, b2⟩ := bin_spec halos f.region
  obtain ⟨hr, hf'⟩ := hok row (List.mem_of_getElem? hrow)
  have hbox : ∀ b ∈ bin halos f.region, InBox f.region.totalWidth b.1.origin := by
    intro b hb
    obtain ⟨h', i'⟩ := b
    have hg := ((b2 h' i').1 hb).1
    have hlt : i' < rows.length := by rw [← hl]; exact (List.getElem?_eq_some_iff.1 hg).1
    rw [(hh i' rows[i'] h' (List.getElem?_eq_getElem hlt) hg).origin]
    exact ((hok _ (List.getElem_mem hlt)).2 f hf).1
  split_ifs with hs
  · refine fileJobs_balls cfg hc workers hw f _ b1 hbox row h ih i ((b2 h i).2 ⟨hhalo, hiff.1 hs⟩) hr (hf' f hf).2.2 _ ?_
    intro p hp
    have hp' := (hf' f hf).2.1 p hp
    refine ⟨p.x, hp', ?_⟩
    have : 0 ≤ f.region.totalWidth / 2 := by linarith [hp'.1.1, hp'.1.2]
    refine ⟨?_, ⟨0, by simp⟩, ⟨0, by simp⟩, ⟨0, by simp⟩⟩
    simp only [id, sub_self, abs_zero]
    exact ⟨this, this, this⟩
  · apply ballsOf_none
    intro j hj he
    obtain ⟨⟨h', i'⟩, hm, e⟩ := List.mem_map.1 (fileJobs_halo cfg workers f _ _ j hj).2
    dsimp only at e
    rw [he] at e
    subst e
    obtain ⟨g1, g2⟩ := (b2 h' i').1 hm
    rw [hhalo, Option.some_inj] at g1
    subst g1
    exact hs (hiff.2 g2)

theorem analysis_length {β : Type} (analyse : Halo → β) (idxs : List Nat) : ∀ (halos : List Halo) (out : List β), (analysis analyse idxs halos out).length = out.length := by
  induction idxs with
  | nil => intro halos out; rfl
  | cons i idxs ih =>
    intro halos out
    cases halos with
    | nil => rfl
    | cons h halos => exact (ih halos (out.set i (analyse h))).trans (List.length_set ..)

theorem analysis_other {β : Type} (analyse : Halo → β) (idxs : List Nat) (k : Nat) (hk : k ∉ idxs) : ∀ (halos : List Halo) (out : List β), (analysis analyse idxs halos out)[k]? = out[k]? := by
  induction idxs with
  | nil => intro halos out; rfl
  | cons i idxs ih =>
    intro halos out
    rw [List.mem_cons, not_or] at hk
    cases halos with
    | nil => rfl
    | cons h halos => exact (ih hk.2 halos (out.set i (analyse h))).trans (List.getElem?_set_ne fun e => hk.1 e.symm)

theorem analysis_get {β : Type} (analyse : Halo → β) (idxs : List Nat) (hn : idxs.Nodup) : ∀ (halos : List Halo) (out : List β) (j k : Nat) (h : Halo), idxs[j]? = some k → halos[j]? = some h → k < out.length →
    (analysis analyse idxs halos out)[k]? = some (analyse h) := by
  induction idxs with
  | nil => intro halos out j k h h1; cases h1
  | cons i idxs ih =>
    intro halos out j k h h1 h2 h3
    rw [List.nodup_cons] at hn
    cases halos with
    | nil => cases h2
    | cons h' halos =>
      cases j with
      | zero =>
        simp only [List.getElem?_cons_zero, Option.some_inj] at h1 h2
        subst h1 h2
        refine (analysis_other analyse idxs i hn.1 halos (out.set i (analyse h'))).trans ?_
        rw [List.getElem?_set_self h3]
      | succ j => exact ih hn.2 halos (out.set i (analyse h')) j k h (by simpa using h1) (by simpa using h2) (by rw [List.length_set]; exact h3)

theorem emptyHalo_ok (cfg : Config) (hc : cfg.Ok) (norms : List Vec) (hnorm : ∀ v ∈ norms, dot v v = 1) (minMass rho0 : ℝ) (row : Row) (hr : 0 < row.r) :
    (emptyHalo cfg norms minMass rho0 row).WF ∧ (emptyHalo cfg norms minMass rho0 row).rings = norms.length ∧ (emptyHalo cfg norms minMass rho0 row).bins = cfg.radialBins ∧
      (emptyHalo cfg norms minMass rho0 row).n = cfg.spokes ∧ (emptyHalo cfg norms minMass rho0 row).rMax / (emptyHalo cfg norms minMass rho0 row).rMin = cfg.rMaxMult / cfg.rMinMult ∧
      IsHalo cfg row (emptyHalo cfg norms minMass rho0 row) := by
  have h1 := hc.rmin
  refine ⟨(init_WF_halo norms hnorm row.x _ _ (mul_pos hr h1) (mul_lt_mul_of_pos_left hc.rmax hr) _ _ hc.bins hc.spokes _).1, rfl, rfl, rfl, ?_, rfl, rfl, rfl⟩
  show row.r * cfg.rMaxMult / (row.r * cfg.rMinMult) = _
  rw [mul_div_mul_left _ _ hr.ne']

/-- C80: for every catalog, every set of files, every number of threads: if all rows can be analysed the run succeeds with one result per row, and the result of a row is that of its own
empty halo with the spheres of its own snapshot inserted one after the other - whatever the other rows are, except that the mean density of the first snapshot of the catalog goes into the
lowest density (see `C80_cosmology_false`). -/
theorem C80_rows_partial {β : Type} (cfg : Config) (hc : cfg.Ok) (norms : List Vec) (hnorm : ∀ v ∈ norms, dot v v = 1) (workers : Nat) (hw : 0 < workers) (minMass : ℝ) (analyse : Halo → β) (blank : β)
    (rows : List Row) (hne : rows ≠ []) (disk : Int → Option (List File)) (hok : ∀ row ∈ rows, RowOk cfg disk row) :
    ∃ (first : Row) (hd0 : File) (out : List β), first ∈ rows ∧ (∀ row ∈ rows, first.snap ≤ row.snap) ∧ ((disk first.snap).getD [])[0]? = some hd0 ∧
      run cfg norms workers minMass analyse blank rows disk = some out ∧ out.length = rows.length ∧
      ∀ (k : Nat) (row : Row) (files : List File), rows[k]? = some row → disk row.snap = some files →
        ∃ h, (emptyHalo cfg norms minMass hd0.rhoM row).insertAll (rowBalls cfg row files) = some h ∧ out[k]? = some (analyse h) := by
  classical
  obtain ⟨sb, ib, e, h1, _, _, h4, h5⟩ := Shellfish.Cmd.C44_groups (rows.map (·.snap)) (rows.map (·.id)) (by simp)
  obtain ⟨hperm, hsorted⟩ := Shellfish.Cmd.sortedSnaps_spec sb
  have hnd : (sortedSnaps sb).Nodup := hperm.nodup_iff.2 h4
  have hmem : ∀ s, s ∈ sortedSnaps sb ↔ s ∈ rows.map (·.snap) := fun s => by rw [hperm.mem_iff, h5]
  obtain ⟨row0, hrow0⟩ := List.exists_mem_of_ne_nil _ hne
  obtain ⟨s0, rest, hs0⟩ : ∃ s0 rest, sortedSnaps sb = s0 :: rest := by
    cases hs : sortedSnaps sb with
    | nil => have := (hmem row0.snap).2 (List.mem_map_of_mem hrow0); rw [hs] at this; exact (nomatch this)
    | cons s0 rest => exact ⟨s0, rest, rfl⟩
  obtain ⟨first, hfirst, rfl⟩ := List.mem_map.1 ((hmem s0).1 (by rw [hs0]; exact List.mem_cons_self))
  obtain ⟨files0, hf0, hf0', _⟩ := (hok first hfirst).files
  obtain ⟨hd0, files0', rfl⟩ : ∃ hd0 l, files0 = hd0 :: l := List.exists_cons_of_ne_nil hf0'
  have hmin : ∀ row ∈ rows, first.snap ≤ row.snap := by
    intro row hr
    have := (hmem row.snap).2 (List.mem_map_of_mem hr)
    rw [hs0] at this hsorted
    rcases List.mem_cons.1 this with e | e
    · exact e.ge
    · exact (List.pairwise_cons.1 hsorted).1 _ e
  have hread : ¬ (rows.head?.bind fun r => disk r.snap).getD [] = [] := by
    cases hs : rows with
    | nil => exact absurd hs hne
    | cons a l =>
      obtain ⟨files, hf, hn, _⟩ := (hok a (by rw [hs]; exact List.mem_cons_self)).files
      rw [List.head?_cons, Option.bind_some, hf]
      exact hn
  have rowAt : ∀ s : Int, ∀ k ∈ rowsOf (rows.map (·.snap)) s, ∃ row, rows[k]? = some row ∧ row.snap = s := by
    intro s k hk
    rw [Stats.mem_rowsOf, List.getElem?_map] at hk
    cases hr : rows[k]? with
    | none => rw [hr] at hk; cases hk
    | some row => rw [hr] at hk; exact ⟨row, rfl, by simpa using hk⟩
  set R := norms.length
  set ratio := cfg.rMaxMult / cfg.rMinMult
  have key : ∀ (l : List Int) (st : List β × List Halo), l.Nodup → (∀ s ∈ l, s ∈ rows.map (·.snap)) → st.1.length = rows.length → st.2.length = workers - 1 →
      (∀ s ∈ st.2, Usable R cfg.radialBins cfg.spokes ratio s) →
      ∃ st', l.foldlM (snapStep cfg norms workers minMass analyse rows disk hd0 ib) st = some st' ∧ st'.1.length = rows.length ∧
        ∀ (k : Nat) (row : Row) (files : List File), rows[k]? = some row → disk row.snap = some files → (row.snap ∉ l → st'.1[k]? = st.1[k]?) ∧ (row.snap ∈ l →
          ∃ h, (emptyHalo cfg norms minMass hd0.rhoM row).insertAll (rowBalls cfg row files) = some h ∧ st'.1[k]? = some (analyse h)) := by
    intro l
    induction l with
    | nil => intro st _ _ hl _ _; exact ⟨st, rfl, hl, fun k row files _ _ => ⟨fun _ => rfl, fun h => (nomatch h)⟩⟩
    | cons s l ih =>
      intro st hn hl hlen hsl hsu
      rw [List.nodup_cons] at hn
      obtain ⟨rowS, hrowS, rfl⟩ := List.mem_map.1 (hl s List.mem_cons_self)
      obtain ⟨files, hf, hfne, _⟩ := (hok rowS hrowS).files
      -- the rows and halos of the snapshot
      let dflt : Row := rowS
      have hm : (ib.get rowS.snap).mapM (fun k => rows[k]?) = some ((ib.get rowS.snap).map fun k => rows.getD k dflt) := by
        rw [h1]
        refine Shellfish.Cmd.mapM_ok _ _ _ fun k hk => ?_
        obtain ⟨row, hr, _⟩ := rowAt _ k hk
        rw [List.getD_eq_getElem?_getD, hr]; rfl
      set rs := (ib.get rowS.snap).map fun k => rows.getD k dflt with hrs
      have hrsmem : ∀ row ∈ rs, row ∈ rows ∧ row.snap = rowS.snap := by
        intro row hr
        rw [hrs, h1] at hr
        obtain ⟨k, hk, rfl⟩ := List.mem_map.1 hr
        obtain ⟨row, hr, hs⟩ := rowAt _ k hk
        rw [List.getD_eq_getElem?_getD, hr, Option.getD_some]
        exact ⟨List.mem_of_getElem? hr, hs⟩
      have hm2 : rs.mapM (createHalo cfg norms minMass hd0) = some (rs.map (emptyHalo cfg norms minMass hd0.rhoM)) :=
        Shellfish.Cmd.mapM_ok _ _ _ fun row hr => createHalo_eq cfg norms minMass hd0 row (hok row (hrsmem row hr).1).radius
      set halos := rs.map (emptyHalo cfg norms minMass hd0.rhoM) with hhalos
      have hhal : ∀ h ∈ halos, h.WF ∧ h.rings = R ∧ h.bins = cfg.radialBins ∧ h.n = cfg.spokes ∧ h.rMax / h.rMin = ratio := by
        intro h hh
        obtain ⟨row, hr, rfl⟩ := List.mem_map.1 hh
        obtain ⟨g1, g2, g3, g4, g5, _⟩ := emptyHalo_ok cfg hc norms hnorm minMass hd0.rhoM row (hok row (hrsmem row hr).1).radius
        exact ⟨g1, g2, g3, g4, g5⟩
      obtain ⟨halos', scratch', a1, a2, a3, a4, a5⟩ := runJobs_insertAll R cfg.radialBins cfg.spokes ratio (workers - 1) (files.flatMap fun f => fileJobs cfg workers f id (bin halos f.region)) halos st.2 hhal hsl hsu (by
        intro j hj
        obtain ⟨f, _, hj⟩ := List.mem_flatMap.1 hj
        obtain ⟨g1, g2⟩ := fileJobs_halo cfg workers f _ _ j hj
        refine ⟨?_, g1⟩
        obtain ⟨⟨h, i⟩, hb, e⟩ := List.mem_map.1 g2
        dsimp only at e
        rw [← e]
        exact (List.getElem?_eq_some_iff.1 (((bin_spec halos f.region).2 h i).1 hb).1).1)
      obtain ⟨st', e1, e3, e2⟩ := ih (analysis analyse (ib.get rowS.snap) halos' st.1, scratch') hn.2 (fun t ht => hl t (List.mem_cons_of_mem _ ht)) (by rw [analysis_length]; exact hlen) a3 a4
      refine ⟨st', ?_, e3, ?_⟩
      · rw [List.foldlM_cons]
        have : snapStep cfg norms workers minMass analyse rows disk hd0 ib st rowS.snap = some (analysis analyse (ib.get rowS.snap) halos' st.1, scratch') := by
          unfold snapStep
          rw [if_neg (hok rowS hrowS).marker, hm, Option.bind_some, hm2, Option.bind_some, hf, Option.bind_some, a1]
          rfl
        rw [this]
        exact e1
      · intro k row files' hk hf'
        obtain ⟨b1, b2⟩ := e2 k row files' hk hf'
        have hkm : k ∈ rowsOf (rows.map (·.snap)) rowS.snap ↔ row.snap = rowS.snap := by rw [Stats.mem_rowsOf, List.getElem?_map, hk]; simp
        constructor
        · intro hnot
          rw [List.mem_cons, not_or] at hnot
          rw [b1 hnot.2]
          exact analysis_other analyse _ k (by rw [h1, hkm]; exact hnot.1) _ _
        · intro hin
          by_cases hs : row.snap = rowS.snap
          · rw [hs] at hf'
            obtain rfl : files' = files := by rw [hf] at hf'; exact (Option.some_inj.1 hf').symm
            have hnot : row.snap ∉ l := by rw [hs]; exact hn.1
            rw [b1 hnot]
            obtain ⟨j, hj⟩ := List.mem_iff_getElem?.1 (hkm.2 hs)
            have hrj : rs[j]? = some row := by
              rw [hrs, h1, List.getElem?_map, hj, Option.map_some, List.getD_eq_getElem?_getD, hk]; rfl
            have hhj : halos[j]? = some (emptyHalo cfg norms minMass hd0.rhoM row) := by rw [hhalos, List.getElem?_map, hrj]; rfl
            have hperm := snap_balls cfg hc workers hw files' rs halos (by rw [hhalos, List.length_map]) (by
              intro i row h g1 g2
              rw [hhalos, List.getElem?_map, g1, Option.map_some, Option.some_inj] at g2
              rw [← g2]
              exact (emptyHalo_ok cfg hc norms hnorm minMass hd0.rhoM row (hok row (hrsmem row (List.mem_of_getElem? g1)).1).radius).2.2.2.2.2) (by
              intro row hr
              obtain ⟨g1, g2⟩ := hrsmem row hr
              refine ⟨(hok row g1).radius, ?_⟩
              obtain ⟨fs, k1, _, k3⟩ := (hok row g1).files
              rw [g2, hf, Option.some_inj] at k1
              rw [k1]
              exact k3) j row _ hrj hhj
            have hget := a5 j _ hhj _ hperm.symm
            have hlt : j < halos'.length := by rw [a2]; exact (List.getElem?_eq_some_iff.1 hhj).1
            rw [List.getElem?_eq_getElem hlt] at hget
            refine ⟨halos'[j], hget.symm, ?_⟩
            refine analysis_get analyse _ (by rw [h1]; exact Stats.rowsOf_nodup _ _) halos' st.1 j k _ (by rw [h1]; exact hj) (List.getElem?_eq_getElem hlt) ?_
            rw [hlen]
            exact (List.getElem?_eq_some_iff.1 hk).1
          · exact b2 ((List.mem_cons.1 hin).resolve_left hs)
  obtain ⟨st, e1, e3, e2⟩ := key (sortedSnaps sb) (List.replicate rows.length blank, List.replicate (workers - 1) Halo.zero) hnd (fun s hs => (hmem s).1 hs) (by simp) (by simp) (by
    intro s hs
    rw [(List.mem_replicate.1 hs).2]
    left; right; left
    show cfg.radialBins ≠ 0
    have := hc.bins
    omega)
  refine ⟨first, hd0, st.1, hfirst, hmin, by rw [hf0]; rfl, ?_, e3, ?_⟩
  · unfold run
    rw [if_neg hne, if_neg hread, e, Option.bind_some]
    dsimp only
    rw [show (((sortedSnaps sb).head?.bind disk).getD []).head? = some hd0 by rw [hs0, List.head?_cons, Option.bind_some, hf0]; rfl]
    dsimp only
    rw [e1]; rfl
  · intro k row files hk hf
    exact (e2 k row files hk hf).2 ((hmem _).2 (List.mem_map_of_mem (List.mem_of_getElem? hk)))

end Shellfish.ShellRun
