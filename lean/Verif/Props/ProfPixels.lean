/- C82: percentile profiles over pixels, their bootstrap errors and angular fractions (prof mode). -/
import Verif.Props.Profiles
import Verif.Props.ProfMedian
import Verif.Props.ShellBins

namespace Shellfish.Profiles
noncomputable section
open Real
open Shellfish.Geom (Vec spherePixelNum)
open Shellfish.Cmd (edge shellVolume ProfConfig ExtSphere Particle MedTable cell massInPixel massIn insertMedianPoints)
open Shellfish.Sort (percentile)

/-! ## Specification -/

/-- The number of pixels of a level. -/
def pixels (cfg : ProfConfig) : Nat := (spherePixelNum cfg.level).toNat

/-- The density of particles `ps` in pixel `q` of radial bin `j`: their mass in the pixel over its volume, the same fraction of the volume of the bin for every pixel. -/
def pixelDensity (cfg : ProfConfig) (s : ExtSphere) (tw : ℝ) (ps : List Particle) (j q : Nat) : ℝ :=
  (ps.map (massInPixel cfg s tw j q)).sum / (shellVolume (edge (s.s.r * cfg.rMinMult) (s.s.r * cfg.rMaxMult) cfg.bins j) (edge (s.s.r * cfg.rMinMult) (s.s.r * cfg.rMaxMult) cfg.bins (j + 1)) / (pixels cfg : ℝ))

/-- The densities of all pixels of bin `j`. -/
def pixelDensities (cfg : ProfConfig) (s : ExtSphere) (tw : ℝ) (ps : List Particle) (j : Nat) : List ℝ := (List.range (pixels cfg)).map fun q => pixelDensity cfg s tw ps j q

/-- `d` is what `len(x)` calls of `rand.Intn(len(x))` give. -/
def Draws (x : List ℝ) (d : List Nat) : Prop := d.length = x.length ∧ ∀ k ∈ d, k < x.length

/-- The resampled list. -/
def pick (x : List ℝ) (d : List Nat) : List ℝ := d.map fun k => x.getD k 0

/-- The mean of a list. -/
def avg (ps : List ℝ) : ℝ := ps.sum / (ps.length : ℝ)

/-! ## Proofs -/

theorem center_exp {a b : ℝ} (h0 : 0 < a) (h : a < b) (n j : Nat) : exp (log a + (log b - log a) / (n : ℝ) * ((j : ℝ) + 1 / 2)) = center a b n j := by
  unfold center
  rw [Cmd.edge_exp h0 (h0.trans h), Cmd.edge_exp h0 (h0.trans h), ← exp_add, ← exp_half]
  congr 1
  push_cast
  ring

theorem binVolume_eq {a b : ℝ} (h0 : 0 < a) (h : a < b) (n j : Nat) : binVolume n a b j = shellVolume (edge a b n j) (edge a b n (j + 1)) := by
  unfold binVolume shellVolume
  rw [Cmd.edge_exp h0 (h0.trans h), Cmd.edge_exp h0 (h0.trans h)]
  dsimp only
  rw [show log a + (j : ℝ) * ((log b - log a) / (n : ℝ)) = (log b - log a) / (n : ℝ) * j + log a by ring, show log a + ((j + 1 : Nat) : ℝ) * ((log b - log a) / (n : ℝ)) = (log b - log a) / (n : ℝ) * ((j + 1 : Nat) : ℝ) + log a by ring]
  ring

theorem volume_pos {a b : ℝ} (h0 : 0 < a) (h : a < b) (n j : Nat) (hn : 0 < n) : 0 < shellVolume (edge a b n j) (edge a b n (j + 1)) := by
  have e1 := Cmd.edge_pos h0 (h0.trans h) n j
  have lt := Cmd.edge_lt h0 h n hn (Nat.lt_succ_self j)
  unfold shellVolume
  have : edge a b n j ^ 3 < edge a b n (j + 1) ^ 3 := pow_lt_pow_left₀ lt e1.le (by norm_num)
  have := pi_pos
  exact mul_pos (by positivity) (by linarith)

/-- Dividing by a positive number keeps the ranks. -/
theorem kth_div (xs : List ℝ) (k : Nat) (v : ℝ) (c : ℝ) (hc : 0 < c) (h : KthLargest xs k v) : KthLargest (xs.map fun x => x / c) k (v / c) := by
  obtain ⟨h1, h2, h3⟩ := h
  refine ⟨List.mem_map.2 ⟨v, h1, rfl⟩, ?_, ?_⟩
  · rw [List.filter_map, List.length_map]
    refine lt_of_eq_of_lt ?_ h2
    congr 2
    funext x
    simp [div_lt_div_iff_of_pos_right hc]
  · rw [List.filter_map, List.length_map]
    refine h3.trans_eq ?_
    congr 2
    funext x
    simp [div_le_div_iff_of_pos_right hc]

theorem binRadii_get {a b : ℝ} (h0 : 0 < a) (h : a < b) (n j : Nat) (hj : j < n) : (binRadii n a b).getD j 0 = center a b n j := by
  unfold binRadii
  rw [List.getD_eq_getElem _ _ (by simpa using hj), List.getElem_map, List.getElem_range, center_exp h0 h]

/-- A percentile over the pixels of a table. -/
theorem process_spec (n : Nat) (a b : ℝ) (h0 : 0 < a) (h : a < b) (N : Nat) (hN : 0 < N) (med : List (List ℝ)) (hm : med.length = n) (hrow : ∀ row ∈ med, row.length = N)
    (scratch : List ℝ) (hs : scratch.length = N) (pn pd : Nat) (hd : 0 < pd) (hp : pn ≤ pd) :
    ∃ rhos, processMedianProfile n med scratch a b pn pd = some (binRadii n a b, rhos) ∧ rhos.length = n ∧
      ∀ j < n, KthLargest ((med.getD j []).map fun x => x / shellVolume (edge a b n j) (edge a b n (j + 1))) (max 1 (pn * N / pd)) (rhos.getD j 0) := by
  obtain ⟨rhos, r1, r2, r3⟩ := mapM_exists (fun j => (med[j]?).bind fun xs => (percentile xs pn pd (some scratch)).map fun v => v / binVolume n a b j) (List.range n)
      (fun j v => KthLargest ((med.getD j []).map fun x => x / shellVolume (edge a b n j) (edge a b n (j + 1))) (max 1 (pn * N / pd)) v) (by
    intro j hj
    have hj := List.mem_range.1 hj
    have hj' : j < med.length := by omega
    have hl := hrow _ (List.getElem_mem hj')
    rw [List.getElem?_eq_getElem hj', Option.bind_some]
    obtain ⟨v, v1, v2⟩ := percentile_spec med[j] pn pd hd hp (by omega) scratch (by omega)
    refine ⟨v / binVolume n a b j, by rw [v1]; rfl, ?_⟩
    rw [List.getD_eq_getElem _ _ hj', binVolume_eq h0 h, ← hl]
    exact kth_div _ _ _ _ (volume_pos h0 h n j (by omega)) v2)
  refine ⟨rhos, by unfold processMedianProfile; rw [r1]; rfl, by rw [r2]; simp, fun j hj => ?_⟩
  have hj' : j < rhos.length := by rw [r2]; simpa using hj
  rw [List.getD_eq_getElem _ _ hj']
  exact r3 j j _ (List.getElem?_range hj) (List.getElem?_eq_getElem hj')

/-- C82: the median profile of a halo never panics for percentiles from 0 to 100; the radii are the centers of the bins, and the value of a bin is the density of the pixel with rank `⌊p N⌋` (at least 1), counted from the
densest, among all `N` pixels. Missing: at pixel level 1, particles in the plane of the halo (C50_median_false). -/
theorem C82_profile_partial (cfg : ProfConfig) (s : ExtSphere) (hv : cfg.Valid s.s.r) (hm : cfg.Median) (hl : 0 ≤ cfg.level) (hN : 0 < pixels cfg) (tw : ℝ) (ps : List Particle)
    (hz : ∀ p ∈ ps, cfg.level = 1 → (Cmd.disp tw s.s.c p.x).z ≠ 0) (scratch : List ℝ) (hs : scratch.length = pixels cfg) (pn pd : Nat) (hd : 0 < pd) (hp : pn ≤ pd) :
    ∃ med rs rhos, insertMedianPoints cfg s tw (List.replicate cfg.bins (List.replicate (pixels cfg) 0)) ps = some med ∧
      processMedianProfile cfg.bins med scratch (s.s.r * cfg.rMinMult) (s.s.r * cfg.rMaxMult) pn pd = some (rs, rhos) ∧ rs.length = cfg.bins ∧ rhos.length = cfg.bins ∧
      ∀ j < cfg.bins, rs.getD j 0 = center (s.s.r * cfg.rMinMult) (s.s.r * cfg.rMaxMult) cfg.bins j ∧ KthLargest (pixelDensities cfg s tw ps j) (max 1 (pn * pixels cfg / pd)) (rhos.getD j 0) := by
  have ht : MedTable cfg (List.replicate cfg.bins (List.replicate (pixels cfg) 0)) := ⟨by simp, by
    intro row hr
    rw [List.eq_of_mem_replicate hr]
    simp [pixels]⟩
  obtain ⟨med, m1, m2, m3⟩ := Cmd.C50_median_partial cfg s hv hm hl tw _ ht ps hz
  obtain ⟨rhos, r1, r2, r3⟩ := process_spec cfg.bins _ _ hv.rMin hv.lt (pixels cfg) hN med m2.1 m2.2 scratch hs pn pd hd hp
  refine ⟨med, _, rhos, m1, r1, by simp [binRadii], r2, fun j hj => ⟨binRadii_get hv.rMin hv.lt _ _ hj, ?_⟩⟩
  have hj' : j < med.length := by rw [m2.1]; exact hj
  convert r3 j hj using 1
  unfold pixelDensities
  apply List.ext_getElem
  · rw [List.length_map, List.length_range, List.length_map, List.getD_eq_getElem _ _ hj', m2.2 _ (List.getElem_mem hj')]; rfl
  · intro q h1 h2
    have hq : q < pixels cfg := by simpa using h1
    have hq' : q < (med.getD j []).length := by simpa using h2
    have := m3 j hj q hq
    unfold cell at this
    rw [List.getD_eq_getElem _ _ hq'] at this
    rw [List.getElem_map, List.getElem_map, List.getElem_range, this]
    have hnn : (0 : Int) ≤ spherePixelNum cfg.level := by unfold pixels at hN; omega
    have hcast : ((pixels cfg : Nat) : ℝ) = (spherePixelNum cfg.level : ℝ) := by
      unfold pixels
      exact_mod_cast Int.toNat_of_nonneg hnn
    have hz0 : ((List.replicate cfg.bins (List.replicate (pixels cfg) (0 : ℝ))).getD j []).getD q 0 = 0 := by
      have e : (List.replicate cfg.bins (List.replicate (pixels cfg) (0 : ℝ))).getD j [] = List.replicate (pixels cfg) 0 := by
        rw [List.getD_eq_getElem _ _ (by simpa using hj), List.getElem_replicate]
      rw [e, List.getD_eq_getElem _ _ (by simpa using hq), List.getElem_replicate]
    rw [hz0, zero_add]
    unfold pixelDensity
    rw [hcast, div_div_eq_mul_div]

/-- C82 is false of the code for percentiles other than 50: the setting 100 gives the lowest density of all pixels. -/
theorem C82_reversed_false (n : Nat) (a b : ℝ) (h0 : 0 < a) (h : a < b) (N : Nat) (hN : 0 < N) (med : List (List ℝ)) (hm : med.length = n) (hrow : ∀ row ∈ med, row.length = N)
    (scratch : List ℝ) (hs : scratch.length = N) :
    ∃ rs rhos, processMedianProfile n med scratch a b 1 1 = some (rs, rhos) ∧ ∀ j < n, ∀ x ∈ med.getD j [], rhos.getD j 0 ≤ x / shellVolume (edge a b n j) (edge a b n (j + 1)) := by
  obtain ⟨rhos, r1, r2, r3⟩ := process_spec n a b h0 h N hN med hm hrow scratch hs 1 1 (by omega) (by omega)
  refine ⟨_, rhos, r1, fun j hj x hx => ?_⟩
  obtain ⟨_, _, m3⟩ := r3 j hj
  have hj' : j < med.length := by omega
  have hl := hrow _ (List.getElem_mem hj')
  rw [List.getD_eq_getElem _ _ hj'] at m3 hx
  rw [show max 1 (1 * N / 1) = (med[j].map fun x => x / shellVolume (edge a b n j) (edge a b n (j + 1))).length by rw [List.length_map, hl, Nat.one_mul, Nat.div_one]; omega] at m3
  have := List.length_filter_eq_length_iff.1 (le_antisymm (List.length_filter_le _ _) m3) _ (List.mem_map.2 ⟨x, hx, rfl⟩)
  exact of_decide_eq_true this

/-! Bootstrap errors -/

theorem pick_eq (x : List ℝ) (d : List Nat) (h : ∀ k ∈ d, k < x.length) : (d.mapM fun k => x[k]?) = some (pick x d) := by
  unfold pick
  refine Los.mapM_some _ _ _ fun k hk => ?_
  rw [List.getElem?_eq_getElem (h k hk), List.getD_eq_getElem _ _ (h k hk)]

theorem pick_mem (x : List ℝ) (d : List Nat) (h : ∀ k ∈ d, k < x.length) (v : ℝ) (hv : v ∈ pick x d) : v ∈ x := by
  obtain ⟨k, hk, rfl⟩ := List.mem_map.1 hv
  rw [List.getD_eq_getElem _ _ (h k hk)]
  exact List.getElem_mem _

theorem sum_sq_dev (ps : List ℝ) (m : ℝ) : (ps.map fun p => (p - m) ^ 2).sum = (ps.map fun p => p * p).sum - 2 * m * ps.sum + ps.length * m ^ 2 := by
  induction ps with
  | nil => simp
  | cons p ps ih => simp only [List.map_cons, List.sum_cons, ih, List.length_cons]; push_cast; ring

/-- C82: the error of a percentile is the standard deviation of that percentile over the resampled lists (each a list of as many values, drawn from the values with repetition); it never panics. -/
theorem C82_bootstrap (x : List ℝ) (hx : 0 < x.length) (pn pd : Nat) (hd : 0 < pd) (hp : pn ≤ pd) (scratch : List ℝ) (hs : scratch.length = x.length) (draws : List (List Nat))
    (hdr : ∀ d ∈ draws, Draws x d) (hne : draws ≠ []) :
    ∃ (ps : List ℝ) (e : ℝ), ps.length = draws.length ∧ (∀ (i : Nat) (d : List Nat) (p : ℝ), draws[i]? = some d → ps[i]? = some p → KthLargest (pick x d) (max 1 (pn * x.length / pd)) p) ∧
      bootstrapError x pn pd scratch draws = some (some e) ∧ 0 ≤ e ∧ e ^ 2 = avg (ps.map fun p => (p - avg ps) ^ 2) := by
  have hl : ∀ d, (pick x d).length = d.length := fun d => by simp [pick]
  obtain ⟨ps, p1, p2, p3⟩ := mapM_exists (fun d => (d.mapM fun k => x[k]?).bind fun sample => percentile sample pn pd (some scratch)) draws (fun d p => KthLargest (pick x d) (max 1 (pn * x.length / pd)) p) (by
    intro d hd'
    obtain ⟨d1, d2⟩ := hdr d hd'
    rw [pick_eq x d d2, Option.bind_some]
    obtain ⟨v, v1, v2⟩ := percentile_spec (pick x d) pn pd hd hp (by rw [hl, d1]; exact hx) scratch (by rw [hl, d1]; exact hs)
    rw [hl, d1] at v2
    exact ⟨v, v1, v2⟩)
  have hn0 : draws.length ≠ 0 := by simpa using hne
  have hn : (0 : ℝ) < draws.length := by exact_mod_cast Nat.pos_of_ne_zero hn0
  have f1 : ps.foldl (fun s p => s + p) 0 = ps.sum := by rw [Analyze.foldl_add (fun p => p), List.map_id', zero_add]
  have f2 : ps.foldl (fun s p => s + p * p) 0 = (ps.map fun p => p * p).sum := by rw [Analyze.foldl_add (fun p => p * p), zero_add]
  have hvar : (ps.map fun p => p * p).sum / (draws.length : ℝ) - ps.sum / (draws.length : ℝ) * (ps.sum / (draws.length : ℝ)) = avg (ps.map fun p => (p - avg ps) ^ 2) := by
    unfold avg
    rw [List.length_map, p2, sum_sq_dev, p2]
    field_simp
    ring
  have hnn : 0 ≤ avg (ps.map fun p => (p - avg ps) ^ 2) := by
    unfold avg
    refine div_nonneg (List.sum_nonneg ?_) (by positivity)
    intro y hy
    obtain ⟨p, _, rfl⟩ := List.mem_map.1 hy
    positivity
  refine ⟨ps, sqrt (avg (ps.map fun p => (p - avg ps) ^ 2)), p2, p3, ?_, sqrt_nonneg _, sq_sqrt hnn⟩
  unfold bootstrapError resampled
  rw [p1, Option.map_some, if_neg hn0]
  dsimp only
  rw [f1, f2, hvar]

/-- C82: the error is at most half of the range of the values; in particular it is zero if all values are equal. -/
theorem C82_bounded (x : List ℝ) (hx : 0 < x.length) (pn pd : Nat) (hd : 0 < pd) (hp : pn ≤ pd) (scratch : List ℝ) (hs : scratch.length = x.length) (draws : List (List Nat))
    (hdr : ∀ d ∈ draws, Draws x d) (hne : draws ≠ []) (lo hi : ℝ) (hb : ∀ v ∈ x, lo ≤ v ∧ v ≤ hi) (e : ℝ) (he : bootstrapError x pn pd scratch draws = some (some e)) :
    0 ≤ e ∧ e ≤ (hi - lo) / 2 := by
  obtain ⟨ps, e', p1, p2, p3, p4, p5⟩ := C82_bootstrap x hx pn pd hd hp scratch hs draws hdr hne
  rw [he] at p3
  simp only [Option.some.injEq] at p3
  subst p3
  refine ⟨p4, ?_⟩
  have hps : ∀ p ∈ ps, lo ≤ p ∧ p ≤ hi := by
    intro p hp'
    obtain ⟨i, hi', rfl⟩ := List.mem_iff_getElem.1 hp'
    have hd' : i < draws.length := by omega
    have hk := p2 i draws[i] ps[i] (List.getElem?_eq_getElem hd') (List.getElem?_eq_getElem hi')
    exact hb _ (pick_mem x _ (hdr _ (List.getElem_mem hd')).2 _ hk.1)
  have hn0 : draws.length ≠ 0 := by simpa using hne
  have hn : (0 : ℝ) < ps.length := by rw [p1]; exact_mod_cast Nat.pos_of_ne_zero hn0
  have hlo : lo ≤ hi := by
    have := hb _ (List.getElem_mem hx)
    linarith
  have key : ∀ l : List ℝ, (∀ p ∈ l, lo ≤ p ∧ p ≤ hi) → (l.map fun p => p * p).sum ≤ (lo + hi) * l.sum - l.length * (lo * hi) := by
    intro l hl
    induction l with
    | nil => simp
    | cons p l ih =>
      have h1 := hl p (by simp)
      have h2 := ih fun p hp => hl p (by simp [hp])
      simp only [List.map_cons, List.sum_cons, List.length_cons]
      push_cast
      nlinarith [mul_nonneg (sub_nonneg.2 h1.1) (sub_nonneg.2 h1.2)]
  have hk := key ps hps
  have hvar : avg (ps.map fun p => (p - avg ps) ^ 2) = (ps.map fun p => p * p).sum / ps.length - (avg ps) ^ 2 := by
    unfold avg
    rw [List.length_map, sum_sq_dev]
    field_simp
    ring
  have hk' : (ps.map fun p => p * p).sum / ps.length ≤ (lo + hi) * avg ps - lo * hi := by
    rw [div_le_iff₀ hn]
    unfold avg
    refine hk.trans_eq ?_
    field_simp
  have : e ^ 2 ≤ ((hi - lo) / 2) ^ 2 := by
    rw [p5, hvar]
    nlinarith [sq_nonneg (avg ps - (lo + hi) / 2)]
  exact (abs_le_of_sq_le_sq' this (by linarith)).2

/-- C82: the error of one resampled list is zero, whatever the values are. -/
theorem C82_one_sample (x : List ℝ) (hx : 0 < x.length) (pn pd : Nat) (hd : 0 < pd) (hp : pn ≤ pd) (scratch : List ℝ) (hs : scratch.length = x.length) (d : List Nat) (hdr : Draws x d) :
    bootstrapError x pn pd scratch [d] = some (some 0) := by
  obtain ⟨ps, e, p1, p2, p3, p4, p5⟩ := C82_bootstrap x hx pn pd hd hp scratch hs [d] (by simpa using hdr) (by simp)
  rw [p3]
  match ps, p1 with
  | [p], _ =>
    have : e ^ 2 = 0 := by rw [p5]; simp [avg]
    rw [pow_eq_zero_iff (by norm_num)] at this
    rw [this]

/-- C82: the error profile: the radii are the centers of the bins, the error of a bin is that of the percentile of the pixels, over the volume. -/
theorem C82_errors (n : Nat) (a b : ℝ) (h0 : 0 < a) (h : a < b) (N : Nat) (hN : 0 < N) (med : List (List ℝ)) (hm : med.length = n) (hrow : ∀ row ∈ med, row.length = N) (scratch : List ℝ) (hs : scratch.length = N)
    (pn pd : Nat) (hd : 0 < pd) (hp : pn ≤ pd) (draws : Nat → List (List Nat)) (hdr : ∀ j < n, draws j ≠ [] ∧ ∀ d ∈ draws j, Draws (med.getD j []) d) :
    ∃ rs errs, processMedianErrorProfile n med scratch a b pn pd draws = some (rs, errs) ∧ rs.length = n ∧ errs.length = n ∧ ∀ j < n, rs.getD j 0 = center a b n j ∧
      ∃ e, bootstrapError (med.getD j []) pn pd scratch (draws j) = some (some e) ∧ errs.getD j none = some (e / shellVolume (edge a b n j) (edge a b n (j + 1))) := by
  obtain ⟨errs, r1, r2, r3⟩ := mapM_exists (fun j => (med[j]?).bind fun xs => (bootstrapError xs pn pd scratch (draws j)).map fun e => e.map fun v => v / binVolume n a b j) (List.range n)
      (fun j v => ∃ e, bootstrapError (med.getD j []) pn pd scratch (draws j) = some (some e) ∧ v = some (e / shellVolume (edge a b n j) (edge a b n (j + 1)))) (by
    intro j hj
    have hj := List.mem_range.1 hj
    have hj' : j < med.length := by omega
    have hl := hrow _ (List.getElem_mem hj')
    obtain ⟨hne, hdd⟩ := hdr j hj
    rw [List.getD_eq_getElem _ _ hj'] at hdd
    rw [List.getElem?_eq_getElem hj', Option.bind_some, List.getD_eq_getElem _ _ hj']
    obtain ⟨ps, e, _, _, p3, _, _⟩ := C82_bootstrap med[j] (by omega) pn pd hd hp scratch (by omega) (draws j) hdd hne
    refine ⟨some (e / binVolume n a b j), by rw [p3]; rfl, e, p3, by rw [binVolume_eq h0 h]⟩)
  refine ⟨_, errs, by unfold processMedianErrorProfile; rw [r1]; rfl, by simp [binRadii], by rw [r2]; simp, fun j hj => ⟨binRadii_get h0 h _ _ hj, ?_⟩⟩
  have hj' : j < errs.length := by rw [r2]; simpa using hj
  rw [List.getD_eq_getElem _ _ hj']
  exact r3 j j _ (List.getElem?_range hj) (List.getElem?_eq_getElem hj')

/-- C82 is false of the code if `Samples` is 0 (the settings of the prof mode accept it): no error is a number. -/
theorem C82_samples_false (n : Nat) (a b : ℝ) (med : List (List ℝ)) (hm : med.length = n) (scratch : List ℝ) (pn pd : Nat) :
    ∃ rs errs, processMedianErrorProfile n med scratch a b pn pd (fun _ => []) = some (rs, errs) ∧ errs = List.replicate n none := by
  refine ⟨binRadii n a b, List.replicate n none, ?_, rfl⟩
  unfold processMedianErrorProfile
  rw [Los.mapM_some _ (fun _ => none)]
  · simp
  · intro j hj
    rw [List.getElem?_eq_getElem (by rw [hm]; exact List.mem_range.1 hj)]
    rfl

/-- C82: every row of the angular fractions is that of its own shell, between `RMinMult` and `RMaxMult` times its own radius: where the shell is between these radii in all directions drawn, value `i` is the fraction of the
directions in which the lower edge of bin `i` is inside. -/
theorem C82_fractions_partial (bins : Nat) (rMinMult rMaxMult : ℝ) (rows : List (Analyze.Shell × ℝ × List (ℝ × ℝ))) (hb : 0 < bins) (k : Nat) (row : Analyze.Shell × ℝ × List (ℝ × ℝ)) (hk : rows[k]? = some row)
    (h0 : 0 < row.2.1 * rMinMult) (h : rMinMult < rMaxMult) (hr : 0 < row.2.1) (hne : row.2.2 ≠ []) (hin : ∀ d ∈ row.2.2, row.2.1 * rMinMult ≤ row.1.at d ∧ row.1.at d < row.2.1 * rMaxMult) :
    (angularFractionMain bins rMinMult rMaxMult rows).length = rows.length ∧ ∃ rs fs, (angularFractionMain bins rMinMult rMaxMult rows)[k]? = some (rs, fs) ∧ rs.length = bins ∧ fs.length = bins ∧
      ∀ i < bins, rs.getD i 0 = center (row.2.1 * rMinMult) (row.2.1 * rMaxMult) bins i ∧
        fs.getD i none = some (((row.2.2.filter fun d => edge (row.2.1 * rMinMult) (row.2.1 * rMaxMult) bins i ≤ row.1.at d).length : ℝ) / (row.2.2.length : ℝ)) := by
  have hlt : row.2.1 * rMinMult < row.2.1 * rMaxMult := mul_lt_mul_of_pos_left h hr
  refine ⟨by simp [angularFractionMain], (row.1.angularFractionProfile row.2.2 bins (row.2.1 * rMinMult) (row.2.1 * rMaxMult)).1, (row.1.angularFractionProfile row.2.2 bins (row.2.1 * rMinMult) (row.2.1 * rMaxMult)).2,
    by unfold angularFractionMain; rw [List.getElem?_map, hk]; rfl, ?_, ?_, ?_⟩
  · exact (Analyze.C73_counts row.1 row.2.2 bins _ _ h0 hlt hb fun d hd => h0.trans_le (hin d hd).1).1
  · exact (Analyze.C73_counts row.1 row.2.2 bins _ _ h0 hlt hb fun d hd => h0.trans_le (hin d hd).1).2.1
  · intro i hi
    refine ⟨((Analyze.C73_counts row.1 row.2.2 bins _ _ h0 hlt hb fun d hd => h0.trans_le (hin d hd).1).2.2 i hi).1, ?_⟩
    rw [(Analyze.C73_fraction_partial row.1 row.2.2 bins _ _ h0 hlt hb hne hin).1 i hi]
    rfl

-- four values, three samples
example : ∃ (x : List ℝ) (draws : List (List Nat)), x = [1, 2, 5, 9] ∧ draws = [[0, 0, 3, 1], [2, 2, 2, 2], [3, 1, 0, 2]] ∧ draws ≠ [] ∧ ∀ d ∈ draws, Draws x d := by
  refine ⟨_, _, rfl, rfl, by simp, ?_⟩
  intro d hd
  fin_cases hd <;> exact ⟨rfl, by simp⟩

-- two values, two samples: the largest possible error
example : bootstrapError [1, 2] 1 2 [0, 0] [[0, 0], [1, 1]] = some (some (1 / 2)) := by
  obtain ⟨ps, e, p1, p2, p3, p4, p5⟩ := C82_bootstrap [1, 2] (by simp) 1 2 (by omega) (by omega) [0, 0] rfl [[0, 0], [1, 1]] (by
    intro d hd
    fin_cases hd <;> exact ⟨rfl, by simp⟩) (by simp)
  match ps, p1 with
  | [a, b], _ =>
    have ha := (p2 0 [0, 0] a rfl rfl).1
    have hb := (p2 1 [1, 1] b rfl rfl).1
    simp [pick] at ha hb
    subst ha hb
    have : e ^ 2 = (1 / 2) ^ 2 := by rw [p5]; norm_num [avg]
    rw [p3, (pow_left_inj₀ p4 (by norm_num) (by norm_num)).1 this]

-- a halo with 2 bins, 8 pixels at level 1, and one particle above the plane
example : ∃ (cfg : ProfConfig) (s : ExtSphere) (ps : List Particle), cfg.Valid s.s.r ∧ cfg.Median ∧ 0 ≤ cfg.level ∧ 0 < pixels cfg ∧ ps.length = 1 ∧ ∀ p ∈ ps, cfg.level = 1 → (Cmd.disp 100 s.s.c p.x).z ≠ 0 := by
  refine ⟨⟨2, 1 / 2, 2, 1, .medianDensity⟩, ⟨⟨⟨50, 50, 50⟩, 1⟩, 0, 0, ⟨0, 0, 0⟩, fun _ => True⟩, [⟨⟨50, 50, 51⟩, ⟨0, 0, 0⟩, 3⟩], ⟨by norm_num, by norm_num, by norm_num⟩, Or.inl rfl, by norm_num, by decide, rfl, ?_⟩
  intro p hp _
  rw [List.mem_singleton] at hp
  subst hp
  unfold Cmd.disp Los.displacement Los.wrap
  norm_num

-- the shells of the last theorem: a sphere of radius 1 in a row with radius 1
example : ∃ (row : Analyze.Shell × ℝ × List (ℝ × ℝ)), 0 < row.2.1 * (1 / 2) ∧ 0 < row.2.1 ∧ row.2.2 ≠ [] ∧ ∀ d ∈ row.2.2, row.2.1 * (1 / 2) ≤ row.1.at d ∧ row.1.at d < row.2.1 * 2 :=
  ⟨(fun _ _ => 1, 1, [(1 / 3, 1 / 2)]), by norm_num, by norm_num, by simp, by intro d _; show 1 * (1 / 2 : ℝ) ≤ 1 ∧ (1 : ℝ) < 1 * 2; norm_num⟩

end
end Shellfish.Profiles
