/- C56: the profiles of the lines of sight in the first three quarters of each ring are exact; C80: the densities of the rows of the shell mode. -/
import Verif.Lemmas.HaloBack
import Verif.Props.ShellRunMore

namespace Shellfish.Los
noncomputable section
open Real
open Shellfish.Geom (Vec Mat rotateVec eulerMatrixBetween atan2 dot zero)

/-- the effect of a sphere on a line of sight of the first three quarters of the ring -/
theorem total_ringOps_low (h : Halo) (hw : h.WF) (ho : h.Oriented) (hn : 3 ≤ h.n) (center : Vec) (radius rho : ℝ) (hrad : 0 < radius) (hlow : radius * (1 + 1 / cos (π / h.n)) ≤ h.rMin)
    (ring i : Nat) (hr : ring < h.rings) (hi : i < h.n) (hq : 4 * i ≤ 3 * h.n) (dir : Vec) (hdir : h.lineDir ring i = some dir) (j : Nat) :
    total (log h.rMin) (log h.rMax) h.bins (ringOps h (displace center h.origin) radius rho ring) i j = rho * coverage h center radius dir j := by
  have hlt : ring < h.norms.length := by rw [hw.norms_len]; exact hr
  have hnv := List.getElem?_eq_getElem hlt
  generalize h.norms[ring] = nv at hnv
  have hunit := hw.norms_unit nv (List.mem_of_getElem? hnv)
  by_cases hs : sphereIntersectRing nv (displace center h.origin) radius
  · obtain ⟨hz, hinv, hdot⟩ := rot_facts nv hunit (displace center h.origin)
    have hin := fun r => inside_iff h nv hunit center radius h.n i r
    have hd := hdir
    rw [lineDir_eq h ho ring i nv hnv hi, Option.some.injEq] at hd
    rw [hd] at hin
    unfold coverage
    unfold ringOps
    rw [hnv]
    simp only
    rw [if_pos hs]
    have hrc : ringChords h (displace center h.origin) radius rho ring =
        chords (stdVecs h.n) h.n (stdPhi h.n) (rotateVec (displace center h.origin) (eulerMatrixBetween nv zAxis)) radius rho := by
      unfold ringChords
      rw [hw.rots, List.getElem?_map, hnv, Option.map_some, hw.vecs, hw.dPhi]
    rw [hrc]
    obtain ⟨ops, hops, _⟩ := chords_sensible h.n hw.n_pos (rotateVec (displace center h.origin) (eulerMatrixBetween nv zAxis)) radius rho
    rw [hops, Option.getD_some]
    have hcz : -radius < (rotateVec (displace center h.origin) (eulerMatrixBetween nv zAxis)).z ∧
        (rotateVec (displace center h.origin) (eulerMatrixBetween nv zAxis)).z < radius := by
      rw [hz]; exact ⟨hs.2, hs.1⟩
    generalize rotateVec (displace center h.origin) (eulerMatrixBetween nv zAxis) = c at *
    have hpr : projRad2 c radius = radius ^ 2 - c.z ^ 2 := by
      unfold projRad2
      rw [if_neg (by nlinarith)]; ring
    have hpos : 0 < projRad2 c radius := by rw [hpr]; nlinarith
    rw [total_chords_low h.rMin (log h.rMax) hw.rmin h.bins h.n (log_lt_log hw.rmin hw.rmax) hn c radius rho hrad hpos hlow i hi hq ops hops j]
    unfold planeCover
    simp only [Set.mem_setOf_eq, hpr]
    congr 4
    ext t
    simp only [Set.mem_setOf_eq, hin]
  · -- the sphere does not reach the plane of the ring
    have h0 : ∀ c, ringOps h (displace center h.origin) radius c ring = [] := by
      intro c
      unfold ringOps
      rw [hnv]
      simp only
      rw [if_neg hs]
    by_cases hf : 0 ≤ dot dir (displace center h.origin)
    · exact total_ringOps h hw ho (by omega) center radius rho hrad ring i hr hi dir hdir (Or.inr hf) j
    · by_cases hin : dot (displace center h.origin) (displace center h.origin) < radius ^ 2
      · exact total_ringOps h hw ho (by omega) center radius rho hrad ring i hr hi dir hdir (Or.inl hin) j
      · rw [h0]
        have e : coverage h center radius dir j = 0 := by
          unfold coverage
          dsimp only
          have : {t : ℝ | log h.rMin + (log h.rMax - log h.rMin) / (h.bins : ℝ) * j ≤ t ∧ t ≤ log h.rMin + (log h.rMax - log h.rMin) / (h.bins : ℝ) * (j + 1) ∧ Inside h.origin center radius dir (exp t)} = ∅ := by
            ext t
            simp only [Set.mem_setOf_eq, Set.mem_empty_iff_false, iff_false]
            rintro ⟨_, _, h3⟩
            unfold Inside at h3
            have hp := exp_pos t
            generalize exp t = r at *
            have a1 := not_le.1 hf
            have a2 := not_lt.1 hin
            simp only [dot, displace] at a1 a2
            nlinarith [sq_nonneg (r * dir.x), sq_nonneg (r * dir.y), sq_nonneg (r * dir.z)]
          rw [this]; simp
        rw [e]; simp [total]

/-- C56: if the profile starts at `(1 + 1/cos(π/n))` kernel radii or farther out (for the default settings and four or more lines of sight it does), inserting a sphere raises every radial bin of every line of
sight of the first three quarters of the ring (angles up to 270 degrees) by the density times the fraction of the bin that lies in the sphere, wherever the sphere is.  Missing from the full property: the last quarter,
where spheres near the opposite direction leave a mirror image (`C56_backward_false`). -/
theorem C56_lines_partial (h : Halo) (hw : h.WF) (ho : h.Oriented) (hn : 3 ≤ h.n) (center : Vec) (radius rho : ℝ) (hrad : 0 < radius) (hlow : radius * (1 + 1 / cos (π / h.n)) ≤ h.rMin) :
    ∃ h', h.insert center radius rho = some h' ∧ h'.WF ∧ h'.Oriented ∧
      ∀ ring i, ring < h.rings → i < h.n → 4 * i ≤ 3 * h.n → ∃ (dir : Vec) (before after : List ℝ), h.lineDir ring i = some dir ∧
        h.profile ring i = some before ∧ h'.profile ring i = some after ∧ before.length = h.bins ∧ after.length = h.bins ∧
          ∀ j, j < h.bins → after.getD j 0 = before.getD j 0 + rho * coverage h center radius dir j := by
  obtain ⟨h', h1, h2, h3, h4⟩ := C56_insert_partial h hw ho (by omega) center radius rho hrad
  refine ⟨h', h1, h2, h3, ?_⟩
  intro ring i hr hi hq
  obtain ⟨dir, before, after, e1, e2, e3, e4, e5, _⟩ := h4 ring i hr hi
  refine ⟨dir, before, after, e1, e2, e3, e4, e5, ?_⟩
  intro j hj
  obtain ⟨h'', g1, _, _, g4⟩ := insert_profile h hw center radius rho
  rw [h1, Option.some_inj] at g1
  subst g1
  obtain ⟨b, a, f1, f2, _, _, f5⟩ := g4 ring i hr hi
  rw [e2, Option.some_inj] at f1
  rw [e3, Option.some_inj] at f2
  subst f1 f2
  rw [f5 j hj, total_ringOps_low h hw ho hn center radius rho hrad hlow ring i hr hi hq dir e1 j]

/-- the sum over many spheres -/
theorem profile_sum (bs : List Ball) (h : Halo) (hw : h.WF) (ho : h.Oriented) (hn : 3 ≤ h.n) (hb : ∀ b ∈ bs, 0 < b.radius ∧ b.radius * (1 + 1 / cos (π / h.n)) ≤ h.rMin) (ring i : Nat) (hr : ring < h.rings)
    (hi : i < h.n) (hq : 4 * i ≤ 3 * h.n) (dir : Vec) (hdir : h.lineDir ring i = some dir) (h' : Halo) (hins : h.insertAll bs = some h') (before : List ℝ) (hbef : h.profile ring i = some before) :
    ∃ after, h'.profile ring i = some after ∧ after.length = h.bins ∧ ∀ j < h.bins, after.getD j 0 = before.getD j 0 + (bs.map fun b => b.rho * coverage h b.center b.radius dir j).sum := by
  obtain ⟨h'', a1, a2, a3, a4⟩ := insertAll_cell bs h hw
  rw [hins, Option.some_inj] at a1
  subst a1
  refine ⟨_, profile_cell h' a2 ring i (a3.rings ▸ hr) (a3.n ▸ hi), by simp [a3.bins], ?_⟩
  intro j hj
  have e : before = (List.range h.bins).map fun j => cell h ring i j := by
    rw [profile_cell h hw ring i hr hi, Option.some_inj] at hbef; exact hbef.symm
  rw [e, ← a3.bins]
  simp only [List.getD_eq_getElem?_getD, List.getElem?_map, List.getElem?_range hj, Option.map_some, Option.getD_some]
  rw [a4 ring i j hr hj]
  congr 2
  apply List.map_congr_left
  intro b hb'
  exact total_ringOps_low h hw ho hn b.center b.radius b.rho (hb b hb').1 (hb b hb').2 ring i hr hi hq dir hdir j

-- the default settings (RMinMult = 0.5, RKernelMult = 0.2) for a halo of radius 1 with 256 lines of sight satisfy the condition
example : (1 / 5 : ℝ) * (1 + 1 / cos (π / (256 : Nat))) ≤ 1 / 2 := by
  have hpi := pi_pos
  have h : cos (π / 3) ≤ cos (π / (256 : Nat)) := cos_le_cos_of_nonneg_of_le_pi (by positivity) (by linarith) (by push_cast; linarith)
  have h4 : cos (π / 4) ≤ cos (π / (256 : Nat)) := cos_le_cos_of_nonneg_of_le_pi (by positivity) (by linarith) (by push_cast; linarith)
  rw [cos_pi_div_four] at h4
  have hs : (14 / 10 : ℝ) ≤ sqrt 2 := by rw [le_sqrt (by norm_num) (by norm_num)]; norm_num
  have h7 : (7 / 10 : ℝ) ≤ cos (π / (256 : Nat)) := by linarith
  have : 1 / cos (π / (256 : Nat)) ≤ 1 / (7 / 10) := one_div_le_one_div_of_le (by norm_num) h7
  linarith

end
end Shellfish.Los

namespace Shellfish.ShellRun
open Real
open Shellfish.Geom (Vec dot)
open Shellfish.Los

/-- The density that a line of sight must have in radial bin `j`: the spheres of the row's particles, but not less than the background density. -/
noncomputable def lineDensity (cfg : Config) (norms : List Vec) (minMass rho0 : ℝ) (row : Row) (files : List File) (dir : Vec) (j : Nat) : ℝ :=
  max ((rowBalls cfg row files).map fun b => b.rho * coverage (emptyHalo cfg norms minMass rho0 row) b.center b.radius dir j).sum (emptyHalo cfg norms minMass rho0 row).defaultRho

/-- C80: the densities that the analysis of a row reads (`GetRhos`): on every line of sight of the first three quarters of every ring, and in every radial bin, the densities of the kernel spheres of the row's particles.
The lines of sight are in the planes given by `norms`.  Missing from the full property: the last quarter of each ring; rows that are not `RowOk`. -/
theorem C80_lines_partial (cfg : Config) (hc : cfg.Ok) (hn : 3 ≤ cfg.spokes) (hlow : cfg.rKernelMult * (1 + 1 / cos (π / cfg.spokes)) ≤ cfg.rMinMult) (norms : List Vec) (hnorm : ∀ v ∈ norms, dot v v = 1)
    (workers : Nat) (hw : 0 < workers) (minMass : ℝ) (rows : List Row) (hne : rows ≠ []) (disk : Int → Option (List File)) (hok : ∀ row ∈ rows, RowOk cfg disk row) :
    ∃ (first : Row) (hd0 : File) (out : List Halo), first ∈ rows ∧ (∀ row ∈ rows, first.snap ≤ row.snap) ∧ ((disk first.snap).getD [])[0]? = some hd0 ∧
      run cfg norms workers minMass id Halo.zero rows disk = some out ∧ out.length = rows.length ∧
      ∀ (k : Nat) (row : Row) (files : List File) (ring i : Nat) (nv : Vec), rows[k]? = some row → disk row.snap = some files → norms[ring]? = some nv → i < cfg.spokes → 4 * i ≤ 3 * cfg.spokes →
        ∃ (h : Halo) (dir : Vec) (rhos : List ℝ), out[k]? = some h ∧ h.lineDir ring i = some dir ∧ dot dir dir = 1 ∧ dot dir nv = 0 ∧
          h.getRhos ring i (List.replicate cfg.radialBins 0) = some rhos ∧ rhos.length = cfg.radialBins ∧
          ∀ j < cfg.radialBins, rhos.getD j 0 = lineDensity cfg norms minMass hd0.rhoM row files dir j := by
  obtain ⟨first, hd0, out, a1, a2, a3, a4, a5, a6⟩ := C80_rows_partial cfg hc norms hnorm workers hw minMass id Halo.zero rows hne disk hok
  refine ⟨first, hd0, out, a1, a2, a3, a4, a5, ?_⟩
  intro k row files ring i nv hk hfiles hnv hi hq
  obtain ⟨h, h1, h2⟩ := a6 k row files hk hfiles
  have hrow := hok row (List.mem_of_getElem? hk)
  have hrpos := hrow.radius
  have hrm := hc.rmin
  have hrx := hc.rmax
  have hkr := hc.kernel
  obtain ⟨hwf, hor⟩ : (emptyHalo cfg norms minMass hd0.rhoM row).WF ∧ (emptyHalo cfg norms minMass hd0.rhoM row).Oriented :=
    init_WF_halo norms hnorm row.x (row.r * cfg.rMinMult) (row.r * cfg.rMaxMult) (by positivity) (by nlinarith) cfg.radialBins cfg.spokes hc.bins hc.spokes _
  have hlt : ring < norms.length := by rw [List.getElem?_eq_some_iff] at hnv; exact hnv.1
  have hdir := lineDir_eq (emptyHalo cfg norms minMass hd0.rhoM row) hor ring i nv hnv hi
  obtain ⟨ps, honly⟩ := insertAll_only _ _ _ h1
  have hprof0 : (emptyHalo cfg norms minMass hd0.rhoM row).profile ring i = some (List.replicate cfg.radialBins 0) := by
    have hget : (emptyHalo cfg norms minMass hd0.rhoM row).profs[ring]? = some (Los.init (log (row.r * cfg.rMinMult)) (log (row.r * cfg.rMaxMult)) cfg.radialBins cfg.spokes) := by
      change (norms.map fun _ => Los.init (log (row.r * cfg.rMinMult)) (log (row.r * cfg.rMaxMult)) cfg.radialBins cfg.spokes)[ring]? = _
      rw [List.getElem?_map, hnv]; rfl
    have hcell : ∀ m, cell (emptyHalo cfg norms minMass hd0.rhoM row) ring i m = 0 := by
      intro m
      unfold cell
      rw [hget]
      exact cumul_zero _ _ (fun t => getD_replicate_zero (K := ℝ) _ _) _ _
    rw [profile_cell _ hwf ring i hlt hi]
    simp only [hcell, List.map_const', List.length_range]
    rfl
  have hballs : ∀ b ∈ rowBalls cfg row files, 0 < b.radius ∧ b.radius * (1 + 1 / cos (π / (emptyHalo cfg norms minMass hd0.rhoM row).n)) ≤ (emptyHalo cfg norms minMass hd0.rhoM row).rMin := by
    intro b hb
    obtain ⟨f, _, hb⟩ := List.mem_flatMap.1 hb
    obtain ⟨p, _, rfl⟩ := List.mem_map.1 hb
    refine ⟨mul_pos hrpos hkr, ?_⟩
    change row.r * cfg.rKernelMult * (1 + 1 / cos (π / cfg.spokes)) ≤ row.r * cfg.rMinMult
    rw [mul_assoc]
    exact mul_le_mul_of_nonneg_left hlow hrpos.le
  obtain ⟨after, b1, b2, b3⟩ := profile_sum (rowBalls cfg row files) (emptyHalo cfg norms minMass hd0.rhoM row) hwf hor hn hballs ring i hlt hi hq _ hdir h h1 _ hprof0
  obtain ⟨hz, hinv, hdot⟩ := rot_facts nv (hnorm nv (List.mem_of_getElem? hnv)) (Geom.rotateVec ⟨cos (phiOf cfg.spokes i), sin (phiOf cfg.spokes i), 0⟩ (Geom.eulerMatrixBetween zAxis nv))
  have hdef : h.defaultRho = (emptyHalo cfg norms minMass hd0.rhoM row).defaultRho := by rw [honly]
  have hbins : h.bins = cfg.radialBins := by rw [honly]; rfl
  refine ⟨h, Geom.rotateVec ⟨cos (phiOf cfg.spokes i), sin (phiOf cfg.spokes i), 0⟩ (Geom.eulerMatrixBetween zAxis nv), after.map fun rho => (if rho < h.defaultRho then h.defaultRho else rho), h2, ?_, ?_, ?_, ?_, ?_, ?_⟩
  · rw [honly]; exact hdir
  · have := hdot (Geom.rotateVec ⟨cos (phiOf cfg.spokes i), sin (phiOf cfg.spokes i), 0⟩ (Geom.eulerMatrixBetween zAxis nv)) (Geom.rotateVec ⟨cos (phiOf cfg.spokes i), sin (phiOf cfg.spokes i), 0⟩ (Geom.eulerMatrixBetween zAxis nv))
    rw [hinv] at this
    refine this.symm.trans ?_
    simp only [dot]
    nlinarith [sin_sq_add_cos_sq (phiOf cfg.spokes i)]
  · rw [hinv] at hz
    change dot _ nv = 0
    have e : ∀ a b : Vec, dot a b = dot b a := by intro a b; simp only [dot]; ring
    rw [e]
    exact hz.symm
  · unfold Halo.profile at b1
    rw [hbins] at b1
    unfold Halo.getRhos
    obtain ⟨p, hp, hret⟩ := Option.bind_eq_some_iff.1 b1
    rw [hp, Option.bind_some, hret]; rfl
  · rw [List.length_map, b2]; rfl
  · intro j hj
    have hja : j < after.length := by rw [b2]; exact hj
    have hsum := b3 j hj
    rw [getD_replicate_zero, zero_add, List.getD_eq_getElem?_getD, List.getElem?_eq_getElem hja, Option.getD_some] at hsum
    rw [List.getD_eq_getElem?_getD, List.getElem?_map, List.getElem?_eq_getElem hja, Option.map_some, Option.getD_some, hsum, hdef]
    unfold lineDensity
    split_ifs with hlt'
    · exact (max_eq_right hlt'.le).symm
    · exact (max_eq_left (not_lt.1 hlt')).symm

-- the configuration and catalog of the examples of ShellRunMore: three rings of eight lines of sight, a kernel of 0.2 and an inner radius of 0.5 radii
example : exCfg.Ok ∧ 3 ≤ exCfg.spokes ∧ exCfg.rKernelMult * (1 + 1 / cos (π / exCfg.spokes)) ≤ exCfg.rMinMult ∧ (∀ v ∈ exNorms, dot v v = 1) ∧ ∀ row ∈ [exRow 5, exRow 4], RowOk exCfg exDisk row := by
  refine ⟨exCfg_ok, by norm_num [exCfg], ?_, exNorms_unit, ?_⟩
  · have hpi := pi_pos
    have h4 : cos (π / 4) ≤ cos (π / (8 : Nat)) := cos_le_cos_of_nonneg_of_le_pi (by positivity) (by linarith) (by push_cast; linarith)
    rw [cos_pi_div_four] at h4
    have hs : (14 / 10 : ℝ) ≤ sqrt 2 := by rw [le_sqrt (by norm_num) (by norm_num)]; norm_num
    have : 1 / cos (π / (8 : Nat)) ≤ 1 / (7 / 10) := one_div_le_one_div_of_le (by norm_num) (by linarith)
    change (1 / 5 : ℝ) * (1 + 1 / cos (π / (8 : Nat))) ≤ 1 / 2
    linarith
  · intro row hr
    simp only [List.mem_cons, List.not_mem_nil, or_false] at hr
    rcases hr with rfl | rfl
    exacts [exRow_ok 5 (Or.inr rfl), exRow_ok 4 (Or.inl rfl)]

end Shellfish.ShellRun
