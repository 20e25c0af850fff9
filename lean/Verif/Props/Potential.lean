/-
C79: the potential maps.
-/
import Verif.Model.Potential
import Verif.Props.Mem
import Verif.Props.Stats

namespace Shellfish.Potential
open Shellfish.Geom (Vec)
open Shellfish.Los (Sphere sphereSheetIntersect InBox)
open Shellfish.Stats (File Particle distance rowsOf_nodup mem_rowsOf)
open Shellfish.Cmd (binBySnap sortedSnaps rowsOf)
open Shellfish.Mem (total total_cons)

/-! ## Specification -/

/-- The point, relative to the center of the halo, at which the cell `i` of the map of a plane is computed. -/
noncomputable def point (cfg : Config) (R : ℝ) : Plane × Nat → Vec
  | (.xy, i) => ⟨gridR cfg R - delta cfg R * (i % cfg.ncells : Nat), gridR cfg R - delta cfg R * (i / cfg.ncells : Nat), 0⟩
  | (.xz, i) => ⟨gridR cfg R - delta cfg R * (i % cfg.ncells : Nat), 0, gridR cfg R - delta cfg R * (i / cfg.ncells : Nat)⟩
  | (.yz, i) => ⟨0, gridR cfg R - delta cfg R * (i % cfg.ncells : Nat), gridR cfg R - delta cfg R * (i / cfg.ncells : Nat)⟩

/-- A point given relative to `c`. -/
noncomputable def at' (c g : Vec) : Vec := ⟨c.x + g.x, c.y + g.y, c.z + g.z⟩

/-- The potential (with the gravitational constant 1) of particles at a point. -/
noncomputable def potential (ps : List Particle) (g : Vec) : ℝ := -(ps.map fun p => p.m / distance g p.x).sum

/-- The particle is within the range of radii. -/
def InRange (cfg : Config) (c : Vec) (R : ℝ) (x : Vec) : Prop := cfg.rMinMult * R ≤ distance c x ∧ distance c x ≤ cfg.rMaxMult * R

/-! ## One file and one halo -/

theorem total_flatMap {κ α : Type} [DecidableEq κ] (l : List α) (f : α → List (Mem.Upd κ ℝ)) (c : κ) : total (l.flatMap f) c = (l.map fun x => total (f x) c).sum := by
  induction l with
  | nil => rfl
  | cons x l ih =>
    rw [List.flatMap_cons, List.map_cons, List.sum_cons, ← ih]
    unfold total
    rw [List.filter_append, List.map_append, List.sum_append]

theorem sum_single (l : List Nat) (i : Nat) (hn : l.Nodup) (a : ℝ) : (l.map fun j => if j = i then a else 0).sum = if i ∈ l then a else 0 := by
  induction l with
  | nil => rfl
  | cons j l ih =>
    rw [List.nodup_cons] at hn
    rw [List.map_cons, List.sum_cons, ih hn.2]
    by_cases h : j = i
    · subst h; simp [hn.1]
    · simp [h, Ne.symm h]

theorem cell_total (cfg : Config) (workers w : Nat) (R : ℝ) (d : Vec) (pm : ℝ) (pl : Plane) (i : Nat) (hpos : 0 < workers) (hi : i < cfg.ncells * cfg.ncells) (hw : i % workers = w) :
    total (cellUpdates cfg workers w R d pm) (pl, i) = -term cfg R d pm (pl, i) := by
  unfold cellUpdates
  rw [total_flatMap]
  have e : ∀ j : Nat, total [(⟨(Plane.xy, j), -term cfg R d pm (.xy, j)⟩ : Mem.Upd (Plane × Nat) ℝ), ⟨(.xz, j), -term cfg R d pm (.xz, j)⟩, ⟨(.yz, j), -term cfg R d pm (.yz, j)⟩] (pl, i) =
      if j = i then -term cfg R d pm (pl, i) else 0 := by
    intro j
    rw [total_cons, total_cons, total_cons]
    have e0 : total ([] : List (Mem.Upd (Plane × Nat) ℝ)) (pl, i) = 0 := rfl
    rw [e0]
    by_cases hj : j = i
    · subst hj
      cases pl <;> simp
    · simp [hj]
  simp only [e]
  rw [sum_single _ _ (Par.strided_nodup _ _ _), if_pos]
  rw [Par.strided_mem _ _ _ _ hpos]
  exact ⟨hw ▸ Nat.mod_le _ _, hi, i / workers, by rw [← hw, Nat.mod_add_div]⟩

theorem program_own (cfg : Config) (workers : Nat) (hpos : 0 < workers) (s : Sphere) (ps : List Particle) (keep : Nat → Bool) (w : Nat) (hw : w < workers) :
    ∀ u ∈ program cfg workers s ps keep w, u.cell.2 % workers = w ∧ u.cell.2 < cfg.ncells * cfg.ncells := by
  classical
  intro u hu
  unfold program at hu
  obtain ⟨p, _, hu⟩ := List.mem_flatMap.1 hu
  split_ifs at hu
  · unfold cellUpdates at hu
    obtain ⟨i, hi, hu⟩ := List.mem_flatMap.1 hu
    rw [Par.strided_mem _ _ _ _ hpos] at hi
    obtain ⟨_, h2, q, rfl⟩ := hi
    have : u.cell.2 = w + workers * q := by
      simp only [List.mem_cons, List.not_mem_nil, or_false] at hu
      rcases hu with rfl | rfl | rfl <;> rfl
    rw [this]
    exact ⟨by rw [Nat.add_mul_mod_self_left, Nat.mod_eq_of_lt hw], h2⟩
  · cases hu

/-- The particles of a file which are used for a halo. -/
noncomputable def usedOf (cfg : Config) (s : Sphere) (f : File) (keep : Nat → Bool) : List Particle :=
  open Classical in (f.particles.zipIdx.filter fun p => decide (keep p.2 = true ∧ used cfg s p.1.x)).map Prod.fst

theorem term_eq (cfg : Config) (s : Sphere) (x : Vec) (m : ℝ) (c : Plane × Nat) : term cfg s.r (disp s.c x) m c = m / distance (at' s.c (point cfg s.r c)) x := by
  obtain ⟨pl, i⟩ := c
  have e : ∀ a b : ℝ, a = b → m / Real.sqrt a = m / Real.sqrt b := fun a b h => by rw [h]
  cases pl
  all_goals
    unfold term distance at' point disp
    dsimp only
    apply e
    ring

/-- C79: one halo and one file, for any number of workers and every interleaving of their loads and stores: each cell of the three maps is changed by the potential of the particles in use at the
point of the cell. -/
theorem C79_insert (cfg : Config) (workers : Nat) (hpos : 0 < workers) (s : Sphere) (f : File) (keep : Nat → Bool) (mem mem' : Maps)
    (h : Mem.Outcome workers (program cfg workers s f.particles keep) mem mem') (pl : Plane) (i : Nat) (hi : i < cfg.ncells * cfg.ncells) :
    mem' (pl, i) = mem (pl, i) + potential (usedOf cfg s f keep) (at' s.c (point cfg s.r (pl, i))) := by
  classical
  have := Mem.outcome_owned workers _ (fun c => c.2 % workers) (fun w hw u hu => (program_own cfg workers hpos s f.particles keep w hw u hu).1) mem mem' h (pl, i)
  rw [this, if_pos (Nat.mod_lt _ hpos)]
  congr 1
  unfold program potential usedOf
  rw [total_flatMap]
  generalize f.particles.zipIdx = l
  induction l with
  | nil => simp
  | cons p l ih =>
    rw [List.map_cons, List.sum_cons, ih]
    by_cases hc : keep p.2 = true ∧ used cfg s p.1.x
    · rw [if_pos hc, cell_total cfg workers _ _ _ _ _ _ hpos hi rfl, List.filter_cons_of_pos (by simpa using hc), List.map_cons, List.map_cons, List.sum_cons, term_eq, neg_add]
    · rw [if_neg hc, List.filter_cons_of_neg (by simpa using hc)]
      have e0 : total ([] : List (Mem.Upd (Plane × Nat) ℝ)) (pl, i) = 0 := rfl
      rw [e0, zero_add]

/-! ## The maps of a row -/

theorem modify_row {α : Type} (st : List α) (j k : Nat) (g : α → α) (b : Prop) [Decidable b] :
    (if b then st.modify j g else st)[k]? = if b ∧ j = k then (st[k]?).map g else st[k]? := by
  by_cases hb : b
  · rw [if_pos hb, List.getElem?_modify]
    by_cases hj : j = k
    · rw [if_pos ⟨hb, hj⟩]; cases st[k]? <;> simp [hj]
    · rw [if_neg fun h => hj h.2]; cases st[k]? <;> simp [hj]
  · rw [if_neg hb, if_neg fun h => hb h.1]

open Classical in
theorem file_row (cfg : Config) (g : Nat → Maps → Maps) (f : File) (idxs : List Nat) (hn : idxs.Nodup) (row : Nat → Row) (st : List Maps) (k : Nat) :
    ((idxs.zip (idxs.map row)).foldl (fun st kr => if sphereSheetIntersect (kr.2.bound cfg) f.region then st.modify kr.1 (g kr.1) else st) st)[k]? =
      if k ∈ idxs ∧ sphereSheetIntersect ((row k).bound cfg) f.region then (st[k]?).map (g k) else st[k]? := by
  induction idxs generalizing st with
  | nil => simp
  | cons j l ih =>
    rw [List.nodup_cons] at hn
    rw [List.map_cons, List.zip_cons_cons, List.foldl_cons, ih hn.2, modify_row]
    by_cases hjk : j = k
    · subst hjk
      by_cases hs : sphereSheetIntersect ((row j).bound cfg) f.region <;> simp [hs, hn.1]
    · by_cases hk : k ∈ l <;> by_cases hs : sphereSheetIntersect ((row k).bound cfg) f.region <;> simp [hk, hs, hjk, Ne.symm hjk]

open Classical in
/-- The maps of row `k` after the files of its snapshot. -/
noncomputable def rowFiles (cfg : Config) (exec : Nat → Nat → Maps → Maps) (files : List (File × Nat)) (row : Row) (k : Nat) (m : Maps) : Maps :=
  files.foldl (fun m f => if sphereSheetIntersect (row.bound cfg) f.1.region then exec f.2 k m else m) m

theorem snapFiles_row (cfg : Config) (exec : Nat → Nat → Maps → Maps) (files : List File) (idxs : List Nat) (hn : idxs.Nodup) (row : Nat → Row) (st : List Maps) (k : Nat) :
    (snapFiles cfg exec files idxs (idxs.map row) st)[k]? = if k ∈ idxs then (st[k]?).map (rowFiles cfg exec files.zipIdx (row k) k) else st[k]? := by
  classical
  unfold snapFiles rowFiles
  generalize files.zipIdx = l
  induction l generalizing st with
  | nil => simp
  | cons f l ih =>
    rw [List.foldl_cons, ih, file_row cfg (fun k => exec f.2 k) f.1 idxs hn row st k]
    by_cases hk : k ∈ idxs
    · by_cases hs : sphereSheetIntersect ((row k).bound cfg) f.1.region
      · simp only [hk, hs, and_true, if_true, List.foldl_cons, Option.map_map]; rfl
      · simp only [hk, hs, and_false, if_true, if_false, List.foldl_cons]
    · simp [hk]

/-- The results of all lock groups: each is the outcome of some interleaving; `keep` are the tables of the random choices. -/
def Executed (cfg : Config) (workers : Nat) (rows : List Row) (disk : Int → Option (List File)) (keep : Int → Nat → Nat → Nat → Bool) (exec : Int → Nat → Nat → Maps → Maps) : Prop :=
  ∀ snap files i f k row m, disk snap = some files → files[i]? = some f → rows[k]? = some row →
    Mem.Outcome workers (program cfg workers (row.sphere cfg) f.particles (keep snap i k)) m (exec snap i k m)

theorem executed_exists (cfg : Config) (workers : Nat) (rows : List Row) (disk : Int → Option (List File)) (keep : Int → Nat → Nat → Nat → Bool) : ∃ exec, Executed cfg workers rows disk keep exec := by
  classical
  refine ⟨fun snap i k m => match ((disk snap).getD [])[i]?, rows[k]? with
    | some f, some row => (Mem.outcome_exists workers (program cfg workers (row.sphere cfg) f.particles (keep snap i k)) m).choose
    | _, _ => m, ?_⟩
  intro snap files i f k row m hd hf hr
  simp only [hd, Option.getD_some, hf, hr]
  exact (Mem.outcome_exists workers (program cfg workers (row.sphere cfg) f.particles (keep snap i k)) m).choose_spec

/-- The particles used for a row: those of the files that touch its sphere (catalog radius times `rMaxMult`), chosen by the tables, within the range of radii. -/
noncomputable def rowParticles (cfg : Config) (row : Row) (files : List File) (keep : Nat → Nat → Bool) : List Particle :=
  open Classical in (files.zipIdx.filter fun f => decide (sphereSheetIntersect (row.bound cfg) f.1.region)).flatMap fun f => usedOf cfg (row.sphere cfg) f.1 (keep f.2)

theorem potential_append (a b : List Particle) (g : Vec) : potential (a ++ b) g = potential a g + potential b g := by
  unfold potential
  rw [List.map_append, List.sum_append, neg_add]

theorem rowFiles_eq (cfg : Config) (workers : Nat) (hpos : 0 < workers) (rows : List Row) (disk : Int → Option (List File)) (keep : Int → Nat → Nat → Nat → Bool) (exec : Int → Nat → Nat → Maps → Maps)
    (hx : Executed cfg workers rows disk keep exec) (snap : Int) (files : List File) (hf : disk snap = some files) (k : Nat) (row : Row) (hk : rows[k]? = some row) (m : Maps)
    (pl : Plane) (i : Nat) (hi : i < cfg.ncells * cfg.ncells) :
    rowFiles cfg (exec snap) files.zipIdx row k m (pl, i) =
      m (pl, i) + potential (rowParticles cfg row files fun j => keep snap j k) (at' row.x (point cfg (row.sphere cfg).r (pl, i))) := by
  classical
  unfold rowFiles rowParticles
  have hl : ∀ p ∈ files.zipIdx, files[p.2]? = some p.1 := fun p hp => by
    have := List.mem_zipIdx_iff_getElem?.1 hp
    simpa using this
  revert hl
  generalize files.zipIdx = l
  intro hl
  induction l generalizing m with
  | nil => simp [potential]
  | cons f l ih =>
    rw [List.foldl_cons, ih _ fun p hp => hl p (List.mem_cons_of_mem _ hp)]
    by_cases hs : sphereSheetIntersect (row.bound cfg) f.1.region
    · rw [if_pos hs, C79_insert cfg workers hpos (row.sphere cfg) f.1 _ _ _ (hx snap files f.2 f.1 k row m hf (hl f List.mem_cons_self) hk) pl i hi, List.filter_cons_of_pos (by simpa using hs),
        List.flatMap_cons, potential_append]
      have : (row.sphere cfg).c = row.x := rfl
      rw [this]; ring
    · rw [if_neg hs, List.filter_cons_of_neg (by simpa using hs)]

/-- C79: for every catalog, every set of files, every outcome of the random choices, every number of threads and every interleaving: the run succeeds and gives one entry per row; every cell of the maps
of a row is the potential, at the point of the cell, of the particles used for the row, in units of `frac` times mass over radius; the maps of the marker snapshot -1 are 0. -/
theorem C79_maps (cfg : Config) (workers : Nat) (hpos : 0 < workers) (rows : List Row) (hne : rows ≠ []) (disk : Int → Option (List File)) (keep : Int → Nat → Nat → Nat → Bool)
    (exec : Int → Nat → Nat → Maps → Maps) (hx : Executed cfg workers rows disk keep exec) (hd : ∀ row ∈ rows, row.snap ≠ -1 → ∃ files, disk row.snap = some files ∧ files ≠ [])
    (h0 : rows.head?.map Row.snap ≠ some (-1)) :
    ∃ out, run cfg rows disk exec = some out ∧ out.length = rows.length ∧ ∀ (k : Nat) (row : Row), rows[k]? = some row → ∃ maps, out[k]? = some (radii cfg row, maps) ∧
      ∀ pl i, i < cfg.ncells * cfg.ncells → maps (pl, i) =
        (if row.snap = -1 then 0 else potential (rowParticles cfg row ((disk row.snap).getD []) fun j => keep row.snap j k) (at' row.x (point cfg (row.sphere cfg).r (pl, i)))) / (cfg.frac * row.m / row.r) := by
  classical
  obtain ⟨sb, ib, e, h1, _, _, h4, h5⟩ := Shellfish.Cmd.C44_groups (rows.map (·.snap)) (rows.map (·.id)) (by simp)
  obtain ⟨hperm, _⟩ := Shellfish.Cmd.sortedSnaps_spec sb
  have hnd : (sortedSnaps sb).Nodup := hperm.nodup_iff.2 h4
  have hmem : ∀ s, s ∈ sortedSnaps sb ↔ s ∈ rows.map (·.snap) := fun s => by rw [hperm.mem_iff, h5]
  have hfiles : ∀ s ∈ rows.map (·.snap), s ≠ -1 → ∃ files, disk s = some files ∧ files ≠ [] := by
    intro s hs hn
    obtain ⟨row, hr, rfl⟩ := List.mem_map.1 hs
    exact hd row hr hn
  have hfirst : ¬ (rows.head?.bind fun r => disk r.snap).getD [] = [] := by
    cases hs : rows with
    | nil => exact absurd hs hne
    | cons a l =>
      rw [hs] at h0
      obtain ⟨files, hf, hn⟩ := hd a (by rw [hs]; exact List.mem_cons_self) (by simpa using h0)
      rw [List.head?_cons, Option.bind_some, hf]
      exact hn
  have rowAt : ∀ s : Int, ∀ k ∈ rowsOf (rows.map (·.snap)) s, ∃ row, rows[k]? = some row ∧ row.snap = s := by
    intro s k hk
    rw [mem_rowsOf, List.getElem?_map] at hk
    cases hr : rows[k]? with
    | none => rw [hr] at hk; cases hk
    | some row => rw [hr] at hk; exact ⟨row, rfl, by simpa using hk⟩
  have key : ∀ (l : List Int) (st : List Maps), l.Nodup → (∀ s ∈ l, s ∈ rows.map (·.snap)) → ∃ st', l.foldlM (fun (st : List Maps) snap =>
      if snap = -1 then some st else (disk snap).bind fun files => if files = [] then none
        else ((ib.get snap).mapM fun k => rows[k]?).map fun rs => snapFiles cfg (exec snap) files (ib.get snap) rs st) st = some st' ∧
      ∀ k row, rows[k]? = some row → st'[k]? = if row.snap ∈ l ∧ row.snap ≠ -1 then (st[k]?).map (rowFiles cfg (exec row.snap) ((disk row.snap).getD []).zipIdx row k) else st[k]? := by
    intro l
    induction l with
    | nil => intro st _ _; exact ⟨st, rfl, fun k row _ => by simp⟩
    | cons s l ih =>
      intro st hn hl
      rw [List.nodup_cons] at hn
      rw [List.foldlM_cons]
      have hl' : ∀ t ∈ l, t ∈ rows.map (·.snap) := fun t ht => hl t (List.mem_cons_of_mem _ ht)
      by_cases hs : s = -1
      · obtain ⟨st', e1, e2⟩ := ih st hn.2 hl'
        refine ⟨st', by rw [if_pos hs]; exact e1, fun k row hk => ?_⟩
        rw [e2 k row hk]
        by_cases hr : row.snap = -1
        · simp [hr]
        · simp [hr, hs]
      · obtain ⟨files, hf, hfne⟩ := hfiles s (hl s List.mem_cons_self) hs
        have hm : (ib.get s).mapM (fun k => rows[k]?) = some ((ib.get s).map fun k => rows.getD k ⟨0, 0, ⟨0, 0, 0⟩, 0, 0⟩) := by
          rw [h1]
          refine Shellfish.Cmd.mapM_ok _ _ _ fun k hk => ?_
          obtain ⟨row, hr, _⟩ := rowAt s k hk
          rw [List.getD_eq_getElem?_getD, hr]; rfl
        obtain ⟨st', e1, e2⟩ := ih (snapFiles cfg (exec s) files (ib.get s) ((ib.get s).map fun k => rows.getD k ⟨0, 0, ⟨0, 0, 0⟩, 0, 0⟩) st) hn.2 hl'
        refine ⟨st', by rw [if_neg hs, hf, Option.bind_some, if_neg hfne, hm]; exact e1, fun k row hk => ?_⟩
        rw [e2 k row hk, snapFiles_row _ _ _ _ (by rw [h1]; exact rowsOf_nodup _ _), h1]
        have hkm : k ∈ rowsOf (rows.map (·.snap)) s ↔ row.snap = s := by rw [mem_rowsOf, List.getElem?_map, hk]; simp
        have hg : rows.getD k ⟨0, 0, ⟨0, 0, 0⟩, 0, 0⟩ = row := by rw [List.getD_eq_getElem?_getD, hk]; rfl
        rw [hg]
        by_cases hr : row.snap = s
        · subst hr
          rw [if_pos (hkm.2 rfl), if_neg fun h => hn.1 h.1, if_pos ⟨List.mem_cons_self, hs⟩, hf, Option.getD_some]
        · rw [if_neg fun h => hr (hkm.1 h)]
          simp [hr]
  obtain ⟨st, e1, e2⟩ := key (sortedSnaps sb) (List.replicate rows.length fun _ => 0) hnd fun s hs => (hmem s).1 hs
  refine ⟨(rows.zip st).map fun rm => (radii cfg rm.1, processMaps cfg rm.1 rm.2), ?_, ?_, ?_⟩
  · unfold run
    rw [if_neg hne, if_neg hfirst, e, Option.bind_some]
    dsimp only
    rw [e1]; rfl
  · rw [List.length_map, List.length_zip, min_eq_left]
    by_contra hc
    push Not at hc
    have hk : rows[st.length]? = some rows[st.length] := List.getElem?_eq_getElem hc
    have := e2 _ _ hk
    rw [List.getElem?_eq_none (le_refl _), List.getElem?_replicate, if_pos hc] at this
    split_ifs at this
    cases this
  · intro k row hk
    have hk' := (List.getElem?_eq_some_iff.1 hk).1
    have h := e2 k row hk
    rw [List.getElem?_replicate, if_pos hk'] at h
    have hin : row.snap ∈ sortedSnaps sb := (hmem _).2 (List.mem_map_of_mem (List.mem_of_getElem? hk))
    by_cases hs : row.snap = -1
    · rw [if_neg fun h => h.2 hs] at h
      refine ⟨processMaps cfg row fun _ => 0, ?_, fun pl i hi => ?_⟩
      · rw [List.getElem?_map, (List.getElem?_zip_eq_some (z := (row, _))).2 ⟨hk, h⟩]; rfl
      · rw [if_pos hs]; rfl
    · rw [if_pos ⟨hin, hs⟩, Option.map_some] at h
      refine ⟨processMaps cfg row (rowFiles cfg (exec row.snap) ((disk row.snap).getD []).zipIdx row k fun _ => 0), by rw [List.getElem?_map, (List.getElem?_zip_eq_some (z := (row, _))).2 ⟨hk, h⟩]; rfl, fun pl i hi => ?_⟩
      rw [if_neg hs]
      obtain ⟨files, hf, _⟩ := hd row (List.mem_of_getElem? hk) hs
      unfold processMaps
      rw [hf, Option.getD_some, rowFiles_eq cfg workers hpos rows disk keep exec hx row.snap files hf k row hk _ pl i hi, zero_add]

/-! ## Which particles are used -/

theorem distance_disp (c x : Vec) : (disp c x).x * (disp c x).x + (disp c x).y * (disp c x).y + (disp c x).z * (disp c x).z = distance c x ^ 2 := by
  unfold disp distance
  rw [Real.sq_sqrt (by positivity)]
  ring

theorem distance_nonneg (c x : Vec) : 0 ≤ distance c x := Real.sqrt_nonneg _

theorem used_iff (cfg : Config) (s : Sphere) (hr : 0 ≤ s.r) (hmin : 0 ≤ cfg.rMinMult) (hmax : 0 ≤ cfg.rMaxMult) (x : Vec) : used cfg s x ↔ InRange cfg s.c s.r x := by
  unfold used InRange
  dsimp only
  rw [distance_disp, not_or, not_lt, not_lt]
  have h := distance_nonneg s.c x
  constructor
  · rintro ⟨h1, h2⟩
    exact ⟨abs_le_of_sq_le_sq' (by nlinarith) h |>.2, abs_le_of_sq_le_sq' (by nlinarith) (by positivity) |>.2⟩
  · rintro ⟨h1, h2⟩
    have h3 : 0 ≤ cfg.rMinMult * s.r := by positivity
    constructor <;> nlinarith

/-- The header of the file describes its particles and the region is small (see C36). -/
structure Described (f : File) (row : Row) (rMax : ℝ) : Prop where
  origin : InBox f.region.totalWidth f.region.origin
  small : f.region.Small rMax
  inside : ∀ p ∈ f.particles, f.region.Contains p.x
  center : InBox f.region.totalWidth row.x

theorem zipIdx_all (l : List Particle) (P : Vec → Prop) [DecidablePred P] (n : Nat) :
    ((l.zipIdx n).filter fun p => decide (true = true ∧ P p.1.x)).map Prod.fst = l.filter fun p => decide (P p.x) := by
  induction l generalizing n with
  | nil => rfl
  | cons p l ih =>
    rw [List.zipIdx_cons]
    have e1 := ih (n + 1)
    by_cases h : P p.x
    · rw [List.filter_cons_of_pos (by simpa using h), List.filter_cons_of_pos (by simpa using h), List.map_cons, e1]
    · rw [List.filter_cons_of_neg (by simpa using h), List.filter_cons_of_neg (by simpa using h), e1]

/-- C79, partial: if all particles are used (`ParticleFraction` 1), the headers describe the files, the files are small, and no particle is exactly at the outer radius, the maps are the potential of
all particles of the snapshot at distances (not periodic) within the range, at the points of the cells, in units of mass over radius. -/
theorem C79_potential_partial (cfg : Config) (workers : Nat) (hpos : 0 < workers) (rows : List Row) (hne : rows ≠ []) (disk : Int → Option (List File))
    (exec : Int → Nat → Nat → Maps → Maps) (hx : Executed cfg workers rows disk (fun _ _ _ _ => true) exec) (hd : ∀ row ∈ rows, row.snap ≠ -1 → ∃ files, disk row.snap = some files ∧ files ≠ [])
    (h0 : rows.head?.map Row.snap ≠ some (-1)) (hfrac : cfg.frac = 1) (hmin : 0 ≤ cfg.rMinMult) (hmax : 0 < cfg.rMaxMult) :
    ∃ out, run cfg rows disk exec = some out ∧ ∀ (k : Nat) (row : Row) (files : List File), rows[k]? = some row → row.snap ≠ -1 → disk row.snap = some files → 0 < row.r →
      (∀ f ∈ files, Described f row (row.r * cfg.rMaxMult) ∧ ∀ p ∈ f.particles, distance row.x p.x ≠ cfg.rMaxMult * row.r) →
      ∃ maps, out[k]? = some (radii cfg row, maps) ∧ ∀ pl i, i < cfg.ncells * cfg.ncells →
        maps (pl, i) = potential (open Classical in (files.flatMap File.particles).filter fun p => decide (InRange cfg row.x row.r p.x)) (at' row.x (point cfg row.r (pl, i))) / (row.m / row.r) := by
  classical
  obtain ⟨out, h1, _, h3⟩ := C79_maps cfg workers hpos rows hne disk _ exec hx hd h0
  refine ⟨out, h1, fun k row files hk hs hf hr hg => ?_⟩
  obtain ⟨maps, h4, h5⟩ := h3 k row hk
  refine ⟨maps, h4, fun pl i hi => ?_⟩
  have er : (row.sphere cfg).r = row.r := by unfold Row.sphere; dsimp only; field_simp
  rw [h5 pl i hi, if_neg hs, hfrac, one_mul, er, hf, Option.getD_some]
  congr 2
  unfold rowParticles
  have e1 : ∀ f ∈ files, usedOf cfg (row.sphere cfg) f (fun _ => true) = f.particles.filter fun p => decide (InRange cfg row.x row.r p.x) := by
    intro f _
    unfold usedOf
    rw [zipIdx_all f.particles (used cfg (row.sphere cfg)) 0]
    refine List.filter_congr fun p _ => decide_eq_decide.2 ?_
    rw [used_iff cfg _ (by rw [er]; exact hr.le) hmin hmax.le, er]
    exact Iff.rfl
  have e2 : ∀ f ∈ files, ¬ sphereSheetIntersect (row.bound cfg) f.region → f.particles.filter (fun p => decide (InRange cfg row.x row.r p.x)) = [] := by
    intro f hfm hn
    rw [List.filter_eq_nil_iff]
    intro p hp hc
    have hc := (of_decide_eq_true hc).2
    obtain ⟨hdsc, hex⟩ := hg f hfm
    have hlt : distance row.x p.x < row.r * cfg.rMaxMult := by rw [mul_comm]; exact lt_of_le_of_ne hc (hex p hp)
    refine hn (Shellfish.Los.box_complete f.region row.x (row.r * cfg.rMaxMult) (by positivity) hdsc.center hdsc.origin hdsc.small p.x (hdsc.inside p hp) ⟨0, 0, 0, ?_⟩)
    simp only [Int.cast_zero, zero_mul, add_zero]
    unfold distance at hlt
    rwa [Real.sqrt_lt' (by positivity)] at hlt
  clear h5 h4 hg hf
  have key : ∀ (l : List File) (n : Nat), (∀ f ∈ l, f ∈ files) → ((l.zipIdx n).filter fun f => decide (sphereSheetIntersect (row.bound cfg) f.1.region)).flatMap (fun f => usedOf cfg (row.sphere cfg) f.1 fun _ => true) =
      (l.flatMap File.particles).filter fun p => decide (InRange cfg row.x row.r p.x) := by
    intro l
    induction l with
    | nil => intro _ _; rfl
    | cons f l ih =>
      intro n hl
      have ih := ih (n + 1) fun g hgm => hl g (List.mem_cons_of_mem _ hgm)
      rw [List.zipIdx_cons, List.flatMap_cons, List.filter_append]
      by_cases hs' : sphereSheetIntersect (row.bound cfg) f.region
      · rw [List.filter_cons_of_pos (by simpa using hs'), List.flatMap_cons, ih, e1 f (hl f List.mem_cons_self)]
      · rw [List.filter_cons_of_neg (by simpa using hs'), ih, e2 f (hl f List.mem_cons_self) hs', List.nil_append]
  exact key files 0 fun _ h => h

/-! ## What is false -/

/-- C79, the coordinates: for every grid of at least 2 cells no cell belongs to the coordinate that the column `R` gives for it.  The grid points run from `+gridR` to `-gridR`, while `R` starts at `-gridR`
with a smaller step and never reaches `gridR`; even if the axis is reversed only the first coordinate agrees. -/
theorem C79_coordinates_false (cfg : Config) (row : Row) (hn : 2 ≤ cfg.ncells) (hr : 0 < row.r) (hg : 0 < cfg.rGridMult) (i : Nat) (hi : i < cfg.ncells) :
    ∃ R, (radii cfg row)[i]? = some R ∧ (point cfg row.r (.xy, i)).x ≠ R ∧ R < gridR cfg row.r ∧ (point cfg row.r (.xy, 0)).x = gridR cfg row.r ∧ ((point cfg row.r (.xy, i)).x = -R → i = 0) := by
  have hG : 0 < gridR cfg row.r := by unfold gridR; positivity
  have hn' : (2 : ℝ) ≤ cfg.ncells := by exact_mod_cast hn
  have hi' : (i : ℝ) + 1 ≤ cfg.ncells := by exact_mod_cast hi
  have h1 : (cfg.ncells : ℝ) - 1 ≠ 0 := by linarith
  have h2 : (cfg.ncells : ℝ) ≠ 0 := by linarith
  have em : i % cfg.ncells = i := Nat.mod_eq_of_lt hi
  refine ⟨row.r * cfg.rGridMult * 2 / (cfg.ncells : ℝ) * (i : ℝ) - row.r * cfg.rGridMult, by unfold radii; rw [List.getElem?_map, List.getElem?_range hi]; rfl, ?_, ?_, ?_, ?_⟩
  · intro h
    unfold point delta at h
    dsimp only at h
    rw [em] at h
    have hG' : row.r * cfg.rGridMult = gridR cfg row.r := rfl
    rw [hG'] at h
    field_simp at h
    have h3 : (i : ℝ) * (2 * cfg.ncells - 1) = cfg.ncells * (cfg.ncells - 1) := by nlinarith
    have h4 : (i : ℤ) * (2 * cfg.ncells - 1) = cfg.ncells * (cfg.ncells - 1) := by exact_mod_cast h3
    have h5 : (2 * (cfg.ncells : ℤ) - 1) ∣ 1 := by
      have e : (2 * (cfg.ncells : ℤ) - 1) * (2 * cfg.ncells - 1 - 4 * i) = 1 := by nlinarith
      exact ⟨_, e.symm⟩
    have := Int.le_of_dvd (by norm_num) h5
    omega
  · have hG' : row.r * cfg.rGridMult = gridR cfg row.r := rfl
    rw [hG', div_mul_eq_mul_div, sub_lt_iff_lt_add, div_lt_iff₀ (by linarith)]
    nlinarith
  · unfold point
    dsimp only
    rw [Nat.zero_mod]
    norm_num
  · intro h
    unfold point delta at h
    dsimp only at h
    rw [em] at h
    have hG' : row.r * cfg.rGridMult = gridR cfg row.r := rfl
    rw [hG'] at h
    field_simp at h
    have h3 : (i : ℝ) = 0 := by nlinarith
    exact_mod_cast h3

/-- A file with one particle, a halo and a grid of 2 x 2 cells. -/
def exFile : File := ⟨⟨⟨45, 45, 45⟩, ⟨10, 10, 10⟩, 100⟩, [⟨⟨51, 50, 50⟩, 1, 7⟩]⟩

def exRow : Row := ⟨10, 3, ⟨50, 50, 50⟩, 1, 1⟩

noncomputable def exCfg : Config := ⟨2, 1, 0, 2, 1⟩

def exDisk (snap : Int) : Option (List File) := if snap = 3 then some [exFile] else none

theorem exDescribed : ∀ f ∈ [exFile], Described f exRow (exRow.r * exCfg.rMaxMult) ∧ ∀ p ∈ f.particles, distance exRow.x p.x ≠ exCfg.rMaxMult * exRow.r := by
  intro f hf
  rw [List.mem_singleton.1 hf]
  refine ⟨⟨by norm_num [InBox, exFile], by norm_num [Shellfish.Los.Region.Small, exFile, exRow, exCfg], ?_, by norm_num [InBox, exFile, exRow]⟩, ?_⟩
  · intro p hp; rw [List.mem_singleton.1 hp]; norm_num [Shellfish.Los.Region.Contains, exFile]
  · intro p hp
    rw [List.mem_singleton.1 hp]
    unfold distance exRow exCfg
    norm_num

/-- C79, in full, is false of the code: a particle of mass 1 is at (1, 0, 0) from the center of a halo with radius and mass 1; the first cell of the xy map, whose coordinates according to `R` are
(-1, -1), gets the potential -1 of the point (1, 1, 0); the potential at (-1, -1, 0) is -1/√5.  (All hypotheses of `C79_potential_partial` are met.) -/
theorem C79_mirror_false : ∀ workers, 0 < workers → ∀ exec, Executed exCfg workers [exRow] exDisk (fun _ _ _ _ => true) exec →
    ∃ maps, run exCfg [exRow] exDisk exec = some [([-1, 0], maps)] ∧ maps (.xy, 0) = -1 ∧ potential [⟨⟨51, 50, 50⟩, 1, 7⟩] (at' ⟨50, 50, 50⟩ ⟨-1, -1, 0⟩) = -(1 / √5) := by
  classical
  intro workers hw exec hx
  obtain ⟨out, h1, h2⟩ := C79_potential_partial exCfg workers hw [exRow] (by simp) exDisk exec hx (by intro row hr _; rw [List.mem_singleton.1 hr]; exact ⟨_, rfl, by simp⟩) (by decide) rfl
    (by norm_num [exCfg]) (by norm_num [exCfg])
  obtain ⟨maps, h3, h4⟩ := h2 0 exRow [exFile] rfl (by decide) rfl (by norm_num [exRow]) exDescribed
  obtain ⟨out', h1', hlen, _⟩ := C79_maps exCfg workers hw [exRow] (by simp) exDisk _ exec hx (by intro row hr _; rw [List.mem_singleton.1 hr]; exact ⟨_, rfl, by simp⟩) (by decide)
  rw [h1] at h1'
  obtain rfl := Option.some.inj h1'
  have er : radii exCfg exRow = [-1, 0] := by
    unfold radii exCfg exRow
    simp [List.range_succ]
  refine ⟨maps, ?_, ?_, ?_⟩
  · rw [h1]
    congr 1
    obtain ⟨a, rfl⟩ := List.length_eq_one_iff.1 hlen
    rw [er] at h3
    rw [← Option.some.inj h3]
  · rw [h4 .xy 0 (by decide)]
    have e1 : ([exFile].flatMap File.particles).filter (fun p => decide (InRange exCfg exRow.x exRow.r p.x)) = [⟨⟨51, 50, 50⟩, 1, 7⟩] := by
      have hin : InRange exCfg exRow.x exRow.r ⟨51, 50, 50⟩ := by
        unfold InRange distance exCfg exRow
        norm_num
      have e2 : [exFile].flatMap File.particles = [⟨⟨51, 50, 50⟩, 1, 7⟩] := rfl
      rw [e2, List.filter_cons_of_pos (by simpa using hin), List.filter_nil]
    rw [e1]
    unfold potential distance at' point gridR delta exRow exCfg
    norm_num [gridR]
  · unfold potential distance at'
    norm_num

example : ∃ exec, Executed exCfg 4 [exRow] exDisk (fun _ _ _ _ => true) exec := executed_exists _ _ _ _ _

/-- C79 across the edge of the box is false of the code: displacements are not wrapped, so that a particle on the other side of the edge is not used although an image of it is well within the range. -/
theorem C79_edge_false : ∃ (cfg : Config) (s : Sphere) (x : Vec), InBox 100 s.c ∧ InBox 100 x ∧ Shellfish.Los.Near 100 s.c (cfg.rMaxMult * s.r) x ∧ cfg.rMinMult = 0 ∧ ¬ used cfg s x := by
  refine ⟨⟨2, 1, 0, 5, 1⟩, ⟨⟨1, 50, 50⟩, 1⟩, ⟨99, 50, 50⟩, by norm_num [InBox], by norm_num [InBox], ⟨-1, 0, 0, by norm_num⟩, rfl, ?_⟩
  unfold used disp
  norm_num

/-- C79: with the defaults of `RMinMult` and `RMaxMult` (both 1; the example file says 1 and 50) only particles exactly at the catalog radius are used. -/
theorem C79_default_false (cfg : Config) (h1 : cfg.rMinMult = 1) (h2 : cfg.rMaxMult = 1) (s : Sphere) (hr : 0 ≤ s.r) (x : Vec) : used cfg s x ↔ distance s.c x = s.r := by
  rw [used_iff cfg s hr (by rw [h1]; norm_num) (by rw [h2]; norm_num), InRange, h1, h2, one_mul]
  exact ⟨fun h => le_antisymm h.2 h.1, fun h => ⟨h.ge, h.le⟩⟩

end Shellfish.Potential
