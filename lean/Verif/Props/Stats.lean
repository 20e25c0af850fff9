/-
C78: the masses and the shell particles of the stats mode.
-/
import Verif.Model.Stats
import Verif.Props.Par
import Verif.Props.Group
import Verif.Props.Box
import Verif.Props.Shell

namespace Shellfish.Stats
open Shellfish.Geom (Vec atan2)
open Shellfish.Los (Region Sphere displacement binSphereIntersections sphereSheetIntersect)
open Shellfish.Analyze (Shell)
open Shellfish.Cmd (GoMap binCoeffsBySnap sortedSnaps rowsOf)

/-! ## Updates of columns -/

section updates
variable {M : Type}

/-- Updates of single elements of a column. -/
def applyAll (op : M → M → M) (us : List (Nat × M)) (l : List M) : List M := us.foldl (fun l u => l.modify u.1 (op · u.2)) l

theorem applyAll_get (op : M → M → M) (us : List (Nat × M)) (l : List M) (k : Nat) :
    (applyAll op us l)[k]? = (l[k]?).map fun a => ((us.filter fun u => decide (u.1 = k)).map Prod.snd).foldl op a := by
  induction us generalizing l with
  | nil => simp [applyAll]
  | cons u us ih =>
    have e : applyAll op (u :: us) l = applyAll op us (l.modify u.1 (op · u.2)) := rfl
    rw [e, ih, List.getElem?_modify]
    by_cases h : u.1 = k
    · rw [List.filter_cons_of_pos (by simpa using h)]
      simp [h]
      rfl
    · rw [List.filter_cons_of_neg (by simpa using h)]
      simp [h]

theorem applyAll_append (op : M → M → M) (us vs : List (Nat × M)) (l : List M) : applyAll op (us ++ vs) l = applyAll op vs (applyAll op us l) := by
  unfold applyAll; rw [List.foldl_append]

theorem applyAll_length (op : M → M → M) (us : List (Nat × M)) (l : List M) : (applyAll op us l).length = l.length := by
  induction us generalizing l with
  | nil => rfl
  | cons u us ih =>
    have e : applyAll op (u :: us) l = applyAll op us (l.modify u.1 (op · u.2)) := rfl
    rw [e, ih, List.length_modify]

end updates

/-- The file is read: it touches the sphere of a halo of the snapshot. -/
def touched (files : List File) (spheres : List Sphere) (i : Nat) : Prop := ∃ f s, files[i]? = some f ∧ s ∈ spheres ∧ sphereSheetIntersect s f.region

noncomputable instance (files : List File) (spheres : List Sphere) (i : Nat) : Decidable (touched files spheres i) := Classical.dec _

theorem bins_empty (files : List File) (spheres : List Sphere) (i : Nat) (hi : i < files.length) :
    ((binSphereIntersections (files.map (·.region)) spheres).getD i []).isEmpty = !decide (touched files spheres i) := by
  classical
  have e : (binSphereIntersections (files.map (·.region)) spheres).getD i [] = spheres.zipIdx.filter fun s => decide (sphereSheetIntersect s.1 (files[i]).region) := by
    unfold binSphereIntersections
    rw [List.getD_eq_getElem _ _ (by simpa using hi)]
    simp
  rw [e]
  by_cases ht : touched files spheres i
  · obtain ⟨f, s, hf, hs, hx⟩ := ht
    have ht : touched files spheres i := ⟨f, s, hf, hs, hx⟩
    rw [decide_eq_true ht]
    obtain ⟨n, hn, rfl⟩ := List.getElem_of_mem hs
    have hf' : files[i] = f := by rw [List.getElem?_eq_getElem hi] at hf; exact Option.some.inj hf
    have hm : (spheres[n], n) ∈ spheres.zipIdx.filter fun s => decide (sphereSheetIntersect s.1 (files[i]).region) := by
      rw [List.mem_filter]
      refine ⟨?_, by simpa [hf'] using hx⟩
      rw [List.mk_mem_zipIdx_iff_getElem?, List.getElem?_eq_getElem hn]
    cases hl : spheres.zipIdx.filter fun s => decide (sphereSheetIntersect s.1 (files[i]).region) with
    | nil => rw [hl] at hm; cases hm
    | cons a l => rfl
  · rw [decide_eq_false ht]
    have : (spheres.zipIdx.filter fun s => decide (sphereSheetIntersect s.1 (files[i]).region)) = [] := by
      rw [List.filter_eq_nil_iff]
      rintro ⟨s, n⟩ hm hs
      rw [List.mk_mem_zipIdx_iff_getElem?] at hm
      exact ht ⟨files[i], s, List.getElem?_eq_getElem hi, List.mem_of_getElem? hm, by simpa using hs⟩
    rw [this]; rfl

/-- The files of a snapshot that are read. -/
noncomputable def readFiles (files : List File) (spheres : List Sphere) : List Nat := (List.range files.length).filter fun i => decide (touched files spheres i)

/-- The updates of a column by the files of a snapshot. -/
noncomputable def snapUpdates {M : Type} (v : Nat → Nat → M) (skip : Bool) (files : List File) (idxs : List Nat) (spheres : List Sphere) : List (Nat × M) :=
  if skip then [] else (readFiles files spheres).flatMap fun i => idxs.map fun k => (k, v i k)

theorem addRow_fold (mass : Nat → Nat → ℝ) (near : Nat → Nat → List Int) (filter : Bool) (i : Nat) (idxs : List Nat) (st : Cols) :
    idxs.foldl (addRow mass near filter i) st =
      (applyAll (· + ·) (idxs.map fun k => (k, mass i k)) st.1, if filter then applyAll (· ++ ·) (idxs.map fun k => (k, near i k)) st.2 else st.2) := by
  induction idxs generalizing st with
  | nil => simp [applyAll]
  | cons k idxs ih =>
    rw [List.foldl_cons, ih]
    unfold addRow
    cases filter <;> rfl

theorem snapFiles_eq (mass : Nat → Nat → ℝ) (near : Nat → Nat → List Int) (skip filter : Bool) (files : List File) (idxs : List Nat) (spheres : List Sphere) (st : Cols) :
    snapFiles mass near skip filter files idxs spheres st =
      (applyAll (· + ·) (snapUpdates mass skip files idxs spheres) st.1, if filter then applyAll (· ++ ·) (snapUpdates near skip files idxs spheres) st.2 else st.2) := by
  unfold snapFiles snapUpdates readFiles
  cases skip with
  | true => simp [applyAll]
  | false =>
    simp only [Bool.false_eq_true, if_false]
    have key : ∀ (l : List Nat) (st : Cols), (∀ i ∈ l, i < files.length) →
        l.foldl (fun st i => if ((binSphereIntersections (files.map (·.region)) spheres).getD i []).isEmpty then st else idxs.foldl (addRow mass near filter i) st) st =
        (applyAll (· + ·) ((l.filter fun i => decide (touched files spheres i)).flatMap fun i => idxs.map fun k => (k, mass i k)) st.1,
          if filter then applyAll (· ++ ·) ((l.filter fun i => decide (touched files spheres i)).flatMap fun i => idxs.map fun k => (k, near i k)) st.2 else st.2) := by
      intro l
      induction l with
      | nil => intro st _; simp [applyAll]
      | cons i l ih =>
        intro st hl
        rw [List.foldl_cons, bins_empty files spheres i (hl i List.mem_cons_self)]
        by_cases ht : touched files spheres i
        · rw [List.filter_cons_of_pos (by simpa using ht), List.flatMap_cons, List.flatMap_cons, applyAll_append, applyAll_append, decide_eq_true ht]
          simp only [Bool.not_true, Bool.false_eq_true, if_false]
          rw [addRow_fold, ih _ fun j hj => hl j (List.mem_cons_of_mem _ hj)]
          cases filter <;> rfl
        · rw [List.filter_cons_of_neg (by simpa using ht), decide_eq_false ht]
          simp only [Bool.not_false, if_true]
          exact ih _ fun j hj => hl j (List.mem_cons_of_mem _ hj)
    exact key _ st fun i hi => List.mem_range.1 hi

/-- The values a snapshot adds to row `k`. -/
theorem snapUpdates_row {M : Type} (v : Nat → Nat → M) (files : List File) (idxs : List Nat) (spheres : List Sphere) (hn : idxs.Nodup) (k : Nat) :
    ((snapUpdates v false files idxs spheres).filter fun u => decide (u.1 = k)).map Prod.snd = if k ∈ idxs then (readFiles files spheres).map fun i => v i k else [] := by
  unfold snapUpdates
  simp only [Bool.false_eq_true, if_false]
  have one : ∀ i, ((idxs.map fun k' => (k', v i k')).filter fun u => decide (u.1 = k)).map Prod.snd = if k ∈ idxs then [v i k] else [] := by
    intro i
    induction idxs with
    | nil => simp
    | cons a l ih =>
      rw [List.nodup_cons] at hn
      rw [List.map_cons]
      by_cases h : a = k
      · subst h
        rw [List.filter_cons_of_pos (by simp), List.map_cons, ih hn.2, if_neg hn.1, if_pos List.mem_cons_self]
      · rw [List.filter_cons_of_neg (by simpa using h), ih hn.2]
        have : (k ∈ a :: l) = (k ∈ l) := by rw [List.mem_cons, eq_iff_iff]; constructor <;> [rintro (rfl | h'); exact Or.inr] <;> [exact absurd rfl h; exact h']
        simp only [this]
  induction readFiles files spheres with
  | nil => simp
  | cons i l ih =>
    rw [List.flatMap_cons, List.filter_append, List.map_append, one, ih]
    split_ifs <;> simp

/-! ## The run -/

/-- The catalog is complete: all columns have the same number of rows, at least one. -/
structure Input.Ok (inp : Input) : Prop where
  some : inp.snaps ≠ []
  ids : inp.ids.length = inp.snaps.length
  spheres : inp.spheres.length = inp.snaps.length
  shells : inp.shells.length = inp.snaps.length

/-- The spheres of the halos of a snapshot. -/
def spheresOf (inp : Input) (snap : Int) : List Sphere := (rowsOf inp.snaps snap).map fun k => inp.spheres.getD k ⟨⟨0, 0, 0⟩, 0⟩

theorem rowsOf_nodup (snaps : List Int) (s : Int) : (rowsOf snaps s).Nodup := List.Nodup.filter _ List.nodup_range

theorem mem_rowsOf (snaps : List Int) (s : Int) (k : Nat) : k ∈ rowsOf snaps s ↔ snaps[k]? = some s := by
  unfold rowsOf
  rw [List.mem_filter, List.mem_range, decide_eq_true_eq]
  constructor
  · exact And.right
  · intro h; exact ⟨(List.getElem?_eq_some_iff.1 h).1, h⟩

/-- The run as updates: every snapshot but -1, once. -/
theorem run_updates (inp : Input) (hi : inp.Ok) (disk : Int → Option (List File)) (mass : Int → Nat → Nat → ℝ) (near : Int → Nat → Nat → List Int) (skip filter : Bool)
    (hd : ∀ s ∈ inp.snaps, s ≠ -1 → ∃ files, disk s = some files ∧ files ≠ []) (h0 : inp.snaps.head? ≠ some (-1)) :
    ∃ order : List Int, order.Nodup ∧ (∀ s, s ∈ order ↔ s ∈ inp.snaps) ∧
      run inp disk mass near skip filter =
        some (applyAll (· + ·) (order.flatMap fun s => if s = -1 then [] else snapUpdates (mass s) skip ((disk s).getD []) (rowsOf inp.snaps s) (spheresOf inp s)) (List.replicate inp.ids.length 0),
          if filter then applyAll (· ++ ·) (order.flatMap fun s => if s = -1 then [] else snapUpdates (near s) skip ((disk s).getD []) (rowsOf inp.snaps s) (spheresOf inp s))
            (List.replicate inp.ids.length []) else List.replicate inp.ids.length []) := by
  obtain ⟨sb, cb, ib, e, h1, _, _, _, _, h5, h6⟩ := Shellfish.Cmd.C44_coeff_groups inp.snaps inp.ids inp.shells hi.ids.ge hi.shells.ge
  obtain ⟨hperm, _⟩ := Shellfish.Cmd.sortedSnaps_spec sb
  refine ⟨sortedSnaps sb, hperm.nodup_iff.2 h5, fun s => by rw [hperm.mem_iff, h6], ?_⟩
  unfold run
  have hfirst : ¬ (inp.snaps.head?.bind disk).getD [] = [] := by
    cases hs : inp.snaps with
    | nil => exact absurd hs hi.some
    | cons a l =>
      rw [hs] at h0
      obtain ⟨files, hf, hne⟩ := hd a (by rw [hs]; exact List.mem_cons_self) (by simpa using h0)
      rw [List.head?_cons, Option.bind_some, hf]
      exact hne
  rw [if_neg hi.some, if_neg hfirst, e, Option.bind_some]
  dsimp only
  have key : ∀ (l : List Int) (st : Cols), (∀ s ∈ l, s ∈ inp.snaps) →
      l.foldlM (fun (st : Cols) snap => if snap = -1 then some st else (disk snap).bind fun files => if files = [] then none
        else ((ib.get snap).mapM fun k => inp.spheres[k]?).map fun spheres => snapFiles (mass snap) (near snap) skip filter files (ib.get snap) spheres st) st =
      some (applyAll (· + ·) (l.flatMap fun s => if s = -1 then [] else snapUpdates (mass s) skip ((disk s).getD []) (rowsOf inp.snaps s) (spheresOf inp s)) st.1,
        if filter then applyAll (· ++ ·) (l.flatMap fun s => if s = -1 then [] else snapUpdates (near s) skip ((disk s).getD []) (rowsOf inp.snaps s) (spheresOf inp s)) st.2 else st.2) := by
    intro l
    induction l with
    | nil => intro st _; simp [applyAll]
    | cons s l ih =>
      intro st hl
      rw [List.foldlM_cons, List.flatMap_cons, List.flatMap_cons, applyAll_append, applyAll_append]
      by_cases hs : s = -1
      · rw [if_pos hs, if_pos hs, if_pos hs]
        simp only [Option.bind_eq_bind, Option.bind_some]
        rw [ih _ fun t ht => hl t (List.mem_cons_of_mem _ ht)]
        rfl
      · rw [if_neg hs, if_neg hs, if_neg hs]
        obtain ⟨files, hf, hne⟩ := hd s (hl s List.mem_cons_self) hs
        have hm : (ib.get s).mapM (fun k => inp.spheres[k]?) = some (spheresOf inp s) := by
          rw [h1]
          exact Shellfish.Cmd.mapM_ok _ _ _ fun k hk => by
            have := (mem_rowsOf _ _ _).1 hk
            have hk' := (List.getElem?_eq_some_iff.1 this).1
            rw [List.getElem?_eq_getElem (by rw [hi.spheres]; exact hk'), List.getD_eq_getElem _ _ (by rw [hi.spheres]; exact hk')]
        rw [hf, Option.bind_some, if_neg hne, hm, Option.map_some, h1, snapFiles_eq]
        simp only [Option.bind_eq_bind, Option.bind_some, Option.getD_some]
        rw [ih _ fun t ht => hl t (List.mem_cons_of_mem _ ht)]
        cases filter <;> rfl
  exact key _ _ fun s hs => (h6 s).1 (hperm.mem_iff.1 hs)

/-- The updates of one row: those of the files of its snapshot that are read. -/
theorem row_updates {M : Type} (inp : Input) (order : List Int) (hn : order.Nodup) (ho : ∀ s, s ∈ order ↔ s ∈ inp.snaps) (files : Int → List File) (v : Int → Nat → Nat → M) (skip : Bool) (k : Nat)
    (snap : Int) (hk : inp.snaps[k]? = some snap) :
    ((order.flatMap fun s => if s = -1 then [] else snapUpdates (v s) skip (files s) (rowsOf inp.snaps s) (spheresOf inp s)).filter fun u => decide (u.1 = k)).map Prod.snd =
      if snap = -1 ∨ skip = true then [] else (readFiles (files snap) (spheresOf inp snap)).map fun i => v snap i k := by
  have one : ∀ s, ((if s = -1 then [] else snapUpdates (v s) skip (files s) (rowsOf inp.snaps s) (spheresOf inp s)).filter fun u => decide (u.1 = k)).map Prod.snd =
      if s = snap then (if snap = -1 ∨ skip = true then [] else (readFiles (files snap) (spheresOf inp snap)).map fun i => v snap i k) else [] := by
    intro s
    by_cases hs : s = -1
    · rw [if_pos hs]
      by_cases h2 : s = snap
      · rw [if_pos h2, if_pos (Or.inl (h2 ▸ hs))]; rfl
      · rw [if_neg h2]; rfl
    · rw [if_neg hs]
      cases skip with
      | true => simp [snapUpdates]
      | false =>
        rw [snapUpdates_row _ _ _ _ (rowsOf_nodup _ _)]
        have hm : k ∈ rowsOf inp.snaps s ↔ snap = s := by rw [mem_rowsOf, hk, Option.some_inj]
        by_cases h2 : s = snap
        · subst h2; rw [if_pos (hm.2 rfl)]; simp [hs]
        · rw [if_neg fun h => h2 (hm.1 h).symm, if_neg h2]
  have hmem : snap ∈ order := (ho snap).2 (List.mem_of_getElem? hk)
  clear ho
  generalize (if snap = -1 ∨ skip = true then [] else (readFiles (files snap) (spheresOf inp snap)).map fun i => v snap i k) = out at one
  have none' : ∀ l : List Int, snap ∉ l → ((l.flatMap fun s => if s = -1 then [] else snapUpdates (v s) skip (files s) (rowsOf inp.snaps s) (spheresOf inp s)).filter fun u => decide (u.1 = k)).map Prod.snd = [] := by
    intro l
    induction l with
    | nil => intro _; rfl
    | cons s l ih =>
      intro h
      rw [List.mem_cons, not_or] at h
      rw [List.flatMap_cons, List.filter_append, List.map_append, one, if_neg (Ne.symm h.1), ih h.2]; rfl
  induction order with
  | nil => cases hmem
  | cons s l ih =>
    rw [List.nodup_cons] at hn
    rw [List.flatMap_cons, List.filter_append, List.map_append, one]
    by_cases h : s = snap
    · subst h
      rw [if_pos rfl, none' l hn.1, List.append_nil]
    · rw [if_neg h, List.nil_append]
      exact ih hn.2 (by rcases List.mem_cons.1 hmem with h' | h' <;> [exact absurd h'.symm h; exact h'])

/-! ## Results of the parallel calls -/

/-- The mass of the particles of a file which pass the test of a halo. -/
noncomputable def fileMass (f : File) (sh : Shell) (c : Vec) (low high : ℝ) : ℝ :=
  open Classical in ((f.particles.filter fun p => decide (counted f.region.totalWidth sh c low high p.x)).map Particle.m).sum

/-- `m` is the result of some complete execution of `massContained` with this number of workers. -/
def MassResult (workers : Nat) (f : File) (sh : Shell) (c : Vec) (low high m : ℝ) : Prop :=
  ∃ s, Par.Reach (massSection workers f sh c low high) s ∧ Par.Returned (massSection workers f sh c low high) s ∧ s.res = m

/-- `l` is the result of some complete execution of `appendShellParticles` with this number of workers. -/
def IdResult (workers : Nat) (f : File) (sh : Shell) (s : Sphere) (low high width : ℝ) (l : List Int) : Prop :=
  ∃ st, Par.Reach (idSection workers f sh s low high width) st ∧ Par.Returned (idSection workers f sh s low high width) st ∧ st.res = l

/-- C78: one call, for any number of workers and any schedule: the sum of the masses of the particles that pass the test. -/
theorem C78_one_file (workers : Nat) (hw : 0 < workers) (f : File) (sh : Shell) (c : Vec) (low high m : ℝ) (h : MassResult workers f sh c low high m) : m = fileMass f sh c low high := by
  obtain ⟨s, h1, h2, rfl⟩ := h
  rw [Par.C19_mass workers f.particles.length hw _ s h1 h2]
  unfold fileMass
  have key : ∀ ps : List Particle, ∑ i ∈ Finset.range ps.length, addedMass ⟨f.region, ps⟩ sh c low high i =
      (open Classical in ((ps.filter fun p => decide (counted f.region.totalWidth sh c low high p.x)).map Particle.m).sum) := by
    intro ps
    induction ps using List.reverseRecOn with
    | nil => rfl
    | append_singleton ps p ih =>
      rw [List.length_append, List.length_singleton, Finset.sum_range_succ, List.filter_append, List.map_append, List.sum_append, ← ih]
      congr 1
      · apply Finset.sum_congr rfl
        intro i hi
        rw [Finset.mem_range] at hi
        unfold addedMass
        simp only
        rw [List.getElem?_append_left hi]
      · unfold addedMass
        simp only
        rw [List.getElem?_append_right (le_refl _)]
        simp only [Nat.sub_self, List.getElem?_cons_zero]
        by_cases hc : counted f.region.totalWidth sh c low high p.x <;> simp [hc]
  exact key f.particles

/-- The ids of the particles of a file which pass the test of a halo. -/
noncomputable def fileIds (f : File) (sh : Shell) (s : Sphere) (low high width : ℝ) : List Int :=
  open Classical in (f.particles.filter fun p => decide (nearShell f.region.totalWidth sh s low high width p.x)).map Particle.id

/-- C78: one call of `appendShellParticles`, for any number of workers and any schedule: the ids of the particles that pass the test, in some order. -/
theorem C78_one_file_ids (workers : Nat) (hw : 0 < workers) (f : File) (sh : Shell) (s : Sphere) (low high width : ℝ) (l : List Int) (h : IdResult workers f sh s low high width l) :
    l.Perm (fileIds f sh s low high width) := by
  obtain ⟨st, h1, h2, rfl⟩ := h
  refine (Par.C19_ids workers f.particles.length hw _ st h1 h2).trans (List.Perm.of_eq ?_)
  unfold fileIds
  have key : ∀ ps : List Particle, ((List.range ps.length).flatMap fun i => addedIds ⟨f.region, ps⟩ sh s low high width i) =
      (open Classical in (ps.filter fun p => decide (nearShell f.region.totalWidth sh s low high width p.x)).map Particle.id) := by
    intro ps
    induction ps using List.reverseRecOn with
    | nil => rfl
    | append_singleton ps p ih =>
      rw [List.length_append, List.length_singleton, List.range_succ, List.flatMap_append, List.filter_append, List.map_append, ← ih]
      congr 1
      · apply List.flatMap_congr
        intro i hi
        rw [List.mem_range] at hi
        unfold addedIds
        simp only
        rw [List.getElem?_append_left hi]
      · unfold addedIds
        simp only [List.flatMap_cons, List.flatMap_nil, List.append_nil]
        rw [List.getElem?_append_right (le_refl _)]
        simp only [Nat.sub_self, List.getElem?_cons_zero]
        by_cases hc : nearShell f.region.totalWidth sh s low high width p.x <;> simp [hc]
  exact key f.particles

/-! ## The columns -/

/-- The results of all parallel calls: each is the result of a complete execution, with the shell, the position and the sampled radial range of its row. -/
structure Executed (workers : Nat) (inp : Input) (disk : Int → Option (List File)) (range : Nat → ℝ × ℝ) (width : ℝ) (mass : Int → Nat → Nat → ℝ) (near : Int → Nat → Nat → List Int) : Prop where
  mass : ∀ snap files i f k sh s, disk snap = some files → files[i]? = some f → inp.shells[k]? = some sh → inp.spheres[k]? = some s →
    MassResult workers f sh s.c (range k).1 (range k).2 (mass snap i k)
  near : ∀ snap files i f k sh s, disk snap = some files → files[i]? = some f → inp.shells[k]? = some sh → inp.spheres[k]? = some s →
    IdResult workers f sh s (range k).1 (range k).2 width (near snap i k)

theorem mem_readFiles (files : List File) (spheres : List Sphere) (i : Nat) (h : i ∈ readFiles files spheres) : ∃ f, files[i]? = some f ∧ ∃ s ∈ spheres, sphereSheetIntersect s f.region := by
  obtain ⟨_, h⟩ := List.mem_filter.1 h
  obtain ⟨f, s, hf, hs, hx⟩ := of_decide_eq_true h
  exact ⟨f, hf, s, hs, hx⟩

theorem touched_left (files : List File) (f : File) (spheres : List Sphere) (i : Nat) (hi : i < files.length) : touched (files ++ [f]) spheres i ↔ touched files spheres i := by
  unfold touched
  rw [List.getElem?_append_left hi]

theorem touched_last (files : List File) (f : File) (spheres : List Sphere) : touched (files ++ [f]) spheres files.length ↔ ∃ s ∈ spheres, sphereSheetIntersect s f.region := by
  unfold touched
  rw [List.getElem?_append_right (le_refl _)]
  simp only [Nat.sub_self, List.getElem?_cons_zero, Option.some_inj]
  constructor
  · rintro ⟨g, s, rfl, h1, h2⟩; exact ⟨s, h1, h2⟩
  · rintro ⟨s, h1, h2⟩; exact ⟨f, s, rfl, h1, h2⟩

theorem readFiles_eq (files : List File) (spheres : List Sphere) {M : Type} (g : File → M) (d : M) :
    (readFiles files spheres).map (fun i => (files[i]?).elim d g) =
      (open Classical in (files.filter fun f => decide (∃ s ∈ spheres, sphereSheetIntersect s f.region)).map g) := by
  classical
  unfold readFiles
  induction files using List.reverseRecOn with
  | nil => rfl
  | append_singleton files f ih =>
    rw [List.length_append, List.length_singleton, List.range_succ, List.filter_append, List.map_append, List.filter_append, List.map_append, ← ih]
    have hlast : (files ++ [f])[files.length]? = some f := by rw [List.getElem?_append_right (le_refl _)]; simp
    congr 1
    · have e : ∀ i ∈ List.range files.length, (files ++ [f])[i]? = files[i]? := fun i hi => List.getElem?_append_left (List.mem_range.1 hi)
      rw [List.filter_congr fun i hi => decide_eq_decide.2 (touched_left files f spheres i (List.mem_range.1 hi))]
      exact List.map_congr_left fun i hi => by rw [e i (List.mem_filter.1 hi).1]
    · by_cases hc : ∃ s ∈ spheres, sphereSheetIntersect s f.region
      · have h1 := decide_eq_true ((touched_last files f spheres).2 hc)
        have h2 := decide_eq_true hc
        simp only [List.filter_cons, h1, h2, if_true, List.filter_nil, List.map_cons, List.map_nil, hlast, Option.elim_some]
      · have h1 := decide_eq_false fun h => hc ((touched_last files f spheres).1 h)
        have h2 := decide_eq_false hc
        simp only [List.filter_cons, h1, h2, Bool.false_eq_true, if_false, List.filter_nil, List.map_nil]

/-- The files of a snapshot that touch the sphere (position and radius of the catalog) of a halo of that snapshot. -/
noncomputable def filesRead (inp : Input) (disk : Int → Option (List File)) (snap : Int) : List File :=
  open Classical in ((disk snap).getD []).filter fun f => decide (∃ (k : Nat) (s : Sphere), inp.snaps[k]? = some snap ∧ inp.spheres[k]? = some s ∧ sphereSheetIntersect s f.region)

theorem filesRead_eq (inp : Input) (hi : inp.Ok) (disk : Int → Option (List File)) (snap : Int) :
    filesRead inp disk snap = (open Classical in ((disk snap).getD []).filter fun f => decide (∃ s ∈ spheresOf inp snap, sphereSheetIntersect s f.region)) := by
  classical
  unfold filesRead
  apply List.filter_congr
  intro f _
  apply decide_eq_decide.2
  unfold spheresOf
  constructor
  · rintro ⟨k, s, h1, h2, h3⟩
    refine ⟨s, List.mem_map.2 ⟨k, (mem_rowsOf _ _ _).2 h1, ?_⟩, h3⟩
    rw [List.getD_eq_getElem?_getD, h2]; rfl
  · rintro ⟨s, hs, h3⟩
    obtain ⟨k, hk, rfl⟩ := List.mem_map.1 hs
    have h1 := (mem_rowsOf _ _ _).1 hk
    have hk' : k < inp.spheres.length := by rw [hi.spheres]; exact (List.getElem?_eq_some_iff.1 h1).1
    exact ⟨k, _, h1, by rw [List.getD_eq_getElem _ _ hk', List.getElem?_eq_getElem hk'], h3⟩

theorem foldl_add (l : List ℝ) (a : ℝ) : l.foldl (· + ·) a = a + l.sum := by
  induction l generalizing a with
  | nil => simp
  | cons x l ih => rw [List.foldl_cons, ih, List.sum_cons]; ring

theorem foldl_append {α : Type} (l : List (List α)) (a : List α) : l.foldl (· ++ ·) a = a ++ l.flatten := by
  induction l generalizing a with
  | nil => simp
  | cons x l ih => rw [List.foldl_cons, ih, List.flatten_cons, List.append_assoc]

/-- C78: for every catalog, every number of threads and every schedule, the mass of a row is the total mass of the particles, in the files of its snapshot that touch the sphere of a halo of that
snapshot, which pass the test of its shell; 0 for the marker snapshot -1 and with `SkipMass`.  The ids for the shell particle file are those of the particles that pass the test of the shell
width, in some order. -/
theorem C78_columns (workers : Nat) (hw : 0 < workers) (inp : Input) (hi : inp.Ok) (disk : Int → Option (List File)) (range : Nat → ℝ × ℝ) (width : ℝ) (mass : Int → Nat → Nat → ℝ)
    (near : Int → Nat → Nat → List Int) (skip filter : Bool) (hd : ∀ s ∈ inp.snaps, s ≠ -1 → ∃ files, disk s = some files ∧ files ≠ []) (h0 : inp.snaps.head? ≠ some (-1)) (hx : Executed workers inp disk range width mass near) :
    ∃ masses ids, run inp disk mass near skip filter = some (masses, ids) ∧ masses.length = inp.snaps.length ∧ ids.length = inp.snaps.length ∧
      ∀ (k : Nat) (snap : Int) (sh : Shell) (s : Sphere), inp.snaps[k]? = some snap → inp.shells[k]? = some sh → inp.spheres[k]? = some s →
        masses[k]? = some (if snap = -1 ∨ skip = true then 0 else ((filesRead inp disk snap).map fun f => fileMass f sh s.c (range k).1 (range k).2).sum) ∧
        ∃ l, ids[k]? = some l ∧ l.Perm (if snap = -1 ∨ skip = true ∨ filter = false then [] else (filesRead inp disk snap).flatMap fun f => fileIds f sh s (range k).1 (range k).2 width) := by
  obtain ⟨order, h1, h2, h3⟩ := run_updates inp hi disk mass near skip filter hd h0
  refine ⟨_, _, h3, by rw [applyAll_length, List.length_replicate, hi.ids], ?_, ?_⟩
  · split_ifs
    · rw [applyAll_length, List.length_replicate, hi.ids]
    · rw [List.length_replicate, hi.ids]
  intro k snap sh s hk hsh hs
  have hlen : k < inp.ids.length := by rw [hi.ids]; exact (List.getElem?_eq_some_iff.1 hk).1
  have hfiles : snap ≠ -1 → ∃ files, disk snap = some files := fun h => by
    obtain ⟨files, hf, _⟩ := hd snap (List.mem_of_getElem? hk) h
    exact ⟨files, hf⟩
  constructor
  · rw [applyAll_get, row_updates inp order h1 h2 (fun s => (disk s).getD []) mass skip k snap hk, List.getElem?_replicate, if_pos hlen, Option.map_some]
    congr 1
    by_cases hc : snap = -1 ∨ skip = true
    · rw [if_pos hc, if_pos hc]; rfl
    · rw [if_neg hc, if_neg hc, foldl_add, zero_add, filesRead_eq inp hi, ← readFiles_eq _ _ _ (0 : ℝ)]
      congr 1
      apply List.map_congr_left
      intro i hmem
      rw [not_or] at hc
      obtain ⟨files, hf⟩ := hfiles hc.1
      rw [hf, Option.getD_some] at hmem ⊢
      obtain ⟨f, hfi, _⟩ := mem_readFiles _ _ _ hmem
      rw [hfi]
      exact C78_one_file workers hw f sh s.c _ _ _ (hx.mass snap files i f k sh s hf hfi hsh hs)
  · cases filter with
    | false =>
      refine ⟨[], ?_, by simp⟩
      simp [List.getElem?_replicate, hlen]
    | true =>
      simp only [if_true, Bool.true_eq_false, or_false]
      rw [applyAll_get, row_updates inp order h1 h2 (fun s => (disk s).getD []) near skip k snap hk, List.getElem?_replicate, if_pos hlen, Option.map_some]
      refine ⟨_, rfl, ?_⟩
      by_cases hc : snap = -1 ∨ skip = true
      · rw [if_pos hc, if_pos hc]; rfl
      · rw [if_neg hc, if_neg hc, foldl_append, List.nil_append, filesRead_eq inp hi, List.flatMap_def, ← readFiles_eq _ _ _ ([] : List Int)]
        rw [not_or] at hc
        obtain ⟨files, hf⟩ := hfiles hc.1
        rw [hf, Option.getD_some]
        have key : ∀ l : List Nat, (∀ i ∈ l, ∃ f, files[i]? = some f) →
            (l.map fun i => near snap i k).flatten.Perm ((l.map fun i => (files[i]?).elim [] fun f => fileIds f sh s (range k).1 (range k).2 width).flatten) := by
          intro l
          induction l with
          | nil => intro _; exact List.Perm.refl _
          | cons i l ih =>
            intro hl
            obtain ⟨f, hfi⟩ := hl i List.mem_cons_self
            rw [List.map_cons, List.map_cons, List.flatten_cons, List.flatten_cons, hfi]
            exact (C78_one_file_ids workers hw f sh s _ _ _ _ (hx.near snap files i f k sh s hf hfi hsh hs)).append (ih fun j hj => hl j (List.mem_cons_of_mem _ hj))
        exact key _ fun i hmem => (mem_readFiles _ _ _ hmem).imp fun f h => h.1

/-! ## What is counted -/

/-- C78: the test agrees with "inside the shell" unless the particle is between the shell and the sampled radial range. -/
theorem C78_test_partial (tw : ℝ) (sh : Shell) (c x : Vec) (low high : ℝ) (h0 : 0 ≤ low) (hlh : low ≤ high)
    (hlow : √(norm2 (offset tw c x)) < low → sh.contains (offset tw c x)) (hhigh : sh.contains (offset tw c x) → √(norm2 (offset tw c x)) < high) :
    counted tw sh c low high x ↔ sh.contains (offset tw c x) := by
  have hn : 0 ≤ norm2 (offset tw c x) := by unfold norm2; nlinarith [mul_self_nonneg (offset tw c x).x, mul_self_nonneg (offset tw c x).y, mul_self_nonneg (offset tw c x).z]
  have key : ∀ a : ℝ, 0 ≤ a → (norm2 (offset tw c x) < a * a ↔ √(norm2 (offset tw c x)) < a) := by
    intro a ha
    rw [← sq]
    exact (Real.sqrt_lt hn ha).symm
  unfold counted
  rw [key low h0, key high (h0.trans hlh)]
  exact ⟨fun h => h.elim hlow And.right, fun h => Or.inr ⟨hhigh h, h⟩⟩

/-! ## Correct masses -/

/-- The distance of `x` from `c` (no periodic box). -/
noncomputable def distance (c x : Vec) : ℝ := √((x.x - c.x) ^ 2 + (x.y - c.y) ^ 2 + (x.z - c.z) ^ 2)

/-- The radius of the shell around `c` in the direction of `x`. -/
noncomputable def radiusTowards (sh : Shell) (c x : Vec) : ℝ := sh (atan2 (x.y - c.y) (x.x - c.x)) (Real.arccos ((x.z - c.z) / distance c x))

open Shellfish.Los (InBox Near)

/-- The header of the file describes its particles, no displacement from the halo has to be wrapped, and in the direction of every particle the shell is within the radial range that was sampled. -/
structure Good (f : File) (sh : Shell) (s : Sphere) (low high : ℝ) : Prop where
  origin : InBox f.region.totalWidth f.region.origin
  small : f.region.Small s.r
  inside : ∀ p ∈ f.particles, f.region.Contains p.x
  unwrapped : ∀ p ∈ f.particles, |p.x.x - s.c.x| ≤ f.region.totalWidth / 2 ∧ |p.x.y - s.c.y| ≤ f.region.totalWidth / 2 ∧ |p.x.z - s.c.z| ≤ f.region.totalWidth / 2
  center : InBox f.region.totalWidth s.c
  range : ∀ p ∈ f.particles, low ≤ radiusTowards sh s.c p.x ∧ radiusTowards sh s.c p.x ≤ high

theorem offset_good (f : File) (sh : Shell) (s : Sphere) (low high : ℝ) (h : Good f sh s low high) (p : Particle) (hp : p ∈ f.particles) :
    offset f.region.totalWidth s.c p.x = ⟨p.x.x - s.c.x, p.x.y - s.c.y, p.x.z - s.c.z⟩ := by
  obtain ⟨h1, h2, h3⟩ := h.unwrapped p hp
  unfold offset
  rw [Shellfish.Los.C37_displacement_partial _ _ _ h1, Shellfish.Los.C37_displacement_partial _ _ _ h2, Shellfish.Los.C37_displacement_partial _ _ _ h3]

theorem norm2_good (f : File) (sh : Shell) (s : Sphere) (low high : ℝ) (h : Good f sh s low high) (p : Particle) (hp : p ∈ f.particles) :
    √(norm2 (offset f.region.totalWidth s.c p.x)) = distance s.c p.x := by
  rw [offset_good f sh s low high h p hp]
  unfold norm2 distance
  dsimp only
  congr 1
  ring

theorem contains_good (f : File) (sh : Shell) (s : Sphere) (low high : ℝ) (h : Good f sh s low high) (p : Particle) (hp : p ∈ f.particles) :
    sh.contains (offset f.region.totalWidth s.c p.x) ↔ distance s.c p.x < radiusTowards sh s.c p.x := by
  have e := norm2_good f sh s low high h p hp
  unfold norm2 at e
  unfold Shell.contains
  dsimp only
  rw [e, offset_good f sh s low high h p hp]
  exact Iff.rfl

theorem counted_good (f : File) (sh : Shell) (s : Sphere) (low high : ℝ) (h0 : 0 ≤ low) (h : Good f sh s low high) (p : Particle) (hp : p ∈ f.particles) :
    counted f.region.totalWidth sh s.c low high p.x ↔ distance s.c p.x < radiusTowards sh s.c p.x := by
  obtain ⟨h1, h2⟩ := h.range p hp
  rw [← contains_good f sh s low high h p hp]
  apply C78_test_partial _ _ _ _ _ _ h0 (h1.trans h2)
  · rw [norm2_good f sh s low high h p hp, contains_good f sh s low high h p hp]
    exact fun h => lt_of_lt_of_le h h1
  · rw [norm2_good f sh s low high h p hp, contains_good f sh s low high h p hp]
    exact fun h => lt_of_lt_of_le h h2

theorem near_good (f : File) (sh : Shell) (s : Sphere) (hr : 0 < s.r) (low high : ℝ) (h : Good f sh s low high) (p : Particle) (hp : p ∈ f.particles) (hd : distance s.c p.x < s.r) :
    sphereSheetIntersect s f.region := by
  refine Shellfish.Los.box_complete f.region s.c s.r hr h.center h.origin h.small p.x (h.inside p hp) ⟨0, 0, 0, ?_⟩
  simp only [Int.cast_zero, zero_mul, add_zero]
  unfold distance at hd
  rwa [Real.sqrt_lt' hr] at hd

theorem sum_skip {α : Type} (l : List α) (P : α → Prop) [DecidablePred P] (g : α → ℝ) (h : ∀ a ∈ l, ¬ P a → g a = 0) : ((l.filter fun a => decide (P a)).map g).sum = (l.map g).sum := by
  induction l with
  | nil => rfl
  | cons a l ih =>
    have ih := ih fun b hb => h b (List.mem_cons_of_mem _ hb)
    by_cases hc : P a
    · rw [List.filter_cons_of_pos (by simpa using hc), List.map_cons, List.sum_cons, ih, List.map_cons, List.sum_cons]
    · rw [List.filter_cons_of_neg (by simpa using hc), ih, List.map_cons, List.sum_cons, h a List.mem_cons_self hc, zero_add]

/-- C78, partial: if the headers describe the files, the files are small, no displacement is wrapped, the sampled radial range covers the directions of the particles, and the shell does not reach
beyond the catalog radius of the halo, then the mass of a row is the total mass of the particles inside its shell, over all files of the snapshot and whatever the other rows are. -/
theorem C78_mass_partial (workers : Nat) (hw : 0 < workers) (inp : Input) (hi : inp.Ok) (disk : Int → Option (List File)) (range : Nat → ℝ × ℝ) (width : ℝ) (mass : Int → Nat → Nat → ℝ)
    (near : Int → Nat → Nat → List Int) (filter : Bool) (hd : ∀ s ∈ inp.snaps, s ≠ -1 → ∃ files, disk s = some files ∧ files ≠ []) (h0 : inp.snaps.head? ≠ some (-1)) (hx : Executed workers inp disk range width mass near) :
    ∃ masses ids, run inp disk mass near false filter = some (masses, ids) ∧
      ∀ (k : Nat) (snap : Int) (sh : Shell) (s : Sphere) (files : List File), inp.snaps[k]? = some snap → inp.shells[k]? = some sh → inp.spheres[k]? = some s → snap ≠ -1 → disk snap = some files →
        0 < s.r → 0 ≤ (range k).1 → (∀ f ∈ files, Good f sh s (range k).1 (range k).2) → (∀ f ∈ files, ∀ p ∈ f.particles, radiusTowards sh s.c p.x ≤ s.r) →
        masses[k]? = some (open Classical in (files.map fun f => ((f.particles.filter fun p => decide (distance s.c p.x < radiusTowards sh s.c p.x)).map Particle.m).sum).sum) := by
  classical
  obtain ⟨masses, ids, h1, _, _, h4⟩ := C78_columns workers hw inp hi disk range width mass near false filter hd h0 hx
  refine ⟨masses, ids, h1, ?_⟩
  intro k snap sh s files hk hsh hs hsnap hfiles hr hlow hgood hreach
  rw [(h4 k snap sh s hk hsh hs).1, if_neg (by simp [hsnap])]
  congr 1
  unfold filesRead
  rw [hfiles, Option.getD_some]
  have e : ∀ f ∈ files, fileMass f sh s.c (range k).1 (range k).2 = ((f.particles.filter fun p => decide (distance s.c p.x < radiusTowards sh s.c p.x)).map Particle.m).sum := by
    intro f hf
    unfold fileMass
    rw [List.filter_congr fun p hp => decide_eq_decide.2 (counted_good f sh s _ _ hlow (hgood f hf) p hp)]
  rw [sum_skip, List.map_congr_left e]
  intro f hf hn
  rw [e f hf]
  rw [List.filter_eq_nil_iff.2, List.map_nil, List.sum_nil]
  intro p hp hc
  have hc := of_decide_eq_true hc
  exact hn ⟨k, s, hk, hs, near_good f sh s hr _ _ (hgood f hf) p hp (lt_of_lt_of_le hc (hreach f hf p hp))⟩

/-- C78, partial: one file; with a width of at least 0 the shell particles are those within the width (in units of the catalog radius) of the shell if the width does not exceed the smallest sampled
radius; with a negative width they are those inside the shell. -/
theorem C78_ids_partial (f : File) (sh : Shell) (s : Sphere) (low high width : ℝ) (h : Good f sh s low high) (h0 : 0 ≤ low) (hr : 0 < s.r) (hw : s.r * width ≤ low) :
    (0 ≤ width → fileIds f sh s low high width = (open Classical in (f.particles.filter fun p => decide (|distance s.c p.x - radiusTowards sh s.c p.x| < s.r * width)).map Particle.id)) ∧
    (width < 0 → fileIds f sh s low high width = (open Classical in (f.particles.filter fun p => decide (distance s.c p.x < radiusTowards sh s.c p.x)).map Particle.id)) := by
  classical
  have hsq : ∀ p : Particle, ∀ a : ℝ, 0 ≤ a → (norm2 (offset f.region.totalWidth s.c p.x) < a * a ↔ √(norm2 (offset f.region.totalWidth s.c p.x)) < a) ∧
      (norm2 (offset f.region.totalWidth s.c p.x) > a * a ↔ √(norm2 (offset f.region.totalWidth s.c p.x)) > a) := by
    intro p a ha
    have hn : 0 ≤ norm2 (offset f.region.totalWidth s.c p.x) := by
      unfold norm2
      nlinarith [mul_self_nonneg (offset f.region.totalWidth s.c p.x).x, mul_self_nonneg (offset f.region.totalWidth s.c p.x).y, mul_self_nonneg (offset f.region.totalWidth s.c p.x).z]
    rw [← sq]
    exact ⟨(Real.sqrt_lt hn ha).symm, (Real.lt_sqrt ha).symm⟩
  have hat : ∀ p ∈ f.particles, sh (atan2 (offset f.region.totalWidth s.c p.x).y (offset f.region.totalWidth s.c p.x).x)
      (Real.arccos ((offset f.region.totalWidth s.c p.x).z / √(norm2 (offset f.region.totalWidth s.c p.x)))) = radiusTowards sh s.c p.x := by
    intro p hp
    rw [norm2_good f sh s low high h p hp, offset_good f sh s low high h p hp]
    rfl
  constructor
  · intro hw0
    unfold fileIds
    refine congrArg _ (List.filter_congr fun p hp => decide_eq_decide.2 ?_)
    obtain ⟨h1, h2⟩ := h.range p hp
    have hd : 0 ≤ s.r * width := by positivity
    unfold nearShell
    dsimp only
    rw [if_neg (not_lt.2 hw0), if_neg (not_lt.2 hw0), (hsq p _ (by linarith)).2, (hsq p _ (by linarith)).1, hat p hp, norm2_good f sh s low high h p hp, abs_lt]
    constructor
    · rintro ⟨_, h3, h4⟩; constructor <;> linarith
    · rintro ⟨h3, h4⟩; refine ⟨⟨?_, ?_⟩, ?_, ?_⟩ <;> linarith
  · intro hw0
    unfold fileIds
    refine congrArg _ (List.filter_congr fun p hp => decide_eq_decide.2 ?_)
    obtain ⟨h1, h2⟩ := h.range p hp
    unfold nearShell
    dsimp only
    rw [if_pos hw0, if_pos hw0, (hsq p _ (by linarith)).1, hat p hp, norm2_good f sh s low high h p hp]
    constructor
    · rintro ⟨_, h3⟩; exact h3
    · intro h3; exact ⟨by linarith, h3⟩

/-! ## Every input has executions -/

/-- The hypothesis `Executed` is met by every input: each parallel call can be run to its end, and its result is one of those allowed. -/
theorem executed_exists (workers : Nat) (hw : 0 < workers) (inp : Input) (disk : Int → Option (List File)) (range : Nat → ℝ × ℝ) (width : ℝ) :
    ∃ mass near, Executed workers inp disk range width mass near := by
  classical
  have h1 : ∀ f sh c low high, ∃ m, MassResult workers f sh c low high m := fun f sh c low high => by
    obtain ⟨t, _, h2, h3⟩ := Par.C18_can_finish (massSection workers f sh c low high) rfl (fun w h => by cases h; exact Nat.sub_lt hw Nat.one_pos) _ .start
    exact ⟨_, t, h2, h3, rfl⟩
  have h2 : ∀ f sh s low high, ∃ l, IdResult workers f sh s low high width l := fun f sh s low high => by
    obtain ⟨t, _, h2, h3⟩ := Par.C18_can_finish (idSection workers f sh s low high width) rfl (fun w h => by cases h; exact Nat.sub_lt hw Nat.one_pos) _ .start
    exact ⟨_, t, h2, h3, rfl⟩
  refine ⟨fun snap i k => match ((disk snap).getD [])[i]?, inp.shells[k]?, inp.spheres[k]? with
    | some f, some sh, some s => (h1 f sh s.c (range k).1 (range k).2).choose
    | _, _, _ => 0, fun snap i k => match ((disk snap).getD [])[i]?, inp.shells[k]?, inp.spheres[k]? with
    | some f, some sh, some s => (h2 f sh s (range k).1 (range k).2).choose
    | _, _, _ => [], ?_, ?_⟩
  · intro snap files i f k sh s hd hf hsh hs
    simp only [hd, Option.getD_some, hf, hsh, hs]
    exact (h1 f sh s.c (range k).1 (range k).2).choose_spec
  · intro snap files i f k sh s hd hf hsh hs
    simp only [hd, Option.getD_some, hf, hsh, hs]
    exact (h2 f sh s (range k).1 (range k).2).choose_spec

/-! ## A non-trivial case -/

/-- A file with one particle of mass 1. -/
def exFile : File := ⟨⟨⟨52, 45, 45⟩, ⟨10, 10, 10⟩, 100⟩, [⟨⟨53, 50, 50⟩, 1, 7⟩]⟩

/-- The only snapshot is 3; it has one file. -/
def exDisk (snap : Int) : Option (List File) := if snap = 3 then some [exFile] else none

theorem distance_ex : distance ⟨50, 50, 50⟩ ⟨53, 50, 50⟩ = 3 := by
  unfold distance
  dsimp only
  rw [show ((53 : ℝ) - 50) ^ 2 + (50 - 50) ^ 2 + (50 - 50) ^ 2 = 3 ^ 2 by norm_num, Real.sqrt_sq (by norm_num)]

theorem good_ex (r : ℝ) (h0 : 0 < r) (hr : r ≤ 40) : Good exFile (fun _ _ => 5) ⟨⟨50, 50, 50⟩, r⟩ 5 5 where
  origin := by norm_num [Shellfish.Los.InBox, exFile]
  small := by
    unfold Shellfish.Los.Region.Small exFile
    dsimp only
    refine ⟨⟨by norm_num, ?_⟩, ⟨by norm_num, ?_⟩, ⟨by norm_num, ?_⟩⟩ <;> linarith
  inside := by intro p hp; rw [List.mem_singleton.1 hp]; norm_num [Shellfish.Los.Region.Contains, exFile]
  unwrapped := by
    intro p hp
    rw [List.mem_singleton.1 hp]
    simp only [exFile]
    refine ⟨?_, ?_, ?_⟩ <;> norm_num [abs_of_pos]
  center := by norm_num [Shellfish.Los.InBox, exFile]
  range := by intro p _; exact ⟨le_refl _, le_refl _⟩

-- a halo with catalog radius 6 and a spherical shell of radius 5 which contains the particle: all hypotheses of `C78_mass_partial` hold
example : ∃ mass near, Executed 3 ⟨[3, -1], [10, 10], [⟨⟨50, 50, 50⟩, 6⟩, ⟨⟨1, 1, 1⟩, 1⟩], [fun _ _ => 5, fun _ _ => 1]⟩ exDisk (fun _ => (5, 5)) 0.1 mass near ∧
    ∃ masses ids, run ⟨[3, -1], [10, 10], [⟨⟨50, 50, 50⟩, 6⟩, ⟨⟨1, 1, 1⟩, 1⟩], [fun _ _ => 5, fun _ _ => 1]⟩ exDisk mass near false true = some (masses, ids) ∧ masses[0]? = some 1 := by
  classical
  obtain ⟨mass, near, hx⟩ := executed_exists 3 (by norm_num) ⟨[3, -1], [10, 10], [⟨⟨50, 50, 50⟩, 6⟩, ⟨⟨1, 1, 1⟩, 1⟩], [fun _ _ => 5, fun _ _ => 1]⟩ exDisk (fun _ => (5, 5)) 0.1
  refine ⟨mass, near, hx, ?_⟩
  obtain ⟨masses, ids, h1, h2⟩ := C78_mass_partial 3 (by norm_num) _ ⟨by simp, rfl, rfl, rfl⟩ exDisk (fun _ => (5, 5)) 0.1 mass near true
    (by intro s hs hn; simp at hs; rcases hs with rfl | rfl; exacts [⟨_, rfl, by simp⟩, absurd rfl hn]) (by decide) hx
  refine ⟨masses, ids, h1, ?_⟩
  rw [h2 0 3 (fun _ _ => 5) ⟨⟨50, 50, 50⟩, 6⟩ [exFile] rfl rfl rfl (by decide) rfl (by norm_num) (by norm_num) (by intro f hf; rw [List.mem_singleton.1 hf]; exact good_ex 6 (by norm_num) (by norm_num))
    (by intro f _ p _; unfold radiusTowards; norm_num)]
  unfold radiusTowards
  simp only [List.map_cons, List.map_nil, exFile, List.filter_cons, distance_ex, List.filter_nil]
  norm_num

/-! ## What is false -/

/-- C78 for shells that reach beyond the catalog radius (splashback shells do) is false of the code: the file with the particle is not read because it touches no sphere of catalog radius, so the
mass is 0; with another halo next to the file in the catalog the same row gets the mass 1. -/
theorem C78_missed_false : ∃ (inp inp' : Input) (disk : Int → Option (List File)) (f : File) (s : Sphere) (sh : Shell) (p : Particle), inp.Ok ∧ inp'.Ok ∧
    inp.snaps[0]? = some 3 ∧ inp'.snaps[0]? = some 3 ∧ inp.spheres[0]? = some s ∧ inp'.spheres[0]? = some s ∧ inp.shells[0]? = some sh ∧ inp'.shells[0]? = some sh ∧
    disk 3 = some [f] ∧ f.particles = [p] ∧ Good f sh s 5 5 ∧ distance s.c p.x < radiusTowards sh s.c p.x ∧ p.m = 1 ∧
    ∀ workers, 0 < workers → ∀ width mass near mass' near', Executed workers inp disk (fun _ => (5, 5)) width mass near → Executed workers inp' disk (fun _ => (5, 5)) width mass' near' →
      ∃ masses ids masses' ids', run inp disk mass near false true = some (masses, ids) ∧ run inp' disk mass' near' false true = some (masses', ids') ∧ masses[0]? = some 0 ∧ masses'[0]? = some 1 := by
  classical
  refine ⟨⟨[3], [10], [⟨⟨50, 50, 50⟩, 1⟩], [fun _ _ => 5]⟩, ⟨[3, 3], [10, 11], [⟨⟨50, 50, 50⟩, 1⟩, ⟨⟨55, 50, 50⟩, 1⟩], [fun _ _ => 5, fun _ _ => 1]⟩, exDisk, exFile, ⟨⟨50, 50, 50⟩, 1⟩, fun _ _ => 5, ⟨⟨53, 50, 50⟩, 1, 7⟩,
    ⟨by simp, rfl, rfl, rfl⟩, ⟨by simp, rfl, rfl, rfl⟩, rfl, rfl, rfl, rfl, rfl, rfl, rfl, rfl, good_ex 1 (by norm_num) (by norm_num), by rw [distance_ex]; unfold radiusTowards; norm_num, rfl, ?_⟩
  intro workers hw width mass near mass' near' hx hx'
  have hd : ∀ s : Int, s = 3 → s ≠ -1 → ∃ files, exDisk s = some files ∧ files ≠ [] := by rintro s rfl _; exact ⟨_, rfl, by simp⟩
  obtain ⟨masses, ids, h1, _, _, h4⟩ := C78_columns workers hw _ ⟨by simp, rfl, rfl, rfl⟩ exDisk (fun _ => (5, 5)) width mass near false true (by intro s hs; exact hd s (by simpa using hs)) (by decide) hx
  obtain ⟨masses', ids', h1', _, _, h4'⟩ := C78_columns workers hw _ ⟨by simp, rfl, rfl, rfl⟩ exDisk (fun _ => (5, 5)) width mass' near' false true (by intro s hs; exact hd s (by simpa using hs)) (by decide) hx'
  refine ⟨masses, ids, masses', ids', h1, h1', ?_, ?_⟩
  · rw [(h4 0 3 _ ⟨⟨50, 50, 50⟩, 1⟩ rfl rfl rfl).1, if_neg (by decide)]
    unfold filesRead
    have : ¬ ∃ (k : Nat) (s : Sphere), [(3 : Int)][k]? = some 3 ∧ [(⟨⟨50, 50, 50⟩, 1⟩ : Sphere)][k]? = some s ∧ sphereSheetIntersect s exFile.region := by
      rintro ⟨k, s, _, hs, h⟩
      have hs := List.mem_of_getElem? hs
      rw [List.mem_singleton.1 hs] at h
      have := h.1
      unfold Shellfish.Los.inRange Shellfish.Los.wrapDist exFile at this
      norm_num at this
    have e0 : exDisk 3 = some [exFile] := rfl
    have h2 := decide_eq_false this
    simp only [e0, Option.getD_some, List.filter_cons, h2, Bool.false_eq_true, if_false, List.filter_nil, List.map_nil, List.sum_nil]
  · rw [(h4' 0 3 _ ⟨⟨50, 50, 50⟩, 1⟩ rfl rfl rfl).1, if_neg (by decide)]
    unfold filesRead
    have : ∃ (k : Nat) (s : Sphere), [(3 : Int), 3][k]? = some 3 ∧ [(⟨⟨50, 50, 50⟩, 1⟩ : Sphere), ⟨⟨55, 50, 50⟩, 1⟩][k]? = some s ∧ sphereSheetIntersect s exFile.region := by
      refine ⟨1, ⟨⟨55, 50, 50⟩, 1⟩, rfl, rfl, ?_⟩
      unfold sphereSheetIntersect Shellfish.Los.inRange exFile
      refine ⟨Or.inl ?_, Or.inl ?_, Or.inl ?_⟩ <;> norm_num
    have e : fileMass exFile (fun _ _ => 5) ⟨50, 50, 50⟩ 5 5 = 1 := by
      unfold fileMass
      have hg := good_ex 1 (by norm_num) (by norm_num)
      have : counted exFile.region.totalWidth (fun _ _ => 5) ⟨50, 50, 50⟩ 5 5 ⟨53, 50, 50⟩ :=
        (counted_good exFile (fun _ _ => 5) ⟨⟨50, 50, 50⟩, 1⟩ 5 5 (by norm_num) hg ⟨⟨53, 50, 50⟩, 1, 7⟩ (by simp [exFile])).2 (by rw [distance_ex]; unfold radiusTowards; norm_num)
      have e2 : exFile.particles = [⟨⟨53, 50, 50⟩, 1, 7⟩] := rfl
      rw [e2]
      simp [List.filter_cons, this]
    have e0 : exDisk 3 = some [exFile] := rfl
    have h2 := decide_eq_true this
    simp only [e0, Option.getD_some, List.filter_cons, h2, if_true, List.filter_nil, List.map_cons, List.map_nil, List.sum_cons, List.sum_nil, e, add_zero]

/-- C78 for catalogs whose first row has the marker snapshot -1 is false of the code: there is no such snapshot and the run fails, although the same rows in another order are no problem. -/
theorem C78_first_row_false (inp : Input) (disk : Int → Option (List File)) (mass : Int → Nat → Nat → ℝ) (near : Int → Nat → Nat → List Int) (skip filter : Bool)
    (h : inp.snaps.head? = some (-1)) (hd : disk (-1) = none) : run inp disk mass near skip filter = none := by
  unfold run
  rw [h, Option.bind_some, hd]
  simp

example : (⟨[-1, 3], [10, 10], [], []⟩ : Input).snaps.head? = some (-1) ∧ exDisk (-1) = none := by decide

/-- C78 without the assumption on the sampled range is false of the code: the smallest sampled radius is taken for the smallest radius of the shell, and the largest one for the largest, so that
a particle outside of the shell is counted and one inside is not. -/
theorem C78_range_false : ∃ (sh : Shell) (d0 : ℝ × ℝ) (draws : List (ℝ × ℝ)) (x y : Vec), Shellfish.Analyze.Draw d0 ∧ (∀ d ∈ draws, Shellfish.Analyze.Draw d) ∧ draws ≠ [] ∧
    (∀ phi theta, 1 ≤ sh phi theta) ∧ Continuous (fun p : ℝ × ℝ => sh p.1 p.2) ∧
    radiusTowards sh ⟨50, 50, 50⟩ x < distance ⟨50, 50, 50⟩ x ∧ counted 100 sh ⟨50, 50, 50⟩ (sh.radialRange d0 draws).1 (sh.radialRange d0 draws).2 x ∧
    distance ⟨50, 50, 50⟩ y < radiusTowards sh ⟨50, 50, 50⟩ y ∧ ¬ counted 100 sh ⟨50, 50, 50⟩ (sh.radialRange d0 draws).1 (sh.radialRange d0 draws).2 y := by
  have hd : Shellfish.Analyze.Draw (1 / 4, 1 / 2) := by unfold Shellfish.Analyze.Draw; norm_num
  have e : Shell.at (fun phi _ => 2 + Real.cos phi) (1 / 4, 1 / 2) = 2 := by
    unfold Shell.at Shellfish.Analyze.randomAngle
    dsimp only
    rw [show 2 * Real.pi * (1 / 4) = Real.pi / 2 by ring, Real.cos_pi_div_two]; norm_num
  have er : Shell.radialRange (fun phi _ => 2 + Real.cos phi) (1 / 4, 1 / 2) [(1 / 4, 1 / 2)] = (2, 2) := by
    unfold Shell.radialRange
    rw [List.foldl_cons, List.foldl_nil, e]
    norm_num
  have d1 : distance ⟨50, 50, 50⟩ ⟨48.5, 50, 50⟩ = 1.5 := by
    unfold distance
    dsimp only
    rw [show ((48.5 : ℝ) - 50) ^ 2 + (50 - 50) ^ 2 + (50 - 50) ^ 2 = 1.5 ^ 2 by norm_num, Real.sqrt_sq (by norm_num)]
  have d2 : distance ⟨50, 50, 50⟩ ⟨52.5, 50, 50⟩ = 2.5 := by
    unfold distance
    dsimp only
    rw [show ((52.5 : ℝ) - 50) ^ 2 + (50 - 50) ^ 2 + (50 - 50) ^ 2 = 2.5 ^ 2 by norm_num, Real.sqrt_sq (by norm_num)]
  have a1 : atan2 0 (-1.5) = Real.pi := by
    unfold Shellfish.Geom.atan2
    exact Complex.arg_eq_pi_iff.2 ⟨by norm_num, rfl⟩
  have a2 : atan2 0 2.5 = 0 := by
    unfold Shellfish.Geom.atan2
    exact Complex.arg_eq_zero_iff.2 ⟨by norm_num, rfl⟩
  have o : ∀ x : ℝ, |x - 50| ≤ 50 → offset 100 ⟨50, 50, 50⟩ ⟨x, 50, 50⟩ = ⟨x - 50, 0, 0⟩ := by
    intro x hx
    unfold offset
    dsimp only
    rw [Shellfish.Los.C37_displacement_partial 100 x 50 (by norm_num; exact hx), Shellfish.Los.C37_displacement_partial 100 50 50 (by norm_num)]
    norm_num
  refine ⟨fun phi _ => 2 + Real.cos phi, (1 / 4, 1 / 2), [(1 / 4, 1 / 2)], ⟨48.5, 50, 50⟩, ⟨52.5, 50, 50⟩, hd, ?_, by simp, ?_, by fun_prop, ?_, ?_, ?_, ?_⟩
  · intro d h; rw [List.mem_singleton.1 h]; exact hd
  · intro phi _; linarith [Real.neg_one_le_cos phi]
  · rw [d1]
    unfold radiusTowards
    dsimp only
    rw [show (50 : ℝ) - 50 = 0 by norm_num, show (48.5 : ℝ) - 50 = -1.5 by norm_num, a1, Real.cos_pi]; norm_num
  · rw [er]
    left
    rw [o _ (by rw [abs_le]; norm_num)]
    norm_num [norm2]
  · rw [d2]
    unfold radiusTowards
    dsimp only
    rw [show (50 : ℝ) - 50 = 0 by norm_num, show (52.5 : ℝ) - 50 = 2.5 by norm_num, a2, Real.cos_zero]; norm_num
  · rw [er]
    unfold counted
    rw [o _ (by rw [abs_le]; norm_num)]
    norm_num [norm2]

/-- C78 across the edge of the box is false of the code: in a box of width 100 a particle whose images are all at least 48 away is counted in a shell of radius 5 (its displacement 52 is reduced by 50),
and a particle with an image at distance 2 on the other side of the edge is not. -/
theorem C78_wrap_false : ∃ (c x y : Vec), Shellfish.Los.InBox 100 c ∧ Shellfish.Los.InBox 100 x ∧ Shellfish.Los.InBox 100 y ∧
    (∀ r : ℝ, Near 100 c r x → 48 ≤ |r|) ∧ counted 100 (fun _ _ => 5) c 5 5 x ∧ Near 100 c 3 y ∧ ¬ counted 100 (fun _ _ => 5) c 5 5 y := by
  refine ⟨⟨0, 0, 0⟩, ⟨52, 0, 0⟩, ⟨98, 0, 0⟩, by norm_num [Shellfish.Los.InBox], by norm_num [Shellfish.Los.InBox], by norm_num [Shellfish.Los.InBox], ?_, ?_, ⟨-1, 0, 0, by norm_num⟩, ?_⟩
  · rintro r ⟨i, j, k, h⟩
    have hi : (48 : ℝ) ^ 2 ≤ (52 + i * 100 - 0) ^ 2 := by
      have : i ≤ -1 ∨ 0 ≤ i := by omega
      rcases this with h | h
      · have : (i : ℝ) ≤ -1 := by exact_mod_cast h
        nlinarith
      · have : (0 : ℝ) ≤ i := by exact_mod_cast h
        nlinarith
    have h48 : (48 : ℝ) ^ 2 < r ^ 2 := by dsimp only at h; nlinarith [sq_nonneg (0 + (j : ℝ) * 100 - 0), sq_nonneg (0 + (k : ℝ) * 100 - 0)]
    have := sq_lt_sq.1 h48
    rw [abs_of_pos (by norm_num : (0 : ℝ) < 48)] at this
    exact this.le
  · left
    unfold offset Shellfish.Los.displacement Shellfish.Los.wrap norm2
    norm_num
  · unfold counted offset Shellfish.Los.displacement Shellfish.Los.wrap norm2
    norm_num

/-- C78 for widths larger than the shell is false of the code: the shell is a sphere of radius 1 and the width 3 times the catalog radius 1; a particle exactly on the shell is left out (the lower limit
1 - 3 is squared). -/
theorem C78_width_false : ∃ (sh : Shell) (s : Sphere) (x : Vec), distance s.c x = radiusTowards sh s.c x ∧ 0 < s.r ∧ (∀ phi theta, sh phi theta = 1) ∧ ¬ nearShell 100 sh s 1 1 3 x := by
  refine ⟨fun _ _ => 1, ⟨⟨50, 50, 50⟩, 1⟩, ⟨51, 50, 50⟩, ?_, by norm_num, fun _ _ => rfl, ?_⟩
  · unfold distance radiusTowards
    dsimp only
    rw [show ((51 : ℝ) - 50) ^ 2 + (50 - 50) ^ 2 + (50 - 50) ^ 2 = 1 ^ 2 by norm_num, Real.sqrt_sq (by norm_num)]
  · unfold nearShell offset Shellfish.Los.displacement Shellfish.Los.wrap norm2
    norm_num

/-- The column `R_sp` is not the radius of the sphere with the same volume (the exponent is 0.33333): for a sphere of radius `r` it is `r ^ 0.99999`, which is `r` only for 0 and 1. -/
theorem C78_rsp_false (r : ℝ) (h0 : 0 < r) : rsp (Shellfish.Analyze.ballVolume r) = r ^ (0.99999 : ℝ) ∧ (r ≠ 1 → rsp (Shellfish.Analyze.ballVolume r) ≠ r) := by
  have e : rsp (Shellfish.Analyze.ballVolume r) = r ^ (0.99999 : ℝ) := by
    unfold rsp Shellfish.Analyze.ballVolume
    have hp := Real.pi_pos
    rw [show 4 / 3 * Real.pi * r ^ 3 / (Real.pi * 4 / 3) = r ^ 3 by field_simp, ← Real.rpow_natCast, ← Real.rpow_mul h0.le]
    norm_num
  refine ⟨e, fun h1 h => ?_⟩
  rw [e] at h
  have : r ^ (0.99999 : ℝ) = r ^ (1 : ℝ) := by rw [h, Real.rpow_one]
  rw [Real.rpow_right_inj h0 h1] at this
  norm_num at this

end Shellfish.Stats
