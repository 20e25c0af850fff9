/- C49: the prof mode and the phase mode over all files of a simulation. -/
import Verif.Props.ProfMedian
import Verif.Props.Group
import Verif.Props.Box

namespace Shellfish.Cmd
noncomputable section
open Shellfish.Geom (Vec pixelOf spherePixelNum)
open Shellfish.Los (Region Sphere displacement goInt addAt sphereSheetIntersect)

/-! Loops -/

section Loops
variable {β : Type}

theorem insertFile_spec (idxs : List Nat) (ins : Nat → β → Option β) (P : β → Prop) (V : β → ℝ) (c : Nat → ℝ)
    (js : List Nat) (hins : ∀ j ∈ js, ∀ p, P p → ∃ p', ins j p = some p' ∧ P p' ∧ V p' = V p + c j) (profs : List β) (hP : ∀ p ∈ profs, P p)
    (hj : ∀ j ∈ js, ∃ row, idxs[j]? = some row ∧ row < profs.length) (d : β) :
    ∃ out, insertFile idxs ins js profs = some out ∧ out.length = profs.length ∧ (∀ p ∈ out, P p) ∧
      ∀ row < profs.length, V (out.getD row d) = V (profs.getD row d) + (js.map fun j => if idxs[j]? = some row then c j else 0).sum := by
  induction js generalizing profs with
  | nil => exact ⟨profs, rfl, rfl, hP, by simp⟩
  | cons j js ih =>
    obtain ⟨row, hr, hlt⟩ := hj j (by simp)
    have hp : P profs[row] := hP _ (List.getElem_mem hlt)
    obtain ⟨p', e, h1, h2⟩ := hins j (by simp) _ hp
    have hP' : ∀ p ∈ profs.set row p', P p := by
      intro p hp
      rcases List.mem_or_eq_of_mem_set hp with h | h
      · exact hP p h
      · rw [h]; exact h1
    obtain ⟨out, e2, l2, p2, v2⟩ := ih (fun j' hj' => hins j' (by simp [hj'])) (profs.set row p') hP' (fun j' hj' => by simpa using hj j' (by simp [hj']))
    refine ⟨out, ?_, by simpa using l2, p2, fun row' hrow' => ?_⟩
    · simp only [insertFile, updRow, hr, List.getElem?_eq_getElem hlt, e, Option.map_some]
      exact e2
    · rw [v2 row' (by simpa using hrow'), List.map_cons, List.sum_cons, hr]
      by_cases hh : row' = row
      · subst hh
        rw [if_pos rfl, List.getD_eq_getElem _ _ (by simpa using hlt), List.getElem_set_self, h2, List.getD_eq_getElem _ _ hlt]
        ring
      · rw [if_neg (by simpa using Ne.symm hh)]
        have : (profs.set row p').getD row' d = profs.getD row' d := by
          simp [List.getD_eq_getElem?_getD, List.getElem?_set, Ne.symm hh]
        rw [this]; ring

end Loops

theorem sum_filter_map {γ : Type} (l : List γ) (q : γ → Bool) (g : γ → ℝ) : ((l.filter q).map g).sum = (l.map fun a => if q a then g a else 0).sum := by
  induction l with
  | nil => rfl
  | cons a l ih =>
    by_cases h : q a
    · rw [List.filter_cons_of_pos h, List.map_cons, List.map_cons, List.sum_cons, List.sum_cons, ih, if_pos h]
    · rw [List.filter_cons_of_neg h, List.map_cons, List.sum_cons, ih, if_neg h, zero_add]

open Classical in
/-- The sum over the spheres a file intersects that belong to row `i` has at most one term. -/
theorem sum_intr {γ : Type} (hd : Region) (g : γ → Sphere) (rows : List γ) (idxs : List Nat) (rs : List γ) (hrs : idxs.mapM (fun i => rows[i]?) = some rs) (hn : idxs.Nodup) (i : Nat) (r : γ)
    (hr : rows[i]? = some r) (y : ℝ) :
    ((intrIdxs hd (rs.map g)).map fun j => if idxs[j]? = some i then y else 0).sum = if i ∈ idxs ∧ sphereSheetIntersect (g r) hd then y else 0 := by
  unfold intrIdxs
  rw [List.map_map, sum_filter_map]
  simp only [Function.comp, decide_eq_true_eq]
  suffices ∀ (idxs : List Nat) (rs : List γ) (pre : List Nat), idxs.mapM (fun i => rows[i]?) = some rs → idxs.Nodup →
      (((rs.map g).zipIdx pre.length).map fun s => if sphereSheetIntersect s.1 hd then (if (pre ++ idxs)[s.2]? = some i then y else 0) else 0).sum =
        if i ∈ idxs ∧ sphereSheetIntersect (g r) hd then y else 0 by
    exact this idxs rs [] hrs hn
  clear hrs hn idxs rs
  intro idxs
  induction idxs with
  | nil =>
    intro rs pre h _
    rw [List.mapM_nil] at h
    simp only [Option.pure_def, Option.some.injEq] at h
    subst h
    simp
  | cons a idxs ih =>
    intro rs pre h hn
    rw [List.mapM_cons] at h
    obtain ⟨r0, h0, h⟩ := Option.bind_eq_some_iff.mp h
    obtain ⟨rs', h1, h⟩ := Option.bind_eq_some_iff.mp h
    simp only [Option.pure_def, Option.some.injEq] at h
    subst h
    have hn' := List.nodup_cons.mp hn
    have := ih rs' (pre ++ [a]) h1 hn'.2
    rw [List.length_append, List.length_singleton, List.append_assoc, List.singleton_append] at this
    rw [List.map_cons, List.zipIdx_cons, List.map_cons, List.sum_cons, this]
    have ea : (pre ++ a :: idxs)[pre.length]? = some a := by simp
    dsimp only
    rw [ea]
    by_cases hai : a = i
    · subst hai
      rw [h0] at hr
      have : r0 = r := Option.some.inj hr
      subst this
      simp [hn'.1]
    · simp [hai, Ne.symm hai]

theorem intr_idx {γ : Type} (hd : Region) (g : γ → Sphere) (rows : List γ) (idxs : List Nat) (rs : List γ) (hrs : idxs.mapM (fun i => rows[i]?) = some rs) (j : Nat)
    (hj : j ∈ intrIdxs hd (rs.map g)) : ∃ row r, idxs[j]? = some row ∧ rs[j]? = some r ∧ rows[row]? = some r ∧ sphereSheetIntersect (g r) hd := by
  classical
  unfold intrIdxs at hj
  obtain ⟨s, hs, rfl⟩ := List.mem_map.mp hj
  have hd' := (List.mem_filter.mp hs).2
  have h1 := List.mem_zipIdx_iff_getElem?.mp (List.mem_filter.mp hs).1
  rw [List.getElem?_map] at h1
  obtain ⟨r, hr, e⟩ := Option.map_eq_some_iff.mp h1
  suffices ∀ (idxs : List Nat) (rs : List γ) (k : Nat), idxs.mapM (fun i => rows[i]?) = some rs → rs[k]? = some r → ∃ row, idxs[k]? = some row ∧ rows[row]? = some r by
    obtain ⟨row, h2, h3⟩ := this idxs rs s.2 hrs hr
    refine ⟨row, r, h2, hr, h3, ?_⟩
    rw [e]
    simpa using hd'
  clear hrs hr hs hj hd' h1 e idxs rs
  intro idxs
  induction idxs with
  | nil =>
    intro rs k h h'
    rw [List.mapM_nil] at h
    simp only [Option.pure_def, Option.some.injEq] at h
    subst h
    simp at h'
  | cons a idxs ih =>
    intro rs k h h'
    rw [List.mapM_cons] at h
    obtain ⟨r0, h0, h⟩ := Option.bind_eq_some_iff.mp h
    obtain ⟨rs', h1, h⟩ := Option.bind_eq_some_iff.mp h
    simp only [Option.pure_def, Option.some.injEq] at h
    subst h
    cases k with
    | zero =>
      have : r0 = r := by simpa using h'
      subst this
      exact ⟨a, rfl, h0⟩
    | succ k => exact ih rs' k h1 (by simpa using h')

/-! Specification -/

/-- The files of the snapshot of a row; none for the marker -1. -/
def filesOf (sim : Sim) (snap : Int) : List File := if snap = -1 then [] else (sim.headers snap).getD []

/-- Every snapshot of the catalog other than the marker -1 has at least one file and all its files can be read. -/
def Readable (sim : Sim) (snaps : List Int) : Prop :=
  ∀ snap ∈ snaps, snap ≠ -1 → ∃ fs, sim.headers snap = some fs ∧ fs ≠ [] ∧ ∀ f ∈ fs, f.particles.isSome

/-- The mass of the particles of a file in cell `k` of the profile of a row: what C50 counts. -/
def phaseCell (cfg : PhaseConfig) (row : PhaseRow) (k : Nat) (f : File) : ℝ :=
  ((f.particles.getD []).map (phaseMass cfg (row.hx cfg) (row.hv cfg) f.hd.totalWidth (k / cfg.vbins) (k % cfg.vbins))).sum +
    ((f.particles.getD []).map (phaseExtra cfg (row.hx cfg) (row.hv cfg) f.hd.totalWidth (k / cfg.vbins) (k % cfg.vbins))).sum

/-- Length of the tables. -/
def PhaseTable (cfg : PhaseConfig) (p : List ℝ) : Prop := p.length = cfg.rbins * cfg.vbins

theorem phase_insert (cfg : PhaseConfig) (row : PhaseRow) (h : cfg.Valid (row.hx cfg) (row.hv cfg)) (f : File) (ps : List Particle) (hf : f.particles = some ps) (k : Nat) (hk : k < cfg.rbins * cfg.vbins)
    (p : List ℝ) (hp : PhaseTable cfg p) : ∃ p', insertPhasePoints cfg (row.hx cfg) (row.hv cfg) f.hd.totalWidth p ps = some p' ∧ PhaseTable cfg p' ∧ p'.getD k 0 = p.getD k 0 + phaseCell cfg row k f := by
  obtain ⟨out, e, l, b⟩ := C50_phase_cells cfg (row.hx cfg) (row.hv cfg) h f.hd.totalWidth p hp ps
  refine ⟨out, e, l, ?_⟩
  have h1 : k / cfg.vbins < cfg.rbins := by rw [Nat.div_lt_iff_lt_mul h.vbins]; exact hk
  have h2 : k % cfg.vbins < cfg.vbins := Nat.mod_lt _ h.vbins
  have := b _ h1 _ h2
  rw [Nat.div_add_mod' k cfg.vbins] at this
  rw [this]
  unfold phaseCell
  rw [hf]
  rfl

/-- All rows of the phase mode are valid. -/
def PhaseValid (cfg : PhaseConfig) (rows : List PhaseRow) : Prop := ∀ row ∈ rows, cfg.Valid (row.hx cfg) (row.hv cfg)

open Classical in
theorem phaseFiles_spec (cfg : PhaseConfig) (rows : List PhaseRow) (hv : PhaseValid cfg rows) (idxs : List Nat) (hn : idxs.Nodup) (rs : List PhaseRow)
    (hrs : idxs.mapM (fun i => rows[i]?) = some rs) (fs : List File) (hf : ∀ f ∈ fs, f.particles.isSome) (k : Nat) (hk : k < cfg.rbins * cfg.vbins) (profs : List (List ℝ)) (hl : profs.length = rows.length)
    (hP : ∀ p ∈ profs, PhaseTable cfg p) :
    ∃ out, phaseFiles cfg idxs rs fs profs = .inr out ∧ out.length = rows.length ∧ (∀ p ∈ out, PhaseTable cfg p) ∧ ∀ i row, rows[i]? = some row →
      (out.getD i []).getD k 0 = (profs.getD i []).getD k 0 +
        (fs.map fun f => if i ∈ idxs ∧ sphereSheetIntersect (row.hx cfg) f.hd then phaseCell cfg row k f else 0).sum := by
  induction fs generalizing profs with
  | nil => exact ⟨profs, rfl, hl, hP, by simp⟩
  | cons f fs ih =>
    obtain ⟨ps, hps⟩ := Option.isSome_iff_exists.mp (hf f (by simp))
    have hfs : ∀ f ∈ fs, f.particles.isSome := fun f' h' => hf f' (by simp [h'])
    simp only [phaseFiles]
    by_cases h0 : (intrIdxs f.hd (rs.map (·.hx cfg))).length = 0
    · rw [if_pos h0]
      obtain ⟨out, e, l, p, v⟩ := ih hfs profs hl hP
      refine ⟨out, e, l, p, fun i row hr => ?_⟩
      rw [v i row hr, List.map_cons, List.sum_cons]
      have := sum_intr f.hd (PhaseRow.hx cfg) rows idxs rs hrs hn i row hr (phaseCell cfg row k f)
      rw [List.length_eq_zero_iff] at h0
      rw [show rs.map (PhaseRow.hx cfg) = rs.map (·.hx cfg) from rfl, h0] at this
      rw [← this]; simp
    · rw [if_neg h0, hps]
      dsimp only
      -- the contribution of the j-th sphere
      have hins : ∀ j ∈ intrIdxs f.hd (rs.map (·.hx cfg)), ∀ p, PhaseTable cfg p → ∃ p',
          (rs[j]?).bind (fun r => insertPhasePoints cfg (r.hx cfg) (r.hv cfg) f.hd.totalWidth p ps) = some p' ∧ PhaseTable cfg p' ∧
          p'.getD k 0 = p.getD k 0 + (match rs[j]? with | none => 0 | some r => phaseCell cfg r k f) := by
        intro j hj p hp
        obtain ⟨row, r, h1, h2, h3, _⟩ := intr_idx f.hd (PhaseRow.hx cfg) rows idxs rs hrs j hj
        rw [h2]
        exact phase_insert cfg r (hv r (List.mem_of_getElem? h3)) f ps hps k hk p hp
      obtain ⟨o1, e1, l1, p1, v1⟩ := insertFile_spec idxs _ (PhaseTable cfg) (fun p => p.getD k 0) (fun j => match rs[j]? with | none => 0 | some r => phaseCell cfg r k f) _ hins profs hP
        (fun j hj => by
          obtain ⟨row, r, h1, h2, h3, _⟩ := intr_idx f.hd (PhaseRow.hx cfg) rows idxs rs hrs j hj
          exact ⟨row, h1, by rw [hl]; exact (List.getElem?_eq_some_iff.mp h3).1⟩) []
      rw [e1]
      dsimp only
      obtain ⟨out, e, l, p, v⟩ := ih hfs o1 (by rw [l1, hl]) p1
      refine ⟨out, e, l, p, fun i row hr => ?_⟩
      have hi : i < profs.length := by rw [hl]; exact (List.getElem?_eq_some_iff.mp hr).1
      rw [v i row hr, v1 i hi, List.map_cons, List.sum_cons]
      have hsum := sum_intr f.hd (PhaseRow.hx cfg) rows idxs rs hrs hn i row hr (phaseCell cfg row k f)
      have hcong : ((intrIdxs f.hd (rs.map (·.hx cfg))).map fun j => if idxs[j]? = some i then (match rs[j]? with | none => 0 | some r => phaseCell cfg r k f) else 0) =
          ((intrIdxs f.hd (rs.map (·.hx cfg))).map fun j => if idxs[j]? = some i then phaseCell cfg row k f else 0) := by
        apply List.map_congr_left
        intro j hj
        obtain ⟨row', r, h1, h2, h3, _⟩ := intr_idx f.hd (PhaseRow.hx cfg) rows idxs rs hrs j hj
        by_cases hh : idxs[j]? = some i
        · rw [if_pos hh, if_pos hh, h2]
          rw [h1] at hh
          rw [Option.some.inj hh, hr] at h3
          rw [Option.some.inj h3]
        · rw [if_neg hh, if_neg hh]
      rw [hcong, show rs.map (·.hx cfg) = rs.map (PhaseRow.hx cfg) from rfl, hsum]
      ring

open Classical in
theorem phaseSnaps_spec (cfg : PhaseConfig) (rows : List PhaseRow) (hv : PhaseValid cfg rows) (sim : Sim) (ib : GoMap Nat) (hib : ∀ s, ib.get s = rowsOf (rows.map (·.snap)) s)
    (snaps : List Int) (hf : Readable sim snaps) (k : Nat) (hk : k < cfg.rbins * cfg.vbins) (profs : List (List ℝ)) (hl : profs.length = rows.length)
    (hP : ∀ p ∈ profs, PhaseTable cfg p) :
    ∃ out, phaseSnaps cfg rows sim ib snaps profs = .inr out ∧ out.length = rows.length ∧ (∀ p ∈ out, PhaseTable cfg p) ∧ ∀ i row, rows[i]? = some row →
      (out.getD i []).getD k 0 = (profs.getD i []).getD k 0 +
        (snaps.map fun s => if s = row.snap then ((filesOf sim s).map fun f => if sphereSheetIntersect (row.hx cfg) f.hd then phaseCell cfg row k f else 0).sum else 0).sum := by
  induction snaps generalizing profs with
  | nil => exact ⟨profs, rfl, hl, hP, by simp⟩
  | cons s snaps ih =>
    have hf' : Readable sim snaps := fun s' h' => hf s' (by simp [h'])
    simp only [phaseSnaps]
    by_cases hs : s = -1
    · rw [if_pos hs]
      obtain ⟨out, e, l, p, v⟩ := ih hf' profs hl hP
      refine ⟨out, e, l, p, fun i row hr => ?_⟩
      rw [v i row hr, List.map_cons, List.sum_cons]
      unfold filesOf
      rw [if_pos hs]
      simp
    · rw [if_neg hs]
      have hmem : ∀ i ∈ ib.get s, ∃ r, rows[i]? = some r ∧ r.snap = s := by
        intro i hi
        rw [hib, rowsOf, List.mem_filter] at hi
        simp only [List.length_map, List.mem_range, decide_eq_true_eq, List.getElem?_map] at hi
        obtain ⟨r, h1, h2⟩ := Option.map_eq_some_iff.mp hi.2
        exact ⟨r, h1, h2⟩
      have hrs : ∃ rs, (ib.get s).mapM (fun i => rows[i]?) = some rs := by
        generalize ib.get s = l at hmem
        induction l with
        | nil => exact ⟨[], rfl⟩
        | cons a l ihl =>
          obtain ⟨r, h1, _⟩ := hmem a (by simp)
          obtain ⟨rs, h2⟩ := ihl (fun i hi => hmem i (by simp [hi]))
          exact ⟨r :: rs, by rw [List.mapM_cons, h1, h2]; rfl⟩
      obtain ⟨rs, hrs⟩ := hrs
      obtain ⟨fs, hfs, hne, hread⟩ := hf s (by simp) hs
      obtain ⟨f0, ft, rfl⟩ := List.exists_cons_of_ne_nil hne
      rw [hrs, hfs]
      dsimp only
      have hnd : (ib.get s).Nodup := by rw [hib]; exact List.nodup_range.filter _
      obtain ⟨o1, e1, l1, p1, v1⟩ := phaseFiles_spec cfg rows hv (ib.get s) hnd rs hrs (f0 :: ft) hread k hk profs hl hP
      rw [e1]
      dsimp only
      obtain ⟨out, e, l, p, v⟩ := ih hf' o1 l1 p1
      refine ⟨out, e, l, p, fun i row hr => ?_⟩
      rw [v i row hr, v1 i row hr]
      simp only [List.map_cons, List.sum_cons]
      have hiff : i ∈ ib.get s ↔ s = row.snap := by
        rw [hib, rowsOf, List.mem_filter]
        simp only [List.length_map, List.mem_range, decide_eq_true_eq, List.getElem?_map, hr, Option.map_some, Option.some.injEq]
        constructor
        · rintro ⟨_, h⟩; exact h.symm
        · intro h; exact ⟨(List.getElem?_eq_some_iff.mp hr).1, h.symm⟩
      have hfo : filesOf sim s = f0 :: ft := by unfold filesOf; rw [if_neg hs, hfs]; rfl
      by_cases hss : s = row.snap
      · rw [if_pos hss, hfo]
        have : ∀ f : File, (i ∈ ib.get s ∧ sphereSheetIntersect (row.hx cfg) f.hd) ↔ sphereSheetIntersect (row.hx cfg) f.hd := fun f => by rw [hiff]; tauto
        simp only [this, List.map_cons, List.sum_cons]
        ring
      · rw [if_neg hss]
        have : ∀ f : File, ¬ (i ∈ ib.get s ∧ sphereSheetIntersect (row.hx cfg) f.hd) := fun f => by rw [hiff]; tauto
        simp only [if_neg (this _)]
        simp

theorem sum_single (l : List Int) (hn : l.Nodup) (s : Int) (hs : s ∈ l) (g : Int → ℝ) : (l.map fun s' => if s' = s then g s' else 0).sum = g s := by
  induction l with
  | nil => cases hs
  | cons a l ih =>
    have hn' := List.nodup_cons.mp hn
    rw [List.map_cons, List.sum_cons]
    by_cases h : a = s
    · subst h
      rw [if_pos rfl]
      have : (l.map fun s' => if s' = a then g s' else 0) = l.map fun _ => 0 := by
        apply List.map_congr_left
        intro s' hs'
        rw [if_neg]
        rintro rfl
        exact hn'.1 hs'
      rw [this]; simp
    · rw [if_neg h, zero_add, ih hn'.2 ((List.mem_cons.mp hs).resolve_left (Ne.symm h))]

open Classical in
/-- C49 for the phase mode: if everything can be read, the mode returns one profile per input row, in input order; the mass in a cell of the profile of a row is the sum over
all files of its snapshot that the halo was matched with (C36), and zero for rows of the marker -1.  What one file contributes is the subject of C50. -/
theorem C49_phase (cfg : PhaseConfig) (rows : List PhaseRow) (row0 : PhaseRow) (h0 : rows[0]? = some row0) (sim : Sim) (hk : sim.known row0.snap) (hb : sim.bufOk row0.snap = true)
    (hv : PhaseValid cfg rows) (hr : Readable sim (rows.map (·.snap))) :
    ∃ tables : List (List ℝ), tables.length = rows.length ∧
      phaseRun cfg rows sim = .lines ((rows.zip tables).map fun rp => processPhaseProfile cfg rp.2 (rp.1.r * cfg.rMaxMult) (rp.1.vr * cfg.vMaxMult)) ∧
      ∀ i row, rows[i]? = some row → (tables.getD i []).length = cfg.rbins * cfg.vbins ∧ ∀ k < cfg.rbins * cfg.vbins,
        (tables.getD i []).getD k 0 = ((filesOf sim row.snap).map fun f => if sphereSheetIntersect (row.hx cfg) f.hd then phaseCell cfg row k f else 0).sum := by
  obtain ⟨sb, ib, e, g1, g2, g3, g4, g5⟩ := C44_groups (rows.map (·.snap)) (rows.map (·.id)) (by simp)
  obtain ⟨_, hlt, hmem⟩ := C44_partition _ _ sb ib e
  have hn : (sortedSnaps sb).Nodup := hlt.imp (fun h => h.ne)
  have hr' : Readable sim (sortedSnaps sb) := fun s hs => hr s ((hmem s).mp hs)
  have hl : (rows.map fun _ => List.replicate (cfg.rbins * cfg.vbins) (0 : ℝ)).length = rows.length := by simp
  have hP : ∀ p ∈ (rows.map fun _ => List.replicate (cfg.rbins * cfg.vbins) (0 : ℝ)), PhaseTable cfg p := by
    intro p hp
    obtain ⟨_, _, rfl⟩ := List.mem_map.mp hp
    simp [PhaseTable]
  have hspec := fun k hk => phaseSnaps_spec cfg rows hv sim ib g1 (sortedSnaps sb) hr' k hk _ hl hP
  have hvr : cfg.Valid (row0.hx cfg) (row0.hv cfg) := hv row0 (List.mem_of_getElem? h0)
  obtain ⟨tables, et, lt, pt, _⟩ := hspec 0 (Nat.mul_pos hvr.rbins hvr.vbins)
  refine ⟨tables, lt, ?_, fun i row hrow => ⟨?_, fun k hk => ?_⟩⟩
  · cases hc : rows with
    | nil => rw [hc] at h0; simp at h0
    | cons r rest =>
      have : r = row0 := by rw [hc] at h0; simpa using h0
      subst this
      unfold phaseRun
      dsimp only
      rw [← hc, e]
      dsimp only
      rw [if_neg (not_not.mpr hk), if_neg (by simp [hb]), et]
  · have hi := (List.getElem?_eq_some_iff.mp hrow).1
    rw [List.getD_eq_getElem _ _ (by rw [lt]; exact hi)]
    exact pt _ (List.getElem_mem _)
  · obtain ⟨t2, e2, l2, p2, v2⟩ := hspec k hk
    rw [et] at e2
    have : tables = t2 := Sum.inr.inj e2
    subst this
    have hi := (List.getElem?_eq_some_iff.mp hrow).1
    rw [v2 i row hrow, sum_single _ hn row.snap ((hmem _).mpr (List.mem_map.mpr ⟨row, List.mem_of_getElem? hrow, rfl⟩)) (fun s => ((filesOf sim s).map fun f => if sphereSheetIntersect (row.hx cfg) f.hd then phaseCell cfg row k f else 0).sum)]
    have hz : ((rows.map fun _ => List.replicate (cfg.rbins * cfg.vbins) (0 : ℝ)).getD i []).getD k 0 = 0 := by
      rw [List.getD_eq_getElem (rows.map fun _ => List.replicate (cfg.rbins * cfg.vbins) (0 : ℝ)) [] (by simpa using hi), List.getElem_map, List.getD_eq_getElem _ _ (by simpa using hk), List.getElem_replicate]
    rw [hz, zero_add]

/-! The prof mode -/

/-- All rows of the prof mode are valid. -/
def ProfValid (cfg : ProfConfig) (rows : List ProfRow) : Prop := ∀ row ∈ rows, cfg.Valid row.s.s.r

/-- The rows of snapshot `s` are found. -/
theorem rows_of_snap {γ : Type} (rows : List γ) (sn : γ → Int) (s : Int) : ∃ rs, (rowsOf (rows.map sn) s).mapM (fun i => rows[i]?) = some rs ∧ (∀ r ∈ rs, r ∈ rows) ∧
    ∀ r ∈ rows, sn r = s → r ∈ rs := by
  have hmem : ∀ i ∈ rowsOf (rows.map sn) s, ∃ r, rows[i]? = some r := by
    intro i hi
    rw [rowsOf, List.mem_filter] at hi
    simp only [List.length_map, List.mem_range] at hi
    exact ⟨_, List.getElem?_eq_getElem hi.1⟩
  have key : ∀ l : List Nat, (∀ i ∈ l, ∃ r, rows[i]? = some r) → ∃ rs, l.mapM (fun i => rows[i]?) = some rs ∧ (∀ r ∈ rs, r ∈ rows) ∧ ∀ i ∈ l, ∀ r, rows[i]? = some r → r ∈ rs := by
    intro l
    induction l with
    | nil => intro _; exact ⟨[], rfl, by simp, by simp⟩
    | cons a l ih =>
      intro h
      obtain ⟨r, hr⟩ := h a (by simp)
      obtain ⟨rs, e, h1, h2⟩ := ih (fun i hi => h i (by simp [hi]))
      refine ⟨r :: rs, by rw [List.mapM_cons, hr, e]; rfl, ?_, ?_⟩
      · intro r' hr'
        rcases List.mem_cons.mp hr' with rfl | hr'
        · exact List.mem_of_getElem? hr
        · exact h1 r' hr'
      · intro i hi r' hr'
        rcases List.mem_cons.mp hi with rfl | hi
        · rw [hr] at hr'; rw [Option.some.inj hr']; simp
        · exact List.mem_cons_of_mem _ (h2 i hi r' hr')
  obtain ⟨rs, e, h1, h2⟩ := key _ hmem
  refine ⟨rs, e, h1, fun r hr hs => ?_⟩
  obtain ⟨i, hi⟩ := List.mem_iff_getElem?.mp hr
  refine h2 i ?_ r hi
  rw [rowsOf, List.mem_filter]
  simp only [List.length_map, List.mem_range, decide_eq_true_eq, List.getElem?_map, hi, Option.map_some, hs, and_true]
  exact (List.getElem?_eq_some_iff.mp hi).1

theorem intr_nonempty {γ : Type} (hd : Region) (g : γ → Sphere) (rs : List γ) : (intrIdxs hd (rs.map g)).length = 0 ↔ ∀ r ∈ rs, ¬ sphereSheetIntersect (g r) hd := by
  classical
  unfold intrIdxs
  rw [List.length_map, List.length_eq_zero_iff, List.filter_eq_nil_iff]
  simp only [decide_eq_true_eq]
  constructor
  · intro h r hr
    obtain ⟨i, hi⟩ := List.mem_iff_getElem?.mp hr
    exact h (g r, i) (List.mem_zipIdx_iff_getElem?.mpr (by rw [List.getElem?_map]; simp only; rw [hi]; rfl))
  · intro h a ha
    have := List.mem_zipIdx_iff_getElem?.mp ha
    rw [List.getElem?_map] at this
    obtain ⟨r, hr, e⟩ := Option.map_eq_some_iff.mp this
    rw [← e]
    exact h r (List.mem_of_getElem? hr)

/-- The halo of a row, with the radius of its profile, was matched with a file of its snapshot. -/
def Matched (cfg : ProfConfig) (sim : Sim) (row : ProfRow) : Prop := ∃ f ∈ filesOf sim row.snap, sphereSheetIntersect (cfg.grown row.s) f.hd

/-- Lengths of the tables of the prof mode. -/
def ProfTable (cfg : ProfConfig) (p : List ℝ × List (List ℝ)) : Prop := p.1.length = cfg.bins

theorem profFiles_none (cfg : ProfConfig) (idxs : List Nat) (rs : List ExtSphere) (fs : List File) (h : ∀ f ∈ fs, ∀ r ∈ rs, ¬ sphereSheetIntersect (cfg.grown r) f.hd)
    (profs : List (List ℝ × List (List ℝ))) : profFiles cfg idxs rs fs profs = .inr profs := by
  induction fs with
  | nil => rfl
  | cons f fs ih =>
    simp only [profFiles]
    rw [if_pos ((intr_nonempty f.hd cfg.grown rs).mpr (h f (by simp)))]
    exact ih (fun f' h' => h f' (by simp [h']))

theorem profFiles_some (cfg : ProfConfig) (hm : ¬ cfg.Median) (rows : List ProfRow) (hv : ProfValid cfg rows) (idxs : List Nat) (rs : List ProfRow)
    (hrs : idxs.mapM (fun i => rows[i]?) = some rs) (hsub : ∀ r ∈ rs, r ∈ rows) (fs : List File) (hf : ∀ f ∈ fs, f.particles.isSome)
    (profs : List (List ℝ × List (List ℝ))) (hl : profs.length = rows.length) (hP : ∀ p ∈ profs, ProfTable cfg p)
    (h : ∃ f ∈ fs, ∃ r ∈ rs, sphereSheetIntersect (cfg.grown r.s) f.hd) : profFiles cfg idxs (rs.map (·.s)) fs profs = .inl .nothing := by
  induction fs with
  | nil => obtain ⟨f, hf, _⟩ := h; cases hf
  | cons f fs ih =>
    simp only [profFiles]
    have hmap : (rs.map (·.s)).map cfg.grown = rs.map fun r => cfg.grown r.s := by rw [List.map_map]; rfl
    rw [hmap]
    by_cases h0 : (intrIdxs f.hd (rs.map fun r => cfg.grown r.s)).length = 0
    · rw [if_pos h0]
      apply ih (fun f' h' => hf f' (by simp [h']))
      obtain ⟨f', hf', r, hr, hi⟩ := h
      rcases List.mem_cons.mp hf' with rfl | hf'
      · exact absurd hi ((intr_nonempty f'.hd (fun r : ProfRow => cfg.grown r.s) rs).mp h0 r hr)
      · exact ⟨f', hf', r, hr, hi⟩
    · rw [if_neg h0]
      obtain ⟨ps, hps⟩ := Option.isSome_iff_exists.mp (hf f (by simp))
      rw [hps]
      dsimp only
      obtain ⟨out, e, _⟩ := insertFile_spec idxs (fun j prof => ((rs.map (·.s))[j]?).bind fun s => profInsert cfg s f ps prof) (ProfTable cfg) (fun _ => 0) (fun _ => 0)
        (intrIdxs f.hd (rs.map fun r => cfg.grown r.s)) (by
          intro j hj p hp
          obtain ⟨row, r, h1, h2, h3, _⟩ := intr_idx f.hd (fun r : ProfRow => cfg.grown r.s) rows idxs rs hrs j hj
          rw [List.getElem?_map, h2]
          obtain ⟨o, eo, lo, _⟩ := C50_density cfg r.s (hv r (hsub r (List.mem_of_getElem? h2))) f.hd.totalWidth p.1 hp ps
          refine ⟨(o, p.2), ?_, lo, by simp⟩
          simp only [Option.map_some, Option.bind_some, profInsert]
          rw [if_neg (show ¬ (cfg.pType = .medianDensity ∨ cfg.pType = .medianError) from hm), eo]
          rfl) profs hP (fun j hj => by
          obtain ⟨row, r, h1, h2, h3, _⟩ := intr_idx f.hd (fun r : ProfRow => cfg.grown r.s) rows idxs rs hrs j hj
          exact ⟨row, h1, by rw [hl]; exact (List.getElem?_eq_some_iff.mp h3).1⟩) ([], [])
      rw [e]

theorem profSnaps_none (cfg : ProfConfig) (rows : List ProfRow) (sim : Sim) (ib : GoMap Nat) (hib : ∀ s, ib.get s = rowsOf (rows.map (·.snap)) s) (snaps : List Int)
    (hf : Readable sim snaps) (h : ∀ row ∈ rows, ¬ Matched cfg sim row) (profs : List (List ℝ × List (List ℝ))) : profSnaps cfg rows sim ib snaps profs = .inr profs := by
  induction snaps with
  | nil => rfl
  | cons s snaps ih =>
    have hf' : Readable sim snaps := fun s' h' => hf s' (by simp [h'])
    simp only [profSnaps]
    by_cases hs : s = -1
    · rw [if_pos hs]; exact ih hf'
    · rw [if_neg hs]
      obtain ⟨rs, e, h1, _⟩ := rows_of_snap rows (·.snap) s
      have hrow : ∀ r ∈ rs, r.snap = s := by
        intro r hr
        obtain ⟨i, hi⟩ := List.mem_iff_getElem?.mp hr
        have key : ∀ (l : List Nat) (rs : List ProfRow), l.mapM (fun i => rows[i]?) = some rs → ∀ r ∈ rs, ∃ i ∈ l, rows[i]? = some r := by
          intro l
          induction l with
          | nil => intro rs h r hr; rw [List.mapM_nil] at h; simp only [Option.pure_def, Option.some.injEq] at h; subst h; cases hr
          | cons a l ihl =>
            intro rs h r hr
            rw [List.mapM_cons] at h
            obtain ⟨r0, h0, h⟩ := Option.bind_eq_some_iff.mp h
            obtain ⟨rs', h1, h⟩ := Option.bind_eq_some_iff.mp h
            simp only [Option.pure_def, Option.some.injEq] at h
            subst h
            rcases List.mem_cons.mp hr with rfl | hr
            · exact ⟨a, by simp, h0⟩
            · obtain ⟨i, hi, hi'⟩ := ihl rs' h1 r hr
              exact ⟨i, by simp [hi], hi'⟩
        obtain ⟨i, hi, hi'⟩ := key _ rs e r hr
        rw [rowsOf, List.mem_filter] at hi
        simp only [List.length_map, List.mem_range, decide_eq_true_eq, List.getElem?_map, hi', Option.map_some, Option.some.injEq] at hi
        exact hi.2
      rw [hib, e]
      obtain ⟨fs, hfs, hne, _⟩ := hf s (by simp) hs
      obtain ⟨f0, ft, rfl⟩ := List.exists_cons_of_ne_nil hne
      rw [hfs]
      dsimp only
      rw [profFiles_none]
      · exact ih hf'
      · intro f hff r hr hi
        obtain ⟨pr, hpr, rfl⟩ := List.mem_map.mp hr
        apply h pr (h1 pr hpr)
        refine ⟨f, ?_, hi⟩
        unfold filesOf
        rw [hrow pr hpr, if_neg hs, hfs]
        exact hff

theorem profSnaps_some (cfg : ProfConfig) (hm : ¬ cfg.Median) (rows : List ProfRow) (hv : ProfValid cfg rows) (sim : Sim) (ib : GoMap Nat)
    (hib : ∀ s, ib.get s = rowsOf (rows.map (·.snap)) s) (snaps : List Int) (hf : Readable sim snaps) (h : ∃ row ∈ rows, row.snap ∈ snaps ∧ Matched cfg sim row)
    (profs : List (List ℝ × List (List ℝ))) (hl : profs.length = rows.length) (hP : ∀ p ∈ profs, ProfTable cfg p) : profSnaps cfg rows sim ib snaps profs = .inl .nothing := by
  induction snaps with
  | nil => obtain ⟨_, _, h, _⟩ := h; cases h
  | cons s snaps ih =>
    have hf' : Readable sim snaps := fun s' h' => hf s' (by simp [h'])
    simp only [profSnaps]
    by_cases hs : s = -1
    · rw [if_pos hs]
      apply ih hf'
      obtain ⟨row, hr, hsn, hmt⟩ := h
      refine ⟨row, hr, ?_, hmt⟩
      rcases List.mem_cons.mp hsn with he | he
      · exfalso
        obtain ⟨f, hff, _⟩ := hmt
        unfold filesOf at hff
        rw [he, if_pos hs] at hff
        cases hff
      · exact he
    · rw [if_neg hs]
      obtain ⟨rs, e, h1, h2⟩ := rows_of_snap rows (·.snap) s
      obtain ⟨fs, hfs, hne, hread⟩ := hf s (by simp) hs
      obtain ⟨f0, ft, rfl⟩ := List.exists_cons_of_ne_nil hne
      rw [hib, e, hfs]
      dsimp only
      by_cases hex : ∃ f ∈ f0 :: ft, ∃ r ∈ rs, sphereSheetIntersect (cfg.grown r.s) f.hd
      · rw [profFiles_some cfg hm rows hv _ rs e h1 (f0 :: ft) hread profs hl hP hex]
      · push Not at hex
        rw [profFiles_none cfg _ _ (f0 :: ft) (by
          intro f hff r hr hi
          obtain ⟨pr, hpr, rfl⟩ := List.mem_map.mp hr
          exact hex f hff pr hpr hi)]
        dsimp only
        apply ih hf'
        obtain ⟨row, hr, hsn, hmt⟩ := h
        refine ⟨row, hr, ?_, hmt⟩
        rcases List.mem_cons.mp hsn with he | he
        · exfalso
          obtain ⟨f, hff, hi⟩ := hmt
          unfold filesOf at hff
          rw [he, if_neg hs, hfs] at hff
          exact hex f hff row (h2 row hr he) hi
        · exact he

/-- C49 is false of the code for the prof mode, for every catalog and simulation: as soon as one halo is matched with one file of its snapshot, the mode returns neither lines
nor an error. -/
theorem C49_prof_false (cfg : ProfConfig) (hm : ¬ cfg.Median) (rows : List ProfRow) (row0 : ProfRow) (h0 : rows[0]? = some row0) (sim : Sim) (hk : sim.known row0.snap)
    (hb : sim.bufOk row0.snap = true) (hv : ProfValid cfg rows) (hr : Readable sim (rows.map (·.snap))) (h : ∃ row ∈ rows, Matched cfg sim row) :
    profRun cfg rows sim = .nothing := by
  obtain ⟨rest, rfl⟩ : ∃ rest, rows = row0 :: rest := by
    cases rows with
    | nil => simp at h0
    | cons r rest => exact ⟨rest, by rw [show r = row0 by simpa using h0]⟩
  generalize hrows : row0 :: rest = rows at *
  obtain ⟨sb, ib, e, g1, _⟩ := C44_groups (rows.map (·.snap)) (rows.map (·.id)) (by simp)
  obtain ⟨_, _, hmem⟩ := C44_partition _ _ sb ib e
  have hr' : Readable sim (sortedSnaps sb) := fun s hs => hr s ((hmem s).mp hs)
  have step : profRun cfg rows sim = (match profSnaps cfg rows sim ib (sortedSnaps sb) (rows.map fun _ => (List.replicate cfg.bins (0 : ℝ),
      List.replicate cfg.bins (List.replicate (spherePixelNum cfg.level).toNat (0 : ℝ)))) with
      | .inl r => r
      | .inr profs => .lines ((rows.zip profs).map fun rp => processProfile rp.2.1 (rp.1.s.s.r * cfg.rMinMult) (rp.1.s.s.r * cfg.rMaxMult))) := by
    unfold profRun
    rw [e]
    rw [← hrows]
    dsimp only
    rw [if_neg (not_not.mpr hk), if_neg (by simp [hb])]
    rfl
  rw [step]
  · skip
    obtain ⟨row, hrow, hmt⟩ := h
    rw [profSnaps_some cfg hm rows hv sim ib g1 _ hr' ⟨row, hrow, (hmem _).mpr (List.mem_map.mpr ⟨row, hrow, rfl⟩), hmt⟩ _ (by simp) (by
      intro p hp
      obtain ⟨_, _, rfl⟩ := List.mem_map.mp hp
      simp [ProfTable])]

/-- C49 for the prof mode, as far as it holds: if no halo is matched with a file, there is one (empty) profile per input row, in input order. -/
theorem C49_prof_partial (cfg : ProfConfig) (rows : List ProfRow) (row0 : ProfRow) (h0 : rows[0]? = some row0) (sim : Sim) (hk : sim.known row0.snap)
    (hb : sim.bufOk row0.snap = true) (hr : Readable sim (rows.map (·.snap))) (h : ∀ row ∈ rows, ¬ Matched cfg sim row) :
    profRun cfg rows sim = .lines (rows.map fun row => processProfile (List.replicate cfg.bins 0) (row.s.s.r * cfg.rMinMult) (row.s.s.r * cfg.rMaxMult)) := by
  obtain ⟨rest, rfl⟩ : ∃ rest, rows = row0 :: rest := by
    cases rows with
    | nil => simp at h0
    | cons r rest => exact ⟨rest, by rw [show r = row0 by simpa using h0]⟩
  generalize hrows : row0 :: rest = rows at *
  obtain ⟨sb, ib, e, g1, _⟩ := C44_groups (rows.map (·.snap)) (rows.map (·.id)) (by simp)
  obtain ⟨_, _, hmem⟩ := C44_partition _ _ sb ib e
  have hr' : Readable sim (sortedSnaps sb) := fun s hs => hr s ((hmem s).mp hs)
  have step : profRun cfg rows sim = (match profSnaps cfg rows sim ib (sortedSnaps sb) (rows.map fun _ => (List.replicate cfg.bins (0 : ℝ),
      List.replicate cfg.bins (List.replicate (spherePixelNum cfg.level).toNat (0 : ℝ)))) with
      | .inl r => r
      | .inr profs => .lines ((rows.zip profs).map fun rp => processProfile rp.2.1 (rp.1.s.s.r * cfg.rMinMult) (rp.1.s.s.r * cfg.rMaxMult))) := by
    unfold profRun
    rw [e]
    rw [← hrows]
    dsimp only
    rw [if_neg (not_not.mpr hk), if_neg (by simp [hb])]
    rfl
  rw [step]
  · skip
    rw [profSnaps_none cfg rows sim ib g1 _ hr' h]
    dsimp only
    congr 1
    clear * -
    induction rows with
    | nil => rfl
    | cons a l ih => simp only [List.map_cons, List.zip_cons_cons, ih]

/-- C49: a catalog whose first row is a marker -1 (as the tree mode writes them) crashes the prof mode and the phase mode if the simulation has no snapshot -1. -/
theorem C49_marker_first_false (cfg : ProfConfig) (pcfg : PhaseConfig) (row0 : ProfRow) (rows : List ProfRow) (prow0 : PhaseRow) (prows : List PhaseRow) (sim : Sim)
    (h : row0.snap = -1) (h' : prow0.snap = -1) (hs : 0 ≤ sim.snapMin) : profRun cfg (row0 :: rows) sim = .panic ∧ phaseRun pcfg (prow0 :: prows) sim = .panic := by
  have hk : ¬ sim.known (-1) := by unfold Sim.known; omega
  constructor
  · obtain ⟨sb, ib, e, _⟩ := C44_groups ((row0 :: rows).map (·.snap)) ((row0 :: rows).map (·.id)) (by simp)
    unfold profRun
    rw [e]
    dsimp only
    rw [h, if_pos hk]
  · obtain ⟨sb, ib, e, _⟩ := C44_groups ((prow0 :: prows).map (·.snap)) ((prow0 :: prows).map (·.id)) (by simp)
    unfold phaseRun
    dsimp only
    rw [e]
    dsimp only
    rw [h', if_pos hk]

/-! All files -/

open Shellfish.Los (InBox Near)

/-- The region of the file describes it: its origin is in the box, it is small (see C36), and it contains the particles of the file. -/
structure File.Described (f : File) (r : ℝ) : Prop where
  origin : InBox f.hd.totalWidth f.hd.origin
  small : f.hd.Small r
  inside : ∀ ps, f.particles = some ps → ∀ p ∈ ps, f.hd.Contains p.x

/-- No coordinate of the particle is further from the center than half a box: the displacement is not wrapped (see C37). -/
def Unwrapped (tw : ℝ) (c x : Vec) : Prop := |x.x - c.x| ≤ tw / 2 ∧ |x.y - c.y| ≤ tw / 2 ∧ |x.z - c.z| ≤ tw / 2

theorem disp_unwrapped (tw : ℝ) (c x : Vec) (h : Unwrapped tw c x) : disp tw c x = ⟨x.x - c.x, x.y - c.y, x.z - c.z⟩ := by
  unfold disp
  rw [Shellfish.Los.C37_displacement_partial _ _ _ h.1, Shellfish.Los.C37_displacement_partial _ _ _ h.2.1, Shellfish.Los.C37_displacement_partial _ _ _ h.2.2]

theorem near_of_dist (tw : ℝ) (c x : Vec) (h : Unwrapped tw c x) (r : ℝ) (hr : 0 < r) (hd : dist tw c x < r) : Near tw c r x := by
  refine ⟨0, 0, 0, ?_⟩
  rw [dist_eq] at hd
  rw [disp_unwrapped tw c x h, Real.sqrt_lt' hr] at hd
  unfold norm2 at hd
  simp only [Int.cast_zero, zero_mul, add_zero]
  calc _ = (x.x - c.x) * (x.x - c.x) + (x.y - c.y) * (x.y - c.y) + (x.z - c.z) * (x.z - c.z) := by ring
    _ < _ := hd

theorem inRadial_lt (cfg : PhaseConfig) (hx hv : Sphere) (hval : cfg.Valid hx hv) (tw : ℝ) (j : Nat) (hj : j < cfg.rbins) (p : Particle) (h : inRadial cfg hx tw j p) : dist tw hx.c p.x < hx.r := by
  have hrb : (0 : ℝ) < cfg.rbins := by exact_mod_cast hval.rbins
  have hj' : (j : ℝ) + 1 ≤ cfg.rbins := by exact_mod_cast hj
  have : hx.r / (cfg.rbins : ℝ) * ((j : ℝ) + 1) ≤ hx.r := by
    rw [div_mul_eq_mul_div, div_le_iff₀ hrb]; exact mul_le_mul_of_nonneg_left hj' hval.r.le
  linarith [h.2.1]

theorem phaseCell_zero (cfg : PhaseConfig) (row : PhaseRow) (hval : cfg.Valid (row.hx cfg) (row.hv cfg)) (k : Nat) (hk : k < cfg.rbins * cfg.vbins) (f : File)
    (hc : InBox f.hd.totalWidth row.x) (hf : f.Described (row.r * cfg.rMaxMult)) (hu : ∀ ps, f.particles = some ps → ∀ p ∈ ps, Unwrapped f.hd.totalWidth row.x p.x)
    (hn : ¬ sphereSheetIntersect (row.hx cfg) f.hd) : phaseCell cfg row k f = 0 := by
  have h1 : k / cfg.vbins < cfg.rbins := by rw [Nat.div_lt_iff_lt_mul hval.vbins]; exact hk
  have key : ∀ p ∈ f.particles.getD [], ¬ inRadial cfg (row.hx cfg) f.hd.totalWidth (k / cfg.vbins) p := by
    intro p hp hr
    cases hps : f.particles with
    | none => rw [hps] at hp; cases hp
    | some ps =>
      rw [hps] at hp
      have hp : p ∈ ps := hp
      have := inRadial_lt cfg _ _ hval _ _ h1 p hr
      exact hn (Shellfish.Los.box_complete f.hd row.x (row.r * cfg.rMaxMult) hval.r hc hf.origin hf.small p.x (hf.inside ps hps p hp)
        (near_of_dist _ _ _ (hu ps hps p hp) _ hval.r this))
  unfold phaseCell
  have e1 : (f.particles.getD []).map (phaseMass cfg (row.hx cfg) (row.hv cfg) f.hd.totalWidth (k / cfg.vbins) (k % cfg.vbins)) = (f.particles.getD []).map fun _ => 0 := by
    apply List.map_congr_left
    intro p hp
    unfold phaseMass
    dsimp only
    rw [if_neg (fun hh => key p hp hh.1)]
  have e2 : (f.particles.getD []).map (phaseExtra cfg (row.hx cfg) (row.hv cfg) f.hd.totalWidth (k / cfg.vbins) (k % cfg.vbins)) = (f.particles.getD []).map fun _ => 0 := by
    apply List.map_congr_left
    intro p hp
    unfold phaseExtra
    dsimp only
    rw [if_neg (fun hh => key p hp hh.1)]
  rw [e1, e2]; simp

/-- C49, C36, C37, C50 together, for the phase mode: if the headers of the files describe them, the files are small, and no particle of a file has to be wrapped, the profile of every halo counts the
particles of all files of its snapshot, whatever the distribution of the particles over the files. -/
theorem C49_phase_all_files_partial (cfg : PhaseConfig) (rows : List PhaseRow) (row0 : PhaseRow) (h0 : rows[0]? = some row0) (sim : Sim) (hk : sim.known row0.snap) (hb : sim.bufOk row0.snap = true)
    (hv : PhaseValid cfg rows) (hr : Readable sim (rows.map (·.snap)))
    (hall : ∀ row ∈ rows, ∀ f ∈ filesOf sim row.snap, InBox f.hd.totalWidth row.x ∧ f.Described (row.r * cfg.rMaxMult) ∧
      ∀ ps, f.particles = some ps → ∀ p ∈ ps, Unwrapped f.hd.totalWidth row.x p.x) :
    ∃ tables : List (List ℝ), tables.length = rows.length ∧
      phaseRun cfg rows sim = .lines ((rows.zip tables).map fun rp => processPhaseProfile cfg rp.2 (rp.1.r * cfg.rMaxMult) (rp.1.vr * cfg.vMaxMult)) ∧
      ∀ i row, rows[i]? = some row → (tables.getD i []).length = cfg.rbins * cfg.vbins ∧ ∀ k < cfg.rbins * cfg.vbins,
        (tables.getD i []).getD k 0 = ((filesOf sim row.snap).map fun f => phaseCell cfg row k f).sum := by
  obtain ⟨tables, lt, e, h⟩ := C49_phase cfg rows row0 h0 sim hk hb hv hr
  refine ⟨tables, lt, e, fun i row hrow => ⟨(h i row hrow).1, fun k hkk => ?_⟩⟩
  rw [(h i row hrow).2 k hkk]
  congr 1
  apply List.map_congr_left
  intro f hf
  have hmem := List.mem_of_getElem? hrow
  obtain ⟨a1, a2, a3⟩ := hall row hmem f hf
  by_cases hi : sphereSheetIntersect (row.hx cfg) f.hd
  · rw [if_pos hi]
  · rw [if_neg hi, phaseCell_zero cfg row (hv row hmem) k hkk f a1 a2 a3 hi]

/-! A simulation with one snapshot of one file with one particle, and a catalog with one halo next to it. -/

/-- The file. -/
def exFile : File := ⟨⟨⟨40, 40, 40⟩, ⟨20, 20, 20⟩, 100⟩, some [⟨⟨51, 50, 50⟩, ⟨-50, 0, 0⟩, 1⟩]⟩

/-- The simulation. -/
def exSim : Sim := ⟨0, 1, fun _ => true, fun s => if s = 0 then some [exFile] else none⟩

theorem exSim_readable : Readable exSim [0, -1] := by
  intro s hs hne
  have : s = 0 := by simpa [hne] using hs
  subst this
  exact ⟨[exFile], rfl, by simp, by intro f hf; rw [List.mem_singleton.mp hf]; rfl⟩

-- the hypotheses of `C49_phase_all_files_partial` hold for a catalog with a halo and a marker
example : ∃ (cfg : PhaseConfig) (rows : List PhaseRow) (row0 : PhaseRow), rows.length = 2 ∧ rows[0]? = some row0 ∧ exSim.known row0.snap ∧ exSim.bufOk row0.snap = true ∧
    PhaseValid cfg rows ∧ Readable exSim (rows.map (·.snap)) ∧ ∀ row ∈ rows, ∀ f ∈ filesOf exSim row.snap, InBox f.hd.totalWidth row.x ∧ f.Described (row.r * cfg.rMaxMult) ∧
      ∀ ps, f.particles = some ps → ∀ p ∈ ps, Unwrapped f.hd.totalWidth row.x p.x := by
  refine ⟨⟨1, 2, 1, 1, true, false⟩, [⟨7, 0, ⟨50, 50, 50⟩, 2, 1, ⟨0, 0, 0⟩⟩, ⟨-1, -1, ⟨0, 0, 0⟩, 1, 1, ⟨0, 0, 0⟩⟩], _, rfl, rfl, ?_, rfl, ?_, exSim_readable, ?_⟩
  · unfold Sim.known exSim; decide
  · intro row hr
    have : row.r = 2 ∨ row.r = 1 := by simp at hr; rcases hr with rfl | rfl <;> simp
    have hm : row.m = 1 := by simp at hr; rcases hr with rfl | rfl <;> rfl
    refine ⟨by norm_num, by norm_num, ?_, ?_⟩
    · unfold PhaseRow.hx; rcases this with h | h <;> simp [h]
    · unfold PhaseRow.hv PhaseRow.vr
      rcases this with h | h <;> rw [h, hm] <;> norm_num
  · intro row hr f hf
    simp only [List.mem_cons, List.not_mem_nil, or_false] at hr
    rcases hr with rfl | rfl
    · have : f = exFile := by simpa [filesOf, exSim] using hf
      subst this
      refine ⟨by norm_num [InBox, exFile], ⟨by norm_num [InBox, exFile], by norm_num [Region.Small, exFile], ?_⟩, ?_⟩
      · intro ps hps p hp
        have : ps = [⟨⟨51, 50, 50⟩, ⟨-50, 0, 0⟩, 1⟩] := (Option.some.inj hps).symm
        rw [this, List.mem_singleton] at hp
        rw [hp]
        norm_num [Shellfish.Los.Region.Contains, exFile]
      · intro ps hps p hp
        have : ps = [⟨⟨51, 50, 50⟩, ⟨-50, 0, 0⟩, 1⟩] := (Option.some.inj hps).symm
        rw [this, List.mem_singleton] at hp
        rw [hp]
        norm_num [Unwrapped, exFile]
    · simp [filesOf] at hf

-- the hypotheses of `C49_prof_false` hold for a catalog with one halo
example : ∃ (cfg : ProfConfig) (rows : List ProfRow) (row0 : ProfRow), ¬ cfg.Median ∧ rows[0]? = some row0 ∧ exSim.known row0.snap ∧ exSim.bufOk row0.snap = true ∧
    ProfValid cfg rows ∧ Readable exSim (rows.map (·.snap)) ∧ ∃ row ∈ rows, Matched cfg exSim row := by
  refine ⟨⟨4, 1 / 8, 2, 0, .density⟩, [⟨7, 0, ⟨⟨⟨50, 50, 50⟩, 1⟩, 0, 0, ⟨0, 0, 0⟩, fun _ => True⟩⟩], _, (by intro h; rcases h with h | h <;> cases h), rfl, ?_, rfl, ?_, ?_, _, List.mem_singleton.mpr rfl, exFile, ?_, ?_⟩
  · unfold Sim.known exSim; decide
  · intro row hr
    rw [List.mem_singleton.mp hr]
    exact ⟨by norm_num, by norm_num, by norm_num⟩
  · intro s hs hne
    exact exSim_readable s (by rw [List.mem_cons]; left; simpa using hs) hne
  · simp [filesOf, exSim]
  · norm_num [sphereSheetIntersect, Shellfish.Los.inRange, Shellfish.Los.wrapDist, ProfConfig.grown, exFile]

-- the hypotheses of `C49_prof_partial` hold for a catalog of one marker row and a snapshot number 0 halo far away from the file
example : ∃ (cfg : ProfConfig) (rows : List ProfRow) (row0 : ProfRow), rows[0]? = some row0 ∧ exSim.known row0.snap ∧ exSim.bufOk row0.snap = true ∧
    Readable exSim (rows.map (·.snap)) ∧ ∀ row ∈ rows, ¬ Matched cfg exSim row := by
  refine ⟨⟨4, 1 / 8, 2, 0, .density⟩, [⟨7, 0, ⟨⟨⟨10, 10, 10⟩, 1⟩, 0, 0, ⟨0, 0, 0⟩, fun _ => True⟩⟩], _, rfl, ?_, rfl, ?_, ?_⟩
  · unfold Sim.known exSim; decide
  · intro s hs hne
    exact exSim_readable s (by rw [List.mem_cons]; left; simpa using hs) hne
  · rintro row hr ⟨f, hf, hi⟩
    rw [List.mem_singleton.mp hr] at hf hi
    have : f = exFile := by simpa [filesOf, exSim] using hf
    subst this
    revert hi
    norm_num [sphereSheetIntersect, Shellfish.Los.inRange, Shellfish.Los.wrapDist, ProfConfig.grown, exFile]

/-! Without these conditions the result depends on the files. -/

/-- A particle half a box away from the halo. -/
def farParticle : Particle := ⟨⟨52, 50, 50⟩, ⟨10, 0, 0⟩, 1⟩

/-- The halo. -/
def farRow : PhaseRow := ⟨7, 0, ⟨1, 50, 50⟩, 2, 1, ⟨0, 0, 0⟩⟩

/-- One file for the lower part of a box of width 100. -/
def oneFile : Sim := ⟨0, 1, fun _ => true, fun s => if s = 0 then some [⟨⟨⟨0, 0, 0⟩, ⟨60, 100, 100⟩, 100⟩, some [farParticle]⟩] else none⟩

/-- The same particle in the second of two files that cover the same part. -/
def twoFiles : Sim := ⟨0, 1, fun _ => true, fun s => if s = 0 then
  some [⟨⟨⟨0, 0, 0⟩, ⟨30, 100, 100⟩, 100⟩, some []⟩, ⟨⟨⟨30, 0, 0⟩, ⟨30, 100, 100⟩, 100⟩, some [farParticle]⟩] else none⟩

/-- The settings: one cell for all velocities below the maximum. -/
def farCfg : PhaseConfig := ⟨1, 1, 1, 1000000, false, false⟩

theorem far_valid : PhaseValid farCfg [farRow] := by
  intro row hr
  rw [List.mem_singleton.mp hr]
  refine ⟨by norm_num [farCfg], by norm_num [farCfg], by norm_num [farCfg, farRow, PhaseRow.hx], ?_⟩
  unfold PhaseRow.hv PhaseRow.vr farRow farCfg
  norm_num

theorem far_vr : 10 < farRow.vr * 1000000 := by
  unfold PhaseRow.vr farRow
  have : (1 : ℝ) / 11000000 < Real.sqrt (1 / 60000000000000 / (2 / 1)) := by
    rw [Real.lt_sqrt (by norm_num)]; norm_num
  dsimp only
  linarith

theorem far_cell (hd : Region) (h : hd.totalWidth = 100) : phaseCell farCfg farRow 0 ⟨hd, some [farParticle]⟩ = 1 := by
  have hd0 : disp 100 ⟨1, 50, 50⟩ ⟨52, 50, 50⟩ = ⟨1, 0, 0⟩ := by unfold disp displacement Shellfish.Los.wrap; norm_num
  have hn : norm2 ⟨1, 0, 0⟩ = 1 := by unfold norm2; norm_num
  have hdist : dist 100 ⟨1, 50, 50⟩ ⟨52, 50, 50⟩ = 1 := by rw [dist_eq, hd0, hn, Real.sqrt_one]
  have hvel : relVelocity farCfg (farRow.hx farCfg) (farRow.hv farCfg) 100 farParticle = 10 := by
    unfold relVelocity phaseVelocity farCfg farRow farParticle PhaseRow.hv PhaseRow.hx
    norm_num
    rw [show (100 : ℝ) = 10 ^ 2 by norm_num, Real.sqrt_sq (by norm_num)]
  have hv := far_vr
  have hstep : vStep farCfg (farRow.hv farCfg).r = farRow.vr * 1000000 := by unfold vStep vLow farCfg PhaseRow.hv; norm_num
  have hlow : vLow farCfg (farRow.hv farCfg).r = 0 := by unfold vLow farCfg; norm_num
  have hrad : inRadial farCfg (farRow.hx farCfg) 100 0 farParticle := by
    unfold inRadial farParticle
    rw [show (farRow.hx farCfg).c = ⟨1, 50, 50⟩ from rfl, hdist]
    norm_num [farCfg, farRow, PhaseRow.hx]
  unfold phaseCell
  simp only [h, Option.getD_some, List.map_cons, List.map_nil, List.sum_cons, List.sum_nil, add_zero]
  have e0 : (0 : Nat) / farCfg.vbins = 0 := by simp
  have e1 : (0 : Nat) % farCfg.vbins = 0 := by simp
  rw [e0, e1]
  unfold phaseMass phaseExtra
  simp only [hvel, hstep, hlow]
  rw [if_pos ⟨hrad, by rw [hlow, hvel]; norm_num, by rw [hlow, hvel, hstep]; push_cast; linarith⟩, if_neg (by rintro ⟨_, _, _, h⟩; rw [hlow, hvel] at h; norm_num at h)]
  simp [farParticle]

/-- C49 is false of the code for the phase mode without the conditions of `C49_phase_all_files_partial`: the same particle is counted or not, depending on the file it is in (it is
half a box away from the halo and, because of C37, counted as near). -/
theorem C49_phase_split_false : ∃ (cfg : PhaseConfig) (rows : List PhaseRow) (sim sim' : Sim) (row : PhaseRow), rows = [row] ∧
    (filesOf sim row.snap).flatMap (fun f => f.particles.getD []) = (filesOf sim' row.snap).flatMap (fun f => f.particles.getD []) ∧
    (∃ t, phaseRun cfg rows sim = .lines [processPhaseProfile cfg t (row.r * cfg.rMaxMult) (row.vr * cfg.vMaxMult)] ∧ t.getD 0 0 = 1) ∧
    (∃ t, phaseRun cfg rows sim' = .lines [processPhaseProfile cfg t (row.r * cfg.rMaxMult) (row.vr * cfg.vMaxMult)] ∧ t.getD 0 0 = 0) := by
  refine ⟨farCfg, [farRow], oneFile, twoFiles, farRow, rfl, ?_, ?_, ?_⟩
  · simp [filesOf, oneFile, twoFiles, farRow]
  · obtain ⟨ts, hl, e, h⟩ := C49_phase farCfg [farRow] farRow rfl oneFile (by unfold Sim.known oneFile farRow; decide) rfl far_valid (by
      intro s hs hne
      have : s = 0 := by simpa [farRow] using hs
      subst this
      exact ⟨_, rfl, by simp, by intro f hf; rw [List.mem_singleton.mp hf]; rfl⟩)
    obtain ⟨t, rfl⟩ := List.length_eq_one_iff.mp hl
    refine ⟨t, e, ?_⟩
    have := (h 0 farRow rfl).2 0 (by norm_num [farCfg])
    rw [show filesOf oneFile farRow.snap = [⟨⟨⟨0, 0, 0⟩, ⟨60, 100, 100⟩, 100⟩, some [farParticle]⟩] by simp [filesOf, oneFile, farRow]] at this
    simp only [List.map_cons, List.map_nil, List.sum_cons, List.sum_nil, add_zero] at this
    rw [if_pos (by norm_num [sphereSheetIntersect, Shellfish.Los.inRange, Shellfish.Los.wrapDist, PhaseRow.hx, farRow, farCfg]), far_cell _ rfl] at this
    exact this
  · obtain ⟨ts, hl, e, h⟩ := C49_phase farCfg [farRow] farRow rfl twoFiles (by unfold Sim.known twoFiles farRow; decide) rfl far_valid (by
      intro s hs hne
      have : s = 0 := by simpa [farRow] using hs
      subst this
      exact ⟨_, rfl, by simp, by intro f hf; simp at hf; rcases hf with rfl | rfl <;> rfl⟩)
    obtain ⟨t, rfl⟩ := List.length_eq_one_iff.mp hl
    refine ⟨t, e, ?_⟩
    have := (h 0 farRow rfl).2 0 (by norm_num [farCfg])
    rw [show filesOf twoFiles farRow.snap = [⟨⟨⟨0, 0, 0⟩, ⟨30, 100, 100⟩, 100⟩, some []⟩, ⟨⟨⟨30, 0, 0⟩, ⟨30, 100, 100⟩, 100⟩, some [farParticle]⟩] by simp [filesOf, twoFiles, farRow]] at this
    simp only [List.map_cons, List.map_nil, List.sum_cons, List.sum_nil, add_zero] at this
    have hno : ¬ sphereSheetIntersect (PhaseRow.hx farCfg farRow) ⟨⟨30, 0, 0⟩, ⟨30, 100, 100⟩, 100⟩ := by
      norm_num [sphereSheetIntersect, Shellfish.Los.inRange, Shellfish.Los.wrapDist, PhaseRow.hx, farRow, farCfg]
    have hz : phaseCell farCfg farRow 0 ⟨⟨⟨0, 0, 0⟩, ⟨30, 100, 100⟩, 100⟩, some []⟩ = 0 := by simp [phaseCell]
    rw [hz, if_neg hno] at this
    simpa using this

end
end Shellfish.Cmd
