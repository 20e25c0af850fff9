/-
C51: the example configuration files that are rejected, and the example of the global configuration.
-/
import Verif.Props.Modes
import Mathlib.Tactic.FinCases

namespace Shellfish.Modes
open Shellfish.Config Shellfish.Text

variable {F : Type} [DecidableEq F] (L : FLib F)

set_option maxRecDepth 100000

/-! ### phase -/

theorem phase_offers : offers phaseVars phaseExample = [(chars "ProfileType", chars "radial"), (chars "RBins", chars "100"), (chars "VBins", chars "100"), (chars "RMaxMult", chars "3.0"), (chars "VMaxMult", chars "3.0"), (chars "SubtractHubble", chars "false")] := by
  unfold phaseExample
  rw [offers_lines _ _ (by decide) (by decide +kernel)]
  decide +kernel

/-- C51 (phase), partial: with the header of prof, a file with the profile type and any other assignments of the example is accepted. -/
theorem C51_phase_partial (hL : GoLib L) (file : Str) (pairs : List (Str × Str)) (hfile : FileOf L.toLib phaseVars.name pairs file)
    (hsub : ∀ p ∈ pairs, p ∈ offers phaseVars phaseExample) (hreq : ∃ p ∈ pairs, p.1 = chars "ProfileType") : ∃ st, (phaseMode L).read L.toLib (some (some file)) [] = .ok st := by
  have hw : WellDeclared L.toLib phaseVars.decls (phaseMode L).defaults := wellDeclared_of _ hL.lower _ _ rfl (by decide +kernel) (by decide +kernel)
  rw [phase_offers] at hsub
  have p1 := hL.nonneg (chars "3", 3) (by decide +kernel) (by norm_num)
  obtain ⟨st, h1, h2⟩ := mode_offered L.toLib (phaseMode L) hw _ [(5, .string (chars "radial")), (0, .int 100), (1, .int 100), (2, .float (L.const 3)), (3, .float (L.const 3)), (4, .bool false)]
      [fun v => v = .int 100, fun v => v = .int 100, fun v => ∃ x, L.lt x (L.const 0) = false ∧ v = .float x, fun v => ∃ x, L.lt x (L.const 0) = false ∧ v = .float x, fun v => ∃ b, v = .bool b, fun v => v = .string (chars "radial")] rfl (by
      offers_all
      offer hL
      all_goals first
        | exact ⟨_, rfl⟩
        | exact ⟨_, p1, rfl⟩) [5] (by
      intro j v g hv hg
      have hj : j < 6 := (List.getElem?_eq_some_iff.mp hv).1
      interval_cases j <;> cases hv <;> cases hg
      all_goals first
        | exact Or.inl rfl
        | exact Or.inl ⟨_, rfl⟩
        | exact Or.inl ⟨_, p1, rfl⟩
        | exact Or.inr (List.mem_singleton.mpr rfl)) (by
      intro st hst
      simp only [List.forall₂_cons_left_iff, List.forall₂_nil_left_iff] at hst
      obtain ⟨_, _, rfl, ⟨_, _, rfl, ⟨_, _, ⟨_, h11, rfl⟩, ⟨_, _, ⟨_, h12, rfl⟩, ⟨_, _, ⟨_, rfl⟩, ⟨_, _, rfl, rfl, rfl⟩, rfl⟩, rfl⟩, rfl⟩, rfl⟩, rfl⟩ := hst
      simp [phaseMode, phaseValidate, h11, h12]) file pairs hfile hsub (by
      intro j hj d hd
      rw [List.mem_singleton] at hj
      subst hj
      cases hd
      exact hreq)
  exact ⟨st, h1⟩

/-! ### coord -/

theorem coord_offers : offers coordVars coordExample = [(chars "Values", chars "X, Y, Z, R200m")] := by
  unfold coordExample
  rw [offers_lines _ _ (by decide) (by decide +kernel)]
  decide +kernel

/-- C51 (coord), partial: with the header coord.config, a file with any assignments of the example is accepted. -/
theorem C51_coord_partial (hL : GoLib L) (file : Str) (pairs : List (Str × Str)) (hfile : FileOf L.toLib coordVars.name pairs file)
    (hsub : ∀ p ∈ pairs, p ∈ offers coordVars coordExample) : ∃ st, (coordMode).read L.toLib (some (some file)) [] = .ok st := by
  have hw : WellDeclared L.toLib coordVars.decls (coordMode).defaults := wellDeclared_of _ hL.lower _ _ rfl (by decide +kernel) (by decide +kernel)
  rw [coord_offers] at hsub
  obtain ⟨st, h1, h2⟩ := mode_offered L.toLib (coordMode) hw _ [(0, .strings [chars "X", chars "Y", chars "Z", chars "R200m"])]
      [fun v => ∃ l, v = .strings l] rfl (by
      offers_all
      offer hL
      all_goals first
        | exact ⟨_, rfl⟩) [] (by
      intro j v g hv hg
      have hj : j < 1 := (List.getElem?_eq_some_iff.mp hv).1
      interval_cases j <;> cases hv <;> cases hg
      all_goals first
        | exact Or.inl rfl
        | exact Or.inl ⟨_, rfl⟩
        | exact Or.inr (List.mem_singleton.mpr rfl)) (by
      intro st hst
      simp only [List.forall₂_cons_left_iff, List.forall₂_nil_left_iff] at hst
      obtain ⟨_, _, ⟨_, rfl⟩, rfl, rfl⟩ := hst
      simp [coordMode]) file pairs hfile hsub (by simp)
  exact ⟨st, h1⟩

/-! ### Rejected examples -/

omit [DecidableEq F] in
theorem read_header_ne (lib : Lib F) (m : Mode F) (lines : List Str) (l : Str) (body : List Str) (flags : List Str) (hne : lines ≠ []) (hnl : ∀ l ∈ lines, '\n' ∉ l)
    (hsig : ((lines.map strip).filter fun l => decide (l ≠ [])) = l :: body) (hl : l ≠ '[' :: (m.vars.name ++ [']'])) :
    m.read lib (some (some (joinWith '\n' lines))) flags = .err := by
  have hs : significant (joinWith '\n' lines) = l :: body := by
    unfold significant
    rw [splitOn_join _ _ hne hnl]
    exact hsig
  have : readConfig lib m.vars (some (joinWith '\n' lines)) m.defaults = .err .noHeader m.defaults := by
    unfold readConfig
    simp only
    rw [removeComments_fst]
    change (match significant (joinWith '\n' lines) with | [] => _ | h :: body => _) = _
    rw [hs]
    dsimp only
    rw [if_pos hl]
  unfold Mode.read
  dsimp only
  rw [this]
  rfl

/-- C51 is false of coord, phase and potential: these modes reject their own example whatever the flags are, because it has another header than the one they ask for. -/
theorem C51_header_false (flags : List Str) :
    (coordMode).read L.toLib (some (some coordExample)) flags = .err ∧
    (phaseMode L).read L.toLib (some (some phaseExample)) flags = .err ∧
    (potentialMode L).read L.toLib (some (some potentialExample)) flags = .err :=
  ⟨read_header_ne _ _ _ (chars "[config.coord]") [chars "Values = X, Y, Z, R200m"] _ (by decide) (by decide +kernel) (by decide +kernel) (show _ ≠ '[' :: (coordVars.name ++ [']']) by decide +kernel),
   read_header_ne _ _ _ (chars "[phase.config]") [chars "ProfileType = radial"] _ (by decide) (by decide +kernel) (by decide +kernel) (show _ ≠ '[' :: (phaseVars.name ++ [']']) by decide +kernel),
   read_header_ne _ _ _ (chars "[potential.config]") [chars "NCells = 64", chars "GridRMult = 8", chars "RMinMult = 1", chars "RMaxMult = 50", chars "ParticleFraction = 0.01"] _
     (by decide) (by decide +kernel) (by decide +kernel) (show _ ≠ '[' :: (potentialVars.name ++ [']']) by decide +kernel)⟩

/-- C51 is false of potential whatever the header is: the number of cells cannot be set under the name of the example. -/
theorem C51_ncells_false (hL : GoLib L) (file : Str) (name : Str) (pairs : List (Str × Str)) (hfile : FileOf L.toLib name pairs file) (hn : ∃ p ∈ pairs, p.1 = chars "NCells") (st : List (Val F)) :
    (potentialMode L).read L.toLib (some (some file)) [] ≠ .ok st := by
  have hw : WellDeclared L.toLib potentialVars.decls (potentialMode L).defaults := wellDeclared_of _ hL.lower _ _ rfl (by decide +kernel) (by decide +kernel)
  intro h
  unfold Mode.read at h
  dsimp only at h
  cases hr : readConfig L.toLib (potentialMode L).vars (some file) (potentialMode L).defaults with
  | err e s => rw [hr] at h; cases h
  | panic => rw [hr] at h; cases h
  | ok s =>
    obtain ⟨lines, pairs', hsig, hass, hacc, -⟩ := (C05_success_iff L.toLib potentialVars file _ s hw).mp hr
    obtain ⟨lines', hsig', hass', -⟩ := hfile
    rw [hsig'] at hsig
    have hll := (List.cons.inj hsig).2
    subst hll
    have e : pairs = pairs' := by
      have h1 := (associationList_inr 0 _ _).mpr hass
      have h2 := (associationList_inr 0 _ _).mpr hass'
      rw [h1] at h2
      exact (Sum.inr.inj h2).symm
    subst e
    obtain ⟨p, hp, hpn⟩ := hn
    obtain ⟨d, hd, hs⟩ := hacc.1 p hp
    have hd' : ∀ c ∈ d.1, c.toNat < 128 := (show ∀ d ∈ potentialVars.decls, ∀ c ∈ d.1, c.toNat < 128 by decide +kernel) d hd
    unfold Same at hs
    rw [hpn, hL.lower _ hd', hL.lower _ (by decide +kernel)] at hs
    exact (show ∀ d ∈ potentialVars.decls, d.1.map Char.toLower ≠ (chars "NCells").map Char.toLower by decide +kernel) d hd hs

/-! ### The global configuration -/

/-- The example offers the setting in two lines of its prose, and the scale factors in brackets; these are left out. -/
def globalOffered : List (Str × Str) := [(chars "Version", chars "1.0.4"), (chars "SnapshotType", chars "LGadget-2"), (chars "HaloType", chars "Text"), (chars "TreeType", chars "consistent-trees"),
    (chars "HaloValueNames", chars "ID, X, Y, Z, M200m"), (chars "HaloValueColumns", chars "0, 2, 3, 4, 20"), (chars "HaloValueComments",
    chars "\"int\", \"cMpc/h\", \"cMpc/h\", \"cMpc/h\", \"Msun/h\""), (chars "HaloPositionUnits", chars "cMpc/h"), (chars "HaloRadiusUnits", chars "ckpc/h"),
    (chars "HaloMassUnits", chars "Msun/h"), (chars "SnapshotFormat", chars "path/to/snapshots/snapdir_%03d/snapshot_%03d.%d"), (chars "SnapshotFormatMeanings",
    chars "Snapshot, Snapshot, Block"), (chars "BlockMins", chars "0"), (chars "BlockMaxes", chars "511"), (chars "SnapMin", chars "0"), (chars "SnapMax", chars "100"),
    (chars "ScaleFactorFile", chars "path/to/file.txt"), (chars "HaloDir", chars "path/to/halos/dir/"), (chars "TreeDir", chars "path/to/merger/tree/dir/"),
    (chars "MemoDir", chars "path/to/memo/dir/"), (chars "Endianness", chars "SystemOrder"), (chars "Threads", chars "-1"), (chars "Logging", chars "nil"),
    (chars "GadgetDMTypeIndices", chars "1"), (chars "GadgetSingleMassIndices", chars "0, 1, 2, 3, 4, 5"), (chars "GadgetPositionUnits", chars "1.0"),
    (chars "GadgetMassUnits", chars "1.0"), (chars "LGadgetNpartNum", chars "2"), (chars "NilSnapOmegaM", chars "0.27"), (chars "NilSnapOmegaL", chars "0.73"),
    (chars "NilSnapH100", chars "0.7"), (chars "NilSnapTotalWidth", chars "250")]

theorem global_offers : ((offers globalVars globalExample).filter fun p => decide (p.1 ≠ chars "NilSnapScaleFactors" ∧ p.2 ≠ chars "Gadget-2." ∧
    p.2 ≠ chars "Gadget-2 and your units are not 1 Mpc/h.")) = globalOffered := by
  unfold globalExample
  rw [offers_lines _ _ (by decide) (by decide +kernel)]
  decide +kernel

/-- The settings that the example assigns outside of comments, except Version, TreeType, Endianness, Threads and Logging, which have usable defaults. -/
def globalRequired : List Str := [chars "SnapshotFormat", chars "SnapshotType", chars "HaloDir", chars "HaloType", chars "TreeDir", chars "MemoDir", chars "HaloValueNames", chars "HaloValueColumns",
    chars "HaloValueComments", chars "HaloPositionUnits", chars "HaloRadiusUnits", chars "HaloMassUnits", chars "SnapshotFormatMeanings", chars "BlockMins",
    chars "BlockMaxes", chars "SnapMin", chars "SnapMax"]

/-- The settings of the example. -/
structure ExampleLike (g : Global F) : Prop where
  version : g.version = (chars "1.0.4")
  snapshotFormat : g.snapshotFormat = (chars "path/to/snapshots/snapdir_%03d/snapshot_%03d.%d")
  snapshotType : g.snapshotType = (chars "LGadget-2")
  haloDir : g.haloDir = (chars "path/to/halos/dir/")
  haloType : g.haloType = (chars "Text")
  treeDir : g.treeDir = (chars "path/to/merger/tree/dir/")
  treeType : g.treeType = chars "consistent-trees" ∨ g.treeType = chars "nil"
  memoDir : g.memoDir = (chars "path/to/memo/dir/")
  valueNames : g.valueNames = [chars "ID", chars "X", chars "Y", chars "Z", chars "M200m"]
  valueColumns : g.valueColumns = [0, 2, 3, 4, 20]
  valueComments : g.valueComments = [chars "\"int\"", chars "\"cMpc/h\"", chars "\"cMpc/h\"", chars "\"cMpc/h\"", chars "\"Msun/h\""]
  positionUnits : g.positionUnits = (chars "cMpc/h")
  radiusUnits : g.radiusUnits = (chars "ckpc/h")
  massUnits : g.massUnits = (chars "Msun/h")
  meanings : g.meanings = [chars "Snapshot", chars "Snapshot", chars "Block"]
  blockMins : g.blockMins = [0]
  blockMaxes : g.blockMaxes = [511]
  snapMin : g.snapMin = 0
  snapMax : g.snapMax = 100
  endianness : g.endianness = (chars "SystemOrder")
  threads : g.threads = (-1)
  logging : g.logging = (chars "nil")
  npart : g.npart = 2

theorem dirOk_false_iff (fs : Str → PathState) (d : Str) : dirOk fs d = false ↔ ¬ (fs d = .dir ∨ fs d = .creatable) := by
  unfold dirOk
  rw [decide_eq_false_iff_not]

theorem globalValidate_like (fs : Str → PathState) (g : Global F) (h : ExampleLike g) :
    (∃ g', globalValidate L fs g = some g') ↔ ∀ d ∈ [chars "path/to/halos/dir/", chars "path/to/merger/tree/dir/", chars "path/to/memo/dir/"], fs d = .dir ∨ fs d = .creatable := by
  unfold globalValidate
  dsimp only
  rw [if_neg (by rw [h.version]; decide +kernel), if_neg (by rw [h.snapshotType]; decide +kernel), if_neg (by rw [h.haloType]; decide +kernel)]
  have hh : g.haloType ≠ "nil".toList := by rw [h.haloType]; decide +kernel
  simp only [if_pos hh]
  rw [if_neg (by rw [h.positionUnits, h.radiusUnits, h.massUnits]; intro e; revert e; rw [h.haloType]; decide +kernel), if_neg (by rcases h.treeType with e | e <;> rw [e] <;> decide +kernel)]
  rw [h.haloType, h.haloDir, h.treeDir, h.memoDir, h.snapshotType, h.endianness, h.npart, h.valueNames, h.valueColumns, h.valueComments]
  simp only [dirOk_false_iff]
  by_cases d1 : fs (chars "path/to/halos/dir/") = .dir ∨ fs (chars "path/to/halos/dir/") = .creatable
  swap
  · rw [if_pos ⟨by decide +kernel, Or.inr d1⟩]
    exact ⟨fun ⟨g, hg⟩ => (nomatch hg), fun h => absurd (h _ List.mem_cons_self) d1⟩
  rw [if_neg (fun h => h.2.elim (by decide +kernel) (fun e => e d1))]
  by_cases d2 : fs (chars "path/to/merger/tree/dir/") = .dir ∨ fs (chars "path/to/merger/tree/dir/") = .creatable
  swap
  · rw [if_pos ⟨by decide +kernel, Or.inr d2⟩]
    exact ⟨fun ⟨g, hg⟩ => (nomatch hg), fun h => absurd (h _ (List.mem_cons_of_mem _ List.mem_cons_self)) d2⟩
  rw [if_neg (fun h => h.2.elim (by decide +kernel) (fun e => e d2))]
  by_cases d3 : fs (chars "path/to/memo/dir/") = .dir ∨ fs (chars "path/to/memo/dir/") = .creatable
  swap
  · rw [if_pos (Or.inr d3)]
    exact ⟨fun ⟨g, hg⟩ => (nomatch hg), fun h => absurd (h _ (List.mem_cons_of_mem _ (List.mem_cons_of_mem _ List.mem_cons_self))) d3⟩
  rw [if_neg (fun h => h.elim (by decide +kernel) (fun e => e d3))]
  rw [if_neg (fun h => absurd h.2 (by decide +kernel)), if_neg (fun h => absurd h.2 (by decide +kernel)), if_neg (fun h => absurd h.1 (by decide +kernel)), if_neg (by decide +kernel),
    if_neg (by decide +kernel), if_neg (by decide +kernel)]
  refine ⟨fun _ => by intro d hd; fin_cases hd <;> assumption, fun _ => ?_⟩
  rw [if_pos (by
    rw [h.snapshotFormat, h.meanings, h.blockMins, h.blockMaxes, h.snapMin, h.snapMax, h.logging]
    exact (show Env.validateFormat ⟨chars "path/to/snapshots/snapdir_%03d/snapshot_%03d.%d", [chars "Snapshot", chars "Snapshot", chars "Block"], none, [0], [511], 0, 100⟩
      (chars "nil") = true by decide +kernel))]
  exact ⟨_, rfl⟩

theorem toGlobal_good (st : List (Val F)) (h : List.Forall₂ (fun (g : Val F → Prop) v => g v) [fun v => v = .string (chars "1.0.4"), fun v => v = .string (chars "path/to/snapshots/snapdir_%03d/snapshot_%03d.%d"), fun v => v = .string (chars "LGadget-2"),
    fun v => v = .string (chars "path/to/halos/dir/"), fun v => v = .string (chars "Text"), fun v => v = .string (chars "path/to/merger/tree/dir/"),
    fun v => v = .string (chars "consistent-trees") ∨ v = .string (chars "nil"), fun v => v = .string (chars "path/to/memo/dir/"), fun v => v = .strings [chars "ID",
    chars "X", chars "Y", chars "Z", chars "M200m"], fun v => v = .ints [0, 2, 3, 4, 20], fun v => v = .strings [chars "\"int\"", chars "\"cMpc/h\"", chars "\"cMpc/h\"",
    chars "\"cMpc/h\"", chars "\"Msun/h\""], fun v => v = .string (chars "cMpc/h"), fun v => v = .string (chars "ckpc/h"), fun v => v = .string (chars "Msun/h"),
    fun v => v = .strings [chars "Snapshot", chars "Snapshot", chars "Block"], fun v => ∃ s, v = .string s, fun v => v = .ints [0], fun v => v = .ints [511],
    fun v => v = .int 0, fun v => v = .int 100, fun v => v = .string (chars "SystemOrder"), fun v => ∃ b, v = .bool b, fun v => v = .int (-1),
    fun v => v = .string (chars "nil"), fun v => ∃ l, v = .ints l, fun v => ∃ l, v = .ints l, fun v => ∃ x, v = .float x, fun v => ∃ x, v = .float x, fun v => v = .int 2,
    fun v => ∃ x, v = .float x, fun v => ∃ x, v = .float x, fun v => ∃ x, v = .float x, fun v => ∃ l, v = .floats l, fun v => ∃ x, v = .float x] st) : ∃ g, toGlobal st = some g ∧ ExampleLike g := by
  obtain ⟨v0, st0, g0, h0, rfl⟩ := List.forall₂_cons_left_iff.mp h
  obtain ⟨v1, st1, g1, h1, rfl⟩ := List.forall₂_cons_left_iff.mp h0
  obtain ⟨v2, st2, g2, h2, rfl⟩ := List.forall₂_cons_left_iff.mp h1
  obtain ⟨v3, st3, g3, h3, rfl⟩ := List.forall₂_cons_left_iff.mp h2
  obtain ⟨v4, st4, g4, h4, rfl⟩ := List.forall₂_cons_left_iff.mp h3
  obtain ⟨v5, st5, g5, h5, rfl⟩ := List.forall₂_cons_left_iff.mp h4
  obtain ⟨v6, st6, g6, h6, rfl⟩ := List.forall₂_cons_left_iff.mp h5
  obtain ⟨v7, st7, g7, h7, rfl⟩ := List.forall₂_cons_left_iff.mp h6
  obtain ⟨v8, st8, g8, h8, rfl⟩ := List.forall₂_cons_left_iff.mp h7
  obtain ⟨v9, st9, g9, h9, rfl⟩ := List.forall₂_cons_left_iff.mp h8
  obtain ⟨v10, st10, g10, h10, rfl⟩ := List.forall₂_cons_left_iff.mp h9
  obtain ⟨v11, st11, g11, h11, rfl⟩ := List.forall₂_cons_left_iff.mp h10
  obtain ⟨v12, st12, g12, h12, rfl⟩ := List.forall₂_cons_left_iff.mp h11
  obtain ⟨v13, st13, g13, h13, rfl⟩ := List.forall₂_cons_left_iff.mp h12
  obtain ⟨v14, st14, g14, h14, rfl⟩ := List.forall₂_cons_left_iff.mp h13
  obtain ⟨v15, st15, g15, h15, rfl⟩ := List.forall₂_cons_left_iff.mp h14
  obtain ⟨v16, st16, g16, h16, rfl⟩ := List.forall₂_cons_left_iff.mp h15
  obtain ⟨v17, st17, g17, h17, rfl⟩ := List.forall₂_cons_left_iff.mp h16
  obtain ⟨v18, st18, g18, h18, rfl⟩ := List.forall₂_cons_left_iff.mp h17
  obtain ⟨v19, st19, g19, h19, rfl⟩ := List.forall₂_cons_left_iff.mp h18
  obtain ⟨v20, st20, g20, h20, rfl⟩ := List.forall₂_cons_left_iff.mp h19
  obtain ⟨v21, st21, g21, h21, rfl⟩ := List.forall₂_cons_left_iff.mp h20
  obtain ⟨v22, st22, g22, h22, rfl⟩ := List.forall₂_cons_left_iff.mp h21
  obtain ⟨v23, st23, g23, h23, rfl⟩ := List.forall₂_cons_left_iff.mp h22
  obtain ⟨v24, st24, g24, h24, rfl⟩ := List.forall₂_cons_left_iff.mp h23
  obtain ⟨v25, st25, g25, h25, rfl⟩ := List.forall₂_cons_left_iff.mp h24
  obtain ⟨v26, st26, g26, h26, rfl⟩ := List.forall₂_cons_left_iff.mp h25
  obtain ⟨v27, st27, g27, h27, rfl⟩ := List.forall₂_cons_left_iff.mp h26
  obtain ⟨v28, st28, g28, h28, rfl⟩ := List.forall₂_cons_left_iff.mp h27
  obtain ⟨v29, st29, g29, h29, rfl⟩ := List.forall₂_cons_left_iff.mp h28
  obtain ⟨v30, st30, g30, h30, rfl⟩ := List.forall₂_cons_left_iff.mp h29
  obtain ⟨v31, st31, g31, h31, rfl⟩ := List.forall₂_cons_left_iff.mp h30
  obtain ⟨v32, st32, g32, h32, rfl⟩ := List.forall₂_cons_left_iff.mp h31
  obtain ⟨v33, st33, g33, h33, rfl⟩ := List.forall₂_cons_left_iff.mp h32
  cases List.forall₂_nil_left_iff.mp h33
  subst g0
  subst g1
  subst g2
  subst g3
  subst g4
  subst g5
  subst g7
  subst g8
  subst g9
  subst g10
  subst g11
  subst g12
  subst g13
  subst g14
  obtain ⟨_, rfl⟩ := g15
  subst g16
  subst g17
  subst g18
  subst g19
  subst g20
  obtain ⟨_, rfl⟩ := g21
  subst g22
  subst g23
  obtain ⟨_, rfl⟩ := g24
  obtain ⟨_, rfl⟩ := g25
  obtain ⟨_, rfl⟩ := g26
  obtain ⟨_, rfl⟩ := g27
  subst g28
  obtain ⟨_, rfl⟩ := g29
  obtain ⟨_, rfl⟩ := g30
  obtain ⟨_, rfl⟩ := g31
  obtain ⟨_, rfl⟩ := g32
  obtain ⟨_, rfl⟩ := g33
  rcases g6 with rfl | rfl
  · exact ⟨_, rfl, ⟨rfl, rfl, rfl, rfl, rfl, rfl, Or.inl rfl, rfl, rfl, rfl, rfl, rfl, rfl, rfl, rfl, rfl, rfl, rfl, rfl, rfl, rfl, rfl, rfl⟩⟩
  · exact ⟨_, rfl, ⟨rfl, rfl, rfl, rfl, rfl, rfl, Or.inr rfl, rfl, rfl, rfl, rfl, rfl, rfl, rfl, rfl, rfl, rfl, rfl, rfl, rfl, rfl, rfl, rfl⟩⟩

/-- C51 (global configuration): a file with the settings of the example, with or without any of the optional ones (except the scale factors of a nil snapshot), is accepted if and only if
the three directories exist or can be made. -/
theorem C51_global (hL : GoLib L) (fs : Str → PathState) (file : Str) (pairs : List (Str × Str)) (hfile : FileOf L.toLib (chars "config") pairs file)
    (hsub : ∀ p ∈ pairs, p ∈ globalOffered) (hreq : ∀ n ∈ globalRequired, ∃ p ∈ pairs, p.1 = n) :
    (∃ g, globalRead L fs (some file) = some g) ↔ ∀ d ∈ [chars "path/to/halos/dir/", chars "path/to/merger/tree/dir/", chars "path/to/memo/dir/"], fs d = .dir ∨ fs d = .creatable := by
  have hw : WellDeclared L.toLib globalVars.decls (globalDefaults L) := wellDeclared_of _ hL.lower _ _ rfl (by decide +kernel) (by decide +kernel)
  obtain ⟨st, h1, h2⟩ := read_offered L.toLib globalVars (globalDefaults L) hw globalOffered [(0, .string (chars "1.0.4")), (2, .string (chars "LGadget-2")), (4, .string (chars "Text")), (6, .string (chars "consistent-trees")), (8, .strings [chars "ID", chars "X",
    chars "Y", chars "Z", chars "M200m"]), (9, .ints [0, 2, 3, 4, 20]), (10, .strings [chars "\"int\"", chars "\"cMpc/h\"", chars "\"cMpc/h\"", chars "\"cMpc/h\"",
    chars "\"Msun/h\""]), (11, .string (chars "cMpc/h")), (12, .string (chars "ckpc/h")), (13, .string (chars "Msun/h")),
    (1, .string (chars "path/to/snapshots/snapdir_%03d/snapshot_%03d.%d")), (14, .strings [chars "Snapshot", chars "Snapshot", chars "Block"]), (16, .ints [0]),
    (17, .ints [511]), (18, .int 0), (19, .int 100), (15, .string (chars "path/to/file.txt")), (3, .string (chars "path/to/halos/dir/")),
    (5, .string (chars "path/to/merger/tree/dir/")), (7, .string (chars "path/to/memo/dir/")), (20, .string (chars "SystemOrder")), (22, .int (-1)),
    (23, .string (chars "nil")), (24, .ints [1]), (25, .ints [0, 1, 2, 3, 4, 5]), (26, .float (L.const 1)), (27, .float (L.const 1)), (28, .int 2),
    (29, .float (L.const (27/100))), (30, .float (L.const (73/100))), (31, .float (L.const (7/10))), (33, .float (L.const 250))]
      [fun v => v = .string (chars "1.0.4"), fun v => v = .string (chars "path/to/snapshots/snapdir_%03d/snapshot_%03d.%d"), fun v => v = .string (chars "LGadget-2"),
    fun v => v = .string (chars "path/to/halos/dir/"), fun v => v = .string (chars "Text"), fun v => v = .string (chars "path/to/merger/tree/dir/"),
    fun v => v = .string (chars "consistent-trees") ∨ v = .string (chars "nil"), fun v => v = .string (chars "path/to/memo/dir/"), fun v => v = .strings [chars "ID",
    chars "X", chars "Y", chars "Z", chars "M200m"], fun v => v = .ints [0, 2, 3, 4, 20], fun v => v = .strings [chars "\"int\"", chars "\"cMpc/h\"", chars "\"cMpc/h\"",
    chars "\"cMpc/h\"", chars "\"Msun/h\""], fun v => v = .string (chars "cMpc/h"), fun v => v = .string (chars "ckpc/h"), fun v => v = .string (chars "Msun/h"),
    fun v => v = .strings [chars "Snapshot", chars "Snapshot", chars "Block"], fun v => ∃ s, v = .string s, fun v => v = .ints [0], fun v => v = .ints [511],
    fun v => v = .int 0, fun v => v = .int 100, fun v => v = .string (chars "SystemOrder"), fun v => ∃ b, v = .bool b, fun v => v = .int (-1),
    fun v => v = .string (chars "nil"), fun v => ∃ l, v = .ints l, fun v => ∃ l, v = .ints l, fun v => ∃ x, v = .float x, fun v => ∃ x, v = .float x, fun v => v = .int 2,
    fun v => ∃ x, v = .float x, fun v => ∃ x, v = .float x, fun v => ∃ x, v = .float x, fun v => ∃ l, v = .floats l, fun v => ∃ x, v = .float x] rfl (by
      unfold globalOffered
      offers_all
      offer hL
      all_goals first
        | exact ⟨_, rfl⟩
        | exact Or.inl rfl
        | exact Or.inr rfl) [1, 2, 3, 4, 5, 7, 8, 9, 10, 11, 12, 13, 14, 16, 17, 18, 19] (by
      intro j v g hv hg
      have hj : j < 34 := (List.getElem?_eq_some_iff.mp hv).1
      interval_cases j <;> cases hv <;> cases hg
      all_goals first
        | exact Or.inl rfl
        | exact Or.inl ⟨_, rfl⟩
        | exact Or.inl (Or.inl rfl)
        | exact Or.inl (Or.inr rfl)
        | exact Or.inr (by decide)) file pairs hfile hsub (by
      intro j hj d hd
      have : ∀ j ∈ [1, 2, 3, 4, 5, 7, 8, 9, 10, 11, 12, 13, 14, 16, 17, 18, 19], ∀ d ∈ globalVars.decls[j]?, d.1 ∈ globalRequired := by decide +kernel
      exact hreq d.1 (this j hj d hd))
  unfold globalRead
  rw [h1]
  dsimp only
  obtain ⟨g, hg, he⟩ := toGlobal_good st h2
  rw [hg, Option.bind_some]
  exact globalValidate_like L fs g he

/-- The example itself. -/
theorem C51_example_global (hL : GoLib L) (fs : Str → PathState) : (∃ g, globalRead L fs (some globalExample) = some g) ↔
    ∀ d ∈ [chars "path/to/halos/dir/", chars "path/to/merger/tree/dir/", chars "path/to/memo/dir/"], fs d = .dir ∨ fs d = .creatable := by
  refine C51_global L hL fs globalExample [(chars "Version", chars "1.0.4"), (chars "SnapshotType", chars "LGadget-2"), (chars "HaloType", chars "Text"), (chars "TreeType", chars "consistent-trees"),
      (chars "HaloValueNames", chars "ID, X, Y, Z, M200m"), (chars "HaloValueColumns", chars "0, 2, 3, 4, 20"),
      (chars "HaloValueComments", chars "\"int\", \"cMpc/h\", \"cMpc/h\", \"cMpc/h\", \"Msun/h\""), (chars "HaloPositionUnits", chars "cMpc/h"),
      (chars "HaloRadiusUnits", chars "ckpc/h"), (chars "HaloMassUnits", chars "Msun/h"),
      (chars "SnapshotFormat", chars "path/to/snapshots/snapdir_%03d/snapshot_%03d.%d"), (chars "SnapshotFormatMeanings", chars "Snapshot, Snapshot, Block"),
      (chars "BlockMins", chars "0"), (chars "BlockMaxes", chars "511"), (chars "SnapMin", chars "0"), (chars "SnapMax", chars "100"),
      (chars "HaloDir", chars "path/to/halos/dir/"), (chars "TreeDir", chars "path/to/merger/tree/dir/"), (chars "MemoDir", chars "path/to/memo/dir/"),
      (chars "Endianness", chars "SystemOrder"), (chars "Threads", chars "-1"), (chars "Logging", chars "nil")] ?_ (by decide +kernel) (by decide +kernel)
  exact fileOf_lines _ hL.lower _ _ [chars "Version = 1.0.4", chars "SnapshotType = LGadget-2", chars "HaloType = Text", chars "TreeType = consistent-trees",
      chars "HaloValueNames = ID, X, Y, Z, M200m", chars "HaloValueColumns = 0, 2, 3, 4, 20",
      chars "HaloValueComments = \"int\", \"cMpc/h\", \"cMpc/h\", \"cMpc/h\", \"Msun/h\"", chars "HaloPositionUnits = cMpc/h", chars "HaloRadiusUnits = ckpc/h",
      chars "HaloMassUnits = Msun/h", chars "SnapshotFormat = path/to/snapshots/snapdir_%03d/snapshot_%03d.%d",
      chars "SnapshotFormatMeanings = Snapshot, Snapshot, Block", chars "BlockMins = 0", chars "BlockMaxes = 511", chars "SnapMin = 0", chars "SnapMax = 100",
      chars "HaloDir = path/to/halos/dir/", chars "TreeDir = path/to/merger/tree/dir/", chars "MemoDir = path/to/memo/dir/", chars "Endianness = SystemOrder",
      chars "Threads = -1", chars "Logging = nil"] _
    (by decide) (by decide +kernel) (by decide +kernel) (by decide +kernel) (by decide +kernel) (by decide +kernel)

/-- C51 is false of the scale factors for a nil snapshot: if their line is used as the example shows it, the file is rejected (a number cannot begin with a bracket). -/
theorem C51_nilscale_false (hL : GoLib L) (hbr : ∀ s, L.parseFloat ('[' :: s) = none) (fs : Str → PathState) (file name : Str) (pairs : List (Str × Str))
    (hfile : FileOf L.toLib name pairs file) (p : Str × Str) (hp : p ∈ pairs) (hoff : p ∈ offers globalVars globalExample) (hn : p.1 = chars "NilSnapScaleFactors") :
    globalRead L fs (some file) = none := by
  have hw : WellDeclared L.toLib globalVars.decls (globalDefaults L) := wellDeclared_of _ hL.lower _ _ rfl (by decide +kernel) (by decide +kernel)
  have hv : ∃ r, strToList p.2 = ('[' :: chars "0.06635") :: r := by
    have : ∀ p ∈ offers globalVars globalExample, p.1 = chars "NilSnapScaleFactors" → (strToList p.2).head? = some ('[' :: chars "0.06635") := by
      unfold globalExample
      rw [offers_lines _ _ (by decide) (by decide +kernel)]
      decide +kernel
    exact List.head?_eq_some_iff.mp (this p hoff hn)
  unfold globalRead
  cases hr : readConfig L.toLib globalVars (some file) (globalDefaults L) with
  | err e s => rfl
  | panic => rfl
  | ok s =>
    exfalso
    obtain ⟨lines, pairs', hsig, hass, hacc, hup⟩ := (C05_success_iff L.toLib globalVars file _ s hw).mp hr
    obtain ⟨lines', hsig', hass', -⟩ := hfile
    rw [hsig'] at hsig
    have hll := (List.cons.inj hsig).2
    subst hll
    have e : pairs = pairs' := by
      have h1 := (associationList_inr 0 _ _).mpr hass
      have h2 := (associationList_inr 0 _ _).mpr hass'
      rw [h1] at h2
      exact (Sum.inr.inj h2).symm
    subst e
    obtain ⟨v, ⟨l, hc, -⟩, -⟩ := (hup.2 32 (chars "NilSnapScaleFactors", .floats) rfl).1 p hp (by rw [hn]; rfl)
    obtain ⟨r, hr⟩ := hv
    have hc' := (listOf_iff _ _ _).mpr hc
    rw [hr] at hc'
    unfold listConv at hc'
    rw [hbr] at hc'
    cases hc'

/-! ### The assumptions hold of a library -/

/-- A library: the rational numbers, and a `ParseFloat` that knows the literals only. -/
def ratLib : FLib ℚ := { lower := fun s => s.map Char.toLower, parseFloat := fun s => (literals.find? fun e => decide (e.1 = s)).map Prod.snd, const := id, lt := fun a b => decide (a < b), le := fun a b => decide (a ≤ b) }

theorem ratLib_goLib : GoLib ratLib where
  lower _ _ := rfl
  parse := by intro e he; unfold literals at he; fin_cases he <;> rfl
  pos := fun e _ h => decide_eq_false (not_le.mpr h)
  nonneg := fun e _ h => decide_eq_false (not_lt.mpr h)
  lt := decide_eq_false (by show ¬ (3 : ℚ) ≤ 3/10; norm_num)

example : (shellMode ratLib).read ratLib.toLib (some (some shellExample)) [] = .ok (shellMode ratLib).defaults := C51_example_shell _ ratLib_goLib

example : ∃ g, globalRead ratLib (fun _ => .dir) (some globalExample) = some g := (C51_example_global _ ratLib_goLib _).mpr (fun _ _ => Or.inl rfl)

example : FileOf ratLib.toLib (chars "prof.config") [(chars "NCells", chars "64")] (chars "[prof.config]\nNCells = 64") :=
  fileOf_lines ratLib.toLib (fun _ _ => rfl) _ [chars "[prof.config]", chars "NCells = 64"] [chars "NCells = 64"] _ (by decide) (by decide +kernel) (by decide +kernel) (by decide +kernel)
    (by decide +kernel) (by decide +kernel)

example : ∃ st, (phaseMode ratLib).read ratLib.toLib (some (some (chars "[prof.config]\nProfileType = radial\nVBins = 100"))) [] = .ok st :=
  C51_phase_partial ratLib ratLib_goLib _ [(chars "ProfileType", chars "radial"), (chars "VBins", chars "100")]
    (fileOf_lines ratLib.toLib (fun _ _ => rfl) _ [chars "[prof.config]", chars "ProfileType = radial", chars "VBins = 100"] [chars "ProfileType = radial", chars "VBins = 100"] _
      (by decide) (by decide +kernel) (by decide +kernel) (by decide +kernel) (by decide +kernel) (by decide +kernel))
    (by rw [phase_offers]; decide) ⟨_, List.mem_cons_self, rfl⟩

example : ∀ s, ratLib.parseFloat ('[' :: s) = none := by
  intro s
  simp [ratLib, literals]

end Shellfish.Modes
