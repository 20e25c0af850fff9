/-
C71: the validation of the global configuration.
-/
import Verif.Props.Params

namespace Shellfish.Modes
open Shellfish.Config Shellfish.Text

variable {F : Type} [DecidableEq F] (L : FLib F)

set_option maxRecDepth 100000

/-! ### Specification -/

/-- The directory exists or can be made. -/
def Usable (fs : Str → PathState) (d : Str) : Prop := d ≠ [] ∧ (fs d = .dir ∨ fs d = .creatable)

/-- The text is one of these. -/
def Among (s : Str) (l : List String) : Prop := ∃ t ∈ l, s = t.toList

/-- The supported length units. -/
def lengthNames : List String := ["cMpc/h", "ckpc/h", "pMpc/h", "pkpc/h", "cMpc", "ckpc", "pMpc", "pkpc"]

/-- What is needed to read halo catalogs: units (blanks do not count), directories, and the columns of ID, X, Y, Z and M200m. -/
structure HalosOk (fs : Str → PathState) (g : Global F) : Prop where
  position : Among (g.positionUnits.filter (· ≠ ' ')) lengthNames
  radius : Among (g.radiusUnits.filter (· ≠ ' ')) lengthNames
  mass : g.massUnits.filter (· ≠ ' ') = "Msun/h".toList
  haloDir : Usable fs g.haloDir
  treeDir : Usable fs g.treeDir
  columns : g.valueNames.length = g.valueColumns.length
  names : ∀ n ∈ ["ID", "X", "Y", "Z", "M200m"], n.toList ∈ g.valueNames

/-- What is needed in place of snapshots: the settings are not at their default. -/
structure NilOk (g : Global F) : Prop where
  omegaM : g.nilOmegaM ≠ L.const (-1)
  omegaL : g.nilOmegaL ≠ L.const (-1)
  h100 : g.nilH100 ≠ L.const (-1)
  width : g.nilWidth ≠ L.const (-1)
  scales : g.nilScales ≠ []

/-- The version is that of the source or an earlier one with the same major number. -/
def NotFuture (s : Str) : Prop := ∃ patch, Version.parse s = some (1, 0, patch) ∧ patch ≤ 4

/-- The conditions on the global settings that the code checks; `nils` stands for the condition on the settings for a nil snapshot and `ver` for that on the version. -/
structure GlobalOk (fs : Str → PathState) (ver : Str → Prop) (nils : Global F → Prop) (g : Global F) : Prop where
  version : ver g.version
  snapshotType : Among g.snapshotType ["gotetra", "LGadget-2", "Gadget-2", "ARTIO", "Bolshoi", "BolshoiP", "nil"]
  haloType : g.haloType = "nil".toList ∨ g.haloType = "Text".toList ∧ HalosOk fs g
  treeType : Among g.treeType ["consistent-trees", "nil"]
  memoDir : Usable fs g.memoDir
  nilSnap : g.snapshotType = "nil".toList → nils g
  endianness : Among g.endianness ["LittleEndian", "BigEndian", "SystemOrder"]
  columns : g.valueNames.length = g.valueColumns.length ∧ g.valueNames.length = g.valueComments.length
  npart : g.npart = 1 ∨ g.npart = 2
  format : Env.validateFormat ⟨g.snapshotFormat, g.meanings, some g.scaleFactorFile, g.blockMins, g.blockMaxes, g.snapMin, g.snapMax⟩ g.logging = true

/-- The settings that are used: blanks in units do not count, and without halo catalogs there are fixed units. -/
def normalised (g : Global F) : Global F :=
  if g.haloType = "nil".toList then { g with positionUnits := "cMpc/h".toList, radiusUnits := "cMpc/h".toList, massUnits := "Msun/h".toList }
  else { g with positionUnits := g.positionUnits.filter (· ≠ ' '), radiusUnits := g.radiusUnits.filter (· ≠ ' '), massUnits := g.massUnits.filter (· ≠ ' ') }

/-! ### Lemmas -/

omit [DecidableEq F] in
theorem among_iff (s : Str) (l : List String) : s ∈ l.map String.toList ↔ Among s l := by
  unfold Among
  rw [List.mem_map]
  exact ⟨fun ⟨t, h, e⟩ => ⟨t, h, e.symm⟩, fun ⟨t, h, e⟩ => ⟨t, h, e.symm⟩⟩

theorem noBlanks_eq (s : Str) : noBlanks s = s.filter (· ≠ ' ') := by
  unfold noBlanks
  induction s with
  | nil => rfl
  | cons c s ih =>
    cases hs : splitOn ' ' s with
    | nil => exact absurd hs (splitOn_ne_nil _ _)
    | cons h t =>
      by_cases hc : c = ' '
      · subst hc
        rw [splitOn, if_pos rfl, List.flatten_cons, List.nil_append, ih, List.filter_cons_of_neg (by simp)]
      · rw [splitOn, if_neg hc, hs, List.filter_cons_of_pos (by simpa using hc), ← ih, hs]
        rfl

theorem versionOk_iff (v : Str) : versionOk v sourceVersion = true ↔
    NotFuture v ∨ ∃ major minor patch, Version.parse v = some (major, minor, patch) ∧ 2 ≤ major := by
  have hs : Version.parse sourceVersion = some (1, 0, 4) := by decide +kernel
  unfold versionOk NotFuture
  rw [hs]
  cases hv : Version.parse v with
  | none => simp
  | some t =>
    obtain ⟨major, minor, patch⟩ := t
    have hpos : 0 ≤ major ∧ 0 ≤ minor ∧ 0 ≤ patch := by
      unfold Version.parse at hv
      dsimp only at hv
      split at hv
      · rename_i t0 t1 t2 _
        cases h0 : atoi t0 <;> cases h1 : atoi t1 <;> cases h2 : atoi t2 <;> simp [h0, h1, h2] at hv
        omega
      · cases hv
    dsimp only
    simp only [Option.some.injEq, Prod.mk.injEq]
    by_cases h0 : major = 0
    · rw [if_pos ⟨Or.inr h0, Or.inl (by omega)⟩]
      refine ⟨fun h => (nomatch h), ?_⟩
      rintro (⟨p, ⟨h1, _⟩, _⟩ | ⟨_, _, _, ⟨h1, _⟩, _⟩) <;> omega
    · rw [if_neg (by omega)]
      by_cases h1 : major = 1
      · by_cases h2 : minor > 0 ∨ patch > 4
        · rw [if_pos ⟨⟨trivial, h1⟩, h2⟩]
          refine ⟨fun h => (nomatch h), ?_⟩
          rintro (⟨p, ⟨_, e1, e2⟩, _⟩ | ⟨_, _, _, ⟨h1, _⟩, _⟩) <;> omega
        · rw [if_neg (by tauto)]
          exact ⟨fun _ => Or.inl ⟨patch, ⟨h1, by omega, rfl⟩, by omega⟩, fun _ => rfl⟩
      · rw [if_neg (by tauto)]
        exact ⟨fun _ => Or.inr ⟨_, _, _, ⟨rfl, rfl, rfl⟩, by omega⟩, fun _ => rfl⟩

/-- The condition of the code on the settings for a nil snapshot. -/
def NilCode (g : Global F) : Prop :=
  g.nilOmegaM ≠ L.const (-1) ∧ (g.nilOmegaL = L.const (-1) ∨ g.nilH100 ≠ L.const (-1) ∧ g.nilWidth ≠ L.const (-1) ∧ g.nilScales ≠ [])

theorem nilOk_iff (g : Global F) : nilOk L g = true ↔ NilCode L g := by
  unfold nilOk NilCode
  by_cases h1 : g.nilOmegaM = L.const (-1)
  · simp [h1]
  · by_cases h2 : g.nilOmegaL = L.const (-1)
    · simp [h1, h2]
    · by_cases h3 : g.nilH100 = L.const (-1)
      · simp [h1, h2, h3]
      · by_cases h4 : g.nilWidth = L.const (-1)
        · simp [h1, h2, h3, h4]
        · by_cases h5 : g.nilScales = []
          · simp [h1, h2, h3, h4, h5]
          · simp [h1, h2, h3, h4, h5]

theorem usable_iff (fs : Str → PathState) (d : Str) : ¬ (d = [] ∨ dirOk fs d = false) ↔ Usable fs d := by
  rw [dirOk_false_iff]
  unfold Usable
  tauto

/-- The condition of the code on the version. -/
def VersionCode (v : Str) : Prop := NotFuture v ∨ ∃ major minor patch, Version.parse v = some (major, minor, patch) ∧ 2 ≤ major

theorem ite_none_iff {α : Type} {c : Prop} [Decidable c] {x : Option α} {g : α} : (if c then none else x) = some g ↔ ¬ c ∧ x = some g := by
  by_cases h : c <;> simp [h]

theorem ite_some_iff {α : Type} {c : Prop} [Decidable c] {x g : α} : (if c then some x else none) = some g ↔ c ∧ g = x := by
  by_cases h : c
  · simp [h, eq_comm]
  · simp [h]

theorem nilOk_units (g : Global F) (a b c : Str) : nilOk L { g with positionUnits := a, radiusUnits := b, massUnits := c } = nilOk L g := rfl

theorem not_nilOk (g : Global F) : nilOk L g = false ↔ ¬ NilCode L g := by
  rw [← nilOk_iff, Bool.not_eq_true]

theorem globalValidate_iff (fs : Str → PathState) (g g' : Global F) :
    globalValidate L fs g = some g' ↔ GlobalOk fs VersionCode (NilCode L) g ∧ g' = normalised g := by
  unfold globalValidate
  dsimp only
  by_cases hn : g.haloType = "nil".toList
  · have hne : ¬ g.haloType ≠ "nil".toList := fun h => h hn
    simp only [if_neg hne, hne, false_and, if_false, ite_none_iff, ite_some_iff, among_iff, versionOk_iff, not_not, usable_iff, nilOk_units, not_nilOk]
    constructor
    · rintro ⟨h1, h2, h3, h4, h5, h6, h7, h8, h9, h10, h11⟩
      refine ⟨⟨h1, h2, Or.inl hn, h4, h5, fun h => by_contra fun h' => h6 ⟨h, h'⟩, h7, by omega, by omega, h10⟩, ?_⟩
      rw [h11, normalised, if_pos hn]
    · rintro ⟨⟨h1, h2, h3, h4, h5, h6, h7, h8, h9, h10⟩, h11⟩
      refine ⟨h1, h2, ?_, h4, h5, fun h => h.2 (h6 h.1), h7, by omega, by omega, h10, ?_⟩
      · rw [hn]; exact ⟨"nil", by simp, rfl⟩
      · rw [h11, normalised, if_pos hn]
  · simp only [if_pos (show g.haloType ≠ "nil".toList from hn), show (g.haloType ≠ "nil".toList) = True from eq_true hn, true_and, if_true, ite_none_iff, ite_some_iff, among_iff, versionOk_iff,
      not_not, usable_iff, nilOk_units, not_nilOk]
    constructor
    · rintro ⟨h1, h2, h3, h3a, h4, hd, ht, h5, hc, hnm, h6, h7, h8, h9, h10, h11⟩
      push Not at h3a
      have hT : g.haloType = "Text".toList := by
        obtain ⟨t, ht, e⟩ := h3
        rcases List.mem_cons.mp ht with rfl | ht
        · exact e
        · rw [List.mem_singleton.mp ht] at e; exact absurd e hn
      refine ⟨⟨h1, h2, Or.inr ⟨hT, ⟨?_, ?_, ?_, hd, ht, by omega, ?_⟩⟩, h4, h5, fun h => by_contra fun h' => h6 ⟨h, h'⟩, h7, by omega, by omega, h10⟩, ?_⟩
      · rw [← noBlanks_eq]; exact (among_iff _ lengthNames).mp h3a.1
      · rw [← noBlanks_eq]; exact (among_iff _ lengthNames).mp h3a.2.1
      · rw [← noBlanks_eq]; exact h3a.2.2
      · intro n hn'
        by_contra hx
        exact hnm ⟨n.toList, ⟨n, hn', rfl⟩, hx⟩
      · rw [h11, normalised, if_neg hn, ← noBlanks_eq, ← noBlanks_eq, ← noBlanks_eq]
    · rintro ⟨⟨h1, h2, h3, h4, h5, h6, h7, h8, h9, h10⟩, h11⟩
      obtain ⟨hT, h⟩ := h3.resolve_left hn
      have hlen : g.valueNames.length ≠ 0 := by
        have := h.names "ID" (by simp)
        intro e
        rw [List.length_eq_zero_iff] at e
        rw [e] at this
        cases this
      refine ⟨h1, h2, ?_, ?_, h4, h.haloDir, h.treeDir, h5, ?_, ?_, fun h => h.2 (h6 h.1), h7, by omega, by omega, h10, ?_⟩
      · rw [hT]; exact ⟨"Text", by simp, rfl⟩
      · push Not
        rw [noBlanks_eq, noBlanks_eq, noBlanks_eq]
        exact ⟨(among_iff _ lengthNames).mpr h.position, (among_iff _ lengthNames).mpr h.radius, h.mass⟩
      · have := h.columns; omega
      · rintro ⟨n, hn', hx⟩
        obtain ⟨t, ht, rfl⟩ := hn'
        exact hx (h.names t ht)
      · rw [h11, normalised, if_neg hn, ← noBlanks_eq, ← noBlanks_eq, ← noBlanks_eq]

omit [DecidableEq F] in
theorem toGlobal_typed (st : List (Val F)) (h : Typed globalVars.decls st) : ∃ g, toGlobal st = some g := by
  obtain ⟨_, s0, ⟨x0, rfl⟩, h0, rfl⟩ := List.forall₂_cons_left_iff.mp h
  obtain ⟨_, s1, ⟨x1, rfl⟩, h1, rfl⟩ := List.forall₂_cons_left_iff.mp h0
  obtain ⟨_, s2, ⟨x2, rfl⟩, h2, rfl⟩ := List.forall₂_cons_left_iff.mp h1
  obtain ⟨_, s3, ⟨x3, rfl⟩, h3, rfl⟩ := List.forall₂_cons_left_iff.mp h2
  obtain ⟨_, s4, ⟨x4, rfl⟩, h4, rfl⟩ := List.forall₂_cons_left_iff.mp h3
  obtain ⟨_, s5, ⟨x5, rfl⟩, h5, rfl⟩ := List.forall₂_cons_left_iff.mp h4
  obtain ⟨_, s6, ⟨x6, rfl⟩, h6, rfl⟩ := List.forall₂_cons_left_iff.mp h5
  obtain ⟨_, s7, ⟨x7, rfl⟩, h7, rfl⟩ := List.forall₂_cons_left_iff.mp h6
  obtain ⟨_, s8, ⟨x8, rfl⟩, h8, rfl⟩ := List.forall₂_cons_left_iff.mp h7
  obtain ⟨_, s9, ⟨x9, rfl⟩, h9, rfl⟩ := List.forall₂_cons_left_iff.mp h8
  obtain ⟨_, s10, ⟨x10, rfl⟩, h10, rfl⟩ := List.forall₂_cons_left_iff.mp h9
  obtain ⟨_, s11, ⟨x11, rfl⟩, h11, rfl⟩ := List.forall₂_cons_left_iff.mp h10
  obtain ⟨_, s12, ⟨x12, rfl⟩, h12, rfl⟩ := List.forall₂_cons_left_iff.mp h11
  obtain ⟨_, s13, ⟨x13, rfl⟩, h13, rfl⟩ := List.forall₂_cons_left_iff.mp h12
  obtain ⟨_, s14, ⟨x14, rfl⟩, h14, rfl⟩ := List.forall₂_cons_left_iff.mp h13
  obtain ⟨_, s15, ⟨x15, rfl⟩, h15, rfl⟩ := List.forall₂_cons_left_iff.mp h14
  obtain ⟨_, s16, ⟨x16, rfl⟩, h16, rfl⟩ := List.forall₂_cons_left_iff.mp h15
  obtain ⟨_, s17, ⟨x17, rfl⟩, h17, rfl⟩ := List.forall₂_cons_left_iff.mp h16
  obtain ⟨_, s18, ⟨x18, rfl⟩, h18, rfl⟩ := List.forall₂_cons_left_iff.mp h17
  obtain ⟨_, s19, ⟨x19, rfl⟩, h19, rfl⟩ := List.forall₂_cons_left_iff.mp h18
  obtain ⟨_, s20, ⟨x20, rfl⟩, h20, rfl⟩ := List.forall₂_cons_left_iff.mp h19
  obtain ⟨_, s21, ⟨x21, rfl⟩, h21, rfl⟩ := List.forall₂_cons_left_iff.mp h20
  obtain ⟨_, s22, ⟨x22, rfl⟩, h22, rfl⟩ := List.forall₂_cons_left_iff.mp h21
  obtain ⟨_, s23, ⟨x23, rfl⟩, h23, rfl⟩ := List.forall₂_cons_left_iff.mp h22
  obtain ⟨_, s24, ⟨x24, rfl⟩, h24, rfl⟩ := List.forall₂_cons_left_iff.mp h23
  obtain ⟨_, s25, ⟨x25, rfl⟩, h25, rfl⟩ := List.forall₂_cons_left_iff.mp h24
  obtain ⟨_, s26, ⟨x26, rfl⟩, h26, rfl⟩ := List.forall₂_cons_left_iff.mp h25
  obtain ⟨_, s27, ⟨x27, rfl⟩, h27, rfl⟩ := List.forall₂_cons_left_iff.mp h26
  obtain ⟨_, s28, ⟨x28, rfl⟩, h28, rfl⟩ := List.forall₂_cons_left_iff.mp h27
  obtain ⟨_, s29, ⟨x29, rfl⟩, h29, rfl⟩ := List.forall₂_cons_left_iff.mp h28
  obtain ⟨_, s30, ⟨x30, rfl⟩, h30, rfl⟩ := List.forall₂_cons_left_iff.mp h29
  obtain ⟨_, s31, ⟨x31, rfl⟩, h31, rfl⟩ := List.forall₂_cons_left_iff.mp h30
  obtain ⟨_, s32, ⟨x32, rfl⟩, h32, rfl⟩ := List.forall₂_cons_left_iff.mp h31
  obtain ⟨_, s33, ⟨x33, rfl⟩, h33, rfl⟩ := List.forall₂_cons_left_iff.mp h32
  cases List.forall₂_nil_left_iff.mp h33
  exact ⟨_, rfl⟩

/-! ### Theorems -/

/-- C71: a file is accepted exactly if it is a configuration file whose settings (with the defaults for those that it does not give) meet the conditions; the settings in use are then these. -/
theorem C71_accepted_iff (hL : GoLib L) (fs : Str → PathState) (file : Str) (g' : Global F) : globalRead L fs (some file) = some g' ↔
    ∃ st g, FileMeans L.toLib globalVars file (globalDefaults L) st ∧ toGlobal st = some g ∧ GlobalOk fs VersionCode (NilCode L) g ∧ g' = normalised g := by
  have hw : WellDeclared L.toLib globalVars.decls (globalDefaults L) := wellDeclared_of _ hL.lower _ _ rfl (by decide +kernel) (by decide +kernel)
  unfold globalRead
  cases hr : readConfig L.toLib globalVars (some file) (globalDefaults L) with
  | err e s =>
    refine ⟨fun h => (nomatch h), fun ⟨st, g, h1, _⟩ => ?_⟩
    rw [(C05_success_iff L.toLib globalVars file _ st hw).mpr h1] at hr
    cases hr
  | panic =>
    refine ⟨fun h => (nomatch h), fun ⟨st, g, h1, _⟩ => ?_⟩
    rw [(C05_success_iff L.toLib globalVars file _ st hw).mpr h1] at hr
    cases hr
  | ok s =>
    dsimp only
    have hm := (C05_success_iff L.toLib globalVars file _ s hw).mp hr
    constructor
    · intro h
      rw [Option.bind_eq_some_iff] at h
      obtain ⟨g, h1, h2⟩ := h
      exact ⟨s, g, hm, h1, (globalValidate_iff L fs g g').mp h2⟩
    · rintro ⟨st, g, h1, h2, h3⟩
      have e := (C05_success_iff L.toLib globalVars file _ st hw).mpr h1
      rw [hr] at e
      cases e
      rw [h2, Option.bind_some]
      exact (globalValidate_iff L fs g g').mpr h3

/-- C71: an unreadable file is refused, and a file that can be read always gives settings to check. -/
theorem C71_settings (hL : GoLib L) (fs : Str → PathState) : globalRead L fs none = none ∧
    ∀ file st, FileMeans L.toLib globalVars file (globalDefaults L) st → ∃ g, toGlobal st = some g := by
  refine ⟨rfl, fun file st h => toGlobal_typed st ?_⟩
  obtain ⟨_, pairs, _, _, _, hu⟩ := h
  refine updated_typed L.toLib hu ?_
  repeat' (first | exact List.Forall₂.nil | exact ⟨_, rfl⟩ | refine List.Forall₂.cons ?_ ?_)

/-- C71 (partial): if the dark energy density is set and the major version is 1, then an accepted configuration meets the documented conditions: the version is not a later one, and for a nil
snapshot all the settings for it are given. -/
theorem C71_documented_partial (hL : GoLib L) (fs : Str → PathState) (file : Str) (g' : Global F) (h : globalRead L fs (some file) = some g')
    (hl : g'.nilOmegaL ≠ L.const (-1)) (hv : ∃ minor patch, Version.parse g'.version = some (1, minor, patch)) : GlobalOk fs NotFuture (NilOk L) g' := by
  obtain ⟨st, g, -, -, hg, rfl⟩ := (C71_accepted_iff L hL fs file g').mp h
  have hff : ∀ s : Str, (s.filter (· ≠ ' ')).filter (· ≠ ' ') = s.filter (· ≠ ' ') := fun s => by rw [List.filter_filter]; simp
  have hfields : (normalised g).version = g.version ∧ (normalised g).nilOmegaL = g.nilOmegaL := by
    unfold normalised; split <;> exact ⟨rfl, rfl⟩
  rw [hfields.1] at hv
  rw [hfields.2] at hl
  have hver : NotFuture g.version := by
    rcases hg.version with h | ⟨M, m, p, h1, h2⟩
    · exact h
    · obtain ⟨m', p', h3⟩ := hv
      rw [h1] at h3
      cases h3
      omega
  have hnil : g.snapshotType = "nil".toList → NilOk L g := by
    intro e
    obtain ⟨h1, h2⟩ := hg.nilSnap e
    rcases h2 with h2 | ⟨h2, h3, h4⟩
    · exact absurd h2 hl
    · exact ⟨h1, hl, h2, h3, h4⟩
  unfold normalised
  by_cases hn : g.haloType = "nil".toList
  · rw [if_pos hn]
    exact ⟨hver, hg.snapshotType, Or.inl hn, hg.treeType, hg.memoDir, fun e => let h := hnil e; ⟨h.1, h.2, h.3, h.4, h.5⟩, hg.endianness, hg.columns, hg.npart, hg.format⟩
  · rw [if_neg hn]
    obtain ⟨hT, hh⟩ := hg.haloType.resolve_left hn
    refine ⟨hver, hg.snapshotType, Or.inr ⟨hT, ⟨?_, ?_, ?_, hh.haloDir, hh.treeDir, hh.columns, hh.names⟩⟩, hg.treeType, hg.memoDir, fun e => let h := hnil e; ⟨h.1, h.2, h.3, h.4, h.5⟩,
      hg.endianness, hg.columns, hg.npart, hg.format⟩
    · show Among ((g.positionUnits.filter (· ≠ ' ')).filter (· ≠ ' ')) _
      rw [hff]; exact hh.position
    · show Among ((g.radiusUnits.filter (· ≠ ' ')).filter (· ≠ ' ')) _
      rw [hff]; exact hh.radius
    · show (g.massUnits.filter (· ≠ ' ')).filter (· ≠ ' ') = _
      rw [hff]; exact hh.mass

/-- C71: without a halo catalog, no setting of the halo catalog matters but the numbers of the names, columns and comments. -/
theorem C71_halos_unused (fs : Str → PathState) (g : Global F) (h : g.haloType = "nil".toList) (a1 a2 a3 a4 a5 : Str) (names : List Str) (columns : List Int) (remarks : List Str)
    (h1 : names.length = columns.length) (h2 : names.length = remarks.length) (hg : ∃ g', globalValidate L fs g = some g') :
    ∃ g', globalValidate L fs { g with haloDir := a1, treeDir := a2, positionUnits := a3, radiusUnits := a4, massUnits := a5, valueNames := names, valueColumns := columns, valueComments := remarks } = some g' := by
  obtain ⟨g', hg⟩ := hg
  have hg := ((globalValidate_iff L fs g g').mp hg).1
  exact ⟨_, (globalValidate_iff L fs _ _).mpr ⟨⟨hg.version, hg.snapshotType, Or.inl h, hg.treeType, hg.memoDir, hg.nilSnap, hg.endianness, ⟨h1, h2⟩, hg.npart, hg.format⟩, rfl⟩⟩

/-- C71 is false of the version: a configuration file for version 2.0.0 is not reported. -/
theorem C71_future_false (fs : Str → PathState) (g g' : Global F) (hg : globalValidate L fs g = some g') :
    ∃ g'', globalValidate L fs { g with version := "2.0.0".toList } = some g'' ∧ g''.version = "2.0.0".toList := by
  have hg := ((globalValidate_iff L fs g g').mp hg).1
  refine ⟨_, (globalValidate_iff L fs _ _).mpr ⟨⟨Or.inr ⟨2, 0, 0, (show Version.parse "2.0.0".toList = some (2, 0, 0) by decide +kernel), by decide⟩, hg.snapshotType, ?_, hg.treeType, hg.memoDir, hg.nilSnap, hg.endianness, hg.columns,
    hg.npart, hg.format⟩, rfl⟩, ?_⟩
  · exact hg.haloType.imp id fun ⟨h, h'⟩ => ⟨h, ⟨h'.1, h'.2, h'.3, h'.4, h'.5, h'.6, h'.7⟩⟩
  · unfold normalised; split <;> rfl

/-- C71 is false of the settings for a nil snapshot: if NilSnapOmegaL is not set, then neither it nor NilSnapH100, NilSnapTotalWidth and NilSnapScaleFactors are asked for. -/
theorem C71_nil_false (fs : Str → PathState) (g g' : Global F) (hg : globalValidate L fs g = some g') (hm : g.nilOmegaM ≠ L.const (-1)) :
    ∃ g'', globalValidate L fs { g with snapshotType := "nil".toList, nilOmegaL := L.const (-1), nilH100 := L.const (-1), nilWidth := L.const (-1), nilScales := [] } = some g'' ∧
      ¬ NilOk L g'' := by
  have hg := ((globalValidate_iff L fs g g').mp hg).1
  refine ⟨_, (globalValidate_iff L fs _ _).mpr ⟨⟨hg.version, ⟨"nil", by simp, rfl⟩, ?_, hg.treeType, hg.memoDir, fun _ => ⟨hm, Or.inl rfl⟩, hg.endianness, hg.columns,
    hg.npart, hg.format⟩, rfl⟩, ?_⟩
  · exact hg.haloType.imp id fun ⟨h, h'⟩ => ⟨h, ⟨h'.1, h'.2, h'.3, h'.4, h'.5, h'.6, h'.7⟩⟩
  · intro h
    apply h.omegaL
    unfold normalised; split <;> rfl

/-- C71 is false of the merger trees: TreeType = nil is documented to make the Tree* variables unnecessary, but with a halo catalog the directory is required. -/
theorem C71_tree_false (fs : Str → PathState) (g : Global F) (hh : g.haloType ≠ "nil".toList) (ht : g.treeDir = []) : globalValidate L fs g = none := by
  cases hg : globalValidate L fs g with
  | none => rfl
  | some g' =>
    have := ((globalValidate_iff L fs g g').mp hg).1
    exact absurd ht (this.haloType.resolve_left hh).2.treeDir.1

/-- C71 is false of the merger trees: without a halo catalog, consistent-trees is accepted although no directory is given. -/
theorem C71_tree_unset_false (fs : Str → PathState) (g g' : Global F) (hg : globalValidate L fs g = some g') (hh : g.haloType = "nil".toList) :
    ∃ g'', globalValidate L fs { g with treeType := "consistent-trees".toList, treeDir := [] } = some g'' := by
  have hg := ((globalValidate_iff L fs g g').mp hg).1
  exact ⟨_, (globalValidate_iff L fs _ _).mpr ⟨⟨hg.version, hg.snapshotType, Or.inl hh, ⟨"consistent-trees", by simp, rfl⟩, hg.memoDir, hg.nilSnap, hg.endianness, hg.columns, hg.npart,
    hg.format⟩, rfl⟩⟩

/-- C71 is false of the logging modes: "debugging" is documented, but refused whenever Logging is looked at. -/
theorem C71_logging_false (fs : Str → PathState) (g : Global F) (hl : g.logging = "debugging".toList) (hm : ∀ m ∈ g.meanings, Among m ["Snapshot", "ScaleFactor", "Block"]) :
    globalValidate L fs g = none := by
  cases hg : globalValidate L fs g with
  | none => rfl
  | some g' =>
    have hf := ((globalValidate_iff L fs g g').mp hg).1.format
    exfalso
    have hc : ∀ (n : Nat) (ms : List Str), (∀ m ∈ ms, Among m ["Snapshot", "ScaleFactor", "Block"]) → Env.checkMeanings n ms = .fallOut := by
      intro n ms
      induction ms with
      | nil => intro _; rfl
      | cons m ms ih =>
        intro h
        have := ih fun m' hm' => h m' (List.mem_cons_of_mem _ hm')
        obtain ⟨t, ht, rfl⟩ := h m List.mem_cons_self
        fin_cases ht <;> simpa [Env.checkMeanings] using this
    unfold Env.validateFormat at hf
    rw [hc _ _ hm, hl] at hf
    dsimp only at hf
    repeat' split at hf
    all_goals first
      | exact Bool.false_ne_true hf
      | (revert hf; decide +kernel)

/-! ### The hypotheses are met -/

/-- The settings of the example; those for a nil snapshot are as the example shows them. -/
def exGlobal : Global ℚ := ⟨chars "1.0.4", chars "path/to/snapshots/snapdir_%03d/snapshot_%03d.%d", chars "LGadget-2", chars "halos/", chars "Text", chars "trees/", chars "consistent-trees",
  chars "memo/", [chars "ID", chars "X", chars "Y", chars "Z", chars "M200m"], [0, 2, 3, 4, 20], [chars "int", chars "cMpc/h", chars "cMpc/h", chars "cMpc/h", chars "Msun/h"],
  chars "cMpc / h", chars "ckpc/h", chars "Msun/h", [chars "Snapshot", chars "Snapshot", chars "Block"], [], [0], [511], 0, 100, chars "SystemOrder", false, -1, chars "nil", [1], [1],
  1, 1, 2, 27/100, 73/100, 7/10, [1], 250⟩

theorem exGlobal_ok : GlobalOk (fun _ => .dir) VersionCode (NilCode ratLib) exGlobal where
  version := Or.inl ⟨4, by decide +kernel, by decide⟩
  snapshotType := ⟨"LGadget-2", by decide +kernel, by decide +kernel⟩
  haloType := Or.inr ⟨by decide +kernel, ⟨⟨"cMpc/h", by decide +kernel, by decide +kernel⟩, ⟨"ckpc/h", by decide +kernel, by decide +kernel⟩, by decide +kernel, ⟨by decide +kernel, Or.inl rfl⟩,
    ⟨by decide +kernel, Or.inl rfl⟩, rfl, by decide +kernel⟩⟩
  treeType := ⟨"consistent-trees", by decide +kernel, by decide +kernel⟩
  memoDir := ⟨by decide +kernel, Or.inl rfl⟩
  nilSnap := fun h => absurd h (by decide +kernel)
  endianness := ⟨"SystemOrder", by decide +kernel, by decide +kernel⟩
  columns := ⟨rfl, rfl⟩
  npart := Or.inr rfl
  format := by decide +kernel

example : globalValidate ratLib (fun _ => .dir) exGlobal = some (normalised exGlobal) := (globalValidate_iff _ _ _ _).mpr ⟨exGlobal_ok, rfl⟩

example : ∃ g', globalValidate ratLib (fun _ => .dir) { exGlobal with snapshotType := "nil".toList, nilOmegaL := ratLib.const (-1), nilH100 := ratLib.const (-1), nilWidth := ratLib.const (-1), nilScales := [] } = some g' ∧ ¬ NilOk ratLib g' :=
  C71_nil_false ratLib _ exGlobal _ ((globalValidate_iff _ _ _ _).mpr ⟨exGlobal_ok, rfl⟩) (by show (27/100 : ℚ) ≠ -1; norm_num)

/-- The example of the global configuration meets the hypotheses of `C71_accepted_iff`. -/
example : ∃ st g, FileMeans ratLib.toLib globalVars globalExample (globalDefaults ratLib) st ∧ toGlobal st = some g ∧ GlobalOk (fun _ => .dir) VersionCode (NilCode ratLib) g := by
  obtain ⟨g', h⟩ := (C51_example_global ratLib ratLib_goLib (fun _ => .dir)).mpr (fun _ _ => Or.inl rfl)
  obtain ⟨st, g, h1, h2, h3, -⟩ := (C71_accepted_iff ratLib ratLib_goLib _ _ _).mp h
  exact ⟨st, g, h1, h2, h3⟩

end Shellfish.Modes
