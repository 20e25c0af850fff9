/-
C70: the parameters of the modes are checked.
-/
import Verif.Props.ModesMore
import Verif.Props.Flags

namespace Shellfish.Modes
open Shellfish.Config Shellfish.Text

variable {F : Type} [DecidableEq F] (L : FLib F)

set_option maxRecDepth 100000

/-! ### Specification -/

/-- The value of the variable with this name. -/
def valueOf (vars : Vars) (st : List (Val F)) (name : Str) : Option (Val F) := ((vars.decls.zip st).find? fun p => decide (p.1.1 = name)).map Prod.snd

/-- The integer variable is at least `lo`. -/
def IntAtLeast (vars : Vars) (st : List (Val F)) (lo : Int) (name : Str) : Prop := ∃ i, valueOf vars st name = some (.int i) ∧ lo ≤ i

/-- The floating point variable is not `<= 0` (for a number: it is positive). -/
def Positive (vars : Vars) (st : List (Val F)) (name : Str) : Prop := ∃ x, valueOf vars st name = some (.float x) ∧ L.le x (L.const 0) = false

/-- The floating point variable is not `< 0`. -/
def NotNegative (vars : Vars) (st : List (Val F)) (name : Str) : Prop := ∃ x, valueOf vars st name = some (.float x) ∧ L.lt x (L.const 0) = false

/-- The text variable has one of these values. -/
def OneOf (vars : Vars) (st : List (Val F)) (name : Str) (allowed : List String) : Prop := ∃ s ∈ allowed, valueOf vars st name = some (.string s.toList)

/-- What is asked of the parameters of shell. -/
def ShellOk (st : List (Val F)) : Prop :=
  (∀ n ∈ [chars "SubsampleFactor", chars "RadialBins", chars "Spokes", chars "Rings", chars "Order", chars "Levels", chars "SmoothingWindow"], IntAtLeast shellVars st 1 n) ∧
  (∀ n ∈ [chars "RMaxMult", chars "RMinMult", chars "RKernelMult", chars "Eta"], Positive L shellVars st n) ∧
  ∃ lo hi, valueOf shellVars st (chars "RMinMult") = some (.float lo) ∧ valueOf shellVars st (chars "RMaxMult") = some (.float hi) ∧ L.le hi lo = false

/-- What is asked of the parameters of id. -/
def IdOk (st : List (Val F)) : Prop :=
  OneOf idVars st (chars "IDType") ["halo-id", "m200m"] ∧ OneOf idVars st (chars "ExclusionStrategy") ["none", "subhalo", "neighbor", "overlap"] ∧
  (valueOf idVars st (chars "ExclusionStrategy") = some (.string "overlap".toList) → Positive L idVars st (chars "ExclusionRadiusMult")) ∧
  IntAtLeast idVars st 0 (chars "Snap") ∧ IntAtLeast idVars st 1 (chars "Mult") ∧ NotNegative L idVars st (chars "M200mMax")

/-- What is asked of the parameters of stats. -/
def StatsOk (st : List (Val F)) : Prop :=
  (∃ vs, valueOf statsVars st (chars "Values") = some (.strings vs) ∧
    ∀ v ∈ vs, ∃ s ∈ ["snap", "id", "m_sp", "r_sp", "a_sp", "b_sp", "c_sp", "SA_sp/V_sp"], v = String.toList s) ∧
  OneOf statsVars st (chars "ExclusionStrategy") ["none", "contain", "overlap"] ∧ IntAtLeast statsVars st 1 (chars "MonteCarloSamples")

/-- What is asked of the parameters of prof. -/
def ProfOk (st : List (Val F)) : Prop :=
  OneOf profVars st (chars "ProfileType") ["density", "median-density", "median-error", "contained-density", "angular-fraction", "bound-density"] ∧
  IntAtLeast profVars st 0 (chars "Bins") ∧ IntAtLeast profVars st 0 (chars "MedianPixelLevel") ∧
  Positive L profVars st (chars "RMinMult") ∧ Positive L profVars st (chars "RMaxMult")

/-- What is asked of the parameters of phase. -/
def PhaseOk (st : List (Val F)) : Prop :=
  OneOf phaseVars st (chars "ProfileType") ["radial", "total"] ∧ IntAtLeast phaseVars st 0 (chars "RBins") ∧ IntAtLeast phaseVars st 0 (chars "VBins") ∧
  NotNegative L phaseVars st (chars "RMaxMult") ∧ NotNegative L phaseVars st (chars "VMaxMult")

/-- What is asked of the parameters of potential. -/
def PotentialOk (st : List (Val F)) : Prop :=
  IntAtLeast potentialVars st 0 (chars "RBins") ∧ NotNegative L potentialVars st (chars "GridRMult") ∧ NotNegative L potentialVars st (chars "RMaxMult") ∧
  NotNegative L potentialVars st (chars "RMinMult")

/-- What is asked of the parameters of check. -/
def CheckOk (st : List (Val F)) : Prop := ∃ l, valueOf checkVars st (chars "ExampleHalo") = some (.floats l) ∧ (l.length = 0 ∨ l.length = 6)

/-! ### The values have the declared types -/

/-- The value has the type. -/
def HasType : VarType → Val F → Prop
  | .int, v => ∃ x, v = .int x
  | .ints, v => ∃ x, v = .ints x
  | .float, v => ∃ x, v = .float x
  | .floats, v => ∃ x, v = .floats x
  | .string, v => ∃ x, v = .string x
  | .strings, v => ∃ x, v = .strings x
  | .bool, v => ∃ x, v = .bool x
  | .bools, v => ∃ x, v = .bools x

def Typed (decls : List (Str × VarType)) (st : List (Val F)) : Prop := List.Forall₂ (fun d v => HasType d.2 v) decls st

omit [DecidableEq F] in
theorem converts_hasType (lib : Lib F) {ty : VarType} {s : Str} {v : Val F} (h : Converts lib ty s v) : HasType ty v := by
  cases ty
  all_goals first
    | exact ⟨_, h⟩
    | obtain ⟨x, -, h⟩ := h; exact ⟨x, h⟩

omit [DecidableEq F] in
theorem updated_typed (lib : Lib F) {decls : List (Str × VarType)} {pairs : List (Str × Str)} {st st' : List (Val F)} (h : Updated lib decls pairs st st') (ht : Typed decls st) :
    Typed decls st' := by
  refine List.forall₂_iff_get.mpr ⟨by rw [h.1, ht.length_eq], fun j h1 h2 => ?_⟩
  have hj : decls[j]? = some decls[j] := List.getElem?_eq_getElem h1
  have hu := h.2 j _ hj
  by_cases hp : ∃ p ∈ pairs, Same lib decls[j].1 p.1
  · obtain ⟨p, hp, hs⟩ := hp
    obtain ⟨v, hv, e⟩ := hu.1 p hp hs
    rw [List.getElem?_eq_getElem h2] at e
    cases e
    exact converts_hasType lib hv
  · have e := hu.2 fun p hp' hs => hp ⟨p, hp', hs⟩
    have h3 : j < st.length := by rw [← h.1]; exact h2
    rw [List.getElem?_eq_getElem h2, List.getElem?_eq_getElem h3] at e
    have := (List.forall₂_iff_get.mp ht).2 j h1 h3
    rw [List.get_eq_getElem, List.get_eq_getElem] at this ⊢
    rw [Option.some.inj e]
    exact this

/-- A mode whose declarations, defaults and checks fit together. -/
structure Mode.Sound (lib : Lib F) (m : Mode F) (ok : List (Val F) → Prop) : Prop where
  declared : WellDeclared lib m.vars.decls m.defaults
  typed : Typed m.vars.decls m.defaults
  valid : ∀ st, Typed m.vars.decls st → (m.validate st = true ↔ ok st)

omit [DecidableEq F] in
theorem Mode.finish_ok (m : Mode F) (o : Outcome F) (st : List (Val F)) : m.finish o = .ok st ↔ o = .ok st ∧ m.validate st = true := by
  cases o with
  | ok s =>
    unfold Mode.finish
    dsimp only
    by_cases h : m.validate s = true
    · rw [if_pos h]
      constructor
      · intro e; cases e; exact ⟨rfl, h⟩
      · rintro ⟨e, -⟩; cases e; rfl
    · rw [if_neg h]
      constructor
      · intro e; cases e
      · rintro ⟨e, h'⟩; cases e; exact absurd h' h
  | err e s => exact ⟨fun h => (nomatch h), fun h => (nomatch h.1)⟩
  | panic => exact ⟨fun h => (nomatch h), fun h => (nomatch h.1)⟩

omit [DecidableEq F] in
/-- The reading of a mode in terms of the meaning of files and flags. -/
theorem Mode.Sound.read {lib : Lib F} {m : Mode F} {ok : List (Val F) → Prop} (h : m.Sound lib ok) (flags : List Str) (st : List (Val F)) :
    (∀ file, m.read lib (some (some file)) flags = .ok st ↔
      ∃ st1, FileMeans lib m.vars file m.defaults st1 ∧ FlagsMean lib m.vars.decls flags st1 st ∧ ok st) ∧
    (flags ≠ [] → (m.read lib none flags = .ok st ↔ FlagsMean lib m.vars.decls flags m.defaults st ∧ ok st)) := by
  constructor
  · intro file
    unfold Mode.read
    dsimp only
    cases hr : readConfig lib m.vars (some file) m.defaults with
    | err e s =>
      refine ⟨fun h => (nomatch h), fun ⟨st1, h1, _⟩ => ?_⟩
      rw [(C05_success_iff lib m.vars file _ st1 h.declared).mpr h1] at hr
      cases hr
    | panic =>
      refine ⟨fun h => (nomatch h), fun ⟨st1, h1, _⟩ => ?_⟩
      rw [(C05_success_iff lib m.vars file _ st1 h.declared).mpr h1] at hr
      cases hr
    | ok s =>
      have hm := (C05_success_iff lib m.vars file _ s h.declared).mp hr
      have hup : ∃ pairs, Updated lib m.vars.decls pairs m.defaults s := by
        obtain ⟨_, pairs, _, _, _, hu⟩ := hm
        exact ⟨pairs, hu⟩
      obtain ⟨pairs, hu⟩ := hup
      have hws : WellDeclared lib m.vars.decls s := ⟨by rw [hu.1, h.declared.1], h.declared.2⟩
      have hts := updated_typed lib hu h.typed
      dsimp only
      rw [Mode.finish_ok, C07_flags_iff lib m.vars flags s st hws]
      constructor
      · rintro ⟨hf, hv⟩
        have htt : Typed m.vars.decls st := by
          obtain ⟨_, gs, _, _, _, hu2⟩ := hf
          exact updated_typed lib hu2 hts
        exact ⟨s, hm, hf, (h.valid st htt).mp hv⟩
      · rintro ⟨st1, h1, hf, hv⟩
        have e := (C05_success_iff lib m.vars file _ st1 h.declared).mpr h1
        rw [hr] at e
        cases e
        have htt : Typed m.vars.decls st := by
          obtain ⟨_, gs, _, _, _, hu2⟩ := hf
          exact updated_typed lib hu2 hts
        exact ⟨hf, (h.valid st htt).mpr hv⟩
  · intro hne
    unfold Mode.read
    dsimp only
    rw [if_neg hne, Mode.finish_ok, C07_flags_iff lib m.vars flags _ st h.declared]
    constructor
    · rintro ⟨hf, hv⟩
      have htt : Typed m.vars.decls st := by
        obtain ⟨_, gs, _, _, _, hu2⟩ := hf
        exact updated_typed lib hu2 h.typed
      exact ⟨hf, (h.valid st htt).mp hv⟩
    · rintro ⟨hf, hv⟩
      have htt : Typed m.vars.decls st := by
        obtain ⟨_, gs, _, _, _, hu2⟩ := hf
        exact updated_typed lib hu2 h.typed
      exact ⟨hf, (h.valid st htt).mpr hv⟩

/-! ### The values of an explicit list -/

omit [DecidableEq F] in
theorem intAtLeast_iff {vars : Vars} {st : List (Val F)} {n : Str} {i lo : Int} (h : valueOf vars st n = some (.int i)) : IntAtLeast vars st lo n ↔ lo ≤ i := by
  unfold IntAtLeast
  rw [h]
  constructor
  · rintro ⟨j, e, hj⟩; cases e; exact hj
  · exact fun hi => ⟨i, rfl, hi⟩

omit [DecidableEq F] in
theorem positive_iff {vars : Vars} {st : List (Val F)} {n : Str} {x : F} (h : valueOf vars st n = some (.float x)) : Positive L vars st n ↔ L.le x (L.const 0) = false := by
  unfold Positive
  rw [h]
  constructor
  · rintro ⟨j, e, hj⟩; cases e; exact hj
  · exact fun hi => ⟨x, rfl, hi⟩

omit [DecidableEq F] in
theorem notNegative_iff {vars : Vars} {st : List (Val F)} {n : Str} {x : F} (h : valueOf vars st n = some (.float x)) : NotNegative L vars st n ↔ L.lt x (L.const 0) = false := by
  unfold NotNegative
  rw [h]
  constructor
  · rintro ⟨j, e, hj⟩; cases e; exact hj
  · exact fun hi => ⟨x, rfl, hi⟩

omit [DecidableEq F] in
theorem oneOf_iff {vars : Vars} {st : List (Val F)} {n : Str} {s : Str} {l : List String} (h : valueOf vars st n = some (.string s)) : OneOf vars st n l ↔ s ∈ l.map String.toList := by
  unfold OneOf
  rw [h, List.mem_map]
  constructor
  · rintro ⟨t, ht, e⟩; cases e; exact ⟨t, ht, rfl⟩
  · rintro ⟨t, ht, rfl⟩; exact ⟨t, ht, rfl⟩

/-! ### The modes -/

theorem one_le_int (i : Int) : 1 ≤ i ↔ 0 < i := by omega

set_option maxHeartbeats 1000000 in
theorem shell_sound (hL : GoLib L) : (shellMode L).Sound L.toLib (ShellOk L : List (Val F) → Prop) where
  declared := (show WellDeclared L.toLib shellVars.decls _ from wellDeclared_of _ hL.lower _ _ rfl (by decide +kernel) (by decide +kernel))
  typed := by
    repeat' (first | exact List.Forall₂.nil | exact ⟨_, rfl⟩ | refine List.Forall₂.cons ?_ ?_)
  valid := by
    intro st hst
    obtain ⟨_, s0, ⟨x0, rfl⟩, h0, rfl⟩ := List.forall₂_cons_left_iff.mp hst
    obtain ⟨_, s1, ⟨x1, rfl⟩, h1, rfl⟩ := List.forall₂_cons_left_iff.mp h0
    obtain ⟨_, s2, ⟨x2, rfl⟩, h2, rfl⟩ := List.forall₂_cons_left_iff.mp h1
    obtain ⟨_, s3, ⟨x3, rfl⟩, h3, rfl⟩ := List.forall₂_cons_left_iff.mp h2
    obtain ⟨_, s4, ⟨x4, rfl⟩, h4, rfl⟩ := List.forall₂_cons_left_iff.mp h3
    obtain ⟨_, s5, ⟨x5, rfl⟩, h5, rfl⟩ := List.forall₂_cons_left_iff.mp h4
    obtain ⟨_, s6, ⟨x6, rfl⟩, h6, rfl⟩ := List.forall₂_cons_left_iff.mp h5
    obtain ⟨_, s7, ⟨x7, rfl⟩, h7, rfl⟩ := List.forall₂_cons_left_iff.mp h6
    obtain ⟨_, s8, ⟨x8, rfl⟩, h8, rfl⟩ := List.forall₂_cons_left_iff.mp h7
    obtain ⟨_, s9, ⟨x9, rfl⟩, h9, rfl⟩ := List.forall₂_cons_left_iff.mp h8
    obtain ⟨_, s10, ⟨x10, rfl⟩, h10, rfl⟩ := List.forall₂_cons_left_iff.mp h9
    obtain ⟨_, s11, ⟨x11, rfl⟩, h11, rfl⟩ := List.forall₂_cons_left_iff.mp h10
    obtain ⟨_, s12, ⟨x12, rfl⟩, h12, rfl⟩ := List.forall₂_cons_left_iff.mp h11
    obtain ⟨_, s13, ⟨x13, rfl⟩, h13, rfl⟩ := List.forall₂_cons_left_iff.mp h12
    obtain ⟨_, s14, ⟨x14, rfl⟩, h14, rfl⟩ := List.forall₂_cons_left_iff.mp h13
    cases List.forall₂_nil_left_iff.mp h14
    clear hst h0 h1 h2 h3 h4 h5 h6 h7 h8 h9 h10 h11 h12 h13 h14
    have e0 : valueOf shellVars ([.int x0, .int x1, .int x2, .int x3, .float x4, .float x5, .float x6, .float x7, .int x8, .int x9, .int x10, .float x11, .float x12, .bool x13, .float x14] : List (Val F)) (chars "SubsampleFactor") = some (.int x0) := rfl
    have e1 : valueOf shellVars ([.int x0, .int x1, .int x2, .int x3, .float x4, .float x5, .float x6, .float x7, .int x8, .int x9, .int x10, .float x11, .float x12, .bool x13, .float x14] : List (Val F)) (chars "RadialBins") = some (.int x1) := rfl
    have e2 : valueOf shellVars ([.int x0, .int x1, .int x2, .int x3, .float x4, .float x5, .float x6, .float x7, .int x8, .int x9, .int x10, .float x11, .float x12, .bool x13, .float x14] : List (Val F)) (chars "Spokes") = some (.int x2) := rfl
    have e3 : valueOf shellVars ([.int x0, .int x1, .int x2, .int x3, .float x4, .float x5, .float x6, .float x7, .int x8, .int x9, .int x10, .float x11, .float x12, .bool x13, .float x14] : List (Val F)) (chars "Rings") = some (.int x3) := rfl
    have e4 : valueOf shellVars ([.int x0, .int x1, .int x2, .int x3, .float x4, .float x5, .float x6, .float x7, .int x8, .int x9, .int x10, .float x11, .float x12, .bool x13, .float x14] : List (Val F)) (chars "RMaxMult") = some (.float x4) := rfl
    have e5 : valueOf shellVars ([.int x0, .int x1, .int x2, .int x3, .float x4, .float x5, .float x6, .float x7, .int x8, .int x9, .int x10, .float x11, .float x12, .bool x13, .float x14] : List (Val F)) (chars "RMinMult") = some (.float x5) := rfl
    have e6 : valueOf shellVars ([.int x0, .int x1, .int x2, .int x3, .float x4, .float x5, .float x6, .float x7, .int x8, .int x9, .int x10, .float x11, .float x12, .bool x13, .float x14] : List (Val F)) (chars "RKernelMult") = some (.float x6) := rfl
    have e7 : valueOf shellVars ([.int x0, .int x1, .int x2, .int x3, .float x4, .float x5, .float x6, .float x7, .int x8, .int x9, .int x10, .float x11, .float x12, .bool x13, .float x14] : List (Val F)) (chars "Eta") = some (.float x7) := rfl
    have e8 : valueOf shellVars ([.int x0, .int x1, .int x2, .int x3, .float x4, .float x5, .float x6, .float x7, .int x8, .int x9, .int x10, .float x11, .float x12, .bool x13, .float x14] : List (Val F)) (chars "Order") = some (.int x8) := rfl
    have e9 : valueOf shellVars ([.int x0, .int x1, .int x2, .int x3, .float x4, .float x5, .float x6, .float x7, .int x8, .int x9, .int x10, .float x11, .float x12, .bool x13, .float x14] : List (Val F)) (chars "Levels") = some (.int x9) := rfl
    have e10 : valueOf shellVars ([.int x0, .int x1, .int x2, .int x3, .float x4, .float x5, .float x6, .float x7, .int x8, .int x9, .int x10, .float x11, .float x12, .bool x13, .float x14] : List (Val F)) (chars "SmoothingWindow") = some (.int x10) := rfl
    have e11 : valueOf shellVars ([.int x0, .int x1, .int x2, .int x3, .float x4, .float x5, .float x6, .float x7, .int x8, .int x9, .int x10, .float x11, .float x12, .bool x13, .float x14] : List (Val F)) (chars "LOSSlopeCutoff") = some (.float x11) := rfl
    have e12 : valueOf shellVars ([.int x0, .int x1, .int x2, .int x3, .float x4, .float x5, .float x6, .float x7, .int x8, .int x9, .int x10, .float x11, .float x12, .bool x13, .float x14] : List (Val F)) (chars "BackgroundRhoMult") = some (.float x12) := rfl
    have e13 : valueOf shellVars ([.int x0, .int x1, .int x2, .int x3, .float x4, .float x5, .float x6, .float x7, .int x8, .int x9, .int x10, .float x11, .float x12, .bool x13, .float x14] : List (Val F)) (chars "PercentileProfile") = some (.bool x13) := rfl
    have e14 : valueOf shellVars ([.int x0, .int x1, .int x2, .int x3, .float x4, .float x5, .float x6, .float x7, .int x8, .int x9, .int x10, .float x11, .float x12, .bool x13, .float x14] : List (Val F)) (chars "Percentile") = some (.float x14) := rfl
    have ev : (shellMode L).validate [.int x0, .int x1, .int x2, .int x3, .float x4, .float x5, .float x6, .float x7, .int x8, .int x9, .int x10, .float x11, .float x12, .bool x13, .float x14] = shellValidate L [.int x0, .int x1, .int x2, .int x3, .float x4, .float x5, .float x6, .float x7, .int x8, .int x9, .int x10, .float x11, .float x12, .bool x13, .float x14] := rfl
    rw [ev]
    unfold shellValidate ShellOk
    simp only [List.forall_mem_cons, List.forall_mem_nil, IntAtLeast, Positive, NotNegative, OneOf, e0, e1, e2, e3, e4, e5, e6, e7, e8, e9, e10, e11, e12, e13, e14, Option.some.injEq, Val.int.injEq, Val.float.injEq, Val.string.injEq,
      Val.strings.injEq, Val.floats.injEq, exists_eq_left', one_le_int, Bool.and_eq_true, Bool.or_eq_true, Bool.not_eq_true', decide_eq_true_eq, decide_eq_false_iff_not, Int.not_le, Int.not_lt,
      List.exists_mem_cons_iff, List.not_mem_nil, false_and, exists_false, or_false, and_true, exists_and_left, List.all_eq_true, List.map_cons, List.map_nil, List.mem_cons, profTypes,
      exists_eq_or_imp, forall_eq_or_imp, forall_eq, exists_eq_left]
    clear e0 e1 e2 e3 e4 e5 e6 e7 e8 e9 e10 e11 e12 e13 e14 ev
    tauto

set_option maxHeartbeats 1000000 in
theorem id_sound (hL : GoLib L) : (idMode L).Sound L.toLib (IdOk L : List (Val F) → Prop) where
  declared := (show WellDeclared L.toLib idVars.decls _ from wellDeclared_of _ hL.lower _ _ rfl (by decide +kernel) (by decide +kernel))
  typed := by
    repeat' (first | exact List.Forall₂.nil | exact ⟨_, rfl⟩ | refine List.Forall₂.cons ?_ ?_)
  valid := by
    intro st hst
    obtain ⟨_, s0, ⟨x0, rfl⟩, h0, rfl⟩ := List.forall₂_cons_left_iff.mp hst
    obtain ⟨_, s1, ⟨x1, rfl⟩, h1, rfl⟩ := List.forall₂_cons_left_iff.mp h0
    obtain ⟨_, s2, ⟨x2, rfl⟩, h2, rfl⟩ := List.forall₂_cons_left_iff.mp h1
    obtain ⟨_, s3, ⟨x3, rfl⟩, h3, rfl⟩ := List.forall₂_cons_left_iff.mp h2
    obtain ⟨_, s4, ⟨x4, rfl⟩, h4, rfl⟩ := List.forall₂_cons_left_iff.mp h3
    obtain ⟨_, s5, ⟨x5, rfl⟩, h5, rfl⟩ := List.forall₂_cons_left_iff.mp h4
    obtain ⟨_, s6, ⟨x6, rfl⟩, h6, rfl⟩ := List.forall₂_cons_left_iff.mp h5
    obtain ⟨_, s7, ⟨x7, rfl⟩, h7, rfl⟩ := List.forall₂_cons_left_iff.mp h6
    obtain ⟨_, s8, ⟨x8, rfl⟩, h8, rfl⟩ := List.forall₂_cons_left_iff.mp h7
    obtain ⟨_, s9, ⟨x9, rfl⟩, h9, rfl⟩ := List.forall₂_cons_left_iff.mp h8
    cases List.forall₂_nil_left_iff.mp h9
    clear hst h0 h1 h2 h3 h4 h5 h6 h7 h8 h9
    have e0 : valueOf idVars ([.string x0, .ints x1, .int x2, .int x3, .int x4, .int x5, .string x6, .float x7, .float x8, .float x9] : List (Val F)) (chars "IDType") = some (.string x0) := rfl
    have e1 : valueOf idVars ([.string x0, .ints x1, .int x2, .int x3, .int x4, .int x5, .string x6, .float x7, .float x8, .float x9] : List (Val F)) (chars "IDs") = some (.ints x1) := rfl
    have e2 : valueOf idVars ([.string x0, .ints x1, .int x2, .int x3, .int x4, .int x5, .string x6, .float x7, .float x8, .float x9] : List (Val F)) (chars "IDStart") = some (.int x2) := rfl
    have e3 : valueOf idVars ([.string x0, .ints x1, .int x2, .int x3, .int x4, .int x5, .string x6, .float x7, .float x8, .float x9] : List (Val F)) (chars "IDEnd") = some (.int x3) := rfl
    have e4 : valueOf idVars ([.string x0, .ints x1, .int x2, .int x3, .int x4, .int x5, .string x6, .float x7, .float x8, .float x9] : List (Val F)) (chars "Mult") = some (.int x4) := rfl
    have e5 : valueOf idVars ([.string x0, .ints x1, .int x2, .int x3, .int x4, .int x5, .string x6, .float x7, .float x8, .float x9] : List (Val F)) (chars "Snap") = some (.int x5) := rfl
    have e6 : valueOf idVars ([.string x0, .ints x1, .int x2, .int x3, .int x4, .int x5, .string x6, .float x7, .float x8, .float x9] : List (Val F)) (chars "ExclusionStrategy") = some (.string x6) := rfl
    have e7 : valueOf idVars ([.string x0, .ints x1, .int x2, .int x3, .int x4, .int x5, .string x6, .float x7, .float x8, .float x9] : List (Val F)) (chars "ExclusionRadiusMult") = some (.float x7) := rfl
    have e8 : valueOf idVars ([.string x0, .ints x1, .int x2, .int x3, .int x4, .int x5, .string x6, .float x7, .float x8, .float x9] : List (Val F)) (chars "M200mMax") = some (.float x8) := rfl
    have e9 : valueOf idVars ([.string x0, .ints x1, .int x2, .int x3, .int x4, .int x5, .string x6, .float x7, .float x8, .float x9] : List (Val F)) (chars "M200mMin") = some (.float x9) := rfl
    have ev : (idMode L).validate [.string x0, .ints x1, .int x2, .int x3, .int x4, .int x5, .string x6, .float x7, .float x8, .float x9] = idValidate L [.string x0, .ints x1, .int x2, .int x3, .int x4, .int x5, .string x6, .float x7, .float x8, .float x9] := rfl
    rw [ev]
    unfold idValidate IdOk
    simp only [List.forall_mem_cons, List.forall_mem_nil, IntAtLeast, Positive, NotNegative, OneOf, e0, e1, e2, e3, e4, e5, e6, e7, e8, e9, Option.some.injEq, Val.int.injEq, Val.float.injEq, Val.string.injEq,
      Val.strings.injEq, Val.floats.injEq, exists_eq_left', one_le_int, Bool.and_eq_true, Bool.or_eq_true, Bool.not_eq_true', decide_eq_true_eq, decide_eq_false_iff_not, Int.not_le, Int.not_lt,
      List.exists_mem_cons_iff, List.not_mem_nil, false_and, exists_false, or_false, and_true, exists_and_left, List.all_eq_true, List.map_cons, List.map_nil, List.mem_cons, profTypes,
      exists_eq_or_imp, forall_eq_or_imp, forall_eq, exists_eq_left]
    clear e0 e1 e2 e3 e4 e5 e6 e7 e8 e9 ev
    constructor
    · rintro ⟨⟨⟨⟨h1, h2⟩, h3⟩, h4⟩, h5⟩
      refine ⟨h1, ?_, ?_, h3, h4, h5⟩
      · rcases h2 with (h2 | h2 | h2) | h2
        · exact Or.inl h2
        · exact Or.inr (Or.inl h2)
        · exact Or.inr (Or.inr (Or.inl h2))
        · exact Or.inr (Or.inr (Or.inr h2.1))
      · rintro rfl
        rcases h2 with h2 | h2
        · exact absurd h2 (by decide +kernel)
        · exact h2.2
    · rintro ⟨h1, h2, h3, h4, h5, h6⟩
      refine ⟨⟨⟨⟨h1, ?_⟩, h4⟩, h5⟩, h6⟩
      by_cases e : x6 = "overlap".toList
      · exact Or.inr ⟨e, h3 e⟩
      · rcases h2 with h2 | h2 | h2 | h2
        · exact Or.inl (Or.inl h2)
        · exact Or.inl (Or.inr (Or.inl h2))
        · exact Or.inl (Or.inr (Or.inr h2))
        · exact absurd h2 e

set_option maxHeartbeats 1000000 in
theorem stats_sound (hL : GoLib L) : (statsMode L).Sound L.toLib (StatsOk : List (Val F) → Prop) where
  declared := (show WellDeclared L.toLib statsVars.decls _ from wellDeclared_of _ hL.lower _ _ rfl (by decide +kernel) (by decide +kernel))
  typed := by
    repeat' (first | exact List.Forall₂.nil | exact ⟨_, rfl⟩ | refine List.Forall₂.cons ?_ ?_)
  valid := by
    intro st hst
    obtain ⟨_, s0, ⟨x0, rfl⟩, h0, rfl⟩ := List.forall₂_cons_left_iff.mp hst
    obtain ⟨_, s1, ⟨x1, rfl⟩, h1, rfl⟩ := List.forall₂_cons_left_iff.mp h0
    obtain ⟨_, s2, ⟨x2, rfl⟩, h2, rfl⟩ := List.forall₂_cons_left_iff.mp h1
    obtain ⟨_, s3, ⟨x3, rfl⟩, h3, rfl⟩ := List.forall₂_cons_left_iff.mp h2
    obtain ⟨_, s4, ⟨x4, rfl⟩, h4, rfl⟩ := List.forall₂_cons_left_iff.mp h3
    obtain ⟨_, s5, ⟨x5, rfl⟩, h5, rfl⟩ := List.forall₂_cons_left_iff.mp h4
    obtain ⟨_, s6, ⟨x6, rfl⟩, h6, rfl⟩ := List.forall₂_cons_left_iff.mp h5
    cases List.forall₂_nil_left_iff.mp h6
    clear hst h0 h1 h2 h3 h4 h5 h6
    have e0 : valueOf statsVars ([.strings x0, .int x1, .string x2, .int x3, .string x4, .float x5, .bool x6] : List (Val F)) (chars "Values") = some (.strings x0) := rfl
    have e1 : valueOf statsVars ([.strings x0, .int x1, .string x2, .int x3, .string x4, .float x5, .bool x6] : List (Val F)) (chars "MonteCarloSamples") = some (.int x1) := rfl
    have e2 : valueOf statsVars ([.strings x0, .int x1, .string x2, .int x3, .string x4, .float x5, .bool x6] : List (Val F)) (chars "ExclusionStrategy") = some (.string x2) := rfl
    have e3 : valueOf statsVars ([.strings x0, .int x1, .string x2, .int x3, .string x4, .float x5, .bool x6] : List (Val F)) (chars "Order") = some (.int x3) := rfl
    have e4 : valueOf statsVars ([.strings x0, .int x1, .string x2, .int x3, .string x4, .float x5, .bool x6] : List (Val F)) (chars "ShellParticleFile") = some (.string x4) := rfl
    have e5 : valueOf statsVars ([.strings x0, .int x1, .string x2, .int x3, .string x4, .float x5, .bool x6] : List (Val F)) (chars "ShellWidth") = some (.float x5) := rfl
    have e6 : valueOf statsVars ([.strings x0, .int x1, .string x2, .int x3, .string x4, .float x5, .bool x6] : List (Val F)) (chars "SkipMass") = some (.bool x6) := rfl
    have ev : (statsMode L).validate [.strings x0, .int x1, .string x2, .int x3, .string x4, .float x5, .bool x6] = statsValidate [.strings x0, .int x1, .string x2, .int x3, .string x4, .float x5, .bool x6] := rfl
    rw [ev]
    unfold statsValidate StatsOk
    simp only [List.forall_mem_cons, List.forall_mem_nil, IntAtLeast, Positive, NotNegative, OneOf, e0, e1, e2, e3, e4, e5, e6, Option.some.injEq, Val.int.injEq, Val.float.injEq, Val.string.injEq,
      Val.strings.injEq, Val.floats.injEq, exists_eq_left', one_le_int, Bool.and_eq_true, Bool.or_eq_true, Bool.not_eq_true', decide_eq_true_eq, decide_eq_false_iff_not, Int.not_le, Int.not_lt,
      List.exists_mem_cons_iff, List.not_mem_nil, false_and, exists_false, or_false, and_true, exists_and_left, List.all_eq_true, List.map_cons, List.map_nil, List.mem_cons, profTypes,
      exists_eq_or_imp, forall_eq_or_imp, forall_eq, exists_eq_left]
    clear e0 e1 e2 e3 e4 e5 e6 ev
    tauto

set_option maxHeartbeats 1000000 in
theorem prof_sound (hL : GoLib L) : (profMode L).Sound L.toLib (ProfOk L : List (Val F) → Prop) where
  declared := (show WellDeclared L.toLib profVars.decls _ from wellDeclared_of _ hL.lower _ _ rfl (by decide +kernel) (by decide +kernel))
  typed := by
    repeat' (first | exact List.Forall₂.nil | exact ⟨_, rfl⟩ | refine List.Forall₂.cons ?_ ?_)
  valid := by
    intro st hst
    obtain ⟨_, s0, ⟨x0, rfl⟩, h0, rfl⟩ := List.forall₂_cons_left_iff.mp hst
    obtain ⟨_, s1, ⟨x1, rfl⟩, h1, rfl⟩ := List.forall₂_cons_left_iff.mp h0
    obtain ⟨_, s2, ⟨x2, rfl⟩, h2, rfl⟩ := List.forall₂_cons_left_iff.mp h1
    obtain ⟨_, s3, ⟨x3, rfl⟩, h3, rfl⟩ := List.forall₂_cons_left_iff.mp h2
    obtain ⟨_, s4, ⟨x4, rfl⟩, h4, rfl⟩ := List.forall₂_cons_left_iff.mp h3
    obtain ⟨_, s5, ⟨x5, rfl⟩, h5, rfl⟩ := List.forall₂_cons_left_iff.mp h4
    obtain ⟨_, s6, ⟨x6, rfl⟩, h6, rfl⟩ := List.forall₂_cons_left_iff.mp h5
    obtain ⟨_, s7, ⟨x7, rfl⟩, h7, rfl⟩ := List.forall₂_cons_left_iff.mp h6
    cases List.forall₂_nil_left_iff.mp h7
    clear hst h0 h1 h2 h3 h4 h5 h6 h7
    have e0 : valueOf profVars ([.int x0, .int x1, .int x2, .float x3, .float x4, .int x5, .float x6, .string x7] : List (Val F)) (chars "Bins") = some (.int x0) := rfl
    have e1 : valueOf profVars ([.int x0, .int x1, .int x2, .float x3, .float x4, .int x5, .float x6, .string x7] : List (Val F)) (chars "Order") = some (.int x1) := rfl
    have e2 : valueOf profVars ([.int x0, .int x1, .int x2, .float x3, .float x4, .int x5, .float x6, .string x7] : List (Val F)) (chars "Samples") = some (.int x2) := rfl
    have e3 : valueOf profVars ([.int x0, .int x1, .int x2, .float x3, .float x4, .int x5, .float x6, .string x7] : List (Val F)) (chars "RMaxMult") = some (.float x3) := rfl
    have e4 : valueOf profVars ([.int x0, .int x1, .int x2, .float x3, .float x4, .int x5, .float x6, .string x7] : List (Val F)) (chars "RMinMult") = some (.float x4) := rfl
    have e5 : valueOf profVars ([.int x0, .int x1, .int x2, .float x3, .float x4, .int x5, .float x6, .string x7] : List (Val F)) (chars "MedianPixelLevel") = some (.int x5) := rfl
    have e6 : valueOf profVars ([.int x0, .int x1, .int x2, .float x3, .float x4, .int x5, .float x6, .string x7] : List (Val F)) (chars "Percentile") = some (.float x6) := rfl
    have e7 : valueOf profVars ([.int x0, .int x1, .int x2, .float x3, .float x4, .int x5, .float x6, .string x7] : List (Val F)) (chars "ProfileType") = some (.string x7) := rfl
    have ev : (profMode L).validate [.int x0, .int x1, .int x2, .float x3, .float x4, .int x5, .float x6, .string x7] = profValidate L [.int x0, .int x1, .int x2, .float x3, .float x4, .int x5, .float x6, .string x7] := rfl
    rw [ev]
    unfold profValidate ProfOk
    simp only [List.forall_mem_cons, List.forall_mem_nil, IntAtLeast, Positive, NotNegative, OneOf, e0, e1, e2, e3, e4, e5, e6, e7, Option.some.injEq, Val.int.injEq, Val.float.injEq, Val.string.injEq,
      Val.strings.injEq, Val.floats.injEq, exists_eq_left', one_le_int, Bool.and_eq_true, Bool.or_eq_true, Bool.not_eq_true', decide_eq_true_eq, decide_eq_false_iff_not, Int.not_le, Int.not_lt,
      List.exists_mem_cons_iff, List.not_mem_nil, false_and, exists_false, or_false, and_true, exists_and_left, List.all_eq_true, List.map_cons, List.map_nil, List.mem_cons, profTypes,
      exists_eq_or_imp, forall_eq_or_imp, forall_eq, exists_eq_left]
    clear e0 e1 e2 e3 e4 e5 e6 e7 ev
    tauto

set_option maxHeartbeats 1000000 in
theorem phase_sound (hL : GoLib L) : (phaseMode L).Sound L.toLib (PhaseOk L : List (Val F) → Prop) where
  declared := (show WellDeclared L.toLib phaseVars.decls _ from wellDeclared_of _ hL.lower _ _ rfl (by decide +kernel) (by decide +kernel))
  typed := by
    repeat' (first | exact List.Forall₂.nil | exact ⟨_, rfl⟩ | refine List.Forall₂.cons ?_ ?_)
  valid := by
    intro st hst
    obtain ⟨_, s0, ⟨x0, rfl⟩, h0, rfl⟩ := List.forall₂_cons_left_iff.mp hst
    obtain ⟨_, s1, ⟨x1, rfl⟩, h1, rfl⟩ := List.forall₂_cons_left_iff.mp h0
    obtain ⟨_, s2, ⟨x2, rfl⟩, h2, rfl⟩ := List.forall₂_cons_left_iff.mp h1
    obtain ⟨_, s3, ⟨x3, rfl⟩, h3, rfl⟩ := List.forall₂_cons_left_iff.mp h2
    obtain ⟨_, s4, ⟨x4, rfl⟩, h4, rfl⟩ := List.forall₂_cons_left_iff.mp h3
    obtain ⟨_, s5, ⟨x5, rfl⟩, h5, rfl⟩ := List.forall₂_cons_left_iff.mp h4
    cases List.forall₂_nil_left_iff.mp h5
    clear hst h0 h1 h2 h3 h4 h5
    have e0 : valueOf phaseVars ([.int x0, .int x1, .float x2, .float x3, .bool x4, .string x5] : List (Val F)) (chars "RBins") = some (.int x0) := rfl
    have e1 : valueOf phaseVars ([.int x0, .int x1, .float x2, .float x3, .bool x4, .string x5] : List (Val F)) (chars "VBins") = some (.int x1) := rfl
    have e2 : valueOf phaseVars ([.int x0, .int x1, .float x2, .float x3, .bool x4, .string x5] : List (Val F)) (chars "RMaxMult") = some (.float x2) := rfl
    have e3 : valueOf phaseVars ([.int x0, .int x1, .float x2, .float x3, .bool x4, .string x5] : List (Val F)) (chars "VMaxMult") = some (.float x3) := rfl
    have e4 : valueOf phaseVars ([.int x0, .int x1, .float x2, .float x3, .bool x4, .string x5] : List (Val F)) (chars "SubtractHubble") = some (.bool x4) := rfl
    have e5 : valueOf phaseVars ([.int x0, .int x1, .float x2, .float x3, .bool x4, .string x5] : List (Val F)) (chars "ProfileType") = some (.string x5) := rfl
    have ev : (phaseMode L).validate [.int x0, .int x1, .float x2, .float x3, .bool x4, .string x5] = phaseValidate L [.int x0, .int x1, .float x2, .float x3, .bool x4, .string x5] := rfl
    rw [ev]
    unfold phaseValidate PhaseOk
    simp only [List.forall_mem_cons, List.forall_mem_nil, IntAtLeast, Positive, NotNegative, OneOf, e0, e1, e2, e3, e4, e5, Option.some.injEq, Val.int.injEq, Val.float.injEq, Val.string.injEq,
      Val.strings.injEq, Val.floats.injEq, exists_eq_left', one_le_int, Bool.and_eq_true, Bool.or_eq_true, Bool.not_eq_true', decide_eq_true_eq, decide_eq_false_iff_not, Int.not_le, Int.not_lt,
      List.exists_mem_cons_iff, List.not_mem_nil, false_and, exists_false, or_false, and_true, exists_and_left, List.all_eq_true, List.map_cons, List.map_nil, List.mem_cons, profTypes,
      exists_eq_or_imp, forall_eq_or_imp, forall_eq, exists_eq_left]
    clear e0 e1 e2 e3 e4 e5 ev
    tauto

set_option maxHeartbeats 1000000 in
theorem potential_sound (hL : GoLib L) : (potentialMode L).Sound L.toLib (PotentialOk L : List (Val F) → Prop) where
  declared := (show WellDeclared L.toLib potentialVars.decls _ from wellDeclared_of _ hL.lower _ _ rfl (by decide +kernel) (by decide +kernel))
  typed := by
    repeat' (first | exact List.Forall₂.nil | exact ⟨_, rfl⟩ | refine List.Forall₂.cons ?_ ?_)
  valid := by
    intro st hst
    obtain ⟨_, s0, ⟨x0, rfl⟩, h0, rfl⟩ := List.forall₂_cons_left_iff.mp hst
    obtain ⟨_, s1, ⟨x1, rfl⟩, h1, rfl⟩ := List.forall₂_cons_left_iff.mp h0
    obtain ⟨_, s2, ⟨x2, rfl⟩, h2, rfl⟩ := List.forall₂_cons_left_iff.mp h1
    obtain ⟨_, s3, ⟨x3, rfl⟩, h3, rfl⟩ := List.forall₂_cons_left_iff.mp h2
    obtain ⟨_, s4, ⟨x4, rfl⟩, h4, rfl⟩ := List.forall₂_cons_left_iff.mp h3
    cases List.forall₂_nil_left_iff.mp h4
    clear hst h0 h1 h2 h3 h4
    have e0 : valueOf potentialVars ([.int x0, .float x1, .float x2, .float x3, .float x4] : List (Val F)) (chars "RBins") = some (.int x0) := rfl
    have e1 : valueOf potentialVars ([.int x0, .float x1, .float x2, .float x3, .float x4] : List (Val F)) (chars "GridRMult") = some (.float x1) := rfl
    have e2 : valueOf potentialVars ([.int x0, .float x1, .float x2, .float x3, .float x4] : List (Val F)) (chars "RMaxMult") = some (.float x2) := rfl
    have e3 : valueOf potentialVars ([.int x0, .float x1, .float x2, .float x3, .float x4] : List (Val F)) (chars "RMinMult") = some (.float x3) := rfl
    have e4 : valueOf potentialVars ([.int x0, .float x1, .float x2, .float x3, .float x4] : List (Val F)) (chars "ParticleFraction") = some (.float x4) := rfl
    have ev : (potentialMode L).validate [.int x0, .float x1, .float x2, .float x3, .float x4] = potentialValidate L [.int x0, .float x1, .float x2, .float x3, .float x4] := rfl
    rw [ev]
    unfold potentialValidate PotentialOk
    simp only [List.forall_mem_cons, List.forall_mem_nil, IntAtLeast, Positive, NotNegative, OneOf, e0, e1, e2, e3, e4, Option.some.injEq, Val.int.injEq, Val.float.injEq, Val.string.injEq,
      Val.strings.injEq, Val.floats.injEq, exists_eq_left', one_le_int, Bool.and_eq_true, Bool.or_eq_true, Bool.not_eq_true', decide_eq_true_eq, decide_eq_false_iff_not, Int.not_le, Int.not_lt,
      List.exists_mem_cons_iff, List.not_mem_nil, false_and, exists_false, or_false, and_true, exists_and_left, List.all_eq_true, List.map_cons, List.map_nil, List.mem_cons, profTypes,
      exists_eq_or_imp, forall_eq_or_imp, forall_eq, exists_eq_left]
    clear e0 e1 e2 e3 e4 ev
    tauto

set_option maxHeartbeats 1000000 in
theorem check_sound (hL : GoLib L) : (checkMode L).Sound L.toLib (CheckOk : List (Val F) → Prop) where
  declared := (show WellDeclared L.toLib checkVars.decls _ from wellDeclared_of _ hL.lower _ _ rfl (by decide +kernel) (by decide +kernel))
  typed := by
    repeat' (first | exact List.Forall₂.nil | exact ⟨_, rfl⟩ | refine List.Forall₂.cons ?_ ?_)
  valid := by
    intro st hst
    obtain ⟨_, s0, ⟨x0, rfl⟩, h0, rfl⟩ := List.forall₂_cons_left_iff.mp hst
    obtain ⟨_, s1, ⟨x1, rfl⟩, h1, rfl⟩ := List.forall₂_cons_left_iff.mp h0
    obtain ⟨_, s2, ⟨x2, rfl⟩, h2, rfl⟩ := List.forall₂_cons_left_iff.mp h1
    obtain ⟨_, s3, ⟨x3, rfl⟩, h3, rfl⟩ := List.forall₂_cons_left_iff.mp h2
    obtain ⟨_, s4, ⟨x4, rfl⟩, h4, rfl⟩ := List.forall₂_cons_left_iff.mp h3
    obtain ⟨_, s5, ⟨x5, rfl⟩, h5, rfl⟩ := List.forall₂_cons_left_iff.mp h4
    obtain ⟨_, s6, ⟨x6, rfl⟩, h6, rfl⟩ := List.forall₂_cons_left_iff.mp h5
    cases List.forall₂_nil_left_iff.mp h6
    clear hst h0 h1 h2 h3 h4 h5 h6
    have e0 : valueOf checkVars ([.float x0, .float x1, .float x2, .float x3, .floats x4, .int x5, .floats x6] : List (Val F)) (chars "H0") = some (.float x0) := rfl
    have e1 : valueOf checkVars ([.float x0, .float x1, .float x2, .float x3, .floats x4, .int x5, .floats x6] : List (Val F)) (chars "OmegaM") = some (.float x1) := rfl
    have e2 : valueOf checkVars ([.float x0, .float x1, .float x2, .float x3, .floats x4, .int x5, .floats x6] : List (Val F)) (chars "OmegaL") = some (.float x2) := rfl
    have e3 : valueOf checkVars ([.float x0, .float x1, .float x2, .float x3, .floats x4, .int x5, .floats x6] : List (Val F)) (chars "BoxWidth") = some (.float x3) := rfl
    have e4 : valueOf checkVars ([.float x0, .float x1, .float x2, .float x3, .floats x4, .int x5, .floats x6] : List (Val F)) (chars "ParticleMasses") = some (.floats x4) := rfl
    have e5 : valueOf checkVars ([.float x0, .float x1, .float x2, .float x3, .floats x4, .int x5, .floats x6] : List (Val F)) (chars "ParticleCount") = some (.int x5) := rfl
    have e6 : valueOf checkVars ([.float x0, .float x1, .float x2, .float x3, .floats x4, .int x5, .floats x6] : List (Val F)) (chars "ExampleHalo") = some (.floats x6) := rfl
    have ev : (checkMode L).validate [.float x0, .float x1, .float x2, .float x3, .floats x4, .int x5, .floats x6] = checkValidate [.float x0, .float x1, .float x2, .float x3, .floats x4, .int x5, .floats x6] := rfl
    rw [ev]
    unfold checkValidate CheckOk
    simp only [List.forall_mem_cons, List.forall_mem_nil, IntAtLeast, Positive, NotNegative, OneOf, e0, e1, e2, e3, e4, e5, e6, Option.some.injEq, Val.int.injEq, Val.float.injEq, Val.string.injEq,
      Val.strings.injEq, Val.floats.injEq, exists_eq_left', one_le_int, Bool.and_eq_true, Bool.or_eq_true, Bool.not_eq_true', decide_eq_true_eq, decide_eq_false_iff_not, Int.not_le, Int.not_lt,
      List.exists_mem_cons_iff, List.not_mem_nil, false_and, exists_false, or_false, and_true, exists_and_left, List.all_eq_true, List.map_cons, List.map_nil, List.mem_cons, profTypes,
      exists_eq_or_imp, forall_eq_or_imp, forall_eq, exists_eq_left]

/-! ### Theorems -/

/-- C70 (shell): the values of the file and then of the flags are accepted exactly if they meet the conditions on the parameters. -/
theorem C70_shell (hL : GoLib L) (flags : List Str) (st : List (Val F)) :
    (∀ file, (shellMode L).read L.toLib (some (some file)) flags = .ok st ↔
      ∃ st1, FileMeans L.toLib shellVars file (shellMode L).defaults st1 ∧ FlagsMean L.toLib shellVars.decls flags st1 st ∧ ShellOk L st) ∧
    (flags ≠ [] → ((shellMode L).read L.toLib none flags = .ok st ↔ FlagsMean L.toLib shellVars.decls flags (shellMode L).defaults st ∧ ShellOk L st)) :=
  (shell_sound L hL).read flags st

/-- C70 (id): the values of the file and then of the flags are accepted exactly if they meet the conditions on the parameters. -/
theorem C70_id (hL : GoLib L) (flags : List Str) (st : List (Val F)) :
    (∀ file, (idMode L).read L.toLib (some (some file)) flags = .ok st ↔
      ∃ st1, FileMeans L.toLib idVars file (idMode L).defaults st1 ∧ FlagsMean L.toLib idVars.decls flags st1 st ∧ IdOk L st) ∧
    (flags ≠ [] → ((idMode L).read L.toLib none flags = .ok st ↔ FlagsMean L.toLib idVars.decls flags (idMode L).defaults st ∧ IdOk L st)) :=
  (id_sound L hL).read flags st

/-- C70 (stats): the values of the file and then of the flags are accepted exactly if they meet the conditions on the parameters. -/
theorem C70_stats (hL : GoLib L) (flags : List Str) (st : List (Val F)) :
    (∀ file, (statsMode L).read L.toLib (some (some file)) flags = .ok st ↔
      ∃ st1, FileMeans L.toLib statsVars file (statsMode L).defaults st1 ∧ FlagsMean L.toLib statsVars.decls flags st1 st ∧ StatsOk st) ∧
    (flags ≠ [] → ((statsMode L).read L.toLib none flags = .ok st ↔ FlagsMean L.toLib statsVars.decls flags (statsMode L).defaults st ∧ StatsOk st)) :=
  (stats_sound L hL).read flags st

/-- C70 (prof): the values of the file and then of the flags are accepted exactly if they meet the conditions on the parameters. -/
theorem C70_prof (hL : GoLib L) (flags : List Str) (st : List (Val F)) :
    (∀ file, (profMode L).read L.toLib (some (some file)) flags = .ok st ↔
      ∃ st1, FileMeans L.toLib profVars file (profMode L).defaults st1 ∧ FlagsMean L.toLib profVars.decls flags st1 st ∧ ProfOk L st) ∧
    (flags ≠ [] → ((profMode L).read L.toLib none flags = .ok st ↔ FlagsMean L.toLib profVars.decls flags (profMode L).defaults st ∧ ProfOk L st)) :=
  (prof_sound L hL).read flags st

/-- C70 (phase): the values of the file and then of the flags are accepted exactly if they meet the conditions on the parameters. -/
theorem C70_phase (hL : GoLib L) (flags : List Str) (st : List (Val F)) :
    (∀ file, (phaseMode L).read L.toLib (some (some file)) flags = .ok st ↔
      ∃ st1, FileMeans L.toLib phaseVars file (phaseMode L).defaults st1 ∧ FlagsMean L.toLib phaseVars.decls flags st1 st ∧ PhaseOk L st) ∧
    (flags ≠ [] → ((phaseMode L).read L.toLib none flags = .ok st ↔ FlagsMean L.toLib phaseVars.decls flags (phaseMode L).defaults st ∧ PhaseOk L st)) :=
  (phase_sound L hL).read flags st

/-- C70 (potential): the values of the file and then of the flags are accepted exactly if they meet the conditions on the parameters. -/
theorem C70_potential (hL : GoLib L) (flags : List Str) (st : List (Val F)) :
    (∀ file, (potentialMode L).read L.toLib (some (some file)) flags = .ok st ↔
      ∃ st1, FileMeans L.toLib potentialVars file (potentialMode L).defaults st1 ∧ FlagsMean L.toLib potentialVars.decls flags st1 st ∧ PotentialOk L st) ∧
    (flags ≠ [] → ((potentialMode L).read L.toLib none flags = .ok st ↔ FlagsMean L.toLib potentialVars.decls flags (potentialMode L).defaults st ∧ PotentialOk L st)) :=
  (potential_sound L hL).read flags st

/-- C70 (check): the values of the file and then of the flags are accepted exactly if they meet the conditions on the parameters. -/
theorem C70_check (hL : GoLib L) (flags : List Str) (st : List (Val F)) :
    (∀ file, (checkMode L).read L.toLib (some (some file)) flags = .ok st ↔
      ∃ st1, FileMeans L.toLib checkVars file (checkMode L).defaults st1 ∧ FlagsMean L.toLib checkVars.decls flags st1 st ∧ CheckOk st) ∧
    (flags ≠ [] → ((checkMode L).read L.toLib none flags = .ok st ↔ FlagsMean L.toLib checkVars.decls flags (checkMode L).defaults st ∧ CheckOk st)) :=
  (check_sound L hL).read flags st

omit [DecidableEq F] in
/-- C70: a file that cannot be read is an error in every mode. -/
theorem C70_unreadable (lib : Lib F) (m : Mode F) (flags : List Str) : m.read lib (some none) flags = .err := rfl

theorem mode_result (lib : Lib F) (m : Mode F) (hw : WellDeclared lib m.vars.decls m.defaults) (pairs : List (Str × Str)) (table : List (Nat × Val F)) (result : List (Val F))
    (hgl : result.length = m.defaults.length) (htab : List.Forall₂ (fun p e => ∃ d, m.vars.decls[e.1]? = some d ∧ d.1 = p.1 ∧ Converts lib d.2 p.2 e.2 ∧ result[e.1]? = some e.2) pairs table)
    (hdef : ∀ j, result[j]? = m.defaults[j]? ∨ j ∈ table.map Prod.fst) (hval : m.validate result = true) (file : Str) (hfile : FileOf lib m.vars.name pairs file) :
    m.read lib (some (some file)) [] = .ok result := by
  have hoff : List.Forall₂ (fun p e => ∃ d g, m.vars.decls[e.1]? = some d ∧ d.1 = p.1 ∧ (result.map fun d v => v = d)[e.1]? = some g ∧ Converts lib d.2 p.2 e.2 ∧ g e.2) pairs table := by
    refine htab.imp fun p e ⟨d, h1, h2, h3, h4⟩ => ⟨d, fun v => v = e.2, h1, h2, ?_, h3, rfl⟩
    rw [List.getElem?_map, h4]
    rfl
  obtain ⟨st, h1, h2⟩ := mode_offered lib m hw pairs table (result.map fun d v => v = d) (by simp [hgl]) hoff (table.map Prod.fst) (by
      intro j v g hv hg
      rcases hdef j with h | h
      · rw [List.getElem?_map, h, hv, Option.map_some] at hg
        cases hg
        exact Or.inl rfl
      · exact Or.inr h) (by
      intro st hst
      rw [forall2_eq_iff] at hst
      rw [hst, hval]) file pairs hfile (fun _ h => h) (by
      intro j hj d hd
      rw [List.mem_map] at hj
      obtain ⟨e, he, rfl⟩ := hj
      obtain ⟨i, hi, rfl⟩ := List.mem_iff_getElem.mp he
      have hi' : i < pairs.length := by rw [htab.length_eq]; exact hi
      obtain ⟨d', h1, h2, -⟩ := (List.forall₂_iff_get.mp htab).2 i hi' hi
      rw [List.get_eq_getElem] at h1
      rw [hd] at h1
      cases h1
      exact ⟨pairs[i], List.getElem_mem hi', h2.symm⟩)
  rw [forall2_eq_iff] at h2
  rw [h1, h2]

/-- C70 is false without file and flags: nothing is checked, id runs with snapshot -1 and prof without a profile type. -/
theorem C70_unchecked_false : (idMode L).read L.toLib none [] = .ok (idMode L).defaults ∧ ¬ IdOk L (idMode L).defaults ∧
    (profMode L).read L.toLib none [] = .ok (profMode L).defaults ∧ ¬ ProfOk L (profMode L).defaults := by
  refine ⟨rfl, ?_, rfl, ?_⟩
  · rintro ⟨_, _, _, ⟨i, h, hi⟩, _⟩
    cases (show (some (.int (-1)) : Option (Val F)) = some (.int i) from h)
    omega
  · rintro ⟨⟨t, ht, h⟩, _⟩
    have e : ([] : Str) = t.toList := Val.string.inj (Option.some.inj h)
    have : ∀ t ∈ ["density", "median-density", "median-error", "contained-density", "angular-fraction", "bound-density"], ([] : Str) ≠ String.toList t := by decide +kernel
    exact this t ht e

macro "table_all" hL:term : tactic => `(tactic| (
  repeat' (first | exact List.Forall₂.nil | refine List.Forall₂.cons ?_ ?_)
  all_goals refine ⟨_, rfl, by decide +kernel, ?_, rfl⟩
  offer $hL))

/-- C70 is false of the smoothing window of shell: it "must be an odd number", but an even one is accepted. -/
theorem C70_window_false (hL : GoLib L) : ∃ file st, (shellMode L).read L.toLib (some (some file)) [] = .ok st ∧ valueOf shellVars st (chars "SmoothingWindow") = some (.int 120) := by
  refine ⟨joinWith '\n' [chars "[shell.config]", chars "SmoothingWindow = 120"], (shellMode L).defaults.set 10 (.int 120),
    mode_result L.toLib (shellMode L) (shell_sound L hL).declared [(chars "SmoothingWindow", chars "120")] [(10, .int 120)] ((shellMode L).defaults.set 10 (.int 120)) rfl (by table_all hL) ?_ ?_ _ ?_, rfl⟩
  · intro j
    by_cases h : j = 10
    · exact Or.inr (by simp [h])
    · exact Or.inl (by rw [List.getElem?_set_ne (Ne.symm h)])
  · have p1 := hL.pos ("3".toList, 3) (by decide +kernel) (by norm_num)
    have p2 := hL.pos ("0.3".toList, 3/10) (by decide +kernel) (by norm_num)
    have p3 := hL.pos ("0.2".toList, 1/5) (by decide +kernel) (by norm_num)
    have p4 := hL.pos ("10.0".toList, 10) (by decide +kernel) (by norm_num)
    have p5 := hL.lt
    norm_num [shellMode, shellValidate]
    norm_num at p1 p2 p3 p4 p5
    exact ⟨⟨⟨⟨p1, p2⟩, p3⟩, p4⟩, p5⟩
  · exact fileOf_lines L.toLib hL.lower shellVars.name _ [chars "SmoothingWindow = 120"] _ (by decide) (by decide +kernel) (by decide +kernel) (by decide +kernel) (by decide +kernel) (by decide +kernel)

/-- C70 is false of the mass limits of id: a minimum above the maximum is not reported. -/
theorem C70_masses_false (hL : GoLib L) : ∃ file st, (idMode L).read L.toLib (some (some file)) [] = .ok st ∧
    valueOf idVars st (chars "M200mMin") = some (.float (L.const 10000000000000)) ∧ valueOf idVars st (chars "M200mMax") = some (.float (L.const 1000000000000)) := by
  refine ⟨joinWith '\n' [chars "[id.config]", chars "Snap = 100", chars "M200mMin = 1e13", chars "M200mMax = 1e12"],
    (((idMode L).defaults.set 5 (.int 100)).set 9 (.float (L.const 10000000000000))).set 8 (.float (L.const 1000000000000)),
    mode_result L.toLib (idMode L) (id_sound L hL).declared [(chars "Snap", chars "100"), (chars "M200mMin", chars "1e13"), (chars "M200mMax", chars "1e12")]
      [(5, .int 100), (9, .float (L.const 10000000000000)), (8, .float (L.const 1000000000000))]
      ((((idMode L).defaults.set 5 (.int 100)).set 9 (.float (L.const 10000000000000))).set 8 (.float (L.const 1000000000000))) rfl (by table_all hL) ?_ ?_ _ ?_, rfl, rfl⟩
  · intro j
    by_cases h : j = 5 ∨ j = 9 ∨ j = 8
    · exact Or.inr (by simp [h])
    · push Not at h
      exact Or.inl (by rw [List.getElem?_set_ne (Ne.symm h.2.2), List.getElem?_set_ne (Ne.symm h.2.1), List.getElem?_set_ne (Ne.symm h.1)])
  · have p1 := hL.pos (chars "1", 1) (by decide +kernel) (by norm_num)
    have p2 := hL.nonneg (chars "1e12", 1000000000000) (by decide +kernel) (by norm_num)
    norm_num [idMode, idValidate]
    exact ⟨Or.inr p1, p2⟩
  · exact fileOf_lines L.toLib hL.lower idVars.name _ [chars "Snap = 100", chars "M200mMin = 1e13", chars "M200mMax = 1e12"] _ (by decide) (by decide +kernel) (by decide +kernel) (by decide +kernel)
      (by decide +kernel) (by decide +kernel)

/-- C70 is false of the radii and the bins of prof: a minimum above the maximum and no bins at all are accepted. -/
theorem C70_bins_false (hL : GoLib L) : ∃ file st, (profMode L).read L.toLib (some (some file)) [] = .ok st ∧ valueOf profVars st (chars "Bins") = some (.int 0) ∧
    valueOf profVars st (chars "RMinMult") = some (.float (L.const 3)) ∧ valueOf profVars st (chars "RMaxMult") = some (.float (L.const (3/10))) := by
  refine ⟨joinWith '\n' [chars "[prof.config]", chars "ProfileType = density", chars "Bins = 0", chars "RMinMult = 3", chars "RMaxMult = 0.3"],
    ((((profMode L).defaults.set 7 (.string (chars "density"))).set 0 (.int 0)).set 4 (.float (L.const 3))).set 3 (.float (L.const (3/10))),
    mode_result L.toLib (profMode L) (prof_sound L hL).declared [(chars "ProfileType", chars "density"), (chars "Bins", chars "0"), (chars "RMinMult", chars "3"), (chars "RMaxMult", chars "0.3")]
      [(7, .string (chars "density")), (0, .int 0), (4, .float (L.const 3)), (3, .float (L.const (3/10)))]
      (((((profMode L).defaults.set 7 (.string (chars "density"))).set 0 (.int 0)).set 4 (.float (L.const 3))).set 3 (.float (L.const (3/10)))) rfl (by table_all hL) ?_ ?_ _ ?_, rfl, rfl, rfl⟩
  · intro j
    by_cases h : j = 7 ∨ j = 0 ∨ j = 4 ∨ j = 3
    · exact Or.inr (by simp [h])
    · push Not at h
      exact Or.inl (by rw [List.getElem?_set_ne (Ne.symm h.2.2.2), List.getElem?_set_ne (Ne.symm h.2.2.1), List.getElem?_set_ne (Ne.symm h.2.1), List.getElem?_set_ne (Ne.symm h.1)])
  · have p1 := hL.pos (chars "3", 3) (by decide +kernel) (by norm_num)
    have p2 := hL.pos (chars "0.3", 3/10) (by decide +kernel) (by norm_num)
    norm_num [profMode, profValidate, profTypes]
    norm_num at p1 p2
    exact ⟨⟨Or.inl rfl, p1⟩, p2⟩
  · exact fileOf_lines L.toLib hL.lower profVars.name _ [chars "ProfileType = density", chars "Bins = 0", chars "RMinMult = 3", chars "RMaxMult = 0.3"] _ (by decide) (by decide +kernel) (by decide +kernel)
      (by decide +kernel) (by decide +kernel) (by decide +kernel)

/-- C70 is false of "NaN", which `strconv.ParseFloat` accepts and no comparison rejects: shell runs with limits of the lines of sight that are not numbers. -/
theorem C70_nan_false (hL : GoLib L) (nan : F) (hp : L.parseFloat (chars "NaN") = some nan) (hle : ∀ x, L.le nan x = false ∧ L.le x nan = false) :
    ∃ file st, (shellMode L).read L.toLib (some (some file)) [] = .ok st ∧ valueOf shellVars st (chars "RMaxMult") = some (.float nan) ∧
      valueOf shellVars st (chars "RMinMult") = some (.float nan) := by
  refine ⟨joinWith '\n' [chars "[shell.config]", chars "RMaxMult = NaN", chars "RMinMult = NaN"], ((shellMode L).defaults.set 4 (.float nan)).set 5 (.float nan),
    mode_result L.toLib (shellMode L) (shell_sound L hL).declared [(chars "RMaxMult", chars "NaN"), (chars "RMinMult", chars "NaN")] [(4, .float nan), (5, .float nan)]
      (((shellMode L).defaults.set 4 (.float nan)).set 5 (.float nan)) rfl (by
      repeat' (first | exact List.Forall₂.nil | refine List.Forall₂.cons ?_ ?_)
      all_goals exact ⟨_, rfl, rfl, ⟨nan, hp, rfl⟩, rfl⟩) ?_ ?_ _ ?_, rfl, rfl⟩
  · intro j
    by_cases h : j = 4 ∨ j = 5
    · exact Or.inr (by simpa using h)
    · push Not at h
      exact Or.inl (by rw [List.getElem?_set_ne (Ne.symm h.2), List.getElem?_set_ne (Ne.symm h.1)])
  · have p3 := hL.pos ("0.2".toList, 1/5) (by decide +kernel) (by norm_num)
    have p4 := hL.pos ("10.0".toList, 10) (by decide +kernel) (by norm_num)
    norm_num [shellMode, shellValidate, hle]
    norm_num at p3 p4
    exact ⟨p3, p4⟩
  · exact fileOf_lines L.toLib hL.lower shellVars.name _ [chars "RMaxMult = NaN", chars "RMinMult = NaN"] _ (by decide) (by decide +kernel) (by decide +kernel) (by decide +kernel) (by decide +kernel)
      (by decide +kernel)

/-! ### The assumptions hold of a library -/

/-- `ratLib` with a value that is not a number. -/
def nanLib : FLib (Option ℚ) where
  lower s := s.map Char.toLower
  parseFloat s := if s = chars "NaN" then some none else (literals.find? fun e => decide (e.1 = s)).map fun e => some e.2
  const q := some q
  lt a b := match a, b with | some x, some y => decide (x < y) | _, _ => false
  le a b := match a, b with | some x, some y => decide (x ≤ y) | _, _ => false

theorem nanLib_goLib : GoLib nanLib where
  lower _ _ := rfl
  parse := by intro e he; unfold literals at he; fin_cases he <;> rfl
  pos := fun e _ h => decide_eq_false (not_le.mpr h)
  nonneg := fun e _ h => decide_eq_false (not_lt.mpr h)
  lt := decide_eq_false (by show ¬ (3 : ℚ) ≤ 3/10; norm_num)

example : ∃ file st, (shellMode nanLib).read nanLib.toLib (some (some file)) [] = .ok st ∧ valueOf shellVars st (chars "RMaxMult") = some (.float none) ∧
    valueOf shellVars st (chars "RMinMult") = some (.float none) :=
  C70_nan_false nanLib nanLib_goLib none rfl (by
    intro x
    cases x <;> exact ⟨rfl, rfl⟩)

/-- A run of shell that is rejected: the flags set the number of rings to zero. -/
example (st : List (Val ℚ)) (h : (shellMode ratLib).read ratLib.toLib none [chars "--Rings", chars "0"] = .ok st) : False := by
  obtain ⟨⟨_, gs, hg, _, _, hu⟩, hok⟩ := ((C70_shell ratLib ratLib_goLib [chars "--Rings", chars "0"] st).2 (by decide)).mp h
  have hr : readFlags ratLib.toLib shellVars [chars "--Rings", chars "0"] (shellMode ratLib).defaults = .ok ((shellMode ratLib).defaults.set 3 (.int 0)) := by rfl
  unfold Mode.read at h
  dsimp only at h
  rw [if_neg (by decide), Mode.finish_ok] at h
  have e := h.1
  rw [show readFlags ratLib.toLib (shellMode ratLib).vars _ _ = _ from hr] at e
  cases e
  obtain ⟨i, hi, hp⟩ := hok.1 (chars "Rings") (by decide)
  cases (show (some (.int 0) : Option (Val ℚ)) = some (.int i) from hi)
  omega

end Shellfish.Modes
