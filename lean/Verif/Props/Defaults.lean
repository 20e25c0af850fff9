/-
C83: options that are not set have their documented default values.
-/
import Verif.Props.Params

namespace Shellfish.Modes
open Shellfish.Config Shellfish.Text

variable {F : Type} [DecidableEq F] (L : FLib F)

set_option maxRecDepth 100000

/-! ### Specification -/

/-- The option is neither assigned in the file nor named by a flag (letter case is ignored). -/
def Unset (lib : Lib F) (file : Option Str) (flags : List Str) (name : Str) : Prop :=
  (∀ f, file = some f → ∀ l ∈ significant f, ∀ n v, Assigns l n v → ¬ Same lib name n) ∧
  ∀ a ∈ flags, IsFlag a → ¬ Same lib name (trimSp (trimLeft (fun c => c == '-') a))

/-- The modes with the default values that their documentation states ("defaults to", "the default value is", "if not set", or the value shown among the optional fields).  For
check an option that is not set must not be checked: negative numbers and empty lists stand for that.  For tree and stats an empty list stands for "all". -/
def documented : List (Mode F × List (Str × Val F)) := [
  (idMode L, [(chars "IDType", .string (chars "m200m")), (chars "ExclusionStrategy", .string (chars "overlap")), (chars "Mult", .int 1), (chars "IDs", .ints [])]),
  (treeMode, [(chars "SelectSnaps", .ints [])]),
  (statsMode L, [(chars "ExclusionStrategy", .string (chars "none")), (chars "Order", .int 3), (chars "MonteCarloSamples", .int 50000), (chars "SkipMass", .bool false),
    (chars "ShellParticleFile", .string []), (chars "ShellWidth", .float (L.const 0)), (chars "Values", .strings [])]),
  (shellMode L, [(chars "SubsampleFactor", .int 1), (chars "RadialBins", .int 256), (chars "Spokes", .int 256), (chars "Rings", .int 100), (chars "RMaxMult", .float (L.const 3)),
    (chars "RMinMult", .float (L.const 0.3)), (chars "RKernelMult", .float (L.const 0.2)), (chars "Eta", .float (L.const 10)), (chars "Order", .int 3), (chars "Levels", .int 3),
    (chars "SmoothingWindow", .int 121), (chars "LOSSlopeCutoff", .float (L.const 0)), (chars "BackgroundRhoMult", .float (L.const 0.5))]),
  (profMode L, [(chars "Order", .int 3), (chars "Samples", .int 50000), (chars "MedianPixelLevel", .int 3), (chars "Percentile", .float (L.const 50)), (chars "Bins", .int 150),
    (chars "RMaxMult", .float (L.const 3)), (chars "RMinMult", .float (L.const 0.03))]),
  (phaseMode L, [(chars "RBins", .int 100), (chars "VBins", .int 100), (chars "RMaxMult", .float (L.const 3)), (chars "VMaxMult", .float (L.const 3)), (chars "SubtractHubble", .bool false)]),
  (coordMode, [(chars "Values", .strings [chars "X", chars "Y", chars "Z", chars "R200m"])]),
  (checkMode L, [(chars "H0", .float (L.const (-1))), (chars "OmegaM", .float (L.const (-1))), (chars "OmegaL", .float (L.const (-1))), (chars "BoxWidth", .float (L.const (-1))),
    (chars "ParticleMasses", .floats []), (chars "ParticleCount", .int (-1)), (chars "ExampleHalo", .floats [])])]

/-! ### Proofs -/

omit [DecidableEq F] in
theorem valueOf_get (vars : Vars) (st : List (Val F)) (hnd : vars.decls.Pairwise fun d e => d.1 ≠ e.1) (j : Nat) (d : Str × VarType) (v : Val F) (hd : vars.decls[j]? = some d)
    (hv : st[j]? = some v) : valueOf vars st d.1 = some v := by
  unfold valueOf
  have hz : (vars.decls.zip st)[j]? = some (d, v) := (List.getElem?_zip_eq_some (z := (d, v))).mpr ⟨hd, hv⟩
  obtain ⟨hj, hz'⟩ := List.getElem?_eq_some_iff.mp hz
  have : (vars.decls.zip st).find? (fun p => decide (p.1.1 = d.1)) = some (d, v) := by
    rw [List.find?_eq_some_iff_getElem]
    refine ⟨by simp, j, hj, hz', fun k hk => ?_⟩
    simp only [List.getElem_zip, Bool.not_eq_true', decide_eq_false_iff_not]
    have hjd : j < vars.decls.length := (List.getElem?_eq_some_iff.mp hd).1
    have e := (List.getElem?_eq_some_iff.mp hd).2
    rw [← e]
    exact List.pairwise_iff_getElem.mp hnd k j (by omega) hjd hk
  rw [this]
  rfl

omit [DecidableEq F] in
theorem grouped_mem {flags : List Str} {gs : List (Str × List Str)} (h : Grouped flags gs) {g : Str × List Str} (hg : g ∈ gs) : g.1 ∈ flags ∧ IsFlag g.1 := by
  refine ⟨?_, (h.2 g hg).1⟩
  rw [h.1, List.mem_flatMap]
  exact ⟨g, hg, List.mem_cons_self⟩

omit [DecidableEq F] in
theorem forall2_mem_right {α β : Type} {R : α → β → Prop} : ∀ {l : List α} {m : List β}, List.Forall₂ R l m → ∀ b ∈ m, ∃ a ∈ l, R a b := by
  intro l m h
  induction h with
  | nil => intro b hb; cases hb
  | cons h1 _ ih =>
    intro b hb
    rcases List.mem_cons.mp hb with rfl | hb
    · exact ⟨_, List.mem_cons_self, h1⟩
    · obtain ⟨a, ha, h⟩ := ih b hb
      exact ⟨a, List.mem_cons_of_mem _ ha, h⟩

omit [DecidableEq F] in
/-- An option that is not set keeps the value of the declaration. -/
theorem unset_keeps (lib : Lib F) (m : Mode F) (hw : WellDeclared lib m.vars.decls m.defaults) (file : Option (Option Str)) (flags : List Str) (st : List (Val F))
    (h : m.read lib file flags = .ok st) (j : Nat) (d : Str × VarType) (hd : m.vars.decls[j]? = some d) (hu : Unset lib (file.getD none) flags d.1) : st[j]? = m.defaults[j]? := by
  have hflags : ∀ (s0 s : List (Val F)), WellDeclared lib m.vars.decls s0 → readFlags lib m.vars flags s0 = .ok s → s[j]? = s0[j]? := by
    intro s0 s hw0 hr
    obtain ⟨_, gs, g1, _, _, g4⟩ := (C07_flags_iff lib m.vars flags s0 s hw0).mp hr
    refine (g4.2 j d hd).2 fun p hp => ?_
    rw [List.mem_map] at hp
    obtain ⟨g, hg, rfl⟩ := hp
    obtain ⟨h1, h2⟩ := grouped_mem g1 hg
    exact hu.2 _ h1 h2
  have hfin : ∀ (s0 s : List (Val F)), WellDeclared lib m.vars.decls s0 → m.finish (readFlags lib m.vars flags s0) = .ok s → s[j]? = s0[j]? := by
    intro s0 s hw0 hf
    unfold Mode.finish at hf
    cases hr : readFlags lib m.vars flags s0 with
    | panic => rw [hr] at hf; cases hf
    | err e s => rw [hr] at hf; cases hf
    | ok s1 =>
      rw [hr] at hf
      dsimp only at hf
      split at hf
      · cases hf
        exact hflags _ _ hw0 hr
      · cases hf
  unfold Mode.read at h
  cases file with
  | none =>
    dsimp only at h
    by_cases he : flags = []
    · rw [if_pos he] at h; cases h; rfl
    · rw [if_neg he] at h; exact hfin _ _ hw h
  | some content =>
    cases content with
    | none => cases h
    | some f =>
      dsimp only at h
      cases hr : readConfig lib m.vars (some f) m.defaults with
      | panic => rw [hr] at h; cases h
      | err e s => rw [hr] at h; cases h
      | ok s1 =>
        rw [hr] at h
        dsimp only at h
        obtain ⟨lines, pairs, h1, h2, _, h4⟩ := (C05_success_iff lib m.vars f m.defaults s1 hw).mp hr
        rw [hfin s1 st (updated_length lib h4 hw) h]
        refine (h4.2 j d hd).2 fun p hp => ?_
        obtain ⟨l, hl, ha⟩ := forall2_mem_right h2 p hp
        exact hu.1 f rfl l (by rw [h1]; exact List.mem_cons_of_mem _ hl) _ _ ha

/-- `unset_keeps` in terms of names. -/
theorem unset_value (hL : GoLib L) (m : Mode F) (hl : m.defaults.length = m.vars.decls.length) (ha : ∀ d ∈ m.vars.decls, ∀ c ∈ d.1, c.toNat < 128)
    (hp : (m.vars.decls.map fun d => d.1.map Char.toLower).Pairwise (· ≠ ·)) (file : Option (Option Str)) (flags : List Str) (st : List (Val F)) (h : m.read L.toLib file flags = .ok st)
    (name : Str) (v : Val F) (hv : ∃ (j : Nat) (d : Str × VarType), m.vars.decls[j]? = some d ∧ d.1 = name ∧ m.defaults[j]? = some v) (hu : Unset L.toLib (file.getD none) flags name) :
    valueOf m.vars st name = some v := by
  obtain ⟨j, d, hd, rfl, hv⟩ := hv
  have hw := wellDeclared_of L.toLib hL.lower m.vars.decls m.defaults hl ha hp
  refine valueOf_get m.vars st ?_ j d v hd ?_
  · rw [List.pairwise_map] at hp
    exact hp.imp fun h e => h (by rw [e])
  · rw [unset_keeps L.toLib m hw file flags st h j d hd hu, hv]

macro "default_at" : tactic => `(tactic| first
  | exact ⟨0, _, rfl, rfl, rfl⟩ | exact ⟨1, _, rfl, rfl, rfl⟩ | exact ⟨2, _, rfl, rfl, rfl⟩ | exact ⟨3, _, rfl, rfl, rfl⟩ | exact ⟨4, _, rfl, rfl, rfl⟩
  | exact ⟨5, _, rfl, rfl, rfl⟩ | exact ⟨6, _, rfl, rfl, rfl⟩ | exact ⟨7, _, rfl, rfl, rfl⟩ | exact ⟨8, _, rfl, rfl, rfl⟩ | exact ⟨9, _, rfl, rfl, rfl⟩
  | exact ⟨10, _, rfl, rfl, rfl⟩ | exact ⟨11, _, rfl, rfl, rfl⟩ | exact ⟨12, _, rfl, rfl, rfl⟩)

/-- C83, partial: whatever file and flags a run was started with, an option that they do not set has the documented default.  Missing: ExclusionRadiusMult of id. -/
theorem C83_default_partial (hL : GoLib L) (e : Mode F × List (Str × Val F)) (he : e ∈ documented L) (file : Option (Option Str)) (flags : List Str) (st : List (Val F))
    (h : e.1.read L.toLib file flags = .ok st) (p : Str × Val F) (hp : p ∈ e.2) (hu : Unset L.toLib (file.getD none) flags p.1) : valueOf e.1.vars st p.1 = some p.2 := by
  have hall : ∀ e ∈ documented L, e.1.defaults.length = e.1.vars.decls.length ∧ (∀ d ∈ e.1.vars.decls, ∀ c ∈ d.1, c.toNat < 128) ∧
      (e.1.vars.decls.map fun d => d.1.map Char.toLower).Pairwise (· ≠ ·) := by
    unfold documented
    simp only [List.forall_mem_cons, List.not_mem_nil, false_implies, implies_true, and_true]
    refine ⟨⟨rfl, ?_, ?_⟩, ⟨rfl, ?_, ?_⟩, ⟨rfl, ?_, ?_⟩, ⟨rfl, ?_, ?_⟩, ⟨rfl, ?_, ?_⟩, ⟨rfl, ?_, ?_⟩, ⟨rfl, ?_, ?_⟩, rfl, ?_, ?_⟩ <;>
      (dsimp only [idMode, treeMode, statsMode, shellMode, profMode, phaseMode, coordMode, checkMode]; decide +kernel)
  have htab : ∀ e ∈ documented L, ∀ p ∈ e.2, ∃ (j : Nat) (d : Str × VarType), e.1.vars.decls[j]? = some d ∧ d.1 = p.1 ∧ e.1.defaults[j]? = some p.2 := by
    unfold documented
    simp only [List.forall_mem_cons, List.not_mem_nil, false_implies, implies_true, and_true]
    refine ⟨⟨?_, ?_, ?_, ?_⟩, ?_, ⟨?_, ?_, ?_, ?_, ?_, ?_, ?_⟩, ⟨?_, ?_, ?_, ?_, ?_, ?_, ?_, ?_, ?_, ?_, ?_, ?_, ?_⟩, ⟨?_, ?_, ?_, ?_, ?_, ?_, ?_⟩, ⟨?_, ?_, ?_, ?_, ?_⟩, ?_, ?_, ?_, ?_, ?_, ?_, ?_, ?_⟩
    all_goals default_at
  obtain ⟨h1, h2, h3⟩ := hall e he
  exact unset_value L hL e.1 h1 h2 h3 file flags st h p.1 p.2 (htab e he p hp) hu

/-- C83 is false of ExclusionRadiusMult of id: "defaults to 0.8 if not set", but in every run that does not set it the value is 1. -/
theorem C83_radius_false (hL : GoLib L) (file : Option (Option Str)) (flags : List Str) (st : List (Val F)) (h : (idMode L).read L.toLib file flags = .ok st)
    (hu : Unset L.toLib (file.getD none) flags (chars "ExclusionRadiusMult")) : valueOf idVars st (chars "ExclusionRadiusMult") = some (.float (L.const 1)) :=
  unset_value L hL (idMode L) rfl (by dsimp only [idMode]; decide +kernel) (by dsimp only [idMode]; decide +kernel) file flags st h _ _ (by default_at) hu

/-- Non-vacuous: flags that set the type and the number of bins leave the other options of prof unset. -/
example : ∃ st, (profMode ratLib).read ratLib.toLib none [chars "--ProfileType", chars "density", chars "--bins", chars "20"] = .ok st ∧
    Unset ratLib.toLib none [chars "--ProfileType", chars "density", chars "--bins", chars "20"] (chars "RMaxMult") := by
  refine ⟨[.int 20, .int 3, .int 50000, .float 3, .float (3/100), .int 3, .float 50, .string (chars "density")], ?_, ?_⟩
  · decide +kernel
  · refine ⟨fun f h => (nomatch h), ?_⟩
    intro a ha _
    simp only [List.mem_cons, List.not_mem_nil, or_false] at ha
    rcases ha with rfl | rfl | rfl | rfl <;> (unfold Same; decide +kernel)

end Shellfish.Modes
