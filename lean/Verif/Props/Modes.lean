/-
C51: the example configuration files.
-/
import Verif.Model.Modes
import Verif.Props.Config
import Mathlib.Tactic.NormNum
import Mathlib.Tactic.IntervalCases

namespace Shellfish.Modes
open Shellfish.Config Shellfish.Text

variable {F : Type} [DecidableEq F] (L : FLib F)

set_option maxRecDepth 100000

/-! ### Specification -/

/-- The decimal numbers in the examples and in the default values, with their values. -/
def literals : List (Str × ℚ) := [("0.8".toList, 4/5), ("1e12".toList, 1000000000000), ("1e13".toList, 10000000000000), ("3.0".toList, 3), ("0.3".toList, 3/10), ("0.2".toList, 1/5),
  ("10.0".toList, 10), ("0.0".toList, 0), ("0.5".toList, 1/2), ("0.05".toList, 1/20), ("50".toList, 50), ("3".toList, 3), ("0.03".toList, 3/100), ("8".toList, 8), ("1".toList, 1),
  ("0.01".toList, 1/100), ("70".toList, 70), ("0.30".toList, 3/10), ("0.70".toList, 7/10), ("125".toList, 125), ("1.7e7".toList, 17000000), ("1.8e8".toList, 180000000),
  ("1.1e9".toList, 1100000000), ("100".toList, 100), ("4.68299".toList, 468299/100000), ("100.552".toList, 100552/1000), ("80.9536".toList, 809536/10000),
  ("2.68893".toList, 268893/100000), ("1.446e+15".toList, 1446000000000000), ("1.0".toList, 1), ("0.27".toList, 27/100), ("0.73".toList, 73/100), ("0.7".toList, 7/10), ("250".toList, 250)]

/-- What is used of the Go library: `strings.ToLower` on ASCII texts, `strconv.ParseFloat` gives the number that the compiler gives to the same constant, and the comparisons
of the constants with zero (and of the limits of the radii). -/
structure GoLib (L : FLib F) : Prop where
  lower : ∀ s : Str, (∀ c ∈ s, c.toNat < 128) → L.lower s = s.map Char.toLower
  parse : ∀ e ∈ literals, L.parseFloat e.1 = some (L.const e.2)
  pos : ∀ e ∈ literals, 0 < e.2 → L.le (L.const e.2) (L.const 0) = false
  nonneg : ∀ e ∈ literals, 0 ≤ e.2 → L.lt (L.const e.2) (L.const 0) = false
  lt : L.le (L.const 3) (L.const (3/10)) = false

/-- A file for the header `name` with the assignments `pairs`, each variable at most once, in any layout. -/
def FileOf (lib : Lib F) (name : Str) (pairs : List (Str × Str)) (file : Str) : Prop :=
  ∃ lines, significant file = ('[' :: (name ++ [']'])) :: lines ∧ List.Forall₂ (fun l p => Assigns l p.1 p.2) lines pairs ∧ pairs.Pairwise fun p q => ¬ Same lib p.1 q.1

/-- A line of an example with the mark of a comment removed. -/
def uncomment (l : Str) : Str := trimSp (l.dropWhile fun c => c == '#' || c == ' ')

/-- The assignments to variables of the mode in the lines, each on a line of its own, possibly in a comment. -/
def offersOf (vars : Vars) (lines : List Str) : List (Str × Str) :=
  (lines.filterMap fun l => match associationList 0 [uncomment l] with | .inr [p] => some p | _ => none).filter fun p => decide (p.1 ∈ vars.decls.map Prod.fst)

/-- The assignments to variables of the mode that an example shows. -/
def offers (vars : Vars) (ex : Str) : List (Str × Str) := offersOf vars (splitOn '\n' ex)

/-! ### General facts -/

omit [DecidableEq F] in
theorem wellDeclared_of (lib : Lib F) (hlow : ∀ s : Str, (∀ c ∈ s, c.toNat < 128) → lib.lower s = s.map Char.toLower) (decls : List (Str × VarType)) (st : List (Val F))
    (hl : st.length = decls.length) (ha : ∀ d ∈ decls, ∀ c ∈ d.1, c.toNat < 128) (hp : (decls.map fun d => d.1.map Char.toLower).Pairwise (· ≠ ·)) : WellDeclared lib decls st := by
  refine ⟨hl, ?_⟩
  rw [List.pairwise_map] at hp
  refine hp.imp_of_mem fun {a b} h1 h2 hne hs => hne ?_
  unfold Same at hs
  rwa [hlow _ (ha a h1), hlow _ (ha b h2)] at hs

omit [DecidableEq F] in
/-- A file with some of the offered assignments is read; every variable then has a value that is `good` for it, if the offered values are good and the defaults are good or required to be
assigned. -/
theorem read_offered (lib : Lib F) (vars : Vars) (defaults : List (Val F)) (hw : WellDeclared lib vars.decls defaults) (offered : List (Str × Str))
    (table : List (Nat × Val F)) (good : List (Val F → Prop)) (hgl : good.length = defaults.length)
    (hoff : List.Forall₂ (fun p e => ∃ d g, vars.decls[e.1]? = some d ∧ d.1 = p.1 ∧ good[e.1]? = some g ∧ Converts lib d.2 p.2 e.2 ∧ g e.2) offered table) (required : List Nat)
    (hdef : ∀ j v g, defaults[j]? = some v → good[j]? = some g → g v ∨ j ∈ required) (file : Str) (pairs : List (Str × Str)) (hfile : FileOf lib vars.name pairs file)
    (hsub : ∀ p ∈ pairs, p ∈ offered) (hreq : ∀ j ∈ required, ∀ d, vars.decls[j]? = some d → ∃ p ∈ pairs, p.1 = d.1) :
    ∃ st, readConfig lib vars (some file) defaults = .ok st ∧ List.Forall₂ (fun g v => g v) good st := by
  obtain ⟨lines, hsig, hass, hnd⟩ := hfile
  let f : (Str × VarType) × Val F → Val F := fun x => match pairs.find? (fun p => decide (lib.lower x.1.1 = lib.lower p.1)) with
    | some p => (conv lib x.1.2 x.2 p.2).1
    | none => x.2
  have hoff' : ∀ p ∈ offered, ∃ e : Nat × Val F, ∃ d g, vars.decls[e.1]? = some d ∧ d.1 = p.1 ∧ good[e.1]? = some g ∧ Converts lib d.2 p.2 e.2 ∧ g e.2 := by
    intro p hp
    obtain ⟨i, hi⟩ := List.mem_iff_getElem.mp hp
    obtain ⟨hi, rfl⟩ := hi
    exact ⟨_, (List.forall₂_iff_get.mp hoff).2 i hi (by rw [← hoff.length_eq]; exact hi)⟩
  have hconvp : ∀ (j : Nat) d, vars.decls[j]? = some d → ∀ p ∈ pairs, Same lib d.1 p.1 → ∃ v g, Converts lib d.2 p.2 v ∧ good[j]? = some g ∧ g v := by
    intro j d hj p hp hs
    obtain ⟨e, d', g, h0, h1, h2, h3, h4⟩ := hoff' p (hsub p hp)
    have hje : j = e.1 := index_unique lib hw.2 hj h0 hs (by rw [h1]; rfl)
    subst hje
    rw [hj] at h0
    cases h0
    exact ⟨e.2, g, h3, h2, h4⟩
  have hacc : Acceptable lib vars.decls pairs := ⟨fun p hp => by
    obtain ⟨e, d, g, hd, hs, _⟩ := hoff' p (hsub p hp)
    exact ⟨d, List.mem_of_getElem? hd, by rw [hs]; rfl⟩, hnd⟩
  have hlen : (vars.decls.zip defaults).length = defaults.length := by rw [List.length_zip, hw.1]; simp
  have hget : ∀ (j : Nat) d v, vars.decls[j]? = some d → defaults[j]? = some v → ((vars.decls.zip defaults).map f)[j]? = some (f (d, v)) := by
    intro j d v hd hv
    rw [List.getElem?_map, (List.getElem?_zip_eq_some (z := (d, v))).mpr ⟨hd, hv⟩]
    rfl
  have hdv : ∀ (j : Nat) d, vars.decls[j]? = some d → ∃ v, defaults[j]? = some v := by
    intro j d hd
    have := (List.getElem?_eq_some_iff.mp hd).1
    exact ⟨_, List.getElem?_eq_getElem (by rw [hw.1]; exact this)⟩
  have hassigned : ∀ (j : Nat) d v, vars.decls[j]? = some d → defaults[j]? = some v → ∀ p ∈ pairs, Same lib d.1 p.1 → Converts lib d.2 p.2 (f (d, v)) := by
    intro j d v hd hv p hp hs
    obtain ⟨w, g, h1, _, _⟩ := hconvp j d hd p hp hs
    have hf : pairs.find? (fun p => decide (lib.lower d.1 = lib.lower p.1)) = some p := by
      cases hq : pairs.find? (fun p => decide (lib.lower d.1 = lib.lower p.1)) with
      | none =>
        rw [List.find?_eq_none] at hq
        exact absurd hs (by have := hq p hp; simpa [Same] using this)
      | some q =>
        have h2 := List.mem_of_find?_eq_some hq
        have h3 : Same lib d.1 q.1 := by have := List.find?_some hq; simpa [Same] using this
        rw [pair_unique lib hnd h2 hp h3 hs]
    have : f (d, v) = (conv lib d.2 v p.2).1 := by
      simp only [f, hf]
    rw [this, (conv_iff lib d.2 v w p.2).mpr h1]
    exact h1
  have hunassigned : ∀ d v, (∀ p ∈ pairs, ¬ Same lib d.1 p.1) → f (d, v) = v := by
    intro d v hno
    have hf : pairs.find? (fun p => decide (lib.lower d.1 = lib.lower p.1)) = none := by
      rw [List.find?_eq_none]
      intro p hp
      have := hno p hp
      simpa [Same] using this
    simp only [f, hf]
  refine ⟨(vars.decls.zip defaults).map f, (C05_success_iff lib vars file defaults _ hw).mpr ⟨lines, pairs, hsig, hass, hacc, ?_, ?_⟩, ?_⟩
  · rw [List.length_map, hlen]
  · intro j d hd
    obtain ⟨v, hv⟩ := hdv j d hd
    rw [hget j d v hd hv]
    refine ⟨fun p hp hs => ⟨_, hassigned j d v hd hv p hp hs, rfl⟩, fun hno => ?_⟩
    rw [hunassigned d v hno, hv]
  · rw [List.forall₂_iff_get]
    refine ⟨by rw [List.length_map, hlen, hgl], fun j h1 h2 => ?_⟩
    have hj : j < vars.decls.length := by rw [List.length_map, hlen, hw.1] at h2; exact h2
    have hd : vars.decls[j]? = some vars.decls[j] := List.getElem?_eq_getElem hj
    obtain ⟨v, hv⟩ := hdv j _ hd
    have hg : good[j]? = some good[j] := List.getElem?_eq_getElem h1
    have hval := hget j _ v hd hv
    have : ((vars.decls.zip defaults).map f).get ⟨j, h2⟩ = f (vars.decls[j], v) := by
      rw [List.getElem?_eq_getElem h2] at hval
      exact Option.some.inj hval
    rw [this]
    show good[j] _
    by_cases hp : ∃ p ∈ pairs, Same lib vars.decls[j].1 p.1
    · obtain ⟨p, hp, hs⟩ := hp
      obtain ⟨w, g, e1, e2, e3⟩ := hconvp j _ hd p hp hs
      rw [hg] at e2
      cases e2
      rw [Converts.unique lib (hassigned j _ v hd hv p hp hs) e1]
      exact e3
    · have hno : ∀ p ∈ pairs, ¬ Same lib vars.decls[j].1 p.1 := fun p hp' hs => hp ⟨p, hp', hs⟩
      rw [hunassigned _ v hno]
      rcases hdef j v _ hv hg with h | h
      · exact h
      · obtain ⟨p, hp', hn⟩ := hreq j h _ hd
        exact absurd ⟨p, hp', by rw [hn]; rfl⟩ hp

theorem readFlags_nil (lib : Lib F) (vars : Vars) (st : List (Val F)) : readFlags lib vars [] st = .ok st := rfl

/-- `read_offered` for a mode. -/
theorem mode_offered (lib : Lib F) (m : Mode F) (hw : WellDeclared lib m.vars.decls m.defaults) (offered : List (Str × Str))
    (table : List (Nat × Val F)) (good : List (Val F → Prop)) (hgl : good.length = m.defaults.length)
    (hoff : List.Forall₂ (fun p e => ∃ d g, m.vars.decls[e.1]? = some d ∧ d.1 = p.1 ∧ good[e.1]? = some g ∧ Converts lib d.2 p.2 e.2 ∧ g e.2) offered table) (required : List Nat)
    (hdef : ∀ j v g, m.defaults[j]? = some v → good[j]? = some g → g v ∨ j ∈ required) (hval : ∀ st, List.Forall₂ (fun g v => g v) good st → m.validate st = true)
    (file : Str) (pairs : List (Str × Str)) (hfile : FileOf lib m.vars.name pairs file)
    (hsub : ∀ p ∈ pairs, p ∈ offered) (hreq : ∀ j ∈ required, ∀ d, m.vars.decls[j]? = some d → ∃ p ∈ pairs, p.1 = d.1) :
    ∃ st, m.read lib (some (some file)) [] = .ok st ∧ List.Forall₂ (fun g v => g v) good st := by
  obtain ⟨st, h1, h2⟩ := read_offered lib m.vars m.defaults hw offered table good hgl hoff required hdef file pairs hfile hsub hreq
  refine ⟨st, ?_, h2⟩
  unfold Mode.read
  dsimp only
  rw [h1]
  dsimp only
  rw [readFlags_nil]
  unfold Mode.finish
  dsimp only
  rw [if_pos (hval st h2)]

theorem converts_int (lib : Lib F) (s : Str) (i : Int) (h : atoi s = some i) : Converts lib .int s (.int i) := ⟨i, h, rfl⟩

theorem converts_bool (lib : Lib F) (s : Str) (b : Bool) (h : parseBool s = some b) : Converts lib .bool s (.bool b) := ⟨b, h, rfl⟩

theorem converts_string (lib : Lib F) (s t : Str) (h : trimSp s = t) : Converts lib .string s (.string t) := by rw [← h]; rfl

theorem converts_strings (lib : Lib F) (s : Str) (l : List Str) (h : strToList s = l) : Converts lib .strings s (.strings l) := by rw [← h]; rfl

theorem converts_ints (lib : Lib F) (s : Str) (l : List Int) (h : listConv atoi (strToList s) = (l, true)) : Converts lib .ints s (.ints l) := ⟨l, (listOf_iff _ _ _).mp h, rfl⟩

theorem converts_lit (hL : GoLib L) (s : Str) (q : ℚ) (h : (s, q) ∈ literals) : Converts L.toLib .float s (.float (L.const q)) := ⟨_, hL.parse _ h, rfl⟩

theorem converts_lits (hL : GoLib L) (s : Str) (l : List (Str × ℚ)) (h : ∀ e ∈ l, e ∈ literals) (hs : strToList s = l.map Prod.fst) :
    Converts L.toLib .floats s (.floats (l.map fun e => L.const e.2)) := by
  refine ⟨_, (listOf_iff _ _ _).mp ?_, rfl⟩
  rw [hs, listConv_iff, List.forall₂_map_left_iff, List.forall₂_map_right_iff, List.forall₂_same]
  exact fun e he => hL.parse e (h e he)

theorem forall2_eq_iff {α : Type} : ∀ (l st : List α), List.Forall₂ (fun (g : α → Prop) v => g v) (l.map fun d v => v = d) st ↔ st = l
  | [], [] => by simp
  | [], _ :: _ => by simp
  | _ :: _, [] => by simp
  | a :: l, b :: st => by
    rw [List.map_cons, List.forall₂_cons, forall2_eq_iff l st]
    simp

/-- Closes the goals that an offered text denotes the value of the table. -/
macro "offer" hL:term : tactic => `(tactic| (
  all_goals try dsimp only
  all_goals first
    | exact converts_int _ _ _ (by decide +kernel)
    | exact converts_bool _ _ _ (by decide +kernel)
    | exact converts_string _ _ _ (by decide +kernel)
    | exact converts_strings _ _ _ (by decide +kernel)
    | exact converts_ints _ _ _ (by decide +kernel)
    | exact converts_lit _ $hL _ _ (by decide +kernel)
    | rfl
    | skip))

macro "offers_all" : tactic => `(tactic| (
  repeat' (first | exact List.Forall₂.nil | refine List.Forall₂.cons ?_ ?_)
  all_goals refine ⟨_, _, rfl, by decide +kernel, rfl, ?_, ?_⟩))

theorem offers_lines (vars : Vars) (lines : List Str) (hne : lines ≠ []) (hnl : ∀ l ∈ lines, '\n' ∉ l) :
    offers vars (joinWith '\n' lines) = offersOf vars lines := by
  unfold offers
  rw [splitOn_join _ _ hne hnl]

/-! ### shell -/

theorem shell_offers : offers shellVars shellExample = [(chars "SubsampleFactor", chars "1"), (chars "RadialBins", chars "256"), (chars "Spokes", chars "256"), (chars "Rings", chars "100"), (chars "RMaxMult", chars "3.0"), (chars "RMinMult", chars "0.3"),
    (chars "RKernelMult", chars "0.2"), (chars "Eta", chars "10.0"), (chars "Order", chars "3"), (chars "Levels", chars "3"), (chars "SmoothingWindow", chars "121"), (chars "LOSSlopeCutoff", chars "0.0"),
    (chars "BackgroundRhoMult", chars "0.5")] := by
  unfold shellExample
  rw [offers_lines _ _ (by decide) (by decide +kernel)]
  decide +kernel

/-- C51 (shell): a file with any of the assignments of the example is accepted and gives the default values. -/
theorem C51_shell (hL : GoLib L) (file : Str) (pairs : List (Str × Str)) (hfile : FileOf L.toLib (chars "shell.config") pairs file)
    (hsub : ∀ p ∈ pairs, p ∈ offers shellVars shellExample) :
    (shellMode L).read L.toLib (some (some file)) [] = .ok (shellMode L).defaults := by
  have hw : WellDeclared L.toLib shellVars.decls (shellMode L).defaults := wellDeclared_of _ hL.lower _ _ rfl (by decide +kernel) (by decide +kernel)
  rw [shell_offers] at hsub
  obtain ⟨st, h1, h2⟩ := mode_offered L.toLib (shellMode L) hw _ [(0, .int 1), (1, .int 256), (2, .int 256), (3, .int 100), (4, .float (L.const 3)), (5, .float (L.const (3/10))),
      (6, .float (L.const (1/5))), (7, .float (L.const 10)), (8, .int 3), (9, .int 3), (10, .int 121), (11, .float (L.const 0)), (12, .float (L.const (1/2)))]
      ((shellMode L).defaults.map fun d v => v = d) (by simp) (by
      offers_all
      offer hL
      all_goals norm_num) [] (by
      intro j v g hv hg
      rw [List.getElem?_map, hv, Option.map_some] at hg
      cases hg
      exact Or.inl rfl) (by
      intro st hst
      rw [forall2_eq_iff] at hst
      rw [hst]
      have p1 := hL.pos ("3".toList, 3) (by decide +kernel) (by norm_num)
      have p2 := hL.pos ("0.3".toList, 3/10) (by decide +kernel) (by norm_num)
      have p3 := hL.pos ("0.2".toList, 1/5) (by decide +kernel) (by norm_num)
      have p4 := hL.pos ("10.0".toList, 10) (by decide +kernel) (by norm_num)
      have p5 := hL.lt
      norm_num [shellMode, shellValidate]
      norm_num at p1 p2 p3 p4 p5
      exact ⟨⟨⟨⟨p1, p2⟩, p3⟩, p4⟩, p5⟩) file pairs hfile hsub (by simp)
  rw [forall2_eq_iff] at h2
  rw [h1, h2]

/-! ### The examples as files -/

omit [DecidableEq F] in
theorem fileOf_lines (lib : Lib F) (hlow : ∀ s : Str, (∀ c ∈ s, c.toNat < 128) → lib.lower s = s.map Char.toLower) (name : Str) (lines body : List Str) (pairs : List (Str × Str))
    (hne : lines ≠ []) (hnl : ∀ l ∈ lines, '\n' ∉ l) (hsig : ((lines.map strip).filter fun l => decide (l ≠ [])) = ('[' :: (name ++ [']'])) :: body)
    (hass : associationList 0 body = .inr pairs) (ha : ∀ p ∈ pairs, ∀ c ∈ p.1, c.toNat < 128) (hp : (pairs.map fun p => p.1.map Char.toLower).Pairwise (· ≠ ·)) :
    FileOf lib name pairs (joinWith '\n' lines) := by
  refine ⟨body, ?_, (associationList_inr 0 body pairs).mp hass, ?_⟩
  · unfold significant
    rw [splitOn_join _ _ hne hnl]
    exact hsig
  · rw [List.pairwise_map] at hp
    refine hp.imp_of_mem fun {a b} h1 h2 hne hs => hne ?_
    unfold Same at hs
    rwa [hlow _ (ha a h1), hlow _ (ha b h2)] at hs

theorem C51_example_shell (hL : GoLib L) : (shellMode L).read L.toLib (some (some shellExample)) [] = .ok (shellMode L).defaults := by
  refine C51_shell L hL _ (offers shellVars shellExample) ?_ (fun p hp => hp)
  rw [shell_offers]
  exact fileOf_lines _ hL.lower _ _ [chars "SubsampleFactor = 1", chars "RadialBins = 256", chars "Spokes = 256", chars "Rings = 100", chars "RMaxMult = 3.0", chars "RMinMult = 0.3",
    chars "RKernelMult = 0.2", chars "Eta = 10.0", chars "Order = 3", chars "Levels = 3", chars "SmoothingWindow = 121", chars "LOSSlopeCutoff = 0.0", chars "BackgroundRhoMult = 0.5"] _
    (by decide) (by decide +kernel) (by decide +kernel) (by decide +kernel) (by decide +kernel) (by decide +kernel)

/-! ### id -/

theorem id_offers : offers idVars idExample = [(chars "Snap", chars "100"), (chars "IDs", chars "10, 11, 12, 13, 14"), (chars "IDType", chars "m200m"), (chars "IDStart", chars "10"),
    (chars "IDEnd", chars "15"), (chars "M200mMin", chars "1e12"), (chars "M200mMax", chars "1e13"), (chars "ExclusionStrategy", chars "overlap"),
    (chars "ExclusionRadiusMult", chars "0.8"), (chars "Mult", chars "1")] := by
  unfold idExample
  rw [offers_lines _ _ (by decide) (by decide +kernel)]
  decide +kernel

/-- C51 (id): a file with the snapshot and any other assignments of the example is accepted. -/
theorem C51_id (hL : GoLib L) (file : Str) (pairs : List (Str × Str)) (hfile : FileOf L.toLib (chars "id.config") pairs file)
    (hsub : ∀ p ∈ pairs, p ∈ offers idVars idExample) (hsnap : ∃ p ∈ pairs, p.1 = chars "Snap") : ∃ st, (idMode L).read L.toLib (some (some file)) [] = .ok st := by
  have hw : WellDeclared L.toLib idVars.decls (idMode L).defaults := wellDeclared_of _ hL.lower _ _ rfl (by decide +kernel) (by decide +kernel)
  rw [id_offers] at hsub
  have p1 := hL.pos (chars "0.8", 4/5) (by decide +kernel) (by norm_num)
  have p2 := hL.pos (chars "1", 1) (by decide +kernel) (by norm_num)
  have p3 := hL.nonneg (chars "1e13", 10000000000000) (by decide +kernel) (by norm_num)
  have p4 := hL.nonneg (chars "0.0", 0) (by decide +kernel) (by norm_num)
  obtain ⟨st, h1, h2⟩ := mode_offered L.toLib (idMode L) hw _ [(5, .int 100), (1, .ints [10, 11, 12, 13, 14]), (0, .string (chars "m200m")), (2, .int 10), (3, .int 15),
      (9, .float (L.const 1000000000000)), (8, .float (L.const 10000000000000)), (6, .string (chars "overlap")), (7, .float (L.const (4/5))), (4, .int 1)]
      [fun v => v = .string (chars "m200m"), fun v => ∃ l, v = .ints l, fun v => ∃ i, v = .int i, fun v => ∃ i, v = .int i, fun v => v = .int 1, fun v => v = .int 100,
       fun v => v = .string (chars "overlap"), fun v => ∃ x, L.le x (L.const 0) = false ∧ v = .float x, fun v => ∃ x, L.lt x (L.const 0) = false ∧ v = .float x, fun v => ∃ x, v = .float x] rfl (by
      offers_all
      offer hL
      all_goals first
        | exact ⟨_, rfl⟩
        | exact ⟨_, p1, rfl⟩
        | exact ⟨_, p3, rfl⟩) [5] (by
      intro j v g hv hg
      have hj : j < 10 := (List.getElem?_eq_some_iff.mp hv).1
      interval_cases j <;> cases hv <;> cases hg
      all_goals first
        | exact Or.inl rfl
        | exact Or.inl ⟨_, rfl⟩
        | exact Or.inl ⟨_, p2, rfl⟩
        | exact Or.inl ⟨_, p4, rfl⟩
        | exact Or.inr (List.mem_singleton.mpr rfl)) (by
      intro st hst
      simp only [List.forall₂_cons_left_iff, List.forall₂_nil_left_iff] at hst
      obtain ⟨_, _, rfl, ⟨_, _, ⟨l, rfl⟩, ⟨_, _, ⟨i, rfl⟩, ⟨_, _, ⟨k, rfl⟩, ⟨_, _, rfl, ⟨_, _, rfl, ⟨_, _, rfl, ⟨_, _, ⟨x, hx, rfl⟩, ⟨_, _, ⟨y, hy, rfl⟩, ⟨_, _, ⟨z, rfl⟩, rfl, rfl⟩, rfl⟩, rfl⟩, rfl⟩,
        rfl⟩, rfl⟩, rfl⟩, rfl⟩, rfl⟩, rfl⟩ := hst
      simp [idMode, idValidate, hx, hy]) file pairs hfile hsub (by
      intro j hj d hd
      rw [List.mem_singleton] at hj
      subst hj
      cases hd
      exact hsnap)
  exact ⟨st, h1⟩

theorem C51_example_id (hL : GoLib L) : ∃ st, (idMode L).read L.toLib (some (some idExample)) [] = .ok st := by
  refine C51_id L hL _ [(chars "Snap", chars "100"), (chars "IDs", chars "10, 11, 12, 13, 14")] ?_ ?_ ⟨_, List.mem_cons_self, rfl⟩
  · exact fileOf_lines _ hL.lower _ _ [chars "Snap = 100", chars "IDs = 10, 11, 12, 13, 14"] _
      (by decide) (by decide +kernel) (by decide +kernel) (by decide +kernel) (by decide +kernel) (by decide +kernel)
  · rw [id_offers]; decide

/-! ### tree -/

theorem tree_offers : offers treeVars treeExample = [(chars "SelectSnaps", chars "36, 47, 64, 77, 87, 100")] := by
  unfold treeExample
  rw [offers_lines _ _ (by decide) (by decide +kernel)]
  decide +kernel

/-- C51 (tree): a file with any assignments of the example is accepted. -/
theorem C51_tree (hL : GoLib L) (file : Str) (pairs : List (Str × Str)) (hfile : FileOf L.toLib treeVars.name pairs file)
    (hsub : ∀ p ∈ pairs, p ∈ offers treeVars treeExample) : ∃ st, (treeMode).read L.toLib (some (some file)) [] = .ok st := by
  have hw : WellDeclared L.toLib treeVars.decls (treeMode).defaults := wellDeclared_of _ hL.lower _ _ rfl (by decide +kernel) (by decide +kernel)
  rw [tree_offers] at hsub
  obtain ⟨st, h1, h2⟩ := mode_offered L.toLib (treeMode) hw _ [(0, .ints [36, 47, 64, 77, 87, 100])]
      [fun v => ∃ l, v = .ints l] rfl (by
      offers_all
      offer hL
      all_goals first
        | exact ⟨_, rfl⟩) [] (by
      intro j v g hv hg
      have hj : j < 1 := (List.getElem?_eq_some_iff.mp hv).1
      interval_cases j <;> cases hv <;> cases hg
      all_goals first
        | exact Or.inl rfl
        | exact Or.inl ⟨_, rfl⟩
        | exact Or.inr (List.mem_singleton.mpr rfl)) (by
      intro st hst
      simp only [List.forall₂_cons_left_iff, List.forall₂_nil_left_iff] at hst
      obtain ⟨_, _, ⟨_, rfl⟩, rfl, rfl⟩ := hst
      simp [treeMode]) file pairs hfile hsub (by simp)
  exact ⟨st, h1⟩

theorem C51_example_tree (hL : GoLib L) : ∃ st, (treeMode).read L.toLib (some (some treeExample)) [] = .ok st := by
  refine C51_tree L hL _ [] ?_ ?_
  · exact fileOf_lines _ hL.lower _ _ [] _
      (by decide) (by decide +kernel) (by decide +kernel) (by decide +kernel) (by decide +kernel) (by decide +kernel)
  · rw [tree_offers]; decide

/-! ### stats -/

theorem stats_offers : offers statsVars statsExample = [(chars "MonteCarloSamples", chars "50000"), (chars "ExclusionStrategy", chars "none"), (chars "Order", chars "3"), (chars "SkipMass", chars "false"), (chars "ShellParticleFile", chars "shell-particles.dat"), (chars "ShellWidth", chars "0.05")] := by
  unfold statsExample
  rw [offers_lines _ _ (by decide) (by decide +kernel)]
  decide +kernel

/-- C51 (stats): a file with any assignments of the example is accepted. -/
theorem C51_stats (hL : GoLib L) (file : Str) (pairs : List (Str × Str)) (hfile : FileOf L.toLib statsVars.name pairs file)
    (hsub : ∀ p ∈ pairs, p ∈ offers statsVars statsExample) : ∃ st, (statsMode L).read L.toLib (some (some file)) [] = .ok st := by
  have hw : WellDeclared L.toLib statsVars.decls (statsMode L).defaults := wellDeclared_of _ hL.lower _ _ rfl (by decide +kernel) (by decide +kernel)
  rw [stats_offers] at hsub
  obtain ⟨st, h1, h2⟩ := mode_offered L.toLib (statsMode L) hw _ [(1, .int 50000), (2, .string (chars "none")), (3, .int 3), (6, .bool false), (4, .string (chars "shell-particles.dat")), (5, .float (L.const (1/20)))]
      [fun v => v = .strings [], fun v => v = .int 50000, fun v => v = .string (chars "none"), fun v => ∃ i, v = .int i, fun v => ∃ s, v = .string s, fun v => ∃ x, v = .float x, fun v => ∃ b, v = .bool b] rfl (by
      offers_all
      offer hL
      all_goals first
        | exact ⟨_, rfl⟩) [] (by
      intro j v g hv hg
      have hj : j < 7 := (List.getElem?_eq_some_iff.mp hv).1
      interval_cases j <;> cases hv <;> cases hg
      all_goals first
        | exact Or.inl rfl
        | exact Or.inl ⟨_, rfl⟩
        | exact Or.inr (List.mem_singleton.mpr rfl)) (by
      intro st hst
      simp only [List.forall₂_cons_left_iff, List.forall₂_nil_left_iff] at hst
      obtain ⟨_, _, rfl, ⟨_, _, rfl, ⟨_, _, rfl, ⟨_, _, ⟨_, rfl⟩, ⟨_, _, ⟨_, rfl⟩, ⟨_, _, ⟨_, rfl⟩, ⟨_, _, ⟨_, rfl⟩, rfl, rfl⟩, rfl⟩, rfl⟩, rfl⟩, rfl⟩, rfl⟩, rfl⟩ := hst
      simp [statsMode, statsValidate]) file pairs hfile hsub (by simp)
  exact ⟨st, h1⟩

theorem C51_example_stats (hL : GoLib L) : ∃ st, (statsMode L).read L.toLib (some (some statsExample)) [] = .ok st := by
  refine C51_stats L hL _ [(chars "MonteCarloSamples", chars "50000"), (chars "ExclusionStrategy", chars "none"), (chars "Order", chars "3")] ?_ ?_
  · exact fileOf_lines _ hL.lower _ _ [chars "MonteCarloSamples = 50000", chars "ExclusionStrategy = none", chars "Order = 3"] _
      (by decide) (by decide +kernel) (by decide +kernel) (by decide +kernel) (by decide +kernel) (by decide +kernel)
  · rw [stats_offers]; decide

/-! ### prof -/

theorem prof_offers : offers profVars profExample = [(chars "ProfileType", chars "median-density"), (chars "Order", chars "3"), (chars "Samples", chars "50000"), (chars "MedianPixelLevel", chars "3"), (chars "Percentile", chars "50"), (chars "Bins", chars "150"), (chars "RMaxMult", chars "3"), (chars "RMinMult", chars "0.03")] := by
  unfold profExample
  rw [offers_lines _ _ (by decide) (by decide +kernel)]
  decide +kernel

/-- C51 (prof): a file with the profile type and any other assignments of the example is accepted. -/
theorem C51_prof (hL : GoLib L) (file : Str) (pairs : List (Str × Str)) (hfile : FileOf L.toLib profVars.name pairs file)
    (hsub : ∀ p ∈ pairs, p ∈ offers profVars profExample) (hreq : ∃ p ∈ pairs, p.1 = chars "ProfileType") : ∃ st, (profMode L).read L.toLib (some (some file)) [] = .ok st := by
  have hw : WellDeclared L.toLib profVars.decls (profMode L).defaults := wellDeclared_of _ hL.lower _ _ rfl (by decide +kernel) (by decide +kernel)
  rw [prof_offers] at hsub
  have p1 := hL.pos (chars "3", 3) (by decide +kernel) (by norm_num)
  have p2 := hL.pos (chars "0.03", 3/100) (by decide +kernel) (by norm_num)
  obtain ⟨st, h1, h2⟩ := mode_offered L.toLib (profMode L) hw _ [(7, .string (chars "median-density")), (1, .int 3), (2, .int 50000), (5, .int 3), (6, .float (L.const 50)), (0, .int 150), (3, .float (L.const 3)), (4, .float (L.const (3/100)))]
      [fun v => v = .int 150, fun v => ∃ i, v = .int i, fun v => ∃ i, v = .int i, fun v => ∃ x, L.le x (L.const 0) = false ∧ v = .float x, fun v => ∃ x, L.le x (L.const 0) = false ∧ v = .float x, fun v => v = .int 3, fun v => ∃ x, v = .float x, fun v => v = .string (chars "median-density")] rfl (by
      offers_all
      offer hL
      all_goals first
        | exact ⟨_, rfl⟩
        | exact ⟨_, p1, rfl⟩
        | exact ⟨_, p2, rfl⟩) [7] (by
      intro j v g hv hg
      have hj : j < 8 := (List.getElem?_eq_some_iff.mp hv).1
      interval_cases j <;> cases hv <;> cases hg
      all_goals first
        | exact Or.inl rfl
        | exact Or.inl ⟨_, rfl⟩
        | exact Or.inl ⟨_, p1, rfl⟩
        | exact Or.inl ⟨_, (by norm_num at p2 ⊢; exact p2), rfl⟩
        | exact Or.inr (List.mem_singleton.mpr rfl)) (by
      intro st hst
      simp only [List.forall₂_cons_left_iff, List.forall₂_nil_left_iff] at hst
      obtain ⟨_, _, rfl, ⟨_, _, ⟨_, rfl⟩, ⟨_, _, ⟨_, rfl⟩, ⟨_, _, ⟨_, h11, rfl⟩, ⟨_, _, ⟨_, h12, rfl⟩, ⟨_, _, rfl, ⟨_, _, ⟨_, rfl⟩, ⟨_, _, rfl, rfl, rfl⟩, rfl⟩, rfl⟩, rfl⟩, rfl⟩, rfl⟩, rfl⟩, rfl⟩ := hst
      simp [profMode, profValidate, h11, h12, profTypes]) file pairs hfile hsub (by
      intro j hj d hd
      rw [List.mem_singleton] at hj
      subst hj
      cases hd
      exact hreq)
  exact ⟨st, h1⟩

theorem C51_example_prof (hL : GoLib L) : ∃ st, (profMode L).read L.toLib (some (some profExample)) [] = .ok st := by
  refine C51_prof L hL _ [(chars "ProfileType", chars "median-density")] ?_ ?_ ⟨_, List.mem_cons_self, rfl⟩
  · exact fileOf_lines _ hL.lower _ _ [chars "ProfileType = median-density"] _
      (by decide) (by decide +kernel) (by decide +kernel) (by decide +kernel) (by decide +kernel) (by decide +kernel)
  · rw [prof_offers]; decide

/-! ### check -/

theorem check_offers : offers checkVars checkExample = [(chars "H0", chars "70"), (chars "OmegaM", chars "0.30"), (chars "OmegaL", chars "0.70"), (chars "BoxWidth", chars "125"), (chars "ParticleCount", chars "1073741824"), (chars "ParticleMasses", chars "1.7e7, 1.8e8, 1.1e9"), (chars "ExampleHalo", chars "100, 4.68299, 100.552, 80.9536, 2.68893, 1.446e+15")] := by
  unfold checkExample
  rw [offers_lines _ _ (by decide) (by decide +kernel)]
  decide +kernel

/-- The numbers of the ParticleMasses line. -/
def massLits : List (Str × ℚ) := [(chars "1.7e7", 17000000), (chars "1.8e8", 180000000), (chars "1.1e9", 1100000000)]

/-- The numbers of the ExampleHalo line. -/
def haloLits : List (Str × ℚ) := [(chars "100", 100), (chars "4.68299", 468299/100000), (chars "100.552", 100552/1000), (chars "80.9536", 809536/10000), (chars "2.68893", 268893/100000), (chars "1.446e+15", 1446000000000000)]

/-- C51 (check): a file with any assignments of the example is accepted. -/
theorem C51_check (hL : GoLib L) (file : Str) (pairs : List (Str × Str)) (hfile : FileOf L.toLib checkVars.name pairs file)
    (hsub : ∀ p ∈ pairs, p ∈ offers checkVars checkExample) : ∃ st, (checkMode L).read L.toLib (some (some file)) [] = .ok st := by
  have hw : WellDeclared L.toLib checkVars.decls (checkMode L).defaults := wellDeclared_of _ hL.lower _ _ rfl (by decide +kernel) (by decide +kernel)
  rw [check_offers] at hsub
  obtain ⟨st, h1, h2⟩ := mode_offered L.toLib (checkMode L) hw _ [(0, .float (L.const 70)), (1, .float (L.const (3/10))), (2, .float (L.const (7/10))), (3, .float (L.const 125)), (5, .int 1073741824), (4, .floats (massLits.map fun e => L.const e.2)), (6, .floats (haloLits.map fun e => L.const e.2))]
      [fun v => ∃ x, v = .float x, fun v => ∃ x, v = .float x, fun v => ∃ x, v = .float x, fun v => ∃ x, v = .float x, fun v => ∃ l, v = .floats l, fun v => ∃ i, v = .int i, fun v => ∃ l, (l.length = 0 ∨ l.length = 6) ∧ v = .floats l] rfl (by
      offers_all
      offer hL
      all_goals first
        | exact ⟨_, rfl⟩
        | exact converts_lits L hL _ massLits (by decide +kernel) (by decide +kernel)
        | exact converts_lits L hL _ haloLits (by decide +kernel) (by decide +kernel)
        | exact ⟨_, Or.inr rfl, rfl⟩) [] (by
      intro j v g hv hg
      have hj : j < 7 := (List.getElem?_eq_some_iff.mp hv).1
      interval_cases j <;> cases hv <;> cases hg
      all_goals first
        | exact Or.inl rfl
        | exact Or.inl ⟨_, rfl⟩
        | exact Or.inl ⟨_, Or.inl rfl, rfl⟩
        | exact Or.inr (List.mem_singleton.mpr rfl)) (by
      intro st hst
      simp only [List.forall₂_cons_left_iff, List.forall₂_nil_left_iff] at hst
      obtain ⟨_, _, ⟨_, rfl⟩, ⟨_, _, ⟨_, rfl⟩, ⟨_, _, ⟨_, rfl⟩, ⟨_, _, ⟨_, rfl⟩, ⟨_, _, ⟨_, rfl⟩, ⟨_, _, ⟨_, rfl⟩, ⟨_, _, ⟨_, h11, rfl⟩, rfl, rfl⟩, rfl⟩, rfl⟩, rfl⟩, rfl⟩, rfl⟩, rfl⟩ := hst
      simpa [checkMode, checkValidate] using h11) file pairs hfile hsub (by simp)
  exact ⟨st, h1⟩

theorem C51_example_check (hL : GoLib L) : ∃ st, (checkMode L).read L.toLib (some (some checkExample)) [] = .ok st := by
  refine C51_check L hL _ [] ?_ ?_
  · exact fileOf_lines _ hL.lower _ _ [] _
      (by decide) (by decide +kernel) (by decide +kernel) (by decide +kernel) (by decide +kernel) (by decide +kernel)
  · rw [check_offers]; decide

end Shellfish.Modes
