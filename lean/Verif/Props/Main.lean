/-
C85: a command that fails makes the later commands of a pipe fail.
-/
import Verif.Model.Main
import Mathlib.Data.List.TakeWhile

namespace Shellfish.Main
open Shellfish.Text Shellfish.Config

set_option maxRecDepth 100000

/-! ### Specification -/

/-- The command is one of the tools that take a catalog from the standard input. -/
def Takes (args : List Str) : Prop :=
  ∃ mode rest, args = mode :: rest ∧ mode ∈ [chars "tree", chars "coord", chars "prof", chars "shell", chars "stats", chars "phase", chars "potential"]

/-- The command is a tool other than check. -/
def Tool (args : List Str) : Prop := ∃ mode rest, args = mode :: rest ∧ (mode = chars "id" ∨ Takes args)

/-- The command ended with status 1 and printed nothing but one line that begins with "Shellfish". -/
def Reports (e : Exit) : Prop := e.status = 1 ∧ ∃ line, '\n' ∉ line ∧ chars "Shellfish" <+: line ∧ e.out = line ++ ['\n']

/-- The global configuration is read without printing, and its logging mode is a known one. -/
def Deps.Quiet (d : Deps) : Prop := d.globalText = [] ∧ d.memoText = [] ∧ ∀ s, d.global = some s → s.logging ∈ [chars "nil", chars "performance", chars "debug"]

/-- All steps before the run succeed. -/
def Deps.Ready (d : Deps) (mode : Str) (rest : List Str) : Prop :=
  (∃ s, d.global = some s ∧ (s.snapshotType ≠ chars "nil" ∨ mode ∈ [chars "id", chars "tree", chars "coord"]) ∧
    (s.haloType = chars "Text" ∧ d.textHalo = .ok ∨ mode ∈ [chars "prof", chars "shell", chars "stats", chars "phase", chars "check", chars "potential"]) ∧ s.logging ∈ [chars "nil", chars "performance", chars "debug"]) ∧
  d.readMode mode (getConfig rest) (getFlags rest) = .ok ∧ d.memo = .ok ∧ d.catalogs = .ok

/-! ### Proofs -/

theorem takes_mode {mode : Str} {rest : List Str} (h : Takes (mode :: rest)) : mode ∈ stdinModes := by
  obtain ⟨m, r, e, hm⟩ := h
  cases e
  exact hm

theorem stdin_known : ∀ mode ∈ stdinModes, mode ∈ modeNames ∧ mode ≠ chars "help" ∧ mode ≠ chars "version" ∧ mode ≠ chars "hello" := by decide

theorem main_takes (d : Deps) (mode : Str) (rest : List Str) (h : Takes (mode :: rest)) (data : Str) :
    main d (mode :: rest) (some data) = if data = [] then ⟨0, []⟩
      else if 9 ≤ lineEnd data ∧ data.take 9 = chars "Shellfish" then ⟨1, println (data.take (lineEnd data))⟩ else runMode d mode rest data := by
  have hm := takes_mode h
  obtain ⟨h1, h2, h3, h4⟩ := stdin_known mode hm
  unfold main
  dsimp only
  rw [if_neg h2, if_neg h3, if_neg h4, if_neg (not_not.mpr h1), if_pos hm]

theorem lineEnd_line (line rest : Str) (h : '\n' ∉ line) : lineEnd (line ++ '\n' :: rest) = line.length := by
  unfold lineEnd
  rw [List.takeWhile_append_of_pos (by intro c hc; rw [decide_eq_true_eq]; rintro rfl; exact h hc)]
  simp

theorem main_reported (d : Deps) (mode : Str) (rest : List Str) (h : Takes (mode :: rest)) (line : Str) (hn : '\n' ∉ line) (hp : chars "Shellfish" <+: line) :
    main d (mode :: rest) (some (line ++ ['\n'])) = ⟨1, line ++ ['\n']⟩ := by
  rw [main_takes d mode rest h]
  have hlen : 9 ≤ line.length := hp.length_le
  rw [if_neg (by simp), lineEnd_line line [] hn, if_pos]
  · rw [List.take_append_of_le_length (by simp), List.take_length]
    rfl
  · refine ⟨hlen, ?_⟩
    rw [List.take_append_of_le_length hlen]
    obtain ⟨t, rfl⟩ := hp
    rw [List.take_append_of_le_length (by decide)]
    rfl

/-- C85: once a command has reported a failure, all later commands of the pipe, however many, end with status 1 and print that line only. -/
theorem C85_reported (stages : List (Deps × List Str)) (hs : ∀ st ∈ stages, Takes st.2) (e : Exit) (he : Reports e) : pipe stages e = e := by
  induction stages with
  | nil => rfl
  | cons st stages ih =>
    obtain ⟨d, args⟩ := st
    have ht := hs _ List.mem_cons_self
    obtain ⟨h1, line, h2, h3, h4⟩ := he
    cases args with
    | nil => obtain ⟨_, _, h, _⟩ := ht; cases h
    | cons mode rest =>
      unfold pipe
      have : main d (mode :: rest) (some e.out) = e := by
        rw [h4, main_reported d mode rest ht line h2 h3]
        cases e
        cases h1
        cases h4
        rfl
      rw [this]
      exact ih fun st h => hs st (List.mem_cons_of_mem _ h)

theorem reports_terminating : Reports ⟨1, println terminating⟩ := ⟨rfl, terminating, by decide, by decide, rfl⟩
theorem reports_terminating' : Reports ⟨1, println (chars "Shellfish terminating")⟩ := ⟨rfl, chars "Shellfish terminating", by decide, by decide, rfl⟩

theorem next_reports (s : Step) (k : Exit) (hk : k.status = 1 → Reports k) : (s.next [] k).status = 1 → Reports (s.next [] k) := by
  cases s
  · exact hk
  · intro _; exact reports_terminating
  · intro h; cases h

theorem runMode_reports (d : Deps) (hq : d.Quiet) (mode : Str) (rest : List Str) (data : Str) (hx : ∀ t, d.run mode data ≠ .exit t) :
    (runMode d mode rest data).status = 1 → Reports (runMode d mode rest data) := by
  obtain ⟨q1, q2, q3⟩ := hq
  unfold runMode
  rw [q1, q2]
  cases hg : d.global with
  | none => intro _; exact reports_terminating
  | some s =>
    dsimp only
    simp only [List.append_nil, List.nil_append]
    apply next_reports
    apply next_reports
    by_cases h1 : mode ∈ snapshotModes ∧ s.snapshotType = chars "nil"
    · rw [if_pos h1]
      intro _
      exact reports_terminating'
    · rw [if_neg h1]
      apply next_reports
      apply next_reports
      have hl : s.logging ∈ knownLogging := q3 s hg
      rw [if_neg (not_not.mpr hl)]
      cases hr : d.run mode data with
      | lines l => intro h; cases h
      | err => intro _; exact reports_terminating
      | panic => intro h; cases h
      | exit t => exact absurd hr (hx t)

/-- C85, partial: a tool that ends with status 1 prints one line that begins with "Shellfish" and no part of a catalog.  (check is not a tool of a pipe: it prints which checks failed.) Missing:
global configurations that print an empty line, and panics. -/
theorem C85_report_partial (d : Deps) (hq : d.Quiet) (args : List Str) (ht : Tool args) (hx : ∀ mode data t, d.run mode data ≠ .exit t) (stdin : Option Str)
    (h : (main d args stdin).status = 1) : Reports (main d args stdin) := by
  obtain ⟨mode, rest, rfl, ht⟩ := ht
  rcases ht with rfl | ht
  · have e : main d (chars "id" :: rest) stdin = runMode d (chars "id") rest [] := rfl
    rw [e] at h ⊢
    exact runMode_reports d hq _ _ _ (hx _ _) h
  · cases stdin with
    | none =>
      have hm := takes_mode ht
      obtain ⟨h1, h2, h3, h4⟩ := stdin_known mode hm
      unfold main
      dsimp only
      rw [if_neg h2, if_neg h3, if_neg h4, if_neg (not_not.mpr h1), if_pos hm]
      exact reports_terminating
    | some data =>
      rw [main_takes d mode rest ht] at h ⊢
      by_cases h1 : data = []
      · rw [if_pos h1] at h; cases h
      · rw [if_neg h1] at h ⊢
        by_cases h2 : 9 ≤ lineEnd data ∧ data.take 9 = chars "Shellfish"
        · rw [if_pos h2]
          refine ⟨rfl, data.take (lineEnd data), ?_, ?_, rfl⟩
          · have : data.take (lineEnd data) = data.takeWhile fun c => decide (c ≠ '\n') := by
              unfold lineEnd
              exact ((List.prefix_iff_eq_take.mp (List.takeWhile_prefix _))).symm
            rw [this]
            intro hm
            have := List.mem_takeWhile_imp hm
            simp at this
          · rw [← h2.2]
            exact List.take_prefix_take_left h2.1
        · rw [if_neg h2] at h ⊢
          exact runMode_reports d hq _ _ _ (hx _ _) h

/-- C85, partial: a pipe in which the first command fails ends with status 1 and prints no part of a catalog, for any number of later commands. -/
theorem C85_pipe_partial (d : Deps) (hq : d.Quiet) (args : List Str) (ht : Tool args) (hx : ∀ mode data t, d.run mode data ≠ .exit t) (stdin : Option Str)
    (h : (main d args stdin).status = 1) (stages : List (Deps × List Str)) (hs : ∀ st ∈ stages, Takes st.2) :
    Reports (pipe stages (main d args stdin)) := by
  have hr := C85_report_partial d hq args ht hx stdin h
  rw [C85_reported stages hs _ hr]
  exact hr

theorem next_zero (s : Step) (out : Str) (k : Exit) (h : (s.next out k).status = 0) : s = .ok ∧ k.status = 0 := by
  cases s
  · exact ⟨rfl, h⟩
  · cases h
  · cases h

theorem snapshot_or (mode : Str) (h : mode ∈ modeNames) (hn : mode ∉ snapshotModes) : mode ∈ [chars "id", chars "tree", chars "coord"] := by
  have : ∀ mode ∈ modeNames, mode ∉ snapshotModes → mode ∈ [chars "id", chars "tree", chars "coord"] := by decide
  exact this mode h hn

theorem runMode_zero (d : Deps) (mode : Str) (hm : mode ∈ modeNames) (rest : List Str) (data : Str) (h : (runMode d mode rest data).status = 0) :
    d.Ready mode rest ∧ ∃ l, d.run mode data = .lines l := by
  unfold runMode at h
  cases hg : d.global with
  | none => rw [hg] at h; cases h
  | some s =>
    rw [hg] at h
    dsimp only at h
    obtain ⟨h1, h⟩ := next_zero _ _ _ h
    obtain ⟨h2, h⟩ := next_zero _ _ _ h
    by_cases h3 : mode ∈ snapshotModes ∧ s.snapshotType = chars "nil"
    · rw [if_pos h3] at h; cases h
    · rw [if_neg h3] at h
      obtain ⟨h4, h⟩ := next_zero _ _ _ h
      obtain ⟨h5, h⟩ := next_zero _ _ _ h
      by_cases h6 : s.logging ∉ knownLogging
      · rw [if_pos h6] at h; cases h
      · rw [if_neg h6] at h
        refine ⟨⟨⟨s, hg, ?_, ?_, not_not.mp h6⟩, h1, h2, h4⟩, ?_⟩
        · by_cases hs : mode ∈ snapshotModes
          · exact Or.inl fun e => h3 ⟨hs, e⟩
          · exact Or.inr (snapshot_or mode hm hs)
        · unfold initHalos at h5
          by_cases hs : mode ∈ snapshotModes
          · refine Or.inr ?_
            have : ∀ mode ∈ snapshotModes, mode ∈ [chars "prof", chars "shell", chars "stats", chars "phase", chars "check", chars "potential"] := by decide
            exact this mode hs
          · rw [if_neg hs] at h5
            by_cases a1 : s.haloType = chars "nil"
            · rw [if_pos a1] at h5; cases h5
            · rw [if_neg a1] at h5
              by_cases a2 : s.haloType = chars "Text"
              · rw [if_pos a2] at h5
                exact Or.inl ⟨a2, h5⟩
              · rw [if_neg a2] at h5
                by_cases a3 : s.treeType = chars "nil"
                · rw [if_pos a3] at h5; cases h5
                · rw [if_neg a3] at h5; cases h5
        · cases hr : d.run mode data with
          | lines l => exact ⟨l, rfl⟩
          | err => rw [hr] at h; cases h
          | panic => rw [hr] at h; cases h
          | exit t => rw [hr] at h; cases h

/-- C85: a tool that takes a catalog ends with status 0 only if the catalog is empty, or all its steps succeeded and the run gave lines. -/
theorem C85_success (d : Deps) (mode : Str) (rest : List Str) (ht : Takes (mode :: rest)) (data : Str) (h : (main d (mode :: rest) (some data)).status = 0) :
    (data = [] ∧ (main d (mode :: rest) (some data)).out = []) ∨ (d.Ready mode rest ∧ ∃ l, d.run mode data = .lines l) := by
  rw [main_takes d mode rest ht] at h ⊢
  by_cases h1 : data = []
  · rw [if_pos h1]; exact Or.inl ⟨h1, rfl⟩
  · rw [if_neg h1] at h ⊢
    by_cases h2 : 9 ≤ lineEnd data ∧ data.take 9 = chars "Shellfish"
    · rw [if_pos h2] at h; cases h
    · rw [if_neg h2] at h
      exact Or.inr (runMode_zero d mode (stdin_known mode (takes_mode ht)).1 rest data h)

theorem runMode_ready (d : Deps) (hq : d.globalText = [] ∧ d.memoText = []) (mode : Str) (rest : List Str) (hr : d.Ready mode rest) (data : Str) (l : List Str) (hl : d.run mode data = .lines l) :
    runMode d mode rest data = ⟨0, (l.map fun s => s ++ ['\n']).flatten⟩ := by
  obtain ⟨⟨s, hg, h1, h2, h3⟩, h4, h5, h6⟩ := hr
  unfold runMode
  rw [hg, hq.1, hq.2]
  dsimp only
  rw [h4, h5, h6]
  simp only [Step.next, List.nil_append]
  have c1 : ¬ (mode ∈ snapshotModes ∧ s.snapshotType = chars "nil") := by
    rintro ⟨a, b⟩
    rcases h1 with h | h
    · exact h b
    · have : ∀ mode ∈ [chars "id", chars "tree", chars "coord"], mode ∉ snapshotModes := by decide
      exact this mode h a
  rw [if_neg c1]
  have c2 : initHalos mode s d.textHalo = .ok := by
    unfold initHalos
    by_cases hs : mode ∈ snapshotModes
    · rw [if_pos hs]
    · rw [if_neg hs]
      rcases h2 with ⟨a, b⟩ | h
      · rw [a, if_neg (by decide), if_pos rfl, b]
      · exact absurd (show mode ∈ snapshotModes by
          have : ∀ mode ∈ [chars "prof", chars "shell", chars "stats", chars "phase", chars "check", chars "potential"], mode ∈ snapshotModes := by decide
          exact this mode h) hs
  rw [c2]
  dsimp only
  rw [if_neg (not_not.mpr (show s.logging ∈ knownLogging from h3)), hl]
  rfl

/-- C85: the catalog of a command reaches the next one unchanged: if the first line begins with the mark of a comment, the next command whose steps succeed runs on exactly that text and
prints exactly the lines of its run. -/
theorem C85_feeds (d : Deps) (hq : d.globalText = [] ∧ d.memoText = []) (mode : Str) (rest : List Str) (ht : Takes (mode :: rest)) (hr : d.Ready mode rest) (text : Str) (l : List Str)
    (hl : d.run mode ('#' :: text) = .lines l) : main d (mode :: rest) (some ('#' :: text)) = ⟨0, (l.map fun s => s ++ ['\n']).flatten⟩ := by
  rw [main_takes d mode rest ht, if_neg (by simp), if_neg (by rintro ⟨-, h⟩; cases h)]
  exact runMode_ready d hq mode rest hr _ l hl

/-! ### Examples and what is missing -/

/-- Everything succeeds; the run gives a comment line. -/
def goodDeps : Deps where
  help := fun _ => none
  description := []
  version := chars "1.0.4"
  globalText := []
  global := some ⟨chars "gotetra", chars "Text", chars "consistent-trees", chars "nil"⟩
  readMode := fun _ _ _ => .ok
  memoText := []
  memo := .ok
  catalogs := .ok
  textHalo := .ok
  run := fun _ _ => .lines [chars "# ID"]

/-- Non-vacuous: the id mode fails on its configuration; the pipe id | coord | shell reports it. -/
example : ∃ (d : Deps) (stages : List (Deps × List Str)), d.Quiet ∧ Tool [chars "id"] ∧ (∀ mode data t, d.run mode data ≠ .exit t) ∧ (main d [chars "id"] none).status = 1 ∧
    (∀ st ∈ stages, Takes st.2) ∧ pipe stages (main d [chars "id"] none) = ⟨1, chars "Shellfish terminating.\n"⟩ := by
  refine ⟨{ goodDeps with readMode := fun _ _ _ => .err }, [(goodDeps, [chars "coord"]), (goodDeps, [chars "shell", chars "my.config"])], ⟨rfl, rfl, ?_⟩, ⟨_, _, rfl, Or.inl rfl⟩, fun _ _ _ h => (nomatch h), rfl, ?_, by decide⟩
  · rintro s h
    cases h
    decide
  · intro st hs
    simp only [List.mem_cons, List.not_mem_nil, or_false] at hs
    rcases hs with rfl | rfl
    · exact ⟨_, _, rfl, by decide⟩
    · exact ⟨_, _, rfl, by decide⟩

/-- Non-vacuous: all steps of coord succeed. -/
example : goodDeps.Ready (chars "coord") [] ∧ Takes [chars "coord"] ∧ main goodDeps [chars "coord"] (some (chars "# ID\n1 2\n")) = ⟨0, chars "# ID\n"⟩ :=
  ⟨⟨⟨_, rfl, by decide, by decide, by decide⟩, rfl, rfl, rfl⟩, ⟨_, _, rfl, by decide⟩, by decide⟩

/-- C85 is false of panics: a command that panics prints nothing, and every later command then ends with status 0 without output. -/
theorem C85_panic_false (stages : List (Deps × List Str)) (hne : stages ≠ []) (hs : ∀ st ∈ stages, Takes st.2) :
    ∃ (d : Deps), d.Quiet ∧ (main d [chars "id"] none).status = 2 ∧ pipe stages (main d [chars "id"] none) = ⟨0, []⟩ := by
  refine ⟨{ goodDeps with run := fun _ _ => .panic }, ⟨rfl, rfl, ?_⟩, rfl, ?_⟩
  · rintro s h
    cases h
    decide
  · have key : ∀ (stages : List (Deps × List Str)), (∀ st ∈ stages, Takes st.2) → pipe stages ⟨0, []⟩ = ⟨0, []⟩ := by
      intro stages
      induction stages with
      | nil => intro _; rfl
      | cons st stages ih =>
        intro hs
        obtain ⟨d, args⟩ := st
        have ht := hs _ List.mem_cons_self
        cases args with
        | nil => obtain ⟨_, _, h, _⟩ := ht; cases h
        | cons mode rest =>
          unfold pipe
          rw [main_takes d mode rest ht, if_pos rfl]
          exact ih fun st h => hs st (List.mem_cons_of_mem _ h)
    cases stages with
    | nil => exact absurd rfl hne
    | cons st stages =>
      obtain ⟨d, args⟩ := st
      have ht := hs _ List.mem_cons_self
      cases args with
      | nil => obtain ⟨_, _, h, _⟩ := ht; cases h
      | cons mode rest =>
        unfold pipe
        have e : (main { goodDeps with run := fun _ _ => .panic } [chars "id"] none).out = [] := rfl
        rw [e, main_takes d mode rest ht, if_pos rfl]
        exact key stages fun st h => hs st (List.mem_cons_of_mem _ h)

/-- C85 is false of a command without arguments: it fails, and the next command succeeds without output. -/
theorem C85_no_mode_false (d d' : Deps) (mode : Str) (rest : List Str) (ht : Takes (mode :: rest)) (stdin : Option Str) :
    (main d [] stdin).status = 1 ∧ main d' (mode :: rest) (some (main d [] stdin).out) = ⟨0, []⟩ :=
  ⟨rfl, by rw [main_takes d' mode rest ht]; rfl⟩

/-- C85 is false of global configurations that print an empty line (SnapshotType = nil without NilSnapOmegaL): the message of a command that fails is no longer recognised, and the next
command runs on the message as if it were its catalog. -/
theorem C85_blank_false (d' : Deps) (hq : d'.globalText = [] ∧ d'.memoText = []) (mode : Str) (rest : List Str) (ht : Takes (mode :: rest)) (hr : d'.Ready mode rest) :
    ∃ d : Deps, d.globalText = ['\n'] ∧ (main d [chars "id"] none).status = 1 ∧
      ∀ l, d'.run mode (main d [chars "id"] none).out = .lines l → main d' (mode :: rest) (some (main d [chars "id"] none).out) = ⟨0, (l.map fun s => s ++ ['\n']).flatten⟩ := by
  refine ⟨{ goodDeps with globalText := ['\n'], readMode := fun _ _ _ => .err }, rfl, rfl, ?_⟩
  intro l hl
  have e : (main { goodDeps with globalText := ['\n'], readMode := fun _ _ _ => .err } [chars "id"] none).out = '\n' :: chars "Shellfish terminating.\n" := rfl
  rw [e] at hl ⊢
  rw [main_takes d' mode rest ht, if_neg (by simp), if_neg (by rintro ⟨-, h⟩; cases h)]
  exact runMode_ready d' hq mode rest hr _ l hl

/-- C85 is false of the tree type: "You may not use nil as a TreeType", but the tree mode runs with it. -/
theorem C85_tree_type_false : ∃ (d : Deps) (s : Settings), d.global = some s ∧ s.treeType = chars "nil" ∧ (main d [chars "tree"] (some (chars "1 2\n"))).status = 0 ∧
    (main d [chars "tree"] (some (chars "1 2\n"))).out ≠ [] :=
  ⟨{ goodDeps with global := some ⟨chars "gotetra", chars "Text", chars "nil", chars "nil"⟩ }, _, rfl, rfl, by decide, by decide⟩

/-- C85 is false of help: an unknown help target ends with status 0. -/
theorem C85_help_false (d : Deps) (t : Str) (h : d.help t = none) (stdin : Option Str) : (main d [chars "help", t] stdin).status = 0 := by
  unfold main
  dsimp only
  rw [if_pos rfl, h]
/-- C85: a command whose mode does not exist reports a failure, whatever its other arguments and its input are, and so do all later commands of the pipe. -/
theorem C85_unknown (d : Deps) (mode : Str) (rest : List Str) (stdin : Option Str)
    (h : mode ∉ [chars "help", chars "version", chars "hello", chars "id", chars "tree", chars "coord", chars "prof", chars "shell", chars "stats", chars "phase", chars "check", chars "potential"])
    (stages : List (Deps × List Str)) (hs : ∀ st ∈ stages, Takes st.2) : Reports (pipe stages (main d (mode :: rest) stdin)) := by
  have hn : mode ∉ modeNames := fun hm => h (by
    have : ∀ m ∈ modeNames, m ∈ [chars "help", chars "version", chars "hello", chars "id", chars "tree", chars "coord", chars "prof", chars "shell", chars "stats", chars "phase", chars "check", chars "potential"] := by decide
    exact this mode hm)
  have e : main d (mode :: rest) stdin = ⟨1, println terminating⟩ := by
    unfold main
    dsimp only
    rw [if_neg (fun e => h (by rw [e]; decide)), if_neg (fun e => h (by rw [e]; decide)), if_neg (fun e => h (by rw [e]; decide)), if_pos hn]
  have hr : Reports (main d (mode :: rest) stdin) := by
    rw [e]
    exact ⟨rfl, terminating, by decide, by decide, rfl⟩
  rw [C85_reported stages hs _ hr]
  exact hr

example : chars "shel" ∉ [chars "help", chars "version", chars "hello", chars "id", chars "tree", chars "coord", chars "prof", chars "shell", chars "stats", chars "phase", chars "check", chars "potential"] := by
  decide

/-- C85: a tool that does not read the standard input (id, check) ends with status 0 only if all its steps succeeded and the run gave lines; what can be read from the standard input does not matter. -/
theorem C85_success_source (d : Deps) (mode : Str) (rest : List Str) (hm : mode = chars "id" ∨ mode = chars "check") (stdin : Option Str) (h : (main d (mode :: rest) stdin).status = 0) :
    d.Ready mode rest ∧ ∃ l, d.run mode [] = .lines l := by
  have e : main d (mode :: rest) stdin = runMode d mode rest [] := by
    rcases hm with rfl | rfl <;> rfl
  rw [e] at h
  exact runMode_zero d mode (by rcases hm with rfl | rfl <;> decide) rest [] h

/-- C85: a tool that takes a catalog but cannot read it reports a failure. -/
theorem C85_unreadable (d : Deps) (mode : Str) (rest : List Str) (ht : Takes (mode :: rest)) : Reports (main d (mode :: rest) none) := by
  have hm := takes_mode ht
  obtain ⟨h1, h2, h3, h4⟩ := stdin_known mode hm
  unfold main
  dsimp only
  rw [if_neg h2, if_neg h3, if_neg h4, if_neg (not_not.mpr h1), if_pos hm]
  exact ⟨rfl, terminating, by decide, by decide, rfl⟩


end Shellfish.Main
