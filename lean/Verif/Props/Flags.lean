/-
Property C07 (flags) and the flag part of C08.
-/
import Verif.Props.Config

namespace Shellfish.Config

open Shellfish.Text

variable {F : Type} (lib : Lib F)

theorem isFlag_iff (a : Str) : isFlag a = true ↔ IsFlag a := by
  unfold isFlag IsFlag
  match a with
  | [] => simp
  | [x] => simp
  | x :: y :: r =>
    simp only [List.length_cons, Bool.and_eq_true, decide_eq_true_eq, beq_iff_eq, List.take_succ_cons, List.take_zero,
      List.cons.injEq, and_true, exists_and_left]
    constructor
    · rintro ⟨_, rfl, rfl⟩; exact ⟨rfl, rfl, r, rfl⟩
    · rintro ⟨rfl, rfl, _⟩; exact ⟨by omega, rfl, rfl⟩

theorem groupFlags_eq (name : Str) : ∀ (vals : List Str) (cur : List Str) (gs : List (Str × List Str)),
    (∀ v ∈ vals, ¬ IsFlag v) → (∀ g ∈ gs, IsFlag g.1 ∧ ∀ v ∈ g.2, ¬ IsFlag v) →
    groupFlags name cur (vals ++ gs.flatMap (fun g => g.1 :: g.2)) =
      (name, joinWith ',' (cur ++ vals)) :: gs.map (fun g => (flagVarName g.1, joinWith ',' g.2)) := by
  intro vals cur gs
  induction gs generalizing name vals cur with
  | nil =>
    intro hv _
    simp only [List.flatMap_nil, List.append_nil, List.map_nil]
    induction vals generalizing cur with
    | nil => simp [groupFlags]
    | cons v vs ih =>
      rw [groupFlags, if_neg (by rw [isFlag_iff]; exact hv v (by simp)), ih (cur ++ [v]) (fun w hw => hv w (by simp [hw]))]
      simp
  | cons g gs ihg =>
    intro hv hg
    induction vals generalizing cur with
    | nil =>
      simp only [List.nil_append, List.flatMap_cons, List.cons_append, List.append_nil, List.map_cons]
      rw [groupFlags, if_pos (by rw [isFlag_iff]; exact (hg g (by simp)).1)]
      rw [ihg (flagVarName g.1) g.2 [] (hg g (by simp)).2 (fun g' hg' => hg g' (by simp [hg']))]
      simp
    | cons v vs ih =>
      rw [List.cons_append, groupFlags, if_neg (by rw [isFlag_iff]; exact hv v (by simp)),
        ih (cur ++ [v]) (fun w hw => hv w (by simp [hw]))]
      simp

theorem exists_groups : ∀ args : List Str, ∃ (vals : List Str) (gs : List (Str × List Str)), args = vals ++ gs.flatMap (fun g => g.1 :: g.2) ∧
    (∀ v ∈ vals, ¬ IsFlag v) ∧ ∀ g ∈ gs, IsFlag g.1 ∧ ∀ v ∈ g.2, ¬ IsFlag v
  | [] => ⟨[], [], rfl, by simp, by simp⟩
  | a :: as => by
    obtain ⟨vals, gs, h1, h2, h3⟩ := exists_groups as
    by_cases ha : IsFlag a
    · refine ⟨[], (a, vals) :: gs, by simp [h1], by simp, ?_⟩
      intro g hg
      rw [List.mem_cons] at hg
      rcases hg with rfl | hg
      · exact ⟨ha, h2⟩
      · exact h3 g hg
    · refine ⟨a :: vals, gs, by simp [h1], ?_, h3⟩
      intro v hv
      rw [List.mem_cons] at hv
      rcases hv with rfl | hv
      · exact ha
      · exact h2 v hv

theorem groups_eq (a0 : Str) (rest : List Str) (gs : List (Str × List Str)) (h : Grouped (a0 :: rest) gs) :
    groupFlags (flagVarName a0) [] rest = gs.map (fun g => (flagVarName g.1, joinWith ',' g.2)) := by
  obtain ⟨h1, h2⟩ := h
  cases gs with
  | nil => simp at h1
  | cons g gs =>
    simp only [List.flatMap_cons, List.cons_append, List.cons.injEq] at h1
    obtain ⟨rfl, rfl⟩ := h1
    rw [groupFlags_eq _ g.2 [] gs (h2 g (by simp)).2 (fun g' hg' => h2 g' (by simp [hg']))]
    simp

theorem trimLeft_mem (p : Char → Bool) (s : Str) (c : Char) (h : c ∈ trimLeft p s) : c ∈ s := by
  induction s with
  | nil => simp [trimLeft] at h
  | cons x xs ih =>
    simp only [trimLeft] at h
    split at h
    · exact List.mem_cons_of_mem _ (ih h)
    · exact h

theorem flag_lines (gs : List (Str × List Str)) (hne : ∀ g ∈ gs, '=' ∉ g.1) :
    (∀ g ∈ gs, (groupPair g).1 ≠ []) →
    List.Forall₂ (fun l (p : Str × Str) => Assigns l p.1 p.2)
      ((gs.map (fun g => (flagVarName g.1, joinWith ',' g.2))).map fun g => g.1 ++ '=' :: g.2) (gs.map groupPair) := by
  intro h
  induction gs with
  | nil => simp
  | cons g gs ih =>
    simp only [List.map_cons]
    refine List.Forall₂.cons ?_ (ih (fun g' hg' => hne g' (by simp [hg'])) (fun g' hg' => h g' (by simp [hg'])))
    exact ⟨flagVarName g.1, joinWith ',' g.2, rfl, fun hm => hne g (by simp) (trimLeft_mem _ _ _ hm), rfl, rfl, h g (by simp)⟩

theorem flag_lines_bad (gs : List (Str × List Str)) (hne : ∀ g ∈ gs, '=' ∉ g.1) (ps)
    (hf : List.Forall₂ (fun l (p : Str × Str) => Assigns l p.1 p.2)
      ((gs.map (fun g => (flagVarName g.1, joinWith ',' g.2))).map fun g => g.1 ++ '=' :: g.2) ps) :
    ps = gs.map groupPair ∧ ∀ g ∈ gs, (groupPair g).1 ≠ [] := by
  induction gs generalizing ps with
  | nil => simp only [List.map_nil, List.forall₂_nil_left_iff] at hf; simp [hf]
  | cons g gs ih =>
    simp only [List.map_cons] at hf
    cases hf with
    | @cons _ p _ ps' hh ht =>
      obtain ⟨e, h2⟩ := ih (fun g' hg' => hne g' (by simp [hg'])) _ ht
      obtain ⟨a, b, e1, h1, e2, e3, h3⟩ := hh
      obtain ⟨rfl, rfl⟩ := first_unique e1 (fun hm => hne g (by simp) (trimLeft_mem _ _ _ hm)) h1
      refine ⟨?_, ?_⟩
      · rw [List.map_cons, e]
        congr 1
        exact Prod.ext e2 e3
      · intro g' hg'
        rw [List.mem_cons] at hg'
        rcases hg' with rfl | hg'
        · rw [e2] at h3; exact h3
        · exact h2 g' hg'

/-- What `ReadFlags` does once the arguments are grouped. -/
theorem readFlags_groups (vars : Vars) (args : List Str) (st : List (Val F)) (hne : args ≠ []) (heq : ∀ a ∈ args, '=' ∉ a)
    (gs : List (Str × List Str)) (hg : Grouped args gs) (hval : ∀ g ∈ gs, joinWith ',' g.2 ≠ []) :
    ((∃ g ∈ gs, (groupPair g).1 = []) → readFlags lib vars args st = .panic) ∧
    ((∀ g ∈ gs, (groupPair g).1 ≠ []) → Acceptable lib vars.decls (gs.map groupPair) →
      readFlags lib vars args st = convertAll lib vars.decls (gs.map groupPair) st (fun _ v ty s => some (.badFlag v ty s))) ∧
    ((∀ g ∈ gs, (groupPair g).1 ≠ []) → ¬ Acceptable lib vars.decls (gs.map groupPair) →
      ∃ e, readFlags lib vars args st = .err e st) := by
  match args, hne with
  | a0 :: rest, _ =>
    have hfind : (a0 :: rest).find? (fun a => decide ('=' ∈ a)) = none := by
      rw [List.find?_eq_none]
      intro a ha; simpa using heq a ha
    have hflag : isFlag a0 = true := by
      rw [isFlag_iff]
      obtain ⟨h1, h2⟩ := hg
      cases gs with
      | nil => simp at h1
      | cons g gs =>
        simp only [List.flatMap_cons, List.cons_append, List.cons.injEq] at h1
        rw [h1.1]; exact (h2 g (by simp)).1
    have hgrp := groups_eq a0 rest gs hg
    have hfind2 : (gs.map (fun g => (flagVarName g.1, joinWith ',' g.2))).find? (fun g => decide (g.2 = [])) = none := by
      rw [List.find?_eq_none]
      intro x hx
      rw [List.mem_map] at hx
      obtain ⟨g, hg', rfl⟩ := hx
      simpa using hval g hg'
    have hgeq : ∀ g ∈ gs, '=' ∉ g.1 := by
      intro g hg'
      apply heq
      rw [hg.1, List.mem_flatMap]
      exact ⟨g, hg', by simp⟩
    unfold readFlags
    simp only [hfind, hflag, not_true_eq_false, if_false, hgrp, hfind2]
    refine ⟨?_, ?_, ?_⟩
    · rintro ⟨g, hg', hgn⟩
      cases ha : associationList 0 ((gs.map (fun g => (flagVarName g.1, joinWith ',' g.2))).map fun g => g.1 ++ '=' :: g.2) with
      | inl i => rfl
      | inr ps => exact absurd hgn ((flag_lines_bad gs hgeq ps ((associationList_inr 0 _ _).mp ha)).2 g hg')
    · intro hn hacc
      rw [(associationList_inr 0 _ _).mpr (flag_lines gs hgeq hn)]
      simp only
      have h1 : checkValidNames lib vars.decls 0 ((gs.map groupPair).map Prod.fst) = none := by
        rw [checkValidNames_none]
        intro n hn
        rw [List.mem_map] at hn
        obtain ⟨p, hp, rfl⟩ := hn
        exact hacc.1 p hp
      have h2 : checkDuplicateNames lib 0 ((gs.map groupPair).map Prod.fst) = none := by
        rw [checkDuplicateNames_none, List.pairwise_map]; exact hacc.2
      rw [h1]; simp only; rw [h2]
    · intro hn hacc
      rw [(associationList_inr 0 _ _).mpr (flag_lines gs hgeq hn)]
      simp only
      cases hv : checkValidNames lib vars.decls 0 ((gs.map groupPair).map Prod.fst) with
      | some i =>
        simp only
        obtain ⟨_, n, g1, _⟩ := checkValidNames_some lib vars.decls 0 _ i hv
        rw [Nat.sub_zero, List.getElem?_map, Option.map_eq_some_iff] at g1
        obtain ⟨p, hp, rfl⟩ := g1
        rw [hp]; exact ⟨_, rfl⟩
      | none =>
        simp only
        cases hd : checkDuplicateNames lib 0 ((gs.map groupPair).map Prod.fst) with
        | some ij =>
          obtain ⟨i, j⟩ := ij
          simp only
          obtain ⟨_, _, n1, n2, g1, _⟩ := checkDuplicateNames_some lib 0 _ i j hd
          rw [Nat.sub_zero, List.getElem?_map, Option.map_eq_some_iff] at g1
          obtain ⟨p, hp, rfl⟩ := g1
          rw [hp]; exact ⟨_, rfl⟩
        | none =>
          exfalso
          apply hacc
          refine ⟨fun p hp => (checkValidNames_none lib vars.decls 0 _).mp hv p.1 (List.mem_map_of_mem hp), ?_⟩
          have := (checkDuplicateNames_none lib 0 _).mp hd
          rwa [List.pairwise_map] at this

/-- arguments that are not a sequence of non-empty flag groups without '=' are refused -/
theorem readFlags_refused (vars : Vars) (args : List Str) (st : List (Val F)) (hne : args ≠ [])
    (h : ¬ ((∀ a ∈ args, '=' ∉ a) ∧ ∃ gs, Grouped args gs ∧ ∀ g ∈ gs, joinWith ',' g.2 ≠ [])) :
    ∃ e, readFlags lib vars args st = .err e st := by
  match args, hne with
  | a0 :: rest, _ =>
    unfold readFlags
    simp only
    cases hf : (a0 :: rest).find? (fun a => decide ('=' ∈ a)) with
    | some a => exact ⟨_, rfl⟩
    | none =>
      simp only
      have heq : ∀ a ∈ a0 :: rest, '=' ∉ a := by
        intro a ha
        have := (List.find?_eq_none.mp hf) a ha
        simpa using this
      by_cases hfl : isFlag a0 = true
      · rw [if_neg (not_not.mpr hfl)]
        obtain ⟨vals, gs, h1, h2, h3⟩ := exists_groups rest
        have hg : Grouped (a0 :: rest) ((a0, vals) :: gs) := by
          refine ⟨by simp [h1], ?_⟩
          intro g hg
          rw [List.mem_cons] at hg
          rcases hg with rfl | hg
          · exact ⟨(isFlag_iff a0).mp hfl, h2⟩
          · exact h3 g hg
        rw [groups_eq a0 rest _ hg]
        cases hf2 : (((a0, vals) :: gs).map (fun g => (flagVarName g.1, joinWith ',' g.2))).find? (fun g => decide (g.2 = [])) with
        | some g => exact ⟨_, rfl⟩
        | none =>
          exfalso
          apply h
          refine ⟨heq, _, hg, ?_⟩
          intro g hg'
          have := (List.find?_eq_none.mp hf2) (flagVarName g.1, joinWith ',' g.2)
            (List.mem_map.mpr ⟨g, hg', rfl⟩)
          simpa using this
      · rw [if_pos hfl]; exact ⟨_, rfl⟩

theorem updated_nil {decls : List (Str × VarType)} {st st' : List (Val F)} (hl : st.length = decls.length)
    (h : Updated lib decls [] st st') : st' = st := by
  have h2 : Updated lib decls [] st st := ⟨rfl, fun j d _ => ⟨by simp, fun _ => rfl⟩⟩
  exact Updated.unique lib hl h h2

/-- C07: for every argument list, `ReadFlags` succeeds with variables `st'` exactly when that is what the flags mean:
each flag is declared, none is repeated, each has a value that converts, exactly the named variables change. -/
theorem C07_flags_iff (vars : Vars) (args : List Str) (st st' : List (Val F)) (hw : WellDeclared lib vars.decls st) :
    readFlags lib vars args st = .ok st' ↔ FlagsMean lib vars.decls args st st' := by
  by_cases hne : args = []
  · subst hne
    unfold readFlags FlagsMean
    simp only [Outcome.ok.injEq]
    constructor
    · rintro rfl
      exact ⟨by simp, [], ⟨by simp, by simp⟩, by simp, ⟨by simp, by simp⟩,
        ⟨rfl, fun j d _ => ⟨by simp, fun _ => rfl⟩⟩⟩
    · rintro ⟨_, gs, hg, _, _, hu⟩
      have : gs = [] := by
        cases gs with
        | nil => rfl
        | cons g gs => have := hg.1; simp at this
      subst this
      exact (updated_nil lib hw.1 hu).symm
  · by_cases hok : (∀ a ∈ args, '=' ∉ a) ∧ ∃ gs, Grouped args gs ∧ ∀ g ∈ gs, joinWith ',' g.2 ≠ []
    · obtain ⟨heq, gs, hg, hval⟩ := hok
      obtain ⟨r1, r2, r3⟩ := readFlags_groups lib vars args st hne heq gs hg hval
      have huniq : ∀ gs', Grouped args gs' → gs'.map (fun g => (flagVarName g.1, joinWith ',' g.2)) =
          gs.map (fun g => (flagVarName g.1, joinWith ',' g.2)) := by
        intro gs' hg'
        match args, hne with
        | a0 :: rest, _ => rw [← groups_eq a0 rest gs' hg', groups_eq a0 rest gs hg]
      have hpairs : ∀ gs', Grouped args gs' → gs'.map groupPair = gs.map groupPair := by
        intro gs' hg'
        have := congrArg (List.map (fun q : Str × Str => (trimSp q.1, trimSp q.2))) (huniq gs' hg')
        rw [List.map_map, List.map_map] at this
        exact this
      constructor
      · intro h
        by_cases hn : ∀ g ∈ gs, (groupPair g).1 ≠ []
        · by_cases hacc : Acceptable lib vars.decls (gs.map groupPair)
          · rw [r2 hn hacc, convertAll_ok lib vars.decls st hw _ hacc] at h
            exact ⟨heq, gs, hg, fun g hg' => ⟨hval g hg', hn g hg'⟩, hacc, h⟩
          · obtain ⟨e, he⟩ := r3 hn hacc
            rw [he] at h; cases h
        · have : ∃ g ∈ gs, (groupPair g).1 = [] := by
            by_contra hc; apply hn; intro g hg' he; exact hc ⟨g, hg', he⟩
          rw [r1 this] at h; cases h
      · rintro ⟨_, gs', hg', hn', hacc, hu⟩
        rw [hpairs gs' hg'] at hacc hu
        have hn : ∀ g ∈ gs, (groupPair g).1 ≠ [] := by
          intro g hg2
          have : groupPair g ∈ gs'.map groupPair := by rw [hpairs gs' hg']; exact List.mem_map_of_mem hg2
          rw [List.mem_map] at this
          obtain ⟨g'', h1, h2⟩ := this
          rw [← h2]; exact (hn' g'' h1).2
        rw [r2 hn hacc, convertAll_ok lib vars.decls st hw _ hacc]
        exact hu
    · constructor
      · intro h
        obtain ⟨e, he⟩ := readFlags_refused lib vars args st hne hok
        rw [he] at h; cases h
      · rintro ⟨h1, gs, h2, h3, _⟩
        exact absurd ⟨h1, gs, h2, fun g hg => (h3 g hg).1⟩ hok

theorem updated_length {decls : List (Str × VarType)} {pairs} {st st' : List (Val F)} (h : Updated lib decls pairs st st')
    (hw : WellDeclared lib decls st) : WellDeclared lib decls st' := ⟨h.1.trans hw.1, hw.2⟩

/-- C07: with a configuration file named on the command line the final value of every declared variable is the flag's
value if a flag names it, otherwise the file's value if the file names it, otherwise the default. -/
theorem C07_override (vars : Vars) (content : Str → Option Str) (f : Str) (flags : List Str)
    (hf : f ≠ []) (hf' : f.head? ≠ some '-') (st st' : List (Val F)) (hw : WellDeclared lib vars.decls st)
    (h : readMode lib vars content (f :: flags) st = .ok st') :
    ∃ (file : Str) (lines : List Str) (pairs : List (Str × Str)) (gs : List (Str × List Str)), content f = some file ∧
      significant file = ('[' :: (vars.name ++ [']'])) :: lines ∧
      List.Forall₂ (fun l p => Assigns l p.1 p.2) lines pairs ∧ Grouped flags gs ∧
      ∀ (j : Nat) (d : Str × VarType), vars.decls[j]? = some d →
        (∀ g ∈ gs, Same lib d.1 (groupPair g).1 → ∃ v, Converts lib d.2 (groupPair g).2 v ∧ st'[j]? = some v) ∧
        ((∀ g ∈ gs, ¬ Same lib d.1 (groupPair g).1) →
          (∀ p ∈ pairs, Same lib d.1 p.1 → ∃ v, Converts lib d.2 p.2 v ∧ st'[j]? = some v) ∧
          ((∀ p ∈ pairs, ¬ Same lib d.1 p.1) → st'[j]? = st[j]?)) := by
  match f, hf, hf' with
  | c :: t, _, hf' =>
    have hc : c ≠ '-' := by simpa using hf'
    have e1 : getConfig ((c :: t) :: flags) = some (c :: t) := by
      unfold getConfig; split <;> simp_all
    have e2 : getFlags ((c :: t) :: flags) = flags := by
      unfold getFlags; split <;> simp_all
    unfold readMode at h
    rw [e1, e2] at h
    simp only at h
    cases hcf : content (c :: t) with
    | none => rw [hcf] at h; simp [readConfig] at h
    | some file =>
      rw [hcf] at h
      cases hr : readConfig lib vars (some file) st with
      | panic => rw [hr] at h; cases h
      | err e s => rw [hr] at h; cases h
      | ok s =>
        rw [hr] at h
        simp only at h
        obtain ⟨lines, pairs, h1, h2, h3, h4⟩ := (C05_success_iff lib vars file st s hw).mp hr
        obtain ⟨_, gs, g1, g2, g3, g4⟩ := (C07_flags_iff lib vars flags s st' (updated_length lib h4 hw)).mp h
        refine ⟨file, lines, pairs, gs, rfl, h1, h2, g1, ?_⟩
        intro j d hd
        obtain ⟨a1, a2⟩ := g4.2 j d hd
        obtain ⟨b1, b2⟩ := h4.2 j d hd
        refine ⟨fun g hg => a1 (groupPair g) (List.mem_map_of_mem hg), ?_⟩
        intro hno
        have := a2 (by
          intro p hp
          rw [List.mem_map] at hp
          obtain ⟨g, hg, rfl⟩ := hp
          exact hno g hg)
        rw [this]
        exact ⟨b1, b2⟩

/-- C07: a command line that starts with a flag uses no configuration file and all arguments are flags; one that
starts with anything else (non-empty) uses it as the file name and the rest as flags. -/
theorem C07_arguments (a : Str) (rest : List Str) (ha : a ≠ []) :
    (a.head? = some '-' → getConfig (a :: rest) = none ∧ getFlags (a :: rest) = a :: rest) ∧
    (a.head? ≠ some '-' → getConfig (a :: rest) = some a ∧ getFlags (a :: rest) = rest) := by
  match a, ha with
  | c :: t, _ =>
    constructor
    · intro h
      have hc : c = '-' := by simpa using h
      subst hc
      exact ⟨rfl, rfl⟩
    · intro h
      have hc : c ≠ '-' := by simpa using h
      constructor
      · unfold getConfig; split <;> simp_all
      · unfold getFlags; split <;> simp_all

/-- C07: an unknown flag, a repeated flag, a flag without a value or an argument with '=' is never ignored: the call does not succeed. -/
theorem C07_bad_flags_refused (vars : Vars) (args : List Str) (st st' : List (Val F)) (hw : WellDeclared lib vars.decls st)
    (gs : List (Str × List Str)) (hg : Grouped args gs) (hbad :
      (∃ a ∈ args, '=' ∈ a) ∨ (∃ g ∈ gs, g.2 = []) ∨ (∃ g ∈ gs, ∀ d ∈ vars.decls, ¬ Same lib d.1 (groupPair g).1) ∨
      ¬ gs.Pairwise (fun g g' => ¬ Same lib (groupPair g).1 (groupPair g').1)) :
    readFlags lib vars args st ≠ .ok st' := by
  intro h
  rw [C07_flags_iff lib vars args st st' hw] at h
  obtain ⟨h1, gs', h2, h3, h4, _⟩ := h
  have hgs : gs' = gs := by
    clear h3 h4 hbad h1
    obtain ⟨e1, f1⟩ := hg
    obtain ⟨e2, f2⟩ := h2
    have key : ∀ (gs gs' : List (Str × List Str)), (∀ g ∈ gs, IsFlag g.1 ∧ ∀ v ∈ g.2, ¬ IsFlag v) →
        (∀ g ∈ gs', IsFlag g.1 ∧ ∀ v ∈ g.2, ¬ IsFlag v) →
        gs.flatMap (fun g => g.1 :: g.2) = gs'.flatMap (fun g => g.1 :: g.2) → gs = gs' := by
      intro gs
      induction gs with
      | nil =>
        intro gs' _ _ e
        cases gs' with
        | nil => rfl
        | cons g gs' => simp at e
      | cons g gs ih =>
        intro gs' h h' e
        cases gs' with
        | nil => simp at e
        | cons g' gs' =>
          simp only [List.flatMap_cons, List.cons_append, List.cons.injEq] at e
          obtain ⟨e1, e2⟩ := e
          have tails : ∀ (gs : List (Str × List Str)), (∀ g ∈ gs, IsFlag g.1 ∧ ∀ v ∈ g.2, ¬ IsFlag v) →
              gs.flatMap (fun g => g.1 :: g.2) = [] ∨ ∃ a r, gs.flatMap (fun g => g.1 :: g.2) = a :: r ∧ IsFlag a := by
            intro gs hgs
            cases gs with
            | nil => left; rfl
            | cons x xs => right; exact ⟨x.1, _, rfl, (hgs x (by simp)).1⟩
          have split2 : ∀ (u u' r r' : List Str), (∀ v ∈ u, ¬ IsFlag v) → (∀ v ∈ u', ¬ IsFlag v) →
              (r = [] ∨ ∃ a s, r = a :: s ∧ IsFlag a) → (r' = [] ∨ ∃ a s, r' = a :: s ∧ IsFlag a) →
              u ++ r = u' ++ r' → u = u' ∧ r = r' := by
            intro u
            induction u with
            | nil =>
              intro u' r r' _ hu' hr hr' e
              cases u' with
              | nil => exact ⟨rfl, e⟩
              | cons x xs =>
                exfalso
                rcases hr with rfl | ⟨a, s, rfl, ha⟩
                · simp at e
                · simp only [List.nil_append, List.cons_append, List.cons.injEq] at e
                  exact hu' x (by simp) (e.1 ▸ ha)
            | cons y ys ihu =>
              intro u' r r' hu hu' hr hr' e
              cases u' with
              | nil =>
                exfalso
                rcases hr' with rfl | ⟨a, s, rfl, ha⟩
                · simp at e
                · simp only [List.nil_append, List.cons_append, List.cons.injEq] at e
                  exact hu y (by simp) (e.1 ▸ ha)
              | cons x xs =>
                simp only [List.cons_append, List.cons.injEq] at e
                obtain ⟨q1, q2⟩ := ihu xs r r' (fun v hv => hu v (by simp [hv])) (fun v hv => hu' v (by simp [hv])) hr hr' e.2
                exact ⟨by rw [e.1, q1], q2⟩
          obtain ⟨q1, q2⟩ := split2 g.2 g'.2 _ _ (h g (by simp)).2 (h' g' (by simp)).2
            (tails gs (fun x hx => h x (by simp [hx]))) (tails gs' (fun x hx => h' x (by simp [hx]))) e2
          rw [ih gs' (fun x hx => h x (by simp [hx])) (fun x hx => h' x (by simp [hx])) q2]
          congr 1
          exact Prod.ext e1 q1
    exact key gs' gs f2 f1 (e2 ▸ e1 ▸ rfl)
  subst hgs
  rcases hbad with ⟨a, ha, he⟩ | ⟨g, hg', he⟩ | ⟨g, hg', he⟩ | hp
  · exact h1 a ha he
  · exact (h3 g hg').1 (by rw [he]; rfl)
  · obtain ⟨d, hd, hs⟩ := h4.1 _ (List.mem_map_of_mem hg')
    exact he d hd hs
  · apply hp
    have := h4.2
    rwa [List.pairwise_map] at this

/-- C08 for flags, exact condition: `ReadFlags` panics exactly when, the arguments being well-grouped flags with values,
some flag consists of dashes and blanks only or the error message of `BadMessage` is composed. -/
theorem C08_flags_panic_iff (vars : Vars) (args : List Str) (st : List (Val F)) (hw : WellDeclared lib vars.decls st) :
    readFlags lib vars args st = .panic ↔
    (∀ a ∈ args, '=' ∉ a) ∧ ∃ gs, Grouped args gs ∧ (∀ g ∈ gs, joinWith ',' g.2 ≠ []) ∧
      ((∃ g ∈ gs, (groupPair g).1 = []) ∨ (Acceptable lib vars.decls (gs.map groupPair) ∧ BadMessage lib vars.decls (gs.map groupPair))) := by
  by_cases hne : args = []
  · subst hne
    simp only [readFlags, reduceCtorEq, false_iff]
    rintro ⟨_, gs, hg, _, h⟩
    have : gs = [] := by
      cases gs with
      | nil => rfl
      | cons g gs => have := hg.1; simp at this
    subst this
    rcases h with ⟨g, hg, _⟩ | ⟨_, k, j, p, d, h, _⟩
    · simp at hg
    · simp at h
  · by_cases hok : (∀ a ∈ args, '=' ∉ a) ∧ ∃ gs, Grouped args gs ∧ ∀ g ∈ gs, joinWith ',' g.2 ≠ []
    · have hmk : ∀ (pairs : List (Str × Str)) (i : Nat) (v : Str) (ty : VarType) (s : Str), i < pairs.length →
          ∃ e, (fun (_ : Nat) v ty s => some (Err.badFlag v ty s)) i v ty s = some e := fun _ _ _ _ _ _ => ⟨_, rfl⟩
      constructor
      · intro h
        obtain ⟨heq, gs, hg, hval⟩ := hok
        obtain ⟨r1, r2, r3⟩ := readFlags_groups lib vars args st hne heq gs hg hval
        refine ⟨heq, gs, hg, hval, ?_⟩
        by_cases hn : ∀ g ∈ gs, (groupPair g).1 ≠ []
        · right
          by_cases hacc : Acceptable lib vars.decls (gs.map groupPair)
          · rw [r2 hn hacc, convertAll_panic lib vars.decls st hw _ hacc _ (hmk _)] at h
            exact ⟨hacc, h⟩
          · obtain ⟨e, he⟩ := r3 hn hacc
            rw [he] at h; cases h
        · left
          by_contra hc; apply hn; intro g hg' he; exact hc ⟨g, hg', he⟩
      · rintro ⟨heq, gs, hg, hval, h⟩
        obtain ⟨r1, r2, r3⟩ := readFlags_groups lib vars args st hne heq gs hg hval
        by_cases hb : ∃ g ∈ gs, (groupPair g).1 = []
        · exact r1 hb
        · have hn : ∀ g ∈ gs, (groupPair g).1 ≠ [] := fun g hg' he => hb ⟨g, hg', he⟩
          rcases h with h | ⟨hacc, h⟩
          · exact absurd h hb
          · rw [r2 hn hacc, convertAll_panic lib vars.decls st hw _ hacc _ (hmk _)]
            exact h
    · constructor
      · intro h
        obtain ⟨e, he⟩ := readFlags_refused lib vars args st hne hok
        rw [he] at h; cases h
      · rintro ⟨h1, gs, h2, h3, _⟩
        exact absurd ⟨h1, gs, h2, h3⟩ hok

/-- C08 is false of the code for flags: a lone "--" followed by a value panics, as does a bad value. -/
theorem C08_flags_false :
    readFlags exLib exVars ["--".toList, "3".toList] [.int 4, .strings []] = .panic ∧
    readFlags exLib { name := "cat".toList, decls := [("Names".toList, .strings), ("Paws".toList, .int)] }
      ["--Paws".toList, "four".toList] [.strings [], .int 4] = .panic := by decide

-- a non-trivial flag list and its effect; the file is overridden
example : readFlags exLib exVars ["--Names".toList, "Bob".toList, "Al".toList, "--paws".toList, "3".toList] [.int 4, .strings []] =
    .ok [.int 3, .strings ["Bob".toList, "Al".toList]] := by decide
example : readMode exLib exVars (fun _ => some "[cat]\nPaws = 5\nNames = X".toList) ["my.config".toList, "--paws".toList, "3".toList]
    [.int 4, .strings []] = .ok [.int 3, .strings ["X".toList]] := by decide

end Shellfish.Config
