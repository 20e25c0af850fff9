/-
Properties C05 - C08: configuration files and flags.
-/
import Verif.Lemmas.Config

namespace Shellfish.Config

open Shellfish.Text

variable {F : Type} (lib : Lib F)

theorem removeComments_fst (ls : List Str) :
    (removeComments ls).map Prod.fst = (ls.map strip).filter (· ≠ []) := by
  unfold removeComments
  have key : ∀ (ls : List Str) (k : Nat),
      (((ls.zipIdx k).map fun p => (trimSp (p.1.takeWhile (· ≠ '#')), p.2)).filter fun p => p.1 ≠ []).map Prod.fst =
        (ls.map strip).filter (· ≠ []) := by
    intro ls
    induction ls with
    | nil => intro k; rfl
    | cons l ls ih =>
      intro k
      rw [List.zipIdx_cons, List.map_cons, List.map_cons, List.filter_cons, List.filter_cons]
      by_cases h : strip l = []
      · rw [if_neg (by simpa [strip] using h), if_neg (by simpa using h)]
        exact ih (k + 1)
      · rw [if_pos (by simpa [strip] using h), if_pos (by simpa using h), List.map_cons, ih (k + 1)]
        rfl
  exact key ls 0

theorem removeComments_mem (ls : List Str) (k : Nat) (l : Str) (i : Nat) (h : (removeComments ls)[k]? = some (l, i)) :
    l ≠ [] ∧ ∃ raw, ls[i]? = some raw ∧ strip raw = l := by
  have hm := List.mem_of_getElem? h
  unfold removeComments at hm
  rw [List.mem_filter, List.mem_map] at hm
  obtain ⟨⟨⟨raw, i'⟩, hz, he⟩, hne⟩ := hm
  simp only [Prod.mk.injEq] at he
  obtain ⟨h1, rfl⟩ := he
  rw [List.mem_zipIdx_iff_getElem?] at hz
  exact ⟨by simpa using hne, raw, by simpa using hz, h1⟩

/-- line numbers increase along the significant lines -/
theorem removeComments_mono (ls : List Str) (k m : Nat) (l l' : Str) (i j : Nat) (hkm : k < m)
    (h : (removeComments ls)[k]? = some (l, i)) (h' : (removeComments ls)[m]? = some (l', j)) : i < j := by
  have hp : (removeComments ls).Pairwise (fun p q => p.2 < q.2) := by
    unfold removeComments
    apply List.Pairwise.filter
    rw [List.pairwise_map]
    simp only
    rw [List.pairwise_iff_getElem]
    intro a b ha hb hab
    simpa using hab
  rw [List.getElem?_eq_some_iff] at h h'
  obtain ⟨hk, e⟩ := h
  obtain ⟨hm, e'⟩ := h'
  have := (List.pairwise_iff_getElem.mp hp) k m hk hm hkm
  rw [e, e'] at this
  exact this

/-- C05: for every file, set of declared variables and initial values, `ReadConfig` succeeds with
variables `st'` exactly when that is what the file means: the header comes first, every other significant line
is an assignment to a declared variable, none is assigned twice, every value converts; and then
exactly the assigned variables change. -/
theorem C05_success_iff (vars : Vars) (file : Str) (st st' : List (Val F)) (hw : WellDeclared lib vars.decls st) :
    readConfig lib vars (some file) st = .ok st' ↔ FileMeans lib vars file st st' := by
  unfold readConfig FileMeans
  simp only
  rw [removeComments_fst]
  change (match significant file with | [] => _ | h :: body => _) = _ ↔ _
  cases hsig : significant file with
  | nil => simp
  | cons h body =>
    simp only
    by_cases hh : h = '[' :: (vars.name ++ [']'])
    · rw [if_neg (not_not.mpr hh)]
      subst hh
      simp only [List.cons.injEq, true_and]
      cases ha : associationList 0 body with
      | inl i =>
        simp only
        constructor
        · intro hc; exfalso; revert hc; split <;> simp
        · rintro ⟨lines, pairs, rfl, hf, _⟩
          rw [(associationList_inr 0 body pairs).mpr hf] at ha; cases ha
      | inr pairs =>
        simp only
        have hf := (associationList_inr 0 body pairs).mp ha
        have hu : ∀ lines pairs', body = lines → List.Forall₂ (fun l (p : Str × Str) => Assigns l p.1 p.2) lines pairs' → pairs' = pairs := by
          rintro _ pairs' rfl hf'
          have := (associationList_inr 0 body pairs').mpr hf'
          rw [ha] at this; cases this; rfl
        cases hv : checkValidNames lib vars.decls 0 (pairs.map Prod.fst) with
        | some i =>
          simp only
          constructor
          · intro hc; exfalso; revert hc; split <;> simp
          · rintro ⟨lines, pairs', e, hf', hacc, _⟩
            obtain rfl := hu _ _ e hf'
            have : checkValidNames lib vars.decls 0 (pairs'.map Prod.fst) = none := by
              rw [checkValidNames_none]
              intro n hn
              rw [List.mem_map] at hn
              obtain ⟨p, hp, rfl⟩ := hn
              exact hacc.1 p hp
            rw [this] at hv; cases hv
        | none =>
          simp only
          have hval : ∀ p ∈ pairs, ∃ d ∈ vars.decls, Same lib d.1 p.1 := by
            intro p hp
            exact (checkValidNames_none lib vars.decls 0 _).mp hv p.1 (List.mem_map_of_mem hp)
          cases hdup : checkDuplicateNames lib 0 (pairs.map Prod.fst) with
          | some ij =>
            obtain ⟨i, j⟩ := ij
            simp only
            constructor
            · intro hc; exfalso; revert hc; split <;> simp
            · rintro ⟨lines, pairs', e, hf', hacc, _⟩
              obtain rfl := hu _ _ e hf'
              have : checkDuplicateNames lib 0 (pairs'.map Prod.fst) = none := by
                rw [checkDuplicateNames_none, List.pairwise_map]
                exact hacc.2
              rw [this] at hdup; cases hdup
          | none =>
            simp only
            have hacc : Acceptable lib vars.decls pairs := by
              refine ⟨hval, ?_⟩
              have := (checkDuplicateNames_none lib 0 _).mp hdup
              rwa [List.pairwise_map] at this
            rw [convertAll_ok lib vars.decls st hw pairs hacc]
            constructor
            · intro h; exact ⟨body, pairs, rfl, hf, hacc, h⟩
            · rintro ⟨lines, pairs', e, hf', _, h⟩
              obtain rfl := hu _ _ e hf'
              exact h
    · rw [if_pos hh]
      simp [hh]

/-- C05: when `ReadConfig` reports an error, the error is the true one, and the line numbers it names (counting from 1)
are those of the offending lines of the file. -/
theorem C05_errors (vars : Vars) (file : Str) (st st' : List (Val F)) (e : Err) (hw : WellDeclared lib vars.decls st)
    (h : readConfig lib vars (some file) st = .err e st') :
    match e with
    | .noHeader => ∀ body, significant file ≠ ('[' :: (vars.name ++ [']'])) :: body
    | .notAssign n => ∃ line, FileLine file n line ∧ strip line ≠ [] ∧ ¬ ∃ x v, Assigns (strip line) x v
    | .unknown n x => ∃ line v, FileLine file n line ∧ Assigns (strip line) x v ∧ ¬ ∃ d ∈ vars.decls, Same lib d.1 x
    | .dup n m x => n < m ∧ ∃ l1 l2 v y w, FileLine file n l1 ∧ FileLine file m l2 ∧
        Assigns (strip l1) x v ∧ Assigns (strip l2) y w ∧ Same lib x y
    | .badValue n x ty _ => ∃ line y v, FileLine file n line ∧ Assigns (strip line) y v ∧ (x, ty) ∈ vars.decls ∧ Same lib x y ∧
        ¬ ∃ val, Converts lib ty v val
    | _ => False := by
  unfold readConfig at h
  simp only at h
  set rl := removeComments (splitOn '\n' file) with hrl
  have hsig : rl.map Prod.fst = significant file := by rw [hrl, removeComments_fst]; rfl
  cases hcase : rl.map Prod.fst with
  | nil =>
    rw [hcase] at h
    simp only at h
    injection h with h1 _
    subst h1
    simp only
    intro body hb
    rw [← hsig, hcase] at hb; cases hb
  | cons hd body =>
    rw [hcase] at h
    simp only at h
    by_cases hh : hd = '[' :: (vars.name ++ [']'])
    · rw [if_neg (not_not.mpr hh)] at h
      -- the k-th body line and its number
      have hline : ∀ k n, (rl.map (fun p => p.2 + 1))[k + 1]? = some n → ∃ raw, FileLine file n raw ∧ strip raw ≠ [] ∧ body[k]? = some (strip raw) := by
        intro k n hk
        rw [List.getElem?_map, Option.map_eq_some_iff] at hk
        obtain ⟨⟨l, i⟩, hk, rfl⟩ := hk
        obtain ⟨hne, raw, hraw, hs⟩ := removeComments_mem _ _ _ _ hk
        refine ⟨raw, ⟨by simp, by simpa using hraw⟩, hs ▸ hne, ?_⟩
        have : (rl.map Prod.fst)[k + 1]? = some l := by rw [List.getElem?_map, hk]; rfl
        rw [hcase, List.getElem?_cons_succ] at this
        rw [this, hs]
      have hmono : ∀ k m n1 n2, k < m → (rl.map (fun p => p.2 + 1))[k + 1]? = some n1 →
          (rl.map (fun p => p.2 + 1))[m + 1]? = some n2 → n1 < n2 := by
        intro k m n1 n2 hkm h1 h2
        rw [List.getElem?_map, Option.map_eq_some_iff] at h1 h2
        obtain ⟨⟨l, i⟩, h1, rfl⟩ := h1
        obtain ⟨⟨l', j⟩, h2, rfl⟩ := h2
        have := removeComments_mono _ (k + 1) (m + 1) l l' i j (by omega) h1 h2
        simp only; omega
      cases ha : associationList 0 body with
      | inl i =>
        rw [ha] at h
        simp only at h
        cases hn : (rl.map (fun p => p.2 + 1))[i + 1]? with
        | none => rw [hn] at h; cases h
        | some n =>
          rw [hn] at h
          simp only at h
          injection h with h1 _
          subst h1
          simp only
          obtain ⟨raw, hr1, hr2, hr3⟩ := hline i n hn
          obtain ⟨_, l, hl, hno⟩ := associationList_inl 0 body i ha
          rw [Nat.sub_zero, hr3] at hl
          cases hl
          exact ⟨raw, hr1, hr2, hno⟩
      | inr pairs =>
        rw [ha] at h
        simp only at h
        have hf := (associationList_inr 0 body pairs).mp ha
        have hpair : ∀ (k : Nat) (p : Str × Str), pairs[k]? = some p → ∀ s, body[k]? = some s → Assigns s p.1 p.2 := by
          intro k p hp s hs
          rw [List.forall₂_iff_get] at hf
          rw [List.getElem?_eq_some_iff] at hp hs
          obtain ⟨h1, rfl⟩ := hp
          obtain ⟨h2, rfl⟩ := hs
          exact hf.2 k h2 h1
        cases hv : checkValidNames lib vars.decls 0 (pairs.map Prod.fst) with
        | some i =>
          rw [hv] at h
          simp only at h
          obtain ⟨_, nm, hnm, hno⟩ := checkValidNames_some lib vars.decls 0 _ i hv
          rw [Nat.sub_zero, List.getElem?_map, Option.map_eq_some_iff] at hnm
          obtain ⟨p, hp, rfl⟩ := hnm
          rw [hp] at h
          cases hn : (rl.map (fun p => p.2 + 1))[i + 1]? with
          | none => rw [hn] at h; cases h
          | some n =>
            rw [hn] at h
            simp only at h
            injection h with h1 _
            subst h1
            simp only
            obtain ⟨raw, hr1, hr2, hr3⟩ := hline i n hn
            exact ⟨raw, p.2, hr1, hpair i p hp _ hr3, hno⟩
        | none =>
          rw [hv] at h
          simp only at h
          cases hdup : checkDuplicateNames lib 0 (pairs.map Prod.fst) with
          | some ij =>
            obtain ⟨i, j⟩ := ij
            rw [hdup] at h
            simp only at h
            obtain ⟨_, hij, n1, n2, g1, g2, g3⟩ := checkDuplicateNames_some lib 0 _ i j hdup
            rw [Nat.sub_zero, List.getElem?_map, Option.map_eq_some_iff] at g1 g2
            obtain ⟨p, hp, rfl⟩ := g1
            obtain ⟨q, hq, rfl⟩ := g2
            rw [hp] at h
            cases hn : (rl.map (fun p => p.2 + 1))[i + 1]? with
            | none => rw [hn] at h; cases h
            | some n =>
              cases hm : (rl.map (fun p => p.2 + 1))[j + 1]? with
              | none => rw [hn, hm] at h; cases h
              | some m =>
                rw [hn, hm] at h
                simp only at h
                injection h with h1 _
                subst h1
                simp only
                obtain ⟨raw, hr1, hr2, hr3⟩ := hline i n hn
                obtain ⟨raw', hr1', hr2', hr3'⟩ := hline j m hm
                exact ⟨hmono i j n m hij hn hm, raw, raw', p.2, q.1, q.2, hr1, hr1', hpair i p hp _ hr3, hpair j q hq _ hr3', g3⟩
          | none =>
            rw [hdup] at h
            simp only at h
            have hacc : Acceptable lib vars.decls pairs := by
              refine ⟨fun p hp => (checkValidNames_none lib vars.decls 0 _).mp hv p.1 (List.mem_map_of_mem hp), ?_⟩
              have := (checkDuplicateNames_none lib 0 _).mp hdup
              rwa [List.pairwise_map] at this
            unfold convertAll at h
            rcases convertAssoc_spec lib vars.decls hw.2 pairs 0 st hw.1 hacc with ⟨s, h1, h2⟩ | ⟨s, k, p, d, h1, _, h3, h4, h5, h6, _⟩
            · rw [h1] at h; cases h
            · rw [h1] at h
              rw [Nat.sub_zero] at h3
              simp only [h3, h4] at h
              cases hsh : pairs[findVar lib vars.decls p.1]? with
              | none => rw [hsh] at h; cases h
              | some shown =>
                rw [hsh] at h
                simp only at h
                cases hn : (rl.map (fun p => p.2 + 1))[k + 1]? with
                | none => rw [hn] at h; cases h
                | some n =>
                  rw [hn] at h
                  simp only [Option.map_some] at h
                  injection h with h1 _
                  subst h1
                  simp only
                  obtain ⟨raw, hr1, hr2, hr3⟩ := hline k n hn
                  exact ⟨raw, p.1, p.2, hr1, hpair k p h3 _ hr3, List.mem_of_getElem? h4, h5, h6⟩
    · rw [if_pos hh] at h
      injection h with h1 _
      subst h1
      simp only
      intro body' hb
      rw [← hsig, hcase] at hb
      injection hb with h1 _
      exact hh h1

-- a non-trivial instance: two variables, comments, blank lines, mixed case
/-- library functions used in the examples -/
def exLib : Lib Nat := { lower := fun s => s.map Char.toLower, parseFloat := fun _ => none }
/-- the declared variables used in the examples -/
def exVars : Vars := { name := "cat".toList, decls := [("Paws".toList, .int), ("Names".toList, .strings)] }
example : WellDeclared exLib exVars.decls [.int 4, .strings []] := by
  refine ⟨rfl, ?_⟩
  simp only [exVars, List.pairwise_cons]
  refine ⟨?_, by simp⟩
  intro e he
  simp only [List.mem_cons, List.not_mem_nil, or_false] at he
  subst he
  unfold Same
  decide
example : readConfig exLib exVars (some "# hi\n[cat]\n\nnames = Bob , Al # x\nPAWS=3".toList) [.int 4, .strings []] =
    .ok [.int 3, .strings ["Bob".toList, "Al".toList]] := by decide
example : readConfig exLib exVars (some "[cat]\n\npaws = 3\nPaws = 4".toList) [.int 4, .strings []] =
    .err (.dup 3 4 "paws".toList) [.int 4, .strings []] := by decide

/-! ### C08 -/

theorem lineNums_some (file : Str) (hd : Str) (body : List Str) (pairs : List (Str × Str))
    (hc : (removeComments (splitOn '\n' file)).map Prod.fst = hd :: body)
    (hf : List.Forall₂ (fun l (p : Str × Str) => Assigns l p.1 p.2) body pairs) (k : Nat) (hk : k < pairs.length) :
    ∃ n, ((removeComments (splitOn '\n' file)).map (fun p => p.2 + 1))[k + 1]? = some n := by
  have h1 := congrArg List.length hc
  rw [List.length_map, List.length_cons] at h1
  have h2 := hf.length_eq
  have hlt : k + 1 < (removeComments (splitOn '\n' file)).length := by omega
  rw [List.getElem?_map, List.getElem?_eq_getElem hlt]
  exact ⟨_, rfl⟩

/-- The situation in which `ReadConfig` and `ReadFlags` crash while composing an error message: the assignments are
acceptable, the `k`-th is the first whose value does not convert, and it assigns to the `j`-th declared
variable where there are at most `j` assignments. -/
def BadMessage (decls : List (Str × VarType)) (pairs : List (Str × Str)) : Prop :=
  ∃ (k j : Nat) (p : Str × Str) (d : Str × VarType), pairs[k]? = some p ∧ decls[j]? = some d ∧ Same lib d.1 p.1 ∧
    (¬ ∃ v, Converts lib d.2 p.2 v) ∧
    (∀ m q e, m < k → pairs[m]? = some q → e ∈ decls → Same lib e.1 q.1 → ∃ v, Converts lib e.2 q.2 v) ∧
    pairs.length ≤ j

theorem convertAll_panic (decls : List (Str × VarType)) (st : List (Val F)) (hw : WellDeclared lib decls st)
    (pairs : List (Str × Str)) (hacc : Acceptable lib decls pairs) (mk) (hmk : ∀ i v ty s, i < pairs.length → ∃ e, mk i v ty s = some e) :
    convertAll lib decls pairs st mk = .panic ↔ BadMessage lib decls pairs := by
  unfold convertAll
  rcases convertAssoc_spec lib decls hw.2 pairs 0 st hw.1 hacc with ⟨s, h1, h2⟩ | ⟨s, k, p, d, h1, _, h3, h4, h5, h6, _, h8⟩
  · rw [h1]
    simp only [reduceCtorEq, false_iff]
    rintro ⟨k, j, p, d, g1, g2, g3, g4, _⟩
    obtain ⟨v, hv, _⟩ := (h2.2 j d g2).1 p (List.mem_of_getElem? g1) g3
    exact g4 ⟨v, hv⟩
  · rw [h1]
    rw [Nat.sub_zero] at h3 h8
    simp only [h3, h4]
    have hklt := (List.getElem?_eq_some_iff.mp h3).1
    have hearlier : ∀ m q e, m < k → pairs[m]? = some q → e ∈ decls → Same lib e.1 q.1 → ∃ v, Converts lib e.2 q.2 v := by
      intro m q e hm hq he hs
      obtain ⟨e', he', hs'⟩ := findVar_spec lib decls q.1 ⟨e, he, hs⟩
      obtain ⟨i, hi, hie⟩ := List.mem_iff_getElem.mp he
      have hi' : decls[i]? = some e := by rw [List.getElem?_eq_getElem hi, hie]
      have := index_unique lib hw.2 hi' he' hs hs'
      rw [← this, hi'] at he'
      cases he'
      exact h8 m q e hm hq (by rw [← this]; exact hi')
    cases hsh : pairs[findVar lib decls p.1]? with
    | none =>
      simp only [true_iff]
      exact ⟨k, _, p, d, h3, h4, h5, h6, hearlier, List.getElem?_eq_none_iff.mp hsh⟩
    | some shown =>
      obtain ⟨e, he⟩ := hmk k d.1 d.2 shown.2 hklt
      simp only [he, reduceCtorEq, false_iff]
      rintro ⟨k', j, p', d', g1, g2, g3, g4, g5, g6⟩
      -- the first failing assignment is unique
      have hkk : k' = k := by
        rcases Nat.lt_trichotomy k' k with h | h | h
        · exact absurd (hearlier k' p' d' h g1 (List.mem_of_getElem? g2) g3) g4
        · exact h
        · exact absurd (g5 k p d h h3 (List.mem_of_getElem? h4) h5) h6
      subst hkk
      rw [h3] at g1; cases g1
      have := index_unique lib hw.2 g2 h4 g3 h5
      have hlt := (List.getElem?_eq_some_iff.mp hsh).1
      omega

/-- C08, exact condition: `ReadConfig` panics on precisely the files described by `BadMessage`. -/
theorem C08_config_panic_iff (vars : Vars) (file : Str) (st : List (Val F)) (hw : WellDeclared lib vars.decls st) :
    readConfig lib vars (some file) st = .panic ↔
    ∃ lines pairs, significant file = ('[' :: (vars.name ++ [']'])) :: lines ∧
      List.Forall₂ (fun l p => Assigns l p.1 p.2) lines pairs ∧
      Acceptable lib vars.decls pairs ∧ BadMessage lib vars.decls pairs := by
  unfold readConfig
  simp only
  have hs0 : (removeComments (splitOn '\n' file)).map Prod.fst = significant file := removeComments_fst _
  rw [hs0]
  cases hsig : significant file with
  | nil => simp
  | cons h body =>
    simp only
    rw [hsig] at hs0
    by_cases hh : h = '[' :: (vars.name ++ [']'])
    · rw [if_neg (not_not.mpr hh)]
      subst hh
      simp only [List.cons.injEq, true_and]
      cases ha : associationList 0 body with
      | inl i =>
        simp only
        constructor
        · intro hc
          exfalso
          obtain ⟨_, l, hl, _⟩ := associationList_inl 0 body i ha
          have hlt := (List.getElem?_eq_some_iff.mp hl).1
          have h1 := congrArg List.length hs0
          rw [List.length_map, List.length_cons] at h1
          have : ((removeComments (splitOn '\n' file)).map (fun p => p.2 + 1))[i + 1]? ≠ none := by
            rw [Ne, List.getElem?_eq_none_iff, List.length_map]; omega
          cases hn : ((removeComments (splitOn '\n' file)).map (fun p => p.2 + 1))[i + 1]? with
          | none => exact this hn
          | some n => rw [hn] at hc; cases hc
        · rintro ⟨lines, pairs, rfl, hf, _⟩
          rw [(associationList_inr 0 body pairs).mpr hf] at ha; cases ha
      | inr pairs =>
        simp only
        have hf := (associationList_inr 0 body pairs).mp ha
        have hu : ∀ lines pairs', body = lines → List.Forall₂ (fun l (p : Str × Str) => Assigns l p.1 p.2) lines pairs' → pairs' = pairs := by
          rintro _ pairs' rfl hf'
          have := (associationList_inr 0 body pairs').mpr hf'
          rw [ha] at this; cases this; rfl
        cases hv : checkValidNames lib vars.decls 0 (pairs.map Prod.fst) with
        | some i =>
          simp only
          constructor
          · intro hc
            exfalso
            obtain ⟨_, n, hn, _⟩ := checkValidNames_some lib vars.decls 0 _ i hv
            rw [Nat.sub_zero, List.getElem?_map, Option.map_eq_some_iff] at hn
            obtain ⟨p, hp, rfl⟩ := hn
            obtain ⟨n, hn⟩ := lineNums_some file _ body pairs hs0 hf i (List.getElem?_eq_some_iff.mp hp).1
            rw [hn, hp] at hc; cases hc
          · rintro ⟨lines, pairs', e, hf', hacc, _⟩
            obtain rfl := hu _ _ e hf'
            have : checkValidNames lib vars.decls 0 (pairs'.map Prod.fst) = none := by
              rw [checkValidNames_none]
              intro n hn
              rw [List.mem_map] at hn
              obtain ⟨p, hp, rfl⟩ := hn
              exact hacc.1 p hp
            rw [this] at hv; cases hv
        | none =>
          simp only
          have hval : ∀ p ∈ pairs, ∃ d ∈ vars.decls, Same lib d.1 p.1 := by
            intro p hp
            exact (checkValidNames_none lib vars.decls 0 _).mp hv p.1 (List.mem_map_of_mem hp)
          cases hdup : checkDuplicateNames lib 0 (pairs.map Prod.fst) with
          | some ij =>
            obtain ⟨i, j⟩ := ij
            simp only
            constructor
            · intro hc
              exfalso
              obtain ⟨_, hij, n1, n2, g1, g2, g3⟩ := checkDuplicateNames_some lib 0 _ i j hdup
              rw [Nat.sub_zero, List.getElem?_map, Option.map_eq_some_iff] at g1 g2
              obtain ⟨p, hp, rfl⟩ := g1
              obtain ⟨q, hq, rfl⟩ := g2
              obtain ⟨n, hn⟩ := lineNums_some file _ body pairs hs0 hf i (List.getElem?_eq_some_iff.mp hp).1
              obtain ⟨m, hm⟩ := lineNums_some file _ body pairs hs0 hf j (List.getElem?_eq_some_iff.mp hq).1
              rw [hn, hm, hp] at hc; cases hc
            · rintro ⟨lines, pairs', e, hf', hacc, _⟩
              obtain rfl := hu _ _ e hf'
              have : checkDuplicateNames lib 0 (pairs'.map Prod.fst) = none := by
                rw [checkDuplicateNames_none, List.pairwise_map]
                exact hacc.2
              rw [this] at hdup; cases hdup
          | none =>
            simp only
            have hacc : Acceptable lib vars.decls pairs := by
              refine ⟨hval, ?_⟩
              have := (checkDuplicateNames_none lib 0 _).mp hdup
              rwa [List.pairwise_map] at this
            rw [convertAll_panic lib vars.decls st hw pairs hacc]
            · constructor
              · intro h; exact ⟨body, pairs, rfl, hf, hacc, h⟩
              · rintro ⟨lines, pairs', e, hf', _, h⟩
                obtain rfl := hu _ _ e hf'
                exact h
            · intro i v ty s hi
              obtain ⟨n, hn⟩ := lineNums_some file _ body pairs hs0 hf i hi
              rw [hn]; exact ⟨_, rfl⟩
    · rw [if_pos hh]
      simp [hh]

/-- C08 is false of the code: a file with one mistyped value for the second declared variable makes `ReadConfig` panic. -/
theorem C08_config_false :
    readConfig exLib { name := "cat".toList, decls := [("Names".toList, .strings), ("Paws".toList, .int)] }
      (some "[cat]\nPaws = four".toList) [.strings [], .int 4] = .panic := by decide

/-- What is left of C08 for files: `ReadConfig` does not panic when the file
contains at least as many assignments as there are declared variables, or when all its values convert. -/
theorem C08_config_no_panic_partial (vars : Vars) (file : Str) (st : List (Val F)) (hw : WellDeclared lib vars.decls st)
    (h : ∀ (lines : List Str) (pairs : List (Str × Str)), significant file = ('[' :: (vars.name ++ [']'])) :: lines →
      List.Forall₂ (fun l p => Assigns l p.1 p.2) lines pairs →
      vars.decls.length ≤ pairs.length ∨ ∀ p ∈ pairs, ∀ d ∈ vars.decls, Same lib d.1 p.1 → ∃ v, Converts lib d.2 p.2 v) :
    readConfig lib vars (some file) st ≠ .panic := by
  intro hp
  rw [C08_config_panic_iff lib vars file st hw] at hp
  obtain ⟨lines, pairs, h1, h2, _, k, j, p, d, g1, g2, g3, g4, _, g6⟩ := hp
  rcases h lines pairs h1 h2 with h | h
  · have := (List.getElem?_eq_some_iff.mp g2).1
    omega
  · exact g4 (h p (List.mem_of_getElem? g1) d (List.mem_of_getElem? g2) g3)

end Shellfish.Config
