/-
Property C06: layout of a configuration file does not matter.
-/
import Verif.Props.Config

namespace Shellfish.Config

open Shellfish.Text

variable {F : Type} (lib : Lib F)

/-- `k` blanks -/
def blanks (k : Nat) : Str := List.replicate k ' '

/-- One change of layout, on the list of lines of a file. -/
inductive Relayout : List Str → List Str → Prop
  /-- insert a line that is blank or only a comment -/
  | blankLine (pre post : List Str) (k : Nat) (c : Str) (h : c = [] ∨ c.head? = some '#') :
      Relayout (pre ++ post) (pre ++ (blanks k ++ c) :: post)
  /-- append a comment to a line -/
  | comment (pre post : List Str) (l c : Str) : Relayout (pre ++ l :: post) (pre ++ (l ++ '#' :: c) :: post)
  /-- blanks at the start and end of a line -/
  | indent (pre post : List Str) (l : Str) (i j : Nat) :
      Relayout (pre ++ l :: post) (pre ++ (blanks i ++ l ++ blanks j) :: post)
  /-- blanks around the equals sign -/
  | aroundEq (pre post : List Str) (n v : Str) (i j : Nat) (h1 : '=' ∉ n) (h2 : '#' ∉ n) :
      Relayout (pre ++ (n ++ '=' :: v) :: post) (pre ++ (n ++ blanks i ++ '=' :: (blanks j ++ v)) :: post)
  /-- write the variable name with different letter case -/
  | letterCase (pre post : List Str) (n n' v : Str) (i j i' j' : Nat) (h1 : '=' ∉ n) (h2 : '#' ∉ n) (h3 : '=' ∉ n')
      (h4 : '#' ∉ n') (hn : trimSp n = n) (hn' : trimSp n' = n') (hne : n ≠ []) (hne' : n' ≠ []) (hs : Same lib n n') :
      Relayout (pre ++ (blanks i ++ n ++ blanks j ++ '=' :: v) :: post) (pre ++ (blanks i' ++ n' ++ blanks j' ++ '=' :: v) :: post)
  /-- exchange two neighbouring lines below the header -/
  | swap (pre post : List Str) (l1 l2 : Str) (h : ∃ l ∈ pre, strip l ≠ []) :
      Relayout (pre ++ l1 :: l2 :: post) (pre ++ l2 :: l1 :: post)

/-! trimming -/

theorem trimLeft_blanks (k : Nat) (s : Str) : trimLeft (fun c => c == ' ') (blanks k ++ s) = trimLeft (fun c => c == ' ') s := by
  induction k with
  | zero => rfl
  | succ k ih =>
    show trimLeft _ (' ' :: (blanks k ++ s)) = _
    rw [trimLeft]; simp [ih]

theorem trimRight_blanks (k : Nat) (s : Str) : trimRight (fun c => c == ' ') (s ++ blanks k) = trimRight (fun c => c == ' ') s := by
  unfold trimRight
  rw [List.reverse_append]
  have : (blanks k).reverse = blanks k := by simp [blanks]
  rw [this, trimLeft_blanks]

theorem trimLeft_append_of_ne (p : Char → Bool) (a : Str) (c : Char) (b : Str) (hc : p c = false) :
    trimLeft p (a ++ c :: b) = trimLeft p a ++ c :: b := by
  induction a with
  | nil => simp [trimLeft, hc]
  | cons x xs ih =>
    simp only [List.cons_append, trimLeft]
    split
    · exact ih
    · simp

theorem trimRight_append_of_ne (p : Char → Bool) (a : Str) (c : Char) (b : Str) (hc : p c = false) :
    trimRight p (a ++ c :: b) = a ++ c :: trimRight p b := by
  unfold trimRight
  rw [List.reverse_append, List.reverse_cons, List.append_assoc, List.singleton_append, trimLeft_append_of_ne p _ c _ hc]
  simp

/-- either nothing but blanks, or blanks around a core starting with a non-blank -/
theorem trimLeft_spec (s : Str) : ∃ k, s = blanks k ++ trimLeft (fun c => c == ' ') s := by
  induction s with
  | nil => exact ⟨0, rfl⟩
  | cons x xs ih =>
    simp only [trimLeft]
    split
    · rename_i h
      obtain ⟨k, hk⟩ := ih
      have hx : x = ' ' := by simpa using h
      refine ⟨k + 1, ?_⟩
      show x :: xs = ' ' :: (blanks k ++ _)
      rw [← hk, hx]
    · exact ⟨0, rfl⟩

theorem trimLeft_head (s : Str) : trimLeft (fun c => c == ' ') s = [] ∨ ∃ x xs, trimLeft (fun c => c == ' ') s = x :: xs ∧ (x == ' ') = false := by
  induction s with
  | nil => left; rfl
  | cons x xs ih =>
    simp only [trimLeft]
    split
    · exact ih
    · rename_i h; right; exact ⟨x, xs, rfl, by simpa using h⟩

theorem trimLeft_blanks_only (k : Nat) : trimLeft (fun c => c == ' ') (blanks k) = [] := by
  have := trimLeft_blanks k []
  rw [List.append_nil] at this
  rw [this]; rfl

theorem trimSp_prefix (k : Nat) (s : Str) : trimSp (blanks k ++ s) = trimSp s := by
  unfold trimSp trim; rw [trimLeft_blanks]

theorem trimSp_suffix (k : Nat) (s : Str) : trimSp (s ++ blanks k) = trimSp s := by
  unfold trimSp trim
  rcases trimLeft_head s with h | ⟨x, xs, h, hx⟩
  · obtain ⟨m, hm⟩ := trimLeft_spec s
    rw [h, List.append_nil] at hm
    rw [h, hm]
    have : blanks m ++ blanks k = blanks (m + k) := by simp [blanks]
    rw [this, trimLeft_blanks_only]
  · obtain ⟨m, hm⟩ := trimLeft_spec s
    have e : s ++ blanks k = blanks m ++ (x :: xs ++ blanks k) := by
      conv => lhs; rw [hm, h]
      simp
    have e2 : trimLeft (fun c => c == ' ') (x :: (xs ++ blanks k)) = x :: (xs ++ blanks k) := by
      rw [trimLeft, hx]; rfl
    rw [e, trimLeft_blanks, List.cons_append, e2, h]
    rw [← List.cons_append, trimRight_blanks]

theorem trimSp_trimLeft (s : Str) : trimSp (trimLeft (fun c => c == ' ') s) = trimSp s := by
  obtain ⟨k, hk⟩ := trimLeft_spec s
  conv => rhs; rw [hk, trimSp_prefix]

theorem trimRight_spec (s : Str) : ∃ k, s = trimRight (fun c => c == ' ') s ++ blanks k := by
  obtain ⟨k, hk⟩ := trimLeft_spec s.reverse
  refine ⟨k, ?_⟩
  have := congrArg List.reverse hk
  rw [List.reverse_reverse, List.reverse_append] at this
  rw [this]
  unfold trimRight
  have hb : (blanks k).reverse = blanks k := by simp [blanks]
  rw [hb]
  congr 1
  rw [List.reverse_append, hb, List.reverse_reverse, trimLeft_blanks]
  have h2 : trimLeft (fun c => c == ' ') (trimLeft (fun c => c == ' ') s.reverse) = trimLeft (fun c => c == ' ') s.reverse := by
    rcases trimLeft_head s.reverse with h | ⟨x, xs, h, hx⟩
    · rw [h]; rfl
    · rw [h, trimLeft, hx]; rfl
  rw [h2]

theorem trimSp_trimRight (s : Str) : trimSp (trimRight (fun c => c == ' ') s) = trimSp s := by
  obtain ⟨k, hk⟩ := trimRight_spec s
  conv => rhs; rw [hk, trimSp_suffix]

/-! comments -/

theorem takeWhile_of_not_mem (c : Char) (s : Str) (h : c ∉ s) : s.takeWhile (· ≠ c) = s := by
  induction s with
  | nil => rfl
  | cons x xs ih =>
    rw [List.mem_cons, not_or] at h
    rw [List.takeWhile_cons, if_pos (by simpa using Ne.symm h.1), ih h.2]

theorem takeWhile_append_not_mem (c : Char) (a b : Str) (h : c ∉ a) :
    (a ++ b).takeWhile (· ≠ c) = a ++ b.takeWhile (· ≠ c) := by
  rw [List.takeWhile_append_of_pos]
  intro x hx
  simp only [ne_eq, decide_not, Bool.not_eq_eq_eq_not, Bool.not_true, decide_eq_false_iff_not]
  rintro rfl; exact h hx

theorem takeWhile_append_mem (c : Char) (a b : Str) (h : c ∈ a) :
    (a ++ b).takeWhile (· ≠ c) = a.takeWhile (· ≠ c) := by
  obtain ⟨u, v, rfl, hu, ht⟩ := split_at_first c a h
  rw [ht, List.append_assoc, List.cons_append, takeWhile_append_first c u _ hu]

theorem hash_blanks (k : Nat) : '#' ∉ blanks k := by
  intro h; have := List.eq_of_mem_replicate h; revert this; decide

theorem strip_comment (l c : Str) : strip (l ++ '#' :: c) = strip l := by
  unfold strip
  by_cases h : '#' ∈ l
  · rw [takeWhile_append_mem _ _ _ h]
  · rw [takeWhile_append_first _ _ _ h, takeWhile_of_not_mem _ _ h]

theorem strip_prefix (l : Str) (i : Nat) : strip (blanks i ++ l) = strip l := by
  unfold strip
  rw [takeWhile_append_not_mem _ _ _ (hash_blanks i), trimSp_prefix]

theorem strip_suffix (l : Str) (j : Nat) : strip (l ++ blanks j) = strip l := by
  unfold strip
  by_cases h : '#' ∈ l
  · rw [takeWhile_append_mem _ _ _ h]
  · rw [takeWhile_append_not_mem _ _ _ h, takeWhile_of_not_mem _ _ (hash_blanks j), trimSp_suffix, takeWhile_of_not_mem _ _ h]

theorem strip_blank (k : Nat) (c : Str) (h : c = [] ∨ c.head? = some '#') : strip (blanks k ++ c) = [] := by
  rw [strip_prefix]
  rcases h with rfl | h
  · rfl
  · cases c with
    | nil => rfl
    | cons x xs =>
      have : x = '#' := by simpa using h
      subst this
      show strip ([] ++ '#' :: xs) = []
      rw [strip_comment]; rfl

/-- what a line `a = b` assigns after stripping -/
theorem strip_assigns (a b : Str) (h1 : '=' ∉ a) (h2 : '#' ∉ a) (n v : Str) :
    Assigns (strip (a ++ '=' :: b)) n v ↔ n = trimSp a ∧ v = strip b ∧ n ≠ [] := by
  have e : strip (a ++ '=' :: b) = trimLeft (fun c => c == ' ') a ++ '=' :: trimRight (fun c => c == ' ') (b.takeWhile (· ≠ '#')) := by
    unfold strip
    rw [takeWhile_append_not_mem _ _ _ h2]
    have : ('=' :: b).takeWhile (· ≠ '#') = '=' :: b.takeWhile (· ≠ '#') := by
      rw [List.takeWhile_cons, if_pos (by decide)]
    rw [this]
    unfold trimSp trim
    rw [trimLeft_append_of_ne _ _ _ _ (by decide), trimRight_append_of_ne _ _ _ _ (by decide)]
  have h1' : '=' ∉ trimLeft (fun c => c == ' ') a := by
    intro h
    obtain ⟨k, hk⟩ := trimLeft_spec a
    apply h1
    rw [hk]
    exact List.mem_append_right _ h
  rw [e]
  constructor
  · rintro ⟨a', b', he, ha', rfl, rfl, hn⟩
    obtain ⟨rfl, rfl⟩ := first_unique he h1' ha'
    rw [trimSp_trimLeft] at hn ⊢
    exact ⟨rfl, trimSp_trimRight _, hn⟩
  · rintro ⟨rfl, rfl, hn⟩
    exact ⟨_, _, rfl, h1', (trimSp_trimLeft a).symm, (trimSp_trimRight _).symm, hn⟩

theorem strip_has_eq (a b : Str) (h2 : '#' ∉ a) : '=' ∈ strip (a ++ '=' :: b) := by
  unfold strip
  rw [takeWhile_append_not_mem _ _ _ h2]
  have : ('=' :: b).takeWhile (· ≠ '#') = '=' :: b.takeWhile (· ≠ '#') := by
    rw [List.takeWhile_cons, if_pos (by decide)]
  rw [this]
  unfold trimSp trim
  rw [trimLeft_append_of_ne _ _ _ _ (by decide), trimRight_append_of_ne _ _ _ _ (by decide)]
  simp

/-! effect on the meaning -/

/-- meaning in terms of the significant lines -/
def LinesMean (vars : Vars) (sig : List Str) (st st' : List (Val F)) : Prop :=
  ∃ (lines : List Str) (pairs : List (Str × Str)), sig = ('[' :: (vars.name ++ [']'])) :: lines ∧
    List.Forall₂ (fun l p => Assigns l p.1 p.2) lines pairs ∧
    Acceptable lib vars.decls pairs ∧ Updated lib vars.decls pairs st st'

/-- same assignments up to letter case -/
def PairsLike (ps qs : List (Str × Str)) : Prop := List.Forall₂ (fun p q => Same lib p.1 q.1 ∧ p.2 = q.2) ps qs

theorem PairsLike.symm {ps qs : List (Str × Str)} (h : PairsLike lib ps qs) : PairsLike lib qs ps :=
  List.Forall₂.imp (fun _ _ h => ⟨h.1.symm, h.2.symm⟩) (List.Forall₂.flip h)

theorem forall₂_mem {α β} {R : α → β → Prop} {l : List α} {m : List β} (h : List.Forall₂ R l m) : ∀ b ∈ m, ∃ a ∈ l, R a b := by
  induction h with
  | nil => simp
  | cons hh ht ih =>
    intro b hb
    rw [List.mem_cons] at hb
    rcases hb with rfl | hb
    · exact ⟨_, by simp, hh⟩
    · obtain ⟨a, ha, hr⟩ := ih b hb
      exact ⟨a, by simp [ha], hr⟩

theorem PairsLike.acceptable {decls : List (Str × VarType)} {ps qs : List (Str × Str)} (h : PairsLike lib ps qs)
    (hp : Acceptable lib decls ps) : Acceptable lib decls qs := by
  constructor
  · intro q hq
    obtain ⟨p, hp', hr⟩ := forall₂_mem h q hq
    obtain ⟨d, hd, hs⟩ := hp.1 p hp'
    exact ⟨d, hd, hs.trans hr.1⟩
  · have h2 := hp.2
    clear hp
    induction h with
    | nil => exact List.Pairwise.nil
    | cons hh ht ih =>
      rw [List.pairwise_cons] at h2 ⊢
      refine ⟨?_, ih h2.2⟩
      intro b hb hs
      obtain ⟨a, ha, hr⟩ := forall₂_mem ht b hb
      exact h2.1 a ha (hh.1.trans (hs.trans hr.1.symm))

theorem PairsLike.updated {decls : List (Str × VarType)} {ps qs : List (Str × Str)} {st st' : List (Val F)} (h : PairsLike lib ps qs)
    (hp : Updated lib decls ps st st') : Updated lib decls qs st st' := by
  refine ⟨hp.1, ?_⟩
  intro j d hd
  obtain ⟨a1, a2⟩ := hp.2 j d hd
  constructor
  · intro q hq hs
    obtain ⟨p, hp', hr⟩ := forall₂_mem h q hq
    obtain ⟨v, hv, e⟩ := a1 p hp' (hs.trans hr.1.symm)
    exact ⟨v, hr.2 ▸ hv, e⟩
  · intro hno
    apply a2
    intro p hp' hs
    obtain ⟨q, hq, hr⟩ := forall₂_mem (PairsLike.symm lib h) p hp'
    exact hno q hq (hs.trans hr.1.symm)

theorem linesMean_replace (vars : Vars) (hn : '=' ∉ vars.name) (A B : List Str) (x y : Str) (hx : '=' ∈ x)
    (hxy : ∀ n v, Assigns x n v → ∃ n', Same lib n n' ∧ Assigns y n' v) (st st' : List (Val F))
    (h : LinesMean lib vars (A ++ x :: B) st st') : LinesMean lib vars (A ++ y :: B) st st' := by
  obtain ⟨lines, pairs, h1, h2, h3, h4⟩ := h
  have hhead : ∀ z : Str, '=' ∈ z → z ≠ '[' :: (vars.name ++ [']']) := by
    rintro z hz rfl
    simp only [List.mem_cons, List.mem_append, List.not_mem_nil, or_false] at hz
    rcases hz with hz | hz | hz
    · revert hz; decide
    · exact hn hz
    · revert hz; decide
  cases A with
  | nil =>
    simp only [List.nil_append, List.cons.injEq] at h1
    exact absurd h1.1 (hhead x hx)
  | cons a A =>
    simp only [List.cons_append, List.cons.injEq] at h1
    obtain ⟨rfl, rfl⟩ := h1
    rw [List.forall₂_iff_zip] at h2
    -- split the assignments at the replaced line
    have key : ∀ (A B : List Str) (pairs : List (Str × Str)), List.Forall₂ (fun l (p : Str × Str) => Assigns l p.1 p.2) (A ++ x :: B) pairs →
        ∃ pairs', List.Forall₂ (fun l (p : Str × Str) => Assigns l p.1 p.2) (A ++ y :: B) pairs' ∧ PairsLike lib pairs pairs' := by
      intro A
      induction A with
      | nil =>
        intro B pairs hf
        cases hf with
        | @cons _ p _ ps hh ht =>
          obtain ⟨n', hs, ha⟩ := hxy _ _ hh
          refine ⟨(n', p.2) :: ps, List.Forall₂.cons ha ht, List.Forall₂.cons ⟨hs, rfl⟩ ?_⟩
          exact List.forall₂_same.mpr (fun q _ => ⟨rfl, rfl⟩)
      | cons a A ih =>
        intro B pairs hf
        cases hf with
        | @cons _ p _ ps hh ht =>
          obtain ⟨ps', h1, h2⟩ := ih B ps ht
          exact ⟨p :: ps', List.Forall₂.cons hh h1, List.Forall₂.cons ⟨rfl, rfl⟩ h2⟩
    obtain ⟨pairs', k1, k2⟩ := key A B pairs (List.forall₂_iff_zip.mpr h2)
    exact ⟨A ++ y :: B, pairs', rfl, k1, k2.acceptable lib h3, k2.updated lib h4⟩

theorem linesMean_swap (vars : Vars) (A B : List Str) (x y : Str) (hA : A ≠ []) (st st' : List (Val F))
    (h : LinesMean lib vars (A ++ x :: y :: B) st st') : LinesMean lib vars (A ++ y :: x :: B) st st' := by
  obtain ⟨lines, pairs, h1, h2, h3, h4⟩ := h
  cases A with
  | nil => exact absurd rfl hA
  | cons a A =>
    simp only [List.cons_append, List.cons.injEq] at h1
    obtain ⟨rfl, rfl⟩ := h1
    have key : ∀ (A B : List Str) (pairs : List (Str × Str)), List.Forall₂ (fun l (p : Str × Str) => Assigns l p.1 p.2) (A ++ x :: y :: B) pairs →
        ∃ pairs', List.Forall₂ (fun l (p : Str × Str) => Assigns l p.1 p.2) (A ++ y :: x :: B) pairs' ∧ pairs.Perm pairs' := by
      intro A
      induction A with
      | nil =>
        intro B pairs hf
        cases hf with
        | @cons _ p _ ps hh ht =>
          cases ht with
          | @cons _ q _ qs hh' ht' =>
            exact ⟨q :: p :: qs, List.Forall₂.cons hh' (List.Forall₂.cons hh ht'), List.Perm.swap _ _ _⟩
      | cons a A ih =>
        intro B pairs hf
        cases hf with
        | @cons _ p _ ps hh ht =>
          obtain ⟨ps', h1, h2⟩ := ih B ps ht
          exact ⟨p :: ps', List.Forall₂.cons hh h1, List.Perm.cons _ h2⟩
    obtain ⟨pairs', k1, k2⟩ := key A B pairs h2
    refine ⟨A ++ y :: x :: B, pairs', rfl, k1, ⟨?_, ?_⟩, h4.1, ?_⟩
    · intro p hp; exact h3.1 p (k2.mem_iff.mpr hp)
    · refine (k2.pairwise_iff ?_).mp h3.2
      intro p q hpq hs; exact hpq hs.symm
    · intro j d hd
      obtain ⟨a1, a2⟩ := h4.2 j d hd
      exact ⟨fun p hp => a1 p (k2.mem_iff.mpr hp), fun hno => a2 (fun p hp => hno p (k2.mem_iff.mp hp))⟩

/-- the significant lines of a list of lines -/
def sigOf (ls : List Str) : List Str := (ls.map strip).filter (· ≠ [])

theorem sigOf_append (a b : List Str) : sigOf (a ++ b) = sigOf a ++ sigOf b := by
  simp [sigOf]

theorem sigOf_cons (l : Str) (b : List Str) : sigOf (l :: b) = if strip l = [] then sigOf b else strip l :: sigOf b := by
  unfold sigOf
  rw [List.map_cons, List.filter_cons]
  by_cases h : strip l = [] <;> simp [h]

theorem mem_ne_nil {c : Char} {s : Str} (h : c ∈ s) : s ≠ [] := by rintro rfl; simp at h

theorem relayout_mean (vars : Vars) (hn : '=' ∉ vars.name) (ls ls' : List Str) (h : Relayout lib ls ls') (st st' : List (Val F)) :
    LinesMean lib vars (sigOf ls) st st' ↔ LinesMean lib vars (sigOf ls') st st' := by
  have eqn : ∀ pre post (l l' : Str), strip l = strip l' → sigOf (pre ++ l :: post) = sigOf (pre ++ l' :: post) := by
    intro pre post l l' e
    rw [sigOf_append, sigOf_append, sigOf_cons, sigOf_cons, e]
  have repl : ∀ pre post (a b a' b' : Str), '=' ∉ a → '#' ∉ a → '=' ∉ a' → '#' ∉ a' →
      Same lib (trimSp a) (trimSp a') → (trimSp a = [] ↔ trimSp a' = []) → strip b = strip b' →
      (LinesMean lib vars (sigOf (pre ++ (a ++ '=' :: b) :: post)) st st' → LinesMean lib vars (sigOf (pre ++ (a' ++ '=' :: b') :: post)) st st') := by
    intro pre post a b a' b' h1 h2 h3 h4 hs hne hb
    have hx := strip_has_eq a b h2
    have hy := strip_has_eq a' b' h4
    rw [sigOf_append, sigOf_append, sigOf_cons, sigOf_cons, if_neg (mem_ne_nil hx), if_neg (mem_ne_nil hy)]
    apply linesMean_replace lib vars hn _ _ _ _ hx
    intro n v ha
    rw [strip_assigns a b h1 h2] at ha
    obtain ⟨rfl, rfl, hnn⟩ := ha
    refine ⟨trimSp a', hs, ?_⟩
    rw [strip_assigns a' b' h3 h4]
    exact ⟨rfl, hb, fun e => hnn (hne.mpr e)⟩
  have noeq : ∀ k, '=' ∉ blanks k := by
    intro k hk; have := List.eq_of_mem_replicate hk; revert this; decide
  cases h with
  | blankLine pre post k c h =>
    rw [sigOf_append, sigOf_append, sigOf_cons, if_pos (strip_blank k c h)]
  | comment pre post l c => rw [eqn pre post l _ (strip_comment l c).symm]
  | indent pre post l i j =>
    rw [eqn pre post l (blanks i ++ l ++ blanks j) (by rw [strip_suffix, strip_prefix])]
  | aroundEq pre post n v i j h1 h2 =>
    have e1 : '=' ∉ n ++ blanks i := by rw [List.mem_append]; exact fun h => h.elim h1 (noeq i)
    have e2 : '#' ∉ n ++ blanks i := by rw [List.mem_append]; exact fun h => h.elim h2 (hash_blanks i)
    have e3 : trimSp (n ++ blanks i) = trimSp n := trimSp_suffix i n
    constructor
    · exact repl pre post n v _ _ h1 h2 e1 e2 (by rw [e3]; rfl) (by rw [e3]) (strip_prefix v j).symm
    · exact repl pre post _ _ n v e1 e2 h1 h2 (by rw [e3]; rfl) (by rw [e3]) (strip_prefix v j)
  | letterCase pre post n n' v i j i' j' h1 h2 h3 h4 hn1 hn2 hne hne' hs =>
    have a1 : ∀ m i j, '=' ∉ m → '=' ∉ blanks i ++ m ++ blanks j := by
      intro m i j hm; simp only [List.mem_append, not_or]; exact ⟨⟨noeq i, hm⟩, noeq j⟩
    have a2 : ∀ m i j, '#' ∉ m → '#' ∉ blanks i ++ m ++ blanks j := by
      intro m i j hm; simp only [List.mem_append, not_or]; exact ⟨⟨hash_blanks i, hm⟩, hash_blanks j⟩
    have a3 : ∀ m i j, trimSp m = m → trimSp (blanks i ++ m ++ blanks j) = m := by
      intro m i j hm; rw [trimSp_suffix, trimSp_prefix, hm]
    constructor
    · refine repl pre post _ v _ v (a1 n i j h1) (a2 n i j h2) (a1 n' i' j' h3) (a2 n' i' j' h4) ?_ ?_ rfl
      · rw [a3 n i j hn1, a3 n' i' j' hn2]; exact hs
      · rw [a3 n i j hn1, a3 n' i' j' hn2]; exact ⟨fun e => absurd e hne, fun e => absurd e hne'⟩
    · refine repl pre post _ v _ v (a1 n' i' j' h3) (a2 n' i' j' h4) (a1 n i j h1) (a2 n i j h2) ?_ ?_ rfl
      · rw [a3 n i j hn1, a3 n' i' j' hn2]; exact hs.symm
      · rw [a3 n i j hn1, a3 n' i' j' hn2]; exact ⟨fun e => absurd e hne', fun e => absurd e hne⟩
  | swap pre post l1 l2 h =>
    have hA : sigOf pre ≠ [] := by
      obtain ⟨l, hl, hne⟩ := h
      have : strip l ∈ sigOf pre := by
        unfold sigOf
        rw [List.mem_filter]
        exact ⟨List.mem_map_of_mem hl, by simpa using hne⟩
      intro e; rw [e] at this; simp at this
    rw [sigOf_append, sigOf_append, sigOf_cons, sigOf_cons, sigOf_cons, sigOf_cons]
    by_cases e1 : strip l1 = [] <;> by_cases e2 : strip l2 = [] <;> simp only [e1, e2, if_true, if_false]
    exact ⟨linesMean_swap lib vars _ _ _ _ hA st st', linesMean_swap lib vars _ _ _ _ hA st st'⟩

/-- Any number of layout changes, in either direction. -/
inductive Relaid : List Str → List Str → Prop
  | refl (ls) : Relaid ls ls
  | step {a b c} : Relaid a b → Relayout lib b c → Relaid a c
  | back {a b c} : Relaid a b → Relayout lib c b → Relaid a c

/-- C06: blank lines, comments, blanks at the ends of lines and around '=', letter case of variable names and the order of the
assignments do not matter: two files that differ by any number of such changes are both accepted with the same
values of all variables, or neither is accepted. -/
theorem C06_layout (vars : Vars) (hn : '=' ∉ vars.name) (f g : Str) (h : Relaid lib (splitOn '\n' f) (splitOn '\n' g))
    (st st' : List (Val F)) (hw : WellDeclared lib vars.decls st) :
    readConfig lib vars (some f) st = .ok st' ↔ readConfig lib vars (some g) st = .ok st' := by
  rw [C05_success_iff lib vars f st st' hw, C05_success_iff lib vars g st st' hw]
  show LinesMean lib vars (sigOf (splitOn '\n' f)) st st' ↔ LinesMean lib vars (sigOf (splitOn '\n' g)) st st'
  generalize splitOn '\n' f = ls at h
  generalize splitOn '\n' g = ls' at h
  induction h with
  | refl => exact Iff.rfl
  | step _ hs ih => exact ih.trans (relayout_mean lib vars hn _ _ hs st st')
  | back _ hs ih => exact ih.trans (relayout_mean lib vars hn _ _ hs st st').symm

-- two different layouts of the same two assignments
example : Relaid exLib (splitOn '\n' "[cat]\nPaws=3\nNames=Bob".toList) (splitOn '\n' "[cat]\nNames=Bob\n  PAWS =3".toList) := by
  refine Relaid.step (b := ["[cat]".toList, "Names=Bob".toList, "Paws=3".toList]) (Relaid.step (Relaid.refl _) ?_) ?_
  · exact Relayout.swap ["[cat]".toList] [] "Paws=3".toList "Names=Bob".toList ⟨"[cat]".toList, by simp, by decide⟩
  · refine Relayout.letterCase ["[cat]".toList, "Names=Bob".toList] [] "Paws".toList "PAWS".toList "3".toList 0 0 2 1 ?_ ?_ ?_ ?_ ?_ ?_ ?_ ?_ ?_
    all_goals first | decide | (unfold Same; decide)

end Shellfish.Config
