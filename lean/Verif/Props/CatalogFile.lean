/-
C115: a catalogue file of which only a part can be read.
-/
import Verif.Model.CatalogFile
import Verif.Props.Catalog
import Verif.Model.Chars

namespace Shellfish.Catalog
open Shellfish.Text

/-- A row of which only the first part was seen: some of its words, the last of them possibly shortened. -/
def RowCut (r' r : List Str) : Prop := r' <+: r ∨ ∃ (J T : List Str) (w w' : Str), w ≠ [] ∧ r' = J ++ [w] ∧ r = J ++ (w ++ w') :: T

theorem splitOn_append (sep : Char) : ∀ (a b : Str), ∃ (I : List Str) (l h : Str) (T : List Str),
    splitOn sep a = I ++ [l] ∧ splitOn sep b = h :: T ∧ splitOn sep (a ++ b) = I ++ (l ++ h) :: T
  | [], b => by
    obtain ⟨h, T, hb⟩ := List.exists_cons_of_ne_nil (splitOn_ne_nil sep b)
    exact ⟨[], [], h, T, rfl, hb, by simpa using hb⟩
  | c :: a, b => by
    obtain ⟨I, l, h, T, h1, h2, h3⟩ := splitOn_append sep a b
    by_cases hc : c = sep
    · exact ⟨[] :: I, l, h, T, by simp [splitOn, hc, h1], h2, by simp [splitOn, hc, h3]⟩
    · cases I with
      | nil => exact ⟨[], c :: l, h, T, by simp [splitOn, hc, h1], h2, by simp [splitOn, hc, h3]⟩
      | cons i I => exact ⟨(c :: i) :: I, l, h, T, by simp [splitOn, hc, h1], h2, by simp [splitOn, hc, h3]⟩

/-- The words of a line that is continued with `x`. -/
theorem words_glue (a : Str) : ∃ (J : List Str) (w : Str), ∀ x : Str, ∃ (w' : Str) (T : List Str), (' ' ∉ x → w' = x ∧ T = []) ∧
    words ' ' (a ++ x) = J ++ (if w ++ w' = [] then [] else [w ++ w']) ++ T := by
  obtain ⟨I, l, _, _, h1, -, -⟩ := splitOn_append ' ' a []
  refine ⟨I.filter (· ≠ []), l, ?_⟩
  intro x
  obtain ⟨I', l', h, T, h1', h2, h3⟩ := splitOn_append ' ' a x
  rw [h1] at h1'
  obtain ⟨rfl, h4⟩ := List.append_inj' h1' rfl
  obtain rfl : l = l' := by simpa using h4
  refine ⟨h, T.filter (· ≠ []), ?_, ?_⟩
  · intro hx
    rw [splitOn_noSep _ _ hx, List.cons.injEq] at h2
    obtain ⟨rfl, rfl⟩ := h2
    simp
  · unfold words
    rw [h3, List.filter_append, List.filter_cons]
    by_cases hl : l ++ h = [] <;> simp [hl]

/-- The rows of a list of lines. -/
def rowsOf (ls : List Str) : List (List Str) := (ls.map fun l => words ' ' (l.takeWhile (· ≠ '#'))).filter (· ≠ [])

theorem rowsOf_append (a b : List Str) : rowsOf (a ++ b) = rowsOf a ++ rowsOf b := by simp [rowsOf]

theorem rowsOf_cons (l : Str) (b : List Str) : rowsOf (l :: b) = (if words ' ' (l.takeWhile (· ≠ '#')) = [] then [] else [words ' ' (l.takeWhile (· ≠ '#'))]) ++ rowsOf b := by
  unfold rowsOf
  rw [List.map_cons, List.filter_cons]
  generalize words ' ' (l.takeWhile (· ≠ '#')) = x
  by_cases h : x = [] <;> simp [h]

theorem takeWhile_append_no {a b : Str} (h : '#' ∉ a) : (a ++ b).takeWhile (· ≠ '#') = a ++ b.takeWhile (· ≠ '#') := by
  rw [List.takeWhile_append_of_pos]
  intro c hc
  simp only [ne_eq, decide_not, Bool.not_eq_eq_eq_not, Bool.not_true, decide_eq_false_iff_not]
  rintro rfl
  exact h hc

theorem takeWhile_append_yes {a b : Str} (h : '#' ∈ a) : (a ++ b).takeWhile (· ≠ '#') = a.takeWhile (· ≠ '#') := by
  induction a with
  | nil => simp at h
  | cons c a ih =>
    by_cases hc : c = '#'
    · subst hc; simp
    · have : '#' ∈ a := by
        rw [List.mem_cons] at h
        rcases h with h | h
        · exact absurd h.symm hc
        · exact h
      rw [List.cons_append, List.takeWhile_cons_of_pos (by simpa using hc), List.takeWhile_cons_of_pos (by simpa using hc), ih this]

theorem join_last : ∀ (I : List Str) (l : Str), ∃ pre, joinWith '\n' (I ++ [l]) = pre ++ l
  | [], l => ⟨[], rfl⟩
  | [i], l => ⟨i ++ ['\n'], by simp [joinWith]⟩
  | i :: j :: I, l => by
    obtain ⟨pre, h⟩ := join_last (j :: I) l
    exact ⟨i ++ '\n' :: pre, by rw [List.cons_append, List.cons_append, joinWith, ← List.cons_append, h]; simp; simp⟩

/-- What the table of a text that is cut and continued with `x` has in common with the table of the whole text. -/
theorem table_cut (a b : Str) : ∃ (P S : List (List Str)) (l h : Str), table a = P ++ rowsOf [l] ∧ table (a ++ b) = P ++ rowsOf [l ++ h] ++ S ∧
    (∀ x : Str, '\n' ∉ x → table (a ++ x) = P ++ rowsOf [l ++ x]) ∧ '\n' ∉ l ∧ ∃ pre, a = pre ++ l := by
  obtain ⟨I, l, h, T, h1, h2, h3⟩ := splitOn_append '\n' a b
  refine ⟨rowsOf I, rowsOf T, l, h, ?_, ?_, ?_, splitOn_mem_noSep '\n' a l (by rw [h1]; simp), ?_⟩
  · show rowsOf _ = _
    rw [h1, rowsOf_append]
  · show rowsOf _ = _
    rw [h3, rowsOf_append, List.append_assoc, ← rowsOf_append [l ++ h] T]
    rfl
  · intro x hx
    show rowsOf _ = _
    obtain ⟨I', l', h', T', h1', h2', h3'⟩ := splitOn_append '\n' a x
    rw [h1] at h1'
    obtain ⟨rfl, h4⟩ := List.append_inj' h1' rfl
    obtain rfl : l = l' := by simpa using h4
    rw [splitOn_noSep _ _ hx, List.cons.injEq] at h2'
    obtain ⟨rfl, rfl⟩ := h2'
    rw [h3', rowsOf_append]
  · have := join_splitOn '\n' a
    rw [h1] at this
    obtain ⟨pre, hpre⟩ := join_last I l
    exact ⟨pre, by rw [← this, hpre]⟩

/-- C115: the table that is read from the first `k` bytes of a catalogue: complete rows of the catalogue, from its first row on, and possibly one more row, which is the next row of the catalogue cut short. -/
theorem C115_cut (t : Str) (k : Nat) : ∃ m : Nat, m ≤ (table t).length ∧ (table (t.take k) = (table t).take m ∨
    ∃ r r' : List Str, (table t)[m]? = some r ∧ r' ≠ [] ∧ RowCut r' r ∧ table (t.take k) = (table t).take m ++ [r']) := by
  obtain ⟨P, S, l, h, h1, h2, -, -, -⟩ := table_cut (t.take k) (t.drop k)
  rw [List.take_append_drop] at h2
  rw [h1, h2]
  refine ⟨P.length, by simp, ?_⟩
  have ht : (P ++ rowsOf [l ++ h] ++ S).take P.length = P := by rw [List.append_assoc, List.take_left]
  rw [ht]
  have hnil : rowsOf [] = [] := rfl
  rw [rowsOf_cons, rowsOf_cons, hnil, List.append_nil, List.append_nil]
  by_cases hw : words ' ' (l.takeWhile (· ≠ '#')) = []
  · left; rw [if_pos hw, List.append_nil]
  · right
    rw [if_neg hw]
    by_cases hc : '#' ∈ l
    · rw [takeWhile_append_yes hc, if_neg hw]
      exact ⟨_, _, by rw [List.append_assoc, List.getElem?_append_right (Nat.le_refl _), Nat.sub_self]; rfl, hw, Or.inl (List.prefix_refl _), rfl⟩
    · rw [takeWhile_append_no hc]
      have hl : l.takeWhile (· ≠ '#') = l := by have := takeWhile_append_no (b := []) hc; simpa using this
      rw [hl] at hw ⊢
      obtain ⟨J, w, hJ⟩ := words_glue l
      obtain ⟨w1, T1, e1, e2⟩ := hJ []
      obtain ⟨rfl, rfl⟩ := e1 (by simp)
      obtain ⟨w2, T2, -, e3⟩ := hJ (h.takeWhile (· ≠ '#'))
      rw [List.append_nil, List.append_nil, List.append_nil] at e2
      have hne : words ' ' (l ++ h.takeWhile (· ≠ '#')) ≠ [] := by
        rw [e3]
        intro h0
        rw [List.append_eq_nil_iff, List.append_eq_nil_iff] at h0
        obtain ⟨⟨rfl, h0⟩, _⟩ := h0
        by_cases hw2 : w ++ w2 = []
        · rw [List.append_eq_nil_iff] at hw2
          rw [e2, hw2.1] at hw
          simp at hw
        · rw [if_neg hw2] at h0; simp at h0
      rw [if_neg hne]
      refine ⟨_, _, by rw [List.append_assoc, List.getElem?_append_right (Nat.le_refl _), Nat.sub_self]; rfl, hw, ?_, rfl⟩
      rw [e2, e3]
      by_cases hw0 : w = []
      · left
        rw [if_pos hw0, List.append_nil, List.append_assoc]
        exact List.prefix_append _ _
      · right
        rw [if_neg hw0, if_neg (by simp [hw0])]
        exact ⟨J, T2, w, w2, hw0, rfl, by simp⟩

/-! The columns of a shortened table -/

theorem columns_take {α : Type} (f : Str → Option α) (R R' : List (List Str)) (n : Nat) (hn : n ≤ R.length) (hn' : n ≤ R'.length) :
    ∀ (cs : List Nat) (A A' : List (List α)), Columns f R cs A → Columns f R' cs A' →
      (∀ c ∈ cs, ∀ (i : Nat), i < n → (R'[i]?).bind (·[c]?) = (R[i]?).bind (·[c]?)) → A'.map (·.take n) = A.map (·.take n)
  | [], A, A', h, h', _ => by cases h; cases h'; rfl
  | c :: cs, A, A', h, h', he => by
    obtain ⟨x, A, h1, h2, rfl⟩ := List.forall₂_cons_left_iff.mp h
    obtain ⟨x', A', h1', h2', rfl⟩ := List.forall₂_cons_left_iff.mp h'
    rw [List.map_cons, List.map_cons, columns_take f R R' n hn hn' cs A A' h2 h2' (fun c hc => he c (List.mem_cons_of_mem _ hc))]
    congr 1
    have l1 := h1.length_eq
    have l2 := h1'.length_eq
    apply List.ext_getElem
    · simp; omega
    · intro i hi hi'
      rw [List.length_take] at hi hi'
      rw [List.getElem_take, List.getElem_take]
      obtain ⟨w, e1, e2⟩ := (List.forall₂_iff_get.mp h1).2 i (by omega) (by omega)
      obtain ⟨w', e1', e2'⟩ := (List.forall₂_iff_get.mp h1').2 i (by omega) (by omega)
      have hE := he c (by simp) i (by omega)
      rw [List.getElem?_eq_getElem (by omega), List.getElem?_eq_getElem (by omega), Option.bind_some, Option.bind_some] at hE
      simp only [List.get_eq_getElem] at e1 e1' e2 e2'
      rw [e1, e1', Option.some.injEq] at hE
      subst hE
      rw [e2, Option.some.injEq] at e2'
      exact e2'.symm

theorem columns_length {α : Type} (f : Str → Option α) (R : List (List Str)) {cs : List Nat} {A : List (List α)} (h : Columns f R cs A) : ∀ col ∈ A, col.length = R.length := by
  induction h with
  | nil => simp
  | cons h1 _ ih =>
    intro col hc
    rw [List.mem_cons] at hc
    rcases hc with rfl | hc
    · exact h1.length_eq.symm
    · exact ih col hc

theorem map_take_self {α : Type} (A : List (List α)) (n : Nat) (h : ∀ col ∈ A, col.length ≤ n) : A.map (·.take n) = A := by
  conv_rhs => rw [← List.map_id A]
  apply List.map_congr_left
  intro col hc
  rw [id_eq, List.take_of_length_le (h col hc)]

theorem plain_append {a b : Str} (h : Plain (a ++ b)) (x : Str) (hx : '\n' ∉ x) (hx' : ∀ c ∈ x, goSpace c = false) : Plain (a ++ x) := by
  obtain ⟨I, l, h1, T, e1, e2, e3⟩ := splitOn_append '\n' a b
  obtain ⟨I', l', h1', T', e1', e2', e3'⟩ := splitOn_append '\n' a x
  rw [e1] at e1'
  obtain ⟨rfl, h4⟩ := List.append_inj' e1' rfl
  obtain rfl : l = l' := by simpa using h4
  rw [splitOn_noSep _ _ hx, List.cons.injEq] at e2'
  obtain ⟨rfl, rfl⟩ := e2'
  unfold Plain at h ⊢
  rw [e3] at h
  rw [e3']
  intro l' hl' c hc hs
  rw [List.mem_append, List.mem_singleton] at hl'
  rcases hl' with hl' | rfl
  · exact h l' (by simp [hl']) c hc hs
  · by_cases hl : '#' ∈ l
    · rw [takeWhile_append_yes hl] at hc
      exact h (l ++ h1) (by simp) c (by rw [takeWhile_append_yes hl]; exact hc) hs
    · rw [takeWhile_append_no hl, List.mem_append] at hc
      rcases hc with hc | hc
      · exact h (l ++ h1) (by simp) c (by rw [takeWhile_append_no hl, List.mem_append]; exact Or.inl hc) hs
      · have := hx' c ((List.takeWhile_prefix _).subset hc)
        rw [this] at hs
        simp at hs

theorem plain_take {t : Str} (h : Plain t) (k : Nat) : Plain (t.take k) := by
  rw [← List.take_append_drop k t] at h
  have := plain_append h [] (by simp) (by simp)
  rwa [List.append_nil] at this

variable {F : Type} (ff : FloatFmt F)

/-- C115 (part that holds): if the first `k` bytes of a good catalogue are taken for the whole, every value except those of the last row is right, and no row is read that the catalogue does not have.
Missing: rows are lost without an error, and the last row may be wrong (`C115_short_false`). -/
theorem C115_short_partial (t : Str) (hp : Plain t) (k : Nat) (ics fcs : List Nat) (A A' : List (List Int)) (B B' : List (List F))
    (h : readFile ff (some (t.length, t)) ics fcs = .ok (A, B)) (h' : readFile ff (some ((t.take k).length, t)) ics fcs = .ok (A', B')) :
    ∃ m : Nat, A'.map (·.take m) = A.map (·.take m) ∧ B'.map (·.take m) = B.map (·.take m) ∧
      (∀ col ∈ A', m ≤ col.length ∧ col.length ≤ m + 1) ∧ (∀ col ∈ B', m ≤ col.length ∧ col.length ≤ m + 1) ∧
      (∀ a ∈ A, ∀ a' ∈ A', a'.length ≤ a.length) ∧ (∀ b ∈ B, ∀ b' ∈ B', b'.length ≤ b.length) := by
  simp only [readFile, buffer] at h h'
  rw [List.take_length, Nat.sub_self, List.replicate_zero, List.append_nil] at h
  have hk : t.take (t.take k).length = t.take k := by rw [List.length_take, List.take_eq_take_iff]; omega
  rw [hk, show (t.take k).length - t.length = 0 by rw [List.length_take]; omega, List.replicate_zero, List.append_nil] at h'
  rw [C10_ok_iff ff t hp] at h
  rw [C10_ok_iff ff _ (plain_take hp k)] at h'
  obtain ⟨-, hA, hB⟩ := h
  obtain ⟨-, hA', hB'⟩ := h'
  have cA := columns_length _ _ hA
  have cA' := columns_length _ _ hA'
  have cB := columns_length _ _ hB
  have cB' := columns_length _ _ hB'
  obtain ⟨m, hm, hcut⟩ := C115_cut t k
  have hrow : ∀ i < m, (table (t.take k))[i]? = (table t)[i]? := by
    intro i hi
    rcases hcut with e | ⟨r, r', e1, e2, e3, e⟩
    · rw [e, List.getElem?_take_of_lt hi]
    · rw [e, List.getElem?_append_left (by rw [List.length_take]; omega), List.getElem?_take_of_lt hi]
  have hlen : m ≤ (table (t.take k)).length ∧ (table (t.take k)).length ≤ m + 1 ∧ (table (t.take k)).length ≤ (table t).length := by
    rcases hcut with e | ⟨r, r', e1, e2, e3, e⟩
    · rw [e, List.length_take]; omega
    · have := List.getElem?_eq_some_iff.mp e1
      obtain ⟨hlt, _⟩ := this
      rw [e, List.length_append, List.length_take, List.length_singleton]; omega
  refine ⟨m, ?_, ?_, ?_, ?_, ?_, ?_⟩
  · exact columns_take atoi _ _ m hm hlen.1 ics A A' hA hA' (fun c _ i hi => by rw [hrow i hi])
  · exact columns_take ff.parse _ _ m hm hlen.1 fcs B B' hB hB' (fun c _ i hi => by rw [hrow i hi])
  · intro col hc; rw [cA' col hc]; omega
  · intro col hc; rw [cB' col hc]; omega
  · intro a ha a' ha'; rw [cA a ha, cA' a' ha']; omega
  · intro b hb b' hb'; rw [cB b hb, cB' b' hb']; omega

/-- C115 (part that holds): if moreover the first row was seen completely and the last column of the catalogue is not asked for, all values are right: the columns that are read are the first values of
the columns of the catalogue. -/
theorem C115_inner_partial (t : Str) (hp : Plain t) (k : Nat) (ics fcs : List Nat) (A A' : List (List Int)) (B B' : List (List F))
    (hfirst : ∀ r', (table (t.take k))[0]? = some r' → (table t)[0]? = some r') (hlast : ∀ c ∈ ics ++ fcs, ∀ r ∈ table t, c + 1 < r.length)
    (h : readFile ff (some (t.length, t)) ics fcs = .ok (A, B)) (h' : readFile ff (some ((t.take k).length, t)) ics fcs = .ok (A', B')) :
    ∃ n : Nat, A' = A.map (·.take n) ∧ B' = B.map (·.take n) := by
  simp only [readFile, buffer] at h h'
  rw [List.take_length, Nat.sub_self, List.replicate_zero, List.append_nil] at h
  have hk : t.take (t.take k).length = t.take k := by rw [List.length_take, List.take_eq_take_iff]; omega
  rw [hk, show (t.take k).length - t.length = 0 by rw [List.length_take]; omega, List.replicate_zero, List.append_nil] at h'
  rw [C10_ok_iff ff t hp] at h
  rw [C10_ok_iff ff _ (plain_take hp k)] at h'
  obtain ⟨⟨hrect, -⟩, hA, hB⟩ := h
  obtain ⟨⟨hrect', -⟩, hA', hB'⟩ := h'
  have cA' := columns_length _ _ hA'
  have cB' := columns_length _ _ hB'
  obtain ⟨m, hm, hcut⟩ := C115_cut t k
  have hn : (table (t.take k)).length ≤ (table t).length := by
    rcases hcut with e | ⟨r, r', e1, e2, e3, e⟩
    · rw [e, List.length_take]; omega
    · obtain ⟨hlt, _⟩ := List.getElem?_eq_some_iff.mp e1
      rw [e, List.length_append, List.length_take, List.length_singleton]; omega
  have hrow : ∀ c ∈ ics ++ fcs, ∀ i < (table (t.take k)).length, ((table (t.take k))[i]?).bind (·[c]?) = ((table t)[i]?).bind (·[c]?) := by
    intro c hc i hi
    rcases hcut with e | ⟨r, r', e1, e2, e3, e⟩
    · rw [e, List.length_take] at hi
      rw [e, List.getElem?_take_of_lt (by omega)]
    · obtain ⟨hlt, he⟩ := List.getElem?_eq_some_iff.mp e1
      by_cases him : i < m
      · rw [e, List.getElem?_append_left (by rw [List.length_take]; omega), List.getElem?_take_of_lt him]
      · have hl : ((table t).take m).length = m := by rw [List.length_take]; omega
        rw [e, List.length_append, hl, List.length_singleton] at hi
        obtain rfl : i = m := by omega
        have hr' : (table (t.take k))[i]? = some r' := by rw [e, List.getElem?_append_right (by omega), hl, Nat.sub_self]; rfl
        rw [hr', e1, Option.bind_some, Option.bind_some]
        have hpos : 0 < (table (t.take k)).length := by
          rw [e, List.length_append, List.length_singleton]; omega
        have h0 := hfirst _ (List.getElem?_eq_getElem hpos)
        have hlen : r'.length = r.length := by
          rw [hrect r (List.mem_of_getElem? e1) _ (List.mem_of_getElem? h0), hrect' r' (List.mem_of_getElem? hr') _ (List.getElem_mem hpos)]
        have hcr := hlast c hc r (List.mem_of_getElem? e1)
        rcases e3 with e3 | ⟨J, T, w, w', hw, rfl, rfl⟩
        · rw [e3.eq_of_length hlen]
        · simp only [List.length_append, List.length_cons, List.length_nil] at hlen hcr
          rw [List.getElem?_append_left (by omega), List.getElem?_append_left (by omega)]
  refine ⟨(table (t.take k)).length, ?_, ?_⟩
  · rw [← columns_take atoi _ _ _ hn (Nat.le_refl _) ics A A' hA hA' (fun c hc => hrow c (List.mem_append_left _ hc)), map_take_self A' _ (fun col hc => Nat.le_of_eq (cA' col hc))]
  · rw [← columns_take ff.parse _ _ _ hn (Nat.le_refl _) fcs B B' hB hB' (fun c hc => hrow c (List.mem_append_right _ hc)), map_take_self B' _ (fun col hc => Nat.le_of_eq (cB' col hc))]

/-! A file that cannot be read to its end -/

theorem digitsVal_nul : ∀ (s : Str) (acc : Nat), '\x00' ∈ s → digitsVal acc s = none
  | [], _, h => by simp at h
  | c :: s, acc, h => by
    rw [List.mem_cons] at h
    rcases h with h | h
    · subst h; rfl
    · unfold digitsVal
      cases digitVal c with
      | none => rfl
      | some d => exact digitsVal_nul s _ h

theorem natVal_nul (s : Str) (h : '\x00' ∈ s) : natVal s = none := by
  unfold natVal
  rw [if_neg (by rintro rfl; simp at h), digitsVal_nul s 0 h]

theorem atoi_nul (s : Str) (h : '\x00' ∈ s) : atoi s = none := by
  unfold atoi
  split
  · rw [natVal_nul _ (by simpa using h)]; rfl
  · rw [natVal_nul _ (by simpa using h)]; rfl
  · rw [natVal_nul _ h]; rfl

/-- The rows that are seen when the text ends in zero bytes: outside a comment there is one row more, and its last word contains a zero byte. -/
theorem nul_table (t : Str) (k n : Nat) (hn : 0 < n) : ∃ (P S : List (List Str)) (l h : Str), table t = P ++ rowsOf [l ++ h] ++ S ∧ '\n' ∉ l ∧ (∃ pre, t.take k = pre ++ l) ∧
    ((∃ (J T : List Str) (w : Str), '#' ∉ l ∧ table (t.take k ++ List.replicate n '\x00') = P ++ [J ++ [w]] ∧ '\x00' ∈ w ∧ words ' ' ((l ++ h).takeWhile (· ≠ '#')) = J ++ T) ∨
      '#' ∈ l ∧ table (t.take k ++ List.replicate n '\x00') = P ++ rowsOf [l ++ h]) := by
  obtain ⟨P, S, l, h, h1, h2, h3, h4, h5⟩ := table_cut (t.take k) (t.drop k)
  rw [List.take_append_drop] at h2
  have hx : '\n' ∉ List.replicate n '\x00' := by rw [List.mem_replicate]; rintro ⟨_, h⟩; simp at h
  have hx' : ' ' ∉ List.replicate n '\x00' := by rw [List.mem_replicate]; rintro ⟨_, h⟩; simp at h
  have hx'' : '#' ∉ List.replicate n '\x00' := by rw [List.mem_replicate]; rintro ⟨_, h⟩; simp at h
  refine ⟨P, S, l, h, h2, h4, h5, ?_⟩
  rw [h3 _ hx]
  by_cases hc : '#' ∈ l
  · right
    refine ⟨hc, ?_⟩
    unfold rowsOf
    rw [List.map_cons, List.map_cons, takeWhile_append_yes hc, takeWhile_append_yes hc]
  · left
    have hnil : rowsOf [] = [] := rfl
    rw [rowsOf_cons, hnil, List.append_nil, takeWhile_append_no hc, takeWhile_append_no hc]
    have he : (List.replicate n '\x00').takeWhile (· ≠ '#') = List.replicate n '\x00' := by have := takeWhile_append_no (b := []) hx''; simpa using this
    rw [he]
    obtain ⟨J, w, hJ⟩ := words_glue l
    obtain ⟨w1, T1, e1, e2⟩ := hJ (List.replicate n '\x00')
    obtain ⟨rfl, rfl⟩ := e1 hx'
    obtain ⟨w2, T2, -, e3⟩ := hJ (h.takeWhile (· ≠ '#'))
    have hmem : '\x00' ∈ w ++ List.replicate n '\x00' := by rw [List.mem_append, List.mem_replicate]; exact Or.inr ⟨by omega, rfl⟩
    have hne : w ++ List.replicate n '\x00' ≠ [] := by intro h0; rw [h0] at hmem; simp at hmem
    rw [if_neg hne, List.append_nil] at e2
    refine ⟨J, _, w ++ List.replicate n '\x00', hc, ?_, hmem, by rw [e3, List.append_assoc]⟩
    rw [e2, if_neg (by simp)]

/-- A column is not read if one of its words cannot be read. -/
theorem columns_bad {α : Type} (f : Str → Option α) {R : List (List Str)} {cs : List Nat} {X : List (List α)} (hX : Columns f R cs X) {i c : Nat} {r : List Str} {w : Str}
    (hr : R[i]? = some r) (hw : r[c]? = some w) (hf : f w = none) : c ∉ cs := by
  intro hmem
  obtain ⟨hlt, hge⟩ := List.getElem?_eq_some_iff.mp hr
  obtain ⟨j, hj, hcj⟩ := List.getElem_of_mem hmem
  have hX' := List.forall₂_iff_get.mp hX
  have h1 := hX'.2 j hj (by rw [← hX'.1]; exact hj)
  have h1' := List.forall₂_iff_get.mp h1
  obtain ⟨w', e1, e2⟩ := h1'.2 i hlt (by rw [← h1'.1]; exact hlt)
  simp only [List.get_eq_getElem] at e1 e2
  rw [hge, hcj, hw, Option.some.injEq] at e1
  rw [← e1, hf] at e2
  simp at e2

/-- C115 (part that holds): when a read error ends the reading of a good catalogue after the first row and the values are nevertheless accepted, they are right: they are the first values of each
column.  Missing: rows are lost without an error (`C115_comment_false`, `C115_unused_false`). -/
theorem C115_broken_partial (hff : ∀ w, '\x00' ∈ w → ff.parse w = none) (t : Str) (hp : Plain t) (k : Nat) (hk : k < t.length) (ics fcs : List Nat)
    (A A' : List (List Int)) (B B' : List (List F)) (hfirst : (table (buffer t.length (t.take k)))[0]? = (table t)[0]?)
    (h : readFile ff (some (t.length, t)) ics fcs = .ok (A, B)) (h' : readFile ff (some (t.length, t.take k)) ics fcs = .ok (A', B')) :
    ∃ n : Nat, A' = A.map (·.take n) ∧ B' = B.map (·.take n) := by
  have hbuf : buffer t.length (t.take k) = t.take k ++ List.replicate (t.length - k) '\x00' := by
    unfold buffer
    rw [List.take_of_length_le (by rw [List.length_take]; omega), List.length_take]
    congr 2
    omega
  simp only [readFile] at h h'
  rw [hbuf] at h' hfirst
  rw [show buffer t.length t = t by unfold buffer; simp] at h
  have hx : ∀ c ∈ List.replicate (t.length - k) '\x00', goSpace c = false := by
    intro c hc
    rw [(List.mem_replicate.mp hc).2]
    decide
  have hp' : Plain (t.take k ++ List.replicate (t.length - k) '\x00') :=
    plain_append (b := t.drop k) (by rw [List.take_append_drop]; exact hp) _ (by rw [List.mem_replicate]; rintro ⟨_, h⟩; simp at h) hx
  obtain ⟨P, S, l, hh, hT, hl1, hl2, hcase⟩ := nul_table t k (t.length - k) (by omega)
  rw [C10_ok_iff ff t hp] at h
  rw [C10_ok_iff ff _ hp'] at h'
  obtain ⟨⟨hrect, -⟩, hA, hB⟩ := h
  obtain ⟨⟨hrect', hcols⟩, hA', hB'⟩ := h'
  generalize table (t.take k ++ List.replicate (t.length - k) '\x00') = R' at *
  generalize table t = R at *
  have cA' := columns_length _ _ hA'
  have cB' := columns_length _ _ hB'
  -- it is enough that the rows agree in the requested columns
  have key : R'.length ≤ R.length → (∀ c ∈ ics ++ fcs, ∀ i < R'.length, (R'[i]?).bind (·[c]?) = (R[i]?).bind (·[c]?)) →
      ∃ n : Nat, A' = A.map (·.take n) ∧ B' = B.map (·.take n) := by
    intro hn hrow
    refine ⟨R'.length, ?_, ?_⟩
    · rw [← columns_take atoi _ _ _ hn (Nat.le_refl _) ics A A' hA hA' (fun c hc => hrow c (List.mem_append_left _ hc)), map_take_self A' _ (fun col hc => Nat.le_of_eq (cA' col hc))]
    · rw [← columns_take ff.parse _ _ _ hn (Nat.le_refl _) fcs B B' hB hB' (fun c hc => hrow c (List.mem_append_right _ hc)), map_take_self B' _ (fun col hc => Nat.le_of_eq (cB' col hc))]
  rcases hcase with ⟨J, T, w, hc, e, hw, hJ⟩ | ⟨hc, e⟩
  · by_cases hP : P = []
    · subst hP
      rw [List.nil_append] at e
      subst e
      rw [show ([J ++ [w]] : List (List Str))[0]? = some (J ++ [w]) from rfl] at hfirst
      obtain ⟨h0, -⟩ := List.getElem?_eq_some_iff.mp hfirst.symm
      apply key
      · rw [List.length_singleton]; omega
      · intro c _ i hi
        rw [List.length_singleton] at hi
        obtain rfl : i = 0 := by omega
        rw [← hfirst]
        rfl
    · have hreq : ∀ c ∈ ics ++ fcs, c < J.length := by
        have hrow : (J ++ [w]) ∈ R' := by rw [e]; simp
        intro c hcc
        have := hcols _ hrow c hcc
        rw [List.length_append, List.length_singleton] at this
        by_contra hcon
        obtain rfl : c = J.length := by omega
        have hget : R'[P.length]? = some (J ++ [w]) := by rw [e]; simp
        have hword : (J ++ [w])[J.length]? = some w := by simp
        rw [List.mem_append] at hcc
        rcases hcc with hcc | hcc
        · exact columns_bad atoi hA' hget hword (atoi_nul w hw) hcc
        · exact columns_bad ff.parse hB' hget hword (hff w hw) hcc
      by_cases hnone : ics ++ fcs = []
      · rw [List.append_eq_nil_iff] at hnone
        obtain ⟨rfl, rfl⟩ := hnone
        cases hA; cases hB; cases hA'; cases hB'
        exact ⟨0, rfl, rfl⟩
      · obtain ⟨c0, cs0, hcs⟩ := List.exists_cons_of_ne_nil hnone
        have hJ0 : 0 < J.length := by have := hreq c0 (by rw [hcs]; simp); omega
        have hnil : rowsOf [] = [] := rfl
        rw [rowsOf_cons, hnil, List.append_nil, hJ, if_neg (by intro h0; rw [List.append_eq_nil_iff] at h0; rw [h0.1] at hJ0; simp at hJ0)] at hT
        apply key
        · rw [e, hT]; simp
        · intro c hcc i hi
          rw [e, List.length_append, List.length_singleton] at hi
          by_cases hiP : i < P.length
          · rw [e, hT, List.append_assoc, List.getElem?_append_left hiP, List.getElem?_append_left hiP]
          · obtain rfl : i = P.length := by omega
            have g1 : R'[P.length]? = some (J ++ [w]) := by rw [e]; simp
            have g2 : R[P.length]? = some (J ++ T) := by rw [hT]; simp
            rw [g1, g2, Option.bind_some, Option.bind_some, List.getElem?_append_left (hreq c hcc), List.getElem?_append_left (hreq c hcc)]
  · apply key
    · rw [hT, ← e, List.length_append]; omega
    · intro c _ i hi
      rw [hT, ← e, List.getElem?_append_left hi]

/-- C115 (part that holds): a read error after the first row is noticed if it does not happen inside a comment and the last column of the catalogue is asked for. -/
theorem C115_noticed_partial (hff : ∀ w, '\x00' ∈ w → ff.parse w = none) (t : Str) (hp : Plain t) (k : Nat) (hk : k < t.length) (ics fcs : List Nat)
    (hcomment : ∀ pre l, t.take k = pre ++ l → '\n' ∉ l → '#' ∉ l) (hfirst : (table (buffer t.length (t.take k)))[0]? = (table t)[0]?)
    (c : Nat) (hc : c ∈ ics ++ fcs) (hlast : ∀ r ∈ table t, r.length = c + 1) (A' : List (List Int)) (B' : List (List F)) :
    readFile ff (some (t.length, t.take k)) ics fcs ≠ .ok (A', B') := by
  intro h'
  have hbuf : buffer t.length (t.take k) = t.take k ++ List.replicate (t.length - k) '\x00' := by
    unfold buffer
    rw [List.take_of_length_le (by rw [List.length_take]; omega), List.length_take]
    congr 2
    omega
  simp only [readFile] at h'
  rw [hbuf] at h' hfirst
  have hx : ∀ c ∈ List.replicate (t.length - k) '\x00', goSpace c = false := by
    intro c hc
    rw [(List.mem_replicate.mp hc).2]
    decide
  have hp' : Plain (t.take k ++ List.replicate (t.length - k) '\x00') :=
    plain_append (b := t.drop k) (by rw [List.take_append_drop]; exact hp) _ (by rw [List.mem_replicate]; rintro ⟨_, h⟩; simp at h) hx
  obtain ⟨P, S, l, hh, hT, hl1, ⟨pre, hl2⟩, hcase⟩ := nul_table t k (t.length - k) (by omega)
  rw [C10_ok_iff ff _ hp'] at h'
  obtain ⟨⟨hrect', -⟩, hA', hB'⟩ := h'
  rcases hcase with ⟨J, T, w, hcl, e, hw, hJ⟩ | ⟨hcl, e⟩
  · generalize table (t.take k ++ List.replicate (t.length - k) '\x00') = R' at *
    have hpos : 0 < R'.length := by rw [e]; simp
    have hget : R'[P.length]? = some (J ++ [w]) := by rw [e]; simp
    have hlen : (J ++ [w]).length = c + 1 := by
      rw [hrect' _ (List.mem_of_getElem? hget) _ (List.getElem_mem hpos)]
      apply hlast
      exact List.mem_of_getElem? (i := 0) (by rw [← hfirst, List.getElem?_eq_getElem hpos])
    rw [List.length_append, List.length_singleton] at hlen
    have hword : (J ++ [w])[c]? = some w := by
      obtain rfl : c = J.length := by omega
      simp
    rw [List.mem_append] at hc
    rcases hc with hc | hc
    · exact columns_bad atoi hA' hget hword (atoi_nul w hw) hc
    · exact columns_bad ff.parse hB' hget hword (hff w hw) hc
  · exact hcomment pre l hl2 hl1 hcl

/-! Witnesses -/

/-- A small catalogue with a comment between its rows. -/
def exCat : Str := chars "1 20\n3 45\n# the rest\n5 66\n"

theorem exCat_plain : Plain exCat := by unfold Plain; decide +kernel

/-- C115 is false as stated: a file that is cut short, or is still being written, is read without an error: rows are missing, and the last value of the last row is wrong. -/
theorem C115_short_false : readFile exFF (some (exCat.length, exCat)) [0] [1] = .ok ([[1, 3, 5]], [[20, 45, 66]]) ∧
    readFile exFF (some ((exCat.take 8).length, exCat)) [0] [1] = .ok ([[1, 3]], [[20, 4]]) := by decide +kernel

/-- C115 is false as stated: if the read error happens inside a comment, the rows after it are lost without an error. -/
theorem C115_comment_false : readFile exFF (some (exCat.length, exCat.take 15)) [0] [1] = .ok ([[1, 3]], [[20, 45]]) := by decide +kernel

/-- C115 is false as stated: if the read error happens in the last column and this column is not asked for, the rows after it are lost without an error. -/
theorem C115_unused_false : readFile exFF (some (exCat.length, exCat.take 8)) [0] [] = .ok ([[1, 3]], []) ∧
    readFile exFF (some (exCat.length, exCat.take 8)) [0] [1] = .err := by decide +kernel

-- the hypotheses of the theorems are met
example : Plain exCat ∧ readFile exFF (some (exCat.length, exCat)) [0] [] = .ok ([[1, 3, 5]], []) ∧ readFile exFF (some ((exCat.take 8).length, exCat)) [0] [] = .ok ([[1, 3]], []) ∧
    (table (exCat.take 8))[0]? = (table exCat)[0]? ∧ (∀ r ∈ table exCat, 0 + 1 < r.length) := ⟨exCat_plain, by decide +kernel⟩

example : (∀ w, '\x00' ∈ w → exFF.parse w = none) ∧ 8 < exCat.length ∧ (table (buffer exCat.length (exCat.take 8)))[0]? = (table exCat)[0]? ∧
    readFile exFF (some (exCat.length, exCat.take 15)) [0] [1] = .ok ([[1, 3]], [[20, 45]]) ∧ (∀ r ∈ table exCat, r.length = 1 + 1) := ⟨atoi_nul, by decide +kernel⟩

-- the comment hypothesis of `C115_noticed_partial` is met by a cut before the comment
example : 8 < exCat.length ∧ ∀ pre l, exCat.take 8 = pre ++ l → '\n' ∉ l → '#' ∉ l := by
  refine ⟨by decide +kernel, ?_⟩
  intro pre l h _ hc
  have h0 : '#' ∉ exCat.take 8 := by decide +kernel
  exact h0 (by rw [h]; exact List.mem_append_right _ hc)

end Shellfish.Catalog
