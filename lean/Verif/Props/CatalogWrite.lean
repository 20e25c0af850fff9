/-
Properties C09 (a catalog that is written is read back) and C11 (the header describes the columns).
-/
import Verif.Props.Catalog

namespace Shellfish.Catalog

open Shellfish.Text

/-! words of assembled lines -/

theorem words_append (sep : Char) (a b : Str) : words sep (a ++ sep :: b) = words sep a ++ words sep b := by
  have key : ∀ (a : Str) (cur : Option Str), wordsFrom sep cur (a ++ sep :: b) = wordsFrom sep cur a ++ wordsFrom sep none b := by
    intro a
    induction a with
    | nil => intro cur; cases cur <;> simp [wordsFrom]
    | cons c cs ih =>
      intro cur
      cases cur with
      | none => by_cases hc : c = sep <;> simp [wordsFrom, hc, ih]
      | some w => by_cases hc : c = sep <;> simp [wordsFrom, hc, ih]
  rw [← (wordsFrom_eq sep _).1, ← (wordsFrom_eq sep _).1, ← (wordsFrom_eq sep _).1, key]

theorem words_nil (sep : Char) : words sep [] = [] := by simp [words, splitOn]

theorem words_word (sep : Char) (w : Str) (h : w ≠ []) (h' : sep ∉ w) : words sep w = [w] := by
  simp [words, splitOn_noSep sep w h', h]

theorem words_blanks (n : Nat) (w : Str) : words ' ' (List.replicate n ' ' ++ w) = words ' ' w := by
  induction n with
  | zero => simp
  | succ n ih =>
    have : List.replicate (n + 1) ' ' ++ w = [] ++ ' ' :: (List.replicate n ' ' ++ w) := by simp [List.replicate_succ]
    rw [this, words_append, ih, words_nil]; rfl

theorem words_join (ts : List Str) : words ' ' (joinWith ' ' ts) = ts.flatMap (words ' ') := by
  induction ts with
  | nil => simp [joinWith, words_nil]
  | cons t ts ih =>
    cases ts with
    | nil => simp [joinWith]
    | cons u us =>
      rw [show joinWith ' ' (t :: u :: us) = t ++ ' ' :: joinWith ' ' (u :: us) from rfl, words_append, ih]
      rfl

theorem words_padLeft (n : Nat) (w : Str) (h : w ≠ []) (h' : ' ' ∉ w) : words ' ' (padLeft n w) = [w] := by
  unfold padLeft; rw [words_blanks, words_word ' ' w h h']

theorem mem_join (sep : Char) (ts : List Str) (c : Char) (h : c ∈ joinWith sep ts) : c = sep ∨ ∃ t ∈ ts, c ∈ t := by
  induction ts with
  | nil => simp [joinWith] at h
  | cons t ts ih =>
    cases ts with
    | nil => exact Or.inr ⟨t, by simp, by simpa [joinWith] using h⟩
    | cons u us =>
      rw [show joinWith sep (t :: u :: us) = t ++ sep :: joinWith sep (u :: us) from rfl, List.mem_append, List.mem_cons] at h
      rcases h with h | h | h
      · exact Or.inr ⟨t, by simp, h⟩
      · exact Or.inl h
      · rcases ih h with h | ⟨t', ht', hc⟩
        · exact Or.inl h
        · exact Or.inr ⟨t', by simp [ht'], hc⟩

theorem mapM_some {α β : Type} (f : α → Option β) (g : α → β) (l : List α) (h : ∀ x ∈ l, f x = some (g x)) :
    l.mapM f = some (l.map g) := by
  induction l with
  | nil => rfl
  | cons a l ih =>
    rw [List.mapM_cons, h a (by simp), ih (fun x hx => h x (by simp [hx]))]
    rfl

theorem checkHeights_eq (n : Nat) (hn : 0 < n) (l : List Nat) (hl : ∀ x ∈ l, x = n) :
    checkHeights (some n) l = some (some n) ∧ (l ≠ [] → checkHeights none l = some (some n)) := by
  have h1 : checkHeights (some n) l = some (some n) := by
    induction l with
    | nil => rfl
    | cons a l ih =>
      have ha := hl a (by simp)
      subst ha
      simp [checkHeights, Nat.pos_iff_ne_zero.mp hn, ih (fun x hx => hl x (by simp [hx]))]
  refine ⟨h1, ?_⟩
  intro hne
  cases l with
  | nil => exact absurd rfl hne
  | cons a l =>
    have ha := hl a (by simp)
    subst ha
    have : checkHeights (some a) l = some (some a) := by
      simpa [checkHeights, Nat.pos_iff_ne_zero.mp hn] using h1
    simp [checkHeights, Nat.pos_iff_ne_zero.mp hn, this]

theorem orderCols_eq (ic fc : List (List Str)) (order : List Nat) (h : ∀ o ∈ order, o < ic.length + fc.length) :
    orderCols ic fc order = some (order.map fun o => (ic ++ fc).getD o []) := by
  induction order with
  | nil => rfl
  | cons o os ih =>
    have ho := h o (by simp)
    unfold orderCols
    rw [if_neg (by omega), ih (fun x hx => h x (by simp [hx]))]
    by_cases hlt : o < ic.length
    · simp [hlt, List.getElem?_append_left, List.getD]
    · have : o - ic.length < fc.length := by omega
      simp [hlt, List.getElem?_append_right (Nat.le_of_not_lt hlt), List.getD, this]

/-- A character that may occur in a written number. -/
def numChar (c : Char) : Prop := goSpace c = false ∧ c ≠ '#'

theorem digitChar_numChar (d : Nat) (h : d < 10) : numChar (digitChar d) := by
  have : ∀ d : Fin 10, numChar (digitChar d.val) := by unfold numChar; decide
  exact this ⟨d, h⟩

theorem itoa_numChar (n : Int) : ∀ c ∈ itoa n, numChar c := by
  intro c hc
  rcases itoa_chars n c hc with rfl | ⟨d, hd, rfl⟩
  · unfold numChar; decide
  · exact digitChar_numChar d hd

variable {F : Type} (ff : FloatFmt F)

/-- C09.  Columns of integers and floats, all of the same height `h > 0`, written in the given order under any comment lines, are
read back: reading the `p`-th written column as integers (floats) gives the integer (float) column that was written
there, floats being rounded as one write-and-read of the single number rounds them (`rd`). -/
theorem C09_round_trip (rd : F → F) (h : Nat) (hpos : 0 < h) (intCols : List (List Int)) (floatCols : List (List F)) (order : List Nat)
    (hne : intCols ≠ [] ∨ floatCols ≠ [])
    (hi : ∀ col ∈ intCols, col.length = h ∧ ∀ x ∈ col, minInt ≤ x ∧ x ≤ maxInt)
    (hf : ∀ col ∈ floatCols, col.length = h ∧ ∀ x ∈ col, ff.fmt x ≠ [] ∧ (∀ c ∈ ff.fmt x, numChar c) ∧ ff.parse (ff.fmt x) = some (rd x))
    (ho : ∀ o ∈ order, o < intCols.length + floatCols.length) (hol : order.length ≤ intCols.length + floatCols.length)
    (comments : List Str) (hc : ∀ l ∈ comments, ∃ t, l = '#' :: t ∧ '\n' ∉ t)
    (ics fcs : List Nat)
    (hics : ∀ p ∈ ics, ∃ o, order[p]? = some o ∧ o < intCols.length)
    (hfcs : ∀ p ∈ fcs, ∃ o, order[p]? = some o ∧ intCols.length ≤ o) :
    ∃ lines A B, formatCols ff intCols floatCols order = some lines ∧ lines.length = h ∧
      parse ff (joinWith '\n' (comments ++ lines)) ics fcs = .ok (A, B) ∧
      List.Forall₂ (fun p col => ∃ o, order[p]? = some o ∧ intCols[o]? = some col) ics A ∧
      List.Forall₂ (fun p col => ∃ o c, order[p]? = some (intCols.length + o) ∧ floatCols[o]? = some c ∧ col = c.map rd) fcs B := by
  set nC := intCols.length + floatCols.length with hnC
  set pad : List (List Str) := intCols.map formatIntCol ++ floatCols.map (formatFloatCol ff) with hpad
  set raw : List (List Str) := intCols.map (fun c => c.map itoa) ++ floatCols.map (fun c => c.map ff.fmt) with hraw
  have hpadlen : pad.length = nC := by simp [hpad, hnC]
  have hrawlen : raw.length = nC := by simp [hraw, hnC]
  -- every written entry is the raw entry, padded
  have hentry : ∀ o, o < nC → ∃ w col, pad[o]? = some (col.map (padLeft w)) ∧ raw[o]? = some col ∧ col.length = h ∧
      ∀ s ∈ col, s ≠ [] ∧ ∀ c ∈ s, numChar c := by
    intro o hoN
    by_cases hlt : o < intCols.length
    · refine ⟨colWidth (intCols[o].map itoa), intCols[o].map itoa, ?_, ?_, ?_, ?_⟩
      · rw [hpad, List.getElem?_append_left (by simpa using hlt), List.getElem?_map, List.getElem?_eq_getElem hlt]; rfl
      · rw [hraw, List.getElem?_append_left (by simpa using hlt), List.getElem?_map, List.getElem?_eq_getElem hlt]; rfl
      · rw [List.length_map]; exact (hi _ (List.getElem_mem hlt)).1
      · intro s hs
        rw [List.mem_map] at hs
        obtain ⟨x, _, rfl⟩ := hs
        exact ⟨itoa_ne_nil x, itoa_numChar x⟩
    · have hlt' : o - intCols.length < floatCols.length := by omega
      refine ⟨colWidth (floatCols[o - intCols.length].map ff.fmt), floatCols[o - intCols.length].map ff.fmt, ?_, ?_, ?_, ?_⟩
      · rw [hpad, List.getElem?_append_right (by simpa using Nat.le_of_not_lt hlt), List.length_map, List.getElem?_map,
          List.getElem?_eq_getElem hlt']; rfl
      · rw [hraw, List.getElem?_append_right (by simpa using Nat.le_of_not_lt hlt), List.length_map, List.getElem?_map,
          List.getElem?_eq_getElem hlt']; rfl
      · rw [List.length_map]; exact (hf _ (List.getElem_mem hlt')).1
      · intro s hs
        rw [List.mem_map] at hs
        obtain ⟨x, hx, rfl⟩ := hs
        have := (hf _ (List.getElem_mem hlt')).2 x hx
        exact ⟨this.1, this.2.1⟩
  -- the written lines
  have hheights : checkHeights none (intCols.map List.length ++ floatCols.map List.length) = some (some h) := by
    apply (checkHeights_eq h hpos _ _).2
    · rcases hne with h | h <;> simp [h]
    · intro x hx
      rw [List.mem_append, List.mem_map, List.mem_map] at hx
      rcases hx with ⟨c, hc, rfl⟩ | ⟨c, hc, rfl⟩
      · exact (hi c hc).1
      · exact (hf c hc).1
  have hguard : ¬ ((intCols = [] ∧ floatCols.length = 0) ∨ intCols.head? = some [] ∨ floatCols.head?.map List.length = some 0) := by
    rintro (⟨h1, h2⟩ | h1 | h1)
    · rcases hne with h | h
      · exact h h1
      · exact h (List.length_eq_zero_iff.mp h2)
    · have := (hi [] (List.mem_of_head? h1)).1
      simp at this; omega
    · rw [Option.map_eq_some_iff] at h1
      obtain ⟨c, hc1, hc2⟩ := h1
      have := (hf c (List.mem_of_head? hc1)).1
      omega
  let cellP : Nat → Nat → Str := fun i o => (pad.getD o []).getD i []
  let cell : Nat → Nat → Str := fun i o => (raw.getD o []).getD i []
  have hcellP : ∀ i o, i < h → o < nC → ∃ w s, cellP i o = padLeft w s ∧ cell i o = s ∧ s ≠ [] ∧ ∀ c ∈ s, numChar c := by
    intro i o hi' ho'
    obtain ⟨w, col, h1, h2, h3, h4⟩ := hentry o ho'
    have hi'' : i < col.length := by omega
    refine ⟨w, col[i], ?_, ?_, (h4 _ (List.getElem_mem hi'')).1, (h4 _ (List.getElem_mem hi'')).2⟩
    · simp [cellP, List.getD, h1, hi'']
    · simp [cell, List.getD, h2, hi'']
  have hrows : (List.range h).mapM (rowTokens nC (order.map fun o => pad.getD o [])) =
      some ((List.range h).map fun i => order.map (cellP i) ++ List.replicate (nC - order.length) []) := by
    apply mapM_some
    intro i hi'
    rw [List.mem_range] at hi'
    unfold rowTokens
    rw [List.length_map, if_neg (by omega)]
    have : (order.map fun o => pad.getD o []).mapM (fun c => c[i]?) = some ((order.map fun o => pad.getD o []).map fun c => c.getD i []) := by
      apply mapM_some
      intro c hc
      rw [List.mem_map] at hc
      obtain ⟨o, ho', rfl⟩ := hc
      obtain ⟨w, col, h1, h2, h3, h4⟩ := hentry o (ho o ho')
      have : i < col.length := by omega
      simp [List.getD, h1, this]
    rw [this]
    simp [cellP, List.map_map, Function.comp_def]
  let lines : List Str := (List.range h).map fun i => joinWith ' ' (order.map (cellP i) ++ List.replicate (nC - order.length) [])
  have hformat : formatCols ff intCols floatCols order = some lines := by
    unfold formatCols
    rw [if_neg hguard, hheights]
    simp only [Option.bind_eq_bind, Option.bind_some, Option.getD_some]
    rw [orderCols_eq _ _ _ (by simpa using ho)]
    simp only [Option.bind_some]
    rw [← hpad, ← hnC, hrows]
    simp [lines, List.map_map, Function.comp_def]
  -- their words
  have hwords : ∀ i, i < h → words ' ' (joinWith ' ' (order.map (cellP i) ++ List.replicate (nC - order.length) [])) = order.map (cell i) := by
    intro i hi'
    rw [words_join, List.flatMap_append]
    have e2 : (List.replicate (nC - order.length) ([] : Str)).flatMap (words ' ') = [] := by
      rw [List.flatMap_eq_nil_iff]
      intro x hx
      rw [List.eq_of_mem_replicate hx, words_nil]
    rw [e2, List.append_nil]
    clear hol e2 hrows hformat lines hics hfcs
    induction order with
    | nil => rfl
    | cons o os ih =>
      obtain ⟨w, s, h1, h2, h3, h4⟩ := hcellP i o hi' (ho o (by simp))
      have hsp : ' ' ∉ s := fun hm => by have := (h4 _ hm).1; revert this; decide
      rw [List.map_cons, List.flatMap_cons, ih (fun x hx => ho x (by simp [hx])), List.map_cons, h1, h2, words_padLeft w s h3 hsp]
      rfl
  have hchars : ∀ l ∈ lines, ∀ c ∈ l, c = ' ' ∨ numChar c := by
    intro l hl c hc
    simp only [lines, List.mem_map, List.mem_range] at hl
    obtain ⟨i, hi', rfl⟩ := hl
    rcases mem_join _ _ _ hc with rfl | ⟨t, ht, hct⟩
    · exact Or.inl rfl
    · rw [List.mem_append, List.mem_map] at ht
      rcases ht with ⟨o, ho', rfl⟩ | ht
      · obtain ⟨w, s, h1, h2, h3, h4⟩ := hcellP i o hi' (ho o ho')
        rw [h1] at hct
        unfold padLeft at hct
        rw [List.mem_append] at hct
        rcases hct with hct | hct
        · exact Or.inl (List.eq_of_mem_replicate hct)
        · exact Or.inr (h4 c hct)
      · rw [List.eq_of_mem_replicate ht] at hct
        simp at hct
  have hnl : ∀ l ∈ comments ++ lines, '\n' ∉ l := by
    intro l hl hm
    rw [List.mem_append] at hl
    rcases hl with hl | hl
    · obtain ⟨t, rfl, ht⟩ := hc l hl
      rw [List.mem_cons] at hm
      rcases hm with hm | hm
      · revert hm; decide
      · exact ht hm
    · rcases hchars l hl _ hm with hh | hh
      · revert hh; decide
      · have := hh.1; revert this; decide
  have hhash : ∀ l ∈ lines, '#' ∉ l := by
    intro l hl hm
    rcases hchars l hl _ hm with hh | hh
    · revert hh; decide
    · exact hh.2 rfl
  have hlinesne : comments ++ lines ≠ [] := by
    have : lines.length = h := by simp [lines]
    intro he
    rw [List.append_eq_nil_iff] at he
    rw [he.2] at this; simp at this; omega
  have hsplit : splitOn '\n' (joinWith '\n' (comments ++ lines)) = comments ++ lines := splitOn_join '\n' _ hlinesne hnl
  have hcomm : ∀ l ∈ comments, l.takeWhile (· ≠ '#') = [] := by
    intro l hl
    obtain ⟨t, rfl, _⟩ := hc l hl
    simp
  have hplain : Plain (joinWith '\n' (comments ++ lines)) := by
    unfold Plain
    rw [hsplit]
    intro l hl c hcl hg
    rw [List.mem_append] at hl
    rcases hl with hl | hl
    · rw [hcomm l hl] at hcl; simp at hcl
    · rw [takeWhile_self '#' l (hhash l hl)] at hcl
      rcases hchars l hl c hcl with hh | hh
      · exact hh
      · rw [hh.1] at hg; cases hg
  have htable : table (joinWith '\n' (comments ++ lines)) = ((List.range h).map fun i => order.map (cell i)).filter (· ≠ []) := by
    unfold table
    rw [hsplit, List.map_append, List.filter_append]
    have e1 : (comments.map fun l => words ' ' (l.takeWhile (· ≠ '#'))).filter (· ≠ []) = [] := by
      rw [List.filter_eq_nil_iff]
      intro x hx
      rw [List.mem_map] at hx
      obtain ⟨l, hl, rfl⟩ := hx
      rw [hcomm l hl, words_nil]; simp
    rw [e1, List.nil_append]
    congr 1
    simp only [lines, List.map_map]
    apply List.map_congr_left
    intro i hi'
    rw [List.mem_range] at hi'
    simp only [Function.comp]
    rw [takeWhile_self '#' _ (hhash _ (by simp only [lines, List.mem_map, List.mem_range]; exact ⟨i, hi', rfl⟩)), hwords i hi']
  have hrowmem : ∀ r ∈ table (joinWith '\n' (comments ++ lines)), r.length = order.length := by
    intro r hr
    rw [htable, List.mem_filter, List.mem_map] at hr
    obtain ⟨⟨i, _, rfl⟩, _⟩ := hr
    simp
  have hrect : Rectangular (table (joinWith '\n' (comments ++ lines))) (ics ++ fcs) := by
    refine ⟨fun r hr r' hr' => by rw [hrowmem r hr, hrowmem r' hr'], ?_⟩
    intro r hr p hp
    rw [hrowmem r hr]
    rw [List.mem_append] at hp
    rcases hp with hp | hp
    · obtain ⟨o, h1, _⟩ := hics p hp
      exact (List.getElem?_eq_some_iff.mp h1).1
    · obtain ⟨o, h1, _⟩ := hfcs p hp
      exact (List.getElem?_eq_some_iff.mp h1).1
  have htab' : order ≠ [] → table (joinWith '\n' (comments ++ lines)) = (List.range h).map fun i => order.map (cell i) := by
    intro hno
    rw [htable, List.filter_eq_self]
    intro r hr
    rw [List.mem_map] at hr
    obtain ⟨i, _, rfl⟩ := hr
    simpa using hno
  -- one column
  have hcol : ∀ {α : Type} (f : Str → Option α) (p o : Nat) (col : List Str) (vals : List α), order[p]? = some o → raw[o]? = some col →
      col.length = h → List.Forall₂ (fun s v => f s = some v) col vals →
      List.Forall₂ (fun r v => ∃ w, r[p]? = some w ∧ f w = some v) (table (joinWith '\n' (comments ++ lines))) vals := by
    intro α f p o col vals hp hro hlen hv
    have hno : order ≠ [] := by rintro rfl; simp at hp
    rw [htab' hno, List.forall₂_map_left_iff]
    have hcolr : col = (List.range h).map fun i => cell i o := by
      apply List.ext_getElem
      · simp [hlen]
      · intro i h1 h2
        simp [cell, List.getD, hro, h1]
    rw [hcolr, List.forall₂_map_left_iff] at hv
    refine hv.imp ?_
    intro i v hiv
    exact ⟨cell i o, by rw [List.getElem?_map, hp]; rfl, hiv⟩
  have hA : ∃ A, Columns atoi (table (joinWith '\n' (comments ++ lines))) ics A ∧
      List.Forall₂ (fun p col => ∃ o, order[p]? = some o ∧ intCols[o]? = some col) ics A := by
    refine ⟨ics.map fun p => intCols.getD (order.getD p 0) [], ?_, ?_⟩
    · unfold Columns
      rw [List.forall₂_map_right_iff, List.forall₂_same]
      intro p hp
      obtain ⟨o, h1, h2⟩ := hics p hp
      have hro : raw[o]? = some (intCols[o].map itoa) := by
        rw [hraw, List.getElem?_append_left (by simpa using h2), List.getElem?_map, List.getElem?_eq_getElem h2]; rfl
      have he : intCols.getD (order.getD p 0) [] = intCols[o] := by simp [List.getD, h1, h2]
      rw [he]
      refine hcol atoi p o _ _ h1 hro (by rw [List.length_map]; exact (hi _ (List.getElem_mem h2)).1) ?_
      rw [List.forall₂_map_left_iff, List.forall₂_same]
      intro x hx
      have := (hi _ (List.getElem_mem h2)).2 x hx
      exact atoi_itoa x this.1 this.2
    · rw [List.forall₂_map_right_iff, List.forall₂_same]
      intro p hp
      obtain ⟨o, h1, h2⟩ := hics p hp
      exact ⟨o, h1, by simp [List.getD, h1, h2]⟩
  have hB : ∃ B, Columns ff.parse (table (joinWith '\n' (comments ++ lines))) fcs B ∧
      List.Forall₂ (fun p col => ∃ o c, order[p]? = some (intCols.length + o) ∧ floatCols[o]? = some c ∧ col = c.map rd) fcs B := by
    refine ⟨fcs.map fun p => (floatCols.getD (order.getD p 0 - intCols.length) []).map rd, ?_, ?_⟩
    · unfold Columns
      rw [List.forall₂_map_right_iff, List.forall₂_same]
      intro p hp
      obtain ⟨o, h1, h2⟩ := hfcs p hp
      have h3 : o - intCols.length < floatCols.length := by
        have := ho o (List.mem_of_getElem? h1); omega
      have hro : raw[o]? = some (floatCols[o - intCols.length].map ff.fmt) := by
        rw [hraw, List.getElem?_append_right (by simpa using h2), List.length_map, List.getElem?_map,
          List.getElem?_eq_getElem h3]; rfl
      have he : floatCols.getD (order.getD p 0 - intCols.length) [] = floatCols[o - intCols.length] := by simp [List.getD, h1, h3]
      rw [he]
      refine hcol ff.parse p o _ _ h1 hro (by rw [List.length_map]; exact (hf _ (List.getElem_mem h3)).1) ?_
      rw [List.forall₂_map_left_iff, List.forall₂_map_right_iff, List.forall₂_same]
      intro x hx
      exact ((hf _ (List.getElem_mem h3)).2 x hx).2.2
    · rw [List.forall₂_map_right_iff, List.forall₂_same]
      intro p hp
      obtain ⟨o, h1, h2⟩ := hfcs p hp
      have h3 : o - intCols.length < floatCols.length := by
        have := ho o (List.mem_of_getElem? h1); omega
      refine ⟨o - intCols.length, floatCols[o - intCols.length], by rw [h1]; congr 1; omega, List.getElem?_eq_getElem h3, ?_⟩
      simp [List.getD, h1, h3]
  obtain ⟨A, hA1, hA2⟩ := hA
  obtain ⟨B, hB1, hB2⟩ := hB
  exact ⟨lines, A, B, hformat, by simp [lines], (C10_ok_iff ff _ hplain ics fcs A B).mpr ⟨hrect, hA1, hB1⟩, hA2, hB2⟩

-- two integer columns and one float column, written as (float, second, first), satisfy every hypothesis
example : ∃ lines A B, formatCols exFF [[1, -20], [7, 8]] [[500, 6]] [2, 1, 0] = some lines ∧ lines.length = 2 ∧
      parse exFF (joinWith '\n' (["# x b a".toList] ++ lines)) [1, 2] [0] = .ok (A, B) ∧
      List.Forall₂ (fun p col => ∃ o, [2, 1, 0][p]? = some o ∧ [[1, -20], [7, 8]][o]? = some col) [1, 2] A ∧
      List.Forall₂ (fun p col => ∃ o c, [2, 1, 0][p]? = some (2 + o) ∧ [[500, 6]][o]? = some c ∧ col = c.map id) [0] B := by
  apply C09_round_trip exFF id 2 (by decide)
  · left; decide
  · decide
  · intro col hcol
    have : ∀ x : Int, minInt ≤ x → x ≤ maxInt → exFF.fmt x ≠ [] ∧ (∀ c ∈ exFF.fmt x, numChar c) ∧ exFF.parse (exFF.fmt x) = some (id x) :=
      fun x h1 h2 => ⟨itoa_ne_nil x, itoa_numChar x, atoi_itoa x h1 h2⟩
    simp only [List.mem_singleton] at hcol
    subst hcol
    refine ⟨rfl, ?_⟩
    intro x hx
    simp only [List.mem_cons, List.not_mem_nil, or_false] at hx
    rcases hx with rfl | rfl <;> exact this _ (by decide) (by decide)
  · decide
  · decide
  · intro l hl
    simp only [List.mem_singleton] at hl
    subst hl
    exact ⟨" x b a".toList, rfl, by decide⟩
  · intro p hp
    simp only [List.mem_cons, List.not_mem_nil, or_false] at hp
    rcases hp with rfl | rfl
    · exact ⟨1, rfl, by decide⟩
    · exact ⟨0, rfl, by decide⟩
  · intro p hp
    simp only [List.mem_cons, List.not_mem_nil, or_false] at hp
    subst hp
    exact ⟨2, rfl, by decide⟩

-- and the concrete text
example : formatCols exFF [[1, -20], [7, 8]] [[500, 6]] [2, 1, 0] = some ["500 7   1".toList, "  6 8 -20".toList] := by decide +kernel

/-! the header -/

/-- The written columns covered by the `k`-th named quantity: its size, after the sizes of the quantities before it. -/
def startCol (sizes : List Int) (k : Nat) : Int := (sizes.take k).sum

/-- `name(a)` or `name(a-b)`. -/
def label (name : Str) (a b : Int) : Str :=
  if a = b then name ++ '(' :: (itoa a ++ [')']) else name ++ '(' :: (itoa a ++ '-' :: (itoa b ++ [')']))

theorem labels_eq (l : List (Str × Int)) (n : Int) (k : Nat) (hk : k < l.length) :
    (labels n l)[k]? = some (label l[k].1 (n + startCol (l.map Prod.snd) k) (n + startCol (l.map Prod.snd) k + l[k].2 - 1)) := by
  induction l generalizing n k with
  | nil => simp at hk
  | cons x l ih =>
    obtain ⟨name, size⟩ := x
    cases k with
    | zero =>
      have e : startCol (((name, size) :: l).map Prod.snd) 0 = 0 := rfl
      rw [e]
      simp only [labels, List.getElem?_cons_zero, List.getElem_cons_zero, Int.add_zero]
      unfold label
      by_cases hs : size = 1
      · subst hs; simp
      · have : ¬ n = n + size - 1 := by omega
        simp [hs, this]
    | succ k =>
      simp only [labels, List.getElem?_cons_succ, List.getElem_cons_succ]
      rw [ih (n + size) k (by simpa using hk)]
      simp only [startCol, List.map_cons, List.take_succ_cons, List.sum_cons]
      rw [show n + size + ((l.map Prod.snd).take k).sum = n + (size + ((l.map Prod.snd).take k).sum) by omega]

theorem labels_length (n : Int) (l : List (Str × Int)) : (labels n l).length = l.length := by
  induction l generalizing n with
  | nil => rfl
  | cons x l ih => obtain ⟨a, b⟩ := x; simp [labels, ih]

theorem orderNames_eq (names : List Str) (sizes : List Int) (order : List Nat) (h1 : ∀ o ∈ order, o < names.length)
    (h2 : ∀ o ∈ order, o < sizes.length) :
    orderNames names sizes order = some (order.map fun o => (names.getD o [], sizes.getD o 0)) := by
  induction order with
  | nil => rfl
  | cons o os ih =>
    simp [orderNames, List.getElem?_eq_getElem (h1 o (by simp)), List.getElem?_eq_getElem (h2 o (by simp)),
      ih (fun x hx => h1 x (by simp [hx])) (fun x hx => h2 x (by simp [hx])), List.getD]

/-- C11, the text of the header: the tag, then for the `k`-th written quantity its name and the range of columns it
occupies; that range starts where the previous quantities end and its length is the size of the quantity. -/
theorem C11_header (intNames floatNames : List Str) (order : List Nat) (sizes : List Int)
    (h1 : ∀ o ∈ order, o < (intNames ++ floatNames).length) (h2 : ∀ o ∈ order, o < sizes.length) :
    ∃ ls : List Str, commentString intNames floatNames order sizes = some (joinWith ' ' ("# Column contents:".toList :: ls)) ∧
      ls.length = order.length ∧
      ∀ (k o : Nat) (name : Str) (size : Int), order[k]? = some o → (intNames ++ floatNames)[o]? = some name → sizes[o]? = some size →
        ls[k]? = some (label name (startCol (order.map fun o => sizes.getD o 0) k) (startCol (order.map fun o => sizes.getD o 0) k + size - 1)) := by
  refine ⟨labels 0 (order.map fun o => ((intNames ++ floatNames).getD o [], sizes.getD o 0)), ?_, by rw [labels_length]; simp, ?_⟩
  · simp [commentString, orderNames_eq _ _ _ h1 h2]
  · intro k o name size hk hn hs
    have hk' := (List.getElem?_eq_some_iff.mp hk)
    obtain ⟨hkl, hko⟩ := hk'
    rw [labels_eq _ 0 k (by simpa using hkl)]
    simp [hko, List.getD, hn, hs, List.map_map, Function.comp_def]

/-- C11, the ranges: when every size is at least 1 the announced ranges are disjoint and cover the columns `0 .. total-1`: every column
below the total belongs to exactly one quantity. -/
theorem C11_ranges_partition (sizes : List Int) (hs : ∀ s ∈ sizes, 1 ≤ s) (c : Int) (h0 : 0 ≤ c) (hc : c < sizes.sum) :
    ∃! k : Nat, k < sizes.length ∧ startCol sizes k ≤ c ∧ c ≤ startCol sizes k + sizes.getD k 0 - 1 := by
  induction sizes generalizing c with
  | nil => simp at hc; omega
  | cons s ss ih =>
    have hs1 := hs s (by simp)
    have hss : ∀ x ∈ ss, 1 ≤ x := fun x hx => hs x (by simp [hx])
    have hnn : ∀ k, 0 ≤ startCol ss k := by
      intro k
      unfold startCol
      have : ∀ l : List Int, (∀ x ∈ l, 1 ≤ x) → 0 ≤ l.sum := by
        intro l hl
        induction l with
        | nil => simp
        | cons a l ih' =>
          have := ih' (fun x hx => hl x (by simp [hx]))
          have := hl a (by simp)
          simp; omega
      exact this _ (fun x hx => hss x (List.mem_of_mem_take hx))
    by_cases hlt : c < s
    · refine ⟨0, ⟨by simp, by simpa [startCol] using h0, by simp [startCol]; omega⟩, ?_⟩
      rintro k ⟨hk1, hk2, hk3⟩
      cases k with
      | zero => rfl
      | succ k =>
        exfalso
        have := hnn k
        simp only [startCol, List.take_succ_cons, List.sum_cons] at hk2 this
        omega
    · obtain ⟨k, ⟨hk1, hk2, hk3⟩, huniq⟩ := ih hss (c - s) (by omega) (by rw [List.sum_cons] at hc; omega)
      refine ⟨k + 1, ⟨by simpa using hk1, ?_, ?_⟩, ?_⟩
      · simp only [startCol, List.take_succ_cons, List.sum_cons] at hk2 ⊢; omega
      · simp only [startCol, List.take_succ_cons, List.sum_cons, List.getD_cons_succ] at hk3 ⊢; omega
      · rintro j ⟨hj1, hj2, hj3⟩
        cases j with
        | zero => simp [startCol] at hj3; omega
        | succ j =>
          congr 1
          apply huniq
          refine ⟨by simpa using hj1, ?_, ?_⟩
          · simp only [startCol, List.take_succ_cons, List.sum_cons] at hj2 ⊢; omega
          · simp only [startCol, List.take_succ_cons, List.sum_cons, List.getD_cons_succ] at hj3 ⊢; omega

example : commentString ["ID".toList, "Snap".toList] ["P_ijk".toList] [0, 2, 1] [1, 1, 10] =
    some "# Column contents: ID(0) P_ijk(1-10) Snap(11)".toList := by
  simp [commentString, orderNames, labels, itoa, natDigits, digitChar, joinWith]

/-! C09: alignment -/

theorem colWidth_ge (col : List Str) (w : Nat) :
    w ≤ col.foldl (fun w s => if w < s.length then s.length else w) w ∧ ∀ s ∈ col, s.length ≤ col.foldl (fun w s => if w < s.length then s.length else w) w := by
  induction col generalizing w with
  | nil => simp
  | cons a col ih =>
    rw [List.foldl_cons]
    obtain ⟨h1, h2⟩ := ih (if w < a.length then a.length else w)
    refine ⟨?_, ?_⟩
    · refine Nat.le_trans ?_ h1; split <;> omega
    · intro s hs
      rcases List.mem_cons.mp hs with rfl | hs
      · refine Nat.le_trans ?_ h1; split <;> omega
      · exact h2 s hs

theorem padded_length (col : List Str) (s : Str) (hs : s ∈ col.map (padLeft (colWidth col))) : s.length = colWidth col := by
  obtain ⟨r, hr, rfl⟩ := List.mem_map.mp hs
  have := (colWidth_ge col 0).2 r hr
  change r.length ≤ colWidth col at this
  simp [padLeft]; omega

theorem orderCols_mem (ic fc : List (List Str)) (order : List Nat) {cols : List (List Str)} (h : orderCols ic fc order = some cols) : ∀ c ∈ cols, c ∈ ic ++ fc := by
  induction order generalizing cols with
  | nil => cases h; simp
  | cons o os ih =>
    unfold orderCols at h
    split at h
    · simp at h
    · dsimp only [Option.bind_eq_bind] at h
      have h' : ∃ c, (if o < ic.length then ic[o]? else fc[o - ic.length]?) = some c ∧ ∃ cs, orderCols ic fc os = some cs ∧ some (c :: cs) = some cols := by
        split at h
        · rename_i hlt
          rw [if_pos hlt]
          simp only [Option.bind_eq_some_iff] at h
          exact h
        · rename_i hlt
          rw [if_neg hlt]
          simp only [Option.bind_eq_some_iff] at h
          exact h
      obtain ⟨c, hc, cs, hcs, hx⟩ := h'
      cases hx
      intro d hd
      rcases List.mem_cons.mp hd with rfl | hd
      · split at hc
        · exact List.mem_append_left _ (List.mem_of_getElem? hc)
        · exact List.mem_append_right _ (List.mem_of_getElem? hc)
      · exact ih hcs d hd

theorem mapM_mem {α β : Type} (f : α → Option β) : ∀ (l : List α) (l' : List β), l.mapM f = some l' → ∀ b ∈ l', ∃ a ∈ l, f a = some b := by
  intro l
  induction l with
  | nil => intro l' h b hb; simp at h; subst h; simp at hb
  | cons a l ih =>
    intro l' h b hb
    simp only [List.mapM_cons, Option.bind_eq_bind, Option.bind_eq_some_iff, Option.pure_def, Option.some.injEq] at h
    obtain ⟨x, hx, xs, hxs, rfl⟩ := h
    rcases List.mem_cons.mp hb with rfl | hb
    · exact ⟨a, by simp, hx⟩
    · obtain ⟨a', ha', h'⟩ := ih xs hxs b hb
      exact ⟨a', by simp [ha'], h'⟩

theorem joinWith_length (c : Char) (ts us : List Str) (h : List.Forall₂ (fun a b : Str => a.length = b.length) ts us) : (joinWith c ts).length = (joinWith c us).length := by
  induction h with
  | nil => rfl
  | cons h hs ih =>
    rename_i a b as bs
    cases hs with
    | nil => simpa [joinWith] using h
    | cons h' hs' => simp only [joinWith, List.length_append, List.length_cons] at ih ⊢; omega

/-- C09: the columns of a written catalog are aligned: all lines have the same length. -/
theorem C09_aligned (ff : FloatFmt F) (intCols : List (List Int)) (floatCols : List (List F)) (order : List Nat) {lines : List Str}
    (h : formatCols ff intCols floatCols order = some lines) : ∀ a ∈ lines, ∀ b ∈ lines, a.length = b.length := by
  unfold formatCols at h
  split at h
  · cases h; simp
  · simp only [Option.bind_eq_bind, Option.bind_eq_some_iff] at h
    obtain ⟨n, hn, cols, hcols, rows, hrows, hl⟩ := h
    cases hl
    have hsame : ∀ c ∈ cols, ∃ w, ∀ s ∈ c, s.length = w := by
      intro c hc
      rcases List.mem_append.mp (orderCols_mem _ _ _ hcols c hc) with h | h
      · obtain ⟨col, -, rfl⟩ := List.mem_map.mp h
        exact ⟨_, fun s hs => padded_length _ s hs⟩
      · obtain ⟨col, -, rfl⟩ := List.mem_map.mp h
        exact ⟨_, fun s hs => padded_length _ s hs⟩
    have hrow : ∀ r ∈ rows, ∃ i, rowTokens (intCols.length + floatCols.length) cols i = some r := by
      intro r hr
      obtain ⟨i, -, hi⟩ := mapM_mem _ _ _ hrows r hr
      exact ⟨i, hi⟩
    intro a ha b hb
    obtain ⟨ra, hra, rfl⟩ := List.mem_map.mp ha
    obtain ⟨rb, hrb, rfl⟩ := List.mem_map.mp hb
    obtain ⟨i, hi⟩ := hrow ra hra
    obtain ⟨j, hj⟩ := hrow rb hrb
    refine joinWith_length _ _ _ ?_
    unfold rowTokens at hi hj
    split at hi
    · simp at hi
    rename_i hlen
    rw [if_neg hlen] at hj
    obtain ⟨ta, hta, rfl⟩ := Option.map_eq_some_iff.mp hi
    obtain ⟨tb, htb, rfl⟩ := Option.map_eq_some_iff.mp hj
    refine List.rel_append (R := fun a b : Str => a.length = b.length) ?_ (List.forall₂_same.mpr fun _ _ => rfl)
    clear hi hj hrow hrows hcols hlen ha hb hra hrb
    induction cols generalizing ta tb with
    | nil => simp at hta htb; subst hta htb; exact .nil
    | cons c cs ih =>
      simp only [List.mapM_cons, Option.bind_eq_bind, Option.bind_eq_some_iff, Option.pure_def, Option.some.injEq] at hta htb
      obtain ⟨x, hx, xs, hxs, rfl⟩ := hta
      obtain ⟨y, hy, ys, hys, rfl⟩ := htb
      obtain ⟨w, hw⟩ := hsame c (by simp)
      refine .cons ((hw _ (List.mem_of_getElem? hx)).trans (hw _ (List.mem_of_getElem? hy)).symm) ?_
      exact ih (fun c hc => hsame c (by simp [hc])) xs hxs ys hys

end Shellfish.Catalog
