/-
C09: the words of the lines written by `FormatCols`.
-/
import Verif.Props.CatalogWrite

namespace Shellfish.Catalog
open Shellfish.Text

variable {F : Type} (ff : FloatFmt F)

/-- The text of entry `i` of column `o`, integer columns first. -/
def cellText (intCols : List (List Int)) (floatCols : List (List F)) (i o : Nat) : Str :=
  ((intCols.map (fun c => c.map itoa) ++ floatCols.map (fun c => c.map ff.fmt)).getD o []).getD i []

/-- C09 (words): for columns of the same height, line `i` consists of the texts of entry `i` of the columns listed in `order`, in this order. -/
theorem C09_words (h : Nat) (hpos : 0 < h) (intCols : List (List Int)) (floatCols : List (List F)) (order : List Nat)
    (hne : intCols ≠ [] ∨ floatCols ≠ []) (hi : ∀ col ∈ intCols, col.length = h)
    (hf : ∀ col ∈ floatCols, col.length = h ∧ ∀ x ∈ col, ff.fmt x ≠ [] ∧ ' ' ∉ ff.fmt x)
    (ho : ∀ o ∈ order, o < intCols.length + floatCols.length) (hol : order.length ≤ intCols.length + floatCols.length) :
    ∃ lines, formatCols ff intCols floatCols order = some lines ∧ lines.length = h ∧
      ∀ i < h, ∃ l, lines[i]? = some l ∧ words ' ' l = order.map (cellText ff intCols floatCols i) := by
  set nC := intCols.length + floatCols.length with hnC
  set pad : List (List Str) := intCols.map formatIntCol ++ floatCols.map (formatFloatCol ff) with hpad
  set raw : List (List Str) := intCols.map (fun c => c.map itoa) ++ floatCols.map (fun c => c.map ff.fmt) with hraw
  have hentry : ∀ o, o < nC → ∃ w col, pad[o]? = some (col.map (padLeft w)) ∧ raw[o]? = some col ∧ col.length = h ∧
      ∀ s ∈ col, s ≠ [] ∧ ' ' ∉ s := by
    intro o hoN
    by_cases hlt : o < intCols.length
    · refine ⟨colWidth (intCols[o].map itoa), intCols[o].map itoa, ?_, ?_, ?_, ?_⟩
      · rw [hpad, List.getElem?_append_left (by simpa using hlt), List.getElem?_map, List.getElem?_eq_getElem hlt]; rfl
      · rw [hraw, List.getElem?_append_left (by simpa using hlt), List.getElem?_map, List.getElem?_eq_getElem hlt]; rfl
      · rw [List.length_map]; exact hi _ (List.getElem_mem hlt)
      · intro s hs
        rw [List.mem_map] at hs
        obtain ⟨x, _, rfl⟩ := hs
        exact ⟨itoa_ne_nil x, fun hm => by have := (itoa_numChar x _ hm).1; revert this; decide⟩
    · have hlt' : o - intCols.length < floatCols.length := by omega
      refine ⟨colWidth (floatCols[o - intCols.length].map ff.fmt), floatCols[o - intCols.length].map ff.fmt, ?_, ?_, ?_, ?_⟩
      · rw [hpad, List.getElem?_append_right (by simpa using Nat.le_of_not_lt hlt), List.length_map, List.getElem?_map,
          List.getElem?_eq_getElem hlt']; rfl
      · rw [hraw, List.getElem?_append_right (by simpa using Nat.le_of_not_lt hlt), List.length_map, List.getElem?_map,
          List.getElem?_eq_getElem hlt']; rfl
      · rw [List.length_map]; exact (hf _ (List.getElem_mem hlt')).1
      · intro s hs
        rw [List.mem_map] at hs
        obtain ⟨x, hx, rfl⟩ := hs
        exact (hf _ (List.getElem_mem hlt')).2 x hx
  have hheights : checkHeights none (intCols.map List.length ++ floatCols.map List.length) = some (some h) := by
    apply (checkHeights_eq h hpos _ _).2
    · rcases hne with h | h <;> simp [h]
    · intro x hx
      rw [List.mem_append, List.mem_map, List.mem_map] at hx
      rcases hx with ⟨c, hc, rfl⟩ | ⟨c, hc, rfl⟩
      · exact hi c hc
      · exact (hf c hc).1
  have hguard : ¬ ((intCols = [] ∧ floatCols.length = 0) ∨ intCols.head? = some [] ∨ floatCols.head?.map List.length = some 0) := by
    rintro (⟨h1, h2⟩ | h1 | h1)
    · rcases hne with h | h
      · exact h h1
      · exact h (List.length_eq_zero_iff.mp h2)
    · have := hi [] (List.mem_of_head? h1)
      simp at this; omega
    · rw [Option.map_eq_some_iff] at h1
      obtain ⟨c, hc1, hc2⟩ := h1
      have := (hf c (List.mem_of_head? hc1)).1
      omega
  let cellP : Nat → Nat → Str := fun i o => (pad.getD o []).getD i []
  let cell : Nat → Nat → Str := fun i o => (raw.getD o []).getD i []
  have hcellP : ∀ i o, i < h → o < nC → ∃ w s, cellP i o = padLeft w s ∧ cell i o = s ∧ s ≠ [] ∧ ' ' ∉ s := by
    intro i o hi' ho'
    obtain ⟨w, col, h1, h2, h3, h4⟩ := hentry o ho'
    have hi'' : i < col.length := by omega
    refine ⟨w, col[i], ?_, ?_, (h4 _ (List.getElem_mem hi'')).1, (h4 _ (List.getElem_mem hi'')).2⟩
    · simp [cellP, List.getD, h1, hi'']
    · simp [cell, List.getD, h2, hi'']
  have hrows : (List.range h).mapM (rowTokens nC (order.map fun o => pad.getD o [])) =
      some ((List.range h).map fun i => order.map (cellP i) ++ List.replicate (nC - order.length) []) := by
    apply mapM_some
    intro i hi'
    rw [List.mem_range] at hi'
    unfold rowTokens
    rw [List.length_map, if_neg (by omega)]
    have : (order.map fun o => pad.getD o []).mapM (fun c => c[i]?) = some ((order.map fun o => pad.getD o []).map fun c => c.getD i []) := by
      apply mapM_some
      intro c hc
      rw [List.mem_map] at hc
      obtain ⟨o, ho', rfl⟩ := hc
      obtain ⟨w, col, h1, h2, h3, h4⟩ := hentry o (ho o ho')
      have : i < col.length := by omega
      simp [List.getD, h1, this]
    rw [this]
    simp [cellP, List.map_map, Function.comp_def]
  let lines : List Str := (List.range h).map fun i => joinWith ' ' (order.map (cellP i) ++ List.replicate (nC - order.length) [])
  have hformat : formatCols ff intCols floatCols order = some lines := by
    unfold formatCols
    rw [if_neg hguard, hheights]
    simp only [Option.bind_eq_bind, Option.bind_some, Option.getD_some]
    rw [orderCols_eq _ _ _ (by simpa using ho)]
    simp only [Option.bind_some]
    rw [← hpad, ← hnC, hrows]
    simp [lines, List.map_map, Function.comp_def]
  have hwords : ∀ i, i < h → words ' ' (joinWith ' ' (order.map (cellP i) ++ List.replicate (nC - order.length) [])) = order.map (cell i) := by
    intro i hi'
    rw [words_join, List.flatMap_append]
    have e2 : (List.replicate (nC - order.length) ([] : Str)).flatMap (words ' ') = [] := by
      rw [List.flatMap_eq_nil_iff]
      intro x hx
      rw [List.eq_of_mem_replicate hx, words_nil]
    rw [e2, List.append_nil]
    clear hol e2 hrows hformat lines
    induction order with
    | nil => rfl
    | cons o os ih =>
      obtain ⟨w, s, h1, h2, h3, h4⟩ := hcellP i o hi' (ho o (by simp))
      rw [List.map_cons, List.flatMap_cons, ih (fun x hx => ho x (by simp [hx])), List.map_cons, h1, h2, words_padLeft w s h3 h4]
      rfl
  refine ⟨lines, hformat, by simp [lines], fun i hi' => ⟨_, ?_, hwords i hi'⟩⟩
  simp [lines, hi']

/-- Two integer columns and a float column in another order (`F` = letters, written as themselves). -/
example : ∃ lines, formatCols (⟨fun c => [c], fun _ => none⟩ : FloatFmt Char) [[1, 20], [-3, 4]] [['a', 'b']] [2, 1, 0] = some lines ∧ lines.length = 2 ∧
    ∀ i < 2, ∃ l, lines[i]? = some l ∧ words ' ' l = [2, 1, 0].map (cellText ⟨fun c => [c], fun _ => none⟩ [[1, 20], [-3, 4]] [['a', 'b']] i) :=
  C09_words _ 2 (by omega) _ _ _ (by simp) (by decide) (by decide) (by decide) (by decide)

end Shellfish.Catalog
