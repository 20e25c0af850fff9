/-
Lemmas for C96 and C97: what a catalog that was printed is read back as.
-/
import Verif.Model.Pipe
import Verif.Props.CatalogWords
import Verif.Props.CatalogWrite
import Verif.Props.Group

namespace Shellfish.Pipe
open Shellfish.Text Shellfish.Main
open Shellfish.Catalog
open Shellfish.Cmd (transpose)

variable {F : Type}

theorem printed_join (c : Str) (ls : List Str) : printed (c :: ls) = joinWith '\n' (c :: ls) ++ ['\n'] := by
  induction ls generalizing c with
  | nil => simp [printed, println, joinWith]
  | cons l ls ih =>
    have e : printed (c :: l :: ls) = println c ++ printed (l :: ls) := rfl
    rw [e, ih, show joinWith '\n' (c :: l :: ls) = c ++ '\n' :: joinWith '\n' (l :: ls) from rfl]
    simp [println]

theorem splitOn_end (s : Str) : splitOn '\n' (s ++ ['\n']) = splitOn '\n' s ++ [[]] := by
  induction s with
  | nil => rfl
  | cons c cs ih =>
    rw [List.cons_append]
    by_cases hc : c = '\n'
    · rw [splitOn, if_pos hc, ih, splitOn, if_pos hc]; rfl
    · rw [splitOn, if_neg hc, ih, splitOn, if_neg hc]
      cases h : splitOn '\n' cs with
      | nil => exact absurd h (splitOn_ne_nil _ _)
      | cons t ts => rfl

theorem dataLines_end (s : Str) : dataLines (s ++ ['\n']) = dataLines s := by
  unfold dataLines
  rw [splitOn_end, List.map_append, List.filter_append]
  simp [words_nil]

theorem parse_end (ff : FloatFmt F) (s : Str) (ics fcs : List Nat) : parse ff (s ++ ['\n']) ics fcs = parse ff s ics fcs := by
  rw [parse_eq, parse_eq, dataLines_end]

theorem atoi_range (s : Str) (n : Int) (h : atoi s = some n) : minInt ≤ n ∧ n ≤ maxInt := by
  have key : ∀ m : Int, inIntRange m = some n → minInt ≤ n ∧ n ≤ maxInt := by
    intro m hm
    unfold inIntRange at hm
    by_cases hc : minInt ≤ m ∧ m ≤ maxInt
    · rw [if_pos hc] at hm; cases hm; exact hc
    · rw [if_neg hc] at hm; cases hm
  unfold atoi at h
  split at h <;> (rw [Option.bind_eq_some_iff] at h; obtain ⟨m, _, hm⟩ := h; exact key _ hm)

theorem convRow_ok {α : Type} (f : Str → Option α) (ws : List Str) : ∀ (js : List Nat) (as : List α), convRow f ws js = .ok as → as.length = js.length ∧ ∀ a ∈ as, ∃ w, f w = some a
  | [], as, h => by cases h; simp
  | j :: js, as, h => by
    unfold convRow at h
    cases hw : ws[j]? with
    | none => rw [hw] at h; cases h
    | some w =>
      rw [hw] at h
      dsimp only at h
      cases hf : f w with
      | none => rw [hf] at h; cases h
      | some a =>
        rw [hf] at h
        dsimp only at h
        cases hr : convRow f ws js with
        | ok as' =>
          rw [hr] at h
          cases h
          obtain ⟨h1, h2⟩ := convRow_ok f ws js as' hr
          refine ⟨by simp [h1], ?_⟩
          intro b hb
          rcases List.mem_cons.mp hb with rfl | hb
          · exact ⟨w, hf⟩
          · exact h2 b hb
        | err => rw [hr] at h; cases h
        | panic => rw [hr] at h; cases h

theorem parseRows_ok (ff : FloatFmt F) (sep : Char) (width : Nat) (ics fcs : List Nat) : ∀ (ls buf : List Str) (rows : List (List Int × List F)), parseRows ff sep width ics fcs ls buf = .ok rows →
    (∀ r ∈ rows, r.1.length = ics.length ∧ r.2.length = fcs.length ∧ ∀ a ∈ r.1, ∃ w, atoi w = some a) ∧ parseRows ff sep width ics [] ls buf = .ok (rows.map fun r => (r.1, []))
  | [], buf, rows, h => by cases h; exact ⟨by simp, rfl⟩
  | l :: ls, buf, rows, h => by
    unfold parseRows at h ⊢
    cases hf : fields l sep buf with
    | none => rw [hf] at h; cases h
    | some wb =>
      rw [hf] at h
      obtain ⟨ws, buf'⟩ := wb
      dsimp only at h ⊢
      by_cases hl : ws.length ≠ width
      · rw [if_pos hl] at h; cases h
      · rw [if_neg hl] at h ⊢
        cases hi : convRow atoi ws ics with
        | err => rw [hi] at h; cases h
        | panic => rw [hi] at h; cases h
        | ok is =>
          rw [hi] at h
          dsimp only at h ⊢
          cases hg : convRow ff.parse ws fcs with
          | err => rw [hg] at h; cases h
          | panic => rw [hg] at h; cases h
          | ok fs =>
            rw [hg] at h
            dsimp only at h
            cases hr : parseRows ff sep width ics fcs ls buf' with
            | err => rw [hr] at h; cases h
            | panic => rw [hr] at h; cases h
            | ok rs =>
              rw [hr] at h
              cases h
              obtain ⟨h1, h2⟩ := parseRows_ok ff sep width ics fcs ls buf' rs hr
              obtain ⟨a1, a2⟩ := convRow_ok _ _ _ _ hi
              obtain ⟨b1, _⟩ := convRow_ok _ _ _ _ hg
              refine ⟨?_, ?_⟩
              · intro r hr'
                rcases List.mem_cons.mp hr' with rfl | hr'
                · exact ⟨a1, b1, a2⟩
                · exact h1 r hr'
              · simp only [convRow]
                rw [h2]
                rfl

theorem column_length {α β : Type} (rows : List β) (g : β → List α) (n j : Nat) (hj : j < n) (h : ∀ r ∈ rows, (g r).length = n) : (rows.filterMap fun r => (g r)[j]?).length = rows.length := by
  induction rows with
  | nil => rfl
  | cons r rows ih =>
    have hr := h r (by simp)
    have e : (g r)[j]? = some ((g r)[j]'(by omega)) := List.getElem?_eq_getElem _
    rw [List.filterMap_cons, e]
    simp only [List.length_cons]
    rw [ih fun x hx => h x (by simp [hx])]

/-- What a successful reading gives: all columns have the same height, the integers are 64-bit ones, and reading the integers alone gives the same. -/
theorem parse_facts (ff : FloatFmt F) (s : Str) (ics fcs : List Nat) (A : List (List Int)) (B : List (List F)) (h : parse ff s ics fcs = .ok (A, B)) :
    A.length = ics.length ∧ B.length = fcs.length ∧ (∃ n, (∀ col ∈ A, col.length = n) ∧ ∀ col ∈ B, col.length = n) ∧ (∀ col ∈ A, ∀ x ∈ col, minInt ≤ x ∧ x ≤ maxInt) ∧ parse ff s ics [] = .ok (A, []) := by
  rw [parse_eq] at h ⊢
  unfold parseLines at h ⊢
  cases hd : dataLines s with
  | nil =>
    rw [hd] at h
    cases h
    refine ⟨by simp, by simp, ⟨0, ?_, ?_⟩, ?_, rfl⟩
    · intro c hc; obtain ⟨_, _, rfl⟩ := List.mem_map.mp hc; rfl
    · intro c hc; obtain ⟨_, _, rfl⟩ := List.mem_map.mp hc; rfl
    · intro c hc; obtain ⟨_, _, rfl⟩ := List.mem_map.mp hc; simp
  | cons l0 ls =>
    rw [hd] at h
    dsimp only at h ⊢
    by_cases hw : ((ics ++ fcs).any fun c => decide (countFields goSpace false l0 ≤ c)) = true
    · rw [if_pos hw] at h; cases h
    · rw [if_neg hw] at h
      have hw' : ¬ ((ics ++ []).any fun c => decide (countFields goSpace false l0 ≤ c)) = true := by
        intro hc
        apply hw
        rw [List.append_nil] at hc
        rw [List.any_append, hc]; rfl
      rw [if_neg hw']
      cases hr : parseRows ff ' ' (countFields goSpace false l0) ics fcs (l0 :: ls) (List.replicate (countFields goSpace false l0) []) with
      | err => rw [hr] at h; cases h
      | panic => rw [hr] at h; cases h
      | ok rows =>
        rw [hr] at h
        cases h
        obtain ⟨h1, h2⟩ := parseRows_ok ff _ _ _ _ _ _ _ hr
        refine ⟨by simp, by simp, ⟨rows.length, ?_, ?_⟩, ?_, ?_⟩
        · intro c hc
          obtain ⟨j, hj, rfl⟩ := List.mem_map.mp hc
          exact column_length rows Prod.fst ics.length j (List.mem_range.mp hj) fun r hr => (h1 r hr).1
        · intro c hc
          obtain ⟨j, hj, rfl⟩ := List.mem_map.mp hc
          exact column_length rows Prod.snd fcs.length j (List.mem_range.mp hj) fun r hr => (h1 r hr).2.1
        · intro c hc x hx
          obtain ⟨j, hj, rfl⟩ := List.mem_map.mp hc
          obtain ⟨r, hr, e⟩ := List.mem_filterMap.mp hx
          obtain ⟨w, hw⟩ := (h1 r hr).2.2 x (List.mem_of_getElem? e)
          exact atoi_range w x hw
        · rw [h2]
          dsimp only
          congr 2
          apply List.map_congr_left
          intro j _
          rw [List.filterMap_map]
          rfl

/-- The order of the columns is in range if `FormatCols` does not panic and there are rows. -/
theorem formatCols_order (ff : FloatFmt F) (h : Nat) (hpos : 0 < h) (icols : List (List Int)) (fcols : List (List F)) (order : List Nat) (hne : icols ≠ []) (hi : ∀ c ∈ icols, c.length = h)
    (hf : ∀ c ∈ fcols, c.length = h) (ls : List Str) (hl : formatCols ff icols fcols order = some ls) : (∀ o ∈ order, o < icols.length + fcols.length) ∧ order.length ≤ icols.length + fcols.length := by
  unfold formatCols at hl
  have hguard : ¬ ((icols = [] ∧ fcols.length = 0) ∨ icols.head? = some [] ∨ fcols.head?.map List.length = some 0) := by
    rintro (⟨h1, _⟩ | h1 | h1)
    · exact hne h1
    · have := hi [] (List.mem_of_head? h1)
      simp at this; omega
    · rw [Option.map_eq_some_iff] at h1
      obtain ⟨c, hc1, hc2⟩ := h1
      have := hf c (List.mem_of_head? hc1)
      omega
  have hheights : checkHeights none (icols.map List.length ++ fcols.map List.length) = some (some h) := by
    apply (checkHeights_eq h hpos _ _).2
    · simp [hne]
    · intro x hx
      rw [List.mem_append, List.mem_map, List.mem_map] at hx
      rcases hx with ⟨c, hc, rfl⟩ | ⟨c, hc, rfl⟩
      · exact hi c hc
      · exact hf c hc
  rw [if_neg hguard, hheights] at hl
  simp only [Option.bind_eq_bind, Option.bind_some, Option.getD_some] at hl
  rw [Option.bind_eq_some_iff] at hl
  obtain ⟨cols, hc, hl⟩ := hl
  rw [Option.bind_eq_some_iff] at hl
  obtain ⟨rows, hr, _⟩ := hl
  have key : ∀ (order : List Nat) (cols : List (List Str)), orderCols (icols.map formatIntCol) (fcols.map (formatFloatCol ff)) order = some cols →
      (∀ o ∈ order, o < icols.length + fcols.length) ∧ cols.length = order.length := by
    intro order
    induction order with
    | nil => intro cols h; cases h; simp
    | cons o os ih =>
      intro cols h
      unfold orderCols at h
      by_cases hlt : (icols.map formatIntCol).length + (fcols.map (formatFloatCol ff)).length ≤ o
      · rw [if_pos hlt] at h; cases h
      · rw [if_neg hlt] at h
        simp only [Option.bind_eq_bind] at h
        have h' : ∃ c cs, orderCols (icols.map formatIntCol) (fcols.map (formatFloatCol ff)) os = some cs ∧ cols = c :: cs := by
          by_cases hb : o < (icols.map formatIntCol).length
          · rw [if_pos hb, Option.bind_eq_some_iff] at h
            obtain ⟨c, _, h⟩ := h
            rw [Option.bind_eq_some_iff] at h
            obtain ⟨cs, hcs, h⟩ := h
            cases h
            exact ⟨c, cs, hcs, rfl⟩
          · rw [if_neg hb, Option.bind_eq_some_iff] at h
            obtain ⟨c, _, h⟩ := h
            rw [Option.bind_eq_some_iff] at h
            obtain ⟨cs, hcs, h⟩ := h
            cases h
            exact ⟨c, cs, hcs, rfl⟩
        obtain ⟨c, cs, hcs, rfl⟩ := h'
        obtain ⟨h1, h2⟩ := ih cs hcs
        refine ⟨?_, by simp [h2]⟩
        intro p hp
        rcases List.mem_cons.mp hp with rfl | hp
        · simp only [List.length_map] at hlt; omega
        · exact h1 p hp
  obtain ⟨k1, k2⟩ := key order cols hc
  refine ⟨k1, ?_⟩
  by_contra hgt
  have : rowTokens (icols.length + fcols.length) cols 0 = none := by
    unfold rowTokens
    rw [if_pos (by omega)]
  obtain ⟨n, rfl⟩ : ∃ n, h = n + 1 := ⟨h - 1, by omega⟩
  rw [List.range_succ_eq_map, List.mapM_cons, this] at hr
  cases hr

/-- One write and one read of a float gives `rd` of it. -/
def Reads (ff : FloatFmt F) (rd : F → F) : Prop := ∀ x, ff.fmt x ≠ [] ∧ (∀ c ∈ ff.fmt x, numChar c) ∧ ff.parse (ff.fmt x) = some (rd x)

/-- A written catalog is read back. -/
theorem written_reads (ff : FloatFmt F) (rd : F → F) (hff : Reads ff rd) (h : Nat) (hpos : 0 < h) (icols : List (List Int)) (fcols : List (List F)) (order : List Nat) (hne : icols ≠ [])
    (hi : ∀ c ∈ icols, c.length = h ∧ ∀ x ∈ c, minInt ≤ x ∧ x ≤ maxInt) (hf : ∀ c ∈ fcols, c.length = h) (ls : List Str) (hl : formatCols ff icols fcols order = some ls) (t : Str) (ht : '\n' ∉ t)
    (ics fcs : List Nat) (hics : ∀ p ∈ ics, ∃ o, order[p]? = some o ∧ o < icols.length) (hfcs : ∀ p ∈ fcs, ∃ o, order[p]? = some o ∧ icols.length ≤ o) :
    ∃ A B, ls.length = h ∧ parse ff (printed (('#' :: t) :: ls)) ics fcs = .ok (A, B) ∧ List.Forall₂ (fun p col => ∃ o, order[p]? = some o ∧ icols[o]? = some col) ics A ∧
      List.Forall₂ (fun p col => ∃ o c, order[p]? = some (icols.length + o) ∧ fcols[o]? = some c ∧ col = c.map rd) fcs B := by
  obtain ⟨ho, hol⟩ := formatCols_order ff h hpos icols fcols order hne (fun c hc => (hi c hc).1) hf ls hl
  obtain ⟨ls', A, B, e1, e2, e3, e4, e5⟩ := C09_round_trip ff rd h hpos icols fcols order (Or.inl hne) hi (fun c hc => ⟨hf c hc, fun x _ => hff x⟩) ho hol ['#' :: t]
    (by intro l hl; rw [List.mem_singleton] at hl; exact ⟨t, hl, ht⟩) ics fcs hics hfcs
  rw [hl] at e1
  cases e1
  refine ⟨A, B, e2, ?_, e4, e5⟩
  rw [printed_join, parse_end]
  exact e3

/-- The characters of written lines. -/
theorem formatCols_chars (ff : FloatFmt F) (icols : List (List Int)) (fcols : List (List F)) (order : List Nat) (hff : ∀ col ∈ fcols, ∀ x ∈ col, ∀ c ∈ ff.fmt x, numChar c) (ls : List Str)
    (hl : formatCols ff icols fcols order = some ls) : ∀ l ∈ ls, ∀ c ∈ l, c = ' ' ∨ numChar c := by
  unfold formatCols at hl
  by_cases hg : (icols = [] ∧ fcols.length = 0) ∨ icols.head? = some [] ∨ fcols.head?.map List.length = some 0
  · rw [if_pos hg] at hl; cases hl; simp
  · rw [if_neg hg] at hl
    simp only [Option.bind_eq_bind, Option.bind_eq_some_iff] at hl
    obtain ⟨n, -, cols, hcols, rows, hrows, hl⟩ := hl
    cases hl
    have hcell : ∀ c ∈ cols, ∀ s ∈ c, ∀ ch ∈ s, ch = ' ' ∨ numChar ch := by
      intro c hc s hs ch hch
      rcases List.mem_append.mp (orderCols_mem _ _ _ hcols c hc) with h | h
      · obtain ⟨col, -, rfl⟩ := List.mem_map.mp h
        unfold formatIntCol at hs
        simp only [List.mem_map] at hs
        obtain ⟨s', ⟨x, hx, rfl⟩, rfl⟩ := hs
        unfold padLeft at hch
        rcases List.mem_append.mp hch with hch | hch
        · exact Or.inl (List.eq_of_mem_replicate hch)
        · exact Or.inr (itoa_numChar x ch hch)
      · obtain ⟨col, hcol, rfl⟩ := List.mem_map.mp h
        unfold formatFloatCol at hs
        simp only [List.mem_map] at hs
        obtain ⟨s', ⟨x, hx, rfl⟩, rfl⟩ := hs
        unfold padLeft at hch
        rcases List.mem_append.mp hch with hch | hch
        · exact Or.inl (List.eq_of_mem_replicate hch)
        · exact Or.inr (hff col hcol x hx ch hch)
    have hmem : ∀ {α β : Type} (f : α → Option β) (l : List α) (r : List β), l.mapM f = some r → ∀ b ∈ r, ∃ a ∈ l, f a = some b := by
      intro α β f l
      induction l with
      | nil => intro r h b hb; cases h; cases hb
      | cons a l ih =>
        intro r h b hb
        rw [List.mapM_cons] at h
        simp only [Option.bind_eq_bind, Option.bind_eq_some_iff] at h
        obtain ⟨b', hb', r', hr', h⟩ := h
        cases h
        rcases List.mem_cons.mp hb with rfl | hb
        · exact ⟨a, by simp, hb'⟩
        · obtain ⟨a', ha', e⟩ := ih r' hr' b hb
          exact ⟨a', by simp [ha'], e⟩
    intro l hl c hc
    obtain ⟨toks, ht, rfl⟩ := List.mem_map.mp hl
    rcases mem_join _ _ _ hc with rfl | ⟨tok, htok, hct⟩
    · exact Or.inl rfl
    · obtain ⟨i, _, hi⟩ := hmem _ _ _ hrows toks ht
      unfold rowTokens at hi
      by_cases hlt : icols.length + fcols.length < cols.length
      · rw [if_pos hlt] at hi; cases hi
      · rw [if_neg hlt, Option.map_eq_some_iff] at hi
        obtain ⟨ts, hts, rfl⟩ := hi
        rcases List.mem_append.mp htok with htok | htok
        · obtain ⟨col, hcol, e⟩ := hmem _ _ _ hts tok htok
          exact hcell col hcol tok (List.mem_of_getElem? e) c hct
        · rw [List.eq_of_mem_replicate htok] at hct
          cases hct

/-- What is printed under a header is a catalog whose table consists of the words of the lines. -/
theorem printed_table (t : Str) (ht : '\n' ∉ t) (ls : List Str) (hc : ∀ l ∈ ls, ∀ c ∈ l, c = ' ' ∨ numChar c) (hw : ∀ l ∈ ls, words ' ' l ≠ []) :
    Plain (printed (('#' :: t) :: ls)) ∧ table (printed (('#' :: t) :: ls)) = ls.map (words ' ') := by
  have hnl : ∀ l ∈ ('#' :: t) :: ls, '\n' ∉ l := by
    intro l hl hm
    rcases List.mem_cons.mp hl with rfl | hl
    · rcases List.mem_cons.mp hm with h | h
      · revert h; decide
      · exact ht h
    · rcases hc l hl _ hm with h | h
      · revert h; decide
      · have := h.1; revert this; decide
  have hsplit : splitOn '\n' (printed (('#' :: t) :: ls)) = (('#' :: t) :: ls) ++ [[]] := by
    rw [printed_join, splitOn_end, splitOn_join '\n' _ (by simp) hnl]
  have htw : ∀ l ∈ ls, l.takeWhile (· ≠ '#') = l := by
    intro l hl
    apply takeWhile_self
    intro hm
    rcases hc l hl _ hm with h | h
    · revert h; decide
    · exact h.2 rfl
  constructor
  · unfold Plain
    rw [hsplit]
    intro l hl c hcl hg
    rw [List.mem_append, List.mem_cons] at hl
    rcases hl with (rfl | hl) | hl
    · simp at hcl
    · rw [htw l hl] at hcl
      rcases hc l hl c hcl with h | h
      · exact h
      · have := h.1; rw [this] at hg; cases hg
    · rw [List.mem_singleton] at hl
      subst hl
      cases hcl
  · unfold table
    rw [hsplit, List.map_append, List.map_cons, List.filter_append, List.filter_cons]
    have e1 : words ' ' (('#' :: t).takeWhile (· ≠ '#')) = [] := by simp [words_nil]
    rw [e1]
    have e2 : (ls.map fun l => words ' ' (l.takeWhile (· ≠ '#'))) = ls.map (words ' ') := List.map_congr_left fun l hl => by rw [htw l hl]
    rw [e2]
    have e3 : (ls.map (words ' ')).filter (· ≠ []) = ls.map (words ' ') := by
      rw [List.filter_eq_self]
      intro w hw'
      obtain ⟨l, hl, rfl⟩ := List.mem_map.mp hw'
      simpa using hw l hl
    rw [e3]
    simp [words_nil]

/-- A catalog whose rows are an id and a snapshot each, as text. -/
theorem printed_pairs (ff : FloatFmt F) (t : Str) (ht : '\n' ∉ t) (ls : List Str) (hc : ∀ l ∈ ls, ∀ c ∈ l, c = ' ' ∨ numChar c) (rows : List (Int × Int))
    (hr : ∀ r ∈ rows, (minInt ≤ r.1 ∧ r.1 ≤ maxInt) ∧ minInt ≤ r.2 ∧ r.2 ≤ maxInt) (hw : ls.map (words ' ') = rows.map fun e => [itoa e.1, itoa e.2]) :
    parse ff (printed (('#' :: t) :: ls)) [0, 1] [] = .ok ([rows.map Prod.fst, rows.map Prod.snd], []) := by
  obtain ⟨hp, htab⟩ := printed_table t ht ls hc (by
    intro l hl h0
    have : words ' ' l ∈ rows.map fun e => [itoa e.1, itoa e.2] := hw ▸ List.mem_map_of_mem hl
    obtain ⟨e, _, he⟩ := List.mem_map.mp this
    rw [h0] at he
    cases he)
  rw [C10_ok_iff ff _ hp, htab, hw]
  refine ⟨⟨?_, ?_⟩, ?_, .nil⟩
  · intro r hr r' hr'
    obtain ⟨_, _, rfl⟩ := List.mem_map.mp hr
    obtain ⟨_, _, rfl⟩ := List.mem_map.mp hr'
    rfl
  · intro r hr c hc
    obtain ⟨_, _, rfl⟩ := List.mem_map.mp hr
    simp only [List.append_nil, List.mem_cons, List.not_mem_nil, or_false] at hc
    rcases hc with rfl | rfl <;> simp
  · unfold Columns
    refine .cons ?_ (.cons ?_ .nil)
    · rw [List.forall₂_map_left_iff, List.forall₂_map_right_iff, List.forall₂_same]
      intro e he
      exact ⟨itoa e.1, rfl, atoi_itoa _ (hr e he).1.1 (hr e he).1.2⟩
    · rw [List.forall₂_map_left_iff, List.forall₂_map_right_iff, List.forall₂_same]
      intro e he
      exact ⟨itoa e.2, rfl, atoi_itoa _ (hr e he).2.1 (hr e he).2.2⟩

/-- The columns of a transposed table. -/
theorem transpose_height {β : Type} (inp out : List (List β)) (h : transpose inp = some out) : ∀ c ∈ out, c.length = inp.length := by
  have hmem : ∀ {α γ : Type} (f : α → Option γ) (l : List α) (r : List γ), l.mapM f = some r → r.length = l.length ∧ ∀ b ∈ r, ∃ a ∈ l, f a = some b := by
    intro α γ f l
    induction l with
    | nil => intro r h; cases h; simp
    | cons a l ih =>
      intro r h
      rw [List.mapM_cons] at h
      simp only [Option.bind_eq_bind, Option.bind_eq_some_iff] at h
      obtain ⟨b', hb', r', hr', h⟩ := h
      cases h
      obtain ⟨i1, i2⟩ := ih r' hr'
      refine ⟨by simp [i1], ?_⟩
      intro b hb
      rcases List.mem_cons.mp hb with rfl | hb
      · exact ⟨a, by simp, hb'⟩
      · obtain ⟨a', ha', e⟩ := i2 b hb
        exact ⟨a', by simp [ha'], e⟩
  unfold transpose at h
  cases inp with
  | nil => cases h
  | cons r0 rest =>
    dsimp only at h
    intro c hc
    obtain ⟨x, _, hx⟩ := (hmem _ _ _ h).2 c hc
    exact (hmem _ _ _ hx).1

theorem tableOf_length {α : Type} (ids : List Int) (f : Nat → α) : (tableOf ids f).length = ids.length := by simp [tableOf]

end Shellfish.Pipe
