/-
C96: `coord`, examples, and what is false.  C97: the headers of the tools.
-/
import Verif.Props.PipeMore

namespace Shellfish.Pipe
open Shellfish.Text Shellfish.Main
open Shellfish.Catalog
open Shellfish.Cmd (transpose)

variable {F : Type}

/-! ### `coord` -/

/-- A catalog whose rows begin with an id and a snapshot. -/
theorem printed_rows (ff : FloatFmt F) (t : Str) (ht : '\n' ∉ t) (ls : List Str) (hc : ∀ l ∈ ls, ∀ c ∈ l, c = ' ' ∨ numChar c) (rows : List (Int × Int)) (k : Nat)
    (hr : ∀ r ∈ rows, (minInt ≤ r.1 ∧ r.1 ≤ maxInt) ∧ minInt ≤ r.2 ∧ r.2 ≤ maxInt)
    (hw : List.Forall₂ (fun l e => ∃ ws, words ' ' l = itoa e.1 :: itoa e.2 :: ws ∧ ws.length = k) ls rows) : Holds ff (printed (('#' :: t) :: ls)) rows := by
  have hw' : ∀ l ∈ ls, ∃ e ∈ rows, ∃ ws, words ' ' l = itoa e.1 :: itoa e.2 :: ws ∧ ws.length = k := by
    intro l hl
    obtain ⟨i, hi⟩ := List.mem_iff_getElem.mp hl
    obtain ⟨hi, rfl⟩ := hi
    have := (List.forall₂_iff_get.mp hw).2 i hi (by rw [← hw.length_eq]; exact hi)
    exact ⟨_, List.get_mem rows _, this⟩
  obtain ⟨hp, htab⟩ := printed_table t ht ls hc (by
    intro l hl h0
    obtain ⟨e, _, ws, he, _⟩ := hw' l hl
    rw [h0] at he
    cases he)
  unfold Holds
  rw [C10_ok_iff ff _ hp, htab]
  refine ⟨⟨?_, ?_⟩, ?_, .nil⟩
  · intro r hr r' hr'
    obtain ⟨l, hl, rfl⟩ := List.mem_map.mp hr
    obtain ⟨l', hl', rfl⟩ := List.mem_map.mp hr'
    obtain ⟨_, _, ws, e1, e2⟩ := hw' l hl
    obtain ⟨_, _, ws', e1', e2'⟩ := hw' l' hl'
    rw [e1, e1', List.length_cons, List.length_cons, List.length_cons, List.length_cons, e2, e2']
  · intro r hr c hc
    obtain ⟨l, hl, rfl⟩ := List.mem_map.mp hr
    obtain ⟨_, _, ws, e1, e2⟩ := hw' l hl
    rw [e1]
    simp only [List.append_nil, List.mem_cons, List.not_mem_nil, or_false] at hc
    rcases hc with rfl | rfl <;> simp
  · unfold Columns
    have hall : ∀ (f : Int × Int → Int) (j : Nat), (∀ e : Int × Int, ∀ ws : List Str, (itoa e.1 :: itoa e.2 :: ws)[j]? = some (itoa (f e))) → (∀ e ∈ rows, minInt ≤ f e ∧ f e ≤ maxInt) →
        List.Forall₂ (fun r v => ∃ w, r[j]? = some w ∧ atoi w = some v) (ls.map (words ' ')) (rows.map f) := by
      intro f j hf hb
      rw [List.forall₂_map_left_iff, List.forall₂_map_right_iff]
      rw [List.forall₂_iff_get] at hw ⊢
      refine ⟨hw.1, ?_⟩
      intro i h1 h2
      obtain ⟨ws, e, _⟩ := hw.2 i h1 h2
      refine ⟨_, by rw [e]; exact hf _ _, ?_⟩
      have := hb _ (List.get_mem rows ⟨i, h2⟩)
      exact atoi_itoa _ this.1 this.2
    exact .cons (hall Prod.fst 0 (fun _ _ => rfl) fun e he => (hr e he).1) (.cons (hall Prod.snd 1 (fun _ _ => rfl) fun e he => (hr e he).2) .nil)

theorem comment_hash (intNames floatNames : List Str) (order : List Nat) (sizes : List Int) (c : Str) (h : commentString intNames floatNames order sizes = some c) : ∃ t, c = '#' :: t := by
  unfold commentString at h
  simp only [Option.bind_eq_bind, Option.bind_eq_some_iff] at h
  obtain ⟨l, hl, h⟩ := h
  cases h
  cases labels 0 l with
  | nil => exact ⟨" Column contents:".toList, by rw [show joinWith ' ' ["# Column contents:".toList] = "# Column contents:".toList from rfl]; decide⟩
  | cons a as =>
    rw [show joinWith ' ' ("# Column contents:".toList :: a :: as) = "# Column contents:".toList ++ ' ' :: joinWith ' ' (a :: as) from rfl]
    refine ⟨" Column contents:".toList ++ ' ' :: joinWith ' ' (a :: as), ?_⟩
    rw [show "# Column contents:".toList = '#' :: " Column contents:".toList by decide]
    rfl

section Coord
open Shellfish.Coord

variable {K : Type} [Field K] [LinearOrder K] [IsStrictOrderedRing K] [FloorRing K]

theorem scatter_length (scol : List K) : ∀ (idxs : List Nat) (i : Nat) (col r : List K), scatter scol idxs i col = some r → r.length = col.length
  | [], i, col, r, h => by cases h; rfl
  | idx :: idxs, i, col, r, h => by
    unfold scatter at h
    cases hs : scol[i]? with
    | none => rw [hs] at h; cases h
    | some x =>
      rw [hs] at h
      dsimp only at h
      by_cases hc : idx < col.length
      · rw [if_pos hc] at h
        rw [scatter_length scol idxs _ _ r h, List.length_set]
      · rw [if_neg hc] at h; cases h

theorem zipAll_some {α : Type} (f : List K → Str → List K → Option α) : ∀ (cs : List (List K)) (vs : List Str) (ss : List (List K)) (r : List α), cs.length = vs.length → zipAll f cs vs ss = some r →
    r.length = cs.length ∧ ∀ a ∈ r, ∃ c ∈ cs, ∃ v s, f c v s = some a
  | [], vs, ss, r, _, h => by cases h; simp
  | c :: cs, [], ss, r, hl, h => by simp at hl
  | c :: cs, v :: vs, [], r, _, h => by cases h
  | c :: cs, v :: vs, s :: ss, r, hl, h => by
    unfold zipAll at h
    simp only [Option.bind_eq_some_iff] at h
    obtain ⟨a, ha, as, has, h⟩ := h
    cases h
    obtain ⟨h1, h2⟩ := zipAll_some f cs vs ss as (by simpa using hl) has
    refine ⟨by simp [h1], ?_⟩
    intro b hb
    rcases List.mem_cons.mp hb with rfl | hb
    · exact ⟨c, by simp, v, s, ha⟩
    · obtain ⟨c', hc', x⟩ := h2 b hb
      exact ⟨c', by simp [hc'], x⟩

theorem coords_shape {C : Type} (w : World K C) (g : Cfg) (values : List Str) (ids snaps : List Int) (hne : snaps ≠ []) (order : List Int) (cols : List (List K))
    (h : readHaloCoords w g values ids snaps order = some cols) : cols.length = values.length ∧ ∀ c ∈ cols, c.length = ids.length := by
  unfold readHaloCoords at h
  cases snaps with
  | nil => exact absurd rfl hne
  | cons s0 rest =>
    dsimp only at h
    rw [Option.bind_eq_some_iff] at h
    obtain ⟨b, _, h⟩ := h
    have key : ∀ (order : List Int) (st cols : List (List K)), (st.length = values.length ∧ ∀ c ∈ st, c.length = ids.length) → order.foldlM (snapStep w g values s0 b.1 b.2) st = some cols →
        cols.length = values.length ∧ ∀ c ∈ cols, c.length = ids.length := by
      intro order
      induction order with
      | nil => intro st cols hst h; cases h; exact hst
      | cons s order ih =>
        intro st cols hst h
        rw [List.foldlM_cons] at h
        simp only [Option.bind_eq_bind, Option.bind_eq_some_iff] at h
        obtain ⟨st', h1, h2⟩ := h
        refine ih st' cols ?_ h2
        unfold snapStep at h1
        by_cases hs : s = -1
        · rw [if_pos hs] at h1; cases h1; exact hst
        · rw [if_neg hs] at h1
          simp only [Option.bind_eq_some_iff] at h1
          obtain ⟨c, _, scols, _, h1⟩ := h1
          obtain ⟨z1, z2⟩ := zipAll_some _ st values scols st' hst.1 h1
          refine ⟨by rw [z1, hst.1], ?_⟩
          intro a ha
          obtain ⟨col, hcol, v, scol, e⟩ := z2 a ha
          simp only [Option.bind_eq_some_iff] at e
          obtain ⟨s', _, e⟩ := e
          rw [scatter_length _ _ _ _ _ e]
          exact hst.2 col hcol
    refine key order _ cols ⟨by simp, ?_⟩ h
    intro c hc
    obtain ⟨_, _, rfl⟩ := List.mem_map.mp hc
    simp

theorem typeLoop_comments (g : Cfg) (cols : List (List K)) : ∀ (vs : List Str) (i : Nat) (acc r : Acc K), typeLoop g cols vs i acc = some r → ∀ v ∈ vs, ∃ c, comment g v = some c
  | [], i, acc, r, h, v, hv => by cases hv
  | v0 :: vs, i, acc, r, h, v, hv => by
    unfold typeLoop at h
    cases hc : comment g v0 with
    | none => rw [hc] at h; cases h
    | some c =>
      rw [hc] at h
      dsimp only at h
      rcases List.mem_cons.mp hv with rfl | hv
      · exact ⟨c, hc⟩
      · cases hcol : cols[i]? with
        | none => rw [hcol] at h; cases h
        | some col =>
          rw [hcol] at h
          dsimp only at h
          by_cases ht : isIntType c = true
          · rw [if_pos ht] at h; exact typeLoop_comments g cols vs _ _ r h v hv
          · rw [if_neg ht] at h; exact typeLoop_comments g cols vs _ _ r h v hv

/-- C96, `coord`, whatever the columns, the files and the order in which the snapshots are visited (the names in the configuration have no line breaks). -/
theorem C96_coord {C : Type} (ff : FloatFmt K) (rd : K → K) (hff : Reads ff rd) (w : World K C) (g : Cfg) (known : Str → Bool) (values : List Str) (order : List Int)
    (hn : ∀ c, makeCommentString g values = some c → '\n' ∉ c) : Keeps ff (coordRun ff w g known values order) := by
  intro stdin rows out hh h
  unfold coordRun at h
  unfold Holds at hh
  rw [hh] at h
  simp only [andThen] at h
  cases hr : Shellfish.Coord.run ff w g known values (rows.map Prod.fst) (rows.map Prod.snd) order with
  | none => rw [hr] at h; cases h
  | some ls0 =>
    rw [hr] at h
    cases h
    unfold Shellfish.Coord.run at hr
    by_cases h0 : (rows.map Prod.fst).length = 0
    · rw [if_pos h0] at hr; cases hr
    · rw [if_neg h0] at hr
      by_cases hk : values.all known = false
      · rw [if_pos hk] at hr; cases hr
      · rw [if_neg hk] at hr
        simp only [Option.bind_eq_some_iff, Option.map_eq_some_iff] at hr
        obtain ⟨cols, c1, ls, c2, c, c3, rfl⟩ := hr
        have hne : rows.map Prod.snd ≠ [] := by
          intro h
          apply h0
          rw [List.map_eq_nil_iff] at h
          rw [h]; rfl
        obtain ⟨s1, s2⟩ := coords_shape w g values _ _ hne order cols c1
        obtain ⟨acc, a1, a2⟩ : ∃ acc, typeLoop g cols values 0 ⟨[rows.map Prod.fst, rows.map Prod.snd], [], [0, 1], []⟩ = some acc ∧
            formatCols ff acc.icols acc.fcols (acc.icolOrder ++ acc.fcolOrder) = some ls := by
          unfold lines at c2
          simp only [Option.bind_eq_bind, Option.bind_eq_some_iff] at c2
          exact c2
        have hcm := typeLoop_comments g cols values _ _ _ a1
        have hsp : ∀ x, ' ' ∉ ff.fmt x := fun x hm => by
          have := ((hff x).2.1 _ hm).1
          revert this; decide
        obtain ⟨ls', w1, w2, w3⟩ := C46_words ff g values hcm rows.length (by rw [List.length_map] at h0; omega) (rows.map Prod.fst) (rows.map Prod.snd) (by simp) (by simp) cols s1
          (fun c hc => ⟨by rw [s2 c hc, List.length_map], fun x _ => ⟨(hff x).1, hsp x⟩⟩)
        rw [c2] at w1
        cases w1
        obtain ⟨names, n1, n2⟩ : ∃ names, values.mapM (colName g) = some names ∧
            commentString ["ID".toList, "Snapshot".toList] names (List.range (2 + values.length)) (List.replicate (2 + values.length) 1) = some c := by
          unfold makeCommentString at c3
          rw [Option.bind_eq_some_iff] at c3
          exact c3
        obtain ⟨t, rfl⟩ := comment_hash _ _ _ _ c n2
        have ht : '\n' ∉ t := fun hm => hn _ c3 (List.mem_cons_of_mem _ hm)
        have hch := formatCols_chars ff acc.icols acc.fcols _ (fun col _ x _ => (hff x).2.1) ls a2
        obtain ⟨_, hi, hs, _, _⟩ := parse_two ff stdin [] _ _ hh rows hh
        refine printed_rows ff t ht ls hch rows values.length ?_ ?_
        · intro r hr
          exact ⟨hi _ (List.mem_map_of_mem hr), hs _ (List.mem_map_of_mem hr)⟩
        · rw [List.forall₂_iff_get]
          refine ⟨w2, ?_⟩
          intro i h1 h2
          obtain ⟨l, g1, g2⟩ := w3 i h2
          have e : ls.get ⟨i, h1⟩ = l := (List.getElem?_eq_some_iff.mp g1).2
          rw [e, g2]
          rw [List.getD_eq_getElem _ _ (by simpa using h2), List.getD_eq_getElem _ _ (by simpa using h2), List.getElem_map, List.getElem_map]
          exact ⟨_, rfl, by simp⟩

end Coord

end Shellfish.Pipe
