/-
C46: coord mode.
-/
import Verif.Model.Coord
import Verif.Props.CatalogWords
import Verif.Props.Group
import Mathlib.Data.Rat.Floor
import Mathlib.Algebra.Order.Ring.Rat
import Mathlib.Data.List.GetD

namespace Shellfish.Coord
open Shellfish.Catalog Shellfish.Text Shellfish.Cmd
open Shellfish.Finder (toInt)

variable {K : Type} [Field K] [LinearOrder K] [IsStrictOrderedRing K] [FloorRing K]

/-! Specification -/

/-- A value is written as an integer when the configuration says so. -/
def isInt (g : Cfg) (v : Str) : Bool := match comment g v with | some c => isIntType c | none => false

/-- The positions of the integer values among the requested values, then the positions of the other values. -/
def positionsByType (g : Cfg) (values : List Str) : List Nat :=
  ((List.range values.length).filter fun p => isInt g (values.getD p [])) ++ (List.range values.length).filter fun p => !isInt g (values.getD p [])

/-- The text of value number `p` of row `i`. -/
def valueText (ff : FloatFmt K) (g : Cfg) (values : List Str) (cols : List (List K)) (p i : Nat) : Str :=
  if isInt g (values.getD p []) then itoa (toInt ((cols.getD p []).getD i 0)) else ff.fmt ((cols.getD p []).getD i 0)

/-! Proofs -/

theorem typeLoop_eq (g : Cfg) (cols : List (List K)) (all : List Str) (hc : ∀ v ∈ all, ∃ c, comment g v = some c) (hl : cols.length = all.length) :
    ∀ (vs : List Str) (i : Nat) (acc : Acc K), all.drop i = vs → i ≤ all.length →
      ∃ is fs, is = ((List.range' i vs.length).filter fun p => isInt g (all.getD p [])) ∧ fs = ((List.range' i vs.length).filter fun p => !isInt g (all.getD p [])) ∧
        typeLoop g cols vs i acc = some ⟨acc.icols ++ is.map (fun p => (cols.getD p []).map toInt), acc.fcols ++ fs.map (fun p => cols.getD p []),
          acc.icolOrder ++ is.map (· + 2), acc.fcolOrder ++ fs.map (· + 2)⟩
  | [], i, acc, _, _ => ⟨_, _, rfl, rfl, by simp [typeLoop]⟩
  | v :: vs, i, acc, hd, hi => by
    have hlt : i < all.length := by
      by_contra hcon
      rw [List.drop_eq_nil_of_le (by omega)] at hd
      cases hd
    have hv : all[i] = v ∧ all.drop (i + 1) = vs := by
      rw [List.drop_eq_getElem_cons hlt] at hd
      exact ⟨(List.cons.inj hd).1, (List.cons.inj hd).2⟩
    have hg : all.getD i [] = v := by rw [List.getD_eq_getElem _ _ hlt, hv.1]
    obtain ⟨c, hcv⟩ := hc v (hv.1 ▸ List.getElem_mem hlt)
    have hii : isInt g v = isIntType c := by unfold isInt; rw [hcv]
    have hcol : cols[i]? = some (cols.getD i []) := by rw [List.getD_eq_getElem _ _ (by omega), List.getElem?_eq_getElem (by omega)]
    unfold typeLoop
    rw [hcv, hcol]
    dsimp only
    rw [List.length_cons, List.range'_succ]
    by_cases ht : isIntType c = true
    · rw [if_pos ht]
      obtain ⟨is, fs, h1, h2, h3⟩ := typeLoop_eq g cols all hc hl vs (i + 1)
        { acc with icols := acc.icols ++ [(cols.getD i []).map toInt], icolOrder := acc.icolOrder ++ [i + 2] } hv.2 (by omega)
      refine ⟨i :: is, fs, ?_, ?_, ?_⟩
      · rw [List.filter_cons_of_pos (by rw [hg, hii]; exact ht), ← h1]
      · rw [List.filter_cons_of_neg (by rw [hg, hii, ht]; decide), ← h2]
      · rw [h3]; simp
    · rw [if_neg ht]
      obtain ⟨is, fs, h1, h2, h3⟩ := typeLoop_eq g cols all hc hl vs (i + 1)
        { acc with fcols := acc.fcols ++ [cols.getD i []], fcolOrder := acc.fcolOrder ++ [i + 2] } hv.2 (by omega)
      have htf : isIntType c = false := by simpa using ht
      refine ⟨is, i :: fs, ?_, ?_, ?_⟩
      · rw [List.filter_cons_of_neg (by rw [hg, hii, htf]; decide), ← h1]
      · rw [List.filter_cons_of_pos (by rw [hg, hii, htf]; decide), ← h2]
      · rw [h3]; simp

theorem byType_perm (g : Cfg) (values : List Str) : (positionsByType g values).Perm (List.range values.length) := by
  unfold positionsByType
  exact List.filter_append_perm _ _

theorem byType_length (g : Cfg) (values : List Str) : (positionsByType g values).length = values.length := by
  rw [(byType_perm g values).length_eq, List.length_range]

theorem byType_lt (g : Cfg) (values : List Str) (p : Nat) (h : p ∈ positionsByType g values) : p < values.length :=
  List.mem_range.mp ((byType_perm g values).mem_iff.mp h)

/-- C46 (what is written): line `i` holds the id, the snapshot, and at place `q` the value number `σ(σ(q))`, where `σ` lists the positions of the integer values and then those of
the other values. -/
theorem C46_words (ff : FloatFmt K) (g : Cfg) (values : List Str) (hc : ∀ v ∈ values, ∃ c, comment g v = some c) (h : Nat) (hpos : 0 < h) (ids snaps : List Int)
    (hi : ids.length = h) (hs : snaps.length = h) (cols : List (List K)) (hl : cols.length = values.length)
    (hcols : ∀ c ∈ cols, c.length = h ∧ ∀ x ∈ c, ff.fmt x ≠ [] ∧ ' ' ∉ ff.fmt x) :
    ∃ ls, lines ff g values ids snaps cols = some ls ∧ ls.length = h ∧ ∀ i < h, ∃ l, ls[i]? = some l ∧
      words ' ' l = itoa (ids.getD i 0) :: itoa (snaps.getD i 0) ::
        (List.range values.length).map fun q => valueText ff g values cols ((positionsByType g values).getD ((positionsByType g values).getD q 0) 0) i := by
  obtain ⟨is, fs, h1, h2, h3⟩ := typeLoop_eq g cols values hc hl values 0 ⟨[ids, snaps], [], [0, 1], []⟩ (by simp) (by omega)
  rw [← List.range_eq_range'] at h1 h2
  have hsig : positionsByType g values = is ++ fs := by rw [h1, h2]; rfl
  have hlt : ∀ p ∈ is ++ fs, p < values.length := fun p hp => byType_lt g values p (hsig ▸ hp)
  have hlen : (is ++ fs).length = values.length := by rw [← hsig, byType_length]
  have hlen' : is.length + fs.length = values.length := by rw [← List.length_append, hlen]
  have hcol : ∀ p < values.length, cols.getD p [] ∈ cols := fun p hp => by
    rw [List.getD_eq_getElem _ _ (by omega)]
    exact List.getElem_mem _
  obtain ⟨ls, e1, e2, e3⟩ := C09_words ff h hpos ([ids, snaps] ++ is.map (fun p => (cols.getD p []).map toInt)) (fs.map fun p => cols.getD p [])
    ([0, 1] ++ (is ++ fs).map (· + 2)) (by simp)
    (by
      intro c hc
      rw [List.mem_append] at hc
      rcases hc with hc | hc
      · simp only [List.mem_cons, List.not_mem_nil, or_false] at hc
        rcases hc with rfl | rfl <;> assumption
      · obtain ⟨p, hp, rfl⟩ := List.mem_map.mp hc
        rw [List.length_map]
        exact (hcols _ (hcol p (hlt p (List.mem_append_left _ hp)))).1)
    (by
      intro c hc
      obtain ⟨p, hp, rfl⟩ := List.mem_map.mp hc
      exact hcols _ (hcol p (hlt p (List.mem_append_right _ hp))))
    (by
      intro o ho
      simp only [List.length_append, List.length_map, List.length_cons, List.length_nil]
      rw [List.mem_append] at ho
      rcases ho with ho | ho
      · simp only [List.mem_cons, List.not_mem_nil, or_false] at ho
        omega
      · obtain ⟨p, hp, rfl⟩ := List.mem_map.mp ho
        have := hlt p hp
        omega)
    (by simp only [List.length_append, List.length_map, List.length_cons, List.length_nil]; omega)
  refine ⟨ls, ?_, e2, fun i hi' => ?_⟩
  · unfold lines
    rw [h3]
    simp only [List.nil_append, Option.bind_eq_bind, Option.bind_some, List.append_assoc, List.map_append] at e1 ⊢
    exact e1
  obtain ⟨l, g1, g2⟩ := e3 i hi'
  refine ⟨l, g1, ?_⟩
  rw [g2]
  have hraw : (([ids, snaps] ++ is.map (fun p => (cols.getD p []).map toInt)).map (fun c => c.map itoa) ++ (fs.map fun p => cols.getD p []).map (fun c => c.map ff.fmt)) =
      ids.map itoa :: snaps.map itoa :: (is ++ fs).map fun p => if isInt g (values.getD p []) then ((cols.getD p []).map toInt).map itoa else (cols.getD p []).map ff.fmt := by
    rw [List.map_append (l₁ := is)]
    have q1 : (is.map fun p => if isInt g (values.getD p []) then ((cols.getD p []).map toInt).map itoa else (cols.getD p []).map ff.fmt) =
        is.map fun p => ((cols.getD p []).map toInt).map itoa := by
      apply List.map_congr_left
      intro p hp
      rw [h1, List.mem_filter] at hp
      rw [if_pos hp.2]
    have q2 : (fs.map fun p => if isInt g (values.getD p []) then ((cols.getD p []).map toInt).map itoa else (cols.getD p []).map ff.fmt) =
        fs.map fun p => (cols.getD p []).map ff.fmt := by
      apply List.map_congr_left
      intro p hp
      rw [h2, List.mem_filter] at hp
      rw [if_neg (by simpa using hp.2)]
    rw [q1, q2]
    simp [List.map_map, Function.comp_def]
  unfold cellText
  rw [hraw, List.map_append, List.map_cons, List.map_cons, List.map_nil, List.map_map]
  have hid : ((ids.map itoa).getD i [] : Str) = itoa (ids.getD i 0) := by
    rw [List.getD_eq_getElem _ _ (by simpa [hi] using hi'), List.getD_eq_getElem _ _ (by omega), List.getElem_map]
  have hsn : ((snaps.map itoa).getD i [] : Str) = itoa (snaps.getD i 0) := by
    rw [List.getD_eq_getElem _ _ (by simpa [hs] using hi'), List.getD_eq_getElem _ _ (by omega), List.getElem_map]
  have hrest : ∀ s, s < values.length → ((((is ++ fs).map fun p => if isInt g (values.getD p []) then ((cols.getD p []).map toInt).map itoa else (cols.getD p []).map ff.fmt).getD s []).getD i [] : Str) =
      valueText ff g values cols ((is ++ fs).getD s 0) i := by
    intro s hs'
    rw [List.getD_eq_getElem ((is ++ fs).map _) _ (by rw [List.length_map, hlen]; exact hs'), List.getElem_map, List.getD_eq_getElem (is ++ fs) _ (by rw [hlen]; exact hs')]
    have hp : (is ++ fs)[s]'(by rw [hlen]; exact hs') < values.length := hlt _ (List.getElem_mem _)
    have hclen := (hcols _ (hcol _ hp)).1
    generalize (is ++ fs)[s]'(by rw [hlen]; exact hs') = p at hp hclen
    unfold valueText
    split_ifs with hty
    · rw [List.getD_eq_getElem _ _ (by rw [List.length_map, List.length_map, hclen]; exact hi'), List.getElem_map, List.getElem_map,
        List.getD_eq_getElem (cols.getD p []) _ (by rw [hclen]; exact hi')]
    · rw [List.getD_eq_getElem _ _ (by rw [List.length_map, hclen]; exact hi'), List.getElem_map, List.getD_eq_getElem (cols.getD p []) _ (by rw [hclen]; exact hi')]
  rw [hsig]
  have hrange : ∀ G : Nat → Str, (is ++ fs).map G = (List.range values.length).map fun q => G ((is ++ fs).getD q 0) := by
    intro G
    apply List.ext_getElem (by simp [hlen'])
    intro k k1 k2
    rw [List.getElem_map, List.getElem_map, List.getElem_range, List.getD_eq_getElem _ _ (by simpa using k1)]
  rw [hrange]
  show _ :: _ :: _ = _
  congr 1
  congr 1
  apply List.map_congr_left
  intro q hq
  rw [List.mem_range] at hq
  have hm : (is ++ fs).getD q 0 ∈ is ++ fs := by
    rw [List.getD_eq_getElem _ _ (by omega)]
    exact List.getElem_mem _
  rw [← hrest _ (hlt _ hm)]
  rfl

/-- C46 (columns): line `i` holds the id, the snapshot and then the requested values in the requested order, provided that the arrangement "integers first" is its own inverse; in
particular when no integer value is requested after another value (`C46_integers_first`).  In general this is false: `C46_columns_false`. -/
theorem C46_columns_partial (ff : FloatFmt K) (g : Cfg) (values : List Str) (hc : ∀ v ∈ values, ∃ c, comment g v = some c) (h : Nat) (hpos : 0 < h) (ids snaps : List Int)
    (hi : ids.length = h) (hs : snaps.length = h) (cols : List (List K)) (hl : cols.length = values.length)
    (hcols : ∀ c ∈ cols, c.length = h ∧ ∀ x ∈ c, ff.fmt x ≠ [] ∧ ' ' ∉ ff.fmt x)
    (hinv : ∀ q < values.length, (positionsByType g values).getD ((positionsByType g values).getD q 0) 0 = q) :
    ∃ ls, lines ff g values ids snaps cols = some ls ∧ ls.length = h ∧ ∀ i < h, ∃ l, ls[i]? = some l ∧
      words ' ' l = itoa (ids.getD i 0) :: itoa (snaps.getD i 0) :: (List.range values.length).map fun q => valueText ff g values cols q i := by
  obtain ⟨ls, e1, e2, e3⟩ := C46_words ff g values hc h hpos ids snaps hi hs cols hl hcols
  refine ⟨ls, e1, e2, fun i hi' => ?_⟩
  obtain ⟨l, g1, g2⟩ := e3 i hi'
  refine ⟨l, g1, ?_⟩
  rw [g2]
  congr 2
  apply List.map_congr_left
  intro q hq
  rw [hinv q (List.mem_range.mp hq)]

/-- C46: the order is kept when no integer value is requested after another value. -/
theorem C46_integers_first (g : Cfg) (values : List Str) (h : ∀ p q, p < q → q < values.length → isInt g (values.getD q []) = true → isInt g (values.getD p []) = true) :
    ∀ q < values.length, (positionsByType g values).getD ((positionsByType g values).getD q 0) 0 = q := by
  have key : ∀ n, n ≤ values.length → ((List.range n).filter fun p => isInt g (values.getD p [])) ++ ((List.range n).filter fun p => !isInt g (values.getD p [])) = List.range n := by
    intro n
    induction n with
    | zero => simp
    | succ n ih =>
      intro hn
      rw [List.range_succ, List.filter_append, List.filter_append]
      by_cases ht : isInt g (values.getD n []) = true
      · have h0 : ((List.range n).filter fun p => !isInt g (values.getD p [])) = [] := by
          rw [List.filter_eq_nil_iff]
          intro p hp
          rw [List.mem_range] at hp
          simp only [Bool.not_eq_true', Bool.not_eq_false]
          exact h p n hp (by omega) ht
        have ih' := ih (by omega)
        rw [h0, List.append_nil] at ih'
        rw [h0, ih']
        simp [List.filter_cons, ← List.getD_eq_getElem?_getD, ht]
      · have hf : isInt g (values.getD n []) = false := by simpa using ht
        have ih' := ih (by omega)
        conv_rhs => rw [← ih']
        simp [List.filter_cons, ← List.getD_eq_getElem?_getD, hf]
  intro q hq
  have hs : positionsByType g values = List.range values.length := key _ (le_refl _)
  rw [hs]
  simp [List.getD_eq_getElem, hq]

/-! The header -/

/-- C46 (header): the header names, in order, ID, Snapshot and the requested values with their column numbers. -/
theorem C46_header (g : Cfg) (values : List Str) (names : List Str) (hn : values.mapM (colName g) = some names) :
    ∃ ls : List Str, makeCommentString g values = some (joinWith ' ' ("# Column contents:".toList :: ls)) ∧ ls.length = 2 + values.length ∧
      ls[0]? = some "ID(0)".toList ∧ ls[1]? = some "Snapshot(1)".toList ∧
      ∀ (q : Nat) v, values[q]? = some v → ∃ u, (u = [] ∨ ∃ t, u = " [".toList ++ t ++ "]".toList) ∧
        ls[q + 2]? = some (v ++ u ++ '(' :: (itoa (q + 2) ++ [')'])) := by
  have hlen : names.length = values.length := by
    clear * - hn
    induction values generalizing names with
    | nil => cases hn; rfl
    | cons v vs ih =>
      rw [List.mapM_cons] at hn
      cases h1 : colName g v with
      | none => rw [h1] at hn; cases hn
      | some a =>
        cases h2 : vs.mapM (colName g) with
        | none => rw [h1, h2] at hn; cases hn
        | some b =>
          rw [h1, h2] at hn
          cases hn
          simp [ih b h2]
  obtain ⟨ls, e1, e2, e3⟩ := C11_header ["ID".toList, "Snapshot".toList] names (List.range (2 + values.length)) (List.replicate (2 + values.length) 1)
    (by intro o ho; rw [List.mem_range] at ho; simp only [List.length_append, List.length_cons, List.length_nil, hlen]; omega)
    (by intro o ho; rw [List.mem_range] at ho; simpa using ho)
  have hstart : ∀ k, k ≤ 2 + values.length → startCol ((List.range (2 + values.length)).map fun o => (List.replicate (2 + values.length) (1 : Int)).getD o 0) k = k := by
    intro k hk
    have : ((List.range (2 + values.length)).map fun o => (List.replicate (2 + values.length) (1 : Int)).getD o 0) = List.replicate (2 + values.length) 1 := by
      apply List.ext_getElem (by simp)
      intro j j1 j2
      rw [List.getElem_map, List.getElem_range, List.getElem_replicate, List.getD_eq_getElem _ _ (by simpa using j1), List.getElem_replicate]
    rw [this]
    unfold startCol
    rw [List.take_replicate, min_eq_left hk]
    simp
  have hlab : ∀ (k : Nat) name, (["ID".toList, "Snapshot".toList] ++ names)[k]? = some name → k < 2 + values.length → ls[k]? = some (name ++ '(' :: (itoa k ++ [')'])) := by
    intro k name hk hk'
    rw [e3 k k name 1 (List.getElem?_range hk') hk (by simp [hk'])]
    rw [hstart k (by omega)]
    simp [label]
  refine ⟨ls, ?_, by rw [e2, List.length_range], ?_, ?_, ?_⟩
  · unfold makeCommentString
    rw [hn]
    exact e1
  · rw [hlab 0 "ID".toList rfl (by omega)]
    decide +kernel
  · rw [hlab 1 "Snapshot".toList rfl (by omega)]
    decide +kernel
  · intro q v hq
    have hql : q < values.length := (List.getElem?_eq_some_iff.mp hq).1
    have hname : ∃ name, names[q]? = some name ∧ colName g v = some name := by
      clear * - hn hq
      induction values generalizing names q with
      | nil => simp at hq
      | cons w vs ih =>
        rw [List.mapM_cons] at hn
        cases h1 : colName g w with
        | none => rw [h1] at hn; cases hn
        | some a =>
          cases h2 : vs.mapM (colName g) with
          | none => rw [h1, h2] at hn; cases hn
          | some b =>
            rw [h1, h2] at hn
            cases hn
            cases q with
            | zero => cases hq; exact ⟨a, rfl, h1⟩
            | succ q => exact ih b h2 q hq
    obtain ⟨name, n1, n2⟩ := hname
    have hform : ∃ u, (u = [] ∨ ∃ t, u = " [".toList ++ t ++ "]".toList) ∧ name = v ++ u := by
      unfold colName at n2
      split_ifs at n2 with hr
      · cases n2
        exact ⟨_, Or.inr ⟨g.posUnits, rfl⟩, by simp⟩
      · rw [Option.bind_eq_some_iff] at n2
        obtain ⟨j, _, n3⟩ := n2
        rw [Option.map_eq_some_iff] at n3
        obtain ⟨c, _, n4⟩ := n3
        split_ifs at n4
        · exact ⟨[], Or.inl rfl, by simp [n4]⟩
        · exact ⟨_, Or.inr ⟨c, rfl⟩, by rw [← n4]; simp⟩
    obtain ⟨u, hu, rfl⟩ := hform
    refine ⟨u, hu, ?_⟩
    rw [hlab (q + 2) (v ++ u) (by simpa using n1) (by omega)]
    push_cast
    rfl

/-! The values -/

/-- The factor that converts a value to comoving Mpc/h at a given cosmology (one for values that are neither positions nor radii). -/
def factor {C : Type} (w : World K C) (g : Cfg) (c : C) (v : Str) : Option K :=
  if v ∈ positions then w.ucf g.posUnits c else if v ∈ convertedRadii then w.ucf g.radUnits c else some 1

theorem scatter_eq (f : Nat → K) : ∀ (idxs pre : List Nat) (scol col : List K), scol = (pre ++ idxs).map f → (∀ i ∈ idxs, i < col.length) →
    ∃ out, scatter scol idxs pre.length col = some out ∧ out.length = col.length ∧ ∀ r < col.length, out.getD r 0 = if r ∈ idxs then f r else col.getD r 0
  | [], pre, scol, col, _, _ => ⟨col, rfl, rfl, fun r _ => by simp⟩
  | idx :: idxs, pre, scol, col, hs, hi => by
    have hget : scol[pre.length]? = some (f idx) := by
      rw [hs, List.getElem?_map, List.getElem?_append_right (le_refl _), Nat.sub_self]
      rfl
    unfold scatter
    rw [hget]
    dsimp only
    rw [if_pos (hi idx (List.mem_cons_self ..))]
    obtain ⟨out, h1, h2, h3⟩ := scatter_eq f idxs (pre ++ [idx]) scol (col.set idx (f idx)) (by rw [hs]; simp)
      (fun i h => by rw [List.length_set]; exact hi i (List.mem_cons_of_mem _ h))
    rw [List.length_append, List.length_singleton] at h1
    refine ⟨out, h1, by rw [h2, List.length_set], fun r hr => ?_⟩
    rw [h3 r (by rw [List.length_set]; exact hr)]
    by_cases hm : r ∈ idxs
    · rw [if_pos hm, if_pos (List.mem_cons_of_mem _ hm)]
    · rw [if_neg hm, List.getD_eq_getElem _ _ (by rw [List.length_set]; exact hr), List.getElem_set]
      by_cases he : idx = r
      · rw [if_pos he, if_pos (by rw [he]; exact List.mem_cons_self ..), he]
      · rw [if_neg he, if_neg (by
          rw [List.mem_cons]
          rintro (h | h)
          · exact he h.symm
          · exact hm h), List.getD_eq_getElem _ _ hr]

theorem zipAll_eq {α : Type} (f : List K → Str → List K → Option α) (a : Str → List K) (b : Str → List K) (o : Str → α) (vs : List Str)
    (h : ∀ v ∈ vs, f (a v) v (b v) = some (o v)) : zipAll f (vs.map a) vs (vs.map b) = some (vs.map o) := by
  induction vs with
  | nil => rfl
  | cons v vs ih =>
    rw [List.map_cons, List.map_cons, List.map_cons, zipAll, h v (List.mem_cons_self ..), ih fun u hu => h u (List.mem_cons_of_mem _ hu)]
    rfl

/-- What a row shows for the value `v` once the snapshots in `seen` have been read. -/
def rowValue {C : Type} (w : World K C) (g : Cfg) (c : C) (val : Int → Str → Int → K) (ids snaps : List Int) (seen : List Int) (v : Str) (r : Nat) : K :=
  if snaps.getD r 0 ∈ seen ∧ snaps.getD r 0 ≠ -1 then val (snaps.getD r 0) v (ids.getD r 0) * (factor w g c v).getD 0 else 0

/-- C46 (values): each row with a snapshot holds the values of its own halo at its own snapshot, positions and radii multiplied with the factor for their units; rows with snapshot
-1 hold zeros.  This is so for every order in which the snapshots are visited.  The cosmology of the factor is the one of the first row's snapshot. -/
theorem C46_values {C : Type} (w : World K C) (g : Cfg) (values : List Str) (ids snaps : List Int) (s0 : Int) (hs0 : snaps.head? = some s0) (hlen : ids.length = snaps.length)
    (c : C) (hc : w.cosmo s0 = some c) (hu : ∀ v ∈ values, (factor w g c v).isSome) (val : Int → Str → Int → K)
    (hr : ∀ s ∈ snaps, s ≠ -1 → ∀ is : List Int, w.rockstar s values is = some (values.map fun v => is.map (val s v)))
    (order : List Int) (ho : ∀ s, s ∈ order ↔ s ∈ snaps) :
    ∃ cols, readHaloCoords w g values ids snaps order = some cols ∧
      cols = values.map fun v => (List.range ids.length).map (rowValue w g c val ids snaps snaps v) := by
  obtain ⟨sb, ib, e, hib, hsb, _, _, _⟩ := C44_groups snaps ids (by omega)
  have hstep : ∀ (todo seen : List Int), (∀ s ∈ todo, s ∈ snaps) →
      todo.foldlM (snapStep w g values s0 sb ib) (values.map fun v => (List.range ids.length).map (rowValue w g c val ids snaps seen v)) =
        some (values.map fun v => (List.range ids.length).map (rowValue w g c val ids snaps (seen ++ todo) v)) := by
    intro todo
    induction todo with
    | nil => intro seen _; simp
    | cons s todo ih =>
      intro seen hmem
      have hone : snapStep w g values s0 sb ib (values.map fun v => (List.range ids.length).map (rowValue w g c val ids snaps seen v)) s =
          some (values.map fun v => (List.range ids.length).map (rowValue w g c val ids snaps (seen ++ [s]) v)) := by
        unfold snapStep
        by_cases hs1 : s = -1
        · rw [if_pos hs1]
          congr 1
          apply List.map_congr_left
          intro v _
          apply List.map_congr_left
          intro r _
          unfold rowValue
          refine if_congr ?_ rfl rfl
          rw [List.mem_append, List.mem_singleton]
          constructor
          · exact fun h => ⟨Or.inl h.1, h.2⟩
          · rintro ⟨h1 | h1, h2⟩
            · exact ⟨h1, h2⟩
            · exact absurd (h1.trans hs1) h2
        rw [if_neg hs1, hc, Option.bind_some, hr s (hmem s (List.mem_cons_self ..)) hs1, Option.bind_some]
        refine zipAll_eq _ _ _ _ values fun v hv => ?_
        obtain ⟨u, hu'⟩ := Option.isSome_iff_exists.mp (hu v hv)
        have hconv : convert w g c v ((sb.get s).map (val s v)) = some ((sb.get s).map fun i => val s v i * u) := by
          unfold convert
          unfold factor at hu'
          split_ifs at hu' ⊢ with h1 h2
          · rw [hu']; simp
          · rw [hu']; simp
          · cases hu'; simp
        rw [hconv, Option.bind_some]
        have hids : (sb.get s).map (fun i => val s v i * u) = (ib.get s).map fun r => val s v (ids.getD r 0) * u := by
          have h1 : (sb.get s) = (ib.get s).map fun r => ids.getD r 0 := by
            have h2 := hsb s
            rw [← hib s] at h2
            have h3 := congrArg (List.map fun o : Option Int => o.getD 0) h2
            rw [List.map_map, List.map_map] at h3
            simpa [Function.comp_def, List.getD] using h3
          rw [h1, List.map_map]
          rfl
        obtain ⟨out, o1, o2, o3⟩ := scatter_eq (fun r => val s v (ids.getD r 0) * u) (ib.get s) [] ((sb.get s).map fun i => val s v i * u)
          ((List.range ids.length).map (rowValue w g c val ids snaps seen v)) (by rw [hids]; rfl)
          (fun i hi => by
            rw [hib s, rowsOf, List.mem_filter, List.mem_range] at hi
            rw [List.length_map, List.length_range]
            omega)
        rw [List.length_nil] at o1
        rw [o1]
        congr 1
        rw [List.length_map, List.length_range] at o2 o3
        apply List.ext_getElem (by simp [o2])
        intro r r1 r2
        have hrl : r < ids.length := by omega
        have := o3 r hrl
        rw [List.getD_eq_getElem _ _ r1] at this
        rw [this, List.getElem_map, List.getElem_range, List.getD_eq_getElem ((List.range ids.length).map _) _ (by simpa using hrl), List.getElem_map, List.getElem_range, hib s]
        have hrs : r ∈ rowsOf snaps s ↔ snaps.getD r 0 = s := by
          rw [rowsOf, List.mem_filter, List.mem_range, List.getElem?_eq_getElem (by omega), List.getD_eq_getElem _ _ (by omega)]
          simp only [Option.some.injEq, decide_eq_true_eq, and_iff_right_iff_imp]
          omega
        by_cases hrs' : snaps.getD r 0 = s
        · rw [if_pos (hrs.mpr hrs')]
          unfold rowValue
          rw [if_pos ⟨by rw [hrs']; simp, by rw [hrs']; exact hs1⟩, hrs', hu']
          rfl
        · rw [if_neg fun h => hrs' (hrs.mp h)]
          unfold rowValue
          refine if_congr ?_ rfl rfl
          rw [List.mem_append, List.mem_singleton]
          exact ⟨fun h => ⟨Or.inl h.1, h.2⟩, fun h => ⟨h.1.resolve_right hrs', h.2⟩⟩
      rw [List.foldlM_cons, hone]
      show todo.foldlM _ _ = _
      rw [ih (seen ++ [s]) fun t ht => hmem t (List.mem_cons_of_mem _ ht), List.append_assoc]
      rfl
  refine ⟨_, ?_, rfl⟩
  unfold readHaloCoords
  cases hsn : snaps with
  | nil => rw [hsn] at hs0; cases hs0
  | cons s rest =>
    have : s = s0 := by rw [hsn] at hs0; exact Option.some.inj hs0
    subst this
    dsimp only
    rw [← hsn, e, Option.bind_some]
    have h0 : (values.map fun _ => List.replicate ids.length (0 : K)) = values.map fun v => (List.range ids.length).map (rowValue w g c val ids snaps [] v) := by
      apply List.map_congr_left
      intro v _
      apply List.ext_getElem (by simp)
      intro r r1 r2
      simp [rowValue]
    rw [h0, hstep order [] fun t ht => (ho t).mp ht, List.nil_append]
    congr 1
    apply List.map_congr_left
    intro v _
    apply List.map_congr_left
    intro r _
    unfold rowValue
    exact if_congr (and_congr_left fun _ => ho _) rfl rfl

/-- C46 (a whole run): the output of coord mode is the header of `C46_header` and one line per input row, with the id, the snapshot and the requested values of this halo in the
requested order.  Proved for catalogues whose rows belong to one snapshot or to the marker -1, and for value lists whose arrangement "integers first" is its own inverse; see
`C46_columns_false` and `C46_redshift_false` for what happens otherwise. -/
theorem C46_run_partial {C : Type} (ff : FloatFmt K) (hff : ∀ x, ff.fmt x ≠ [] ∧ ' ' ∉ ff.fmt x) (w : World K C) (g : Cfg) (known : Str → Bool) (values : List Str)
    (hk : ∀ v ∈ values, known v = true) (hcm : ∀ v ∈ values, ∃ c, comment g v = some c) (hcn : ∀ v ∈ values, ∃ n, colName g v = some n)
    (ids snaps : List Int) (s0 : Int) (hs0 : snaps.head? = some s0) (hone : ∀ s ∈ snaps, s = s0 ∨ s = -1) (hlen : ids.length = snaps.length)
    (c : C) (hc : w.cosmo s0 = some c) (hu : ∀ v ∈ values, (factor w g c v).isSome) (val : Int → Str → Int → K)
    (hr : ∀ s ∈ snaps, s ≠ -1 → ∀ is : List Int, w.rockstar s values is = some (values.map fun v => is.map (val s v)))
    (hinv : ∀ q < values.length, (positionsByType g values).getD ((positionsByType g values).getD q 0) 0 = q)
    (order : List Int) (ho : ∀ s, s ∈ order ↔ s ∈ snaps) :
    ∃ head ls, run ff w g known values ids snaps order = some (head :: ls) ∧ makeCommentString g values = some head ∧ ls.length = ids.length ∧
      ∀ i < ids.length, ∃ l, ls[i]? = some l ∧ ∃ ws, words ' ' l = itoa (ids.getD i 0) :: itoa (snaps.getD i 0) :: ws ∧ ws.length = values.length ∧
        ∀ (q : Nat) v, values[q]? = some v → ∃ x : K,
          (snaps.getD i 0 ≠ -1 → x = val (snaps.getD i 0) v (ids.getD i 0) * (factor w g c v).getD 0) ∧ (snaps.getD i 0 = -1 → x = 0) ∧
          ws[q]? = some (if isInt g v then itoa (toInt x) else ff.fmt x) := by
  obtain ⟨cols, e1, e2⟩ := C46_values w g values ids snaps s0 hs0 hlen c hc hu val hr order ho
  have hpos : 0 < ids.length := by
    cases snaps with
    | nil => cases hs0
    | cons a b => rw [hlen]; simp
  obtain ⟨ls, l1, l2, l3⟩ := C46_columns_partial ff g values hcm ids.length hpos ids snaps rfl hlen.symm cols (by rw [e2]; simp)
    (by
      intro col hcol
      rw [e2] at hcol
      obtain ⟨v, _, rfl⟩ := List.mem_map.mp hcol
      exact ⟨by simp, fun x _ => hff x⟩) hinv
  have hnames : ∃ names, values.mapM (colName g) = some names := by
    choose! n hn using hcn
    exact ⟨_, Cmd.mapM_ok _ n _ hn⟩
  obtain ⟨names, hnames⟩ := hnames
  obtain ⟨hd, h1, _⟩ := C46_header g values names hnames
  refine ⟨_, ls, ?_, h1, l2, fun i hi => ?_⟩
  · unfold run
    rw [if_neg (by omega), if_neg (by simpa using hk), e1, Option.bind_some, l1, Option.bind_some, h1]
    rfl
  · obtain ⟨l, g1, g2⟩ := l3 i hi
    refine ⟨l, g1, _, g2, by simp, fun q v hq => ?_⟩
    have hql : q < values.length := (List.getElem?_eq_some_iff.mp hq).1
    have hv : values.getD q [] = v := by rw [List.getD_eq_getElem _ _ hql]; exact (List.getElem?_eq_some_iff.mp hq).2
    refine ⟨rowValue w g c val ids snaps snaps v i, fun h => ?_, fun h => ?_, ?_⟩
    · unfold rowValue
      rw [if_pos ⟨by rw [List.getD_eq_getElem _ _ (by omega)]; exact List.getElem_mem _, h⟩]
    · unfold rowValue
      rw [if_neg fun h' => h'.2 h]
    · rw [List.getElem?_map, List.getElem?_range hql, Option.map_some]
      have hcell : (cols.getD q []).getD i 0 = rowValue w g c val ids snaps snaps v i := by
        rw [e2, List.getD_eq_getElem (values.map _) _ (by simpa using hql), List.getElem_map, List.getD_eq_getElem _ _ (by simpa using hi), List.getElem_map, List.getElem_range]
        rw [List.getD_eq_getElem _ _ hql] at hv
        rw [hv]
      unfold valueText
      rw [hv, hcell]

/-! Counterexamples -/

/-- Numbers are written as their floor, in letters; enough to tell 1, 2 and 3 apart. -/
def exFF : FloatFmt ℚ := ⟨fun x => itoa ⌊x⌋, fun _ => none⟩

/-- A catalogue with an integer value, as in the example configuration (`HaloValueComments = "int", ...`). -/
def exCfg : Cfg := ⟨["ID".toList, "X".toList, "Y".toList, "PID".toList], ["int".toList, "cMpc/h".toList, "cMpc/h".toList, "int".toList], "cMpc/h".toList, "ckpc/h".toList⟩

/-- C46 is false: for `Values = X, Y, PID` (1, 2 and 3 for a halo) the header says X, Y, PID, and the line holds 2, 3, 1. -/
theorem C46_columns_false : ∃ ls l head, lines exFF exCfg ["X".toList, "Y".toList, "PID".toList] [7] [5] [[1], [2], [3]] = some ls ∧ ls[0]? = some l ∧
    words ' ' l = ["7".toList, "5".toList, "2".toList, "3".toList, "1".toList] ∧
    makeCommentString exCfg ["X".toList, "Y".toList, "PID".toList] = some head ∧
    head = "# Column contents: ID(0) Snapshot(1) X [cMpc/h](2) Y [cMpc/h](3) PID(4)".toList := by
  have hfm : ∀ x : ℚ, exFF.fmt x ≠ [] ∧ ' ' ∉ exFF.fmt x := fun x => ⟨itoa_ne_nil _, fun hm => by have := (itoa_numChar _ _ hm).1; revert this; decide⟩
  obtain ⟨ls, e1, _, e3⟩ := C46_words exFF exCfg ["X".toList, "Y".toList, "PID".toList] (by
    intro v hv
    simp only [List.mem_cons, List.not_mem_nil, or_false] at hv
    rcases hv with rfl | rfl | rfl
    · exact ⟨"cMpc/h".toList, by decide +kernel⟩
    · exact ⟨"cMpc/h".toList, by decide +kernel⟩
    · exact ⟨"int".toList, by decide +kernel⟩) 1 (by omega) [7] [5] rfl rfl [[1], [2], [3]] rfl (by
    intro c hc
    simp only [List.mem_cons, List.not_mem_nil, or_false] at hc
    rcases hc with rfl | rfl | rfl <;> exact ⟨rfl, fun x _ => hfm x⟩)
  obtain ⟨l, g1, g2⟩ := e3 0 (by omega)
  refine ⟨ls, l, _, e1, g1, ?_, ?_, rfl⟩
  · rw [g2]
    have hsig : positionsByType exCfg ["X".toList, "Y".toList, "PID".toList] = [2, 0, 1] := by decide +kernel
    have hX : isInt exCfg "X".toList = false := by decide +kernel
    have hY : isInt exCfg "Y".toList = false := by decide +kernel
    have hP : isInt exCfg "PID".toList = true := by decide +kernel
    rw [hsig]
    have h7 : itoa 7 = "7".toList := by decide +kernel
    have h5 : itoa 5 = "5".toList := by decide +kernel
    have h1 : itoa 1 = "1".toList := by decide +kernel
    have h2 : itoa 2 = "2".toList := by decide +kernel
    have h3 : itoa 3 = "3".toList := by decide +kernel
    have t3 : toInt (3 : ℚ) = 3 := by norm_num [toInt, Los.modf]
    have f1 : ⌊(1 : ℚ)⌋ = 1 := by norm_num
    have f2 : ⌊(2 : ℚ)⌋ = 2 := by norm_num
    have v1 : valueText exFF exCfg ["X".toList, "Y".toList, "PID".toList] [[1], [2], [3]] 1 0 = "2".toList := by
      unfold valueText
      rw [show (["X".toList, "Y".toList, "PID".toList] : List Str).getD 1 [] = "Y".toList from rfl, hY]
      show itoa ⌊(2 : ℚ)⌋ = _
      rw [f2, h2]
    have v2 : valueText exFF exCfg ["X".toList, "Y".toList, "PID".toList] [[1], [2], [3]] 2 0 = "3".toList := by
      unfold valueText
      rw [show (["X".toList, "Y".toList, "PID".toList] : List Str).getD 2 [] = "PID".toList from rfl, hP]
      show itoa (toInt (3 : ℚ)) = _
      rw [t3, h3]
    have v0 : valueText exFF exCfg ["X".toList, "Y".toList, "PID".toList] [[1], [2], [3]] 0 0 = "1".toList := by
      unfold valueText
      rw [show (["X".toList, "Y".toList, "PID".toList] : List Str).getD 0 [] = "X".toList from rfl, hX]
      show itoa ⌊(1 : ℚ)⌋ = _
      rw [f1, h1]
    show [itoa 7, itoa 5, valueText exFF exCfg ["X".toList, "Y".toList, "PID".toList] [[1], [2], [3]] 1 0,
      valueText exFF exCfg ["X".toList, "Y".toList, "PID".toList] [[1], [2], [3]] 2 0, valueText exFF exCfg ["X".toList, "Y".toList, "PID".toList] [[1], [2], [3]] 0 0] = _
    rw [h7, h5, v0, v1, v2]
  · decide +kernel

/-- C46 is false for R2500c computed from M2500c: the header cannot be made and the program stops with "Impossible", although every other step accepts the value. -/
theorem C46_r2500c_false : ∃ g : Cfg, comment g "R2500c".toList = some "Mpc/h".toList ∧ makeCommentString g ["R2500c".toList] = none :=
  ⟨⟨["ID".toList, "M2500c".toList], ["int".toList, "Msun/h".toList], "cMpc/h".toList, "cMpc/h".toList⟩, by decide +kernel⟩

/-- C46 is false for the units in the header: radii are converted to comoving Mpc/h with the factor of `HaloRadiusUnits`, and labelled with `HaloPositionUnits`; with positions in
comoving kpc/h the label is wrong. -/
theorem C46_units_false {C : Type} (w : World K C) (c : C) (u : K) (hu : w.ucf "cMpc/h".toList c = some u) (x : K) : ∃ g : Cfg,
    convert w g c "R200m".toList [x] = some [x * u] ∧ g.radUnits = "cMpc/h".toList ∧ colName g "R200m".toList = some "R200m [ckpc/h]".toList := by
  refine ⟨⟨[], [], "ckpc/h".toList, "cMpc/h".toList⟩, ?_, rfl, by decide +kernel⟩
  unfold convert
  rw [if_neg (by decide +kernel), if_pos (by decide +kernel), hu]
  rfl

/-- C46 is false for catalogues with several snapshots in proper units: the second halo, at redshift 1, is converted with the redshift 0 of the first. -/
theorem C46_redshift_false : ∃ (w : World ℚ ℚ) (g : Cfg) (cols : List (List ℚ)), w.cosmo 1 = some 0 ∧ w.cosmo 2 = some 1 ∧ (∀ z, w.ucf g.posUnits z = some (1 + z)) ∧
    (∀ s is, w.rockstar s ["X".toList] is = some [is.map fun _ => 10]) ∧ readHaloCoords w g ["X".toList] [7, 8] [1, 2] [1, 2] = some cols ∧ cols = [[10, 10]] ∧
    (10 : ℚ) * (1 + 1) ≠ 10 := by
  have hw := C46_values (K := ℚ) (C := ℚ) ⟨fun s => some (if s = 1 then 0 else 1), fun _ vs is => some (vs.map fun _ => is.map fun _ => 10), fun _ z => some (1 + z)⟩
    ⟨[], [], "pMpc/h".toList, "pMpc/h".toList⟩ ["X".toList] [7, 8] [1, 2] 1 rfl rfl 0 rfl (by
      intro v hv
      unfold factor
      split_ifs <;> rfl) (fun _ _ _ => 10) (fun _ _ _ _ => rfl) [1, 2] (fun s => Iff.rfl)
  obtain ⟨cols, h1, h2⟩ := hw
  refine ⟨_, _, cols, rfl, rfl, fun z => rfl, fun s is => rfl, h1, ?_, by norm_num⟩
  rw [h2]
  have hf : factor (K := ℚ) (C := ℚ) ⟨fun s => some (if s = 1 then 0 else 1), fun _ vs is => some (vs.map fun _ => is.map fun _ => 10), fun _ z => some (1 + z)⟩
    ⟨[], [], "pMpc/h".toList, "pMpc/h".toList⟩ 0 "X".toList = some (1 + 0) := by
    unfold factor
    rw [if_pos (by decide +kernel)]
  rw [List.map_cons, List.map_nil, show List.range ([7, 8] : List Int).length = [0, 1] from rfl, List.map_cons, List.map_cons, List.map_nil]
  unfold rowValue
  rw [hf, if_pos (by decide), if_pos (by decide)]
  norm_num

/-- The value list of the documentation meets the condition on the order: no integers. -/
example : ∀ q < 3, (positionsByType exCfg ["X".toList, "Y".toList, "X".toList]).getD ((positionsByType exCfg ["X".toList, "Y".toList, "X".toList]).getD q 0) 0 = q := by decide +kernel
/-- An integer before two other values meets it too, and so does one exchanged pair. -/
example : (∀ q < 3, (positionsByType exCfg ["PID".toList, "X".toList, "Y".toList]).getD ((positionsByType exCfg ["PID".toList, "X".toList, "Y".toList]).getD q 0) 0 = q) ∧
    ∀ q < 2, (positionsByType exCfg ["X".toList, "PID".toList]).getD ((positionsByType exCfg ["X".toList, "PID".toList]).getD q 0) 0 = q := by decide +kernel
/-- A world for `C46_run_partial`: one snapshot and a marker row. -/
example : ∃ head ls, run exFF (⟨fun _ => some (), fun _ vs is => some (vs.map fun _ => is.map fun (i : Int) => (i : ℚ)), fun _ _ => some 1⟩ : World ℚ Unit) exCfg (fun _ => true)
    ["PID".toList, "X".toList] [7, -1, 8] [3, -1, 3] [-1, 3] = some (head :: ls) := by
  obtain ⟨head, ls, h, _⟩ := C46_run_partial exFF (fun x => ⟨itoa_ne_nil _, fun hm => by have := (itoa_numChar _ _ hm).1; revert this; decide⟩)
    (⟨fun _ => some (), fun _ vs is => some (vs.map fun _ => is.map fun (i : Int) => (i : ℚ)), fun _ _ => some 1⟩ : World ℚ Unit) exCfg (fun _ => true)
    ["PID".toList, "X".toList] (by simp) (by
      intro v hv
      simp only [List.mem_cons, List.not_mem_nil, or_false] at hv
      rcases hv with rfl | rfl
      · exact ⟨"int".toList, by decide +kernel⟩
      · exact ⟨"cMpc/h".toList, by decide +kernel⟩) (by
      intro v hv
      simp only [List.mem_cons, List.not_mem_nil, or_false] at hv
      rcases hv with rfl | rfl
      · exact ⟨"PID".toList, by decide +kernel⟩
      · exact ⟨"X [cMpc/h]".toList, by decide +kernel⟩) [7, -1, 8] [3, -1, 3] 3 rfl (by decide) rfl () rfl
    (by intro v hv; unfold factor; split_ifs <;> rfl) (fun _ _ (i : Int) => (i : ℚ)) (fun _ _ _ _ => rfl) (by decide +kernel) [-1, 3] (by intro s; simp; tauto)
  exact ⟨head, ls, h⟩

end Shellfish.Coord
