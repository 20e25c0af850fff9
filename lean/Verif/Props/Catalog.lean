/-
Properties C09 (write/read round trip), C10 (what is read from a catalog) and C11 (the column header).
-/
import Verif.Spec.Catalog

namespace Shellfish.Catalog

open Shellfish.Text

/-! transposition -/

def colsOf {α : Type} (rs : List (List α)) (n : Nat) : List (List α) := (List.range n).map fun j => rs.filterMap fun r => r[j]?

theorem colsOf_zipCons {α : Type} (col : List α) (rs : List (List α)) (n : Nat) (h : col.length = rs.length) :
    colsOf (List.zipWith List.cons col rs) (n + 1) = col :: colsOf rs n := by
  unfold colsOf
  rw [List.range_succ_eq_map, List.map_cons, List.map_map]
  congr 1
  · induction col generalizing rs with
    | nil => simp
    | cons a as ih =>
      cases rs with
      | nil => simp at h
      | cons r rs => simp [ih rs (by simpa using h)]
  · apply List.map_congr_left
    intro j _
    simp only [Function.comp]
    induction col generalizing rs with
    | nil => cases rs with
      | nil => simp
      | cons r rs => simp at h
    | cons a as ih =>
      cases rs with
      | nil => simp
      | cons r rs =>
        simp only [List.zipWith_cons_cons, List.filterMap_cons, List.getElem?_cons_succ]
        rw [ih rs (by simpa using h)]

theorem forall2_zipCons {α β : Type} (P : β → Nat → α → Prop) (c : Nat) (cs : List Nat) (R : List β) (rs : List (List α)) :
    List.Forall₂ (fun r as => List.Forall₂ (P r) (c :: cs) as) R rs ↔
    ∃ col rs', rs = List.zipWith List.cons col rs' ∧ col.length = rs'.length ∧ List.Forall₂ (fun r a => P r c a) R col ∧
      List.Forall₂ (fun r as => List.Forall₂ (P r) cs as) R rs' := by
  induction R generalizing rs with
  | nil =>
    constructor
    · intro h; cases h; exact ⟨[], [], rfl, rfl, .nil, .nil⟩
    · rintro ⟨col, rs', rfl, _, h1, h2⟩; cases h1; cases h2; exact .nil
  | cons r R ih =>
    constructor
    · intro h
      obtain ⟨as, rs1, h1, h2, rfl⟩ := List.forall₂_cons_left_iff.mp h
      obtain ⟨a, as', h3, h4, rfl⟩ := List.forall₂_cons_left_iff.mp h1
      obtain ⟨col, rs', rfl, hl, h5, h6⟩ := (ih rs1).mp h2
      exact ⟨a :: col, as' :: rs', rfl, by simp [hl], .cons h3 h5, .cons h4 h6⟩
    · rintro ⟨col, rs', rfl, hl, h1, h2⟩
      obtain ⟨a, col', h3, h4, rfl⟩ := List.forall₂_cons_left_iff.mp h1
      obtain ⟨as, rs1, h5, h6, rfl⟩ := List.forall₂_cons_left_iff.mp h2
      exact .cons (.cons h3 h5) ((ih _).mpr ⟨col', rs1, rfl, by simpa using hl, h4, h6⟩)

theorem forall2_transpose {α β : Type} (P : β → Nat → α → Prop) (cs : List Nat) (R : List β) (A : List (List α)) :
    (∃ rs, List.Forall₂ (fun r as => List.Forall₂ (P r) cs as) R rs ∧ A = colsOf rs cs.length) ↔
    List.Forall₂ (fun c col => List.Forall₂ (fun r v => P r c v) R col) cs A := by
  induction cs generalizing A with
  | nil =>
    constructor
    · rintro ⟨rs, _, rfl⟩; exact .nil
    · intro h; cases h
      refine ⟨R.map fun _ => [], ?_, rfl⟩
      induction R with
      | nil => exact .nil
      | cons r R ih => exact .cons .nil ih
  | cons c cs ih =>
    constructor
    · rintro ⟨rs, h, rfl⟩
      obtain ⟨col, rs', rfl, hl, h1, h2⟩ := (forall2_zipCons P c cs R rs).mp h
      rw [List.length_cons, colsOf_zipCons col rs' cs.length hl]
      exact .cons h1 ((ih _).mp ⟨rs', h2, rfl⟩)
    · intro h
      obtain ⟨col, A', h1, h2, rfl⟩ := List.forall₂_cons_left_iff.mp h
      obtain ⟨rs', h3, rfl⟩ := (ih A').mpr h2
      have hl : col.length = rs'.length := by rw [← h1.length_eq, ← h3.length_eq]
      exact ⟨List.zipWith List.cons col rs', (forall2_zipCons P c cs R _).mpr ⟨col, rs', rfl, hl, h1, h3⟩,
        by rw [List.length_cons, colsOf_zipCons col rs' cs.length hl]⟩

/-! the lines that are scanned -/

def dataLines (data : Str) : List Str :=
  ((splitOn '\n' data).map fun l => l.takeWhile (· ≠ '#')).filter fun l => words ' ' l ≠ []

theorem table_eq (data : Str) : table data = (dataLines data).map (words ' ') := by
  unfold table dataLines
  generalize splitOn '\n' data = ls
  induction ls with
  | nil => rfl
  | cons l ls ih =>
    simp only [List.map_cons, List.filter_cons]
    split
    · rw [List.map_cons, ih]
    · exact ih

theorem parse_eq {F : Type} (ff : FloatFmt F) (data : Str) (ics fcs : List Nat) :
    parse ff data ics fcs = parseLines ff (dataLines data) ' ' ics fcs := by
  unfold parse split
  simp only
  rw [uncomment_eq '#' _ _ (count_splitOn '\n' '#' (by decide) data).symm, trimLines_words]
  rfl

theorem dataLines_plain (data : Str) (h : Plain data) : ∀ l ∈ dataLines data, ∀ c ∈ l, goSpace c = true → c = ' ' := by
  intro l hl
  unfold dataLines at hl
  rw [List.mem_filter, List.mem_map] at hl
  obtain ⟨⟨l', hl', rfl⟩, _⟩ := hl
  exact h l' hl'

theorem width_eq (l : Str) (h : ∀ c ∈ l, goSpace c = true → c = ' ') : countFields goSpace false l = (words ' ' l).length := by
  rw [countFields_plain l h, words_length]

theorem forall2_and_split {α β γ : Type} (P : α → β → Prop) (Q : α → γ → Prop) (l : List α) (rs : List (β × γ)) :
    List.Forall₂ (fun a r => P a r.1 ∧ Q a r.2) l rs ↔ List.Forall₂ P l (rs.map Prod.fst) ∧ List.Forall₂ Q l (rs.map Prod.snd) := by
  induction l generalizing rs with
  | nil => cases rs <;> simp
  | cons a l ih => cases rs with
    | nil => simp
    | cons r rs => simp [ih]; tauto

theorem forall2_map_left' {α β γ : Type} (f : α → β) (P : β → γ → Prop) (l : List α) (rs : List γ) :
    List.Forall₂ P (l.map f) rs ↔ List.Forall₂ (fun a r => P (f a) r) l rs := by
  exact List.forall₂_map_left_iff

variable {F : Type} (ff : FloatFmt F)

/-- C10: a catalog is read without an error exactly when its lines - comments and blank lines aside - form a table with rows of
equal length that has the requested columns, and every requested word can be read; the result is then
precisely those columns, in row order. -/
theorem C10_ok_iff (data : Str) (hp : Plain data) (ics fcs : List Nat) (A : List (List Int)) (B : List (List F)) :
    parse ff data ics fcs = .ok (A, B) ↔
      Rectangular (table data) (ics ++ fcs) ∧ Columns atoi (table data) ics A ∧ Columns ff.parse (table data) fcs B := by
  rw [parse_eq, table_eq]
  have hpl := dataLines_plain data hp
  generalize dataLines data = ls at hpl
  unfold Columns
  cases ls with
  | nil =>
    simp only [parseLines, Out.ok.injEq, Prod.mk.injEq, List.map_nil, Rectangular, List.not_mem_nil, false_imp_iff, implies_true,
      true_and, List.forall₂_nil_left_iff]
    have key : ∀ {α : Type} (cs : List Nat) (A : List (List α)), (cs.map (fun _ => []) = A) ↔ List.Forall₂ (fun _ col => col = []) cs A := by
      intro α cs
      induction cs with
      | nil => intro A; simp [eq_comm]
      | cons c cs ih => intro A; cases A with
        | nil => simp
        | cons a A =>
          simp only [List.map_cons, List.cons.injEq, List.forall₂_cons, ih]
          rw [eq_comm (a := ([] : List α))]
    rw [key, key]
  | cons l0 ls =>
    unfold parseLines
    simp only
    rw [width_eq l0 (hpl l0 (by simp))]
    set W := (words ' ' l0).length with hW
    by_cases hany : (ics ++ fcs).any (fun c => decide (W ≤ c)) = true
    · rw [if_pos hany]
      simp only [reduceCtorEq, false_iff]
      rintro ⟨⟨_, h⟩, _⟩
      rw [List.any_eq_true] at hany
      obtain ⟨c, hc, hwc⟩ := hany
      have := h (words ' ' l0) (by simp) c hc
      have hwc' : W ≤ c := by simpa using hwc
      omega
    · rw [if_neg hany]
      have hall : ∀ c ∈ ics ++ fcs, c < W := by
        intro c hc
        by_contra hcon
        apply hany
        rw [List.any_eq_true]
        exact ⟨c, hc, by simpa using hcon⟩
      obtain ⟨hok, -⟩ := parseRows_spec ff ' ' W ics fcs (fun j hj => hall j (by simp [hj])) (fun j hj => hall j (by simp [hj]))
        (l0 :: ls) (List.replicate W []) (by simp)
      have split_ok : ∀ rows, List.Forall₂ (RowOk ff ' ' W ics fcs) (l0 :: ls) rows ↔
          (∀ l ∈ l0 :: ls, (words ' ' l).length = W) ∧
          List.Forall₂ (fun r as => List.Forall₂ (fun j a => ∃ w, r[j]? = some w ∧ atoi w = some a) ics as) ((l0 :: ls).map (words ' ')) (rows.map Prod.fst) ∧
          List.Forall₂ (fun r as => List.Forall₂ (fun j a => ∃ w, r[j]? = some w ∧ ff.parse w = some a) fcs as) ((l0 :: ls).map (words ' ')) (rows.map Prod.snd) := by
        intro rows
        unfold RowOk
        simp only [convRow_ok]
        rw [forall2_map_left', forall2_map_left', ← forall2_and_split]
        generalize l0 :: ls = L
        induction L generalizing rows with
        | nil => simp
        | cons l L ih => cases rows with
          | nil => simp
          | cons r rows => simp only [List.forall₂_cons, ih, List.mem_cons, forall_eq_or_imp]; tauto
      have hrect : Rectangular ((l0 :: ls).map (words ' ')) (ics ++ fcs) ↔ ∀ l ∈ l0 :: ls, (words ' ' l).length = W := by
        unfold Rectangular
        constructor
        · rintro ⟨h, _⟩ l hl
          exact h _ (List.mem_map_of_mem hl) _ (by simp)
        · intro h
          have h' : ∀ r ∈ (l0 :: ls).map (words ' '), r.length = W := by
            intro r hr
            rw [List.mem_map] at hr
            obtain ⟨l, hl, rfl⟩ := hr
            exact h l hl
          exact ⟨fun r hr r' hr' => by rw [h' r hr, h' r' hr'], fun r hr c hc => by rw [h' r hr]; exact hall c hc⟩
      rw [hrect, ← forall2_transpose (fun r j a => ∃ w, r[j]? = some w ∧ atoi w = some a),
        ← forall2_transpose (fun r j a => ∃ w, r[j]? = some w ∧ ff.parse w = some a)]
      have hcols : ∀ (rows : List (List Int × List F)),
          (List.range ics.length).map (fun j => rows.filterMap fun r => r.1[j]?) = colsOf (rows.map Prod.fst) ics.length ∧
          (List.range fcs.length).map (fun j => rows.filterMap fun r => r.2[j]?) = colsOf (rows.map Prod.snd) fcs.length := by
        intro rows
        unfold colsOf
        constructor
        all_goals
          apply List.map_congr_left
          intro j _
          rw [List.filterMap_map]
          rfl
      constructor
      · intro h
        cases hr : parseRows ff ' ' W ics fcs (l0 :: ls) (List.replicate W []) with
        | err => rw [hr] at h; cases h
        | panic => rw [hr] at h; cases h
        | ok rows =>
          rw [hr] at h
          simp only [Out.ok.injEq, Prod.mk.injEq] at h
          obtain ⟨h1, h2, h3⟩ := (split_ok rows).mp ((hok rows).mp hr)
          exact ⟨h1, ⟨_, h2, by rw [← h.1, (hcols rows).1]⟩, ⟨_, h3, by rw [← h.2, (hcols rows).2]⟩⟩
      · rintro ⟨h1, ⟨ra, h2, rfl⟩, ⟨rb, h3, rfl⟩⟩
        have hl : ra.length = rb.length := by rw [← h2.length_eq, ← h3.length_eq]
        have e1 : (ra.zip rb).map Prod.fst = ra := List.map_fst_zip (by omega)
        have e2 : (ra.zip rb).map Prod.snd = rb := List.map_snd_zip (by omega)
        have := (hok (ra.zip rb)).mpr ((split_ok _).mpr ⟨h1, by rw [e1]; exact h2, by rw [e2]; exact h3⟩)
        rw [this]
        simp only [Out.ok.injEq, Prod.mk.injEq]
        rw [(hcols _).1, (hcols _).2, e1, e2]
        exact ⟨rfl, rfl⟩

theorem forall2_exists {α : Type} (P : Nat → α → Prop) (cs : List Nat) :
    (∃ as, List.Forall₂ P cs as) ↔ ∀ c ∈ cs, ∃ a, P c a := by
  induction cs with
  | nil => simp
  | cons c cs ih =>
    constructor
    · rintro ⟨as, h⟩
      obtain ⟨a, as', h1, h2, _⟩ := List.forall₂_cons_left_iff.mp h
      intro c' hc'
      rw [List.mem_cons] at hc'
      rcases hc' with rfl | hc'
      · exact ⟨a, h1⟩
      · exact ih.mp ⟨as', h2⟩ c' hc'
    · intro h
      obtain ⟨a, ha⟩ := h c (by simp)
      obtain ⟨as, has⟩ := ih.mpr (fun c' hc' => h c' (by simp [hc']))
      exact ⟨a :: as, .cons ha has⟩

/-- C10: exactly when the program crashes on a catalog: the requested columns exist in the first row, and the
first row that is not a readable row of the same length is *longer* than the first row. -/
theorem C10_panic_iff (data : Str) (hp : Plain data) (ics fcs : List Nat) :
    parse ff data ics fcs = .panic ↔
      ∃ r0 rest, table data = r0 :: rest ∧ (∀ c ∈ ics ++ fcs, c < r0.length) ∧
        ∃ (k : Nat) (r : List Str), (table data)[k]? = some r ∧ r0.length < r.length ∧
          ∀ (m : Nat) (r' : List Str), m < k → (table data)[m]? = some r' → r'.length = r0.length ∧ Readable ff ics fcs r' := by
  rw [parse_eq, table_eq]
  have hpl := dataLines_plain data hp
  generalize dataLines data = ls at hpl
  cases ls with
  | nil => simp [parseLines]
  | cons l0 ls =>
    unfold parseLines
    simp only
    rw [width_eq l0 (hpl l0 (by simp))]
    set W := (words ' ' l0).length with hW
    by_cases hany : (ics ++ fcs).any (fun c => decide (W ≤ c)) = true
    · rw [if_pos hany]
      simp only [reduceCtorEq, false_iff]
      rintro ⟨r0, rest, he, h, _⟩
      rw [List.map_cons, List.cons.injEq] at he
      rw [List.any_eq_true] at hany
      obtain ⟨c, hc, hwc⟩ := hany
      have := h c hc
      rw [← he.1] at this
      have hwc' : W ≤ c := by simpa using hwc
      omega
    · rw [if_neg hany]
      have hall : ∀ c ∈ ics ++ fcs, c < W := by
        intro c hc
        by_contra hcon
        apply hany
        rw [List.any_eq_true]
        exact ⟨c, hc, by simpa using hcon⟩
      obtain ⟨-, hpan⟩ := parseRows_spec ff ' ' W ics fcs (fun j hj => hall j (by simp [hj])) (fun j hj => hall j (by simp [hj]))
        (l0 :: ls) (List.replicate W []) (by simp)
      have hrow : ∀ l, (∃ r, RowOk ff ' ' W ics fcs l r) ↔ (words ' ' l).length = W ∧ Readable ff ics fcs (words ' ' l) := by
        intro l
        unfold RowOk Readable
        simp only [convRow_ok]
        constructor
        · rintro ⟨r, h1, h2, h3⟩
          refine ⟨h1, ?_, ?_⟩
          · intro c hc
            obtain ⟨a, w, h⟩ := (forall2_exists _ _).mp ⟨r.1, h2⟩ c hc
            exact ⟨w, a, h⟩
          · intro c hc
            obtain ⟨a, w, h⟩ := (forall2_exists _ _).mp ⟨r.2, h3⟩ c hc
            exact ⟨w, a, h⟩
        · rintro ⟨h1, h2, h3⟩
          obtain ⟨as, has⟩ := (forall2_exists (fun j a => ∃ w, (words ' ' l)[j]? = some w ∧ atoi w = some a) ics).mpr
            (fun c hc => by obtain ⟨w, v, h⟩ := h2 c hc; exact ⟨v, w, h⟩)
          obtain ⟨bs, hbs⟩ := (forall2_exists (fun j a => ∃ w, (words ' ' l)[j]? = some w ∧ ff.parse w = some a) fcs).mpr
            (fun c hc => by obtain ⟨w, v, h⟩ := h3 c hc; exact ⟨v, w, h⟩)
          exact ⟨(as, bs), h1, has, hbs⟩
      have hiff : (match parseRows ff ' ' W ics fcs (l0 :: ls) (List.replicate W []) with
          | .panic => (Out.panic : Out (List (List Int) × List (List F)))
          | .err => .err
          | .ok rows => .ok ((List.range ics.length).map (fun j => rows.filterMap fun (r : List Int × List F) => r.1[j]?),
             (List.range fcs.length).map (fun j => rows.filterMap fun (r : List Int × List F) => r.2[j]?))) = .panic ↔
          parseRows ff ' ' W ics fcs (l0 :: ls) (List.replicate W []) = .panic := by
        cases parseRows ff ' ' W ics fcs (l0 :: ls) (List.replicate W []) <;> simp
      refine Iff.trans hiff ?_
      rw [hpan]
      constructor
      · rintro ⟨k, line, hk, hw, he⟩
        refine ⟨words ' ' l0, ls.map (words ' '), rfl, hall, k, words ' ' line, by rw [List.getElem?_map, hk]; rfl, hw, ?_⟩
        intro m r' hm hr'
        rw [List.getElem?_map, Option.map_eq_some_iff] at hr'
        obtain ⟨l, hl, rfl⟩ := hr'
        exact (hrow l).mp (he m l hm hl)
      · rintro ⟨r0, rest, hr0, _, k, r, hk, hw, he⟩
        rw [List.map_cons, List.cons.injEq] at hr0
        obtain ⟨rfl, _⟩ := hr0
        rw [List.getElem?_map, Option.map_eq_some_iff] at hk
        obtain ⟨line, hl, rfl⟩ := hk
        refine ⟨k, line, hl, hw, ?_⟩
        intro m l hm hl'
        exact (hrow l).mpr (he m (words ' ' l) hm (by rw [List.getElem?_map, hl']; rfl))

/-- C10 (part that holds): if no row is longer than the first one, a catalog is read or refused with an error; it never crashes the
program.  Missing from the full claim: catalogs with a row longer than the first one, see `C10_longer_row_panics`. -/
theorem C10_no_panic_partial (data : Str) (hp : Plain data) (ics fcs : List Nat)
    (h : ∀ r0 rest, table data = r0 :: rest → ∀ r ∈ rest, r.length ≤ r0.length) : parse ff data ics fcs ≠ .panic := by
  rw [ne_eq, C10_panic_iff ff data hp]
  rintro ⟨r0, rest, he, _, k, r, hk, hw, _⟩
  rw [he] at hk
  cases k with
  | zero => simp at hk; subst hk; omega
  | succ k =>
    rw [List.getElem?_cons_succ] at hk
    have := h r0 rest he r (List.mem_of_getElem? hk)
    omega

/-- Integers only; for the examples. -/
def exFF : FloatFmt Int := ⟨itoa, atoi⟩

-- a catalog with comments, blank lines and uneven spacing meets the hypotheses and is read
example : parse exFF "# ID x\n 1 20 \n\n   3   4 # end\n".toList [0] [1] = .ok ([[1, 3]], [[20, 4]]) := by decide
example : Plain "# ID x\n 1 20 \n\n   3   4 # end\n".toList := by unfold Plain; decide

/-- C10 is false as stated: a row longer than the first one crashes the program instead of being refused. -/
theorem C10_longer_row_panics : ∃ data : Str, Plain data ∧ parse exFF data [0] [] = .panic :=
  ⟨"1 2\n3 4 5\n".toList, by unfold Plain; decide, by decide⟩

/-- C10 is false for data with other white space: a DOS line ending after a blank crashes the program. -/
theorem C10_carriage_return_panics : ∃ data : Str, parse exFF data [0] [] = .panic :=
  ⟨"1 2 \r\n3 4 \r\n".toList, by decide⟩

end Shellfish.Catalog
