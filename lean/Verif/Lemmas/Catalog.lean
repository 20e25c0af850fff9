import Verif.Model.Catalog
import Verif.Lemmas.Text
import Mathlib.Data.List.Forall2
import Mathlib.Data.List.Basic

namespace Shellfish.Catalog

open Shellfish.Text

/-- The blank-separated words of a line (specification). -/
def words (sep : Char) (s : Str) : List Str := (splitOn sep s).filter (· ≠ [])

/-- words, reading left to right with a pending word -/
def wordsFrom (sep : Char) : Option Str → Str → List Str
  | none, [] => []
  | some w, [] => [w]
  | none, c :: cs => if c ≠ sep then wordsFrom sep (some [c]) cs else wordsFrom sep none cs
  | some w, c :: cs => if c = sep then w :: wordsFrom sep none cs else wordsFrom sep (some (w ++ [c])) cs

theorem splitOn_cons_ne (sep c : Char) (cs : Str) (h : c ≠ sep) :
    ∃ t ts, splitOn sep cs = t :: ts ∧ splitOn sep (c :: cs) = (c :: t) :: ts := by
  cases hs : splitOn sep cs with
  | nil => exact absurd hs (splitOn_ne_nil sep cs)
  | cons t ts => exact ⟨t, ts, rfl, by simp [splitOn, h, hs]⟩

theorem wordsFrom_eq (sep : Char) (s : Str) :
    wordsFrom sep none s = words sep s ∧
    ∀ w t ts, w ≠ [] → splitOn sep s = t :: ts → wordsFrom sep (some w) s = (w ++ t) :: ts.filter (· ≠ []) := by
  induction s with
  | nil =>
    refine ⟨by simp [wordsFrom, words, splitOn], ?_⟩
    intro w t ts _ h
    simp only [splitOn, List.cons.injEq] at h
    obtain ⟨rfl, rfl⟩ := h
    simp [wordsFrom]
  | cons c cs ih =>
    by_cases hc : c = sep
    · subst hc
      have hsp : splitOn c (c :: cs) = [] :: splitOn c cs := by simp [splitOn]
      refine ⟨?_, ?_⟩
      · simp only [wordsFrom, ne_eq, not_true_eq_false, if_false]
        rw [ih.1]; simp [words, hsp]
      · intro w t ts hw h
        rw [hsp] at h
        simp only [List.cons.injEq] at h
        obtain ⟨rfl, rfl⟩ := h
        simp only [wordsFrom, if_true, List.append_nil]
        rw [ih.1]; rfl
    · obtain ⟨t, ts, h1, h2⟩ := splitOn_cons_ne sep c cs hc
      refine ⟨?_, ?_⟩
      · simp only [wordsFrom, ne_eq, hc, not_false_eq_true, if_true]
        rw [ih.2 [c] t ts (by simp) h1]
        simp [words, h2]
      · intro w t' ts' hw h
        rw [h2] at h
        simp only [List.cons.injEq] at h
        obtain ⟨rfl, rfl⟩ := h
        simp only [wordsFrom, hc, if_false]
        rw [ih.2 (w ++ [c]) t ts (by simp) h1]
        simp

theorem wordsFrom_length (sep : Char) (s : Str) :
    (wordsFrom sep none s).length = countFields (fun c => c == sep) false s ∧
    ∀ w, (wordsFrom sep (some w) s).length = 1 + countFields (fun c => c == sep) true s := by
  induction s with
  | nil => simp [wordsFrom, countFields]
  | cons c cs ih =>
    by_cases hc : c = sep
    · subst hc
      refine ⟨?_, ?_⟩
      · simp [wordsFrom, countFields, ih.1]
      · intro w
        simp [wordsFrom, countFields, ih.1]; omega
    · have hb : (c == sep) = false := by simpa using hc
      refine ⟨?_, ?_⟩
      · simp [wordsFrom, countFields, hc, hb, ih.2]
      · intro w
        simp [wordsFrom, countFields, hc, hb, ih.2]

theorem words_length (sep : Char) (s : Str) : (words sep s).length = countFields (fun c => c == sep) false s := by
  rw [← (wordsFrom_eq sep s).1, (wordsFrom_length sep s).1]

theorem take_set_succ {α} (b : List α) (i : Nat) (x : α) (h : i < b.length) : (b.set i x).take (i + 1) = b.take i ++ [x] := by
  rw [List.take_add_one, List.take_set_of_le (Nat.le_refl i)]
  simp [h]

theorem fieldsLoop_spec (sep : Char) (n : Nat) : ∀ (s : Str) (cur : Option Str) (na : Nat) (buf : List Str),
    n = na + (wordsFrom sep cur s).length → na ≤ buf.length →
    (n ≤ buf.length → ∃ b, fieldsLoop sep n s cur na buf = some (b, n) ∧ b.length = buf.length ∧
      b.take n = buf.take na ++ wordsFrom sep cur s) ∧
    (buf.length < n → fieldsLoop sep n s cur na buf = none) := by
  intro s
  induction s with
  | nil =>
    intro cur na buf hn hna
    cases cur with
    | none =>
      simp only [wordsFrom, List.length_nil, Nat.add_zero] at hn
      subst hn
      simp only [fieldsLoop, wordsFrom, List.append_nil]
      exact ⟨fun _ => ⟨buf, rfl, rfl, rfl⟩, fun h => by omega⟩
    | some w =>
      simp only [wordsFrom, List.length_singleton] at hn
      subst hn
      simp only [fieldsLoop, wordsFrom]
      refine ⟨fun h => ?_, fun h => by rw [if_neg (by omega)]⟩
      rw [if_pos (by omega)]
      exact ⟨_, rfl, by simp, take_set_succ _ _ _ (by omega)⟩
  | cons c cs ih =>
    intro cur na buf hn hna
    unfold fieldsLoop
    by_cases hlt : na < n
    · rw [if_pos hlt]
      cases cur with
      | none =>
        by_cases hc : c = sep
        · simp only [wordsFrom, hc, ne_eq, not_true_eq_false, if_false] at hn ⊢
          exact ih none na buf hn hna
        · simp only [wordsFrom, hc, ne_eq, not_false_eq_true, if_true] at hn ⊢
          exact ih (some [c]) na buf hn hna
      | some w =>
        by_cases hc : c = sep
        · simp only [wordsFrom, hc, if_true, List.length_cons] at hn ⊢
          by_cases hb : na < buf.length
          · rw [if_pos hb]
            obtain ⟨h1, h2⟩ := ih none (na + 1) (buf.set na w) (by omega) (by simp; omega)
            constructor
            · intro h
              obtain ⟨b, g1, g2, g3⟩ := h1 (by simpa using h)
              refine ⟨b, g1, by simpa using g2, ?_⟩
              rw [g3, take_set_succ _ _ _ hb]; simp
            · intro h; exact h2 (by simpa using h)
          · rw [if_neg hb]
            exact ⟨fun h => by omega, fun _ => rfl⟩
        · simp only [wordsFrom, hc, if_false] at hn ⊢
          exact ih (some (w ++ [c])) na buf hn hna
    · rw [if_neg hlt]
      have h0 : (wordsFrom sep cur (c :: cs)).length = 0 := by omega
      cases cur with
      | none =>
        have h1 : n = na := by omega
        subst h1
        rw [List.length_eq_zero_iff.mp h0]
        simp only [List.append_nil]
        exact ⟨fun _ => ⟨buf, rfl, rfl, rfl⟩, fun h => by omega⟩
      | some w =>
        rw [(wordsFrom_length sep (c :: cs)).2 w] at h0
        omega

/-- `fields` finds the words if they fit in the buffer and panics otherwise -/
theorem fields_spec (data : Str) (sep : Char) (buf : List Str) :
    ((words sep data).length ≤ buf.length → ∃ b, fields data sep buf = some (words sep data, b) ∧ b.length = buf.length) ∧
    (buf.length < (words sep data).length → fields data sep buf = none) := by
  unfold fields
  have hn : countFields (fun c => c == sep) false data = 0 + (wordsFrom sep none data).length := by
    rw [(wordsFrom_length sep data).1]; omega
  obtain ⟨h1, h2⟩ := fieldsLoop_spec sep _ data none 0 buf hn (by omega)
  rw [words_length]
  constructor
  · intro h
    obtain ⟨b, g1, g2, g3⟩ := h1 h
    refine ⟨b, ?_, g2⟩
    simp only [g1, Option.bind_eq_bind, Option.bind_some, g3]
    rw [(wordsFrom_eq sep data).1]; simp
  · intro h
    simp only [h2 h, Option.bind_eq_bind, Option.bind_none]

/-! comments -/

theorem count_splitOn (sep comm : Char) (h : comm ≠ sep) (s : Str) :
    ((splitOn sep s).map (List.count comm)).sum = s.count comm := by
  induction s with
  | nil => simp [splitOn]
  | cons c cs ih =>
    by_cases hc : c = sep
    · subst hc
      have : splitOn c (c :: cs) = [] :: splitOn c cs := by simp [splitOn]
      rw [this, List.map_cons, List.sum_cons, ih, List.count_cons_of_ne (Ne.symm h)]
      simp
    · obtain ⟨t, ts, h1, h2⟩ := splitOn_cons_ne sep c cs hc
      rw [h1] at ih
      rw [h2]
      simp only [List.map_cons, List.sum_cons] at ih ⊢
      rw [List.count_cons, List.count_cons, ← ih]; omega

theorem takeWhile_self (c : Char) (s : Str) (h : c ∉ s) : s.takeWhile (· ≠ c) = s := by
  induction s with
  | nil => rfl
  | cons x xs ih =>
    rw [List.mem_cons, not_or] at h
    rw [List.takeWhile_cons, if_pos (by simpa using Ne.symm h.1), ih h.2]

theorem count_after_first (c : Char) (s : Str) (h : c ∈ s) :
    1 + (s.drop ((s.takeWhile (· ≠ c)).length + 1)).count c = s.count c := by
  induction s with
  | nil => simp at h
  | cons x xs ih =>
    by_cases hx : x = c
    · subst hx
      simp; omega
    · have hm : c ∈ xs := by
        rw [List.mem_cons] at h
        exact h.resolve_left (fun e => hx e.symm)
      have ht : (x :: xs).takeWhile (· ≠ c) = x :: xs.takeWhile (· ≠ c) := by
        rw [List.takeWhile_cons, if_pos (by simpa using hx)]
      rw [ht, List.length_cons, List.drop_succ_cons, ih hm, List.count_cons_of_ne hx]

theorem le_sum_of_mem_nat {l : List Nat} {n : Nat} (h : n ∈ l) : n ≤ l.sum := by
  induction l with
  | nil => simp at h
  | cons a as ih =>
    rw [List.mem_cons] at h
    rw [List.sum_cons]
    rcases h with rfl | h
    · omega
    · have := ih h; omega

theorem uncomment_eq (comm : Char) : ∀ (lines : List Str) (n : Nat), n = (lines.map (List.count comm)).sum →
    uncomment comm n lines = lines.map (fun l => l.takeWhile (· ≠ comm)) := by
  intro lines
  induction lines with
  | nil => intro n _; cases n <;> rfl
  | cons l ls ih =>
    intro n hn
    rw [List.map_cons, List.sum_cons] at hn
    cases n with
    | zero =>
      have hz : ∀ x ∈ l :: ls, comm ∉ x := by
        intro x hx hm
        have hp : 0 < x.count comm := List.count_pos_iff.mpr hm
        rw [List.mem_cons] at hx
        rcases hx with rfl | hx
        · omega
        · have := le_sum_of_mem_nat (List.mem_map_of_mem (f := List.count comm) hx)
          omega
      have : (l :: ls).map (fun l => l.takeWhile (· ≠ comm)) = (l :: ls).map id :=
        List.map_congr_left (fun x hx => takeWhile_self comm x (hz x hx))
      rw [this, List.map_id]; rfl
    | succ n =>
      unfold uncomment
      by_cases hm : comm ∈ l
      · rw [if_neg (not_not.mpr hm)]
        simp only [List.map_cons]
        congr 1
        apply ih
        rw [count_after_first comm l hm]; omega
      · rw [if_pos hm, List.map_cons, takeWhile_self comm l hm]
        congr 1
        apply ih
        rw [List.count_eq_zero_of_not_mem hm] at hn; omega

/-! blank lines -/

theorem words_eq_nil_iff (sep : Char) (s : Str) : words sep s = [] ↔ ∀ c ∈ s, c = sep := by
  rw [← (wordsFrom_eq sep s).1]
  induction s with
  | nil => simp [wordsFrom]
  | cons c cs ih =>
    by_cases hc : c = sep
    · subst hc; simp [wordsFrom, ih]
    · simp only [wordsFrom, ne_eq, hc, not_false_eq_true, if_true, List.mem_cons, forall_eq_or_imp, false_and, iff_false]
      intro h
      have := (wordsFrom_length sep cs).2 [c]
      rw [h] at this; simp at this; omega

theorem trimLines_words (sep : Char) (lines : List Str) :
    trimLines sep lines = lines.filter (fun l => words sep l ≠ []) := by
  unfold trimLines
  apply List.filter_congr
  intro l _
  rw [Bool.eq_iff_iff]
  simp only [List.any_eq_true, decide_eq_true_eq, ne_eq, words_eq_nil_iff]
  constructor
  · rintro ⟨c, hc, hne⟩ h; exact hne (h c hc)
  · intro h
    by_contra hcon
    apply h
    intro c hc
    by_contra hne
    exact hcon ⟨c, hc, hne⟩

theorem countFields_plain (s : Str) (h : ∀ c ∈ s, goSpace c = true → c = ' ') (b : Bool) :
    countFields goSpace b s = countFields (fun c => c == ' ') b s := by
  induction s generalizing b with
  | nil => rfl
  | cons c cs ih =>
    have hc : goSpace c = (c == ' ') := by
      rw [Bool.eq_iff_iff]
      constructor
      · intro hg; simpa using h c (by simp) hg
      · intro he
        have : c = ' ' := by simpa using he
        subst this; decide
    simp only [countFields, hc, ih (fun x hx => h x (by simp [hx]))]

/-! rows -/

theorem convRow_ok {α : Type} (f : Str → Option α) (ws : List Str) (js : List Nat) (as : List α) :
    convRow f ws js = .ok as ↔ List.Forall₂ (fun j a => ∃ w, ws[j]? = some w ∧ f w = some a) js as := by
  induction js generalizing as with
  | nil => simp [convRow, eq_comm]
  | cons j js ih =>
    simp only [convRow]
    cases hw : ws[j]? with
    | none => simp [hw, List.forall₂_cons_left_iff]
    | some w =>
      simp only
      cases hf : f w with
      | none => simp [hw, hf, List.forall₂_cons_left_iff]
      | some a =>
        simp only
        cases hr : convRow f ws js with
        | ok as' =>
          simp only [Out.ok.injEq]
          rw [List.forall₂_cons_left_iff]
          constructor
          · rintro rfl
            exact ⟨a, as', ⟨w, hw, hf⟩, (ih as').mp hr, rfl⟩
          · rintro ⟨b, bs, ⟨w', h1, h2⟩, h3, rfl⟩
            rw [hw] at h1; cases h1
            rw [hf] at h2; cases h2
            have := (ih bs).mpr h3
            rw [hr] at this; cases this; rfl
        | err =>
          simp only [reduceCtorEq, false_iff]
          rw [List.forall₂_cons_left_iff]
          rintro ⟨b, bs, _, h3, _⟩
          rw [(ih bs).mpr h3] at hr; cases hr
        | panic =>
          simp only [reduceCtorEq, false_iff]
          rw [List.forall₂_cons_left_iff]
          rintro ⟨b, bs, _, h3, _⟩
          rw [(ih bs).mpr h3] at hr; cases hr

theorem convRow_no_panic {α : Type} (f : Str → Option α) (ws : List Str) (js : List Nat) (h : ∀ j ∈ js, j < ws.length) :
    convRow f ws js ≠ .panic := by
  induction js with
  | nil => simp [convRow]
  | cons j js ih =>
    have hj : j < ws.length := h j (by simp)
    simp only [convRow, List.getElem?_eq_getElem hj]
    cases f ws[j] with
    | none => simp
    | some a =>
      have := ih (fun j hj => h j (by simp [hj]))
      simp only
      cases hr : convRow f ws js <;> simp_all

/-- a row that the loop accepts -/
def RowOk {F : Type} (ff : FloatFmt F) (sep : Char) (width : Nat) (ics fcs : List Nat) (line : Str) (r : List Int × List F) : Prop :=
  (words sep line).length = width ∧ convRow atoi (words sep line) ics = .ok r.1 ∧ convRow ff.parse (words sep line) fcs = .ok r.2

theorem parseRows_spec {F : Type} (ff : FloatFmt F) (sep : Char) (width : Nat) (ics fcs : List Nat)
    (hi : ∀ j ∈ ics, j < width) (hf : ∀ j ∈ fcs, j < width) :
    ∀ (lines buf : List Str), buf.length = width →
    (∀ rows, parseRows ff sep width ics fcs lines buf = .ok rows ↔ List.Forall₂ (RowOk ff sep width ics fcs) lines rows) ∧
    (parseRows ff sep width ics fcs lines buf = .panic ↔ ∃ (k : Nat) (line : Str), lines[k]? = some line ∧ width < (words sep line).length ∧
      ∀ (m : Nat) (l : Str), m < k → lines[m]? = some l → ∃ r, RowOk ff sep width ics fcs l r) := by
  intro lines
  induction lines with
  | nil =>
    intro buf _
    refine ⟨?_, ?_⟩
    · intro rows; simp [parseRows, eq_comm]
    · simp [parseRows]
  | cons line lines ih =>
    intro buf hb
    obtain ⟨h1, h2⟩ := fields_spec line sep buf
    unfold parseRows
    by_cases hlen : (words sep line).length ≤ buf.length
    · obtain ⟨b, hfd, hbl⟩ := h1 hlen
      rw [hfd]
      simp only
      by_cases hw : (words sep line).length = width
      · rw [if_neg (not_not.mpr hw)]
        have hnp1 := convRow_no_panic atoi (words sep line) ics (by rw [hw]; exact hi)
        have hnp2 := convRow_no_panic ff.parse (words sep line) fcs (by rw [hw]; exact hf)
        have nook : (¬ ∃ r, RowOk ff sep width ics fcs line r) →
            (¬ ∃ (k : Nat) (l : Str), (line :: lines)[k]? = some l ∧ width < (words sep l).length ∧
              ∀ (m : Nat) (l' : Str), m < k → (line :: lines)[m]? = some l' → ∃ r, RowOk ff sep width ics fcs l' r) := by
          rintro hno ⟨k, l, hk, hwl, hearlier⟩
          cases k with
          | zero => simp at hk; subst hk; omega
          | succ k => exact hno (hearlier 0 line (by omega) (by simp))
        cases hci : convRow atoi (words sep line) ics with
        | panic => exact absurd hci hnp1
        | err =>
          simp only
          have hno : ¬ ∃ r, RowOk ff sep width ics fcs line r := by
            rintro ⟨r, _, h, _⟩; rw [hci] at h; cases h
          refine ⟨?_, by simpa using nook hno⟩
          intro rows
          simp only [reduceCtorEq, false_iff, List.forall₂_cons_left_iff]
          rintro ⟨r, rs, hr, _⟩; exact hno ⟨r, hr⟩
        | ok is =>
          simp only
          cases hcf : convRow ff.parse (words sep line) fcs with
          | panic => exact absurd hcf hnp2
          | err =>
            simp only
            have hno : ¬ ∃ r, RowOk ff sep width ics fcs line r := by
              rintro ⟨r, _, _, h⟩; rw [hcf] at h; cases h
            refine ⟨?_, by simpa using nook hno⟩
            intro rows
            simp only [reduceCtorEq, false_iff, List.forall₂_cons_left_iff]
            rintro ⟨r, rs, hr, _⟩; exact hno ⟨r, hr⟩
          | ok fs =>
            simp only
            have hok : RowOk ff sep width ics fcs line (is, fs) := ⟨hw, hci, hcf⟩
            obtain ⟨ih1, ih2⟩ := ih b (by rw [hbl, hb])
            have hpan : (∃ (k : Nat) (l : Str), (line :: lines)[k]? = some l ∧ width < (words sep l).length ∧
                ∀ (m : Nat) (l' : Str), m < k → (line :: lines)[m]? = some l' → ∃ r, RowOk ff sep width ics fcs l' r) ↔
                parseRows ff sep width ics fcs lines b = .panic := by
              rw [ih2]
              constructor
              · rintro ⟨k, l, hk, hwl, he⟩
                cases k with
                | zero => simp at hk; subst hk; omega
                | succ k =>
                  rw [List.getElem?_cons_succ] at hk
                  exact ⟨k, l, hk, hwl, fun m l' hm hl' => he (m + 1) l' (by omega) (by simpa using hl')⟩
              · rintro ⟨k, l, hk, hwl, he⟩
                refine ⟨k + 1, l, by simpa using hk, hwl, ?_⟩
                intro m l' hm hl'
                cases m with
                | zero => simp at hl'; subst hl'; exact ⟨_, hok⟩
                | succ m => exact he m l' (by omega) (by simpa using hl')
            rw [hpan]
            have hfor : ∀ rows, List.Forall₂ (RowOk ff sep width ics fcs) (line :: lines) rows ↔
                ∃ rs, rows = (is, fs) :: rs ∧ parseRows ff sep width ics fcs lines b = .ok rs := by
              intro rows
              rw [List.forall₂_cons_left_iff]
              constructor
              · rintro ⟨r, rs, ⟨_, e1, e2⟩, ht, rfl⟩
                rw [hci] at e1; rw [hcf] at e2
                cases e1; cases e2
                exact ⟨rs, rfl, (ih1 rs).mpr ht⟩
              · rintro ⟨rs, rfl, ht⟩
                exact ⟨(is, fs), rs, hok, (ih1 rs).mp ht, rfl⟩
            cases hp : parseRows ff sep width ics fcs lines b with
            | ok rs =>
              simp only [Out.ok.injEq, reduceCtorEq, and_true]
              intro rows
              rw [hfor, hp]
              constructor
              · rintro rfl; exact ⟨rs, rfl, rfl⟩
              · rintro ⟨rs', rfl, e⟩; cases e; rfl
            | err =>
              simp only [reduceCtorEq, false_iff, and_true]
              intro rows
              rw [hfor, hp]; rintro ⟨_, _, e⟩; cases e
            | panic =>
              simp only [reduceCtorEq, false_iff, and_true]
              intro rows
              rw [hfor, hp]; rintro ⟨_, _, e⟩; cases e
      · rw [if_pos hw]
        refine ⟨?_, ?_⟩
        · intro rows
          simp only [reduceCtorEq, false_iff, List.forall₂_cons_left_iff]
          rintro ⟨r, rs, hr, _⟩; exact hw hr.1
        · simp only [reduceCtorEq, false_iff]
          rintro ⟨k, l, hk, hwl, he⟩
          cases k with
          | zero => simp at hk; subst hk; omega
          | succ k =>
            obtain ⟨r, hr⟩ := he 0 line (by omega) (by simp)
            exact hw hr.1
    · rw [h2 (by omega)]
      simp only [reduceCtorEq, false_iff, true_iff]
      refine ⟨?_, ⟨0, line, by simp, by omega, by intro m l hm; omega⟩⟩
      intro rows
      rw [List.forall₂_cons_left_iff]
      rintro ⟨r, rs, hr, _⟩
      have := hr.1
      omega

end Shellfish.Catalog
