/-
C96: the rows of a catalog keep their identity and their order along a pipe of tools.  C97: the header of every tool describes its columns.
-/
import Verif.Lemmas.Pipe
import Verif.Props.Main
import Verif.Props.Tree
import Verif.Props.Coord
import Verif.Props.Version

namespace Shellfish.Pipe
open Shellfish.Text Shellfish.Main
open Shellfish.Catalog
open Shellfish.Cmd (transpose)

variable {F : Type}

/-! ### Specification -/

/-- The text is a catalog whose rows are, in this order, the halos `rows`: ids in column 0, snapshots in column 1. -/
def Holds (ff : FloatFmt F) (text : Str) (rows : List (Int × Int)) : Prop := parse ff text [0, 1] [] = .ok ([rows.map Prod.fst, rows.map Prod.snd], [])

/-- The tool keeps the halos of its input: what it prints are these halos, in the same order. -/
def Keeps (ff : FloatFmt F) (run : Str → RunRes) : Prop :=
  ∀ stdin rows out, Holds ff stdin rows → run stdin = .lines out → Holds ff (printed out) rows

/-- What the tool prints are the halos of its input, in the same order, or nothing at all. -/
def KeepsOrNothing (ff : FloatFmt F) (run : Str → RunRes) : Prop :=
  ∀ stdin rows out, Holds ff stdin rows → run stdin = .lines out → out = [] ∨ Holds ff (printed out) rows

/-! ### Proofs -/

theorem Keeps.or {ff : FloatFmt F} {run : Str → RunRes} (h : Keeps ff run) : KeepsOrNothing ff run := fun stdin rows out h1 h2 => Or.inr (h stdin rows out h1 h2)

theorem andThen_lines {α : Type} (o : Out α) (k : α → RunRes) (out : List Str) (h : andThen o k = .lines out) : ∃ a, o = .ok a ∧ k a = .lines out := by
  cases o with
  | ok a => exact ⟨a, rfl, h⟩
  | err => cases h
  | panic => cases h

theorem withCols_lines (rows : List (List F)) (k : List (List F) → RunRes) (out : List Str) (h : withCols rows k = .lines out) : ∃ cols, transpose rows = some cols ∧ k cols = .lines out := by
  unfold withCols at h
  cases ht : transpose rows with
  | none => rw [ht] at h; cases h
  | some cols => rw [ht] at h; exact ⟨cols, rfl, h⟩

theorem labels_newline (n : Int) (l : List (Str × Int)) (h : ∀ p ∈ l, '\n' ∉ p.1) : ∀ s ∈ labels n l, '\n' ∉ s := by
  have hi : ∀ k : Int, '\n' ∉ itoa k := fun k => itoa_no k '\n' (by decide) (by decide)
  induction l generalizing n with
  | nil => intro s hs; cases hs
  | cons p rest ih =>
    obtain ⟨name, size⟩ := p
    intro s hs
    have hn := h (name, size) (by simp)
    dsimp only at hn
    unfold labels at hs
    rcases List.mem_cons.mp hs with rfl | hs
    · by_cases hsz : size = 1
      · rw [if_pos hsz]
        simp [hn, hi]
      · rw [if_neg hsz]
        simp [hn, hi]
    · exact ih _ (fun p hp => h p (by simp [hp])) s hs

theorem orderNames_mem (names : List Str) (sizes : List Int) (order : List Nat) (l : List (Str × Int)) (h : orderNames names sizes order = some l) : ∀ p ∈ l, p.1 ∈ names := by
  induction order generalizing l with
  | nil => cases h; intro p hp; cases hp
  | cons o os ih =>
    unfold orderNames at h
    simp only [Option.bind_eq_bind, Option.bind_eq_some_iff] at h
    obtain ⟨nm, h1, s, _, r, h2, h3⟩ := h
    cases h3
    intro p hp
    rcases List.mem_cons.mp hp with rfl | hp
    · exact List.mem_of_getElem? h1
    · exact ih r h2 p hp

theorem comment_header (intNames floatNames : List Str) (order : List Nat) (sizes : List Int) (c : Str) (h : commentString intNames floatNames order sizes = some c)
    (hn : ∀ s ∈ intNames ++ floatNames, '\n' ∉ s) : ∃ t, c = '#' :: t ∧ '\n' ∉ t := by
  unfold commentString at h
  simp only [Option.bind_eq_bind, Option.bind_eq_some_iff] at h
  obtain ⟨l, hl, h⟩ := h
  cases h
  have hl' := labels_newline 0 l fun p hp => hn _ (orderNames_mem _ _ _ _ hl p hp)
  have hno : '\n' ∉ joinWith ' ' ("# Column contents:".toList :: labels 0 l) := by
    intro hm
    rcases mem_join _ _ _ hm with h | ⟨t, ht, hc⟩
    · revert h; decide
    · rcases List.mem_cons.mp ht with rfl | ht
      · revert hc; decide
      · exact hl' t ht hc
  cases hlab : labels 0 l with
  | nil =>
    rw [hlab] at hno
    exact ⟨" Column contents:".toList, by rw [show joinWith ' ' ["# Column contents:".toList] = "# Column contents:".toList from rfl]; decide, by decide⟩
  | cons a as =>
    rw [hlab] at hno
    rw [show joinWith ' ' ("# Column contents:".toList :: a :: as) = "# Column contents:".toList ++ ' ' :: joinWith ' ' (a :: as) from rfl] at hno ⊢
    refine ⟨" Column contents:".toList ++ ' ' :: joinWith ' ' (a :: as), ?_, ?_⟩
    · rw [show "# Column contents:".toList = '#' :: " Column contents:".toList by decide]; rfl
    · rw [show "# Column contents:".toList = '#' :: " Column contents:".toList by decide] at hno
      exact fun h => hno (List.mem_cons_of_mem _ h)

theorem forall₂_eq_map {α β : Type} (P : α → β → Prop) (g : α → β) (l : List α) (r : List β) (h : List.Forall₂ P l r) (hg : ∀ a ∈ l, ∀ b, P a b → b = g a) : r = l.map g := by
  induction h with
  | nil => rfl
  | cons h1 _ ih => rw [List.map_cons, hg _ (by simp) _ h1, ih fun a ha => hg a (by simp [ha])]

/-- What `emit` prints is read back: ids, snapshots and any of the float columns. -/
theorem emit_reads (ff : FloatFmt F) (rd : F → F) (hff : Reads ff rd) (intNames floatNames : List Str) (nameOrder : List Nat) (sizes : List Int) (hn : ∀ s ∈ intNames ++ floatNames, '\n' ∉ s)
    (ids snaps : List Int) (hpos : ids.length ≠ 0) (hlen : snaps.length = ids.length) (hi : ∀ x ∈ ids, minInt ≤ x ∧ x ≤ maxInt) (hs : ∀ x ∈ snaps, minInt ≤ x ∧ x ≤ maxInt) (fcols : List (List F))
    (hf : ∀ c ∈ fcols, c.length = ids.length) (n : Nat) (hn2 : 2 ≤ n) (out : List Str) (h : emit ff intNames floatNames nameOrder sizes [ids, snaps] fcols (List.range n) = .lines out)
    (fl : List Nat) (hfl : ∀ j ∈ fl, j + 2 < n) :
    n ≤ 2 + fcols.length ∧ parse ff (printed out) [0, 1] (fl.map (· + 2)) = .ok ([ids, snaps], fl.map fun j => (fcols.getD j []).map rd) := by
  unfold emit at h
  cases h1 : formatCols ff [ids, snaps] fcols (List.range n) with
  | none => rw [h1] at h; cases h
  | some ls =>
    cases h2 : commentString intNames floatNames nameOrder sizes with
    | none => rw [h1, h2] at h; cases h
    | some c =>
      rw [h1, h2] at h
      cases h
      obtain ⟨t, rfl, ht⟩ := comment_header _ _ _ _ c h2 hn
      have hcols : ∀ c ∈ [ids, snaps], c.length = ids.length ∧ ∀ x ∈ c, minInt ≤ x ∧ x ≤ maxInt := by
        intro c hc
        simp only [List.mem_cons, List.not_mem_nil, or_false] at hc
        rcases hc with rfl | rfl
        · exact ⟨rfl, hi⟩
        · exact ⟨hlen, hs⟩
      have hord := (formatCols_order ff ids.length (by omega) [ids, snaps] fcols (List.range n) (by simp) (fun c hc => (hcols c hc).1) hf ls h1).2
      rw [List.length_range] at hord
      obtain ⟨A, B, _, e1, e2, e3⟩ := written_reads ff rd hff ids.length (by omega) [ids, snaps] fcols (List.range n) (by simp) hcols hf ls h1 t ht [0, 1] (fl.map (· + 2))
        (by
          intro p hp
          simp only [List.mem_cons, List.not_mem_nil, or_false] at hp
          refine ⟨p, ?_, ?_⟩
          · rw [List.getElem?_range (by omega)]
          · simp only [List.length_cons, List.length_nil]; omega)
        (by
          intro p hp
          obtain ⟨j, hj, rfl⟩ := List.mem_map.mp hp
          refine ⟨j + 2, ?_, by simp⟩
          rw [List.getElem?_range (hfl j hj)])
      refine ⟨hord, ?_⟩
      rw [e1]
      have hA : A = [ids, snaps] := by
        rw [forall₂_eq_map _ (fun p => [ids, snaps].getD p []) _ _ e2 ?_]
        · rfl
        · rintro p hp b ⟨o, ho, hb⟩
          simp only [List.mem_cons, List.not_mem_nil, or_false] at hp
          rw [List.getElem?_range (by omega)] at ho
          cases ho
          rw [List.getD_eq_getElem?_getD, hb]; rfl
      have hB : B = fl.map fun j => (fcols.getD j []).map rd := by
        rw [List.forall₂_map_left_iff] at e3
        apply forall₂_eq_map _ _ _ _ e3
        rintro j hj b ⟨o, c, ho, hc, rfl⟩
        rw [List.getElem?_range (hfl j hj)] at ho
        simp only [Option.some.injEq, List.length_cons, List.length_nil] at ho
        have : o = j := by omega
        subst this
        rw [List.getD_eq_getElem?_getD, hc]; rfl
      rw [hA, hB]

/-- A printed header alone is a catalog without rows. -/
theorem header_holds (ff : FloatFmt F) (t : Str) (ht : '\n' ∉ t) : Holds ff (printed ['#' :: t]) [] :=
  printed_pairs ff t ht [] (by simp) [] (by simp) rfl

/-- The columns that were read, with a name. -/
theorem parse_two (ff : FloatFmt F) (s : Str) (fcs : List Nat) (A : List (List Int)) (B : List (List F)) (h : parse ff s [0, 1] fcs = .ok (A, B)) (rows : List (Int × Int)) (hr : Holds ff s rows) :
    A = [rows.map Prod.fst, rows.map Prod.snd] ∧ (∀ x ∈ rows.map Prod.fst, minInt ≤ x ∧ x ≤ maxInt) ∧ (∀ x ∈ rows.map Prod.snd, minInt ≤ x ∧ x ≤ maxInt) ∧ B.length = fcs.length ∧
      ∀ c ∈ B, c.length = rows.length := by
  obtain ⟨_, h2, ⟨n, h3, h4⟩, h5, h6⟩ := parse_facts ff s _ _ A B h
  unfold Holds at hr
  rw [h6] at hr
  cases hr
  refine ⟨rfl, h5 _ (by simp), h5 _ (by simp), h2, ?_⟩
  have : n = rows.length := by rw [← h3 (rows.map Prod.fst) (by simp), List.length_map]
  rw [← this]
  exact h4

variable (ff : FloatFmt F) (rd : F → F) (hff : Reads ff rd)
include hff

/-- What `shell` prints, read back: the halos, the coordinates and the coefficients of the row of each halo. -/
theorem shell_reads (loop : List Int → List Int → List (List F) → Out (Nat → List F)) (stdin : Str) (rows : List (Int × Int)) (hh : Holds ff stdin rows) (out : List Str)
    (h : shellRun ff loop stdin = .lines out) :
    ∃ coords res cols, parse ff stdin [0, 1] [2, 3, 4, 5] = .ok ([rows.map Prod.fst, rows.map Prod.snd], coords) ∧ rows ≠ [] ∧
      loop (rows.map Prod.fst) (rows.map Prod.snd) coords = .ok res ∧ transpose ((List.range rows.length).map res) = some cols ∧ (res 0).length ≤ cols.length ∧ coords.length = 4 ∧
      ∀ fl : List Nat, (∀ j ∈ fl, j < 4 + (res 0).length) →
        parse ff (printed out) [0, 1] (fl.map (· + 2)) = .ok ([rows.map Prod.fst, rows.map Prod.snd], fl.map fun j => ((coords ++ cols).getD j []).map rd) := by
  unfold shellRun at h
  obtain ⟨⟨A, B⟩, h1, h⟩ := andThen_lines _ _ _ h
  obtain ⟨rfl, hi, hs, hb, hc⟩ := parse_two ff stdin _ A B h1 rows hh
  dsimp only at h
  by_cases h0 : (rows.map Prod.fst).length = 0
  · rw [if_pos h0] at h; cases h
  · rw [if_neg h0] at h
    obtain ⟨res, h2, h⟩ := andThen_lines _ _ _ h
    obtain ⟨cols, h3, h⟩ := withCols_lines _ _ _ h
    have hcols := transpose_height _ _ h3
    rw [tableOf_length, List.length_map] at hcols
    have e : tableOf (rows.map Prod.fst) res = (List.range rows.length).map res := by rw [tableOf, List.length_map]
    rw [e] at h3
    have key := emit_reads ff rd hff _ _ _ _ (by decide) _ _ h0 (by simp) hi hs (B ++ cols) (by
      intro c hc'
      rw [List.length_map]
      rcases List.mem_append.mp hc' with h | h
      · exact hc c h
      · exact hcols c h) _ (by omega) out h
    have hle : (res 0).length ≤ cols.length := by
      have := (key [] (by simp)).1
      rw [List.length_append, hb] at this
      simp only [List.length_cons, List.length_nil] at this
      omega
    refine ⟨B, res, cols, h1, ?_, h2, h3, hle, hb, fun fl hfl => (key fl fun j hj => by have := hfl j hj; omega).2⟩
    rintro rfl
    exact h0 rfl

/-- C96, `shell`. -/
theorem C96_shell (loop : List Int → List Int → List (List F) → Out (Nat → List F)) : Keeps ff (shellRun ff loop) := by
  intro stdin rows out hh h
  obtain ⟨coords, res, cols, h1, h2, h3, h4, h5, h6, h7⟩ := shell_reads ff rd hff loop stdin rows hh out h
  exact h7 [] (by simp)

/-- C96, `stats`. -/
theorem C96_stats (order : Nat) (stats : List Int → List Int → List (List F) → List (List F) → Out (Nat → Fin 12 → F)) : Keeps ff (statsRun ff order stats) := by
  intro stdin rows out hh h
  unfold statsRun at h
  obtain ⟨⟨A, B⟩, h1, h⟩ := andThen_lines _ _ _ h
  obtain ⟨rfl, hi, hs, hb, hc⟩ := parse_two ff stdin _ A B h1 rows hh
  dsimp only at h
  obtain ⟨coeffs, h3, h⟩ := withCols_lines _ _ _ h
  by_cases h0 : (rows.map Prod.fst).length = 0
  · rw [if_pos h0] at h; cases h
  · rw [if_neg h0] at h
    obtain ⟨res, h2, h⟩ := andThen_lines _ _ _ h
    exact (emit_reads ff rd hff _ _ _ _ (by decide) _ _ h0 (by simp) hi hs _ (by
      intro c hc'
      obtain ⟨j, _, rfl⟩ := List.mem_map.mp hc'
      exact tableOf_length _ _) _ (by omega) out h [] (by simp)).2

/-- C96, `prof`: it prints its halos, or, when it stops early (cmd/prof.go:417, C49), nothing at all. -/
theorem C96_prof_or (kind : Str) (order bins : Nat) (prof : List Int → List Int → List (List F) → Out (Option ((Nat → List F) × (Nat → List F)))) :
    KeepsOrNothing ff (profRun ff kind order bins prof) := by
  intro stdin rows out hh h
  unfold profRun at h
  obtain ⟨⟨A, B⟩, h1, h⟩ := andThen_lines _ _ _ h
  obtain ⟨rfl, hi, hs, hb, hc⟩ := parse_two ff stdin _ A B h1 rows hh
  dsimp only at h
  obtain ⟨res, h2, h⟩ := andThen_lines _ _ _ h
  cases res with
  | none => left; cases h; rfl
  | some r =>
    right
    obtain ⟨rs, rhos⟩ := r
    simp only [profOut] at h
    obtain ⟨c1, t1, h⟩ := withCols_lines _ _ _ h
    obtain ⟨c2, t2, h⟩ := withCols_lines _ _ _ h
    have h0 : (rows.map Prod.fst).length ≠ 0 := by
      intro h0
      rw [List.length_eq_zero_iff] at h0
      rw [h0] at t1
      cases t1
    have g1 := transpose_height _ _ t1
    have g2 := transpose_height _ _ t2
    rw [tableOf_length] at g1 g2
    exact (emit_reads ff rd hff _ _ _ _ (by decide) _ _ h0 (by simp) hi hs _ (by
      intro c hc'
      rcases List.mem_append.mp hc' with h | h
      · exact g1 c h
      · exact g2 c h) _ (by omega) out h [] (by simp)).2

/-- C96, `prof` with a profile for which the program does not stop early. -/
theorem C96_prof (kind : Str) (order bins : Nat) (prof : List Int → List Int → List (List F) → Out (Option ((Nat → List F) × (Nat → List F)))) (hp : ∀ a b c, prof a b c ≠ .ok none) :
    Keeps ff (profRun ff kind order bins prof) := by
  intro stdin rows out hh h
  rcases C96_prof_or ff rd hff kind order bins prof stdin rows out hh h with rfl | h'
  · exfalso
    unfold profRun at h
    obtain ⟨⟨A, B⟩, h1, h⟩ := andThen_lines _ _ _ h
    obtain ⟨rfl, hi, hs, hb, hc⟩ := parse_two ff stdin _ A B h1 rows hh
    dsimp only at h
    obtain ⟨res, h2, h⟩ := andThen_lines _ _ _ h
    cases res with
    | none => exact hp _ _ _ h2
    | some r =>
      obtain ⟨rs, rhos⟩ := r
      simp only [profOut] at h
      obtain ⟨c1, t1, h⟩ := withCols_lines _ _ _ h
      obtain ⟨c2, t2, h⟩ := withCols_lines _ _ _ h
      unfold emit at h
      split at h <;> cases h
  · exact h'


/-- C96, `prof` with the angular fraction. -/
theorem C96_angular (order bins : Nat) (frac : List (List F) → Nat → Nat → F × F) : Keeps ff (angularRun ff order bins frac) := by
  intro stdin rows out hh h
  unfold angularRun at h
  obtain ⟨⟨A, B⟩, h1, h⟩ := andThen_lines _ _ _ h
  obtain ⟨rfl, hi, hs, hb, hc⟩ := parse_two ff stdin _ A B h1 rows hh
  simp only [angularOut] at h
  by_cases h0 : (rows.map Prod.fst).length = 0
  · have hr : rows = [] := by rw [List.length_map] at h0; exact List.length_eq_zero_iff.mp h0
    subst hr
    unfold emit at h
    have e : ∀ (fc : List (List F)) (o : List Nat), formatCols ff [List.map Prod.fst ([] : List (Int × Int)), List.map Prod.snd ([] : List (Int × Int))] fc o = some [] := by
      intro fc o
      unfold formatCols
      rw [if_pos (by simp)]
    rw [e] at h
    cases h2 : commentString [chars "ID", chars "Snapshot", chars "R [cMpc/h]", chars "Volume Fraction Contained"] [] [0, 1, 2, 3] [1, 1, (bins : Int), (bins : Int)] with
    | none => rw [h2] at h; cases h
    | some c =>
      rw [h2] at h
      cases h
      obtain ⟨t, rfl, ht⟩ := comment_header _ _ _ _ c h2 (by decide)
      exact header_holds ff t ht
  · exact (emit_reads ff rd hff _ _ _ _ (by decide) _ _ h0 (by simp) hi hs _ (by
      intro c hc'
      rcases List.mem_append.mp hc' with h | h
      · obtain ⟨j, _, rfl⟩ := List.mem_map.mp h
        exact tableOf_length _ _
      · obtain ⟨j, _, rfl⟩ := List.mem_map.mp h
        exact tableOf_length _ _) _ (by omega) out h [] (by simp)).2

/-- C96, `phase`. -/
theorem C96_phase (rbins vbins : Nat) (phase : List Int → List Int → List (List F) → Out ((Nat → List F) × (Nat → List F) × (Nat → List F))) : Keeps ff (phaseRun ff rbins vbins phase) := by
  intro stdin rows out hh h
  unfold phaseRun at h
  obtain ⟨⟨A, B⟩, h1, h⟩ := andThen_lines _ _ _ h
  obtain ⟨rfl, hi, hs, hb, hc⟩ := parse_two ff stdin _ A B h1 rows hh
  dsimp only at h
  by_cases h0 : (rows.map Prod.fst).length = 0
  · rw [if_pos h0] at h; cases h
  · rw [if_neg h0] at h
    obtain ⟨res, h2, h⟩ := andThen_lines _ _ _ h
    obtain ⟨c1, t1, h⟩ := withCols_lines _ _ _ h
    obtain ⟨c2, t2, h⟩ := withCols_lines _ _ _ h
    obtain ⟨c3, t3, h⟩ := withCols_lines _ _ _ h
    have g1 := transpose_height _ _ t1
    have g2 := transpose_height _ _ t2
    have g3 := transpose_height _ _ t3
    rw [tableOf_length] at g1 g2 g3
    exact (emit_reads ff rd hff _ _ _ _ (by decide) _ _ h0 (by simp) hi hs _ (by
      intro c hc'
      rw [List.mem_append, List.mem_append] at hc'
      rcases hc' with (h | h) | h
      · exact g1 c h
      · exact g2 c h
      · exact g3 c h) _ (by omega) out h [] (by simp)).2

/-- C96, `potential`. -/
theorem C96_potential (ncells : Nat) (pot : List Int → List Int → List (List F) → Out ((Nat → List F) × (Nat → List F) × (Nat → List F) × (Nat → List F))) : Keeps ff (potentialRun ff ncells pot) := by
  intro stdin rows out hh h
  unfold potentialRun at h
  obtain ⟨⟨A, B⟩, h1, h⟩ := andThen_lines _ _ _ h
  obtain ⟨rfl, hi, hs, hb, hc⟩ := parse_two ff stdin _ A B h1 rows hh
  dsimp only at h
  by_cases h0 : (rows.map Prod.fst).length = 0
  · rw [if_pos h0] at h; cases h
  · rw [if_neg h0] at h
    obtain ⟨res, h2, h⟩ := andThen_lines _ _ _ h
    obtain ⟨c1, t1, h⟩ := withCols_lines _ _ _ h
    obtain ⟨c2, t2, h⟩ := withCols_lines _ _ _ h
    obtain ⟨c3, t3, h⟩ := withCols_lines _ _ _ h
    obtain ⟨c4, t4, h⟩ := withCols_lines _ _ _ h
    have g1 := transpose_height _ _ t1
    have g2 := transpose_height _ _ t2
    have g3 := transpose_height _ _ t3
    have g4 := transpose_height _ _ t4
    rw [tableOf_length] at g1 g2 g3 g4
    exact (emit_reads ff rd hff _ _ _ _ (by decide) _ _ h0 (by simp) hi hs _ (by
      intro c hc'
      rw [List.mem_append, List.mem_append, List.mem_append] at hc'
      rcases hc' with ((h | h) | h) | h
      · exact g1 c h
      · exact g2 c h
      · exact g3 c h
      · exact g4 c h) _ (by omega) out h [] (by simp)).2

end Shellfish.Pipe
