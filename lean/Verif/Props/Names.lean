/- C114: different snapshots and blocks have different files. -/
import Verif.Model.Sprintf
import Verif.Props.Env
import Verif.Lemmas.Text

namespace Shellfish.Env
open Shellfish.Text
open Shellfish.Catalog (Str Out)

/-! ### Specification -/

/-- The characters that can occur in a printed argument: digits, the sign, the blanks of padding, and the characters of the scale factor file. -/
def mayPrint (info : Info) (c : Char) : Bool := (digitVal c).isSome || c == '-' || c == ' ' || (info.scaleFile.getD []).contains c

/-- After every argument but one at the end there is a character of text that occurs in no argument. -/
def separated (may : Char → Bool) : List Piece → Bool
  | [] => true
  | .lit _ :: ps => separated may ps
  | [.dec _ _] => true
  | [.str _] => true
  | .dec _ _ :: .lit c :: ps => !may c && separated may ps
  | .str _ :: .lit c :: ps => !may c && separated may ps
  | _ => false

/-- The verbs of a format fit the meanings: `%s` for scale factors, `%d` for the numbers of snapshots and blocks. -/
def fits : List Piece → List Str → Bool
  | [], [] => true
  | .lit _ :: ps, ms => fits ps ms
  | .dec _ _ :: ps, m :: ms => (m != "ScaleFactor".toList) && fits ps ms
  | .str _ :: ps, m :: ms => (m == "ScaleFactor".toList) && fits ps ms
  | _, _ => false

/-! ### Lemmas -/

theorem padLeft_inj (w : Nat) (s t : Str) (hs : s.head? ≠ some ' ') (ht : t.head? ≠ some ' ') (h : padLeft w s = padLeft w t) : s = t := by
  have key : ∀ (k : Nat) (u : Str), u.head? ≠ some ' ' → (List.replicate k ' ' ++ u).dropWhile (· == ' ') = u := by
    intro k
    induction k with
    | zero =>
      intro u hu
      cases u with
      | nil => rfl
      | cons c cs =>
        have : c ≠ ' ' := fun e => hu (by rw [e]; rfl)
        simp [this]
    | succ k ih =>
      intro u hu
      rw [List.replicate_succ, List.cons_append, List.dropWhile_cons]
      simp only [beq_self_eq_true, if_true]
      exact ih u hu
  have := congrArg (List.dropWhile (· == ' ')) h
  unfold padLeft at this
  rwa [key _ s hs, key _ t ht] at this

theorem digitsVal_zeros (k : Nat) (s : Str) : digitsVal 0 (List.replicate k '0' ++ s) = digitsVal 0 s := by
  induction k with
  | zero => rfl
  | succ k ih =>
    rw [List.replicate_succ, List.cons_append]
    have : digitVal '0' = some 0 := by decide
    simp only [digitsVal, this]
    exact ih

theorem head_zeros (k n : Nat) : (List.replicate k '0' ++ natDigits n).head? ≠ some '-' := by
  intro h
  have hm : '-' ∈ List.replicate k '0' ++ natDigits n := List.mem_of_mem_head? h
  rw [List.mem_append] at hm
  rcases hm with hm | hm
  · exact absurd (List.eq_of_mem_replicate hm) (by decide)
  · obtain ⟨d, hd, e⟩ := natDigits_digits n _ hm
    exact digitChar_ne d hd '-' (by decide) e.symm

theorem zeros_inj (j k m n : Nat) (h : List.replicate j '0' ++ natDigits m = List.replicate k '0' ++ natDigits n) : m = n := by
  have := congrArg (digitsVal 0) h
  rw [digitsVal_zeros, digitsVal_zeros, digitsVal_natDigits, digitsVal_natDigits] at this
  injection this

theorem itoa_head (n : Int) : (itoa n).head? ≠ some ' ' := by
  intro h
  exact itoa_no n ' ' (by decide) (by decide) (List.mem_of_mem_head? h)

theorem itoa_inj (m n : Int) (h : itoa m = itoa n) : m = n := by
  unfold itoa at h
  have key : ∀ a b : Nat, natDigits a = natDigits b → a = b := fun a b h => zeros_inj 0 0 a b h
  by_cases hm : m < 0 <;> by_cases hn : n < 0
  · rw [if_pos hm, if_pos hn] at h
    injection h with _ h
    have := key _ _ h
    omega
  · rw [if_pos hm, if_neg hn] at h
    exact absurd (by rw [← h]; rfl) (head_zeros 0 n.natAbs)
  · rw [if_neg hm, if_pos hn] at h
    exact absurd (by rw [List.replicate_zero, List.nil_append, h]; rfl) (head_zeros 0 m.natAbs)
  · rw [if_neg hm, if_neg hn] at h
    have := key _ _ h
    omega

theorem fmtInt_inj (z : Bool) (w : Nat) (m n : Int) (h : fmtInt z w m = fmtInt z w n) : m = n := by
  unfold fmtInt at h
  cases z with
  | false =>
    simp only [Bool.false_eq_true, if_false] at h
    exact itoa_inj m n (padLeft_inj w _ _ (itoa_head m) (itoa_head n) h)
  | true =>
    simp only [if_true] at h
    by_cases hm : m < 0 <;> by_cases hn : n < 0
    · rw [if_pos hm, if_pos hn] at h
      injection h with _ h
      have := zeros_inj _ _ _ _ h
      omega
    · rw [if_pos hm, if_neg hn] at h
      exact absurd (by rw [← h]; rfl) (head_zeros (w - (natDigits n.natAbs).length) n.natAbs)
    · rw [if_neg hm, if_pos hn] at h
      exact absurd (by rw [h]; rfl) (head_zeros (w - (natDigits m.natAbs).length) m.natAbs)
    · rw [if_neg hm, if_neg hn] at h
      have := zeros_inj _ _ _ _ h
      omega

theorem mayPrint_digit (info : Info) (d : Nat) (hd : d < 10) : mayPrint info (digitChar d) = true := by
  unfold mayPrint
  rw [digitVal_digitChar d hd]
  rfl

theorem fmtInt_chars (info : Info) (z : Bool) (w : Nat) (n : Int) : ∀ c ∈ fmtInt z w n, mayPrint info c = true := by
  have hz : mayPrint info '0' = true := mayPrint_digit info 0 (by norm_num)
  have hm : mayPrint info '-' = true := by
    unfold mayPrint
    simp
  have hb : mayPrint info ' ' = true := by
    unfold mayPrint
    simp
  have hd : ∀ k, ∀ c ∈ natDigits k, mayPrint info c = true := by
    intro k c hc
    obtain ⟨d, h, rfl⟩ := natDigits_digits k c hc
    exact mayPrint_digit info d h
  intro c hc
  unfold fmtInt at hc
  cases z with
  | false =>
    simp only [Bool.false_eq_true, if_false, padLeft, List.mem_append] at hc
    rcases hc with hc | hc
    · rw [List.eq_of_mem_replicate hc]; exact hb
    · rcases itoa_chars n c hc with rfl | ⟨d, h, rfl⟩
      · exact hm
      · exact mayPrint_digit info d h
  | true =>
    simp only [if_true] at hc
    have hin : ∀ j k, c ∈ List.replicate j '0' ++ natDigits k → mayPrint info c = true := by
      intro j k h
      rw [List.mem_append] at h
      rcases h with h | h
      · rw [List.eq_of_mem_replicate h]; exact hz
      · exact hd k c h
    by_cases hn : n < 0
    · rw [if_pos hn, List.mem_cons] at hc
      rcases hc with rfl | hc
      · exact hm
      · exact hin _ _ hc
    · rw [if_neg hn] at hc
      exact hin _ _ hc

/-- A scale factor as it is read from the file: without a blank in front, made of characters of the file. -/
def ScaleArg (info : Info) : Arg → Prop
  | .int _ => True
  | .str s => s.head? ≠ some ' ' ∧ ∀ c ∈ s, mayPrint info c = true

theorem padLeft_chars (info : Info) (w : Nat) (s : Str) (hs : ∀ c ∈ s, mayPrint info c = true) : ∀ c ∈ padLeft w s, mayPrint info c = true := by
  intro c hc
  unfold padLeft at hc
  rw [List.mem_append] at hc
  rcases hc with hc | hc
  · rw [List.eq_of_mem_replicate hc]
    unfold mayPrint
    simp
  · exact hs c hc

theorem split_at (c : Char) : ∀ (p q r t : Str), c ∉ p → c ∉ q → p ++ c :: r = q ++ c :: t → p = q ∧ r = t
  | [], [], r, t, _, _, h => by injection h with _ h; exact ⟨rfl, h⟩
  | [], d :: q, r, t, _, hq, h => by
    injection h with h _
    exact absurd (by rw [h]; exact List.mem_cons_self) hq
  | d :: p, [], r, t, hp, _, h => by
    injection h with h _
    exact absurd (by rw [← h]; exact List.mem_cons_self) hp
  | d :: p, e :: q, r, t, hp, hq, h => by
    injection h with h1 h2
    obtain ⟨h3, h4⟩ := split_at c p q r t (fun hm => hp (List.mem_cons_of_mem _ hm)) (fun hm => hq (List.mem_cons_of_mem _ hm)) h2
    exact ⟨by rw [h1, h3], h4⟩

theorem render_inj (info : Info) : ∀ (ps : List Piece), separated (mayPrint info) ps = true → ∀ (a b : List Arg) (f : Str), (∀ x ∈ a, ScaleArg info x) → (∀ x ∈ b, ScaleArg info x) →
    render ps a = some f → render ps b = some f → a = b
  | [], _, a, b, f, _, _, h1, h2 => by
    cases a with
    | cons _ _ => cases h1
    | nil => cases b with
      | cons _ _ => cases h2
      | nil => rfl
  | .lit c :: ps, hs, a, b, f, ha, hb, h1, h2 => by
    simp only [render, Option.map_eq_some_iff] at h1 h2
    obtain ⟨f1, e1, rfl⟩ := h1
    obtain ⟨f2, e2, h⟩ := h2
    injection h with _ h
    subst h
    exact render_inj info ps hs a b _ ha hb e1 e2
  | [.dec z w], _, a, b, f, _, _, h1, h2 => by
    match a, b, h1, h2 with
    | .int m :: a, .int n :: b, h1, h2 =>
      simp only [render, Option.map_eq_some_iff] at h1 h2
      obtain ⟨f1, e1, rfl⟩ := h1
      obtain ⟨f2, e2, h⟩ := h2
      cases a with
      | cons _ _ => cases e1
      | nil => cases b with
        | cons _ _ => cases e2
        | nil =>
          cases e1; cases e2
          rw [List.append_nil, List.append_nil] at h
          rw [fmtInt_inj z w n m h]
    | [], _, h1, _ => cases h1
    | .str _ :: _, _, h1, _ => cases h1
    | .int _ :: _, [], _, h2 => cases h2
    | .int _ :: _, .str _ :: _, _, h2 => cases h2
  | [.str w], _, a, b, f, ha, hb, h1, h2 => by
    match a, b, ha, hb, h1, h2 with
    | .str s :: a, .str t :: b, ha, hb, h1, h2 =>
      simp only [render, Option.map_eq_some_iff] at h1 h2
      obtain ⟨f1, e1, rfl⟩ := h1
      obtain ⟨f2, e2, h⟩ := h2
      cases a with
      | cons _ _ => cases e1
      | nil => cases b with
        | cons _ _ => cases e2
        | nil =>
          cases e1; cases e2
          rw [List.append_nil, List.append_nil] at h
          rw [padLeft_inj w t s (hb _ List.mem_cons_self).1 (ha _ List.mem_cons_self).1 h]
    | [], _, _, _, h1, _ => cases h1
    | .int _ :: _, _, _, _, h1, _ => cases h1
    | .str _ :: _, [], _, _, _, h2 => cases h2
    | .str _ :: _, .int _ :: _, _, _, _, h2 => cases h2
  | .dec z w :: .lit c :: ps, hs, a, b, f, ha, hb, h1, h2 => by
    simp only [separated, Bool.and_eq_true, Bool.not_eq_true'] at hs
    match a, b, ha, hb, h1, h2 with
    | .int m :: a, .int n :: b, ha, hb, h1, h2 =>
      simp only [render, Option.map_eq_some_iff] at h1 h2
      obtain ⟨f1, ⟨g1, e1, rfl⟩, rfl⟩ := h1
      obtain ⟨f2, ⟨g2, e2, rfl⟩, h⟩ := h2
      have no : ∀ k, c ∉ fmtInt z w k := fun k hc => by rw [fmtInt_chars info z w k c hc] at hs; exact absurd hs.1 (by decide)
      obtain ⟨h3, h4⟩ := split_at c _ _ _ _ (no n) (no m) h
      subst h4
      rw [fmtInt_inj z w n m h3, render_inj info ps hs.2 a b g2 (fun x hx => ha x (List.mem_cons_of_mem _ hx)) (fun x hx => hb x (List.mem_cons_of_mem _ hx)) e1 e2]
    | [], _, _, _, h1, _ => cases h1
    | .str _ :: _, _, _, _, h1, _ => cases h1
    | .int _ :: _, [], _, _, _, h2 => cases h2
    | .int _ :: _, .str _ :: _, _, _, _, h2 => cases h2
  | .str w :: .lit c :: ps, hs, a, b, f, ha, hb, h1, h2 => by
    simp only [separated, Bool.and_eq_true, Bool.not_eq_true'] at hs
    match a, b, ha, hb, h1, h2 with
    | .str s :: a, .str t :: b, ha, hb, h1, h2 =>
      simp only [render, Option.map_eq_some_iff] at h1 h2
      obtain ⟨f1, ⟨g1, e1, rfl⟩, rfl⟩ := h1
      obtain ⟨f2, ⟨g2, e2, rfl⟩, h⟩ := h2
      have no : ∀ u : Str, (∀ x ∈ u, mayPrint info x = true) → c ∉ padLeft w u := fun u hu hc => by rw [padLeft_chars info w u hu c hc] at hs; exact absurd hs.1 (by decide)
      obtain ⟨h3, h4⟩ := split_at c _ _ _ _ (no t (hb _ List.mem_cons_self).2) (no s (ha _ List.mem_cons_self).2) h
      subst h4
      rw [padLeft_inj w t s (hb _ List.mem_cons_self).1 (ha _ List.mem_cons_self).1 h3,
        render_inj info ps hs.2 a b g2 (fun x hx => ha x (List.mem_cons_of_mem _ hx)) (fun x hx => hb x (List.mem_cons_of_mem _ hx)) e1 e2]
    | [], _, _, _, h1, _ => cases h1
    | .int _ :: _, _, _, _, h1, _ => cases h1
    | .str _ :: _, [], _, _, _, h2 => cases h2
    | .str _ :: _, .int _ :: _, _, _, _, h2 => cases h2
  | .dec _ _ :: .dec _ _ :: _, hs, _, _, _, _, _, _, _ => by cases hs
  | .dec _ _ :: .str _ :: _, hs, _, _, _, _, _, _, _ => by cases hs
  | .str _ :: .dec _ _ :: _, hs, _, _, _, _, _, _, _ => by cases hs
  | .str _ :: .str _ :: _, hs, _, _, _, _, _, _, _ => by cases hs

theorem mem_splitOn (sep : Char) : ∀ (t : Str) (l : Str), l ∈ splitOn sep t → ∀ c ∈ l, c ∈ t
  | [], l, hl, c, hc => by
    simp [splitOn] at hl
    rw [hl] at hc
    exact hc
  | d :: t, l, hl, c, hc => by
    unfold splitOn at hl
    split at hl
    · rw [List.mem_cons] at hl
      rcases hl with rfl | hl
      · cases hc
      · exact List.mem_cons_of_mem _ (mem_splitOn sep t l hl c hc)
    · cases hr : splitOn sep t with
      | nil =>
        rw [hr] at hl
        simp at hl
        rw [hl] at hc
        simp at hc
        rw [hc]
        exact List.mem_cons_self
      | cons u us =>
        rw [hr] at hl
        simp only [List.mem_cons] at hl
        rcases hl with rfl | hl
        · rw [List.mem_cons] at hc
          rcases hc with rfl | hc
          · exact List.mem_cons_self
          · exact List.mem_cons_of_mem _ (mem_splitOn sep t u (by rw [hr]; exact List.mem_cons_self) c hc)
        · exact List.mem_cons_of_mem _ (mem_splitOn sep t l (by rw [hr]; exact List.mem_cons_of_mem _ hl) c hc)

theorem trimLeft_mem (p : Char → Bool) : ∀ (s : Str) (c : Char), c ∈ trimLeft p s → c ∈ s
  | [], c, h => h
  | d :: s, c, h => by
    unfold trimLeft at h
    split at h
    · exact List.mem_cons_of_mem _ (trimLeft_mem p s c h)
    · exact h

theorem trim_mem (p : Char → Bool) (s : Str) (c : Char) (h : c ∈ trim p s) : c ∈ s := by
  unfold trim trimRight at h
  rw [List.mem_reverse] at h
  have := trimLeft_mem p _ c h
  rw [List.mem_reverse] at this
  exact trimLeft_mem p _ c this

theorem trimLeft_head (p : Char → Bool) : ∀ (s : Str) (c : Char), (trimLeft p s).head? = some c → p c = false
  | [], c, h => by cases h
  | d :: s, c, h => by
    unfold trimLeft at h
    split at h
    · exact trimLeft_head p s c h
    · rename_i hd
      injection h with h
      rw [← h]
      exact Bool.eq_false_iff.mpr hd

theorem trimRight_prefix (p : Char → Bool) (s : Str) : ∃ t, s = trimRight p s ++ t := by
  have key : ∀ u : Str, ∃ t, u = t ++ trimLeft p u := by
    intro u
    induction u with
    | nil => exact ⟨[], rfl⟩
    | cons d u ih =>
      unfold trimLeft
      split
      · obtain ⟨t, ht⟩ := ih
        exact ⟨d :: t, by rw [List.cons_append, ← ht]⟩
      · exact ⟨[], rfl⟩
  obtain ⟨t, ht⟩ := key s.reverse
  refine ⟨t.reverse, ?_⟩
  unfold trimRight
  rw [← List.reverse_append, ← ht, List.reverse_reverse]

theorem trim_head (p : Char → Bool) (s : Str) (c : Char) (h : (trim p s).head? = some c) : p c = false := by
  unfold trim at h
  obtain ⟨t, ht⟩ := trimRight_prefix p (trimLeft p s)
  apply trimLeft_head p s c
  rw [ht]
  cases hr : trimRight p (trimLeft p s) with
  | nil => rw [hr] at h; cases h
  | cons d u => rw [hr] at h; exact h

theorem argFor_scale (info : Info) (s : Int) (m : Str) (x : Arg) (h : ArgFor info s m x) : ScaleArg info x := by
  cases h with
  | snapshot => trivial
  | block => trivial
  | scale text line ht hl =>
    have hm : line ∈ scaleLines text := List.mem_of_getElem? hl
    unfold scaleLines at hm
    rw [List.mem_filter, List.mem_map] at hm
    obtain ⟨⟨l, hl', rfl⟩, _⟩ := hm
    constructor
    · intro hh
      have := trim_head (· == ' ') l ' ' hh
      exact absurd this (by decide)
    · intro c hc
      have : c ∈ text := mem_splitOn '\n' text l hl' c (trim_mem _ l c hc)
      unfold mayPrint
      rw [ht, Option.getD_some]
      simp [this]

theorem render_fits (info : Info) (s : Int) : ∀ (ps : List Piece) (ms : List Str) (args : List Arg), fits ps ms = true → List.Forall₂ (ArgFor info s) ms args → ∃ f, render ps args = some f
  | [], [], args, _, h => by cases h; exact ⟨[], rfl⟩
  | [], _ :: _, _, hf, _ => by cases hf
  | .lit c :: ps, ms, args, hf, h => by
    obtain ⟨f, e⟩ := render_fits info s ps ms args hf h
    exact ⟨c :: f, by simp [render, e]⟩
  | .dec z w :: ps, [], _, hf, _ => by cases hf
  | .str w :: ps, [], _, hf, _ => by cases hf
  | .dec z w :: ps, m :: ms, args, hf, h => by
    simp only [fits, Bool.and_eq_true, bne_iff_ne] at hf
    cases h with
    | cons h1 h2 =>
      obtain ⟨f, e⟩ := render_fits info s ps ms _ hf.2 h2
      cases h1 with
      | snapshot => exact ⟨_, by rw [render, e]; rfl⟩
      | block => exact ⟨_, by rw [render, e]; rfl⟩
      | scale => exact absurd rfl hf.1
  | .str w :: ps, m :: ms, args, hf, h => by
    simp only [fits, Bool.and_eq_true, beq_iff_eq] at hf
    cases h with
    | cons h1 h2 =>
      obtain ⟨f, e⟩ := render_fits info s ps ms _ hf.2 h2
      obtain ⟨hm, _⟩ := hf
      cases h1 with
      | snapshot => exact absurd hm (by decide)
      | scale => exact ⟨_, by rw [render, e]; rfl⟩
      | block suffix =>
        simp at hm

theorem argFor_snapshot (info : Info) (s : Int) (x : Arg) (h : ArgFor info s "Snapshot".toList x) : x = .int s := by
  generalize hm : "Snapshot".toList = m at h
  cases h with
  | snapshot => rfl
  | scale => exact absurd hm (by decide)
  | block suffix => simp at hm

theorem forall2_mem {α β : Type} {R S : α → β → Prop} : ∀ {l : List α} {m : List β}, List.Forall₂ R l m → List.Forall₂ S l m → ∀ a ∈ l, ∃ b, R a b ∧ S a b
  | _, _, .nil, .nil, a, h => by cases h
  | _, _, .cons r rs, .cons s ss, a, h => by
    rw [List.mem_cons] at h
    rcases h with rfl | h
    · exact ⟨_, r, s⟩
    · exact forall2_mem rs ss a h

/-- C114, for formats in which arguments are separated by a character that occurs in no argument, and that name the snapshot by its number: no two blocks of the simulation, of the same snapshot or of
different ones, have the same file name.  (`sprintf` is any function that agrees with `fmt.Sprintf` on the modelled formats.) -/
theorem C114_distinct_partial (sprintf : Str → List Arg → Str) (hsp : ∀ f args t, goSprintf f args = some t → sprintf f args = t) (info : Info) (validate : Bool) (names : List (List Str))
    (h : initCatalogs sprintf info validate = .ok names) (ps : List Piece) (hps : scan .text info.format = some ps) (hfit : fits ps info.meanings = true)
    (hsep : separated (mayPrint info) ps = true) (hsnap : "Snapshot".toList ∈ info.meanings) (s t a b : Int) (hs : info.snapMin ≤ s ∧ s ≤ info.snapMax) (ht : info.snapMin ≤ t ∧ t ≤ info.snapMax)
    (f : Str) (h1 : particleCatalog names info.snapMin s a = some f) (h2 : particleCatalog names info.snapMin t b = some f) : s = t ∧ a = b := by
  have hal : ∃ m ∈ info.meanings, aligned m = true := ⟨_, hsnap, by decide⟩
  obtain ⟨c1, n1, m1, _, k1⟩ := C12_snapshot_files sprintf info validate names h hal s hs.1 hs.2
  obtain ⟨c2, n2, m2, _, k2⟩ := C12_snapshot_files sprintf info validate names h hal t ht.1 ht.2
  obtain ⟨j, x, rfl, ej, ef⟩ := (k1 a f).mp h1
  obtain ⟨k, y, rfl, ek, eg⟩ := (k2 b f).mp h2
  have hx := (m1 x).mp (List.mem_of_getElem? ej)
  have hy := (m2 y).mp (List.mem_of_getElem? ek)
  have rend : ∀ (u : Int) (z : List Arg), List.Forall₂ (ArgFor info u) info.meanings z → f = sprintf info.format z → render ps z = some f := by
    intro u z hz hf
    obtain ⟨g, hg⟩ := render_fits info u ps info.meanings z hfit hz
    have : goSprintf info.format z = some g := by unfold goSprintf; rw [hps, Option.bind_some, hg]
    rw [hf, hsp _ _ _ this, hg]
  have sc : ∀ (u : Int) (z : List Arg), List.Forall₂ (ArgFor info u) info.meanings z → ∀ w ∈ z, ScaleArg info w := by
    intro u z hz w hw
    obtain ⟨i, hi⟩ := List.getElem?_of_mem hw
    obtain ⟨hlen, hget⟩ := List.forall₂_iff_get.mp hz
    obtain ⟨hi', rfl⟩ := List.getElem?_eq_some_iff.mp hi
    exact argFor_scale info u _ _ (hget i (by omega) hi')
  have hxy : x = y := render_inj info ps hsep x y f (sc s x hx) (sc t y hy) (rend s x hx ef) (rend t y hy eg)
  subst hxy
  have hst : s = t := by
    obtain ⟨w, hw1, hw2⟩ := forall2_mem hx hy _ hsnap
    have e1 := argFor_snapshot info s w hw1
    have e2 := argFor_snapshot info t w hw2
    rw [e1] at e2
    injection e2
  subst hst
  refine ⟨rfl, ?_⟩
  have hcc : ∀ z, z ∈ c1 ↔ z ∈ c2 := fun z => (m1 z).trans (m2 z).symm
  have e1 := (k1 (j : Int) f).mp h1
  have e2 : particleCatalog names info.snapMin s (k : Int) = some f := h2
  obtain ⟨k', y', hk', ek', ef'⟩ := (k1 (k : Int) f).mp e2
  have : k' = k := by exact_mod_cast hk'.symm
  subst this
  have hy' := (m1 y').mp (List.mem_of_getElem? ek')
  have hxy' : x = y' := render_inj info ps hsep x y' f (sc s x hx) (sc s y' hy') (rend s x hx ef) (rend s y' hy' ef')
  subst hxy'
  obtain ⟨i1, g1⟩ := List.getElem?_eq_some_iff.mp ej
  obtain ⟨i2, g2⟩ := List.getElem?_eq_some_iff.mp ek'
  have := (List.Nodup.getElem_inj_iff n1).mp (g1.trans g2.symm)
  exact_mod_cast this

/-- `fmt.Sprintf` on the modelled formats. -/
def printf (f : Str) (args : List Arg) : Str := (goSprintf f args).getD []

theorem printf_agrees (f : Str) (args : List Arg) (t : Str) (h : goSprintf f args = some t) : printf f args = t := by unfold printf; rw [h]; rfl

/-- The format of the example of a configuration file (cmd/cmd.go), for two snapshots of three blocks. -/
def exampleInfo : Info := ⟨"path/snapdir_%03d/snapshot_%03d.%d".toList, ["Snapshot".toList, "Snapshot".toList, "Block".toList], none, [0], [2], 99, 100⟩

/-- The hypotheses are met by it. -/
example : ∃ names ps, initCatalogs printf exampleInfo false = .ok names ∧ scan .text exampleInfo.format = some ps ∧ fits ps exampleInfo.meanings = true ∧
    separated (mayPrint exampleInfo) ps = true ∧ "Snapshot".toList ∈ exampleInfo.meanings ∧ particleCatalog names 99 100 2 = some "path/snapdir_100/snapshot_100.2".toList :=
  ⟨_, _, rfl, rfl, by decide +kernel, by decide +kernel, by decide, by decide +kernel⟩

/-- Two numbers without a separator. -/
def adjacentInfo : Info := ⟨"s%d%d".toList, ["Snapshot".toList, "Block".toList], none, [1], [11], 1, 11⟩

/-- C114 is false of formats without a separator: with the format "s%d%d", which the program accepts, block 11 of snapshot 1 and block 1 of snapshot 11 have the same file, so that particles are read
twice and others never. -/
theorem C114_adjacent_false : validateFormat adjacentInfo "nil".toList = true ∧ ∃ names, initCatalogs printf adjacentInfo false = .ok names ∧
    particleCatalog names adjacentInfo.snapMin 1 10 = some "s111".toList ∧ particleCatalog names adjacentInfo.snapMin 11 0 = some "s111".toList :=
  ⟨by decide +kernel, _, rfl, by decide +kernel, by decide +kernel⟩

/-- Two snapshots whose scale factors are printed with too few digits. -/
def scaleInfo : Info := ⟨"a%s.%d".toList, ["ScaleFactor".toList, "Block".toList], some "0.50\n0.50\n".toList, [0], [1], 0, 1⟩

/-- C114 is false of formats with the scale factor only: snapshots with the same text in the scale factor file share all their files. -/
theorem C114_scale_false : validateFormat scaleInfo "nil".toList = true ∧ ∃ names, initCatalogs printf scaleInfo false = .ok names ∧
    particleCatalog names scaleInfo.snapMin 0 1 = some "a0.50.1".toList ∧ particleCatalog names scaleInfo.snapMin 1 1 = some "a0.50.1".toList :=
  ⟨by decide +kernel, _, rfl, by decide +kernel, by decide +kernel⟩

end Shellfish.Env
