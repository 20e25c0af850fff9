import Verif.Spec.Config
import Verif.Lemmas.Text
import Mathlib.Data.List.Basic
import Mathlib.Data.List.Perm.Basic

namespace Shellfish.Config

open Shellfish.Text

variable {F : Type} (lib : Lib F)

theorem listConv_iff {α : Type} (f : Str → Option α) (ts : List Str) (vs : List α) :
    listConv f ts = (vs, true) ↔ List.Forall₂ (fun t v => f t = some v) ts vs := by
  induction ts generalizing vs with
  | nil => simp [listConv, eq_comm]
  | cons t ts ih =>
    simp only [listConv]
    cases h : f t with
    | none => simp [h, List.forall₂_cons_left_iff]
    | some a =>
      simp only [Prod.mk.injEq]
      cases vs with
      | nil => simp
      | cons v vs =>
        simp only [List.cons.injEq, List.forall₂_cons, h, Option.some.injEq]
        have := ih vs
        rw [Prod.ext_iff] at this
        simp only at this
        rw [← this, and_assoc]

theorem listOf_iff {α : Type} (f : Str → Option α) (s : Str) (vs : List α) :
    listConv f (strToList s) = (vs, true) ↔ ListOf f s vs := by
  rw [listConv_iff, strToList, ListOf, List.forall₂_map_left_iff]

/-- the conversion functions implement `Converts` -/
theorem conv_iff (ty : VarType) (old v : Val F) (s : Str) :
    conv lib ty old s = (v, true) ↔ Converts lib ty s v := by
  cases ty <;> simp only [conv, Converts]
  · cases atoi s <;> simp [eq_comm]
  · rw [Prod.mk.injEq]
    constructor
    · rintro ⟨h1, h2⟩
      exact ⟨_, (listOf_iff atoi s _).mp (Prod.ext rfl h2), h1.symm⟩
    · rintro ⟨l, h1, h2⟩
      have := (listOf_iff atoi s l).mpr h1
      rw [this]; exact ⟨h2.symm, rfl⟩
  · cases lib.parseFloat s <;> simp [eq_comm]
  · rw [Prod.mk.injEq]
    constructor
    · rintro ⟨h1, h2⟩
      exact ⟨_, (listOf_iff lib.parseFloat s _).mp (Prod.ext rfl h2), h1.symm⟩
    · rintro ⟨l, h1, h2⟩
      have := (listOf_iff lib.parseFloat s l).mpr h1
      rw [this]; exact ⟨h2.symm, rfl⟩
  · simp [eq_comm]
  · simp [eq_comm, strToList]
  · cases parseBool s <;> simp [eq_comm]
  · rw [Prod.mk.injEq]
    constructor
    · rintro ⟨h1, h2⟩
      exact ⟨_, (listOf_iff parseBool s _).mp (Prod.ext rfl h2), h1.symm⟩
    · rintro ⟨l, h1, h2⟩
      have := (listOf_iff parseBool s l).mpr h1
      rw [this]; exact ⟨h2.symm, rfl⟩

theorem Converts.unique {ty : VarType} {s : Str} {v w : Val F} (h1 : Converts lib ty s v) (h2 : Converts lib ty s w) :
    v = w := by
  have e1 := (conv_iff lib ty v v s).mpr h1
  have e2 := (conv_iff lib ty v w s).mpr h2
  rw [e1] at e2
  exact (Prod.mk.inj e2).1

theorem not_converts {ty : VarType} {old : Val F} {s : Str} (h : (conv lib ty old s).2 = false) : ¬ ∃ v, Converts lib ty s v := by
  rintro ⟨v, hv⟩
  rw [(conv_iff lib ty old v s).mpr hv] at h
  cases h

/-! lines -/

theorem takeWhile_append_first (c : Char) (a b : Str) (h : c ∉ a) : (a ++ c :: b).takeWhile (· ≠ c) = a := by
  induction a with
  | nil => simp
  | cons x xs ih =>
    simp only [List.mem_cons, not_or] at h
    simp only [List.cons_append, List.takeWhile_cons]
    rw [if_pos (by simpa using Ne.symm h.1), ih h.2]

theorem split_at_first (c : Char) (l : Str) (h : c ∈ l) :
    ∃ a b, l = a ++ c :: b ∧ c ∉ a ∧ l.takeWhile (· ≠ c) = a := by
  obtain ⟨a, b, h1, h2⟩ := List.append_of_mem h |>.imp (fun _ h => h) |> fun _ => List.eq_append_cons_of_mem h
  exact ⟨a, b, h1, h2, by rw [h1, takeWhile_append_first c a b h2]⟩

theorem first_unique {c : Char} {a b a' b' : Str} (h : a ++ c :: b = a' ++ c :: b') (ha : c ∉ a) (ha' : c ∉ a') :
    a = a' ∧ b = b' := by
  have h1 := takeWhile_append_first c a b ha
  rw [h, takeWhile_append_first c a' b' ha'] at h1
  subst h1
  simpa using h

theorem Assigns.unique {l n v n' v' : Str} (h : Assigns l n v) (h' : Assigns l n' v') : n = n' ∧ v = v' := by
  obtain ⟨a, b, rfl, h1, rfl, rfl, _⟩ := h
  obtain ⟨a', b', e, h1', rfl, rfl, _⟩ := h'
  obtain ⟨rfl, rfl⟩ := first_unique e h1 h1'
  exact ⟨rfl, rfl⟩

/-- one step of associationList -/
theorem assoc_line (l : Str) :
    (('=' ∉ l ∨ trimSp (l.takeWhile (· ≠ '=')) = []) ∧ ¬ ∃ n v, Assigns l n v) ∨
    ('=' ∈ l ∧ trimSp (l.takeWhile (· ≠ '=')) ≠ [] ∧
      Assigns l (trimSp (l.takeWhile (· ≠ '='))) (trimSp
        (if (l.takeWhile (· ≠ '=')).length < l.length - 1 then l.drop ((l.takeWhile (· ≠ '=')).length + 1) else []))) := by
  by_cases h : '=' ∈ l
  · obtain ⟨a, b, rfl, ha, ht⟩ := split_at_first '=' l h
    rw [ht]
    by_cases hn : trimSp a = []
    · left
      refine ⟨Or.inr hn, ?_⟩
      rintro ⟨n, v, a', b', e, h1, rfl, rfl, h2⟩
      obtain ⟨rfl, rfl⟩ := first_unique e ha h1
      exact h2 hn
    · right
      refine ⟨h, hn, a, b, rfl, ha, rfl, ?_, hn⟩
      congr 1
      have : (a ++ '=' :: b).drop (a.length + 1) = b := by
        rw [List.drop_append]; simp
      rw [this]
      split
      · rfl
      · rename_i hlt
        simp only [List.length_append, List.length_cons] at hlt
        have : b.length = 0 := by omega
        exact (List.length_eq_zero_iff.mp this).symm
  · left
    refine ⟨Or.inl h, ?_⟩
    rintro ⟨n, v, a, b, rfl, _⟩
    simp at h

theorem associationList_inr (i : Nat) (ls : List Str) (ps : List (Str × Str)) :
    associationList i ls = .inr ps ↔ List.Forall₂ (fun l p => Assigns l p.1 p.2) ls ps := by
  induction ls generalizing i ps with
  | nil => simp [associationList, eq_comm]
  | cons l ls ih =>
    simp only [associationList]
    rcases assoc_line l with ⟨hbad, hno⟩ | ⟨h1, h2, h3⟩
    · constructor
      · intro h
        rcases hbad with hb | hb
        · rw [if_pos hb] at h; cases h
        · split at h
          · cases h
          · first | cases h | (rw [if_pos hb] at h; cases h)
      · intro h
        cases h with
        | cons hh _ => exact absurd ⟨_, _, hh⟩ hno
    · rw [if_neg (not_not.mpr h1), if_neg h2]
      cases hr : associationList (i + 1) ls with
      | inl k =>
        simp only [reduceCtorEq, false_iff]
        intro hf
        cases hf with
        | cons _ ht => rw [(ih (i + 1) _).mpr ht] at hr; cases hr
      | inr qs =>
        have hqs := (ih (i + 1) qs).mp hr
        simp only [Sum.inr.injEq]
        constructor
        · rintro rfl; exact List.Forall₂.cons h3 hqs
        · intro hf
          cases hf with
          | @cons _ p _ ps' hh ht =>
            have e := hh.unique h3
            have e2 := (ih (i + 1) _).mpr ht
            rw [hr] at e2
            cases e2
            congr 1
            exact Prod.ext e.1.symm e.2.symm

theorem associationList_inl (i : Nat) (ls : List Str) (k : Nat) (h : associationList i ls = .inl k) :
    i ≤ k ∧ ∃ l, ls[k - i]? = some l ∧ ¬ ∃ n v, Assigns l n v := by
  induction ls generalizing i with
  | nil => simp [associationList] at h
  | cons l ls ih =>
    simp only [associationList] at h
    rcases assoc_line l with ⟨hbad, hno⟩ | ⟨h1, h2, h3⟩
    · have : k = i := by
        split at h
        · exact (Sum.inl.inj h).symm
        · rename_i hm
          rcases hbad with hb | hb
          · exact absurd hb hm
          · rw [if_pos hb] at h; exact (Sum.inl.inj h).symm
      subst this
      exact ⟨Nat.le_refl _, l, by simp, hno⟩
    · rw [if_neg (not_not.mpr h1), if_neg h2] at h
      cases hr : associationList (i + 1) ls with
      | inl k' =>
        rw [hr] at h
        simp only [Sum.inl.injEq] at h
        subst h
        obtain ⟨g1, l', g2, g3⟩ := ih (i + 1) hr
        refine ⟨by omega, l', ?_, g3⟩
        rw [show k' - i = (k' - (i + 1)) + 1 by omega, List.getElem?_cons_succ]
        exact g2
      | inr qs => rw [hr] at h; cases h

/-! names -/

theorem checkValidNames_none (decls : List (Str × VarType)) (i : Nat) (ns : List Str) :
    checkValidNames lib decls i ns = none ↔ ∀ n ∈ ns, ∃ d ∈ decls, Same lib d.1 n := by
  induction ns generalizing i with
  | nil => simp [checkValidNames]
  | cons n ns ih =>
    simp only [checkValidNames, List.mem_cons, forall_eq_or_imp]
    split
    · rename_i h
      rw [ih]
      rw [List.any_eq_true] at h
      obtain ⟨d, hd, hs⟩ := h
      exact ⟨fun h => ⟨⟨d, hd, by simpa [Same] using hs⟩, h⟩, fun h => h.2⟩
    · rename_i h
      simp only [reduceCtorEq, false_iff, not_and]
      rintro ⟨d, hd, hs⟩
      exfalso
      apply h
      rw [List.any_eq_true]
      exact ⟨d, hd, by simpa [Same] using hs⟩

theorem checkValidNames_some (decls : List (Str × VarType)) (i : Nat) (ns : List Str) (k : Nat)
    (h : checkValidNames lib decls i ns = some k) :
    i ≤ k ∧ ∃ n, ns[k - i]? = some n ∧ ¬ ∃ d ∈ decls, Same lib d.1 n := by
  induction ns generalizing i with
  | nil => simp [checkValidNames] at h
  | cons n ns ih =>
    simp only [checkValidNames] at h
    split at h
    · obtain ⟨g1, m, g2, g3⟩ := ih (i + 1) h
      refine ⟨by omega, m, ?_, g3⟩
      rw [show k - i = (k - (i + 1)) + 1 by omega, List.getElem?_cons_succ]
      exact g2
    · rename_i hn
      cases h
      refine ⟨Nat.le_refl _, n, by simp, ?_⟩
      rintro ⟨d, hd, hs⟩
      apply hn
      rw [List.any_eq_true]
      exact ⟨d, hd, by simpa [Same] using hs⟩

theorem dupOf_none (n : Str) (j : Nat) (ms : List Str) : dupOf lib n j ms = none ↔ ∀ m ∈ ms, ¬ Same lib n m := by
  induction ms generalizing j with
  | nil => simp [dupOf]
  | cons m ms ih =>
    simp only [dupOf, List.mem_cons, forall_eq_or_imp]
    split
    · rename_i h
      simp only [reduceCtorEq, false_iff, not_and]
      intro hn
      exact absurd (by simpa [Same] using h) hn
    · rename_i h
      rw [ih]
      exact ⟨fun g => ⟨by simpa [Same] using h, g⟩, fun g => g.2⟩

theorem dupOf_some (n : Str) (j : Nat) (ms : List Str) (k : Nat) (h : dupOf lib n j ms = some k) :
    j ≤ k ∧ ∃ m, ms[k - j]? = some m ∧ Same lib n m := by
  induction ms generalizing j with
  | nil => simp [dupOf] at h
  | cons m ms ih =>
    simp only [dupOf] at h
    split at h
    · rename_i hs
      cases h
      exact ⟨Nat.le_refl _, m, by simp, by simpa [Same] using hs⟩
    · obtain ⟨g1, m', g2, g3⟩ := ih (j + 1) h
      refine ⟨by omega, m', ?_, g3⟩
      rw [show k - j = (k - (j + 1)) + 1 by omega, List.getElem?_cons_succ]
      exact g2

theorem checkDuplicateNames_none (i : Nat) (ns : List Str) :
    checkDuplicateNames lib i ns = none ↔ ns.Pairwise (fun a b => ¬ Same lib a b) := by
  induction ns generalizing i with
  | nil => simp [checkDuplicateNames]
  | cons n ns ih =>
    simp only [checkDuplicateNames, List.pairwise_cons]
    cases h : dupOf lib n (i + 1) ns with
    | none =>
      simp only
      rw [ih]
      exact ⟨fun g => ⟨(dupOf_none lib n _ ns).mp h, g⟩, fun g => g.2⟩
    | some j =>
      simp only [reduceCtorEq, false_iff, not_and]
      intro hn
      rw [(dupOf_none lib n (i + 1) ns).mpr hn] at h
      cases h

theorem checkDuplicateNames_some (i : Nat) (ns : List Str) (a b : Nat) (h : checkDuplicateNames lib i ns = some (a, b)) :
    i ≤ a ∧ a < b ∧ ∃ n m, ns[a - i]? = some n ∧ ns[b - i]? = some m ∧ Same lib n m := by
  induction ns generalizing i with
  | nil => simp [checkDuplicateNames] at h
  | cons n ns ih =>
    simp only [checkDuplicateNames] at h
    cases hd : dupOf lib n (i + 1) ns with
    | some j =>
      rw [hd] at h
      cases h
      obtain ⟨g1, m, g2, g3⟩ := dupOf_some lib n _ ns _ hd
      refine ⟨Nat.le_refl _, by omega, n, m, by simp, ?_, g3⟩
      rw [show b - a = (b - (a + 1)) + 1 by omega, List.getElem?_cons_succ]
      exact g2
    | none =>
      rw [hd] at h
      obtain ⟨g1, g2, n', m', g3, g4, g5⟩ := ih (i + 1) h
      refine ⟨by omega, g2, n', m', ?_, ?_, g5⟩
      · rw [show a - i = (a - (i + 1)) + 1 by omega, List.getElem?_cons_succ]; exact g3
      · rw [show b - i = (b - (i + 1)) + 1 by omega, List.getElem?_cons_succ]; exact g4

/-! conversion -/

theorem findVar_spec (decls : List (Str × VarType)) (n : Str) (h : ∃ d ∈ decls, Same lib d.1 n) :
    ∃ d, decls[findVar lib decls n]? = some d ∧ Same lib d.1 n := by
  unfold findVar
  obtain ⟨d, hd, hs⟩ := h
  have hlt : decls.findIdx (fun d => lib.lower d.1 == lib.lower n) < decls.length := by
    rw [List.findIdx_lt_length]
    exact ⟨d, hd, by simpa [Same] using hs⟩
  refine ⟨decls[decls.findIdx (fun d => lib.lower d.1 == lib.lower n)], List.getElem?_eq_getElem hlt, ?_⟩
  have := List.findIdx_getElem (w := hlt)
  simpa [Same] using this

theorem index_unique {decls : List (Str × VarType)} (hd : decls.Pairwise (fun d e => ¬ Same lib d.1 e.1)) {j k : Nat} {d e : Str × VarType} {n : Str}
    (hj : decls[j]? = some d) (hk : decls[k]? = some e) (h1 : Same lib d.1 n) (h2 : Same lib e.1 n) : j = k := by
  rw [List.getElem?_eq_some_iff] at hj hk
  obtain ⟨hj, rfl⟩ := hj
  obtain ⟨hk, rfl⟩ := hk
  rw [List.pairwise_iff_getElem] at hd
  rcases Nat.lt_trichotomy j k with h | h | h
  · exact absurd (h1.trans h2.symm) (hd j k hj hk h)
  · exact h
  · exact absurd (h2.trans h1.symm) (hd k j hk hj h)

theorem pair_unique {pairs : List (Str × Str)} (hp : pairs.Pairwise (fun p q => ¬ Same lib p.1 q.1)) {p q : Str × Str} {n : Str}
    (h1 : p ∈ pairs) (h2 : q ∈ pairs) (s1 : Same lib n p.1) (s2 : Same lib n q.1) : p = q := by
  by_contra hne
  rw [List.mem_iff_getElem] at h1 h2
  obtain ⟨i, hi, rfl⟩ := h1
  obtain ⟨j, hj, rfl⟩ := h2
  rw [List.pairwise_iff_getElem] at hp
  rcases Nat.lt_trichotomy i j with h | h | h
  · exact hp i j hi hj h (s1.symm.trans s2)
  · subst h; exact hne rfl
  · exact hp j i hj hi h (s2.symm.trans s1)

theorem convertAssoc_spec (decls : List (Str × VarType)) (hd : decls.Pairwise (fun d e => ¬ Same lib d.1 e.1)) :
    ∀ (pairs : List (Str × Str)) (i : Nat) (st : List (Val F)), st.length = decls.length → Acceptable lib decls pairs →
    (∃ st', convertAssoc lib decls i pairs st = some (st', none) ∧ Updated lib decls pairs st st') ∨
    (∃ st' k p d, convertAssoc lib decls i pairs st = some (st', some k) ∧ i ≤ k ∧ pairs[k - i]? = some p ∧
      decls[findVar lib decls p.1]? = some d ∧ Same lib d.1 p.1 ∧ ¬ (∃ v, Converts lib d.2 p.2 v) ∧ st'.length = st.length ∧
      ∀ m q e, m < k - i → pairs[m]? = some q → decls[findVar lib decls q.1]? = some e → ∃ v, Converts lib e.2 q.2 v) := by
  intro pairs
  induction pairs with
  | nil =>
    intro i st hl _
    left
    exact ⟨st, rfl, rfl, fun j d _ => ⟨by simp, fun _ => rfl⟩⟩
  | cons p ps ih =>
    intro i st hl hacc
    obtain ⟨hv, hpw⟩ := hacc
    rw [List.pairwise_cons] at hpw
    obtain ⟨d, hdj, hs⟩ := findVar_spec lib decls p.1 (hv p (by simp))
    have hjlt : findVar lib decls p.1 < decls.length := (List.getElem?_eq_some_iff.mp hdj).1
    have hst : st[findVar lib decls p.1]? = some st[findVar lib decls p.1] := List.getElem?_eq_getElem (by omega)
    simp only [convertAssoc, hdj, hst, Option.bind_eq_bind, Option.bind_some]
    cases hc : (conv lib d.2 st[findVar lib decls p.1] p.2).2 with
    | false =>
      right
      simp only [Bool.false_eq_true, if_false]
      refine ⟨_, i, p, d, rfl, Nat.le_refl _, by simp, hdj, hs, not_converts lib hc, by simp, ?_⟩
      intro m q e hm; omega
    | true =>
      simp only [if_true]
      generalize hw : (conv lib d.2 st[findVar lib decls p.1] p.2).1 = w
      have hconv : Converts lib d.2 p.2 w := (conv_iff lib d.2 _ w p.2).mp (Prod.ext hw hc)
      rcases ih (i + 1) (st.set (findVar lib decls p.1) w) (by simpa using hl) ⟨fun q hq => hv q (by simp [hq]), hpw.2⟩ with
        ⟨st', h1, h2, h3⟩ | ⟨st', k, q, e, h1, h2, h3, h4, h5, h6, h7, h8⟩
      · left
        refine ⟨st', h1, by simpa using h2, ?_⟩
        intro k e hk
        obtain ⟨g1, g2⟩ := h3 k e hk
        constructor
        · intro q hq hsq
          rw [List.mem_cons] at hq
          rcases hq with rfl | hq
          · have hkj : k = findVar lib decls q.1 := index_unique lib hd hk hdj hsq hs
            subst hkj
            have hed : e = d := by rw [hk] at hdj; exact Option.some.inj hdj
            subst hed
            refine ⟨w, hconv, ?_⟩
            rw [g2 ?_]
            · rw [List.getElem?_set_self (by omega)]
            · intro r hr hsr
              exact hpw.1 r hr (hs.symm.trans hsr)
          · exact g1 q hq hsq
        · intro hno
          rw [g2 (fun q hq => hno q (by simp [hq]))]
          have hkj : findVar lib decls p.1 ≠ k := by
            intro hkj
            rw [← hkj] at hk
            have hed : e = d := by rw [hk] at hdj; exact Option.some.inj hdj
            subst hed
            exact hno p (by simp) hs
          rw [List.getElem?_set_ne hkj]
      · right
        refine ⟨st', k, q, e, h1, by omega, ?_, h4, h5, h6, by simpa using h7, ?_⟩
        · rw [show k - i = (k - (i + 1)) + 1 by omega, List.getElem?_cons_succ]; exact h3
        · intro m r f hm hr hf
          cases m with
          | zero =>
            simp only [List.getElem?_cons_zero, Option.some.injEq] at hr
            subst hr
            rw [hdj] at hf; cases hf
            exact ⟨w, hconv⟩
          | succ m =>
            rw [List.getElem?_cons_succ] at hr
            exact h8 m r f (by omega) hr hf

theorem Updated.unique {decls : List (Str × VarType)} {pairs : List (Str × Str)} {st s1 s2 : List (Val F)}
    (hl : st.length = decls.length) (h1 : Updated lib decls pairs st s1) (h2 : Updated lib decls pairs st s2) : s1 = s2 := by
  apply List.ext_getElem?
  intro j
  by_cases hj : j < decls.length
  · have hd : decls[j]? = some decls[j] := List.getElem?_eq_getElem hj
    obtain ⟨a1, a2⟩ := h1.2 j _ hd
    obtain ⟨b1, b2⟩ := h2.2 j _ hd
    by_cases hp : ∃ p ∈ pairs, Same lib decls[j].1 p.1
    · obtain ⟨p, hp, hs⟩ := hp
      obtain ⟨v, hv, e1⟩ := a1 p hp hs
      obtain ⟨w, hw, e2⟩ := b1 p hp hs
      rw [e1, e2, Converts.unique lib hv hw]
    · have hp' : ∀ p ∈ pairs, ¬ Same lib decls[j].1 p.1 := fun p hp' hs => hp ⟨p, hp', hs⟩
      rw [a2 hp', b2 hp']
  · rw [List.getElem?_eq_none (by rw [h1.1]; omega), List.getElem?_eq_none (by rw [h2.1]; omega)]

/-- success of the conversion stage -/
theorem convertAll_ok (decls : List (Str × VarType)) (st : List (Val F)) (hw : WellDeclared lib decls st)
    (pairs : List (Str × Str)) (hacc : Acceptable lib decls pairs) (mk) (st' : List (Val F)) :
    convertAll lib decls pairs st mk = .ok st' ↔ Updated lib decls pairs st st' := by
  unfold convertAll
  rcases convertAssoc_spec lib decls hw.2 pairs 0 st hw.1 hacc with ⟨s, h1, h2⟩ | ⟨s, k, p, d, h1, _, h3, h4, h5, h6, _⟩
  · rw [h1]
    simp only [Outcome.ok.injEq]
    constructor
    · rintro rfl; exact h2
    · intro h; exact Updated.unique lib hw.1 h2 h
  · rw [h1]
    simp only
    have hno : ¬ Updated lib decls pairs st st' := by
      intro hu
      rw [Nat.sub_zero] at h3
      obtain ⟨v, hv, _⟩ := (hu.2 _ d h4).1 p (List.mem_of_getElem? h3) h5
      exact h6 ⟨v, hv⟩
    constructor
    · intro h
      exfalso
      revert h
      split
      · simp
      · split
        · split <;> simp
        · simp
    · intro h; exact absurd h hno

end Shellfish.Config
