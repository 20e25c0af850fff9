/-
Property C04 (version).
-/
import Verif.Model.Version
import Verif.Lemmas.Text

namespace Shellfish.Version

open Shellfish.Text

/-- The text "a.b.c". -/
def dotted (a b c : Int) : List Char := itoa a ++ '.' :: (itoa b ++ '.' :: itoa c)

/-- C04: `Parse` accepts a string exactly when it consists of three dot-free fields joined by dots, each
of which is a Go integer literal (optional sign, decimal digits, 64-bit range) with a non-negative value,
and it returns those values. -/
theorem C04_parse_iff (s : List Char) (a b c : Int) :
    parse s = some (a, b, c) ↔
      ∃ t0 t1 t2, s = t0 ++ '.' :: (t1 ++ '.' :: t2) ∧ '.' ∉ t0 ∧ '.' ∉ t1 ∧ '.' ∉ t2 ∧
        atoi t0 = some a ∧ atoi t1 = some b ∧ atoi t2 = some c ∧ 0 ≤ a ∧ 0 ≤ b ∧ 0 ≤ c := by
  constructor
  · intro h
    unfold parse at h
    simp only at h
    split at h
    · rename_i t0 t1 t2 hs
      have hj := join_splitOn '.' s
      have hm := splitOn_mem_noSep '.' s
      rw [hs] at hj hm
      cases h0 : atoi t0 <;> cases h1 : atoi t1 <;> cases h2 : atoi t2 <;> simp [h0, h1, h2] at h
      obtain ⟨hn, rfl, rfl, rfl⟩ := h
      exact ⟨t0, t1, t2, by simpa [joinWith] using hj.symm, hm _ (by simp), hm _ (by simp), hm _ (by simp),
        h0, h1, h2, by omega, by omega, by omega⟩
    · cases h
  · rintro ⟨t0, t1, t2, rfl, n0, n1, n2, h0, h1, h2, p0, p1, p2⟩
    unfold parse
    simp only [splitOn_append_sep _ _ _ n0, splitOn_append_sep _ _ _ n1, splitOn_noSep _ _ n2]
    simp [h0, h1, h2]
    omega

/-- C04: every canonical version string of non-negative 64-bit integers is accepted with its own values. -/
theorem C04_parse_canonical (a b c : Int) (ha : 0 ≤ a ∧ a ≤ maxInt) (hb : 0 ≤ b ∧ b ≤ maxInt)
    (hc : 0 ≤ c ∧ c ≤ maxInt) : parse (dotted a b c) = some (a, b, c) := by
  rw [C04_parse_iff]
  refine ⟨itoa a, itoa b, itoa c, rfl, ?_, ?_, ?_, atoi_itoa _ ?_ ha.2, atoi_itoa _ ?_ hb.2, atoi_itoa _ ?_ hc.2,
    ha.1, hb.1, hc.1⟩
  iterate 3 exact itoa_no _ _ (by decide) (by decide)
  all_goals unfold minInt; omega

example : parse "1.0.4".toList = some (1, 0, 4) := by decide
example : parse "1.0".toList = none ∧ parse "1.-2.0".toList = none ∧ parse "1.0.4b".toList = none := by decide

/-- Lexicographic order on triples, the specification of "later version". -/
def lexLater (v w : Int × Int × Int) : Prop :=
  w.1 < v.1 ∨ (v.1 = w.1 ∧ (w.2.1 < v.2.1 ∨ (v.2.1 = w.2.1 ∧ w.2.2 < v.2.2)))

/-- C04: `Later` reports exactly the lexicographic order, and an error exactly when a string is invalid. -/
theorem C04_later_iff (s1 s2 : List Char) (r : Bool) :
    later s1 s2 = some r ↔
      ∃ v w, parse s1 = some v ∧ parse s2 = some w ∧ (r = true ↔ lexLater v w) := by
  unfold later lexLater
  cases h1 : parse s1 with
  | none => simp
  | some v =>
    cases h2 : parse s2 with
    | none => simp
    | some w =>
      obtain ⟨a, b, c⟩ := v
      obtain ⟨d, e, f⟩ := w
      simp only [Option.bind_eq_bind, Option.bind_some, Option.some.injEq, Prod.exists,
        Prod.mk.injEq]
      constructor
      · intro h
        refine ⟨a, b, c, d, e, f, ⟨rfl, rfl, rfl⟩, ⟨rfl, rfl, rfl⟩, ?_⟩
        split at h
        · split at h
          · simp at h; subst h; simp; omega
          · simp at h; subst h; simp; omega
        · simp at h; subst h; simp; omega
      · rintro ⟨a', b', c', d', e', f', ⟨rfl, rfl, rfl⟩, ⟨rfl, rfl, rfl⟩, h⟩
        split
        · split
          · cases r <;> simp at h ⊢ <;> omega
          · cases r <;> simp at h ⊢ <;> omega
        · cases r <;> simp at h ⊢ <;> omega

/-- C04: no version is later than itself. -/
theorem C04_later_irrefl (s : List Char) : later s s ≠ some true := by
  rw [Ne, C04_later_iff]
  rintro ⟨v, w, h1, h2, h3⟩
  rw [h1] at h2; cases h2
  simp only [lexLater, true_iff] at h3
  omega

/-- C04: asymmetry. -/
theorem C04_later_asymm (s t : List Char) (h : later s t = some true) : later t s = some false := by
  rw [C04_later_iff] at h ⊢
  obtain ⟨v, w, h1, h2, h3⟩ := h
  refine ⟨w, v, h2, h1, ?_⟩
  simp only [lexLater, true_iff, Bool.false_eq_true, false_iff] at h3 ⊢
  omega

/-- C04: transitivity. -/
theorem C04_later_trans (s t u : List Char) (h : later s t = some true) (h' : later t u = some true) :
    later s u = some true := by
  rw [C04_later_iff] at h h' ⊢
  obtain ⟨v, w, h1, h2, h3⟩ := h
  obtain ⟨w', x, h4, h5, h6⟩ := h'
  rw [h2] at h4; cases h4
  refine ⟨v, x, h1, h5, ?_⟩
  simp only [lexLater, true_iff] at h3 h6 ⊢
  omega

/-- C04: totality: two valid versions are ordered one way or the other unless all three numbers agree. -/
theorem C04_later_total (s t : List Char) (v w : Int × Int × Int) (h1 : parse s = some v)
    (h2 : parse t = some w) : later s t = some true ∨ later t s = some true ∨ v = w := by
  rw [C04_later_iff, C04_later_iff]
  by_cases hc : lexLater v w
  · exact Or.inl ⟨v, w, h1, h2, by simp [hc]⟩
  · by_cases hd : lexLater w v
    · exact Or.inr (Or.inl ⟨w, v, h2, h1, by simp [hd]⟩)
    · right; right
      obtain ⟨a, b, c⟩ := v
      obtain ⟨d, e, f⟩ := w
      simp only [lexLater] at hc hd
      simp only [Prod.mk.injEq]
      omega

/-- C04: an invalid string on either side is an error. -/
theorem C04_later_error (s t : List Char) : later s t = none ↔ parse s = none ∨ parse t = none := by
  unfold later
  cases h1 : parse s with
  | none => simp
  | some v =>
    cases h2 : parse t with
    | none => simp
    | some w =>
      obtain ⟨a, b, c⟩ := v
      obtain ⟨d, e, f⟩ := w
      simp only [Option.bind_eq_bind, Option.bind_some]
      split
      · split <;> simp
      · simp

example : later "1.10.0".toList "1.9.7".toList = some true ∧ later "1.9.7".toList "1.2.11".toList = some true := by
  decide

end Shellfish.Version
