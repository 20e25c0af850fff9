import Verif.Model.FloatText
import Verif.Lemmas.Text
import Verif.Lemmas.Round
import Mathlib.Tactic.IntervalCases

namespace Shellfish.FloatText
open Shellfish.Round (nearest r64 nearest_bound nearest_min nearest_unique nearest_mono nearest_int)
open Shellfish.Text

/-! digit strings -/

def AllDig (s : List Char) : Prop := ∀ c ∈ s, isDigit c = true

/-- the value of a digit string -/
def dv (s : List Char) : ℕ := (digitsVal 0 s).getD 0

theorem allDig_nil : AllDig [] := by intro c h; simp at h
theorem allDig_cons {c : Char} {s : List Char} : AllDig (c :: s) ↔ isDigit c = true ∧ AllDig s := by unfold AllDig; simp
theorem allDig_append {s t : List Char} : AllDig (s ++ t) ↔ AllDig s ∧ AllDig t := by
  unfold AllDig; simp only [List.mem_append]
  exact ⟨fun h => ⟨fun c hc => h c (Or.inl hc), fun c hc => h c (Or.inr hc)⟩, fun h c hc => hc.elim (h.1 c) (h.2 c)⟩
theorem allDig_zeros (k : ℕ) : AllDig (List.replicate k '0') := by
  intro c hc; rw [(List.mem_replicate.mp hc).2]; decide
theorem allDig_natDigits (n : ℕ) : AllDig (natDigits n) := by
  intro c hc
  obtain ⟨d, hd, rfl⟩ := natDigits_digits n c hc
  unfold isDigit
  rw [digitVal_digitChar d hd]; rfl

theorem digitsVal_spec {s : List Char} (h : AllDig s) : ∀ acc, digitsVal acc s = some (acc * 10 ^ s.length + dv s) := by
  have key : ∀ s : List Char, AllDig s → ∃ v, ∀ acc, digitsVal acc s = some (acc * 10 ^ s.length + v) := by
    intro s
    induction s with
    | nil => intro _; exact ⟨0, fun acc => by simp [digitsVal]⟩
    | cons c s ih =>
      intro h
      obtain ⟨h1, h2⟩ := allDig_cons.mp h
      obtain ⟨v, hv⟩ := ih h2
      unfold isDigit at h1
      obtain ⟨d, hd⟩ := Option.isSome_iff_exists.mp h1
      refine ⟨d * 10 ^ s.length + v, fun acc => ?_⟩
      unfold digitsVal
      rw [hd]
      dsimp only
      rw [hv, List.length_cons, pow_succ]
      congr 1; ring
  obtain ⟨v, hv⟩ := key s h
  have : dv s = v := by unfold dv; rw [hv 0]; simp
  rw [this]; exact hv

theorem dv_append {s t : List Char} (hs : AllDig s) (ht : AllDig t) : dv (s ++ t) = dv s * 10 ^ t.length + dv t := by
  have happ : ∀ (s t : List Char) (acc : ℕ), AllDig s → digitsVal acc (s ++ t) = (digitsVal acc s).bind fun a => digitsVal a t := by
    intro s
    induction s with
    | nil => intro t acc _; simp [digitsVal]
    | cons c s ih =>
      intro t acc h
      obtain ⟨h1, h2⟩ := allDig_cons.mp h
      unfold isDigit at h1
      obtain ⟨d, hd⟩ := Option.isSome_iff_exists.mp h1
      rw [List.cons_append]
      have e : ∀ u : List Char, digitsVal acc (c :: u) = digitsVal (acc * 10 + d) u := fun u => by
        rw [digitsVal, hd]
      rw [e, e]
      exact ih t _ h2
  have h1 := digitsVal_spec (allDig_append.mpr ⟨hs, ht⟩) 0
  rw [happ s t 0 hs, digitsVal_spec hs 0, Option.bind_some, digitsVal_spec ht] at h1
  simp only [zero_mul, zero_add, Option.some.injEq] at h1
  exact h1.symm

theorem dv_zeros (k : ℕ) : dv (List.replicate k '0') = 0 := by
  induction k with
  | zero => rfl
  | succ k ih =>
    rw [List.replicate_succ, show '0' :: List.replicate k '0' = ['0'] ++ List.replicate k '0' from rfl, dv_append (by intro c hc; rw [List.mem_singleton.mp hc]; decide) (allDig_zeros k), ih]
    simp [dv, digitsVal, digitVal]

theorem dv_natDigits (n : ℕ) : dv (natDigits n) = n := by
  unfold dv; rw [digitsVal_natDigits]; rfl

theorem natVal_of {s : List Char} (h : AllDig s) (hne : s ≠ []) : natVal s = some (dv s) := by
  unfold natVal
  rw [if_neg hne, digitsVal_spec h]; simp

theorem natDigits_length (k : ℕ) : ∀ n, 10 ^ k ≤ n → n < 10 ^ (k + 1) → (natDigits n).length = k + 1 := by
  induction k with
  | zero =>
    intro n _ h
    unfold natDigits
    rw [if_pos (by simpa using h)]; rfl
  | succ k ih =>
    intro n h1 h2
    have h10 : ¬ n < 10 := by
      have : 10 ^ 1 ≤ 10 ^ (k + 1) := Nat.pow_le_pow_right (by norm_num) (by omega)
      omega
    unfold natDigits
    rw [if_neg h10, List.length_append, ih (n / 10)]
    · rfl
    · rw [Nat.le_div_iff_mul_le (by norm_num)]; rw [pow_succ] at h1; exact h1
    · rw [Nat.div_lt_iff_lt_mul (by norm_num)]; rw [pow_succ] at h2; exact h2

/-! stripped zeros -/

theorem trimLeft_split (p : Char → Bool) (s : List Char) : ∃ z, s = z ++ trimLeft p s ∧ (∀ c ∈ z, p c = true) := by
  induction s with
  | nil => exact ⟨[], rfl, by simp⟩
  | cons c s ih =>
    unfold trimLeft
    by_cases h : p c = true
    · rw [if_pos h]
      obtain ⟨z, h1, h2⟩ := ih
      refine ⟨c :: z, by rw [List.cons_append, ← h1], ?_⟩
      intro d hd
      rcases List.mem_cons.mp hd with rfl | hd
      · exact h
      · exact h2 d hd
    · rw [if_neg h]; exact ⟨[], rfl, by simp⟩

theorem strip (s : List Char) : ∃ j, s = trimRight (· == '0') s ++ List.replicate j '0' := by
  obtain ⟨z, h1, h2⟩ := trimLeft_split (· == '0') s.reverse
  refine ⟨z.length, ?_⟩
  unfold trimRight
  have hz : z = List.replicate z.length '0' := List.eq_replicate_of_mem fun c hc => by simpa using h2 c hc
  have : s = (z ++ trimLeft (· == '0') s.reverse).reverse := by rw [← h1, List.reverse_reverse]
  rw [List.reverse_append] at this
  conv_lhs => rw [this]
  congr 1
  conv_lhs => rw [hz]
  rw [List.reverse_replicate]

/-! reading -/

theorem takeDrop {ip : List Char} (h : AllDig ip) (r : List Char) (hr : ∀ c ∈ r.head?, isDigit c = false) : (ip ++ r).takeWhile isDigit = ip ∧ (ip ++ r).dropWhile isDigit = r := by
  induction ip with
  | nil =>
    rcases r with _ | ⟨c, r⟩
    · exact ⟨rfl, rfl⟩
    · have := hr c (by simp)
      rw [List.nil_append]
      constructor
      · rw [List.takeWhile_cons, this]; rfl
      · rw [List.dropWhile_cons, this]; rfl
  | cons c ip ih =>
    obtain ⟨h1, h2⟩ := allDig_cons.mp h
    obtain ⟨a, b⟩ := ih h2
    rw [List.cons_append, List.takeWhile_cons, List.dropWhile_cons, h1]
    simp only [if_true]
    exact ⟨by rw [a], b⟩

/-- the text of the exponent is read back -/
theorem exponent_text (e : ℤ) : ∃ t, expText e = 'e' :: t ∧ exponent t = some e := by
  unfold expText
  refine ⟨_, rfl, ?_⟩
  have hd : natVal (if e.natAbs < 10 then '0' :: natDigits e.natAbs else natDigits e.natAbs) = some e.natAbs := by
    by_cases h : e.natAbs < 10
    · rw [if_pos h, natVal_of (allDig_cons.mpr ⟨by decide, allDig_natDigits _⟩) (by simp)]
      rw [show '0' :: natDigits e.natAbs = List.replicate 1 '0' ++ natDigits e.natAbs from rfl, dv_append (allDig_zeros 1) (allDig_natDigits _), dv_zeros, dv_natDigits]
      simp
    · rw [if_neg h]; exact natVal_natDigits _
  by_cases h : e < 0
  · rw [if_pos h, exponent, if_neg (by decide), if_pos rfl, hd, Option.map_some]
    congr 1; omega
  · rw [if_neg h, exponent, if_pos rfl, hd, Option.map_some]
    congr 1; omega

/-- digits, a fraction and an exponent are read as the number that they write -/
theorem read_parts {ip fp : List Char} (hi : AllDig ip) (hf : AllDig fp) (hne : ip ≠ []) (et : List Char) (e : ℤ) (he : (et = [] ∧ e = 0) ∨ et = expText e) :
    unsignedDec (ip ++ (if fp = [] then [] else '.' :: fp) ++ et) = some ((dv (ip ++ fp) : ℚ) * 10 ^ (e - (fp.length : ℤ))) := by
  have het : ∀ c ∈ et.head?, isDigit c = false := by
    rcases he with ⟨rfl, -⟩ | rfl
    · simp
    · obtain ⟨t, ht, -⟩ := exponent_text e
      rw [ht]; intro c hc; simp at hc; rw [← hc]; decide
  have hread : scaled (dv (ip ++ fp)) fp.length et = some ((dv (ip ++ fp) : ℚ) * 10 ^ (e - (fp.length : ℤ))) := by
    rcases he with ⟨rfl, rfl⟩ | rfl
    · simp [scaled]
    · obtain ⟨t, ht, ht'⟩ := exponent_text e
      rw [ht, scaled, if_pos (Or.inl rfl), ht', Option.map_some]
  have hall := digitsVal_spec (allDig_append.mpr ⟨hi, hf⟩) 0
  rw [zero_mul, zero_add] at hall
  unfold unsignedDec
  by_cases hfp : fp = []
  · subst hfp
    rw [if_pos rfl, show ip ++ [] ++ et = ip ++ et by simp]
    obtain ⟨a, b⟩ := takeDrop hi et het
    rw [a, b]
    have hm : fraction et = ([], et) := by
      rcases he with ⟨rfl, -⟩ | rfl
      · rfl
      · obtain ⟨t, ht, -⟩ := exponent_text e
        rw [ht]; rfl
    dsimp only
    rw [hm]
    dsimp only
    rw [if_neg (by simp [hne]), hall, Option.bind_some]
    exact hread
  · rw [if_neg hfp, List.append_assoc]
    obtain ⟨a, b⟩ := takeDrop hi (('.' :: fp) ++ et) (by intro c hc; simp at hc; rw [← hc]; decide)
    rw [a, b]
    obtain ⟨a', b'⟩ := takeDrop hf et het
    have hm : fraction (('.' :: fp) ++ et) = (fp, et) := by
      rw [List.cons_append, fraction, if_pos rfl, a', b']
    dsimp only
    rw [hm]
    dsimp only
    rw [if_neg (by simp [hne]), hall, Option.bind_some]
    exact hread

/-! the text of digits -/

theorem fmtG_value {ds : List Char} (hd : AllDig ds) (hne : ds ≠ []) (h6 : ds.length ≤ 6) (dp : ℤ) : unsignedDec (fmtG ds dp) = some ((dv ds : ℚ) * 10 ^ (dp - (ds.length : ℤ))) := by
  obtain ⟨c, t, rfl⟩ := List.exists_cons_of_ne_nil hne
  obtain ⟨hc, ht⟩ := allDig_cons.mp hd
  have h1 : AllDig [c] := allDig_cons.mpr ⟨hc, allDig_nil⟩
  unfold fmtG
  dsimp only
  by_cases hE : dp - 1 < -4 ∨ dp - 1 ≥ (if 6 > (c :: t).length ∧ ((c :: t).length : ℤ) ≥ dp then ((c :: t).length : ℤ) else 6)
  · rw [if_pos hE]
    have := read_parts h1 ht (by simp) (expText (dp - 1)) (dp - 1) (Or.inr rfl)
    have e : fmtE (c :: t) dp = [c] ++ (if t = [] then [] else '.' :: t) ++ expText (dp - 1) := by
      unfold fmtE
      rw [if_neg (List.cons_ne_nil c t)]
      rcases t with _ | ⟨d, t⟩
      · rfl
      · rw [if_pos (show 1 < (c :: d :: t).length by simp), if_neg (List.cons_ne_nil d t)]; rfl
    rw [e, this, List.singleton_append, List.length_cons]
    congr 3; push_cast; ring
  · rw [if_neg hE]
    have hdp : dp ≤ 6 := by
      by_contra hc
      apply hE; right
      split_ifs with h
      · omega
      · omega
    unfold fmtF
    rcases le_or_gt dp 0 with h0 | h0
    · rw [if_neg (by omega), if_pos (by rw [List.length_cons]; push_cast; omega)]
      have hz : AllDig (List.replicate (-dp).toNat '0' ++ (c :: t)) := allDig_append.mpr ⟨allDig_zeros _, hd⟩
      have := read_parts (ip := ['0']) (fp := List.replicate (-dp).toNat '0' ++ (c :: t)) (allDig_cons.mpr ⟨by decide, allDig_nil⟩) hz (by simp) [] 0 (Or.inl ⟨rfl, rfl⟩)
      rw [if_neg (by simp), List.append_nil] at this
      rw [show dp.toNat = 0 by omega, List.drop_zero, this]
      have e1 : dv (['0'] ++ (List.replicate (-dp).toNat '0' ++ (c :: t))) = dv (c :: t) := by
        rw [show ['0'] = List.replicate 1 '0' from rfl, dv_append (allDig_zeros 1) hz, dv_append (allDig_zeros _) hd, dv_zeros, dv_zeros]; simp
      rw [e1, List.length_append, List.length_replicate]
      congr 3; push_cast; omega
    · rw [if_pos h0]
      by_cases hlen : 0 < ((c :: t).length : ℤ) - dp
      · rw [if_pos hlen, show dp.toNat - (c :: t).length = 0 by omega, List.replicate_zero, List.append_nil, show (-dp).toNat = 0 by omega, List.replicate_zero, List.nil_append]
        have hsplit : (c :: t).take dp.toNat ++ (c :: t).drop dp.toNat = c :: t := List.take_append_drop _ _
        have hd' : AllDig ((c :: t).take dp.toNat ++ (c :: t).drop dp.toNat) := by rw [hsplit]; exact hd
        obtain ⟨ha, hb⟩ := allDig_append.mp hd'
        have hdl : ((c :: t).drop dp.toNat).length = (c :: t).length - dp.toNat := List.length_drop
        have := read_parts ha hb (by intro h; have := congrArg List.length h; rw [List.length_take] at this; simp at this; omega) [] 0 (Or.inl ⟨rfl, rfl⟩)
        rw [if_neg (by intro h; have := congrArg List.length h; rw [hdl] at this; simp only [List.length_nil] at this; omega), List.append_nil] at this
        rw [this, hsplit, hdl]
        congr 3; omega
      · rw [if_neg hlen, List.append_nil, List.take_of_length_le (by omega)]
        have hz : AllDig ((c :: t) ++ List.replicate (dp.toNat - (c :: t).length) '0') := allDig_append.mpr ⟨hd, allDig_zeros _⟩
        have := read_parts hz allDig_nil (by simp) [] 0 (Or.inl ⟨rfl, rfl⟩)
        rw [if_pos rfl, List.append_nil, List.append_nil] at this
        rw [this, dv_append hd (allDig_zeros _), dv_zeros, List.length_replicate]
        rw [List.length_nil, add_zero]
        push_cast
        simp only [sub_self, zpow_zero, mul_one]
        congr 2
        rw [← zpow_natCast]
        congr 1
        omega

/-- every character is a digit or one of . e + - -/
theorem fmtG_chars {ds : List Char} (hd : AllDig ds) (dp : ℤ) : (∀ c ∈ fmtG ds dp, isDigit c = true ∨ c = '.' ∨ c = 'e' ∨ c = '+' ∨ c = '-') ∧ ∃ c t, fmtG ds dp = c :: t ∧ isDigit c = true := by
  have d0 : isDigit '0' = true := by decide
  unfold fmtG
  dsimp only
  by_cases hE : dp - 1 < -4 ∨ dp - 1 ≥ (if 6 > ds.length ∧ (ds.length : ℤ) ≥ dp then (ds.length : ℤ) else 6)
  · rw [if_pos hE]
    have hh : isDigit (ds.headD '0') = true := by
      rcases ds with _ | ⟨c, t⟩
      · exact d0
      · exact (allDig_cons.mp hd).1
    unfold fmtE expText
    refine ⟨?_, _, _, rfl, hh⟩
    intro c hc
    rw [List.cons_append, List.mem_cons, List.mem_append] at hc
    rcases hc with rfl | hc | hc
    · exact Or.inl hh
    · split_ifs at hc with h
      · rcases List.mem_cons.mp hc with rfl | hc
        · simp
        · exact Or.inl (hd c (List.mem_of_mem_drop hc))
      · simp at hc
    · rcases List.mem_cons.mp hc with rfl | hc
      · simp
      · rcases List.mem_cons.mp hc with hc | hc
        · split_ifs at hc <;> simp [hc]
        · refine Or.inl ?_
          split_ifs at hc
          all_goals first
            | exact allDig_natDigits _ c hc
            | (rcases List.mem_cons.mp hc with rfl | hc
               · exact d0
               · exact allDig_natDigits _ c hc)
  · rw [if_neg hE]
    unfold fmtF
    refine ⟨?_, ?_⟩
    · intro c hc
      rcases List.mem_append.mp hc with hc | hc
      · refine Or.inl ?_
        split_ifs at hc
        · rcases List.mem_append.mp hc with hc | hc
          · exact hd c (List.mem_of_mem_take hc)
          · exact allDig_zeros _ c hc
        · rw [List.mem_singleton.mp hc]; exact d0
      · split_ifs at hc
        · rcases List.mem_cons.mp hc with rfl | hc
          · simp
          · rcases List.mem_append.mp hc with hc | hc
            · exact Or.inl (allDig_zeros _ c hc)
            · exact Or.inl (hd c (List.mem_of_mem_drop hc))
        · simp at hc
    · by_cases h0 : 0 < dp
      · rw [if_pos h0]
        obtain ⟨k, hk⟩ : ∃ k, dp.toNat = k + 1 := ⟨dp.toNat - 1, by omega⟩
        rcases ds with _ | ⟨c, t⟩
        · rw [hk]; exact ⟨'0', _, rfl, d0⟩
        · rw [hk]; exact ⟨c, _, rfl, (allDig_cons.mp hd).1⟩
      · rw [if_neg h0]; exact ⟨'0', _, rfl, d0⟩

end Shellfish.FloatText
