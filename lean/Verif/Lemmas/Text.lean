import Verif.Model.Text

namespace Shellfish.Text

theorem digitVal_digitChar (d : Nat) (h : d < 10) : digitVal (digitChar d) = some d := by
  have : ∀ d : Fin 10, digitVal (digitChar d.val) = some d.val := by decide
  exact this ⟨d, h⟩

theorem digitChar_ne (d : Nat) (h : d < 10) (c : Char) (hc : digitVal c = none) : digitChar d ≠ c := by
  intro he
  rw [← he, digitVal_digitChar d h] at hc
  cases hc

theorem natDigits_ne_nil (n : Nat) : natDigits n ≠ [] := by
  unfold natDigits
  split <;> simp

theorem natDigits_digits (n : Nat) : ∀ c ∈ natDigits n, ∃ d, d < 10 ∧ c = digitChar d := by
  induction n using Nat.strongRecOn with
  | _ n ih =>
    unfold natDigits
    split
    · rename_i h; intro c hc; simp at hc; exact ⟨n, h, hc⟩
    · intro c hc
      rw [List.mem_append] at hc
      rcases hc with hc | hc
      · exact ih (n / 10) (by omega) c hc
      · simp at hc; exact ⟨n % 10, by omega, hc⟩

theorem digitsVal_append (acc : Nat) (s : List Char) (c : Char) (v d : Nat)
    (h : digitsVal acc s = some v) (hd : digitVal c = some d) :
    digitsVal acc (s ++ [c]) = some (v * 10 + d) := by
  induction s generalizing acc with
  | nil => simp [digitsVal] at h; subst h; simp [digitsVal, hd]
  | cons x xs ih =>
    simp only [digitsVal, List.cons_append] at h ⊢
    cases hx : digitVal x with
    | none => simp [hx] at h
    | some e => simp only [hx] at h ⊢; exact ih _ h

theorem digitsVal_natDigits (n : Nat) : digitsVal 0 (natDigits n) = some n := by
  induction n using Nat.strongRecOn with
  | _ n ih =>
    unfold natDigits
    split
    · rename_i h; simp [digitsVal, digitVal_digitChar n h]
    · rw [digitsVal_append 0 _ _ _ _ (ih (n / 10) (by omega)) (digitVal_digitChar _ (by omega))]
      congr 1; omega

theorem natVal_natDigits (n : Nat) : natVal (natDigits n) = some n := by
  simp [natVal, natDigits_ne_nil, digitsVal_natDigits]

theorem itoa_ne_nil (n : Int) : itoa n ≠ [] := by
  unfold itoa; split
  · simp
  · exact natDigits_ne_nil _

/-- characters of a printed integer are digits or '-' -/
theorem itoa_chars (n : Int) : ∀ c ∈ itoa n, c = '-' ∨ ∃ d, d < 10 ∧ c = digitChar d := by
  intro c hc
  unfold itoa at hc
  split at hc
  · rw [List.mem_cons] at hc
    rcases hc with h | h
    · exact Or.inl h
    · exact Or.inr (natDigits_digits _ c h)
  · exact Or.inr (natDigits_digits _ c hc)

theorem itoa_no (n : Int) (c : Char) (h1 : c ≠ '-') (h2 : digitVal c = none) : c ∉ itoa n := by
  intro hc
  rcases itoa_chars n c hc with h | ⟨d, hd, h⟩
  · exact h1 h
  · exact digitChar_ne d hd c h2 h.symm

theorem atoi_natDigits (n : Nat) (h : (n : Int) ≤ maxInt) : atoi (natDigits n) = some (n : Int) := by
  have hne := natDigits_ne_nil n
  match hs : natDigits n with
  | [] => exact absurd hs hne
  | c :: cs =>
    have hc := natDigits_digits n c (by rw [hs]; simp)
    obtain ⟨d, hd, rfl⟩ := hc
    have h1 : digitChar d ≠ '-' := digitChar_ne d hd _ (by decide)
    have h2 : digitChar d ≠ '+' := digitChar_ne d hd _ (by decide)
    unfold atoi
    split
    · rename_i heq; injection heq with h3 _; exact absurd h3 h1
    · rename_i heq; injection heq with h3 _; exact absurd h3 h2
    · rename_i t _ _
      rw [← hs, natVal_natDigits]
      simp only [Option.bind_some, inIntRange]
      rw [if_pos ⟨by unfold minInt; omega, h⟩]

theorem atoi_itoa (n : Int) (h1 : minInt ≤ n) (h2 : n ≤ maxInt) : atoi (itoa n) = some n := by
  unfold itoa
  split
  · rename_i hn
    simp only [atoi, natVal_natDigits, Option.bind_some, inIntRange]
    rw [if_pos (by constructor <;> omega)]
    congr 1; omega
  · rename_i hn
    rw [atoi_natDigits _ (by omega)]
    congr 1; omega

/-! splitting -/

theorem splitOn_ne_nil (sep : Char) (s : List Char) : splitOn sep s ≠ [] := by
  induction s with
  | nil => simp [splitOn]
  | cons c cs ih =>
    unfold splitOn
    split
    · simp
    · split <;> simp

theorem splitOn_append_sep (sep : Char) (a b : List Char) (h : sep ∉ a) :
    splitOn sep (a ++ sep :: b) = a :: splitOn sep b := by
  induction a with
  | nil => simp [splitOn]
  | cons c cs ih =>
    simp only [List.mem_cons, not_or] at h
    simp only [List.cons_append, splitOn]
    rw [if_neg (fun he => h.1 he.symm), ih h.2]

theorem splitOn_noSep (sep : Char) (a : List Char) (h : sep ∉ a) : splitOn sep a = [a] := by
  induction a with
  | nil => simp [splitOn]
  | cons c cs ih =>
    simp only [List.mem_cons, not_or] at h
    simp only [splitOn]
    rw [if_neg (fun he => h.1 he.symm), ih h.2]

theorem join_splitOn (sep : Char) (s : List Char) : joinWith sep (splitOn sep s) = s := by
  induction s with
  | nil => simp [splitOn, joinWith]
  | cons c cs ih =>
    simp only [splitOn]
    split
    · rename_i h
      cases hs : splitOn sep cs with
      | nil => exact absurd hs (splitOn_ne_nil sep cs)
      | cons t ts => rw [hs] at ih; simp [joinWith, ih, h]
    · cases hs : splitOn sep cs with
      | nil => exact absurd hs (splitOn_ne_nil sep cs)
      | cons t ts =>
        rw [hs] at ih
        simp only
        cases ts with
        | nil => simp [joinWith] at ih ⊢; exact ih
        | cons u us => simp [joinWith] at ih ⊢; exact ih

theorem splitOn_mem_noSep (sep : Char) (s : List Char) : ∀ t ∈ splitOn sep s, sep ∉ t := by
  induction s with
  | nil => simp [splitOn]
  | cons c cs ih =>
    simp only [splitOn]
    split
    · intro t ht
      rw [List.mem_cons] at ht
      rcases ht with rfl | h
      · simp
      · exact ih t h
    · rename_i hc
      cases hs : splitOn sep cs with
      | nil => exact absurd hs (splitOn_ne_nil sep cs)
      | cons u us =>
        rw [hs] at ih
        intro t ht
        simp only [List.mem_cons] at ht
        rcases ht with rfl | h
        · have := ih u (by simp)
          simp only [List.mem_cons, not_or]
          exact ⟨fun he => hc he.symm, this⟩
        · exact ih t (by simp [h])

theorem splitOn_join (sep : Char) : ∀ ts : List (List Char), ts ≠ [] → (∀ t ∈ ts, sep ∉ t) →
    splitOn sep (joinWith sep ts) = ts
  | [], h, _ => absurd rfl h
  | [t], _, h => by simp [joinWith, splitOn_noSep sep t (h t (by simp))]
  | t :: u :: us, _, h => by
    simp only [joinWith]
    rw [splitOn_append_sep sep t _ (h t (by simp))]
    congr 1
    exact splitOn_join sep (u :: us) (by simp) (fun x hx => h x (List.mem_cons_of_mem _ hx))

end Shellfish.Text
