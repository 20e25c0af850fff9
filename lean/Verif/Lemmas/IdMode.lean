/- Lemmas about the id mode. -/
import Verif.Model.IdMode
import Verif.Props.Memo
import Verif.Props.Finder

namespace Shellfish.IdMode
open Shellfish.Memo (Out newIntFinder Reading Argsort Descsort VarColumns Cache readSortedRockstarIDs readRockstarIDs Usable Ranking idOf massOf entry)
open Shellfish.Finder (Point newGrid insert findSubhalos hostCount subhalos)

variable {K : Type} [Field K] [LinearOrder K] [IsStrictOrderedRing K] [FloorRing K]

theorem mapOut_ok {α β : Type} (f : α → Out β) (g : α → β) : ∀ l : List α, (∀ a ∈ l, f a = .ok (g a)) → mapOut f l = .ok (l.map g)
  | [], _ => rfl
  | a :: as, h => by
    unfold mapOut
    rw [h a (by simp)]
    simp only [Out.bind]
    rw [mapOut_ok f g as (fun b hb => h b (by simp [hb]))]
    rfl

theorem massLoop_end (mMin mMax : K) : ∀ (ms : List K) (i s : Int), (massLoop mMin mMax i s ms).2 = i + (ms.takeWhile fun m => decide (mMin ≤ m)).length - 1
  | [], i, s => by simp [massLoop]
  | m :: ms, i, s => by
    unfold massLoop
    simp only
    by_cases h : mMin > m
    · rw [if_pos h, List.takeWhile_cons_of_neg (by simpa using h)]; simp
    · rw [if_neg h, massLoop_end mMin mMax ms, List.takeWhile_cons_of_pos (by simpa using not_lt.mp h)]
      simp only [List.length_cons]; push_cast; ring

theorem massLoop_start' (mMin mMax : K) : ∀ (ms : List K) (i s : Int), s ≠ -1 → (massLoop mMin mMax i s ms).1 = s
  | [], i, s, _ => rfl
  | m :: ms, i, s, hs => by
    unfold massLoop
    simp only
    rw [if_neg (c := s = -1 ∧ mMax ≥ m) (by tauto)]
    by_cases h : mMin > m
    · rw [if_pos h]
    · rw [if_neg h, massLoop_start' mMin mMax ms _ s hs]

theorem massLoop_start (mMin mMax : K) : ∀ (ms : List K) (i : Int), 0 ≤ i →
    (massLoop mMin mMax i (-1) ms).1 =
      if (ms.takeWhile fun m => decide (mMax < m)).length ≤ (ms.takeWhile fun m => decide (mMin ≤ m)).length ∧ (ms.takeWhile fun m => decide (mMax < m)).length < ms.length
      then i + (ms.takeWhile fun m => decide (mMax < m)).length else -1
  | [], i, _ => by simp [massLoop]
  | m :: ms, i, hi => by
    unfold massLoop
    simp only
    by_cases h1 : mMax ≥ m
    · rw [if_pos (c := True ∧ mMax ≥ m) ⟨trivial, h1⟩, List.takeWhile_cons_of_neg (p := fun m => decide (mMax < m)) (by simpa using h1)]
      simp only [List.length_nil, List.length_cons]
      rw [if_pos (c := 0 ≤ (List.takeWhile (fun m => decide (mMin ≤ m)) (m :: ms)).length ∧ 0 < ms.length + 1) (by omega)]
      by_cases h : mMin > m
      · rw [if_pos h]; simp
      · rw [if_neg h, massLoop_start' _ _ _ _ _ (by omega)]; simp
    · rw [if_neg (c := True ∧ mMax ≥ m) (by tauto), List.takeWhile_cons_of_pos (p := fun m => decide (mMax < m)) (by simpa using not_le.mp h1)]
      by_cases h : mMin > m
      · rw [if_pos h, List.takeWhile_cons_of_neg (p := fun m => decide (mMin ≤ m)) (by simpa using h)]
        simp
      · rw [if_neg h, massLoop_start mMin mMax ms (i + 1) (by omega), List.takeWhile_cons_of_pos (p := fun m => decide (mMin ≤ m)) (by simpa using not_lt.mp h)]
        simp only [List.length_cons, Nat.add_le_add_iff_right, Nat.add_lt_add_iff_right]
        split
        · push_cast; ring
        · rfl

theorem takeWhile_filter {α : Type} (f : α → K) (c : K) : ∀ l : List α, l.Pairwise (fun a b => f b ≤ f a) → (l.takeWhile fun a => decide (c ≤ f a)) = l.filter fun a => decide (c ≤ f a)
  | [], _ => rfl
  | a :: as, h => by
    rw [List.pairwise_cons] at h
    by_cases hc : c ≤ f a
    · rw [List.takeWhile_cons_of_pos (by simpa using hc), List.filter_cons_of_pos (by simpa using hc), takeWhile_filter f c as h.2]
    · rw [List.takeWhile_cons_of_neg (by simpa using hc), List.filter_cons_of_neg (by simpa using hc), List.filter_eq_nil_iff.mpr]
      intro b hb
      have := h.1 b hb
      simp only [decide_eq_true_eq, not_le]
      exact lt_of_le_of_lt this (not_le.mp hc)

theorem drop_filter {α : Type} (f : α → K) (c : K) : ∀ l : List α, l.Pairwise (fun a b => f b ≤ f a) → l.drop (l.takeWhile fun a => decide (c < f a)).length = l.filter fun a => decide (f a ≤ c)
  | [], _ => rfl
  | a :: as, h => by
    rw [List.pairwise_cons] at h
    by_cases hc : c < f a
    · rw [List.takeWhile_cons_of_pos (by simpa using hc), List.filter_cons_of_neg (by simpa using hc), List.length_cons, List.drop_succ_cons, drop_filter f c as h.2]
    · rw [List.takeWhile_cons_of_neg (by simpa using hc), List.length_nil, List.drop_zero, List.filter_eq_self.mpr]
      intro b hb
      simp only [decide_eq_true_eq]
      rcases List.mem_cons.mp hb with rfl | hb
      · exact not_lt.mp hc
      · exact le_trans (h.1 b hb) (not_lt.mp hc)

/-- the elements in a window of a descending list -/
theorem window_eq {α : Type} (f : α → K) (lo hi : K) (l : List α) (h : l.Pairwise fun a b => f b ≤ f a) :
    l.filter (fun a => decide (lo ≤ f a ∧ f a ≤ hi)) = (l.take (l.takeWhile fun a => decide (lo ≤ f a)).length).drop (l.takeWhile fun a => decide (hi < f a)).length := by
  have e : l.filter (fun a => decide (lo ≤ f a ∧ f a ≤ hi)) = (l.filter fun a => decide (f a ≤ hi)).filter fun a => decide (lo ≤ f a) := by
    rw [List.filter_filter]; congr 1; funext a; simp only [Bool.decide_and]
  rw [e, ← drop_filter f hi l h]
  set p := (l.takeWhile fun a => decide (hi < f a)).length
  rw [← takeWhile_filter f lo _ (h.sublist (List.drop_sublist _ _))]
  clear_value p
  clear e
  induction l generalizing p with
  | nil => simp
  | cons a as ih =>
    rw [List.pairwise_cons] at h
    cases p with
    | zero => simp only [List.drop_zero]; rw [List.prefix_iff_eq_take.mp (List.takeWhile_prefix fun a => decide (lo ≤ f a)), ]; simp
    | succ p =>
      rw [List.drop_succ_cons, ih h.2 p]
      by_cases hc : lo ≤ f a
      · rw [List.takeWhile_cons_of_pos (by simpa using hc)]; simp
      · rw [List.takeWhile_cons_of_neg (by simpa using hc), takeWhile_filter f lo as h.2, List.filter_eq_nil_iff.mpr]
        · simp
        · intro b hb
          simp only [decide_eq_true_eq, not_le]
          exact lt_of_le_of_lt (h.1 b hb) (not_le.mp hc)

theorem maxRank_spec (l : List Int) : 0 ≤ maxRank l ∧ (∀ r ∈ l, r ≤ maxRank l) ∧ (maxRank l = 0 ∨ maxRank l ∈ l) := by
  have key : ∀ (l : List Int) (a : Int), a ≤ l.foldl (fun m id => if id > m then id else m) a ∧ (∀ r ∈ l, r ≤ l.foldl (fun m id => if id > m then id else m) a) ∧
      (l.foldl (fun m id => if id > m then id else m) a = a ∨ l.foldl (fun m id => if id > m then id else m) a ∈ l) := by
    intro l
    induction l with
    | nil => intro a; simp
    | cons b bs ih =>
      intro a
      rw [List.foldl_cons]
      obtain ⟨h1, h2, h3⟩ := ih (if b > a then b else a)
      have hab : a ≤ (if b > a then b else a) ∧ b ≤ (if b > a then b else a) ∧ ((if b > a then b else a) = a ∨ (if b > a then b else a) = b) := by split <;> omega
      refine ⟨le_trans hab.1 h1, ?_, ?_⟩
      · intro r hr
        rcases List.mem_cons.mp hr with rfl | hr
        · exact le_trans hab.2.1 h1
        · exact h2 r hr
      · rcases h3 with h3 | h3
        · rw [h3]
          rcases hab.2.2 with h | h
          · exact .inl h
          · exact .inr (by rw [h]; simp)
        · exact .inr (by simp [h3])
  exact key l 0

end Shellfish.IdMode
