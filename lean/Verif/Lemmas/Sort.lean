import Verif.Model.Sort
import Mathlib.Order.Basic
import Mathlib.Tactic.Order
import Mathlib.Order.Nat

set_option linter.unusedSectionVars false

namespace Shellfish.Sort

variable {α : Type} [LinearOrder α]

/-! ### swap -/

theorem swapAt_some {xs : List α} {i j : Nat} (hi : i < xs.length) (hj : j < xs.length) :
    swapAt xs i j = some ((xs.set i xs[j]).set j xs[i]) := by
  simp [swapAt, hi, hj]

theorem swapAt_perm {xs ys : List α} {i j : Nat} (h : swapAt xs i j = some ys) : ys.Perm xs := by
  unfold swapAt at h
  by_cases hi : i < xs.length <;> by_cases hj : j < xs.length <;> simp [hi, hj] at h
  subst h
  exact List.set_set_perm hi hj

/-! ### sort3 -/

theorem sort3_spec (x y z : α) :
    (sort3 x y z).2.2 ≤ (sort3 x y z).2.1 ∧ (sort3 x y z).2.1 ≤ (sort3 x y z).1 ∧
    [(sort3 x y z).2.2, (sort3 x y z).2.1, (sort3 x y z).1].Perm [x, y, z] := by
  unfold sort3
  split <;> split <;> try split
  all_goals refine ⟨?_, ?_, ?_⟩
  all_goals first
    | order
    | exact List.Perm.refl _
    | (simp only [List.perm_iff_count]; intro a; simp only [List.count_cons, List.count_nil]; omega)

/-! ### Shell -/

theorem shellInner_perm (inc : Nat) (v : α) : ∀ (fuel : Nat) (xs : List α) (j : Nat)
    (_ : j < xs.length) (_ : 0 < inc) r, shellInner inc v fuel xs j = some r →
    r.1.length = xs.length ∧ r.2 < xs.length ∧ (r.1.set r.2 v).Perm (xs.set j v) := by
  intro fuel
  induction fuel with
  | zero => intro xs j _ _ r h; simp [shellInner] at h
  | succ fuel ih =>
    intro xs j hj hinc r h
    rw [shellInner] at h
    split at h
    · simp at h
    · rename_i hge
      have hlt : j - inc < xs.length := by omega
      simp only [List.getElem?_eq_getElem hlt, Option.bind_eq_bind, Option.bind_some] at h
      have key : ((xs.set j xs[j - inc]).set (j - inc) v).Perm (xs.set j v) := by
        have := List.set_set_perm (as := xs.set j v) (i := j) (j := j - inc) (by simpa) (by simpa)
        have hne : j - inc ≠ j := by omega
        simpa [List.getElem_set, hne, hne.symm] using this
      split at h
      · split at h
        · simp at h; subst h; exact ⟨by simp, hlt, key⟩
        · have := ih (xs.set j xs[j - inc]) (j - inc) (by simpa) hinc r h
          simp only [List.length_set] at this
          exact ⟨this.1, this.2.1, this.2.2.trans key⟩
      · simp at h; subst h; exact ⟨rfl, hj, List.Perm.refl _⟩

theorem shellInner_isSome (inc : Nat) (v : α) : ∀ (fuel : Nat) (xs : List α) (j : Nat)
    (_ : j < xs.length) (_ : 0 < inc) (_ : inc ≤ j) (_ : j < fuel),
    ∃ r, shellInner inc v fuel xs j = some r := by
  intro fuel
  induction fuel with
  | zero => intro xs j _ _ _ h; omega
  | succ fuel ih =>
    intro xs j hj hinc hge hf
    rw [shellInner]
    have hlt : j - inc < xs.length := by omega
    rw [if_neg (by omega)]
    simp only [List.getElem?_eq_getElem hlt, Option.bind_eq_bind, Option.bind_some]
    split
    · split
      · exact ⟨_, rfl⟩
      · exact ih _ _ (by simpa) hinc (by omega) (by omega)
    · exact ⟨_, rfl⟩

theorem shellInsert_spec (inc : Nat) (hinc : 0 < inc) (xs : List α) (i : Nat) (hi : i < xs.length)
    (hge : inc ≤ i) : ∃ ys, shellInsert inc xs i = some ys ∧ ys.Perm xs := by
  obtain ⟨r, hr⟩ := shellInner_isSome inc xs[i] (i + 1) xs i hi hinc hge (by omega)
  refine ⟨r.1.set r.2 xs[i], ?_, ?_⟩
  · simp [shellInsert, hi, hr]
  · have := shellInner_perm inc xs[i] _ xs i hi hinc r hr
    simpa using this.2.2

theorem shellPass_foldl (inc : Nat) (hinc : 0 < inc) : ∀ (k s : Nat) (xs : List α),
    inc ≤ s → s + k ≤ xs.length →
    ∃ ys, (List.range' s k).foldlM (shellInsert inc) xs = some ys ∧ ys.Perm xs := by
  intro k
  induction k with
  | zero => intro s xs _ _; exact ⟨xs, by simp, List.Perm.refl _⟩
  | succ k ih =>
    intro s xs hs hk
    obtain ⟨ys, h1, hp⟩ := shellInsert_spec inc hinc xs s (by omega) hs
    obtain ⟨zs, h2, hp2⟩ := ih (s + 1) ys (by omega) (by rw [hp.length_eq]; omega)
    refine ⟨zs, ?_, hp2.trans hp⟩
    simp [List.range'_succ, h1, h2]

theorem shellPass_perm (inc : Nat) (hinc : 0 < inc) (xs : List α) :
    ∃ ys, shellPass inc xs = some ys ∧ ys.Perm xs := by
  unfold shellPass
  by_cases h : inc ≤ xs.length
  · exact shellPass_foldl inc hinc _ inc xs le_rfl (by omega)
  · rw [show xs.length - inc = 0 by omega]; exact ⟨xs, by simp, List.Perm.refl _⟩

/-! insertion with gap 1 sorts -/

theorem shellInner_one (v : α) (i : Nat) : ∀ (fuel : Nat) (xs : List α) (j : Nat)
    (_ : j ≤ i) (_ : i < xs.length)
    (_ : ∀ a b (_ : a < b) (_ : b ≤ i) (_ : b < xs.length), a ≠ j → b ≠ j → xs[a]'(by omega) ≤ xs[b])
    (_ : ∀ b (_ : j < b) (_ : b ≤ i) (_ : b < xs.length), v < xs[b]) r,
    shellInner 1 v fuel xs j = some r →
    r.1.length = xs.length ∧ r.2 ≤ i ∧
    ∀ a b (_ : a < b) (_ : b ≤ i) (hb : b < (r.1.set r.2 v).length),
      (r.1.set r.2 v)[a]'(by omega) ≤ (r.1.set r.2 v)[b] := by
  intro fuel
  induction fuel with
  | zero => intro xs j _ _ _ _ r h; simp [shellInner] at h
  | succ fuel ih =>
    intro xs j hj hi hsort hgt r h
    rw [shellInner] at h
    split at h
    · simp at h
    · rename_i hge
      have hlt : j - 1 < xs.length := by omega
      simp only [List.getElem?_eq_getElem hlt, Option.bind_eq_bind, Option.bind_some] at h
      split at h
      · rename_i hv
        have hs' : ∀ a b (_ : a < b) (_ : b ≤ i) (_ : b < (xs.set j xs[j-1]).length),
            a ≠ j - 1 → b ≠ j - 1 →
            (xs.set j xs[j-1])[a]'(by omega) ≤ (xs.set j xs[j-1])[b] := by
          intro a b hab hb hbl ha1 hb1
          simp only [List.length_set] at hbl
          simp only [List.getElem_set]
          split <;> split
          · omega
          · subst_vars; exact hsort _ _ (by omega) hb (by simpa using hbl) (by omega) (by omega)
          · rename_i h1 h2; subst h2
            exact hsort _ _ (by omega) (by omega) (by omega) (by omega) (by omega)
          · exact hsort a b hab hb hbl (by omega) (by omega)
        have hg' : ∀ b (_ : j - 1 < b) (_ : b ≤ i) (_ : b < (xs.set j xs[j-1]).length),
            v < (xs.set j xs[j-1])[b] := by
          intro b h1 h2 h3
          simp only [List.length_set] at h3
          simp only [List.getElem_set]
          split
          · exact hv
          · exact hgt b (by omega) h2 h3
        split at h
        · simp at h; subst h
          have hj1 : j - 1 = 0 := by omega
          refine ⟨by simp, by simp; omega, ?_⟩
          intro a b hab hb hbl
          simp only [List.length_set] at hbl
          have e0 : ∀ (c : Nat) (hc : c < ((xs.set j xs[j-1]).set (j-1) v).length) (hcl : c < (xs.set j xs[j-1]).length),
              ((xs.set j xs[j-1]).set (j-1) v)[c] = if j - 1 = c then v else (xs.set j xs[j-1])[c] := by
            intro c hc hcl; rw [List.getElem_set]
          rw [e0 a (by simp; omega) (by simp; omega), e0 b (by simp; omega) (by simp; omega)]
          split <;> split
          · omega
          · exact le_of_lt (hg' b (by omega) hb (by simpa))
          · omega
          · exact hs' a b hab hb (by simpa) (by omega) (by omega)
        · have := ih (xs.set j xs[j-1]) (j-1) (by omega) (by simpa) hs' hg' r h
          simp only [List.length_set] at this ⊢
          exact this
      · rename_i hv
        simp at h; subst h
        refine ⟨rfl, hj, ?_⟩
        intro a b hab hb hbl
        simp only [List.length_set] at hbl
        simp only [List.getElem_set]
        split <;> split
        · omega
        · exact le_of_lt (hgt b (by omega) hb hbl)
        · rename_i h1 h2; subst h2
          by_cases ha : a = j - 1
          · subst ha; exact le_of_not_gt hv
          · exact le_trans (hsort a (j-1) (by omega) (by omega) (by omega) (by omega) (by omega)) (le_of_not_gt hv)
        · exact hsort a b hab hb hbl (by omega) (by omega)

/-- the first `k` entries of `xs` ascend. -/
def SortedTo (k : Nat) (xs : List α) : Prop :=
  ∀ a b (_ : a < b) (_ : b < k) (_ : b < xs.length), xs[a]'(by omega) ≤ xs[b]

theorem shellInsert_one (xs : List α) (i : Nat) (hi : i < xs.length) (h0 : 1 ≤ i)
    (hs : SortedTo i xs) : ∃ ys, shellInsert 1 xs i = some ys ∧ ys.Perm xs ∧ SortedTo (i+1) ys := by
  obtain ⟨r, hr⟩ := shellInner_isSome 1 xs[i] (i + 1) xs i hi (by omega) h0 (by omega)
  refine ⟨r.1.set r.2 xs[i], by simp [shellInsert, hi, hr], ?_, ?_⟩
  · have := shellInner_perm 1 xs[i] _ xs i hi (by omega) r hr
    simpa using this.2.2
  · have := shellInner_one xs[i] i (i+1) xs i le_rfl hi
      (by intro a b hab hb hbl _ hbi; exact hs a b hab (by omega) hbl)
      (by intro b h1 h2; omega) r hr
    intro a b hab hb hbl
    exact this.2.2 a b hab (by omega) hbl

theorem shellPass_one_foldl : ∀ (k s : Nat) (xs : List α), 1 ≤ s → s + k = xs.length → SortedTo s xs →
    ∃ ys, (List.range' s k).foldlM (shellInsert 1) xs = some ys ∧ ys.Perm xs ∧ SortedTo (s + k) ys := by
  intro k
  induction k with
  | zero => intro s xs _ _ h; exact ⟨xs, by simp, List.Perm.refl _, by simpa using h⟩
  | succ k ih =>
    intro s xs hs hk hsort
    obtain ⟨ys, h1, hp, hss⟩ := shellInsert_one xs s (by omega) hs hsort
    obtain ⟨zs, h2, hp2, hz⟩ := ih (s + 1) ys (by omega) (by rw [hp.length_eq]; omega) hss
    refine ⟨zs, by simp [List.range'_succ, h1, h2], hp2.trans hp, ?_⟩
    rwa [show s + 1 + k = s + (k + 1) by omega] at hz

theorem sortedTo_pairwise (xs : List α) (h : SortedTo xs.length xs) : xs.Pairwise (· ≤ ·) := by
  rw [List.pairwise_iff_getElem]
  intro i j hi hj hij
  exact h i j hij hj hj

theorem shellPass_one (xs : List α) (hn : xs.length ≠ 0) :
    ∃ ys, shellPass 1 xs = some ys ∧ ys.Perm xs ∧ ys.Pairwise (· ≤ ·) := by
  obtain ⟨ys, h, hp, hs⟩ := shellPass_one_foldl (xs.length - 1) 1 xs le_rfl (by omega)
    (by intro a b h1 h2; omega)
  refine ⟨ys, h, hp, sortedTo_pairwise ys ?_⟩
  rw [hp.length_eq]
  rwa [show 1 + (xs.length - 1) = xs.length by omega] at hs

/-- `inc` belongs to the sequence 1, 4, 13, ... -/
inductive IsInc : Nat → Prop
  | one : IsInc 1
  | step {k} : IsInc k → IsInc (k * 3 + 1)

theorem IsInc.pos {k} (h : IsInc k) : 0 < k := by cases h <;> omega

theorem shellIncStart_spec (n : Nat) : ∀ fuel inc, IsInc inc → n + 1 ≤ inc + fuel →
    IsInc (shellIncStart n fuel inc) ∧ n < shellIncStart n fuel inc := by
  intro fuel
  induction fuel with
  | zero => intro inc h1 h2; simp only [shellIncStart]; exact ⟨h1, by omega⟩
  | succ fuel ih =>
    intro inc h1 h2
    simp only [shellIncStart]
    split
    · exact ih _ (.step h1) (by omega)
    · exact ⟨h1, by omega⟩

theorem shellLoop_spec : ∀ (inc : Nat), IsInc inc → ∀ (fuel : Nat) (xs : List α), xs.length ≠ 0 →
    inc ≤ fuel → (1 < inc ∨ xs.Pairwise (· ≤ ·)) →
    ∃ ys, shellLoop fuel inc xs = some ys ∧ ys.Perm xs ∧ ys.Pairwise (· ≤ ·) := by
  intro inc hinc
  induction hinc with
  | one =>
    intro fuel xs hn _ hs
    refine ⟨xs, ?_, List.Perm.refl _, ?_⟩
    · cases fuel <;> simp [shellLoop]
    · rcases hs with h | h
      · omega
      · exact h
  | @step k hk ih =>
    intro fuel xs hn hf _
    have hkpos := hk.pos
    cases fuel with
    | zero => omega
    | succ fuel =>
      simp only [shellLoop]
      rw [if_pos (by omega), show (k * 3 + 1) / 3 = k by omega]
      by_cases h1 : k = 1
      · subst h1
        obtain ⟨ys, h, hp, hs⟩ := shellPass_one xs hn
        obtain ⟨zs, hz, hpz, hsz⟩ := ih fuel ys (by rw [hp.length_eq]; exact hn) (by omega) (Or.inr hs)
        exact ⟨zs, by simp [h, hz], hpz.trans hp, hsz⟩
      · obtain ⟨ys, h, hp⟩ := shellPass_perm k hkpos xs
        obtain ⟨zs, hz, hpz, hsz⟩ := ih fuel ys (by rw [hp.length_eq]; exact hn) (by omega) (Or.inl (by omega))
        exact ⟨zs, by simp [h, hz], hpz.trans hp, hsz⟩

theorem shell_spec (xs : List α) : ∃ ys, shell xs = some ys ∧ ys.Perm xs ∧ ys.Pairwise (· ≤ ·) := by
  unfold shell
  split
  · rename_i h
    obtain ⟨x, rfl⟩ := List.length_eq_one_iff.mp h
    exact ⟨[x], rfl, List.Perm.refl _, by simp⟩
  · by_cases h0 : xs.length = 0
    · obtain rfl := List.length_eq_zero_iff.mp h0
      exact ⟨[], by simp [shellIncStart, shellLoop], List.Perm.refl _, by simp⟩
    · have h := shellIncStart_spec xs.length (xs.length + 1) 1 .one (by omega)
      exact shellLoop_spec _ h.1 _ xs h0 le_rfl (Or.inl (by omega))

/-! ### partition -/

theorem scanUp_spec (mid : α) (xs : List α) (e : Nat) (he : e < xs.length) (hme : mid ≤ xs[e]) :
    ∀ fuel lo, lo ≤ e → e < lo + fuel → ∃ r, scanUp mid xs fuel lo = some r ∧ lo ≤ r ∧ r ≤ e ∧
      (∀ k y, lo ≤ k → k < r → xs[k]? = some y → y < mid) ∧ (∀ y, xs[r]? = some y → mid ≤ y) := by
  intro fuel
  induction fuel with
  | zero => intro lo h1 h2; omega
  | succ fuel ih =>
    intro lo h1 h2
    have hlt : lo < xs.length := by omega
    simp only [scanUp, List.getElem?_eq_getElem hlt, Option.bind_eq_bind, Option.bind_some]
    split
    · rename_i hv
      have hne : lo ≠ e := by rintro rfl; exact absurd hv (not_lt.mpr hme)
      obtain ⟨r, h, h3, h4, h5, h6⟩ := ih (lo + 1) (by omega) (by omega)
      refine ⟨r, h, by omega, h4, ?_, h6⟩
      intro k y hk1 hk2 hy
      by_cases hk : k = lo
      · subst hk; rw [List.getElem?_eq_getElem hlt] at hy; cases hy; exact hv
      · exact h5 k y (by omega) hk2 hy
    · rename_i hv
      refine ⟨lo, rfl, le_rfl, h1, by intro k y h1 h2; omega, ?_⟩
      intro y hy
      rw [List.getElem?_eq_getElem hlt] at hy; cases hy; exact not_lt.mp hv

theorem scanDown_spec (mid : α) (xs : List α) (e : Nat) (he : e < xs.length) (hme : xs[e] ≤ mid) :
    ∀ hi, e ≤ hi → hi < xs.length → ∃ r, scanDown mid xs hi = some r ∧ e ≤ r ∧ r ≤ hi ∧
      (∀ k y, r < k → k ≤ hi → xs[k]? = some y → mid < y) ∧ (∀ y, xs[r]? = some y → y ≤ mid) := by
  intro hi
  induction hi with
  | zero =>
    intro h1 h2
    obtain rfl : e = 0 := by omega
    simp only [scanDown, List.getElem?_eq_getElem he, Option.bind_eq_bind, Option.bind_some]
    rw [if_neg (not_lt.mpr hme)]
    refine ⟨0, rfl, le_rfl, le_rfl, by intro k y h1 h2; omega, ?_⟩
    intro y hy; rw [List.getElem?_eq_getElem he] at hy; cases hy; exact hme
  | succ hi ih =>
    intro h1 h2
    simp only [scanDown, List.getElem?_eq_getElem h2, Option.bind_eq_bind, Option.bind_some]
    split
    · rename_i hv
      have hne : e ≠ hi + 1 := by rintro rfl; exact absurd hv (not_lt.mpr hme)
      obtain ⟨r, h, h3, h4, h5, h6⟩ := ih (by omega) (by omega)
      refine ⟨r, h, h3, by omega, ?_, h6⟩
      intro k y hk1 hk2 hy
      by_cases hk : k = hi + 1
      · subst hk; rw [List.getElem?_eq_getElem h2] at hy; cases hy; exact hv
      · exact h5 k y hk1 (by omega) hy
    · rename_i hv
      refine ⟨hi + 1, rfl, h1, le_rfl, by intro k y h1 h2; omega, ?_⟩
      intro y hy; rw [List.getElem?_eq_getElem h2] at hy; cases hy; exact not_lt.mp hv

theorem swapAt_get {xs ys : List α} {i j : Nat} (h : swapAt xs i j = some ys) :
    ∀ k, ys[k]? = if k = j then xs[i]? else if k = i then xs[j]? else xs[k]? := by
  intro k
  unfold swapAt at h
  by_cases hi : i < xs.length <;> by_cases hj : j < xs.length <;> simp [hi, hj] at h
  subst h
  simp only [List.getElem?_set, List.length_set]
  by_cases h1 : k = j
  · subst h1; simp [hi, hj]
  · by_cases h2 : k = i
    · subst h2; simp [h1, Ne.symm h1, hi, hj]
    · simp [h1, h2, Ne.symm h1, Ne.symm h2]

theorem partLoop_spec (mid : α) : ∀ (fuel : Nat) (xs : List α) (lo hi : Nat),
    1 ≤ lo → lo ≤ hi → lo + 1 < xs.length → hi < xs.length → 2 ≤ hi → hi ≤ fuel →
    xs[1]? = some mid →
    (∀ k y, k ≤ lo → xs[k]? = some y → y ≤ mid) →
    (∀ k y, hi ≤ k → xs[k]? = some y → mid ≤ y) →
    ∃ ys p, partLoop mid fuel xs lo hi = some (ys, p) ∧ ys.Perm xs ∧ 1 ≤ p ∧ p + 1 < xs.length ∧ p < hi ∧
      ys[1]? = some mid ∧
      (∀ k y, k ≤ p → ys[k]? = some y → y ≤ mid) ∧
      (∀ k y, p < k → ys[k]? = some y → mid ≤ y) := by
  intro fuel
  induction fuel with
  | zero => intro xs lo hi h1 h2 h3 h4 h5 h6; omega
  | succ fuel ih =>
    intro xs lo hi h1 h2 h3 h4 h5 h6 hp1 hlo hhi
    rw [partLoop, if_neg (by omega)]
    -- scan up stops at or before max hi (lo+1)
    have hE : ∃ e, lo + 1 ≤ e ∧ hi ≤ e ∧ e < xs.length := ⟨max hi (lo + 1), by omega, by omega, by omega⟩
    obtain ⟨e, he1, he2, he3⟩ := hE
    obtain ⟨lo', hl, hl1, hl2, hl3, hl4⟩ := scanUp_spec mid xs e he3
      (hhi e _ he2 (List.getElem?_eq_getElem he3)) (xs.length + 1) (lo + 1) he1 (by omega)
    have h1l : 1 < xs.length := by omega
    have hx1 : xs[1] = mid := by
      rw [List.getElem?_eq_getElem h1l] at hp1; exact Option.some.inj hp1
    obtain ⟨hi', hh, hh1, hh2, hh3, hh4⟩ := scanDown_spec mid xs 1 h1l (le_of_eq hx1) (hi - 1)
      (by omega) (by omega)
    have hlo2 : ∀ k y, k < lo' → xs[k]? = some y → y ≤ mid := by
      intro k y hk hy
      by_cases hc : k ≤ lo
      · exact hlo k y hc hy
      · exact le_of_lt (hl3 k y (by omega) hk hy)
    have hhi2 : ∀ k y, hi' < k → xs[k]? = some y → mid ≤ y := by
      intro k y hk hy
      by_cases hc : hi ≤ k
      · exact hhi k y hc hy
      · exact le_of_lt (hh3 k y hk (by omega) hy)
    simp only [hl, hh, Option.bind_eq_bind, Option.bind_some]
    split
    · exact ⟨xs, hi', rfl, List.Perm.refl _, hh1, by omega, by omega, hp1, fun k y hk => hlo2 k y (by omega), hhi2⟩
    · rename_i hge
      have hs := swapAt_some (xs := xs) (i := lo') (j := hi') (by omega) (by omega)
      generalize hys : ((xs.set lo' (xs[hi']'(by omega))).set hi' (xs[lo']'(by omega))) = ys at hs
      have hget := swapAt_get hs
      have hperm := swapAt_perm hs
      have hlen : ys.length = xs.length := hperm.length_eq
      simp only [hs, Option.bind_some]
      obtain ⟨zs, p, hz, hz1, hz2, hz3, hz4, hz5, hz6, hz7⟩ := ih ys lo' hi' (by omega) (by omega)
        (by omega) (by omega) (by omega) (by omega)
        (by rw [hget, if_neg (by omega), if_neg (by omega)]; exact hp1)
        (by
          intro k y hk hy
          rw [hget] at hy
          split at hy
          · rename_i hkj
            have : lo' = hi' := by omega
            rw [this] at hy; exact hh4 y hy
          · split at hy
            · exact hh4 y hy
            · exact hlo2 k y (by omega) hy)
        (by
          intro k y hk hy
          rw [hget] at hy
          split at hy
          · exact hl4 y hy
          · split at hy
            · rename_i h8 h9
              exfalso; omega
            · exact hhi2 k y (by omega) hy)
      exact ⟨zs, p, hz, hz1.trans hperm, hz2, by omega, by omega, hz5, hz6, hz7⟩

theorem set3_perm (xs : List α) (h : 4 ≤ xs.length) (a b c : α)
    (hp : [a, b, c].Perm [xs[0]'(by omega), xs[xs.length / 2]'(by omega), xs[xs.length - 1]'(by omega)]) :
    (((xs.set 0 a).set (xs.length / 2) b).set (xs.length - 1) c).Perm xs := by
  -- count each value
  rw [List.perm_iff_count]
  intro v
  have hc := hp.count_eq v
  have e1 := List.count_set (l := (xs.set 0 a).set (xs.length / 2) b) (i := xs.length - 1) (a := c) (b := v)
    (by simp; omega)
  have e2 := List.count_set (l := xs.set 0 a) (i := xs.length / 2) (a := b) (b := v) (by simp; omega)
  have e3 := List.count_set (l := xs) (i := 0) (a := a) (b := v) (by omega)
  have i1 : ((xs.set 0 a).set (xs.length / 2) b)[xs.length - 1]'(by simp; omega) = xs[xs.length - 1]'(by omega) := by
    rw [List.getElem_set_ne (by omega), List.getElem_set_ne (by omega)]
  have i2 : (xs.set 0 a)[xs.length / 2]'(by simp; omega) = xs[xs.length / 2]'(by omega) := by
    rw [List.getElem_set_ne (by omega)]
  rw [i1] at e1
  rw [i2] at e2
  -- lower bounds so that truncated subtraction is exact
  have p3 : (if (xs[0]'(by omega) == v) = true then 1 else 0) ≤ List.count v xs := by
    split
    · rename_i hh; simp at hh; rw [← hh]; exact List.count_pos_iff.mpr (List.getElem_mem _)
    · omega
  have p2 : (if (xs[xs.length / 2]'(by omega) == v) = true then 1 else 0) ≤ List.count v (xs.set 0 a) := by
    split
    · rename_i hh; simp at hh; rw [← hh, ← i2]; exact List.count_pos_iff.mpr (List.getElem_mem _)
    · omega
  have p1 : (if (xs[xs.length - 1]'(by omega) == v) = true then 1 else 0) ≤
      List.count v ((xs.set 0 a).set (xs.length / 2) b) := by
    split
    · rename_i hh; simp at hh; rw [← hh, ← i1]; exact List.count_pos_iff.mpr (List.getElem_mem _)
    · omega
  simp only [List.count_cons, List.count_nil] at hc
  rw [e1]; rw [e2] at p1 ⊢; rw [e3] at p2 p1 ⊢
  omega

theorem partition_spec (xs : List α) (hn : 4 ≤ xs.length) :
    ∃ ys p mid, partition xs = some (ys, p) ∧ ys.Perm xs ∧ 1 ≤ p ∧ p + 1 < xs.length ∧
      ys[p]? = some mid ∧
      (∀ k y, k ≤ p → ys[k]? = some y → y ≤ mid) ∧
      (∀ k y, p ≤ k → ys[k]? = some y → mid ≤ y) := by
  have hs3 := sort3_spec (xs[0]'(by omega)) (xs[xs.length / 2]'(by omega)) (xs[xs.length - 1]'(by omega))
  generalize hr : sort3 (xs[0]'(by omega)) (xs[xs.length / 2]'(by omega)) (xs[xs.length - 1]'(by omega)) = r at hs3
  obtain ⟨mx, mid, mn⟩ := r
  obtain ⟨hle1, hle2, hp3⟩ := hs3
  simp only at hle1 hle2 hp3
  have hperm1 := set3_perm xs hn mn mid mx hp3
  generalize hx1 : (((xs.set 0 mn).set (xs.length / 2) mid).set (xs.length - 1) mx) = xs1 at hperm1
  have hlen1 : xs1.length = xs.length := hperm1.length_eq
  have g1 : ∀ k, xs1[k]? = if k = xs.length - 1 then some mx else if k = xs.length / 2 then some mid else
      if k = 0 then some mn else xs[k]? := by
    intro k
    rw [← hx1]
    simp only [List.getElem?_set, List.length_set]
    by_cases c1 : k = xs.length - 1
    · subst c1; simp; omega
    · by_cases c2 : k = xs.length / 2
      · subst c2; simp [Ne.symm c1, c1, show xs.length / 2 < xs.length by omega]
      · by_cases c3 : k = 0
        · subst c3; simp [Ne.symm c1, Ne.symm c2, c1, c2, show 0 < xs.length by omega]
        · simp [Ne.symm c1, Ne.symm c2, Ne.symm c3, c1, c2, c3]
  have hs2 := swapAt_some (xs := xs1) (i := 1) (j := xs.length / 2) (by omega) (by omega)
  generalize hx2 : ((xs1.set 1 (xs1[xs.length / 2]'(by omega))).set (xs.length / 2) (xs1[1]'(by omega))) = xs2 at hs2
  have g2 := swapAt_get hs2
  have hperm2 := swapAt_perm hs2
  have hlen2 : xs2.length = xs.length := by rw [hperm2.length_eq, hlen1]
  have v1 : xs2[1]? = some mid := by
    rw [g2]
    split
    · rename_i h; omega
    · rw [if_pos rfl, g1, if_neg (by omega), if_pos rfl]
  have v0 : xs2[0]? = some mn := by
    rw [g2, if_neg (by omega), if_neg (by omega), g1, if_neg (by omega), if_neg (by omega), if_pos rfl]
  have vn : xs2[xs.length - 1]? = some mx := by
    rw [g2, if_neg (by omega), if_neg (by omega), g1, if_pos rfl]
  obtain ⟨ys, p, hl, hp, hp1, hp2, hp4, hy1, hlo, hhi⟩ := partLoop_spec mid xs.length xs2 1 (xs.length - 1)
    le_rfl (by omega) (by omega) (by omega) (by omega) (by omega) v1
    (by
      intro k y hk hy
      obtain rfl | rfl : k = 0 ∨ k = 1 := by omega
      · rw [v0] at hy; cases hy; exact hle1
      · rw [v1] at hy; cases hy; exact le_rfl)
    (by
      intro k y hk hy
      have : k < xs2.length := (List.getElem?_eq_some_iff.mp hy).1
      obtain rfl : k = xs.length - 1 := by omega
      rw [vn] at hy; cases hy; exact hle2)
  have hlen3 : ys.length = xs.length := by rw [hp.length_eq, hlen2]
  have hs4 := swapAt_some (xs := ys) (i := 1) (j := p) (by omega) (by omega)
  generalize hx4 : ((ys.set 1 (ys[p]'(by omega))).set p (ys[1]'(by omega))) = zs at hs4
  have g4 := swapAt_get hs4
  have hperm4 := swapAt_perm hs4
  refine ⟨zs, p, mid, ?_, hperm4.trans (hp.trans (hperm2.trans hperm1)), hp1, by omega, ?_, ?_, ?_⟩
  · unfold partition
    simp only [List.getElem?_eq_getElem (show 0 < xs.length by omega),
      List.getElem?_eq_getElem (show xs.length / 2 < xs.length by omega),
      List.getElem?_eq_getElem (show xs.length - 1 < xs.length by omega),
      Option.bind_eq_bind, Option.bind_some, hr, hx1, hs2, hl, hs4]
  · rw [g4, if_pos rfl]; exact hy1
  · intro k y hk hy
    rw [g4] at hy
    split at hy
    · rw [hy1] at hy; cases hy; exact le_rfl
    · split at hy
      · exact hlo p y le_rfl hy
      · exact hlo k y hk hy
  · intro k y hk hy
    rw [g4] at hy
    split at hy
    · rw [hy1] at hy; cases hy; exact le_rfl
    · split at hy
      · rename_i h8 h9; omega
      · exact hhi k y (by omega) hy

/-! ### Quick -/

theorem quickFuel_spec : ∀ (fuel : Nat) (xs : List α), xs.length < fuel →
    ∃ ys, quickFuel fuel xs = some ys ∧ ys.Perm xs ∧ ys.Pairwise (· ≤ ·) := by
  intro fuel
  induction fuel with
  | zero => intro xs h; omega
  | succ fuel ih =>
    intro xs hf
    rw [quickFuel]
    split
    · exact shell_spec xs
    · rename_i hlen
      simp only [manualLen] at hlen
      obtain ⟨ys, p, mid, h, hp, hp1, hp2, hmid, hlo, hhi⟩ := partition_spec xs (by omega)
      have hl : ys.length = xs.length := hp.length_eq
      obtain ⟨as, ha, hap, has⟩ := ih (ys.take p) (by simp; omega)
      obtain ⟨bs, hb, hbp, hbs⟩ := ih (ys.drop p) (by simp; omega)
      refine ⟨as ++ bs, ?_, ?_, ?_⟩
      · simp only [h, ha, hb, Option.bind_eq_bind, Option.bind_some]
      · have := hap.append hbp
        rw [List.take_append_drop] at this
        exact this.trans hp
      · rw [List.pairwise_append]
        refine ⟨has, hbs, ?_⟩
        intro a hA b hB
        have hA' := hap.mem_iff.mp hA
        have hB' := hbp.mem_iff.mp hB
        obtain ⟨i, hi, rfl⟩ := List.mem_iff_getElem.mp hA'
        obtain ⟨j, hj, rfl⟩ := List.mem_iff_getElem.mp hB'
        simp only [List.length_take, List.length_drop] at hi hj
        have e1 := hlo i ys[i] (by omega) (List.getElem?_eq_getElem (by omega))
        have e2 := hhi (p + j) ys[p + j] (by omega) (List.getElem?_eq_getElem (by omega))
        simp only [List.getElem_take, List.getElem_drop]
        exact le_trans e1 e2

/-! ### order statistics -/

/-- `r` has rank `n` from the top in `xs`. -/
def RankTop (xs : List α) (n : Int) (r : α) : Prop :=
  r ∈ xs ∧ ((xs.countP (fun x => decide (r < x)) : Nat) : Int) < n ∧
    n ≤ ((xs.countP (fun x => decide (r ≤ x)) : Nat) : Int)

theorem RankTop.perm {xs ys : List α} (h : xs.Perm ys) {n : Int} {r : α} (hr : RankTop xs n r) :
    RankTop ys n r := by
  refine ⟨h.mem_iff.mp hr.1, ?_, ?_⟩
  · rw [← h.countP_eq]; exact hr.2.1
  · rw [← h.countP_eq]; exact hr.2.2

theorem rankTop_sorted3 (a b c : α) (h1 : c ≤ b) (h2 : b ≤ a) :
    RankTop [c, b, a] 1 a ∧ RankTop [c, b, a] 2 b ∧ RankTop [c, b, a] 3 c := by
  have h3 : c ≤ a := le_trans h1 h2
  refine ⟨⟨by simp, ?_, ?_⟩, ⟨by simp, ?_, ?_⟩, ⟨by simp, ?_, ?_⟩⟩
  all_goals simp only [List.countP_cons, List.countP_nil, decide_eq_true_eq]
  · rw [if_neg (by order), if_neg (by order), if_neg (by order)]; decide
  · rw [if_pos (le_refl a)]; omega
  · rw [if_neg (show ¬ b < c by order), if_neg (lt_irrefl b)]; split <;> decide
  · rw [if_pos (le_refl b), if_pos h2]; omega
  · rw [if_neg (lt_irrefl c)]; split <;> split <;> decide
  · rw [if_pos (le_refl c), if_pos h1, if_pos h3]; decide

theorem rankTop_sorted2 (lo hi : α) (h1 : lo ≤ hi) :
    RankTop [lo, hi] 1 hi ∧ RankTop [lo, hi] 2 lo := by
  refine ⟨⟨by simp, ?_, ?_⟩, ⟨by simp, ?_, ?_⟩⟩
  all_goals simp only [List.countP_cons, List.countP_nil, decide_eq_true_eq]
  · rw [if_neg (by order), if_neg (by order)]; decide
  · rw [if_pos (le_refl hi)]; omega
  · rw [if_neg (lt_irrefl lo)]; split <;> decide
  · rw [if_pos (le_refl lo), if_pos h1]; decide

theorem nthLargestFuel_spec : ∀ (fuel : Nat) (xs : List α) (n : Int), xs.length < fuel →
    1 ≤ n → n ≤ xs.length → ∃ r, nthLargestFuel fuel xs n = some r ∧ RankTop xs n r := by
  intro fuel
  induction fuel with
  | zero => intro xs n h; omega
  | succ fuel ih =>
    intro xs n hf h1 h2
    unfold nthLargestFuel
    split
    · simp at h2; omega
    · rename_i x
      simp at h2
      obtain rfl : n = 1 := by omega
      exact ⟨x, rfl, by simp, by simp, by simp⟩
    · rename_i x y
      simp at h2
      have hc : n = 1 ∨ n = 2 := by omega
      by_cases hxy : y < x
      · have := rankTop_sorted2 y x (le_of_lt hxy)
        have hp : [y, x].Perm [x, y] := List.Perm.swap _ _ _
        rcases hc with rfl | rfl
        · exact ⟨x, by simp [hxy], this.1.perm hp⟩
        · exact ⟨y, by simp [hxy], this.2.perm hp⟩
      · have := rankTop_sorted2 x y (not_lt.mp hxy)
        rcases hc with rfl | rfl
        · exact ⟨y, by simp [hxy], this.1⟩
        · exact ⟨x, by simp [hxy], this.2⟩
    · rename_i x y z
      simp at h2
      have hs := sort3_spec x y z
      obtain ⟨e1, e2, e3⟩ := rankTop_sorted3 _ _ _ hs.1 hs.2.1
      have hc : n = 1 ∨ n = 2 ∨ n = 3 := by omega
      rcases hc with rfl | rfl | rfl
      · exact ⟨_, by simp, e1.perm hs.2.2⟩
      · exact ⟨_, by simp, e2.perm hs.2.2⟩
      · exact ⟨_, by simp, e3.perm hs.2.2⟩
    · rename_i c0 c1 c2 c3
      have hlen : 4 ≤ xs.length := by
        match xs, c0, c1, c2, c3 with
        | [], c0, _, _, _ => exact absurd rfl c0
        | [x], _, c1, _, _ => exact absurd rfl (c1 x)
        | [x, y], _, _, c2, _ => exact absurd rfl (c2 x y)
        | [x, y, z], _, _, _, c3 => exact absurd rfl (c3 x y z)
        | _ :: _ :: _ :: _ :: _, _, _, _, _ => simp
      obtain ⟨ys, p, mid, h, hp, hp1, hp2, hmid, hlo, hhi⟩ := partition_spec xs hlen
      have hl : ys.length = xs.length := hp.length_eq
      simp only [h, Option.bind_eq_bind, Option.bind_some]
      have hmem_lo : ∀ a ∈ ys.take p, a ≤ mid := by
        intro a ha
        obtain ⟨i, hi, rfl⟩ := List.mem_iff_getElem.mp ha
        simp only [List.length_take] at hi
        simp only [List.getElem_take]
        exact hlo i _ (by omega) (List.getElem?_eq_getElem (by omega))
      have hmem_hi : ∀ a ∈ ys.drop p, mid ≤ a := by
        intro a ha
        obtain ⟨i, hi, rfl⟩ := List.mem_iff_getElem.mp ha
        simp only [List.length_drop] at hi
        simp only [List.getElem_drop]
        exact hhi (p + i) _ (by omega) (List.getElem?_eq_getElem (by omega))
      have hsplit : ∀ (q : α → Bool), ys.countP q = (ys.take p).countP q + (ys.drop p).countP q := by
        intro q
        conv_lhs => rw [← List.take_append_drop p ys, List.countP_append]
      split
      · obtain ⟨r, hr, hm, hc1, hc2⟩ := ih (ys.drop p) n (by simp; omega) h1 (by simp; omega)
        refine ⟨r, hr, RankTop.perm hp ⟨List.mem_of_mem_drop hm, ?_, ?_⟩⟩
        · rw [hsplit]
          have : (ys.take p).countP (fun x => decide (r < x)) = 0 := by
            rw [List.countP_eq_zero]
            intro a ha
            have := hmem_lo a ha
            have := hmem_hi r hm
            simp only [decide_eq_true_eq]; order
          omega
        · rw [hsplit]; omega
      · split
        · obtain ⟨r, hr, hm, hc1, hc2⟩ := ih (ys.take p) (n - ((ys.length : Int) - p)) (by simp; omega)
            (by omega) (by simp; omega)
          refine ⟨r, hr, RankTop.perm hp ⟨List.mem_of_mem_take hm, ?_, ?_⟩⟩
          · rw [hsplit]
            have : (ys.drop p).countP (fun x => decide (r < x)) ≤ ys.length - p := by
              have := List.countP_le_length (p := fun x => decide (r < x)) (l := ys.drop p)
              simpa using this
            omega
          · rw [hsplit]
            have : (ys.drop p).countP (fun x => decide (r ≤ x)) = ys.length - p := by
              rw [← List.length_drop, List.countP_eq_length]
              intro a ha
              have := hmem_hi a ha
              have := hmem_lo r hm
              simp only [decide_eq_true_eq]; order
            omega
        · refine ⟨mid, hmid, RankTop.perm hp ⟨List.mem_of_getElem? hmid, ?_, ?_⟩⟩
          · rw [hsplit]
            have e1 : (ys.take p).countP (fun x => decide (mid < x)) = 0 := by
              rw [List.countP_eq_zero]
              intro a ha
              have := hmem_lo a ha
              simp only [decide_eq_true_eq]; order
            have e2 : (ys.drop p).countP (fun x => decide (mid < x)) < ys.length - p := by
              rw [← List.length_drop]
              have hlt : p < ys.length := by omega
              rw [List.drop_eq_getElem_cons hlt]
              have : ys[p] = mid := by
                rw [List.getElem?_eq_getElem hlt] at hmid; exact Option.some.inj hmid
              rw [List.countP_cons_of_neg (by simp [this])]
              have := List.countP_le_length (p := fun x => decide (mid < x)) (l := ys.drop (p+1))
              simp only [List.length_cons]
              omega
            omega
          · rw [hsplit]
            have e2 : (ys.drop p).countP (fun x => decide (mid ≤ x)) = ys.length - p := by
              rw [← List.length_drop, List.countP_eq_length]
              intro a ha
              simpa using hmem_hi a ha
            omega

/-! ### Reverse -/

theorem reverse_fold (xs : List α) : ∀ k, k ≤ xs.length / 2 →
    ∃ ys, (List.range k).foldlM (fun ys i => swapAt ys i (xs.length - 1 - i)) xs = some ys ∧
      ys.length = xs.length ∧
      ∀ i, ys[i]? = if i < k ∨ (xs.length - k ≤ i ∧ i < xs.length) then xs[xs.length - 1 - i]? else xs[i]? := by
  intro k
  induction k with
  | zero =>
    intro _
    refine ⟨xs, by simp, rfl, ?_⟩
    intro i; rw [if_neg (by omega)]
  | succ k ih =>
    intro hk
    obtain ⟨ys, h, hl, hg⟩ := ih (by omega)
    have hs := swapAt_some (xs := ys) (i := k) (j := xs.length - 1 - k) (by omega) (by omega)
    generalize hz : ((ys.set k (ys[xs.length - 1 - k]'(by omega))).set (xs.length - 1 - k) (ys[k]'(by omega))) = zs at hs
    refine ⟨zs, ?_, ?_, ?_⟩
    · rw [List.range_succ, List.foldlM_append, h]
      simp only [Option.bind_eq_bind, Option.bind_some, List.foldlM_cons, List.foldlM_nil, hs]
      rfl
    · rw [(swapAt_perm hs).length_eq, hl]
    · intro i
      rw [swapAt_get hs]
      split
      · rename_i hi; subst hi
        rw [hg, if_neg (by omega), if_pos (by omega)]; congr 1; omega
      · split
        · rename_i hi; subst hi
          rw [hg, if_neg (by omega), if_pos (by omega)]
        · rw [hg]
          by_cases hc : i < k ∨ (xs.length - k ≤ i ∧ i < xs.length)
          · rw [if_pos hc, if_pos (by omega)]
          · rw [if_neg hc, if_neg (by omega)]

theorem reverse_spec (xs : List α) : reverse xs = some xs.reverse := by
  obtain ⟨ys, h, hl, hg⟩ := reverse_fold xs (xs.length / 2) le_rfl
  unfold reverse
  rw [h]
  congr 1
  apply List.ext_getElem?
  intro i
  by_cases hi : i < xs.length
  · rw [List.getElem?_reverse hi, hg]
    split
    · rfl
    · rename_i hc
      congr 1
      omega
  · rw [List.getElem?_eq_none (by omega), List.getElem?_eq_none (by simp; omega)]

end Shellfish.Sort
