/-
C107: the functions of math/sort for a comparison that is only asymmetric (float64 with NaN), and for maps that keep the comparison.
-/
import Verif.Lemmas.Sort

set_option linter.unusedSectionVars false

namespace Shellfish.Sort.Any
open Shellfish.Sort (swapAt sort3 shellInner shellInsert shellPass shellIncStart shellLoop shell scanUp scanDown partLoop partition quickFuel quick nthLargestFuel nthLargest median percentile manualLen IsInc shellIncStart_spec)

variable {α : Type} [LT α] [DecidableLT α]

theorem swapAt_some {xs : List α} {i j : Nat} (hi : i < xs.length) (hj : j < xs.length) :
    swapAt xs i j = some ((xs.set i xs[j]).set j xs[i]) := by
  simp [swapAt, hi, hj]

theorem swapAt_perm {xs ys : List α} {i j : Nat} (h : swapAt xs i j = some ys) : ys.Perm xs := by
  unfold swapAt at h
  by_cases hi : i < xs.length <;> by_cases hj : j < xs.length <;> simp [hi, hj] at h
  subst h
  exact List.set_set_perm hi hj

theorem sort3_spec (asymm : ∀ a b : α, a < b → ¬ b < a) (x y z : α) :
    ¬ (sort3 x y z).2.1 < (sort3 x y z).2.2 ∧ ¬ (sort3 x y z).1 < (sort3 x y z).2.1 ∧
    [(sort3 x y z).2.2, (sort3 x y z).2.1, (sort3 x y z).1].Perm [x, y, z] := by
  have p1 : ∀ a b c : α, [c, b, a].Perm [a, b, c] := fun a b c => by simpa using (List.reverse_perm [a, b, c])
  unfold sort3
  split <;> split <;> try split
  all_goals refine ⟨?_, ?_, ?_⟩
  all_goals first
    | assumption
    | (apply asymm; assumption)
    | exact List.Perm.refl _
    | exact p1 _ _ _
    | exact List.Perm.cons _ (List.Perm.swap _ _ _)
    | exact List.Perm.swap _ _ _
    | exact (List.Perm.swap _ _ _).trans (List.Perm.cons _ (List.Perm.swap _ _ _))
    | exact (List.Perm.cons _ (List.Perm.swap _ _ _)).trans (List.Perm.swap _ _ _)

theorem shellInner_perm (inc : Nat) (v : α) : ∀ (fuel : Nat) (xs : List α) (j : Nat)
    (_ : j < xs.length) (_ : 0 < inc) r, shellInner inc v fuel xs j = some r →
    r.1.length = xs.length ∧ r.2 < xs.length ∧ (r.1.set r.2 v).Perm (xs.set j v) := by
  intro fuel
  induction fuel with
  | zero => intro xs j _ _ r h; simp [shellInner] at h
  | succ fuel ih =>
    intro xs j hj hinc r h
    rw [shellInner] at h
    split at h
    · simp at h
    · rename_i hge
      have hlt : j - inc < xs.length := by omega
      simp only [List.getElem?_eq_getElem hlt, Option.bind_eq_bind, Option.bind_some] at h
      have key : ((xs.set j xs[j - inc]).set (j - inc) v).Perm (xs.set j v) := by
        have := List.set_set_perm (as := xs.set j v) (i := j) (j := j - inc) (by simpa) (by simpa)
        have hne : j - inc ≠ j := by omega
        simpa [List.getElem_set, hne, hne.symm] using this
      split at h
      · split at h
        · simp at h; subst h; exact ⟨by simp, hlt, key⟩
        · have := ih (xs.set j xs[j - inc]) (j - inc) (by simpa) hinc r h
          simp only [List.length_set] at this
          exact ⟨this.1, this.2.1, this.2.2.trans key⟩
      · simp at h; subst h; exact ⟨rfl, hj, List.Perm.refl _⟩

theorem shellInner_isSome (inc : Nat) (v : α) : ∀ (fuel : Nat) (xs : List α) (j : Nat)
    (_ : j < xs.length) (_ : 0 < inc) (_ : inc ≤ j) (_ : j < fuel),
    ∃ r, shellInner inc v fuel xs j = some r := by
  intro fuel
  induction fuel with
  | zero => intro xs j _ _ _ h; omega
  | succ fuel ih =>
    intro xs j hj hinc hge hf
    rw [shellInner]
    have hlt : j - inc < xs.length := by omega
    rw [if_neg (by omega)]
    simp only [List.getElem?_eq_getElem hlt, Option.bind_eq_bind, Option.bind_some]
    split
    · split
      · exact ⟨_, rfl⟩
      · exact ih _ _ (by simpa) hinc (by omega) (by omega)
    · exact ⟨_, rfl⟩

theorem shellInsert_spec (inc : Nat) (hinc : 0 < inc) (xs : List α) (i : Nat) (hi : i < xs.length)
    (hge : inc ≤ i) : ∃ ys, shellInsert inc xs i = some ys ∧ ys.Perm xs := by
  obtain ⟨r, hr⟩ := shellInner_isSome inc xs[i] (i + 1) xs i hi hinc hge (by omega)
  refine ⟨r.1.set r.2 xs[i], ?_, ?_⟩
  · simp [shellInsert, hi, hr]
  · have := shellInner_perm inc xs[i] _ xs i hi hinc r hr
    simpa using this.2.2

theorem shellPass_foldl (inc : Nat) (hinc : 0 < inc) : ∀ (k s : Nat) (xs : List α),
    inc ≤ s → s + k ≤ xs.length →
    ∃ ys, (List.range' s k).foldlM (shellInsert inc) xs = some ys ∧ ys.Perm xs := by
  intro k
  induction k with
  | zero => intro s xs _ _; exact ⟨xs, by simp, List.Perm.refl _⟩
  | succ k ih =>
    intro s xs hs hk
    obtain ⟨ys, h1, hp⟩ := shellInsert_spec inc hinc xs s (by omega) hs
    obtain ⟨zs, h2, hp2⟩ := ih (s + 1) ys (by omega) (by rw [hp.length_eq]; omega)
    refine ⟨zs, ?_, hp2.trans hp⟩
    simp [List.range'_succ, h1, h2]

theorem shellPass_perm (inc : Nat) (hinc : 0 < inc) (xs : List α) :
    ∃ ys, shellPass inc xs = some ys ∧ ys.Perm xs := by
  unfold shellPass
  by_cases h : inc ≤ xs.length
  · exact shellPass_foldl inc hinc _ inc xs le_rfl (by omega)
  · rw [show xs.length - inc = 0 by omega]; exact ⟨xs, by simp, List.Perm.refl _⟩

theorem shellLoop_spec : ∀ (inc : Nat), IsInc inc → ∀ (fuel : Nat) (xs : List α), inc ≤ fuel → ∃ ys, shellLoop fuel inc xs = some ys ∧ ys.Perm xs := by
  intro inc hinc
  induction hinc with
  | one =>
    intro fuel xs _
    exact ⟨xs, by cases fuel <;> simp [shellLoop], List.Perm.refl _⟩
  | @step k hk ih =>
    intro fuel xs hf
    have hkpos := hk.pos
    cases fuel with
    | zero => omega
    | succ fuel =>
      simp only [shellLoop]
      rw [if_pos (by omega), show (k * 3 + 1) / 3 = k by omega]
      obtain ⟨ys, h, hp⟩ := shellPass_perm k hkpos xs
      obtain ⟨zs, hz, hpz⟩ := ih fuel ys (by omega)
      exact ⟨zs, by simp [h, hz], hpz.trans hp⟩

theorem shell_spec (xs : List α) : ∃ ys, shell xs = some ys ∧ ys.Perm xs := by
  unfold shell
  split
  · exact ⟨xs, rfl, List.Perm.refl _⟩
  · exact shellLoop_spec _ (shellIncStart_spec xs.length (xs.length + 1) 1 .one (by omega)).1 _ xs le_rfl

theorem scanUp_spec (mid : α) (xs : List α) (e : Nat) (he : e < xs.length) (hme : ¬ xs[e] < mid) :
    ∀ fuel lo, lo ≤ e → e < lo + fuel → ∃ r, scanUp mid xs fuel lo = some r ∧ lo ≤ r ∧ r ≤ e ∧
      (∀ k y, lo ≤ k → k < r → xs[k]? = some y → y < mid) ∧ (∀ y, xs[r]? = some y → ¬ y < mid) := by
  intro fuel
  induction fuel with
  | zero => intro lo h1 h2; omega
  | succ fuel ih =>
    intro lo h1 h2
    have hlt : lo < xs.length := by omega
    simp only [scanUp, List.getElem?_eq_getElem hlt, Option.bind_eq_bind, Option.bind_some]
    split
    · rename_i hv
      have hne : lo ≠ e := by rintro rfl; exact absurd hv hme
      obtain ⟨r, h, h3, h4, h5, h6⟩ := ih (lo + 1) (by omega) (by omega)
      refine ⟨r, h, by omega, h4, ?_, h6⟩
      intro k y hk1 hk2 hy
      by_cases hk : k = lo
      · subst hk; rw [List.getElem?_eq_getElem hlt] at hy; cases hy; exact hv
      · exact h5 k y (by omega) hk2 hy
    · rename_i hv
      refine ⟨lo, rfl, le_rfl, h1, by intro k y h1 h2; omega, ?_⟩
      intro y hy
      rw [List.getElem?_eq_getElem hlt] at hy; cases hy; exact hv

theorem scanDown_spec (mid : α) (xs : List α) (e : Nat) (he : e < xs.length) (hme : ¬ mid < xs[e]) :
    ∀ hi, e ≤ hi → hi < xs.length → ∃ r, scanDown mid xs hi = some r ∧ e ≤ r ∧ r ≤ hi ∧
      (∀ k y, r < k → k ≤ hi → xs[k]? = some y → mid < y) ∧ (∀ y, xs[r]? = some y → ¬ mid < y) := by
  intro hi
  induction hi with
  | zero =>
    intro h1 h2
    obtain rfl : e = 0 := by omega
    simp only [scanDown, List.getElem?_eq_getElem he, Option.bind_eq_bind, Option.bind_some]
    rw [if_neg hme]
    refine ⟨0, rfl, le_rfl, le_rfl, by intro k y h1 h2; omega, ?_⟩
    intro y hy; rw [List.getElem?_eq_getElem he] at hy; cases hy; exact hme
  | succ hi ih =>
    intro h1 h2
    simp only [scanDown, List.getElem?_eq_getElem h2, Option.bind_eq_bind, Option.bind_some]
    split
    · rename_i hv
      have hne : e ≠ hi + 1 := by rintro rfl; exact absurd hv hme
      obtain ⟨r, h, h3, h4, h5, h6⟩ := ih (by omega) (by omega)
      refine ⟨r, h, h3, by omega, ?_, h6⟩
      intro k y hk1 hk2 hy
      by_cases hk : k = hi + 1
      · subst hk; rw [List.getElem?_eq_getElem h2] at hy; cases hy; exact hv
      · exact h5 k y hk1 (by omega) hy
    · rename_i hv
      refine ⟨hi + 1, rfl, h1, le_rfl, by intro k y h1 h2; omega, ?_⟩
      intro y hy; rw [List.getElem?_eq_getElem h2] at hy; cases hy; exact hv

theorem swapAt_get {xs ys : List α} {i j : Nat} (h : swapAt xs i j = some ys) :
    ∀ k, ys[k]? = if k = j then xs[i]? else if k = i then xs[j]? else xs[k]? := by
  intro k
  unfold swapAt at h
  by_cases hi : i < xs.length <;> by_cases hj : j < xs.length <;> simp [hi, hj] at h
  subst h
  simp only [List.getElem?_set, List.length_set]
  by_cases h1 : k = j
  · subst h1; simp [hi, hj]
  · by_cases h2 : k = i
    · subst h2; simp [h1, Ne.symm h1, hi, hj]
    · simp [h1, h2, Ne.symm h1, Ne.symm h2]

theorem partLoop_spec (asymm : ∀ a b : α, a < b → ¬ b < a) (mid : α) : ∀ (fuel : Nat) (xs : List α) (lo hi : Nat),
    1 ≤ lo → lo ≤ hi → lo + 1 < xs.length → hi < xs.length → 2 ≤ hi → hi ≤ fuel →
    xs[1]? = some mid →
    (∀ k y, k ≤ lo → xs[k]? = some y → ¬ mid < y) →
    (∀ k y, hi ≤ k → xs[k]? = some y → ¬ y < mid) →
    ∃ ys p, partLoop mid fuel xs lo hi = some (ys, p) ∧ ys.Perm xs ∧ 1 ≤ p ∧ p + 1 < xs.length ∧ p < hi ∧
      ys[1]? = some mid ∧
      (∀ k y, k ≤ p → ys[k]? = some y → ¬ mid < y) ∧
      (∀ k y, p < k → ys[k]? = some y → ¬ y < mid) := by
  intro fuel
  induction fuel with
  | zero => intro xs lo hi h1 h2 h3 h4 h5 h6; omega
  | succ fuel ih =>
    intro xs lo hi h1 h2 h3 h4 h5 h6 hp1 hlo hhi
    rw [partLoop, if_neg (by omega)]
    -- scan up stops at or before max hi (lo+1)
    have hE : ∃ e, lo + 1 ≤ e ∧ hi ≤ e ∧ e < xs.length := ⟨max hi (lo + 1), by omega, by omega, by omega⟩
    obtain ⟨e, he1, he2, he3⟩ := hE
    obtain ⟨lo', hl, hl1, hl2, hl3, hl4⟩ := scanUp_spec mid xs e he3
      (hhi e _ he2 (List.getElem?_eq_getElem he3)) (xs.length + 1) (lo + 1) he1 (by omega)
    have h1l : 1 < xs.length := by omega
    have hx1 : xs[1] = mid := by
      rw [List.getElem?_eq_getElem h1l] at hp1; exact Option.some.inj hp1
    obtain ⟨hi', hh, hh1, hh2, hh3, hh4⟩ := scanDown_spec mid xs 1 h1l (by rw [hx1]; exact fun h => asymm _ _ h h) (hi - 1)
      (by omega) (by omega)
    have hlo2 : ∀ k y, k < lo' → xs[k]? = some y → ¬ mid < y := by
      intro k y hk hy
      by_cases hc : k ≤ lo
      · exact hlo k y hc hy
      · exact asymm _ _ (hl3 k y (by omega) hk hy)
    have hhi2 : ∀ k y, hi' < k → xs[k]? = some y → ¬ y < mid := by
      intro k y hk hy
      by_cases hc : hi ≤ k
      · exact hhi k y hc hy
      · exact asymm _ _ (hh3 k y hk (by omega) hy)
    simp only [hl, hh, Option.bind_eq_bind, Option.bind_some]
    split
    · exact ⟨xs, hi', rfl, List.Perm.refl _, hh1, by omega, by omega, hp1, fun k y hk => hlo2 k y (by omega), hhi2⟩
    · rename_i hge
      have hs := swapAt_some (xs := xs) (i := lo') (j := hi') (by omega) (by omega)
      generalize hys : ((xs.set lo' (xs[hi']'(by omega))).set hi' (xs[lo']'(by omega))) = ys at hs
      have hget := swapAt_get hs
      have hperm := swapAt_perm hs
      have hlen : ys.length = xs.length := hperm.length_eq
      simp only [hs, Option.bind_some]
      obtain ⟨zs, p, hz, hz1, hz2, hz3, hz4, hz5, hz6, hz7⟩ := ih ys lo' hi' (by omega) (by omega)
        (by omega) (by omega) (by omega) (by omega)
        (by rw [hget, if_neg (by omega), if_neg (by omega)]; exact hp1)
        (by
          intro k y hk hy
          rw [hget] at hy
          split at hy
          · rename_i hkj
            have : lo' = hi' := by omega
            rw [this] at hy; exact hh4 y hy
          · split at hy
            · exact hh4 y hy
            · exact hlo2 k y (by omega) hy)
        (by
          intro k y hk hy
          rw [hget] at hy
          split at hy
          · exact hl4 y hy
          · split at hy
            · rename_i h8 h9
              exfalso; omega
            · exact hhi2 k y (by omega) hy)
      exact ⟨zs, p, hz, hz1.trans hperm, hz2, by omega, by omega, hz5, hz6, hz7⟩

open Classical in
theorem set3_perm (xs : List α) (h : 4 ≤ xs.length) (a b c : α)
    (hp : [a, b, c].Perm [xs[0]'(by omega), xs[xs.length / 2]'(by omega), xs[xs.length - 1]'(by omega)]) :
    (((xs.set 0 a).set (xs.length / 2) b).set (xs.length - 1) c).Perm xs := by
  -- count each value
  rw [List.perm_iff_count]
  intro v
  have hc := hp.count_eq v
  have e1 := List.count_set (l := (xs.set 0 a).set (xs.length / 2) b) (i := xs.length - 1) (a := c) (b := v)
    (by simp; omega)
  have e2 := List.count_set (l := xs.set 0 a) (i := xs.length / 2) (a := b) (b := v) (by simp; omega)
  have e3 := List.count_set (l := xs) (i := 0) (a := a) (b := v) (by omega)
  have i1 : ((xs.set 0 a).set (xs.length / 2) b)[xs.length - 1]'(by simp; omega) = xs[xs.length - 1]'(by omega) := by
    rw [List.getElem_set_ne (by omega), List.getElem_set_ne (by omega)]
  have i2 : (xs.set 0 a)[xs.length / 2]'(by simp; omega) = xs[xs.length / 2]'(by omega) := by
    rw [List.getElem_set_ne (by omega)]
  rw [i1] at e1
  rw [i2] at e2
  -- lower bounds so that truncated subtraction is exact
  have p3 : (if (xs[0]'(by omega) == v) = true then 1 else 0) ≤ List.count v xs := by
    split
    · rename_i hh; simp at hh; rw [← hh]; exact List.count_pos_iff.mpr (List.getElem_mem _)
    · omega
  have p2 : (if (xs[xs.length / 2]'(by omega) == v) = true then 1 else 0) ≤ List.count v (xs.set 0 a) := by
    split
    · rename_i hh; simp at hh; rw [← hh, ← i2]; exact List.count_pos_iff.mpr (List.getElem_mem _)
    · omega
  have p1 : (if (xs[xs.length - 1]'(by omega) == v) = true then 1 else 0) ≤
      List.count v ((xs.set 0 a).set (xs.length / 2) b) := by
    split
    · rename_i hh; simp at hh; rw [← hh, ← i1]; exact List.count_pos_iff.mpr (List.getElem_mem _)
    · omega
  simp only [List.count_cons, List.count_nil] at hc
  rw [e1]; rw [e2] at p1 ⊢; rw [e3] at p2 p1 ⊢
  omega

theorem partition_spec (asymm : ∀ a b : α, a < b → ¬ b < a) (xs : List α) (hn : 4 ≤ xs.length) :
    ∃ ys p mid, partition xs = some (ys, p) ∧ ys.Perm xs ∧ 1 ≤ p ∧ p + 1 < xs.length ∧
      ys[p]? = some mid ∧
      (∀ k y, k ≤ p → ys[k]? = some y → ¬ mid < y) ∧
      (∀ k y, p ≤ k → ys[k]? = some y → ¬ y < mid) := by
  have hs3 := sort3_spec asymm (xs[0]'(by omega)) (xs[xs.length / 2]'(by omega)) (xs[xs.length - 1]'(by omega))
  generalize hr : sort3 (xs[0]'(by omega)) (xs[xs.length / 2]'(by omega)) (xs[xs.length - 1]'(by omega)) = r at hs3
  obtain ⟨mx, mid, mn⟩ := r
  obtain ⟨hle1, hle2, hp3⟩ := hs3
  simp only at hle1 hle2 hp3
  have hperm1 := set3_perm xs hn mn mid mx hp3
  generalize hx1 : (((xs.set 0 mn).set (xs.length / 2) mid).set (xs.length - 1) mx) = xs1 at hperm1
  have hlen1 : xs1.length = xs.length := hperm1.length_eq
  have g1 : ∀ k, xs1[k]? = if k = xs.length - 1 then some mx else if k = xs.length / 2 then some mid else
      if k = 0 then some mn else xs[k]? := by
    intro k
    rw [← hx1]
    simp only [List.getElem?_set, List.length_set]
    by_cases c1 : k = xs.length - 1
    · subst c1; simp; omega
    · by_cases c2 : k = xs.length / 2
      · subst c2; simp [Ne.symm c1, c1, show xs.length / 2 < xs.length by omega]
      · by_cases c3 : k = 0
        · subst c3; simp [Ne.symm c1, Ne.symm c2, c1, c2, show 0 < xs.length by omega]
        · simp [Ne.symm c1, Ne.symm c2, Ne.symm c3, c1, c2, c3]
  have hs2 := swapAt_some (xs := xs1) (i := 1) (j := xs.length / 2) (by omega) (by omega)
  generalize hx2 : ((xs1.set 1 (xs1[xs.length / 2]'(by omega))).set (xs.length / 2) (xs1[1]'(by omega))) = xs2 at hs2
  have g2 := swapAt_get hs2
  have hperm2 := swapAt_perm hs2
  have hlen2 : xs2.length = xs.length := by rw [hperm2.length_eq, hlen1]
  have v1 : xs2[1]? = some mid := by
    rw [g2]
    split
    · rename_i h; omega
    · rw [if_pos rfl, g1, if_neg (by omega), if_pos rfl]
  have v0 : xs2[0]? = some mn := by
    rw [g2, if_neg (by omega), if_neg (by omega), g1, if_neg (by omega), if_neg (by omega), if_pos rfl]
  have vn : xs2[xs.length - 1]? = some mx := by
    rw [g2, if_neg (by omega), if_neg (by omega), g1, if_pos rfl]
  obtain ⟨ys, p, hl, hp, hp1, hp2, hp4, hy1, hlo, hhi⟩ := partLoop_spec asymm mid xs.length xs2 1 (xs.length - 1)
    le_rfl (by omega) (by omega) (by omega) (by omega) (by omega) v1
    (by
      intro k y hk hy
      obtain rfl | rfl : k = 0 ∨ k = 1 := by omega
      · rw [v0] at hy; cases hy; exact hle1
      · rw [v1] at hy; cases hy; exact fun h => asymm _ _ h h)
    (by
      intro k y hk hy
      have : k < xs2.length := (List.getElem?_eq_some_iff.mp hy).1
      obtain rfl : k = xs.length - 1 := by omega
      rw [vn] at hy; cases hy; exact hle2)
  have hlen3 : ys.length = xs.length := by rw [hp.length_eq, hlen2]
  have hs4 := swapAt_some (xs := ys) (i := 1) (j := p) (by omega) (by omega)
  generalize hx4 : ((ys.set 1 (ys[p]'(by omega))).set p (ys[1]'(by omega))) = zs at hs4
  have g4 := swapAt_get hs4
  have hperm4 := swapAt_perm hs4
  refine ⟨zs, p, mid, ?_, hperm4.trans (hp.trans (hperm2.trans hperm1)), hp1, by omega, ?_, ?_, ?_⟩
  · unfold partition
    simp only [List.getElem?_eq_getElem (show 0 < xs.length by omega),
      List.getElem?_eq_getElem (show xs.length / 2 < xs.length by omega),
      List.getElem?_eq_getElem (show xs.length - 1 < xs.length by omega),
      Option.bind_eq_bind, Option.bind_some, hr, hx1, hs2, hl, hs4]
  · rw [g4, if_pos rfl]; exact hy1
  · intro k y hk hy
    rw [g4] at hy
    split at hy
    · rw [hy1] at hy; cases hy; exact fun h => asymm _ _ h h
    · split at hy
      · exact hlo p y le_rfl hy
      · exact hlo k y hk hy
  · intro k y hk hy
    rw [g4] at hy
    split at hy
    · rw [hy1] at hy; cases hy; exact fun h => asymm _ _ h h
    · split at hy
      · rename_i h8 h9; omega
      · exact hhi k y (by omega) hy

/-! ### Quick -/

theorem quickFuel_spec (asymm : ∀ a b : α, a < b → ¬ b < a) : ∀ (fuel : Nat) (xs : List α), xs.length < fuel → ∃ ys, quickFuel fuel xs = some ys ∧ ys.Perm xs := by
  intro fuel
  induction fuel with
  | zero => intro xs h; omega
  | succ fuel ih =>
    intro xs hf
    rw [quickFuel]
    split
    · exact shell_spec xs
    · rename_i hlen
      simp only [manualLen] at hlen
      obtain ⟨ys, p, mid, h, hp, hp1, hp2, -⟩ := partition_spec asymm xs (by omega)
      have hl : ys.length = xs.length := hp.length_eq
      obtain ⟨as, ha, hap⟩ := ih (ys.take p) (by simp; omega)
      obtain ⟨bs, hb, hbp⟩ := ih (ys.drop p) (by simp; omega)
      refine ⟨as ++ bs, by simp only [h, ha, hb, Option.bind_eq_bind, Option.bind_some], ?_⟩
      have := hap.append hbp
      rw [List.take_append_drop] at this
      exact this.trans hp

theorem nthLargestFuel_spec (asymm : ∀ a b : α, a < b → ¬ b < a) : ∀ (fuel : Nat) (xs : List α) (n : Int), xs.length < fuel → 1 ≤ n → n ≤ xs.length → ∃ r, nthLargestFuel fuel xs n = some r ∧ r ∈ xs := by
  intro fuel
  induction fuel with
  | zero => intro xs n h; omega
  | succ fuel ih =>
    intro xs n hf h1 h2
    unfold nthLargestFuel
    split
    · simp at h2; omega
    · exact ⟨_, rfl, by simp⟩
    · rename_i x y
      simp at h2
      have hc : n = 1 ∨ n = 2 := by omega
      by_cases hxy : y < x <;> rcases hc with rfl | rfl <;> simp [hxy]
    · rename_i x y z
      simp at h2
      have hp := (sort3_spec asymm x y z).2.2
      have hc : n = 1 ∨ n = 2 ∨ n = 3 := by omega
      rcases hc with rfl | rfl | rfl
      · exact ⟨(sort3 x y z).1, by simp, hp.mem_iff.mp (by simp)⟩
      · exact ⟨(sort3 x y z).2.1, by simp, hp.mem_iff.mp (by simp)⟩
      · exact ⟨(sort3 x y z).2.2, by simp, hp.mem_iff.mp (by simp)⟩
    · rename_i c0 c1 c2 c3
      have hlen : 4 ≤ xs.length := by
        match xs, c0, c1, c2, c3 with
        | [], c0, _, _, _ => exact absurd rfl c0
        | [x], _, c1, _, _ => exact absurd rfl (c1 x)
        | [x, y], _, _, c2, _ => exact absurd rfl (c2 x y)
        | [x, y, z], _, _, _, c3 => exact absurd rfl (c3 x y z)
        | _ :: _ :: _ :: _ :: _, _, _, _, _ => simp
      obtain ⟨ys, p, mid, h, hp, hp1, hp2, hmid, -⟩ := partition_spec asymm xs hlen
      have hl : ys.length = xs.length := hp.length_eq
      simp only [h, Option.bind_eq_bind, Option.bind_some]
      split
      · obtain ⟨r, hr, hm⟩ := ih (ys.drop p) n (by simp; omega) h1 (by simp; omega)
        exact ⟨r, hr, hp.mem_iff.mp (List.mem_of_mem_drop hm)⟩
      · split
        · obtain ⟨r, hr, hm⟩ := ih (ys.take p) (n - ((ys.length : Int) - p)) (by simp; omega) (by omega) (by simp; omega)
          exact ⟨r, hr, hp.mem_iff.mp (List.mem_of_mem_take hm)⟩
        · exact ⟨mid, hmid, hp.mem_iff.mp (List.mem_of_getElem? hmid)⟩

/-! ### Maps that keep the comparison -/

variable {β : Type} [LT β] [DecidableLT β] {f : α → β}

theorem swapAt_map (xs : List α) (i j : Nat) : swapAt (xs.map f) i j = (swapAt xs i j).map (List.map f) := by
  unfold swapAt
  by_cases hi : i < xs.length
  · by_cases hj : j < xs.length
    · simp [hi, hj, List.map_set]
    · simp [List.getElem?_eq_none (show xs.length ≤ j by omega), hi]
  · simp [List.getElem?_eq_none (show xs.length ≤ i by omega)]

variable (hf : ∀ a b : α, f a < f b ↔ a < b)
include hf

theorem sort3_map (x y z : α) : sort3 (f x) (f y) (f z) = (f (sort3 x y z).1, f (sort3 x y z).2.1, f (sort3 x y z).2.2) := by
  unfold sort3
  simp only [hf]
  split <;> split <;> try split
  all_goals rfl

theorem shellInner_map (inc : Nat) (v : α) : ∀ (fuel : Nat) (xs : List α) (j : Nat), shellInner inc (f v) fuel (xs.map f) j = (shellInner inc v fuel xs j).map fun r => (r.1.map f, r.2) := by
  intro fuel
  induction fuel with
  | zero => intro xs j; rfl
  | succ fuel ih =>
    intro xs j
    rw [shellInner, shellInner]
    by_cases hj : j < inc
    · rw [if_pos hj, if_pos hj]; rfl
    rw [if_neg hj, if_neg hj, List.getElem?_map]
    cases hx : xs[j - inc]? with
    | none => rfl
    | some y =>
      simp only [Option.map_some, Option.bind_eq_bind, Option.bind_some, hf]
      by_cases hv : v < y
      · rw [if_pos hv, if_pos hv]
        by_cases h2 : j - inc < inc
        · rw [if_pos h2, if_pos h2, ← List.map_set]; rfl
        · rw [if_neg h2, if_neg h2, ← List.map_set, ih]
      · rw [if_neg hv, if_neg hv]; rfl

theorem shellInsert_map (inc : Nat) (xs : List α) (i : Nat) : shellInsert inc (xs.map f) i = (shellInsert inc xs i).map (List.map f) := by
  unfold shellInsert
  rw [List.getElem?_map]
  cases hx : xs[i]? with
  | none => rfl
  | some v =>
    simp only [Option.map_some, Option.bind_eq_bind, Option.bind_some]
    rw [shellInner_map hf]
    cases shellInner inc v (i + 1) xs i with
    | none => rfl
    | some r => simp [List.map_set]

theorem shellPass_map (inc : Nat) (xs : List α) : shellPass inc (xs.map f) = (shellPass inc xs).map (List.map f) := by
  unfold shellPass
  rw [List.length_map]
  generalize List.range' inc (xs.length - inc) = l
  induction l generalizing xs with
  | nil => rfl
  | cons i l ih =>
    rw [List.foldlM_cons, List.foldlM_cons, shellInsert_map hf]
    cases shellInsert inc xs i with
    | none => rfl
    | some ys => exact ih ys

theorem shellLoop_map : ∀ (fuel inc : Nat) (xs : List α), shellLoop fuel inc (xs.map f) = (shellLoop fuel inc xs).map (List.map f) := by
  intro fuel
  induction fuel with
  | zero =>
    intro inc xs
    rw [shellLoop, shellLoop]
    by_cases h : 1 < inc
    · rw [if_pos h, if_pos h]; rfl
    · rw [if_neg h, if_neg h]; rfl
  | succ fuel ih =>
    intro inc xs
    rw [shellLoop, shellLoop]
    by_cases h : 1 < inc
    · rw [if_pos h, if_pos h, shellPass_map hf]
      cases shellPass (inc / 3) xs with
      | none => rfl
      | some ys => exact ih _ ys
    · rw [if_neg h, if_neg h]; rfl

theorem shell_map (xs : List α) : shell (xs.map f) = (shell xs).map (List.map f) := by
  unfold shell
  rw [List.length_map]
  by_cases h : xs.length = 1
  · rw [if_pos h, if_pos h]; rfl
  · rw [if_neg h, if_neg h]
    exact shellLoop_map hf _ _ xs

theorem scanUp_map (mid : α) (xs : List α) : ∀ fuel lo, scanUp (f mid) (xs.map f) fuel lo = scanUp mid xs fuel lo := by
  intro fuel
  induction fuel with
  | zero => intro lo; rfl
  | succ fuel ih =>
    intro lo
    rw [scanUp, scanUp, List.getElem?_map]
    cases hx : xs[lo]? with
    | none => rfl
    | some v => simp only [Option.map_some, Option.bind_eq_bind, Option.bind_some, hf, ih]

theorem scanDown_map (mid : α) (xs : List α) : ∀ hi, scanDown (f mid) (xs.map f) hi = scanDown mid xs hi := by
  intro hi
  induction hi with
  | zero =>
    rw [scanDown, scanDown, List.getElem?_map]
    cases hx : xs[0]? with
    | none => rfl
    | some v => simp only [Option.map_some, Option.bind_eq_bind, Option.bind_some, hf]
  | succ hi ih =>
    rw [scanDown, scanDown, List.getElem?_map]
    cases hx : xs[hi + 1]? with
    | none => rfl
    | some v => simp only [Option.map_some, Option.bind_eq_bind, Option.bind_some, hf, ih]

theorem partLoop_map (mid : α) : ∀ (fuel : Nat) (xs : List α) (lo hi : Nat), partLoop (f mid) fuel (xs.map f) lo hi = (partLoop mid fuel xs lo hi).map fun r => (r.1.map f, r.2) := by
  intro fuel
  induction fuel with
  | zero => intro xs lo hi; rfl
  | succ fuel ih =>
    intro xs lo hi
    rw [partLoop, partLoop]
    by_cases h : hi = 0
    · rw [if_pos h, if_pos h]; rfl
    rw [if_neg h, if_neg h, scanUp_map hf, scanDown_map hf, List.length_map]
    cases scanUp mid xs (xs.length + 1) (lo + 1) with
    | none => rfl
    | some lo' =>
      simp only [Option.bind_eq_bind, Option.bind_some]
      cases scanDown mid xs (hi - 1) with
      | none => rfl
      | some hi' =>
        simp only [Option.bind_some]
        by_cases h2 : hi' < lo'
        · rw [if_pos h2, if_pos h2]; rfl
        · rw [if_neg h2, if_neg h2, swapAt_map]
          cases swapAt xs lo' hi' with
          | none => rfl
          | some ys => exact ih ys lo' hi'

theorem partition_map (xs : List α) : partition (xs.map f) = (partition xs).map fun r => (r.1.map f, r.2) := by
  unfold partition
  simp only [List.length_map, List.getElem?_map]
  cases xs[0]? with
  | none => rfl
  | some x =>
    cases xs[xs.length / 2]? with
    | none => rfl
    | some y =>
      cases xs[xs.length - 1]? with
      | none => rfl
      | some z =>
        simp only [Option.map_some, Option.bind_eq_bind, Option.bind_some, sort3_map hf]
        rw [← List.map_set, ← List.map_set, ← List.map_set, swapAt_map]
        cases swapAt (((xs.set 0 (sort3 x y z).2.2).set (xs.length / 2) (sort3 x y z).2.1).set (xs.length - 1) (sort3 x y z).1) 1 (xs.length / 2) with
        | none => rfl
        | some xs2 =>
          simp only [Option.map_some, Option.bind_some]
          rw [partLoop_map hf]
          cases partLoop (sort3 x y z).2.1 xs.length xs2 1 (xs.length - 1) with
          | none => rfl
          | some r =>
            simp only [Option.map_some, Option.bind_some]
            rw [swapAt_map]
            cases swapAt r.1 1 r.2 with
            | none => rfl
            | some ys => rfl

theorem quickFuel_map : ∀ (fuel : Nat) (xs : List α), quickFuel fuel (xs.map f) = (quickFuel fuel xs).map (List.map f) := by
  intro fuel
  induction fuel with
  | zero => intro xs; rfl
  | succ fuel ih =>
    intro xs
    rw [quickFuel, quickFuel, List.length_map]
    by_cases h : xs.length < manualLen
    · rw [if_pos h, if_pos h, shell_map hf]
    rw [if_neg h, if_neg h, partition_map hf]
    cases partition xs with
    | none => rfl
    | some r =>
      simp only [Option.map_some, Option.bind_eq_bind, Option.bind_some]
      rw [← List.map_take, ← List.map_drop, ih, ih]
      cases quickFuel fuel (r.1.take r.2) with
      | none => rfl
      | some a =>
        simp only [Option.map_some, Option.bind_some]
        cases quickFuel fuel (r.1.drop r.2) with
        | none => rfl
        | some b => simp

theorem quick_map (xs : List α) : quick (xs.map f) = (quick xs).map (List.map f) := by
  unfold quick
  rw [List.length_map]
  exact quickFuel_map hf _ xs

theorem nthLargestFuel_map : ∀ (fuel : Nat) (xs : List α) (n : Int), nthLargestFuel fuel (xs.map f) n = (nthLargestFuel fuel xs n).map f := by
  intro fuel
  induction fuel with
  | zero => intro xs n; rfl
  | succ fuel ih =>
    intro xs n
    match xs with
    | [] => rfl
    | [x] => rfl
    | [x, y] =>
      simp only [List.map_cons, List.map_nil, nthLargestFuel, hf]
      by_cases h : y < x <;> by_cases h2 : n = 2 <;> by_cases h1 : n = 1 <;> simp [h, h1, h2]
    | [x, y, z] =>
      simp only [List.map_cons, List.map_nil, nthLargestFuel, sort3_map hf]
      by_cases h1 : n = 1 <;> by_cases h2 : n = 2 <;> by_cases h3 : n = 3 <;> simp [h1, h2, h3]
    | a :: b :: c :: d :: l =>
      have hp := partition_map hf (a :: b :: c :: d :: l)
      simp only [List.map_cons] at hp
      simp only [List.map_cons, nthLargestFuel]
      rw [hp]
      cases partition (a :: b :: c :: d :: l) with
      | none => rfl
      | some r =>
        simp only [Option.map_some, Option.bind_eq_bind, Option.bind_some, List.length_map]
        by_cases h1 : (r.1.length : Int) - r.2 > n
        · rw [if_pos h1, if_pos h1, ← List.map_drop, ih]
        · rw [if_neg h1, if_neg h1]
          by_cases h2 : (r.1.length : Int) - r.2 < n
          · rw [if_pos h2, if_pos h2, ← List.map_take, ih]
          · rw [if_neg h2, if_neg h2, List.getElem?_map]

end Shellfish.Sort.Any
