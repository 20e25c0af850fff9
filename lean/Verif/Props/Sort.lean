/-
Properties C01, C02, C03 (math/sort).  Specifications are stated with `List.Perm`, `List.Pairwise`
and element counts only.
-/
import Verif.Lemmas.Sort

namespace Shellfish.Sort

variable {α : Type} [LinearOrder α]

/-- C01: `Quick` never panics, terminates, and returns the ascending permutation of its input. -/
theorem C01_quick_sorts (xs : List α) :
    ∃ ys, quick xs = some ys ∧ ys.Perm xs ∧ ys.Pairwise (· ≤ ·) :=
  quickFuel_spec _ xs (by omega)

/-- C01: `Shell` never panics, terminates, and returns the ascending permutation of its input. -/
theorem C01_shell_sorts (xs : List α) :
    ∃ ys, shell xs = some ys ∧ ys.Perm xs ∧ ys.Pairwise (· ≤ ·) :=
  shell_spec xs

/-- C01: the two algorithms agree on every input. -/
theorem C01_quick_eq_shell (xs : List α) : quick xs = shell xs := by
  obtain ⟨ys, h1, p1, s1⟩ := C01_quick_sorts xs
  obtain ⟨zs, h2, p2, s2⟩ := C01_shell_sorts xs
  rw [h1, h2]
  congr 1
  exact (p1.trans p2.symm).eq_of_pairwise (le := (· ≤ ·)) (fun a b _ _ h h' => le_antisymm h h') s1 s2

/-- C01: `Reverse` reverses. -/
theorem C01_reverse (xs : List α) : reverse xs = some xs.reverse := reverse_spec xs

-- The unconditional statements above are exercised on concrete slices (more than 25 elements, with
-- duplicates, for the partition path).
example : shell [3, 1, 2, 2, (5 : Nat), 0] = some [0, 1, 2, 2, 3, 5] := by decide
example : quick ((List.range 30).map (fun i => (i * 7 + 3) % 11)) =
    some [0,0,1,1,1,2,2,2,3,3,3,4,4,5,5,5,6,6,6,7,7,8,8,8,9,9,9,10,10,10] := by decide +kernel

/-- C02: `NthLargest` for 1 ≤ n ≤ len(xs), with no buffer or any buffer of the right length: the
result is an element of `xs`, fewer than `n` elements exceed it and at least `n` elements are ≥ it. -/
theorem C02_nthLargest (xs : List α) (n : Int) (buf : Option (List α)) (h1 : 1 ≤ n) (h2 : n ≤ xs.length)
    (hb : ∀ b, buf = some b → b.length = xs.length) :
    ∃ r, nthLargest xs n buf = some r ∧ r ∈ xs ∧
      ((xs.filter (fun x => r < x)).length : Int) < n ∧
      n ≤ ((xs.filter (fun x => r ≤ x)).length : Int) := by
  obtain ⟨r, hr, h3, h4, h5⟩ := nthLargestFuel_spec (xs.length + 1) xs n (by omega) h1 h2
  refine ⟨r, ?_, h3, by rwa [← List.countP_eq_length_filter], by rwa [← List.countP_eq_length_filter]⟩
  unfold nthLargest
  rw [if_neg (by omega)]
  cases buf with
  | none => exact hr
  | some b => simp [hb b rfl, hr]

/-- C02, stated against the sorted slice: `NthLargest(xs, n)` is entry `len - n` of `Quick(xs)`. -/
theorem C02_nthLargest_eq_sorted (xs : List α) (n : Nat) (h1 : 1 ≤ n) (h2 : n ≤ xs.length) :
    ∃ ys, quick xs = some ys ∧ nthLargest xs n none = ys[xs.length - n]? := by
  obtain ⟨ys, hq, hp, hs⟩ := C01_quick_sorts xs
  refine ⟨ys, hq, ?_⟩
  obtain ⟨r, hr, hm, c1, c2⟩ := C02_nthLargest xs n none (by omega) (by omega) (by simp)
  rw [hr]
  have hlen := hp.length_eq
  have hlt : xs.length - n < ys.length := by omega
  rw [List.getElem?_eq_getElem hlt]
  congr 1
  rw [← List.countP_eq_length_filter, ← hp.countP_eq] at c1 c2
  have split : ∀ q : α → Bool, ys.countP q = (ys.take (xs.length - n)).countP q + (ys.drop (xs.length - n)).countP q := by
    intro q; conv_lhs => rw [← List.take_append_drop (xs.length - n) ys, List.countP_append]
  rw [List.pairwise_iff_getElem] at hs
  apply le_antisymm
  · by_contra hc
    -- all entries up to the index are < r
    have hlt' : ys[xs.length - n] < r := not_le.mp hc
    rw [split] at c2
    have e1 : (ys.take (xs.length - n)).countP (fun x => decide (r ≤ x)) = 0 := by
      rw [List.countP_eq_zero]
      intro a ha
      obtain ⟨i, hi, rfl⟩ := List.mem_iff_getElem.mp ha
      simp only [List.length_take] at hi
      have := hs i (xs.length - n) (by omega) hlt (by omega)
      simp only [List.getElem_take, decide_eq_true_eq]; order
    have e2 : (ys.drop (xs.length - n)).countP (fun x => decide (r ≤ x)) < n := by
      rw [List.drop_eq_getElem_cons hlt, List.countP_cons_of_neg (by simpa using hlt')]
      have := List.countP_le_length (p := fun x => decide (r ≤ x)) (l := ys.drop (xs.length - n + 1))
      simp only [List.length_drop] at this
      omega
    omega
  · by_contra hc
    have hlt' : r < ys[xs.length - n] := not_le.mp hc
    rw [split] at c1
    have e2 : (ys.drop (xs.length - n)).countP (fun x => decide (r < x)) = n := by
      have : (ys.drop (xs.length - n)).length = n := by simp; omega
      conv_rhs => rw [← this]
      rw [List.countP_eq_length]
      intro a ha
      obtain ⟨i, hi, rfl⟩ := List.mem_iff_getElem.mp ha
      simp only [List.length_drop] at hi
      simp only [List.getElem_drop, decide_eq_true_eq]
      by_cases h0 : i = 0
      · subst h0; exact hlt'
      · have := hs (xs.length - n) (xs.length - n + i) hlt (by omega) (by omega)
        order
    omega

example : nthLargest [5, 1, 4, 4, (2 : Nat), 9, 9] 3 (some [0,0,0,0,0,0,0]) = some 5 := by decide

/-- C02: an empty slice or a buffer of the wrong length is refused (panic). -/
theorem C02_nthLargest_refuses (xs : List α) (n : Int) (buf : Option (List α))
    (h : xs = [] ∨ ∃ b, buf = some b ∧ b.length ≠ xs.length) : nthLargest xs n buf = none := by
  unfold nthLargest
  rcases h with rfl | ⟨b, rfl, hb⟩
  · simp
  · simp [hb]

example : nthLargest [1, (2 : Nat)] 1 (some [0]) = none := by decide

/-- What a median must satisfy: at least half of the values on either side (counting ties). -/
def IsMedian (xs : List α) (r : α) : Prop :=
  r ∈ xs ∧ xs.length ≤ 2 * (xs.filter (fun x => r ≤ x)).length ∧
    xs.length ≤ 2 * (xs.filter (fun x => x ≤ r)).length

/-- C02 is false of `Median` for odd lengths: `Median([1,2,3])` returns 3 (median.go:32 asks for the
`len/2`-th largest, 1-indexed). -/
theorem C02_median_false : median [1, 2, (3 : Nat)] none = some 3 ∧ ¬ IsMedian [1, 2, (3 : Nat)] 3 := by
  refine ⟨by decide, ?_⟩
  rintro ⟨_, h, _⟩
  revert h; decide

/-- C02: what does hold: for even lengths `Median` is a median (the upper one).
Missing from the full property: odd lengths ≥ 3, where the result is one rank too high. -/
theorem C02_median_even_partial (xs : List α) (buf : Option (List α)) (k : Nat) (hk : 0 < k)
    (hlen : xs.length = 2 * k) (hb : ∀ b, buf = some b → b.length = xs.length) :
    ∃ r, median xs buf = some r ∧ IsMedian xs r := by
  obtain ⟨r, hr, hm, c1, c2⟩ := C02_nthLargest xs k buf (by omega) (by omega) hb
  refine ⟨r, ?_, hm, by omega, ?_⟩
  · unfold median; rw [if_neg (by omega), show xs.length / 2 = k by omega]; exact hr
  · have : xs.length = (xs.filter (fun x => r < x)).length + (xs.filter (fun x => x ≤ r)).length := by
      rw [← List.countP_eq_length_filter, ← List.countP_eq_length_filter, Nat.add_comm,
        List.length_eq_countP_add_countP (p := fun x => decide (x ≤ r))]
      congr 1
      apply List.countP_congr
      intro x _; simp
    omega

/-- C02: for every odd length ≥ 3 `Median` returns the element of rank (len-1)/2 from the top,
one above the middle. -/
theorem C02_median_odd_rank (xs : List α) (k : Nat) (hk : 0 < k) (hlen : xs.length = 2 * k + 1) :
    ∃ ys, quick xs = some ys ∧ median xs none = ys[k + 1]? := by
  obtain ⟨ys, h1, h2⟩ := C02_nthLargest_eq_sorted xs k hk (by omega)
  refine ⟨ys, h1, ?_⟩
  unfold median
  rw [if_neg (by omega), show xs.length / 2 = k by omega, h2]
  congr 1; omega

example : median [4, 1, 3, (2 : Nat)] none = some 3 := by decide
example : median [4, 1, 3, 2, (5 : Nat)] none = some 4 := by decide

/-- C03: the result of `Percentile(xs, pn/pd)` exactly: it is entry `len - max 1 ⌊p·len⌋` of the sorted
slice, i.e. percentiles are counted from the top. -/
theorem C03_percentile_rank (xs : List α) (pn pd : Nat) (_hd : 0 < pd) (hp : pn ≤ pd) (hx : 0 < xs.length) :
    ∃ ys, quick xs = some ys ∧
      percentile xs pn pd none = ys[xs.length - max 1 (pn * xs.length / pd)]? := by
  have hle : pn * xs.length / pd ≤ xs.length := by
    apply Nat.div_le_of_le_mul
    exact Nat.mul_le_mul_right _ hp
  obtain ⟨ys, h1, h2⟩ := C02_nthLargest_eq_sorted xs (max 1 (pn * xs.length / pd)) (by omega) (by omega)
  refine ⟨ys, h1, ?_⟩
  unfold percentile
  rw [if_neg (by omega), if_neg (by omega), ← h2]
  simp only
  generalize pn * xs.length / pd = m
  congr 2
  split <;> omega

/-- C03 is false: `Percentile(xs, 1)` is the minimum, not the maximum, for every non-empty slice. -/
theorem C03_percentile_false (xs : List α) (hx : 0 < xs.length) :
    ∃ r, percentile xs 1 1 none = some r ∧ r ∈ xs ∧ ∀ x ∈ xs, r ≤ x := by
  obtain ⟨ys, h1, h2⟩ := C03_percentile_rank xs 1 1 (by omega) (by omega) hx
  obtain ⟨zs, h3, hp, hs⟩ := C01_quick_sorts xs
  rw [h1] at h3; cases h3
  have hl := hp.length_eq
  have h0 : 0 < ys.length := by omega
  rw [show xs.length - max 1 (1 * xs.length / 1) = 0 by simp only [Nat.one_mul, Nat.div_one]; omega, List.getElem?_eq_getElem h0] at h2
  refine ⟨_, h2, hp.mem_iff.mp (List.getElem_mem _), ?_⟩
  intro x hx'
  obtain ⟨i, hi, rfl⟩ := List.mem_iff_getElem.mp (hp.mem_iff.mpr hx')
  rw [List.pairwise_iff_getElem] at hs
  by_cases hi0 : i = 0
  · subst hi0; exact le_rfl
  · exact hs 0 i h0 hi (by omega)

/-- C03: monotone non-increasing in `p` (the opposite of the documented sense). -/
theorem C03_percentile_antitone (xs : List α) (pn qn pd : Nat) (hd : 0 < pd) (hpq : pn ≤ qn) (hq : qn ≤ pd)
    (hx : 0 < xs.length) :
    ∃ a b, percentile xs pn pd none = some a ∧ percentile xs qn pd none = some b ∧ b ≤ a := by
  obtain ⟨ys, h1, h2⟩ := C03_percentile_rank xs pn pd hd (by omega) hx
  obtain ⟨ys', h1', h2'⟩ := C03_percentile_rank xs qn pd hd hq hx
  rw [h1] at h1'; cases h1'
  obtain ⟨zs, h3, hp, hs⟩ := C01_quick_sorts xs
  rw [h1] at h3; cases h3
  have hl := hp.length_eq
  have hmono : pn * xs.length / pd ≤ qn * xs.length / pd :=
    Nat.div_le_div_right (Nat.mul_le_mul_right _ hpq)
  have hle : qn * xs.length / pd ≤ xs.length := by
    apply Nat.div_le_of_le_mul
    exact Nat.mul_le_mul_right _ hq
  rw [List.getElem?_eq_getElem (by omega)] at h2 h2'
  refine ⟨_, _, h2, h2', ?_⟩
  rw [List.pairwise_iff_getElem] at hs
  by_cases he : xs.length - max 1 (qn * xs.length / pd) = xs.length - max 1 (pn * xs.length / pd)
  · simp only [he]; exact le_rfl
  · exact hs _ _ (by omega) (by omega) (by omega)

/-- C03, the part that holds: the median percentile p = 1/2 of an even-length slice is a median.
Missing: p other than 1/2 is counted from the wrong end. -/
theorem C03_percentile_half_partial (xs : List α) (k : Nat) (hk : 0 < k) (hlen : xs.length = 2 * k) :
    ∃ r, percentile xs 1 2 none = some r ∧ IsMedian xs r := by
  obtain ⟨r, h1, h2⟩ := C02_median_even_partial xs none k hk hlen (by simp)
  refine ⟨r, ?_, h2⟩
  rw [← h1]
  unfold percentile median
  rw [if_neg (by omega), if_neg (by omega), if_neg (by omega)]
  simp only [Nat.one_mul]
  rw [if_neg (by omega)]

example : percentile [10, 20, 30, (40 : Nat)] 1 1 none = some 10 ∧
    percentile [10, 20, 30, (40 : Nat)] 0 1 none = some 40 ∧
    percentile [10, 20, 30, (40 : Nat)] 1 2 none = some 30 := by decide

end Shellfish.Sort
