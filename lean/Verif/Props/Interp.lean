/-
C42: linear, bilinear and trilinear interpolation.
-/
import Verif.Model.Interp
import Mathlib.Tactic.Linarith
import Mathlib.Tactic.Positivity
import Mathlib.Tactic.FieldSimp
import Mathlib.Tactic.Ring
import Mathlib.Tactic.NormNum
import Mathlib.Data.Rat.Floor
import Mathlib.Data.List.GetD

namespace Shellfish.Interp

variable {K : Type} [Field K] [LinearOrder K] [FloorRing K] [IsStrictOrderedRing K]

/-- `x` lies between `a` and `b`, in the direction of the table. -/
def Between (incr : Bool) (a b x : K) : Prop := if incr then a ≤ x ∧ x ≤ b else b ≤ x ∧ x ≤ a

omit [FloorRing K] [IsStrictOrderedRing K] in
theorem binSearch_spec (xs : List K) (incr : Bool) (x : K) (lo hi : Nat) (h : lo < hi) (hb : Between incr (xs.getD lo 0) (xs.getD hi 0) x) :
    lo ≤ binSearch xs incr x lo hi ∧ binSearch xs incr x lo hi + 1 ≤ hi ∧
      Between incr (xs.getD (binSearch xs incr x lo hi) 0) (xs.getD (binSearch xs incr x lo hi + 1) 0) x := by
  induction k : hi - lo using Nat.strong_induction_on generalizing lo hi with
  | _ k ih =>
    rw [binSearch]
    by_cases hd : hi - lo > 1
    · rw [if_pos hd]
      by_cases hm : incr = decide (x ≥ xs.getD ((lo + hi) / 2) 0)
      · rw [if_pos hm]
        have := ih (hi - (lo + hi) / 2) (by omega) ((lo + hi) / 2) hi (by omega) (by
          unfold Between at *
          cases incr
          · simp only [Bool.false_eq_true, if_false] at hb ⊢
            have := of_decide_eq_false hm.symm
            exact ⟨hb.1, le_of_lt (not_le.mp this)⟩
          · simp only [if_true] at hb ⊢
            exact ⟨of_decide_eq_true hm.symm, hb.2⟩) rfl
        exact ⟨by omega, this.2⟩
      · rw [if_neg hm]
        have := ih ((lo + hi) / 2 - lo) (by omega) lo ((lo + hi) / 2) (by omega) (by
          unfold Between at *
          cases incr
          · simp only [Bool.false_eq_true, if_false] at hb ⊢
            have : x ≥ xs.getD ((lo + hi) / 2) 0 := by by_contra hc; exact hm (decide_eq_false hc).symm
            exact ⟨this, hb.2⟩
          · simp only [if_true] at hb ⊢
            have : ¬ x ≥ xs.getD ((lo + hi) / 2) 0 := by intro hc; exact hm (decide_eq_true hc).symm
            exact ⟨hb.1, le_of_lt (not_le.mp this)⟩) rfl
        exact ⟨this.1, by omega, this.2.2⟩
    · rw [if_neg hd]
      have : hi = lo + 1 := by omega
      subst this
      exact ⟨le_refl _, le_refl _, hb⟩

omit [IsStrictOrderedRing K] in
/-- The search of a table finds an interval of the table with `x` in it, whatever the table is. -/
theorem tableSearch_spec (xs : List K) (dx : K) (incr : Bool) (x : K) (h : 2 ≤ xs.length) (hb : Between incr (xs.getD 0 0) (xs.getD (xs.length - 1) 0) x) :
    tableSearch xs dx incr x + 1 < xs.length ∧
      Between incr (xs.getD (tableSearch xs dx incr x) 0) (xs.getD (tableSearch xs dx incr x + 1) 0) x := by
  unfold tableSearch
  dsimp only
  split_ifs with hg
  · obtain ⟨h1, h2, h3, h4⟩ := hg
    refine ⟨by omega, ?_⟩
    unfold Between
    cases incr
    · simp only [Bool.false_eq_true, if_false]
      exact ⟨le_of_lt (not_le.mp (of_decide_eq_false h4)), le_of_lt (not_le.mp (of_decide_eq_false h3))⟩
    · simp only [if_true]
      exact ⟨of_decide_eq_true h3, of_decide_eq_true h4⟩
  · have := binSearch_spec xs incr x 0 (xs.length - 1) (by omega) hb
    exact ⟨by omega, this.2.2⟩

/-- What the interpolators need from a searcher: it finds an interval of the grid `X` with the point in it, panics outside of the grid and knows the grid points. -/
structure Good (s : Searcher K) (X : Nat → K) (n : Nat) : Prop where
  two : 2 ≤ n
  mono : ∀ i j, i < j → j < n → X i < X j
  found : ∀ x, X 0 ≤ x → x ≤ X (n - 1) → ∃ j : Nat, j + 1 < n ∧ s.search x = some (j : Int) ∧ X j ≤ x ∧ x ≤ X (j + 1)
  outside : ∀ x, x < X 0 ∨ X (n - 1) < x → s.search x = none
  val : ∀ i : Nat, i < n → s.val (i : Int) = some (X i)
  len : s.n = n

omit [Field K] [FloorRing K] [IsStrictOrderedRing K] in
theorem getD_lt [Zero K] {xs : List K} (h : xs.Pairwise (· < ·)) {i j : Nat} (hij : i < j) (hj : j < xs.length) : xs.getD i 0 < xs.getD j 0 := by
  rw [List.getD_eq_getElem _ _ (by omega), List.getD_eq_getElem _ _ hj]
  exact List.pairwise_iff_getElem.mp h i j (by omega) hj hij

theorem good_init {xs : List K} (h : xs.Pairwise (· < ·)) (h2 : 2 ≤ xs.length) : ∃ s, Searcher.init xs = some s ∧ Good s (fun i => xs.getD i 0) xs.length := by
  have hh : xs.head? = some (xs.getD 0 0) := by
    rw [List.head?_eq_getElem?, List.getElem?_eq_getElem (by omega), List.getD_eq_getElem _ _ (by omega)]
  have hl : xs.getLast? = some (xs.getD (xs.length - 1) 0) := by
    rw [List.getLast?_eq_getElem?, List.getElem?_eq_getElem (by omega), List.getD_eq_getElem _ _ (by omega)]
  unfold Searcher.init
  rw [hh, hl]
  refine ⟨_, rfl, ?_⟩
  have hlt : xs.getD 0 0 < xs.getD (xs.length - 1) 0 := getD_lt h (by omega) (by omega)
  have hn : (0 : K) < (xs.length : K) - 1 := by
    have : (2 : K) ≤ (xs.length : K) := by exact_mod_cast h2
    linarith
  have hdx : (xs.getD (xs.length - 1) 0 - xs.getD 0 0) / ((xs.length : K) - 1) > 0 := div_pos (by linarith) hn
  refine ⟨h2, fun i j hij hj => getD_lt h hij hj, fun x h0 h1 => ?_, fun x hx => ?_, fun i hi => ?_, rfl⟩
  · refine ⟨tableSearch xs ((xs.getD (xs.length - 1) 0 - xs.getD 0 0) / ((xs.length : K) - 1)) true x, ?_⟩
    have := tableSearch_spec xs ((xs.getD (xs.length - 1) 0 - xs.getD 0 0) / ((xs.length : K) - 1)) true x h2 (by unfold Between; simpa using ⟨h0, h1⟩)
    refine ⟨this.1, ?_, ?_⟩
    · unfold Searcher.search
      dsimp only
      rw [if_neg (by rintro (h' | h') <;> linarith), if_neg (by simp), decide_eq_true hdx]
    · have h2 := this.2
      unfold Between at h2
      simpa using h2
  · unfold Searcher.search
    dsimp only
    rw [if_pos (by rcases hx with hx | hx <;> [right; left] <;> exact hx)]
  · unfold Searcher.val getI
    dsimp only
    rw [if_neg (by simp), if_neg (by omega)]
    rw [Int.toNat_natCast, List.getElem?_eq_getElem hi, List.getD_eq_getElem _ _ hi]

theorem good_unif {x0 dx : K} {n : Nat} (hdx : 0 < dx) (h2 : 2 ≤ n) : Good (Searcher.unifInit x0 dx (n : Int)) (fun i => (i : K) * dx + x0) n := by
  have hcast : ((n - 1 : Nat) : K) = ((n : Int) : K) - 1 := by
    rw [Nat.cast_sub (by omega)]; simp
  refine ⟨h2, fun i j hij hj => ?_, fun x h0 h1 => ?_, fun x hx => ?_, fun i hi => ?_, rfl⟩
  · have : (i : K) < (j : K) := by exact_mod_cast hij
    have := mul_lt_mul_of_pos_right this hdx
    linarith
  · rw [hcast] at h1
    simp only [Nat.cast_zero, zero_mul, zero_add] at h0
    have hq : 0 ≤ (x - x0) / dx := div_nonneg (by linarith) hdx.le
    have hf : intDiv (x - x0) dx = ⌊(x - x0) / dx⌋ := by unfold intDiv; rw [if_neg hdx.ne', if_pos hq]
    have hfl := Int.floor_le ((x - x0) / dx)
    have hlt := Int.lt_floor_add_one ((x - x0) / dx)
    have hf0 : 0 ≤ ⌊(x - x0) / dx⌋ := Int.floor_nonneg.mpr hq
    have hfn : ⌊(x - x0) / dx⌋ ≤ (n : Int) - 1 := by
      have h1' : (x - x0) / dx ≤ (((n : Int) - 1 : Int) : K) := by
        rw [div_le_iff₀ hdx]; push_cast; push_cast at h1; linarith
      have : ((⌊(x - x0) / dx⌋ : Int) : K) ≤ (((n : Int) - 1 : Int) : K) := le_trans hfl h1'
      exact_mod_cast this
    have hs : ∀ j : Int, (if intDiv (x - x0) dx = (n : Int) - 1 then intDiv (x - x0) dx - 1 else intDiv (x - x0) dx) = j →
        (Searcher.unifInit x0 dx (n : Int)).search x = some j := by
      intro j hj
      unfold Searcher.search Searcher.unifInit
      dsimp only
      rw [if_neg (by rintro (h' | h') <;> linarith), if_pos rfl, hj]
    rw [hf] at hs
    rw [le_div_iff₀ hdx] at hfl
    rw [div_lt_iff₀ hdx] at hlt
    generalize hk : ⌊(x - x0) / dx⌋ = k at *
    by_cases hkn : k = (n : Int) - 1
    · refine ⟨n - 2, by omega, hs _ (by rw [if_pos hkn]; omega), ?_, ?_⟩
      · have : ((n - 2 : Nat) : K) ≤ (k : K) := by
          have : ((n - 2 : Nat) : Int) ≤ k := by omega
          exact_mod_cast this
        have := mul_le_mul_of_nonneg_right this hdx.le
        linarith
      · have : ((n - 2 + 1 : Nat) : K) = ((n : Int) : K) - 1 := by rw [← hcast]; congr 1; omega
        rw [this]; exact h1
    · refine ⟨k.toNat, by omega, hs _ (by rw [if_neg hkn]; omega), ?_, ?_⟩
      all_goals
        have hc : ((k.toNat : Nat) : K) = (k : K) := by
          have : ((k.toNat : Nat) : Int) = k := by omega
          exact_mod_cast congrArg (Int.cast : Int → K) this
        try push_cast
        rw [hc]
        linarith
  · rw [hcast] at hx
    unfold Searcher.search Searcher.unifInit
    dsimp only
    rw [if_pos]
    rcases hx with hx | hx
    · right; simpa using hx
    · left; simpa using hx
  · unfold Searcher.val Searcher.unifInit
    dsimp only
    rw [if_pos rfl]
    simp

/-! The interpolated value -/

/-- Specification: the value at `x` of the straight line through `(X i, v i)` and `(X (i+1), v (i+1))`. -/
def segment (X v : Nat → K) (i : Nat) (x : K) : K := v i + (v (i + 1) - v i) * ((x - X i) / (X (i + 1) - X i))

omit [FloorRing K] [IsStrictOrderedRing K] [LinearOrder K] in
theorem segment_left (X v : Nat → K) (i : Nat) : segment X v i (X i) = v i := by unfold segment; simp

omit [FloorRing K] [IsStrictOrderedRing K] in
theorem segment_right (X v : Nat → K) (i : Nat) (h : X i < X (i + 1)) : segment X v i (X (i + 1)) = v (i + 1) := by
  unfold segment
  rw [div_self (sub_ne_zero.mpr h.ne')]; ring

omit [FloorRing K] [IsStrictOrderedRing K] in
/-- The line does not depend on the interval that is chosen when `x` is a grid point. -/
theorem segment_unique {X : Nat → K} {n : Nat} (mono : ∀ i j, i < j → j < n → X i < X j) (v : Nat → K) {i j : Nat} {x : K} (hi : i + 1 < n) (hj : j + 1 < n)
    (h1 : X i ≤ x) (h2 : x ≤ X (i + 1)) (h3 : X j ≤ x) (h4 : x ≤ X (j + 1)) : segment X v i x = segment X v j x := by
  have key : ∀ a b, a < b → b + 1 < n → X b ≤ x → x ≤ X (a + 1) → a + 1 < n → segment X v a x = segment X v b x := by
    intro a b hab hb hxb hxa ha
    have heq : b = a + 1 := by
      by_contra hne
      have := mono (a + 1) b (by omega) (by omega)
      exact absurd (le_trans hxb hxa) (not_le.mpr this)
    subst heq
    have : x = X (a + 1) := le_antisymm hxa hxb
    subst this
    rw [segment_left, segment_right _ _ _ (mono _ _ (by omega) ha)]
  rcases lt_trichotomy i j with h | h | h
  · exact key i j h hj h3 h2 hi
  · rw [h]
  · exact (key j i h hi h1 h4 hj).symm

omit [FloorRing K] in
/-- The line stays between the values at its ends. -/
theorem segment_between (X v : Nat → K) (i : Nat) (x : K) (h : X i < X (i + 1)) (h1 : X i ≤ x) (h2 : x ≤ X (i + 1)) :
    min (v i) (v (i + 1)) ≤ segment X v i x ∧ segment X v i x ≤ max (v i) (v (i + 1)) := by
  unfold segment
  have ht0 : 0 ≤ (x - X i) / (X (i + 1) - X i) := div_nonneg (by linarith) (by linarith)
  have ht1 : (x - X i) / (X (i + 1) - X i) ≤ 1 := by rw [div_le_one (by linarith)]; linarith
  generalize (x - X i) / (X (i + 1) - X i) = t at *
  constructor
  · rcases le_total (v i) (v (i + 1)) with h | h
    · rw [min_eq_left h]; nlinarith
    · rw [min_eq_right h]; nlinarith
  · rcases le_total (v i) (v (i + 1)) with h | h
    · rw [max_eq_right h]; nlinarith
    · rw [max_eq_left h]; nlinarith

omit [IsStrictOrderedRing K] [LinearOrder K] [FloorRing K] in
theorem getI_nat (xs : List K) (i : Nat) (h : i < xs.length) : getI xs (i : Int) = some (xs.getD i 0) := by
  unfold getI
  rw [if_neg (by omega), Int.toNat_natCast, List.getElem?_eq_getElem h, List.getD_eq_getElem _ _ h]

omit [IsStrictOrderedRing K] in
theorem Linear.eval_good {s : Searcher K} {X : Nat → K} {vals : List K} (hg : Good s X vals.length) {i : Nat} {x : K} (hi : i + 1 < vals.length) (h1 : X i ≤ x) (h2 : x ≤ X (i + 1)) :
    Linear.eval ⟨s, vals⟩ x = some (segment X (fun j => vals.getD j 0) i x) := by
  have hle : ∀ a b, a ≤ b → b < vals.length → X a ≤ X b := fun a b hab hb => by
    rcases Nat.eq_or_lt_of_le hab with h | h
    · rw [h]
    · exact (hg.mono a b h hb).le
  obtain ⟨j, hj, hs, hj1, hj2⟩ := hg.found x (le_trans (hle 0 i (by omega) (by omega)) h1) (le_trans h2 (hle (i + 1) _ (by omega) (by omega)))
  unfold Linear.eval
  have e : ((j : Int) + 1) = ((j + 1 : Nat) : Int) := by push_cast; rfl
  simp only [hs, e, hg.val j (by omega), hg.val (j + 1) hj, getI_nat vals j (by omega), getI_nat vals (j + 1) hj, Option.bind_eq_bind, Option.bind_some]
  rw [segment_unique hg.mono (fun j => vals.getD j 0) hi hj h1 h2 hj1 hj2]
  unfold segment
  congr 1
  ring

/-- C42: for every strictly increasing table, `Linear.Eval` panics outside of the table, and in each interval of the table returns the value of the straight line through its ends. -/
theorem C42_linear (xs vals : List K) (hs : xs.Pairwise (· < ·)) (hl : xs.length = vals.length) (h2 : 2 ≤ xs.length) :
    ∃ lin, newLinear xs vals = some lin ∧
      (∀ (i : Nat) (x : K), i + 1 < xs.length → xs.getD i 0 ≤ x → x ≤ xs.getD (i + 1) 0 →
        lin.eval x = some (vals.getD i 0 + (vals.getD (i + 1) 0 - vals.getD i 0) * ((x - xs.getD i 0) / (xs.getD (i + 1) 0 - xs.getD i 0)))) ∧
      ∀ x, x < xs.getD 0 0 ∨ xs.getD (xs.length - 1) 0 < x → lin.eval x = none := by
  obtain ⟨s, hs', hg⟩ := good_init hs h2
  refine ⟨⟨s, vals⟩, by unfold newLinear; rw [if_neg (by simp [hl]), hs']; rfl, fun i x hi h1 h2 => ?_, fun x hx => ?_⟩
  · exact Linear.eval_good (hl ▸ hg) (hl ▸ hi) h1 h2
  · unfold Linear.eval
    dsimp only
    rw [hg.outside x hx]
    rfl

omit [FloorRing K] in
/-- Every point between the first and the last point of a table lies in one of its intervals. -/
theorem exists_interval {X : Nat → K} {x : K} : ∀ n, X 0 ≤ x → x ≤ X (n + 1) → ∃ i, i + 1 ≤ n + 1 ∧ X i ≤ x ∧ x ≤ X (i + 1)
  | 0, h0, h1 => ⟨0, le_refl _, h0, h1⟩
  | n + 1, h0, h1 => by
    rcases le_total x (X (n + 1)) with h | h
    · obtain ⟨i, hi, h⟩ := exists_interval n h0 h
      exact ⟨i, by omega, h⟩
    · exact ⟨n + 1, le_refl _, h, h1⟩

/-- C42: for every strictly increasing table and every point in its range, `Linear.Eval` returns a value between the values at the ends of an interval around the point; at a table point
it returns the tabulated value. -/
theorem C42_linear_between (xs vals : List K) (hs : xs.Pairwise (· < ·)) (hl : xs.length = vals.length) (h2 : 2 ≤ xs.length) :
    ∃ lin, newLinear xs vals = some lin ∧ (∀ i < xs.length, lin.eval (xs.getD i 0) = some (vals.getD i 0)) ∧
      ∀ x, xs.getD 0 0 ≤ x → x ≤ xs.getD (xs.length - 1) 0 → ∃ i v, i + 1 < xs.length ∧ xs.getD i 0 ≤ x ∧ x ≤ xs.getD (i + 1) 0 ∧
        lin.eval x = some v ∧ min (vals.getD i 0) (vals.getD (i + 1) 0) ≤ v ∧ v ≤ max (vals.getD i 0) (vals.getD (i + 1) 0) := by
  obtain ⟨lin, hlin, hev, _⟩ := C42_linear xs vals hs hl h2
  refine ⟨lin, hlin, fun i hi => ?_, fun x h0 h1 => ?_⟩
  · by_cases hi' : i + 1 < xs.length
    · rw [hev i _ hi' (le_refl _) (getD_lt hs (by omega) hi').le]; simp
    · obtain ⟨k, rfl⟩ : ∃ k, i = k + 1 := ⟨i - 1, by omega⟩
      have hlt : xs.getD k 0 < xs.getD (k + 1) 0 := getD_lt hs (by omega) hi
      rw [hev k _ hi hlt.le (le_refl _), div_self (sub_ne_zero.mpr hlt.ne')]
      congr 1; ring
  · obtain ⟨i, hi, hx0, hx1⟩ := exists_interval (X := fun i => xs.getD i 0) (x := x) (xs.length - 2) h0 (by
      rw [show xs.length - 2 + 1 = xs.length - 1 by omega]; exact h1)
    exact ⟨i, _, by omega, hx0, hx1, hev i x (by omega) hx0 hx1,
      segment_between (fun i => xs.getD i 0) (fun i => vals.getD i 0) i x (getD_lt hs (by omega) (by omega)) hx0 hx1⟩

example : ∃ lin, newLinear (K := ℚ) [1, 2, 4] [10, 20, 0] = some lin ∧ lin.eval 3 = some 10 := by
  obtain ⟨lin, h, hev, _⟩ := C42_linear (K := ℚ) [1, 2, 4] [10, 20, 0] (by norm_num) (by decide) (by decide)
  refine ⟨lin, h, ?_⟩
  rw [hev 1 3 (by decide) (by norm_num) (by norm_num)]
  norm_num

/-- C42: the same for a uniform table with a positive step. -/
theorem C42_uniform_linear (x0 dx : K) (vals : List K) (hdx : 0 < dx) (h2 : 2 ≤ vals.length) :
    (∀ (i : Nat) (x : K), i + 1 < vals.length → x0 + i * dx ≤ x → x ≤ x0 + (i + 1) * dx →
      (newUniformLinear x0 dx vals).eval x = some (vals.getD i 0 + (vals.getD (i + 1) 0 - vals.getD i 0) * ((x - (x0 + i * dx)) / dx))) ∧
    ∀ x, x < x0 ∨ x0 + ((vals.length : K) - 1) * dx < x → (newUniformLinear x0 dx vals).eval x = none := by
  have hg := good_unif (x0 := x0) hdx h2
  refine ⟨fun i x hi h1 h2 => ?_, fun x hx => ?_⟩
  · have := Linear.eval_good hg hi (x := x) (by linarith) (by push_cast; linarith)
    unfold newUniformLinear
    rw [this]
    unfold segment
    dsimp only
    push_cast
    congr 4
    · ring
    · ring
  · unfold newUniformLinear Linear.eval
    dsimp only
    rw [hg.outside x]
    · rfl
    · rcases hx with hx | hx
      · left; simpa using hx
      · right
        rw [Nat.cast_sub (by omega)]
        push_cast
        linarith

example : (newUniformLinear (K := ℚ) 1 2 [10, 20, 0]).eval 4 = some 10 := by
  rw [(C42_uniform_linear (K := ℚ) 1 2 [10, 20, 0] (by norm_num) (by decide)).1 1 4 (by decide) (by norm_num) (by norm_num)]
  norm_num

/-- C42 is false for decreasing tables, which the documentation of `NewLinear` allows: `Eval` panics for every argument. -/
theorem C42_decreasing_false (xs vals : List K) (hs : xs.Pairwise (· > ·)) (hl : xs.length = vals.length) (h2 : 2 ≤ xs.length) :
    ∃ lin, newLinear xs vals = some lin ∧ ∀ x, lin.eval x = none := by
  have hh : xs.head? = some (xs.getD 0 0) := by
    rw [List.head?_eq_getElem?, List.getElem?_eq_getElem (by omega), List.getD_eq_getElem _ _ (by omega)]
  have hla : xs.getLast? = some (xs.getD (xs.length - 1) 0) := by
    rw [List.getLast?_eq_getElem?, List.getElem?_eq_getElem (by omega), List.getD_eq_getElem _ _ (by omega)]
  have hlt : xs.getD (xs.length - 1) 0 < xs.getD 0 0 := by
    rw [List.getD_eq_getElem _ _ (by omega), List.getD_eq_getElem _ _ (by omega)]
    exact List.pairwise_iff_getElem.mp hs 0 (xs.length - 1) (by omega) (by omega) (by omega)
  unfold newLinear Searcher.init
  rw [if_neg (by simp [hl]), hh, hla]
  refine ⟨_, rfl, fun x => ?_⟩
  unfold Linear.eval Searcher.search
  dsimp only
  rw [if_pos]
  · rfl
  · by_contra hc
    rw [not_or] at hc
    exact absurd hlt (not_lt.mpr (le_trans (not_lt.mp hc.2) (not_lt.mp hc.1)))

example : [3, 2, (1 : ℚ)].Pairwise (· > ·) := by norm_num

end Shellfish.Interp
