/-
C107: math/sort on any float64 values: NaN, infinities, both zeros.
-/
import Verif.Lemmas.SortAny
import Verif.Props.Sort

namespace Shellfish.Sort
open Shellfish.Sort.Any

/-! ### Specification -/

/-- A float64 that is not NaN: its value (a number or an infinity) and its sign bit.  The two zeros have the same value. -/
structure Num (α : Type) where
  v : α
  neg : Bool
deriving DecidableEq

/-- A float64. -/
inductive F (α : Type) where
  | nan
  | num (x : Num α)
deriving DecidableEq

variable {α : Type} [LinearOrder α]

instance : LT (Num α) := ⟨fun a b => a.v < b.v⟩
instance : DecidableLT (Num α) := fun a b => inferInstanceAs (Decidable (a.v < b.v))

/-- IEEE 754: a comparison with NaN is false, and the zeros are equal. -/
def F.less : F α → F α → Prop
  | .num a, .num b => a < b
  | _, _ => False

instance : LT (F α) := ⟨F.less⟩
instance : DecidableLT (F α) := fun a b => match a, b with
  | .num a, .num b => inferInstanceAs (Decidable (a < b))
  | .nan, _ => inferInstanceAs (Decidable False)
  | .num _, .nan => inferInstanceAs (Decidable False)

/-- The value of a float64 that is not NaN. -/
def F.val : F α → Option α
  | .nan => none
  | .num x => some x.v

theorem F.asymm : ∀ a b : F α, a < b → ¬ b < a
  | .num a, .num b, h => fun h' => absurd (show a.v < b.v from h) (not_lt.mpr (le_of_lt (show b.v < a.v from h')))
  | .nan, _, h => h.elim
  | .num _, .nan, h => h.elim

/-! ### Theorems -/

/-- C107: whatever is in a slice, `Quick` and `Shell` come to an end without a panic and keep exactly the values. -/
theorem C107_keeps (xs : List (F α)) : (∃ ys, quick xs = some ys ∧ ys.Perm xs) ∧ ∃ ys, shell xs = some ys ∧ ys.Perm xs :=
  ⟨Any.quickFuel_spec F.asymm _ xs (by omega), Any.shell_spec xs⟩

theorem nums_of {xs : List (F α)} (h : ∀ x ∈ xs, x ≠ .nan) : ∃ ns : List (Num α), xs = ns.map F.num := by
  induction xs with
  | nil => exact ⟨[], rfl⟩
  | cons x xs ih =>
    obtain ⟨ns, rfl⟩ := ih fun y hy => h y (List.mem_cons_of_mem _ hy)
    cases x with
    | nan => exact absurd rfl (h _ List.mem_cons_self)
    | num n => exact ⟨n :: ns, rfl⟩

theorem num_lt (a b : Num α) : F.num a < F.num b ↔ a < b := Iff.rfl
theorem v_lt (a b : Num α) : a.v < b.v ↔ a < b := Iff.rfl

theorem vals_eq (ns : List (Num α)) : (ns.map F.num).map F.val = (ns.map Num.v).map some := by
  rw [List.map_map, List.map_map]; rfl

/-- C107: a slice without NaN is sorted by `Quick` and by `Shell`: the values ascend (infinities and both zeros included), and the two results have the same values in the same places. -/
theorem C107_sorted (xs : List (F α)) (h : ∀ x ∈ xs, x ≠ .nan) :
    ∃ (ys zs : List (F α)) (vs : List α), quick xs = some ys ∧ shell xs = some zs ∧ ys.Perm xs ∧ zs.Perm xs ∧ ys.map F.val = vs.map some ∧ zs.map F.val = vs.map some ∧ vs.Pairwise (· ≤ ·) := by
  obtain ⟨ns, rfl⟩ := nums_of h
  obtain ⟨⟨ys, hy, py⟩, zs, hz, pz⟩ := C107_keeps (ns.map F.num)
  obtain ⟨vs, hv, -, sv⟩ := C01_quick_sorts (ns.map Num.v)
  have hv' : shell (ns.map Num.v) = some vs := by rw [← C01_quick_eq_shell]; exact hv
  refine ⟨ys, zs, vs, hy, hz, py, pz, ?_, ?_, sv⟩
  · rw [quick_map num_lt] at hy
    rw [quick_map v_lt] at hv
    cases hq : quick ns with
    | none => rw [hq] at hy; exact (nomatch hy)
    | some ms =>
      rw [hq] at hy hv
      cases hy; cases hv
      exact vals_eq ms
  · rw [shell_map num_lt] at hz
    rw [shell_map v_lt] at hv'
    cases hq : shell ns with
    | none => rw [hq] at hz; exact (nomatch hz)
    | some ms =>
      rw [hq] at hz hv'
      cases hz; cases hv'
      exact vals_eq ms

/-- C107: `NthLargest`, `Median` and `Percentile` return one of the values, whatever is in the slice. -/
theorem C107_member (xs : List (F α)) (buf : Option (List (F α))) (hb : ∀ b, buf = some b → b.length = xs.length) :
    (∀ n : Int, 1 ≤ n → n ≤ xs.length → ∃ r ∈ xs, nthLargest xs n buf = some r) ∧ (xs ≠ [] → ∃ r ∈ xs, median xs buf = some r) ∧
      ∀ pn pd, 0 < pd → pn ≤ pd → xs ≠ [] → ∃ r ∈ xs, percentile xs pn pd buf = some r := by
  have key : ∀ n : Int, 1 ≤ n → n ≤ xs.length → ∃ r ∈ xs, nthLargest xs n buf = some r := by
    intro n h1 h2
    obtain ⟨r, hr, hm⟩ := Any.nthLargestFuel_spec F.asymm (xs.length + 1) xs n (by omega) h1 h2
    refine ⟨r, hm, ?_⟩
    unfold nthLargest
    rw [if_neg (by omega)]
    cases buf with
    | none => exact hr
    | some b => dsimp only; rw [if_neg (by simp [hb b rfl])]; exact hr
  refine ⟨key, fun hne => ?_, fun pn pd hd hp hne => ?_⟩
  · have hl := List.length_pos_iff.mpr hne
    unfold median
    rw [if_neg (by omega)]
    by_cases h1 : xs.length = 1
    · obtain ⟨x, rfl⟩ := List.length_eq_one_iff.mp h1
      refine ⟨x, by simp, ?_⟩
      cases buf with
      | none => rfl
      | some b =>
        unfold nthLargest
        rw [if_neg (by simp)]
        dsimp only
        rw [if_neg (by simp [hb b rfl])]
        rfl
    · exact key _ (by omega) (by omega)
  · have hl := List.length_pos_iff.mpr hne
    unfold percentile
    rw [if_neg (by omega), if_neg (by omega)]
    have hle : pn * xs.length / pd ≤ xs.length := Nat.div_le_of_le_mul (Nat.mul_le_mul_right _ hp)
    dsimp only
    by_cases h0 : pn * xs.length / pd = 0
    · rw [if_pos h0, h0]; exact key _ (by omega) (by omega)
    · rw [if_neg h0]
      refine key _ ?_ ?_
      · have := Nat.pos_of_ne_zero h0; exact_mod_cast this
      · exact_mod_cast hle

/-- C107: without NaN, the value that `NthLargest` returns has exactly the rank that was asked for, by value: fewer than `n` values are larger, and at least `n` are as large. -/
theorem C107_rank (xs : List (F α)) (h : ∀ x ∈ xs, x ≠ .nan) (n : Int) (h1 : 1 ≤ n) (h2 : n ≤ xs.length) :
    ∃ r ∈ xs, nthLargest xs n none = some r ∧ ((xs.filter (fun x => r < x)).length : Int) < n ∧ n ≤ ((xs.filter (fun x => ¬ x < r)).length : Int) := by
  obtain ⟨r, hm, hr⟩ := (C107_member xs none (fun _ h => (nomatch h))).1 n h1 h2
  refine ⟨r, hm, hr, ?_⟩
  obtain ⟨ns, rfl⟩ := nums_of h
  have hl : 0 < (ns.map F.num).length := by omega
  rw [List.length_map] at hl h2
  have e1 : nthLargest (ns.map F.num) n none = (nthLargestFuel (ns.length + 1) ns n).map F.num := by
    unfold nthLargest
    rw [if_neg (by rw [List.length_map]; omega), List.length_map]
    exact nthLargestFuel_map num_lt _ _ _
  have e2 : nthLargest (ns.map Num.v) n none = (nthLargestFuel (ns.length + 1) ns n).map Num.v := by
    unfold nthLargest
    rw [if_neg (by rw [List.length_map]; omega), List.length_map]
    exact nthLargestFuel_map v_lt _ _ _
  obtain ⟨s, hs, -, c1, c2⟩ := C02_nthLargest (ns.map Num.v) n none h1 (by rw [List.length_map]; omega) (fun _ h => (nomatch h))
  rw [e1] at hr
  rw [e2] at hs
  cases hq : nthLargestFuel (ns.length + 1) ns n with
  | none => rw [hq] at hr; exact (nomatch hr)
  | some x =>
    rw [hq] at hr hs
    cases hr; cases hs
    rw [List.filter_map, List.length_map] at c1 c2 ⊢
    rw [List.filter_map, List.length_map]
    refine ⟨c1, ?_⟩
    have : ((fun y : F α => decide (¬ y < F.num x)) ∘ F.num) = ((fun y => decide (x.v ≤ y)) ∘ Num.v) := by
      funext y
      simp only [Function.comp]
      exact decide_eq_decide.mpr (show ¬ y.v < x.v ↔ x.v ≤ y.v from not_lt)
    rw [this]
    exact c2

/-- C107 is false of the other values when there is a NaN: `Quick` and `Shell` leave two values in descending order on the two sides of a NaN, and the largest value is then not found: `NthLargest(xs, 1)` is the smaller one. -/
theorem C107_nan_false (big small : Num α) (h : small < big) :
    quick [F.num big, .nan, F.num small] = some [F.num big, .nan, F.num small] ∧ shell [F.num big, .nan, F.num small] = some [F.num big, .nan, F.num small] ∧
      nthLargest [F.num big, .nan, F.num small] 1 none = some (.num small) ∧ F.num small < F.num big := by
  have n1 : ∀ x : F α, ¬ F.nan < x := fun x => by cases x <;> exact id
  have n2 : ∀ x : F α, ¬ x < F.nan := fun x => by cases x <;> exact id
  have hs : shell [F.num big, .nan, F.num small] = some [F.num big, .nan, F.num small] := by
    simp [shell, shellIncStart, shellLoop, shellPass, List.range', shellInsert, shellInner, n1, n2]
  refine ⟨?_, hs, ?_, h⟩
  · unfold quick
    rw [List.length_cons, quickFuel, if_pos (by simp [manualLen])]
    exact hs
  · simp [nthLargest, nthLargestFuel, sort3, n1, n2]

/-! ### Examples -/

/-- both zeros and an infinity (the largest element of the order) -/
example : quick [F.num ⟨(3 : Int), false⟩, .num ⟨0, false⟩, .num ⟨0, true⟩, .num ⟨-2, true⟩] = some [.num ⟨-2, true⟩, .num ⟨0, false⟩, .num ⟨0, true⟩, .num ⟨3, false⟩] := by decide
/-- a long slice with NaN is partitioned and keeps its values -/
example : ∃ ys, quick ((List.range 30).map fun i => if i % 7 = 3 then F.nan else F.num ⟨(i * 7 + 3) % 11, false⟩) = some ys ∧ ys.length = 30 ∧ ys.count .nan = 4 := by
  obtain ⟨⟨ys, h, p⟩, -⟩ := C107_keeps ((List.range 30).map fun i => if i % 7 = 3 then F.nan else F.num ⟨(i * 7 + 3) % 11, false⟩)
  exact ⟨ys, h, by rw [p.length_eq]; simp, by rw [p.count_eq]; decide⟩
example : (⟨1, false⟩ : Num Int) < ⟨2, false⟩ := by decide
example : ∀ x ∈ [F.num ⟨(3 : Int), false⟩, .num ⟨0, false⟩, .num ⟨0, true⟩], x ≠ F.nan := by decide

end Shellfish.Sort
