/-
Property C12 (enumeration of the snapshot files) and C53 (accepted configurations can be enumerated).
-/
import Verif.Model.Env
import Verif.Lemmas.Text
import Mathlib.Data.List.Forall2
import Mathlib.Data.List.Nodup
import Mathlib.Tactic.Ring
import Mathlib.Tactic.Linarith

namespace Shellfish.Env

open Shellfish.Text
open Shellfish.Catalog (Str Out)

/-! the mixed-radix enumeration -/

section
variable {α : Type}

/-- Entry `x` is admissible for a column in snapshot `snap`. -/
def Choice (snap : Nat) (c : List α × Bool) (x : α) : Prop := if c.2 then c.1[snap]? = some x else x ∈ c.1

def prodLen : List (List α × Bool) → Nat
  | [] => 1
  | (_, true) :: rest => prodLen rest
  | (c, false) :: rest => c.length * prodLen rest

def enumRow (snap : Nat) : List (List α × Bool) → Nat → Option (List α)
  | [], _ => some []
  | (c, true) :: rest, r => do
    let x ← c[snap]?
    let xs ← enumRow snap rest r
    some (x :: xs)
  | (c, false) :: rest, r => do
    let x ← c[r % c.length]?
    let xs ← enumRow snap rest (r / c.length)
    some (x :: xs)

theorem fillRow_eq (snap row : Nat) (cols : List (List α × Bool)) (div mod : Nat) :
    fillRow snap row cols div mod = enumRow snap cols (row / (div * mod)) := by
  induction cols generalizing div mod with
  | nil => rfl
  | cons c cols ih =>
    obtain ⟨c, a⟩ := c
    cases a
    · simp only [fillRow, enumRow, ih, Nat.div_div_eq_div_mul]
    · simp only [fillRow, enumRow, ih]

theorem enumRow_mem (snap : Nat) (cols : List (List α × Bool)) (xs : List α) :
    List.Forall₂ (Choice snap) cols xs ↔ ∃ r, r < prodLen cols ∧ enumRow snap cols r = some xs := by
  induction cols generalizing xs with
  | nil =>
    constructor
    · intro h; cases h; exact ⟨0, by simp [prodLen], rfl⟩
    · rintro ⟨r, _, h⟩; simp only [enumRow, Option.some.injEq] at h; subst h; exact .nil
  | cons c cols ih =>
    obtain ⟨c, a⟩ := c
    cases a
    · constructor
      · intro h
        obtain ⟨x, ys, h1, h2, rfl⟩ := List.forall₂_cons_left_iff.mp h
        obtain ⟨r, hr, he⟩ := (ih ys).mp h2
        simp only [Choice, Bool.false_eq_true, if_false] at h1
        obtain ⟨i, hi, rfl⟩ := List.getElem_of_mem h1
        refine ⟨i + c.length * r, ?_, ?_⟩
        · simp only [prodLen]
          calc i + c.length * r < c.length + c.length * r := by omega
            _ = c.length * (r + 1) := by ring
            _ ≤ c.length * prodLen cols := Nat.mul_le_mul_left _ hr
        · have hpos : 0 < c.length := by omega
          simp only [enumRow]
          rw [Nat.add_mul_mod_self_left, Nat.mod_eq_of_lt hi, Nat.add_mul_div_left _ _ hpos, Nat.div_eq_of_lt hi, Nat.zero_add, he,
            List.getElem?_eq_getElem hi]
          rfl
      · rintro ⟨r, hr, he⟩
        simp only [prodLen] at hr
        simp only [enumRow, Option.bind_eq_bind, Option.bind_eq_some_iff, Option.some.injEq] at he
        obtain ⟨x, hx, ys, hys, rfl⟩ := he
        refine .cons ?_ ((ih ys).mpr ⟨r / c.length, Nat.div_lt_of_lt_mul hr, hys⟩)
        simp only [Choice, Bool.false_eq_true, if_false]
        exact List.mem_of_getElem? hx
    · constructor
      · intro h
        obtain ⟨x, ys, h1, h2, rfl⟩ := List.forall₂_cons_left_iff.mp h
        obtain ⟨r, hr, he⟩ := (ih ys).mp h2
        simp only [Choice, if_true] at h1
        exact ⟨r, hr, by simp [enumRow, h1, he]⟩
      · rintro ⟨r, hr, he⟩
        simp only [enumRow, Option.bind_eq_bind, Option.bind_eq_some_iff, Option.some.injEq] at he
        obtain ⟨x, hx, ys, hys, rfl⟩ := he
        exact .cons (by simpa [Choice] using hx) ((ih ys).mpr ⟨r, hr, hys⟩)

theorem enumRow_inj (snap : Nat) (cols : List (List α × Bool)) (hnd : ∀ c ∈ cols, c.2 = false → c.1.Nodup) (r r' : Nat)
    (hr : r < prodLen cols) (hr' : r' < prodLen cols) (xs : List α) (h : enumRow snap cols r = some xs) (h' : enumRow snap cols r' = some xs) :
    r = r' := by
  induction cols generalizing r r' xs with
  | nil => simp [prodLen] at hr hr'; omega
  | cons c cols ih =>
    obtain ⟨c, a⟩ := c
    have hnd' : ∀ c ∈ cols, c.2 = false → c.1.Nodup := fun c hc => hnd c (by simp [hc])
    cases a
    · simp only [prodLen] at hr hr'
      simp only [enumRow, Option.bind_eq_bind, Option.bind_eq_some_iff, Option.some.injEq] at h h'
      obtain ⟨x, hx, ys, hys, rfl⟩ := h
      obtain ⟨x', hx', ys', hys', he⟩ := h'
      rw [List.cons.injEq] at he
      obtain ⟨rfl, rfl⟩ := he
      have hpos : 0 < c.length := by
        rcases Nat.eq_zero_or_pos c.length with h0 | h0
        · rw [h0] at hr; omega
        · exact h0
      have e1 : r / c.length = r' / c.length :=
        ih hnd' _ _ (Nat.div_lt_of_lt_mul hr) (Nat.div_lt_of_lt_mul hr') _ hys hys'
      have hm := Nat.mod_lt r hpos
      have hm' := Nat.mod_lt r' hpos
      have e2 : r % c.length = r' % c.length := by
        have hn : c.Nodup := hnd (c, false) (by simp) rfl
        rw [List.getElem?_eq_getElem hm, Option.some.injEq] at hx
        rw [List.getElem?_eq_getElem hm', Option.some.injEq] at hx'
        exact (List.Nodup.getElem_inj_iff hn).mp (hx.trans hx'.symm)
      rw [← Nat.div_add_mod r c.length, ← Nat.div_add_mod r' c.length, e1, e2]
    · simp only [prodLen] at hr hr'
      simp only [enumRow, Option.bind_eq_bind, Option.bind_eq_some_iff, Option.some.injEq] at h h'
      obtain ⟨x, hx, ys, hys, rfl⟩ := h
      obtain ⟨x', hx', ys', hys', he⟩ := h'
      rw [List.cons.injEq] at he
      obtain ⟨rfl, rfl⟩ := he
      exact ih hnd' r r' hr hr' _ hys hys'

theorem enumRow_isSome (snap : Nat) (cols : List (List α × Bool)) (hs : ∀ c ∈ cols, c.2 = true → snap < c.1.length) (r : Nat)
    (hr : r < prodLen cols) : ∃ xs, enumRow snap cols r = some xs := by
  induction cols generalizing r with
  | nil => exact ⟨[], rfl⟩
  | cons c cols ih =>
    obtain ⟨c, a⟩ := c
    have hs' : ∀ c ∈ cols, c.2 = true → snap < c.1.length := fun c hc => hs c (by simp [hc])
    cases a
    · simp only [prodLen] at hr
      obtain ⟨ys, hys⟩ := ih hs' (r / c.length) (Nat.div_lt_of_lt_mul hr)
      have hpos : 0 < c.length := by
        rcases Nat.eq_zero_or_pos c.length with h0 | h0
        · rw [h0] at hr; omega
        · exact h0
      have hm := Nat.mod_lt r hpos
      exact ⟨c[r % c.length] :: ys, by simp [enumRow, hys, hm]⟩
    · simp only [prodLen] at hr
      obtain ⟨ys, hys⟩ := ih hs' r hr
      have := hs (c, true) (by simp) rfl
      exact ⟨c[snap] :: ys, by simp [enumRow, hys, this]⟩

theorem countRows_eq (cols : List (List α × Bool)) (snaps : Option Nat) (non : Nat) (o : Option Nat) (n : Nat) :
    countRows cols snaps non = some (o, n) ↔ n = non * prodLen cols ∧
      ((∀ c ∈ cols, c.2 = true → o = some c.1.length) ∧ (∀ s, snaps = some s → o = some s) ∧
       ((∀ c ∈ cols, c.2 = false) → o = snaps)) := by
  induction cols generalizing snaps non with
  | nil =>
    simp only [countRows, Option.some.injEq, Prod.mk.injEq, prodLen, Nat.mul_one, List.not_mem_nil, false_imp_iff, implies_true, true_and,
      forall_const]
    constructor
    · rintro ⟨rfl, rfl⟩; exact ⟨rfl, fun s h => h, rfl⟩
    · rintro ⟨rfl, _, rfl⟩; exact ⟨rfl, rfl⟩
  | cons c cols ih =>
    obtain ⟨c, a⟩ := c
    cases a
    · simp only [countRows, ih, prodLen, List.mem_cons, forall_eq_or_imp, Bool.false_eq_true, false_imp_iff, true_and, Nat.mul_assoc]
    · cases snaps with
      | none =>
        simp only [countRows, ih, prodLen, List.mem_cons, forall_eq_or_imp, true_imp_iff, Option.some.injEq, reduceCtorEq, false_imp_iff,
          implies_true, true_and, Bool.true_eq_false, false_and, and_true]
        constructor
        · rintro ⟨rfl, h1, h2, _⟩; exact ⟨rfl, h2 _ rfl, h1⟩
        · rintro ⟨rfl, h1, h2⟩; exact ⟨rfl, h2, fun s hs => by rw [h1, hs], fun _ => h1⟩
      | some s =>
        simp only [countRows]
        by_cases hs : s = c.length
        · subst hs
          simp only [ne_eq, not_true_eq_false, if_false, ih, prodLen, List.mem_cons, forall_eq_or_imp, true_imp_iff, Option.some.injEq,
            Bool.true_eq_false, false_and, false_imp_iff, and_true]
          constructor
          · rintro ⟨rfl, h1, h2, _⟩; exact ⟨rfl, ⟨h2 _ rfl, h1⟩, h2⟩
          · rintro ⟨rfl, ⟨h1, h2⟩, h3⟩; exact ⟨rfl, h2, h3, fun _ => h1⟩
        · simp only [ne_eq, hs, not_false_eq_true, if_true, reduceCtorEq, List.mem_cons, forall_eq_or_imp, true_imp_iff,
            Option.some.injEq, false_iff]
          rintro ⟨_, ⟨h1, _⟩, h2, _⟩
          rw [h1] at h2
          have := h2 s rfl
          simp at this
          exact hs this.symm

theorem mapM_option_eq {β : Type} (f : α → Option β) (l : List α) (ys : List β) :
    l.mapM f = some ys ↔ List.Forall₂ (fun x y => f x = some y) l ys := by
  induction l generalizing ys with
  | nil => simp [eq_comm]
  | cons a l ih =>
    rw [List.mapM_cons]
    simp only [Option.bind_eq_bind, Option.bind_eq_some_iff, List.forall₂_cons_left_iff, ih]
    constructor
    · rintro ⟨y, h1, ys', h2, h3⟩
      have h3' : y :: ys' = ys := by simpa using h3
      exact ⟨y, ys', h1, h2, h3'.symm⟩
    · rintro ⟨y, ys', h1, h2, rfl⟩
      exact ⟨y, h1, ys', h2, rfl⟩

/-- C12, the enumeration behind every snapshot format: for columns with pairwise distinct entries, one list of rows per snapshot; the rows of a snapshot are
all combinations of one entry per column (its own entry in the columns aligned with the snapshots), each exactly once, and their number is the product of the
lengths of the other columns. -/
theorem C12_interleave (cols : List (List α × Bool)) (hnd : ∀ c ∈ cols, c.2 = false → c.1.Nodup) (out : List (List (List α)))
    (h : interleave cols = some out) :
    (∀ c ∈ cols, c.2 = true → c.1.length = out.length) ∧ ((∀ c ∈ cols, c.2 = false) → out.length = 1) ∧
    ∀ (snap : Nat) (rows : List (List α)), out[snap]? = some rows →
      rows.Nodup ∧ rows.length = ((cols.filter fun c => c.2 = false).map fun c => c.1.length).prod ∧
      ∀ row, row ∈ rows ↔ List.Forall₂ (Choice snap) cols row := by
  unfold interleave at h
  simp only [Option.bind_eq_bind, Option.bind_eq_some_iff] at h
  obtain ⟨⟨snaps, non⟩, hc, hm⟩ := h
  obtain ⟨hn, h1, _, h3⟩ := (countRows_eq cols none 1 snaps non).mp hc
  rw [Nat.one_mul] at hn
  subst hn
  simp only [mapM_option_eq] at hm
  have hlen : out.length = snaps.getD 1 := by rw [← hm.length_eq, List.length_range]
  refine ⟨?_, ?_, ?_⟩
  · intro c hcm hca
    rw [hlen, h1 c hcm hca]; rfl
  · intro hall; rw [hlen, h3 hall]; rfl
  · intro snap rows hrows
    have hsl := (List.getElem?_eq_some_iff.mp hrows).1
    have hrow : List.Forall₂ (fun row y => fillRow snap row cols 1 1 = some y) (List.range (prodLen cols)) rows := by
      have := List.Forall₂.get hm (i := snap) (by rw [List.length_range]; omega) hsl
      simp only [List.get_eq_getElem, List.getElem_range] at this
      rw [(List.getElem?_eq_some_iff.mp hrows).2] at this
      exact this
    simp only [fillRow_eq, Nat.mul_one, Nat.div_one] at hrow
    have hrl : rows.length = prodLen cols := by rw [← hrow.length_eq, List.length_range]
    have hget : ∀ r (hr : r < rows.length), enumRow snap cols r = some rows[r] := by
      intro r hr
      have := List.Forall₂.get hrow (i := r) (by rw [List.length_range]; omega) hr
      simpa using this
    refine ⟨?_, ?_, ?_⟩
    · rw [List.nodup_iff_injective_getElem]
      intro i j hij
      apply Fin.ext
      refine enumRow_inj snap cols hnd i j (by omega) (by omega) rows[i] (hget i i.2) ?_
      rw [hget j j.2]
      exact congrArg some hij.symm
    · rw [hrl]
      clear hrl hget hrow hrows hsl hlen hm h1 h3 hc hnd
      induction cols with
      | nil => rfl
      | cons c cols ih => obtain ⟨c, a⟩ := c; cases a <;> simp [prodLen, ih]
    · intro row
      rw [enumRow_mem]
      constructor
      · intro hmem
        obtain ⟨r, hr, rfl⟩ := List.getElem_of_mem hmem
        exact ⟨r, by omega, hget r hr⟩
      · rintro ⟨r, hr, he⟩
        have hr' : r < rows.length := by omega
        rw [hget r hr', Option.some.injEq] at he
        rw [← he]; exact List.getElem_mem hr'

theorem interleave_isSome (cols : List (List α × Bool)) (n : Nat) (h : ∀ c ∈ cols, c.2 = true → c.1.length = n) :
    ∃ out, interleave cols = some out := by
  have hc : ∃ o, countRows cols none 1 = some (o, 1 * prodLen cols) ∧ (o = some n ∨ (o = none ∧ ∀ c ∈ cols, c.2 = false)) := by
    by_cases hall : ∀ c ∈ cols, c.2 = false
    · refine ⟨none, (countRows_eq cols none 1 none _).mpr ⟨rfl, ?_, by simp, by simp⟩, Or.inr ⟨rfl, hall⟩⟩
      intro c hc hca; rw [hall c hc] at hca; cases hca
    · refine ⟨some n, (countRows_eq cols none 1 (some n) _).mpr ⟨rfl, ?_, by simp, ?_⟩, Or.inl rfl⟩
      · intro c hc hca; rw [h c hc hca]
      · intro hh; exact absurd hh hall
  obtain ⟨o, hcr, ho⟩ := hc
  have key : ∀ snap, snap < o.getD 1 → ∃ rows, ((List.range (1 * prodLen cols)).mapM fun row => fillRow snap row cols 1 1) = some rows := by
    intro snap hsnap
    have : ∀ l : List Nat, (∀ x ∈ l, x < prodLen cols) → ∃ rows, (l.mapM fun row => fillRow snap row cols 1 1) = some rows := by
      intro l
      induction l with
      | nil => intro _; exact ⟨[], rfl⟩
      | cons x l ih =>
        intro hl
        obtain ⟨rows, hrows⟩ := ih (fun y hy => hl y (by simp [hy]))
        obtain ⟨xs, hxs⟩ := enumRow_isSome snap cols (by
          intro c hc hca
          rcases ho with rfl | ⟨rfl, hall⟩
          · rw [h c hc hca]; exact hsnap
          · rw [hall c hc] at hca; cases hca) x (hl x (by simp))
        exact ⟨xs :: rows, by rw [List.mapM_cons, fillRow_eq, Nat.mul_one, Nat.div_one, hxs, hrows]; rfl⟩
    exact this _ (by intro x hx; rw [List.mem_range] at hx; omega)
  have : ∀ l : List Nat, (∀ x ∈ l, x < o.getD 1) →
      ∃ out, (l.mapM fun snap => (List.range (1 * prodLen cols)).mapM fun row => fillRow snap row cols 1 1) = some out := by
    intro l
    induction l with
    | nil => intro _; exact ⟨[], rfl⟩
    | cons x l ih =>
      intro hl
      obtain ⟨out, hout⟩ := ih (fun y hy => hl y (by simp [hy]))
      obtain ⟨rows, hrows⟩ := key x (hl x (by simp))
      exact ⟨rows :: out, by rw [List.mapM_cons, hrows, hout]; rfl⟩
  obtain ⟨out, hout⟩ := this (List.range (o.getD 1)) (by intro x hx; rwa [List.mem_range] at hx)
  exact ⟨out, by unfold interleave; rw [hcr]; exact hout⟩

-- two aligned columns (snapshots 5 and 6) and two block columns: 2 snapshots, 2*3 rows each
example : ∃ out, interleave [([5, 6], true), ([0, 1], false), ([50, 60], true), ([0, 1, 2], false)] = some out ∧
    out.map List.length = [6, 6] ∧ out[1]?.bind (·[3]?) = some [6, 1, 60, 1] := ⟨_, rfl, rfl, rfl⟩
end

/-! file names -/

/-- The block that a meaning "Block", "Block0", "Block1", ... refers to. -/
def blockIndex (suffix : Str) : Option Int := if suffix = [] then some 0 else atoi suffix

/-- `x` is a value that meaning `m` may take in snapshot `s`. -/
inductive ArgFor (info : Info) (s : Int) : Str → Arg → Prop
  | snapshot : ArgFor info s "Snapshot".toList (.int s)
  | scale (text line : Str) : info.scaleFile = some text → (scaleLines text)[(s - info.snapMin).toNat]? = some line →
      ArgFor info s "ScaleFactor".toList (.str line)
  | block (suffix : Str) (i : Nat) (lo hi k : Int) : blockIndex suffix = some (i : Int) → info.blockMins[i]? = some lo →
      info.blockMaxes[i]? = some hi → lo ≤ k → k ≤ hi → ArgFor info s ("Block".toList ++ suffix) (.int k)

theorem intCol_mem (lo n : Int) (c : List Arg) (h : intCol lo n = some c) (x : Arg) :
    x ∈ c ↔ ∃ k, lo ≤ k ∧ k < lo + n ∧ x = .int k := by
  unfold intCol at h
  split at h
  · cases h
  · rename_i hn
    cases h
    simp only [List.mem_map, List.mem_range]
    constructor
    · rintro ⟨i, hi, rfl⟩; exact ⟨_, by omega, by omega, rfl⟩
    · rintro ⟨k, h1, h2, rfl⟩; exact ⟨(k - lo).toNat, by omega, by congr 1; omega⟩

theorem intCol_nodup (lo n : Int) (c : List Arg) (h : intCol lo n = some c) : c.Nodup := by
  unfold intCol at h
  split at h
  · cases h
  · cases h
    refine List.Nodup.map ?_ List.nodup_range
    intro i j hij
    simp only [Arg.int.injEq] at hij
    omega

theorem intCol_get (lo n : Int) (c : List Arg) (h : intCol lo n = some c) (i : Nat) (x : Arg) :
    c[i]? = some x ↔ (i : Int) < n ∧ x = .int ((i : Int) + lo) := by
  unfold intCol at h
  split at h
  · cases h
  · cases h
    rw [List.getElem?_map]
    by_cases hi : i < n.toNat
    · rw [List.getElem?_range hi]
      simp only [Option.map_some, Option.some.injEq]
      constructor
      · intro h; exact ⟨by omega, h.symm⟩
      · intro h; exact h.2.symm
    · rw [List.getElem?_eq_none (by rw [List.length_range]; omega)]
      simp only [Option.map_none, reduceCtorEq, false_iff]
      rintro ⟨h, _⟩; omega

theorem intCol_length (lo n : Int) (c : List Arg) (h : intCol lo n = some c) : (c.length : Int) = n := by
  unfold intCol at h
  split at h
  · cases h
  · cases h; simp; omega

/-- whether a meaning is aligned with the snapshots -/
def aligned (m : Str) : Bool := m = "Snapshot".toList ∨ m = "ScaleFactor".toList

theorem goGet_some {β : Type} (l : List β) (i : Int) (x : β) : goGet l i = some x ↔ ∃ k : Nat, i = k ∧ l[k]? = some x := by
  unfold goGet
  split
  · constructor
    · intro h; cases h
    · rintro ⟨k, rfl, _⟩; omega
  · constructor
    · intro h; exact ⟨i.toNat, by omega, h⟩
    · rintro ⟨k, rfl, h⟩; simpa using h

theorem getColumn_spec (info : Info) (m : Str) (c : List Arg × Bool) (h : getColumn info m = .ok c) :
    (c.2 = false → c.1.Nodup) ∧ (c.2 = true → (c.1.length : Int) = info.snapMax - info.snapMin + 1) ∧ c.2 = aligned m ∧
    ∀ s, info.snapMin ≤ s → s ≤ info.snapMax → ∀ x, Choice (s - info.snapMin).toNat c x ↔ ArgFor info s m x := by
  unfold getColumn at h
  by_cases h1 : m = "ScaleFactor".toList
  · subst h1
    rw [if_pos rfl] at h
    cases hf : info.scaleFile with
    | none => rw [hf] at h; cases h
    | some text =>
      rw [hf] at h
      simp only at h
      by_cases hl : ((scaleLines text).length : Int) = info.snapMax - info.snapMin + 1
      · rw [if_neg (not_not.mpr hl)] at h
        cases h
        refine ⟨by simp, by simpa using hl, rfl, ?_⟩
        intro s hs1 hs2 x
        simp only [Choice, if_true, List.getElem?_map]
        constructor
        · intro hx
          rw [Option.map_eq_some_iff] at hx
          obtain ⟨line, hline, rfl⟩ := hx
          exact .scale text line hf hline
        · intro hx
          generalize hm : "ScaleFactor".toList = m at hx
          cases hx with
          | snapshot => exact absurd hm (by decide)
          | scale text' line hf' hline => rw [hf] at hf'; cases hf'; rw [hline]; rfl
          | block suffix i lo hi k => exact absurd (congrArg (List.take 1) hm) (by simp)
      · rw [if_pos hl] at h; cases h
  · rw [if_neg h1] at h
    by_cases h2 : m = "Snapshot".toList
    · subst h2
      rw [if_pos rfl] at h
      cases hc : intCol info.snapMin (info.snapMax - info.snapMin + 1) with
      | none => rw [hc] at h; cases h
      | some col =>
        rw [hc] at h; cases h
        refine ⟨by simp, by simpa using intCol_length _ _ _ hc, rfl, ?_⟩
        intro s hs1 hs2 x
        simp only [Choice, if_true]
        rw [intCol_get _ _ _ hc]
        constructor
        · rintro ⟨_, rfl⟩
          have : ((s - info.snapMin).toNat : Int) + info.snapMin = s := by omega
          rw [this]; exact .snapshot
        · intro hx
          generalize hm : "Snapshot".toList = m at hx
          cases hx with
          | snapshot => exact ⟨by omega, by congr 1; omega⟩
          | scale text' line hf' hline => exact absurd hm (by decide)
          | block suffix i lo hi k => exact absurd (congrArg (List.take 1) hm) (by simp)
    · rw [if_neg h2] at h
      by_cases h3 : 5 ≤ m.length ∧ m.take 5 = "Block".toList
      · rw [if_pos h3] at h
        have hm : m = "Block".toList ++ m.drop 5 := by rw [← h3.2, List.take_append_drop]
        have hidx : (if 5 < m.length then atoi (m.drop 5) else some 0) = blockIndex (m.drop 5) := by
          unfold blockIndex
          have hdl : (m.drop 5).length = m.length - 5 := List.length_drop
          by_cases hl : 5 < m.length
          · rw [if_pos hl, if_neg]
            intro he
            rw [he, List.length_nil] at hdl
            omega
          · rw [if_neg hl, if_pos]
            apply List.eq_nil_of_length_eq_zero
            omega
        rw [hidx] at h
        cases hb : blockIndex (m.drop 5) with
        | none => rw [hb] at h; cases h
        | some i =>
          rw [hb] at h
          simp only at h
          cases hhi : goGet info.blockMaxes i with
          | none => rw [hhi] at h; cases h
          | some hi =>
            cases hlo : goGet info.blockMins i with
            | none => rw [hhi, hlo] at h; cases h
            | some lo =>
              rw [hhi, hlo] at h
              simp only at h
              cases hc : intCol lo (hi - lo + 1) with
              | none => rw [hc] at h; cases h
              | some col =>
                rw [hc] at h; cases h
                refine ⟨fun _ => intCol_nodup _ _ _ hc, by simp, ?_, ?_⟩
                · exact (decide_eq_false (not_or.mpr ⟨h2, h1⟩)).symm
                · intro s hs1 hs2 x
                  simp only [Choice, Bool.false_eq_true, if_false]
                  rw [intCol_mem _ _ _ hc]
                  obtain ⟨j, rfl, hhi'⟩ := (goGet_some _ _ _).mp hhi
                  obtain ⟨j', hj', hlo'⟩ := (goGet_some _ _ _).mp hlo
                  have : j = j' := by omega
                  subst this
                  constructor
                  · rintro ⟨k, hk1, hk2, rfl⟩
                    rw [hm]
                    exact .block _ j lo hi k hb hlo' hhi' hk1 (by omega)
                  · intro hx
                    rw [hm] at hx
                    generalize hm' : "Block".toList ++ m.drop 5 = m' at hx
                    cases hx with
                    | snapshot => exact absurd (hm.trans hm') h2
                    | scale text' line hf' hline => exact absurd (hm.trans hm') h1
                    | block suffix i' lo' hi' k hb' hlo'' hhi'' hk1 hk2 =>
                      have hsuf : m.drop 5 = suffix := List.append_cancel_left hm'
                      rw [← hsuf, hb] at hb'
                      have : j = i' := by simpa using hb'
                      subst this
                      rw [hlo'] at hlo''; cases hlo''
                      rw [hhi'] at hhi''; cases hhi''
                      exact ⟨k, hk1, by omega, rfl⟩
      · rw [if_neg h3] at h; cases h

theorem getColumns_ok (info : Info) (ms : List Str) (cs : List (List Arg × Bool)) :
    getColumns info ms = .ok cs ↔ List.Forall₂ (fun m c => getColumn info m = .ok c) ms cs := by
  induction ms generalizing cs with
  | nil => simp [getColumns, eq_comm]
  | cons m ms ih =>
    simp only [getColumns]
    rw [List.forall₂_cons_left_iff]
    cases hm : getColumn info m with
    | err => simp
    | panic => simp
    | ok c =>
      simp only
      cases hr : getColumns info ms with
      | ok cs' =>
        simp only [Out.ok.injEq]
        constructor
        · rintro rfl; exact ⟨c, cs', rfl, (ih cs').mp hr, rfl⟩
        · rintro ⟨b, bs, rfl, h, rfl⟩
          have := (ih bs).mpr h
          rw [hr] at this; cases this; rfl
      | err =>
        simp only [reduceCtorEq, false_iff]
        rintro ⟨b, bs, _, h, _⟩
        rw [(ih bs).mpr h] at hr; cases hr
      | panic =>
        simp only [reduceCtorEq, false_iff]
        rintro ⟨b, bs, _, h, _⟩
        rw [(ih bs).mpr h] at hr; cases hr

variable (sprintf : Str → List Arg → Str)

/-- C12: when the file names of a simulation are set up and the snapshot format mentions the snapshot (by number or by scale factor), then every snapshot
from SnapMin to SnapMax has its files: there is one file per combination of block numbers, no combination is missing, none occurs twice,
and ParticleCatalog(snapshot, block) is the format filled in with the arguments of that combination and that snapshot.  Every snapshot has the number of
files that Blocks() announces. -/
theorem C12_snapshot_files (info : Info) (validate : Bool) (names : List (List Str)) (h : initCatalogs sprintf info validate = .ok names)
    (hsnap : ∃ m ∈ info.meanings, aligned m = true) (s : Int) (hs1 : info.snapMin ≤ s) (hs2 : s ≤ info.snapMax) :
    ∃ combos : List (List Arg), combos.Nodup ∧ (∀ args, args ∈ combos ↔ List.Forall₂ (ArgFor info s) info.meanings args) ∧
      blocks names = some combos.length ∧
      ∀ (b : Int) (f : Str), particleCatalog names info.snapMin s b = some f ↔
        ∃ (k : Nat) (args : List Arg), b = k ∧ combos[k]? = some args ∧ f = sprintf info.format args := by
  unfold initCatalogs at h
  cases hg : getColumns info info.meanings with
  | err => rw [hg] at h; cases h
  | panic => rw [hg] at h; cases h
  | ok cols =>
    rw [hg] at h
    simp only at h
    cases hi : interleave cols with
    | none => rw [hi] at h; cases h
    | some out =>
      rw [hi] at h
      simp only at h
      cases validate with
      | true => cases h
      | false =>
        simp only [Bool.false_eq_true, if_false, Out.ok.injEq] at h
        subst h
        have hcols := (getColumns_ok info info.meanings cols).mp hg
        have hspec : ∀ c ∈ cols, ∃ m ∈ info.meanings, getColumn info m = .ok c := by
          intro c hc
          obtain ⟨i, hi', rfl⟩ := List.getElem_of_mem hc
          have hl := hcols.length_eq
          exact ⟨info.meanings[i], List.getElem_mem _, by simpa using List.Forall₂.get hcols (i := i) (by omega) hi'⟩
        obtain ⟨g1, g2, g3⟩ := C12_interleave cols (by
          intro c hc
          obtain ⟨m, _, hm⟩ := hspec c hc
          exact (getColumn_spec info m c hm).1) out hi
        -- the number of snapshots
        have hlen : (out.length : Int) = info.snapMax - info.snapMin + 1 := by
          obtain ⟨m, hm, ha⟩ := hsnap
          obtain ⟨i, hi', rfl⟩ := List.getElem_of_mem hm
          have hl := hcols.length_eq
          have hgi : getColumn info info.meanings[i] = .ok (cols[i]'(by omega)) := by
            simpa using List.Forall₂.get hcols (i := i) hi' (by omega)
          obtain ⟨_, e2, e3, _⟩ := getColumn_spec info _ _ hgi
          rw [ha] at e3
          rw [← g1 _ (List.getElem_mem _) e3, e2 e3]
        have hk : (s - info.snapMin).toNat < out.length := by omega
        obtain ⟨r1, r2, r3⟩ := g3 (s - info.snapMin).toNat out[(s - info.snapMin).toNat] (List.getElem?_eq_getElem hk)
        refine ⟨out[(s - info.snapMin).toNat], r1, ?_, ?_, ?_⟩
        · intro args
          rw [r3]
          clear r3 r2 r1 g3 g2 g1 hi hspec hlen hk hg hsnap
          generalize info.meanings = ms at hcols
          induction hcols generalizing args with
          | nil => simp
          | cons hm _ ih =>
            rw [List.forall₂_cons_left_iff, List.forall₂_cons_left_iff]
            simp only [(getColumn_spec info _ _ hm).2.2.2 s hs1 hs2, ih]
        · have h0 : 0 < out.length := by omega
          obtain ⟨_, r2', _⟩ := g3 0 out[0] (List.getElem?_eq_getElem h0)
          unfold blocks
          rw [List.head?_map, List.head?_eq_getElem?, List.getElem?_eq_getElem h0]
          simp only [Option.map_some, List.length_map]
          rw [r2, r2']
        · intro b f
          unfold particleCatalog
          have e : goGet (out.map fun rows => rows.map fun r => sprintf info.format r) (s - info.snapMin) =
              some (out[(s - info.snapMin).toNat].map fun r => sprintf info.format r) := by
            rw [goGet_some]
            exact ⟨(s - info.snapMin).toNat, by omega, by rw [List.getElem?_map, List.getElem?_eq_getElem hk]; rfl⟩
          simp only [e, Option.bind_eq_bind, Option.bind_some, goGet_some]
          constructor
          · rintro ⟨k, rfl, hkk⟩
            rw [List.getElem?_map, Option.map_eq_some_iff] at hkk
            obtain ⟨args, ha, rfl⟩ := hkk
            exact ⟨k, args, rfl, ha, rfl⟩
          · rintro ⟨k, args, rfl, ha, rfl⟩
            exact ⟨k, rfl, by rw [List.getElem?_map, ha]; rfl⟩

/-- a small simulation: snapshots 3..5, one block index 0..1 -/
def exInfo : Info := ⟨"s%d.%d".toList, ["Snapshot".toList, "Block0".toList], none, [0], [1], 3, 5⟩

/-- for the examples: numbers separated by dots -/
def exPrintf (_ : Str) (as : List Arg) : Str := joinWith '.' (as.map fun | .int n => itoa n | .str s => s)

theorem exInfo_names : initCatalogs exPrintf exInfo false =
    .ok [["3.0".toList, "3.1".toList], ["4.0".toList, "4.1".toList], ["5.0".toList, "5.1".toList]] := by decide +kernel

-- the hypotheses of `C12_snapshot_files` are met by the small simulation
example := C12_snapshot_files exPrintf exInfo false _ exInfo_names ⟨"Snapshot".toList, by decide, by decide⟩ 4 (by decide) (by decide)

/-- C12 is false when the format does not mention the snapshot: only the first snapshot has names, the
others crash the program. -/
theorem C12_format_without_snapshot_false :
    ∃ (info : Info) (names : List (List Str)), validateFormat info "nil".toList = true ∧ initCatalogs exPrintf info false = .ok names ∧
      info.snapMin ≤ 4 ∧ 4 ≤ info.snapMax ∧ particleCatalog names info.snapMin 4 0 = none :=
  ⟨⟨"s%d".toList, ["Block".toList], none, [0], [1], 3, 5⟩, [["0".toList, "1".toList]], by decide, by decide +kernel, by decide, by decide, by decide⟩

/-- C12 is false for SnapshotType 'nil' when SnapMin is not 0: the names are looked up from snapshot 0 on. -/
theorem C12_nil_false : ∃ (info : Info) (names : List (List Str)) (m : Int), initNil info false = some (names, m) ∧
    info.snapMin ≤ 4 ∧ 4 ≤ info.snapMax ∧ particleCatalog names m 4 0 = none :=
  ⟨exInfo, [["0".toList], ["1".toList], ["2".toList]], 0, by decide +kernel, by decide, by decide, by decide⟩

/-- C12, nil snapshots starting at 0: one placeholder file for every snapshot. -/
theorem C12_nil_partial (info : Info) (h0 : info.snapMin = 0) (s : Int) (h1 : 0 ≤ s) (h2 : s ≤ info.snapMax) :
    ∃ names m, initNil info false = some (names, m) ∧ blocks names = some 1 ∧ particleCatalog names m s 0 = some (itoa s) := by
  unfold initNil
  rw [if_neg (by simp; omega)]
  refine ⟨_, _, rfl, ?_, ?_⟩
  · unfold blocks
    have : (info.snapMax - info.snapMin + 1).toNat = (info.snapMax).toNat + 1 := by omega
    rw [this, List.range_succ_eq_map]
    rfl
  · unfold particleCatalog
    have e : goGet ((List.range (info.snapMax - info.snapMin + 1).toNat).map fun (i : Nat) => [itoa (i : Int)]) (s - 0) = some [itoa s] := by
      rw [goGet_some]
      refine ⟨s.toNat, by omega, ?_⟩
      rw [List.getElem?_map, List.getElem?_range (by omega)]
      simp [Int.toNat_of_nonneg h1]
    simp only [e, Option.bind_eq_bind, Option.bind_some]
    rfl

example : ∃ names m, initNil ⟨[], [], none, [], [], 0, 7⟩ false = some (names, m) ∧ blocks names = some 1 ∧ particleCatalog names m 7 0 = some (itoa 7) :=
  C12_nil_partial ⟨[], [], none, [], [], 0, 7⟩ rfl 7 (by decide) (by decide)

/-! validation -/

/-- C53 is false of the code: a configuration is accepted although one of its meanings is unknown (everything after the first numbered
block goes unchecked), and setting up the file names then crashes the program. -/
theorem C53_unchecked_meaning_false : ∃ info : Info, validateFormat info "nil".toList = true ∧ initCatalogs exPrintf info false = .panic :=
  ⟨⟨"%d%d".toList, ["Block0".toList, "Cat".toList], none, [0], [1], 3, 5⟩, by decide, by decide⟩

/-- C53 is false of the code: "Block" is accepted although no block range is given. -/
theorem C53_missing_block_false : ∃ info : Info, validateFormat info "nil".toList = true ∧ initCatalogs exPrintf info false = .panic :=
  ⟨⟨"%d".toList, ["Block".toList], none, [], [], 3, 5⟩, by decide, by decide⟩

/-- C53 is false of the code: the Logging variable is not checked after a numbered block. -/
theorem C53_logging_unchecked_false : ∃ info : Info, validateFormat info "cat".toList = true :=
  ⟨⟨"%d".toList, ["Block0".toList], none, [0], [1], 3, 5⟩, by decide⟩

/-- C53 is false of the code: ValidateFormats = true crashes the program. -/
theorem C53_validate_false (info : Info) : initCatalogs sprintf info true = .err ∨ initCatalogs sprintf info true = .panic := by
  unfold initCatalogs
  cases getColumns info info.meanings with
  | err => left; rfl
  | panic => right; rfl
  | ok cols =>
    simp only
    cases interleave cols <;> simp

theorem blocksOrdered_get (as bs : List Int) (h : blocksOrdered as bs = true) (i : Nat) (a b : Int) (ha : as[i]? = some a) (hb : bs[i]? = some b) :
    a ≤ b := by
  induction as generalizing bs i with
  | nil => simp at ha
  | cons x as ih =>
    cases bs with
    | nil => simp at hb
    | cons y bs =>
      simp only [blocksOrdered, Bool.and_eq_true, decide_eq_true_eq] at h
      cases i with
      | zero => simp at ha hb; omega
      | succ i => exact ih bs h.2 i (by simpa using ha) (by simpa using hb)

/-- C53 (part that holds): a configuration accepted by the validation whose meanings are all among "Snapshot", "ScaleFactor", "Block" and "Block"
followed by the number of an existing block range (with at least one block range if "Block" is used) never crashes while the file names are set up;
the only error left is a scale factor file that cannot be read or has the wrong number of lines.
Missing: the meanings must be assumed good because the validation stops early. -/
theorem C53_accepted_enumerates_partial (info : Info) (logging : Str) (hv : validateFormat info logging = true)
    (hm : ∀ m ∈ info.meanings, m = "Snapshot".toList ∨ m = "ScaleFactor".toList ∨
      ∃ (suffix : Str) (i : Nat), m = "Block".toList ++ suffix ∧ blockIndex suffix = some (i : Int) ∧ i < info.blockMaxes.length) :
    initCatalogs sprintf info false ≠ .panic ∧
    ((∀ m ∈ info.meanings, m = "ScaleFactor".toList → ∃ text, info.scaleFile = some text ∧ ((scaleLines text).length : Int) = info.snapMax - info.snapMin + 1) →
      ∃ names, initCatalogs sprintf info false = .ok names) := by
  unfold validateFormat at hv
  split at hv
  · cases hv
  split at hv
  · cases hv
  split at hv
  · cases hv
  split at hv
  · cases hv
  rename_i hlen _ hsn hbo
  rw [not_not] at hlen hbo
  have hgood : ∀ m ∈ info.meanings, (getColumn info m ≠ .panic) ∧
      ((m = "ScaleFactor".toList → ∃ text, info.scaleFile = some text ∧ ((scaleLines text).length : Int) = info.snapMax - info.snapMin + 1) →
        ∃ c, getColumn info m = .ok c) := by
    intro m hmem
    rcases hm m hmem with rfl | rfl | ⟨suffix, i, rfl, hb, hi⟩
    · have hc : ∃ c, intCol info.snapMin (info.snapMax - info.snapMin + 1) = some c := ⟨_, by unfold intCol; rw [if_neg (by omega)]⟩
      obtain ⟨c, hc⟩ := hc
      have : getColumn info "Snapshot".toList = .ok (c, true) := by
        unfold getColumn; rw [if_neg (by decide), if_pos rfl, hc]
      exact ⟨by rw [this]; simp, fun _ => ⟨_, this⟩⟩
    · constructor
      · unfold getColumn
        rw [if_pos rfl]
        cases info.scaleFile with
        | none => simp
        | some t => simp only; split <;> simp
      · intro h
        obtain ⟨t, ht, hl⟩ := h rfl
        refine ⟨((scaleLines t).map Arg.str, true), ?_⟩
        unfold getColumn
        rw [if_pos rfl, ht]
        simp only
        rw [if_neg (not_not.mpr hl)]
    · have hhi : ∃ hi, info.blockMaxes[i]? = some hi := ⟨_, List.getElem?_eq_getElem hi⟩
      have hlo : ∃ lo, info.blockMins[i]? = some lo := ⟨_, List.getElem?_eq_getElem (by omega)⟩
      obtain ⟨hi', hhi⟩ := hhi
      obtain ⟨lo', hlo⟩ := hlo
      have hle := blocksOrdered_get _ _ hbo i lo' hi' hlo hhi
      have h1 : ¬ "Block".toList ++ suffix = "ScaleFactor".toList := fun e => absurd (congrArg (List.take 1) e) (by simp)
      have h2 : ¬ "Block".toList ++ suffix = "Snapshot".toList := fun e => absurd (congrArg (List.take 1) e) (by simp)
      have hidx : (if 5 < ("Block".toList ++ suffix).length then atoi (("Block".toList ++ suffix).drop 5) else some 0) = some (i : Int) := by
        rw [← hb]
        unfold blockIndex
        have hd : ("Block".toList ++ suffix).drop 5 = suffix := rfl
        rw [hd]
        by_cases hs : suffix = []
        · subst hs; rfl
        · rw [if_neg hs, if_pos]
          have := List.length_pos_iff.mpr hs
          simp; omega
      have hgm : goGet info.blockMaxes (i : Int) = some hi' := (goGet_some _ _ _).mpr ⟨i, rfl, hhi⟩
      have hgl : goGet info.blockMins (i : Int) = some lo' := (goGet_some _ _ _).mpr ⟨i, rfl, hlo⟩
      have hc : ∃ c, intCol lo' (hi' - lo' + 1) = some c := ⟨_, by unfold intCol; rw [if_neg (by omega)]⟩
      obtain ⟨c, hc⟩ := hc
      have : getColumn info ("Block".toList ++ suffix) = .ok (c, false) := by
        unfold getColumn
        rw [if_neg h1, if_neg h2, if_pos ⟨by simp, rfl⟩]
        simp only [hidx, hgm, hgl, hc]
      exact ⟨by rw [this]; simp, fun _ => ⟨_, this⟩⟩
  have hinter : ∀ cols, getColumns info info.meanings = .ok cols → ∃ out, interleave cols = some out := by
    intro cols hg
    have hcols := (getColumns_ok info info.meanings cols).mp hg
    apply interleave_isSome cols (info.snapMax - info.snapMin + 1).toNat
    intro c hc hca
    obtain ⟨i, hi', rfl⟩ := List.getElem_of_mem hc
    have hl := hcols.length_eq
    have hgi : getColumn info (info.meanings[i]'(by omega)) = .ok cols[i] := by
      simpa using List.Forall₂.get hcols (i := i) (by omega) hi'
    have := (getColumn_spec info _ _ hgi).2.1 hca
    omega
  constructor
  · unfold initCatalogs
    have hnp : ∀ ms : List Str, (∀ m ∈ ms, getColumn info m ≠ .panic) → getColumns info ms ≠ .panic := by
      intro ms
      induction ms with
      | nil => intro _; simp [getColumns]
      | cons m ms ih =>
        intro h
        have h1 := h m (by simp)
        have h2 := ih (fun x hx => h x (by simp [hx]))
        simp only [getColumns]
        cases hgm : getColumn info m with
        | panic => exact absurd hgm h1
        | err => simp
        | ok c =>
          simp only
          cases hr : getColumns info ms with
          | panic => exact absurd hr h2
          | err => simp
          | ok cs => simp
    cases hg : getColumns info info.meanings with
    | panic => exact absurd hg (hnp _ (fun m hm => (hgood m hm).1))
    | err => simp
    | ok cols =>
      obtain ⟨out, ho⟩ := hinter cols hg
      simp [ho]
  · intro hsf
    have hall : ∀ ms : List Str, (∀ m ∈ ms, ∃ c, getColumn info m = .ok c) → ∃ cs, getColumns info ms = .ok cs := by
      intro ms
      induction ms with
      | nil => intro _; exact ⟨[], rfl⟩
      | cons m ms ih =>
        intro h
        obtain ⟨c, hc⟩ := h m (by simp)
        obtain ⟨cs, hcs⟩ := ih (fun x hx => h x (by simp [hx]))
        exact ⟨c :: cs, by simp [getColumns, hc, hcs]⟩
    obtain ⟨cols, hg⟩ := hall info.meanings (fun m hm => (hgood m hm).2 (hsf m hm))
    obtain ⟨out, ho⟩ := hinter cols hg
    exact ⟨_, by unfold initCatalogs; rw [hg]; simp only [ho]; rfl⟩

-- the small simulation meets the hypotheses
example : initCatalogs exPrintf exInfo false ≠ .panic :=
  (C53_accepted_enumerates_partial exPrintf exInfo "nil".toList (by decide) (by
    intro m hm
    simp only [exInfo, List.mem_cons, List.not_mem_nil, or_false] at hm
    rcases hm with rfl | rfl
    · left; rfl
    · right; right; exact ⟨"0".toList, 0, rfl, rfl, by decide⟩)).1

/-! halo catalogs -/

/-- C54: with at least as many files in the halo directory as snapshots, HaloCatalog gives the snapshots from HSnapMin to HSnapMax the *last* files of the
directory, in directory order, one each: snapshot HSnapMax gets the last file.  With fewer files an error is returned. -/
theorem C54_halo_files (files : List Str) (lo hi : Int) (hle : lo ≤ hi) :
    ((files.length : Int) < hi - lo + 1 → initTextHalo files lo hi = .err) ∧
    (hi - lo + 1 ≤ (files.length : Int) → ∃ names off, initTextHalo files lo hi = .ok (names, off) ∧ off = hi - files.length ∧
      ∀ s, lo ≤ s → s ≤ hi → ∃ (k : Nat), (k : Int) = files.length - 1 - (hi - s) ∧ haloCatalog names lo s = files[k]? ∧ k < files.length) := by
  unfold initTextHalo
  constructor
  · intro h; rw [if_pos h]
  · intro h
    rw [if_neg (by omega), if_neg (by omega)]
    refine ⟨_, _, rfl, rfl, ?_⟩
    intro s hs1 hs2
    refine ⟨(files.length - 1 - (hi - s)).toNat, by omega, ?_, by omega⟩
    unfold haloCatalog goGet
    rw [if_neg (by omega), List.getElem?_drop]
    congr 1
    omega

example : initTextHalo ["a".toList, "b".toList, "c".toList] 7 8 = .ok (["b".toList, "c".toList], 5) := by decide

/-- C12: gotetra snapshots need exactly three block ranges and are then enumerated as the others. -/
theorem C12_gotetra (sprintf : Str → List Arg → Str) (info : Info) (validate : Bool) :
    (info.blockMins.length = 3 → initGotetra sprintf info validate = initCatalogs sprintf info validate) ∧
    (∀ names, initGotetra sprintf info validate = .ok names → info.blockMins.length = 3) := by
  unfold initGotetra
  refine ⟨fun h => by rw [if_neg (by simp [h])], fun names h => ?_⟩
  by_contra hc
  rw [if_pos hc] at h
  cases h

/-- C53: when a snapshot format is accepted the first numbered block is the number of a declared block range. -/
theorem C53_numbered_block (info : Info) (logging : Str) (hv : validateFormat info logging = true) (pre post : List Str) (suffix : Str)
    (hm : info.meanings = pre ++ ("Block".toList ++ suffix) :: post) (hs : suffix ≠ []) (hpre : ∀ m ∈ pre, m = "ScaleFactor".toList ∨ m = "Snapshot".toList ∨ m = "Block".toList) :
    ∃ n : Int, atoi suffix = some n ∧ 0 ≤ n ∧ n < info.blockMaxes.length := by
  have hc : checkMeanings info.blockMaxes.length info.meanings ≠ .error := by
    intro h
    unfold validateFormat at hv
    rw [h] at hv
    simp at hv
  have hskip : ∀ ms, checkMeanings info.blockMaxes.length (pre ++ ms) = checkMeanings info.blockMaxes.length ms := by
    intro ms
    clear hm
    induction pre with
    | nil => rfl
    | cons m pre ih =>
      rw [List.cons_append, checkMeanings, if_pos (hpre m (by simp))]
      exact ih fun m hm => hpre m (by simp [hm])
  rw [hm, hskip, checkMeanings] at hc
  have hlen : 5 < ("Block".toList ++ suffix).length := by
    have := List.length_pos_iff.mpr hs
    simp; omega
  have h1 : ¬ ("Block".toList ++ suffix = "ScaleFactor".toList ∨ "Block".toList ++ suffix = "Snapshot".toList ∨ "Block".toList ++ suffix = "Block".toList) := by
    rintro (h | h | h)
    · simp at h
    · simp at h
    · simp at h; exact hs h
  rw [if_neg h1, if_pos ⟨hlen, by simp⟩] at hc
  have : ("Block".toList ++ suffix).drop 5 = suffix := by simp
  rw [this] at hc
  match ha : atoi suffix with
  | none => rw [ha] at hc; simp at hc
  | some n =>
    rw [ha] at hc
    simp only at hc
    refine ⟨n, rfl, ?_⟩
    by_contra h
    rw [if_pos (by omega)] at hc
    exact hc rfl

/-- Non-vacuity of `C53_numbered_block`: the second range. -/
example : validateFormat ⟨"%d%d".toList, ["Snapshot".toList, "Block".toList ++ "1".toList], none, [0, 2], [1, 3], 3, 5⟩ "nil".toList = true := by decide

end Shellfish.Env
