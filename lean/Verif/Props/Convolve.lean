/-
C52: smoothing kernels and boundary rules (math/interpolate/filter.go).
-/
import Verif.Model.Smooth
import Mathlib.Algebra.BigOperators.Fin
import Mathlib.Algebra.Order.BigOperators.Group.Finset
import Mathlib.Data.List.GetD
import Mathlib.Tactic.Linarith
import Mathlib.Tactic.Ring
import Mathlib.Tactic.FieldSimp
import Mathlib.Tactic.NormNum

namespace Shellfish.Smooth

variable {K : Type} [Field K] [LinearOrder K]

/-! Sums and writes -/

theorem getI_eq (xs : List K) (i : Int) (h0 : 0 ≤ i) (h : i < xs.length) : getI xs i = some (xs.getD i.toNat 0) := by
  unfold getI
  rw [if_neg (by omega), List.getElem?_eq_getElem (by omega), List.getD_eq_getElem _ _ (by omega)]

theorem sum_foldlM (f : Nat → Option K) (g : Nat → K) (c : Nat → K) (n : Nat) (h : ∀ j < n, f j = some (g j)) :
    (List.range n).foldlM (fun sum j => (f j).bind fun x => some (sum + x * c j)) 0 = some (∑ j ∈ Finset.range n, c j * g j) := by
  induction n with
  | zero => simp
  | succ n ih =>
    rw [List.range_succ, List.foldlM_append, ih fun j hj => h j (by omega)]
    simp only [Option.bind_eq_bind, Option.bind_some, List.foldlM_cons, List.foldlM_nil, h n (by omega), Option.pure_def, Finset.sum_range_succ]
    rw [mul_comm]

theorem tapSum_eq (k : Kernel K) (tap : Int → Option K) (i : Int) (g : Nat → K) (h : ∀ j < k.cs.length, tap (i + j - k.center) = some (g j)) :
    tapSum k tap i = some (∑ j ∈ Finset.range k.cs.length, k.cs.getD j 0 * g j) :=
  sum_foldlM _ g _ _ h

/-- A loop that writes a range. -/
theorem writeLoop (f : Nat → Option K) (g : Nat → K) (lo : Int) (n : Nat) (out : List K) (h0 : 0 ≤ lo) (hlen : lo + n ≤ out.length) (h : ∀ t < n, f t = some (g t)) :
    ∃ out', (List.range n).foldlM (fun out t => (f t).bind (write out (lo + t))) out = some out' ∧ out'.length = out.length ∧
      ∀ i : Nat, out'.getD i 0 = if lo ≤ i ∧ (i : Int) < lo + n then g (i - lo).toNat else out.getD i 0 := by
  induction n with
  | zero => refine ⟨out, by simp, rfl, fun i => ?_⟩; rw [if_neg (by omega)]
  | succ n ih =>
    obtain ⟨o, h1, h2, h3⟩ := ih (by omega) fun t ht => h t (by omega)
    refine ⟨o.set (lo + n).toNat (g n), ?_, by simp [h2], fun i => ?_⟩
    · rw [List.range_succ, List.foldlM_append, h1]
      simp only [Option.bind_eq_bind, Option.bind_some, List.foldlM_cons, List.foldlM_nil, h n (by omega), Option.pure_def, write]
      rw [if_pos (by omega)]
      rfl
    · by_cases hi : (i : Int) = lo + n
      · have : (lo + n).toNat = i := by omega
        rw [this, if_pos (by omega), List.getD_eq_getElem _ _ (by rw [List.length_set]; omega), List.getElem_set_self]
        congr 1; omega
      · have hne : (lo + n).toNat ≠ i := by omega
        have : (o.set (lo + n).toNat (g n)).getD i 0 = o.getD i 0 := by
          simp only [List.getD_eq_getElem?_getD, List.getElem?_set_ne hne]
        rw [this, h3]
        by_cases hc : lo ≤ (i : Int) ∧ (i : Int) < lo + n
        · rw [if_pos hc, if_pos (by omega)]
        · rw [if_neg hc, if_neg (by omega)]

/-! The specification -/

/-- The index of the sequence that stands for position `i` of the extended sequence: the nearest point (`Extension`), the same position modulo the length (`Periodic`), and the mirror image
in the first or last point (`Reflection`).  -/
def specIndex (b : Boundary) (n : Nat) (i : Int) : Int :=
  match b with
  | .periodic => i % n
  | .reflection => if i < 0 then -i else if i ≥ n then 2 * (n - 1) - i else i
  | _ => if i < 0 then 0 else if i ≥ n then n - 1 else i

/-- The extended sequence. -/
def extended (b : Boundary) (xs : List K) (i : Int) : K :=
  if b = .zeroPad ∧ (i < 0 ∨ i ≥ xs.length) then 0 else xs.getD (specIndex b xs.length i).toNat 0

/-- What the code uses instead (left of the sequence the periodic and the mirrored index are off by one). -/
def codeIndex (b : Boundary) (n : Nat) (i : Int) : Int :=
  match b with
  | .periodic => if i < 0 then n - 1 + i else if i ≥ n then i - n else i
  | .reflection => if i < 0 then 1 - i else if i ≥ n then 2 * (n - 1) - i else i
  | _ => if i < 0 then 0 else if i ≥ n then n - 1 else i

def codeExtended (b : Boundary) (xs : List K) (i : Int) : K :=
  if b = .zeroPad ∧ (i < 0 ∨ i ≥ xs.length) then 0 else xs.getD (codeIndex b xs.length i).toNat 0

theorem leftTap_eq (b : Boundary) (xs : List K) (i : Int) (nl : Nat) (h0 : -(nl : Int) ≤ i) (h : i < xs.length) (hn : nl + 1 ≤ xs.length)
    (hr : b = .reflection → nl + 2 ≤ xs.length) : leftTap b xs i = some (codeExtended b xs i) := by
  unfold leftTap codeExtended codeIndex
  split
  · rename_i hi
    cases b
    · simp only [reduceCtorEq, false_and, if_false, if_pos hi]
      rw [getI_eq _ _ (by omega) (by omega)]
    · have := hr rfl
      simp only [reduceCtorEq, false_and, if_false, if_pos hi]
      rw [getI_eq _ _ (by omega) (by omega)]
      congr 3; omega
    · simp [hi]
    · simp only [reduceCtorEq, false_and, if_false, if_pos hi]
      rw [getI_eq _ _ (by omega) (by omega)]
  · rename_i hi
    rw [getI_eq _ _ (by omega) h]
    cases b <;> simp [hi, not_le.mpr h]

theorem rightTap_eq (b : Boundary) (xs : List K) (i : Int) (h0 : 0 ≤ i) (h : i < 2 * xs.length - 1) : rightTap b xs i = some (codeExtended b xs i) := by
  unfold rightTap codeExtended codeIndex
  split
  · rename_i hi
    have hi0 : ¬ i < 0 := by omega
    cases b
    · simp only [reduceCtorEq, false_and, if_false, if_pos hi, if_neg hi0]
      rw [getI_eq _ _ (by omega) (by omega)]
    · simp only [reduceCtorEq, false_and, if_false, if_pos hi, if_neg hi0]
      rw [getI_eq _ _ (by omega) (by omega)]
    · simp [hi]
    · simp only [reduceCtorEq, false_and, if_false, if_pos hi, if_neg hi0]
      rw [getI_eq _ _ (by omega) (by omega)]
  · rename_i hi
    rw [getI_eq _ _ h0 (by omega)]
    cases b <;> simp [not_lt.mpr h0, hi]

theorem midTap_eq (b : Boundary) (xs : List K) (i : Int) (h0 : 0 ≤ i) (h : i < xs.length) : getI xs i = some (codeExtended b xs i) := by
  have := rightTap_eq b xs i h0 (by omega)
  unfold rightTap at this
  rwa [if_neg (by omega)] at this

/-- A kernel whose centre is one of its points. -/
def Kernel.Ok (k : Kernel K) : Prop := k.center < k.cs.length

/-- What the code computes. -/
theorem convolve_code (k : Kernel K) (hk : k.Ok) (xs : List K) (b : Boundary) (hn : k.cs.length ≤ xs.length) (hr : b = .reflection → k.center + 2 ≤ xs.length) :
    ∃ out, k.convolve xs b = some out ∧ out.length = xs.length ∧
      ∀ i < xs.length, out.getD i 0 = ∑ j ∈ Finset.range k.cs.length, k.cs.getD j 0 * codeExtended b xs ((i : Int) + j - k.center) := by
  unfold Kernel.Ok at hk
  set G : Nat → K := fun i => ∑ j ∈ Finset.range k.cs.length, k.cs.getD j 0 * codeExtended b xs ((i : Int) + j - k.center) with hG
  set nr := k.cs.length - 1 - k.center with hnr
  obtain ⟨o1, a1, a2, a3⟩ := writeLoop (fun i => tapSum k (leftTap b xs) i) G 0 (k.center + 1) (List.replicate xs.length 0) (le_refl _) (by simp; omega) fun t ht => by
    exact tapSum_eq _ _ _ _ fun j hj => leftTap_eq b xs _ k.center (by omega) (by omega) (by omega) hr
  obtain ⟨o2, b1, b2, b3⟩ := writeLoop (fun t => tapSum k (getI xs) ((k.center + 1 + t : Nat) : Int)) (fun t => G (k.center + 1 + t)) ((k.center + 1 : Nat) : Int) (xs.length - nr - (k.center + 1)) o1
    (by omega) (by rw [a2]; simp; omega) fun t ht => by
    refine tapSum_eq _ _ _ _ fun j hj => ?_
    rw [midTap_eq b xs _ (by omega) (by omega)]
  obtain ⟨o3, c1, c2, c3⟩ := writeLoop (fun t => tapSum k (rightTap b xs) ((xs.length : Int) - nr + t)) (fun t => G (xs.length - nr + t)) ((xs.length : Int) - nr) nr o2
    (by omega) (by rw [b2, a2]; simp) fun t ht => by
    refine tapSum_eq _ _ _ _ fun j hj => ?_
    rw [rightTap_eq b xs _ (by omega) (by omega)]
    congr 2; push_cast [Nat.cast_sub (show nr ≤ xs.length by omega)]; ring
  refine ⟨o3, ?_, by rw [c2, b2, a2]; simp, fun i hi => ?_⟩
  · unfold Kernel.convolve Kernel.convolveAt
    simp only [zero_add] at a1
    simp only [Nat.cast_add, Option.bind_eq_bind] at a1 b1 c1 ⊢
    rw [a1, Option.bind_some, b1, Option.bind_some]
    exact c1
  · rw [c3, b3, a3]
    split
    · congr 1; omega
    · split
      · congr 1; omega
      · rw [if_pos (by omega)]; congr 1

theorem codeIndex_range (b : Boundary) (n nl : Nat) (i : Int) (h0 : -(nl : Int) ≤ i) (h : i < 2 * n - 1) (hn : nl + 1 ≤ n) (hr : b = .reflection → nl + 2 ≤ n) :
    0 ≤ codeIndex b n i ∧ codeIndex b n i < n := by
  unfold codeIndex
  cases b
  · simp only; split <;> [skip; split] <;> omega
  · have := hr rfl
    simp only; split <;> [skip; split] <;> omega
  · simp only; split <;> [skip; split] <;> omega
  · simp only; split <;> [skip; split] <;> omega

/-- The values of the extended sequence are values of the sequence. -/
theorem codeExtended_mem (b : Boundary) (hb : b ≠ .zeroPad) (xs : List K) (nl : Nat) (i : Int) (h0 : -(nl : Int) ≤ i) (h : i < 2 * xs.length - 1) (hn : nl + 1 ≤ xs.length)
    (hr : b = .reflection → nl + 2 ≤ xs.length) : codeExtended b xs i ∈ xs := by
  obtain ⟨h1, h2⟩ := codeIndex_range b xs.length nl i h0 h hn hr
  unfold codeExtended
  rw [if_neg fun h => hb h.1, List.getD_eq_getElem _ _ (by omega)]
  exact List.getElem_mem _

/-- The code's rule is the specified one for `Extension` and `ZeroPad`, and for the other two inside of the sequence and to the right of it. -/
theorem codeExtended_eq (b : Boundary) (xs : List K) (i : Int) (h : i < 2 * xs.length - 1) (hb : (b = .extension ∨ b = .zeroPad) ∨ 0 ≤ i) :
    codeExtended b xs i = extended b xs i := by
  unfold codeExtended extended
  cases b
  · have hi : 0 ≤ i := by simpa using hb
    simp only [reduceCtorEq, false_and, if_false, codeIndex, specIndex, if_neg (not_lt.mpr hi)]
    split
    · rw [show i % (xs.length : Int) = i - xs.length from by
        rw [← Int.sub_emod_right, Int.emod_eq_of_lt (by omega) (by omega)]]
    · rw [Int.emod_eq_of_lt hi (by omega)]
  · have hi : 0 ≤ i := by simpa using hb
    simp only [reduceCtorEq, false_and, if_false, codeIndex, specIndex, if_neg (not_lt.mpr hi)]
  · rfl
  · rfl

/-! The theorems -/

/-- C52: with `Extension` and `ZeroPad` every point of the result is the sum of the kernel times the extended sequence around that point, for every kernel and every sequence that is at least
as long as the kernel. -/
theorem C52_convolve (k : Kernel K) (hk : k.center < k.cs.length) (xs : List K) (hn : k.cs.length ≤ xs.length) (b : Boundary) (hb : b = .extension ∨ b = .zeroPad) :
    ∃ out, k.convolve xs b = some out ∧ out.length = xs.length ∧
      ∀ i < xs.length, out.getD i 0 = ∑ j ∈ Finset.range k.cs.length, k.cs.getD j 0 * extended b xs ((i : Int) + j - k.center) := by
  obtain ⟨out, h1, h2, h3⟩ := convolve_code k hk xs b hn (by rintro rfl; simp at hb)
  refine ⟨out, h1, h2, fun i hi => ?_⟩
  rw [h3 i hi]
  refine Finset.sum_congr rfl fun j hj => ?_
  rw [Finset.mem_range] at hj
  rw [codeExtended_eq b xs _ (by omega) (Or.inl hb)]

/-- C52 (partial: the points whose window does not reach over the left end; there the rules of the code are wrong, see `C52_periodic_false` and `C52_reflection_false`): with `Periodic`
and `Reflection` too. -/
theorem C52_convolve_partial (k : Kernel K) (hk : k.center < k.cs.length) (xs : List K) (hn : k.cs.length ≤ xs.length) (b : Boundary) (hr : b = .reflection → k.center + 2 ≤ xs.length) :
    ∃ out, k.convolve xs b = some out ∧ out.length = xs.length ∧
      ∀ i < xs.length, k.center ≤ i → out.getD i 0 = ∑ j ∈ Finset.range k.cs.length, k.cs.getD j 0 * extended b xs ((i : Int) + j - k.center) := by
  obtain ⟨out, h1, h2, h3⟩ := convolve_code k hk xs b hn hr
  refine ⟨out, h1, h2, fun i hi hc => ?_⟩
  rw [h3 i hi]
  refine Finset.sum_congr rfl fun j hj => ?_
  rw [Finset.mem_range] at hj
  rw [codeExtended_eq b xs _ (by omega) (Or.inr (by omega))]

/-- C52: inside of the sequence the boundary rule plays no part. -/
theorem C52_interior (k : Kernel K) (hk : k.center < k.cs.length) (xs : List K) (hn : k.cs.length ≤ xs.length) (b : Boundary) (hr : b = .reflection → k.center + 2 ≤ xs.length) :
    ∃ out, k.convolve xs b = some out ∧
      ∀ i < xs.length, k.center ≤ i → i + k.cs.length ≤ xs.length + k.center → out.getD i 0 = ∑ j ∈ Finset.range k.cs.length, k.cs.getD j 0 * xs.getD (i + j - k.center) 0 := by
  obtain ⟨out, h1, h2, h3⟩ := convolve_code k hk xs b hn hr
  refine ⟨out, h1, fun i hi hc hc' => ?_⟩
  rw [h3 i hi]
  refine Finset.sum_congr rfl fun j hj => ?_
  rw [Finset.mem_range] at hj
  congr 1
  have e : ((i : Int) + j - k.center) = ((i + j - k.center : Nat) : Int) := by omega
  rw [e]
  have h := midTap_eq b xs ((i + j - k.center : Nat) : Int) (by omega) (by omega)
  rw [getI_eq _ _ (by omega) (by omega)] at h
  simpa using h.symm

theorem foldlM_none {α β : Type} (f : β → α → Option β) (a : α) (h : ∀ b, f b a = none) : ∀ (l : List α) (b : β), a ∈ l → l.foldlM f b = none
  | [], _, ha => by simp at ha
  | x :: l, b, ha => by
    rw [List.foldlM_cons]
    by_cases hx : x = a
    · rw [hx, h]; rfl
    · cases f b x with
      | none => rfl
      | some y => exact foldlM_none f a h l y ((List.mem_cons.mp ha).resolve_left (Ne.symm hx))

/-- C52: a sequence that is shorter than the kernel is always a panic. -/
theorem C52_short_panics (k : Kernel K) (hk : k.center < k.cs.length) (xs : List K) (hn : xs.length < k.cs.length) (b : Boundary) : k.convolve xs b = none := by
  have h1 : tapSum k (leftTap b xs) (k.center : Nat) = none := by
    unfold tapSum
    refine foldlM_none _ xs.length (fun sum => ?_) _ _ (by simpa using hn)
    have : leftTap b xs (((k.center : Nat) : Int) + (xs.length : Nat) - k.center) = none := by
      unfold leftTap getI
      rw [if_neg (by omega), if_neg (by omega)]
      exact List.getElem?_eq_none (by omega)
    rw [this]; rfl
  unfold Kernel.convolve Kernel.convolveAt
  dsimp only
  rw [foldlM_none _ k.center (fun o => by rw [h1]; rfl) _ _ (by simp)]
  rfl

/-- C52: a kernel whose weights have the sum 1 leaves constant sequences as they are, with every rule except for padding with zeros. -/
theorem C52_constant (k : Kernel K) (hk : k.center < k.cs.length) (hsum : k.cs.sum = 1) (c : K) (n : Nat) (hn : k.cs.length ≤ n) (b : Boundary) (hb : b ≠ .zeroPad)
    (hr : b = .reflection → k.center + 2 ≤ n) : k.convolve (List.replicate n c) b = some (List.replicate n c) := by
  obtain ⟨out, h1, h2, h3⟩ := convolve_code k hk (List.replicate n c) b (by simpa using hn) (by simpa using hr)
  rw [h1]
  congr 1
  rw [List.length_replicate] at h2 h3
  refine List.ext_getElem (by simp [h2]) fun i hi _ => ?_
  rw [h2] at hi
  rw [← List.getD_eq_getElem _ 0, h3 i hi, List.getElem_replicate]
  have : ∀ j ∈ Finset.range k.cs.length, k.cs.getD j 0 * codeExtended b (List.replicate n c) ((i : Int) + j - k.center) = k.cs.getD j 0 * c := by
    intro j hj
    rw [Finset.mem_range] at hj
    have := codeExtended_mem b hb (List.replicate n c) k.center ((i : Int) + j - k.center) (by omega) (by simp; omega) (by simp; omega) (by simpa using hr)
    rw [List.eq_of_mem_replicate this]
  rw [Finset.sum_congr rfl this, ← Finset.sum_mul]
  have e : ∑ j ∈ Finset.range k.cs.length, k.cs.getD j 0 = k.cs.sum := by
    rw [← Fin.sum_univ_eq_sum_range fun j => k.cs.getD j 0, ← List.sum_ofFn]
    congr 1
    exact List.ext_getElem (by simp) fun i h1 h2 => by simp [List.getElem_ofFn]
  rw [e, hsum, one_mul]

theorem sum_getD (l : List K) : ∑ j ∈ Finset.range l.length, l.getD j 0 = l.sum := by
  rw [← Fin.sum_univ_eq_sum_range fun j => l.getD j 0, ← List.sum_ofFn]
  congr 1
  exact List.ext_getElem (by simp) fun i h1 h2 => by simp [List.getElem_ofFn]

/-- C52: smoothing with weights that are not negative and have the sum 1 stays within the range of the sequence. -/
theorem C52_range [IsStrictOrderedRing K] (k : Kernel K) (hk : k.center < k.cs.length) (hsum : k.cs.sum = 1) (hpos : ∀ c ∈ k.cs, 0 ≤ c) (xs : List K) (hn : k.cs.length ≤ xs.length)
    (b : Boundary) (hb : b ≠ .zeroPad) (hr : b = .reflection → k.center + 2 ≤ xs.length) (lo hi : K) (hlo : ∀ x ∈ xs, lo ≤ x) (hhi : ∀ x ∈ xs, x ≤ hi) :
    ∃ out, k.convolve xs b = some out ∧ ∀ y ∈ out, lo ≤ y ∧ y ≤ hi := by
  obtain ⟨out, h1, h2, h3⟩ := convolve_code k hk xs b hn hr
  refine ⟨out, h1, fun y hy => ?_⟩
  obtain ⟨i, hi', rfl⟩ := List.getElem_of_mem hy
  rw [h2] at hi'
  rw [← List.getD_eq_getElem _ 0, h3 i hi']
  have hc : ∀ j ∈ Finset.range k.cs.length, 0 ≤ k.cs.getD j 0 := fun j hj => by
    rw [Finset.mem_range] at hj
    rw [List.getD_eq_getElem _ _ hj]; exact hpos _ (List.getElem_mem _)
  have hm : ∀ j ∈ Finset.range k.cs.length, codeExtended b xs ((i : Int) + j - k.center) ∈ xs := fun j hj => by
    rw [Finset.mem_range] at hj
    exact codeExtended_mem b hb xs k.center _ (by omega) (by omega) (by omega) hr
  have e : ∀ x : K, x = ∑ j ∈ Finset.range k.cs.length, k.cs.getD j 0 * x := fun x => by rw [← Finset.sum_mul, sum_getD, hsum, one_mul]
  constructor
  · conv_lhs => rw [e lo]
    exact Finset.sum_le_sum fun j hj => mul_le_mul_of_nonneg_left (hlo _ (hm j hj)) (hc j hj)
  · conv_rhs => rw [e hi]
    exact Finset.sum_le_sum fun j hj => mul_le_mul_of_nonneg_left (hhi _ (hm j hj)) (hc j hj)

theorem toNat_lits : Int.toNat 0 = 0 ∧ Int.toNat 1 = 1 ∧ Int.toNat 2 = 2 ∧ Int.toNat 3 = 3 ∧ Int.toNat 4 = 4 := ⟨rfl, rfl, rfl, rfl, rfl⟩

/-- Non-vacuity of `C52_convolve`, `C52_constant`, `C52_range`: the kernel (1/4, 1/2, 1/4) and a sequence of four numbers. -/
example : (1 : Nat) < [(1 / 4 : ℚ), 1 / 2, 1 / 4].length ∧ [(1 / 4 : ℚ), 1 / 2, 1 / 4].sum = 1 ∧ (∀ c ∈ [(1 / 4 : ℚ), 1 / 2, 1 / 4], 0 ≤ c) ∧
    [(1 / 4 : ℚ), 1 / 2, 1 / 4].length ≤ [(4 : ℚ), 0, 8, 4].length ∧
    (⟨[1 / 4, 1 / 2, 1 / 4], 1⟩ : Kernel ℚ).convolve [4, 0, 8, 4] .extension = some [3, 3, 5, 5] := by
  have h2 : List.range 3 = [0, 1, 2] := by decide
  have h1 : List.range 2 = [0, 1] := by decide
  refine ⟨by norm_num, by norm_num, ?_, by simp, ?_⟩
  · intro c hc; fin_cases hc <;> norm_num
  · norm_num [Kernel.convolve, Kernel.convolveAt, tapSum, leftTap, rightTap, getI, write, h2, h1, toNat_lits, List.replicate]

/-- C52 is false for `Periodic`: a kernel that copies the value before each point gives the third number at the first point, where the last one of four is due. -/
theorem C52_periodic_false : ∃ out, (⟨[1, 0, 0], 1⟩ : Kernel ℚ).convolve [10, 20, 30, 40] .periodic = some out ∧ out.getD 0 0 = 30 ∧
    extended .periodic [(10 : ℚ), 20, 30, 40] (-1) = 40 := by
  have h2 : List.range 3 = [0, 1, 2] := by decide
  have h1 : List.range 2 = [0, 1] := by decide
  refine ⟨[30, 10, 20, 30], ?_, rfl, ?_⟩
  · norm_num [Kernel.convolve, Kernel.convolveAt, tapSum, leftTap, rightTap, getI, write, h2, h1, toNat_lits, List.replicate]
  · norm_num [extended, specIndex]
    rfl

/-- C52 is false for `Reflection`: the two ends are not treated alike.  The reversed sequence smoothed with a symmetric kernel is not the reversed result. -/
theorem C52_reflection_false : ∃ out out', (⟨[1, 0, 1], 1⟩ : Kernel ℚ).convolve [1, 2, 4, 8] .reflection = some out ∧
    (⟨[1, 0, 1], 1⟩ : Kernel ℚ).convolve [1, 2, 4, 8].reverse .reflection = some out' ∧ out' ≠ out.reverse := by
  have h2 : List.range 3 = [0, 1, 2] := by decide
  have h1 : List.range 2 = [0, 1] := by decide
  refine ⟨[6, 5, 10, 8], [6, 10, 5, 4], ?_, ?_, by decide⟩ <;>
    norm_num [Kernel.convolve, Kernel.convolveAt, tapSum, leftTap, rightTap, getI, write, h2, h1, toNat_lits, List.replicate]

theorem extended_reverse (b : Boundary) (hb : b = .extension ∨ b = .zeroPad) (xs : List K) (hx : xs ≠ []) (i : Int) :
    extended b xs.reverse i = extended b xs (xs.length - 1 - i) := by
  have hl : 0 < xs.length := List.length_pos_iff.mpr hx
  have key : ∀ i : Nat, i < xs.length → xs.reverse.getD i 0 = xs.getD (xs.length - 1 - i) 0 := fun i hi => by
    rw [List.getD_eq_getElem _ _ (by simpa using hi), List.getD_eq_getElem _ _ (by omega), List.getElem_reverse]
  unfold extended specIndex
  rcases hb with rfl | rfl
  · simp only [reduceCtorEq, false_and, if_false, List.length_reverse]
    rw [key _ (by split <;> [skip; split] <;> omega)]
    congr 1
    split <;> split <;> (try split) <;> (try split) <;> omega
  · simp only [true_and, List.length_reverse]
    by_cases hc : i < 0 ∨ i ≥ xs.length
    · rw [if_pos hc, if_pos (by omega)]
    · rw [if_neg hc, if_neg (by omega), if_neg (by omega), if_neg (by omega), if_neg (by omega), if_neg (by omega), key _ (by omega)]
      congr 1; omega

/-- C52: with `Extension` and `ZeroPad` both ends are treated alike: a symmetric kernel gives the reversed result for the reversed sequence. -/
theorem C52_reverse (k : Kernel K) (hk : k.cs.length = 2 * k.center + 1) (hsym : k.cs.reverse = k.cs) (xs : List K) (hn : k.cs.length ≤ xs.length) (b : Boundary)
    (hb : b = .extension ∨ b = .zeroPad) : k.convolve xs.reverse b = (k.convolve xs b).map List.reverse := by
  obtain ⟨out, h1, h2, h3⟩ := C52_convolve k (by omega) xs hn b hb
  obtain ⟨out', g1, g2, g3⟩ := C52_convolve k (by omega) xs.reverse (by simpa using hn) b hb
  rw [h1, g1, Option.map_some]
  congr 1
  rw [List.length_reverse] at g2 g3
  refine List.ext_getElem (by simp [g2, h2]) fun i hi _ => ?_
  rw [g2] at hi
  rw [← List.getD_eq_getElem _ 0, g3 i hi, List.getElem_reverse, ← List.getD_eq_getElem _ 0, h3 _ (by omega)]
  rw [← Finset.sum_range_reflect]
  refine Finset.sum_congr rfl fun j hj => ?_
  rw [Finset.mem_range] at hj
  rw [extended_reverse b hb xs (by rintro rfl; simp at hi)]
  congr 1
  · have e : ∀ l, k.cs.getD l 0 = k.cs.reverse.getD l 0 := fun l => by rw [hsym]
    rw [e, List.getD_eq_getElem _ _ (by rw [List.length_reverse]; omega), List.getElem_reverse, List.getD_eq_getElem _ _ hj]
    congr 1; omega
  · congr 1; push_cast [Nat.cast_sub (show j ≤ k.cs.length - 1 by omega), Nat.cast_sub (show i ≤ out.length - 1 by omega), Nat.cast_sub (show 1 ≤ out.length by omega), Nat.cast_sub (show 1 ≤ k.cs.length by omega)]; omega

/-- Non-vacuity of `C52_reverse`. -/
example : [(1 / 4 : ℚ), 1 / 2, 1 / 4].length = 2 * 1 + 1 ∧ [(1 / 4 : ℚ), 1 / 2, 1 / 4].reverse = [1 / 4, 1 / 2, 1 / 4] := ⟨rfl, rfl⟩

/-! `Get` -/

/-- C52: `Get` follows the rule for every index with `Extension` and `ZeroPad`. -/
theorem C52_get (b : Boundary) (hb : b = .extension ∨ b = .zeroPad) (xs : List K) (hx : xs ≠ []) (i : Int) : b.get xs i = some (extended b xs i) := by
  have hl : 0 < xs.length := List.length_pos_iff.mpr hx
  unfold Boundary.get extended specIndex
  rcases hb with rfl | rfl
  · simp only [reduceCtorEq, false_and, if_false]
    split <;> [skip; split] <;> rw [getI_eq _ _ (by omega) (by omega)]
  · simp only [true_and]
    split
    · rename_i h; rw [if_pos (Or.inl h)]
    · split
      · rename_i h; rw [if_pos (Or.inr h)]
      · rw [if_neg (by omega), getI_eq _ _ (by omega) (by omega)]

/-- C52 (partial: `Periodic`, up to one length to the right, not to the left): `Get`. -/
theorem C52_get_partial (xs : List K) (i : Int) (h0 : 0 ≤ i) (h : i < 2 * xs.length) : Boundary.periodic.get xs i = some (extended .periodic xs i) := by
  unfold Boundary.get extended specIndex
  simp only [reduceCtorEq, false_and, if_false, if_neg (not_lt.mpr h0)]
  split
  · rw [getI_eq _ _ (by omega) (by omega), ← Int.sub_emod_right, Int.emod_eq_of_lt (by omega) (by omega)]
  · rw [getI_eq _ _ (by omega) (by omega), Int.emod_eq_of_lt h0 (by omega)]

/-- C52 is false for `Get` with `Periodic` (the point before the first one is the last but one) and with `Reflection` (the point after the last one is a panic, for every sequence). -/
theorem C52_get_false : Boundary.periodic.get [(10 : ℚ), 20, 30, 40] (-1) = some 30 ∧ ∀ xs : List K, Boundary.reflection.get xs xs.length = none := by
  refine ⟨by norm_num [Boundary.get, getI, toNat_lits], fun xs => ?_⟩
  unfold Boundary.get getI
  rw [if_neg (by omega), if_pos (by omega)]
  simp only
  rw [if_neg (by omega)]
  exact List.getElem?_eq_none (by omega)

/-! The kernels -/

theorem foldl_add (l : List K) (a : K) : l.foldl (· + ·) a = a + l.sum := by
  induction l generalizing a with
  | nil => simp
  | cons x l ih => rw [List.foldl_cons, ih, List.sum_cons, add_assoc]

theorem sum_map_div (l : List K) (c : K) : (l.map (· / c)).sum = l.sum / c := by
  induction l with
  | nil => simp
  | cons x l ih => rw [List.map_cons, List.sum_cons, ih, List.sum_cons, add_div]

theorem normalize_sum (cs : List K) (h : cs.sum ≠ 0) : (normalize cs).sum = 1 := by
  unfold normalize
  dsimp only
  rw [foldl_add, zero_add, sum_map_div, div_self h]

/-- C52: the tophat kernel of every odd width: equal weights with the sum 1; even widths are a panic. -/
theorem C52_tophat [IsStrictOrderedRing K] (width : Nat) :
    (newTophatKernel width : Option (Kernel K)) = if width % 2 = 1 then some ⟨List.replicate width (1 / width), width / 2⟩ else none := by
  unfold newTophatKernel
  by_cases h : width % 2 = 1
  · rw [if_neg (by simpa using h), if_pos h]
    unfold normalize
    simp [foldl_add]
  · rw [if_pos h, if_neg h]

/-- C52: the Gaussian kernel of every odd width: the weights are positive and have the sum 1, each is the weight of the centre times `exp(-d²/(2 sigma²))` for its distance `d` from the centre. -/
theorem C52_gaussian (n : Nat) (sigma dx : ℝ) : ∃ k, newGaussianKernel (2 * n + 1) sigma dx = some k ∧ k.center = n ∧ k.cs.length = 2 * n + 1 ∧ k.cs.sum = 1 ∧ (∀ c ∈ k.cs, 0 < c) ∧
    k.cs.reverse = k.cs ∧ ∀ j < 2 * n + 1, k.cs.getD j 0 = k.cs.getD n 0 * Real.exp (-(((j : ℝ) - n) * dx) ^ 2 / (2 * sigma ^ 2)) := by
  have hc : (2 * n + 1) / 2 = n := by omega
  set f : Nat → ℝ := fun j => Real.exp (-(((j : ℝ) - n) * dx) ^ 2 / (2 * sigma ^ 2)) with hf
  have hfsym : ∀ j ≤ 2 * n, f (2 * n - j) = f j := fun j hj => by
    rw [hf]
    dsimp only
    congr 3
    rw [Nat.cast_sub hj]; push_cast; ring
  have hraw : ((List.range (n + 1)).map fun (i : Nat) => let x := ((i : ℝ) - n) * dx; Real.exp (-x * x / (2 * sigma * sigma))) ++
      (List.range (2 * n + 1 - (n + 1))).map (fun t => ((List.range (n + 1)).map fun (i : Nat) => let x := ((i : ℝ) - n) * dx; Real.exp (-x * x / (2 * sigma * sigma))).getD (2 * n + 1 - 1 - (n + 1 + t)) 0) =
      (List.range (2 * n + 1)).map f := by
    have e : (fun (i : Nat) => let x := ((i : ℝ) - n) * dx; Real.exp (-x * x / (2 * sigma * sigma))) = f := by
      funext i; rw [hf]; dsimp only; congr 1; ring
    rw [e]
    refine List.ext_getElem (by simp; omega) fun i h1 h2 => ?_
    rw [List.getElem_append]
    split
    · simp
    · rename_i hi
      rw [List.length_map, List.length_range] at hi
      simp only [List.length_map, List.length_range] at h2
      simp only [List.getElem_map, List.getElem_range, List.length_map, List.length_range]
      rw [List.getD_eq_getElem _ _ (by simp; omega)]
      simp only [List.getElem_map, List.getElem_range]
      rw [← hfsym i (by omega)]
      congr 1; omega
  have hpos : ∀ j, 0 < f j := fun j => Real.exp_pos _
  have hSpos : 0 < ((List.range (2 * n + 1)).map f).sum := by
    refine List.sum_pos _ ?_ (by simp)
    intro x hx
    obtain ⟨j, -, rfl⟩ := List.mem_map.mp hx
    exact hpos j
  refine ⟨⟨normalize ((List.range (2 * n + 1)).map f), n⟩, ?_, rfl, by simp [normalize], normalize_sum _ hSpos.ne', ?_, ?_, ?_⟩
  · unfold newGaussianKernel
    rw [if_neg (by omega)]
    simp only [hc]
    rw [← hraw]
  · intro c hcm
    simp only [normalize, List.mem_map] at hcm
    obtain ⟨x, ⟨j, -, rfl⟩, rfl⟩ := hcm
    rw [foldl_add, zero_add]
    exact div_pos (hpos j) hSpos
  · simp only [normalize]
    rw [← List.map_reverse]
    congr 1
    refine List.ext_getElem (by simp) fun i h1 h2 => ?_
    simp only [List.length_reverse, List.length_map, List.length_range] at h1
    rw [List.getElem_reverse]
    simp only [List.getElem_map, List.getElem_range, List.length_map, List.length_range]
    rw [← hfsym i (by omega)]
    congr 1
  · intro j hj
    have hg : ∀ j < 2 * n + 1, (normalize ((List.range (2 * n + 1)).map f)).getD j 0 = f j / ((List.range (2 * n + 1)).map f).sum := fun j hj => by
      rw [List.getD_eq_getElem _ _ (by simpa [normalize] using hj)]
      simp [normalize, foldl_add]
    show (normalize _).getD j 0 = (normalize _).getD n 0 * f j
    rw [hg j hj, hg n (by omega)]
    have : f n = 1 := by rw [hf]; simp
    rw [this]; ring

/-- The two kernels satisfy the hypotheses of the theorems on constants and ranges. -/
example : ∃ k, (newTophatKernel 5 : Option (Kernel ℚ)) = some k ∧ k.center < k.cs.length ∧ k.cs.sum = 1 ∧ ∀ c ∈ k.cs, 0 ≤ c := by
  refine ⟨_, C52_tophat 5, by simp, by norm_num, fun c hc => ?_⟩
  rw [List.eq_of_mem_replicate hc]; norm_num

end Shellfish.Smooth
