/-
C41: products and transposition (math/mat/mat.go), on flat slices.
-/
import Verif.Model.Mat
import Mathlib.Algebra.BigOperators.Intervals
import Mathlib.Algebra.Order.Field.Basic
import Mathlib.Data.Nat.ModEq
import Mathlib.Tactic.Linarith
import Mathlib.Tactic.Ring
import Mathlib.Tactic.NormNum

namespace Shellfish.Mat

open Finset (range)

variable {K : Type} [Field K] [LinearOrder K]

/-- The entry in row `y` and column `x` of a matrix (0 outside). -/
def Matrix.at (m : Matrix K) (y x : Nat) : K := m.vals.getD (y * m.width + x) 0

/-- The shape of a matrix made with `NewMatrix`. -/
def Matrix.wf (m : Matrix K) : Prop := 0 < m.width ∧ 0 < m.height ∧ m.vals.length = m.width * m.height

theorem idx_lt {w h x y : Nat} (hx : x < w) (hy : y < h) : y * w + x < w * h := by
  have : (y + 1) * w ≤ h * w := Nat.mul_le_mul_right _ hy
  rw [Nat.mul_comm w h]
  rw [Nat.add_mul] at this; omega

theorem getElem?_getD {l : List K} {i : Nat} (h : i < l.length) : l[i]? = some (l.getD i 0) := by
  simp [List.getD, h]

theorem foldlM_sum (f : Nat → K) (g : K → Nat → Option K) (n : Nat) (hg : ∀ s, ∀ i < n, g s i = some (s + f i)) (s : K) :
    (List.range n).foldlM g s = some (s + ∑ i ∈ range n, f i) := by
  induction n with
  | zero => simp
  | succ n ih =>
    rw [List.range_succ, List.foldlM_append, ih fun s i hi => hg s i (by omega)]
    simp only [Option.bind_eq_bind, Option.bind_some, List.foldlM_cons, List.foldlM_nil]
    rw [hg _ n (by omega), Finset.sum_range_succ]
    simp [add_assoc]

theorem mapM_range (f : Nat → K) (g : Nat → Option K) (n : Nat) (hg : ∀ i < n, g i = some (f i)) : (List.range n).mapM g = some ((List.range n).map f) := by
  have : ∀ l : List Nat, (∀ i ∈ l, i < n) → l.mapM g = some (l.map f) := by
    intro l
    induction l with
    | nil => intro _; rfl
    | cons a l ih =>
      intro h
      rw [List.mapM_cons, hg a (h a (by simp)), ih fun i hi => h i (by simp [hi])]
      rfl
  exact this _ fun i hi => List.mem_range.mp hi

/-- C41: `MultVec` is the product of a matrix and a column vector, for every shape. -/
theorem C41_mult_vec (m : Matrix K) (v out : List K) (hm : m.wf) (hv : v.length = m.width) (ho : out.length = m.height) :
    ∃ r, multVec m v out = some r ∧ r.length = m.height ∧ ∀ j < m.height, r.getD j 0 = ∑ i ∈ range m.width, m.at j i * v.getD i 0 := by
  unfold multVec
  rw [if_neg (by simp [hv, ho])]
  rw [mapM_range (fun j => ∑ i ∈ range m.width, m.at j i * v.getD i 0)]
  · exact ⟨_, rfl, by simp, fun j hj => by simp [List.getD, hj]⟩
  · intro j hj
    rw [foldlM_sum fun i => m.at j i * v.getD i 0]
    · rw [zero_add]
    · intro s i hi
      rw [getElem?_getD (by rw [hm.2.2]; exact idx_lt hi hj), getElem?_getD (by omega)]
      rfl

/-- C41: `VecMult` is the product of a row vector and a matrix, for every shape. -/
theorem C41_vec_mult (m : Matrix K) (v out : List K) (hm : m.wf) (hv : v.length = m.height) (ho : out.length = m.width) :
    ∃ r, vecMult v m out = some r ∧ r.length = m.width ∧ ∀ i < m.width, r.getD i 0 = ∑ j ∈ range m.height, v.getD j 0 * m.at j i := by
  unfold vecMult
  rw [if_neg (by simp [hv, ho])]
  rw [mapM_range (fun i => ∑ j ∈ range m.height, v.getD j 0 * m.at j i)]
  · exact ⟨_, rfl, by simp, fun j hj => by simp [List.getD, hj]⟩
  · intro i hi
    rw [foldlM_sum fun j => v.getD j 0 * m.at j i]
    · rw [zero_add]
    · intro s j hj
      rw [getElem?_getD (by omega), getElem?_getD (l := m.vals) (by rw [hm.2.2, Nat.add_comm, Nat.mul_comm m.width j]; exact idx_lt hi hj)]
      show some _ = some _
      rw [Matrix.at, Nat.add_comm i, Nat.mul_comm m.width j]

/-! The product of matrices -/

/-- A computation on a slice of length `N` that adds `g idx` to every cell. -/
def Adds (N : Nat) (f : List K → Option (List K)) (g : Nat → K) : Prop :=
  ∀ out : List K, out.length = N → ∃ r, f out = some r ∧ r.length = N ∧ ∀ idx < N, r.getD idx 0 = out.getD idx 0 + g idx

theorem adds_foldlM (N : Nat) (f : List K → Nat → Option (List K)) (g : Nat → Nat → K) (n : Nat) (h : ∀ i < n, Adds N (fun o => f o i) (g i)) :
    Adds N (fun o => (List.range n).foldlM f o) fun idx => ∑ i ∈ range n, g i idx := by
  induction n with
  | zero => intro out ho; exact ⟨out, rfl, ho, fun idx _ => by simp⟩
  | succ n ih =>
    intro out ho
    obtain ⟨r, h1, h2, h3⟩ := ih (fun i hi => h i (by omega)) out ho
    obtain ⟨r', g1, g2, g3⟩ := h n (by omega) r h2
    refine ⟨r', ?_, g2, fun idx hi => ?_⟩
    · dsimp only at h1 g1 ⊢
      rw [List.range_succ, List.foldlM_append, h1]
      simp only [Option.bind_eq_bind, Option.bind_some, List.foldlM_cons, List.foldlM_nil, g1]
      rfl
    · rw [g3 idx hi, h3 idx hi]
      dsimp only
      rw [Finset.sum_range_succ, add_assoc]

theorem adds_cell (N : Nat) (c : Nat) (hc : c < N) (x : K) : Adds N (fun o => addAt o c x) fun idx => if idx = c then x else 0 := by
  intro out ho
  have : c < out.length := by omega
  refine ⟨out.set c (out[c] + x), by simp [addAt, this], by simpa using ho, fun idx hi => ?_⟩
  by_cases h : idx = c
  · subst h; simp [List.getD, this]
  · dsimp only; rw [if_neg h]; simp [List.getD, List.getElem?_set_ne (Ne.symm h)]

/-- C41 (partial: matrices of the same width, or products of one row; see `C41_mult_false`): `Mult` is the product of matrices. -/
theorem C41_mult_partial (m1 m2 : Matrix K) (h1 : m1.wf) (h2 : m2.wf) (hshape : m1.width = m2.height) (hw : m1.width = m2.width ∨ m1.height = 1) :
    ∃ r, mult m1 m2 = some r ∧ r.width = m2.width ∧ r.height = m1.height ∧ r.wf ∧
      ∀ i < m1.height, ∀ j < m2.width, r.at i j = ∑ k ∈ range m1.width, m1.at i k * m2.at k j := by
  unfold mult newMatrix
  rw [if_neg (by have := h2.1; omega), if_neg (by have := h1.2.1; omega), if_neg (by simp [Nat.mul_comm])]
  simp only [Option.bind_eq_bind, Option.bind_some]
  unfold multAt
  rw [if_neg (by simp [hshape])]
  have hcell : ∀ i < m1.height, ∀ j < m2.width, i * m1.width + j < m2.width * m1.height := by
    intro i hi j hj
    have e : i * m1.width = i * m2.width := by
      rcases hw with h | h
      · rw [h]
      · have : i = 0 := by omega
        simp [this]
    rw [e]; exact idx_lt hj hi
  have hadd : ∀ i < m1.height, ∀ j < m2.width, ∀ k < m1.width,
      Adds (m2.width * m1.height) (fun o => multCell m1 m2 (i * m1.width) j o k) fun idx => if idx = i * m1.width + j then m1.at i k * m2.at k j else 0 := by
    intro i hi j hj k hk out ho
    obtain ⟨r, a1, a2, a3⟩ := adds_cell (m2.width * m1.height) (i * m1.width + j) (hcell i hi j hj) (m1.at i k * m2.at k j) out ho
    refine ⟨r, ?_, a2, a3⟩
    unfold multCell
    rw [getElem?_getD (by rw [h1.2.2]; exact idx_lt hk hi), getElem?_getD (l := m2.vals) (by rw [h2.2.2]; exact idx_lt hj (by omega))]
    exact a1
  have hall := adds_foldlM (m2.width * m1.height) _ _ m1.height fun i hi => adds_foldlM (m2.width * m1.height) _ _ m2.width fun j hj =>
    adds_foldlM (m2.width * m1.height) (multCell m1 m2 (i * m1.width) j) _ m1.width fun k hk => hadd i hi j hj k hk
  obtain ⟨r, r1, r2, r3⟩ := hall ((List.replicate (m1.height * m2.width) (0 : K)).map fun _ => 0) (by simp [Nat.mul_comm])
  dsimp only at r1
  refine ⟨⟨r, m2.width, m1.height⟩, by rw [r1]; rfl, rfl, rfl, ⟨h2.1, h1.2.1, r2⟩, fun i hi j hj => ?_⟩
  show r.getD (i * m2.width + j) 0 = _
  rw [r3 _ (idx_lt hj hi)]
  have hz : ((List.replicate (m1.height * m2.width) (0 : K)).map fun _ => (0 : K)).getD (i * m2.width + j) 0 = 0 := by
    simp [List.getD, List.getElem?_replicate]; split <;> rfl
  rw [hz, zero_add]
  dsimp only
  rw [Finset.sum_eq_single i, Finset.sum_eq_single j]
  · refine Finset.sum_congr rfl fun k _ => ?_
    rw [if_pos]
    rcases hw with h | h
    · rw [h]
    · have : i = 0 := by omega
      simp [this]
  · intro j' _ hne
    refine Finset.sum_eq_zero fun k _ => ?_
    rw [if_neg]
    rcases hw with h | h
    · rw [h]; omega
    · have : i = 0 := by omega
      simp [this]; omega
  · intro h; exact absurd (Finset.mem_range.mpr hj) h
  · intro i' hi' hne
    refine Finset.sum_eq_zero fun j' hj' => Finset.sum_eq_zero fun k _ => ?_
    rw [if_neg]
    have hj'' := Finset.mem_range.mp hj'
    have hi'' := Finset.mem_range.mp hi'
    rcases hw with h | h
    · rw [h]
      intro heq
      refine hne ?_
      have e1 : (i * m2.width + j) / m2.width = i := by
        rw [Nat.add_comm, Nat.mul_comm, Nat.add_mul_div_left _ _ h2.1, Nat.div_eq_of_lt hj, Nat.zero_add]
      have e2 : (i' * m2.width + j') / m2.width = i' := by
        rw [Nat.add_comm, Nat.mul_comm, Nat.add_mul_div_left _ _ h2.1, Nat.div_eq_of_lt hj'', Nat.zero_add]
      rw [heq, e2] at e1
      exact e1
    · exact absurd (show i' = i by omega) hne
  · intro h; exact absurd (Finset.mem_range.mpr hi) h

/-- Non-vacuity of `C41_mult_partial`: 2 x 2 matrices. -/
example : mult (⟨[1, 2, 3, 4], 2, 2⟩ : Matrix ℚ) ⟨[0, 1, 1, 0], 2, 2⟩ = some ⟨[2, 1, 4, 3], 2, 2⟩ := by
  norm_num [mult, newMatrix, multAt, multCell, addAt, List.range_succ, List.replicate]

/-- C41 is false for products with more than one row of matrices of different widths: a column times a row is wrong, and a square matrix times a column panics. -/
theorem C41_mult_false : mult (⟨[1, 1], 1, 2⟩ : Matrix ℚ) ⟨[1, 1], 2, 1⟩ = some ⟨[1, 2, 1, 0], 2, 2⟩ ∧ mult (⟨[1, 0, 0, 1], 2, 2⟩ : Matrix ℚ) ⟨[1, 1], 1, 2⟩ = none := by
  constructor <;> norm_num [mult, newMatrix, multAt, multCell, addAt, List.range_succ, List.replicate]

/-! Transposition -/

/-- A computation that copies the cells of the source in a set to their mirrored places and leaves the others. -/
def Copies (m : List K) (width height : Nat) (f : List K → Option (List K)) (P : Nat → Nat → Prop) : Prop :=
  ∀ out : List K, out.length = width * height → ∃ r, f out = some r ∧ r.length = width * height ∧
    ∀ x < width, ∀ y < height, (P x y → r.getD (x * height + y) 0 = m.getD (y * width + x) 0) ∧ (¬ P x y → r.getD (x * height + y) 0 = out.getD (x * height + y) 0)

theorem Copies.bind {m : List K} {w h : Nat} {f g : List K → Option (List K)} {P Q R : Nat → Nat → Prop} (hf : Copies m w h f P) (hg : Copies m w h g Q) (hR : ∀ x y, R x y ↔ P x y ∨ Q x y) :
    Copies m w h (fun o => (f o).bind g) R := by
  intro out ho
  obtain ⟨r, r1, r2, r3⟩ := hf out ho
  obtain ⟨t, t1, t2, t3⟩ := hg r r2
  refine ⟨t, by simp [r1, t1], t2, fun x hx y hy => ⟨fun h => ?_, fun h => ?_⟩⟩
  · by_cases hq : Q x y
    · exact (t3 x hx y hy).1 hq
    · rw [(t3 x hx y hy).2 hq]
      exact (r3 x hx y hy).1 (((hR x y).mp h).resolve_right hq)
  · rw [hR] at h
    rw [(t3 x hx y hy).2 fun hq => h (Or.inr hq), (r3 x hx y hy).2 fun hp => h (Or.inl hp)]

theorem copies_foldlM {m : List K} {w h : Nat} (f : List K → Nat → Option (List K)) (P : Nat → Nat → Nat → Prop) (n : Nat) (hf : ∀ i < n, Copies m w h (fun o => f o i) (P i)) :
    Copies m w h (fun o => (List.range n).foldlM f o) fun x y => ∃ i < n, P i x y := by
  induction n with
  | zero => intro out ho; exact ⟨out, rfl, ho, fun x _ y _ => ⟨fun ⟨i, hi, _⟩ => absurd hi (by omega), fun _ => rfl⟩⟩
  | succ n ih =>
    have hb := (ih fun i hi => hf i (by omega)).bind (hf n (by omega)) (R := fun x y => ∃ i < n + 1, P i x y) (by
      intro x y
      constructor
      · rintro ⟨i, hi, hp⟩
        by_cases h : i = n
        · subst h; exact Or.inr hp
        · exact Or.inl ⟨i, by omega, hp⟩
      · rintro (⟨i, hi, hp⟩ | hp)
        · exact ⟨i, by omega, hp⟩
        · exact ⟨n, by omega, hp⟩)
    intro out ho
    obtain ⟨r, r1, r2, r3⟩ := hb out ho
    refine ⟨r, ?_, r2, r3⟩
    dsimp only at r1 ⊢
    rw [List.range_succ, List.foldlM_append, ← r1]
    show Option.bind _ _ = Option.bind _ _
    congr 1
    funext o
    simp [List.foldlM_cons]

theorem mirror_inj {h x y x' y' : Nat} (hy : y < h) (hy' : y' < h) (heq : x * h + y = x' * h + y') : x = x' ∧ y = y' := by
  have e1 : (x * h + y) / h = x := by rw [Nat.add_comm, Nat.mul_comm, Nat.add_mul_div_left _ _ (by omega), Nat.div_eq_of_lt hy, Nat.zero_add]
  have e2 : (x' * h + y') / h = x' := by rw [Nat.add_comm, Nat.mul_comm, Nat.add_mul_div_left _ _ (by omega), Nat.div_eq_of_lt hy', Nat.zero_add]
  have : x = x' := by rw [← e1, heq, e2]
  subst this
  exact ⟨rfl, by omega⟩

theorem copies_base (m : List K) (w h : Nat) (hm : m.length = w * h) (xl yl xw yw : Nat) (hx : xl + xw ≤ w) (hy : yl + yw ≤ h) :
    Copies m w h (baseTranspose m w h xl yl xw yw yl xl) fun x y => (xl ≤ x ∧ x < xl + xw) ∧ yl ≤ y ∧ y < yl + yw := by
  have hcell : ∀ y < yw, ∀ x < xw, Copies m w h (fun o => transposeRow m w h xl (yl + y) (yl + y) xl o x) fun a b => a = xl + x ∧ b = yl + y := by
    intro y hy' x hx' out ho
    have hi : (xl + x) * h + (yl + y) < out.length := by rw [ho, Nat.mul_comm w h]; exact idx_lt (by omega) (by omega)
    refine ⟨out.set ((xl + x) * h + (yl + y)) (m.getD ((yl + y) * w + (xl + x)) 0), ?_, by simpa using ho, fun a ha b hb => ⟨?_, fun hne => ?_⟩⟩
    · dsimp only [transposeRow]
      rw [getElem?_getD (by rw [hm]; exact idx_lt (by omega) (by omega)), Option.bind_some, if_pos hi]
    · rintro ⟨rfl, rfl⟩
      simp [List.getD, hi]
    · have : (xl + x) * h + (yl + y) ≠ a * h + b := by
        intro heq
        obtain ⟨e1, e2⟩ := mirror_inj (by omega) hb heq
        exact hne ⟨e1.symm, e2.symm⟩
      simp [List.getD, List.getElem?_set_ne this]
  have hrow := copies_foldlM _ _ yw fun y hy' => copies_foldlM (transposeRow m w h xl (yl + y) (yl + y) xl) _ xw fun x hx' => hcell y hy' x hx'
  intro out ho
  obtain ⟨r, r1, r2, r3⟩ := hrow out ho
  refine ⟨r, r1, r2, fun x hx' y hy' => ⟨fun hp => (r3 x hx' y hy').1 ⟨y - yl, by omega, x - xl, by omega, by omega, by omega⟩, fun hp => (r3 x hx' y hy').2 ?_⟩⟩
  rintro ⟨j, hj, i, hi, rfl, rfl⟩
  exact hp ⟨⟨by omega, by omega⟩, by omega, by omega⟩

theorem copies_rec (rec : Nat) (hrec : 0 < rec) (m : List K) (w h : Nat) (hm : m.length = w * h) (xl yl xw yw : Nat) (hx : xl + xw ≤ w) (hy : yl + yw ≤ h) :
    Copies m w h (recTranspose rec hrec m w h xl yl xw yw yl xl) fun x y => (xl ≤ x ∧ x < xl + xw) ∧ yl ≤ y ∧ y < yl + yw := by
  induction hn : xw + yw using Nat.strong_induction_on generalizing xl yl xw yw with
  | _ n ih =>
    intro out ho
    rw [recTranspose]
    split
    · exact copies_base m w h hm xl yl xw yw hx hy out ho
    · rename_i hbig
      split
      · rename_i hgt
        refine Copies.bind (ih _ ?_ xl yl (xw / 2) yw (by omega) hy rfl) (ih _ ?_ (xl + xw / 2) yl (xw - xw / 2) yw (by omega) hy rfl) ?_ out ho
        · omega
        · omega
        · intro x y; omega
      · rename_i hle
        refine Copies.bind (ih _ ?_ xl yl xw (yw / 2) hx (by omega) rfl) (ih _ ?_ xl (yl + yw / 2) xw (yw - yw / 2) hx (by omega) rfl) ?_ out ho
        · omega
        · omega
        · intro x y; omega

/-- C41: `Transpose` exchanges rows and columns, for every shape (however the recursion splits the matrix). -/
theorem C41_transpose (m : Matrix K) (hm : m.wf) :
    ∃ t, transpose m = some t ∧ t.width = m.height ∧ t.height = m.width ∧ t.wf ∧ ∀ x < m.width, ∀ y < m.height, t.at x y = m.at y x := by
  unfold transpose newMatrix
  rw [if_neg (by have := hm.2.1; omega), if_neg (by have := hm.1; omega), if_neg (by simp)]
  simp only [Option.bind_eq_bind, Option.bind_some]
  obtain ⟨r, r1, r2, r3⟩ := copies_rec 16000000 (by decide) m.vals m.width m.height hm.2.2 0 0 m.width m.height (by omega) (by omega)
    (List.replicate (m.height * m.width) 0) (by simp [Nat.mul_comm])
  rw [r1]
  refine ⟨_, rfl, rfl, rfl, ⟨hm.2.1, hm.1, by rw [r2, Nat.mul_comm]⟩, fun x hx y hy => ?_⟩
  exact (r3 x hx y hy).1 ⟨⟨by omega, by omega⟩, by omega, by omega⟩

/-- Non-vacuity of `C41_mult_vec`, `C41_vec_mult` and `C41_transpose`: a matrix with two rows of three. -/
example : (⟨[1, 2, 3, 4, 5, 6], 3, 2⟩ : Matrix ℚ).wf := by simp [Matrix.wf]

end Shellfish.Mat
