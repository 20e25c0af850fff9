/-
C118: evaluating interpolators at many points, with slices that may be shared.
-/
import Verif.Model.EvalAll
import Verif.Props.Interp
import Mathlib.Data.Rat.Floor
import Mathlib.Tactic.Linarith
import Mathlib.Tactic.NormNum

namespace Shellfish.Interp

variable {K : Type}

/-- No element of `s` is an element of `t`. -/
def Clear (s t : Slice) : Prop := s.arr ≠ t.arr ∨ s.off + s.len ≤ t.off ∨ t.off + t.len ≤ s.off

/-- The slice lies in an array. -/
def Heap.Has (m : Heap K) (s : Slice) : Prop := ∃ l, m[s.arr]? = some l ∧ s.off + s.len ≤ l.length

/-- The two heaps have the same elements, except in the elements `0 .. n-1` of the slice `o`. -/
def SameBut (o : Slice) (n : Nat) (m m' : Heap K) : Prop := m.length = m'.length ∧ ∀ a k, (a ≠ o.arr ∨ k < o.off ∨ o.off + n ≤ k) → m.cell a k = m'.cell a k

/-- The method only depends on memory that is not in the slice `o`. -/
def Untouched (eval : Heap K → List K → Option K) (o : Slice) : Prop := ∀ m m' args, SameBut o o.len m m' → eval m args = eval m' args

theorem put_some {m m' : Heap K} {s : Slice} {i : Nat} {v : K} (h : m.put s i v = some m') :
    i < s.len ∧ m'.length = m.length ∧ m'.cell s.arr (s.off + i) = some v ∧ ∀ a k, (a ≠ s.arr ∨ k ≠ s.off + i) → m'.cell a k = m.cell a k := by
  unfold Heap.put at h
  split_ifs at h with hi
  rw [Option.bind_eq_some_iff] at h
  obtain ⟨l, hl, h⟩ := h
  split_ifs at h with hk
  simp only [Option.some.injEq] at h
  subst h
  have hlt : s.arr < m.length := by
    by_contra hc
    rw [List.getElem?_eq_none (by omega)] at hl; exact absurd hl (by simp)
  refine ⟨hi, by simp, ?_, ?_⟩
  · simp [Heap.cell, List.getElem?_set, hlt, hk]
  · intro a k hak
    unfold Heap.cell
    rw [List.getElem?_set]
    by_cases ha : s.arr = a
    · subst ha
      rw [if_pos rfl, if_pos hlt, hl]
      simp only [Option.bind_some]
      rw [List.getElem?_set_ne]
      rcases hak with h | h
      · exact absurd rfl h
      · exact fun h' => h h'.symm
    · rw [if_neg ha]

theorem put_has {m : Heap K} {s : Slice} (hs : m.Has s) {i : Nat} (hi : i < s.len) (v : K) : ∃ m', m.put s i v = some m' ∧ m'.Has s := by
  obtain ⟨l, hl, hlen⟩ := hs
  have hlt : s.arr < m.length := by
    by_contra hc
    rw [List.getElem?_eq_none (by omega)] at hl; exact absurd hl (by simp)
  refine ⟨m.set s.arr (l.set (s.off + i) v), ?_, l.set (s.off + i) v, ?_, ?_⟩
  · unfold Heap.put
    rw [if_pos hi, hl, Option.bind_some, if_pos (by omega)]
  · simp [List.getElem?_set, hlt]
  · simpa using hlen

theorem get_same {o s : Slice} {n i : Nat} {m m' : Heap K} (h : SameBut o n m m') (hc : s.arr ≠ o.arr ∨ s.off + i < o.off ∨ o.off + n ≤ s.off + i) : m.get s i = m'.get s i := by
  unfold Heap.get
  by_cases hi : i < s.len
  · rw [if_pos hi, if_pos hi]; exact h.2 _ _ hc
  · rw [if_neg hi, if_neg hi]

theorem mapM_congr' {α β : Type} (f g : α → Option β) : ∀ l : List α, (∀ a ∈ l, f a = g a) → l.mapM f = l.mapM g
  | [], _ => rfl
  | a :: l, h => by
    rw [List.mapM_cons, List.mapM_cons, h a (by simp), mapM_congr' f g l (fun b hb => h b (by simp [hb]))]

/-- After the first `j` turns of the loop. -/
theorem loop_spec (eval : Heap K → List K → Option K) (ins : List Slice) (o : Slice) (m0 : Heap K) (hu : ∀ m args, SameBut o o.len m0 m → eval m0 args = eval m args)
    (hio : ∀ s ∈ ins, Clear s o ∨ (s.arr = o.arr ∧ s.off = o.off)) :
    ∀ (d j : Nat) (m : Heap K), m.Has o → j + d ≤ o.len → (∀ s ∈ ins, j + d ≤ s.len) → SameBut o j m0 m → (∀ i, j ≤ i → i < j + d → ∃ v, evalAt eval ins m0 i = some v) →
      (∀ i, i < j → m.get o i = evalAt eval ins m0 i) →
      ∃ m', evalLoop eval ins o (List.range' j d) m = some m' ∧ SameBut o (j + d) m0 m' ∧ ∀ i, i < j + d → m'.get o i = evalAt eval ins m0 i
  | 0, j, m, _, _, _, hs, _, hg => ⟨m, rfl, hs, hg⟩
  | d + 1, j, m, hh, hd, hil, hs, hv, hg => by
    obtain ⟨v, hv0⟩ := hv j (le_refl _) (by omega)
    have hev : evalAt eval ins m j = some v := by
      rw [← hv0]
      unfold evalAt
      have h1 : (ins.mapM fun s => m.get s j) = ins.mapM fun s => m0.get s j := by
        apply mapM_congr'
        intro s hs'
        apply (get_same hs _).symm
        have hl := hil s hs'
        rcases hio s hs' with h | h
        · rcases h with h | h | h
          · exact Or.inl h
          · right; left; omega
          · right; right; omega
        · right; right; omega
      rw [h1]
      congr 1
      funext args
      exact (hu m args ⟨hs.1, fun a k h => hs.2 a k (by rcases h with h | h | h; exact Or.inl h; exact Or.inr (Or.inl h); right; right; omega)⟩).symm
    obtain ⟨m1, hp, hh1⟩ := put_has hh (show j < o.len by omega) v
    obtain ⟨p1, p2, p3, p4⟩ := put_some hp
    have hs1 : SameBut o (j + 1) m0 m1 := by
      refine ⟨hs.1.trans p2.symm, fun a k h => ?_⟩
      rw [hs.2 a k (by rcases h with h | h | h; exact Or.inl h; exact Or.inr (Or.inl h); right; right; omega)]
      exact (p4 a k (by rcases h with h | h | h; exact Or.inl h; right; omega; right; omega)).symm
    obtain ⟨m', e1, e2, e3⟩ := loop_spec eval ins o m0 hu hio d (j + 1) m1 hh1 (by omega) (fun s hs' => by have := hil s hs'; omega) hs1 (fun i h1 h2 => hv i (by omega) (by omega))
      (fun i hi => by
        by_cases hij : i = j
        · subst hij; unfold Heap.get; rw [if_pos (by omega), p3, hv0]
        · rw [← hg i (by omega)]
          unfold Heap.get
          rw [if_pos (by omega), if_pos (by omega)]
          exact p4 _ _ (Or.inr (by omega)))
    refine ⟨m', ?_, by rw [show j + (d + 1) = j + 1 + d by omega]; exact e2, fun i hi => e3 i (by omega)⟩
    rw [List.range'_succ]
    unfold evalLoop
    rw [hev, Option.bind_some, hp, Option.bind_some]
    exact e1

/-- C118 (part that holds): if the output slice is long enough and shares no element with the coordinates, or starts exactly where they start (evaluation in place), and shares no element with what the
interpolator reads, then `EvalAll` writes the value at each point to the place of this point and changes nothing else.  Missing: other overlaps, see `C118_shifted_false` and `C118_table_false`. -/
theorem C118_pointwise_partial [Zero K] (eval : Heap K → List K → Option K) (first : Slice) (rest : List Slice) (o : Slice) (m : Heap K) (hm : m.Has o) (hlen : first.len ≤ o.len)
    (hrest : ∀ s ∈ rest, first.len ≤ s.len) (hu : Untouched eval o) (hio : ∀ s ∈ first :: rest, Clear s o ∨ (s.arr = o.arr ∧ s.off = o.off))
    (hv : ∀ i < first.len, ∃ v, evalAt eval (first :: rest) m i = some v) :
    ∃ m', evalAllAt eval first rest (some o) m = some (o, m') ∧ (∀ i < first.len, m'.get o i = evalAt eval (first :: rest) m i) ∧ SameBut o first.len m m' := by
  obtain ⟨m', h1, h2, h3⟩ := loop_spec eval (first :: rest) o m (fun m' args h => hu m m' args h) hio first.len 0 m hm (by omega) (by
      intro s hs
      rcases List.mem_cons.mp hs with rfl | hs
      · omega
      · have := hrest s hs; omega) ⟨rfl, fun _ _ _ => rfl⟩ (fun i _ h => hv i (by omega)) (fun i hi => absurd hi (by omega))
  refine ⟨m', ?_, fun i hi => h3 i (by omega), by simpa using h2⟩
  unfold evalAllAt
  dsimp only
  rw [List.range_eq_range', h1]
  rfl

theorem cell_append_left (m : Heap K) (l : List K) {a : Nat} (ha : a < m.length) (k : Nat) : Heap.cell (m ++ [l]) a k = m.cell a k := by
  unfold Heap.cell; rw [List.getElem?_append_left ha]

/-- C118: without an output slice the values are written to a new array and no existing array changes. -/
theorem C118_fresh [Zero K] (eval : Heap K → List K → Option K) (first : Slice) (rest : List Slice) (m : Heap K) (hfirst : m.Has first) (hrest : ∀ s ∈ rest, m.Has s ∧ first.len ≤ s.len)
    (hu : ∀ m' args, (∀ a, a < m.length → m'[a]? = m[a]?) → eval m' args = eval m args) (hv : ∀ i < first.len, ∃ v, evalAt eval (first :: rest) m i = some v) :
    ∃ o m', evalAllAt eval first rest none m = some (o, m') ∧ o.len = first.len ∧ (∀ i < first.len, m'.get o i = evalAt eval (first :: rest) m i) ∧
      m.length ≤ o.arr ∧ ∀ a, a < m.length → ∀ k, m'.cell a k = m.cell a k := by
  have hone : ∀ s : Slice, m.Has s → s.arr < m.length := by
    rintro s ⟨l, hl, -⟩
    by_contra hc
    rw [List.getElem?_eq_none (by omega)] at hl; exact absurd hl (by simp)
  have hall : ∀ s ∈ first :: rest, m.Has s := by
    intro s hs
    rcases List.mem_cons.mp hs with rfl | hs
    · exact hfirst
    · exact (hrest s hs).1
  set m1 : Heap K := m ++ [List.replicate first.len 0] with hm1
  set o : Slice := ⟨m.length, 0, first.len⟩ with ho
  have harr : ∀ a, a < m.length → m1[a]? = m[a]? := fun a ha => by rw [hm1, List.getElem?_append_left ha]
  have hev : ∀ i, evalAt eval (first :: rest) m1 i = evalAt eval (first :: rest) m i := by
    intro i
    unfold evalAt
    have h1 : ((first :: rest).mapM fun s => m1.get s i) = (first :: rest).mapM fun s => m.get s i := by
      apply mapM_congr'
      intro s hs
      unfold Heap.get Heap.cell
      rw [harr _ (hone s (hall s hs))]
    rw [h1]
    congr 1
    funext args
    exact hu m1 args harr
  have hho : m1.Has o := ⟨List.replicate first.len 0, by simp [hm1, ho], by simp [ho]⟩
  obtain ⟨m', h1, h2, h3⟩ := loop_spec eval (first :: rest) o m1 (by
      intro m' args h
      rw [hu m1 args harr]
      refine (hu m' args ?_).symm
      intro a ha
      rw [← harr a ha]
      have hcell := fun k => h.2 a k (Or.inl (by simp [ho]; omega))
      unfold Heap.cell at hcell
      have l1 : a < m1.length := by simp [hm1]; omega
      have l2 : a < m'.length := by rw [← h.1]; exact l1
      rw [List.getElem?_eq_getElem l1, List.getElem?_eq_getElem l2] at hcell ⊢
      simp only [Option.bind_some] at hcell
      rw [List.ext_getElem? hcell]) (by
      intro s hs
      left; left
      have := hone s (hall s hs)
      simp [ho]; omega) first.len 0 m1 hho (by simp [ho]) (by
      intro s hs
      rcases List.mem_cons.mp hs with rfl | hs
      · omega
      · have := (hrest s hs).2; omega) ⟨rfl, fun _ _ _ => rfl⟩ (fun i _ h => by rw [hev]; exact hv i (by omega)) (fun i hi => absurd hi (by omega))
  refine ⟨o, m', ?_, rfl, fun i hi => by rw [h3 i (by omega), hev], le_refl _, ?_⟩
  · unfold evalAllAt
    dsimp only
    rw [List.range_eq_range', ← hm1, ← ho, h1]
    rfl
  · intro a ha k
    rw [← h2.2 a k (Or.inl (by simp [ho]; omega)), hm1, cell_append_left m _ ha]

theorem loop_none (eval : Heap K → List K → Option K) (ins : List Slice) (o : Slice) : ∀ (is : List Nat) (m : Heap K), (∃ i ∈ is, o.len ≤ i ∨ ∃ s ∈ ins, s.len ≤ i) → evalLoop eval ins o is m = none
  | [], _, h => by obtain ⟨i, hi, _⟩ := h; exact absurd hi (by simp)
  | j :: is, m, h => by
    unfold evalLoop
    rw [Option.bind_eq_none_iff]
    intro v hv
    rw [Option.bind_eq_none_iff]
    intro m' hp
    obtain ⟨i, hi, hb⟩ := h
    rcases List.mem_cons.mp hi with rfl | hi
    · exfalso
      rcases hb with hb | ⟨s, hs, hb⟩
      · have := (put_some hp).1; omega
      · unfold evalAt at hv
        rw [Option.bind_eq_some_iff] at hv
        obtain ⟨args, ha, -⟩ := hv
        have : ∀ l : List Slice, s ∈ l → ∀ args, (l.mapM fun s => m.get s i) ≠ some args := by
          intro l
          induction l with
          | nil => intro h; exact absurd h (by simp)
          | cons t l ih =>
            intro h args ha
            rw [List.mapM_cons] at ha
            simp only [Option.bind_eq_bind, Option.bind_eq_some_iff] at ha
            obtain ⟨a, ha1, r, hr, -⟩ := ha
            rcases List.mem_cons.mp h with rfl | h
            · unfold Heap.get at ha1
              rw [if_neg (by omega)] at ha1
              exact absurd ha1 (by simp)
            · exact ih h r hr
        exact this ins hs args ha
    · exact loop_none eval ins o is m' ⟨i, hi, hb⟩

/-- C118: an output slice that is too short, or coordinates of different lengths (the first longer than another), are a panic: no value is dropped silently. -/
theorem C118_short [Zero K] (eval : Heap K → List K → Option K) (first : Slice) (rest : List Slice) (out : Option Slice) (m : Heap K)
    (h : (∃ o, out = some o ∧ o.len < first.len) ∨ ∃ s ∈ rest, s.len < first.len) : evalAllAt eval first rest out m = none := by
  unfold evalAllAt
  rcases h with ⟨o, rfl, h⟩ | ⟨s, hs, h⟩
  · dsimp only
    rw [loop_none eval _ o _ m ⟨o.len, by simpa using h, Or.inl (le_refl _)⟩]
    rfl
  · cases out with
    | none =>
      dsimp only
      rw [loop_none eval _ _ _ _ ⟨s.len, by simpa using h, Or.inr ⟨s, by simp [hs], le_refl _⟩⟩]
      rfl
    | some o =>
      dsimp only
      rw [loop_none eval _ _ _ _ ⟨s.len, by simpa using h, Or.inr ⟨s, by simp [hs], le_refl _⟩⟩]
      rfl

/-! ### The tables of the interpolators -/

section tables
variable [Field K] [LinearOrder K] [FloorRing K]

theorem read_same {o s : Slice} {n : Nat} {m m' : Heap K} (h : SameBut o n m m') (hc : Clear s ⟨o.arr, o.off, n⟩) : m.read s = m'.read s := by
  unfold Heap.read
  apply mapM_congr'
  intro i hi
  rw [List.mem_range] at hi
  apply get_same h
  rcases hc with h | h | h
  · exact Or.inl h
  · right; left; dsimp only at h; omega
  · right; right; dsimp only at h; omega

theorem newSpline_parts {l v : List K} {sp : Spline K} (h : newSpline l v = some sp) : 2 ≤ l.length ∧ sp.xs = l ∧ sp.ys = v := by
  unfold newSpline at h
  split_ifs at h with c1 c2
  dsimp only at h
  split_ifs at h <;>
  · rw [Option.map_eq_some_iff] at h
    obtain ⟨s, hs, rfl⟩ := h
    exact ⟨by omega, rfl, rfl⟩

/-- C118: an interpolator reads nothing but its two tables: writing elsewhere does not change it. -/
theorem C118_tables (o : Slice) : (∀ lin : SharedLinear K, Clear lin.xs o → Clear lin.vals o → Untouched lin.eval o) ∧ (∀ sp : SharedSpline K, Clear sp.xs o → Clear sp.ys o → Untouched sp.eval o) := by
  constructor
  · intro lin h1 h2 m m' args h
    match args with
    | [x] =>
      unfold SharedLinear.eval
      rw [read_same h h1, read_same h h2]
    | [] => rfl
    | _ :: _ :: _ => rfl
  · intro sp h1 h2 m m' args h
    match args with
    | [x] =>
      unfold SharedSpline.eval
      rw [read_same h h1, read_same h h2]
    | [] => rfl
    | _ :: _ :: _ => rfl

/-- C118: as long as the two tables hold the values they had when the interpolator was made, it is the interpolator of these values. -/
theorem C118_made (m m' : Heap K) (xs vals : Slice) (l v : List K) (hl : m.read xs = some l) (hv : m.read vals = some v) (hl' : m'.read xs = some l) (hv' : m'.read vals = some v) (x : K) :
    ((newSharedLinear m xs vals).bind fun lin => lin.eval m' [x]) = ((newLinear l v).bind fun lin => lin.eval x) ∧
      ((newSharedSpline m xs vals).bind fun sp => sp.eval m' [x]) = ((newSpline l v).bind fun sp => sp.eval x) := by
  constructor
  · unfold newSharedLinear
    simp only [hl, hv, Option.bind_eq_bind, Option.bind_some]
    cases hn : newLinear l v with
    | none => rfl
    | some lin =>
      simp only [Option.bind_some, SharedLinear.eval, hl', hv', Option.bind_eq_bind]
      unfold newLinear at hn
      split_ifs at hn
      rw [Option.map_eq_some_iff] at hn
      obtain ⟨s, hs, rfl⟩ := hn
      unfold Searcher.init at hs
      simp only [Option.bind_eq_bind, Option.bind_eq_some_iff] at hs
      obtain ⟨a, -, b, -, h⟩ := hs
      simp only [Option.some.injEq] at h
      subst h
      rfl
  · unfold newSharedSpline
    simp only [hl, hv, Option.bind_eq_bind, Option.bind_some]
    cases hn : newSpline l v with
    | none => rfl
    | some sp =>
      simp only [Option.bind_some, SharedSpline.eval, hl', hv', Option.bind_eq_bind]
      obtain ⟨-, h1, h2⟩ := newSpline_parts hn
      subst h1 h2
      rfl

/-- C118 (part that holds): a spline has copied what it needs of the values: between the ends of its table it does not change when the caller overwrites the values.  Missing: the ends of the table, see
`C118_ends_false`, and the abscissae. -/
theorem C118_spline_partial (m m' : Heap K) (xs ys : Slice) (l v v' : List K) (hl : m.read xs = some l) (hv : m.read ys = some v) (hl' : m'.read xs = some l) (hv' : m'.read ys = some v') (x : K)
    (h0 : ∀ a, l.head? = some a → x ≠ a) (h1 : ∀ a, l.getLast? = some a → x ≠ a) :
    ((newSharedSpline m xs ys).bind fun sp => sp.eval m' [x]) = ((newSpline l v).bind fun sp => sp.eval x) := by
  unfold newSharedSpline
  simp only [hl, hv, Option.bind_eq_bind, Option.bind_some]
  cases hn : newSpline l v with
  | none => rfl
  | some sp =>
    simp only [Option.bind_some, SharedSpline.eval, hl', hv', Option.bind_eq_bind]
    obtain ⟨h2, hx, hy⟩ := newSpline_parts hn
    have hne : l ≠ [] := by rintro rfl; simp at h2
    have e0 : x ≠ l.getD 0 0 := h0 _ (by cases l with | nil => exact absurd rfl hne | cons a l => rfl)
    have e1 : x ≠ l.getD (l.length - 1) 0 := h1 _ (by rw [List.getLast?_eq_getElem?, List.getD_eq_getElem?_getD, List.getElem?_eq_getElem (by have := List.length_pos_iff.mpr hne; omega)]; rfl)
    unfold Spline.eval
    simp only [hx, if_neg e0, if_neg e1, Spline.bsearch]

end tables

/-! ### Counterexamples -/

/-- The function x + 10 as an interpolator of a table in the arrays 0 and 1; the coordinates are in array 2. -/
def plusTen : Heap ℚ := [[0, 100], [10, 110], [1, 2, 3, 4]]

def tenLinear : SharedLinear ℚ := { xs := ⟨0, 0, 2⟩, vals := ⟨1, 0, 2⟩, x0 := 0, dx := 100, lim := 100, n := 2, incr := true }

theorem tenLinear_made : newSharedLinear plusTen ⟨0, 0, 2⟩ ⟨1, 0, 2⟩ = some tenLinear := by
  simp [newSharedLinear, Heap.read, Heap.get, Heap.cell, plusTen, List.range, List.range.loop, newLinear, Searcher.init, tenLinear]
  norm_num

theorem tenLinear_eval (t : List (List ℚ)) (a b x : ℚ) (h0 : 0 ≤ x) (h1 : x < 100) : tenLinear.eval ([0, 100] :: [a, b] :: t) [x] = some ((b - a) / 100 * x + a) := by
  have hf : ⌊x / 100⌋ = 0 := by rw [Int.floor_eq_iff]; constructor <;> norm_num <;> linarith
  simp [SharedLinear.eval, tenLinear, Heap.read, Heap.get, Heap.cell, List.range, List.range.loop, Linear.eval, Searcher.search, Searcher.val, tableSearch, intDiv, getI, hf, h0, h1.le, not_lt.mpr h0, not_lt.mpr h1.le, div_nonneg]

/-- C118 is false as stated: with an output slice that is the slice of coordinates moved by one, each value is evaluated again (the values at 1, 2, 3 are 11, 12, 13). -/
theorem C118_shifted_false : ((newSharedLinear plusTen ⟨0, 0, 2⟩ ⟨1, 0, 2⟩).bind fun lin => (evalAllAt lin.eval ⟨2, 0, 3⟩ [] (some ⟨2, 1, 3⟩) plusTen).bind fun r => r.2.read r.1) = some [11, 21, 31] := by
  rw [tenLinear_made]
  have e1 := tenLinear_eval [[1, 2, 3, 4]] 10 110 1 (by norm_num) (by norm_num)
  have e2 := tenLinear_eval [[1, 11, 3, 4]] 10 110 11 (by norm_num) (by norm_num)
  have e3 := tenLinear_eval [[1, 11, 21, 4]] 10 110 21 (by norm_num) (by norm_num)
  norm_num at e1 e2 e3
  simp [evalAllAt, evalLoop, List.range, List.range.loop, plusTen, evalAt, Heap.get, Heap.cell, Heap.put, Heap.read, e1, e2, e3]

/-- C118 is false as stated: with the table of values as output slice, the interpolator changes while it is used (the value at 2 is 12). -/
theorem C118_table_false : ((newSharedLinear plusTen ⟨0, 0, 2⟩ ⟨1, 0, 2⟩).bind fun lin => (evalAllAt lin.eval ⟨2, 0, 2⟩ [] (some ⟨1, 0, 2⟩) plusTen).bind fun r => r.2.read r.1) = some [11, 649 / 50] := by
  rw [tenLinear_made]
  have e1 := tenLinear_eval [[1, 2, 3, 4]] 10 110 1 (by norm_num) (by norm_num)
  have e2 := tenLinear_eval [[1, 2, 3, 4]] 11 110 2 (by norm_num) (by norm_num)
  norm_num at e1 e2
  simp [evalAllAt, evalLoop, List.range, List.range.loop, plusTen, evalAt, Heap.get, Heap.cell, Heap.put, Heap.read, e1, e2]

theorem flat_spline : ∃ sp : Spline ℚ, newSpline [0, 1, 2] [5, 5, 5] = some sp ∧ sp.incr = true ∧ sp.dx = 1 ∧ ∀ i < 2, sp.coeffs i = ⟨0, 0, 0, 5⟩ := by
  refine ⟨_, by simp [newSpline, calcY2s, triDiag, List.range, List.range.loop, List.range']; rfl, by simp, by norm_num, ?_⟩
  intro i hi
  have : i = 0 ∨ i = 1 := by omega
  rcases this with rfl | rfl <;> simp [calcCoeff]

/-- C118 is false as stated: if the values of a spline (here 5 everywhere) are overwritten (here with 7) after the spline was made, its values at the ends of the table are the new ones, and all others the
old ones. -/
theorem C118_ends_false (x : ℚ) (h0 : 0 < x) (h2 : x < 2) : (newSharedSpline [[0, 1, 2], [5, 5, (5 : ℚ)]] ⟨0, 0, 3⟩ ⟨1, 0, 3⟩).bind (fun sp => sp.eval [[0, 1, 2], [7, 7, 7]] [x]) = some 5 ∧
    (newSharedSpline [[0, 1, 2], [5, 5, (5 : ℚ)]] ⟨0, 0, 3⟩ ⟨1, 0, 3⟩).bind (fun sp => sp.eval [[0, 1, 2], [7, 7, 7]] [2]) = some 7 := by
  obtain ⟨sp, h, hi, hd, hc⟩ := flat_spline
  have r0 : Heap.read [[0, 1, 2], [5, 5, (5 : ℚ)]] ⟨0, 0, 3⟩ = some [0, 1, 2] := by simp [Heap.read, Heap.get, Heap.cell, List.range, List.range.loop]
  have r1 : Heap.read [[0, 1, 2], [5, 5, (5 : ℚ)]] ⟨1, 0, 3⟩ = some [5, 5, 5] := by simp [Heap.read, Heap.get, Heap.cell, List.range, List.range.loop]
  have r2 : Heap.read [[0, 1, 2], [7, 7, (7 : ℚ)]] ⟨0, 0, 3⟩ = some [0, 1, 2] := by simp [Heap.read, Heap.get, Heap.cell, List.range, List.range.loop]
  have r3 : Heap.read [[0, 1, 2], [7, 7, (7 : ℚ)]] ⟨1, 0, 3⟩ = some [7, 7, 7] := by simp [Heap.read, Heap.get, Heap.cell, List.range, List.range.loop]
  obtain ⟨-, hx, hy⟩ := newSpline_parts h
  constructor
  · rw [C118_spline_partial _ _ _ _ _ _ _ r0 r1 r2 r3 x (by rintro a ⟨⟩; exact h0.ne') (by rintro a ⟨⟩; exact h2.ne), h, Option.bind_some]
    unfold Spline.eval
    have hb : sp.bsearch x < 2 := by
      unfold Spline.bsearch
      have := (tableSearch_spec sp.xs sp.dx sp.incr x (by rw [hx]; decide) (by rw [hx, hi]; exact ⟨h0.le, h2.le⟩)).1
      rw [hx] at this ⊢
      have h3 : tableSearch [0, 1, 2] sp.dx sp.incr x + 1 < 3 := this
      omega
    simp [hx, hi, not_le.mpr h0, not_le.mpr h2, hc _ hb]
  · simp [newSharedSpline, r0, r1, h, SharedSpline.eval, r2, r3, Spline.eval, hi]

-- the hypotheses of `C118_pointwise_partial` are met by an evaluation in place, those of `C118_tables` and `C118_fresh` by the same table
example : plusTen.Has ⟨2, 0, 4⟩ ∧ Untouched tenLinear.eval ⟨2, 0, 4⟩ ∧ (∀ i < (⟨2, 0, 4⟩ : Slice).len, ∃ v, evalAt tenLinear.eval [⟨2, 0, 4⟩] plusTen i = some v) ∧ plusTen.Has ⟨0, 0, 2⟩ ∧
    plusTen.read ⟨0, 0, 2⟩ = some [0, 100] := by
  refine ⟨⟨_, rfl, by simp⟩, (C118_tables _).1 _ (Or.inl (by decide)) (Or.inl (by decide)), ?_, ⟨_, rfl, by simp⟩, by simp [Heap.read, Heap.get, Heap.cell, List.range, List.range.loop, plusTen]⟩
  intro i hi
  have hi' : i = 0 ∨ i = 1 ∨ i = 2 ∨ i = 3 := by
    have : i < 4 := hi
    omega
  have e := fun x h0 h1 => tenLinear_eval [[1, 2, 3, 4]] 10 110 x h0 h1
  have e1 := e 1 (by norm_num) (by norm_num)
  have e2 := e 2 (by norm_num) (by norm_num)
  have e3 := e 3 (by norm_num) (by norm_num)
  have e4 := e 4 (by norm_num) (by norm_num)
  rcases hi' with rfl | rfl | rfl | rfl <;> simp [evalAt, Heap.get, Heap.cell, plusTen, e1, e2, e3, e4]

example : ∀ m' args, (∀ a, a < plusTen.length → m'[a]? = plusTen[a]?) → tenLinear.eval m' args = tenLinear.eval plusTen args := by
  intro m' args h
  have h0 := h 0 (by decide)
  have h1 := h 1 (by decide)
  have r0 : m'.read tenLinear.xs = plusTen.read tenLinear.xs := by simp only [Heap.read, Heap.get, Heap.cell, tenLinear, h0]; rfl
  have r1 : m'.read tenLinear.vals = plusTen.read tenLinear.vals := by simp only [Heap.read, Heap.get, Heap.cell, tenLinear, h1]; rfl
  match args with
  | [x] => unfold SharedLinear.eval; rw [r0, r1]
  | [] => rfl
  | _ :: _ :: _ => rfl

end Shellfish.Interp
