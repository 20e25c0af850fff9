import Verif.Lemmas.SobolTab
import Verif.Props.Sobol

/-
C109: how evenly the points of a Sobol sequence fill the unit square and the unit cube
(math/rand/sobol.go).
-/
namespace Shellfish.Sobol

/-- Specification: coordinate `k` of the point lies in the dyadic interval `[q / 2^A, (q+1) / 2^A)`. -/
def InCell (pt : List ℚ) (k A q : Nat) : Prop :=
  ∃ x, pt[k]? = some x ∧ (q : ℚ) / 2 ^ A ≤ x ∧ x < ((q : ℚ) + 1) / 2 ^ A

theorem cell_iff (x A q : Nat) (hA : A ≤ 30) :
    ((q : ℚ) / 2 ^ A ≤ (x : ℚ) * (1 / 2 ^ 30) ∧ (x : ℚ) * (1 / 2 ^ 30) < ((q : ℚ) + 1) / 2 ^ A) ↔ x / 2 ^ (30 - A) = q := by
  have hpow : (2 : ℚ) ^ 30 = 2 ^ A * 2 ^ (30 - A) := by rw [← pow_add]; congr 1; omega
  rw [mul_one_div, hpow]
  rw [div_le_div_iff₀ (by positivity) (by positivity), div_lt_div_iff₀ (by positivity) (by positivity)]
  have e1 : (q : ℚ) * (2 ^ A * 2 ^ (30 - A)) ≤ (x : ℚ) * 2 ^ A ↔ q * 2 ^ (30 - A) ≤ x := by
    rw [show (q : ℚ) * (2 ^ A * 2 ^ (30 - A)) = (q * 2 ^ (30 - A)) * 2 ^ A by ring,
      mul_le_mul_iff_left₀ (by positivity)]
    exact_mod_cast Iff.rfl
  have e2 : (x : ℚ) * 2 ^ A < ((q : ℚ) + 1) * (2 ^ A * 2 ^ (30 - A)) ↔ x < (q + 1) * 2 ^ (30 - A) := by
    rw [show ((q : ℚ) + 1) * (2 ^ A * 2 ^ (30 - A)) = ((q + 1) * 2 ^ (30 - A)) * 2 ^ A by ring,
      mul_lt_mul_iff_left₀ (by positivity)]
    exact_mod_cast Iff.rfl
  rw [e1, e2]
  constructor
  · rintro ⟨h1, h2⟩; exact Nat.div_eq_of_lt_le h1 h2
  · intro h1
    have hpos : 0 < 2 ^ (30 - A) := by positivity
    constructor
    · rw [← h1]; exact Nat.div_mul_le_self _ _
    · rw [← h1]; exact Nat.lt_mul_of_div_lt (Nat.lt_succ_self _) hpos

theorem point_of_calls {d c : Nat} (hd : d ≤ 6) (hc : c ≤ 2 ^ 30 - 2) {ps : List (List ℚ)} {s : Seq}
    (h : calls d c new = some (ps, s)) {i : Nat} (hi : i < c) :
    ps[i]? = some ((List.range d).map (fun k => (coord k (i + 1) : ℚ) * (1 / 2 ^ 30))) := by
  obtain ⟨s', h', _⟩ := calls_spec d hd c (by omega)
  rw [h'] at h
  cases h
  simp only [List.getElem?_map, List.getElem?_range hi, Option.map_some]

theorem inCell_iff (d i k A q : Nat) (hk : k < d) (hA : A ≤ 30) :
    InCell ((List.range d).map (fun k => (coord k (i + 1) : ℚ) * (1 / 2 ^ 30))) k A q ↔
      coord k (i + 1) / 2 ^ (30 - A) = q := by
  rw [← cell_iff _ A q hA]
  unfold InCell
  simp only [List.getElem?_map, List.getElem?_range hk, Option.map_some, Option.some.injEq]
  constructor
  · rintro ⟨x, rfl, h⟩; exact h
  · intro h; exact ⟨_, rfl, h⟩

theorem pack_inj (A B C x y z q r u : Nat) (hx : x / 2 ^ (30 - A) < 2 ^ A) (hy : y / 2 ^ (30 - B) < 2 ^ B)
    (hq : q < 2 ^ A) (hr : r < 2 ^ B) :
    pack A B C (x, y, z) = (u * 2 ^ B + r) * 2 ^ A + q ↔
      x / 2 ^ (30 - A) = q ∧ y / 2 ^ (30 - B) = r ∧ z / 2 ^ (30 - C) = u := by
  have key : ∀ (n a b a' b' : Nat), b < 2 ^ n → b' < 2 ^ n → (a * 2 ^ n + b = a' * 2 ^ n + b' ↔ b = b' ∧ a = a') := by
    intro n a b a' b' hb hb'
    constructor
    · intro h
      have h1 := congrArg (· % 2 ^ n) h
      have h2 := congrArg (· / 2 ^ n) h
      simp only [Nat.mul_add_mod', Nat.mod_eq_of_lt hb, Nat.mod_eq_of_lt hb'] at h1
      rw [Nat.mul_comm a, Nat.mul_comm a'] at h2
      simp only [Nat.mul_add_div (show 0 < 2 ^ n by positivity), Nat.div_eq_of_lt hb, Nat.div_eq_of_lt hb', Nat.add_zero] at h2
      exact ⟨h1, h2⟩
    · rintro ⟨rfl, rfl⟩; rfl
  unfold pack
  dsimp only
  rw [key A _ _ _ _ hx hq, key B _ _ _ _ hy hr]

/-- the points of an aligned block in one cell of a three-dimensional grid -/
theorem net_core (k : Nat × Nat × Nat) (d c p a t A B C q r u : Nat) (hd : d ≤ 6) (h0 : k.1 < d) (h1 : k.2.1 < d)
    (h2 : k.2.2 < d) (hc : c ≤ 2 ^ 30 - 2) (hp : p ≤ 30) (hs : A + B + C + t = p)
    (hrank : elim 30 t ((List.range p).map (V k A B C)) = true)
    (ha : 2 ≤ 2 ^ p * a) (hac : 2 ^ p * (a + 1) ≤ c + 2) (hq : q < 2 ^ A) (hr : r < 2 ^ B) (hu : u < 2 ^ C)
    (ps : List (List ℚ)) (s : Seq) (h : calls d c new = some (ps, s)) :
    {i | 2 ^ p * a ≤ i + 2 ∧ i + 2 < 2 ^ p * (a + 1) ∧
      ∃ pt, ps[i]? = some pt ∧ InCell pt k.1 A q ∧ InCell pt k.2.1 B r ∧ InCell pt k.2.2 C u}.ncard = 2 ^ t := by
  have hv : (u * 2 ^ B + r) * 2 ^ A + q < 2 ^ (A + B + C) := by
    have h4 : u * 2 ^ B + r < 2 ^ (B + C) := by
      calc u * 2 ^ B + r < (u + 1) * 2 ^ B := by rw [Nat.add_mul]; omega
        _ ≤ 2 ^ C * 2 ^ B := Nat.mul_le_mul_right _ hu
        _ = 2 ^ (B + C) := by rw [← pow_add, Nat.add_comm]
    calc _ < (u * 2 ^ B + r + 1) * 2 ^ A := by rw [Nat.add_mul (_ + _)]; omega
      _ ≤ 2 ^ (B + C) * 2 ^ A := Nat.mul_le_mul_right _ h4
      _ = 2 ^ (A + B + C) := by rw [← pow_add]; congr 1; omega
  have hcard := fibre_eq k A B C p t a _ hs hp (by omega) (by omega) (by omega) hrank (by omega) hv
  have hset : {i | 2 ^ p * a ≤ i + 2 ∧ i + 2 < 2 ^ p * (a + 1) ∧
      ∃ pt, ps[i]? = some pt ∧ InCell pt k.1 A q ∧ InCell pt k.2.1 B r ∧ InCell pt k.2.2 C u} =
      (fun m => m - 2) '' ((Finset.Ico (2 ^ p * a) (2 ^ p * (a + 1))).filter
        fun m => P k A B C m = (u * 2 ^ B + r) * 2 ^ A + q : Finset Nat) := by
    ext i
    simp only [Set.mem_setOf_eq, Set.mem_image, Finset.coe_filter, Finset.mem_Ico]
    have hP : ∀ i, P k A B C (i + 2) = (u * 2 ^ B + r) * 2 ^ A + q ↔ coord k.1 (i + 1) / 2 ^ (30 - A) = q ∧
        coord k.2.1 (i + 1) / 2 ^ (30 - B) = r ∧ coord k.2.2 (i + 1) / 2 ^ (30 - C) = u := by
      intro i
      unfold P
      rw [show i + 2 - 1 = i + 1 by omega]
      exact pack_inj A B C _ _ _ q r u (lead_lt _ _ (by omega) (coord_lt _ _ (by omega)))
        (lead_lt _ _ (by omega) (coord_lt _ _ (by omega))) hq hr
    constructor
    · rintro ⟨hi1, hi2, pt, hpt, c1, c2, c3⟩
      rw [point_of_calls hd hc h (show i < c by omega)] at hpt
      cases hpt
      rw [inCell_iff _ _ _ _ _ (by omega) (by omega)] at c1 c2 c3
      exact ⟨i + 2, ⟨⟨hi1, hi2⟩, (hP i).mpr ⟨c1, c2, c3⟩⟩, by omega⟩
    · rintro ⟨m, ⟨⟨hm1, hm2⟩, hm3⟩, rfl⟩
      have hm : m = (m - 2) + 2 := by omega
      rw [hm] at hm3
      obtain ⟨c1, c2, c3⟩ := (hP _).mp hm3
      refine ⟨by omega, by omega, _, point_of_calls hd hc h (show m - 2 < c by omega), ?_, ?_, ?_⟩
      · exact (inCell_iff _ _ _ _ _ h0 (by omega)).mpr c1
      · exact (inCell_iff _ _ _ _ _ h1 (by omega)).mpr c2
      · exact (inCell_iff _ _ _ _ _ h2 (by omega)).mpr c3
  rw [hset, Set.ncard_image_of_injOn, Set.ncard_coe_finset, hcard]
  intro m hm m' hm' hmm
  simp only [Finset.coe_filter, Finset.mem_Ico, Set.mem_setOf_eq] at hm hm'
  dsimp only at hmm
  omega

/-- with no bits of the third coordinate -/
theorem net_pair (k0 k1 k2 : Nat) (d c p a t A B q r : Nat) (hd : d ≤ 6) (h0 : k0 < d) (h1 : k1 < d)
    (h2 : k2 < d) (hc : c ≤ 2 ^ 30 - 2) (hp : p ≤ 30) (hs : A + B + t = p)
    (hrank : elim 30 t ((List.range p).map (V (k0, k1, k2) A B 0)) = true)
    (ha : 2 ≤ 2 ^ p * a) (hac : 2 ^ p * (a + 1) ≤ c + 2) (hq : q < 2 ^ A) (hr : r < 2 ^ B)
    (ps : List (List ℚ)) (s : Seq) (h : calls d c new = some (ps, s)) :
    {i | 2 ^ p * a ≤ i + 2 ∧ i + 2 < 2 ^ p * (a + 1) ∧
      ∃ pt, ps[i]? = some pt ∧ InCell pt k0 A q ∧ InCell pt k1 B r}.ncard = 2 ^ t := by
  rw [← net_core (k0, k1, k2) d c p a t A B 0 q r 0 hd h0 h1 h2 hc hp (by omega) hrank ha hac hq hr (by norm_num) ps s h]
  congr 1
  ext i
  simp only [Set.mem_setOf_eq]
  constructor
  · rintro ⟨hi1, hi2, pt, hpt, c1, c2⟩
    refine ⟨hi1, hi2, pt, hpt, c1, c2, ?_⟩
    rw [point_of_calls hd hc h (show i < c by omega)] at hpt
    cases hpt
    rw [inCell_iff _ _ _ _ _ h2 (by omega)]
    exact Nat.div_eq_of_lt (coord_lt _ _ (by omega))
  · rintro ⟨hi1, hi2, pt, hpt, c1, c2, _⟩
    exact ⟨hi1, hi2, pt, hpt, c1, c2⟩

/-- C109: in every aligned block of `2^p` points (`p ≤ 30`), each of the `2^(p-1)` equal boxes of a dyadic grid of the
first two coordinates, whatever its shape, holds exactly two points. -/
theorem C109_square (d c p a A B q r : Nat) (hd2 : 2 ≤ d) (hd : d ≤ 6) (hc : c ≤ 2 ^ 30 - 2) (hp : p ≤ 30)
    (hAB : A + B + 1 = p) (ha : 2 ≤ 2 ^ p * a) (hac : 2 ^ p * (a + 1) ≤ c + 2) (hq : q < 2 ^ A) (hr : r < 2 ^ B)
    (ps : List (List ℚ)) (s : Seq) (h : calls d c new = some (ps, s)) :
    {i | 2 ^ p * a ≤ i + 2 ∧ i + 2 < 2 ^ p * (a + 1) ∧
      ∃ pt, ps[i]? = some pt ∧ InCell pt 0 A q ∧ InCell pt 1 B r}.ncard = 2 := by
  rcases Nat.lt_or_ge 2 d with h3 | h3
  · exact net_pair 0 1 2 d c p a 1 A B q r hd (by omega) (by omega) h3 hc hp hAB
      (rank_two (0, 1, 2) 1 p A B (by rw [tab012_eq]; exact net012_two) hp (by omega) hAB) ha hac hq hr ps s h
  · have hV : (List.range p).map (V (0, 1, 1) A B 0) = (List.range p).map (V (0, 1, 2) A B 0) := by
      apply List.map_congr_left
      intro j hj
      have hj' := List.mem_range.mp hj
      simp only [V, pack]
      rw [Nat.div_eq_of_lt (dir_tri 1 (by omega) j (by omega)).2, Nat.div_eq_of_lt (dir_tri 2 (by omega) j (by omega)).2]
    exact net_pair 0 1 1 d c p a 1 A B q r hd (by omega) (by omega) (by omega) hc hp hAB
      (by rw [hV]; exact rank_two (0, 1, 2) 1 p A B (by rw [tab012_eq]; exact net012_two) hp (by omega) hAB) ha hac hq hr ps s h

/-- C109: the same for the first coordinate and any other one, in grids of `2^(p-2)` boxes: four points each. -/
theorem C109_first_and_other (d c p a j A B q r : Nat) (hj0 : 1 ≤ j) (hj : j < d) (hd : d ≤ 6) (hc : c ≤ 2 ^ 30 - 2) (hp : p ≤ 30)
    (hAB : A + B + 2 = p) (ha : 2 ≤ 2 ^ p * a) (hac : 2 ^ p * (a + 1) ≤ c + 2) (hq : q < 2 ^ A) (hr : r < 2 ^ B)
    (ps : List (List ℚ)) (s : Seq) (h : calls d c new = some (ps, s)) :
    {i | 2 ^ p * a ≤ i + 2 ∧ i + 2 < 2 ^ p * (a + 1) ∧
      ∃ pt, ps[i]? = some pt ∧ InCell pt 0 A q ∧ InCell pt j B r}.ncard = 4 := by
  have hrank : elim 30 2 ((List.range p).map (V (0, j, j) A B 0)) = true := by
    apply rank_two (0, j, j) 2 p A B ?_ hp (by omega) hAB
    have : j = 1 ∨ j = 2 ∨ j = 3 ∨ j = 4 ∨ j = 5 := by omega
    rcases this with rfl | rfl | rfl | rfl | rfl
    · rw [tab011_eq]; exact net011_two
    · rw [tab022_eq]; exact net022_two
    · rw [tab033_eq]; exact net033_two
    · rw [tab044_eq]; exact net044_two
    · rw [tab055_eq]; exact net055_two
  exact net_pair 0 j j d c p a 2 A B q r hd (by omega) hj hj hc hp hAB hrank ha hac hq hr ps s h

/-- C109: in every aligned block of `2^p` points each of the `2^(p-3)` equal boxes of a dyadic grid of the first three
coordinates, whatever its shape, holds exactly eight points. -/
theorem C109_cube (d c p a A B C q r u : Nat) (hd3 : 3 ≤ d) (hd : d ≤ 6) (hc : c ≤ 2 ^ 30 - 2) (hp : p ≤ 30)
    (hABC : A + B + C + 3 = p) (ha : 2 ≤ 2 ^ p * a) (hac : 2 ^ p * (a + 1) ≤ c + 2) (hq : q < 2 ^ A) (hr : r < 2 ^ B)
    (hu : u < 2 ^ C) (ps : List (List ℚ)) (s : Seq) (h : calls d c new = some (ps, s)) :
    {i | 2 ^ p * a ≤ i + 2 ∧ i + 2 < 2 ^ p * (a + 1) ∧
      ∃ pt, ps[i]? = some pt ∧ InCell pt 0 A q ∧ InCell pt 1 B r ∧ InCell pt 2 C u}.ncard = 8 :=
  net_core (0, 1, 2) d c p a 3 A B C q r u hd (show 0 < d by omega) (show 1 < d by omega) (show 2 < d by omega) hc hp hABC
    (rank_three (0, 1, 2) 3 p A B C (by rw [tab012_eq]; exact net012_three) hp (by omega) hABC) ha hac hq hr hu ps s h

/-- the parity of three bits is kept by XOR -/
theorem comb_bits (v w : Nat → Nat) (h : ∀ j < 30, ((v j).testBit 29 ^^ ((w j).testBit 29 ^^ (w j).testBit 27)) = false) (p g : Nat) (hp : p ≤ 30) :
    ((comb v p g).testBit 29 ^^ ((comb w p g).testBit 29 ^^ (comb w p g).testBit 27)) = false := by
  induction p with
  | zero => simp [comb]
  | succ p ih =>
    have h1 := ih (by omega)
    have h2 := h p (by omega)
    simp only [comb, Nat.testBit_xor]
    cases g.testBit p
    · simpa using h1
    · simp only [if_true]
      revert h1 h2
      cases (comb v p g).testBit 29 <;> cases (comb w p g).testBit 29 <;> cases (comb w p g).testBit 27 <;>
        cases (v p).testBit 29 <;> cases (w p).testBit 29 <;> cases (w p).testBit 27 <;> simp

set_option maxRecDepth 20000 in
theorem dir_bits : ∀ j < 30, (((dir 2 j).testBit 29 ^^ ((dir 3 j).testBit 29 ^^ (dir 3 j).testBit 27)) = false) ∧
    (((dir 4 j).testBit 29 ^^ ((dir 5 j).testBit 29 ^^ (dir 5 j).testBit 27)) = false) := by
  unfold dir
  decide +kernel

theorem coord_bits (k k' c : Nat) (h : ∀ j < 30, ((dir k j).testBit 29 ^^ ((dir k' j).testBit 29 ^^ (dir k' j).testBit 27)) = false) :
    ((coord k c).testBit 29 ^^ ((coord k' c).testBit 29 ^^ (coord k' c).testBit 27)) = false := by
  have h1 := comb_bits (dir k) (dir k') h 30 (gray (c + 1)) le_rfl
  have h2 := h 0 (by omega)
  unfold coord
  simp only [Nat.testBit_xor]
  revert h1 h2
  cases (comb (dir k) 30 (gray (c + 1))).testBit 29 <;> cases (comb (dir k') 30 (gray (c + 1))).testBit 29 <;>
    cases (comb (dir k') 30 (gray (c + 1))).testBit 27 <;>
    cases (dir k 0).testBit 29 <;> cases (dir k' 0).testBit 29 <;> cases (dir k' 0).testBit 27 <;> simp

/-- C109 is false of the other pairs of coordinates: no point of the whole sequence has its third coordinate in
`[1/2, 1)` and its fourth in `[0, 1/8)`, or its fifth in `[1/2, 1)` and its sixth in `[0, 1/8)`, because the recurrence for the direction numbers
reads the previous number for every term of the polynomial (sobol.go:65-70, index `j-1` for `j-l`), so that the two
polynomials of one degree give the same recurrence. -/
theorem C109_empty_boxes_false (d c : Nat) (hd : d ≤ 6) (hc : c ≤ 2 ^ 30 - 2) (ps : List (List ℚ)) (s : Seq)
    (h : calls d c new = some (ps, s)) (pt : List ℚ) (hpt : pt ∈ ps) :
    ¬ (InCell pt 2 1 1 ∧ InCell pt 3 3 0) ∧ ¬ (InCell pt 4 1 1 ∧ InCell pt 5 3 0) := by
  obtain ⟨i, hi⟩ := List.mem_iff_getElem?.mp hpt
  have hic : i < c := by
    obtain ⟨ps', s', h', hl, _⟩ := C17_range d c hd hc
    rw [h'] at h
    cases h
    have := (List.getElem?_eq_some_iff.mp hi).1
    omega
  rw [point_of_calls hd hc h hic] at hi
  cases hi
  have core : ∀ k k', k < 6 → k' < 6 → (∀ j < 30, ((dir k j).testBit 29 ^^ ((dir k' j).testBit 29 ^^ (dir k' j).testBit 27)) = false) →
      ¬ (InCell ((List.range d).map (fun k => (coord k (i + 1) : ℚ) * (1 / 2 ^ 30))) k 1 1 ∧
        InCell ((List.range d).map (fun k => (coord k (i + 1) : ℚ) * (1 / 2 ^ 30))) k' 3 0) := by
    intro k k' hk hk' hb ⟨h1, h2⟩
    have hkd : k < d := by
      obtain ⟨x, hx, _⟩ := h1
      have := (List.getElem?_eq_some_iff.mp hx).1
      simpa using this
    have hkd' : k' < d := by
      obtain ⟨x, hx, _⟩ := h2
      have := (List.getElem?_eq_some_iff.mp hx).1
      simpa using this
    rw [inCell_iff _ _ _ _ _ hkd (by omega)] at h1
    rw [inCell_iff _ _ _ _ _ hkd' (by omega)] at h2
    have hp := coord_bits k k' (i + 1) hb
    have b1 : (coord k (i + 1)).testBit 29 = true := by
      have := congrArg (fun z => z.testBit 0) h1
      rw [← Nat.shiftRight_eq_div_pow] at this
      simpa [Nat.testBit_shiftRight] using this
    have b2 : ∀ n, 27 ≤ n → (coord k' (i + 1)).testBit n = false := by
      intro n hn
      obtain ⟨e, rfl⟩ := Nat.exists_eq_add_of_le hn
      have := congrArg (fun z => z.testBit e) h2
      rw [← Nat.shiftRight_eq_div_pow] at this
      simpa [Nat.testBit_shiftRight] using this
    rw [b1, b2 29 (by omega), b2 27 (by omega)] at hp
    simp at hp
  exact ⟨core 2 3 (by omega) (by omega) (fun j hj => (dir_bits j hj).1), core 4 5 (by omega) (by omega) (fun j hj => (dir_bits j hj).2)⟩

-- non-vacuity: points 3 to 6 are an aligned block of four; each half of the square, in either direction, holds two
example : ∃ ps s, calls 2 6 new = some (ps, s) ∧
    {i | 2 ^ 2 * 1 ≤ i + 2 ∧ i + 2 < 2 ^ 2 * (1 + 1) ∧
      ∃ pt, ps[i]? = some pt ∧ InCell pt 0 1 1 ∧ InCell pt 1 0 0}.ncard = 2 := by
  obtain ⟨ps, s, h, _⟩ := C17_range 2 6 (by omega) (by omega)
  exact ⟨ps, s, h, C109_square 2 6 2 1 1 0 1 0 (by omega) (by omega) (by omega) (by omega) rfl (by omega) (by omega)
    (by omega) (by omega) ps s h⟩
-- a whole block of 2^29 points in three dimensions
example : ∃ ps s, calls 3 (2 ^ 30 - 2) new = some (ps, s) ∧
    {i | 2 ^ 29 * 1 ≤ i + 2 ∧ i + 2 < 2 ^ 29 * (1 + 1) ∧
      ∃ pt, ps[i]? = some pt ∧ InCell pt 0 10 7 ∧ InCell pt 1 10 8 ∧ InCell pt 2 6 9}.ncard = 8 := by
  obtain ⟨ps, s, h, _⟩ := C17_range 3 (2 ^ 30 - 2) (by omega) (by omega)
  exact ⟨ps, s, h, C109_cube 3 (2 ^ 30 - 2) 29 1 10 10 6 7 8 9 (by omega) (by omega) (by omega) (by omega) rfl (by omega) (by omega)
    (by omega) (by omega) (by omega) ps s h⟩
-- the empty box: the last of 2^30 - 2 calls in six dimensions is covered
example : ∃ ps s, calls 6 (2 ^ 30 - 2) new = some (ps, s) ∧ ps.length = 2 ^ 30 - 2 ∧ ∀ pt ∈ ps, ¬ (InCell pt 2 1 1 ∧ InCell pt 3 3 0) := by
  obtain ⟨ps, s, h, hl, _⟩ := C17_range 6 (2 ^ 30 - 2) (by omega) (by omega)
  exact ⟨ps, s, h, hl, fun pt hpt => (C109_empty_boxes_false 6 _ (by omega) (by omega) ps s h pt hpt).1⟩

end Shellfish.Sobol
