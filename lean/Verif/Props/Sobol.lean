/-
Property C17: the Sobol sequence.
-/
import Verif.Lemmas.Sobol

namespace Shellfish.Sobol

/-- `c` successive calls of `Next(d)`: the points returned, oldest first, and the final state. -/
def calls (d : Nat) : Nat → Seq → Option (List (List ℚ) × Seq)
  | 0, s => some ([], s)
  | c + 1, s => do
    let (ps, s') ← calls d c s
    let (p, s'') ← s'.next d
    some (ps ++ [p], s'')

/-- The state after `c` calls. -/
theorem calls_spec (d : Nat) (hd : d ≤ 6) : ∀ c, c < 2 ^ 30 - 1 →
    ∃ s, calls d c new = some ((List.range c).map (fun i =>
        (List.range d).map (fun k => (coord k (i + 1) : ℚ) * (1 / 2 ^ 30))), s) ∧
      s.seqNum = c ∧ s.iv = ivTable ∧ s.ix.length = 6 ∧
      ∀ k < d, (s.ix.getD k 0).toNat = coord k c := by
  intro c
  induction c with
  | zero =>
    intro _
    have e : new = { seqNum := 0, ix := List.replicate 6 0, iv := ivTable, isInit := true } := by
      unfold new Seq.init Seq.zero
      simp
    refine ⟨new, rfl, by rw [e], by rw [e], by rw [e, List.length_replicate], ?_⟩
    rw [e]
    intro k _
    rw [coord_zero]
    show ((List.replicate 6 (0 : BitVec 32)).getD k 0).toNat = 0
    rw [List.getD_eq_getElem?_getD, List.getElem?_replicate]
    split <;> rfl
  | succ c ih =>
    intro hc
    obtain ⟨s, h1, h2, h3, h4, h5⟩ := ih (by omega)
    have hz := zeroIdx_lt (c + 1) hc
    obtain ⟨ix', ts, g1, g2, g3, g4⟩ := nextLoop_spec s.iv (zeroIdx (c + 1) * 6) (List.range d) s.ix List.nodup_range
      (by
        intro k hk
        rw [List.mem_range] at hk
        rw [h3, h4, table_facts.1]
        omega)
    have hco : ∀ k < d, (s.ix.getD k 0 ^^^ s.iv.getD (zeroIdx (c + 1) * 6 + k) 0).toNat = coord k (c + 1) := by
      intro k hk
      rw [coord_succ k c hc, BitVec.toNat_xor, h5 k hk, h3, Nat.mul_comm]
      rfl
    have hn : s.next d = some (ts, { s with seqNum := c + 1, ix := ix' }) := by
      have hm : maxSeqNum = 2 ^ 30 := rfl
      have hmd : maxDim = 6 := rfl
      simp only [Seq.next, hm, hmd, h2]
      rw [if_neg (by omega), if_neg (by omega), g1]
      rfl
    refine ⟨{ s with seqNum := c + 1, ix := ix' }, ?_, rfl, h3, by simp [g2, h4], ?_⟩
    · simp only [calls, h1, hn, Option.bind_eq_bind, Option.bind_some]
      rw [List.range_succ, List.map_append, List.map_singleton, g4]
      congr 2
      congr 1
      rw [List.singleton_inj]
      apply List.map_congr_left
      intro k hk
      rw [hco k (List.mem_range.mp hk)]
    · intro k hk
      show (ix'.getD k 0).toNat = _
      rw [g3 k, if_pos (List.mem_range.mpr hk), hco k hk]

/-- C17: for every dimension count `d` in 1..6 and every number of calls `c ≤ 2^30 - 2`, a fresh sequence delivers
`c` points, each with `d` coordinates in [0, 1). -/
theorem C17_range (d c : Nat) (hd : d ≤ 6) (hc : c ≤ 2 ^ 30 - 2) :
    ∃ ps s, calls d c new = some (ps, s) ∧ ps.length = c ∧
      ∀ p ∈ ps, p.length = d ∧ ∀ x ∈ p, 0 ≤ x ∧ x < 1 := by
  obtain ⟨s, h, _⟩ := calls_spec d hd c (by omega)
  refine ⟨_, s, h, by simp, ?_⟩
  intro p hp
  simp only [List.mem_map, List.mem_range] at hp
  obtain ⟨i, _, rfl⟩ := hp
  refine ⟨by simp, ?_⟩
  intro x hx
  simp only [List.mem_map, List.mem_range] at hx
  obtain ⟨k, hk, rfl⟩ := hx
  have h1 : (coord k (i + 1) : ℚ) < 2 ^ 30 := by exact_mod_cast coord_lt k (i + 1) (by omega)
  constructor
  · positivity
  · have : (coord k (i + 1) : ℚ) * (1 / 2 ^ 30) < 2 ^ 30 * (1 / 2 ^ 30) :=
      mul_lt_mul_of_pos_right h1 (by positivity)
    rwa [mul_one_div_cancel (by positivity)] at this

theorem coord_of_calls {d c : Nat} (hd : d ≤ 6) (hc : c ≤ 2 ^ 30 - 2) {ps s} (h : calls d c new = some (ps, s))
    {i k : Nat} (hi : i < c) (hk : k < d) {x : ℚ} {p : List ℚ} (hp : ps[i]? = some p) (hx : p[k]? = some x) :
    x = (coord k (i + 1) : ℚ) * (1 / 2 ^ 30) := by
  obtain ⟨s', h', _⟩ := calls_spec d hd c (by omega)
  rw [h'] at h
  cases h
  simp only [List.getElem?_map, List.getElem?_range hi, Option.map_some, Option.some.injEq] at hp
  subst hp
  simp only [List.getElem?_map, List.getElem?_range hk, Option.map_some, Option.some.injEq] at hx
  exact hx.symm

/-- C17: no coordinate value is ever repeated: in each dimension the values of different points differ. -/
theorem C17_distinct (d c : Nat) (hd : d ≤ 6) (hc : c ≤ 2 ^ 30 - 2) (ps : List (List ℚ)) (s : Seq)
    (h : calls d c new = some (ps, s)) (i j k : Nat) (hij : i < j) (hj : j < c) (hk : k < d)
    (p q : List ℚ) (x y : ℚ) (hp : ps[i]? = some p) (hq : ps[j]? = some q)
    (hx : p[k]? = some x) (hy : q[k]? = some y) : x ≠ y := by
  rw [coord_of_calls hd hc h (by omega) hk hp hx, coord_of_calls hd hc h hj hk hq hy]
  intro he
  have h1 : (coord k (i + 1) : ℚ) = coord k (j + 1) := mul_right_cancel₀ (by positivity) he
  have h2 : coord k (i + 1) = coord k (j + 1) := by exact_mod_cast h1
  apply coord_top_ne k (i + 1) (j + 1) 30 (by omega) le_rfl (by omega)
  · apply Nat.xor_lt_two_pow <;> omega
  · rw [h2]

theorem xor_lt_of_block (p a x y : Nat) (hx : 2 ^ p * a ≤ x) (hx' : x < 2 ^ p * (a + 1)) (hy : 2 ^ p * a ≤ y)
    (hy' : y < 2 ^ p * (a + 1)) : x ^^^ y < 2 ^ p := by
  have e : ∀ z, 2 ^ p * a ≤ z → z < 2 ^ p * (a + 1) → z >>> p = a := by
    intro z h1 h2
    rw [Nat.shiftRight_eq_div_pow]
    apply Nat.div_eq_of_lt_le
    · rw [Nat.mul_comm]; exact h1
    · rw [Nat.mul_comm]; exact h2
  have : (x ^^^ y) >>> p = 0 := by rw [Nat.shiftRight_xor_distrib, e x hx hx', e y hy hy', Nat.xor_self]
  rw [Nat.shiftRight_eq_div_pow] at this
  rcases (Nat.div_eq_zero_iff).mp this with h | h
  · exact absurd h (by positivity)
  · exact h

/-- C17, even spacing: number the points 2, 3, 4, ... in the order they are returned (the code skips the first two
points of the classical sequence).  In every aligned block of `2^p` consecutive numbers and in every
dimension, each of the `2^p` intervals [q/2^p, (q+1)/2^p) receives exactly one point. -/
theorem C17_equidistributed (d c p a k q : Nat) (hd : d ≤ 6) (hk : k < d) (hc : c ≤ 2 ^ 30 - 2) (hp : p ≤ 30)
    (ha : 2 ≤ 2 ^ p * a) (hac : 2 ^ p * (a + 1) ≤ c + 2) (hq : q < 2 ^ p) (ps : List (List ℚ)) (s : Seq)
    (h : calls d c new = some (ps, s)) :
    ∃! i, 2 ^ p * a ≤ i + 2 ∧ i + 2 < 2 ^ p * (a + 1) ∧
      ∃ pt x, ps[i]? = some pt ∧ pt[k]? = some x ∧ (q : ℚ) / 2 ^ p ≤ x ∧ x < ((q : ℚ) + 1) / 2 ^ p := by
  have hcell : ∀ i < c, (∃ pt x, ps[i]? = some pt ∧ pt[k]? = some x ∧ (q : ℚ) / 2 ^ p ≤ x ∧ x < ((q : ℚ) + 1) / 2 ^ p)
      ↔ coord k (i + 1) / 2 ^ (30 - p) = q := by
    intro i hi
    have hpow : (2 : ℚ) ^ 30 = 2 ^ p * 2 ^ (30 - p) := by rw [← pow_add]; congr 1; omega
    have hpt : ∃ pt x, ps[i]? = some pt ∧ pt[k]? = some x ∧ x = (coord k (i + 1) : ℚ) * (1 / 2 ^ 30) := by
      obtain ⟨s', h', _⟩ := calls_spec d hd c (by omega)
      rw [h'] at h
      cases h
      refine ⟨(List.range d).map (fun k => (coord k (i + 1) : ℚ) * (1 / 2 ^ 30)), _, ?_, ?_, rfl⟩
      · simp only [List.getElem?_map, List.getElem?_range hi, Option.map_some]
      · simp only [List.getElem?_map, List.getElem?_range hk, Option.map_some]
    have hiff : ((q : ℚ) / 2 ^ p ≤ (coord k (i + 1) : ℚ) * (1 / 2 ^ 30) ∧
        (coord k (i + 1) : ℚ) * (1 / 2 ^ 30) < ((q : ℚ) + 1) / 2 ^ p) ↔ coord k (i + 1) / 2 ^ (30 - p) = q := by
      rw [mul_one_div, hpow]
      rw [div_le_div_iff₀ (by positivity) (by positivity), div_lt_div_iff₀ (by positivity) (by positivity)]
      have e1 : (q : ℚ) * (2 ^ p * 2 ^ (30 - p)) ≤ (coord k (i + 1) : ℚ) * 2 ^ p ↔ q * 2 ^ (30 - p) ≤ coord k (i + 1) := by
        rw [show (q : ℚ) * (2 ^ p * 2 ^ (30 - p)) = (q * 2 ^ (30 - p)) * 2 ^ p by ring,
          mul_le_mul_iff_left₀ (by positivity)]
        exact_mod_cast Iff.rfl
      have e2 : (coord k (i + 1) : ℚ) * 2 ^ p < ((q : ℚ) + 1) * (2 ^ p * 2 ^ (30 - p)) ↔ coord k (i + 1) < (q + 1) * 2 ^ (30 - p) := by
        rw [show ((q : ℚ) + 1) * (2 ^ p * 2 ^ (30 - p)) = ((q + 1) * 2 ^ (30 - p)) * 2 ^ p by ring,
          mul_lt_mul_iff_left₀ (by positivity)]
        exact_mod_cast Iff.rfl
      rw [e1, e2]
      constructor
      · rintro ⟨h1, h2⟩; exact Nat.div_eq_of_lt_le h1 h2
      · intro h1
        have hpos : 0 < 2 ^ (30 - p) := by positivity
        constructor
        · rw [← h1]; exact Nat.div_mul_le_self _ _
        · rw [← h1]; exact Nat.lt_mul_of_div_lt (Nat.lt_succ_self _) hpos
    rw [← hiff]
    constructor
    · rintro ⟨pt, x, h1, h2, h3⟩
      rwa [coord_of_calls hd hc h hi hk h1 h2] at h3
    · intro h3
      obtain ⟨pt, x, h1, h2, h4⟩ := hpt
      exact ⟨pt, x, h1, h2, h4 ▸ h3⟩
  have hblock : ∀ i, 2 ^ p * a ≤ i + 2 → i + 2 < 2 ^ p * (a + 1) → i < c := by intro i _ h2; omega
  -- the map from the block to cells is injective, hence bijective
  let f : Fin (2 ^ p) → Fin (2 ^ p) := fun t =>
    ⟨coord k (2 ^ p * a + t - 1) / 2 ^ (30 - p), by
      rw [Nat.div_lt_iff_lt_mul (by positivity), ← pow_add, show p + (30 - p) = 30 by omega]
      exact coord_lt k _ (by omega)⟩
  have hinj : Function.Injective f := by
    intro t u htu
    by_contra hne
    have hv : t.val ≠ u.val := fun e => hne (Fin.ext e)
    have e := congrArg Fin.val htu
    simp only [f] at e
    refine coord_top_ne k _ _ p (by omega) hp (by omega) ?_ e
    apply xor_lt_of_block p a <;> have := t.isLt <;> have := u.isLt <;> rw [Nat.sub_add_cancel (by omega)] <;>
      first | omega | (rw [Nat.mul_succ]; omega)
  have hsurj := Finite.surjective_of_injective hinj
  obtain ⟨t, ht⟩ := hsurj ⟨q, hq⟩
  have ht' : coord k (2 ^ p * a + t.val - 1) / 2 ^ (30 - p) = q := congrArg Fin.val ht
  have htlt := t.isLt
  have hmul : 2 ^ p * (a + 1) = 2 ^ p * a + 2 ^ p := Nat.mul_succ _ _
  refine ⟨2 ^ p * a + t.val - 2, ⟨by omega, by omega, ?_⟩, ?_⟩
  · rw [hcell _ (by omega), show 2 ^ p * a + t.val - 2 + 1 = 2 ^ p * a + t.val - 1 by omega]
    exact ht'
  · rintro j ⟨hj1, hj2, hj3⟩
    rw [hcell j (hblock j hj1 hj2)] at hj3
    have : f ⟨j + 2 - 2 ^ p * a, by omega⟩ = f t := by
      apply Fin.ext
      simp only [f]
      rw [ht', show 2 ^ p * a + (j + 2 - 2 ^ p * a) - 1 = j + 1 by omega]
      exact hj3
    have := congrArg Fin.val (hinj this)
    simp only at this
    omega

theorem nextLoop_panics (iv : List (BitVec 32)) (im k : Nat) (ks : List Nat) (ix : List (BitVec 32))
    (h : iv.length ≤ im) : nextLoop iv im (k :: ks) ix = none := by
  have : iv[im + k]? = none := List.getElem?_eq_none (by omega)
  simp only [nextLoop, this]
  cases ix[k]? <;> rfl

/-- C17: the sequence is exhausted at call number 2^30 - 1, which panics (in the source with an index
out of range, before the explicit limit check of 2^30 draws is ever reached). -/
theorem C17_exhausted (d : Nat) (hd : d ≤ 6) (hd0 : 0 < d) : calls d (2 ^ 30 - 1) new = none := by
  obtain ⟨s, h1, h2, h3, h4, _⟩ := calls_spec d hd (2 ^ 30 - 2) (by omega)
  rw [show 2 ^ 30 - 1 = (2 ^ 30 - 2) + 1 by omega, calls, h1]
  simp only [Option.bind_eq_bind, Option.bind_some]
  have hn : s.next d = none := by
    unfold Seq.next
    rw [if_neg (by show ¬ 6 < d; omega)]
    split
    · rfl
    · rw [h2, show 2 ^ 30 - 2 + 1 = 2 ^ 30 - 1 by omega]
      simp only [zeroIdx_last]
      obtain ⟨e, rfl⟩ : ∃ e, d = e + 1 := ⟨d - 1, by omega⟩
      have hr : List.range (e + 1) = 0 :: (List.range e).map Nat.succ := List.range_succ_eq_map
      simp only [hr, Option.bind_eq_bind]
      rw [nextLoop_panics _ _ _ _ _ (by rw [h3, table_facts.1]; decide)]
      rfl
  rw [hn]; rfl

/-- C17: more than six dimensions are refused in every state. -/
theorem C17_dim_refused (s : Seq) (d : Nat) (hd : 6 < d) : s.next d = none := by
  unfold Seq.next
  rw [if_pos (show maxDim < d from hd)]

/-- The literal claim "the first 2^k - 1 points together with 0 are the multiples of 2^-k" is false: with
k = 2 the third point of the first dimension is not a multiple of 1/4. -/
theorem C17_first_points_false :
    ∃ s, calls 1 3 new = some ([[3 / 4], [1 / 4], [7 / 8]], s) := by
  obtain ⟨s, h, _⟩ := calls_spec 1 (by omega) 3 (by norm_num)
  refine ⟨s, ?_⟩
  rw [h]
  have h1 : coord 0 1 = 805306368 := by decide +kernel
  have h2 : coord 0 2 = 268435456 := by decide +kernel
  have h3 : coord 0 3 = 939524096 := by decide +kernel
  simp only [List.range_succ, List.range_zero, List.nil_append, List.map_append, List.map_singleton, h1, h2, h3]
  norm_num

/-- Calling `Init` again clears the coordinates but not the position, so the points that follow differ from those
of a fresh sequence: restarting does not reproduce the sequence. -/
theorem C17_reinit_not_fresh :
    ((calls 1 1 new).bind fun r => r.2.init.next 1).map Prod.fst = some [1 / 2] ∧
      (new.next 1).map Prod.fst = some [3 / 4] := by
  decide +kernel

-- non-vacuity: an aligned block of four (numbers 4..7, i.e. the third to the sixth point), all cells
example : (2 : Nat) ≤ 2 ^ 2 * 1 ∧ 2 ^ 2 * (1 + 1) ≤ 6 + 2 := by decide
example : ∃ ps s, calls 2 6 new = some (ps, s) ∧ ps.length = 6 := by
  obtain ⟨ps, s, h, hl, _⟩ := C17_range 2 6 (by omega) (by omega)
  exact ⟨ps, s, h, hl⟩

end Shellfish.Sobol
