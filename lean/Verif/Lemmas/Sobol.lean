import Verif.Model.Sobol
import Mathlib.Tactic.Linarith
import Mathlib.Tactic.Positivity
import Mathlib.Tactic.Ring
import Mathlib.Data.Nat.Bitwise
import Mathlib.Algebra.Order.Floor.Semiring
import Mathlib.Data.Fintype.EquivFin
import Mathlib.Data.Fintype.Pi

namespace Shellfish.Sobol

/-- direction number `j` of dimension `k` -/
def dir (k j : Nat) : Nat := (ivTable.getD (6 * j + k) 0).toNat

set_option maxRecDepth 20000 in
theorem table_facts : (ivTable.length = 180) ∧
    ∀ k < 6, ∀ j < 30, (ivTable.getD (6 * j + k) 0).toNat % 2 ^ (30 - j) = 2 ^ (29 - j) ∧
      (ivTable.getD (6 * j + k) 0).toNat < 2 ^ 30 := by
  decide +kernel

/-- reflected binary code -/
def gray (m : Nat) : Nat := m ^^^ (m / 2)

theorem testBit_gray (m i : Nat) : (gray m).testBit i = (m.testBit i ^^ m.testBit (i + 1)) := by
  unfold gray
  rw [Nat.testBit_xor, Nat.testBit_div_two]

theorem gray_xor (a b : Nat) : gray (a ^^^ b) = gray a ^^^ gray b := by
  apply Nat.eq_of_testBit_eq
  intro i
  simp only [testBit_gray, Nat.testBit_xor]
  cases a.testBit i <;> cases b.testBit i <;> cases a.testBit (i+1) <;> cases b.testBit (i+1) <;> rfl

theorem gray_mask (z : Nat) : gray (2 ^ (z + 1) - 1) = 2 ^ z := by
  apply Nat.eq_of_testBit_eq
  intro i
  rw [testBit_gray, Nat.testBit_two_pow_sub_one, Nat.testBit_two_pow_sub_one, Nat.testBit_two_pow]
  by_cases h1 : i < z + 1 <;> by_cases h2 : i + 1 < z + 1 <;> by_cases h3 : z = i <;> simp [h1, h2, h3] <;> omega

/-- the lowest zero bit of `m` is bit `z` -/
def LowZero (m z : Nat) : Prop := m.testBit z = false ∧ ∀ j < z, m.testBit j = true

theorem xor_succ_of_lowZero : ∀ (z m : Nat), LowZero m z → m ^^^ (m + 1) = 2 ^ (z + 1) - 1 := by
  intro z
  induction z with
  | zero =>
    intro m h
    have h0 := h.1
    rw [Nat.testBit_zero] at h0
    have : m % 2 = 0 := by
      rcases Nat.mod_two_eq_zero_or_one m with h | h
      · exact h
      · simp [h] at h0
    obtain ⟨q, rfl⟩ : ∃ q, m = 2 * q := ⟨m / 2, by omega⟩
    apply Nat.eq_of_testBit_eq
    intro i
    cases i with
    | zero => simp [Nat.testBit_zero]
    | succ i =>
      rw [Nat.testBit_xor, Nat.testBit_succ, Nat.testBit_succ,
        show (2 * q) / 2 = q by omega, show (2 * q + 1) / 2 = q by omega]
      rw [show 2 ^ (0 + 1) - 1 = 2 ^ 1 - 1 from rfl, Nat.testBit_two_pow_sub_one]
      simp
  | succ z ih =>
    intro m h
    have h0 := h.2 0 (by omega)
    rw [Nat.testBit_zero] at h0
    have h1 : m % 2 = 1 := by simpa using h0
    obtain ⟨q, rfl⟩ : ∃ q, m = 2 * q + 1 := ⟨m / 2, by omega⟩
    have hq : LowZero q z := by
      have e : (2 * q + 1) / 2 = q := by omega
      constructor
      · have := h.1; rw [Nat.testBit_succ, e] at this; exact this
      · intro j hj
        have := h.2 (j + 1) (by omega)
        rw [Nat.testBit_succ, e] at this; exact this
    have ih' := ih q hq
    apply Nat.eq_of_testBit_eq
    intro i
    cases i with
    | zero =>
      rw [Nat.testBit_xor, Nat.testBit_two_pow_sub_one, Nat.testBit_zero, Nat.testBit_zero,
        show (2 * q + 1) % 2 = 1 by omega, show (2 * q + 1 + 1) % 2 = 0 by omega]
      simp
    | succ i =>
      rw [Nat.testBit_xor, Nat.testBit_succ, Nat.testBit_succ,
        show (2 * q + 1) / 2 = q by omega, show (2 * q + 1 + 1) / 2 = q + 1 by omega,
        ← Nat.testBit_xor, ih', Nat.testBit_two_pow_sub_one, Nat.testBit_two_pow_sub_one]
      simp

theorem gray_succ (m z : Nat) (h : LowZero m z) : gray (m + 1) = gray m ^^^ 2 ^ z := by
  have h1 := gray_xor m (m + 1)
  rw [xor_succ_of_lowZero z m h, gray_mask] at h1
  rw [h1, ← Nat.xor_assoc, Nat.xor_self, Nat.zero_xor]

/-- XOR of the `v j`, `j < p`, over the set bits of `g` -/
def comb (v : Nat → Nat) : Nat → Nat → Nat
  | 0, _ => 0
  | p + 1, g => comb v p g ^^^ (if g.testBit p then v p else 0)

theorem comb_xor (v : Nat → Nat) (p a b : Nat) : comb v p (a ^^^ b) = comb v p a ^^^ comb v p b := by
  induction p with
  | zero => simp [comb]
  | succ p ih =>
    simp only [comb, ih, Nat.testBit_xor]
    apply Nat.eq_of_testBit_eq
    intro i
    cases a.testBit p <;> cases b.testBit p <;> simp only [Nat.testBit_xor, Bool.xor_true, Bool.xor_false,
      Bool.not_true, Bool.not_false, if_true, Bool.false_eq_true, if_false, Nat.zero_testBit] <;>
      cases (comb v p a).testBit i <;> cases (comb v p b).testBit i <;> cases (v p).testBit i <;> rfl

theorem comb_zero (v : Nat → Nat) (p : Nat) : comb v p 0 = 0 := by
  induction p with
  | zero => rfl
  | succ p ih => simp [comb, ih]

theorem comb_pow (v : Nat → Nat) (p j : Nat) : comb v p (2 ^ j) = if j < p then v j else 0 := by
  induction p with
  | zero => simp [comb]
  | succ p ih =>
    simp only [comb, ih, Nat.testBit_two_pow]
    rcases lt_trichotomy j p with h | h | h
    · simp [h, show j < p + 1 by omega, show j ≠ p by omega]
    · simp [h]
    · simp [show ¬ j < p by omega, show ¬ j < p + 1 by omega, show j ≠ p by omega]

/-- the lowest set bit of `v j` is bit `29 - j` -/
def Tri (v : Nat → Nat) : Prop := ∀ j < 30, v j % 2 ^ (30 - j) = 2 ^ (29 - j) ∧ v j < 2 ^ 30

theorem dir_tri (k : Nat) (hk : k < 6) : Tri (dir k) := fun j hj => table_facts.2 k hk j hj

theorem tri_low {v : Nat → Nat} (h : Tri v) (j i : Nat) (hj : j < 30) (hi : i < 29 - j) :
    (v j).testBit i = false := by
  have h1 := (h j hj).1
  have h2 : (v j % 2 ^ (30 - j)).testBit i = (v j).testBit i := by
    rw [Nat.testBit_mod_two_pow]; simp; omega
  rw [← h2, h1, Nat.testBit_two_pow]
  simp; omega

theorem tri_set {v : Nat → Nat} (h : Tri v) (j : Nat) (hj : j < 30) : (v j).testBit (29 - j) = true := by
  have h1 := (h j hj).1
  have h2 : (v j % 2 ^ (30 - j)).testBit (29 - j) = (v j).testBit (29 - j) := by
    rw [Nat.testBit_mod_two_pow]; simp; omega
  rw [← h2, h1, Nat.testBit_two_pow]
  simp

theorem comb_low {v : Nat → Nat} (h : Tri v) (g p i : Nat) (hp : p ≤ 30) (hi : i + p < 30) :
    (comb v p g).testBit i = false := by
  induction p with
  | zero => simp [comb]
  | succ p ih =>
    simp only [comb, Nat.testBit_xor, ih (by omega) (by omega)]
    split
    · rw [tri_low h p i (by omega) (by omega)]; rfl
    · simp

theorem comb_top {v : Nat → Nat} (h : Tri v) (g l p : Nat) (hp : p ≤ 30) (hl : l < p)
    (h1 : g.testBit l = true) (h2 : ∀ j, l < j → g.testBit j = false) :
    (comb v p g).testBit (29 - l) = true := by
  induction p with
  | zero => omega
  | succ p ih =>
    simp only [comb, Nat.testBit_xor]
    by_cases hlp : l = p
    · subst hlp
      rw [comb_low h g l (29 - l) (by omega) (by omega), h1]
      simp [tri_set h l (by omega)]
    · rw [ih (by omega) (by omega), h2 p (by omega)]
      simp

theorem comb_lt {v : Nat → Nat} (h : Tri v) (g p : Nat) (hp : p ≤ 30) : comb v p g < 2 ^ 30 := by
  induction p with
  | zero => simp [comb]
  | succ p ih =>
    simp only [comb]
    apply Nat.xor_lt_two_pow (ih (by omega))
    split
    · exact (h p (by omega)).2
    · positivity

theorem exists_top_bit (d : Nat) (hd : d ≠ 0) : ∃ l, d.testBit l = true ∧ (∀ j, l < j → d.testBit j = false) ∧ 2 ^ l ≤ d := by
  obtain ⟨l, h1, h2⟩ := Nat.exists_most_significant_bit hd
  exact ⟨l, h1, h2, Nat.ge_two_pow_of_testBit h1⟩

/-- distinct `m`, `m'` below `2^k` apart (in XOR) give codes differing in the top `k` bits -/
theorem comb_gray_top {v : Nat → Nat} (h : Tri v) (m m' k : Nat) (hk : k ≤ 30) (hne : m ≠ m')
    (hx : m ^^^ m' < 2 ^ k) :
    comb v 30 (gray m) / 2 ^ (30 - k) ≠ comb v 30 (gray m') / 2 ^ (30 - k) := by
  intro heq
  have hd : m ^^^ m' ≠ 0 := by rwa [Ne, Nat.xor_eq_zero_iff]
  obtain ⟨l, hl1, hl2, hl3⟩ := exists_top_bit _ hd
  have hlk : l < k := (Nat.pow_lt_pow_iff_right (by omega : 1 < 2)).mp (lt_of_le_of_lt hl3 hx)
  have hg1 : (gray (m ^^^ m')).testBit l = true := by
    rw [testBit_gray, hl1, hl2 (l + 1) (by omega)]; rfl
  have hg2 : ∀ j, l < j → (gray (m ^^^ m')).testBit j = false := by
    intro j hj
    rw [testBit_gray, hl2 j hj, hl2 (j + 1) (by omega)]; rfl
  have ht := comb_top h _ l 30 le_rfl (by omega) hg1 hg2
  rw [gray_xor, comb_xor, Nat.testBit_xor] at ht
  have e : (29 - l) = (30 - k) + (k - 1 - l) := by omega
  have h1 : ∀ x : Nat, x.testBit (29 - l) = (x / 2 ^ (30 - k)).testBit (k - 1 - l) := by
    intro x
    rw [Nat.testBit_div_two_pow, e, Nat.add_comm (30 - k)]
  rw [h1, h1, heq] at ht
  simp at ht

/-! the model -/

theorem zeroIdxFrom_spec (n : Nat) : ∀ fuel z, (∀ j < z, n.testBit j = true) →
    let r := zeroIdxFrom n fuel z
    z ≤ r ∧ r ≤ z + fuel ∧ (∀ j < r, n.testBit j = true) ∧ (r < z + fuel → n.testBit r = false) := by
  intro fuel
  induction fuel with
  | zero => intro z h; simp only [zeroIdxFrom]; exact ⟨le_rfl, by omega, h, by omega⟩
  | succ fuel ih =>
    intro z h
    simp only [zeroIdxFrom]
    split
    · rename_i hb
      have := ih (z + 1) (by
        intro j hj
        rcases Nat.lt_succ_iff_lt_or_eq.mp hj with hj | rfl
        · exact h j hj
        · exact hb)
      simp only at this
      refine ⟨by omega, by omega, this.2.2.1, fun hr => this.2.2.2 (by omega)⟩
    · rename_i hb
      exact ⟨le_rfl, by omega, h, fun _ => by simpa using hb⟩

theorem zeroIdx_lowZero (n : Nat) (h : zeroIdx n < 30) : LowZero n (zeroIdx n) := by
  have := zeroIdxFrom_spec n 30 0 (by intro j hj; omega)
  exact ⟨this.2.2.2 (by simpa [zeroIdx, maxBit] using h), this.2.2.1⟩

theorem all_ones_ge (p : Nat) : ∀ n : Nat, (∀ j < p, n.testBit j = true) → 2 ^ p - 1 ≤ n := by
  induction p with
  | zero => intro n _; simp
  | succ p ih =>
    intro n h
    have h0 := h 0 (by omega)
    rw [Nat.testBit_zero] at h0
    have h1 : n % 2 = 1 := by simpa using h0
    have := ih (n / 2) (by
      intro j hj
      have := h (j + 1) (by omega)
      rwa [Nat.testBit_succ] at this)
    rw [pow_succ]
    omega

theorem zeroIdx_lt (n : Nat) (h : n < 2 ^ 30 - 1) : zeroIdx n < 30 := by
  have := zeroIdxFrom_spec n 30 0 (by intro j hj; omega)
  by_contra hc
  have h30 : zeroIdx n = 30 := by
    have := this.2.1
    simp only [zeroIdx, maxBit] at hc ⊢
    omega
  have h2 := all_ones_ge 30 n (by
    intro j hj
    exact this.2.2.1 j (by rw [show zeroIdxFrom n 30 0 = zeroIdx n from rfl, h30]; exact hj))
  omega

theorem zeroIdx_last : zeroIdx (2 ^ 30 - 1) = 30 := by decide +kernel

/-- integer coordinate `k` after `c` calls -/
def coord (k c : Nat) : Nat := comb (dir k) 30 (gray (c + 1)) ^^^ dir k 0

theorem coord_zero (k : Nat) : coord k 0 = 0 := by
  unfold coord
  rw [show gray (0 + 1) = 2 ^ 0 by decide, comb_pow]
  simp

theorem coord_succ (k c : Nat) (h : c + 1 < 2 ^ 30 - 1) : coord k (c + 1) = coord k c ^^^ dir k (zeroIdx (c + 1)) := by
  unfold coord
  have hz := zeroIdx_lt (c + 1) h
  rw [gray_succ (c + 1) _ (zeroIdx_lowZero _ hz), comb_xor, comb_pow, if_pos hz]
  rw [Nat.xor_assoc, Nat.xor_comm (dir k (zeroIdx (c + 1))), ← Nat.xor_assoc]

theorem coord_lt (k c : Nat) (hk : k < 6) : coord k c < 2 ^ 30 :=
  Nat.xor_lt_two_pow (comb_lt (dir_tri k hk) _ 30 le_rfl) (dir_tri k hk 0 (by omega)).2

theorem coord_top_ne (k c c' p : Nat) (hk : k < 6) (hp : p ≤ 30) (hne : c ≠ c')
    (hx : (c + 1) ^^^ (c' + 1) < 2 ^ p) : coord k c / 2 ^ (30 - p) ≠ coord k c' / 2 ^ (30 - p) := by
  intro h
  apply comb_gray_top (dir_tri k hk) (c + 1) (c' + 1) p hp (by omega) hx
  have e : ∀ a, comb (dir k) 30 (gray (a + 1)) = coord k a ^^^ dir k 0 := by
    intro a; unfold coord; rw [Nat.xor_assoc, Nat.xor_self, Nat.xor_zero]
  rw [e, e]
  rw [← Nat.shiftRight_eq_div_pow, ← Nat.shiftRight_eq_div_pow, Nat.shiftRight_xor_distrib, Nat.shiftRight_xor_distrib,
    Nat.shiftRight_eq_div_pow (coord k c), Nat.shiftRight_eq_div_pow (coord k c'), h]

theorem nextLoop_spec (iv : List (BitVec 32)) (im : Nat) : ∀ (ks : List Nat) (ix : List (BitVec 32)), ks.Nodup →
    (∀ k ∈ ks, k < ix.length ∧ im + k < iv.length) →
    ∃ ix' ts, nextLoop iv im ks ix = some (ix', ts) ∧ ix'.length = ix.length ∧
      (∀ k, ix'.getD k 0 = if k ∈ ks then ix.getD k 0 ^^^ iv.getD (im + k) 0 else ix.getD k 0) ∧
      ts = ks.map (fun k => ((ix.getD k 0 ^^^ iv.getD (im + k) 0).toNat : ℚ) * (1 / 2 ^ 30)) := by
  intro ks
  induction ks with
  | nil => intro ix _ _; exact ⟨ix, [], rfl, rfl, by simp, rfl⟩
  | cons k ks ih =>
    intro ix hnd h
    rw [List.nodup_cons] at hnd
    have hk := h k (by simp)
    obtain ⟨ix', ts, h1, h2, h3, h4⟩ := ih (ix.set k (ix.getD k 0 ^^^ iv.getD (im + k) 0)) hnd.2
      (by intro j hj; have := h j (by simp [hj]); simpa using this)
    have e1 : ix[k]? = some (ix.getD k 0) := by
      rw [List.getElem?_eq_getElem hk.1, List.getD_eq_getElem?_getD, List.getElem?_eq_getElem hk.1]; rfl
    have e2 : iv[im + k]? = some (iv.getD (im + k) 0) := by
      rw [List.getElem?_eq_getElem hk.2, List.getD_eq_getElem?_getD, List.getElem?_eq_getElem hk.2]; rfl
    have hset : ∀ j, (ix.set k (ix.getD k 0 ^^^ iv.getD (im + k) 0)).getD j 0 =
        if j = k then ix.getD k 0 ^^^ iv.getD (im + k) 0 else ix.getD j 0 := by
      intro j
      rw [List.getD_eq_getElem?_getD, List.getElem?_set]
      by_cases hjk : k = j
      · subst hjk; simp [hk.1]
      · simp [hjk, Ne.symm hjk, List.getD_eq_getElem?_getD]
    refine ⟨ix', ((ix.getD k 0 ^^^ iv.getD (im + k) 0).toNat : ℚ) * (1 / 2 ^ 30) :: ts,
      by simp only [nextLoop, e1, e2, Option.bind_eq_bind, Option.bind_some, h1], by simpa using h2, ?_, ?_⟩
    · intro j
      rw [h3 j, hset j]
      by_cases hjk : j = k
      · subst hjk; simp [hnd.1]
      · simp [hjk]
    · rw [h4, List.map_cons]
      congr 1
      apply List.map_congr_left
      intro j hj
      have : j ≠ k := fun e => hnd.1 (e ▸ hj)
      rw [hset j, if_neg this]

end Shellfish.Sobol
