import Verif.Model.Bytes
import Mathlib.Tactic.Ring
import Mathlib.Tactic.Linarith

namespace Shellfish.Bytes

theorem encLE_length (k n : Nat) : (encLE k n).length = k := by
  induction k generalizing n with
  | zero => rfl
  | succ k ih => simp [encLE, ih]

theorem decLE_lt (bs : List Byte) : decLE bs < 256 ^ bs.length := by
  induction bs with
  | nil => simp [decLE]
  | cons b bs ih =>
    have := b.toNat_lt
    simp only [decLE, List.length_cons, Nat.pow_succ]
    norm_num at this
    omega

theorem decLE_encLE (k n : Nat) : decLE (encLE k n) = n % 256 ^ k := by
  induction k generalizing n with
  | zero => simp [encLE, decLE, Nat.mod_one]
  | succ k ih =>
    simp only [encLE, decLE, ih, UInt8.toNat_ofNat']
    rw [Nat.pow_succ 256 k, Nat.mul_comm (256 ^ k) 256, Nat.mod_mul]

theorem encLE_decLE (bs : List Byte) : encLE bs.length (decLE bs) = bs := by
  induction bs with
  | nil => rfl
  | cons b bs ih =>
    have hb := b.toNat_lt
    norm_num at hb
    have h1 : (b.toNat + 256 * decLE bs) / 256 = decLE bs := by omega
    have h2 : UInt8.ofNat (b.toNat + 256 * decLE bs) = b := by
      apply UInt8.toNat_inj.mp
      rw [UInt8.toNat_ofNat']
      omega
    simp only [List.length_cons, decLE, encLE, h1, h2, ih]

theorem putNat_length (o : Order) (k n : Nat) : (putNat o k n).length = k := by
  cases o <;> simp [putNat, encLE_length]

theorem getNat_putNat (o : Order) (k n : Nat) (h : n < 256 ^ k) : getNat o (putNat o k n) = n := by
  cases o <;> simp [getNat, putNat, decLE_encLE, Nat.mod_eq_of_lt h]

theorem putNat_getNat (o : Order) (bs : List Byte) : putNat o bs.length (getNat o bs) = bs := by
  cases o with
  | little => exact encLE_decLE bs
  | big =>
    have := encLE_decLE bs.reverse
    rw [List.length_reverse] at this
    simp [putNat, getNat, this]

theorem putInt_length (o : Order) (k : Nat) (x : Int) : (putInt o k x).length = k := putNat_length o k _

/-- `k`-byte signed range -/
def InRange (k : Nat) (x : Int) : Prop := -(256 ^ k : Nat) ≤ 2 * x ∧ 2 * x < (256 ^ k : Nat)

theorem getInt_putInt (o : Order) (k : Nat) (x : Int) (h : InRange k x) : getInt o (putInt o k x) = x := by
  unfold getInt putInt
  rw [putNat_length]
  obtain ⟨h1, h2⟩ := h
  have hpos : (0 : Int) < (256 ^ k : Nat) := by
    have : 0 < 256 ^ k := Nat.pow_pos (by norm_num)
    exact_mod_cast this
  have hm1 := Int.emod_nonneg x (ne_of_gt hpos)
  have hm2 := Int.emod_lt_of_pos x hpos
  rw [getNat_putNat o k _ (by omega)]
  unfold signed
  generalize hP : (256 ^ k : Nat) = P at *
  by_cases hx : 0 ≤ x
  · have : x % (P : Int) = x := Int.emod_eq_of_lt hx (by omega)
    rw [this, if_pos (by omega)]; omega
  · have : x % (P : Int) = x + P := by
      rw [← Int.add_emod_right]; exact Int.emod_eq_of_lt (by omega) (by omega)
    rw [this, if_neg (by omega)]; omega

theorem putInts_length (o : Order) (k : Nat) (xs : List Int) : (putInts o k xs).length = xs.length * k := by
  induction xs with
  | nil => simp [putInts]
  | cons x xs ih =>
    simp only [putInts, List.flatMap_cons, List.length_append, putInt_length, List.length_cons] at ih ⊢
    rw [ih]; ring

theorem readInts_putInts (o : Order) (k : Nat) (xs : List Int) (h : ∀ x ∈ xs, InRange k x) (rest : List Byte) :
    readInts o k xs.length (putInts o k xs ++ rest) = (xs, rest) := by
  unfold readInts
  rw [if_neg (by rw [List.length_append, putInts_length]; omega)]
  congr 1
  · induction xs with
    | nil => rfl
    | cons x xs ih =>
      have e : putInts o k (x :: xs) ++ rest = putInt o k x ++ (putInts o k xs ++ rest) := by simp [putInts]
      have el : (putInt o k x).length = k := putInt_length o k x
      rw [e]
      simp only [List.length_cons, pieces, List.map_cons]
      rw [List.take_append_of_le_length (by omega), List.take_of_length_le (by omega), getInt_putInt o k x (h x (by simp))]
      rw [List.drop_append_of_le_length (by omega), List.drop_of_length_le (by omega : (putInt o k x).length ≤ k), List.nil_append,
        ih (fun y hy => h y (by simp [hy]))]
  · rw [List.drop_append_of_le_length (by rw [putInts_length]), List.drop_of_length_le (by rw [putInts_length])]
    rfl

theorem readInts_one (o : Order) (k : Nat) (x : Int) (h : InRange k x) (rest : List Byte) :
    readInts o k 1 (putInt o k x ++ rest) = ([x], rest) := by
  have := readInts_putInts o k [x] (by simpa using h) rest
  simpa [putInts] using this

theorem readInts_rest_length (o : Order) (k n : Nat) (bs : List Byte) : (readInts o k n bs).2.length ≤ bs.length := by
  unfold readInts
  split <;> simp

end Shellfish.Bytes
