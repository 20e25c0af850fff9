/-
The state update of the Xorshift generator as a linear map over the field of two elements, and its order.
-/
import Verif.Lemmas.Rand
import Mathlib.Algebra.Module.LinearMap.End
import Mathlib.Algebra.Group.Hom.End
import Mathlib.Algebra.BigOperators.Group.Finset.Basic
import Mathlib.Algebra.BigOperators.Ring.Finset
import Mathlib.NumberTheory.LucasPrimality
import Mathlib.Tactic.NormNum.Prime
import Mathlib.Dynamics.PeriodicPts.Defs
import Mathlib.SetTheory.Cardinal.Finite
import Mathlib.Data.Fintype.Prod
import Mathlib.Data.BitVec

namespace Shellfish.Rand

/-! ### States form a vector space -/

theorem Xor.ext' {g h : Xor} (h1 : g.w = h.w) (h2 : g.x = h.x) (h3 : g.y = h.y) (h4 : g.z = h.z) : g = h := by
  cases g; cases h; simp_all

instance : Zero Xor := ⟨⟨0, 0, 0, 0⟩⟩
instance : Add Xor := ⟨fun g h => ⟨g.w ^^^ h.w, g.x ^^^ h.x, g.y ^^^ h.y, g.z ^^^ h.z⟩⟩
instance : Neg Xor := ⟨fun g => g⟩

theorem Xor.add_self (g : Xor) : g + g = 0 := Xor.ext' (BitVec.xor_self) (BitVec.xor_self) (BitVec.xor_self) (BitVec.xor_self)

instance : AddCommGroup Xor where
  add_assoc a b c := Xor.ext' (BitVec.xor_assoc _ _ _) (BitVec.xor_assoc _ _ _) (BitVec.xor_assoc _ _ _) (BitVec.xor_assoc _ _ _)
  zero_add a := Xor.ext' (BitVec.zero_xor) (BitVec.zero_xor) (BitVec.zero_xor) (BitVec.zero_xor)
  add_zero a := Xor.ext' (BitVec.xor_zero) (BitVec.xor_zero) (BitVec.xor_zero) (BitVec.xor_zero)
  nsmul := nsmulRec
  zsmul := zsmulRec
  neg_add_cancel a := Xor.add_self a
  add_comm a b := Xor.ext' (BitVec.xor_comm _ _) (BitVec.xor_comm _ _) (BitVec.xor_comm _ _) (BitVec.xor_comm _ _)

theorem Xor.isZero_iff (g : Xor) : g.IsZero ↔ g = 0 :=
  ⟨fun h => Xor.ext' h.1 h.2.1 h.2.2.1 h.2.2.2, fun h => by subst h; exact ⟨rfl, rfl, rfl, rfl⟩⟩

theorem Xor.step_add (g h : Xor) : (g + h).step = g.step + h.step := by
  refine Xor.ext' ?_ rfl rfl rfl
  change (g.w ^^^ h.w) ^^^ ((g.w ^^^ h.w) >>> 19) ^^^ (((g.x ^^^ h.x) ^^^ ((g.x ^^^ h.x) <<< 11)) ^^^ (((g.x ^^^ h.x) ^^^ ((g.x ^^^ h.x) <<< 11)) >>> 8)) =
    (g.w ^^^ (g.w >>> 19) ^^^ ((g.x ^^^ (g.x <<< 11)) ^^^ ((g.x ^^^ (g.x <<< 11)) >>> 8))) ^^^ (h.w ^^^ (h.w >>> 19) ^^^ ((h.x ^^^ (h.x <<< 11)) ^^^ ((h.x ^^^ (h.x <<< 11)) >>> 8)))
  simp only [BitVec.shiftLeft_xor_distrib, BitVec.ushiftRight_xor_distrib]
  ac_rfl

/-- The update as an additive map. -/
def upd : AddMonoid.End Xor := ⟨⟨Xor.step, by decide⟩, Xor.step_add⟩

theorem upd_pow (k : ℕ) (g : Xor) : (upd ^ k) g = Xor.step^[k] g := by
  induction k generalizing g with
  | zero => rfl
  | succ k ih => rw [pow_succ, AddMonoid.End.coe_mul, Function.comp_apply, ih, Function.iterate_succ_apply]; rfl

theorem end_add_self (f : AddMonoid.End Xor) : f + f = 0 := by
  ext1 g
  exact Xor.add_self _

/-! ### Polynomials in the update -/

/-- The value at the update of the polynomial over the field of two elements whose coefficients are the lowest `k` bits of `a`. -/
def evk (k a : ℕ) : AddMonoid.End Xor := ∑ i ∈ Finset.range k, if a.testBit i then upd ^ i else 0

theorem evk_xor (k a b : ℕ) : evk k (a ^^^ b) = evk k a + evk k b := by
  unfold evk
  rw [← Finset.sum_add_distrib]
  refine Finset.sum_congr rfl fun i _ => ?_
  rw [Nat.testBit_xor]
  cases a.testBit i <;> cases b.testBit i <;> simp [end_add_self]

theorem evk_zero (k : ℕ) : evk k 0 = 0 := by
  unfold evk
  simp

theorem evk_succ (k a : ℕ) : evk (k + 1) a = (if a.testBit 0 then 1 else 0) + upd * evk k (a / 2) := by
  unfold evk
  rw [Finset.sum_range_succ', add_comm, Finset.mul_sum]
  congr 1
  refine Finset.sum_congr rfl fun i _ => ?_
  rw [Nat.testBit_div_two, mul_ite, mul_zero, pow_succ']

theorem evk_more {k a : ℕ} (h : a < 2 ^ k) (j : ℕ) : evk (k + j) a = evk k a := by
  induction j with
  | zero => rfl
  | succ j ih =>
    rw [← add_assoc]
    unfold evk at *
    rw [Finset.sum_range_succ, ih, Nat.testBit_lt_two_pow (lt_of_lt_of_le h (Nat.pow_le_pow_right (by norm_num) (by omega)))]
    simp

/-- The polynomial: the characteristic polynomial of the update. -/
def polyP : ℕ := 340282367000252274136119470900022902785

def evC : ℕ → ℕ → Xor → Xor
  | 0, _, _ => 0
  | k + 1, a, g => (if a.testBit 0 then g else 0) + (evC k (a / 2) g).step

theorem evC_eq (k a : ℕ) (g : Xor) : evC k a g = evk k a g := by
  induction k generalizing a with
  | zero => simp [evC, evk]
  | succ k ih =>
    rw [evC, evk_succ, ih]
    cases a.testBit 0 <;> rfl

/-- The four states with one bit `i` set. -/
def bits4 (i : ℕ) : List Xor := [⟨BitVec.twoPow 32 i, 0, 0, 0⟩, ⟨0, BitVec.twoPow 32 i, 0, 0⟩, ⟨0, 0, BitVec.twoPow 32 i, 0⟩, ⟨0, 0, 0, BitVec.twoPow 32 i⟩]

def basisOk : Bool := (List.range 32).all fun i => (bits4 i).all fun g => decide (evC 129 polyP g = 0)

set_option maxRecDepth 10000 in
theorem basis_ok : basisOk = true := by decide +kernel

/-- An additive map of words that is zero on the powers of two is zero. -/
theorem word_zero (f : BitVec 32 → Xor) (h0 : f 0 = 0) (ha : ∀ a b, f (a ^^^ b) = f a + f b) (h : ∀ i < 32, f (BitVec.twoPow 32 i) = 0) (v : BitVec 32) : f v = 0 := by
  have key : ∀ k, k ≤ 32 → ∀ v : BitVec 32, (∀ i, k ≤ i → v.getLsbD i = false) → f v = 0 := by
    intro k
    induction k with
    | zero =>
      intro _ v hv
      have : v = 0 := by
        apply BitVec.eq_of_getLsbD_eq
        intro i _
        rw [hv i (by omega)]
        simp
      rw [this, h0]
    | succ k ih =>
      intro hk v hv
      by_cases hb : v.getLsbD k = true
      · have h1 : f (v ^^^ BitVec.twoPow 32 k) = 0 := by
          refine ih (by omega) _ fun i hi => ?_
          rw [BitVec.getLsbD_xor, BitVec.getLsbD_twoPow]
          rcases hi.lt_or_eq with hlt | rfl
          · rw [hv i (by omega)]
            have : k ≠ i := by omega
            simp [this]
          · rw [hb]
            simp
            omega
        rw [ha, h k (by omega), add_zero] at h1
        exact h1
      · refine ih (by omega) v fun i hi => ?_
        rcases hi.lt_or_eq with hlt | rfl
        · exact hv i (by omega)
        · simpa using hb
  exact key 32 le_rfl v fun i hi => BitVec.getLsbD_of_ge v i hi

theorem evk_polyP : evk 129 polyP = 0 := by
  have hb : ∀ i < 32, ∀ g ∈ bits4 i, evk 129 polyP g = 0 := by
    intro i hi g hg
    have := basis_ok
    unfold basisOk at this
    rw [List.all_eq_true] at this
    have := this i (List.mem_range.mpr hi)
    rw [List.all_eq_true] at this
    have := of_decide_eq_true (this g hg)
    rwa [evC_eq] at this
  have hadd : ∀ a b : Xor, evk 129 polyP (a + b) = evk 129 polyP a + evk 129 polyP b := fun a b => map_add _ a b
  generalize evk 129 polyP = f at hb hadd
  have hz : f 0 = 0 := map_zero f
  ext1 g
  have e : g = (⟨g.w, 0, 0, 0⟩ : Xor) + (⟨0, g.x, 0, 0⟩ : Xor) + (⟨0, 0, g.y, 0⟩ : Xor) + (⟨0, 0, 0, g.z⟩ : Xor) := by
    refine Xor.ext' ?_ ?_ ?_ ?_
    · change g.w = ((g.w ^^^ 0) ^^^ 0) ^^^ 0; simp
    · change g.x = ((0 ^^^ g.x) ^^^ 0) ^^^ 0; simp
    · change g.y = ((0 ^^^ 0) ^^^ g.y) ^^^ 0; simp
    · change g.z = ((0 ^^^ 0) ^^^ 0) ^^^ g.z; simp
  have z1 := word_zero (fun v => f ⟨v, 0, 0, 0⟩) hz (fun a b => by rw [← hadd]; exact congrArg f (Xor.ext' rfl (BitVec.xor_self).symm (BitVec.xor_self).symm (BitVec.xor_self).symm)) (fun i hi => hb i hi _ (by simp [bits4])) g.w
  have z2 := word_zero (fun v => f ⟨0, v, 0, 0⟩) hz (fun a b => by rw [← hadd]; exact congrArg f (Xor.ext' (BitVec.xor_self).symm rfl (BitVec.xor_self).symm (BitVec.xor_self).symm)) (fun i hi => hb i hi _ (by simp [bits4])) g.x
  have z3 := word_zero (fun v => f ⟨0, 0, v, 0⟩) hz (fun a b => by rw [← hadd]; exact congrArg f (Xor.ext' (BitVec.xor_self).symm (BitVec.xor_self).symm rfl (BitVec.xor_self).symm)) (fun i hi => hb i hi _ (by simp [bits4])) g.y
  have z4 := word_zero (fun v => f ⟨0, 0, 0, v⟩) hz (fun a b => by rw [← hadd]; exact congrArg f (Xor.ext' (BitVec.xor_self).symm (BitVec.xor_self).symm (BitVec.xor_self).symm rfl)) (fun i hi => hb i hi _ (by simp [bits4])) g.z
  rw [e, hadd, hadd, hadd, z1, z2, z3, z4]
  rfl

/-! ### Multiplication of polynomials modulo the characteristic polynomial -/

def mulx (a : ℕ) : ℕ := (2 * a) ^^^ (polyP * (a / 2 ^ 127))

def mulm : ℕ → ℕ → ℕ → ℕ
  | 0, _, _ => 0
  | k + 1, a, b => (a * (b % 2)) ^^^ mulx (mulm k a (b / 2))

def powx : ℕ → ℕ → ℕ
  | 0, _ => 1
  | k + 1, e => (fun h => (fun s => Nat.rec s (fun _ _ => mulx s) (e % 2)) (mulm 128 h h)) (powx k (e / 2))

abbrev ev (a : ℕ) : AddMonoid.End Xor := evk 129 a

theorem mulx_spec {a : ℕ} (h : a < 2 ^ 128) : mulx a < 2 ^ 128 ∧ ev (mulx a) = upd * ev a := by
  have h2 : ev (2 * a) = upd * ev a := by
    unfold ev
    rw [evk_succ, Nat.testBit_zero, Nat.mul_mod_right, Nat.mul_div_cancel_left _ (by norm_num), evk_more (k := 128) h 1]
    simp
  unfold mulx
  rcases Nat.lt_or_ge a (2 ^ 127) with hc | hc
  · rw [Nat.div_eq_of_lt hc, mul_zero, Nat.xor_zero]
    exact ⟨by omega, h2⟩
  · have e : a / 2 ^ 127 = 1 := by omega
    rw [e, mul_one]
    refine ⟨?_, by unfold ev at *; rw [evk_xor, evk_polyP, add_zero, h2]⟩
    have b1 : (2 * a).testBit 128 = true := by
      rw [Nat.testBit_eq_decide_div_mod_eq]
      have : 2 * a / 2 ^ 128 = 1 := by omega
      rw [this]
      rfl
    have b2 : polyP.testBit 128 = true := by decide +kernel
    apply Nat.lt_pow_two_of_testBit
    intro i hi
    rw [Nat.testBit_xor]
    rcases hi.lt_or_eq with hlt | rfl
    · have p : 2 ^ 129 ≤ 2 ^ i := Nat.pow_le_pow_right (by norm_num) hlt
      rw [Nat.testBit_lt_two_pow (by omega : 2 * a < 2 ^ i), Nat.testBit_lt_two_pow (lt_of_lt_of_le (by unfold polyP; norm_num) p : polyP < 2 ^ i)]
      rfl
    · rw [b1, b2]
      rfl

theorem mulm_spec (k : ℕ) {a : ℕ} (ha : a < 2 ^ 128) {b : ℕ} (hb : b < 2 ^ k) (hk : k ≤ 128) : mulm k a b < 2 ^ 128 ∧ ev (mulm k a b) = evk k b * ev a := by
  induction k generalizing b with
  | zero => simp [mulm, evk_zero, evk]
  | succ k ih =>
    obtain ⟨i1, i2⟩ := ih (b := b / 2) (by omega) (by omega)
    obtain ⟨m1, m2⟩ := mulx_spec i1
    rw [mulm]
    refine ⟨Nat.xor_lt_two_pow ?_ m1, ?_⟩
    · rcases Nat.mod_two_eq_zero_or_one b with e | e <;> rw [e]
      · norm_num
      · simpa using ha
    · unfold ev at *
      rw [evk_xor, m2, i2, evk_succ k b, add_mul, mul_assoc, Nat.testBit_zero]
      rcases Nat.mod_two_eq_zero_or_one b with e | e <;> rw [e]
      · simp [evk_zero]
      · simp

theorem powx_spec (k : ℕ) {e : ℕ} (he : e < 2 ^ k) : powx k e < 2 ^ 128 ∧ ev (powx k e) = upd ^ e := by
  induction k generalizing e with
  | zero =>
    have : e = 0 := by simpa using he
    subst this
    refine ⟨by norm_num [powx], ?_⟩
    unfold powx ev
    rw [evk_succ]
    simp [evk_zero]
  | succ k ih =>
    obtain ⟨i1, i2⟩ := ih (e := e / 2) (by omega)
    obtain ⟨m1, m2⟩ := mulm_spec 128 i1 i1 le_rfl
    have m3 : ev (mulm 128 (powx k (e / 2)) (powx k (e / 2))) = upd ^ (2 * (e / 2)) := by
      rw [m2, ← evk_more i1 1]
      change ev _ * _ = _
      rw [i2, ← pow_add, two_mul]
    rw [powx]
    rcases Nat.mod_two_eq_zero_or_one e with h | h <;> rw [h]
    · refine ⟨m1, ?_⟩
      change ev (mulm 128 (powx k (e / 2)) (powx k (e / 2))) = _
      rw [m3]
      congr 1
      omega
    · obtain ⟨n1, n2⟩ := mulx_spec m1
      refine ⟨n1, ?_⟩
      change ev (mulx (mulm 128 (powx k (e / 2)) (powx k (e / 2)))) = _
      rw [n2, m3, ← pow_succ']
      congr 1
      omega

/-! ### The order of the update -/

/-- The number of states that are not zero. -/
abbrev period : ℕ := 2 ^ 128 - 1

theorem order_one : powx 128 period = 1 := by decide +kernel

/-- For the prime factors of the period: an inverse of the polynomial of `update ^ (period / p) - 1`. -/
def inverses : List (ℕ × ℕ) := [(3, 133953335144028078570501892093482299452), (5, 151794906280615946920587260728475445023), (17, 288676104794235856817578729415729568722),
  (257, 140239344036719843198371133677329421916), (641, 272365965476946169307397722556321934694), (65537, 19606021719553718632817052679888491436),
  (274177, 123238532970663673086441209674178830033), (6700417, 97083650747657427314725846816444512388), (67280421310721, 71481420630604488033091811775364421675)]

theorem inverses_ok : ∀ q ∈ inverses, q.2 < 2 ^ 128 ∧ mulm 128 (powx 128 (period / q.1) ^^^ 1) q.2 = 1 := by decide +kernel

theorem upd_period : upd ^ period = 1 := by
  have h := (powx_spec 128 (e := period) (by norm_num)).2
  rw [order_one] at h
  rw [← h]
  unfold ev
  rw [evk_succ]
  simp [evk_zero]

theorem ev_one : ev 1 = 1 := by
  unfold ev
  rw [evk_succ]
  simp [evk_zero]

/-- A state that comes back after a `p`-th of the period is zero. -/
theorem no_shorter {q : ℕ × ℕ} (hq : q ∈ inverses) {g : Xor} (h : Xor.step^[period / q.1] g = g) : g = 0 := by
  obtain ⟨h1, h2⟩ := inverses_ok q hq
  obtain ⟨p1, p2⟩ := powx_spec 128 (e := period / q.1) (lt_of_le_of_lt (Nat.div_le_self _ _) (by norm_num))
  obtain ⟨m1, m2⟩ := mulm_spec 128 (a := powx 128 (period / q.1) ^^^ 1) (Nat.xor_lt_two_pow p1 (by norm_num)) h1 le_rfl
  rw [h2, ev_one] at m2
  have e : ev (powx 128 (period / q.1) ^^^ 1) g = 0 := by
    unfold ev at *
    rw [evk_xor, p2]
    change (upd ^ (period / q.1)) g + (ev 1) g = 0
    rw [upd_pow, h, ev_one]
    exact Xor.add_self g
  clear h h1 h2 p1 p2 m1 hq
  generalize ev (powx 128 (period / q.1) ^^^ 1) = F at *
  generalize evk 128 q.2 = G at *
  have := congrArg (fun f : AddMonoid.End Xor => f g) m2
  rw [AddMonoid.End.coe_mul, Function.comp_apply, e, map_zero] at this
  exact this

/-- `b ^ e` modulo `m`. -/
def powMod (b m : ℕ) : ℕ → ℕ → ℕ
  | 0, _ => 1 % m
  | k + 1, e => powMod b m k (e / 2) * powMod b m k (e / 2) * (if e % 2 = 1 then b else 1) % m

theorem powMod_eq (b m k : ℕ) {e : ℕ} (he : e < 2 ^ k) : powMod b m k e = b ^ e % m := by
  induction k generalizing e with
  | zero =>
    have : e = 0 := by simpa using he
    subst this
    rfl
  | succ k ih =>
    rw [powMod, ih (by omega : e / 2 < 2 ^ k)]
    rcases Nat.mod_two_eq_zero_or_one e with h | h
    · rw [if_neg (by omega), mul_one, ← Nat.mul_mod, ← pow_add]
      congr 2
      omega
    · rw [if_pos h]
      conv_rhs => rw [show e = e / 2 + e / 2 + 1 by omega, pow_succ, pow_add]
      rw [Nat.mul_mod, ← Nat.mul_mod (b ^ (e / 2)) (b ^ (e / 2)) m, ← Nat.mul_mod]

theorem prime_big : Nat.Prime 67280421310721 := by
  refine lucas_primality _ 3 ?_ ?_
  · have h : (3 : ℕ) ^ 67280421310720 % 67280421310721 = 1 := by
      rw [← powMod_eq 3 67280421310721 64 (by norm_num)]
      decide +kernel
    have := (ZMod.natCast_eq_natCast_iff' (3 ^ 67280421310720) 1 67280421310721).mpr (by rw [h])
    push_cast at this
    exact this
  · intro q hq hd
    have e : 67280421310721 - 1 = 2 ^ 8 * (5 * (47 * (373 * 2998279))) := by norm_num
    rw [e] at hd
    have h5 : Nat.Prime 5 := by norm_num
    have h47 : Nat.Prime 47 := by norm_num
    have h373 : Nat.Prime 373 := by norm_num
    have hl : Nat.Prime 2998279 := by norm_num
    have hne : ∀ k : ℕ, (3 : ℕ) ^ k % 67280421310721 ≠ 1 → (3 : ZMod 67280421310721) ^ k ≠ 1 := by
      intro k hk hc
      apply hk
      have := (ZMod.natCast_eq_natCast_iff' (3 ^ k) 1 67280421310721).mp (by push_cast; exact hc)
      rw [this]
    rcases hq.dvd_mul.mp hd with h | hd
    · rw [(Nat.prime_dvd_prime_iff_eq hq Nat.prime_two).mp (hq.dvd_of_dvd_pow h)]
      exact hne _ (by rw [← powMod_eq 3 67280421310721 64 (by norm_num)]; decide +kernel)
    rcases hq.dvd_mul.mp hd with h | hd
    · rw [(Nat.prime_dvd_prime_iff_eq hq h5).mp h]
      exact hne _ (by rw [← powMod_eq 3 67280421310721 64 (by norm_num)]; decide +kernel)
    rcases hq.dvd_mul.mp hd with h | hd
    · rw [(Nat.prime_dvd_prime_iff_eq hq h47).mp h]
      exact hne _ (by rw [← powMod_eq 3 67280421310721 64 (by norm_num)]; decide +kernel)
    rcases hq.dvd_mul.mp hd with h | h
    · rw [(Nat.prime_dvd_prime_iff_eq hq h373).mp h]
      exact hne _ (by rw [← powMod_eq 3 67280421310721 64 (by norm_num)]; decide +kernel)
    · rw [(Nat.prime_dvd_prime_iff_eq hq hl).mp h]
      exact hne _ (by rw [← powMod_eq 3 67280421310721 64 (by norm_num)]; decide +kernel)

theorem prime_dvd_period {p : ℕ} (hp : p.Prime) (h : p ∣ period) : ∃ q ∈ inverses, q.1 = p := by
  have e : period = 3 * (5 * (17 * (257 * (641 * (65537 * (274177 * (6700417 * 67280421310721))))))) := by norm_num
  rw [e] at h
  have h1 : Nat.Prime 3 := by norm_num
  have h2 : Nat.Prime 5 := by norm_num
  have h3 : Nat.Prime 17 := by norm_num
  have h4 : Nat.Prime 257 := by norm_num
  have h5 : Nat.Prime 641 := by norm_num
  have h6 : Nat.Prime 65537 := by norm_num
  have h7 : Nat.Prime 274177 := by norm_num
  have h8 : Nat.Prime 6700417 := by norm_num
  simp only [hp.dvd_mul, Nat.prime_dvd_prime_iff_eq hp h1, Nat.prime_dvd_prime_iff_eq hp h2, Nat.prime_dvd_prime_iff_eq hp h3, Nat.prime_dvd_prime_iff_eq hp h4, Nat.prime_dvd_prime_iff_eq hp h5,
    Nat.prime_dvd_prime_iff_eq hp h6, Nat.prime_dvd_prime_iff_eq hp h7, Nat.prime_dvd_prime_iff_eq hp h8, Nat.prime_dvd_prime_iff_eq hp prime_big] at h
  rcases h with rfl | rfl | rfl | rfl | rfl | rfl | rfl | rfl | rfl <;> simp [inverses]

theorem minimalPeriod_step {g : Xor} (hg : g ≠ 0) : Function.minimalPeriod Xor.step g = period := by
  have hper : Function.IsPeriodicPt Xor.step period g := by
    have := congrArg (fun f : AddMonoid.End Xor => f g) upd_period
    change (upd ^ period) g = g at this
    rw [upd_pow] at this
    exact this
  have hd := hper.minimalPeriod_dvd
  by_contra hne
  obtain ⟨c, hc⟩ := hd
  have hpos : 0 < period := by norm_num
  have hc1 : c ≠ 1 := by rintro rfl; exact hne (by omega)
  obtain ⟨p, hp, hpc⟩ := Nat.exists_prime_and_dvd hc1
  obtain ⟨d, rfl⟩ := hpc
  obtain ⟨q, hq, rfl⟩ := prime_dvd_period hp ⟨Function.minimalPeriod Xor.step g * d, by rw [hc]; ring⟩
  apply hg
  refine no_shorter hq ?_
  have e : period / q.1 = Function.minimalPeriod Xor.step g * d := by
    rw [hc, show Function.minimalPeriod Xor.step g * (q.1 * d) = q.1 * (Function.minimalPeriod Xor.step g * d) by ring]
    exact Nat.mul_div_cancel_left _ hp.pos
  rw [e]
  exact (Function.isPeriodicPt_minimalPeriod Xor.step g).mul_const d

/-! ### The orbit -/

def xorEquiv : Xor ≃ (BitVec 32 × BitVec 32) × (BitVec 32 × BitVec 32) where
  toFun g := ((g.w, g.x), (g.y, g.z))
  invFun p := ⟨p.1.1, p.1.2, p.2.1, p.2.2⟩
  left_inv _ := rfl
  right_inv _ := rfl

theorem card_word : Nat.card (BitVec 32) = 2 ^ 32 := by
  rw [Nat.card_congr (BitVec.equivFin (m := 32)).toEquiv, Nat.card_eq_fintype_card, Fintype.card_fin]

theorem card_xor : Nat.card Xor = 2 ^ 128 := by
  rw [Nat.card_congr xorEquiv, Nat.card_prod, Nat.card_prod, card_word]
  norm_num

theorem orbit {g h : Xor} (hg : g ≠ 0) (hh : h ≠ 0) : ∃ k < period, Xor.step^[k] g = h := by
  have : Finite Xor := Nat.finite_of_card_ne_zero (by rw [card_xor]; norm_num)
  have hnz : ∀ k, Xor.step^[k] g ≠ 0 := by
    intro k
    induction k with
    | zero => exact hg
    | succ k ih =>
      rw [Function.iterate_succ_apply']
      intro hz
      exact ih ((Xor.isZero_iff _).mp (Xor.step_isZero ((Xor.isZero_iff _).mpr hz)))
  let f : Fin period → {s : Xor // s ≠ 0} := fun k => ⟨Xor.step^[k.1] g, hnz k.1⟩
  have hinj : Function.Injective f := by
    intro a b hab
    have e : Xor.step^[a.1] g = Xor.step^[b.1] g := congrArg Subtype.val hab
    have := (Function.iterate_injOn_Iio_minimalPeriod (f := Xor.step) (x := g)) (by rw [Set.mem_Iio, minimalPeriod_step hg]; exact a.2) (by rw [Set.mem_Iio, minimalPeriod_step hg]; exact b.2) e
    exact Fin.ext this
  have hcard : Nat.card {s : Xor // s ≠ 0} = period := by
    have h1 := Nat.card_congr (Equiv.optionSubtypeNe (0 : Xor))
    rw [Finite.card_option, card_xor] at h1
    unfold period
    omega
  have hsurj : Function.Surjective f := ((Nat.bijective_iff_injective_and_card f).mpr ⟨hinj, by rw [hcard, Nat.card_eq_fintype_card, Fintype.card_fin]⟩).2
  obtain ⟨k, hk⟩ := hsurj ⟨h, hh⟩
  exact ⟨k.1, k.2, congrArg Subtype.val hk⟩

end Shellfish.Rand
