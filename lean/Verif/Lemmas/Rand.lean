import Verif.Model.Rand
import Mathlib.Tactic.Linarith
import Mathlib.Tactic.FieldSimp
import Mathlib.Tactic.Positivity
import Mathlib.Algebra.Order.Floor.Ring

namespace Shellfish.Rand

theorem shl_kernel (x : BitVec 32) (h : x ^^^ (x <<< 11) = 0#32) : x = 0#32 := by
  have e : x = x <<< 11 := BitVec.xor_eq_zero_iff.mp h
  have e3 : x = x <<< 33 := by
    have h2 : x <<< 11 = x <<< 11 <<< 11 := congrArg (fun y : BitVec 32 => y <<< (11 : Nat)) e
    have h3 : x <<< 11 <<< 11 = x <<< 11 <<< 11 <<< 11 := congrArg (fun y : BitVec 32 => y <<< (11 : Nat)) h2
    calc x = x <<< 11 := e
      _ = x <<< 11 <<< 11 := h2
      _ = x <<< 11 <<< 11 <<< 11 := h3
      _ = x <<< 33 := by rw [← BitVec.shiftLeft_add, ← BitVec.shiftLeft_add]
  rw [e3]
  exact BitVec.shiftLeft_eq_zero (by decide)

theorem shr_kernel (t : BitVec 32) (h : t ^^^ (t >>> 8) = 0#32) : t = 0#32 := by
  have e : t = t >>> 8 := BitVec.xor_eq_zero_iff.mp h
  have h2 : t >>> 8 = t >>> 8 >>> 8 := congrArg (fun y : BitVec 32 => y >>> (8 : Nat)) e
  have h3 : t >>> 8 >>> 8 = t >>> 8 >>> 8 >>> 8 := congrArg (fun y : BitVec 32 => y >>> (8 : Nat)) h2
  have h4 : t >>> 8 >>> 8 >>> 8 = t >>> 8 >>> 8 >>> 8 >>> 8 := congrArg (fun y : BitVec 32 => y >>> (8 : Nat)) h3
  have e4 : t = t >>> 32 := by
    calc t = t >>> 8 := e
      _ = t >>> 8 >>> 8 := h2
      _ = t >>> 8 >>> 8 >>> 8 := h3
      _ = t >>> 8 >>> 8 >>> 8 >>> 8 := h4
      _ = t >>> 32 := by rw [← BitVec.shiftRight_add, ← BitVec.shiftRight_add, ← BitVec.shiftRight_add]
  rw [e4]
  exact BitVec.ushiftRight_eq_zero (by decide)

/-- the all-zero state -/
def Xor.IsZero (g : Xor) : Prop := g.w = 0#32 ∧ g.x = 0#32 ∧ g.y = 0#32 ∧ g.z = 0#32

theorem Xor.step_isZero {g : Xor} (h : g.step.IsZero) : g.IsZero := by
  obtain ⟨hw, hx, hy, hz⟩ := h
  simp only [Xor.step] at hw hx hy hz
  refine ⟨hz, ?_, hx, hy⟩
  rw [hz] at hw
  simp only [BitVec.zero_ushiftRight, BitVec.xor_self, BitVec.zero_xor] at hw
  exact shl_kernel _ (shr_kernel _ hw)

theorem Xor.value_eq_one (g : Xor) : g.value = 1 ↔ g.w = 0#32 := by
  unfold Xor.value
  rw [div_eq_one_iff_eq (by norm_num)]
  constructor
  · intro h
    have : (g.w.toNat : ℚ) = 0 := by linarith
    have : g.w.toNat = 0 := by exact_mod_cast this
    exact BitVec.eq_of_toNat_eq (by simpa using this)
  · intro h; rw [h]; norm_num

theorem Xor.value_range (g : Xor) (h : g.w ≠ 0#32) : 0 ≤ g.value ∧ g.value < 1 := by
  have hlt : g.w.toNat < 4294967296 := g.w.isLt
  have hpos : 0 < g.w.toNat := by
    rcases Nat.eq_zero_or_pos g.w.toNat with h0 | h0
    · exact absurd (BitVec.eq_of_toNat_eq (by simpa using h0)) h
    · exact h0
  have h1 : (g.w.toNat : ℚ) ≤ 4294967295 := by exact_mod_cast (by omega : g.w.toNat ≤ 4294967295)
  have h2 : (1 : ℚ) ≤ g.w.toNat := by exact_mod_cast hpos
  unfold Xor.value
  constructor
  · apply div_nonneg <;> linarith
  · rw [div_lt_one (by norm_num)]; linarith

/-- iterate the update -/
def Xor.steps : Nat → Xor → Xor
  | 0, g => g
  | n + 1, g => Xor.steps n g.step

theorem Xor.steps_notZero {g : Xor} (h : ¬ g.IsZero) : ∀ n, ¬ (Xor.steps n g).IsZero := by
  intro n
  induction n generalizing g with
  | zero => exact h
  | succ n ih => exact ih (fun hz => h (Xor.step_isZero hz))

theorem Xor.next_eq (g : Xor) : g.next =
    if g.step.value = 1 then g.step.next else some (g.step.value, g.step) := by
  rw [Xor.next]

theorem Xor.nextSeq_zero (g : Xor) : g.nextSeq 0 = some ([], g) := by
  rw [Xor.nextSeq]

theorem Xor.nextSeq_succ (g : Xor) (k : Nat) : g.nextSeq (k + 1) =
    if g.step.value = 1 then g.step.nextSeq (k + 1)
    else (g.step.nextSeq k).bind fun r => some (g.step.value :: r.1, r.2) := by
  rw [Xor.nextSeq]; rfl

/-- `Next` needs at most four updates. -/
theorem Xor.next_spec (g : Xor) (h : ¬ g.IsZero) :
    ∃ k v g', 1 ≤ k ∧ k ≤ 4 ∧ g.next = some (v, g') ∧ g' = Xor.steps k g ∧ v = g'.value ∧ g'.w ≠ 0#32 ∧
      ∀ j, 1 ≤ j → j < k → (Xor.steps j g).w = 0#32 := by
  by_cases h1 : g.step.w = 0#32
  · by_cases h2 : g.step.step.w = 0#32
    · by_cases h3 : g.step.step.step.w = 0#32
      · by_cases h4 : g.step.step.step.step.w = 0#32
        · exfalso
          apply Xor.steps_notZero h 4
          refine ⟨h4, ?_, ?_, ?_⟩
          · exact h1
          · exact h2
          · exact h3
        · refine ⟨4, _, _, by omega, by omega, ?_, rfl, rfl, h4, ?_⟩
          · rw [Xor.next_eq, if_pos ((Xor.value_eq_one _).mpr h1), Xor.next_eq,
              if_pos ((Xor.value_eq_one _).mpr h2), Xor.next_eq, if_pos ((Xor.value_eq_one _).mpr h3),
              Xor.next_eq, if_neg (fun hc => h4 ((Xor.value_eq_one _).mp hc))]; rfl
          · intro j hj1 hj2
            obtain rfl | rfl | rfl : j = 1 ∨ j = 2 ∨ j = 3 := by omega
            · exact h1
            · exact h2
            · exact h3
      · refine ⟨3, _, _, by omega, by omega, ?_, rfl, rfl, h3, ?_⟩
        · rw [Xor.next_eq, if_pos ((Xor.value_eq_one _).mpr h1), Xor.next_eq,
              if_pos ((Xor.value_eq_one _).mpr h2), Xor.next_eq, if_neg (fun hc => h3 ((Xor.value_eq_one _).mp hc))]; rfl
        · intro j hj1 hj2
          obtain rfl | rfl : j = 1 ∨ j = 2 := by omega
          · exact h1
          · exact h2
    · refine ⟨2, _, _, by omega, by omega, ?_, rfl, rfl, h2, ?_⟩
      · rw [Xor.next_eq, if_pos ((Xor.value_eq_one _).mpr h1), Xor.next_eq,
          if_neg (fun hc => h2 ((Xor.value_eq_one _).mp hc))]; rfl
      · intro j hj1 hj2
        obtain rfl : j = 1 := by omega
        exact h1
  · refine ⟨1, _, _, by omega, by omega, ?_, rfl, rfl, h1, by intro j h1 h2; omega⟩
    rw [Xor.next_eq, if_neg (fun hc => h1 ((Xor.value_eq_one _).mp hc))]; rfl

/-- rejected updates can be skipped in NextSequence -/
theorem Xor.nextSeq_via_next (g : Xor) (h : ¬ g.IsZero) (k : Nat) :
    g.nextSeq (k + 1) = g.next.bind fun r => (r.2.nextSeq k).bind fun q => some (r.1 :: q.1, q.2) := by
  obtain ⟨m, v, g', hm1, hm4, hn, hg, hv, hw, hz⟩ := Xor.next_spec g h
  rw [hn]
  simp only [Option.bind_some]
  clear hn
  induction m generalizing g with
  | zero => omega
  | succ m ih =>
    rw [Xor.nextSeq_succ]
    by_cases hm : m = 0
    · subst hm
      have : g' = g.step := hg
      subst this
      rw [if_neg (fun hc => hw ((Xor.value_eq_one _).mp hc)), hv]
    · have h1 : g.step.w = 0#32 := hz 1 (by omega) (by omega)
      rw [if_pos ((Xor.value_eq_one _).mpr h1)]
      exact ih g.step (fun hz => h (Xor.step_isZero hz)) (by omega) (by omega) hg
        (fun j hj1 hj2 => hz (j + 1) (by omega) (by omega))

/-! Tausworthe -/

theorem tausDec_lt (n i : Nat) (hn : 0 < n) (hi : i < n) : tausDec n i < n := by
  unfold tausDec; split <;> omega

/-- well-formed generator state -/
def Taus.Ok (g : Taus) : Prop :=
  g.leader < g.seq.length ∧ g.first < g.seq.length ∧ g.second < g.seq.length ∧ ∀ v ∈ g.seq, 0 ≤ v ∧ v < 1

theorem Taus.next_spec (g : Taus) (h : g.Ok) :
    ∃ v g', g.next = some (v, g') ∧ 0 ≤ v ∧ v < 1 ∧ g'.Ok ∧ g'.seq.length = g.seq.length := by
  obtain ⟨h1, h2, h3, h4⟩ := h
  simp only [Taus.next, List.getElem?_eq_getElem h1, List.getElem?_eq_getElem h2, List.getElem?_eq_getElem h3,
    Option.bind_eq_bind, Option.bind_some]
  have ha := h4 _ (List.getElem_mem h2)
  have hb := h4 _ (List.getElem_mem h3)
  have hv : 0 ≤ (if g.seq[g.first] - g.seq[g.second] < 0 then g.seq[g.first] - g.seq[g.second] + 1
      else g.seq[g.first] - g.seq[g.second]) ∧
      (if g.seq[g.first] - g.seq[g.second] < 0 then g.seq[g.first] - g.seq[g.second] + 1
      else g.seq[g.first] - g.seq[g.second]) < 1 := by
    split <;> constructor <;> linarith
  refine ⟨_, _, rfl, hv.1, hv.2, ⟨?_, ?_, ?_, ?_⟩, by simp⟩
  · simpa using tausDec_lt _ _ (by omega) h1
  · simpa using tausDec_lt _ _ (by omega) h2
  · simpa using tausDec_lt _ _ (by omega) h3
  · intro v hm
    simp only at hm
    rcases List.mem_or_eq_of_mem_set hm with hm | rfl
    · exact h4 v hm
    · exact hv

end Shellfish.Rand
