/-
Properties C15 (Xorshift) and C16 (Tausworthe).
-/
import Verif.Lemmas.Rand

namespace Shellfish.Rand

/-- Draw `n` values one at a time with `Next` (specification of a batch). -/
def drawXor : Nat → Xor → Option (List ℚ × Xor)
  | 0, g => some ([], g)
  | n + 1, g => do
    let (v, g') ← g.next
    let (vs, g'') ← drawXor n g'
    some (v :: vs, g'')

/-- States a generator can be in: seeded and then any number of draws. -/
inductive XorReachable : Xor → Prop
  | seed (s : BitVec 64) : XorReachable (Xor.init s)
  | draw {g v g'} : XorReachable g → g.next = some (v, g') → XorReachable g'

theorem XorReachable.notZero {g : Xor} (h : XorReachable g) : ¬ g.IsZero := by
  induction h with
  | seed s => rintro ⟨_, h, _, _⟩; simp only [Xor.init] at h; revert h; decide
  | draw _ hn ih =>
    obtain ⟨k, v, g', _, _, h1, h2, _⟩ := Xor.next_spec _ ih
    rw [h1] at hn; cases hn
    rw [h2]; exact Xor.steps_notZero ih k

/-- C15: in every reachable state `Next` terminates after at most four state updates and
returns a value in [0, 1). -/
theorem C15_next (g : Xor) (h : XorReachable g) :
    ∃ v g', g.next = some (v, g') ∧ 0 ≤ v ∧ v < 1 ∧ XorReachable g' ∧
      ∃ k, 1 ≤ k ∧ k ≤ 4 ∧ g' = (Xor.step^[k]) g := by
  obtain ⟨k, v, g', hk1, hk4, h1, h2, h3, h4, _⟩ := Xor.next_spec _ h.notZero
  have hr := Xor.value_range g' h4
  refine ⟨v, g', h1, h3 ▸ hr.1, h3 ▸ hr.2, .draw h h1, k, hk1, hk4, ?_⟩
  rw [h2]
  have : ∀ n g, Xor.steps n g = (Xor.step^[n]) g := by
    intro n
    induction n with
    | zero => intro g; rfl
    | succ n ih => intro g; simp only [Xor.steps, Function.iterate_succ, Function.comp]; exact ih _
  exact this k g

/-- C15: `NextSequence` on a slice of length `n` writes the same values and leaves the same state as
`n` calls of `Next`, in every reachable state and for every `n`. -/
theorem C15_nextSeq_eq_draws (g : Xor) (h : XorReachable g) (n : Nat) : g.nextSeq n = drawXor n g := by
  induction n generalizing g with
  | zero => exact Xor.nextSeq_zero g
  | succ n ih =>
    rw [Xor.nextSeq_via_next g h.notZero, drawXor]
    obtain ⟨v, g', h1, _, _, h2, _⟩ := C15_next g h
    simp only [h1, Option.bind_eq_bind, Option.bind_some]
    rw [ih g' h2]

/-- C15: a batch of `n` values always completes and all of them are in [0, 1). -/
theorem C15_nextSeq_range (g : Xor) (h : XorReachable g) (n : Nat) :
    ∃ vs g', g.nextSeq n = some (vs, g') ∧ vs.length = n ∧ XorReachable g' ∧ ∀ v ∈ vs, 0 ≤ v ∧ v < 1 := by
  rw [C15_nextSeq_eq_draws g h]
  induction n generalizing g with
  | zero => exact ⟨[], g, rfl, rfl, h, by simp⟩
  | succ n ih =>
    obtain ⟨v, g', h1, hv0, hv1, h2, _⟩ := C15_next g h
    obtain ⟨vs, g'', h3, h4, h5, h6⟩ := ih g' h2
    refine ⟨v :: vs, g'', by simp [drawXor, h1, h3], by simp [h4], h5, ?_⟩
    intro u hu
    rw [List.mem_cons] at hu
    rcases hu with rfl | hu
    · exact ⟨hv0, hv1⟩
    · exact h6 u hu

/-- C15: `Uniform(low, high)` lies in [low, high). -/
theorem C15_uniform_range (g : Xor) (h : XorReachable g) (low high : ℚ) (hlt : low < high) :
    ∃ v g', g.uniform low high = some (v, g') ∧ low ≤ v ∧ v < high := by
  obtain ⟨v, g', h1, hv0, hv1, _⟩ := C15_next g h
  unfold Xor.uniform
  simp only [h1, Option.bind_eq_bind, Option.bind_some]
  by_cases hc : low = 0 ∧ high = 1
  · rw [if_pos hc]; exact ⟨v, g', rfl, by rw [hc.1]; exact hv0, by rw [hc.2]; exact hv1⟩
  · rw [if_neg hc]
    refine ⟨_, _, rfl, ?_, ?_⟩
    · have : 0 ≤ v * (high - low) := mul_nonneg hv0 (by linarith)
      linarith
    · have : v * (high - low) < 1 * (high - low) := mul_lt_mul_of_pos_right hv1 (by linarith)
      linarith

/-- C15: `UniformInt(low, high)` is an integer in [low, high). -/
theorem C15_uniformInt_range (g : Xor) (h : XorReachable g) (low high : Int) (hlt : low < high) :
    ∃ v g', g.uniformInt low high = some (v, g') ∧ low ≤ v ∧ v < high := by
  obtain ⟨v, g', h1, hv0, hv1, _⟩ := C15_next g h
  unfold Xor.uniformInt
  simp only [h1, Option.bind_eq_bind, Option.bind_some]
  have hd : (0 : ℚ) < ((high - low : Int) : ℚ) := by exact_mod_cast (by omega : 0 < high - low)
  refine ⟨_, _, rfl, ?_, ?_⟩
  · rw [Int.le_floor]
    have : 0 ≤ ((high - low : Int) : ℚ) * v := mul_nonneg hd.le hv0
    linarith
  · rw [Int.floor_lt]
    have : ((high - low : Int) : ℚ) * v < ((high - low : Int) : ℚ) * 1 := mul_lt_mul_of_pos_left hv1 hd
    push_cast at this ⊢
    linarith

/-- C15: `UniformAt` on `n` entries equals `n` calls of `Uniform`. -/
theorem C15_uniformAt_eq (g : Xor) (h : XorReachable g) (low high : ℚ) (n : Nat) :
    g.uniformAt low high n = (drawXor n g).map (fun r => (r.1.map (fun v => v * (high - low) + low), r.2)) := by
  unfold Xor.uniformAt
  rw [C15_nextSeq_eq_draws g h]
  cases drawXor n g with
  | none => rfl
  | some r =>
    simp only [Option.bind_eq_bind, Option.bind_some, Option.map_some]
    split
    · rename_i hc; simp [hc.1, hc.2]
    · rfl

/-- C15: and one call of `Uniform` is the affine image of one `Next`, so `UniformAt` and repeated `Uniform`
give the same stream. -/
theorem C15_uniform_eq (g : Xor) (low high : ℚ) :
    g.uniform low high = g.next.map (fun r => (r.1 * (high - low) + low, r.2)) := by
  unfold Xor.uniform
  cases g.next with
  | none => rfl
  | some r =>
    simp only [Option.bind_eq_bind, Option.bind_some, Option.map_some]
    split
    · rename_i hc; simp [hc.1, hc.2]
    · rfl

-- a concrete reachable state and a non-trivial draw (seed 1337)
example : XorReachable (Xor.init 1337) := .seed _
example : ((Xor.init 1337).step).w ≠ 0#32 := by decide
-- the rejected value really occurs for a (non-zero) state: the update may produce w = 0
example : (Xor.step { w := 0, x := 0, y := 1, z := 0 }).w = 0#32 := by decide

/-! ### Tausworthe -/

/-- Draw `n` values one at a time. -/
def drawTaus : Nat → Taus → Option (List ℚ × Taus)
  | 0, g => some ([], g)
  | n + 1, g => do
    let (v, g') ← g.next
    let (vs, g'') ← drawTaus n g'
    some (v :: vs, g'')

/-- What the Golang generator is assumed to supply to `Init`: 15 rounds, round `d` adding to each of the
9689 entries a value in [0, 2^-d). -/
def GoodDigits (digits : List (List ℚ)) : Prop :=
  digits.length = 15 ∧ ∀ (d : Nat) (ds : List ℚ), digits[d]? = some ds →
    ds.length = tausLen ∧ ∀ v ∈ ds, 0 ≤ v ∧ v < (1 : ℚ) / 2 ^ d

/-- States a Tausworthe generator can be in. -/
inductive TausReachable : Taus → Prop
  | init {digits} : GoodDigits digits → TausReachable (Taus.init digits)
  | draw {g v g'} : TausReachable g → g.next = some (v, g') → TausReachable g'

theorem tausAccum_range : ∀ (digits : List (List ℚ)) (e : Nat) (seq : List ℚ) (b : ℚ),
    (∀ (d : Nat) (ds : List ℚ), digits[d]? = some ds →
      ds.length = seq.length ∧ ∀ v ∈ ds, 0 ≤ v ∧ v < (1 : ℚ) / 2 ^ (d + e)) →
    (∀ v ∈ seq, 0 ≤ v ∧ v ≤ b) →
    (tausAccum digits seq).length = seq.length ∧
      ∀ v ∈ tausAccum digits seq, 0 ≤ v ∧ v ≤ b + (2 / 2 ^ e - 2 / 2 ^ (e + digits.length)) := by
  intro digits
  induction digits with
  | nil => intro e seq b _ h; simpa [tausAccum] using h
  | cons ds digits ih =>
    intro e seq b hd hs
    have h0 := hd 0 ds (by simp)
    have hlen : (List.zipWith (· + ·) seq ds).length = seq.length := by simp [h0.1]
    have := ih (e + 1) (List.zipWith (· + ·) seq ds) (b + 1 / 2 ^ e)
      (by
        intro d ds' h
        have := hd (d + 1) ds' (by simpa using h)
        rw [hlen]
        refine ⟨this.1, fun v hv => ?_⟩
        have h2 := this.2 v hv
        rwa [show d + 1 + e = d + (e + 1) by omega] at h2)
      (by
        intro v hv
        obtain ⟨i, hi, rfl⟩ := List.mem_iff_getElem.mp hv
        simp only [List.length_zipWith] at hi
        simp only [List.getElem_zipWith]
        have a1 := hs seq[i] (List.getElem_mem _)
        have a2 := h0.2 ds[i] (List.getElem_mem _)
        simp only [Nat.zero_add] at a2
        constructor <;> linarith)
    refine ⟨?_, ?_⟩
    · simp only [tausAccum, List.foldl_cons]
      have h1 := this.1
      simp only [tausAccum] at h1
      rw [h1, hlen]
    · intro v hv
      have h1 := this.2 v (by simpa [tausAccum] using hv)
      refine ⟨h1.1, h1.2.trans ?_⟩
      rw [List.length_cons, show e + 1 + digits.length = e + (digits.length + 1) by omega]
      have : (2 : ℚ) / 2 ^ (e + 1) = 1 / 2 ^ e := by
        rw [pow_succ]; field_simp
      have h2 : (2 : ℚ) / 2 ^ e = 1 / 2 ^ e + 1 / 2 ^ e := by ring
      rw [this, h2]; linarith

theorem TausReachable.ok {g : Taus} (h : TausReachable g) : g.Ok ∧ g.seq.length = tausLen := by
  induction h with
  | @init digits hd =>
    have := tausAccum_range digits 0 (List.replicate tausLen 0) 0
      (by
        intro d ds h
        rw [List.length_replicate]
        exact hd.2 d ds h)
      (by intro v hv; rw [List.eq_of_mem_replicate hv]; exact ⟨le_rfl, le_rfl⟩)
    have hl : (Taus.init digits).seq.length = tausLen := by
      unfold Taus.init
      simp only [List.length_map]
      rw [this.1, List.length_replicate]
    refine ⟨⟨?_, ?_, ?_, ?_⟩, hl⟩
    · rw [hl]; show 0 < 9689; omega
    · rw [hl]; show 2444 < 9689; omega
    · rw [hl]; show 4187 < 9689; omega
    · intro v hv
      simp only [Taus.init, List.mem_map] at hv
      obtain ⟨u, hu, rfl⟩ := hv
      have hb := this.2 u hu
      have : u < 2 := by
        have h2 : (0 : ℚ) < 2 / 2 ^ (0 + digits.length) := by positivity
        have h3 := hb.2
        have h4 : (2 : ℚ) / 2 ^ 0 = 2 := by rw [pow_zero, div_one]
        rw [h4] at h3
        linarith
      split <;> constructor <;> linarith
  | draw _ hn ih =>
    obtain ⟨v, g', h1, _, _, h2, h3⟩ := Taus.next_spec _ ih.1
    rw [h1] at hn; cases hn
    exact ⟨h2, h3.trans ih.2⟩

/-- C16: in every reachable state `Next` does not panic and returns a value in [0, 1). -/
theorem C16_next (g : Taus) (h : TausReachable g) :
    ∃ v g', g.next = some (v, g') ∧ 0 ≤ v ∧ v < 1 ∧ TausReachable g' := by
  obtain ⟨v, g', h1, h2, h3, _⟩ := Taus.next_spec g h.ok.1
  exact ⟨v, g', h1, h2, h3, .draw h h1⟩

/-- C16: `NextSequence` on `n` entries is `n` calls of `Next`: same values, same state. -/
theorem C16_nextSeq_eq_draws (g : Taus) (n : Nat) : g.nextSeq n = drawTaus n g := by
  induction n generalizing g with
  | zero => rfl
  | succ n ih =>
    unfold drawTaus Taus.next
    rw [Taus.nextSeq]
    cases h1 : g.seq[g.first]? <;> cases h2 : g.seq[g.second]? <;> cases h3 : g.seq[g.leader]? <;>
      simp [ih]

/-- C16: the three indices decrease together, so after any number of draws each equals its
starting value minus the number of draws modulo the ring length. -/
theorem C16_indices (g : Taus) (h : TausReachable g) :
    g.leader < 9689 ∧ g.first < 9689 ∧ g.second < 9689 ∧
    (g.first = g.leader + 2444 ∨ g.first + 9689 = g.leader + 2444) ∧
    (g.second = g.leader + 4187 ∨ g.second + 9689 = g.leader + 4187) := by
  have hok := h.ok
  have hb : g.leader < 9689 ∧ g.first < 9689 ∧ g.second < 9689 := by
    obtain ⟨⟨h1, h2, h3, _⟩, hl⟩ := hok
    rw [hl] at h1 h2 h3
    exact ⟨h1, h2, h3⟩
  refine ⟨hb.1, hb.2.1, hb.2.2, ?_⟩
  clear hb
  induction h with
  | init _ => exact ⟨Or.inl rfl, Or.inl rfl⟩
  | @draw g v g' hg hn ih =>
    have hok' := hg.ok
    have ih := ih hok'
    obtain ⟨⟨h1, h2, h3, _⟩, hl⟩ := hok'
    rw [hl] at h1 h2 h3
    simp only [Taus.next, List.getElem?_eq_getElem (show g.first < g.seq.length by rw [hl]; exact h2),
      List.getElem?_eq_getElem (show g.second < g.seq.length by rw [hl]; exact h3),
      List.getElem?_eq_getElem (show g.leader < g.seq.length by rw [hl]; exact h1),
      Option.bind_eq_bind, Option.bind_some, Option.some.injEq, Prod.mk.injEq] at hn
    obtain ⟨_, rfl⟩ := hn
    have e : tausLen = 9689 := rfl
    simp only [List.length_set, hl]
    generalize tausLen = n at *
    subst e
    unfold tausDec
    split <;> split <;> split <;> omega

-- the assumption on the seeding digits can be met (all zero; and a non-trivial round)
example : GoodDigits (List.replicate 15 (List.replicate tausLen 0)) := by
  refine ⟨List.length_replicate, ?_⟩
  intro d ds h
  have : ds = List.replicate tausLen 0 := by
    rw [List.getElem?_replicate] at h
    split at h
    · exact (Option.some.inj h).symm
    · exact absurd h (by simp)
  subst this
  refine ⟨List.length_replicate, ?_⟩
  intro v hv
  rw [List.eq_of_mem_replicate hv]
  exact ⟨le_rfl, by positivity⟩

end Shellfish.Rand
