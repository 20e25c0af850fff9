/-
C120: random numbers in machine arithmetic.
-/
import Verif.Model.RandRound
import Verif.Props.Rand
import Verif.Props.Round
import Verif.Props.BootRound

namespace Shellfish.Rand
open Shellfish.Round

theorem float_zero : Float64 0 := ⟨0, 0, by norm_num, by norm_num⟩
theorem float_one : Float64 1 := ⟨1, 0, by norm_num, by norm_num⟩

/-! ### Xorshift -/

theorem Xor.value64_eq (g : Xor) : g.value64 = r64 g.value := rfl

/-- Numbers below 1 are clearly below 1. -/
theorem Xor.value_le (g : Xor) (h : g.w ≠ 0#32) : g.value ≤ 1 - 1 / 2 ^ 32 := by
  have hpos : 0 < g.w.toNat := by
    rcases Nat.eq_zero_or_pos g.w.toNat with h0 | h0
    · exact absurd (BitVec.eq_of_toNat_eq (by simpa using h0)) h
    · exact h0
  have h1 : (1 : ℚ) ≤ g.w.toNat := by exact_mod_cast hpos
  unfold Xor.value
  rw [div_le_iff₀ (by norm_num)]
  norm_num
  linarith

theorem Xor.value64_range (g : Xor) (h : g.w ≠ 0#32) : 0 ≤ g.value64 ∧ g.value64 ≤ 1 - 1 / 2 ^ 32 := by
  rw [Xor.value64_eq]
  refine ⟨r64_nonneg (Xor.value_range g h).1, r64_le ⟨2 ^ 32 - 1, -32, by norm_num, by norm_num⟩ (Xor.value_le g h)⟩

theorem Xor.value64_eq_one (g : Xor) : g.value64 = 1 ↔ g.value = 1 := by
  constructor
  · intro h
    by_contra hne
    have hw : g.w ≠ 0#32 := fun hw => hne ((Xor.value_eq_one g).mpr hw)
    have := (Xor.value64_range g hw).2
    rw [h] at this
    norm_num at this
  · intro h
    rw [Xor.value64_eq, h]
    exact r64_float float_one

theorem Xor.next64_eq (g : Xor) : g.next64 = if g.step.value64 = 1 then g.step.next64 else some (g.step.value64, g.step) := by
  rw [Xor.next64]

/-- The machine goes through the same states as exact arithmetic and returns the rounded numbers. -/
theorem Xor.next64_of (g : Xor) (r : ℚ × Xor) (h : g.next = some r) : g.next64 = some (r64 r.1, r.2) := by
  refine Xor.next.partial_correctness (fun (g : Xor) (r : ℚ × Xor) => g.next64 = some (r64 r.1, r.2)) ?_ g r h
  intro next ih g r h
  rw [Xor.next64_eq]
  by_cases hv : g.step.value = 1
  · rw [if_pos ((Xor.value64_eq_one _).mpr hv)]
    rw [if_pos hv] at h
    exact ih _ _ h
  · rw [if_neg (fun h => hv ((Xor.value64_eq_one _).mp h))]
    rw [if_neg hv] at h
    injection h with h
    rw [← h]
    rfl

theorem Xor.next_value (g : Xor) (h : XorReachable g) : ∃ g', g.next = some (g'.value, g') ∧ g'.w ≠ 0#32 ∧ XorReachable g' := by
  obtain ⟨k, v, g', _, _, h1, _, h3, h4, _⟩ := Xor.next_spec _ h.notZero
  subst h3
  exact ⟨g', h1, h4, .draw h h1⟩

theorem unit_error (v : ℚ) (h0 : 0 ≤ v) (h1 : v < 1) : |r64 v - v| ≤ 1 / 2 ^ 53 := by
  have h := (C95_rounding v).2.2.2.2
  rw [abs_of_nonneg h0] at h
  generalize |r64 v - v| = e at *
  norm_num at *
  linarith

/-- C120: in the machine, too, `Next` ends and returns a number in [0, 1): the rounding of the exact quotient. -/
theorem C120_next (g : Xor) (h : XorReachable g) :
    ∃ (v v' : ℚ) (g' : Xor), g.next = some (v, g') ∧ g.next64 = some (v', g') ∧ v' = r64 v ∧ |v' - v| ≤ 1 / 2 ^ 53 ∧ 0 ≤ v' ∧ v' < 1 ∧ XorReachable g' := by
  obtain ⟨g', h1, h2, h3⟩ := Xor.next_value g h
  have hr := Xor.value64_range g' h2
  have hv := Xor.value_range g' h2
  have h4 := Xor.next64_of g _ h1
  rw [Xor.value64_eq] at hr
  have hlt : r64 g'.value < 1 := lt_of_le_of_lt hr.2 (by norm_num)
  exact ⟨g'.value, r64 g'.value, g', h1, h4, rfl, unit_error _ hv.1 hv.2, hr.1, hlt, h3⟩

/-- Draw `n` values one at a time with `Next`. -/
def drawXor64 : Nat → Xor → Option (List ℚ × Xor)
  | 0, g => some ([], g)
  | n + 1, g => do
    let (v, g') ← g.next64
    let (vs, g'') ← drawXor64 n g'
    some (v :: vs, g'')

theorem Xor.nextSeq64_of (g : Xor) (k : ℕ) (r : List ℚ × Xor) (h : g.nextSeq k = some r) : g.nextSeq64 k = some (r.1.map r64, r.2) := by
  refine Xor.nextSeq.partial_correctness (fun (g : Xor) (k : ℕ) (r : List ℚ × Xor) => g.nextSeq64 k = some (r.1.map r64, r.2)) ?_ g k r h
  intro next ih g k r h
  rw [Xor.nextSeq64.eq_def]
  cases k with
  | zero =>
    injection h with h
    rw [← h]
    rfl
  | succ k =>
    dsimp only at h ⊢
    by_cases hv : g.step.value = 1
    · rw [if_pos ((Xor.value64_eq_one _).mpr hv)]
      rw [if_pos hv] at h
      exact ih _ _ _ h
    · rw [if_neg (fun h => hv ((Xor.value64_eq_one _).mp h))]
      rw [if_neg hv] at h
      obtain ⟨q, hq, h⟩ := Option.bind_eq_some_iff.mp h
      injection h with h
      rw [ih _ _ _ hq, ← h]
      rfl

/-- C120: in the machine, a batch is what repeated calls of `Next` return. -/
theorem C120_batch (g : Xor) (h : XorReachable g) (n : ℕ) : g.nextSeq64 n = drawXor64 n g ∧ ∃ vs g', g.nextSeq64 n = some (vs, g') ∧ vs.length = n ∧ ∀ v ∈ vs, 0 ≤ v ∧ v < 1 := by
  have key : ∀ (n : ℕ) (g : Xor), XorReachable g → ∃ vs g', drawXor n g = some (vs, g') ∧ drawXor64 n g = some (vs.map r64, g') ∧ vs.length = n ∧ ∀ v ∈ vs.map r64, 0 ≤ v ∧ v < 1 := by
    intro n
    induction n with
    | zero => intro g _; exact ⟨[], g, rfl, rfl, rfl, by simp⟩
    | succ n ih =>
      intro g h
      obtain ⟨v, v', g', h1, h2, h3, _, h4, h5, h6⟩ := C120_next g h
      obtain ⟨vs, g'', h7, h8, h9, h10⟩ := ih g' h6
      refine ⟨v :: vs, g'', by simp [drawXor, h1, h7], by simp [drawXor64, h2, h8, h3], by simp [h9], ?_⟩
      intro u hu
      rw [List.map_cons, List.mem_cons] at hu
      rcases hu with rfl | hu
      · rw [← h3]; exact ⟨h4, h5⟩
      · exact h10 u hu
  obtain ⟨vs, g', h1, h2, h3, h4⟩ := key n g h
  have hs := Xor.nextSeq64_of g n (vs, g') ((C15_nextSeq_eq_draws g h n).trans h1)
  refine ⟨hs.trans h2.symm, vs.map r64, g', hs, by simp [h3], h4⟩

theorem spread_bounds (low high v : ℚ) (hl : Float64 low) (hh : Float64 high) (hlt : low < high) (h0 : 0 ≤ v) (h1 : v ≤ 1 - 1 / 2 ^ 32) :
    low ≤ spread64 low high v ∧ spread64 low high v ≤ r64 (high - (high - low) / 2 ^ 33) := by
  have hd : 0 < high - low := by linarith
  have b1 := r64_bounds hd.le
  have hd0 := r64_nonneg hd.le
  have hm : 0 ≤ v * r64 (high - low) := mul_nonneg h0 hd0
  have b2 := r64_bounds hm
  unfold spread64
  constructor
  · exact le_r64 hl (by linarith [r64_nonneg hm])
  · apply r64_mono
    have k1 : v * r64 (high - low) ≤ (1 - 1 / 2 ^ 32) * ((high - low) * (1 + 1 / 2 ^ 53)) := mul_le_mul h1 b1.2 hd0 (by norm_num)
    generalize v * r64 (high - low) = m at *
    generalize r64 m = m' at *
    have hx : m' ≤ (high - low) * (1 - 1 / 2 ^ 33) := by
      generalize high - low = d at *
      norm_num at *
      linarith
    linarith

/-- C120: `Uniform(low, high)` is between its bounds in the machine, and below the upper one unless the interval is narrow against it. -/
theorem C120_uniform_partial (g : Xor) (h : XorReachable g) (low high : ℚ) (hl : Float64 low) (hh : Float64 high) (hlt : low < high) :
    ∃ v g', g.uniform64 low high = some (v, g') ∧ low ≤ v ∧ v ≤ high ∧ (|high| ≤ 2 ^ 19 * (high - low) → v < high) ∧ XorReachable g' := by
  obtain ⟨g', h1, h2, h3⟩ := Xor.next_value g h
  have hn := Xor.next64_of g _ h1
  have hr := Xor.value64_range g' h2
  unfold Xor.uniform64
  simp only [hn, Option.bind_eq_bind, Option.bind_some]
  by_cases hc : low = 0 ∧ high = 1
  · rw [if_pos hc, hc.1, hc.2]
    have hlt1 : g'.value64 < 1 := lt_of_le_of_lt hr.2 (by norm_num)
    exact ⟨_, g', rfl, hr.1, hlt1.le, fun _ => hlt1, h3⟩
  · rw [if_neg hc]
    obtain ⟨s1, s2⟩ := spread_bounds low high g'.value64 hl hh hlt hr.1 hr.2
    have hd : 0 < high - low := by linarith
    refine ⟨_, g', rfl, s1, s2.trans (r64_le hh (by linarith [div_pos hd (show (0 : ℚ) < 2 ^ 33 by norm_num)])), fun hn => ?_, h3⟩
    refine lt_of_le_of_lt s2 ?_
    have e := (C95_rounding (high - (high - low) / 2 ^ 33)).2.2.2.2
    have ha : |high - (high - low) / 2 ^ 33| ≤ |high| + (high - low) / 2 ^ 33 := by
      refine (abs_sub _ _).trans ?_
      rw [abs_of_nonneg (div_nonneg hd.le (by norm_num))]
    have e2 := (abs_le.mp e).2
    generalize |high - (high - low) / 2 ^ 33| = A at *
    generalize |high| = B at *
    have hx : r64 (high - (high - low) / 2 ^ 33) ≤ high - (high - low) / 2 ^ 33 + A / 2 ^ 53 := by linarith
    refine lt_of_le_of_lt hx ?_
    generalize high - low = d at *
    norm_num at *
    linarith

/-- C120: one call of `Uniform(-1, 1)`, as for the random axes (cmd/shell.go:576-578), is in [-1, 1). -/
theorem C120_axes (g : Xor) (h : XorReachable g) : ∃ v g', g.uniform64 (-1) 1 = some (v, g') ∧ -1 ≤ v ∧ v < 1 ∧ XorReachable g' := by
  obtain ⟨v, g', h1, h2, _, h4, h5⟩ := C120_uniform_partial g h (-1) 1 ⟨-1, 0, by norm_num, by norm_num⟩ float_one (by norm_num)
  exact ⟨v, g', h1, h2, h4 (by norm_num), h5⟩

/-- C120: `UniformAt` is repeated `Uniform`, in the machine. -/
theorem C120_uniformAt (g : Xor) (h : XorReachable g) (low high : ℚ) (n : ℕ) :
    g.uniformAt64 low high n = (drawXor64 n g).map fun r => (r.1.map (fun v => if low = 0 ∧ high = 1 then v else spread64 low high v), r.2) := by
  unfold Xor.uniformAt64
  rw [(C120_batch g h n).1]
  cases drawXor64 n g with
  | none => rfl
  | some r =>
    simp only [Option.bind_eq_bind, Option.bind_some, Option.map_some]
    by_cases hc : low = 0 ∧ high = 1
    · simp [hc]
    · simp [hc]

theorem float_int (n : ℤ) (h : |n| < 2 ^ 53) : Float64 (n : ℚ) := ⟨n, 0, by exact_mod_cast h, by simp⟩

/-- C120: `UniformInt(low, high)` is in [low, high) for bounds of up to 2^18. -/
theorem C120_int_partial (g : Xor) (h : XorReachable g) (low high : ℤ) (hlt : low < high) (hl : |low| ≤ 2 ^ 18) (hh : |high| ≤ 2 ^ 18) :
    ∃ v g', g.uniformInt64 low high = some (v, g') ∧ low ≤ v ∧ v < high := by
  obtain ⟨g', h1, h2, h3⟩ := Xor.next_value g h
  have hn := Xor.next64_of g _ h1
  have hr := Xor.value64_range g' h2
  unfold Xor.uniformInt64
  simp only [hn, Option.bind_eq_bind, Option.bind_some]
  have hr1 : 0 ≤ r64 g'.value := hr.1
  have hr2 : r64 g'.value ≤ 1 - 1 / 2 ^ 32 := hr.2
  rw [abs_le] at hl hh
  have f1 : Float64 ((high - low : ℤ) : ℚ) := float_int _ (by rw [abs_lt]; constructor <;> omega)
  have f2 : Float64 (low : ℚ) := float_int _ (by rw [abs_lt]; constructor <;> omega)
  rw [r64_float f1, r64_float f2]
  generalize r64 g'.value = v at *
  have hd : (1 : ℚ) ≤ ((high - low : ℤ) : ℚ) := by exact_mod_cast (by omega : 1 ≤ high - low)
  have hm : 0 ≤ ((high - low : ℤ) : ℚ) * v := mul_nonneg (by linarith) hr1
  refine ⟨_, _, rfl, ?_, ?_⟩
  · rw [Int.le_floor]
    exact le_r64 f2 (by linarith [r64_nonneg hm])
  · rw [Int.floor_lt]
    have b2 := (r64_bounds hm).2
    have k1 : ((high - low : ℤ) : ℚ) * v ≤ ((high - low : ℤ) : ℚ) * (1 - 1 / 2 ^ 32) := mul_le_mul_of_nonneg_left hr2 (by linarith)
    have hsum : r64 (((high - low : ℤ) : ℚ) * v) + (low : ℚ) ≤ high - 1 / 2 ^ 33 := by
      generalize ((high - low : ℤ) : ℚ) * v = m at *
      have e : ((high - low : ℤ) : ℚ) = (high : ℚ) - low := by push_cast; ring
      rw [e] at k1 hd
      generalize r64 m = m' at *
      norm_num at *
      linarith
    refine lt_of_le_of_lt (r64_mono hsum) ?_
    have e := (abs_le.mp ((C95_rounding ((high : ℚ) - 1 / 2 ^ 33)).2.2.2.2)).2
    have hb : |(high : ℚ) - 1 / 2 ^ 33| ≤ 2 ^ 18 + 1 := by
      have a1 : -(2 ^ 18 : ℚ) ≤ high := by exact_mod_cast hh.1
      have a2 : (high : ℚ) ≤ 2 ^ 18 := by exact_mod_cast hh.2
      rw [abs_le]
      norm_num at *
      constructor <;> linarith
    generalize |(high : ℚ) - 1 / 2 ^ 33| = A at *
    norm_num at *
    linarith

/-! ### Tausworthe -/

/-- States of a Tausworthe generator in the machine; what the Golang generator supplies are float64 numbers. -/
inductive TausReachable64 : Taus → Prop
  | init {digits} : GoodDigits digits → TausReachable64 (Taus.init64 digits)
  | draw {g v g'} : TausReachable64 g → g.next64 = some (v, g') → TausReachable64 g'

/-- Draw `n` values one at a time. -/
def drawTaus64 : Nat → Taus → Option (List ℚ × Taus)
  | 0, g => some ([], g)
  | n + 1, g => do
    let (v, g') ← g.next64
    let (vs, g'') ← drawTaus64 n g'
    some (v :: vs, g'')

theorem tausValue_range (a b : ℚ) (ha0 : 0 ≤ a) (ha1 : a ≤ 1) (hb0 : 0 ≤ b) (hb1 : b ≤ 1) : 0 ≤ tausValue64 a b ∧ tausValue64 a b ≤ 1 := by
  have f1 : Float64 (-1) := ⟨-1, 0, by norm_num, by norm_num⟩
  have h1 : r64 (a - b) ≤ 1 := r64_le float_one (by linarith)
  have h2 : -1 ≤ r64 (a - b) := le_r64 f1 (by linarith)
  unfold tausValue64
  split_ifs with h
  · exact ⟨r64_nonneg (by linarith), r64_le float_one (by linarith)⟩
  · exact ⟨not_lt.mp h, h1⟩

theorem accum_float (e : ℕ) (h : e ≤ 40) : Float64 (2 - 2 / 2 ^ e) := by
  refine ⟨2 ^ (e + 1) - 2, -(e : ℤ), ?_, ?_⟩
  · have h1 : (2 : ℤ) ^ (e + 1) ≤ 2 ^ 41 := pow_le_pow_right₀ (by norm_num) (by omega)
    have h2 : (2 : ℤ) ≤ 2 ^ (e + 1) := by
      calc (2 : ℤ) = 2 ^ 1 := by norm_num
        _ ≤ 2 ^ (e + 1) := pow_le_pow_right₀ (by norm_num) (by omega)
    rw [abs_of_nonneg (by linarith)]
    norm_num at *
    linarith
  · rw [zpow_neg, zpow_natCast]
    push_cast
    have : (2 : ℚ) ^ e ≠ 0 := by positivity
    rw [pow_succ]
    field_simp

theorem tausAccum64_range : ∀ (digits : List (List ℚ)) (e : ℕ) (seq : List ℚ), e + digits.length ≤ 40 →
    (∀ (d : ℕ) (ds : List ℚ), digits[d]? = some ds → ds.length = seq.length ∧ ∀ v ∈ ds, 0 ≤ v ∧ v < (1 : ℚ) / 2 ^ (d + e)) →
    (∀ v ∈ seq, 0 ≤ v ∧ v ≤ 2 - 2 / 2 ^ e) →
    (tausAccum64 digits seq).length = seq.length ∧ ∀ v ∈ tausAccum64 digits seq, 0 ≤ v ∧ v ≤ 2 - 2 / 2 ^ (e + digits.length)
  | [], e, seq, _, _, h => by simpa [tausAccum64] using h
  | ds :: digits, e, seq, he, hd, hs => by
    have h0 := hd 0 ds (by simp)
    rw [List.length_cons] at he
    have hlen : (List.zipWith (fun a b => r64 (a + b)) seq ds).length = seq.length := by simp [h0.1]
    have := tausAccum64_range digits (e + 1) (List.zipWith (fun a b => r64 (a + b)) seq ds) (by omega)
      (by
        intro d ds' h
        have := hd (d + 1) ds' (by simpa using h)
        rw [hlen]
        refine ⟨this.1, fun v hv => ?_⟩
        have h2 := this.2 v hv
        rwa [show d + 1 + e = d + (e + 1) by omega] at h2)
      (by
        intro v hv
        obtain ⟨i, hi, rfl⟩ := List.mem_iff_getElem.mp hv
        simp only [List.length_zipWith] at hi
        simp only [List.getElem_zipWith]
        have a1 := hs seq[i] (List.getElem_mem _)
        have a2 := h0.2 ds[i] (List.getElem_mem _)
        simp only [Nat.zero_add] at a2
        have e2 : (2 : ℚ) / 2 ^ e - 1 / 2 ^ e = 2 / 2 ^ (e + 1) := by rw [pow_succ]; field_simp; norm_num
        exact ⟨r64_nonneg (by linarith), r64_le (accum_float (e + 1) (by omega)) (by linarith)⟩)
    refine ⟨?_, ?_⟩
    · have h1 := this.1
      simp only [tausAccum64, List.foldl_cons] at h1 ⊢
      rw [h1, hlen]
    · intro v hv
      have h1 := this.2 v (by simpa [tausAccum64] using hv)
      rwa [show e + 1 + digits.length = e + (ds :: digits).length by rw [List.length_cons]; omega] at h1

/-- A state in which all numbers are between 0 and 1. -/
def Taus.Ok64 (g : Taus) : Prop := g.leader < g.seq.length ∧ g.first < g.seq.length ∧ g.second < g.seq.length ∧ ∀ v ∈ g.seq, 0 ≤ v ∧ v ≤ 1

theorem Taus.next64_spec (g : Taus) (h : g.Ok64) : ∃ v g', g.next64 = some (v, g') ∧ 0 ≤ v ∧ v ≤ 1 ∧ g'.Ok64 := by
  obtain ⟨h1, h2, h3, h4⟩ := h
  have hv := tausValue_range g.seq[g.first] g.seq[g.second] (h4 _ (List.getElem_mem _)).1 (h4 _ (List.getElem_mem _)).2 (h4 _ (List.getElem_mem _)).1 (h4 _ (List.getElem_mem _)).2
  refine ⟨tausValue64 g.seq[g.first] g.seq[g.second],
    { seq := g.seq.set g.leader (tausValue64 g.seq[g.first] g.seq[g.second]),
      leader := tausDec (g.seq.set g.leader (tausValue64 g.seq[g.first] g.seq[g.second])).length g.leader,
      first := tausDec (g.seq.set g.leader (tausValue64 g.seq[g.first] g.seq[g.second])).length g.first,
      second := tausDec (g.seq.set g.leader (tausValue64 g.seq[g.first] g.seq[g.second])).length g.second }, ?_, hv.1, hv.2, ?_⟩
  · simp only [Taus.next64, List.getElem?_eq_getElem h1, List.getElem?_eq_getElem h2, List.getElem?_eq_getElem h3, Option.bind_eq_bind, Option.bind_some]
  · have hlen : (g.seq.set g.leader (tausValue64 g.seq[g.first] g.seq[g.second])).length = g.seq.length := List.length_set ..
    have hpos : 0 < g.seq.length := by omega
    refine ⟨?_, ?_, ?_, ?_⟩
    · show tausDec _ _ < _
      rw [hlen]; exact tausDec_lt _ _ hpos h1
    · show tausDec _ _ < _
      rw [hlen]; exact tausDec_lt _ _ hpos h2
    · show tausDec _ _ < _
      rw [hlen]; exact tausDec_lt _ _ hpos h3
    · intro v hm
      rcases List.mem_or_eq_of_mem_set hm with hm | rfl
      · exact h4 v hm
      · exact hv

theorem TausReachable64.ok {g : Taus} (h : TausReachable64 g) : g.Ok64 := by
  induction h with
  | @init digits hd =>
    have := tausAccum64_range digits 0 (List.replicate tausLen 0) (by rw [hd.1]; norm_num)
      (by
        intro d ds h
        rw [List.length_replicate]
        exact hd.2 d ds h)
      (by intro v hv; rw [List.eq_of_mem_replicate hv]; norm_num)
    have hl : (Taus.init64 digits).seq.length = tausLen := by
      unfold Taus.init64
      simp only [List.length_map]
      rw [this.1, List.length_replicate]
    refine ⟨?_, ?_, ?_, ?_⟩
    · rw [hl]; show 0 < 9689; omega
    · rw [hl]; show 2444 < 9689; omega
    · rw [hl]; show 4187 < 9689; omega
    · intro v hv
      simp only [Taus.init64, List.mem_map] at hv
      obtain ⟨u, hu, rfl⟩ := hv
      have hb := this.2 u hu
      have h2 : (0 : ℚ) < 2 / 2 ^ (0 + digits.length) := by positivity
      split_ifs with hc
      · exact ⟨r64_nonneg (by linarith), r64_le float_one (by linarith)⟩
      · exact ⟨hb.1, by linarith⟩
  | draw _ hn ih =>
    obtain ⟨v, g', h1, _, _, h2⟩ := Taus.next64_spec _ ih
    rw [h1] at hn; cases hn
    exact h2

/-- C120: in the machine, the Tausworthe generator never indexes outside of its state and returns numbers between 0 and 1.  Missing from the full property: that they are below 1, which is
false (`C120_taus_false`). -/
theorem C120_taus_partial (g : Taus) (h : TausReachable64 g) : ∃ v g', g.next64 = some (v, g') ∧ 0 ≤ v ∧ v ≤ 1 ∧ TausReachable64 g' := by
  obtain ⟨v, g', h1, h2, h3, _⟩ := Taus.next64_spec g h.ok
  exact ⟨v, g', h1, h2, h3, .draw h h1⟩

/-- C120: a batch is repeated `Next`. -/
theorem C120_taus_batch (g : Taus) (n : ℕ) : g.nextSeq64 n = drawTaus64 n g := by
  induction n generalizing g with
  | zero => rfl
  | succ n ih =>
    unfold drawTaus64 Taus.next64
    rw [Taus.nextSeq64]
    cases h1 : g.seq[g.first]? <;> cases h2 : g.seq[g.second]? <;> cases h3 : g.seq[g.leader]? <;> simp [ih]

/-- Digits that are all 0, but for a last digit of 2^-67 in the entry 4187. -/
def tinyDigits : List (List ℚ) := List.replicate 14 (List.replicate tausLen 0) ++ [(List.replicate tausLen 0).set 4187 (1 / 2 ^ 67)]

theorem tiny_good : GoodDigits tinyDigits := by
  refine ⟨by simp [tinyDigits], fun d ds h => ?_⟩
  unfold tinyDigits at h
  rcases lt_or_ge d 14 with hd | hd
  · rw [List.getElem?_append_left (by rw [List.length_replicate]; exact hd), List.getElem?_replicate_of_lt hd] at h
    injection h with h
    subst h
    refine ⟨List.length_replicate, fun v hv => ?_⟩
    rw [List.eq_of_mem_replicate hv]
    exact ⟨le_rfl, by positivity⟩
  · rw [List.getElem?_append_right (by rw [List.length_replicate]; exact hd), List.length_replicate] at h
    have hd0 : d - 14 = 0 := by
      by_contra hne
      rw [List.getElem?_eq_none (by simp; omega)] at h
      cases h
    have hd14 : d = 14 := by omega
    rw [hd0] at h
    injection h with h
    subst h
    refine ⟨by rw [List.length_set, List.length_replicate], fun v hv => ?_⟩
    rcases List.mem_or_eq_of_mem_set hv with hv | rfl
    · rw [List.eq_of_mem_replicate hv]
      exact ⟨le_rfl, by positivity⟩
    · rw [hd14]
      norm_num

theorem zip_zeros : ∀ (n : ℕ) (l : List ℚ), l.length = n → List.zipWith (fun a b => r64 (a + b)) (List.replicate n (0 : ℚ)) l = l.map r64
  | 0, [], _ => rfl
  | n + 1, a :: l, h => by
    rw [List.replicate_succ, List.zipWith_cons_cons, zero_add, List.map_cons, zip_zeros n l (by simpa using h)]

theorem tiny_seq : tausAccum64 tinyDigits (List.replicate tausLen 0) = (List.replicate tausLen 0).set 4187 (1 / 2 ^ 67) := by
  have hz : r64 0 = 0 := r64_float float_zero
  have hmap : (List.replicate tausLen (0 : ℚ)).map r64 = List.replicate tausLen 0 := by rw [List.map_replicate, hz]
  have hfold : ∀ k, (List.replicate k (List.replicate tausLen (0 : ℚ))).foldl (fun s ds => List.zipWith (fun a b => r64 (a + b)) s ds) (List.replicate tausLen 0) = List.replicate tausLen 0 := by
    intro k
    induction k with
    | zero => rfl
    | succ k ih => rw [List.replicate_succ, List.foldl_cons, zip_zeros _ _ List.length_replicate, hmap, ih]
  unfold tausAccum64 tinyDigits
  rw [List.foldl_append, hfold, List.foldl_cons, List.foldl_nil, zip_zeros _ _ (by rw [List.length_set, List.length_replicate]), List.map_set, hmap,
    r64_float ⟨1, -67, by norm_num, by norm_num⟩]

/-- C120 is false of the Tausworthe generator: it can return 1. -/
theorem C120_taus_false : ∃ g g', TausReachable64 g ∧ g.next64 = some (1, g') := by
  have hv : tausValue64 0 (1 / 2 ^ 67) = 1 := by
    have h1 : r64 (0 - 1 / 2 ^ 67) = -(1 / 2 ^ 67) := by
      rw [zero_sub]
      exact r64_float ⟨-1, -67, by norm_num, by norm_num⟩
    unfold tausValue64
    rw [h1, if_pos (by norm_num)]
    have e := (C95_rounding (-(1 / 2 ^ 67) + 1)).2.2.2.2
    have hu : r64 (-(1 / 2 ^ 67) + 1) ≤ 1 := r64_le float_one (by norm_num)
    have hmid : r64 (-(1 / 2 ^ 67) + 1) = 1 := by
      unfold r64
      rw [rn_eq (-1) (2 ^ 53) (by norm_num [abs_of_pos]) (by norm_num [abs_of_pos]) (by rw [abs_lt]; norm_num)]
      norm_num
    exact hmid
  have hseq : (Taus.init64 tinyDigits).seq = (List.replicate tausLen (0 : ℚ)).set 4187 (1 / 2 ^ 67) := by
    unfold Taus.init64
    simp only [tiny_seq]
    rw [List.map_set, List.map_replicate, if_neg (by norm_num), if_neg (by norm_num)]
  have h1 : (Taus.init64 tinyDigits).seq[2444]? = some 0 := by
    rw [hseq, List.getElem?_set_ne (by norm_num), List.getElem?_replicate_of_lt (by unfold tausLen; norm_num)]
  have h2 : (Taus.init64 tinyDigits).seq[4187]? = some (1 / 2 ^ 67) := by
    rw [hseq, List.getElem?_set_self (by rw [List.length_replicate]; unfold tausLen; norm_num)]
  have h3 : (Taus.init64 tinyDigits).seq[0]? = some 0 := by
    rw [hseq, List.getElem?_set_ne (by norm_num), List.getElem?_replicate_of_lt (by unfold tausLen; norm_num)]
  have hf : (Taus.init64 tinyDigits).first = 2444 := rfl
  have hs : (Taus.init64 tinyDigits).second = 4187 := rfl
  have hl : (Taus.init64 tinyDigits).leader = 0 := rfl
  have hr : TausReachable64 (Taus.init64 tinyDigits) := .init tiny_good
  generalize Taus.init64 tinyDigits = g at *
  have hn : ∃ g', g.next64 = some (1, g') := by
    unfold Taus.next64
    rw [hf, hs, hl, h1, h2, h3]
    simp only [Option.bind_eq_bind, Option.bind_some, hv]
    exact ⟨_, rfl⟩
  obtain ⟨g', hg⟩ := hn
  exact ⟨g, g', hr, hg⟩

/-! ### Where the claim fails, and that the hypotheses can be met -/

/-- The generator seeded with 2^31, after one step. -/
theorem seed31 : ((Xor.init 0x80000000).step).w.toNat = 1508525680 := by decide +kernel

theorem seed31_next : ∃ v, (Xor.init 0x80000000).next64 = some (v, (Xor.init 0x80000000).step) ∧ 3 / 5 ≤ v ∧ v ≤ 7 / 10 := by
  have hv : (Xor.init 0x80000000).step.value = (4294967295 - 1508525680) / 4294967295 := by
    unfold Xor.value
    rw [seed31]
    norm_num
  have hne : (Xor.init 0x80000000).step.value64 ≠ 1 := by
    intro h
    rw [Xor.value64_eq_one, hv] at h
    norm_num at h
  refine ⟨_, by rw [Xor.next64_eq, if_neg hne], ?_⟩
  have e := (C95_rounding (Xor.init 0x80000000).step.value).2.2.2.2
  rw [Xor.value64_eq]
  rw [hv] at e ⊢
  rw [abs_of_nonneg (by norm_num : (0 : ℚ) ≤ (4294967295 - 1508525680) / 4294967295)] at e
  have e1 := (abs_le.mp e).1
  have e2 := (abs_le.mp e).2
  generalize r64 ((4294967295 - 1508525680) / 4294967295) = v at *
  norm_num at *
  constructor <;> linarith

theorem round_up53 (m : ℚ) (h1 : 1 < m) (h2 : m < 2) : r64 (m + 2 ^ 53) = 2 ^ 53 + 2 := by
  unfold r64
  rw [rn_eq 53 (2 ^ 52 + 1) (by rw [abs_of_pos (by linarith)]; norm_num; linarith) (by rw [abs_of_pos (by linarith)]; norm_num; linarith) (by rw [abs_lt]; norm_num; constructor <;> linarith)]
  norm_num

/-- C120 is false in general: `Uniform(2^53, 2^53 + 2)` can return its upper bound. -/
theorem C120_uniform_false : ∃ (g g' : Xor) (low high : ℚ), XorReachable g ∧ Float64 low ∧ Float64 high ∧ low < high ∧ g.uniform64 low high = some (high, g') := by
  obtain ⟨v, hn, h1, h2⟩ := seed31_next
  refine ⟨Xor.init 0x80000000, (Xor.init 0x80000000).step, 2 ^ 53, 2 ^ 53 + 2, .seed _, ⟨1, 53, by norm_num, by norm_num⟩, ⟨2 ^ 52 + 1, 1, by norm_num, by norm_num⟩, by norm_num, ?_⟩
  · unfold Xor.uniform64
    simp only [hn, Option.bind_eq_bind, Option.bind_some]
    rw [if_neg (by norm_num)]
    congr 2
    unfold spread64
    have hd : r64 ((2 ^ 53 + 2 : ℚ) - 2 ^ 53) = 2 := by
      rw [show (2 ^ 53 + 2 : ℚ) - 2 ^ 53 = 2 by norm_num]
      exact r64_float ⟨2, 0, by norm_num, by norm_num⟩
    rw [hd]
    have l : 6 / 5 - 1 / 2 ^ 40 ≤ r64 (v * 2) ∧ r64 (v * 2) ≤ 7 / 5 + 1 / 2 ^ 40 := by
      have e := (C95_rounding (v * 2)).2.2.2.2
      rw [abs_of_nonneg (by linarith : (0 : ℚ) ≤ v * 2)] at e
      have e1 := (abs_le.mp e).1
      have e2 := (abs_le.mp e).2
      generalize r64 (v * 2) = m at *
      norm_num at *
      constructor <;> linarith
    refine round_up53 _ (lt_of_lt_of_le (by norm_num) l.1) (lt_of_le_of_lt l.2 (by norm_num))

/-- C120 is false of large integers: `UniformInt(2^53, 2^53 + 2)` can return its upper bound. -/
theorem C120_int_false : ∃ (g g' : Xor) (low high : ℤ), XorReachable g ∧ low < high ∧ g.uniformInt64 low high = some (high, g') := by
  obtain ⟨v, hn, h1, h2⟩ := seed31_next
  refine ⟨Xor.init 0x80000000, (Xor.init 0x80000000).step, 2 ^ 53, 2 ^ 53 + 2, .seed _, by norm_num, ?_⟩
  unfold Xor.uniformInt64
  simp only [hn, Option.bind_eq_bind, Option.bind_some]
  congr 2
  have hd : r64 ((((2 ^ 53 + 2 : ℤ) - 2 ^ 53 : ℤ)) : ℚ) = 2 := by
    rw [show ((((2 ^ 53 + 2 : ℤ) - 2 ^ 53 : ℤ)) : ℚ) = 2 by norm_num]
    exact r64_float ⟨2, 0, by norm_num, by norm_num⟩
  have hlow : r64 (((2 ^ 53 : ℤ)) : ℚ) = 2 ^ 53 := by
    rw [r64_float ⟨1, 53, by norm_num, by norm_num⟩]
    norm_num
  rw [hd, hlow]
  have l : 6 / 5 - 1 / 2 ^ 40 ≤ r64 (2 * v) ∧ r64 (2 * v) ≤ 7 / 5 + 1 / 2 ^ 40 := by
    have e := (C95_rounding (2 * v)).2.2.2.2
    rw [abs_of_nonneg (by linarith : (0 : ℚ) ≤ 2 * v)] at e
    have e1 := (abs_le.mp e).1
    have e2 := (abs_le.mp e).2
    generalize r64 (2 * v) = m at *
    norm_num at *
    constructor <;> linarith
  rw [round_up53 _ (lt_of_lt_of_le (by norm_num) l.1) (lt_of_le_of_lt l.2 (by norm_num))]
  rw [show (2 ^ 53 + 2 : ℚ) = ((9007199254740994 : ℤ) : ℚ) by norm_num, Int.floor_intCast]
  norm_num

/-- Reachable generators exist; the bounds of C120_uniform_partial are met by the calls in the program. -/
example : XorReachable (Xor.init 1337) := .seed _
example : XorReachable (Xor.init 0x80000000).step := by
  obtain ⟨v, hn, _, _⟩ := seed31_next
  obtain ⟨_, v', g', _, h2, _, _, _, _, h⟩ := C120_next _ (.seed 0x80000000)
  rw [hn] at h2
  injection h2 with h2
  rw [Prod.mk.injEq] at h2
  rw [h2.2]
  exact h
example : Float64 (-1) ∧ Float64 1 ∧ (-1 : ℚ) < 1 ∧ |(1 : ℚ)| ≤ 2 ^ 19 * (1 - -1) := ⟨⟨-1, 0, by norm_num, by norm_num⟩, float_one, by norm_num, by norm_num⟩
example : (0 : ℤ) < 1000 ∧ |(0 : ℤ)| ≤ 2 ^ 18 ∧ |(1000 : ℤ)| ≤ 2 ^ 18 := by decide
example : TausReachable64 (Taus.init64 tinyDigits) := .init tiny_good

end Shellfish.Rand
