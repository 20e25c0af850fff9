/- Lemmas about the model of los/halo.go: the chord geometry and the ranges of lines of sight. -/
import Verif.Model.Halo
import Verif.Props.Ring
import Verif.Props.Rotation
import Mathlib.MeasureTheory.Measure.Lebesgue.Basic

namespace Shellfish.Los
noncomputable section
open Real
open Shellfish.Geom (Vec Mat rotateVec eulerMatrixBetween atan2)

/-! the chord of a ray in a circle -/

/-- the point at distance `r` along the direction `(ux, uy)` lies in the circle -/
def InCircle (cx cy rad2 ux uy r : ℝ) : Prop := (r * ux - cx) ^ 2 + (r * uy - cy) ^ 2 ≤ rad2

theorem inCircle_iff (cx cy rad2 ux uy r : ℝ) (hu : ux ^ 2 + uy ^ 2 = 1) :
    InCircle cx cy rad2 ux uy r ↔ (r - (cx * ux + cy * uy)) ^ 2 ≤ rad2 - (cy * ux - cx * uy) * (cy * ux - cx * uy) := by
  unfold InCircle
  have : (r * ux - cx) ^ 2 + (r * uy - cy) ^ 2 = (r - (cx * ux + cy * uy)) ^ 2 + (cy * ux - cx * uy) * (cy * ux - cx * uy) := by
    have e : ux ^ 2 = 1 - uy ^ 2 := by linarith
    linear_combination (r ^ 2 - cx ^ 2 - cy ^ 2) * hu
  rw [this]
  constructor <;> intro h <;> linarith

theorem dir_b (cx cy ux uy : ℝ) (hu : ux ^ 2 + uy ^ 2 = 1) :
    (cx * cx + cy * cy) - (cy * ux - cx * uy) * (cy * ux - cx * uy) = (cx * ux + cy * uy) ^ 2 := by
  linear_combination (-(cx ^ 2 + cy ^ 2)) * hu

theorem nearChord_correct (cx cy rad2 ux uy r : ℝ) (hu : ux ^ 2 + uy ^ 2 = 1) (hin : rad2 > cx * cx + cy * cy) (hr : 0 < r) :
    InCircle cx cy rad2 ux uy r ↔ r ≤ oneValIntrDist (cx * cx + cy * cy) rad2 (cy * ux - cx * uy) (cx * ux + cy * uy) := by
  rw [inCircle_iff _ _ _ _ _ _ hu]
  have hd := dir_b cx cy ux uy hu
  unfold oneValIntrDist
  rw [hd, sqrt_sq_eq_abs]
  generalize cx * ux + cy * uy = d at *
  generalize (cy * ux - cx * uy) * (cy * ux - cx * uy) = b2 at *
  have hpos : d ^ 2 < rad2 - b2 := by linarith
  have hs : |d| < sqrt (rad2 - b2) := by
    rw [← sqrt_sq_eq_abs]; exact sqrt_lt_sqrt (sq_nonneg _) hpos
  have hs2 := abs_lt.mp hs
  have hval : (if d > 0 then sqrt (rad2 - b2) + |d| else sqrt (rad2 - b2) - |d|) = sqrt (rad2 - b2) + d := by
    split_ifs with h
    · rw [abs_of_pos h]
    · rw [abs_of_nonpos (not_lt.mp h)]; ring
  rw [hval]
  have hsq : sqrt (rad2 - b2) ^ 2 = rad2 - b2 := sq_sqrt (by nlinarith [sq_nonneg d])
  constructor
  · intro h
    have := abs_le_of_sq_le_sq' (by rw [hsq]; exact h : (r - d) ^ 2 ≤ sqrt (rad2 - b2) ^ 2) (sqrt_nonneg _)
    linarith
  · intro h
    rw [← hsq]
    apply sq_le_sq'
    · linarith
    · linarith

theorem oneVal_pos (cx cy rad2 ux uy : ℝ) (hu : ux ^ 2 + uy ^ 2 = 1) (hin : rad2 > cx * cx + cy * cy) :
    0 < oneValIntrDist (cx * cx + cy * cy) rad2 (cy * ux - cx * uy) (cx * ux + cy * uy) := by
  have hd := dir_b cx cy ux uy hu
  unfold oneValIntrDist
  rw [hd, sqrt_sq_eq_abs]
  generalize cx * ux + cy * uy = d at *
  generalize (cy * ux - cx * uy) * (cy * ux - cx * uy) = b2 at *
  have hs : |d| < sqrt (rad2 - b2) := by
    rw [← sqrt_sq_eq_abs]; exact sqrt_lt_sqrt (sq_nonneg _) (by linarith)
  have := abs_nonneg d
  split_ifs <;> linarith

theorem farChord_correct (cx cy rad2 ux uy r : ℝ) (hu : ux ^ 2 + uy ^ 2 = 1) (hdir : 0 ≤ cx * ux + cy * uy)
    (hb : (cy * ux - cx * uy) * (cy * ux - cx * uy) ≤ rad2) (hlo hhi : ℝ)
    (h : twoValIntrDist (cx * cx + cy * cy) rad2 (cy * ux - cx * uy) = some (hlo, hhi)) :
    InCircle cx cy rad2 ux uy r ↔ hlo ≤ r ∧ r ≤ hhi := by
  rw [inCircle_iff _ _ _ _ _ _ hu]
  have hd := dir_b cx cy ux uy hu
  unfold twoValIntrDist at h
  rw [if_neg (by rw [hd, not_or]; exact ⟨not_lt.mpr (sq_nonneg _), by linarith⟩), hd, sqrt_sq_eq_abs, abs_of_nonneg hdir] at h
  generalize cx * ux + cy * uy = d at *
  generalize (cy * ux - cx * uy) * (cy * ux - cx * uy) = b2 at *
  simp only [Option.some.injEq, Prod.mk.injEq] at h
  obtain ⟨rfl, rfl⟩ := h
  have hsq : sqrt (rad2 - b2) ^ 2 = rad2 - b2 := sq_sqrt (by linarith)
  constructor
  · intro h
    have := abs_le_of_sq_le_sq' (by rw [hsq]; exact h : (r - d) ^ 2 ≤ sqrt (rad2 - b2) ^ 2) (sqrt_nonneg _)
    exact ⟨by linarith, by linarith⟩
  · rintro ⟨h1, h2⟩
    rw [← hsq]
    apply sq_le_sq' <;> linarith

/-- a line that misses the circle -/
theorem far_miss (cx cy rad2 ux uy r : ℝ) (hu : ux ^ 2 + uy ^ 2 = 1) (hb : rad2 < (cy * ux - cx * uy) * (cy * ux - cx * uy)) :
    ¬ InCircle cx cy rad2 ux uy r := by
  rw [inCircle_iff _ _ _ _ _ _ hu]
  intro h
  nlinarith [sq_nonneg (r - (cx * ux + cy * uy))]

theorem twoVal_none (cx cy rad2 ux uy : ℝ) (hb : rad2 < (cy * ux - cx * uy) * (cy * ux - cx * uy)) :
    twoValIntrDist (cx * cx + cy * cy) rad2 (cy * ux - cx * uy) = none := by
  unfold twoValIntrDist
  rw [if_pos (Or.inr (by linarith))]

theorem twoVal_some (cx cy rad2 ux uy : ℝ) (hu : ux ^ 2 + uy ^ 2 = 1) (hb : (cy * ux - cx * uy) * (cy * ux - cx * uy) ≤ rad2) :
    ∃ lo hi, twoValIntrDist (cx * cx + cy * cy) rad2 (cy * ux - cx * uy) = some (lo, hi) ∧ lo ≤ hi := by
  have hd := dir_b cx cy ux uy hu
  unfold twoValIntrDist
  rw [if_neg (by rw [hd, not_or]; exact ⟨not_lt.mpr (sq_nonneg _), by linarith⟩)]
  exact ⟨_, _, rfl, by have := sqrt_nonneg (rad2 - (cy * ux - cx * uy) * (cy * ux - cx * uy)); linarith⟩

/-! logarithms -/

theorem goLog_le_iff (x t : ℝ) : goLog x ≤ (t : WithBot ℝ) ↔ x ≤ exp t := by
  unfold goLog
  split_ifs with h
  · exact ⟨fun _ => h.trans (exp_pos t).le, fun _ => bot_le⟩
  · rw [WithBot.coe_le_coe, log_le_iff_le_exp (not_le.mp h)]

theorem le_goLog_iff (x t : ℝ) : (t : WithBot ℝ) ≤ goLog x ↔ exp t ≤ x := by
  unfold goLog
  split_ifs with h
  · constructor
    · intro hc; exact absurd (le_bot_iff.mp hc) WithBot.coe_ne_bot
    · intro hc; exact absurd (exp_pos t) (not_lt.mpr (hc.trans h))
  · rw [WithBot.coe_le_coe, le_log_iff_exp_le (not_le.mp h)]

theorem goLog_mono {x y : ℝ} (h : x ≤ y) : goLog x ≤ goLog y := by
  unfold goLog
  split_ifs with h1 h2 h2
  · exact le_refl _
  · exact bot_le
  · exact absurd (h.trans h2) h1
  · exact WithBot.coe_le_coe.mpr (log_le_log (not_le.mp h1) h)

/-! lengths -/

/-- the overlap is the length of the part of the interval that lies between `start` and `stop` -/
theorem overlap_volume (start stop : WithBot ℝ) (c d : ℝ) (S : Set ℝ)
    (hS : ∀ t : ℝ, c ≤ t → t ≤ d → (t ∈ S ↔ start ≤ (t : WithBot ℝ) ∧ (t : WithBot ℝ) ≤ stop)) :
    overlap start stop c d = (MeasureTheory.volume {t : ℝ | c ≤ t ∧ t ≤ d ∧ t ∈ S}).toReal := by
  have hS' : {t : ℝ | c ≤ t ∧ t ≤ d ∧ t ∈ S} = {t : ℝ | c ≤ t ∧ t ≤ d ∧ start ≤ (t : WithBot ℝ) ∧ (t : WithBot ℝ) ≤ stop} := by
    ext t
    simp only [Set.mem_setOf_eq]
    constructor
    · rintro ⟨h1, h2, h3⟩; exact ⟨h1, h2, (hS t h1 h2).mp h3⟩
    · rintro ⟨h1, h2, h3⟩; exact ⟨h1, h2, (hS t h1 h2).mpr h3⟩
  rw [hS']
  induction stop using WithBot.recBotCoe with
  | bot =>
    have : {t : ℝ | c ≤ t ∧ t ≤ d ∧ start ≤ (t : WithBot ℝ) ∧ (t : WithBot ℝ) ≤ ⊥} = ∅ := by
      ext t
      simp only [Set.mem_setOf_eq, Set.mem_empty_iff_false, iff_false]
      rintro ⟨_, _, _, h⟩
      exact absurd (le_bot_iff.mp h) WithBot.coe_ne_bot
    rw [this]
    simp [overlap]
  | coe e =>
    induction start using WithBot.recBotCoe with
    | bot =>
      have : {t : ℝ | c ≤ t ∧ t ≤ d ∧ (⊥ : WithBot ℝ) ≤ (t : WithBot ℝ) ∧ (t : WithBot ℝ) ≤ (e : WithBot ℝ)} = Set.Icc c (min e d) := by
        ext t
        simp only [Set.mem_setOf_eq, Set.mem_Icc, WithBot.coe_le_coe, bot_le, true_and, le_min_iff]
        tauto
      rw [this, Real.volume_Icc]
      simp only [overlap]
      rw [ENNReal.toReal_ofReal', max_comm]
    | coe s =>
      have : {t : ℝ | c ≤ t ∧ t ≤ d ∧ (s : WithBot ℝ) ≤ (t : WithBot ℝ) ∧ (t : WithBot ℝ) ≤ (e : WithBot ℝ)} = Set.Icc (max s c) (min e d) := by
        ext t
        simp only [Set.mem_setOf_eq, Set.mem_Icc, WithBot.coe_le_coe, le_min_iff, max_le_iff]
        tauto
      rw [this, Real.volume_Icc]
      simp only [overlap]
      rw [ENNReal.toReal_ofReal', max_comm]

/-! ranges of lines of sight -/

theorem mem_indices (lo hi j : Int) : j ∈ indices lo hi ↔ lo ≤ j ∧ j < hi := by
  unfold indices
  simp only [List.mem_map, List.mem_range]
  constructor
  · rintro ⟨k, hk, rfl⟩; omega
  · rintro ⟨h1, h2⟩; exact ⟨(j - lo).toNat, by omega, by omega⟩

theorem nodup_indices (lo hi : Int) : (indices lo hi).Nodup := by
  unfold indices
  exact List.Nodup.map (fun a b h => by simpa using h) List.nodup_range

theorem goInt_nonneg (x : ℝ) (h : 0 ≤ x) : goInt x = ⌊x⌋ := by simp [goInt, modf, h]

theorem goInt_neg (x : ℝ) (h : x < 0) : goInt x = ⌈x⌉ := by simp [goInt, modf, not_le.mpr h]

theorem dPhi_pos (n : Nat) (hn : 0 < n) : 0 < 1 / (n : ℝ) * (2 * π) := by
  have : (0 : ℝ) < n := by exact_mod_cast hn
  have := pi_pos
  positivity

theorem phiOf_eq (n i : Nat) : phiOf n i = (i : ℝ) * (1 / (n : ℝ) * (2 * π)) := by unfold phiOf; ring

theorem dPhi_mul (n : Nat) (hn : 0 < n) : (n : ℝ) * (1 / (n : ℝ) * (2 * π)) = 2 * π := by
  have : (n : ℝ) ≠ 0 := by exact_mod_cast hn.ne'
  field_simp

theorem phiOf_range (n i : Nat) (hi : i < n) : 0 ≤ phiOf n i ∧ phiOf n i < 2 * π := by
  have hn : 0 < n := by omega
  have hd := dPhi_pos n hn
  have hm := dPhi_mul n hn
  rw [phiOf_eq]
  refine ⟨by positivity, ?_⟩
  have : (i : ℝ) < n := by exact_mod_cast hi
  nlinarith

/-- the four bounds, in the cases that occur -/
theorem idxRange_cases (n : Nat) (dPhi lo hi : ℝ) (h : hi ≤ 2 * π) :
    idxRange n dPhi lo hi = if lo < 0 then (goInt ((lo + 2 * π) / dPhi), (n : Int), 0, goInt (hi / dPhi) + 1)
      else (goInt (lo / dPhi), goInt (hi / dPhi) + 1, 0, 0) := by
  unfold idxRange
  rw [if_neg (not_lt.mpr h)]

theorem floor_lt_n (n : Nat) (hn : 0 < n) (x : ℝ) (h : x < 2 * π) : ⌊x / (1 / (n : ℝ) * (2 * π))⌋ < (n : Int) := by
  have hd := dPhi_pos n hn
  rw [Int.floor_lt, div_lt_iff₀ hd]
  rw [Int.cast_natCast, dPhi_mul n hn]; exact h

theorem goInt_lt_n (n : Nat) (hn : 0 < n) (x : ℝ) (h : x < 2 * π) : goInt (x / (1 / (n : ℝ) * (2 * π))) < (n : Int) := by
  have hd := dPhi_pos n hn
  rcases le_or_gt 0 (x / (1 / (n : ℝ) * (2 * π))) with h0 | h0
  · rw [goInt_nonneg _ h0]; exact floor_lt_n n hn x h
  · rw [goInt_neg _ h0]
    have : ⌈x / (1 / (n : ℝ) * (2 * π))⌉ ≤ 0 := by rw [Int.ceil_le]; simpa using h0.le
    omega

/-- every index that `idxRange` produces is the index of a line of sight -/
theorem idxRange_valid (n : Nat) (hn : 0 < n) (lo hi : ℝ) (hlo : -(2 * π) ≤ lo) (hhi : hi < 2 * π) (j : Int)
    (hj : j ∈ indices (idxRange n (1 / (n : ℝ) * (2 * π)) lo hi).1 (idxRange n (1 / (n : ℝ) * (2 * π)) lo hi).2.1 ++
      indices (idxRange n (1 / (n : ℝ) * (2 * π)) lo hi).2.2.1 (idxRange n (1 / (n : ℝ) * (2 * π)) lo hi).2.2.2) : 0 ≤ j ∧ j < n := by
  have hd := dPhi_pos n hn
  rw [idxRange_cases n _ lo hi hhi.le] at hj
  have hg := goInt_lt_n n hn hi hhi
  split_ifs at hj with hneg
  · simp only [List.mem_append, mem_indices] at hj
    rcases hj with ⟨h1, h2⟩ | ⟨h1, h2⟩
    · have h0 : 0 ≤ (lo + 2 * π) / (1 / (n : ℝ) * (2 * π)) := div_nonneg (by linarith) hd.le
      rw [goInt_nonneg _ h0] at h1
      have := Int.floor_nonneg.mpr h0
      omega
    · omega
  · simp only [List.mem_append, mem_indices] at hj
    rcases hj with ⟨h1, h2⟩ | ⟨h1, h2⟩
    · have h0 : 0 ≤ lo / (1 / (n : ℝ) * (2 * π)) := div_nonneg (not_lt.mp hneg) hd.le
      rw [goInt_nonneg _ h0] at h1
      have := Int.floor_nonneg.mpr h0
      omega
    · omega

/-- a line of sight in the angular range is in the index ranges, and in only one of them -/
theorem idxRange_cover (n : Nat) (hn : 0 < n) (lo hi : ℝ) (hlo : -(2 * π) < lo) (hle : lo ≤ hi) (hhi : hi < 2 * π) (hw : hi - lo ≤ π)
    (i : Nat) (hi' : i < n) (k : ℤ) (h1 : lo ≤ phiOf n i + 2 * π * k) (h2 : phiOf n i + 2 * π * k ≤ hi) :
    (i : Int) ∈ indices (idxRange n (1 / (n : ℝ) * (2 * π)) lo hi).1 (idxRange n (1 / (n : ℝ) * (2 * π)) lo hi).2.1 ++
      indices (idxRange n (1 / (n : ℝ) * (2 * π)) lo hi).2.2.1 (idxRange n (1 / (n : ℝ) * (2 * π)) lo hi).2.2.2 ∧
    (2 ≤ n → ((indices (idxRange n (1 / (n : ℝ) * (2 * π)) lo hi).1 (idxRange n (1 / (n : ℝ) * (2 * π)) lo hi).2.1 ++
      indices (idxRange n (1 / (n : ℝ) * (2 * π)) lo hi).2.2.1 (idxRange n (1 / (n : ℝ) * (2 * π)) lo hi).2.2.2).count (i : Int)) = 1) := by
  have hd := dPhi_pos n hn
  have hpi := pi_pos
  obtain ⟨p0, p1⟩ := phiOf_range n i hi'
  have hk : k = 0 ∨ k = -1 := by
    have a : k < 1 := by
      by_contra hc
      have : (1 : ℝ) ≤ k := by exact_mod_cast not_lt.mp hc
      nlinarith
    have b : -2 < k := by
      by_contra hc
      have : (k : ℝ) ≤ -2 := by exact_mod_cast not_lt.mp hc
      nlinarith
    omega
  rw [idxRange_cases n _ lo hi hhi.le]
  have hphi := phiOf_eq n i
  -- membership in terms of angles
  have upper : ∀ x : ℝ, phiOf n i ≤ x → (i : Int) < goInt (x / (1 / (n : ℝ) * (2 * π))) + 1 := by
    intro x hx
    have h0 : 0 ≤ x / (1 / (n : ℝ) * (2 * π)) := div_nonneg (by linarith) hd.le
    rw [goInt_nonneg _ h0]
    have : (i : Int) ≤ ⌊x / (1 / (n : ℝ) * (2 * π))⌋ := by
      rw [Int.le_floor, le_div_iff₀ hd, Int.cast_natCast, ← hphi]; exact hx
    omega
  have lower : ∀ x : ℝ, 0 ≤ x → x ≤ phiOf n i → goInt (x / (1 / (n : ℝ) * (2 * π))) ≤ (i : Int) := by
    intro x hx0 hx
    have h0 : 0 ≤ x / (1 / (n : ℝ) * (2 * π)) := div_nonneg hx0 hd.le
    rw [goInt_nonneg _ h0]
    have : ((⌊x / (1 / (n : ℝ) * (2 * π))⌋ : ℤ) : ℝ) ≤ (i : ℤ) := by
      refine le_trans (Int.floor_le _) ?_
      rw [div_le_iff₀ hd, Int.cast_natCast, ← hphi]; exact hx
    exact_mod_cast this
  split_ifs with hneg
  · simp only
    rw [List.count_append]
    rcases hk with rfl | rfl
    · -- the line of sight is in the second range
      have hm2 : (i : Int) ∈ indices 0 (goInt (hi / (1 / (n : ℝ) * (2 * π))) + 1) := (mem_indices _ _ _).mpr ⟨by omega, upper hi (by simpa using h2)⟩
      refine ⟨List.mem_append_right _ hm2, fun hn2 => ?_⟩
      have hn2' : (2 : ℝ) ≤ n := by exact_mod_cast hn2
      rw [List.count_eq_one_of_mem (nodup_indices _ _) hm2, List.count_eq_zero_of_not_mem]
      rw [mem_indices]
      rintro ⟨hc, _⟩
      have h0 : 0 ≤ (lo + 2 * π) / (1 / (n : ℝ) * (2 * π)) := div_nonneg (by linarith) hd.le
      rw [goInt_nonneg _ h0] at hc
      have hc' : ⌊(lo + 2 * π) / (1 / (n : ℝ) * (2 * π))⌋ < ((i : Int) + 1) := by omega
      rw [Int.floor_lt, div_lt_iff₀ hd] at hc'
      push_cast at hc' h2
      rw [add_mul, ← hphi] at hc'
      have hdn := dPhi_mul n hn
      nlinarith
    · -- the line of sight is in the first range
      have hm1 : (i : Int) ∈ indices (goInt ((lo + 2 * π) / (1 / (n : ℝ) * (2 * π)))) (n : Int) :=
        (mem_indices _ _ _).mpr ⟨lower _ (by linarith) (by push_cast at h1; linarith), by omega⟩
      refine ⟨List.mem_append_left _ hm1, fun hn2 => ?_⟩
      have hn2' : (2 : ℝ) ≤ n := by exact_mod_cast hn2
      rw [List.count_eq_one_of_mem (nodup_indices _ _) hm1, List.count_eq_zero_of_not_mem]
      rw [mem_indices]
      rintro ⟨_, hc⟩
      push_cast at h1 h2
      rcases le_or_gt 0 (hi / (1 / (n : ℝ) * (2 * π))) with h0 | h0
      · rw [goInt_nonneg _ h0] at hc
        have hc' : (i : Int) ≤ ⌊hi / (1 / (n : ℝ) * (2 * π))⌋ := by omega
        rw [Int.le_floor, le_div_iff₀ hd, Int.cast_natCast, ← hphi] at hc'
        linarith
      · rw [goInt_neg _ h0] at hc
        have hz : ⌈hi / (1 / (n : ℝ) * (2 * π))⌉ ≤ 0 := by rw [Int.ceil_le]; simpa using h0.le
        have hi0 : i = 0 := by omega
        subst hi0
        simp [phiOf] at h1 h2
        linarith
  · simp only
    have hm : (i : Int) ∈ indices (goInt (lo / (1 / (n : ℝ) * (2 * π)))) (goInt (hi / (1 / (n : ℝ) * (2 * π))) + 1) := by
      rcases hk with rfl | rfl
      · push_cast at h1 h2
        exact (mem_indices _ _ _).mpr ⟨lower _ (not_lt.mp hneg) (by linarith), upper _ (by linarith)⟩
      · push_cast at h1 h2
        linarith
    refine ⟨List.mem_append_left _ hm, fun _ => ?_⟩
    rw [List.count_append, List.count_eq_one_of_mem (nodup_indices _ _) hm]
    simp [indices]

/-! angles -/

theorem reduce_angle (x : ℝ) : ∃ k : ℤ, -π < x + 2 * π * k ∧ x + 2 * π * k ≤ π := by
  have h := toIocMod_mem_Ioc two_pi_pos (-π) x
  refine ⟨-toIocDiv two_pi_pos (-π) x, ?_⟩
  rw [toIocMod] at h
  simp only [zsmul_eq_mul, Set.mem_Ioc] at h
  push_cast
  constructor <;> nlinarith [h.1, h.2]

theorem polar (cx cy : ℝ) : cx = sqrt (cx * cx + cy * cy) * cos (atan2 cy cx) ∧ cy = sqrt (cx * cx + cy * cy) * sin (atan2 cy cx) := by
  have h1 := Complex.norm_mul_cos_arg ⟨cx, cy⟩
  have h2 := Complex.norm_mul_sin_arg ⟨cx, cy⟩
  rw [Complex.norm_def, Complex.normSq_mk] at h1 h2
  exact ⟨h1.symm, h2.symm⟩

theorem halfWidth_range (d2 r2 : ℝ) : 0 ≤ halfAngularWidth d2 r2 ∧ halfAngularWidth d2 r2 ≤ π / 2 := by
  unfold halfAngularWidth
  exact ⟨arcsin_nonneg.mpr (sqrt_nonneg _), arcsin_le_pi_div_two _⟩

/-- a line of sight that points towards the circle and meets it is in the angular range of the circle -/
theorem angle_cover (cx cy rad2 phi : ℝ) (hr : 0 ≤ rad2) (hd : 0 < cx * cx + cy * cy) (hdir : 0 ≤ cx * cos phi + cy * sin phi)
    (hb : (cy * cos phi - cx * sin phi) * (cy * cos phi - cx * sin phi) ≤ rad2) :
    ∃ k : ℤ, atan2 cy cx - halfAngularWidth (cx * cx + cy * cy) rad2 ≤ phi + 2 * π * k ∧
      phi + 2 * π * k ≤ atan2 cy cx + halfAngularWidth (cx * cx + cy * cy) rad2 := by
  obtain ⟨ex, ey⟩ := polar cx cy
  obtain ⟨k, k1, k2⟩ := reduce_angle (phi - atan2 cy cx)
  refine ⟨k, ?_⟩
  unfold halfAngularWidth
  have hs := sqrt_pos.mpr hd
  have hss : sqrt (cx * cx + cy * cy) * sqrt (cx * cx + cy * cy) = cx * cx + cy * cy := mul_self_sqrt hd.le
  generalize hD : cx * cx + cy * cy = D at *
  generalize atan2 cy cx = P at *
  generalize sqrt D = s at *
  have e1 : cx * cos phi + cy * sin phi = s * cos (phi - P + 2 * π * k) := by
    rw [show phi - P + 2 * π * k = phi - P + k * (2 * π) by ring, cos_add_int_mul_two_pi, cos_sub, ex, ey]; ring
  have e2 : cy * cos phi - cx * sin phi = -(s * sin (phi - P + 2 * π * k)) := by
    rw [show phi - P + 2 * π * k = phi - P + k * (2 * π) by ring, sin_add_int_mul_two_pi, sin_sub, ex, ey]; ring
  rw [e1] at hdir
  rw [e2] at hb
  generalize hdel : phi - P + 2 * π * k = del at *
  have hcos : 0 ≤ cos del := by
    by_contra hc
    nlinarith [not_le.mp hc]
  have hpi2 : -(π / 2) ≤ del ∧ del ≤ π / 2 := by
    constructor
    · by_contra hc
      have : cos (-del) < 0 := cos_neg_of_pi_div_two_lt_of_lt (by linarith [not_le.mp hc]) (by linarith [pi_pos])
      rw [cos_neg] at this
      linarith
    · by_contra hc
      have : cos del < 0 := cos_neg_of_pi_div_two_lt_of_lt (not_le.mp hc) (by linarith [pi_pos])
      linarith
  have hsin2 : sin del ^ 2 ≤ rad2 / D := by
    rw [le_div_iff₀ hd]
    nlinarith
  have habs := abs_le_of_sq_le_sq' (by rw [sq_sqrt (by positivity)]; exact hsin2 : sin del ^ 2 ≤ sqrt (rad2 / D) ^ 2) (sqrt_nonneg _)
  have hasin : arcsin (sin del) = del := arcsin_sin hpi2.1 hpi2.2
  have u := monotone_arcsin habs.2
  have l := monotone_arcsin habs.1
  rw [hasin] at u l
  rw [arcsin_neg] at l
  constructor <;> linarith

/-- a line of sight that points away from a circle that does not contain the center does not meet it -/
theorem behind_miss (cx cy rad2 ux uy r : ℝ) (hu : ux ^ 2 + uy ^ 2 = 1) (hout : rad2 ≤ cx * cx + cy * cy) (hdir : cx * ux + cy * uy < 0) (hr : 0 < r) :
    ¬ InCircle cx cy rad2 ux uy r := by
  rw [inCircle_iff _ _ _ _ _ _ hu]
  have hd := dir_b cx cy ux uy hu
  intro h
  nlinarith

end
end Shellfish.Los
