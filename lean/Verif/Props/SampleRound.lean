/-
C129: sampled volumes and radii of a shell in machine arithmetic.
-/
import Verif.Model.SampleRound
import Verif.Props.PennaRound
import Verif.Props.LosOuter
import Verif.Props.Sort

namespace Shellfish.Round
open Shellfish.Analyze (powers)
open Finset

/-- A draw of `rand.Float64` gives numbers from 0 to 1. -/
def Draw (d : ℚ × ℚ) : Prop := (0 ≤ d.1 ∧ d.1 < 1) ∧ (0 ≤ d.2 ∧ d.2 < 1)

/-- The exact radius of the shell in the direction that belongs to a draw: azimuthal angle 2πu, cosine of the polar angle 2v - 1. -/
noncomputable def radiusOf (cs : List ℚ) (I J K : ℕ) (d : ℚ × ℚ) : ℝ := shellAt cs I J K (2 * Real.pi * d.1) (Real.arccos (2 * d.2 - 1))

theorem angle_close {F : ShellMath} {e : ℝ} (hF : F.Accurate e) (he : e ≤ 1 / 4) (he' : 1 / 2 ^ 49 ≤ e) {d : ℚ × ℚ} (hd : Draw d) :
    |((randomAngle64 F d).1 : ℝ) - 2 * Real.pi * d.1| ≤ e ∧ |((randomAngle64 F d).2 : ℝ) - Real.arccos (2 * d.2 - 1)| ≤ e + 1 / 2 ^ 23 ∧ |(randomAngle64 F d).1| ≤ 8 ∧ |(randomAngle64 F d).2| ≤ 8 := by
  obtain ⟨u, v⟩ := d
  obtain ⟨⟨u0, u1⟩, ⟨v0, v1⟩⟩ := hd
  dsimp only at u0 u1 v0 v1
  have hpi := Real.pi_lt_d2
  have hpp := Real.pi_gt_three
  obtain ⟨p1, p2⟩ := pi64_near
  have u0R : (0 : ℝ) ≤ u := by exact_mod_cast u0
  have u1R : (u : ℝ) ≤ 1 := by exact_mod_cast u1.le
  unfold randomAngle64
  dsimp only
  have a1 : |((r64 (2 * pi64 * u) : ℚ) : ℝ) - 2 * Real.pi * u| ≤ 1 / 2 ^ 49 := by
    have er := (C95_rounding (2 * pi64 * u)).2.2.2.2
    have erR : |((r64 (2 * pi64 * u) : ℚ) : ℝ) - 2 * (pi64 : ℝ) * u| ≤ |2 * (pi64 : ℝ) * u| * (1 / 2 ^ 53) := by
      have := (Rat.cast_le (K := ℝ)).mpr er
      push_cast at this
      norm_num at this ⊢
      linarith
    have b0 : 0 ≤ 2 * (pi64 : ℝ) * u := by
      have : (0 : ℝ) ≤ pi64 := by linarith
      positivity
    have b1 : 2 * (pi64 : ℝ) * u ≤ 8 := by nlinarith
    rw [abs_of_nonneg b0] at erR
    obtain ⟨l, h⟩ := abs_le.mp erR
    have w : |2 * (pi64 : ℝ) * u - 2 * Real.pi * u| ≤ 2 / 2 ^ 52 := by
      rw [show 2 * (pi64 : ℝ) * u - 2 * Real.pi * u = 2 * ((pi64 : ℝ) - Real.pi) * u by ring, abs_le]
      constructor <;> nlinarith
    obtain ⟨w1, w2⟩ := abs_le.mp w
    norm_num at l h w1 w2 ⊢
    rw [abs_le]
    constructor <;> linarith
  have f2 : Float64 1 := ⟨1, 0, by norm_num, by norm_num⟩
  have a2 : |r64 (r64 (2 * v) - 1)| ≤ 1 ∧ |r64 (r64 (2 * v) - 1) - (2 * v - 1)| ≤ 1 / 2 ^ 50 := by
    have b0 : 0 ≤ r64 (2 * v) := r64_nonneg (by linarith)
    have b2 : r64 (2 * v) ≤ 2 := r64_le ⟨1, 1, by norm_num, by norm_num⟩ (by linarith)
    have e1 := (C95_rounding (2 * v)).2.2.2.2
    have e2 := (C95_rounding (r64 (2 * v) - 1)).2.2.2.2
    rw [abs_of_nonneg (by linarith : (0 : ℚ) ≤ 2 * v)] at e1
    have hab : |r64 (2 * v) - 1| ≤ 1 := abs_le.mpr ⟨by linarith, by linarith⟩
    refine ⟨abs_le.mpr ⟨le_r64 ⟨-1, 0, by norm_num, by norm_num⟩ (by linarith), r64_le f2 (by linarith)⟩, ?_⟩
    generalize r64 (r64 (2 * v) - 1) = a at *
    generalize r64 (2 * v) = b at *
    norm_num at e1 e2 ⊢
    obtain ⟨l1, h1⟩ := abs_le.mp e1
    obtain ⟨l2, h2⟩ := abs_le.mp e2
    rw [abs_le]
    constructor <;> linarith
  have a2R : |((r64 (r64 (2 * v) - 1) : ℚ) : ℝ) - (2 * (v : ℝ) - 1)| ≤ 1 / 2 ^ 50 := by
    have := (Rat.cast_le (K := ℝ)).mpr a2.2
    push_cast at this
    exact this
  have v0R : (0 : ℝ) ≤ v := by exact_mod_cast v0
  have v1R : (v : ℝ) ≤ 1 := by exact_mod_cast v1.le
  have hac := hF.acos _ a2.1
  have a1R : |((r64 (r64 (2 * v) - 1) : ℚ) : ℝ)| ≤ 1 := by exact_mod_cast a2.1
  have t1 : |Real.arccos ((r64 (r64 (2 * v) - 1) : ℚ) : ℝ) - Real.arccos (2 * v - 1)| ≤ 1 / 2 ^ 23 := by
    have q := arccos_close a1R (abs_le.mpr ⟨by linarith, by linarith⟩) a2R
    refine abs_le_of_sq_le_sq (q.trans ?_) (by norm_num)
    have : Real.pi ^ 2 ≤ 10 := by nlinarith
    nlinarith
  refine ⟨a1.trans he', (abs_sub_le _ _ _).trans (add_le_add hac t1), ?_, ?_⟩
  · have : |((r64 (2 * pi64 * u) : ℚ) : ℝ)| ≤ 8 := by
      obtain ⟨l, h⟩ := abs_le.mp a1
      norm_num at l h
      rw [abs_le]
      constructor <;> nlinarith
    exact_mod_cast this
  · have : |((F.acos (r64 (r64 (2 * v) - 1)) : ℚ) : ℝ)| ≤ 8 := by
      obtain ⟨l, h⟩ := abs_le.mp hac
      have a0 := Real.arccos_nonneg ((r64 (r64 (2 * v) - 1) : ℚ) : ℝ)
      have a1 := Real.arccos_le_pi ((r64 (r64 (2 * v) - 1) : ℚ) : ℝ)
      rw [abs_le]
      constructor <;> linarith
    exact_mod_cast this

/-- What the theorems assume: accurate functions, enough coefficients, and draws from 0 to 1. -/
structure Sampling (F : ShellMath) (e : ℝ) (cs : List ℚ) (I J K : ℕ) (draws : List (ℚ × ℚ)) : Prop where
  math : F.Accurate e
  fine : e ≤ 1 / 4
  coarse : 1 / 2 ^ 49 ≤ e
  coeffs : I * J * K ≤ cs.length
  order : I * J * K ≤ 2 ^ 50
  draws : ∀ d ∈ draws, Draw d

theorem radius_close {F : ShellMath} {e : ℝ} {cs : List ℚ} {I J K : ℕ} {draws : List (ℚ × ℚ)} (h : Sampling F e cs I J K draws) {d : ℚ × ℚ} (hd : d ∈ draws) :
    ∃ v : ℚ, pennaFunc64 F cs I J K (randomAngle64 F d).1 (randomAngle64 F d).2 = some v ∧ |(v : ℝ) - radiusOf cs I J K d| ≤ shellErr I J K e * sizeOf cs := by
  obtain ⟨a1, a2, a3, a4⟩ := angle_close h.math h.fine h.coarse (h.draws d hd)
  exact penna_close h.math cs I J K h.coeffs h.order a1 a2 a3 a4

theorem radii_close {F : ShellMath} {e : ℝ} {cs : List ℚ} {I J K : ℕ} {draws : List (ℚ × ℚ)} (h : Sampling F e cs I J K draws) :
    ∃ rs : List ℚ, radii64 F cs I J K draws = some rs ∧ List.Forall₂ (fun (r : ℚ) d => |(r : ℝ) - radiusOf cs I J K d| ≤ shellErr I J K e * sizeOf cs) rs draws := by
  have key : ∀ l : List (ℚ × ℚ), (∀ d ∈ l, d ∈ draws) →
      ∃ rs : List ℚ, radii64 F cs I J K l = some rs ∧ List.Forall₂ (fun (r : ℚ) d => |(r : ℝ) - radiusOf cs I J K d| ≤ shellErr I J K e * sizeOf cs) rs l := by
    intro l
    induction l with
    | nil => intro _; exact ⟨[], rfl, .nil⟩
    | cons d l ih =>
      intro hl
      obtain ⟨rs, h1, h2⟩ := ih fun x hx => hl x (List.mem_cons_of_mem _ hx)
      obtain ⟨v, h3, h4⟩ := radius_close h (hl d List.mem_cons_self)
      refine ⟨v :: rs, ?_, .cons h4 h2⟩
      unfold radii64 at h1 ⊢
      rw [List.mapM_cons, h3, h1]
      rfl
  exact key draws fun _ h => h

/-- The exact radius is at most the size of the coefficients. -/
theorem radiusOf_le (cs : List ℚ) (I J K : ℕ) (h : I * J * K ≤ cs.length) (d : ℚ × ℚ) : |radiusOf cs I J K d| ≤ sizeOf cs := by
  unfold radiusOf
  rw [radius_sum cs I J K h]
  refine (abs_sum_le_sum_abs _ _).trans ?_
  have : ∑ n ∈ range (I * J * K), |(cs.getD n 0 : ℝ)| ≤ sizeOf cs := by exact_mod_cast sum_le_size cs (I * J * K)
  refine le_trans (sum_le_sum fun n _ => ?_) this
  rw [abs_mul]
  refine mul_le_of_le_one_right (abs_nonneg _) ?_
  unfold Shellfish.Analyze.mono
  have pl : ∀ (v : ℝ) (n : ℕ), |v| ≤ 1 → |v ^ n| ≤ 1 := fun v n h => by rw [abs_pow]; exact pow_le_one₀ (abs_nonneg _) h
  refine abs_mul_le_one (abs_mul_le_one (pl _ _ (abs_mul_le_one (Real.abs_sin_le_one _) (Real.abs_cos_le_one _))) (pl _ _ (abs_mul_le_one (Real.abs_sin_le_one _) (Real.abs_sin_le_one _))))
    (pl _ _ (Real.abs_cos_le_one _))

/-- C129: the range of radii: no sampled radius is beyond the limits, and the limits are sampled radii, up to the error of a radius. -/
theorem C129_range (F : ShellMath) (e : ℝ) (cs : List ℚ) (I J K : ℕ) (d0 : ℚ × ℚ) (draws : List (ℚ × ℚ)) (h : Sampling F e cs I J K (d0 :: draws)) :
    ∃ low high : ℚ, radialRange64 F cs I J K d0 draws = some (low, high) ∧
      (∀ d ∈ d0 :: draws, low - shellErr I J K e * sizeOf cs ≤ radiusOf cs I J K d ∧ radiusOf cs I J K d ≤ high + shellErr I J K e * sizeOf cs) ∧
      (∃ d ∈ d0 :: draws, |(low : ℝ) - radiusOf cs I J K d| ≤ shellErr I J K e * sizeOf cs) ∧ ∃ d ∈ d0 :: draws, |(high : ℝ) - radiusOf cs I J K d| ≤ shellErr I J K e * sizeOf cs := by
  obtain ⟨r0, h0, c0⟩ := radius_close h (d := d0) List.mem_cons_self
  obtain ⟨rs, h1, h2⟩ := radii_close (F := F) (e := e) (cs := cs) (I := I) (J := J) (K := K) (draws := draws)
    ⟨h.math, h.fine, h.coarse, h.coeffs, h.order, fun d hd => h.draws d (List.mem_cons_of_mem _ hd)⟩
  unfold radialRange64
  rw [h0, h1, Option.bind_some, Option.map_some]
  generalize shellErr I J K e * (sizeOf cs : ℝ) = E at *
  have key : ∀ (rs : List ℚ) (ds seen : List (ℚ × ℚ)) (lh : ℚ × ℚ), List.Forall₂ (fun (r : ℚ) d => |(r : ℝ) - radiusOf cs I J K d| ≤ E) rs ds →
      (∀ d ∈ seen, lh.1 - E ≤ radiusOf cs I J K d ∧ radiusOf cs I J K d ≤ lh.2 + E) → (∃ d ∈ seen, |(lh.1 : ℝ) - radiusOf cs I J K d| ≤ E) → (∃ d ∈ seen, |(lh.2 : ℝ) - radiusOf cs I J K d| ≤ E) →
      ∃ low high : ℚ, rs.foldl (fun lh r => (if r < lh.1 then r else lh.1, if r > lh.2 then r else lh.2)) lh = (low, high) ∧
        (∀ d ∈ seen ++ ds, low - E ≤ radiusOf cs I J K d ∧ radiusOf cs I J K d ≤ high + E) ∧ (∃ d ∈ seen ++ ds, |(low : ℝ) - radiusOf cs I J K d| ≤ E) ∧
        ∃ d ∈ seen ++ ds, |(high : ℝ) - radiusOf cs I J K d| ≤ E := by
    intro rs ds seen lh hf
    induction hf generalizing seen lh with
    | nil =>
      intro a1 a2 a3
      refine ⟨lh.1, lh.2, rfl, ?_, ?_, ?_⟩
      · rwa [List.append_nil]
      · rwa [List.append_nil]
      · rwa [List.append_nil]
    | @cons r d rs ds hrd hf ih =>
      intro a1 a2 a3
      rw [List.foldl_cons]
      have ha : seen ++ d :: ds = (seen ++ [d]) ++ ds := by simp
      rw [ha]
      obtain ⟨b1, b2⟩ := abs_le.mp hrd
      have min' : (if r < lh.1 then r else lh.1) ≤ r ∧ (if r < lh.1 then r else lh.1) ≤ lh.1 := by split_ifs <;> constructor <;> linarith
      have max' : r ≤ (if r > lh.2 then r else lh.2) ∧ lh.2 ≤ (if r > lh.2 then r else lh.2) := by split_ifs <;> constructor <;> linarith
      have m1 : (((if r < lh.1 then r else lh.1 : ℚ)) : ℝ) ≤ r := by exact_mod_cast min'.1
      have m2 : (((if r < lh.1 then r else lh.1 : ℚ)) : ℝ) ≤ lh.1 := by exact_mod_cast min'.2
      have m3 : (r : ℝ) ≤ ((if r > lh.2 then r else lh.2 : ℚ) : ℝ) := by exact_mod_cast max'.1
      have m4 : (lh.2 : ℝ) ≤ ((if r > lh.2 then r else lh.2 : ℚ) : ℝ) := by exact_mod_cast max'.2
      apply ih
      · intro x hx
        rcases List.mem_append.mp hx with hx | hx
        · obtain ⟨c1, c2⟩ := a1 x hx
          exact ⟨by dsimp only; linarith, by dsimp only; linarith⟩
        · rw [List.mem_singleton] at hx
          subst hx
          exact ⟨by dsimp only; linarith, by dsimp only; linarith⟩
      · dsimp only
        by_cases hlt : r < lh.1
        · rw [if_pos hlt]; exact ⟨d, by simp, hrd⟩
        · rw [if_neg hlt]
          obtain ⟨x, hx, hx'⟩ := a2
          exact ⟨x, List.mem_append_left _ hx, hx'⟩
      · dsimp only
        by_cases hlt : r > lh.2
        · rw [if_pos hlt]; exact ⟨d, by simp, hrd⟩
        · rw [if_neg hlt]
          obtain ⟨x, hx, hx'⟩ := a3
          exact ⟨x, List.mem_append_left _ hx, hx'⟩
  obtain ⟨low, high, k1, k2, k3, k4⟩ := key rs draws [d0] (r0, r0) h2
    (by
      intro d hd
      rw [List.mem_singleton] at hd
      subst hd
      obtain ⟨b1, b2⟩ := abs_le.mp c0
      exact ⟨by dsimp only; linarith, by dsimp only; linarith⟩) ⟨d0, by simp, c0⟩ ⟨d0, by simp, c0⟩
  exact ⟨low, high, by rw [k1], k2, k3, k4⟩

open Classical in
/-- C129: the median: fewer than half of the samples have radii above it, and half have radii not below it, up to the error of a radius. -/
theorem C129_median (F : ShellMath) (e : ℝ) (cs : List ℚ) (I J K : ℕ) (draws : List (ℚ × ℚ)) (h : Sampling F e cs I J K draws) (hn : 2 ≤ draws.length) :
    ∃ m : ℚ, medianRadius64 F cs I J K draws = some m ∧
      (draws.filter fun d => m + shellErr I J K e * sizeOf cs < radiusOf cs I J K d).length < draws.length / 2 ∧
      draws.length / 2 ≤ (draws.filter fun d => m - shellErr I J K e * sizeOf cs ≤ radiusOf cs I J K d).length := by
  obtain ⟨rs, h1, h2⟩ := radii_close h
  have hlen := h2.length_eq
  obtain ⟨m, hm, hmem, c1, c2⟩ := Sort.C02_nthLargest rs ((rs.length / 2 : ℕ) : ℤ) (some rs) (by omega) (by omega) (by intro b hb; cases hb; rfl)
  generalize shellErr I J K e * (sizeOf cs : ℝ) = E at *
  refine ⟨m, ?_, ?_, ?_⟩
  · unfold medianRadius64
    rw [h1, Option.bind_some]
    unfold Sort.median
    rw [if_neg (by omega), hm]
  · have : (draws.filter fun d => m + E < radiusOf cs I J K d).length ≤ (rs.filter fun x => m < x).length := by
      clear hmem c1 c2 hm hlen h1 hn h
      induction h2 with
      | nil => simp
      | @cons r d rs ds hrd hf ih =>
        rw [List.filter_cons, List.filter_cons]
        have hi : m + E < radiusOf cs I J K d → m < r := by
          intro hlt
          have : (m : ℝ) < r := by linarith [(abs_le.mp hrd).1]
          exact_mod_cast this
        by_cases hd : m + E < radiusOf cs I J K d
        · rw [if_pos (decide_eq_true hd), if_pos (decide_eq_true (hi hd)), List.length_cons, List.length_cons]; omega
        · rw [if_neg (by simpa using hd)]
          split_ifs
          · rw [List.length_cons]; omega
          · exact ih
    omega
  · have : (rs.filter fun x => m ≤ x).length ≤ (draws.filter fun d => m - E ≤ radiusOf cs I J K d).length := by
      clear hmem c1 c2 hm hlen h1 hn h
      induction h2 with
      | nil => simp
      | @cons r d rs ds hrd hf ih =>
        rw [List.filter_cons, List.filter_cons]
        have hi : m ≤ r → m - E ≤ radiusOf cs I J K d := by
          intro hle
          have : (m : ℝ) ≤ r := by exact_mod_cast hle
          linarith [(abs_le.mp hrd).2]
        by_cases hd : m ≤ r
        · rw [if_pos (decide_eq_true hd), if_pos (decide_eq_true (hi hd)), List.length_cons, List.length_cons]; omega
        · rw [if_neg (by simpa using hd)]
          split_ifs
          · rw [List.length_cons]; omega
          · exact ih
    omega

/-! Sums -/

theorem fold_sum_acc (f g a : ℚ → ℚ) (k : ℕ) (hf : ∀ r, Acc (f r) (g r) (a r) k) (rs : List ℚ) (s S A : ℚ) (n : ℕ) (h : Acc s S A n) (hn : k ≤ n) :
    Acc (rs.foldl (fun sum r => r64 (sum + f r)) s) (S + (rs.map g).sum) (A + (rs.map a).sum) (n + rs.length) := by
  induction rs generalizing s S A n with
  | nil => simpa using h
  | cons r rs ih =>
    have := ih _ _ _ (n + 1) (acc_add h (acc_mono (hf r) hn)) (by omega)
    rw [List.foldl_cons, List.map_cons, List.map_cons, List.sum_cons, List.sum_cons, List.length_cons, ← add_assoc, ← add_assoc, show n + (rs.length + 1) = n + 1 + rs.length by ring]
    exact this

/-- The mean of the computed values is close to the mean of the exact ones. -/
theorem forall₂_sum {α : Type} {g : ℚ → ℚ} {f : α → ℝ} {E W : ℝ} {a : ℚ → ℚ} {rs : List ℚ} {ds : List α} {P : ℚ → α → Prop} (h : List.Forall₂ P rs ds)
    (h1 : ∀ r d, P r d → |((g r : ℚ) : ℝ) - f d| ≤ E) (h2 : ∀ r d, P r d → ((a r : ℚ) : ℝ) ≤ W) :
    |(((rs.map g).sum : ℚ) : ℝ) - (ds.map f).sum| ≤ ds.length * E ∧ (((rs.map a).sum : ℚ) : ℝ) ≤ ds.length * W := by
  induction h with
  | nil => simp
  | @cons r d rs ds hrd hf ih =>
    have a1 := h1 r d hrd
    have a2 := h2 r d hrd
    simp only [List.map_cons, List.sum_cons, List.length_cons, Rat.cast_add, Nat.cast_add, Nat.cast_one]
    constructor
    · rw [show (((g r : ℚ) : ℝ) + ((rs.map g).sum : ℚ)) - (f d + (ds.map f).sum) = (((g r : ℚ) : ℝ) - f d) + ((((rs.map g).sum : ℚ) : ℝ) - (ds.map f).sum) by ring]
      refine (abs_add_le _ _).trans ?_
      linarith [ih.1]
    · linarith [ih.2]

/-- C129: the mean radius is the mean of the exact radii of the samples, up to the error of a radius and (n+2)/2^52 of the size of the shell. -/
theorem C129_mean (F : ShellMath) (e : ℝ) (cs : List ℚ) (I J K : ℕ) (draws : List (ℚ × ℚ)) (h : Sampling F e cs I J K draws) (hn : 0 < draws.length) (hn' : draws.length < 2 ^ 50) :
    ∃ m : ℚ, meanRadius64 F cs I J K draws = some m ∧
      |(m : ℝ) - (draws.map (radiusOf cs I J K)).sum / draws.length| ≤
        shellErr I J K e * sizeOf cs + (draws.length + 2) / 2 ^ 52 * (sizeOf cs + shellErr I J K e * sizeOf cs) := by
  obtain ⟨rs, h1, h2⟩ := radii_close h
  have hlen := h2.length_eq
  have hnR : (0 : ℝ) < draws.length := by exact_mod_cast hn
  have hnQ : (0 : ℚ) < draws.length := by exact_mod_cast hn
  have hsum := forall₂_sum (g := fun r => r) (f := radiusOf cs I J K) (a := fun r => |r|) (E := shellErr I J K e * sizeOf cs) (W := sizeOf cs + shellErr I J K e * sizeOf cs) h2
    (fun r d hd => hd) (fun r d hd => by
      have := radiusOf_le cs I J K h.coeffs d
      push_cast
      have t := abs_sub_abs_le_abs_sub (r : ℝ) (radiusOf cs I J K d)
      linarith)
  refine ⟨r64 (rs.foldl (fun sum r => r64 (sum + r)) 0 / r64 (draws.length : ℚ)), ?_, ?_⟩
  · unfold meanRadius64
    rw [if_neg (by omega), h1, Option.map_some]
  have acc1 := fold_sum_acc (fun r => r) (fun r => r) (fun r => |r|) 0 acc_self rs 0 0 0 0 (acc_zero 0) le_rfl
  have accn : Acc (draws.length : ℚ) (draws.length : ℚ) (draws.length : ℚ) 0 := acc_exact (by rw [abs_of_pos hnQ]) 0
  have accd := acc_div acc1 accn hnQ (by norm_num)
  simp only [zero_add, add_zero] at accd
  rw [r64_float (float_nat (by omega))]
  rw [hlen] at accd
  have b1 := acc_bound accd (by omega) le_rfl
  set S := (rs.map fun r => r).sum with hS
  set A := (rs.map fun r => |r|).sum with hA
  set m := r64 (rs.foldl (fun sum r => r64 (sum + r)) 0 / (draws.length : ℚ)) with hm
  have b1R : |(m : ℝ) - (S : ℝ) / draws.length| ≤ 2 * (draws.length + 1 : ℕ) / 2 ^ 53 * ((A : ℝ) / draws.length) := by
    have := (Rat.cast_le (K := ℝ)).mpr b1
    push_cast at this ⊢
    exact this
  obtain ⟨s1, s2⟩ := hsum
  have b2 : |(S : ℝ) / draws.length - (draws.map (radiusOf cs I J K)).sum / draws.length| ≤ shellErr I J K e * sizeOf cs := by
    rw [← sub_div, abs_div, abs_of_pos hnR, div_le_iff₀ hnR]
    linarith
  have b3 : (A : ℝ) / draws.length ≤ sizeOf cs + shellErr I J K e * sizeOf cs := by
    rw [div_le_iff₀ hnR]
    linarith
  have b4 : 0 ≤ (A : ℝ) / draws.length := by
    have : 0 ≤ A := List.sum_nonneg (by
      intro x hx
      obtain ⟨y, _, rfl⟩ := List.mem_map.mp hx
      exact abs_nonneg y)
    have : (0 : ℝ) ≤ A := by exact_mod_cast this
    positivity
  refine (abs_sub_le _ ((S : ℝ) / draws.length) _).trans ?_
  have b5 : 2 * ((draws.length + 1 : ℕ) : ℝ) / 2 ^ 53 ≤ (draws.length + 2) / 2 ^ 52 := by
    push_cast
    rw [div_le_div_iff₀ (by norm_num) (by norm_num)]
    norm_num
    linarith
  have b6 : 2 * ((draws.length + 1 : ℕ) : ℝ) / 2 ^ 53 * ((A : ℝ) / draws.length) ≤ (draws.length + 2) / 2 ^ 52 * (sizeOf cs + shellErr I J K e * sizeOf cs) :=
    mul_le_mul b5 b3 b4 (by positivity)
  linarith

theorem pi3_near : |(pi3_64 : ℝ) - Real.pi / 3| ≤ 1 / 2 ^ 52 := by
  have h1 := Real.pi_gt_d20
  have h2 := Real.pi_lt_d20
  have : ((pi3_64 : ℚ) : ℝ) = 4716158501352294 / 2 ^ 52 := by unfold pi3_64; push_cast; rfl
  rw [this, abs_le]
  norm_num at *
  constructor <;> linarith

theorem cube_close {r s W E : ℝ} (hr : |r| ≤ W) (hs : |s| ≤ W) (h : |r - s| ≤ E) : |r * r * r - s * s * s| ≤ 3 * W ^ 2 * E := by
  have hW : 0 ≤ W := (abs_nonneg _).trans hr
  have e : r * r * r - s * s * s = (r - s) * (r * r + r * s + s * s) := by ring
  have b : |r * r + r * s + s * s| ≤ 3 * W ^ 2 := by
    refine (abs_add_le _ _).trans ((add_le_add_left (abs_add_le _ _) _).trans ?_)
    rw [abs_mul, abs_mul, abs_mul]
    nlinarith [mul_le_mul hr hr (abs_nonneg _) hW, mul_le_mul hr hs (abs_nonneg _) hW, mul_le_mul hs hs (abs_nonneg _) hW]
  rw [e, abs_mul]
  calc |r - s| * |r * r + r * s + s * s| ≤ E * (3 * W ^ 2) := mul_le_mul h b (abs_nonneg _) ((abs_nonneg _).trans h)
    _ = _ := by ring

/-- C129: the volume is 4π/3 times the mean of the cubes of the exact radii of the samples, up to 13 times the error of a radius times the square of the size, and (n+8)/2^49 of the cube of the size. -/
theorem C129_volume (F : ShellMath) (e : ℝ) (cs : List ℚ) (I J K : ℕ) (draws : List (ℚ × ℚ)) (h : Sampling F e cs I J K draws) (hn : 0 < draws.length) (hn' : draws.length < 2 ^ 50) :
    ∃ v : ℚ, volume64 F cs I J K draws = some v ∧
      |(v : ℝ) - 4 * Real.pi / 3 * ((draws.map fun d => radiusOf cs I J K d ^ 3).sum / draws.length)| ≤
        13 * (shellErr I J K e * sizeOf cs) * (sizeOf cs + shellErr I J K e * sizeOf cs) ^ 2 + (draws.length + 8) / 2 ^ 49 * (sizeOf cs + shellErr I J K e * sizeOf cs) ^ 3 := by
  obtain ⟨rs, h1, h2⟩ := radii_close h
  have hlen := h2.length_eq
  have hnR : (0 : ℝ) < draws.length := by exact_mod_cast hn
  have hnQ : (0 : ℚ) < draws.length := by exact_mod_cast hn
  set W : ℝ := sizeOf cs + shellErr I J K e * sizeOf cs with hW
  set E : ℝ := shellErr I J K e * sizeOf cs with hE
  have hE0 : 0 ≤ E := by
    obtain ⟨d, hd⟩ := List.exists_mem_of_length_pos hn
    obtain ⟨v, _, hv⟩ := radius_close h hd
    exact (abs_nonneg _).trans hv
  have rW : ∀ (r : ℚ) d, |(r : ℝ) - radiusOf cs I J K d| ≤ E → |(r : ℝ)| ≤ W := by
    intro r d hd
    have := radiusOf_le cs I J K h.coeffs d
    have t := abs_sub_abs_le_abs_sub (r : ℝ) (radiusOf cs I J K d)
    linarith
  have hsum := forall₂_sum (g := fun r => r * r * r) (f := fun d => radiusOf cs I J K d ^ 3) (a := fun r => |r| * |r| * |r|) (E := 3 * W ^ 2 * E) (W := W ^ 3) h2
    (fun r d hd => by
      have s := radiusOf_le cs I J K h.coeffs d
      have := cube_close (rW r d hd) (s.trans (by linarith)) hd
      push_cast
      rw [show radiusOf cs I J K d ^ 3 = radiusOf cs I J K d * radiusOf cs I J K d * radiusOf cs I J K d by ring]
      exact this)
    (fun r d hd => by
      have := pow_le_pow_left₀ (abs_nonneg _) (rW r d hd) 3
      push_cast
      calc |(r : ℝ)| * |(r : ℝ)| * |(r : ℝ)| = |(r : ℝ)| ^ 3 := by ring
        _ ≤ _ := this)
  have hv : volume64 F cs I J K draws = some (r64 (r64 (r64 (rs.foldl (fun sum r => r64 (sum + r64 (r64 (r * r) * r))) 0 / (draws.length : ℚ)) * 4) * pi3_64)) := by
    unfold volume64
    rw [if_neg (by omega), h1, Option.map_some, r64_float (float_nat (by omega))]
  refine ⟨_, hv, ?_⟩
  have acc1 := fold_sum_acc (fun r => r64 (r64 (r * r) * r)) (fun r => r * r * r) (fun r => |r| * |r| * |r|) 2
    (fun r => by simpa using acc_mul (acc_mul (acc_self r) (acc_self r)) (acc_self r)) rs 0 0 0 2 (acc_zero 2) le_rfl
  have accn : Acc (draws.length : ℚ) (draws.length : ℚ) (draws.length : ℚ) 0 := acc_exact (by rw [abs_of_pos hnQ]) 0
  have accd := acc_div acc1 accn hnQ (by norm_num)
  have p0 : (0 : ℚ) < pi3_64 := by unfold pi3_64; norm_num
  have acc4 := acc_mul (acc_mul accd (acc_exact (x := 4) (a := 4) (by norm_num) 0)) (acc_exact (x := pi3_64) (a := pi3_64) (by rw [abs_of_pos p0]) 0)
  simp only [zero_add, add_zero] at acc4
  rw [hlen] at acc4
  have b1 := acc_bound acc4 (by omega) le_rfl
  set S := (rs.map fun r => r * r * r).sum with hS
  set A := (rs.map fun r => |r| * |r| * |r|).sum with hA
  set v := r64 (r64 (r64 (rs.foldl (fun sum r => r64 (sum + r64 (r64 (r * r) * r))) 0 / (draws.length : ℚ)) * 4) * pi3_64) with hv'
  have b1R : |(v : ℝ) - (S : ℝ) / draws.length * 4 * pi3_64| ≤ 2 * (2 + draws.length + 1 + 1 + 1 : ℕ) / 2 ^ 53 * ((A : ℝ) / draws.length * 4 * pi3_64) := by
    have := (Rat.cast_le (K := ℝ)).mpr b1
    push_cast at this ⊢
    exact this
  obtain ⟨s1, s2⟩ := hsum
  set T := (draws.map fun d => radiusOf cs I J K d ^ 3).sum with hT
  have hW0 : 0 ≤ W := by
    obtain ⟨d, hd⟩ := List.exists_mem_of_length_pos hn
    have := (abs_nonneg _).trans (radiusOf_le cs I J K h.coeffs d)
    linarith
  have b2 : |(S : ℝ) / draws.length - T / draws.length| ≤ 3 * W ^ 2 * E := by
    rw [← sub_div, abs_div, abs_of_pos hnR, div_le_iff₀ hnR]
    linarith
  have b3 : (A : ℝ) / draws.length ≤ W ^ 3 := by
    rw [div_le_iff₀ hnR]
    linarith
  have b4 : 0 ≤ (A : ℝ) / draws.length := by
    have : 0 ≤ A := List.sum_nonneg (by
      intro x hx
      obtain ⟨y, _, rfl⟩ := List.mem_map.mp hx
      positivity)
    have : (0 : ℝ) ≤ A := by exact_mod_cast this
    positivity
  have b7 : |(S : ℝ) / draws.length| ≤ W ^ 3 := by
    have : |S| ≤ A := by
      have := accd.2
      simp only [zero_add] at this
      rw [abs_div, abs_of_pos hnQ, div_le_div_iff_of_pos_right hnQ] at this
      exact this
    have : |(S : ℝ)| ≤ A := by exact_mod_cast this
    rw [abs_div, abs_of_pos hnR]
    exact (div_le_div_of_nonneg_right this hnR.le).trans b3
  have q := pi3_near
  have hpi := Real.pi_lt_d2
  have hpp := Real.pi_gt_three
  generalize (S : ℝ) / draws.length = s at *
  generalize (A : ℝ) / draws.length = a at *
  generalize T / (draws.length : ℝ) = t at *
  have hW2 : 0 ≤ W ^ 2 := by positivity
  have hW3 : 0 ≤ W ^ 3 := by positivity
  have p1 : (pi3_64 : ℝ) ≤ 11 / 10 := by unfold pi3_64; push_cast; norm_num
  have p2 : (0 : ℝ) < pi3_64 := by exact_mod_cast p0
  have c1 : |(v : ℝ) - s * 4 * pi3_64| ≤ (draws.length + 5) / 2 ^ 52 * (W ^ 3 * 5) := by
    refine b1R.trans (mul_le_mul ?_ ?_ (by positivity) (by positivity))
    · push_cast
      rw [div_le_div_iff₀ (by norm_num) (by norm_num)]
      norm_num
      linarith
    · nlinarith [mul_le_mul b3 p1 p2.le hW3]
  have c2 : |s * 4 * pi3_64 - 4 * Real.pi / 3 * s| ≤ W ^ 3 * (4 / 2 ^ 52) := by
    rw [show s * 4 * (pi3_64 : ℝ) - 4 * Real.pi / 3 * s = s * (4 * ((pi3_64 : ℝ) - Real.pi / 3)) by ring, abs_mul]
    refine mul_le_mul b7 ?_ (abs_nonneg _) hW3
    rw [abs_mul, abs_of_pos (by norm_num : (0 : ℝ) < 4)]
    linarith
  have c3 : |4 * Real.pi / 3 * s - 4 * Real.pi / 3 * t| ≤ 13 * E * W ^ 2 := by
    rw [← mul_sub, abs_mul, abs_of_pos (by positivity)]
    have : 4 * Real.pi / 3 ≤ 13 / 3 := by linarith
    calc 4 * Real.pi / 3 * |s - t| ≤ 13 / 3 * (3 * W ^ 2 * E) := mul_le_mul this b2 (abs_nonneg _) (by norm_num)
      _ = _ := by ring
  refine (abs_sub_le _ (s * 4 * pi3_64) _).trans ((add_le_add c1 ((abs_sub_le _ (4 * Real.pi / 3 * s) _).trans (add_le_add c2 c3))).trans ?_)
  have hnn : 0 ≤ (draws.length : ℝ) * W ^ 3 := by positivity
  generalize (draws.length : ℝ) = N at *
  generalize W ^ 3 = w at *
  generalize 13 * E * W ^ 2 = x at *
  norm_num
  nlinarith

/-! The hypotheses are met. -/

/-- The functions are accurate to 2^-49; a shell of order 3 that is not a sphere; two draws. -/
theorem egg_sampling : Sampling cutMath (1 / 2 ^ 49) (2 :: 1 :: List.replicate 16 0) 3 3 2 [(1 / 4, 1 / 2), (0, 1 / 2)] where
  math := cutMath_accurate.mono (by norm_num)
  fine := by norm_num
  coarse := le_rfl
  coeffs := by simp
  order := by norm_num
  draws := by
    intro d hd
    simp only [List.mem_cons, List.not_mem_nil, or_false] at hd
    rcases hd with rfl | rfl <;> exact ⟨⟨by norm_num, by norm_num⟩, by norm_num, by norm_num⟩

/-- The radius of this shell is 2 + x: 2 in the direction of the y axis and 3 in that of the x axis, so the mean is 5/2 and the volume belongs to the mean cube 35/2. -/
example : ∃ m v : ℚ, meanRadius64 cutMath (2 :: 1 :: List.replicate 16 0) 3 3 2 [(1 / 4, 1 / 2), (0, 1 / 2)] = some m ∧ |(m : ℝ) - 5 / 2| ≤ 1 / 2 ^ 16 ∧
    volume64 cutMath (2 :: 1 :: List.replicate 16 0) 3 3 2 [(1 / 4, 1 / 2), (0, 1 / 2)] = some v ∧ |(v : ℝ) - 4 * Real.pi / 3 * (35 / 2)| ≤ 1 / 2 ^ 10 := by
  have hs : sizeOf (2 :: 1 :: List.replicate 16 0) = 3 := by simp [sizeOf]; norm_num
  have hr : ∀ d, radiusOf (2 :: 1 :: List.replicate 16 0) 3 3 2 d = 2 + Real.sin (Real.arccos (2 * d.2 - 1)) * Real.cos (2 * Real.pi * d.1) := by
    intro d
    unfold radiusOf shellAt
    simp [sum_range_succ]
  have r1 : radiusOf (2 :: 1 :: List.replicate 16 0) 3 3 2 (1 / 4, 1 / 2) = 2 := by
    rw [hr]
    have : (2 * Real.pi * ((1 / 4 : ℚ) : ℝ)) = Real.pi / 2 := by push_cast; ring
    dsimp only
    rw [this, Real.cos_pi_div_two]
    ring
  have r2 : radiusOf (2 :: 1 :: List.replicate 16 0) 3 3 2 (0, 1 / 2) = 3 := by
    rw [hr]
    have : (2 * ((1 / 2 : ℚ) : ℝ) - 1) = 0 := by push_cast; ring
    dsimp only
    rw [this, Real.arccos_zero, Real.sin_pi_div_two, Rat.cast_zero, mul_zero, Real.cos_zero]
    norm_num
  have he : shellErr 3 3 2 (1 / 2 ^ 49) ≤ 1 / 2 ^ 19 := by unfold shellErr; norm_num
  have he0 : 0 ≤ shellErr 3 3 2 (1 / 2 ^ 49) := by unfold shellErr; positivity
  obtain ⟨m, m1, m2⟩ := C129_mean _ _ _ 3 3 2 _ egg_sampling (by simp) (by norm_num)
  obtain ⟨v, v1, v2⟩ := C129_volume _ _ _ 3 3 2 _ egg_sampling (by simp) (by norm_num)
  refine ⟨m, v, m1, ?_, v1, ?_⟩
  · rw [hs] at m2
    simp only [List.map_cons, List.map_nil, List.sum_cons, List.sum_nil, List.length_cons, List.length_nil, r1, r2] at m2
    generalize shellErr 3 3 2 (1 / 2 ^ 49) = x at *
    norm_num at m2 he ⊢
    refine m2.trans ?_
    linarith
  · rw [hs] at v2
    simp only [List.map_cons, List.map_nil, List.sum_cons, List.sum_nil, List.length_cons, List.length_nil, r1, r2] at v2
    generalize shellErr 3 3 2 (1 / 2 ^ 49) = x at *
    rw [show ((2 : ℝ) ^ 3 + (3 ^ 3 + 0)) / ((0 + 1 + 1 : ℕ) : ℝ) = 35 / 2 by norm_num] at v2
    refine v2.trans ?_
    have hx2 : x ^ 2 ≤ x := by nlinarith
    have hx3 : x ^ 3 ≤ x := by nlinarith
    norm_num at he ⊢
    nlinarith

end Shellfish.Round
