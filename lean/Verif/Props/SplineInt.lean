/-
C42: integrals of splines.
-/
import Verif.Props.Spline
import Mathlib.Analysis.SpecialFunctions.Integrals.Basic
import Mathlib.Topology.Algebra.Polynomial

namespace Shellfish.Interp
open MeasureTheory intervalIntegral

/-- The integral of one piece from its left end. -/
theorem integTerm_eq (k : Coeff ℝ) (x0 b : ℝ) : integTerm k x0 b = ∫ x in x0..b, (piece k x0).eval x := by
  have h : ∀ x ∈ Set.uIcc x0 b, HasDerivAt (fun x => k.a * (x - x0) ^ 4 / 4 + k.b * (x - x0) ^ 3 / 3 + k.c * (x - x0) ^ 2 / 2 + k.d * (x - x0)) ((piece k x0).eval x) x := by
    intro x _
    have h0 : HasDerivAt (fun x : ℝ => x - x0) 1 x := (hasDerivAt_id x).sub_const x0
    have h1 := (((h0.pow 4).const_mul k.a).div_const 4).add ((((h0.pow 3).const_mul k.b).div_const 3))
    have h2 := (h1.add (((h0.pow 2).const_mul k.c).div_const 2)).add (h0.const_mul k.d)
    refine h2.congr_deriv ?_
    rw [piece_eval]
    push_cast
    ring
  rw [integral_eq_sub_of_hasDerivAt h ((Polynomial.continuous _).intervalIntegrable _ _)]
  unfold integTerm
  simp
  ring

/-- The value of the spline, 0 where it panics. -/
noncomputable def Spline.fn (sp : Spline ℝ) (x : ℝ) : ℝ := (sp.eval x).getD 0

section
variable {xs ys : List ℝ} {sp : Spline ℝ} {p : Nat → Polynomial ℝ}

theorem fn_integrable (hev : ∀ i x, i + 1 < xs.length → xs.getD i 0 ≤ x ∧ x ≤ xs.getD (i + 1) 0 → sp.eval x = some ((p i).eval x)) {i : Nat} (hi : i + 1 < xs.length) {a b : ℝ}
    (h1 : xs.getD i 0 ≤ a) (hab : a ≤ b) (h2 : b ≤ xs.getD (i + 1) 0) :
    IntervalIntegrable sp.fn volume a b ∧ ∫ x in a..b, sp.fn x = ∫ x in a..b, (p i).eval x := by
  have heq : Set.EqOn sp.fn (fun x => (p i).eval x) (Set.uIcc a b) := by
    intro x hx
    rw [Set.uIcc_of_le hab] at hx
    unfold Spline.fn
    rw [hev i x hi ⟨le_trans h1 hx.1, le_trans hx.2 h2⟩]
    rfl
  refine ⟨?_, integral_congr heq⟩
  refine IntervalIntegrable.congr ?_ ((Polynomial.continuous (p i)).intervalIntegrable a b)
  intro x hx
  exact (heq (Set.uIoc_subset_uIcc hx)).symm

/-- The middle part of the sum: the pieces `a`, ..., `a + m - 1`. -/
theorem fn_sum (hs : xs.Pairwise (· < ·)) (hx : sp.xs = xs) (hp : ∀ i, p i = piece (sp.coeffs i) (xs.getD i 0))
    (hev : ∀ i x, i + 1 < xs.length → xs.getD i 0 ≤ x ∧ x ≤ xs.getD (i + 1) 0 → sp.eval x = some ((p i).eval x)) (a : Nat) (s0 : ℝ) (m : Nat) (hm : a + m < xs.length) :
    IntervalIntegrable sp.fn volume (xs.getD a 0) (xs.getD (a + m) 0) ∧
      (List.range' a m).foldl (fun sum i => sum + integTerm (sp.coeffs i) (sp.xs.getD i 0) (sp.xs.getD (i + 1) 0)) s0 = s0 + ∫ x in xs.getD a 0..xs.getD (a + m) 0, sp.fn x := by
  induction m with
  | zero => simp
  | succ m ih =>
    obtain ⟨ih1, ih2⟩ := ih (by omega)
    obtain ⟨h1, h2⟩ := fn_integrable hev (i := a + m) (by omega) (le_refl _) (getD_lt hs (by omega) (by omega)).le (le_refl _)
    refine ⟨ih1.trans h1, ?_⟩
    rw [List.range'_concat, List.foldl_append, one_mul, ih2]
    simp only [List.foldl_cons, List.foldl_nil]
    rw [show a + (m + 1) = a + m + 1 by omega, ← integral_add_adjacent_intervals ih1 h1, h2, hx, integTerm_eq, hp]
    ring

end

/-- C42 (partial): `Integrate(lo, hi)` of a spline on an increasing table is the integral of `Eval` from `lo` to `hi` when `lo` is a point of the table; `Integrate(hi, lo)` is its
negative.  For other lower bounds see `C42_integrate_false`. -/
theorem C42_integrate_partial (xs ys : List ℝ) (hs : xs.Pairwise (· < ·)) (h3 : 3 ≤ xs.length) (hl : xs.length = ys.length) :
    ∃ sp, newSpline xs ys = some sp ∧ ∀ k hi, k < xs.length → xs.getD k 0 ≤ hi → hi ≤ xs.getD (xs.length - 1) 0 →
      sp.integrate (xs.getD k 0) hi = some (∫ x in xs.getD k 0..hi, (sp.eval x).getD 0) ∧
      sp.integrate hi (xs.getD k 0) = some (∫ x in hi..xs.getD k 0, (sp.eval x).getD 0) := by
  have hm : Monotone true xs := by unfold Monotone; simpa using hs
  obtain ⟨sp, p, hsp, hxs, hincr, rfl, hnat, hev', _⟩ := spline_core true xs ys (by simpa using hs) h3 hl
  have hev : ∀ i x, i + 1 < xs.length → xs.getD i 0 ≤ x ∧ x ≤ xs.getD (i + 1) 0 → sp.eval x = some ((piece (sp.coeffs i) (xs.getD i 0)).eval x) :=
    fun i x hi hx => (hev' i x hi (by simpa using hx)).1
  refine ⟨sp, hsp, ?_⟩
  have main : ∀ k hi, k < xs.length → xs.getD k 0 ≤ hi → hi ≤ xs.getD (xs.length - 1) 0 → sp.integrateUp (xs.getD k 0) hi = some (∫ x in xs.getD k 0..hi, sp.fn x) := by
    intro k hi hk h1 h2
    have hle : ∀ a b, a ≤ b → b < xs.length → xs.getD a 0 ≤ xs.getD b 0 := fun a b hab hb => by
      rcases Nat.eq_or_lt_of_le hab with h | h
      · rw [h]
      · exact (getD_lt hs h hb).le
    have hk0 := hle 0 k (by omega) hk
    have hkn := hle k (xs.length - 1) (by omega) (by omega)
    have hlo := tableSearch_spec xs sp.dx true (xs.getD k 0) (by omega) (by unfold Between; simpa using ⟨hk0, hkn⟩)
    have hhi := tableSearch_spec xs sp.dx true hi (by omega) (by unfold Between; simpa using ⟨le_trans hk0 h1, h2⟩)
    unfold Spline.integrateUp Spline.bsearch
    rw [hxs, hincr]
    generalize hl' : tableSearch xs sp.dx true (xs.getD k 0) = l at hlo ⊢
    generalize hr' : tableSearch xs sp.dx true hi = r at hhi ⊢
    obtain ⟨hl1, hl2⟩ := hlo
    obtain ⟨hr1, hr2⟩ := hhi
    unfold Between at hl2 hr2
    simp only [if_true] at hl2 hr2
    dsimp only
    rw [if_neg (by rintro (h | h) <;> have := of_decide_eq_true h <;> linarith), if_neg (by rintro (h | h) <;> have := of_decide_eq_true h <;> linarith)]
    -- the first term is the integral up to `b`, whether the search found the interval left or right of the point
    have first : ∀ b, xs.getD k 0 ≤ b → b ≤ xs.getD (l + 1) 0 → integTerm (sp.coeffs l) (xs.getD k 0) b = ∫ x in xs.getD k 0..b, sp.fn x := by
      intro b hb1 hb2
      rw [(fn_integrable hev hl1 hl2.1 hb1 hb2).2]
      rcases eq_or_lt_of_le hl2.1 with h | h
      · rw [← h, integTerm_eq]
      · have hlk : l < k := by
          by_contra hc
          exact absurd (hle k l (by omega) (by omega)) (not_le.mpr h)
        have := hle (l + 1) k (by omega) hk
        have hbe : b = xs.getD k 0 := le_antisymm (le_trans hb2 this) hb1
        rw [hbe]
        simp [integTerm]
    by_cases hlr : l = r
    · rw [if_pos hlr, first hi h1 (hlr ▸ hr2.2)]
    · rw [if_neg hlr]
      have hlt : l < r := by
        by_contra hc
        have hle' := hle (r + 1) l (by omega) (by omega)
        have : hi = xs.getD k 0 := le_antisymm (by linarith) h1
        subst this
        exact hlr (hl'.symm.trans hr')
      have hmid := fn_sum hs hxs (p := fun i => piece (sp.coeffs i) (xs.getD i 0)) (fun _ => rfl) hev (l + 1)
        (integTerm (sp.coeffs l) (xs.getD k 0) (xs.getD (l + 1) 0) + integTerm (sp.coeffs r) (xs.getD r 0) hi) (r - (l + 1)) (by omega)
      rw [show l + 1 + (r - (l + 1)) = r by omega, hxs] at hmid
      rw [hmid.2, first _ hl2.2 (le_refl _)]
      have ha := (fn_integrable hev hl1 hl2.1 hl2.2 (le_refl _)).1
      have hb := fn_integrable hev hr1 (le_refl _) hr2.1 hr2.2
      rw [integTerm_eq, ← hb.2, ← integral_add_adjacent_intervals (ha.trans hmid.1) hb.1, ← integral_add_adjacent_intervals ha hmid.1]
      congr 1
      ring
  intro k hi hk h1 h2
  refine ⟨?_, ?_⟩
  · unfold Spline.integrate
    rw [if_neg (not_lt.mpr h1)]
    exact main k hi hk h1 h2
  · unfold Spline.integrate
    rcases eq_or_lt_of_le h1 with h | h
    · subst h
      rw [if_neg (lt_irrefl _), main k _ hk (le_refl _) h2]
      rfl
    · rw [if_pos h, main k hi hk h1 h2]
      exact congrArg some (integral_symm _ _).symm

example : ∃ sp, newSpline (K := ℝ) [0, 1, 3] [5, 7, 2] = some sp ∧ sp.integrate 1 2 = some (∫ x in (1 : ℝ)..2, (sp.eval x).getD 0) := by
  obtain ⟨sp, h, hk⟩ := C42_integrate_partial [0, 1, 3] [5, 7, 2] (by norm_num) (by decide) (by decide)
  exact ⟨sp, h, (hk 1 2 (by decide) (by norm_num) (by norm_num)).1⟩

/-- C42 is false for integrals whose lower bound is not a point of the table: the spline through (0,0), (1,1), (2,2) is the function `x`, whose integral from 1/2 to 3/4 is 5/32, but
`Integrate` returns 1/32, the integral from 0 to 1/4. -/
theorem C42_integrate_false :
    ∃ sp, newSpline (K := ℝ) [0, 1, 2] [0, 1, 2] = some sp ∧ sp.integrate (1 / 2) (3 / 4) = some (1 / 32) ∧ (∫ x in (1 / 2 : ℝ)..(3 / 4), (sp.eval x).getD 0) = 5 / 32 := by
  have hM : calcY2s (K := ℝ) [0, 1, 2] [0, 1, 2] = some fun _ => 0 := by
    unfold calcY2s triDiag
    norm_num
  have hsp : newSpline (K := ℝ) [0, 1, 2] [0, 1, 2] = some { xs := [0, 1, 2], ys := [0, 1, 2], y2s := fun _ => 0, coeffs := calcCoeff [0, 1, 2] [0, 1, 2] fun _ => 0, incr := true, dx := 1 } := by
    unfold newSpline
    rw [hM]
    norm_num [List.range_succ]
  have hb : ∀ x : ℝ, 0 ≤ x → x < 1 → tableSearch [0, 1, 2] 1 true x = 0 := by
    intro x h0 h1
    have hf : ⌊x⌋ = 0 := Int.floor_eq_zero_iff.mpr ⟨h0, h1⟩
    unfold tableSearch intDiv
    simp [h0, hf, h1.le]
  refine ⟨_, hsp, ?_, ?_⟩
  · unfold Spline.integrate Spline.integrateUp Spline.bsearch
    dsimp only
    rw [hb _ (by norm_num) (by norm_num), hb _ (by norm_num) (by norm_num)]
    norm_num [integTerm, calcCoeff]
  · have : ∀ x ∈ Set.uIcc (1 / 2 : ℝ) (3 / 4), (Spline.eval (K := ℝ) { xs := [0, 1, 2], ys := [0, 1, 2], y2s := fun _ => 0, coeffs := calcCoeff [0, 1, 2] [0, 1, 2] fun _ => 0, incr := true, dx := 1 } x).getD 0 = x := by
      intro x hx
      rw [Set.uIcc_of_le (by norm_num)] at hx
      have h1 : (0 : ℝ) < x := by linarith [hx.1]
      have h2 : x < 1 := by linarith [hx.2]
      unfold Spline.eval Spline.bsearch
      dsimp only
      rw [hb x h1.le h2, if_neg]
      · norm_num [calcCoeff]
      · simp; constructor <;> linarith
    rw [integral_congr this]
    norm_num

end Shellfish.Interp
