/-
C67: smoothing of profiles (los/analyze/smooth.go).  C43: the splashback radius (los/analyze/splashback_radius.go).
-/
import Verif.Props.SavGol
import Mathlib.Analysis.SpecialFunctions.Pow.Real

namespace Shellfish.Smooth

open Polynomial

/-! ## C67 -/

/-- Radii that are uniform in the logarithm with spacing `dx`. -/
def LogGrid (xs : List ℝ) (dx : ℝ) : Prop := ∃ a, ∀ i < xs.length, xs.getD i 0 = Real.exp (a + i * dx)

/-- The density is the power law `A r^α`. -/
def PowerLaw (xs ys : List ℝ) (A α : ℝ) : Prop := ys.length = xs.length ∧ ∀ i < xs.length, ys.getD i 0 = A * xs.getD i 0 ^ α

/-- The logarithm of a power law is linear. -/
theorem powerLaw_log {xs ys : List ℝ} {dx A α : ℝ} (hA : 0 < A) (hg : LogGrid xs dx) (hp : PowerLaw xs ys A α) :
    ∃ a, ys.map Real.log = (List.range xs.length).map fun (i : Nat) => (C (Real.log A + α * a) + C α * X : ℝ[X]).eval (0 + i * dx) := by
  obtain ⟨a, ha⟩ := hg
  refine ⟨a, List.ext_getElem (by simp [hp.1]) fun i h1 h2 => ?_⟩
  rw [List.length_map] at h1
  rw [List.getElem_map, List.getElem_map, List.getElem_range, ← List.getD_eq_getElem _ 0, hp.2 i (by rw [← hp.1]; exact h1), ha i (by rw [← hp.1]; exact h1)]
  rw [Real.log_mul hA.ne' (Real.rpow_pos_of_pos (Real.exp_pos _) _).ne', Real.log_rpow (Real.exp_pos _), Real.log_exp]
  simp
  ring

theorem log_step {xs : List ℝ} {dx : ℝ} (hg : LogGrid xs dx) (h2 : 2 ≤ xs.length) : Real.log (xs.getD 1 0) - Real.log (xs.getD 0 0) = dx := by
  obtain ⟨a, ha⟩ := hg
  rw [ha 1 (by omega), ha 0 (by omega), Real.log_exp, Real.log_exp]; push_cast; ring

theorem lin_deg (a b : ℝ) : (C a + C b * X : ℝ[X]).natDegree ≤ 4 :=
  le_trans (natDegree_add_le _ _) (max_le (by simp) (le_trans (natDegree_C_mul_le _ _) (by simp)))

theorem exp_log_map (ys : List ℝ) (h : ∀ y ∈ ys, 0 < y) : (ys.map Real.log).map Real.exp = ys := by
  rw [List.map_map]
  conv_rhs => rw [← List.map_id ys]
  exact List.map_congr_left fun y hy => Real.exp_log (h y hy)

theorem powerLaw_pos {xs ys : List ℝ} {dx A α : ℝ} (hA : 0 < A) (hg : LogGrid xs dx) (hp : PowerLaw xs ys A α) : ∀ y ∈ ys, 0 < y := by
  obtain ⟨a, ha⟩ := hg
  intro y hy
  obtain ⟨i, hi, rfl⟩ := List.getElem_of_mem hy
  have hi' : i < xs.length := by rw [← hp.1]; exact hi
  rw [← List.getD_eq_getElem _ 0, hp.2 i hi', ha i hi']
  exact mul_pos hA (Real.rpow_pos_of_pos (Real.exp_pos _) _)

/-- Smoothing of a power law with kernels that were made for the spacing `dx0`. -/
theorem smooth_with (cache cache' : Cache ℝ) (xs ys : List ℝ) (window : Nat) (dx0 dx A α : ℝ) (hdx0 : dx0 ≠ 0) (hodd : window % 2 = 1) (hw : 4 < window) (hN : window < xs.length) (hA : 0 < A)
    (hg : LogGrid xs dx) (hp : PowerLaw xs ys A α) (k kd : Kernel ℝ) (hk : newSavGolKernel 4 window = some k) (hkd : newSavGolDerivKernel dx0 1 4 window = some kd)
    (hget : getSmoothingKernel cache window dx = some ((k, kd), cache')) :
    ∃ vals derivs, smooth cache xs ys window = .ok vals derivs ys cache' ∧
      ∀ i, window / 2 ≤ i → i + window / 2 < xs.length → vals.getD i 0 = ys.getD i 0 ∧ derivs.getD i 0 = α * (dx / dx0) := by
  obtain ⟨a, hlog⟩ := powerLaw_log hA hg hp
  obtain ⟨k', out, h1, h2, h3⟩ := C66_convolve 4 window hodd hw _ (lin_deg (Real.log A + α * a) α) 0 dx xs.length hN .extension
  rw [hk] at h1; cases h1
  obtain ⟨kd', g1, g2, g3, g4⟩ := C66_first_derivative dx0 hdx0 4 window (by omega) hodd hw
  rw [hkd] at g1; cases g1
  obtain ⟨dout, d1, d2⟩ := C52_interior kd (by omega) (ys.map Real.log) (by rw [List.length_map, hp.1]; omega) .extension (by simp)
  have d3 := (C52_convolve kd (by omega) (ys.map Real.log) (by rw [List.length_map, hp.1]; omega) .extension (Or.inl rfl)).choose_spec
  refine ⟨out.map Real.exp, dout, ?_, fun i hi hi' => ⟨?_, ?_⟩⟩
  · unfold smooth
    rw [if_neg (by rw [hp.1]; simp), if_neg (by omega)]
    simp only [log_step hg (by omega), hget, d1]
    rw [hlog, h2]
    simp only
    rw [← hlog, exp_log_map ys (powerLaw_pos hA hg hp)]
  · have hlen : out.length = xs.length := by
      obtain ⟨o, e1, e2, -⟩ := C52_convolve k (by have := C66_savgol (K := ℝ) 4 window; rw [if_pos ⟨hodd, hw⟩] at this; obtain ⟨k', f1, f2, f3, -⟩ := this; rw [hk] at f1; cases f1; omega)
        ((List.range xs.length).map fun (i : Nat) => (C (Real.log A + α * a) + C α * X : ℝ[X]).eval (0 + i * dx))
        (by have := C66_savgol (K := ℝ) 4 window; rw [if_pos ⟨hodd, hw⟩] at this; obtain ⟨k', f1, f2, f3, -⟩ := this; rw [hk] at f1; cases f1; simp; omega) .extension (Or.inl rfl)
      rw [h2] at e1; cases e1
      simpa using e2
    have hiN : i < xs.length := by omega
    have hiy : i < ys.length := by rw [hp.1]; exact hiN
    rw [List.getD_eq_getElem _ _ (by rw [List.length_map, hlen]; exact hiN), List.getElem_map, ← List.getD_eq_getElem _ 0, h3 i hiN hi hi']
    have : (ys.map Real.log).getD i 0 = (C (Real.log A + α * a) + C α * X : ℝ[X]).eval (0 + i * dx) := by
      rw [hlog, getD_map_range _ _ _ hiN]
    rw [← this, List.getD_eq_getElem _ _ (by simpa using hiy), List.getElem_map, List.getD_eq_getElem _ _ hiy]
    exact Real.exp_log (powerLaw_pos hA hg hp _ (List.getElem_mem _))
  · have hiN : i < xs.length := by omega
    rw [d2 i (by rw [List.length_map, hp.1]; exact hiN) (by omega) (by rw [List.length_map, hp.1]; omega)]
    -- the same polynomial on the grid with spacing dx0
    have h4 := g4 (C (Real.log A + α * a + α * i * dx) + C (α * (dx / dx0)) * X) (lin_deg _ _) 0
    have h5 : (derivative (C (Real.log A + α * a + α * i * dx) + C (α * (dx / dx0)) * X : ℝ[X])).eval 0 = α * (dx / dx0) := by simp
    rw [h5] at h4
    rw [← h4, g3]
    refine Finset.sum_congr rfl fun j hj => ?_
    rw [Finset.mem_range] at hj
    congr 1
    rw [hlog, getD_map_range _ _ _ (by omega), g2, Nat.cast_sub (by omega)]
    simp only [eval_add, eval_mul, eval_C, eval_X]
    push_cast
    field_simp
    ring

/-- C67: the first time a window is used, smoothing a power law gives its values and its slope at all points whose window is inside of the profile, and `ys` is unchanged afterwards.
(Windows are odd and larger than 4, and the profile is longer.) -/
theorem C67_power_law (cache : Cache ℝ) (xs ys : List ℝ) (window : Nat) (dx A α : ℝ) (hdx : dx ≠ 0) (hodd : window % 2 = 1) (hw : 4 < window) (hN : window < xs.length) (hA : 0 < A)
    (hg : LogGrid xs dx) (hp : PowerLaw xs ys A α) (hfresh : cache.lookup window = none) :
    ∃ vals derivs cache', smooth cache xs ys window = .ok vals derivs ys cache' ∧
      ∀ i, window / 2 ≤ i → i + window / 2 < xs.length → vals.getD i 0 = ys.getD i 0 ∧ derivs.getD i 0 = α := by
  have hk := C66_savgol (K := ℝ) 4 window
  rw [if_pos ⟨hodd, hw⟩] at hk
  obtain ⟨k, hk, -⟩ := hk
  obtain ⟨kd, hkd, -⟩ := C66_first_derivative dx hdx 4 window (by omega) hodd hw
  obtain ⟨vals, derivs, h1, h2⟩ := smooth_with cache ((window, k, kd) :: cache) xs ys window dx dx A α hdx hodd hw hN hA hg hp k kd hk hkd (by
    unfold getSmoothingKernel
    rw [hfresh]
    simp only [hk, hkd, Option.bind_eq_bind, Option.bind_some])
  refine ⟨vals, derivs, _, h1, fun i hi hi' => ?_⟩
  have := h2 i hi hi'
  rwa [div_self hdx, mul_one] at this

/-- C67 is false for later calls: after a call with the spacing `dx0`, the slope of a power law on a grid with the spacing `dx` is too large by the factor `dx / dx0`, because the stored kernel is used. -/
theorem C67_history_false (cache : Cache ℝ) (xs0 ys0 xs ys : List ℝ) (window : Nat) (dx0 A0 α0 dx A α : ℝ) (hdx0 : dx0 ≠ 0) (hodd : window % 2 = 1) (hw : 4 < window)
    (hN0 : window < xs0.length) (hN : window < xs.length) (hA0 : 0 < A0) (hA : 0 < A)
    (hg0 : LogGrid xs0 dx0) (hp0 : PowerLaw xs0 ys0 A0 α0) (hg : LogGrid xs dx) (hp : PowerLaw xs ys A α) (hfresh : cache.lookup window = none) :
    ∃ vals0 derivs0 cache0 vals derivs cache', smooth cache xs0 ys0 window = .ok vals0 derivs0 ys0 cache0 ∧ smooth cache0 xs ys window = .ok vals derivs ys cache' ∧
      ∀ i, window / 2 ≤ i → i + window / 2 < xs.length → derivs.getD i 0 = α * (dx / dx0) := by
  have hk := C66_savgol (K := ℝ) 4 window
  rw [if_pos ⟨hodd, hw⟩] at hk
  obtain ⟨k, hk, -⟩ := hk
  obtain ⟨kd, hkd, -⟩ := C66_first_derivative dx0 hdx0 4 window (by omega) hodd hw
  obtain ⟨vals0, derivs0, h1, -⟩ := smooth_with cache ((window, k, kd) :: cache) xs0 ys0 window dx0 dx0 A0 α0 hdx0 hodd hw hN0 hA0 hg0 hp0 k kd hk hkd (by
    unfold getSmoothingKernel
    rw [hfresh]
    simp only [hk, hkd, Option.bind_eq_bind, Option.bind_some])
  obtain ⟨vals, derivs, h3, h4⟩ := smooth_with ((window, k, kd) :: cache) ((window, k, kd) :: cache) xs ys window dx0 dx A α hdx0 hodd hw hN hA hg hp k kd hk hkd (by
    unfold getSmoothingKernel
    simp)
  exact ⟨vals0, derivs0, _, vals, derivs, _, h1, h3, fun i hi hi' => (h4 i hi hi').2⟩

/-- Non-vacuity of `C67_power_law` and `C67_history_false`: grids of ten radii with the spacings 1 and 2, and the slope -3. -/
example : LogGrid ((List.range 10).map fun (i : Nat) => Real.exp (0 + i * 2)) 2 ∧
    PowerLaw ((List.range 10).map fun (i : Nat) => Real.exp (0 + i * 2)) ((List.range 10).map fun (i : Nat) => 5 * Real.exp (0 + i * 2) ^ (-3 : ℝ)) 5 (-3) ∧ ([] : Cache ℝ).lookup 5 = none := by
  refine ⟨⟨0, fun i hi => ?_⟩, ⟨by simp, fun i hi => ?_⟩, rfl⟩
  · rw [getD_map_range _ _ _ (by simpa using hi)]
  · rw [getD_map_range _ _ _ (by simpa using hi), getD_map_range _ _ _ (by simpa using hi)]

/-- C67: a profile that is not longer than the window is reported by `ok = false`, and stored kernels do not matter for that; profiles with different numbers of radii and densities are a panic. -/
theorem C67_short (cache : Cache ℝ) (xs ys : List ℝ) (window : Nat) :
    (xs.length ≠ ys.length → smooth cache xs ys window = .panic) ∧ (xs.length = ys.length → (smooth cache xs ys window = .notOk ↔ xs.length ≤ window)) := by
  constructor
  · intro h
    unfold smooth
    rw [if_pos h]
  · intro h
    unfold smooth
    rw [if_neg (by simpa using h)]
    constructor
    · intro hs
      by_contra hc
      rw [if_neg hc] at hs
      dsimp only at hs
      split at hs
      · cases hs
      · split at hs <;> cases hs
    · intro hs
      rw [if_pos hs]

example : smooth [] [1, 2, 3, 4, 5] [5, 4, 3, 2, 1] 5 = .notOk := ((C67_short [] [1, 2, 3, 4, 5] [5, 4, 3, 2, 1] 5).2 (by simp)).2 (by simp)

/-- C67: the history does not matter for calls with different windows: another window is not affected. -/
theorem C67_other_window (cache : Cache ℝ) (w w' : Nat) (hne : w ≠ w') (dx dx' : ℝ) (ks : Kernel ℝ × Kernel ℝ) (cache' : Cache ℝ) (h : getSmoothingKernel cache w dx = some (ks, cache')) :
    (getSmoothingKernel cache' w' dx').map Prod.fst = (getSmoothingKernel cache w' dx').map Prod.fst := by
  have : cache'.lookup w' = cache.lookup w' := by
    unfold getSmoothingKernel at h
    split at h
    · cases h; rfl
    · simp only [Option.bind_eq_bind, Option.bind_eq_some_iff] at h
      obtain ⟨k, -, kd, -, h⟩ := h
      cases h
      rw [List.lookup_cons]
      have : (w' == w) = false := by simpa using Ne.symm hne
      rw [this]
  unfold getSmoothingKernel
  rw [this]
  split
  · rfl
  · simp only [Option.bind_eq_bind]
    cases (newSavGolKernel 4 w' : Option (Kernel ℝ)) with
    | none => rfl
    | some k => cases (newSavGolDerivKernel dx' 1 4 w' : Option (Kernel ℝ)) with
      | none => rfl
      | some kd => rfl

/-! ## C43 -/

variable {K : Type} [Field K] [LinearOrder K]

/-- A point that can be the splashback radius: inside of the profile, with a density below all densities further in, and a slope that is smaller than those of both neighbours and below the limit. -/
def Candidate (rs rhos derivs : List K) (dLim : K) (i : Nat) : Prop :=
  1 ≤ i ∧ i + 1 < rs.length ∧ (∀ j < i, rhos.getD i 0 < rhos.getD j 0) ∧ derivs.getD i 0 < derivs.getD (i - 1) 0 ∧ derivs.getD i 0 < derivs.getD (i + 1) 0 ∧ derivs.getD i 0 < dLim

theorem isMinimum_eq (xs : List K) (i : Nat) (h0 : 1 ≤ i) (h : i + 1 < xs.length) : isMinimum xs i = some (decide (xs.getD i 0 < xs.getD (i + 1) 0 ∧ xs.getD i 0 < xs.getD (i - 1) 0)) := by
  unfold isMinimum
  rw [List.getElem?_eq_getElem (by omega), List.getElem?_eq_getElem h, getI_eq xs _ (by omega) (by omega)]
  simp only [Option.bind_eq_bind, Option.bind_some]
  rw [List.getD_eq_getElem xs 0 (show i < xs.length by omega), List.getD_eq_getElem xs 0 h, show ((i : Int) - 1).toNat = i - 1 by omega]
  by_cases hc : xs[i] < xs[i + 1]
  · rw [if_pos hc]; simp [hc]
  · rw [if_neg hc]; simp [hc]

/-- The slope and the index are those of the first of the steepest candidates up to `m`. -/
def Best (rs rhos derivs : List K) (dLim : K) (m : Nat) (dmin : K) : Option Nat → Prop
  | none => dmin = dLim ∧ ∀ i ≤ m, ¬ Candidate rs rhos derivs dLim i
  | some i => i ≤ m ∧ Candidate rs rhos derivs dLim i ∧ dmin = derivs.getD i 0 ∧ (∀ j ≤ m, Candidate rs rhos derivs dLim j → derivs.getD i 0 ≤ derivs.getD j 0) ∧
        ∀ j < i, Candidate rs rhos derivs dLim j → derivs.getD i 0 < derivs.getD j 0

/-- The state after the points `1, ..., m`. -/
structure SplashInv (rs rhos derivs : List K) (dLim : K) (m : Nat) (st : K × K × Option Nat) : Prop where
  low : ∀ j ≤ m, st.1 ≤ rhos.getD j 0
  mem : ∃ j ≤ m, st.1 = rhos.getD j 0
  best : Best rs rhos derivs dLim m st.2.1 st.2.2

theorem splash_step {rs rhos derivs : List K} {dLim : K} {m : Nat} {st : K × K × Option Nat} (hl : rs.length ≤ rhos.length) (hd : rhos.length = derivs.length) (hm : m + 2 < rs.length)
    (h : SplashInv rs rhos derivs dLim m st) : ∃ st', splashStep rhos derivs st (m + 1) = some st' ∧ SplashInv rs rhos derivs dLim (m + 1) st' := by
  obtain ⟨rmin, dmin, imin⟩ := st
  obtain ⟨h1, h2, h3⟩ := h
  unfold splashStep
  rw [List.getElem?_eq_getElem (by omega), isMinimum_eq derivs (m + 1) (by omega) (by omega), List.getElem?_eq_getElem (show m + 1 < derivs.length by omega)]
  simp only [Option.bind_eq_bind, Option.bind_some]
  rw [← List.getD_eq_getElem rhos 0, ← List.getD_eq_getElem derivs 0]
  simp only at h1 h2 h3
  have hcand : Candidate rs rhos derivs dLim (m + 1) ↔ rhos.getD (m + 1) 0 < rmin ∧ (derivs.getD (m + 1) 0 < derivs.getD (m + 1 + 1) 0 ∧ derivs.getD (m + 1) 0 < derivs.getD (m + 1 - 1) 0) ∧ derivs.getD (m + 1) 0 < dLim := by
    constructor
    · rintro ⟨-, -, c3, c4, c5, c6⟩
      obtain ⟨j, hj, e⟩ := h2
      exact ⟨by rw [e]; exact c3 j (by omega), ⟨c5, c4⟩, c6⟩
    · rintro ⟨c1, ⟨c2, c3⟩, c4⟩
      exact ⟨by omega, by omega, fun j hj => lt_of_lt_of_le c1 (h1 j (by omega)), c3, c2, c4⟩
  have hlow : ∀ r, r ≤ rmin → r ≤ rhos.getD (m + 1) 0 → ∀ j ≤ m + 1, r ≤ rhos.getD j 0 := fun r hr hr' j hj => by
    rcases Nat.lt_or_eq_of_le hj with hj | hj
    · exact le_trans hr (h1 j (by omega))
    · rw [hj]; exact hr'
  have hold : ¬ Candidate rs rhos derivs dLim (m + 1) ∨ (∃ i, imin = some i ∧ derivs.getD i 0 ≤ derivs.getD (m + 1) 0) →
      Best rs rhos derivs dLim (m + 1) dmin imin := by
    intro hno
    cases imin with
    | none =>
      refine ⟨h3.1, fun i hi => ?_⟩
      rcases Nat.lt_or_eq_of_le hi with hi | hi
      · exact h3.2 i (by omega)
      · rcases hno with hno | ⟨i, hi', -⟩
        · rw [hi]; exact hno
        · simp at hi'
    | some i =>
      obtain ⟨a1, a2, a3, a4, a5⟩ := h3
      refine ⟨by omega, a2, a3, fun j hj hc => ?_, a5⟩
      rcases Nat.lt_or_eq_of_le hj with hj | hj
      · exact a4 j (by omega) hc
      · subst hj
        rcases hno with hno | ⟨i', hi', hle⟩
        · exact absurd hc hno
        · cases hi'; exact hle
  by_cases hr : rhos.getD (m + 1) 0 < rmin
  · rw [if_pos hr]
    by_cases hmn : derivs.getD (m + 1) 0 < derivs.getD (m + 1 + 1) 0 ∧ derivs.getD (m + 1) 0 < derivs.getD (m + 1 - 1) 0
    · rw [decide_eq_true hmn]
      simp only [if_true]
      refine ⟨_, rfl, ?_⟩
      by_cases hdd : derivs.getD (m + 1) 0 < dmin
      · rw [if_pos hdd]
        refine ⟨hlow _ hr.le (le_refl _), ⟨m + 1, le_refl _, rfl⟩, ?_⟩
        have hlim : derivs.getD (m + 1) 0 < dLim := by
          cases imin with
          | none => rw [← h3.1]; exact hdd
          | some i =>
            obtain ⟨a1, a2, a3, a4, a5⟩ := h3
            rw [a3] at hdd
            exact lt_trans hdd a2.2.2.2.2.2
        have hsm : ∀ j < m + 1, Candidate rs rhos derivs dLim j → derivs.getD (m + 1) 0 < derivs.getD j 0 := fun j hj hc => by
          cases imin with
          | none => exact absurd hc (h3.2 j (by omega))
          | some i =>
            obtain ⟨a1, a2, a3, a4, a5⟩ := h3
            rw [a3] at hdd
            exact lt_of_lt_of_le hdd (a4 j (by omega) hc)
        refine ⟨le_refl _, hcand.mpr ⟨hr, hmn, hlim⟩, rfl, fun j hj hc => ?_, hsm⟩
        rcases Nat.lt_or_eq_of_le hj with hj | hj
        · exact (hsm j hj hc).le
        · rw [hj]
      · rw [if_neg hdd]
        refine ⟨hlow _ hr.le (le_refl _), ⟨m + 1, le_refl _, rfl⟩, hold ?_⟩
        cases imin with
        | none => left; rw [hcand]; rw [h3.1] at hdd; exact fun hc => hdd hc.2.2
        | some i => right; exact ⟨i, rfl, by rw [← h3.2.2.1]; exact not_lt.mp hdd⟩
    · rw [decide_eq_false hmn]
      simp only [Bool.false_eq_true, if_false]
      exact ⟨_, rfl, hlow _ hr.le (le_refl _), ⟨m + 1, le_refl _, rfl⟩, hold (Or.inl fun hc => hmn (hcand.mp hc).2.1)⟩
  · rw [if_neg hr]
    obtain ⟨j, hj, e⟩ := h2
    exact ⟨_, rfl, hlow _ (le_refl _) (not_lt.mp hr), ⟨j, by omega, e⟩, hold (Or.inl fun hc => hr (hcand.mp hc).1)⟩

/-- C43: for every profile (densities and slopes of the same length, at least as long as the radii) and every limit: the radius that is reported is that of the first of the steepest
candidates, and a failure is reported if and only if there is no candidate. -/
theorem C43_splashback (rs rhos derivs : List K) (dLim : K) (hl : rs.length ≤ rhos.length) (hd : rhos.length = derivs.length) :
    (splashbackRadius rs rhos derivs dLim = some none ∧ ∀ i, ¬ Candidate rs rhos derivs dLim i) ∨
    ∃ i, splashbackRadius rs rhos derivs dLim = some (some (rs.getD i 0)) ∧ Candidate rs rhos derivs dLim i ∧
      (∀ j, Candidate rs rhos derivs dLim j → derivs.getD i 0 ≤ derivs.getD j 0) ∧ ∀ j < i, Candidate rs rhos derivs dLim j → derivs.getD i 0 < derivs.getD j 0 := by
  unfold splashbackRadius
  rw [if_neg (by simpa using hd)]
  cases hr : rhos with
  | nil =>
    left
    refine ⟨rfl, fun i hc => ?_⟩
    subst hr
    have := hc.2.1
    simp at hl
    rw [hl] at this
    simp at this
  | cons rho0 tl =>
    rw [← hr]
    have hhead : rhos.head? = some rho0 := by rw [hr]; rfl
    rw [hhead]
    have key : ∀ m, m + 2 ≤ rs.length ∨ m = 0 → ∃ st, (List.range m).foldlM (fun st t => splashStep rhos derivs st (t + 1)) (rho0, dLim, none) = some st ∧ SplashInv rs rhos derivs dLim m st := by
      intro m
      induction m with
      | zero =>
        intro _
        refine ⟨_, rfl, ?_, ⟨0, le_refl _, by rw [hr]; rfl⟩, rfl, fun i hi hc => ?_⟩
        · intro j hj; rw [Nat.le_zero.mp hj, hr]; exact le_refl _
        · have := hc.1; omega
      | succ m ih =>
        intro hm
        obtain ⟨st, h1, h2⟩ := ih (by omega)
        obtain ⟨st', h3, h4⟩ := splash_step hl hd (by omega) h2
        refine ⟨st', ?_, h4⟩
        rw [List.range_succ, List.foldlM_append, h1]
        simp only [Option.bind_eq_bind, Option.bind_some, List.foldlM_cons, List.foldlM_nil, h3, Option.pure_def]
    obtain ⟨st, h1, h2⟩ := key (rs.length - 2) (by omega)
    simp only [h1, Option.bind_eq_bind, Option.bind_some]
    have hb := h2.best
    have hall : ∀ i, Candidate rs rhos derivs dLim i → i ≤ rs.length - 2 := fun i hc => by have := hc.2.1; omega
    match hst : st.2.2 with
    | none =>
      rw [hst] at hb
      left
      exact ⟨rfl, fun i hc => hb.2 i (hall i hc) hc⟩
    | some i =>
      rw [hst] at hb
      right
      obtain ⟨a1, a2, a3, a4, a5⟩ := hb
      refine ⟨i, ?_, a2, fun j hc => a4 j (hall j hc) hc, a5⟩
      have : i < rs.length := by have := a2.2.1; omega
      show (rs[i]?).map some = _
      rw [List.getElem?_eq_getElem this, List.getD_eq_getElem _ _ this]; rfl

/-- Non-vacuity of `C43_splashback`: a profile with two candidates; the steeper one is reported. -/
example : splashbackRadius [(1 : ℚ), 2, 3, 4, 5, 6] [10, 8, 6, 4, 2, 1] [-1, -6, -2, -7, -3, -1] (-5) = some (some 4) := by
  have h : List.range 4 = [0, 1, 2, 3] := by decide
  norm_num [splashbackRadius, splashStep, isMinimum, getI, h, toNat_lits]

/-- C43: densities and slopes of different lengths are a panic. -/
theorem C43_lengths (rs rhos derivs : List K) (dLim : K) (hd : rhos.length ≠ derivs.length) : splashbackRadius rs rhos derivs dLim = none := by
  unfold splashbackRadius
  rw [if_pos hd]

end Shellfish.Smooth
