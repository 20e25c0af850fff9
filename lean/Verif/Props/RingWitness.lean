/-
A halo with a candidate: the hypotheses of C77 are met.
-/
import Verif.Props.RingBuf
import Verif.Props.SmoothProf

namespace Shellfish.Kde
open Shellfish.Smooth
open Shellfish.Los (Halo)
open Shellfish.Geom (Vec rotateVec)
open Polynomial

/-- The weights of the smoothing kernel with 5 points: the fit goes through all the points. -/
theorem delta5 (k : Kernel ℝ) (h : ∀ (q : ℝ[X]), q.natDegree ≤ 4 → ∀ x h : ℝ, ∑ j ∈ Finset.range 5, k.cs.getD j 0 * q.eval (x + ((j : ℝ) - (5 / 2 : Nat)) * h) = q.eval x) :
    k.cs.getD 0 0 = 0 ∧ k.cs.getD 1 0 = 0 ∧ k.cs.getD 2 0 = 1 ∧ k.cs.getD 3 0 = 0 ∧ k.cs.getD 4 0 = 0 := by
  have e : ∀ p ≤ 4, ∑ j ∈ Finset.range 5, k.cs.getD j 0 * ((j : ℝ) - 2) ^ p = (0 : ℝ) ^ p := by
    intro p hp
    have := h (X ^ p) (by simpa using hp) 0 1
    simpa using this
  have e0 := e 0 (by omega)
  have e1 := e 1 (by omega)
  have e2 := e 2 (by omega)
  have e3 := e 3 (by omega)
  have e4 := e 4 (by omega)
  norm_num [Finset.sum_range_succ, -List.getD_eq_getElem?_getD] at e0 e1 e2 e3 e4
  refine ⟨?_, ?_, ?_, ?_, ?_⟩ <;> linarith

/-- The weights of the derivative kernel with 5 points. -/
theorem deriv5 (k : Kernel ℝ) (h : ∀ (q : ℝ[X]), q.natDegree ≤ 4 → ∀ x : ℝ, ∑ j ∈ Finset.range 5, k.cs.getD j 0 * q.eval (x + ((j : ℝ) - (5 / 2 : Nat)) * 1) = q.derivative.eval x) :
    k.cs.getD 0 0 = 1 / 12 ∧ k.cs.getD 1 0 = -(2 / 3) ∧ k.cs.getD 2 0 = 0 ∧ k.cs.getD 3 0 = 2 / 3 ∧ k.cs.getD 4 0 = -(1 / 12) := by
  have e : ∀ p ≤ 4, ∑ j ∈ Finset.range 5, k.cs.getD j 0 * ((j : ℝ) - 2) ^ p = if p = 1 then 1 else 0 := by
    intro p hp
    have := h (X ^ p) (by simpa using hp) 0
    have hd : (derivative (X ^ p : ℝ[X])).eval 0 = if p = 1 then 1 else 0 := by
      rcases (show p = 0 ∨ p = 1 ∨ p = 2 ∨ p = 3 ∨ p = 4 by omega) with rfl | rfl | rfl | rfl | rfl <;> simp
    rw [hd] at this
    simpa using this
  have e0 := e 0 (by omega)
  have e1 := e 1 (by omega)
  have e2 := e 2 (by omega)
  have e3 := e 3 (by omega)
  have e4 := e 4 (by omega)
  norm_num [Finset.sum_range_succ, -List.getD_eq_getElem?_getD] at e0 e1 e2 e3 e4
  refine ⟨?_, ?_, ?_, ?_, ?_⟩ <;> linarith

/-- A halo with one ring and one line of sight, 8 bins between the radii 1 and `exp 8`, and a steep drop in the middle. -/
noncomputable def steep : Halo :=
  { Halo.init [⟨0, 0, 1⟩] ⟨0, 0, 0⟩ 1 (Real.exp 8) 8 1 0 with profs := [⟨[Real.exp 0, Real.exp (-1) - Real.exp 0, Real.exp (-2) - Real.exp (-1), Real.exp (-12) - Real.exp (-2), Real.exp (-22) - Real.exp (-12), Real.exp (-23) - Real.exp (-22), Real.exp (-24) - Real.exp (-23), Real.exp (-25) - Real.exp (-24)], 8, 1, 0, 8, 1⟩] }

theorem steep_lines : HasLines steep 0 1 :=
  have h := init_lines [⟨0, 0, 1⟩] ⟨0, 0, 0⟩ 1 (Real.exp 8) 8 1 0 0 (by simp)
  ⟨h.phis, h.range, h.rot⟩

theorem steep_rhos : steep.getRhos 0 0 (List.replicate 8 0) = some [Real.exp 0, Real.exp (-1), Real.exp (-2), Real.exp (-12), Real.exp (-22), Real.exp (-23), Real.exp (-24), Real.exp (-25)] := by
  have e : ∀ x, ¬ Real.exp x < 0 := fun x => not_lt.2 (Real.exp_pos x).le
  simp [Halo.getRhos, steep, Halo.init, Los.retrieve, Los.retrieveLoop, List.replicate, e, -Real.exp_zero]

theorem steep_rs : getRs steep 8 = some ((List.range 8).map fun i : Nat => Real.exp ((i : ℝ) + 0.5)) := by
  simp [getRs, steep, Halo.init]

theorem steep_candidate : ∃ R, radiusOf [] steep 0 5 8 (-5) ((List.range 8).map fun i : Nat => Real.exp ((i : ℝ) + 0.5)) 0 = some (some R) := by
  unfold radiusOf
  rw [steep_rhos, Option.bind_some]
  have h1 := C66_savgol (K := ℝ) 4 5
  rw [if_pos ⟨by decide, by decide⟩] at h1
  obtain ⟨k, hk1, hk2, hk3, hk4⟩ := h1
  obtain ⟨d, hd1, hd2, hd3, hd4⟩ := C66_first_derivative (1 : ℝ) one_ne_zero 4 5 (by omega) (by decide) (by decide)
  obtain ⟨a0, a1, a2, a3, a4⟩ := delta5 k hk4
  obtain ⟨b0, b1, b2, b3, b4⟩ := deriv5 d hd4
  have hdx : Real.log (((List.range 8).map fun i : Nat => Real.exp ((i : ℝ) + 0.5)).getD 1 0) - Real.log (((List.range 8).map fun i : Nat => Real.exp ((i : ℝ) + 0.5)).getD 0 0) = 1 := by
    norm_num [List.range_succ]
  have hget : getSmoothingKernel ([] : Cache ℝ) 5 1 = some ((k, d), [(5, k, d)]) := by
    unfold getSmoothingKernel
    rw [List.lookup_nil, hk1, hd1]; rfl
  have hl : ([Real.exp 0, Real.exp (-1), Real.exp (-2), Real.exp (-12), Real.exp (-22), Real.exp (-23), Real.exp (-24), Real.exp (-25)] : List ℝ).map Real.log = [0, -1, -2, -12, -22, -23, -24, -25] := by
    simp
  obtain ⟨vals, hv1, hv2, hv3⟩ := C52_convolve k (by omega) ([0, -1, -2, -12, -22, -23, -24, -25] : List ℝ) (by rw [hk3]; simp) .extension (Or.inl rfl)
  obtain ⟨ders, hw1, hw2, hw3⟩ := C52_convolve d (by omega) ([0, -1, -2, -12, -22, -23, -24, -25] : List ℝ) (by rw [hd3]; simp) .extension (Or.inl rfl)
  have hsm : smooth [] ((List.range 8).map fun i : Nat => Real.exp ((i : ℝ) + 0.5)) [Real.exp 0, Real.exp (-1), Real.exp (-2), Real.exp (-12), Real.exp (-22), Real.exp (-23), Real.exp (-24), Real.exp (-25)] 5 =
      .ok (vals.map Real.exp) ders (([0, -1, -2, -12, -22, -23, -24, -25] : List ℝ).map Real.exp) [(5, k, d)] := by
    unfold smooth
    rw [if_neg (by simp), if_neg (by simp)]
    dsimp only
    rw [hdx, hget, hl]
    dsimp only
    rw [hv1, hw1]
  rw [hsm]
  dsimp only
  have hlen : vals.length = 8 := hv2
  have hlen2 : ders.length = 8 := hw2
  rcases C43_splashback ((List.range 8).map fun i : Nat => Real.exp ((i : ℝ) + 0.5)) (vals.map Real.exp) ders (-5) (by simp [hlen]) (by simp [hlen, hlen2]) with ⟨_, hno⟩ | ⟨i, hi, _⟩
  · exfalso
    rw [hk2, hk3] at hv3
    rw [hd2, hd3] at hw3
    refine hno 3 ⟨by omega, by simp, ?_, ?_, ?_, ?_⟩
    · have v : ∀ i < 8, (vals.map Real.exp).getD i 0 = Real.exp (([0, -1, -2, -12, -22, -23, -24, -25] : List ℝ).getD i 0) := by
        intro i hi
        rw [List.getD_eq_getElem _ _ (by simpa [hlen] using hi), List.getElem_map, ← List.getD_eq_getElem _ 0, hv3 i (by simpa using hi)]
        simp only [Finset.sum_range_succ, Finset.sum_range_zero, a0, a1, a2, a3, a4]
        interval_cases i <;> norm_num [extended, specIndex, toNat_lits, show Int.toNat 5 = 5 from rfl, show Int.toNat 6 = 6 from rfl, show Int.toNat 7 = 7 from rfl, -List.getD_eq_getElem?_getD, List.getD_cons_succ, List.getD_cons_zero]
      intro j hj
      rw [v 3 (by omega), v j (by omega), Real.exp_lt_exp]
      interval_cases j <;> norm_num
    all_goals
      rw [hw3 _ (by simp)]
      try rw [hw3 _ (by simp)]
      simp only [Finset.sum_range_succ, Finset.sum_range_zero, b0, b1, b2, b3, b4]
      norm_num [extended, specIndex, toNat_lits, show Int.toNat 5 = 5 from rfl, show Int.toNat 6 = 6 from rfl, show Int.toNat 7 = 7 from rfl, -List.getD_eq_getElem?_getD, List.getD_cons_succ, List.getD_cons_zero]
  · exact ⟨_, hi⟩

/-- The buffer after `Splashback` of that halo. -/
theorem steep_run : ∃ r1 c1 R, (RingBuffer.init 1 8).splashback [] steep 0 5 (-5) = some (r1, c1) ∧ LineIs steep 0 r1 0 (some R) := by
  obtain ⟨R, hR⟩ := steep_candidate
  rcases C77_splashback (RingBuffer.init 1 8) [] steep 0 5 (-5) _ (init_sized 1 8) steep_lines steep_rs with ⟨_, i, hi, hnone⟩ | ⟨r1, c1, h1, _, _, _, h5⟩
  · have : i = 0 := by have : i < 1 := hi; omega
    subst this
    exact absurd (hnone.symm.trans hR) (by simp)
  · obtain ⟨res, hres, hl⟩ := h5 0 (show 0 < 1 by omega)
    have : res = some R := Option.some.inj (hres.symm.trans hR)
    subst this
    exact ⟨r1, c1, R, h1, hl⟩

/-- The hypotheses of `C77_splashback`, `C77_volume` and `C77_usable` are met by that halo. -/
example : ∃ r1 c1 R, (RingBuffer.init 1 8).splashback [] steep 0 5 (-5) = some (r1, c1) ∧ r1.planeXs.getD 0 0 ^ 2 + r1.planeYs.getD 0 0 ^ 2 = R ^ 2 ∧ RingUsable 1 r1 := by
  obtain ⟨r1, c1, R, h1, h2⟩ := steep_run
  obtain ⟨_, _, _, h3⟩ := C77_volume steep 0 r1 0 R h2
  exact ⟨r1, c1, R, h1, h3, C77_usable steep 0 5 (-5) [] c1 (RingBuffer.init 1 8) r1 1 (init_sized 1 8) steep_lines one_pos h1 ⟨0, show 0 < 1 by omega, h2.1⟩⟩

/-- The hypothesis of `C77_history` is met by buffers with the results of another halo. -/
example : ∃ r1 c1, (RingBuffer.init 1 8).splashback [] steep 0 5 (-5) = some (r1, c1) ∧ (∀ r ∈ [r1], r.Sized) ∧ r1 ≠ RingBuffer.init 1 8 := by
  obtain ⟨r1, c1, R, h1, h2⟩ := steep_run
  rcases C77_splashback (RingBuffer.init 1 8) [] steep 0 5 (-5) _ (init_sized 1 8) steep_lines steep_rs with ⟨hn, _⟩ | ⟨r2, c2, h3, h4, _⟩
  · rw [hn] at h1; cases h1
  · rw [h3] at h1
    have e : r2 = r1 := congrArg Prod.fst (Option.some.inj h1)
    subst e
    refine ⟨r2, c2, h3, by simpa using h4, fun he => ?_⟩
    have := h2.1
    rw [he] at this
    simp [RingBuffer.init] at this

end Shellfish.Kde
