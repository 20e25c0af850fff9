/- Lemmas about los/halo.go: which lines of sight on the far side of the halo are visited for a sphere. -/
import Verif.Lemmas.HaloPar

namespace Shellfish.Los
noncomputable section
open Real
open Shellfish.Geom (Vec Mat rotateVec eulerMatrixBetween atan2 dot zero)

/-- `sin` of an angle in the half circle around `π` is bounded by `sin a` only within `a` of `π` -/
theorem near_pi (del a : ℝ) (h1 : π / 2 ≤ del) (h2 : del ≤ 3 * π / 2) (ha : 0 ≤ a) (ha' : a ≤ π / 2) (hs : |sin del| ≤ sin a) : π - a ≤ del ∧ del ≤ π + a := by
  obtain ⟨s1, s2⟩ := abs_le.1 hs
  have e : sin del = sin (π - del) := (sin_pi_sub del).symm
  rw [e] at s1 s2
  have u : arcsin (sin (π - del)) ≤ arcsin (sin a) := monotone_arcsin s2
  have l : arcsin (-sin a) ≤ arcsin (sin (π - del)) := monotone_arcsin s1
  rw [arcsin_neg, arcsin_sin (show -(π / 2) ≤ a by linarith) ha', arcsin_sin (by linarith) (by linarith)] at l
  rw [arcsin_sin (by linarith) (by linarith), arcsin_sin (by linarith) ha'] at u
  constructor <;> linarith

/-- the visited lines of sight of the first three quarters of the circle are within one step of the extent -/
theorem visited_near (n : Nat) (hn : 0 < n) (P a : ℝ) (hP : -π < P) (hP' : P ≤ π) (ha : 0 ≤ a) (ha' : a ≤ π / 2) (i : Nat) (hq : 4 * i ≤ 3 * n)
    (hi : (i : Int) ∈ indices (idxRange n (stdPhi n) (P - a) (P + a)).1 (idxRange n (stdPhi n) (P - a) (P + a)).2.1 ++
      indices (idxRange n (stdPhi n) (P - a) (P + a)).2.2.1 (idxRange n (stdPhi n) (P - a) (P + a)).2.2.2) :
    ∃ k : ℤ, -(a + stdPhi n) < phiOf n i - P + 2 * π * k ∧ (phiOf n i - P + 2 * π * k < a + stdPhi n ∨ phiOf n i - P + 2 * π * k ≤ π / 2) := by
  have hd : 0 < stdPhi n := dPhi_pos n hn
  have hpi := pi_pos
  have hphi : phiOf n i = (i : ℝ) * stdPhi n := phiOf_eq n i
  have hm : (n : ℝ) * stdPhi n = 2 * π := dPhi_mul n hn
  have h3 : phiOf n i ≤ 3 * π / 2 := by
    rw [hphi]
    have : (4 : ℝ) * i ≤ 3 * n := by exact_mod_cast hq
    nlinarith
  have h0 : 0 ≤ phiOf n i := by rw [hphi]; positivity
  have hfl : ∀ x : ℝ, 0 ≤ x → goInt (x / stdPhi n) ≤ (i : Int) → x < phiOf n i + stdPhi n := by
    intro x hx h
    rw [goInt_nonneg _ (div_nonneg hx hd.le)] at h
    have h' : ⌊x / stdPhi n⌋ < (i : Int) + 1 := by omega
    rw [Int.floor_lt, div_lt_iff₀ hd] at h'
    rw [hphi]; push_cast at h'; linarith
  have hle : ∀ x : ℝ, 0 ≤ x → (i : Int) < goInt (x / stdPhi n) + 1 → phiOf n i ≤ x := by
    intro x hx h
    rw [goInt_nonneg _ (div_nonneg hx hd.le)] at h
    have h' : (i : Int) ≤ ⌊x / stdPhi n⌋ := by omega
    rw [Int.le_floor, le_div_iff₀ hd] at h'
    rw [hphi]; push_cast at h'; linarith
  rw [idxRange_cases n _ _ _ (by linarith)] at hi
  split_ifs at hi with hneg
  · simp only [List.mem_append, mem_indices] at hi
    rcases hi with ⟨h1, _⟩ | ⟨_, h2⟩
    · refine ⟨-1, ?_, Or.inr ?_⟩
      · have := hfl _ (by linarith) h1
        push_cast; linarith
      · push_cast; linarith
    · rcases le_or_gt 0 (P + a) with hh | hh
      · have := hle _ hh h2
        exact ⟨0, by push_cast; linarith, Or.inl (by push_cast; linarith)⟩
      · have hlt := div_neg_of_neg_of_pos hh hd
        rw [goInt_neg _ hlt] at h2
        have hc0 : ⌈(P + a) / stdPhi n⌉ ≤ 0 := by rw [Int.ceil_le]; simpa using hlt.le
        have hi0 : i = 0 := by omega
        subst hi0
        have hc : -1 < (P + a) / stdPhi n := by
          have : (-1 : Int) < ⌈(P + a) / stdPhi n⌉ := by push_cast at h2; omega
          rw [Int.lt_ceil] at this; simpa using this
        rw [lt_div_iff₀ hd] at hc
        have e : phiOf n 0 = 0 := by simp [phiOf]
        refine ⟨0, ?_, Or.inl ?_⟩ <;> rw [e] <;> push_cast <;> linarith
  · simp only [List.mem_append, mem_indices] at hi
    rcases hi with ⟨h1, h2⟩ | ⟨h1, h2⟩
    · have u := hfl _ (not_lt.1 hneg) h1
      have v := hle _ (by linarith) h2
      exact ⟨0, by push_cast; linarith, Or.inl (by push_cast; linarith)⟩
    · omega

/-- a visited line of sight on the far side (in the first three quarters of the circle) that the mirror image of the circle meets: the circle comes close to the center -/
theorem back_close (n : Nat) (hn : 3 ≤ n) (cx cy rad2 : ℝ) (hr : 0 ≤ rad2) (hd : 0 < cx * cx + cy * cy) (hout : rad2 ≤ cx * cx + cy * cy) (i : Nat) (hq : 4 * i ≤ 3 * n)
    (hdir : cx * cos (phiOf n i) + cy * sin (phiOf n i) < 0)
    (hb : (cy * cos (phiOf n i) - cx * sin (phiOf n i)) * (cy * cos (phiOf n i) - cx * sin (phiOf n i)) ≤ rad2)
    (hi : (i : Int) ∈ indices (idxRange n (stdPhi n) (atan2 cy cx - halfAngularWidth (cx * cx + cy * cy) rad2) (atan2 cy cx + halfAngularWidth (cx * cx + cy * cy) rad2)).1
        (idxRange n (stdPhi n) (atan2 cy cx - halfAngularWidth (cx * cx + cy * cy) rad2) (atan2 cy cx + halfAngularWidth (cx * cx + cy * cy) rad2)).2.1 ++
      indices (idxRange n (stdPhi n) (atan2 cy cx - halfAngularWidth (cx * cx + cy * cy) rad2) (atan2 cy cx + halfAngularWidth (cx * cx + cy * cy) rad2)).2.2.1
        (idxRange n (stdPhi n) (atan2 cy cx - halfAngularWidth (cx * cx + cy * cy) rad2) (atan2 cy cx + halfAngularWidth (cx * cx + cy * cy) rad2)).2.2.2) :
    cos (π / n) * sqrt (cx * cx + cy * cy) ≤ sqrt rad2 := by
  obtain ⟨a0, a1⟩ := halfWidth_range (cx * cx + cy * cy) rad2
  have hP : -π < atan2 cy cx := Complex.neg_pi_lt_arg ⟨cx, cy⟩
  have hP' : atan2 cy cx ≤ π := Complex.arg_le_pi ⟨cx, cy⟩
  obtain ⟨k, k1, k2⟩ := visited_near n (by omega) _ _ hP hP' a0 a1 i hq hi
  obtain ⟨ex, ey⟩ := polar cx cy
  have hs := sqrt_pos.mpr hd
  have hss : sqrt (cx * cx + cy * cy) * sqrt (cx * cx + cy * cy) = cx * cx + cy * cy := mul_self_sqrt hd.le
  have hq1 : sqrt (rad2 / (cx * cx + cy * cy)) ≤ 1 := by rw [sqrt_le_left (by norm_num), one_pow]; exact (div_le_one hd).2 hout
  have hsina : sin (halfAngularWidth (cx * cx + cy * cy) rad2) = sqrt rad2 / sqrt (cx * cx + cy * cy) := by
    unfold halfAngularWidth
    rw [sin_arcsin (by linarith [sqrt_nonneg (rad2 / (cx * cx + cy * cy))]) hq1, sqrt_div hr]
  generalize halfAngularWidth (cx * cx + cy * cy) rad2 = a at *
  clear hi
  generalize hD : cx * cx + cy * cy = D at *
  generalize atan2 cy cx = P at *
  generalize sqrt D = s at *
  generalize phiOf n i = phi at *
  have e1 : cx * cos phi + cy * sin phi = s * cos (phi - P + 2 * π * k) := by
    rw [show phi - P + 2 * π * k = phi - P + k * (2 * π) by ring, cos_add_int_mul_two_pi, cos_sub, ex, ey]; ring
  have e2 : cy * cos phi - cx * sin phi = -(s * sin (phi - P + 2 * π * k)) := by
    rw [show phi - P + 2 * π * k = phi - P + k * (2 * π) by ring, sin_add_int_mul_two_pi, sin_sub, ex, ey]; ring
  rw [e1] at hdir
  rw [e2] at hb
  generalize phi - P + 2 * π * k = del at *
  have hpi := pi_pos
  have hn' : (3 : ℝ) ≤ n := by exact_mod_cast hn
  have hstep : stdPhi n = 2 * (π / n) := by unfold stdPhi; ring
  have hpn : π / n ≤ π / 3 := by apply div_le_div_of_nonneg_left hpi.le (by norm_num) hn'
  have hpn0 : 0 < π / n := by positivity
  have hcos : cos del < 0 := by
    by_contra hc
    nlinarith [not_lt.1 hc]
  have hsin : |sin del| ≤ sin a := by
    rw [hsina, le_div_iff₀ hs]
    have : |sin del| * s = |s * sin del| := by rw [abs_mul, abs_of_pos hs]; ring
    rw [this]
    apply abs_le_sqrt
    nlinarith
  -- |del| is in (π/2, 3π/2)
  have key : π / 2 - π / n ≤ a := by
    rcases le_or_gt 0 del with h0 | h0
    · have g1 : π / 2 ≤ del := by
        by_contra hc
        exact absurd (cos_nonneg_of_mem_Icc ⟨by linarith, (not_le.1 hc).le⟩) (not_le.2 hcos)
      have g2 : del < a + stdPhi n := by
        rcases k2 with h | h
        · exact h
        · exfalso
          have : del = π / 2 := le_antisymm h g1
          rw [this, cos_pi_div_two] at hcos
          exact lt_irrefl _ hcos
      obtain ⟨g3, _⟩ := near_pi del a g1 (by rw [hstep] at g2; linarith) a0 a1 hsin
      rw [hstep] at g2; linarith
    · have g1 : π / 2 ≤ -del := by
        by_contra hc
        exact absurd (cos_nonneg_of_mem_Icc ⟨by linarith [not_le.1 hc], by linarith⟩) (not_le.2 hcos)
      obtain ⟨g3, _⟩ := near_pi (-del) a g1 (by rw [hstep] at k1; linarith) a0 a1 (by rw [sin_neg, abs_neg]; exact hsin)
      rw [hstep] at k1; linarith
  have : cos (π / n) ≤ sin a := by
    rw [← sin_pi_div_two_sub]
    exact sin_le_sin_of_le_of_le_pi_div_two (by linarith) a1 key
  rw [hsina, le_div_iff₀ hs] at this
  exact this

theorem overlap_below (start stop : WithBot ℝ) (c d : ℝ) (h : stop ≤ (c : WithBot ℝ)) : overlap start stop c d = 0 := by
  unfold overlap
  cases stop with
  | bot => cases start <;> rfl
  | coe e =>
    have h : e ≤ c := WithBot.coe_le_coe.1 h
    cases start with
    | bot => exact max_eq_left (by linarith [min_le_left e d])
    | coe s => exact max_eq_left (by linarith [min_le_left e d, le_max_right s c])

/-- the effect of a sphere on a line of sight of the first three quarters of the circle, if the profile starts outside of the spheres that come close to the center -/
theorem total_chords_low (rMin highR : ℝ) (h0 : 0 < rMin) (bins n : Nat) (hlt : log rMin < highR) (hn : 3 ≤ n) (c : Vec) (radius rho : ℝ) (hrad : 0 < radius)
    (hpos : 0 < projRad2 c radius) (hlow : radius * (1 + 1 / cos (π / n)) ≤ rMin) (i : Nat) (hi : i < n) (hq : 4 * i ≤ 3 * n) (ops : List (Op ℝ))
    (hops : chords (stdVecs n) n (stdPhi n) c radius rho = some ops) (j : Nat) :
    total (log rMin) highR bins ops i j = rho * planeCover (log rMin) highR bins n c radius i j := by
  by_cases hf : projDist2 c < projRad2 c radius ∨ 0 ≤ along n c i
  · exact total_chords _ _ _ _ (by omega) _ _ _ hpos i hi hf ops hops j
  · rw [not_or] at hf
    obtain ⟨hf1, hf2⟩ := hf
    have hout := not_lt.1 hf1
    have hback := not_le.1 hf2
    have hu := unit n i
    rw [planeCover_zero _ _ _ _ _ _ _ _ (fun r hr => behind_miss c.x c.y _ _ _ r hu hout hback hr), mul_zero]
    rw [chords_far n (by omega) c radius rho (not_lt.2 hout), Option.some.injEq] at hops
    subst hops
    unfold total
    apply List.sum_eq_zero
    intro x hx
    obtain ⟨o, ho, rfl⟩ := List.mem_map.1 hx
    obtain ⟨ho, hoi⟩ := List.mem_filter.1 ho
    obtain ⟨l, hl, hfo⟩ := List.mem_filterMap.1 ho
    obtain ⟨l', hl', rfl⟩ := List.mem_map.1 hl
    have hli := farOp_i _ _ _ _ _ _ hfo
    have hoi : o.i = i := by simpa using hoi
    rw [hoi] at hli
    have hval := farIndices_valid n (by omega) c radius l' hl'
    have hl'i : l' = (i : Int) := by omega
    rw [hl'i] at hl'
    rw [← hli] at hfo
    unfold contribution
    have hstop : o.stop ≤ ((log rMin + (highR - log rMin) / (bins : ℝ) * j : ℝ) : WithBot ℝ) := by
      unfold farOp at hfo
      obtain ⟨r, hr, rfl⟩ := Option.map_eq_some_iff.1 hfo
      have hb : impact n c i * impact n c i ≤ projRad2 c radius := by
        by_contra hc
        have := twoVal_none c.x c.y (projRad2 c radius) (cos (phiOf n i)) (sin (phiOf n i)) (not_le.1 hc)
        unfold impact projDist2 at hr
        rw [this] at hr; exact (nomatch hr)
      have hclose := back_close n hn c.x c.y (projRad2 c radius) hpos.le (lt_of_lt_of_le hpos hout) hout i hq hback hb hl'
      have hcos : 0 < cos (π / n) := by
        have hn' : (3 : ℝ) ≤ n := by exact_mod_cast hn
        have hpi := pi_pos
        have : π / n ≤ π / 3 := by apply div_le_div_of_nonneg_left hpi.le (by norm_num) hn'
        have : 0 < π / n := by positivity
        exact cos_pos_of_mem_Ioo ⟨by linarith, by linarith⟩
      have hr2 : r.2 ≤ sqrt (projDist2 c) + sqrt (projRad2 c radius) := by
        unfold twoValIntrDist at hr
        split_ifs at hr
        simp only [Option.some.injEq] at hr
        rw [← hr]
        have s1 := sqrt_le_sqrt (show projDist2 c - impact n c i * impact n c i ≤ projDist2 c by nlinarith [mul_self_nonneg (impact n c i)])
        have s2 := sqrt_le_sqrt (show projRad2 c radius - impact n c i * impact n c i ≤ projRad2 c radius by nlinarith [mul_self_nonneg (impact n c i)])
        simp only; linarith
      have hrr : sqrt (projRad2 c radius) ≤ radius := by
        rw [sqrt_le_left hrad.le]
        unfold projRad2
        split_ifs
        · positivity
        · nlinarith [mul_self_nonneg c.z]
      have hdd : sqrt (projDist2 c) ≤ radius * (1 / cos (π / n)) := by
        rw [mul_one_div, le_div_iff₀ hcos]
        have e : c.x * c.x + c.y * c.y = projDist2 c := rfl
        rw [e] at hclose
        linarith
      have hfin : r.2 ≤ rMin := by linarith
      have h1 : goLog r.2 ≤ ((log rMin : ℝ) : WithBot ℝ) := by rw [goLog_le_iff, exp_log h0]; exact hfin
      refine le_trans h1 (WithBot.coe_le_coe.2 ?_)
      have : 0 ≤ (highR - log rMin) / (bins : ℝ) * j := by
        have : 0 ≤ highR - log rMin := by linarith
        positivity
      linarith
    dsimp only
    rw [overlap_below _ _ _ _ hstop]; simp

end
end Shellfish.Los
