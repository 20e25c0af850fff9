/-
C47: masses, radii, names and units.
-/
import Verif.Model.Radius
import Mathlib.Tactic.FieldSimp
import Mathlib.Tactic.Ring
import Mathlib.Tactic.NormNum
import Mathlib.Tactic.Positivity
import Mathlib.Tactic.Linarith

namespace Shellfish.Radius

/-! Specification -/

/-- The critical density today in units of h² Msun / Mpc³ for `H0 = 100 h km/s/Mpc`: 3 (100 km/s/Mpc)² / (8 π G). -/
noncomputable def rhoCrit0 : ℝ := 3 * (100 * 1000 / mpcMks) ^ 2 / (8 * Real.pi * gMks) * mpcMks ^ 3 / mSunMks

/-- An acceptable cosmology at some redshift. -/
structure Cosmo.Ok (c : Cosmo) : Prop where
  h : 0 < c.h100
  z : -1 < c.z
  m : 0 < c.omegaM
  l : 0 ≤ c.omegaL

/-- The overdensity and the reference density of a radius definition: (Δ, relative to the mean density?). -/
def overdensity (name : String) : Option (ℝ × Bool) :=
  if name = "R200c" then some (200, false) else if name = "R200m" then some (200, true) else if name = "R500c" then some (500, false)
  else if name = "R2500c" then some (2500, false) else none

/-- The reference density in proper coordinates at the redshift of the cosmology of a flat universe: the mean matter density or the critical density. -/
noncomputable def refDensity (mean : Bool) (c : Cosmo) : ℝ :=
  if mean then rhoCrit0 * c.omegaM * (1 + c.z) ^ 3 else rhoCrit0 * (c.omegaM * (1 + c.z) ^ 3 + c.omegaL)

/-! Densities -/

theorem mpc_pos : 0 < mpcMks := by unfold mpcMks; norm_num
theorem g_pos : 0 < gMks := by unfold gMks; norm_num
theorem sun_pos : 0 < mSunMks := by unfold mSunMks; norm_num
theorem rhoCrit0_pos : 0 < rhoCrit0 := by
  have := mpc_pos; have := g_pos; have := sun_pos; have := Real.pi_pos
  unfold rhoCrit0
  positivity

/-- The critical density does not depend on the Hubble constant (units of h are divided out) and grows with redshift like the square of the expansion rate. -/
theorem rhoCritical_eq (h0 m l z : ℝ) (hh : h0 ≠ 0) (hpos : 0 ≤ m * (1 + z) ^ 3 + l) : rhoCritical h0 m l z = rhoCrit0 * (m * (1 + z) ^ 3 + l) := by
  have h1 := mpc_pos.ne'; have h2 := g_pos.ne'; have h3 := sun_pos.ne'; have h4 := Real.pi_pos.ne'
  unfold rhoCritical rhoCriticalMks rhoCrit0 hubbleFrac
  simp only []
  have hs := Real.mul_self_sqrt hpos
  set s := Real.sqrt (m * (1 + z) ^ 3 + l) with hsdef
  rw [← hs]
  field_simp

theorem Cosmo.Ok.zpos {c : Cosmo} (h : c.Ok) : 0 < 1 + c.z := by have := h.z; linarith
theorem Cosmo.Ok.e2 {c : Cosmo} (h : c.Ok) : 0 < c.omegaM * (1 + c.z) ^ 3 + c.omegaL := by
  have h1 := h.m; have h2 := h.zpos; have h3 := h.l
  positivity

/-- C47 (densities): `RhoCritical` is the critical density of a flat universe in units of h² Msun/Mpc³, and `RhoAverage` the mean matter density times ΩM + ΩL (one for a flat
universe). -/
theorem C47_densities (c : Cosmo) (h : c.Ok) :
    rhoCritical (c.h100 * 100) c.omegaM c.omegaL c.z = refDensity false c ∧
      rhoAverage (c.h100 * 100) c.omegaM c.omegaL c.z = refDensity true c * (c.omegaM + c.omegaL) := by
  have hh : c.h100 * 100 ≠ 0 := mul_ne_zero h.h.ne' (by norm_num)
  have hm := h.m; have hl := h.l
  refine ⟨?_, ?_⟩
  · rw [rhoCritical_eq _ _ _ _ hh h.e2.le]
    simp [refDensity]
  · unfold rhoAverage
    rw [rhoCritical_eq _ _ _ _ hh (by norm_num; linarith)]
    simp [refDensity]
    ring

/-- C47 (constants): the critical density of a flat universe today is 2.7752e11 h² Msun/Mpc³ to four digits, for every Hubble constant. -/
theorem C47_value (h0 m : ℝ) (hh : h0 ≠ 0) : 277510000000 < rhoCritical h0 m (1 - m) 0 ∧ rhoCritical h0 m (1 - m) 0 < 277530000000 := by
  rw [rhoCritical_eq h0 m (1 - m) 0 hh (by norm_num), show m * (1 + 0) ^ 3 + (1 - m) = (1 : ℝ) by ring, mul_one]
  have hp := Real.pi_pos
  have h1 := Real.pi_gt_d4
  have h2 := Real.pi_lt_d4
  unfold rhoCrit0 mpcMks gMks mSunMks
  have e : (3 * (100 * 1000 / (308560 * 10 ^ 17)) ^ 2 / (8 * Real.pi * (667259 / 10 ^ 16)) * (308560 * 10 ^ 17) ^ 3 / (198900 * 10 ^ 25) : ℝ) = (3 * 10 ^ 10 * (308560 * 10 ^ 17) / (8 * (667259 / 10 ^ 16) * (198900 * 10 ^ 25))) / Real.pi := by
    field_simp
    norm_num
  rw [e, lt_div_iff₀ hp, div_lt_iff₀ hp]
  constructor <;> norm_num <;> nlinarith

/-- C47: without flatness the mean matter density, and with it R200m and M200m, is off by the factor ΩM + ΩL. -/
theorem C47_open_false : ∃ c : Cosmo, c.Ok ∧ rhoAverage (c.h100 * 100) c.omegaM c.omegaL c.z ≠ refDensity true c := by
  refine ⟨⟨0, 1 / 2, 0, 1⟩, ⟨by norm_num, by norm_num, by norm_num, by norm_num⟩, ?_⟩
  rw [(C47_densities ⟨0, 1 / 2, 0, 1⟩ ⟨by norm_num, by norm_num, by norm_num, by norm_num⟩).2]
  have := rhoCrit0_pos
  simp only [refDensity, if_pos]
  intro he
  nlinarith

/-! Names -/

/-- C47 (names): the names of the four radii are read back as the radii, and every other string is refused. -/
theorem C47_names (r : Radius) (s : String) :
    (toStr r = some s ↔ radiusFromString s = (r, true)) ∧ ((radiusFromString s).2 = true ↔ s ∈ ["R200c", "R200m", "R500c", "R2500c"]) := by
  unfold toStr radiusFromString
  constructor
  · constructor
    · intro h
      split_ifs at h with h1 h2 h3 h4 <;> (cases h; subst_vars; rfl)
    · intro h
      split_ifs at h with h1 h2 h3 h4 <;> (injection h with h5 h6; subst_vars; first | rfl | cases h6)
  · split_ifs with h1 h2 h3 h4 <;> simp_all

/-- C47 (mass names): the mass of a radius definition is called M200m, M200c, M2500c; R500c is excluded, see `C47_mass_name_false`. -/
theorem C47_mass_name_partial (r : Radius) (s : String) (h : toStr r = some s) (h5 : s ≠ "R500c") : massString r = some ("M" ++ String.ofList (s.toList.drop 1)) := by
  unfold toStr at h
  unfold massString
  split_ifs at h with h1 h2 h3 h4 <;> cases h <;> subst_vars <;> first | rfl | exact absurd rfl h5

/-- C47 is false for the mass name of R500c, which is "R500c". -/
theorem C47_mass_name_false : toStr R500c = some "R500c" ∧ massString R500c = some "R500c" ∧ massString R500c ≠ some "M500c" := by decide

/-! Masses and radii -/

theorem rho_pos (r : Radius) (c : Cosmo) (h : c.Ok) (d : ℝ) (hd : rho r c = some d) : 0 < d := by
  have h1 := C47_densities c h
  have hm := h.m; have hl := h.l
  have hc : 0 < rhoCritical (c.h100 * 100) c.omegaM c.omegaL c.z := by
    rw [h1.1]
    have := rhoCrit0_pos; have := h.e2
    simp only [refDensity, Bool.false_eq_true, if_false]
    positivity
  have ha : 0 < rhoAverage (c.h100 * 100) c.omegaM c.omegaL c.z := by
    rw [h1.2]
    have := rhoCrit0_pos; have := h.zpos
    simp only [refDensity, if_pos]
    positivity
  unfold rho at hd
  split_ifs at hd <;> (cases hd; positivity)

theorem rho_named (r : Radius) (c : Cosmo) (s : String) (hs : toStr r = some s) : ∃ d, rho r c = some d := by
  unfold toStr at hs
  unfold rho
  split_ifs at hs with h1 h2 h3 h4 <;> subst_vars <;> exact ⟨_, rfl⟩

theorem mass_radius_one {d z m : ℝ} (hd : 0 < d) (hz : 0 < 1 + z) (hm : 0 ≤ m) : massOf d z (radiusOf d z m) = m := by
  unfold massOf radiusOf
  have hf : 0 < d * 4 * Real.pi / 3 := by have := Real.pi_pos; positivity
  simp only []
  have e : (m / (d * 4 * Real.pi / 3)) ^ ((1 : ℝ) / 3) / (1 / (1 + z)) * (1 / (1 + z)) = (m / (d * 4 * Real.pi / 3)) ^ ((1 : ℝ) / 3) := by field_simp
  rw [e]
  have e3 : ∀ t : ℝ, t * t * t = t ^ (3 : ℕ) := fun t => by ring
  rw [e3, ← Real.rpow_natCast, ← Real.rpow_mul (div_nonneg hm hf.le)]
  norm_num
  field_simp

theorem radius_mass_one {d z r : ℝ} (hd : 0 < d) (hz : 0 < 1 + z) (hr : 0 ≤ r) : radiusOf d z (massOf d z r) = r := by
  unfold massOf radiusOf
  have hf : 0 < d * 4 * Real.pi / 3 := by have := Real.pi_pos; positivity
  simp only []
  rw [mul_div_cancel_left₀ _ hf.ne']
  have e3 : ∀ t : ℝ, t * t * t = t ^ (3 : ℕ) := fun t => by ring
  have hra : 0 ≤ r * (1 / (1 + z)) := by positivity
  rw [e3, ← Real.rpow_natCast, ← Real.rpow_mul hra]
  norm_num
  field_simp

theorem massOf_lt {d z r s : ℝ} (hd : 0 < d) (hz : 0 < 1 + z) (hr : 0 ≤ r) (h : r < s) : massOf d z r < massOf d z s := by
  unfold massOf
  have hf : 0 < d * 4 * Real.pi / 3 := by have := Real.pi_pos; positivity
  simp only []
  have e3 : ∀ t : ℝ, t * t * t = t ^ (3 : ℕ) := fun t => by ring
  rw [e3, e3]
  have ha : 0 < 1 / (1 + z) := by positivity
  exact mul_lt_mul_of_pos_left (pow_lt_pow_left₀ (mul_lt_mul_of_pos_right h ha) (mul_nonneg hr ha.le) (by norm_num)) hf

theorem radiusOf_nonneg {d z m : ℝ} (hd : 0 < d) (hz : 0 < 1 + z) (hm : 0 ≤ m) : 0 ≤ radiusOf d z m := by
  unfold radiusOf
  have := Real.pi_pos
  positivity

theorem radiusOf_lt {d z m n : ℝ} (hd : 0 < d) (hz : 0 < 1 + z) (hm : 0 ≤ m) (h : m < n) : radiusOf d z m < radiusOf d z n := by
  by_contra hc
  have hn : 0 ≤ n := le_trans hm h.le
  rcases lt_or_eq_of_le (not_lt.mp hc) with h1 | h1
  · have := massOf_lt hd hz (radiusOf_nonneg hd hz hn) h1
    rw [mass_radius_one hd hz hm, mass_radius_one hd hz hn] at this
    linarith
  · have := congrArg (massOf d z) h1
    rw [mass_radius_one hd hz hm, mass_radius_one hd hz hn] at this
    linarith

theorem writeAll_some {f : ℝ → ℝ} {xs out res : List ℝ} (h : writeAll f xs out = some res) : xs.length ≤ out.length ∧ res = xs.map f ++ out.drop xs.length := by
  unfold writeAll at h
  split_ifs at h with h1
  cases h
  exact ⟨h1, rfl⟩

/-- C47: `Radius` writes, for every mass, the comoving radius of the sphere which holds this mass at the overdensity of the definition: the mean density inside of the proper
radius `R/(1+z)` is Δ times the critical density or (in a flat universe) the mean matter density. -/
theorem C47_radius (r : Radius) (s : String) (hs : toStr r = some s) (delta : ℝ) (mean : Bool) (ho : overdensity s = some (delta, mean)) (c : Cosmo) (hc : c.Ok)
    (flat : mean = true → c.omegaM + c.omegaL = 1) (ms out : List ℝ) (hpos : ∀ m ∈ ms, 0 ≤ m) (hlen : out.length = ms.length) :
    ∃ rs, radius r c ms out = some rs ∧ rs.length = ms.length ∧
      ∀ (i : Nat) m R, ms[i]? = some m → rs[i]? = some R → 0 ≤ R ∧ 4 / 3 * Real.pi * (R / (1 + c.z)) ^ 3 * (delta * refDensity mean c) = m := by
  obtain ⟨d, hd⟩ := rho_named r c s hs
  have hdp := rho_pos r c hc d hd
  have hval : d = delta * refDensity mean c := by
    have hden := C47_densities c hc
    unfold rho at hd
    unfold toStr at hs
    unfold overdensity at ho
    split_ifs at hs with h1 h2 h3 h4 <;> cases hs <;> subst_vars <;> cases ho <;> cases hd
    · simp only [hden.2, flat rfl, mul_one]
    · simp only [hden.1]
    · simp only [hden.1]
    · simp only [hden.1]
  refine ⟨ms.map (radiusOf d c.z), ?_, by simp, ?_⟩
  · unfold radius writeAll
    rw [hd, Option.bind_some, if_pos hlen.ge, ← hlen, List.drop_length, List.append_nil]
  · intro i m R hm hR
    rw [List.getElem?_map, hm, Option.map_some, Option.some.injEq] at hR
    have h0 := hpos m (List.mem_of_getElem? hm)
    rw [← hR]
    refine ⟨radiusOf_nonneg hdp hc.zpos h0, ?_⟩
    have := mass_radius_one hdp hc.zpos h0
    rw [← hval]
    conv_rhs => rw [← this]
    unfold massOf
    have := hc.zpos.ne'
    field_simp

/-- C47: `Radius` and `Mass` are inverse to each other, in both orders, for every definition. -/
theorem C47_inverse (r : Radius) (s : String) (hs : toStr r = some s) (c : Cosmo) (hc : c.Ok) (xs o1 o2 : List ℝ) (hpos : ∀ x ∈ xs, 0 ≤ x) (h1 : o1.length = xs.length)
    (h2 : o2.length = xs.length) :
    (∃ ys, radius r c xs o1 = some ys ∧ mass r c ys o2 = some xs) ∧ ∃ ys, mass r c xs o1 = some ys ∧ radius r c ys o2 = some xs := by
  obtain ⟨d, hd⟩ := rho_named r c s hs
  have hdp := rho_pos r c hc d hd
  unfold radius mass writeAll
  rw [hd]
  simp only [Option.bind_some, Option.getD_some]
  rw [if_pos h1.ge, if_pos h1.ge]
  refine ⟨⟨_, rfl, ?_⟩, ⟨_, rfl, ?_⟩⟩
  · rw [← h1, List.drop_length, List.append_nil, if_pos (by rw [List.length_map]; omega), List.length_map, ← h2, List.drop_length, List.append_nil, List.map_map]
    congr 1
    exact (List.map_congr_left fun x hx => mass_radius_one hdp hc.zpos (hpos x hx)).trans (List.map_id _)
  · rw [← h1, List.drop_length, List.append_nil, if_pos (by rw [List.length_map]; omega), List.length_map, ← h2, List.drop_length, List.append_nil, List.map_map]
    congr 1
    exact (List.map_congr_left fun x hx => radius_mass_one hdp hc.zpos (hpos x hx)).trans (List.map_id _)

/-- C47: more massive halos are larger and larger halos are more massive. -/
theorem C47_monotone (r : Radius) (s : String) (hs : toStr r = some s) (c : Cosmo) (hc : c.Ok) (x y u v o1 o2 : ℝ) (hx : 0 ≤ x) (hxy : x < y) :
    (radius r c [x, y] [o1, o2] = some [u, v] → u < v) ∧ (mass r c [x, y] [o1, o2] = some [u, v] → u < v) := by
  obtain ⟨d, hd⟩ := rho_named r c s hs
  have hdp := rho_pos r c hc d hd
  unfold radius mass writeAll
  rw [hd]
  simp only [Option.bind_some, Option.getD_some, List.length_cons, List.length_nil, le_refl, if_true, List.map_cons, List.map_nil, List.drop_succ_cons, List.drop_nil,
    List.append_nil, Option.some.injEq, List.cons.injEq, and_true]
  constructor
  · rintro ⟨rfl, rfl⟩
    exact radiusOf_lt hdp hc.zpos hx hxy
  · rintro ⟨rfl, rfl⟩
    exact massOf_lt hdp hc.zpos hx hxy

/-- C47: for one mass the radii are nested: R2500c < R500c < R200c, and R200c ≤ R200m in a flat universe. -/
theorem C47_nested (c : Cosmo) (hc : c.Ok) (m : ℝ) (hm : 0 < m) (a b e f : ℝ) (ha : radius R2500c c [m] [0] = some [a]) (hb : radius R500c c [m] [0] = some [b])
    (he : radius R200c c [m] [0] = some [e]) (hf : radius R200m c [m] [0] = some [f]) : a < b ∧ b < e ∧ (c.omegaM + c.omegaL = 1 → e ≤ f) := by
  have h1 := C47_densities c hc
  have hcp : 0 < rhoCritical (c.h100 * 100) c.omegaM c.omegaL c.z := by
    have := rho_pos R200c c hc _ rfl
    linarith
  have hap : 0 < rhoAverage (c.h100 * 100) c.omegaM c.omegaL c.z := by
    have := rho_pos R200m c hc _ rfl
    linarith
  have key : ∀ d1 d2 : ℝ, 0 < d1 → d1 ≤ d2 → radiusOf d2 c.z m ≤ radiusOf d1 c.z m ∧ (d1 < d2 → radiusOf d2 c.z m < radiusOf d1 c.z m) := by
    intro d1 d2 hd1 hle
    have hz := hc.zpos
    have hpi := Real.pi_pos
    unfold radiusOf
    simp only []
    have ha : 0 < 1 / (1 + c.z) := by positivity
    have hf1 : 0 < d1 * 4 * Real.pi / 3 := by positivity
    have hd2 : 0 < d2 := lt_of_lt_of_le hd1 hle
    have hq : 0 ≤ m / (d2 * 4 * Real.pi / 3) := by positivity
    constructor
    · refine div_le_div_of_nonneg_right (Real.rpow_le_rpow hq ?_ (by norm_num)) ha.le
      exact div_le_div_of_nonneg_left hm.le hf1 (by nlinarith)
    · intro hlt
      refine div_lt_div_of_pos_right (Real.rpow_lt_rpow hq ?_ (by norm_num)) ha
      exact div_lt_div_of_pos_left hm hf1 (by nlinarith)
  simp only [radius, writeAll, rho, R2500c, R500c, R200c, R200m, List.length_cons, List.length_nil, le_refl, if_true, List.map_cons, List.map_nil, List.drop_succ_cons, List.drop_nil,
    List.append_nil, Option.bind_some, Option.some.injEq, List.cons.injEq, and_true] at ha hb he hf
  norm_num at ha hb he hf
  rw [← ha, ← hb, ← he, ← hf]
  refine ⟨(key _ _ ?_ ?_).2 ?_, (key _ _ ?_ ?_).2 ?_, fun hfl => (key _ _ ?_ ?_).1⟩
  · positivity
  · linarith
  · linarith
  · positivity
  · linarith
  · linarith
  · positivity
  rw [h1.1, h1.2, hfl, mul_one]
  simp only [refDensity, if_pos]
  have := rhoCrit0_pos; have := hc.l
  simp only [Bool.false_eq_true, if_false]
  nlinarith [mul_nonneg rhoCrit0_pos.le hc.l]

/-! Units -/

/-- The four choices in the name of a unit of length: comoving or proper, Mpc or kpc, with or without 1/h. -/
def unitName (proper kpc perH : Bool) : String := (if proper then "p" else "c") ++ (if kpc then "kpc" else "Mpc") ++ (if perH then "/h" else "")

/-- C47 (units): the factor which turns a length in the named unit into comoving Mpc/h: 1/1000 for kpc, 1 + z for proper lengths, h for units without 1/h.  It is positive. -/
theorem C47_units (proper kpc perH : Bool) (c : Cosmo) :
    unitConversionFactor (unitName proper kpc perH) c =
      some ((if kpc then 1 / 1000 else 1) * (if proper then 1 + c.z else 1) * (if perH then 1 else c.h100)) ∧
    (c.Ok → 0 < (if kpc then 1 / 1000 else 1) * (if proper then 1 + c.z else 1) * (if perH then 1 else c.h100)) := by
  refine ⟨?_, fun hc => ?_⟩
  · cases proper <;> cases kpc <;> cases perH <;> simp [unitName, unitConversionFactor] <;> norm_num
  · have h1 := hc.zpos; have h2 := hc.h
    cases proper <;> cases kpc <;> cases perH <;> simp <;> positivity

/-- C47 (units): any other name panics. -/
theorem C47_units_panic (u : String) (c : Cosmo) (h : unitConversionFactor u c ≠ none) : ∃ proper kpc perH, u = unitName proper kpc perH := by
  unfold unitConversionFactor at h
  split_ifs at h with h1 h2 h3 h4 h5 h6 h7 h8
  · exact ⟨false, false, true, h1⟩
  · exact ⟨false, true, true, h2⟩
  · exact ⟨true, false, true, h3⟩
  · exact ⟨true, true, true, h4⟩
  · exact ⟨false, false, false, h5⟩
  · exact ⟨false, true, false, h6⟩
  · exact ⟨true, false, false, h7⟩
  · exact ⟨true, true, false, h8⟩
  · exact absurd rfl h

/-- A flat cosmology at z = 1 meets the hypotheses. -/
example : (⟨1, 3 / 10, 7 / 10, 7 / 10⟩ : Cosmo).Ok ∧ (3 / 10 + 7 / 10 : ℝ) = 1 := ⟨⟨by norm_num, by norm_num, by norm_num, by norm_num⟩, by norm_num⟩
/-- R200m and its overdensity. -/
example : toStr R200m = some "R200m" ∧ overdensity "R200m" = some (200, true) := ⟨rfl, by simp [overdensity]⟩
/-- R2500c, a definition other than the first. -/
example : toStr R2500c = some "R2500c" ∧ massString R2500c = some "M2500c" := by decide
/-- The unit of a catalogue in proper kpc/h. -/
example : unitConversionFactor "pkpc/h" ⟨1, 3 / 10, 7 / 10, 7 / 10⟩ = some (1 / 500) := by
  have := (C47_units true true true ⟨1, 3 / 10, 7 / 10, 7 / 10⟩).1
  norm_num [unitName] at this
  rw [show ("p" ++ "kpc" ++ "/h" : String) = "pkpc/h" from by decide] at this
  rw [this]

end Shellfish.Radius
