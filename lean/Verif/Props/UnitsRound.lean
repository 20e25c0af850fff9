/-
C142: units of Bolshoi, BolshoiP and ARTIO files in machine arithmetic.
-/
import Verif.Model.UnitsRound
import Verif.Props.Round32

namespace Shellfish.Round

/-! ### Specification -/

/-- `x` is `y` up to a relative error `e`. -/
def Within (e x y : ℚ) : Prop := |x - y| ≤ e * |y|

/-! ### Errors -/

theorem Within.self (x : ℚ) : Within 0 x x := by simp [Within]

theorem Within.mono {e e' x y : ℚ} (h : Within e x y) (he : e ≤ e') : Within e' x y := h.trans (mul_le_mul_of_nonneg_right he (abs_nonneg y))

theorem Within.abs {e x y : ℚ} (h : Within e x y) : |x| ≤ (1 + e) * |y| := by
  have := abs_sub_abs_le_abs_sub x y
  unfold Within at h
  linarith

theorem Within.mul {e e' x x' y y' : ℚ} (h : Within e x y) (h' : Within e' x' y') : Within (e + e' + e * e') (x * x') (y * y') := by
  have h1 : x * x' - y * y' = (x - y) * (x' - y') + (x - y) * y' + y * (x' - y') := by ring
  unfold Within at *
  rw [h1, abs_mul]
  refine (abs_add_three _ _ _).trans ?_
  rw [abs_mul, abs_mul, abs_mul]
  have a := mul_le_mul h h' (abs_nonneg _) ((abs_nonneg _).trans h)
  have b := mul_le_mul_of_nonneg_right h (abs_nonneg y')
  have c := mul_le_mul_of_nonneg_left h' (abs_nonneg y)
  nlinarith

theorem Within.round32 {e x y : ℚ} (h : Within e x y) : Within (e + (1 + e) / 2 ^ 24) (r32 x) y := by
  have h1 := r32_error x
  have h2 := h.abs
  unfold Within at *
  have h3 := abs_sub_le (r32 x) x y
  have : |x| / 2 ^ 24 ≤ (1 + e) * |y| / 2 ^ 24 := div_le_div_of_nonneg_right h2 (by norm_num)
  calc |r32 x - y| ≤ |r32 x - x| + |x - y| := h3
    _ ≤ (1 + e) * |y| / 2 ^ 24 + e * |y| := add_le_add (h1.trans this) h
    _ = _ := by ring

theorem Within.round64 {e x y : ℚ} (h : Within e x y) : Within (e + (1 + e) / 2 ^ 53) (r64 x) y := by
  have h1 := (C95_rounding x).2.2.2.2
  have h2 := h.abs
  unfold Within at *
  have h3 := abs_sub_le (r64 x) x y
  have : |x| / 2 ^ 53 ≤ (1 + e) * |y| / 2 ^ 53 := div_le_div_of_nonneg_right h2 (by norm_num)
  calc |r64 x - y| ≤ |r64 x - x| + |x - y| := h3
    _ ≤ (1 + e) * |y| / 2 ^ 53 + e * |y| := add_le_add (h1.trans this) h
    _ = _ := by ring

theorem Within.inv {e x y : ℚ} (h : Within e x y) (he : e < 1) : Within (e / (1 - e)) x⁻¹ y⁻¹ := by
  rcases eq_or_ne y 0 with rfl | hy
  · have : x = 0 := by
      unfold Within at h
      simpa using h
    subst this
    simp [Within]
  have hy' : 0 < |y| := abs_pos.mpr hy
  have hx : (1 - e) * |y| ≤ |x| := by
    have := abs_sub_abs_le_abs_sub y x
    rw [abs_sub_comm] at this
    unfold Within at h
    linarith
  have hx' : 0 < |x| := lt_of_lt_of_le (mul_pos (by linarith) hy') hx
  have hx0 : x ≠ 0 := abs_pos.mp hx'
  unfold Within at *
  have e1 : x⁻¹ - y⁻¹ = (y - x) / (x * y) := by field_simp
  rw [e1, abs_div, abs_mul, abs_inv, abs_sub_comm, div_le_iff₀ (mul_pos hx' hy')]
  have e2 : e / (1 - e) * |y|⁻¹ * (|x| * |y|) = e / (1 - e) * |x| := by field_simp
  rw [e2]
  have he0 : 0 ≤ e := by
    by_contra hc
    have := mul_neg_of_neg_of_pos (not_le.mp hc) hy'
    linarith [abs_nonneg (x - y)]
  calc |x - y| ≤ e * |y| := h
    _ = e / (1 - e) * ((1 - e) * |y|) := by field_simp [(by linarith : (1 - e) ≠ 0)]
    _ ≤ _ := mul_le_mul_of_nonneg_left hx (div_nonneg he0 (by linarith))

theorem Within.div {e e' x x' y y' : ℚ} (h : Within e x y) (h' : Within e' x' y') (he : e' < 1) : Within (e + e' / (1 - e') + e * (e' / (1 - e'))) (x / x') (y / y') := by
  rw [div_eq_mul_inv, div_eq_mul_inv]
  exact h.mul (h'.inv he)

/-- Subtracting 1 is exact. -/
theorem sub_one_float {q : ℚ} (hq : Float32 q) (h1 : 1 / 2 ≤ q) (h2 : q ≤ 2 ^ 24) : Float32 (q - 1) := by
  obtain ⟨m, e, hm, rfl⟩ := hq
  have hm0 : 0 ≤ m := by
    by_contra hc
    have : (m : ℚ) * 2 ^ e < 0 := mul_neg_of_neg_of_pos (by exact_mod_cast not_le.mp hc) (by positivity)
    linarith
  rw [abs_of_nonneg hm0] at hm
  rcases le_or_gt 0 e with he | he
  · obtain ⟨k, rfl⟩ := Int.eq_ofNat_of_zero_le he
    refine ⟨m * 2 ^ k - 1, 0, ?_, by push_cast; simp⟩
    have h3 : m * 2 ^ k ≤ 2 ^ 24 := by
      have : ((m * 2 ^ k : ℤ) : ℚ) ≤ 2 ^ 24 := by push_cast; simpa using h2
      exact_mod_cast this
    have h4 : 1 ≤ m * 2 ^ k := by
      have : (0 : ℚ) < ((m * 2 ^ k : ℤ) : ℚ) := by push_cast; have h1' : (1 : ℚ) / 2 ≤ m * 2 ^ k := by simpa using h1
                                                   linarith
      have : 0 < m * 2 ^ k := by exact_mod_cast this
      omega
    rw [abs_of_nonneg (by omega)]
    omega
  · obtain ⟨k, hk⟩ := Int.eq_ofNat_of_zero_le (neg_nonneg.mpr he.le)
    have hek : e = -(k : ℤ) := by omega
    subst hek
    have hp : (0 : ℚ) < 2 ^ k := by positivity
    rw [zpow_neg, zpow_natCast] at h1
    have h3 : (2 : ℤ) ^ k ≤ 2 * m := by
      have : (2 : ℚ) ^ k ≤ 2 * m := by
        have := mul_le_mul_of_nonneg_right h1 hp.le
        rw [mul_assoc, inv_mul_cancel₀ hp.ne'] at this
        linarith
      exact_mod_cast this
    refine ⟨m - 2 ^ k, -k, ?_, ?_⟩
    · rw [abs_lt]
      have : (0 : ℤ) < 2 ^ k := by positivity
      constructor <;> omega
    · push_cast
      rw [sub_mul, zpow_neg, zpow_natCast, mul_inv_cancel₀ hp.ne']

/-! ### C142 -/

/-- C142, positions of Bolshoi files: coordinate `x` of the grid, counted from 1, is `(x - 1) * box / n` Mpc/h. -/
theorem C142_bolshoi_position_partial (box : ℚ) (n : ℤ) (x : ℚ) (hb : 0 < box) (hn : 0 < n) (hn' : n < 2 ^ 24) (fx : Float32 x) (h1 : 1 ≤ x) (h2 : x ≤ n + 1) :
    |bolshoiPos32 box n x - (x - 1) * box / n| ≤ (x - 1) * box / n / 2 ^ 22 ∧ 0 ≤ bolshoiPos32 box n x ∧ bolshoiPos32 box n x ≤ box * (1 + 1 / 2 ^ 22) := by
  have hnq : (0 : ℚ) < n := by exact_mod_cast hn
  have hn1 : (n : ℚ) + 1 ≤ 2 ^ 24 := by exact_mod_cast hn'
  have en : r32 (n : ℚ) = n := r32_float ⟨n, 0, by rw [abs_of_pos hn]; exact hn', by simp⟩
  have ex : r32 (x - 1) = x - 1 := r32_float (sub_one_float fx (by linarith) (by linarith))
  have h : Within (1 / 2 ^ 22) (bolshoiPos32 box n x) ((x - 1) * (box / n)) := by
    unfold bolshoiPos32 bolshoiUnit32
    rw [en, ex]
    exact (((Within.self (x - 1)).mul (Within.self (box / n)).round32).round32).mono (by norm_num)
  unfold Within at h
  have hd : 0 ≤ (x - 1) * (box / n) := mul_nonneg (by linarith) (div_pos hb hnq).le
  rw [abs_of_nonneg hd] at h
  have hle : (x - 1) * (box / n) ≤ box := by
    calc (x - 1) * (box / n) ≤ n * (box / n) := mul_le_mul_of_nonneg_right (by linarith) (div_pos hb hnq).le
      _ = box := by field_simp
  refine ⟨by rw [mul_div_assoc, div_eq_inv_mul _ ((2 : ℚ) ^ 22), inv_eq_one_div]; exact h, ?_, ?_⟩
  · unfold bolshoiPos32 bolshoiUnit32
    rw [ex]
    refine r32_nonneg (mul_nonneg (by linarith) (r32_nonneg (div_nonneg hb.le ?_)))
    rw [en]; exact hnq.le
  · have := (abs_le.mp h).2
    linarith

/-- A particle in the last cell of the grid of Bolshoi (250 Mpc/h). -/
example : |bolshoiPos32 250 256 (513 / 2) - 255.5 * 250 / 256| ≤ 255.5 * 250 / 256 / 2 ^ 22 := by
  have := (C142_bolshoi_position_partial 250 256 (513 / 2) (by norm_num) (by norm_num) (by norm_num) ⟨513, -1, by norm_num, by norm_num⟩ (by norm_num) (by norm_num)).1
  norm_num at this ⊢
  exact this

/-- C142, order: particles keep their order along an axis. -/
theorem C142_bolshoi_order (box : ℚ) (n : ℤ) (x x' : ℚ) (hb : 0 < box) (hn : 0 < n) (h : x ≤ x') : bolshoiPos32 box n x ≤ bolshoiPos32 box n x' := by
  unfold bolshoiPos32 bolshoiUnit32
  refine r32_mono (mul_le_mul_of_nonneg_right (r32_mono (by linarith)) (r32_nonneg (div_nonneg hb.le (r32_nonneg ?_))))
  exact_mod_cast hn.le

example : bolshoiPos32 250 256 (3 / 2) ≤ bolshoiPos32 250 256 2 := C142_bolshoi_order 250 256 _ _ (by norm_num) (by norm_num) (by norm_num)

/-- C142, the redshift of a Bolshoi or BolshoiP file, for scale factors up to 2. -/
theorem C142_bolshoi_redshift_partial (a : ℚ) (h1 : 1 / 2 ^ 23 ≤ a) (h2 : a ≤ 2) : |1 + bolshoiZ32 a - 1 / a| ≤ 1 / a / 2 ^ 24 ∧ (a ≤ 1 → 0 ≤ bolshoiZ32 a) := by
  have ha : 0 < a := lt_of_lt_of_le (by norm_num) h1
  have hl : 1 / 2 ≤ 1 / a := one_div_le_one_div_of_le ha h2
  have hu : 1 / a ≤ 2 ^ 23 := by
    have := one_div_le_one_div_of_le (by norm_num) h1
    norm_num at this ⊢
    exact this
  have hq1 : 1 / 2 ≤ r32 (1 / a) := le_r32 ⟨1, -1, by norm_num, by norm_num⟩ hl
  have hq2 : r32 (1 / a) ≤ 2 ^ 24 := (r32_le (f := 2 ^ 23) ⟨1, 23, by norm_num, by norm_num⟩ hu).trans (by norm_num)
  have ez : bolshoiZ32 a = r32 (1 / a) - 1 := r32_float (sub_one_float (r32_rep _) hq1 hq2)
  rw [ez]
  constructor
  · have := r32_error (1 / a)
    rw [abs_of_pos (by positivity : 0 < 1 / a)] at this
    rw [show 1 + (r32 (1 / a) - 1) - 1 / a = r32 (1 / a) - 1 / a by ring]
    exact this
  · intro h
    have : 1 ≤ r32 (1 / a) := le_r32 ⟨1, 0, by norm_num, by norm_num⟩ (by rw [le_div_iff₀ ha]; linarith)
    linarith

/-- The last snapshot of Bolshoi has a scale factor slightly above 1. -/
example : |1 + bolshoiZ32 (10003 / 10000) - 1 / (10003 / 10000)| ≤ 1 / (10003 / 10000) / 2 ^ 24 ∧ 0 ≤ bolshoiZ32 (1 / 3) :=
  ⟨(C142_bolshoi_redshift_partial (10003 / 10000) (by norm_num) (by norm_num)).1, (C142_bolshoi_redshift_partial (1 / 3) (by norm_num) (by norm_num)).2 (by norm_num)⟩

/-- C142, velocities of Bolshoi and BolshoiP files: those of the file times the scale factor. -/
theorem C142_bolshoi_velocity_partial (a v : ℚ) (h1 : 1 / 2 ^ 23 ≤ a) (h2 : a ≤ 2) : |bolshoiVel32 a v - v * a| ≤ |v * a| / 2 ^ 22 := by
  have ha : 0 < a := lt_of_lt_of_le (by norm_num) h1
  have hz := (C142_bolshoi_redshift_partial a h1 h2).1
  have w1 : Within (1 / 2 ^ 24) (1 + bolshoiZ32 a) (1 / a) := by
    unfold Within
    rw [abs_of_pos (by positivity : 0 < 1 / a), one_div_mul_eq_div]
    exact hz
  have w2 := ((((Within.self 1).div w1.round64 (by norm_num)).round64).round32)
  have w3 := ((Within.self v).mul w2).round32
  rw [one_div_one_div] at w3
  have := w3.mono (e' := 1 / 2 ^ 22) (by norm_num)
  unfold Within at this
  rw [one_div_mul_eq_div] at this
  exact this

example : |bolshoiVel32 (1 / 3) (-300) - -300 * (1 / 3)| ≤ |(-300 : ℚ) * (1 / 3)| / 2 ^ 22 := C142_bolshoi_velocity_partial (1 / 3) (-300) (by norm_num) (by norm_num)

/-- C142, the mass of the particles of a Bolshoi file: 1.35e8 for a box of 250 Mpc/h, and proportional to the volume of the box. -/
theorem C142_bolshoi_mass_partial (box : ℚ) : |bolshoiMinMass32 box - 135000000 * (box / 250) ^ 3| ≤ |135000000 * (box / 250) ^ 3| / 2 ^ 23 := by
  have w1 := (Within.self (box / 250)).round64
  have e2 : r64 (2048 * 2048 * 2048) = 2048 * 2048 * 2048 := r64_float ⟨1, 33, by norm_num, by norm_num⟩
  have e1 : r64 (1 : ℚ) = 1 := r64_float ⟨1, 0, by norm_num, by norm_num⟩
  have w := ((((((Within.self (135000000 * 1)).round64.mul w1).round64).mul w1).round64.mul w1).round64).round32
  have := w.mono (e' := 1 / 2 ^ 23) (by norm_num)
  unfold Within at this
  unfold bolshoiMinMass32
  simp only [e2, div_self (by norm_num : (2048 * 2048 * 2048 : ℚ) ≠ 0), e1]
  rw [one_div_mul_eq_div] at this
  rw [show (135000000 : ℚ) * (box / 250) ^ 3 = 135000000 * 1 * (box / 250) * (box / 250) * (box / 250) by ring]
  exact this

example : |bolshoiMinMass32 250 - 135000000| ≤ 135000000 / 2 ^ 23 := by
  have := C142_bolshoi_mass_partial 250
  norm_num at this ⊢
  exact this

/-- The Hubble parameter of an ARTIO header: 0.7 if there is none. -/
def hubbleOf (h : Option ℚ) : ℚ := h.getD (7 / 10)

theorem hubble32 (h : Option ℚ) : Within (1 / 2 ^ 24) (artioHubble32 h) (hubbleOf h) := by
  cases h <;> exact (Within.self _).round32.mono (by norm_num)

theorem hubble64 (h : Option ℚ) : Within (1 / 2 ^ 53) (artioHubble64 h) (hubbleOf h) := by
  cases h with
  | none => exact (Within.self _).round64.mono (by norm_num)
  | some h => exact (Within.self h).mono (by norm_num)

/-- C142, positions of ARTIO files: from units of the file to cm, to Mpc (3.0856e24 cm), to Mpc/h. -/
theorem C142_artio_position_partial (h : Option ℚ) (unit x : ℚ) :
    |artioPos32 h unit x - x * (hubbleOf h / 3085600000000000000000000 * unit)| ≤ |x * (hubbleOf h / 3085600000000000000000000 * unit)| / 2 ^ 21 := by
  have em : mpcCm = 3085600000000000000000000 := by norm_num [mpcCm]
  have w := ((Within.self x).mul (((hubble32 h).div (Within.self mpcCm).round32 (by norm_num)).round32.mul (Within.self unit).round32).round32).round32
  have := w.mono (e' := 1 / 2 ^ 21) (by norm_num)
  unfold Within at this
  rw [one_div_mul_eq_div, em] at this
  unfold artioPos32 artioUnit32
  rw [em]
  exact this

/-- A unit of 3.0856e22 cm and a header without Hubble parameter: 1000 units are 7 Mpc/h. -/
example : |artioPos32 none 30856000000000000000000 1000 - 7| ≤ 7 / 2 ^ 21 := by
  have := C142_artio_position_partial none 30856000000000000000000 1000
  norm_num [hubbleOf] at this ⊢
  exact this

/-- C142, the width of the box of an ARTIO fileset. -/
theorem C142_artio_width_partial (h : Option ℚ) (unit box : ℚ) :
    |artioWidth64 h unit box - box * (hubbleOf h / 3085600000000000000000000 * unit)| ≤ |box * (hubbleOf h / 3085600000000000000000000 * unit)| / 2 ^ 50 := by
  have em : mpcCm = 3085600000000000000000000 := by norm_num [mpcCm]
  have w := ((Within.self box).mul (((hubble64 h).div (Within.self mpcCm).round64 (by norm_num)).round64.mul (Within.self unit)).round64).round64
  have := w.mono (e' := 1 / 2 ^ 50) (by norm_num)
  unfold Within at this
  rw [one_div_mul_eq_div, em] at this
  unfold artioWidth64
  rw [em]
  exact this

example : |artioWidth64 (some (7 / 10)) 30856000000000000000000 1000 - 7| ≤ 7 / 2 ^ 50 := by
  have := C142_artio_width_partial (some (7 / 10)) 30856000000000000000000 1000
  norm_num [hubbleOf] at this ⊢
  exact this

/-- C142: particles of an ARTIO fileset in the box are handed out in the box of the header, or beyond its far edge by at most a relative 2^-20. -/
theorem C142_artio_inside_partial (h : Option ℚ) (unit box x : ℚ) (hh : 0 < hubbleOf h) (hu : 0 < unit) (h0 : 0 ≤ x) (h1 : x ≤ box) :
    0 ≤ artioPos32 h unit x ∧ artioPos32 h unit x ≤ artioWidth64 h unit box * (1 + 1 / 2 ^ 20) := by
  have p := C142_artio_position_partial h unit x
  have w := C142_artio_width_partial h unit box
  have hk : 0 < hubbleOf h / 3085600000000000000000000 * unit := by positivity
  generalize hubbleOf h / 3085600000000000000000000 * unit = k at *
  have hx : 0 ≤ x * k := mul_nonneg h0 hk.le
  have hxb : x * k ≤ box * k := mul_le_mul_of_nonneg_right h1 hk.le
  rw [abs_of_nonneg hx] at p
  rw [abs_of_nonneg (hx.trans hxb)] at w
  have p' := abs_le.mp p
  have w' := abs_le.mp w
  constructor
  · linarith
  · linarith

example : 0 ≤ artioPos32 none 30856000000000000000000 1000 ∧ artioPos32 none 30856000000000000000000 1000 ≤ artioWidth64 none 30856000000000000000000 1000 * (1 + 1 / 2 ^ 20) :=
  C142_artio_inside_partial none _ 1000 1000 (by norm_num [hubbleOf]) (by norm_num) (by norm_num) le_rfl

/-- C142, the mass of the particles of a species: from units of the file to grams, to solar masses (1.989e33 g), to solar masses over h. -/
theorem C142_artio_mass_partial (h : Option ℚ) (unit m : ℚ) :
    |artioMass32 h unit m - m * (hubbleOf h / 1989000000000000000000000000000000 * unit)| ≤ |m * (hubbleOf h / 1989000000000000000000000000000000 * unit)| / 2 ^ 22 := by
  have em : sunGram = 1989000000000000000000000000000000 := by norm_num [sunGram]
  have w := ((Within.self m).mul ((((hubble64 h).div (Within.self sunGram).round64 (by norm_num)).round64.mul (Within.self unit)).round64).round32).round32
  have := w.mono (e' := 1 / 2 ^ 22) (by norm_num)
  unfold Within at this
  rw [one_div_mul_eq_div, em] at this
  unfold artioMass32
  rw [em]
  exact this

example : |artioMass32 none 19890000000000000000000000000000000000 1000 - 7000000| ≤ 7000000 / 2 ^ 22 := by
  have := C142_artio_mass_partial none 19890000000000000000000000000000000000 1000
  norm_num [hubbleOf] at this ⊢
  exact this

end Shellfish.Round
