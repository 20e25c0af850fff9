/-
C136: trilinear interpolation in machine arithmetic.
-/
import Verif.Model.TriRound
import Verif.Props.InterpRound
import Verif.Lemmas.FinderReach

namespace Shellfish.Round

/-! ### Specification -/

/-- The trilinear solid of one cell: straight lines along x between the values `f` at the corners, along y between these and along z between those.  `f a b c` is the value at the lower (0) or upper (1) end in x, y and z. -/
def solidAt (x1 x2 y1 y2 z1 z2 : ℚ) (f : ℕ → ℕ → ℕ → ℚ) (x y z : ℚ) : ℚ :=
  lineAt z1 z2 (lineAt y1 y2 (lineAt x1 x2 (f 0 0 0) (f 1 0 0) x) (lineAt x1 x2 (f 0 1 0) (f 1 1 0) x) y)
    (lineAt y1 y2 (lineAt x1 x2 (f 0 0 1) (f 1 0 1) x) (lineAt x1 x2 (f 0 1 1) (f 1 1 1) x) y) z

/-- The value of the grid point `(i, j, k)`: "vals(ix, iy, iz) -> vals[ix + iy*nx + iz*nx*ny]". -/
def gridVal (nx ny : ℕ) (vals : List ℚ) (i j k : ℕ) : ℚ := vals.getD (i + j * nx + k * nx * ny) 0

/-- `x` lies in the table: not below its first and not above its last point. -/
def InTable (xs : List ℚ) (x : ℚ) : Prop := xs.getD 0 0 ≤ x ∧ x ≤ xs.getD (xs.length - 1) 0

/-! ### One cell -/

theorem weight_acc {x x1 x2 : ℚ} (h12 : x1 < x2) (h1 : x1 ≤ x) (h2 : x ≤ x2) :
    Acc (weightR x x1 x2) ((x - x1) / (x2 - x1)) 1 5 ∧ Acc (r64 (1 - weightR x x1 x2)) (1 - (x - x1) / (x2 - x1)) 1 5 := by
  have hd : 0 < x2 - x1 := by linarith
  have a := acc_div (acc_sub h1) (acc_sub h12.le) hd (by norm_num)
  have h0 : 0 ≤ (x - x1) / (x2 - x1) := div_nonneg (by linarith) hd.le
  have h1' : (x - x1) / (x2 - x1) ≤ 1 := by rw [div_le_one hd]; linarith
  change Acc (weightR x x1 x2) ((x - x1) / (x2 - x1)) ((x - x1) / (x2 - x1)) 4 at a
  generalize weightR x x1 x2 = w at *
  generalize (x - x1) / (x2 - x1) = t at *
  have hp : (0 : ℚ) ≤ (1 + 1 / 2 ^ 53) ^ 4 - 1 := by norm_num
  have e : |w - t| ≤ ((1 + 1 / 2 ^ 53) ^ 4 - 1) * 1 := a.1.trans (mul_le_mul_of_nonneg_left h1' hp)
  have a' : Acc w t 1 4 := ⟨e, by rw [abs_of_nonneg h0]; exact h1'⟩
  refine ⟨acc_mono a' (by norm_num), acc_round (m := 4) ?_ (by rw [abs_le]; constructor <;> linarith)⟩
  have : 1 - w - (1 - t) = -(w - t) := by ring
  rw [this, abs_neg]
  exact e

theorem mix_acc {d t v v' w w' a : ℚ} {m : ℕ} (hd : Acc d t 1 5) (hd' : Acc (r64 (1 - d)) (1 - t) 1 5) (hv : Acc v v' a m) (hw : Acc w w' a m) :
    Acc (mixR d v w) (v' * (1 - t) + w' * t) (2 * a) (m + 7) := by
  have h1 := acc_mul hv hd'
  have h2 := acc_mul hw hd
  have h := acc_add h1 h2
  have e : a * 1 + a * 1 = 2 * a := by ring
  rw [e] at h
  exact h

theorem lineAt_mix (x1 x2 v w x : ℚ) : lineAt x1 x2 v w x = v * (1 - (x - x1) / (x2 - x1)) + w * ((x - x1) / (x2 - x1)) := by
  unfold lineAt; ring

/-- One cell. -/
theorem trilinear_err {x y z x1 x2 y1 y2 z1 z2 V : ℚ} (f : ℕ → ℕ → ℕ → ℚ) (hx : x1 < x2) (hy : y1 < y2) (hz : z1 < z2) (hx1 : x1 ≤ x) (hx2 : x ≤ x2) (hy1 : y1 ≤ y) (hy2 : y ≤ y2)
    (hz1 : z1 ≤ z) (hz2 : z ≤ z2) (hf : ∀ a b c, a ≤ 1 → b ≤ 1 → c ≤ 1 → |f a b c| ≤ V) :
    |mixR (weightR z z1 z2) (mixR (weightR y y1 y2) (mixR (weightR x x1 x2) (f 0 0 0) (f 1 0 0)) (mixR (weightR x x1 x2) (f 0 1 0) (f 1 1 0)))
        (mixR (weightR y y1 y2) (mixR (weightR x x1 x2) (f 0 0 1) (f 1 0 1)) (mixR (weightR x x1 x2) (f 0 1 1) (f 1 1 1))) - solidAt x1 x2 y1 y2 z1 z2 f x y z| ≤ V / 2 ^ 44 := by
  obtain ⟨wx, wx'⟩ := weight_acc hx hx1 hx2
  obtain ⟨wy, wy'⟩ := weight_acc hy hy1 hy2
  obtain ⟨wz, wz'⟩ := weight_acc hz hz1 hz2
  have e : ∀ a b c, a ≤ 1 → b ≤ 1 → c ≤ 1 → Acc (f a b c) (f a b c) V 0 := fun a b c ha hb hc => acc_exact (hf a b c ha hb hc) 0
  have c11 := mix_acc wx wx' (e 0 0 0 (by norm_num) (by norm_num) (by norm_num)) (e 1 0 0 (by norm_num) (by norm_num) (by norm_num))
  have c21 := mix_acc wx wx' (e 0 1 0 (by norm_num) (by norm_num) (by norm_num)) (e 1 1 0 (by norm_num) (by norm_num) (by norm_num))
  have c12 := mix_acc wx wx' (e 0 0 1 (by norm_num) (by norm_num) (by norm_num)) (e 1 0 1 (by norm_num) (by norm_num) (by norm_num))
  have c22 := mix_acc wx wx' (e 0 1 1 (by norm_num) (by norm_num) (by norm_num)) (e 1 1 1 (by norm_num) (by norm_num) (by norm_num))
  have r := mix_acc wz wz' (mix_acc wy wy' c11 c21) (mix_acc wy wy' c12 c22)
  unfold solidAt
  simp only [lineAt_mix]
  have hV : 0 ≤ V := (abs_nonneg _).trans (hf 0 0 0 (by norm_num) (by norm_num) (by norm_num))
  refine acc_bound r (by norm_num) ?_
  norm_num
  linarith

/-! ### C136 -/

/-- What `Eval` does inside of its tables. -/
theorem trilinearR_eq (xs ys zs vals : List ℚ) (hl : vals.length = xs.length * ys.length * zs.length) (hn : zs.length = ys.length) (x y z : ℚ) {i j k : ℕ} (ei : searchR xs x = some i) (ej : searchR ys y = some j) (ek : searchR ys z = some k)
    (i1 : i + 1 < xs.length) (j1 : j + 1 < ys.length) (k1 : k + 1 < ys.length) :
    let f := fun a b c => gridVal xs.length ys.length vals (i + a) (j + b) (k + c)
    trilinearR xs ys zs vals x y z = some (mixR (weightR z (ys.getD k 0) (ys.getD (k + 1) 0))
      (mixR (weightR y (ys.getD j 0) (ys.getD (j + 1) 0)) (mixR (weightR x (xs.getD i 0) (xs.getD (i + 1) 0)) (f 0 0 0) (f 1 0 0)) (mixR (weightR x (xs.getD i 0) (xs.getD (i + 1) 0)) (f 0 1 0) (f 1 1 0)))
      (mixR (weightR y (ys.getD j 0) (ys.getD (j + 1) 0)) (mixR (weightR x (xs.getD i 0) (xs.getD (i + 1) 0)) (f 0 0 1) (f 1 0 1)) (mixR (weightR x (xs.getD i 0) (xs.getD (i + 1) 0)) (f 0 1 1) (f 1 1 1)))) := by
  intro f
  have hidx : ∀ a b c, a ≤ 1 → b ≤ 1 → c ≤ 1 → (i + a) + (j + b) * xs.length + (k + c) * xs.length * ys.length < vals.length := by
    intro a b c ha hb hc
    rw [hl, hn]
    have h1 : (j + b) * xs.length + xs.length ≤ xs.length * ys.length := by
      calc (j + b) * xs.length + xs.length = xs.length * (j + b + 1) := by ring
        _ ≤ _ := Nat.mul_le_mul_left _ (by omega)
    have h2 : (k + c) * xs.length * ys.length + xs.length * ys.length ≤ xs.length * ys.length * ys.length := by
      calc (k + c) * xs.length * ys.length + xs.length * ys.length = xs.length * ys.length * (k + c + 1) := by ring
        _ ≤ _ := Nat.mul_le_mul_left _ (by omega)
    omega
  have g : ∀ n a b c, n = (i + a) + (j + b) * xs.length + (k + c) * xs.length * ys.length → a ≤ 1 → b ≤ 1 → c ≤ 1 → vals[n]? = some (f a b c) := by
    intro n a b c e ha hb hc
    have := hidx a b c ha hb hc
    rw [← e] at this
    rw [getElem?_getD' this, e]
    rfl
  unfold trilinearR
  rw [if_neg (by rw [hl]; exact fun h => h rfl), ei, ej, ek]
  change triCellR xs ys vals x y z i j k = _
  unfold triCellR
  rw [g (i + j * xs.length + k * ys.length * xs.length) 0 0 0 (by ring) (by omega) (by omega) (by omega),
    g (i + j * xs.length + k * ys.length * xs.length + xs.length * ys.length) 0 0 1 (by ring) (by omega) (by omega) (by omega),
    g (i + j * xs.length + k * ys.length * xs.length + xs.length) 0 1 0 (by ring) (by omega) (by omega) (by omega),
    g (i + j * xs.length + k * ys.length * xs.length + xs.length + xs.length * ys.length) 0 1 1 (by ring) (by omega) (by omega) (by omega),
    g (i + j * xs.length + k * ys.length * xs.length + 1) 1 0 0 (by ring) (by omega) (by omega) (by omega),
    g (i + j * xs.length + k * ys.length * xs.length + 1 + xs.length * ys.length) 1 0 1 (by ring) (by omega) (by omega) (by omega),
    g (i + j * xs.length + k * ys.length * xs.length + 1 + xs.length) 1 1 0 (by ring) (by omega) (by omega) (by omega),
    g (i + j * xs.length + k * ys.length * xs.length + 1 + xs.length + xs.length * ys.length) 1 1 1 (by ring) (by omega) (by omega) (by omega),
    getElem?_getD' (by omega : i < xs.length), getElem?_getD' i1, getElem?_getD' (by omega : j < ys.length), getElem?_getD' j1, getElem?_getD' (by omega : k < ys.length), getElem?_getD' k1]
  rfl

theorem solid_agree {xs ys : List ℚ} (hx : Increasing xs) (hy : Increasing ys) (F : ℕ → ℕ → ℕ → ℚ) {x y z : ℚ} {i j k i' j' k' : ℕ} (h1 : i + 1 < xs.length) (h2 : j + 1 < ys.length) (h3 : k + 1 < ys.length)
    (h1' : i' + 1 < xs.length) (h2' : j' + 1 < ys.length) (h3' : k' + 1 < ys.length) (a1 : xs.getD i 0 ≤ x) (a2 : x ≤ xs.getD (i + 1) 0) (b1 : ys.getD j 0 ≤ y) (b2 : y ≤ ys.getD (j + 1) 0)
    (c1 : ys.getD k 0 ≤ z) (c2 : z ≤ ys.getD (k + 1) 0) (a1' : xs.getD i' 0 ≤ x) (a2' : x ≤ xs.getD (i' + 1) 0) (b1' : ys.getD j' 0 ≤ y) (b2' : y ≤ ys.getD (j' + 1) 0)
    (c1' : ys.getD k' 0 ≤ z) (c2' : z ≤ ys.getD (k' + 1) 0) :
    solidAt (xs.getD i 0) (xs.getD (i + 1) 0) (ys.getD j 0) (ys.getD (j + 1) 0) (ys.getD k 0) (ys.getD (k + 1) 0) (fun a b c => F (i + a) (j + b) (k + c)) x y z =
      solidAt (xs.getD i' 0) (xs.getD (i' + 1) 0) (ys.getD j' 0) (ys.getD (j' + 1) 0) (ys.getD k' 0) (ys.getD (k' + 1) 0) (fun a b c => F (i' + a) (j' + b) (k' + c)) x y z := by
  unfold solidAt
  have ex : ∀ b c, lineAt (xs.getD i 0) (xs.getD (i + 1) 0) (F i b c) (F (i + 1) b c) x = lineAt (xs.getD i' 0) (xs.getD (i' + 1) 0) (F i' b c) (F (i' + 1) b c) x :=
    fun b c => line_agree hx (fun n => F n b c) h1 h1' a1 a2 a1' a2'
  simp only [Nat.add_zero, ex]
  have ey : ∀ c, lineAt (ys.getD j 0) (ys.getD (j + 1) 0) (lineAt (xs.getD i' 0) (xs.getD (i' + 1) 0) (F i' j c) (F (i' + 1) j c) x) (lineAt (xs.getD i' 0) (xs.getD (i' + 1) 0) (F i' (j + 1) c) (F (i' + 1) (j + 1) c) x) y =
      lineAt (ys.getD j' 0) (ys.getD (j' + 1) 0) (lineAt (xs.getD i' 0) (xs.getD (i' + 1) 0) (F i' j' c) (F (i' + 1) j' c) x) (lineAt (xs.getD i' 0) (xs.getD (i' + 1) 0) (F i' (j' + 1) c) (F (i' + 1) (j' + 1) c) x) y :=
    fun c => line_agree hy (fun n => lineAt (xs.getD i' 0) (xs.getD (i' + 1) 0) (F i' n c) (F (i' + 1) n c) x) h2 h2' b1 b2 b1' b2'
  simp only [ey]
  exact line_agree hy (fun n => lineAt (ys.getD j' 0) (ys.getD (j' + 1) 0) (lineAt (xs.getD i' 0) (xs.getD (i' + 1) 0) (F i' j' n) (F (i' + 1) j' n) x)
    (lineAt (xs.getD i' 0) (xs.getD (i' + 1) 0) (F i' (j' + 1) n) (F (i' + 1) (j' + 1) n) x) y) h3 h3' c1 c2 c1' c2'

/-- **C136 (partial).** When the table of the third coordinate is that of the second one, `Eval` panics exactly outside of the grid; inside it returns the trilinear solid of the cell, up to `V / 2 ^ 44` for values of size
at most `V`, for every one of the cells that meet at the point.  (Missing: other tables for the third coordinate, see `C136_third_false`.) -/
theorem C136_trilinear_partial (xs ys vals : List ℚ) (V : ℚ) (hx2 : 2 ≤ xs.length) (hy2 : 2 ≤ ys.length) (hx : Increasing xs) (hy : Increasing ys) (hl : vals.length = xs.length * ys.length * ys.length)
    (hv : ∀ v ∈ vals, |v| ≤ V) (x y z : ℚ) :
    (trilinearR xs ys ys vals x y z = none ↔ ¬ (InTable xs x ∧ InTable ys y ∧ InTable ys z)) ∧
      ∀ i j k, i + 1 < xs.length → j + 1 < ys.length → k + 1 < ys.length → xs.getD i 0 ≤ x → x ≤ xs.getD (i + 1) 0 → ys.getD j 0 ≤ y → y ≤ ys.getD (j + 1) 0 → ys.getD k 0 ≤ z → z ≤ ys.getD (k + 1) 0 →
        ∃ r, trilinearR xs ys ys vals x y z = some r ∧
          |r - solidAt (xs.getD i 0) (xs.getD (i + 1) 0) (ys.getD j 0) (ys.getD (j + 1) 0) (ys.getD k 0) (ys.getD (k + 1) 0)
            (fun a b c => gridVal xs.length ys.length vals (i + a) (j + b) (k + c)) x y z| ≤ V / 2 ^ 44 := by
  obtain ⟨s1, s2⟩ := searchR_spec xs hx2 hx x
  obtain ⟨t1, t2⟩ := searchR_spec ys hy2 hy y
  obtain ⟨u1, u2⟩ := searchR_spec ys hy2 hy z
  have hidx : ∀ a b c, a < xs.length → b < ys.length → c < ys.length → |gridVal xs.length ys.length vals a b c| ≤ V := by
    intro a b c ha hb hc
    refine getD_bound hv ?_
    rw [hl]
    have h1 : b * xs.length + xs.length ≤ xs.length * ys.length := by
      calc b * xs.length + xs.length = xs.length * (b + 1) := by ring
        _ ≤ _ := Nat.mul_le_mul_left _ (by omega)
    have h2 : c * xs.length * ys.length + xs.length * ys.length ≤ xs.length * ys.length * ys.length := by
      calc c * xs.length * ys.length + xs.length * ys.length = xs.length * ys.length * (c + 1) := by ring
        _ ≤ _ := Nat.mul_le_mul_left _ (by omega)
    omega
  have hin : InTable xs x → InTable ys y → InTable ys z →
      ∃ r i j k, trilinearR xs ys ys vals x y z = some r ∧ i + 1 < xs.length ∧ j + 1 < ys.length ∧ k + 1 < ys.length ∧ (xs.getD i 0 ≤ x ∧ x ≤ xs.getD (i + 1) 0) ∧ (ys.getD j 0 ≤ y ∧ y ≤ ys.getD (j + 1) 0) ∧ (ys.getD k 0 ≤ z ∧ z ≤ ys.getD (k + 1) 0) ∧
          |r - solidAt (xs.getD i 0) (xs.getD (i + 1) 0) (ys.getD j 0) (ys.getD (j + 1) 0) (ys.getD k 0) (ys.getD (k + 1) 0)
            (fun a b c => gridVal xs.length ys.length vals (i + a) (j + b) (k + c)) x y z| ≤ V / 2 ^ 44 := by
    intro hX hY hZ
    obtain ⟨i, ei, i1, i2, i3⟩ := s1 hX
    obtain ⟨j, ej, j1, j2, j3⟩ := t1 hY
    obtain ⟨k, ek, k1, k2, k3⟩ := u1 hZ
    exact ⟨_, i, j, k, trilinearR_eq xs ys ys vals hl rfl x y z ei ej ek i1 j1 k1, i1, j1, k1, ⟨i2, i3⟩, ⟨j2, j3⟩, ⟨k2, k3⟩,
      trilinear_err (fun a b c => gridVal xs.length ys.length vals (i + a) (j + b) (k + c)) (inc_lt hx (by omega) i1) (inc_lt hy (by omega) j1) (inc_lt hy (by omega) k1) i2 i3 j2 j3 k2 k3
        (fun a b c ha hb hc => hidx _ _ _ (by omega) (by omega) (by omega))⟩
  refine ⟨⟨fun h => ?_, fun h => ?_⟩, fun i j k h1 h2 h3 a1 a2 b1 b2 c1 c2 => ?_⟩
  · rintro ⟨hX, hY, hZ⟩
    obtain ⟨r, i, j, k, e, _⟩ := hin hX hY hZ
    rw [e] at h
    cases h
  · unfold trilinearR
    rw [if_neg (by rw [hl]; exact fun h => h rfl)]
    have out : ∀ {l : List ℚ} {w : ℚ}, ¬ InTable l w → w < l.getD 0 0 ∨ l.getD (l.length - 1) 0 < w := by
      intro l w hw
      by_contra hc
      rw [not_or, not_lt, not_lt] at hc
      exact hw hc
    by_cases hX : InTable xs x
    · by_cases hY : InTable ys y
      · rw [u2 (out fun hZ => h ⟨hX, hY, hZ⟩)]
        cases searchR xs x <;> cases searchR ys y <;> rfl
      · rw [t2 (out hY)]
        cases searchR xs x <;> rfl
    · rw [s2 (out hX)]
      rfl
  · have tab : ∀ {l : List ℚ} {w : ℚ} {n : ℕ}, Increasing l → n + 1 < l.length → l.getD n 0 ≤ w → w ≤ l.getD (n + 1) 0 → InTable l w := fun hl' hn q1 q2 =>
      ⟨(inc_le hl' (Nat.zero_le _) (by omega)).trans q1, q2.trans (inc_le hl' (by omega) (by omega))⟩
    obtain ⟨r, i', j', k', e, d1, d2, d3, g1, g2, g3, hg⟩ := hin (tab hx h1 a1 a2) (tab hy h2 b1 b2) (tab hy h3 c1 c2)
    refine ⟨r, e, ?_⟩
    rw [solid_agree hx hy (gridVal xs.length ys.length vals) h1 h2 h3 d1 d2 d3 a1 a2 b1 b2 c1 c2 g1.1 g1.2 g2.1 g2.2 g3.1 g3.2]
    exact hg

/-! ### Grid points -/

theorem weight_lo (x1 x2 : ℚ) : weightR x1 x1 x2 = 0 := by
  unfold weightR
  rw [sub_self, r64_zero, zero_div, r64_zero]

theorem weight_hi {x1 x2 : ℚ} (h : x1 < x2) : weightR x2 x1 x2 = 1 := by
  unfold weightR
  have hd : r64 (x2 - x1) ≠ 0 := by
    intro h0
    have := (acc_sub h.le (x := x2) (y := x1)).1
    rw [h0, zero_sub, abs_neg, abs_of_pos (by linarith)] at this
    norm_num at this
    linarith
  rw [div_self hd]
  exact f64_of 1 0 (by norm_num) (by norm_num)

theorem mix_zero {v : ℚ} (h : Float64 v) (w : ℚ) : mixR 0 v w = v := by
  unfold mixR
  rw [sub_zero, f64_of (x := 1) 1 0 (by norm_num) (by norm_num), mul_one, mul_zero, r64_zero, add_zero, r64_float h, r64_float h]

theorem mix_one (v : ℚ) {w : ℚ} (h : Float64 w) : mixR 1 v w = w := by
  unfold mixR
  rw [sub_self, r64_zero, mul_zero, r64_zero, zero_add, mul_one, r64_float h, r64_float h]

/-- The weight of a point of the table is 0 or 1. -/
theorem weight_knot {xs : List ℚ} (hi : Increasing xs) {i n : ℕ} (hn : n < xs.length) (h1 : i + 1 < xs.length) (h2 : xs.getD i 0 ≤ xs.getD n 0) (h3 : xs.getD n 0 ≤ xs.getD (i + 1) 0) :
    (n = i ∧ weightR (xs.getD n 0) (xs.getD i 0) (xs.getD (i + 1) 0) = 0) ∨ (n = i + 1 ∧ weightR (xs.getD n 0) (xs.getD i 0) (xs.getD (i + 1) 0) = 1) := by
  rcases Nat.lt_or_ge n i with h | h
  · have := inc_lt hi h (by omega)
    linarith
  rcases Nat.lt_or_ge (i + 1) n with h' | h'
  · have := inc_lt hi h' hn
    linarith
  rcases (by omega : n = i ∨ n = i + 1) with rfl | rfl
  · exact Or.inl ⟨rfl, weight_lo _ _⟩
  · exact Or.inr ⟨rfl, weight_hi (inc_lt hi (by omega) h1)⟩

/-- **C136 (partial).** At the points of the grid `Eval` returns exactly the values of the table (when these are float64 numbers): unlike `Linear` (`C123_knots_false`), whatever the spacing. -/
theorem C136_knots_partial (xs ys vals : List ℚ) (hx2 : 2 ≤ xs.length) (hy2 : 2 ≤ ys.length) (hx : Increasing xs) (hy : Increasing ys) (hl : vals.length = xs.length * ys.length * ys.length)
    (hv : ∀ v ∈ vals, Float64 v) (i j k : ℕ) (hi : i < xs.length) (hj : j < ys.length) (hk : k < ys.length) :
    trilinearR xs ys ys vals (xs.getD i 0) (ys.getD j 0) (ys.getD k 0) = some (gridVal xs.length ys.length vals i j k) := by
  have tab : ∀ {l : List ℚ} {n : ℕ}, Increasing l → n < l.length → l.getD 0 0 ≤ l.getD n 0 ∧ l.getD n 0 ≤ l.getD (l.length - 1) 0 := fun hl' hn =>
    ⟨inc_le hl' (Nat.zero_le _) hn, inc_le hl' (by omega) (by omega)⟩
  obtain ⟨i', ei, i1, i2, i3⟩ := (searchR_spec xs hx2 hx _).1 (tab hx hi)
  obtain ⟨j', ej, j1, j2, j3⟩ := (searchR_spec ys hy2 hy _).1 (tab hy hj)
  obtain ⟨k', ek, k1, k2, k3⟩ := (searchR_spec ys hy2 hy _).1 (tab hy hk)
  have hf : ∀ a b c, Float64 (gridVal xs.length ys.length vals a b c) := by
    intro a b c
    unfold gridVal
    rcases Nat.lt_or_ge (a + b * xs.length + c * xs.length * ys.length) vals.length with h | h
    · rw [List.getD_eq_getElem _ _ h]
      exact hv _ (List.getElem_mem h)
    · rw [List.getD_eq_default _ _ h]
      exact ⟨0, 0, by norm_num, by norm_num⟩
  rw [trilinearR_eq xs ys ys vals hl rfl _ _ _ ei ej ek i1 j1 k1]
  dsimp only
  rcases weight_knot hx hi i1 i2 i3 with ⟨a, wa⟩ | ⟨a, wa⟩ <;> rcases weight_knot hy hj j1 j2 j3 with ⟨b, wb⟩ | ⟨b, wb⟩ <;> rcases weight_knot hy hk k1 k2 k3 with ⟨c, wc⟩ | ⟨c, wc⟩ <;>
    (rw [wa, wb, wc, a, b, c]; simp only [mix_zero (hf _ _ _), mix_one _ (hf _ _ _), Nat.add_zero])

/-! ### The third table -/

/-- Whatever the third table: the third coordinate has to lie in the second one. -/
theorem trilinearR_out (xs ys zs vals : List ℚ) (hy2 : 2 ≤ ys.length) (hy : Increasing ys) (x y z : ℚ) (h : ¬ InTable ys z) : trilinearR xs ys zs vals x y z = none := by
  unfold trilinearR
  split
  · rfl
  · have : searchR ys z = none := by
      refine (searchR_spec ys hy2 hy z).2 ?_
      by_contra hc
      rw [not_or, not_lt, not_lt] at hc
      exact h hc
    rw [this]
    cases searchR xs x <;> cases searchR ys y <;> rfl

/-- C136 is false when the third table is not the second one: points of the grid outside of the range of the second table panic, and points within both ranges are looked up at the wrong place: with the values `z`
themselves at `z` = 0, 4 and the second table 0, 2, the value at `z` = 1 is 2. -/
theorem C136_third_false :
    (∀ xs ys zs vals : List ℚ, 2 ≤ ys.length → Increasing ys → ∀ i j k, k < zs.length → ys.getD (ys.length - 1) 0 < zs.getD k 0 →
      trilinearR xs ys zs vals (xs.getD i 0) (ys.getD j 0) (zs.getD k 0) = none) ∧
    trilinearR [0, 1] [0, 2] [0, 4] [0, 0, 0, 0, 4, 4, 4, 4] 0 0 1 = some 2 := by
  constructor
  · intro xs ys zs vals h2 hi i j k _ hk
    exact trilinearR_out xs ys zs vals h2 hi _ _ _ fun h => by
      have := h.2
      linarith
  · have hx : Increasing [0, 1] := by unfold Increasing; norm_num
    have hy : Increasing [0, 2] := by unfold Increasing; norm_num
    obtain ⟨i, ei, i1, -, -⟩ := (searchR_spec [0, 1] (by simp) hx 0).1 ⟨by norm_num, by norm_num⟩
    obtain ⟨j, ej, j1, -, -⟩ := (searchR_spec [0, 2] (by simp) hy 0).1 ⟨by norm_num, by norm_num⟩
    obtain ⟨k, ek, k1, -, -⟩ := (searchR_spec [0, 2] (by simp) hy 1).1 ⟨by norm_num, by norm_num⟩
    have i0 : i = 0 := by simp at i1; omega
    have j0 : j = 0 := by simp at j1; omega
    have k0 : k = 0 := by simp at k1; omega
    subst i0 j0 k0
    rw [trilinearR_eq [0, 1] [0, 2] [0, 4] _ rfl rfl _ _ _ ei ej ek i1 j1 k1]
    have f0 : Float64 0 := ⟨0, 0, by norm_num, by norm_num⟩
    have f4 : Float64 4 := ⟨4, 0, by norm_num, by norm_num⟩
    have w0 : weightR 0 0 1 = 0 := weight_lo 0 1
    have w0' : weightR 0 0 2 = 0 := weight_lo 0 2
    have w1 : weightR 1 0 2 = 1 / 2 := by
      unfold weightR
      rw [sub_zero, sub_zero, f64_of (x := 1) 1 0 (by norm_num) (by norm_num), f64_of (x := 2) 2 0 (by norm_num) (by norm_num)]
      exact f64_of 1 (-1) (by norm_num) (by norm_num)
    dsimp only [gridVal, List.length_cons, List.length_nil, List.getD_cons_zero, List.getD_cons_succ]
    norm_num only [List.getD_cons_zero, List.getD_cons_succ]
    rw [w0, w0', w1, mix_zero f0, mix_zero f4, mix_zero f0, mix_zero f4]
    unfold mixR
    rw [zero_mul, r64_zero, zero_add]
    have e : r64 (4 * (1 / 2)) = 2 := by
      rw [show (4 * (1 / 2) : ℚ) = 2 by norm_num]
      exact f64_of 2 0 (by norm_num) (by norm_num)
    rw [e]
    exact congrArg some (f64_of 2 0 (by norm_num) (by norm_num))

/-! ### Examples: the hypotheses are met -/

example : Increasing [0, 3] ∧ Increasing [0, 1, 7] ∧ (List.map (fun n : ℕ => (n : ℚ)) (List.range 18)).length = ([0, 3] : List ℚ).length * ([0, 1, 7] : List ℚ).length * ([0, 1, 7] : List ℚ).length ∧
    (∀ v ∈ List.map (fun n : ℕ => (n : ℚ)) (List.range 18), Float64 v ∧ |v| ≤ 17) ∧
    trilinearR [0, 3] [0, 1, 7] [0, 1, 7] (List.map (fun n : ℕ => (n : ℚ)) (List.range 18)) 3 7 1 = some 11 ∧
    trilinearR [0, 3] [0, 1, 7] [0, 1, 7] (List.map (fun n : ℕ => (n : ℚ)) (List.range 18)) 3 8 1 = none ∧
    ∃ r, trilinearR [0, 3] [0, 1, 7] [0, 1, 7] (List.map (fun n : ℕ => (n : ℚ)) (List.range 18)) 1 3 5 = some r ∧ |r - 13| ≤ 17 / 2 ^ 44 := by
  have hx : Increasing [0, 3] := by unfold Increasing; norm_num
  have hy : Increasing [0, 1, 7] := by unfold Increasing; norm_num
  have hv : ∀ v ∈ List.map (fun n : ℕ => (n : ℚ)) (List.range 18), Float64 v ∧ |v| ≤ 17 := by
    intro v hv
    rw [List.mem_map] at hv
    obtain ⟨n, hn, rfl⟩ := hv
    rw [List.mem_range] at hn
    have h17 : (n : ℚ) ≤ 17 := by exact_mod_cast (by omega : n ≤ 17)
    refine ⟨⟨n, 0, ?_, by simp⟩, by rw [abs_of_nonneg (Nat.cast_nonneg n)]; exact h17⟩
    rw [abs_of_nonneg (by positivity)]
    omega
  have hl : (List.map (fun n : ℕ => (n : ℚ)) (List.range 18)).length = ([0, 3] : List ℚ).length * ([0, 1, 7] : List ℚ).length * ([0, 1, 7] : List ℚ).length := by simp
  refine ⟨hx, hy, hl, hv, ?_, ?_, ?_⟩
  · have := C136_knots_partial [0, 3] [0, 1, 7] _ (by simp) (by simp) hx hy hl (fun v h => (hv v h).1) 1 2 1 (by simp) (by simp) (by simp)
    rw [show gridVal ([0, 3] : List ℚ).length ([0, 1, 7] : List ℚ).length (List.map (fun n : ℕ => (n : ℚ)) (List.range 18)) 1 2 1 = 11 by
      unfold gridVal; rw [List.getD_eq_getElem _ _ (by simp)]; simp] at this
    exact this
  · refine (C136_trilinear_partial [0, 3] [0, 1, 7] _ 17 (by simp) (by simp) hx hy hl (fun v h => (hv v h).2) 3 8 1).1.mpr ?_
    rintro ⟨-, h, -⟩
    have := h.2
    norm_num at this
  · obtain ⟨r, e, hr⟩ := (C136_trilinear_partial [0, 3] [0, 1, 7] _ 17 (by simp) (by simp) hx hy hl (fun v h => (hv v h).2) 1 3 5).2 0 1 1 (by simp) (by simp) (by simp) (by norm_num) (by norm_num) (by norm_num) (by norm_num) (by norm_num) (by norm_num)
    refine ⟨r, e, ?_⟩
    have g : ∀ a b c, a + b * 2 + c * 2 * 3 < 18 → gridVal ([0, 3] : List ℚ).length ([0, 1, 7] : List ℚ).length (List.map (fun n : ℕ => (n : ℚ)) (List.range 18)) a b c = (a + b * 2 + c * 2 * 3 : ℕ) := by
      intro a b c h
      unfold gridVal
      rw [List.getD_eq_getElem _ _ (by simpa using h)]
      simp
    dsimp only [solidAt] at hr
    rw [g _ _ _ (by norm_num), g _ _ _ (by norm_num), g _ _ _ (by norm_num), g _ _ _ (by norm_num), g _ _ _ (by norm_num), g _ _ _ (by norm_num), g _ _ _ (by norm_num), g _ _ _ (by norm_num)] at hr
    norm_num [lineAt] at hr ⊢
    exact hr

end Shellfish.Round
