/-
C42: bilinear and trilinear interpolation.
-/
import Verif.Props.Interp

namespace Shellfish.Interp

variable {K : Type} [Field K] [LinearOrder K] [FloorRing K] [IsStrictOrderedRing K]

omit [IsStrictOrderedRing K] in
theorem Good.le {s : Searcher K} {X : Nat → K} {n : Nat} (hg : Good s X n) {a b : Nat} (hab : a ≤ b) (hb : b < n) : X a ≤ X b := by
  rcases Nat.eq_or_lt_of_le hab with h | h
  · rw [h]
  · exact (hg.mono a b h hb).le

omit [IsStrictOrderedRing K] in
theorem Good.found' {s : Searcher K} {X : Nat → K} {n : Nat} (hg : Good s X n) {i : Nat} {x : K} (hi : i + 1 < n) (h1 : X i ≤ x) (h2 : x ≤ X (i + 1)) :
    ∃ j : Nat, j + 1 < n ∧ s.search x = some (j : Int) ∧ X j ≤ x ∧ x ≤ X (j + 1) :=
  hg.found x (le_trans (hg.le (Nat.zero_le i) (by omega)) h1) (le_trans h2 (hg.le (by omega) (by omega)))

/-- Specification: bilinear interpolation in the cell `(i, j)` is linear interpolation in `y` of the values which are interpolated in `x`. -/
def cell2 (X Y : Nat → K) (v : Nat → Nat → K) (i j : Nat) (x y : K) : K := segment Y (fun b => segment X (fun a => v a b) i x) j y

omit [IsStrictOrderedRing K] [FloorRing K] in
theorem grid_index {nx ny a b : Nat} (ha : a < nx) (hb : b < ny) : a + nx * b < nx * ny := by
  calc a + nx * b < nx + nx * b := by omega
    _ = nx * (b + 1) := by ring
    _ ≤ nx * ny := Nat.mul_le_mul_left _ hb

omit [IsStrictOrderedRing K] in
theorem BiLinear.eval_good {sx sy : Searcher K} {X Y : Nat → K} {nx ny : Nat} {vals : List K} (hx : Good sx X nx) (hy : Good sy Y ny) (hl : nx * ny = vals.length)
    {i j : Nat} {x y : K} (hi : i + 1 < nx) (hj : j + 1 < ny) (h1 : X i ≤ x) (h2 : x ≤ X (i + 1)) (h3 : Y j ≤ y) (h4 : y ≤ Y (j + 1)) :
    BiLinear.eval ⟨sx, sy, vals, nx⟩ x y = some (cell2 X Y (fun a b => vals.getD (a + nx * b) 0) i j x y) := by
  obtain ⟨k, hk, hsx, hk1, hk2⟩ := hx.found' hi h1 h2
  obtain ⟨l, hll, hsy, hl1, hl2⟩ := hy.found' hj h3 h4
  have hxy : ∀ a b, a < nx → b < ny → a + nx * b < vals.length := fun a b ha hb => hl ▸ grid_index ha hb
  unfold BiLinear.eval
  have ek : ((k : Int) + 1) = ((k + 1 : Nat) : Int) := by push_cast; rfl
  have el : ((l : Int) + 1) = ((l + 1 : Nat) : Int) := by push_cast; rfl
  have e11 : (k : Int) + (nx : Int) * (l : Int) = ((k + nx * l : Nat) : Int) := by push_cast; rfl
  have e12 : (k : Int) + (nx : Int) * ((l + 1 : Nat) : Int) = ((k + nx * (l + 1) : Nat) : Int) := by push_cast; rfl
  have e21 : ((k + 1 : Nat) : Int) + (nx : Int) * (l : Int) = ((k + 1 + nx * l : Nat) : Int) := by push_cast; rfl
  have e22 : ((k + 1 : Nat) : Int) + (nx : Int) * ((l + 1 : Nat) : Int) = ((k + 1 + nx * (l + 1) : Nat) : Int) := by push_cast; rfl
  have hnk : ¬ ((k : Int) + 1 = (nx : Int)) := by omega
  have hnl : ¬ ((l : Int) + 1 = (ny : Int)) := by omega
  simp only [hsx, hsy, hx.len, hy.len, Option.bind_eq_bind, Option.bind_some, if_neg hnk, if_neg hnl]
  simp only [ek, el, e11, e12, e21, e22, hx.val k (by omega), hx.val (k + 1) hk, hy.val l (by omega), hy.val (l + 1) hll, Option.bind_some,
    getI_nat vals _ (hxy k l (by omega) (by omega)), getI_nat vals _ (hxy k (l + 1) (by omega) hll), getI_nat vals _ (hxy (k + 1) l hk (by omega)),
    getI_nat vals _ (hxy (k + 1) (l + 1) hk hll)]
  have hcell : cell2 X Y (fun a b => vals.getD (a + nx * b) 0) i j x y = cell2 X Y (fun a b => vals.getD (a + nx * b) 0) k l x y := by
    unfold cell2
    rw [segment_unique hy.mono _ hj hll h3 h4 hl1 hl2]
    congr 1
    funext b
    exact segment_unique hx.mono _ hi hk h1 h2 hk1 hk2
  rw [hcell]
  unfold cell2 segment
  have hdx : X (k + 1) - X k ≠ 0 := sub_ne_zero.mpr (hx.mono k (k + 1) (by omega) hk).ne'
  have hdy : Y (l + 1) - Y l ≠ 0 := sub_ne_zero.mpr (hy.mono l (l + 1) (by omega) hll).ne'
  congr 1
  field_simp
  ring

omit [FloorRing K] in
theorem cell2_between (X Y : Nat → K) (v : Nat → Nat → K) (i j : Nat) (x y lo hi : K) (hx : X i < X (i + 1)) (hy : Y j < Y (j + 1))
    (h1 : X i ≤ x) (h2 : x ≤ X (i + 1)) (h3 : Y j ≤ y) (h4 : y ≤ Y (j + 1))
    (hlo : ∀ a b, (a = i ∨ a = i + 1) → (b = j ∨ b = j + 1) → lo ≤ v a b) (hhi : ∀ a b, (a = i ∨ a = i + 1) → (b = j ∨ b = j + 1) → v a b ≤ hi) :
    lo ≤ cell2 X Y v i j x y ∧ cell2 X Y v i j x y ≤ hi := by
  unfold cell2
  have inner : ∀ b, (b = j ∨ b = j + 1) → lo ≤ segment X (fun a => v a b) i x ∧ segment X (fun a => v a b) i x ≤ hi := fun b hb =>
    ⟨le_trans (le_min (hlo _ _ (Or.inl rfl) hb) (hlo _ _ (Or.inr rfl) hb)) (segment_between X (fun a => v a b) i x hx h1 h2).1,
      le_trans (segment_between X (fun a => v a b) i x hx h1 h2).2 (max_le (hhi _ _ (Or.inl rfl) hb) (hhi _ _ (Or.inr rfl) hb))⟩
  have := segment_between Y (fun b => segment X (fun a => v a b) i x) j y hy h3 h4
  exact ⟨le_trans (le_min (inner j (Or.inl rfl)).1 (inner (j + 1) (Or.inr rfl)).1) this.1,
    le_trans this.2 (max_le (inner j (Or.inl rfl)).2 (inner (j + 1) (Or.inr rfl)).2)⟩

omit [FloorRing K] [IsStrictOrderedRing K] [LinearOrder K] in
theorem cell2_corner (X Y : Nat → K) (v : Nat → Nat → K) (i j : Nat) : cell2 X Y v i j (X i) (Y j) = v i j := by
  unfold cell2; rw [segment_left, segment_left]

/-- C42: bilinear interpolation on increasing tables.  In every cell the value is the bilinear function of the four corners, so it is bounded by them, and a table point gets its own
value; a point outside of the grid panics. -/
theorem C42_bilinear (xs ys vals : List K) (hsx : xs.Pairwise (· < ·)) (hsy : ys.Pairwise (· < ·)) (hx2 : 2 ≤ xs.length) (hy2 : 2 ≤ ys.length) (hl : xs.length * ys.length = vals.length) :
    ∃ bi, newBiLinear xs ys vals = some bi ∧
      (∀ (i j : Nat) (x y : K), i + 1 < xs.length → j + 1 < ys.length → xs.getD i 0 ≤ x → x ≤ xs.getD (i + 1) 0 → ys.getD j 0 ≤ y → y ≤ ys.getD (j + 1) 0 →
        ∃ v, bi.eval x y = some v ∧
          v = cell2 (fun a => xs.getD a 0) (fun b => ys.getD b 0) (fun a b => vals.getD (a + xs.length * b) 0) i j x y ∧
          (∀ lo, (∀ a b, (a = i ∨ a = i + 1) → (b = j ∨ b = j + 1) → lo ≤ vals.getD (a + xs.length * b) 0) → lo ≤ v) ∧
          (∀ hi, (∀ a b, (a = i ∨ a = i + 1) → (b = j ∨ b = j + 1) → vals.getD (a + xs.length * b) 0 ≤ hi) → v ≤ hi)) ∧
      (∀ i j, i < xs.length → j < ys.length → bi.eval (xs.getD i 0) (ys.getD j 0) = some (vals.getD (i + xs.length * j) 0)) ∧
      ∀ x y, x < xs.getD 0 0 ∨ xs.getD (xs.length - 1) 0 < x ∨ y < ys.getD 0 0 ∨ ys.getD (ys.length - 1) 0 < y → bi.eval x y = none := by
  obtain ⟨sx, hsx', hgx⟩ := good_init hsx hx2
  obtain ⟨sy, hsy', hgy⟩ := good_init hsy hy2
  refine ⟨⟨sx, sy, vals, xs.length⟩, ?_, ?_, ?_, ?_⟩
  · unfold newBiLinear
    rw [hsx', hsy']
    simp only [Option.bind_eq_bind, Option.bind_some]
    rw [if_neg (by simp [hl])]
  · intro i j x y hi hj h1 h2 h3 h4
    have hb := fun lo hi' => cell2_between (fun a => xs.getD a 0) (fun b => ys.getD b 0) (fun a b => vals.getD (a + xs.length * b) 0) i j x y lo hi'
      (getD_lt hsx (by omega) hi) (getD_lt hsy (by omega) hj) h1 h2 h3 h4
    refine ⟨_, BiLinear.eval_good hgx hgy hl hi hj h1 h2 h3 h4, rfl, fun lo hlo => ?_, fun hi' hhi => ?_⟩
    · exact (hb lo (max (max (vals.getD (i + xs.length * j) 0) (vals.getD (i + 1 + xs.length * j) 0)) (max (vals.getD (i + xs.length * (j + 1)) 0) (vals.getD (i + 1 + xs.length * (j + 1)) 0)))
        hlo (by rintro a b (rfl | rfl) (rfl | rfl) <;> simp)).1
    · exact (hb (min (min (vals.getD (i + xs.length * j) 0) (vals.getD (i + 1 + xs.length * j) 0)) (min (vals.getD (i + xs.length * (j + 1)) 0) (vals.getD (i + 1 + xs.length * (j + 1)) 0))) hi'
        (by rintro a b (rfl | rfl) (rfl | rfl) <;> simp) hhi).2
  · intro i j hi hj
    -- an interval which starts or ends at the table point
    have pick : ∀ (zs : List K), zs.Pairwise (· < ·) → 2 ≤ zs.length → ∀ i, i < zs.length → ∃ k, k + 1 < zs.length ∧ zs.getD k 0 ≤ zs.getD i 0 ∧ zs.getD i 0 ≤ zs.getD (k + 1) 0 ∧ (k = i ∨ k + 1 = i) := by
      intro zs hz h2 i hi
      by_cases h : i + 1 < zs.length
      · exact ⟨i, h, le_refl _, (getD_lt hz (by omega) h).le, Or.inl rfl⟩
      · obtain ⟨k, rfl⟩ : ∃ k, i = k + 1 := ⟨i - 1, by omega⟩
        exact ⟨k, hi, (getD_lt hz (by omega) hi).le, le_refl _, Or.inr rfl⟩
    obtain ⟨k, hk, hk1, hk2, hki⟩ := pick xs hsx hx2 i hi
    obtain ⟨l, hll, hl1, hl2, hlj⟩ := pick ys hsy hy2 j hj
    rw [BiLinear.eval_good hgx hgy hl hk hll hk1 hk2 hl1 hl2]
    have hX : ∀ b, segment (fun a => xs.getD a 0) (fun a => vals.getD (a + xs.length * b) 0) k (xs.getD i 0) = vals.getD (i + xs.length * b) 0 := by
      intro b
      rcases hki with rfl | rfl
      · exact segment_left (fun a => xs.getD a 0) (fun a => vals.getD (a + xs.length * b) 0) k
      · exact segment_right (fun a => xs.getD a 0) (fun a => vals.getD (a + xs.length * b) 0) k (getD_lt hsx (by omega) hk)
    unfold cell2
    simp only [hX]
    congr 1
    rcases hlj with rfl | rfl
    · exact segment_left (fun a => ys.getD a 0) (fun b => vals.getD (i + xs.length * b) 0) l
    · exact segment_right (fun a => ys.getD a 0) (fun b => vals.getD (i + xs.length * b) 0) l (getD_lt hsy (by omega) hll)
  · intro x y h
    unfold BiLinear.eval
    dsimp only
    by_cases hx : x < xs.getD 0 0 ∨ xs.getD (xs.length - 1) 0 < x
    · rw [hgx.outside x hx]; rfl
    · rw [hgy.outside y (by tauto)]
      cases sx.search x <;> rfl

example : ∃ bi, newBiLinear (K := ℚ) [0, 1] [0, 2] [1, 2, 3, 8] = some bi ∧ bi.eval (1 / 2) 1 = some (7 / 2) := by
  obtain ⟨bi, h, hev, _⟩ := C42_bilinear (K := ℚ) [0, 1] [0, 2] [1, 2, 3, 8] (by norm_num) (by norm_num) (by decide) (by decide) (by decide)
  refine ⟨bi, h, ?_⟩
  obtain ⟨v, h1, h2, _⟩ := hev 0 0 (1 / 2) 1 (by decide) (by decide) (by norm_num) (by norm_num) (by norm_num) (by norm_num)
  rw [h1, h2]
  norm_num [cell2, segment]

/-- C42: the same for uniform grids with positive steps. -/
theorem C42_uniform_bilinear (x0 dx y0 dy : K) (nx ny : Nat) (vals : List K) (hdx : 0 < dx) (hdy : 0 < dy) (hx2 : 2 ≤ nx) (hy2 : 2 ≤ ny) (hl : nx * ny = vals.length) :
    ∃ bi, newUniformBiLinear x0 dx nx y0 dy ny vals = some bi ∧
      ∀ (i j : Nat) (x y : K), i + 1 < nx → j + 1 < ny → x0 + i * dx ≤ x → x ≤ x0 + (i + 1) * dx → y0 + j * dy ≤ y → y ≤ y0 + (j + 1) * dy →
        bi.eval x y = some (cell2 (fun a => x0 + a * dx) (fun b => y0 + b * dy) (fun a b => vals.getD (a + nx * b) 0) i j x y) := by
  refine ⟨⟨_, _, vals, nx⟩, by unfold newUniformBiLinear; rw [if_neg (by push_neg; exact_mod_cast hl)], ?_⟩
  intro i j x y hi hj h1 h2 h3 h4
  have e1 : (fun i : Nat => (i : K) * dx + x0) = fun a : Nat => x0 + (a : K) * dx := by funext a; ring
  have e2 : (fun i : Nat => (i : K) * dy + y0) = fun a : Nat => y0 + (a : K) * dy := by funext a; ring
  exact BiLinear.eval_good (e1 ▸ good_unif hdx hx2) (e2 ▸ good_unif hdy hy2) hl hi hj h1 (by push_cast; exact h2) h3 (by push_cast; exact h4)

/-- Specification: trilinear interpolation. -/
def cell3 (X Y Z : Nat → K) (v : Nat → Nat → Nat → K) (i j k : Nat) (x y z : K) : K := segment Z (fun c => cell2 X Y (fun a b => v a b c) i j x y) k z

omit [IsStrictOrderedRing K] in
theorem TriLinear.eval_good {sx sy sz : Searcher K} {X Y : Nat → K} {nx ny nz : Nat} {vals : List K} (hx : Good sx X nx) (hy : Good sy Y ny) (hz : ny ≤ nz) (hl : nx * ny * nz = vals.length)
    {i j k : Nat} {x y z : K} (hi : i + 1 < nx) (hj : j + 1 < ny) (hk : k + 1 < ny) (h1 : X i ≤ x) (h2 : x ≤ X (i + 1)) (h3 : Y j ≤ y) (h4 : y ≤ Y (j + 1))
    (h5 : Y k ≤ z) (h6 : z ≤ Y (k + 1)) :
    TriLinear.eval ⟨sx, sy, sz, vals, nx, ny⟩ x y z = some (cell3 X Y Y (fun a b c => vals.getD (a + nx * b + nx * ny * c) 0) i j k x y z) := by
  obtain ⟨i', hi', hsx, hi1, hi2⟩ := hx.found' hi h1 h2
  obtain ⟨j', hj', hsy, hj1, hj2⟩ := hy.found' hj h3 h4
  obtain ⟨k', hk', hsz, hk1, hk2⟩ := hy.found' hk h5 h6
  have hxy : ∀ a b c, a < nx → b < ny → c < ny → a + nx * b + nx * ny * c < vals.length := fun a b c ha hb hc => by
    rw [← hl]
    exact grid_index (grid_index ha hb) (by omega)
  unfold TriLinear.eval
  have ek : ∀ k : Nat, ((k : Int) + 1) = ((k + 1 : Nat) : Int) := fun k => by push_cast; rfl
  have e111 : (i' : Int) + (j' : Int) * (nx : Int) + (k' : Int) * (ny : Int) * (nx : Int) = ((i' + nx * j' + nx * ny * k' : Nat) : Int) := by push_cast; ring
  have e112 : ((i' + nx * j' + nx * ny * k' : Nat) : Int) + (nx : Int) * (ny : Int) = ((i' + nx * j' + nx * ny * (k' + 1) : Nat) : Int) := by push_cast; ring
  have e121 : ((i' + nx * j' + nx * ny * k' : Nat) : Int) + (nx : Int) = ((i' + nx * (j' + 1) + nx * ny * k' : Nat) : Int) := by push_cast; ring
  have e122 : ((i' + nx * (j' + 1) + nx * ny * k' : Nat) : Int) + (nx : Int) * (ny : Int) = ((i' + nx * (j' + 1) + nx * ny * (k' + 1) : Nat) : Int) := by push_cast; ring
  have e211 : ((i' + nx * j' + nx * ny * k' : Nat) : Int) + 1 = ((i' + 1 + nx * j' + nx * ny * k' : Nat) : Int) := by push_cast; ring
  have e212 : ((i' + 1 + nx * j' + nx * ny * k' : Nat) : Int) + (nx : Int) * (ny : Int) = ((i' + 1 + nx * j' + nx * ny * (k' + 1) : Nat) : Int) := by push_cast; ring
  have e221 : ((i' + 1 + nx * j' + nx * ny * k' : Nat) : Int) + (nx : Int) = ((i' + 1 + nx * (j' + 1) + nx * ny * k' : Nat) : Int) := by push_cast; ring
  have e222 : ((i' + 1 + nx * (j' + 1) + nx * ny * k' : Nat) : Int) + (nx : Int) * (ny : Int) = ((i' + 1 + nx * (j' + 1) + nx * ny * (k' + 1) : Nat) : Int) := by push_cast; ring
  dsimp only
  rw [hsx, hsy, hsz]
  dsimp only [Option.bind_eq_bind, Option.bind_some]
  rw [e111, e112, e121, e122, e211, e212, e221, e222]
  rw [getI_nat vals _ (hxy i' j' k' (by omega) (by omega) (by omega)), getI_nat vals _ (hxy i' j' (k' + 1) (by omega) (by omega) hk'), getI_nat vals _ (hxy i' (j' + 1) k' (by omega) hj' (by omega)),
    getI_nat vals _ (hxy i' (j' + 1) (k' + 1) (by omega) hj' hk'), getI_nat vals _ (hxy (i' + 1) j' k' hi' (by omega) (by omega)), getI_nat vals _ (hxy (i' + 1) j' (k' + 1) hi' (by omega) hk'),
    getI_nat vals _ (hxy (i' + 1) (j' + 1) k' hi' hj' (by omega)), getI_nat vals _ (hxy (i' + 1) (j' + 1) (k' + 1) hi' hj' hk')]
  rw [ek, ek, ek, hx.val i' (by omega), hx.val (i' + 1) hi', hy.val j' (by omega), hy.val (j' + 1) hj', hy.val k' (by omega), hy.val (k' + 1) hk']
  dsimp only [Option.bind_some]
  have hcell : cell3 X Y Y (fun a b c => vals.getD (a + nx * b + nx * ny * c) 0) i j k x y z = cell3 X Y Y (fun a b c => vals.getD (a + nx * b + nx * ny * c) 0) i' j' k' x y z := by
    unfold cell3 cell2
    rw [segment_unique hy.mono _ hk hk' h5 h6 hk1 hk2]
    congr 1
    funext c
    rw [segment_unique hy.mono _ hj hj' h3 h4 hj1 hj2]
    congr 1
    funext b
    exact segment_unique hx.mono _ hi hi' h1 h2 hi1 hi2
  rw [hcell]
  unfold triMix cell3 cell2 segment
  congr 1
  ring

/-- C42 (partial): trilinear interpolation is right when the table of the third coordinate is the table of the second one (see `C42_trilinear_false` for other tables). -/
theorem C42_trilinear_partial (xs ys vals : List K) (hsx : xs.Pairwise (· < ·)) (hsy : ys.Pairwise (· < ·)) (hx2 : 2 ≤ xs.length) (hy2 : 2 ≤ ys.length)
    (hl : xs.length * ys.length * ys.length = vals.length) :
    ∃ tri, newTriLinear xs ys ys vals = some tri ∧
      ∀ (i j k : Nat) (x y z : K), i + 1 < xs.length → j + 1 < ys.length → k + 1 < ys.length → xs.getD i 0 ≤ x → x ≤ xs.getD (i + 1) 0 → ys.getD j 0 ≤ y → y ≤ ys.getD (j + 1) 0 →
        ys.getD k 0 ≤ z → z ≤ ys.getD (k + 1) 0 →
        tri.eval x y z = some (cell3 (fun a => xs.getD a 0) (fun b => ys.getD b 0) (fun c => ys.getD c 0) (fun a b c => vals.getD (a + xs.length * b + xs.length * ys.length * c) 0) i j k x y z) := by
  obtain ⟨sx, hsx', hgx⟩ := good_init hsx hx2
  obtain ⟨sy, hsy', hgy⟩ := good_init hsy hy2
  refine ⟨⟨sx, sy, sy, vals, xs.length, ys.length⟩, ?_, ?_⟩
  · unfold newTriLinear
    rw [hsx', hsy']
    simp only [Option.bind_eq_bind, Option.bind_some]
    rw [if_neg (by simp [hl])]
  · intro i j k x y z hi hj hk h1 h2 h3 h4 h5 h6
    exact TriLinear.eval_good hgx hgy (le_refl _) hl hi hj hk h1 h2 h3 h4 h5 h6

/-- C42 is false for trilinear interpolation when the tables of `y` and `z` differ, already for uniform grids: the function `z` on the grid with `z = 0, 10` and the `y` grid `0, 1` is not
reproduced at `z = 1`, where the result is 10, and at `z = 10` the call panics. -/
theorem C42_trilinear_false :
    ∃ tri, newUniformTriLinear (K := ℚ) 0 1 2 0 1 2 0 10 2 [0, 0, 0, 0, 10, 10, 10, 10] = some tri ∧ tri.eval 0 0 1 = some 10 ∧ tri.eval 0 0 10 = none := by
  refine ⟨⟨_, _, _, _, 2, 2⟩, by unfold newUniformTriLinear; rw [if_neg (by decide)], ?_, ?_⟩
  · have := TriLinear.eval_good (K := ℚ) (sz := Searcher.unifInit 0 10 2) (vals := [0, 0, 0, 0, 10, 10, 10, 10]) (good_unif (x0 := 0) (dx := 1) (n := 2) (by norm_num) (by decide))
      (good_unif (x0 := 0) (dx := 1) (n := 2) (by norm_num) (by decide)) (nz := 2) (by decide) (by decide) (i := 0) (j := 0) (k := 0) (x := 0) (y := 0) (z := 1)
      (by decide) (by decide) (by decide) (by norm_num) (by norm_num) (by norm_num) (by norm_num) (by norm_num) (by norm_num)
    refine Eq.trans this ?_
    norm_num [cell3, cell2, segment]
  · unfold TriLinear.eval
    dsimp only
    rw [show (Searcher.unifInit (K := ℚ) 0 1 2).search 10 = none from (good_unif (K := ℚ) (x0 := 0) (dx := 1) (n := 2) (by norm_num) (by decide)).outside 10 (by norm_num)]
    cases (Searcher.unifInit (K := ℚ) 0 1 2).search 0 <;> rfl

end Shellfish.Interp
