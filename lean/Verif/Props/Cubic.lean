/-
C65: bicubic and tricubic interpolators do not depend on the history of the calls, and pass through the grid.
-/
import Verif.Model.Cubic
import Verif.Props.Spline

namespace Shellfish.Interp

variable {K : Type} [Field K] [LinearOrder K] [FloorRing K]

/-- Specification: the value of the spline in `x` through the values at `y` of the splines in `y`, computed from scratch. -/
def bicubic (xs ys vals : List K) (x y : K) : Option K := do
  let row ← (List.range xs.length).mapM fun xi => do
    let sp ← newSpline ys ((List.range ys.length).map fun yi => vals.getD (xs.length * yi + xi) 0)
    sp.eval y
  let sp ← newSpline xs row
  sp.eval x

/-- Specification: the same in three dimensions. -/
def tricubic (xs ys zs vals : List K) (x y z : K) : Option K := do
  let row ← (List.range xs.length).mapM fun xi => do
    let col ← (List.range ys.length).mapM fun yi => do
      let sp ← newSpline zs ((List.range zs.length).map fun zi => vals.getD (xs.length * ys.length * zi + xs.length * yi + xi) 0)
      sp.eval z
    let sp ← newSpline ys col
    sp.eval y
  let sp ← newSpline xs row
  sp.eval x

theorem mapM_bind {α β γ : Type} (f : α → Option β) (g : β → Option γ) : ∀ l : List α, (l.mapM fun a => (f a).bind g) = (l.mapM f).bind fun l' => l'.mapM g
  | [] => rfl
  | a :: l => by
    simp only [List.mapM_cons, Option.bind_eq_bind, Option.pure_def, mapM_bind f g l]
    cases f a with
    | none => rfl
    | some b =>
      cases l.mapM f with
      | none => simp only [Option.bind_some, Option.bind_none]; cases g b <;> rfl
      | some bs => simp

theorem mapM_bind_of {α β γ : Type} (f : α → Option β) (g : β → Option γ) (l : List α) (l' : List β) (h : l.mapM f = some l') : l'.mapM g = l.mapM fun a => (f a).bind g := by
  rw [mapM_bind, h]; rfl

/-- The stored splines belong to the stored `y`. -/
structure BiCubic.Ok (xs ys vals : List K) (bi : BiCubic K) : Prop where
  eqX : bi.xs = xs
  cols : ((List.range xs.length).mapM fun xi => newSpline ys ((List.range ys.length).map fun yi => vals.getD (xs.length * yi + xi) 0)) = some bi.ySplines
  cache : across xs bi.ySplines bi.lastY = some bi.xSpline

theorem BiCubic.Ok.fresh {xs ys vals : List K} {bi : BiCubic K} (h : bi.Ok xs ys vals) (x y : K) : bicubic xs ys vals x y = (across xs bi.ySplines y).bind fun sp => sp.eval x := by
  unfold bicubic across
  simp only [Option.bind_eq_bind]
  rw [← mapM_bind_of _ (fun s : Spline K => s.eval y) _ _ h.cols, Option.bind_assoc]

theorem BiCubic.Ok.eval {xs ys vals : List K} {bi : BiCubic K} (h : bi.Ok xs ys vals) (x y : K) :
    (bi.eval x y).1 = bicubic xs ys vals x y ∧ ((bi.eval x y).1 ≠ none → (bi.eval x y).2.Ok xs ys vals) := by
  rw [h.fresh]
  unfold BiCubic.eval
  rw [h.eqX]
  by_cases hy : y ≠ bi.lastY
  · rw [if_pos hy]
    cases ha : across xs bi.ySplines y with
    | none => exact ⟨rfl, fun hn => absurd rfl hn⟩
    | some sp => exact ⟨rfl, fun _ => ⟨rfl, h.cols, ha⟩⟩
  · rw [if_neg hy]
    rw [not_not.mp hy, h.cache]
    exact ⟨rfl, fun _ => h⟩

theorem newBiCubic_ok {xs ys vals : List K} {bi : BiCubic K} (h : newBiCubic xs ys vals = some bi) : bi.Ok xs ys vals := by
  unfold newBiCubic at h
  by_cases hl : xs.length * ys.length ≠ vals.length
  · rw [if_pos hl] at h; simp at h
  rw [if_neg hl] at h
  simp only [Option.bind_eq_bind, Option.bind_eq_some_iff, Option.some.injEq] at h
  obtain ⟨ss, hss, y0, hy0, sp, hsp, rfl⟩ := h
  exact ⟨rfl, hss, hsp⟩

/-- C65: every sequence of evaluations of a bicubic interpolator gives the values that are computed from scratch for each of its points; the splines that are kept from the calls before
do not matter. -/
theorem C65_bicubic_history (xs ys vals : List K) (bi : BiCubic K) (h : newBiCubic xs ys vals = some bi) (pts : List (K × K)) :
    bi.evalAll pts = pts.mapM fun p => bicubic xs ys vals p.1 p.2 := by
  have key : ∀ bi : BiCubic K, bi.Ok xs ys vals → bi.evalAll pts = pts.mapM fun p => bicubic xs ys vals p.1 p.2 := by
    induction pts with
    | nil => intro bi _; rfl
    | cons p ps ih =>
      intro bi hok
      obtain ⟨h1, h2⟩ := hok.eval p.1 p.2
      unfold BiCubic.evalAll
      rw [List.mapM_cons, ← h1]
      rcases hr : bi.eval p.1 p.2 with ⟨v, bi'⟩
      rw [hr] at h2
      cases v with
      | none => rfl
      | some v =>
        dsimp only
        rw [ih bi' (h2 (by simp))]
        simp only [Option.bind_eq_bind, Option.bind_some, Option.pure_def]
        cases List.mapM (fun p => bicubic xs ys vals p.1 p.2) ps <;> rfl
  exact key bi (newBiCubic_ok h)

theorem mapM_some {α β : Type} (f : α → Option β) (g : α → β) : ∀ (l : List α), (∀ a ∈ l, f a = some (g a)) → l.mapM f = some (l.map g)
  | [], _ => rfl
  | a :: l, h => by
    rw [List.mapM_cons, h a (by simp), mapM_some f g l fun b hb => h b (by simp [hb])]
    rfl

theorem getD_map_range (f : Nat → K) (n i : Nat) (h : i < n) : ((List.range n).map f).getD i 0 = f i := by
  rw [List.getD_eq_getElem _ _ (by simpa using h)]; simp

variable [IsStrictOrderedRing K]

/-- Natural splines through a table, evaluated at a table point. -/
theorem newSpline_bind {xs vals : List K} (hs : xs.Pairwise (· < ·)) (h3 : 3 ≤ xs.length) (hl : vals.length = xs.length) (i : Nat) (hi : i < xs.length) :
    ((newSpline xs vals).bind fun sp => sp.eval (xs.getD i 0)) = some (vals.getD i 0) := by
  obtain ⟨sp, h, hk⟩ := C42_spline_knots true xs vals (by simpa using hs) h3 hl.symm
  rw [h]
  exact hk i hi

/-- C65: on increasing tables with at least three points, a bicubic interpolator can be built and returns the grid values at the grid points, after any sequence of calls that did not
panic. -/
theorem C65_bicubic_grid (xs ys vals : List K) (hx : xs.Pairwise (· < ·)) (hy : ys.Pairwise (· < ·)) (hx3 : 3 ≤ xs.length) (hy3 : 3 ≤ ys.length) (hl : xs.length * ys.length = vals.length) :
    ∃ bi, newBiCubic xs ys vals = some bi ∧ ∀ pts vs, bi.evalAll pts = some vs → ∀ i j, i < xs.length → j < ys.length →
      bi.evalAll (pts ++ [(xs.getD i 0, ys.getD j 0)]) = some (vs ++ [vals.getD (xs.length * j + i) 0]) := by
  have hcol : ∀ xi, ∃ sp, newSpline ys ((List.range ys.length).map fun yi => vals.getD (xs.length * yi + xi) 0) = some sp := fun xi => by
    obtain ⟨sp, h, _⟩ := C42_spline_knots true ys ((List.range ys.length).map fun yi => vals.getD (xs.length * yi + xi) 0) (by simpa using hy) hy3 (by simp)
    exact ⟨sp, h⟩
  choose spl hspl using hcol
  have hspl' : ∀ xi j, j < ys.length → (spl xi).eval (ys.getD j 0) = some (vals.getD (xs.length * j + xi) 0) := fun xi j hj => by
    have := newSpline_bind (vals := (List.range ys.length).map fun yi => vals.getD (xs.length * yi + xi) 0) hy hy3 (by simp) j hj
    rw [hspl, getD_map_range _ _ _ hj] at this
    exact this
  have hcols := mapM_some (fun xi => newSpline ys ((List.range ys.length).map fun yi => vals.getD (xs.length * yi + xi) 0)) spl (List.range xs.length) fun a _ => hspl a
  have hrow : ∀ j, j < ys.length → ((List.range xs.length).map spl).mapM (fun s => s.eval (ys.getD j 0)) = some ((List.range xs.length).map fun xi => vals.getD (xs.length * j + xi) 0) := by
    intro j hj
    rw [mapM_bind_of _ _ _ _ hcols]
    exact mapM_some _ _ _ fun a _ => by rw [hspl a]; exact hspl' a j hj
  have hbuild : ∃ bi, newBiCubic xs ys vals = some bi := by
    unfold newBiCubic
    rw [if_neg (by simp [hl]), hcols]
    have hh : ys.head? = some (ys.getD 0 0) := by
      rw [List.head?_eq_getElem?, List.getElem?_eq_getElem (by omega), List.getD_eq_getElem _ _ (by omega)]
    rw [hh]
    simp only [Option.bind_eq_bind, Option.bind_some]
    unfold across
    rw [hrow 0 (by omega)]
    obtain ⟨sp, h, _⟩ := C42_spline_knots true xs ((List.range xs.length).map fun xi => vals.getD (xs.length * 0 + xi) 0) (by simpa using hx) hx3 (by simp)
    simp only [Option.bind_eq_bind, Option.bind_some]
    rw [h]
    exact ⟨_, rfl⟩
  obtain ⟨bi, hbi⟩ := hbuild
  refine ⟨bi, hbi, fun pts vs hvs i j hi hj => ?_⟩
  have hok := newBiCubic_ok hbi
  rw [C65_bicubic_history xs ys vals bi hbi] at hvs ⊢
  rw [List.mapM_append, hvs]
  have hval : bicubic xs ys vals (xs.getD i 0) (ys.getD j 0) = some (vals.getD (xs.length * j + i) 0) := by
    rw [hok.fresh]
    have hc := hok.cols
    rw [hcols, Option.some.injEq] at hc
    unfold across
    rw [← hc, hrow j hj]
    simp only [Option.bind_eq_bind, Option.bind_some]
    rw [newSpline_bind hx hx3 (by simp) i hi, getD_map_range _ _ _ hi]
  rw [List.mapM_cons, hval]
  rfl

example : ∃ bi, newBiCubic (K := ℚ) [0, 1, 3] [0, 1, 2] [1, 2, 3, 4, 5, 6, 7, 8, 9] = some bi ∧ bi.evalAll [(1, 0), (3, 2), (0, 1)] = some [2, 9, 4] := by
  obtain ⟨bi, h, hg⟩ := C65_bicubic_grid (K := ℚ) [0, 1, 3] [0, 1, 2] [1, 2, 3, 4, 5, 6, 7, 8, 9] (by norm_num) (by norm_num) (by decide) (by decide) (by decide)
  exact ⟨bi, h, hg [(1, 0), (3, 2)] _ (hg [(1, 0)] _ (hg [] _ rfl 1 0 (by decide) (by decide)) 2 2 (by decide) (by decide)) 0 1 (by decide) (by decide)⟩

/-- C65 is false across a panic that is recovered from: after an evaluation at a `y` outside of the table, the next one at the same `y` does not panic but returns the value of the row
before. -/
theorem C65_recovered_panic_false (xs ys vals : List K) (hx : xs.Pairwise (· < ·)) (hx3 : 3 ≤ xs.length) (hys : ys.Pairwise (· < ·)) (hy3 : 3 ≤ ys.length) (y : K) (hy : y < ys.getD 0 0)
    (bi : BiCubic K) (h : newBiCubic xs ys vals = some bi) (x : K) :
    (bi.eval x y).1 = none ∧ ((bi.eval x y).2.eval x y).1 = bicubic xs ys vals x (ys.getD 0 0) := by
  have hok := newBiCubic_ok h
  have hlast : bi.lastY = ys.getD 0 0 := by
    unfold newBiCubic at h
    by_cases hl : xs.length * ys.length ≠ vals.length
    · rw [if_pos hl] at h; simp at h
    rw [if_neg hl] at h
    simp only [Option.bind_eq_bind, Option.bind_eq_some_iff, Option.some.injEq] at h
    obtain ⟨ss, hss, y0, hy0, sp, hsp, rfl⟩ := h
    rw [List.head?_eq_getElem?, List.getElem?_eq_getElem (by omega), Option.some.injEq] at hy0
    rw [List.getD_eq_getElem _ _ (by omega)]
    exact hy0.symm
  have hnone : across xs bi.ySplines y = none := by
    unfold across
    rw [mapM_bind_of _ _ _ _ hok.cols]
    have hn : (List.range xs.length).mapM (fun xi => (newSpline ys ((List.range ys.length).map fun yi => vals.getD (xs.length * yi + xi) 0)).bind fun s => s.eval y) = none := by
      obtain ⟨n, hn⟩ : ∃ n, xs.length = n + 1 := ⟨xs.length - 1, by omega⟩
      rw [hn, List.range_succ_eq_map, List.mapM_cons]
      obtain ⟨sp, p, hsp, _, _, _, hout⟩ := C42_spline true ys ((List.range ys.length).map fun yi => vals.getD ((n + 1) * yi + 0) 0) (by simpa using hys) hy3 (by simp)
      rw [hsp, Option.bind_some, (hout y (by simp only [if_true]; exact Or.inl hy)).1]
      rfl
    rw [hn]
    rfl
  have hev : bi.eval x y = (none, { bi with lastY := y }) := by
    unfold BiCubic.eval
    rw [if_pos (by rw [hlast]; exact hy.ne), hok.eqX, hnone]
  rw [hev]
  refine ⟨rfl, ?_⟩
  unfold BiCubic.eval
  rw [if_neg (by simp)]
  rw [hok.fresh, ← hlast, hok.cache]
  rfl

omit [IsStrictOrderedRing K]

/-- The stored splines belong to the stored `y` and `z`. -/
structure TriCubic.Ok (xs ys zs vals : List K) (tri : TriCubic K) : Prop where
  eqX : tri.xs = xs
  eqY : tri.ys = ys
  cols : ((List.range xs.length).mapM fun xi => (List.range ys.length).mapM fun yi =>
      newSpline zs ((List.range zs.length).map fun zi => vals.getD (xs.length * ys.length * zi + xs.length * yi + xi) 0)) = some tri.zSplines
  cacheZ : (tri.zSplines.mapM fun col => across ys col tri.lastZ) = some tri.ySplines
  cacheY : across xs tri.ySplines tri.lastY = some tri.xSpline

theorem TriCubic.Ok.fresh {xs ys zs vals : List K} {tri : TriCubic K} (h : tri.Ok xs ys zs vals) (x y z : K) :
    tricubic xs ys zs vals x y z = (tri.zSplines.mapM fun col => across ys col z).bind fun ss => (across xs ss y).bind fun sp => sp.eval x := by
  unfold tricubic across
  simp only [Option.bind_eq_bind]
  have h1 : ∀ xi, ((List.range ys.length).mapM fun yi => (newSpline zs ((List.range zs.length).map fun zi => vals.getD (xs.length * ys.length * zi + xs.length * yi + xi) 0)).bind fun sp => sp.eval z) =
      ((List.range ys.length).mapM fun yi => newSpline zs ((List.range zs.length).map fun zi => vals.getD (xs.length * ys.length * zi + xs.length * yi + xi) 0)).bind fun col =>
        col.mapM fun sp => sp.eval z := fun xi => mapM_bind _ _ _
  simp only [h1, Option.bind_assoc]
  rw [mapM_bind, h.cols, Option.bind_some]
  have h2 : (tri.zSplines.mapM fun col => (col.mapM fun sp : Spline K => sp.eval z).bind fun c => (newSpline ys c).bind fun sp : Spline K => sp.eval y) =
      (tri.zSplines.mapM fun col : List (Spline K) => (col.mapM fun sp : Spline K => sp.eval z).bind fun c => newSpline ys c).bind fun ss => ss.mapM fun sp : Spline K => sp.eval y := by
    rw [← mapM_bind]
    simp only [Option.bind_assoc]
  rw [h2, Option.bind_assoc]

theorem TriCubic.Ok.eval {xs ys zs vals : List K} {tri : TriCubic K} (h : tri.Ok xs ys zs vals) (x y z : K) :
    (tri.eval x y z).map Prod.fst = tricubic xs ys zs vals x y z ∧ ∀ r, tri.eval x y z = some r → r.2.Ok xs ys zs vals := by
  rw [h.fresh]
  unfold TriCubic.eval
  by_cases hz : z ≠ tri.lastZ
  · rw [if_pos (Or.inr hz), if_pos hz, h.eqY]
    cases ha : tri.zSplines.mapM fun col => across ys col z with
    | none => exact ⟨rfl, fun r hr => by simp at hr⟩
    | some ss =>
      simp only [Option.map_some, Option.bind_eq_bind, Option.bind_some, h.eqX]
      cases hb : across xs ss y with
      | none => exact ⟨rfl, fun r hr => by simp at hr⟩
      | some sp =>
        simp only [Option.bind_some]
        cases hv : sp.eval x with
        | none => exact ⟨rfl, fun r hr => by simp at hr⟩
        | some v =>
          refine ⟨rfl, fun r hr => ?_⟩
          simp only [Option.bind_some, Option.some.injEq] at hr
          subst hr
          exact ⟨rfl, rfl, h.cols, ha, hb⟩
  · rw [not_not.mp hz, h.cacheZ, Option.bind_some]
    by_cases hy : y ≠ tri.lastY
    · rw [if_pos (Or.inl hy), if_neg (by simp)]
      simp only [Option.bind_eq_bind, Option.bind_some, h.eqX]
      cases hb : across xs tri.ySplines y with
      | none => exact ⟨rfl, fun r hr => by simp at hr⟩
      | some sp =>
        simp only [Option.bind_some]
        cases hv : sp.eval x with
        | none => exact ⟨rfl, fun r hr => by simp at hr⟩
        | some v =>
          refine ⟨rfl, fun r hr => ?_⟩
          simp only [Option.bind_some, Option.some.injEq] at hr
          subst hr
          exact ⟨rfl, h.eqY, h.cols, h.cacheZ, hb⟩
    · rw [if_neg (by simp [not_not.mp hy]), not_not.mp hy, h.cacheY, Option.bind_some]
      cases hv : tri.xSpline.eval x with
      | none => exact ⟨rfl, fun r hr => by simp at hr⟩
      | some v =>
        refine ⟨rfl, fun r hr => ?_⟩
        simp only [Option.map_some, Option.some.injEq] at hr
        subst hr
        exact h

/-- C65: the same for tricubic interpolators. -/
theorem C65_tricubic_history (xs ys zs vals : List K) (tri : TriCubic K) (h : newTriCubic xs ys zs vals = some tri) (pts : List (K × K × K)) :
    tri.evalAll pts = pts.mapM fun p => tricubic xs ys zs vals p.1 p.2.1 p.2.2 := by
  have key : ∀ tri : TriCubic K, tri.Ok xs ys zs vals → tri.evalAll pts = pts.mapM fun p => tricubic xs ys zs vals p.1 p.2.1 p.2.2 := by
    induction pts with
    | nil => intro tri _; rfl
    | cons p ps ih =>
      intro tri hok
      obtain ⟨h1, h2⟩ := hok.eval p.1 p.2.1 p.2.2
      unfold TriCubic.evalAll
      rw [List.mapM_cons, ← h1]
      cases hr : tri.eval p.1 p.2.1 p.2.2 with
      | none => rfl
      | some r =>
        simp only [Option.bind_some, Option.map_some, Option.bind_eq_bind, Option.pure_def]
        rw [ih r.2 (h2 r hr)]
        cases List.mapM (fun p => tricubic xs ys zs vals p.1 p.2.1 p.2.2) ps <;> rfl
  refine key tri ?_
  unfold newTriCubic at h
  by_cases hl : xs.length * ys.length * zs.length ≠ vals.length
  · rw [if_pos hl] at h; simp at h
  rw [if_neg hl] at h
  simp only [Option.bind_eq_bind, Option.bind_eq_some_iff, Option.some.injEq] at h
  obtain ⟨zss, hzss, z0, hz0, ss, hss, y0, hy0, sp, hsp, rfl⟩ := h
  exact ⟨rfl, rfl, hzss, hss, hsp⟩

/-- C65: on increasing tables with at least three points, a tricubic interpolator can be built and returns the grid values at the grid points, after any sequence of calls that did not
panic. -/
theorem C65_tricubic_grid [IsStrictOrderedRing K] (xs ys zs vals : List K) (hx : xs.Pairwise (· < ·)) (hy : ys.Pairwise (· < ·)) (hz : zs.Pairwise (· < ·))
    (hx3 : 3 ≤ xs.length) (hy3 : 3 ≤ ys.length) (hz3 : 3 ≤ zs.length) (hl : xs.length * ys.length * zs.length = vals.length) :
    ∃ tri, newTriCubic xs ys zs vals = some tri ∧ ∀ pts vs, tri.evalAll pts = some vs → ∀ i j k, i < xs.length → j < ys.length → k < zs.length →
      tri.evalAll (pts ++ [(xs.getD i 0, ys.getD j 0, zs.getD k 0)]) = some (vs ++ [vals.getD (xs.length * ys.length * k + xs.length * j + i) 0]) := by
  have hhead : ∀ l : List K, 3 ≤ l.length → l.head? = some (l.getD 0 0) := fun l h => by
    rw [List.head?_eq_getElem?, List.getElem?_eq_getElem (by omega), List.getD_eq_getElem _ _ (by omega)]
  have hcol : ∀ xi yi, ∃ sp, newSpline zs ((List.range zs.length).map fun zi => vals.getD (xs.length * ys.length * zi + xs.length * yi + xi) 0) = some sp := fun xi yi => by
    obtain ⟨sp, h, _⟩ := C42_spline_knots true zs ((List.range zs.length).map fun zi => vals.getD (xs.length * ys.length * zi + xs.length * yi + xi) 0) (by simpa using hz) hz3 (by simp)
    exact ⟨sp, h⟩
  choose spl hspl using hcol
  have hspl' : ∀ xi yi k, k < zs.length → (spl xi yi).eval (zs.getD k 0) = some (vals.getD (xs.length * ys.length * k + xs.length * yi + xi) 0) := fun xi yi k hk => by
    have := newSpline_bind (vals := (List.range zs.length).map fun zi => vals.getD (xs.length * ys.length * zi + xs.length * yi + xi) 0) hz hz3 (by simp) k hk
    rw [hspl, getD_map_range _ _ _ hk] at this
    exact this
  have hcols := mapM_some (fun xi => (List.range ys.length).mapM fun yi => newSpline zs ((List.range zs.length).map fun zi => vals.getD (xs.length * ys.length * zi + xs.length * yi + xi) 0))
    (fun xi => (List.range ys.length).map (spl xi)) (List.range xs.length) fun xi _ => mapM_some _ _ _ fun yi _ => hspl xi yi
  -- the splines in y at the table point k of z
  have hys : ∀ k, k < zs.length → ∃ ss : Nat → Spline K, (((List.range xs.length).map fun xi => (List.range ys.length).map (spl xi)).mapM fun col => across ys col (zs.getD k 0)) =
      some ((List.range xs.length).map ss) ∧ ∀ xi j, j < ys.length → (ss xi).eval (ys.getD j 0) = some (vals.getD (xs.length * ys.length * k + xs.length * j + xi) 0) := by
    intro k hk
    have hex : ∀ xi, ∃ sp, across ys ((List.range ys.length).map (spl xi)) (zs.getD k 0) = some sp ∧
        ∀ j, j < ys.length → sp.eval (ys.getD j 0) = some (vals.getD (xs.length * ys.length * k + xs.length * j + xi) 0) := by
      intro xi
      have hr : ((List.range ys.length).map (spl xi)).mapM (fun s => s.eval (zs.getD k 0)) =
          some ((List.range ys.length).map fun yi => vals.getD (xs.length * ys.length * k + xs.length * yi + xi) 0) := by
        rw [List.mapM_map]
        exact mapM_some _ _ _ fun yi _ => hspl' xi yi k hk
      obtain ⟨sp, h, hk'⟩ := C42_spline_knots true ys ((List.range ys.length).map fun yi => vals.getD (xs.length * ys.length * k + xs.length * yi + xi) 0) (by simpa using hy) hy3 (by simp)
      refine ⟨sp, ?_, fun j hj => ?_⟩
      · unfold across; rw [hr]; exact h
      · rw [hk' j hj, getD_map_range _ _ _ hj]
    choose ss hss using hex
    refine ⟨ss, ?_, fun xi j hj => (hss xi).2 j hj⟩
    rw [List.mapM_map]
    exact mapM_some _ _ _ fun xi _ => (hss xi).1
  have hxs : ∀ k, k < zs.length → ∀ j, j < ys.length → ∀ ss : Nat → Spline K,
      (∀ xi j, j < ys.length → (ss xi).eval (ys.getD j 0) = some (vals.getD (xs.length * ys.length * k + xs.length * j + xi) 0)) →
      ∃ sp, across xs ((List.range xs.length).map ss) (ys.getD j 0) = some sp ∧ ∀ i, i < xs.length → sp.eval (xs.getD i 0) = some (vals.getD (xs.length * ys.length * k + xs.length * j + i) 0) := by
    intro k hk j hj ss hss
    have hr : ((List.range xs.length).map ss).mapM (fun s => s.eval (ys.getD j 0)) = some ((List.range xs.length).map fun xi => vals.getD (xs.length * ys.length * k + xs.length * j + xi) 0) := by
      rw [List.mapM_map]
      exact mapM_some _ _ _ fun xi _ => hss xi j hj
    obtain ⟨sp, h, hk'⟩ := C42_spline_knots true xs ((List.range xs.length).map fun xi => vals.getD (xs.length * ys.length * k + xs.length * j + xi) 0) (by simpa using hx) hx3 (by simp)
    refine ⟨sp, ?_, fun i hi => ?_⟩
    · unfold across; rw [hr]; exact h
    · rw [hk' i hi, getD_map_range _ _ _ hi]
  obtain ⟨ss0, hss0, hv0⟩ := hys 0 (by omega)
  obtain ⟨sp0, hsp0, _⟩ := hxs 0 (by omega) 0 (by omega) ss0 hv0
  have hbuild : newTriCubic xs ys zs vals =
      some ⟨xs, ys, ys.getD 0 0, zs.getD 0 0, (List.range xs.length).map fun xi => (List.range ys.length).map (spl xi), (List.range xs.length).map ss0, sp0⟩ := by
    unfold newTriCubic
    rw [if_neg (by simp [hl]), hcols, hhead zs hz3, hhead ys hy3]
    simp only [Option.bind_eq_bind, Option.bind_some]
    rw [hss0, Option.bind_some, hsp0]
    rfl
  refine ⟨_, hbuild, fun pts vs hvs i j k hi hj hk => ?_⟩
  rw [C65_tricubic_history xs ys zs vals _ hbuild] at hvs ⊢
  rw [List.mapM_append, hvs]
  have hval : tricubic xs ys zs vals (xs.getD i 0) (ys.getD j 0) (zs.getD k 0) = some (vals.getD (xs.length * ys.length * k + xs.length * j + i) 0) := by
    have hok : TriCubic.Ok xs ys zs vals ⟨xs, ys, ys.getD 0 0, zs.getD 0 0, (List.range xs.length).map fun xi => (List.range ys.length).map (spl xi), (List.range xs.length).map ss0, sp0⟩ :=
      ⟨rfl, rfl, hcols, hss0, hsp0⟩
    obtain ⟨ss, hss, hv⟩ := hys k hk
    obtain ⟨sp, hsp, hsv⟩ := hxs k hk j hj ss hv
    rw [hok.fresh]
    dsimp only
    rw [hss, Option.bind_some, hsp, Option.bind_some, hsv i hi]
  rw [List.mapM_cons, hval]
  rfl

example : ∃ tri, newTriCubic (K := ℚ) [0, 1, 3] [0, 1, 2] [0, 1, 5] ((List.range 27).map (Nat.cast : Nat → ℚ)) = some tri ∧ tri.evalAll [(1, 0, 5), (3, 2, 1)] = some [19, 17] := by
  obtain ⟨tri, h, hg⟩ := C65_tricubic_grid (K := ℚ) [0, 1, 3] [0, 1, 2] [0, 1, 5] ((List.range 27).map (Nat.cast : Nat → ℚ)) (by norm_num) (by norm_num) (by norm_num) (by decide) (by decide) (by decide) (by decide)
  refine ⟨tri, h, ?_⟩
  have h1 := hg [] _ rfl 1 0 2 (by decide) (by decide) (by decide)
  have h2 := hg _ _ h1 2 2 1 (by decide) (by decide) (by decide)
  rw [getD_map_range _ _ _ (by decide), getD_map_range _ _ _ (by decide)] at h2
  refine Eq.trans h2 ?_
  norm_num


theorem uniform_sorted [IsStrictOrderedRing K] (x0 dx : K) (hd : 0 < dx) (n : Nat) : ((List.range n).map fun i : Nat => x0 + (i : K) * dx).Pairwise (· < ·) := by
  rw [List.pairwise_map]
  refine List.pairwise_lt_range.imp fun {a b} h => ?_
  have : (a : K) < b := by exact_mod_cast h
  have := mul_lt_mul_of_pos_right this hd
  linarith

theorem uniform_getD (x0 dx : K) (n i : Nat) (h : i < n) : ((List.range n).map fun i : Nat => x0 + (i : K) * dx).getD i 0 = x0 + (i : K) * dx := getD_map_range _ _ _ h

/-- C65: a bicubic interpolator on a uniform grid of at least three points a side returns the grid values at `(x0 + i dx, y0 + j dy)`, after any sequence of calls that did not panic. -/
theorem C65_uniform_bicubic [IsStrictOrderedRing K] (x0 dx y0 dy : K) (hx : 0 < dx) (hy : 0 < dy) (nx ny : Nat) (hx3 : 3 ≤ nx) (hy3 : 3 ≤ ny) (vals : List K) (hl : nx * ny = vals.length) :
    ∃ bi, newUniformBiCubic x0 dx nx y0 dy ny vals = some bi ∧ ∀ pts vs, bi.evalAll pts = some vs → ∀ i j, i < nx → j < ny →
      bi.evalAll (pts ++ [(x0 + i * dx, y0 + j * dy)]) = some (vs ++ [vals.getD (nx * j + i) 0]) := by
  obtain ⟨bi, h, hg⟩ := C65_bicubic_grid _ _ vals (uniform_sorted x0 dx hx nx) (uniform_sorted y0 dy hy ny) (by simpa using hx3) (by simpa using hy3) (by simpa using hl)
  refine ⟨bi, by unfold newUniformBiCubic; exact h, fun pts vs hvs i j hi hj => ?_⟩
  have := hg pts vs hvs i j (by simpa using hi) (by simpa using hj)
  rw [uniform_getD _ _ _ _ hi, uniform_getD _ _ _ _ hj, List.length_map, List.length_range] at this
  exact this

/-- C65: the same in three dimensions. -/
theorem C65_uniform_tricubic [IsStrictOrderedRing K] (x0 dx y0 dy z0 dz : K) (hx : 0 < dx) (hy : 0 < dy) (hz : 0 < dz) (nx ny nz : Nat) (hx3 : 3 ≤ nx) (hy3 : 3 ≤ ny) (hz3 : 3 ≤ nz) (vals : List K)
    (hl : nx * ny * nz = vals.length) :
    ∃ tri, newUniformTriCubic x0 dx nx y0 dy ny z0 dz nz vals = some tri ∧ ∀ pts vs, tri.evalAll pts = some vs → ∀ i j k, i < nx → j < ny → k < nz →
      tri.evalAll (pts ++ [(x0 + i * dx, y0 + j * dy, z0 + k * dz)]) = some (vs ++ [vals.getD (nx * ny * k + nx * j + i) 0]) := by
  obtain ⟨tri, h, hg⟩ := C65_tricubic_grid _ _ _ vals (uniform_sorted x0 dx hx nx) (uniform_sorted y0 dy hy ny) (uniform_sorted z0 dz hz nz) (by simpa using hx3) (by simpa using hy3) (by simpa using hz3) (by simpa using hl)
  refine ⟨tri, by unfold newUniformTriCubic; exact h, fun pts vs hvs i j k hi hj hk => ?_⟩
  have := hg pts vs hvs i j k (by simpa using hi) (by simpa using hj) (by simpa using hk)
  rw [uniform_getD _ _ _ _ hi, uniform_getD _ _ _ _ hj, uniform_getD _ _ _ _ hk, List.length_map, List.length_range, List.length_map, List.length_range] at this
  exact this

example : ∃ tri, newUniformTriCubic (K := ℚ) 0 1 3 0 2 3 5 1 3 (List.replicate 26 1 ++ [7]) = some tri ∧ tri.evalAll [(2, 4, 7), (2, 4, 6)] = some [7, 1] := by
  obtain ⟨tri, h, hg⟩ := C65_uniform_tricubic (K := ℚ) 0 1 0 2 5 1 (by norm_num) (by norm_num) (by norm_num) 3 3 3 le_rfl le_rfl le_rfl (List.replicate 26 1 ++ [7]) (by simp)
  have h1 := hg [] [] rfl 2 2 2 (by norm_num) (by norm_num) (by norm_num)
  have h2 := hg _ _ h1 2 2 1 (by norm_num) (by norm_num) (by norm_num)
  norm_num at h2
  exact ⟨tri, h, h2⟩

end Shellfish.Interp
