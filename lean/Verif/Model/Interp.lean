/-
Model of math/interpolate/search.go, linear_interpolators.go and spline.go.  Floating point numbers are an ordered field `K` with a floor function (no rounding).

`int(x)` truncates.  Where the code divides by zero (a table with one point, or whose last point is equal to the first one) `int` of a NaN or an infinity is a number outside of the
table, which is modelled by -1.
-/
import Mathlib.Algebra.Order.Floor.Ring
import Mathlib.Algebra.Order.Field.Basic
import Mathlib.Logic.Function.Basic

namespace Shellfish.Interp

variable {K : Type} [Field K] [LinearOrder K] [FloorRing K]

/-- `int(x / y)` (see above for `y = 0`). -/
def intDiv (x y : K) : Int := if y = 0 then -1 else if 0 ≤ x / y then ⌊x / y⌋ else -⌊-(x / y)⌋

/-- `xs[i]` for an `int` index; `none` is the index panic. -/
def getI (xs : List K) (i : Int) : Option K := if i < 0 then none else xs[i.toNat]?

/-- math/interpolate/search.go:8-13 (`searcher`). -/
structure Searcher (K : Type) where
  xs : List K
  x0 : K
  dx : K
  lim : K
  n : Int
  unif : Bool
  incr : Bool

/-- math/interpolate/search.go:16-24 (`init`); `none` is the index panic of an empty table. -/
def Searcher.init (xs : List K) : Option (Searcher K) := do
  let x0 ← xs.head?
  let lim ← xs.getLast?
  let dx := (lim - x0) / ((xs.length : K) - 1)
  some { xs := xs, x0 := x0, dx := dx, lim := lim, n := xs.length, unif := false, incr := decide (dx > 0) }

/-- math/interpolate/search.go:27-35 (`unifInit`). -/
def Searcher.unifInit (x0 dx : K) (n : Int) : Searcher K :=
  { xs := [], x0 := x0, dx := dx, lim := ((n : K) - 1) * dx + x0, n := n, unif := true, incr := decide (dx > 0) }

/-- math/interpolate/search.go:63-71 and math/interpolate/spline.go:184-193: the binary search. -/
def binSearch (xs : List K) (incr : Bool) (x : K) (lo hi : Nat) : Nat :=
  if hi - lo > 1 then
    if incr = decide (x ≥ xs.getD ((lo + hi) / 2) 0) then binSearch xs incr x ((lo + hi) / 2) hi else binSearch xs incr x lo ((lo + hi) / 2)
  else lo
termination_by hi - lo
decreasing_by all_goals omega

/-- math/interpolate/search.go:53-73, and math/interpolate/spline.go:173-199 (`bsearch`, whose last check never fails): the guess, then the binary search. -/
def tableSearch (xs : List K) (dx : K) (incr : Bool) (x : K) : Nat :=
  let guess := intDiv (x - xs.getD 0 0) dx
  if guess ≥ 0 ∧ guess < (xs.length : Int) - 1 ∧ decide (xs.getD guess.toNat 0 ≤ x) = incr ∧ decide (xs.getD (guess.toNat + 1) 0 ≥ x) = incr then guess.toNat
  else binSearch xs incr x 0 (xs.length - 1)

/-- math/interpolate/search.go:38-75 (`search`); `none` is the panic. -/
def Searcher.search (s : Searcher K) (x : K) : Option Int :=
  if x > s.lim ∨ x < s.x0 then none
  else if s.unif then
    let idx := intDiv (x - s.x0) s.dx
    some (if idx = s.n - 1 then idx - 1 else idx)
  else some (tableSearch s.xs s.dx s.incr x)

/-- math/interpolate/search.go:78-84 (`val`). -/
def Searcher.val (s : Searcher K) (i : Int) : Option K := if s.unif then some ((i : K) * s.dx + s.x0) else getI s.xs i

/-! Linear interpolation -/

/-- math/interpolate/linear_interpolators.go:12-15 (`Linear`). -/
structure Linear (K : Type) where
  xs : Searcher K
  vals : List K

/-- math/interpolate/linear_interpolators.go:22-30 (`NewLinear`). -/
def newLinear (xs vals : List K) : Option (Linear K) := if xs.length ≠ vals.length then none else (Searcher.init xs).map fun s => ⟨s, vals⟩

/-- math/interpolate/linear_interpolators.go:37-42 (`NewUniformLinear`). -/
def newUniformLinear (x0 dx : K) (vals : List K) : Linear K := ⟨Searcher.unifInit x0 dx vals.length, vals⟩

/-- math/interpolate/linear_interpolators.go:47-54 (`Linear.Eval`); `none` is a panic. -/
def Linear.eval (lin : Linear K) (x : K) : Option K := do
  let i1 ← lin.xs.search x
  let i2 := i1 + 1
  let x1 ← lin.xs.val i1
  let x2 ← lin.xs.val i2
  let v1 ← getI lin.vals i1
  let v2 ← getI lin.vals i2
  some ((v2 - v1) / (x2 - x1) * (x - x1) + v1)

/-- math/interpolate/linear_interpolators.go:61-69 (`Linear.EvalAll`) without an output slice. -/
def Linear.evalAll (lin : Linear K) (xs : List K) : Option (List K) := xs.mapM lin.eval

/-- math/interpolate/linear_interpolators.go:95-99 (`BiLinear`). -/
structure BiLinear (K : Type) where
  xs : Searcher K
  ys : Searcher K
  vals : List K
  nx : Int

/-- math/interpolate/linear_interpolators.go:107-122 (`NewBiLinear`). -/
def newBiLinear (xs ys vals : List K) : Option (BiLinear K) := do
  let sx ← Searcher.init xs
  let sy ← Searcher.init ys
  if xs.length * ys.length ≠ vals.length then none else some ⟨sx, sy, vals, xs.length⟩

/-- math/interpolate/linear_interpolators.go:130-151 (`NewUniformBiLinear`). -/
def newUniformBiLinear (x0 dx : K) (nx : Int) (y0 dy : K) (ny : Int) (vals : List K) : Option (BiLinear K) :=
  if nx * ny ≠ vals.length then none else some ⟨Searcher.unifInit x0 dx nx, Searcher.unifInit y0 dy ny, vals, nx⟩

/-- math/interpolate/linear_interpolators.go:156-184 (`BiLinear.Eval`). -/
def BiLinear.eval (bi : BiLinear K) (x y : K) : Option K := do
  let ix1 ← bi.xs.search x
  let iy1 ← bi.ys.search y
  let ix := if ix1 + 1 = bi.xs.n then ix1 - 1 else ix1
  let iy := if iy1 + 1 = bi.ys.n then iy1 - 1 else iy1
  let x1 ← bi.xs.val ix
  let x2 ← bi.xs.val (ix + 1)
  let y1 ← bi.ys.val iy
  let y2 ← bi.ys.val (iy + 1)
  let v11 ← getI bi.vals (ix + bi.nx * iy)
  let v12 ← getI bi.vals (ix + bi.nx * (iy + 1))
  let v21 ← getI bi.vals (ix + 1 + bi.nx * iy)
  let v22 ← getI bi.vals (ix + 1 + bi.nx * (iy + 1))
  some ((v11 * (x2 - x) * (y2 - y) + v12 * (x2 - x) * (y - y1) + v21 * (x - x1) * (y2 - y) + v22 * (x - x1) * (y - y1)) / ((x2 - x1) * (y2 - y1)))

/-- math/interpolate/linear_interpolators.go:225-229 (`TriLinear`). -/
structure TriLinear (K : Type) where
  xs : Searcher K
  ys : Searcher K
  zs : Searcher K
  vals : List K
  nx : Int
  ny : Int

/-- math/interpolate/linear_interpolators.go:237-254 (`NewTriLinear`). -/
def newTriLinear (xs ys zs vals : List K) : Option (TriLinear K) := do
  let sx ← Searcher.init xs
  let sy ← Searcher.init ys
  let sz ← Searcher.init zs
  if xs.length * ys.length * zs.length ≠ vals.length then none else some ⟨sx, sy, sz, vals, xs.length, ys.length⟩

/-- math/interpolate/linear_interpolators.go:263-287 (`NewUniformTriLinear`). -/
def newUniformTriLinear (x0 dx : K) (nx : Int) (y0 dy : K) (ny : Int) (z0 dz : K) (nz : Int) (vals : List K) : Option (TriLinear K) :=
  if nx * ny * nz ≠ vals.length then none else some ⟨Searcher.unifInit x0 dx nx, Searcher.unifInit y0 dy ny, Searcher.unifInit z0 dz nz, vals, nx, ny⟩

/-- math/interpolate/linear_interpolators.go:314-322: the last part of `TriLinear.Eval`. -/
def triMix (v111 v112 v121 v122 v211 v212 v221 v222 xd yd zd : K) : K :=
  let c11 := v111 * (1 - xd) + v211 * xd
  let c21 := v121 * (1 - xd) + v221 * xd
  let c12 := v112 * (1 - xd) + v212 * xd
  let c22 := v122 * (1 - xd) + v222 * xd
  let c1 := c11 * (1 - yd) + c21 * yd
  let c2 := c12 * (1 - yd) + c22 * yd
  c1 * (1 - zd) + c2 * zd

/-- math/interpolate/linear_interpolators.go:289-323 (`TriLinear.Eval`): the third coordinate is looked up in the table of the second one. -/
def TriLinear.eval (tri : TriLinear K) (x y z : K) : Option K := do
  let ix ← tri.xs.search x
  let iy ← tri.ys.search y
  let iz ← tri.ys.search z
  let dix := 1
  let diy := tri.nx
  let diz := tri.nx * tri.ny
  let i := ix + iy * tri.nx + iz * tri.ny * tri.nx
  let v111 ← getI tri.vals i
  let v112 ← getI tri.vals (i + diz)
  let v121 ← getI tri.vals (i + diy)
  let v122 ← getI tri.vals (i + diy + diz)
  let v211 ← getI tri.vals (i + dix)
  let v212 ← getI tri.vals (i + dix + diz)
  let v221 ← getI tri.vals (i + dix + diy)
  let v222 ← getI tri.vals (i + dix + diy + diz)
  let x1 ← tri.xs.val ix
  let x2 ← tri.xs.val (ix + 1)
  let y1 ← tri.ys.val iy
  let y2 ← tri.ys.val (iy + 1)
  let z1 ← tri.ys.val iz
  let z2 ← tri.ys.val (iz + 1)
  some (triMix v111 v112 v121 v122 v211 v212 v221 v222 ((x - x1) / (x2 - x1)) ((y - y1) / (y2 - y1)) ((z - z1) / (z2 - z1)))

/-! Cubic splines -/

/-- math/interpolate/spline.go:10-12 (`splineCoeff`). -/
structure Coeff (K : Type) where
  a : K
  b : K
  c : K
  d : K

/-- math/interpolate/spline.go:16-24 (`Spline`).  The slices `y2s` and `coeffs` are functions of the index: they have the lengths `len(xs)` and `len(xs)-1`. -/
structure Spline (K : Type) where
  xs : List K
  ys : List K
  y2s : Nat → K
  coeffs : Nat → Coeff K
  incr : Bool
  dx : K

/-- math/interpolate/spline.go:280-289: one turn of the forward loop of `TriDiagAt`; the state is `beta`, `tmp` and `out`. -/
def triFwd (as bs cs rs : Nat → K) (s : K × (Nat → K) × (Nat → K)) (i : Nat) : Option (K × (Nat → K) × (Nat → K)) :=
  let t := cs (i - 1) / s.1
  let beta := bs i - as i * t
  if beta = 0 then none else some (beta, Function.update s.2.1 i t, Function.update s.2.2 i ((rs i - as i * s.2.2 (i - 1)) / beta))

/-- math/interpolate/spline.go:291-293: one turn of the backward loop. -/
def triBack (tmp : Nat → K) (out : Nat → K) (i : Nat) : Nat → K := Function.update out i (out i - tmp (i + 1) * out (i + 1))

/-- math/interpolate/spline.go:266-294 (`TriDiagAt`) for slices of the length `n` (the comparison of the lengths is left out); `none` is one of the panics: `bs[0]` of an empty slice,
or a pivot 0. -/
def triDiag (n : Nat) (as bs cs rs : Nat → K) : Option (Nat → K) :=
  if n = 0 then none
  else if bs 0 = 0 then none
  else do
    let s ← (List.range' 1 (n - 1)).foldlM (triFwd as bs cs rs) (bs 0, fun _ => 0, Function.update (fun _ => 0) 0 (rs 0 / bs 0))
    some ((List.range (n - 1)).reverse.foldl (triBack s.2.1) s.2.2)

/-- math/interpolate/spline.go:203-226 (`calcY2s`); the two ends are set to 0, and `sp.y2s[1:n-1]` is the solution of the tridiagonal system. -/
def calcY2s (xs ys : List K) : Option (Nat → K) :=
  let x := fun j => xs.getD j 0
  let y := fun j => ys.getD j 0
  (triDiag (xs.length - 2) (fun i => (x (i + 1) - x i) / 6) (fun i => (x (i + 2) - x i) / 3) (fun i => (x (i + 2) - x (i + 1)) / 6)
    (fun i => (y (i + 2) - y (i + 1)) / (x (i + 2) - x (i + 1)) - (y (i + 1) - y i) / (x (i + 1) - x i))).map
    fun u j => if j = 0 ∨ j = xs.length - 1 then 0 else u (j - 1)

/-- math/interpolate/spline.go:228-237 (`calcCoeffs`). -/
def calcCoeff (xs ys : List K) (y2s : Nat → K) (i : Nat) : Coeff K :=
  let dx := xs.getD (i + 1) 0 - xs.getD i 0
  { a := (-y2s i / 6 + y2s (i + 1) / 6) / dx
    b := y2s i / 2
    c := (ys.getD (i + 1) 0 - ys.getD i 0) / dx + dx * (-y2s i / 3 - y2s (i + 1) / 6)
    d := ys.getD i 0 }

/-- math/interpolate/spline.go:28-75 (`NewSpline`, `Init`); `none` is one of the panics. -/
def newSpline (xs ys : List K) : Option (Spline K) :=
  if xs.length ≠ ys.length then none
  else if xs.length ≤ 1 then none
  else
    let incr := decide (xs.getD 0 0 < xs.getD 1 0)
    if (List.range (xs.length - 1)).any (fun i => if incr then decide (xs.getD (i + 1) 0 < xs.getD i 0) else decide (xs.getD (i + 1) 0 > xs.getD i 0)) then none
    else (calcY2s xs ys).map fun y2s =>
      { xs := xs, ys := ys, y2s := y2s, coeffs := calcCoeff xs ys y2s, incr := incr, dx := (xs.getD (xs.length - 1) 0 - xs.getD 0 0) / ((xs.length : K) - 1) }

/-- math/interpolate/spline.go:173-199 (`bsearch`). -/
def Spline.bsearch (sp : Spline K) (x : K) : Nat := tableSearch sp.xs sp.dx sp.incr x

/-- math/interpolate/spline.go:80-97 (`Spline.Eval`). -/
def Spline.eval (sp : Spline K) (x : K) : Option K :=
  let first := sp.xs.getD 0 0
  let last := sp.xs.getD (sp.xs.length - 1) 0
  if decide (x ≤ first) = sp.incr ∨ decide (x ≥ last) = sp.incr then
    if x = first then some (sp.ys.getD 0 0) else if x = last then some (sp.ys.getD (sp.ys.length - 1) 0) else none
  else
    let i := sp.bsearch x
    let dx := x - sp.xs.getD i 0
    let k := sp.coeffs i
    some (k.a * dx * dx * dx + k.b * dx * dx + k.c * dx + k.d)

/-- math/interpolate/spline.go:116-137 (`Spline.Deriv`). -/
def Spline.deriv (sp : Spline K) (x : K) (order : Int) : Option K :=
  if decide (x < sp.xs.getD 0 0) = sp.incr ∨ decide (x > sp.xs.getD (sp.xs.length - 1) 0) = sp.incr then none
  else
    let i := sp.bsearch x
    let dx := x - sp.xs.getD i 0
    let k := sp.coeffs i
    some (if order = 0 then k.a * dx * dx * dx + k.b * dx * dx + k.c * dx + k.d
      else if order = 1 then 3 * k.a * dx * dx + 2 * k.b * dx + k.c
      else if order = 2 then 6 * k.a * dx + 2 * k.b
      else if order = 3 then 6 * k.a
      else 0)

/-- math/interpolate/spline.go:165-169 (`integTerm`). -/
def integTerm (k : Coeff K) (lo hi : K) : K :=
  let dx := hi - lo
  k.a * dx * dx * dx * dx / 4 + k.b * dx * dx * dx / 3 + k.c * dx * dx / 2 + k.d * dx

/-- math/interpolate/spline.go:144-162: `Integrate` with `lo <= hi`. -/
def Spline.integrateUp (sp : Spline K) (lo hi : K) : Option K :=
  let first := sp.xs.getD 0 0
  let last := sp.xs.getD (sp.xs.length - 1) 0
  if decide (lo < first) = sp.incr ∨ decide (lo > last) = sp.incr then none
  else if decide (hi < first) = sp.incr ∨ decide (hi > last) = sp.incr then none
  else
    let iLo := sp.bsearch lo
    let iHi := sp.bsearch hi
    if iLo = iHi then some (integTerm (sp.coeffs iLo) lo hi)
    else some ((List.range' (iLo + 1) (iHi - (iLo + 1))).foldl (fun sum i => sum + integTerm (sp.coeffs i) (sp.xs.getD i 0) (sp.xs.getD (i + 1) 0))
      (integTerm (sp.coeffs iLo) lo (sp.xs.getD (iLo + 1) 0) + integTerm (sp.coeffs iHi) (sp.xs.getD iHi 0) hi))

/-- math/interpolate/spline.go:140-163 (`Integrate`). -/
def Spline.integrate (sp : Spline K) (lo hi : K) : Option K := if lo > hi then (sp.integrateUp hi lo).map (fun v => -v) else sp.integrateUp lo hi

end Shellfish.Interp
