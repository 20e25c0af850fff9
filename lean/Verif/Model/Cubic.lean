/-
Model of math/interpolate/cubic_interpolators.go: bicubic and tricubic interpolators, which keep the splines of the last call.
-/
import Verif.Model.Interp

namespace Shellfish.Interp

variable {K : Type} [Field K] [LinearOrder K] [FloorRing K]

/-- math/interpolate/cubic_interpolators.go:11-20 (`BiCubic`); `xSplineVals` is the table of `xSpline`. -/
structure BiCubic (K : Type) where
  xs : List K
  lastY : K
  ySplines : List (Spline K)
  xSpline : Spline K

/-- math/interpolate/cubic_interpolators.go:95-99 (and 85-89, 267-272): a spline through the values of the splines `ss` at `y`.  `Spline.Init` computes the same spline as `NewSpline`. -/
def across (xs : List K) (ss : List (Spline K)) (y : K) : Option (Spline K) := do
  let vals ← ss.mapM fun s => s.eval y
  newSpline xs vals

/-- math/interpolate/cubic_interpolators.go:71-90 (`initSplines`) after 22-39 (`NewBiCubic`). -/
def newBiCubic (xs ys vals : List K) : Option (BiCubic K) :=
  if xs.length * ys.length ≠ vals.length then none
  else do
    let ySplines ← (List.range xs.length).mapM fun xi => newSpline ys ((List.range ys.length).map fun yi => vals.getD (xs.length * yi + xi) 0)
    let lastY ← ys.head?
    let xSpline ← across xs ySplines lastY
    some ⟨xs, lastY, ySplines, xSpline⟩

/-- math/interpolate/cubic_interpolators.go:41-69 (`NewUniformBiCubic`). -/
def newUniformBiCubic (x0 dx : K) (nx : Nat) (y0 dy : K) (ny : Nat) (vals : List K) : Option (BiCubic K) :=
  newBiCubic ((List.range nx).map fun i : Nat => x0 + (i : K) * dx) ((List.range ny).map fun i : Nat => y0 + (i : K) * dy) vals

/-- math/interpolate/cubic_interpolators.go:92-103 (`BiCubic.Eval`): the result (`none` is a panic) and the interpolator afterwards.  A panic of the first spline leaves the new `lastY` and
the old splines behind (all splines have the same table, so it is the first one that panics). -/
def BiCubic.eval (bi : BiCubic K) (x y : K) : Option K × BiCubic K :=
  if y ≠ bi.lastY then
    match across bi.xs bi.ySplines y with
    | none => (none, { bi with lastY := y })
    | some sp => (sp.eval x, { bi with lastY := y, xSpline := sp })
  else (bi.xSpline.eval x, bi)

/-- math/interpolate/cubic_interpolators.go:105-113 (`EvalAll`), or any other sequence of calls; a panic ends it. -/
def BiCubic.evalAll (bi : BiCubic K) : List (K × K) → Option (List K)
  | [] => some []
  | p :: ps => match bi.eval p.1 p.2 with
    | (none, _) => none
    | (some v, bi') => (bi'.evalAll ps).map (v :: ·)

/-- math/interpolate/cubic_interpolators.go:138-149 (`TriCubic`); `zSplines[yi*nx+xi]` is the entry `yi` of the list `xi`. -/
structure TriCubic (K : Type) where
  xs : List K
  ys : List K
  lastY : K
  lastZ : K
  zSplines : List (List (Spline K))
  ySplines : List (Spline K)
  xSpline : Spline K

/-- math/interpolate/cubic_interpolators.go:209-250 (`initSplines`) after 151-169 (`NewTriCubic`). -/
def newTriCubic (xs ys zs vals : List K) : Option (TriCubic K) :=
  if xs.length * ys.length * zs.length ≠ vals.length then none
  else do
    let zSplines ← (List.range xs.length).mapM fun xi => (List.range ys.length).mapM fun yi =>
      newSpline zs ((List.range zs.length).map fun zi => vals.getD (xs.length * ys.length * zi + xs.length * yi + xi) 0)
    let lastZ ← zs.head?
    let ySplines ← zSplines.mapM fun col => across ys col lastZ
    let lastY ← ys.head?
    let xSpline ← across xs ySplines lastY
    some ⟨xs, ys, lastY, lastZ, zSplines, ySplines, xSpline⟩

/-- math/interpolate/cubic_interpolators.go:171-207 (`NewUniformTriCubic`). -/
def newUniformTriCubic (x0 dx : K) (nx : Nat) (y0 dy : K) (ny : Nat) (z0 dz : K) (nz : Nat) (vals : List K) : Option (TriCubic K) :=
  newTriCubic ((List.range nx).map fun i : Nat => x0 + (i : K) * dx) ((List.range ny).map fun i : Nat => y0 + (i : K) * dy) ((List.range nz).map fun i : Nat => z0 + (i : K) * dz) vals

/-- math/interpolate/cubic_interpolators.go:252-279 (`TriCubic.Eval`); `none` is a panic (the interpolator that it leaves behind is not modelled). -/
def TriCubic.eval (tri : TriCubic K) (x y z : K) : Option (K × TriCubic K) :=
  if y ≠ tri.lastY ∨ z ≠ tri.lastZ then do
    let tri ← if z ≠ tri.lastZ then (tri.zSplines.mapM fun col => across tri.ys col z).map fun ss => { tri with lastZ := z, ySplines := ss } else some tri
    let sp ← across tri.xs tri.ySplines y
    let v ← sp.eval x
    some (v, { tri with lastY := y, xSpline := sp })
  else (tri.xSpline.eval x).map fun v => (v, tri)

/-- math/interpolate/cubic_interpolators.go:281-289 (`EvalAll`), or any other sequence of calls; a panic ends it. -/
def TriCubic.evalAll (tri : TriCubic K) : List (K × K × K) → Option (List K)
  | [] => some []
  | p :: ps => (tri.eval p.1 p.2.1 p.2.2).bind fun r => (r.2.evalAll ps).map (r.1 :: ·)

end Shellfish.Interp
