/-
math/interpolate: the `EvalAll` methods and the tables of the interpolators with slices as Go has them, windows into arrays that can be shared.

An array of the heap is a list, a slice is a window of it.  Reading or writing outside of a slice is a panic (`none`).  The interpolators keep the slices they were made from; what they compute from them at
once (the step of the table, the coefficients of a spline) they own.
-/
import Verif.Model.Interp

namespace Shellfish.Interp

variable {K : Type}

/-- A slice of Go (the capacity does not matter here). -/
structure Slice where
  arr : Nat
  off : Nat
  len : Nat
deriving DecidableEq

/-- The arrays of the heap. -/
abbrev Heap (K : Type) := List (List K)

/-- The element `k` of the array `a`. -/
def Heap.cell (m : Heap K) (a k : Nat) : Option K := (m[a]?).bind fun l => l[k]?

/-- `s[i]`. -/
def Heap.get (m : Heap K) (s : Slice) (i : Nat) : Option K := if i < s.len then m.cell s.arr (s.off + i) else none

/-- `s[i] = v`. -/
def Heap.put (m : Heap K) (s : Slice) (i : Nat) (v : K) : Option (Heap K) :=
  if i < s.len then (m[s.arr]?).bind fun l => if s.off + i < l.length then some (m.set s.arr (l.set (s.off + i) v)) else none else none

/-- All elements of a slice. -/
def Heap.read (m : Heap K) (s : Slice) : Option (List K) := (List.range s.len).mapM fun i => m.get s i

/-- math/interpolate/linear_interpolators.go:66, 196, 330, math/interpolate/spline.go:106, math/interpolate/cubic_interpolators.go:110, 286: the right side of the assignment.  `ins` are the slices of
coordinates (one, two or three), `eval` is the method `Eval`. -/
def evalAt (eval : Heap K → List K → Option K) (ins : List Slice) (m : Heap K) (i : Nat) : Option K := (ins.mapM fun s => m.get s i).bind fun args => eval m args

/-- math/interpolate/linear_interpolators.go:65-67, 195-197, 329-331, math/interpolate/spline.go:105-107, math/interpolate/cubic_interpolators.go:109-111, 285-287: the loop, for the indices `is`. -/
def evalLoop (eval : Heap K → List K → Option K) (ins : List Slice) (o : Slice) : List Nat → Heap K → Option (Heap K)
  | [], m => some m
  | i :: is, m => (evalAt eval ins m i).bind fun v => (m.put o i v).bind fun m' => evalLoop eval ins o is m'

/-- math/interpolate/linear_interpolators.go:61-69, 191-199, 325-333, math/interpolate/spline.go:100-110, math/interpolate/cubic_interpolators.go:105-113, 281-289 (`EvalAll` of `Linear`, `BiLinear`,
`TriLinear`, `Spline`, `BiCubic` and `TriCubic`): the returned slice and the heap afterwards.  `out` is the first slice of the optional argument.  The loop is over the indices of the first slice of
coordinates. -/
def evalAllAt [Zero K] (eval : Heap K → List K → Option K) (first : Slice) (rest : List Slice) (out : Option Slice) (m : Heap K) : Option (Slice × Heap K) :=
  match out with
  | none =>
    let o : Slice := ⟨m.length, 0, first.len⟩
    (evalLoop eval (first :: rest) o (List.range first.len) (m ++ [List.replicate first.len 0])).map fun m' => (o, m')
  | some o => (evalLoop eval (first :: rest) o (List.range first.len) m).map fun m' => (o, m')

/-- math/interpolate/linear_interpolators.go:12-15 with math/interpolate/search.go:8-13: a `Linear` with its slices. -/
structure SharedLinear (K : Type) where
  xs : Slice
  vals : Slice
  x0 : K
  dx : K
  lim : K
  n : Int
  incr : Bool

/-- math/interpolate/linear_interpolators.go:22-30 (`NewLinear`): the slices are kept, not copied. -/
def newSharedLinear [Field K] [LinearOrder K] (m : Heap K) (xs vals : Slice) : Option (SharedLinear K) := do
  let l ← m.read xs
  let v ← m.read vals
  let lin ← newLinear l v
  some { xs := xs, vals := vals, x0 := lin.xs.x0, dx := lin.xs.dx, lim := lin.xs.lim, n := lin.xs.n, incr := lin.xs.incr }

/-- math/interpolate/linear_interpolators.go:47-54 (`Linear.Eval`) reads the slices as they are now. -/
def SharedLinear.eval [Field K] [LinearOrder K] [FloorRing K] (lin : SharedLinear K) (m : Heap K) : List K → Option K
  | [x] => do
    let l ← m.read lin.xs
    let v ← m.read lin.vals
    Linear.eval ⟨{ xs := l, x0 := lin.x0, dx := lin.dx, lim := lin.lim, n := lin.n, unif := false, incr := lin.incr }, v⟩ x
  | _ => none

/-- math/interpolate/spline.go:16-24: a `Spline` with its slices. -/
structure SharedSpline (K : Type) where
  xs : Slice
  ys : Slice
  y2s : Nat → K
  coeffs : Nat → Coeff K
  incr : Bool
  dx : K

/-- math/interpolate/spline.go:28-75 (`NewSpline`, `Init`): the slices `xs` and `ys` are kept (lines 41 and 54), `y2s` and `coeffs` are new. -/
def newSharedSpline [Field K] [LinearOrder K] (m : Heap K) (xs ys : Slice) : Option (SharedSpline K) := do
  let l ← m.read xs
  let v ← m.read ys
  let sp ← newSpline l v
  some { xs := xs, ys := ys, y2s := sp.y2s, coeffs := sp.coeffs, incr := sp.incr, dx := sp.dx }

/-- math/interpolate/spline.go:80-97 (`Spline.Eval`) reads the slices as they are now. -/
def SharedSpline.eval [Field K] [LinearOrder K] [FloorRing K] (sp : SharedSpline K) (m : Heap K) : List K → Option K
  | [x] => do
    let l ← m.read sp.xs
    let v ← m.read sp.ys
    Spline.eval { xs := l, ys := v, y2s := sp.y2s, coeffs := sp.coeffs, incr := sp.incr, dx := sp.dx } x
  | _ => none

end Shellfish.Interp
