/-
Model of math/calc/deriv.go.  Floating point numbers are a field `K`: there is no rounding.  The output slice does not share memory with the inputs.
-/
import Mathlib.Algebra.Field.Basic

namespace Shellfish.Deriv

variable {K : Type} [Field K]

/-- math/calc/deriv.go:46: order 2, inner point `i`; `none` is an index panic. -/
def mid2 (xs ys : List K) (i : Nat) : Option K := do
  let yn ← ys[i + 1]?
  let yp ← ys[i - 1]?
  let xn ← xs[i + 1]?
  let xp ← xs[i - 1]?
  return (yn - yp) / (xn - xp)

/-- math/calc/deriv.go:48. -/
def first2 (xs ys : List K) : Option K := do
  let y0 ← ys[0]?
  let y1 ← ys[1]?
  let y2 ← ys[2]?
  let x0 ← xs[0]?
  let x2 ← xs[2]?
  return (-3 * y0 + 4 * y1 - y2) / (x2 - x0)

/-- `xs[n-k]`; a negative index panics. -/
def fromEnd (xs : List K) (k : Nat) : Option K := if xs.length < k then none else xs[xs.length - k]?

/-- math/calc/deriv.go:49. -/
def last2 (xs ys : List K) : Option K := do
  let y1 ← fromEnd ys 1
  let y2 ← fromEnd ys 2
  let y3 ← fromEnd ys 3
  let x1 ← fromEnd xs 1
  let x3 ← fromEnd xs 3
  return -(-3 * y1 + 4 * y2 - y3) / (x1 - x3)

/-- math/calc/deriv.go:44-49: order 2. -/
def deriv2 (xs ys : List K) : Option (List K) := do
  let first ← first2 xs ys
  let last ← last2 xs ys
  (List.range xs.length).mapM fun (i : Nat) => if i = 0 then some first else if i = xs.length - 1 then some last else mid2 xs ys i

/-- math/calc/deriv.go:52-53: order 4, inner point `i`. -/
def mid4 (xs ys : List K) (i : Nat) : Option K := do
  let yn2 ← ys[i + 2]?
  let yn1 ← ys[i + 1]?
  let yp1 ← ys[i - 1]?
  let yp2 ← ys[i - 2]?
  let xn2 ← xs[i + 2]?
  let xp1 ← xs[i - 1]?
  return (-yn2 + 8 * yn1 - 8 * yp1 + yp2) / (3 * (xn2 - xp1))

/-- math/calc/deriv.go:56-57 and 60-61: the first two points. -/
def first4 (xs ys : List K) : Option (K × K) := do
  let y0 ← ys[0]?
  let y1 ← ys[1]?
  let y2 ← ys[2]?
  let y3 ← ys[3]?
  let y4 ← ys[4]?
  let x0 ← xs[0]?
  let x4 ← xs[4]?
  return ((-3 * y4 + 16 * y3 - 36 * y2 + 48 * y1 - 25 * y0) / (3 * (x4 - x0)), (-3 * y0 - 10 * y1 + 18 * y2 - 6 * y3 + y4) / (3 * (x4 - x0)))

/-- math/calc/deriv.go:58-59 and 62-63: the last but one and the last point. -/
def last4 (xs ys : List K) : Option (K × K) := do
  let y1 ← fromEnd ys 1
  let y2 ← fromEnd ys 2
  let y3 ← fromEnd ys 3
  let y4 ← fromEnd ys 4
  let y5 ← fromEnd ys 5
  let x1 ← fromEnd xs 1
  let x5 ← fromEnd xs 5
  return ((-3 * y1 - 10 * y2 + 18 * y3 - 6 * y4 + y5) / (3 * (x5 - x1)), (-3 * y5 + 16 * y4 - 36 * y3 + 48 * y2 - 25 * y1) / (3 * (x5 - x1)))

/-- math/calc/deriv.go:50-63: order 4.  (With five points or more the four end points are different.) -/
def deriv4 (xs ys : List K) : Option (List K) := do
  let first ← first4 xs ys
  let last ← last4 xs ys
  (List.range xs.length).mapM fun (i : Nat) =>
    if i = 0 then some first.1 else if i = 1 then some first.2
    else if i = xs.length - 2 then some last.1 else if i = xs.length - 1 then some last.2 else mid4 xs ys i

/-- math/calc/deriv.go:24-68 (`Deriv`); `none` is a panic.  `outLen` is the length of the slice supplied with `Out` (`none`: not supplied). -/
def deriv (xs ys : List K) (order : Int) (outLen : Option Nat) : Option (List K) :=
  if ys.length ≠ xs.length then none
  else if outLen.getD xs.length ≠ xs.length then none
  else if order = 0 then some xs
  else if order = 2 then deriv2 xs ys
  else if order = 4 then deriv4 xs ys
  else none

end Shellfish.Deriv
