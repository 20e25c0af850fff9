/-
Model of package math/sort (math/sort/{sort,shell,quick,median}.go).

Slices of float64 are lists over a type with a comparison `<`: a linear order in C01 to C03, float64 values with NaN and signed zeros in C107.
An in-place function returns the new contents.  `none` is a Go run-time panic (index out of
range or explicit `panic`) or exhausted fuel; the theorems show it never arises where the
property says so.
-/
import Mathlib.Order.Defs.LinearOrder

namespace Shellfish.Sort

variable {α : Type} [LT α] [DecidableLT α]

/-- Go's simultaneous assignment `xs[i], xs[j] = xs[j], xs[i]`, panicking when out of range. -/
def swapAt (xs : List α) (i j : Nat) : Option (List α) := do
  let a ← xs[i]?
  let b ← xs[j]?
  some ((xs.set i b).set j a)

/-- math/sort/sort.go:7-13, `Reverse`: the loop `for i := 0; i < n2; i++`. -/
def reverse (xs : List α) : Option (List α) :=
  (List.range (xs.length / 2)).foldlM (fun ys i => swapAt ys i (xs.length - 1 - i)) xs

/-- math/sort/quick.go:8-30, `sort3`: returns (max, mid, min). -/
def sort3 (x y z : α) : α × α × α :=
  if y < x then
    if z < x then
      if z < y then (x, y, z) else (x, z, y)
    else (z, x, y)
  else
    if z < y then
      if z < x then (y, x, z) else (y, z, x)
    else (z, y, x)

/-- math/sort/shell.go:21-27, the innermost loop of `Shell`: `for xs[j-inc] > v {...}`.
Returns the slice and the final `j`.  `fuel` bounds the number of iterations. -/
def shellInner (inc : Nat) (v : α) : Nat → List α → Nat → Option (List α × Nat)
  | 0, _, _ => none
  | fuel + 1, xs, j =>
    if j < inc then none else do
      let y ← xs[j - inc]?
      if v < y then
        let xs' := xs.set j y
        let j' := j - inc
        if j' < inc then some (xs', j') else shellInner inc v fuel xs' j'
      else some (xs, j)

/-- math/sort/shell.go:19-28, body of `for i := inc; i < n; i++`. -/
def shellInsert (inc : Nat) (xs : List α) (i : Nat) : Option (List α) := do
  let v ← xs[i]?
  let r ← shellInner inc v (i + 1) xs i
  some (r.1.set r.2 v)

/-- math/sort/shell.go:18-29, one pass: `for i := inc; i < n; i++`. -/
def shellPass (inc : Nat) (xs : List α) : Option (List α) :=
  (List.range' inc (xs.length - inc)).foldlM (shellInsert inc) xs

/-- math/sort/shell.go:11-14: `for inc <= n { inc = inc*3 + 1 }`. -/
def shellIncStart (n : Nat) : Nat → Nat → Nat
  | 0, inc => inc
  | fuel + 1, inc => if inc ≤ n then shellIncStart n fuel (inc * 3 + 1) else inc

/-- math/sort/shell.go:16-30: `for inc > 1 { inc /= 3; ... }`. -/
def shellLoop : Nat → Nat → List α → Option (List α)
  | 0, inc, xs => if 1 < inc then none else some xs
  | fuel + 1, inc, xs =>
    if 1 < inc then do
      let ys ← shellPass (inc / 3) xs
      shellLoop fuel (inc / 3) ys
    else some xs

/-- math/sort/shell.go:5-32, `Shell`. -/
def shell (xs : List α) : Option (List α) :=
  if xs.length = 1 then some xs
  else
    let inc := shellIncStart xs.length (xs.length + 1) 1
    shellLoop inc inc xs

/-- math/sort/quick.go:61-63: `for xs[lo] < mid { lo++ }`. -/
def scanUp (mid : α) (xs : List α) : Nat → Nat → Option Nat
  | 0, _ => none
  | fuel + 1, lo => do
    let v ← xs[lo]?
    if v < mid then scanUp mid xs fuel (lo + 1) else some lo

/-- math/sort/quick.go:65-67: `for xs[hi] > mid { hi-- }`; index -1 panics. -/
def scanDown (mid : α) (xs : List α) : Nat → Option Nat
  | 0 => do
    let v ← xs[0]?
    if mid < v then none else some 0
  | hi + 1 => do
    let v ← xs[hi + 1]?
    if mid < v then scanDown mid xs hi else some (hi + 1)

/-- math/sort/quick.go:59-72, the partition loop. `lo` and `hi` are the values at the head of the
`for`; `hi = 0` would decrement to -1 and panic. -/
def partLoop (mid : α) : Nat → List α → Nat → Nat → Option (List α × Nat)
  | 0, _, _, _ => none
  | fuel + 1, xs, lo, hi =>
    if hi = 0 then none else do
      let lo' ← scanUp mid xs (xs.length + 1) (lo + 1)
      let hi' ← scanDown mid xs (hi - 1)
      if hi' < lo' then some (xs, hi')
      else do
        let ys ← swapAt xs lo' hi'
        partLoop mid fuel ys lo' hi'

/-- math/sort/quick.go:50-78, `partition`.  Returns the rearranged slice and the pivot index. -/
def partition (xs : List α) : Option (List α × Nat) := do
  let n := xs.length
  let n2 := n / 2
  let x ← xs[0]?
  let y ← xs[n2]?
  let z ← xs[n - 1]?
  let (mx, mid, mn) := sort3 x y z
  let xs1 := ((xs.set 0 mn).set n2 mid).set (n - 1) mx
  let xs2 ← swapAt xs1 1 n2
  let (xs3, hi) ← partLoop mid n xs2 1 (n - 1)
  let xs4 ← swapAt xs3 1 hi
  some (xs4, hi)

/-- math/sort/quick.go:3-5. -/
def manualLen : Nat := 25

/-- math/sort/quick.go:36-45, `Quick`.  The two recursive calls work on the disjoint sub-slices
`xs[0:pivIdx]` and `xs[pivIdx:len(xs)]` of the partitioned slice. -/
def quickFuel : Nat → List α → Option (List α)
  | 0, _ => none
  | fuel + 1, xs =>
    if xs.length < manualLen then shell xs
    else do
      let (ys, p) ← partition xs
      let a ← quickFuel fuel (ys.take p)
      let b ← quickFuel fuel (ys.drop p)
      some (a ++ b)

/-- math/sort/quick.go:36-45. -/
def quick (xs : List α) : Option (List α) := quickFuel (xs.length + 1) xs

/-- math/sort/median.go:67-104, `nthLargest`.  `n` is a Go `int` (may be ≤ 0). -/
def nthLargestFuel : Nat → List α → Int → Option α
  | 0, _, _ => none
  | fuel + 1, xs, n =>
    match xs with
    | [] => none
    | [x] => some x
    | [x, y] =>
      let lo := if y < x then y else x
      let hi := if y < x then x else y
      if n = 2 then some lo else if n = 1 then some hi else none
    | [x, y, z] =>
      let (high, mid, low) := sort3 x y z
      if n = 1 then some high else if n = 2 then some mid else if n = 3 then some low else none
    | xs => do
      let (ys, p) ← partition xs
      let nPiv : Int := (ys.length : Int) - p
      if nPiv > n then nthLargestFuel fuel (ys.drop p) n
      else if nPiv < n then nthLargestFuel fuel (ys.take p) (n - nPiv)
      else ys[p]?

/-- math/sort/median.go:42-61, `NthLargest`: works on a copy of the input (fresh or the caller's
buffer; `buf`, when given, must have the same length, its old contents are overwritten by `copy`).
In the two-element case `xs[2-n]` for `n ≤ 2`: `n = 2, 1` are in range, `n ≤ 0` is out of range. -/
def nthLargest (xs : List α) (n : Int) (buf : Option (List α)) : Option α :=
  if xs.length = 0 then none
  else match buf with
    | none => nthLargestFuel (xs.length + 1) xs n
    | some b => if b.length ≠ xs.length then none else nthLargestFuel (xs.length + 1) xs n

/-- math/sort/median.go:27-33, `Median`. -/
def median (xs : List α) (buf : Option (List α)) : Option α :=
  if xs.length = 0 then none else nthLargest xs ((xs.length / 2 : Nat) : Int) buf

/-- math/sort/median.go:8-22, `Percentile`.  The float64 product `p * len(xs)` truncated to int is
modelled for a rational `p = pn / pd` exactly (no rounding). -/
def percentile (xs : List α) (pn pd : Nat) (buf : Option (List α)) : Option α :=
  if xs.length = 0 then none
  else if pd < pn then none
  else
    let n := pn * xs.length / pd
    let n := if n = 0 then n + 1 else n
    nthLargest xs (n : Int) buf

end Shellfish.Sort
