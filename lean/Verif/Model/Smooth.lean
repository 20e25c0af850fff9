/-
Model of math/interpolate/filter.go, los/analyze/smooth.go and los/analyze/splashback_radius.go.  Floating point numbers are an ordered field `K` (the reals where `exp` and `log` are
used); there is no rounding.
-/
import Verif.Model.Mat
import Mathlib.Analysis.SpecialFunctions.Exp
import Mathlib.Analysis.SpecialFunctions.Log.Basic

namespace Shellfish.Smooth

variable {K : Type} [Field K] [LinearOrder K]

/-- math/interpolate/filter.go:10-13 (`Kernel`). -/
structure Kernel (K : Type) where
  cs : List K
  center : Nat

/-- math/interpolate/filter.go:22-29 (`BoundaryCondition`); other values of the `int` are not modelled. -/
inductive Boundary where
  | periodic
  | reflection
  | zeroPad
  | extension
  deriving DecidableEq, Repr

/-- `xs[i]` for an `int` index; `none` is the index panic. -/
def getI (xs : List K) (i : Int) : Option K := if i < 0 then none else xs[i.toNat]?

/-- math/interpolate/filter.go:33-62 (`BoundaryCondition.Get`). -/
def Boundary.get (b : Boundary) (xs : List K) (i : Int) : Option K :=
  if i < 0 then
    match b with
    | .periodic => getI xs (xs.length - 1 + i)
    | .reflection => getI xs (-(i + 1))
    | .zeroPad => some 0
    | .extension => getI xs 0
  else if i ≥ xs.length then
    match b with
    | .periodic => getI xs (i - xs.length)
    | .reflection => getI xs ((xs.length - 1) - (i - xs.length - 1))
    | .zeroPad => some 0
    | .extension => getI xs (xs.length - 1)
  else getI xs i

/-- math/interpolate/filter.go:113-126: the value of a tap of the first loop. -/
def leftTap (b : Boundary) (xs : List K) (idx : Int) : Option K :=
  if idx < 0 then
    match b with
    | .periodic => getI xs ((xs.length - 1) + idx)
    | .reflection => getI xs (-(idx - 1))
    | .zeroPad => some 0
    | .extension => getI xs 0
  else getI xs idx

/-- math/interpolate/filter.go:143-156: the value of a tap of the third loop. -/
def rightTap (b : Boundary) (xs : List K) (idx : Int) : Option K :=
  if idx ≥ xs.length then
    match b with
    | .periodic => getI xs (idx - xs.length)
    | .reflection => getI xs (2 * (xs.length - 1) - idx)
    | .zeroPad => some 0
    | .extension => getI xs (xs.length - 1)
  else getI xs idx

/-- math/interpolate/filter.go:110-129, 132-136 and 140-158: the sum over the taps for point `i`. -/
def tapSum (k : Kernel K) (tap : Int → Option K) (i : Int) : Option K :=
  (List.range k.cs.length).foldlM (fun sum (j : Nat) => do
    let x ← tap (i + j - k.center)
    some (sum + x * k.cs.getD j 0)) 0

/-- `out[i] = v`; `none` is the index panic. -/
def write (out : List K) (i : Int) (v : K) : Option (List K) := if 0 ≤ i ∧ i < out.length then some (out.set i.toNat v) else none

/-- math/interpolate/filter.go:104-161 (`ConvolveAt`); the result is the new content of `out`, which is not the memory of `xs`. -/
def Kernel.convolveAt (k : Kernel K) (xs : List K) (b : Boundary) (out : List K) : Option (List K) := do
  let n := xs.length
  let nl := k.center
  let nr := k.cs.length - 1 - k.center
  let out ← (List.range (nl + 1)).foldlM (fun out (i : Nat) => (tapSum k (leftTap b xs) i).bind (write out i)) out
  let out ← (List.range (n - nr - (nl + 1))).foldlM (fun out (t : Nat) => (tapSum k (getI xs) ((nl + 1 + t : Nat) : Int)).bind (write out ((nl + 1 + t : Nat) : Int))) out
  (List.range nr).foldlM (fun out (t : Nat) => (tapSum k (rightTap b xs) ((n : Int) - nr + t)).bind (write out ((n : Int) - nr + t))) out

/-- math/interpolate/filter.go:96-100 (`Convolve`). -/
def Kernel.convolve (k : Kernel K) (xs : List K) (b : Boundary) : Option (List K) := k.convolveAt xs b (List.replicate xs.length 0)

/-- math/interpolate/filter.go:163-171 (`normalize`). -/
def normalize (cs : List K) : List K := let sum := cs.foldl (· + ·) 0; cs.map (· / sum)

/-- math/interpolate/filter.go:198-213 (`NewTophatKernel`); `none` is the panic. -/
def newTophatKernel (width : Nat) : Option (Kernel K) :=
  if width % 2 ≠ 1 then none else some ⟨normalize (List.replicate width 1), width / 2⟩

/-- math/interpolate/filter.go:175-195 (`NewGaussianKernel`); the second half is copied from the first half. -/
noncomputable def newGaussianKernel (width : Nat) (sigma dx : ℝ) : Option (Kernel ℝ) :=
  if width % 2 ≠ 1 then none
  else
    let c := width / 2
    let left := (List.range (c + 1)).map fun (i : Nat) => let x := ((i : ℝ) - c) * dx; Real.exp (-x * x / (2 * sigma * sigma))
    let right := (List.range (width - (c + 1))).map fun t => left.getD (width - 1 - (c + 1 + t)) 0
    some ⟨normalize (left ++ right), c⟩

/-! Savitzky-Golay kernels -/

/-- math/interpolate/filter.go:275-285: the sum of the powers of the offsets. -/
def moment (n p : Nat) : K :=
  let sum : K := if p = 0 then 1 else 0
  let sum := (List.range n).foldl (fun s (k : Nat) => s + ((k + 1 : Nat) : K) ^ p) sum
  (List.range n).foldl (fun s (k : Nat) => s + (-((k + 1 : Nat) : K)) ^ p) sum

/-- math/interpolate/filter.go:286-294: the cells that are written for one `ipj`, as (row, column). -/
def cells (m ipj : Nat) : List (Int × Int) :=
  let mm : Int := if 2 * m - ipj > ipj then ipj else (2 * m - ipj : Nat)
  (List.range (mm.toNat + 1)).map fun (t : Nat) => let imj : Int := -mm + 2 * t; (((ipj : Int) - imj) / 2, ((ipj : Int) + imj) / 2)

/-- math/interpolate/filter.go:268-295: the matrix.  All cells that are written are in the matrix (`cells_mem`), so the flat index `j*Width+i` determines the row and the column. -/
def momentMatrix (n m : Nat) : Fin (m + 1) → Fin (m + 1) → K :=
  (List.range (2 * m + 1)).foldl (fun a ipj => (cells m ipj).foldl (fun a c => fun i j => if ((i : Int), (j : Int)) = c then moment n ipj else a i j) a) fun _ _ => 0

/-- math/interpolate/filter.go:303-307: the polynomial with the coefficients `b` at `x`. -/
def polyVal {m : Nat} (b : Fin (m + 1) → K) (x : K) : K :=
  ((List.finRange (m + 1)).tail.foldl (fun (st : K × K) mm => (st.1 + b mm * (st.2 * x), st.2 * x)) (b 0, 1)).1

/-- math/interpolate/filter.go:265-310 (`savgol`) for a kernel with `2n+1` points; `none` is a panic. -/
def savgol (n m ld : Nat) : Option (List K) :=
  (Mat.factorize (momentMatrix n m)).map fun lu =>
    let b : Fin (m + 1) → K := fun i => if i.1 = ld then 1 else 0
    let x := lu.solveVector b b
    (List.range (2 * n + 1)).map fun (i : Nat) => polyVal x ((i : K) - n)

/-- math/interpolate/filter.go:218-231 (`NewSavGolKernel`). -/
def newSavGolKernel (order width : Nat) : Option (Kernel K) :=
  if width % 2 ≠ 1 then none else if width ≤ order then none else (savgol (width / 2) order 0).map fun cs => ⟨cs, width / 2⟩

/-- math/interpolate/filter.go:312-318 (`factorial`). -/
def factorial (x : Nat) : Nat := (List.range (x - 1)).foldl (fun prod i => prod * (i + 2)) 1

/-- math/interpolate/filter.go:244-263 (`NewSavGolDerivKernel`). -/
def newSavGolDerivKernel (dx : K) (dOrder pOrder width : Nat) : Option (Kernel K) :=
  if width % 2 ≠ 1 then none else if dOrder > pOrder then none else if width ≤ pOrder then none
  else (savgol (width / 2) pOrder dOrder).map fun cs => ⟨cs.map fun c => c * ((factorial dOrder : K) / dx ^ dOrder), width / 2⟩

/-! Smoothing of profiles -/

/-- los/analyze/smooth.go:9-12: the stored kernels (`kernels` and `derivKernels` always have the same keys). -/
abbrev Cache (K : Type) := List (Nat × (Kernel K × Kernel K))

/-- los/analyze/smooth.go:84-96 (`getSmoothingKernel`): stored kernels are found by the window alone. -/
def getSmoothingKernel (cache : Cache K) (window : Nat) (dx : K) : Option ((Kernel K × Kernel K) × Cache K) :=
  match cache.lookup window with
  | some ks => some (ks, cache)
  | none => do
    let k ← newSavGolKernel 4 window
    let kd ← newSavGolDerivKernel dx 1 4 window
    some ((k, kd), (window, k, kd) :: cache)

/-- The results of `Smooth`: a panic, `ok = false`, or the smoothed values, the derivatives and what `ys` is afterwards; and the stored kernels. -/
inductive SmoothResult where
  | panic
  | notOk
  | ok (vals derivs ys : List ℝ) (cache : Cache ℝ)

/-- los/analyze/smooth.go:46-81 (`Smooth`) with slices for the results that have the length of `ys` and are not `ys`.  `xs[1]` does not panic since the window is not negative
(a window 0 panics in either way). -/
noncomputable def smooth (cache : Cache ℝ) (xs ys : List ℝ) (window : Nat) : SmoothResult :=
  if xs.length ≠ ys.length then .panic
  else if xs.length ≤ window then .notOk
  else
    let dx := Real.log (xs.getD 1 0) - Real.log (xs.getD 0 0)
    match getSmoothingKernel cache window dx with
    | none => .panic
    | some ((k, kd), cache) =>
      let lys := ys.map Real.log
      match k.convolve lys .extension, kd.convolve lys .extension with
      | some vals, some derivs => .ok (vals.map Real.exp) derivs (lys.map Real.exp) cache
      | _, _ => .panic

/-! The splashback radius -/

/-- los/analyze/splashback_radius.go:61-63 (`isMinimum`); `none` is the index panic. -/
def isMinimum (xs : List K) (i : Nat) : Option Bool := do
  let x ← xs[i]?
  let r ← xs[i + 1]?
  if x < r then do
    let l ← getI xs ((i : Int) - 1)
    some (decide (x < l))
  else some false

/-- los/analyze/splashback_radius.go:45-52: the body of the loop; the state is `rhoMin`, `dMin` and `iMin`. -/
def splashStep (rhos derivs : List K) (st : K × K × Option Nat) (i : Nat) : Option (K × K × Option Nat) := do
  let rho ← rhos[i]?
  if rho < st.1 then do
    let m ← isMinimum derivs i
    if m then do
      let d ← derivs[i]?
      some (if d < st.2.1 then (rho, d, some i) else (rho, st.2))
    else some (rho, st.2)
  else some st

/-- los/analyze/splashback_radius.go:30-58 (`SplashbackRadius`): `none` is a panic, `some none` is `ok = false`. -/
def splashbackRadius (rs rhos derivs : List K) (dLim : K) : Option (Option K) :=
  if rhos.length ≠ derivs.length then none
  else match rhos.head? with
    | none => some none
    | some rho0 => do
      let st ← (List.range (rs.length - 2)).foldlM (fun st t => splashStep rhos derivs st (t + 1)) (rho0, dLim, none)
      match st.2.2 with
      | none => some none
      | some i => (rs[i]?).map some

end Shellfish.Smooth
