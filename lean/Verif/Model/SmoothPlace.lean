/-
los/analyze/smooth.go:31-81: `Smooth` with the options `Vals` and `Derivs`, whose slices may be slices of their own or share their memory with the profile.  Floating point numbers are real numbers, there is no rounding.
-/
import Verif.Model.Smooth

namespace Shellfish.Smooth

variable {K : Type} [Field K] [LinearOrder K]

/-- math/interpolate/filter.go:104-161 (`ConvolveAt`) if `out` is the memory of `xs`: every result is written over a value that later sums read. -/
def Kernel.convolveSame (k : Kernel K) (b : Boundary) (xs : List K) : Option (List K) := do
  let n := xs.length
  let nl := k.center
  let nr := k.cs.length - 1 - k.center
  let xs ← (List.range (nl + 1)).foldlM (fun xs (i : Nat) => (tapSum k (leftTap b xs) i).bind (write xs i)) xs
  let xs ← (List.range (n - nr - (nl + 1))).foldlM (fun xs (t : Nat) => (tapSum k (getI xs) ((nl + 1 + t : Nat) : Int)).bind (write xs ((nl + 1 + t : Nat) : Int))) xs
  (List.range nr).foldlM (fun xs (t : Nat) => (tapSum k (rightTap b xs) ((n : Int) - nr + t)).bind (write xs ((n : Int) - nr + t))) xs

/-- los/analyze/smooth.go:31-40 (`Vals`, `Derivs`): where the results go.  `own v d` are slices that share no memory; `inPlace d` is `Vals(ys)` with a slice for the slopes, `slopesInPlace v` is `Derivs(ys)` with a slice for the values,
`both v` is one slice for values and slopes. -/
inductive Target where
  | own (v d : List ℝ)
  | inPlace (d : List ℝ)
  | slopesInPlace (v : List ℝ)
  | both (v : List ℝ)

/-- los/analyze/smooth.go:68-78: the loops with the kernels `k` and `kd`; the smoothed values, the slopes and the profile at the end (equal lists if they are the same memory). -/
noncomputable def smoothLoops (k kd : Kernel ℝ) (ys : List ℝ) : Target → Option (List ℝ × List ℝ × List ℝ)
  | .own v d => do
    let lys := ys.map Real.log
    let v ← k.convolveAt lys .extension v
    let d ← kd.convolveAt lys .extension d
    some (v.map Real.exp, d, lys.map Real.exp)
  | .inPlace d => do
    let lys := ys.map Real.log
    let lys ← k.convolveSame .extension lys
    let d ← kd.convolveAt lys .extension d
    let lys := lys.map Real.exp
    let lys := lys.map Real.exp
    some (lys, d, lys)
  | .slopesInPlace v => do
    let lys := ys.map Real.log
    let v ← k.convolveAt lys .extension v
    let lys ← kd.convolveSame .extension lys
    let lys := lys.map Real.exp
    some (v.map Real.exp, lys, lys)
  | .both v => do
    let lys := ys.map Real.log
    let v ← k.convolveAt lys .extension v
    let v ← kd.convolveAt lys .extension v
    let v := v.map Real.exp
    some (v, v, lys.map Real.exp)

/-- los/analyze/smooth.go:46-81 (`Smooth`) with options. -/
noncomputable def smoothInto (cache : Cache ℝ) (xs ys : List ℝ) (window : Nat) (t : Target) : SmoothResult :=
  if xs.length ≠ ys.length then .panic
  else if xs.length ≤ window then .notOk
  else
    let dx := Real.log (xs.getD 1 0) - Real.log (xs.getD 0 0)
    match getSmoothingKernel cache window dx with
    | none => .panic
    | some ((k, kd), cache) =>
      match smoothLoops k kd ys t with
      | some (vals, derivs, ys) => .ok vals derivs ys cache
      | none => .panic

end Shellfish.Smooth
