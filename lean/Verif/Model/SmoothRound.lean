/-
los/analyze/smooth.go:46-81, math/interpolate/filter.go:104-161 and los/analyze/ring_buffer.go:62-76 in float64 arithmetic (rounding as in Model/Round.lean).  The kernels are arguments: `getSmoothingKernel` (Model/Smooth.lean)
computes them from a linear system, whose rounding is not modelled.
-/
import Verif.Model.Smooth
import Verif.Model.LosRound

namespace Shellfish.SmoothRound
open Shellfish.Smooth Shellfish.Round

/-- math/interpolate/filter.go:110-129, 132-136 and 140-158: the sum over the taps for point `i`; product and sum are rounded. -/
def tapSum64 (k : Kernel ℚ) (tap : Int → Option ℚ) (i : Int) : Option ℚ :=
  (List.range k.cs.length).foldlM (fun sum (j : Nat) => do
    let x ← tap (i + j - k.center)
    some (r64 (sum + r64 (x * k.cs.getD j 0)))) 0

/-- math/interpolate/filter.go:104-161 (`ConvolveAt`) with the boundary condition `b`; the results are written to a slice of the same length. -/
def convolve64 (k : Kernel ℚ) (xs : List ℚ) (b : Boundary) : Option (List ℚ) := do
  let n := xs.length
  let nl := k.center
  let nr := k.cs.length - 1 - k.center
  let out ← (List.range (nl + 1)).foldlM (fun out (i : Nat) => (tapSum64 k (leftTap b xs) i).bind (write out i)) (List.replicate n 0)
  let out ← (List.range (n - nr - (nl + 1))).foldlM (fun out (t : Nat) => (tapSum64 k (getI xs) ((nl + 1 + t : Nat) : Int)).bind (write out ((nl + 1 + t : Nat) : Int))) out
  (List.range nr).foldlM (fun out (t : Nat) => (tapSum64 k (rightTap b xs) ((n : Int) - nr + t)).bind (write out ((n : Int) - nr + t))) out

/-- los/analyze/smooth.go:46-81 (`Smooth`) with the kernels `k` and `kd` of the window; `lg` and `ex` are `math.Log` and `math.Exp`.  `none` is a panic, `some none` is `ok = false`; otherwise the smoothed values, the
derivatives and what `ys` is afterwards. -/
def smooth64 (lg ex : ℚ → ℚ) (k kd : Kernel ℚ) (window : ℕ) (xs ys : List ℚ) : Option (Option (List ℚ × List ℚ × List ℚ)) :=
  if xs.length ≠ ys.length then none
  else if xs.length ≤ window then some none
  else do
    let lys := ys.map lg
    let vals ← convolve64 k lys .extension
    let derivs ← convolve64 kd lys .extension
    some (some (vals.map ex, derivs, lys.map ex))

/-- los/analyze/ring_buffer.go:62-76: the radius for one line of sight; `none` is a panic, `some none` is `ok = false`. -/
def lineRadius64 (lg ex : ℚ → ℚ) (k kd : Kernel ℚ) (window : ℕ) (dLim : ℚ) (rs rhos : List ℚ) : Option (Option ℚ) :=
  match smooth64 lg ex k kd window rs rhos with
  | none => none
  | some none => some none
  | some (some (vals, derivs, _)) => splashbackRadius rs vals derivs dLim

end Shellfish.SmoothRound
