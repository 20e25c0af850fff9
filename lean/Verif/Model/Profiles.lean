/-
Model of the profiles over all lines of sight of a halo (cmd/shell.go:629-660, los/halo.go:372-421), of the table that the shell mode makes of them (cmd/shell.go:272-286), and of the profiles over pixels of the prof
mode (cmd/prof.go:585-686).  float64 is the real numbers.  A percentile is given as the fraction `pn / pd` (the setting divided by 100).
-/
import Verif.Model.Kde
import Verif.Model.Sort
import Verif.Model.Prof
import Verif.Model.Shell

namespace Shellfish.Profiles
noncomputable section
open Shellfish.Los (Halo)
open Shellfish.Kde (getRs)

/-- cmd/shell.go:636-645, los/halo.go:375-387: the buffers with the densities of the lines of sight, `buf[s + r*spokes]` for ring `r` and line `s`.  `none` is a panic. -/
def lineBufs (h : Halo) (rings spokes bins : Nat) : Option (List (List ℝ)) :=
  ((List.range rings).mapM fun r => (List.range spokes).mapM fun s => h.getRhos r s (List.replicate bins 0)).map List.flatten

/-- cmd/shell.go:651-653, los/halo.go:393-395: the densities of bin `ri`. -/
def gather (bufs : List (List ℝ)) (ri : Nat) : Option (List ℝ) := bufs.mapM fun b => b[ri]?

/-- cmd/shell.go:629-660 (`calcPercentile`): the radii followed by the densities. -/
def calcPercentile (h : Halo) (rings spokes bins pn pd : Nat) : Option (List ℝ) :=
  (getRs h bins).bind fun rs => (lineBufs h rings spokes bins).bind fun bufs =>
    ((List.range bins).mapM fun ri => (gather bufs ri).bind fun xs => Sort.percentile xs pn pd (some (List.replicate (spokes * rings) 0))).map fun rhos => rs ++ rhos

/-- los/halo.go:373-399 (`MedianProfile`).  The slice and the buffer of `Median` are the same. -/
def medianProfile (h : Halo) : Option (List ℝ) :=
  (lineBufs h h.rings h.n h.bins).bind fun bufs => (List.range h.bins).mapM fun ri => (gather bufs ri).bind fun xs => Sort.median xs (some xs)

/-- los/halo.go:402-421 (`MeanProfile`).  One buffer is used for all lines of sight: every call of `GetRhos` overwrites all of it, because the rings have `bins` bins. -/
def meanProfile (h : Halo) : Option (List ℝ) :=
  (lineBufs h h.rings h.n h.bins).bind fun bufs =>
    (bufs.foldlM (fun (mean : List ℝ) (buf : List ℝ) => if mean.length < buf.length then none else some (List.zipWith (· + ·) mean (buf ++ List.replicate (mean.length - buf.length) 0))) (List.replicate h.bins 0)).map
      fun mean => mean.map fun m => m / ((h.rings * h.n : Nat) : ℝ)

/-- cmd/shell.go:272-286 (`transpose`).  `none` is a panic: no rows, or a row that is shorter than the first. -/
def transpose (rows : List (List ℝ)) : Option (List (List ℝ)) :=
  match rows with
  | [] => none
  | row0 :: _ => (List.range row0.length).mapM fun x => rows.mapM fun row => row[x]?

/-! The prof mode -/

/-- cmd/prof.go:590-600, 612-622: the volume of radial bin `j`. -/
def binVolume (n : Nat) (rMin rMax : ℝ) (j : Nat) : ℝ :=
  let dlr := (Real.log rMax - Real.log rMin) / (n : ℝ)
  let lrMin := Real.log rMin
  let rLo := Real.exp (dlr * (j : ℝ) + lrMin)
  let rHi := Real.exp (dlr * ((j + 1 : Nat) : ℝ) + lrMin)
  (rHi * rHi * rHi - rLo * rLo * rLo) * 4 * Real.pi / 3

/-- cmd/prof.go:595, 617. -/
def binRadii (n : Nat) (rMin rMax : ℝ) : List ℝ :=
  (List.range n).map fun (j : Nat) => Real.exp (Real.log rMin + (Real.log rMax - Real.log rMin) / (n : ℝ) * ((j : ℝ) + 1 / 2))

/-- cmd/prof.go:585-605 (`processMedianProfile`) for `n` bins: radii and densities. -/
def processMedianProfile (n : Nat) (med : List (List ℝ)) (scratch : List ℝ) (rMin rMax : ℝ) (pn pd : Nat) : Option (List ℝ × List ℝ) :=
  ((List.range n).mapM fun j => (med[j]?).bind fun xs => (Sort.percentile xs pn pd (some scratch)).map fun v => v / binVolume n rMin rMax j).map fun rhos => (binRadii n rMin rMax, rhos)

/-- cmd/prof.go:637-644: the percentiles of the resampled lists; `draws` has, for every sample, the values of `rand.Intn(len(x))`.  `none` is a panic. -/
def resampled (x : List ℝ) (pn pd : Nat) (scratch : List ℝ) (draws : List (List Nat)) : Option (List ℝ) :=
  draws.mapM fun d => (d.mapM fun k => x[k]?).bind fun sample => Sort.percentile sample pn pd (some scratch)

/-- cmd/prof.go:629-650 (`bootstrapErrorPercentile`).  `none` is a panic, `some none` is NaN (no samples, `0 / 0`). -/
def bootstrapError (x : List ℝ) (pn pd : Nat) (scratch : List ℝ) (draws : List (List Nat)) : Option (Option ℝ) :=
  (resampled x pn pd scratch draws).map fun ps =>
    if draws.length = 0 then none
    else
      let sum := ps.foldl (fun s p => s + p) 0 / (draws.length : ℝ)
      let sqrSum := ps.foldl (fun s p => s + p * p) 0 / (draws.length : ℝ)
      some (Real.sqrt (sqrSum - sum * sum))

/-- cmd/prof.go:607-627 (`processMedianErrorProfile`): radii and errors; `draws j` is what is drawn for bin `j`. -/
def processMedianErrorProfile (n : Nat) (med : List (List ℝ)) (scratch : List ℝ) (rMin rMax : ℝ) (pn pd : Nat) (draws : Nat → List (List Nat)) : Option (List ℝ × List (Option ℝ)) :=
  ((List.range n).mapM fun j => (med[j]?).bind fun xs => (bootstrapError xs pn pd scratch (draws j)).map fun e => e.map fun v => v / binVolume n rMin rMax j).map fun rhos => (binRadii n rMin rMax, rhos)

/-- cmd/prof.go:652-672 (`angularFractionMain`): for every row the radii and the fractions (the columns of the table are these lists, transposed). -/
def angularFractionMain (bins : Nat) (rMinMult rMaxMult : ℝ) (rows : List (Analyze.Shell × ℝ × List (ℝ × ℝ))) : List (List ℝ × List (Option ℝ)) :=
  rows.map fun row => row.1.angularFractionProfile row.2.2 bins (row.2.1 * rMinMult) (row.2.1 * rMaxMult)

end
end Shellfish.Profiles
