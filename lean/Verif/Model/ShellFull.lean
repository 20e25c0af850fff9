/-
Model of the shell mode with everything that is kept from halo to halo: cmd/shell.go:288-366 (`loop`) and 502-527 (`haloAnalysis`), where Model/ShellRun has the analysis as a function of the halo.
-/
import Verif.Model.ShellRun
import Verif.Model.Kde

namespace Shellfish.ShellRun
noncomputable section
open Shellfish.Geom (Vec)
open Shellfish.Los (Halo)
open Shellfish.Kde (RingBuffer calcCoeffs)
open Shellfish.Cmd (GoMap binBySnap sortedSnaps)

/-- cmd/shell.go:20-43 (`ShellConfig`): the settings of the analysis. -/
structure FitConfig where
  window : Nat
  levels : Nat
  order : Nat
  dLim : ℝ
  eta : ℝ

/-- What is kept from halo to halo: `ringBuf` (cmd/shell.go:294-297) and the smoothing kernels (los/analyze/smooth.go:9-12). -/
abbrev Kept := List RingBuffer × Smooth.Cache ℝ

/-- cmd/shell.go:294-297; no kernels are stored at first. -/
def Kept.start (cfg : Config) : Kept := (List.replicate cfg.rings (RingBuffer.init cfg.spokes cfg.radialBins), [])

/-- cmd/shell.go:515-523: the analysis of one halo.  The result of `ok = false` is a nil row (the message of 518-522 is thrown away); `none` is a panic. -/
def fitHalo (inverse : Analyze.Inverse) (fc : FitConfig) (s : Kept) (h : Halo) : Option (List ℝ × Kept) :=
  (calcCoeffs inverse h s.2 s.1 fc.window fc.levels fc.order fc.dLim fc.eta).map fun r => (r.1.getD [], r.2)

/-- cmd/shell.go:502-527 (`haloAnalysis`). -/
def analysisS {β S : Type} (step : S → Halo → Option (β × S)) (idxs : List Nat) (halos : List Halo) (st : List β × S) : Option (List β × S) :=
  (idxs.zip halos).foldlM (fun st ih => (step st.2 ih.2).map fun r => (st.1.set ih.1 r.1, r.2)) st

/-- cmd/shell.go:323-363: the body of the loop over the snapshots (see `snapStep`). -/
def snapStepS {β S : Type} (cfg : Config) (norms : List Vec) (workers : Nat) (minMass : ℝ) (step : S → Halo → Option (β × S)) (rows : List Row) (disk : Int → Option (List File)) (hd0 : File)
    (idxs : GoMap Nat) (st : (List β × S) × List Halo) (snap : Int) : Option ((List β × S) × List Halo) :=
  if snap = -1 then some st
  else
    ((idxs.get snap).mapM fun k => rows[k]?).bind fun rs =>
      (rs.mapM (createHalo cfg norms minMass hd0)).bind fun halos =>
        (disk snap).bind fun files =>
          (runJobs halos st.2 (files.flatMap fun f => fileJobs cfg workers f id (bin halos f.region))).bind fun r =>
            (analysisS step (idxs.get snap) r.1 st.1).map fun o => (o, r.2)

/-- cmd/shell.go:192-245, 288-366 (`Run` with `loop`, see `run`), with the state that is kept. -/
def runS {β S : Type} (cfg : Config) (norms : List Vec) (workers : Nat) (minMass : ℝ) (step : S → Halo → Option (β × S)) (start : S) (blank : β) (rows : List Row) (disk : Int → Option (List File)) :
    Option (List β) :=
  if rows = [] then none
  else if (rows.head?.bind fun r => disk r.snap).getD [] = [] then none
  else (binBySnap (rows.map (·.snap)) (rows.map (·.id))).bind fun b =>
    match (((sortedSnaps b.1).head?.bind disk).getD []).head? with
    | none => none
    | some hd0 =>
      ((sortedSnaps b.1).foldlM (snapStepS cfg norms workers minMass step rows disk hd0 b.2) ((List.replicate rows.length blank, start), List.replicate (workers - 1) Halo.zero)).map fun st => st.1.1

/-- The shell mode: cmd/shell.go:192-245 with `calcCoeffs`; `blank` is the row of zeros of 223-229 (`2 order²` coefficients). -/
def shellMode (inverse : Analyze.Inverse) (cfg : Config) (fc : FitConfig) (norms : List Vec) (workers : Nat) (minMass : ℝ) (rows : List Row) (disk : Int → Option (List File)) : Option (List (List ℝ)) :=
  runS cfg norms workers minMass (fitHalo inverse fc) (Kept.start cfg) (List.replicate (2 * fc.order * fc.order) 0) rows disk

end
end Shellfish.ShellRun
