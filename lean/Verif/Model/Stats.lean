/-
Model of the masses and the shell particles of the stats mode (cmd/stats.go:174-392, 408-422, 436-594).  float32 and float64 are the real numbers (no rounding); the random numbers that
`RadialRange` draws are an argument.
-/
import Verif.Model.Box
import Verif.Model.Group
import Verif.Model.Par
import Verif.Model.Penna
import Mathlib.Analysis.SpecialFunctions.Pow.Real

namespace Shellfish.Stats
noncomputable section
open Shellfish.Geom (Vec atan2)
open Shellfish.Los (Region Sphere displacement binSphereIntersections)
open Shellfish.Analyze (Shell)
open Shellfish.Cmd (GoMap binCoeffsBySnap sortedSnaps)

/-- A particle of a snapshot file: the elements of `xs`, `ms` and `ids` that `Read` returns (they have the same length). -/
structure Particle where
  x : Vec
  m : ℝ
  id : Int

/-- A snapshot file: its header and its particles. -/
structure File where
  region : Region
  particles : List Particle

/-- cmd/stats.go:528-532, 563-567: the wrapped displacement of a particle from the center of a halo. -/
def offset (tw : ℝ) (c x : Vec) : Vec := ⟨displacement tw x.x c.x, displacement tw x.y c.y, displacement tw x.z c.z⟩

/-- cmd/stats.go:534, 569. -/
def norm2 (v : Vec) : ℝ := v.x * v.x + v.y * v.y + v.z * v.z

/-- cmd/stats.go:536-537: the test of `massContainedChan`. -/
def counted (tw : ℝ) (shell : Shell) (c : Vec) (low high : ℝ) (x : Vec) : Prop :=
  norm2 (offset tw c x) < low * low ∨ (norm2 (offset tw c x) < high * high ∧ shell.contains (offset tw c x))

open Classical in
/-- cmd/stats.go:527-540: what particle `i` of the file adds to the mass. -/
def addedMass (f : File) (shell : Shell) (c : Vec) (low high : ℝ) (i : Nat) : ℝ :=
  match f.particles[i]? with
  | none => 0
  | some p => if counted f.region.totalWidth shell c low high p.x then p.m else 0

/-- cmd/stats.go:451-478 (`massContained`) with 513-543 (`massContainedChan`): the parallel section. -/
def massSection (workers : Nat) (f : File) (shell : Shell) (c : Vec) (low high : ℝ) : Par.Section ℝ :=
  Par.foldSection workers 1 f.particles.length (addedMass f shell c low high) (· + ·) 0

/-- cmd/stats.go:571-592: the test of `appendShellParticlesChan`.  (`theta` is NaN for a particle in the center; arccos 0 here.) -/
def nearShell (tw : ℝ) (shell : Shell) (s : Sphere) (low high width : ℝ) (x : Vec) : Prop :=
  let delta := if width < 0 then 0 else s.r * width
  let v := offset tw s.c x
  let r := Real.sqrt (norm2 v)
  let rs := shell (atan2 v.y v.x) (Real.arccos (v.z / r))
  let low := low - delta
  let high := high + delta
  if width < 0 then norm2 v < high * high ∧ rs > r
  else (norm2 v > low * low ∧ norm2 v < high * high) ∧ rs + delta > r ∧ rs - delta < r

open Classical in
/-- cmd/stats.go:562-593: the ids that particle `i` adds. -/
def addedIds (f : File) (shell : Shell) (s : Sphere) (low high width : ℝ) (i : Nat) : List Int :=
  match f.particles[i]? with
  | none => []
  | some p => if nearShell f.region.totalWidth shell s low high width p.x then [p.id] else []

/-- cmd/stats.go:482-511 (`appendShellParticles`) with 545-597 (`appendShellParticlesChan`): the parallel section; `out` gets what the workers send. -/
def idSection (workers : Nat) (f : File) (shell : Shell) (s : Sphere) (low high width : ℝ) : Par.Section (List Int) :=
  Par.foldSection workers 1 f.particles.length (addedIds f shell s low high width) (· ++ ·) []

/-- The input catalog: the columns of the snapshots and the ids, the positions and radii, and the shells of the coefficients (cmd/stats.go:205-219). -/
structure Input where
  snaps : List Int
  ids : List Int
  spheres : List Sphere
  shells : List Shell

/-- The state of the loop over the snapshots: the columns `masses` and `shellParticles`. -/
abbrev Cols := List ℝ × List (List Int)

/-- cmd/stats.go:334-354: the body of the loop over the halos for file `i` of a snapshot and row `k`.  `mass` and `near` are what the parallel calls return. -/
def addRow (mass : Nat → Nat → ℝ) (near : Nat → Nat → List Int) (filter : Bool) (i : Nat) (st : Cols) (k : Nat) : Cols :=
  (st.1.modify k (· + mass i k), if filter then st.2.modify k (· ++ near i k) else st.2)

/-- cmd/stats.go:317-356: the loop over the files of a snapshot with the rows `idxs`. -/
def snapFiles (mass : Nat → Nat → ℝ) (near : Nat → Nat → List Int) (skipMass filter : Bool) (files : List File) (idxs : List Nat) (spheres : List Sphere) (st : Cols) : Cols :=
  if skipMass then st
  else
    let bins := binSphereIntersections (files.map (·.region)) spheres
    (List.range files.length).foldl (fun st i => if (bins.getD i []).isEmpty then st else idxs.foldl (addRow mass near filter i) st) st

/-- cmd/stats.go:218-356: the masses and the shell particles.  `disk` has the files of each snapshot (`none`: they cannot be read), `mass snap i k` and `near snap i k` are what the parallel
calls return for file `i` and row `k`.  The result `none` is an error or a panic; the reader is
created (245-250) for the first file of the snapshot of the first row, which panics if there is no such snapshot.  (The other columns are computed in the same loop and do not depend on the files; they are `volume` etc. in Model/Shell.) -/
def run (inp : Input) (disk : Int → Option (List File)) (mass : Int → Nat → Nat → ℝ) (near : Int → Nat → Nat → List Int) (skipMass filter : Bool) : Option Cols :=
  if inp.snaps = [] then none
  else if (inp.snaps.head?.bind disk).getD [] = [] then none
  else (binCoeffsBySnap inp.snaps inp.ids inp.shells).bind fun b =>
    (sortedSnaps b.1).foldlM (fun st snap =>
      if snap = -1 then some st
      else
        (disk snap).bind fun files =>
          if files = [] then none
          else ((b.2.2.get snap).mapM fun k => inp.spheres[k]?).map fun spheres => snapFiles (mass snap) (near snap) skipMass filter files (b.2.2.get snap) spheres st)
      (List.replicate inp.ids.length 0, List.replicate inp.ids.length [])

/-- cmd/stats.go:268-269: the column `R_sp` for the volume of a shell. -/
def rsp (vol : ℝ) : ℝ := (vol / (Real.pi * 4 / 3)) ^ (0.33333 : ℝ)

end
end Shellfish.Stats
