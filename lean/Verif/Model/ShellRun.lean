/-
Model of the shell mode after its input has been read (cmd/shell.go:288-671 and the calls of it in 192-270).  float32 and float64 are the real numbers.  What is done with a
finished halo (`calcCoeffs` or `calcPercentile`, cmd/shell.go:613-660) is an argument here; Model/RingBuf, Model/Kde, Model/Penna and Model/Profiles model it.
-/
import Verif.Model.Stats
import Verif.Model.Radius
import Verif.Model.Rand

namespace Shellfish.ShellRun
noncomputable section
open Shellfish.Geom (Vec)
open Shellfish.Los (Halo Ball Job Region)
open Shellfish.Cmd (GoMap binBySnap sortedSnaps)

/-- cmd/shell.go:20-43 (`ShellConfig`), the settings that the loop uses. -/
structure Config where
  rings : Nat
  spokes : Nat
  radialBins : Nat
  sf : Nat
  rMaxMult : ℝ
  rMinMult : ℝ
  rKernelMult : ℝ
  backgroundRhoMult : ℝ

/-- An element of `xs` and `ms`, as `Read` returns them. -/
structure Particle where
  x : Vec
  m : ℝ

/-- A snapshot file: its header (region and cosmology) and its particles. -/
structure File where
  region : Region
  cosmo : Radius.Cosmo
  particles : List Particle

/-- cmd/shell.go:487-488, 552-553: the mean density of the header. -/
def File.rhoM (f : File) : ℝ := Radius.rhoAverage (f.cosmo.h100 * 100) f.cosmo.omegaM f.cosmo.omegaL f.cosmo.z

/-- One row of the input. -/
structure Row where
  id : Int
  snap : Int
  x : Vec
  r : ℝ

/-- cmd/shell.go:485, 549. -/
def sphVol (rad : ℝ) : ℝ := 4 * Real.pi / 3 * rad * rad * rad

/-- cmd/shell.go:536-564: the halo of a row; `none` is the nil pointer that is left for `r <= 0`.  `norms` is `normVecs(c.rings)`: the generator is created anew with the same seed for every halo. -/
def createHalo (cfg : Config) (norms : List Vec) (minMass : ℝ) (hd : File) (row : Row) : Option Halo :=
  if row.r ≤ 0 then none
  else
    let rad := row.r * cfg.rKernelMult
    let rho := minMass * ((cfg.sf * cfg.sf * cfg.sf : Nat) : ℝ) / sphVol rad / hd.rhoM
    some (Halo.init norms row.x (row.r * cfg.rMinMult) (row.r * cfg.rMaxMult) cfg.radialBins cfg.spokes (rho * cfg.backgroundRhoMult))

/-- cmd/shell.go:435, 484: the kernel radius. -/
def kernel (cfg : Config) (h : Halo) : ℝ := h.rMax * cfg.rKernelMult / cfg.rMaxMult

open Classical in
/-- cmd/shell.go:436, 490-498: the spheres that worker `w` inserts; `pos` is where `Transform` has moved the particles.  (After `Split` a worker's halo has the `rMax` of the halo.) -/
def shareBalls (cfg : Config) (f : File) (h : Halo) (pos : Vec → Vec) (workers w : Nat) : List Ball :=
  (Par.share workers (cfg.sf * cfg.sf * cfg.sf) f.particles.length w).filterMap fun i => (f.particles[i]?).bind fun p =>
    if h.intersects (pos p.x) (kernel cfg h) then some ⟨pos p.x, kernel cfg h, p.m * ((cfg.sf * cfg.sf * cfg.sf : Nat) : ℝ) / sphVol (kernel cfg h) / f.rhoM⟩ else none

/-- cmd/shell.go:403-406: the calls of `loadSphereVecs` for one file, for the halos (with their indices) that the file may touch.  The particles are moved in place: `pos` is where they are
after the previous calls. -/
def fileJobs (cfg : Config) (workers : Nat) (f : File) : (Vec → Vec) → List (Halo × Nat) → List Job
  | _, [] => []
  | pos, (h, i) :: bin =>
    let pos' := fun v => h.transform f.region.totalWidth (pos v)
    ⟨i, shareBalls cfg f h pos' workers (workers - 1), (List.range (workers - 1)).map (shareBalls cfg f h pos' workers)⟩ :: fileJobs cfg workers f pos' bin

open Classical in
/-- cmd/shell.go:599-611 (`binIntersections`) for one file, with the indices of the halos. -/
def bin (halos : List Halo) (hd : Region) : List (Halo × Nat) := halos.zipIdx.filter fun h => decide (h.1.sheetIntersect hd.origin hd.width hd.totalWidth)

/-- cmd/shell.go:421-465: the calls of `loadSphereVecs` one after the other: the halos and the workers' halos afterwards.  (`Los.passes` with the workers' halos in the result.) -/
def runJobs : List Halo → List Halo → List Job → Option (List Halo × List Halo)
  | halos, scratch, [] => some (halos, scratch)
  | halos, scratch, job :: jobs =>
    match halos[job.halo]? with
    | none => none
    | some h => (h.pass job.own (scratch.zip job.shares)).bind fun r => runJobs (halos.set job.halo r.1) r.2 jobs

/-- cmd/shell.go:502-527 (`haloAnalysis`): the results are written to the rows `idxs`. -/
def analysis {β : Type} (analyse : Halo → β) (idxs : List Nat) (halos : List Halo) (out : List β) : List β :=
  (idxs.zip halos).foldl (fun out ih => out.set ih.1 (analyse ih.2)) out

/-- cmd/shell.go:323-363: the body of the loop over the snapshots.  A nil halo is a panic (in `binIntersections`, or in `haloAnalysis` if there is no file). -/
def snapStep {β : Type} (cfg : Config) (norms : List Vec) (workers : Nat) (minMass : ℝ) (analyse : Halo → β) (rows : List Row) (disk : Int → Option (List File)) (hd0 : File) (idxs : GoMap Nat)
    (st : List β × List Halo) (snap : Int) : Option (List β × List Halo) :=
  if snap = -1 then some st
  else
    ((idxs.get snap).mapM fun k => rows[k]?).bind fun rs =>
      (rs.mapM (createHalo cfg norms minMass hd0)).bind fun halos =>
        (disk snap).bind fun files =>
          (runJobs halos st.2 (files.flatMap fun f => fileJobs cfg workers f id (bin halos f.region))).map fun r => (analysis analyse (idxs.get snap) r.1 st.1, r.2)

/-- cmd/shell.go:192-245, 288-366 (`Run` with `loop`): the results of all rows.  `disk` has the files of each snapshot (`none`: they cannot be read), `minMass` is what the reader, which is created for the snapshot
of the first row, reports; `blank` is the row of zeros of 223-229.  `none` is an error or a panic. -/
def run {β : Type} (cfg : Config) (norms : List Vec) (workers : Nat) (minMass : ℝ) (analyse : Halo → β) (blank : β) (rows : List Row) (disk : Int → Option (List File)) : Option (List β) :=
  if rows = [] then none
  else if (rows.head?.bind fun r => disk r.snap).getD [] = [] then none
  else (binBySnap (rows.map (·.snap)) (rows.map (·.id))).bind fun b =>
    match (((sortedSnaps b.1).head?.bind disk).getD []).head? with
    | none => none
    | some hd0 =>
      ((sortedSnaps b.1).foldlM (snapStep cfg norms workers minMass analyse rows disk hd0 b.2) (List.replicate rows.length blank, List.replicate (workers - 1) Halo.zero)).map Prod.fst

/-- cmd/shell.go:577-589: the loop for one vector of `normVecs`; `draw` is `gen.Uniform(-1, +1)` of any generator; `none` after `fuel` rejected triples. -/
def normVecOn {γ : Type} (draw : γ → Option (ℝ × γ)) : Nat → γ → Option (Vec × γ)
  | 0, _ => none
  | fuel + 1, g =>
    (draw g).bind fun x => (draw x.2).bind fun y => (draw y.2).bind fun z =>
      let v : Vec := ⟨x.1, y.1, z.1⟩
      let r := Real.sqrt (v.x * v.x + v.y * v.y + v.z * v.z)
      open Classical in if r < 1 then some (⟨v.x / r, v.y / r, v.z / r⟩, z.2) else normVecOn draw fuel z.2

/-- cmd/shell.go:574-590: the loop over the vectors. -/
def normLoopOn {γ : Type} (draw : γ → Option (ℝ × γ)) (fuel : Nat) : Nat → γ → Option (List Vec)
  | 0, _ => some []
  | n + 1, g => (normVecOn draw fuel g).bind fun r => (normLoopOn draw fuel n r.2).map fun vs => r.1 :: vs

/-- cmd/shell.go:568, 578-580: the draws from the Xorshift generator. -/
def xorDraw (g : Rand.Xor) : Option (ℝ × Rand.Xor) := (g.uniform (-1) 1).map fun x => (((x.1 : ℚ) : ℝ), x.2)

/-- cmd/shell.go:577-589 with the generator of `normVecs`. -/
def normVec : Nat → Rand.Xor → Option (Vec × Rand.Xor) := normVecOn xorDraw

/-- cmd/shell.go:574-590 with the generator of `normVecs`. -/
def normLoop : Nat → Nat → Rand.Xor → Option (List Vec) := normLoopOn xorDraw

/-- cmd/shell.go:566-592 (`normVecs`). -/
def normVecs (fuel : Nat) (seed : BitVec 64) (n : Nat) : Option (List Vec) :=
  if n = 3 then some [⟨0, 0, 1⟩, ⟨0, 1, 0⟩, ⟨1, 0, 0⟩] else normLoop fuel n (Rand.Xor.init seed)

end
end Shellfish.ShellRun
