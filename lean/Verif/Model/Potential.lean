/-
Model of the potential mode after its input has been read (cmd/potential.go:86-329).  float32 and float64 are the real numbers; the random numbers are an argument.
-/
import Verif.Model.Stats
import Verif.Model.Mem

namespace Shellfish.Potential
noncomputable section
open Shellfish.Geom (Vec)
open Shellfish.Los (Sphere sphereSheetIntersect)
open Shellfish.Stats (File Particle)
open Shellfish.Cmd (GoMap binBySnap sortedSnaps)

/-- cmd/potential.go:21-26 (`PotentialConfig`). -/
structure Config where
  ncells : Nat
  rGridMult : ℝ
  rMinMult : ℝ
  rMaxMult : ℝ
  frac : ℝ

/-- The three maps of a halo (cmd/potential.go:115-119). -/
inductive Plane
  | xy
  | yz
  | xz
deriving DecidableEq

/-- The maps of one halo: `phiSets[0][i]`, `phiSets[1][i]`, `phiSets[2][i]`; the arrays are functions of the index (all indices that are used are below `ncells * ncells`). -/
abbrev Maps := Plane × Nat → ℝ

/-- cmd/potential.go:267-268: `gridR` and `delta` of `insertPotentialPoints` (for one cell `delta` is infinite; 0 here). -/
def gridR (cfg : Config) (R : ℝ) : ℝ := R * cfg.rGridMult

/-- cmd/potential.go:268. -/
def delta (cfg : Config) (R : ℝ) : ℝ := gridR cfg R * 2 / ((cfg.ncells : ℝ) - 1)

/-- cmd/potential.go:291-308: what is subtracted from a cell for a particle with mass `pm` at the displacement `d` (`pm/dr`; a distance of 0 gives 0 instead of infinity). -/
def term (cfg : Config) (R : ℝ) (d : Vec) (pm : ℝ) : Plane × Nat → ℝ
  | (.xy, i) =>
    let dx := d.x - gridR cfg R + delta cfg R * ((i % cfg.ncells : Nat) : ℝ)
    let dy := d.y - gridR cfg R + delta cfg R * ((i / cfg.ncells : Nat) : ℝ)
    pm / Real.sqrt (dx * dx + dy * dy + d.z * d.z)
  | (.xz, i) =>
    let dx := d.x - gridR cfg R + delta cfg R * ((i % cfg.ncells : Nat) : ℝ)
    let dz := d.z - gridR cfg R + delta cfg R * ((i / cfg.ncells : Nat) : ℝ)
    pm / Real.sqrt (dx * dx + d.y * d.y + dz * dz)
  | (.yz, i) =>
    let dy := d.y - gridR cfg R + delta cfg R * ((i % cfg.ncells : Nat) : ℝ)
    let dz := d.z - gridR cfg R + delta cfg R * ((i / cfg.ncells : Nat) : ℝ)
    pm / Real.sqrt (d.x * d.x + dy * dy + dz * dz)

/-- cmd/potential.go:274-281: the displacement of a particle (not wrapped), and the test of its distance. -/
def disp (c x : Vec) : Vec := ⟨x.x - c.x, x.y - c.y, x.z - c.z⟩

/-- cmd/potential.go:264-265, 278-281. -/
def used (cfg : Config) (s : Sphere) (x : Vec) : Prop :=
  let d := disp s.c x
  let dr02 := d.x * d.x + d.y * d.y + d.z * d.z
  ¬ (dr02 > cfg.rMaxMult * cfg.rMaxMult * (s.r * s.r) ∨ dr02 < cfg.rMinMult * cfg.rMinMult * (s.r * s.r))

/-- cmd/potential.go:284-309: the updates of worker `w` for one particle. -/
def cellUpdates (cfg : Config) (workers w : Nat) (R : ℝ) (d : Vec) (pm : ℝ) : List (Mem.Upd (Plane × Nat) ℝ) :=
  (Par.strided w workers (cfg.ncells * cfg.ncells)).flatMap fun i => [⟨(.xy, i), -term cfg R d pm (.xy, i)⟩, ⟨(.xz, i), -term cfg R d pm (.xz, i)⟩, ⟨(.yz, i), -term cfg R d pm (.yz, i)⟩]

open Classical in
/-- cmd/potential.go:255-313 (`insertPotentialPoints`): the program of worker `w`.  `keep` is the table of the particles that are used. -/
def program (cfg : Config) (workers : Nat) (s : Sphere) (ps : List Particle) (keep : Nat → Bool) (w : Nat) : List (Mem.Upd (Plane × Nat) ℝ) :=
  ps.zipIdx.flatMap fun p => if keep p.2 = true ∧ used cfg s p.1.x then cellUpdates cfg workers w s.r (disp s.c p.1.x) p.1.m else []

/-- One row of the input. -/
structure Row where
  id : Int
  snap : Int
  x : Vec
  r : ℝ
  m : ℝ

/-- cmd/potential.go:160-165, 168: the bounding sphere, with the radius up to which particles are used. -/
def Row.bound (cfg : Config) (row : Row) : Sphere := ⟨row.x, row.r * cfg.rMaxMult⟩

/-- cmd/potential.go:173: the same sphere after its radius has been divided by `rMaxMult`. -/
def Row.sphere (cfg : Config) (row : Row) : Sphere := ⟨row.x, row.r * cfg.rMaxMult / cfg.rMaxMult⟩

open Classical in
/-- cmd/potential.go:175-213: the loop over the files of a snapshot with the rows `idxs`; `exec i k` is what the lock group makes of the maps of row `k` for file `i`. -/
def snapFiles (cfg : Config) (exec : Nat → Nat → Maps → Maps) (files : List File) (idxs : List Nat) (rows : List Row) (st : List Maps) : List Maps :=
  files.zipIdx.foldl (fun st f =>
    (idxs.zip rows).foldl (fun st kr => if sphereSheetIntersect (kr.2.bound cfg) f.1.region then st.modify kr.1 (exec f.2 kr.1) else st) st) st

/-- cmd/potential.go:315-323 (`processPotential`). -/
def processMaps (cfg : Config) (row : Row) (m : Maps) : Maps := fun c => m c / (cfg.frac * row.m / row.r)

/-- cmd/potential.go:325-328: the column `R`. -/
def radii (cfg : Config) (row : Row) : List ℝ :=
  (List.range cfg.ncells).map fun (i : Nat) => row.r * cfg.rGridMult * 2 / (cfg.ncells : ℝ) * (i : ℝ) - row.r * cfg.rGridMult

/-- cmd/potential.go:86-226 (`Run`): for each row the radii and the maps.  `none` is an error or a panic; as in Model/Stats the reader is created for the snapshot of the first row. -/
def run (cfg : Config) (rows : List Row) (disk : Int → Option (List File)) (exec : Int → Nat → Nat → Maps → Maps) : Option (List (List ℝ × Maps)) :=
  if rows = [] then none
  else if (rows.head?.bind fun r => disk r.snap).getD [] = [] then none
  else (binBySnap (rows.map (·.snap)) (rows.map (·.id))).bind fun b =>
    ((sortedSnaps b.1).foldlM (fun st snap =>
      if snap = -1 then some st
      else
        (disk snap).bind fun files =>
          if files = [] then none
          else ((b.2.get snap).mapM fun k => rows[k]?).map fun rs => snapFiles cfg (exec snap) files (b.2.get snap) rs st)
      (List.replicate rows.length fun _ => 0)).map fun st => (rows.zip st).map fun rm => (radii cfg rm.1, processMaps cfg rm.1 rm.2)

end
end Shellfish.Potential
