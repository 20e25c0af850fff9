/-
Model of cmd/prof.go and cmd/phase.go.  float32 and float64 are the real numbers (no rounding).
The shell of the contained-density profiles is a predicate on displacements (`analyze.Shell.Contains` is not modelled here).
The theorems about these functions assume that all radii are positive: `math.Log` of other numbers, which is not finite, is not modelled.
-/
import Verif.Model.Box
import Verif.Model.Group
import Verif.Model.Pixel
import Mathlib.Analysis.SpecialFunctions.Pow.Real

namespace Shellfish.Cmd
noncomputable section
open Shellfish.Geom (Vec pixelOf spherePixelNum)
open Shellfish.Los (Region Sphere displacement goInt addAt sphereSheetIntersect)

/-- One particle of a file: the entries of `xs`, `vs` and `ms` (the three slices of `buf.Read` have the same length, C31). -/
structure Particle where
  x : Vec
  v : Vec
  m : ℝ

/-- One particle file of a snapshot: its header, and what `buf.Read` returns (`none`: an error). -/
structure File where
  hd : Region
  particles : Option (List Particle)

/-- cmd/prof.go:33-41 (`profileType`). -/
inductive ProfileType
  | density | medianDensity | medianError | containedDensity | angularFraction | boundDensity
  deriving DecidableEq

/-- cmd/prof.go:23-31 (`ProfConfig`), without `order`, `samples` and `percentile`. -/
structure ProfConfig where
  bins : Nat
  rMinMult : ℝ
  rMaxMult : ℝ
  level : Int
  pType : ProfileType

/-- cmd/prof.go:688-692 (`ExtendedSphere`) and the shell of the row. -/
structure ExtSphere where
  s : Sphere
  m : ℝ
  rs : ℝ
  v : Vec
  contains : Vec → Prop

/-- cmd/prof.go:486-490, 541-545, cmd/phase.go:289-293: the displacement of a particle from a halo. -/
def disp (tw : ℝ) (c x : Vec) : Vec := ⟨displacement tw x.x c.x, displacement tw x.y c.y, displacement tw x.z c.z⟩

/-- cmd/prof.go:492 (`r2`). -/
def norm2 (d : Vec) : ℝ := d.x * d.x + d.y * d.y + d.z * d.z

/-- cmd/prof.go:500-502, 559-562: the radial bin of squared radius `r2`.  The median version takes the logarithm of the square root, which is half of the logarithm. -/
def radialBin (cfg : ProfConfig) (R : ℝ) (len : Nat) (r2 : ℝ) : Int :=
  let lrMax := Real.log (R * cfg.rMaxMult)
  let lrMin := Real.log (R * cfg.rMinMult)
  let dlr := (lrMax - lrMin) / (cfg.bins : ℝ)
  let ir := goInt ((Real.log r2 / 2 - lrMin) / dlr)
  if ir = len then ir - 1 else ir

/-- cmd/prof.go:471-474, 493, 547-549: whether `r2` is inside of the profile. -/
def inProfile (cfg : ProfConfig) (R r2 : ℝ) : Prop := ¬ (r2 ≤ (R * cfg.rMinMult) * (R * cfg.rMinMult) ∨ r2 ≥ (R * cfg.rMaxMult) * (R * cfg.rMaxMult))

/-- cmd/prof.go:479-482, 505-516: twice the potential of an NFW halo at squared radius `r2`. -/
def vesc2 (s : ExtSphere) (r2 : ℝ) : ℝ :=
  let vVir := 508 * Real.sqrt ((s.m / 60000000000000) / (s.s.r / 1))
  let cVir := s.s.r / s.rs
  let phiPrefactor := 1 / (Real.log (1 + cVir) - cVir / (1 + cVir))
  let x := Real.sqrt r2 / s.s.r
  let phi := vVir * vVir * phiPrefactor * Real.log (1 + cVir * x) / x
  phi * 2

/-- cmd/prof.go:495-498 and 504-522: whether a particle inside of the profile is counted. -/
def counted (cfg : ProfConfig) (s : ExtSphere) (p : Particle) (d : Vec) : Prop :=
  match cfg.pType with
  | .containedDensity => s.contains d
  | .boundDensity => vesc2 s (norm2 d) > norm2 ⟨p.v.x - s.v.x, p.v.y - s.v.y, p.v.z - s.v.z⟩
  | _ => True

open Classical in
/-- cmd/prof.go:484-522: the loop body of `insertPoints`; `none` is an index panic. -/
def insertPoint (cfg : ProfConfig) (s : ExtSphere) (tw : ℝ) (rhos : List ℝ) (p : Particle) : Option (List ℝ) :=
  let d := disp tw s.s.c p.x
  if ¬ inProfile cfg s.s.r (norm2 d) then some rhos
  else if ¬ counted cfg s p d then some rhos
  else addAt rhos (radialBin cfg s.s.r rhos.length (norm2 d)) p.m

/-- cmd/prof.go:463-522 (`insertPoints`). -/
def insertPoints (cfg : ProfConfig) (s : ExtSphere) (tw : ℝ) (rhos : List ℝ) (ps : List Particle) : Option (List ℝ) :=
  ps.foldlM (insertPoint cfg s tw) rhos

open Classical in
/-- cmd/prof.go:541-563: the loop body of `insertMedianPoints`. -/
def insertMedianPoint (cfg : ProfConfig) (s : ExtSphere) (tw : ℝ) (med : List (List ℝ)) (p : Particle) : Option (List (List ℝ)) :=
  let d := disp tw s.s.c p.x
  if ¬ inProfile cfg s.s.r (norm2 d) then some med
  else
    let ir := radialBin cfg s.s.r med.length (norm2 d)
    if 0 ≤ ir ∧ ir < med.length then
      (addAt (med.getD ir.toNat []) (pixelOf d cfg.level) (p.m * (spherePixelNum cfg.level : ℝ))).map fun row => med.set ir.toNat row
    else none

/-- cmd/prof.go:526-566 (`insertMedianPoints`). -/
def insertMedianPoints (cfg : ProfConfig) (s : ExtSphere) (tw : ℝ) (med : List (List ℝ)) (ps : List Particle) : Option (List (List ℝ)) :=
  ps.foldlM (insertMedianPoint cfg s tw) med

/-- cmd/prof.go:568-583 (`processProfile`): the radii and the densities. -/
def processProfile (rhos : List ℝ) (rMin rMax : ℝ) : List ℝ × List ℝ :=
  let n := rhos.length
  let dlr := (Real.log rMax - Real.log rMin) / (n : ℝ)
  let lrMin := Real.log rMin
  ((List.range n).map fun (j : Nat) => Real.exp (lrMin + dlr * ((j : ℝ) + 1 / 2)),
   (List.range n).map fun (j : Nat) =>
      let rLo := Real.exp (dlr * (j : ℝ) + lrMin)
      let rHi := Real.exp (dlr * ((j + 1 : Nat) : ℝ) + lrMin)
      let dV := (rHi * rHi * rHi - rLo * rLo * rLo) * 4 * Real.pi / 3
      rhos.getD j 0 / dV)

/-- cmd/phase.go:19-24 (`PhaseConfig`). -/
structure PhaseConfig where
  rbins : Nat
  vbins : Nat
  rMaxMult : ℝ
  vMaxMult : ℝ
  radial : Bool
  subHub : Bool

/-- cmd/phase.go:301-316: the velocity of a particle at displacement `d` and relative velocity `u`. -/
def phaseVelocity (cfg : PhaseConfig) (d u : Vec) : ℝ :=
  let r := Real.sqrt (norm2 d)
  if cfg.radial then
    let v := (u.x * d.x + u.y * d.y + u.z * d.z) / r
    if cfg.subHub then v - r * 70 else v
  else
    let u : Vec := if cfg.subHub then ⟨u.x - 70 * d.x, u.y - 70 * d.y, u.z - 70 * d.z⟩ else u
    Real.sqrt (u.x * u.x + u.y * u.y + u.z * u.z)

open Classical in
/-- cmd/phase.go:288-324: the loop body of `insertPhasePoints`.  The radial velocity of a particle at the center is not a number; on amd64 its bin is the smallest integer
and the particle is skipped. -/
def insertPhasePoint (cfg : PhaseConfig) (hx hv : Sphere) (tw : ℝ) (rhos : List ℝ) (p : Particle) : Option (List ℝ) :=
  let vMax := hv.r
  let vMin := if cfg.radial then -vMax else 0
  let dv := (vMax - vMin) / (cfg.vbins : ℝ)
  let dr := hx.r / (cfg.rbins : ℝ)
  let d := disp tw hx.c p.x
  if norm2 d ≥ hx.r * hx.r then some rhos
  else if cfg.radial ∧ norm2 d = 0 then some rhos
  else
    let v := phaseVelocity cfg d ⟨p.v.x - hv.c.x, p.v.y - hv.c.y, p.v.z - hv.c.z⟩
    let ir := goInt (Real.sqrt (norm2 d) / dr)
    let ir := if ir = cfg.rbins then ir - 1 else ir
    let iv := goInt ((v - vMin) / dv)
    if iv ≥ cfg.vbins ∨ iv < 0 then some rhos
    else addAt rhos (ir * cfg.vbins + iv) p.m

/-- cmd/phase.go:270-324 (`insertPhasePoints`). -/
def insertPhasePoints (cfg : PhaseConfig) (hx hv : Sphere) (tw : ℝ) (rhos : List ℝ) (ps : List Particle) : Option (List ℝ) :=
  ps.foldlM (insertPhasePoint cfg hx hv tw) rhos

/-- cmd/phase.go:325-349 (`processPhaseProfile`): radii, velocities and densities (the radius index is the slow one). -/
def processPhaseProfile (cfg : PhaseConfig) (rhos : List ℝ) (rMax vMax : ℝ) : List ℝ × List ℝ × List ℝ :=
  let vMin := if cfg.radial then -vMax else 0
  let dv := (vMax - vMin) / (cfg.vbins : ℝ)
  let dr := rMax / (cfg.rbins : ℝ)
  ((List.range cfg.rbins).map fun (j : Nat) => dr * ((j : ℝ) + 1 / 2),
   (List.range cfg.vbins).map fun (i : Nat) => vMin + dv * ((i : ℝ) + 1 / 2),
   (List.range (cfg.rbins * cfg.vbins)).map fun (k : Nat) =>
      let rLo := dr * ((k / cfg.vbins : Nat) : ℝ)
      let rHi := dr * ((k / cfg.vbins + 1 : Nat) : ℝ)
      let dV := (rHi * rHi * rHi - rLo * rLo * rLo) * 4 * Real.pi / 3
      rhos.getD k 0 / (dV * dv))

/-! The runs -/

/-- What a mode returns: a panic, an error, `nil, nil`, or lines. -/
inductive RunResult (α : Type)
  | panic
  | err
  | nothing
  | lines (rows : List α)

/-- The simulation as the modes see it: the range of known snapshots, whether the reader can be created for a first file (`getVectorBuffer`), and
what `memo.ReadHeaders` returns for a snapshot (`none`: an error). -/
structure Sim where
  snapMin : Int
  snapNum : Nat
  bufOk : Int → Bool
  headers : Int → Option (List File)

/-- cmd/env/env.go:149-151: `ParticleCatalog(snap, 0)` does not panic. -/
def Sim.known (sim : Sim) (snap : Int) : Prop := 0 ≤ snap - sim.snapMin ∧ snap - sim.snapMin < sim.snapNum

/-- One row of the input of the prof mode. -/
structure ProfRow where
  id : Int
  snap : Int
  s : ExtSphere

/-- cmd/prof.go:365: the sphere with the radius of the profile. -/
def ProfConfig.grown (cfg : ProfConfig) (s : ExtSphere) : Sphere := ⟨s.s.c, s.s.r * cfg.rMaxMult⟩

open Classical in
/-- cmd/prof.go:366, 717-731: the entry of `intrIdxs` for a file. -/
def intrIdxs (hd : Region) (bounds : List Sphere) : List Nat := (bounds.zipIdx.filter fun s => decide (sphereSheetIntersect s.1 hd)).map (·.2)

/-- `profs[row] = f(profs[row])`; `none` is a panic. -/
def updRow {β : Type} (profs : List β) (row : Nat) (f : β → Option β) : Option (List β) :=
  match profs[row]? with
  | none => none
  | some p => (f p).map fun p' => profs.set row p'

/-- cmd/phase.go:220-229, cmd/prof.go:386-412: the loop over the spheres that a file intersects (`intrIdxs[i]`); `ins j` inserts the particles of the file into the profile
of the `j`-th halo of the snapshot. -/
def insertFile {β : Type} (idxs : List Nat) (ins : Nat → β → Option β) : List Nat → List β → Option (List β)
  | [], profs => some profs
  | j :: js, profs =>
    match idxs[j]? with
    | none => none
    | some row =>
      match updRow profs row (ins j) with
      | none => none
      | some profs => insertFile idxs ins js profs

/-- The work of the prof mode for one halo and file (cmd/prof.go:395-409). -/
def profInsert (cfg : ProfConfig) (s : ExtSphere) (f : File) (ps : List Particle) (prof : List ℝ × List (List ℝ)) : Option (List ℝ × List (List ℝ)) :=
  if cfg.pType = .medianDensity ∨ cfg.pType = .medianError then (insertMedianPoints cfg s f.hd.totalWidth prof.2 ps).map fun m => (prof.1, m)
  else (insertPoints cfg s f.hd.totalWidth prof.1 ps).map fun r => (r, prof.2)

/-- cmd/prof.go:369-418: the loop over the files of a snapshot.  It returns from the mode after the first file that has work: `inl` is a return of the mode. The work is split over
goroutines that write to different profiles (C19): they are run one after the other here. -/
def profFiles (cfg : ProfConfig) (idxs : List Nat) (bounds : List ExtSphere) :
    List File → List (List ℝ × List (List ℝ)) → RunResult (List ℝ × List ℝ) ⊕ List (List ℝ × List (List ℝ))
  | [], profs => .inr profs
  | f :: fs, profs =>
    let js := intrIdxs f.hd (bounds.map cfg.grown)
    if js.length = 0 then profFiles cfg idxs bounds fs profs
    else
      match f.particles with
      | none => .inl .err
      | some ps =>
        match insertFile idxs (fun j prof => (bounds[j]?).bind fun s => profInsert cfg s f ps prof) js profs with
        | none => .inl .panic
        | some _ => .inl .nothing

/-- cmd/prof.go:334-419: the loop over the snapshots.  `&hds[0]` panics for a snapshot without files. -/
def profSnaps (cfg : ProfConfig) (rows : List ProfRow) (sim : Sim) (ib : GoMap Nat) :
    List Int → List (List ℝ × List (List ℝ)) → RunResult (List ℝ × List ℝ) ⊕ List (List ℝ × List (List ℝ))
  | [], profs => .inr profs
  | snap :: snaps, profs =>
    if snap = -1 then profSnaps cfg rows sim ib snaps profs
    else
      match (ib.get snap).mapM (fun i => rows[i]?) with
      | none => .inl .panic
      | some rs =>
        match sim.headers snap with
        | none => .inl .err
        | some [] => .inl .panic
        | some (f :: fs) =>
          match profFiles cfg (ib.get snap) (rs.map (·.s)) (f :: fs) profs with
          | .inl r => .inl r
          | .inr profs => profSnaps cfg rows sim ib snaps profs

/-- cmd/prof.go:274-460: the prof mode after its input has been read, for the density, contained-density and bound-density profiles (for the median profiles the densities
of the result are left out: `processMedianProfile` is a percentile over pixels, C03). -/
def profRun (cfg : ProfConfig) (rows : List ProfRow) (sim : Sim) : RunResult (List ℝ × List ℝ) :=
  match binBySnap (rows.map (·.snap)) (rows.map (·.id)) with
  | none => .panic
  | some (sb, ib) =>
    match rows with
    | [] => .panic
    | row0 :: _ =>
      open Classical in
      if ¬ sim.known row0.snap then .panic
      else if ¬ sim.bufOk row0.snap then .err
      else
        let profs := rows.map fun _ => (List.replicate cfg.bins (0 : ℝ), List.replicate cfg.bins (List.replicate (spherePixelNum cfg.level).toNat (0 : ℝ)))
        match profSnaps cfg rows sim ib (sortedSnaps sb) profs with
        | .inl r => r
        | .inr profs => .lines ((rows.zip profs).map fun rp => processProfile rp.2.1 (rp.1.s.s.r * cfg.rMinMult) (rp.1.s.s.r * cfg.rMaxMult))

/-- One row of the input of the phase mode. -/
structure PhaseRow where
  id : Int
  snap : Int
  x : Vec
  r : ℝ
  m : ℝ
  v : Vec

/-- cmd/phase.go:140-142 (`hvr`). -/
def PhaseRow.vr (row : PhaseRow) : ℝ := 508 * Real.sqrt ((row.m / 60000000000000) / (row.r / 1))

/-- cmd/phase.go:186-189, 200 (`hxBounds`). -/
def PhaseRow.hx (cfg : PhaseConfig) (row : PhaseRow) : Sphere := ⟨row.x, row.r * cfg.rMaxMult⟩

/-- cmd/phase.go:191-194, 201 (`hvBounds`). -/
def PhaseRow.hv (cfg : PhaseConfig) (row : PhaseRow) : Sphere := ⟨row.v, row.vr * cfg.vMaxMult⟩

/-- cmd/phase.go:207-232: the loop over the files of a snapshot. -/
def phaseFiles (cfg : PhaseConfig) (idxs : List Nat) (rs : List PhaseRow) : List File → List (List ℝ) → RunResult (List ℝ × List ℝ × List ℝ) ⊕ List (List ℝ)
  | [], profs => .inr profs
  | f :: fs, profs =>
    let js := intrIdxs f.hd (rs.map (·.hx cfg))
    if js.length = 0 then phaseFiles cfg idxs rs fs profs
    else
      match f.particles with
      | none => .inl .err
      | some ps =>
        match insertFile idxs (fun j prof => (rs[j]?).bind fun r => insertPhasePoints cfg (r.hx cfg) (r.hv cfg) f.hd.totalWidth prof ps) js profs with
        | none => .inl .panic
        | some profs => phaseFiles cfg idxs rs fs profs

/-- cmd/phase.go:171-233: the loop over the snapshots. -/
def phaseSnaps (cfg : PhaseConfig) (rows : List PhaseRow) (sim : Sim) (ib : GoMap Nat) :
    List Int → List (List ℝ) → RunResult (List ℝ × List ℝ × List ℝ) ⊕ List (List ℝ)
  | [], profs => .inr profs
  | snap :: snaps, profs =>
    if snap = -1 then phaseSnaps cfg rows sim ib snaps profs
    else
      match (ib.get snap).mapM (fun i => rows[i]?) with
      | none => .inl .panic
      | some rs =>
        match sim.headers snap with
        | none => .inl .err
        | some [] => .inl .panic
        | some (f :: fs) =>
          match phaseFiles cfg (ib.get snap) rs (f :: fs) profs with
          | .inl r => .inl r
          | .inr profs => phaseSnaps cfg rows sim ib snaps profs

/-- cmd/phase.go:113-268 (`Run`), after its input has been read. -/
def phaseRun (cfg : PhaseConfig) (rows : List PhaseRow) (sim : Sim) : RunResult (List ℝ × List ℝ × List ℝ) :=
  match rows with
  | [] => .err
  | row0 :: _ =>
    match binBySnap (rows.map (·.snap)) (rows.map (·.id)) with
    | none => .panic
    | some (sb, ib) =>
      open Classical in
      if ¬ sim.known row0.snap then .panic
      else if ¬ sim.bufOk row0.snap then .err
      else
        match phaseSnaps cfg rows sim ib (sortedSnaps sb) (rows.map fun _ => List.replicate (cfg.rbins * cfg.vbins) (0 : ℝ)) with
        | .inl r => r
        | .inr profs => .lines ((rows.zip profs).map fun rp => processPhaseProfile cfg rp.2 (rp.1.r * cfg.rMaxMult) (rp.1.vr * cfg.vMaxMult))

end
end Shellfish.Cmd
