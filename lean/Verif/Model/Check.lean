/-
Model of the check mode (cmd/check.go).  float32 and float64 are the real numbers (no rounding).  The texts of the messages are not modelled; a failed check is named.
-/
import Verif.Model.Box

namespace Shellfish.Check
noncomputable section
open Shellfish.Geom (Vec)
open Shellfish.Los (Region Sphere displacement goInt binSphereIntersections)

/-- cmd/check.go:14-22 (`CheckConfig`). -/
structure Config where
  h0 : ℝ
  omegaM : ℝ
  omegaL : ℝ
  boxWidth : ℝ
  masses : List ℝ
  count : Int
  halo : List ℝ

/-- A particle of a file: the elements of `xs` and `ms` that `Read` returns (they have the same length). -/
structure Particle where
  x : Vec
  m : ℝ

/-- A particle file: what its header states (io/io.go:70-83), what `buf.TotalParticles` returns and what `buf.Read` returns (`none`: an error). -/
structure File where
  region : Region
  omegaM : ℝ
  omegaL : ℝ
  h100 : ℝ
  total : Option Int
  particles : Option (List Particle)

/-- The checks that can fail. -/
inductive Failure
  | h0 | omegaM | omegaL | boxWidth | masses | count | halo
  deriving DecidableEq

/-- The outcome of `Run`: no message, a list of messages and exit status 1, or an error or a panic. -/
inductive Res
  | passed
  | failed (l : List Failure)
  | stopped

/-- cmd/check.go:126-129 (`checkAlmostEq`). -/
def almostEq (x y : ℝ) : Prop := |x - y| < y / 10

open Classical in
/-- cmd/check.go:131-168 (`headerChecks`). -/
def headerChecks (f : File) (c : Config) (l : List Failure) : List Failure :=
  let l := if c.h0 > 0 ∧ ¬ almostEq c.h0 (f.h100 * 100) then l ++ [.h0] else l
  let l := if c.omegaM > 0 ∧ ¬ almostEq c.omegaM f.omegaM then l ++ [.omegaM] else l
  let l := if c.omegaL > 0 ∧ ¬ almostEq c.omegaL f.omegaL then l ++ [.omegaL] else l
  if c.boxWidth > 0 ∧ ¬ almostEq c.boxWidth f.region.totalWidth then l ++ [.boxWidth] else l

open Classical in
/-- cmd/check.go:182-194: the first mass that is not among the allowed ones, or -1. -/
def failureMass (masses : List ℝ) (ps : List Particle) : ℝ := ((ps.find? fun p => decide (¬ ∃ mm ∈ masses, almostEq p.m mm)).map (·.m)).getD (-1)

open Classical in
/-- cmd/check.go:170-222 (`particleChecks`); `none` is an error. -/
def particleChecks (f : File) (c : Config) (l : List Failure) : Option (List Failure) :=
  (if c.masses.length > 0 then
    f.particles.map fun ps => if failureMass c.masses ps ≠ -1 then l ++ [.masses] else l
  else some l).bind fun l =>
  if c.count > 0 then
    f.total.map fun n => if n ≠ c.count then l ++ [.count] else l
  else some l

open Classical in
/-- cmd/check.go:284-308 (`addMass`). -/
def addMass (s : Sphere) (tw : ℝ) (ps : List Particle) : ℝ :=
  ps.foldl (fun m p =>
    let dx := displacement tw p.x.x s.c.x
    let dy := displacement tw p.x.y s.c.y
    let dz := displacement tw p.x.z s.c.z
    if dx * dx + dy * dy + dz * dz ≤ s.r * s.r then m + p.m else m) 0

open Classical in
/-- cmd/check.go:224-282 (`haloChecks`); `none` is an error or a panic (of `exampleHalo[5]`, `hds[0]`, or `ReadHeaders` for an unknown snapshot: `disk` is `none`). -/
def haloChecks (disk : Int → Option (List File)) (c : Config) (l : List Failure) : Option (List Failure) :=
  match c.halo with
  | [] => some l
  | snap :: hx :: hy :: hz :: hr :: hm :: _ =>
    (disk (goInt snap)).bind fun files =>
      if files = [] then none
      else
        let s : Sphere := ⟨⟨hx, hy, hz⟩, hr⟩
        let bins := binSphereIntersections (files.map (·.region)) [s]
        ((List.range files.length).foldlM (fun (mass : ℝ) i =>
          if (bins.getD i []).length = 0 then some mass
          else (files[i]?).bind fun f => f.particles.map fun ps => mass + addMass s f.region.totalWidth ps) 0).map fun mass =>
          if ¬ almostEq hm mass then l ++ [.halo] else l
  | _ => none

/-- cmd/check.go:90-124 (`Run`).  `disk` has the files of the snapshots (`none`: not in the simulation or not readable), `snapMax` is the last snapshot of the halo catalogs. -/
def run (disk : Int → Option (List File)) (snapMax : Int) (c : Config) : Res :=
  match disk snapMax with
  | none => .stopped
  | some [] => .stopped
  | some (f :: _) =>
    match ((particleChecks f c (headerChecks f c [])).bind fun l => haloChecks disk c l) with
    | none => .stopped
    | some [] => .passed
    | some l => .failed l

end
end Shellfish.Check
