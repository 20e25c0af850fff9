/-
Model of the life of a cache directory: the runs of the program that use it, one after another with interruptions, or at the same time.
-/
import Verif.Model.Modes
import Verif.Model.MemoConfig

namespace Shellfish.MemoRuns
open Shellfish.Config Shellfish.Modes
open Shellfish.MemoConfig (GlobalConfig configEqual)

variable {F : Type} [DecidableEq F] (L : FLib F)

/-- The settings of cmd/cmd.go:46-86 as shellfish.go:543-565 sees them.  Simplified: `configEqual` does not look at the float settings, which are left out here (0). -/
def asConfig (g : Global F) : GlobalConfig where
  snapshotFormat := String.ofList g.snapshotFormat
  snapshotFormatMeanings := g.meanings.map String.ofList
  scaleFactorFile := String.ofList g.scaleFactorFile
  blockMins := g.blockMins
  blockMaxes := g.blockMaxes
  snapMin := g.snapMin
  snapMax := g.snapMax
  haloDir := String.ofList g.haloDir
  treeDir := String.ofList g.treeDir
  hSnapMin := g.snapMin
  hSnapMax := g.snapMax
  version := String.ofList g.version
  snapshotType := String.ofList g.snapshotType
  haloType := String.ofList g.haloType
  treeType := String.ofList g.treeType
  memoDir := String.ofList g.memoDir
  haloValueNames := g.valueNames.map String.ofList
  haloValueColumns := g.valueColumns
  haloValueComments := g.valueComments.map String.ofList
  haloPositionUnits := String.ofList g.positionUnits
  haloRadiusUnits := String.ofList g.radiusUnits
  haloMassUnits := String.ofList g.massUnits
  endianness := String.ofList g.endianness
  validateFormats := g.validateFormats
  threads := g.threads
  logging := String.ofList g.logging
  gadgetDMTypeIndices := g.dmTypes
  gadgetSingleMassIndices := g.singleMass
  gadgetPositionUnits := 0
  gadgetMassUnits := 0
  lGadgetNpartNum := g.npart
  nilSnapOmegaM := 0
  nilSnapOmegaL := 0
  nilSnapH100 := 0
  nilSnapScaleFactors := []
  nilSnapTotalWidth := 0

/-- shellfish.go:500-520: the part of `checkMemoDir` for a directory with the text `stored` in `memo.config`; `text` is the configuration file of the run.  True: no error. -/
def compareTexts (fs : Str → PathState) (text stored : Str) : Bool :=
  match globalRead L fs (some text), globalRead L fs (some stored) with
  | some c, some m => configEqual (asConfig c) (asConfig m)
  | _, _ => false

/-- A cache directory: the content of `memo.config`, if there is such a file, and for each of the other files the settings of the run that wrote it. -/
structure Dir (F : Type) where
  config : Option Str
  caches : List (Global F)

/-- Where a run ends: while `memo.config` is copied, after so many bytes of it are on the disk, or later, after it wrote so many cache files. -/
inductive Stop where
  | copying (written : Nat)
  | later (caches : Nat)

/-- A run: the state of the directories named in the configuration file, the content of that file, and where the run ends. -/
structure Run where
  fs : Str → PathState
  text : Str
  stop : Stop

/-- shellfish.go:491-541 (`checkMemoDir`, `copyFile`): whether the run goes on, and `memo.config` afterwards.  `os.Create` makes an empty file, `io.Copy` appends to it. -/
def checkMemoDir (config : Option Str) (r : Run) : Bool × Option Str :=
  match config with
  | none => match r.stop with
    | .copying k => (false, some (r.text.take k))
    | .later _ => (true, some r.text)
  | some s => (compareTexts L r.fs r.text s, config)

/-- shellfish.go:340-451 (`main`), as far as the directory is concerned: whether the run got past the check, and the directory afterwards.  (The configuration file is read at
shellfish.go:363-367, before the check.  Mode and stdin errors before the check are as a file that is not read: nothing happens.) -/
def run (dir : Dir F) (r : Run) : Bool × Dir F :=
  match globalRead L r.fs (some r.text) with
  | none => (false, dir)
  | some g =>
    let c := checkMemoDir L dir.config r
    let n := match r.stop with
      | .copying _ => 0
      | .later n => n
    (c.1, ⟨c.2, if c.1 then dir.caches ++ List.replicate n g else dir.caches⟩)

/-- Runs one after another. -/
def runs (dir : Dir F) (rs : List Run) : Dir F := rs.foldl (fun d r => (run L d r).2) dir

/-- Where a process is in `checkMemoDir` (shellfish.go:491-541). -/
inductive Pc where
  | stat
  | create
  | write (n : Nat)
  | compare
  | accepted
  | refused
deriving DecidableEq

/-- One byte written at an offset: a gap is filled with zero bytes. -/
def writeAt (s : Str) (n : Nat) (c : Char) : Str := (s ++ List.replicate (n - s.length) '\x00').take n ++ c :: s.drop (n + 1)

/-- One step of a process with the configuration file `text` (shellfish.go:494-541): `memo.config` and the place in the program afterwards.  Each process writes at its own offset;
`os.Create` truncates the file. -/
def step (fs : Str → PathState) (text : Str) (config : Option Str) : Pc → Option Str × Pc
  | .stat => (config, if config.isNone then .create else .compare)
  | .create => (some [], .write 0)
  | .write n => match text[n]? with
    | some c => (config.map fun s => writeAt s n c, .write (n + 1))
    | none => (config, .accepted)
  | .compare => (config, if compareTexts L fs text (config.getD []) then .accepted else .refused)
  | .accepted => (config, .accepted)
  | .refused => (config, .refused)

/-- Two processes with the same directory; the schedule says whose turn it is. -/
def interleave (fs : Str → PathState) (a b : Str) : List Bool → Option Str × Pc × Pc → Option Str × Pc × Pc
  | [], s => s
  | false :: sch, (c, p, q) => let r := step L fs a c p; interleave fs a b sch (r.1, r.2, q)
  | true :: sch, (c, p, q) => let r := step L fs b c q; interleave fs a b sch (r.1, p, r.2)

end Shellfish.MemoRuns
