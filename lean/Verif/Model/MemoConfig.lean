/-
Model of the cache directory check of shellfish.go and of the settings on which the cached data depend.  float64 settings are bit patterns.
-/
import Verif.Model.Memo

namespace Shellfish.MemoConfig
open Shellfish.Memo (Out Header)

/-- cmd/cmd.go:46-86 (`GlobalConfig`), with the embedded cmd/env/env.go:44-57 (`ParticleInfo`, `HaloInfo`). -/
structure GlobalConfig where
  snapshotFormat : String
  snapshotFormatMeanings : List String
  scaleFactorFile : String
  blockMins : List Int
  blockMaxes : List Int
  snapMin : Int
  snapMax : Int
  haloDir : String
  treeDir : String
  hSnapMin : Int
  hSnapMax : Int
  version : String
  snapshotType : String
  haloType : String
  treeType : String
  memoDir : String
  haloValueNames : List String
  haloValueColumns : List Int
  haloValueComments : List String
  haloPositionUnits : String
  haloRadiusUnits : String
  haloMassUnits : String
  endianness : String
  validateFormats : Bool
  threads : Int
  logging : String
  gadgetDMTypeIndices : List Int
  gadgetSingleMassIndices : List Int
  gadgetPositionUnits : Nat
  gadgetMassUnits : Nat
  lGadgetNpartNum : Int
  nilSnapOmegaM : Nat
  nilSnapOmegaL : Nat
  nilSnapH100 : Nat
  nilSnapScaleFactors : List Nat
  nilSnapTotalWidth : Nat

/-- shellfish.go:567-589 (`int64sEqual`, `stringsEqual`): same length, and the loop finds no difference. -/
def allEqual {α : Type} [DecidableEq α] (xs ys : List α) : Bool := decide (xs.length = ys.length) && (xs.zip ys).all fun p => decide (p.1 = p.2)

/-- shellfish.go:543-565 (`configEqual`). -/
def configEqual (m c : GlobalConfig) : Bool :=
  decide (c.version = m.version) && decide (c.snapshotFormat = m.snapshotFormat) && decide (c.snapshotType = m.snapshotType) && decide (c.haloDir = m.haloDir) &&
  decide (c.haloType = m.haloType) && decide (c.treeDir = m.treeDir) && allEqual c.blockMins m.blockMins && allEqual c.blockMaxes m.blockMaxes && decide (c.snapMin = m.snapMin) &&
  decide (c.snapMax = m.snapMax) && allEqual c.snapshotFormatMeanings m.snapshotFormatMeanings && allEqual c.haloValueNames m.haloValueNames &&
  allEqual c.haloValueColumns m.haloValueColumns && decide (c.haloPositionUnits = m.haloPositionUnits) && decide (c.haloMassUnits = m.haloMassUnits) &&
  allEqual c.haloValueColumns m.haloValueColumns && allEqual c.haloValueNames m.haloValueNames && decide (c.endianness = m.endianness)

/-- shellfish.go:491-521 (`checkMemoDir`): `stored` is the parsed `memo.config`, if there is one; the second component is the one afterwards.  An error stops the
program. -/
def checkMemoDir (stored : Option GlobalConfig) (config : GlobalConfig) : Out Unit × Option GlobalConfig :=
  match stored with
  | none => (.ok (), some config)
  | some m => (if configEqual config m then .ok () else .error, stored)

/-- io/io.go:85-98 (`Context`), filled by cmd/utils.go:11-22. -/
structure Context where
  npart : Int
  dmTypes : List Int
  singleMass : List Int
  massUnits : Nat
  positionUnits : Nat
  nilTotalWidth : Nat
  nilOmegaM : Nat
  nilOmegaL : Nat
  nilH100 : Nat
  nilScaleFactors : List Nat
deriving DecidableEq

/-- cmd/utils.go:11-22. -/
def context (c : GlobalConfig) : Context :=
  ⟨c.lGadgetNpartNum, c.gadgetDMTypeIndices, c.gadgetSingleMassIndices, c.gadgetMassUnits, c.gadgetPositionUnits, c.nilSnapTotalWidth, c.nilSnapOmegaM, c.nilSnapOmegaL, c.nilSnapH100,
    c.nilSnapScaleFactors⟩

/-- The readers of cmd/utils.go:24-39 with the settings each of them is given. -/
inductive Reader where
  | gotetra
  | artio
  | lgadget2 (endianness : String) (ctx : Context)
  | gadget2 (endianness : String) (ctx : Context)
  | bolshoi (endianness : String) (ctx : Context)
  | bolshoiP (endianness : String) (ctx : Context)
  | nil (ctx : Context)
  | unknown
deriving DecidableEq

/-- cmd/utils.go:8-45 (`getVectorBuffer`). -/
def reader (c : GlobalConfig) : Reader :=
  if c.snapshotType = "gotetra" then .gotetra
  else if c.snapshotType = "LGadget-2" then .lgadget2 c.endianness (context c)
  else if c.snapshotType = "Gadget-2" then .gadget2 c.endianness (context c)
  else if c.snapshotType = "ARTIO" then .artio
  else if c.snapshotType = "Bolshoi" then .bolshoi c.endianness (context c)
  else if c.snapshotType = "BolshoiP" then .bolshoiP c.endianness (context c)
  else if c.snapshotType = "nil" then .nil (context c)
  else .unknown

/-- The settings that determine the names of the snapshot files (cmd/env/env.go:44-52 and the `Init` functions of cmd/env). -/
structure Naming where
  type : String
  format : String
  meanings : List String
  scaleFactorFile : String
  blockMins : List Int
  blockMaxes : List Int
  snapMin : Int
  snapMax : Int

/-- shellfish.go:617-636 (`initCatalogs`): what is passed on. -/
def naming (c : GlobalConfig) : Naming := ⟨c.snapshotType, c.snapshotFormat, c.snapshotFormatMeanings, c.scaleFactorFile, c.blockMins, c.blockMaxes, c.snapMin, c.snapMax⟩

/-- The files on disk, seen through each reader, and the names of the snapshot files. -/
structure Disk where
  header : Reader → String → Out Header
  files : Naming → Int → List String

/-- The headers in order. -/
def headersOf (d : Disk) (r : Reader) : List String → Out (List Header)
  | [] => .ok []
  | f :: fs => (d.header r f).bind fun h => (headersOf d r fs).bind fun hs => .ok (h :: hs)

/-- cmd/memo/memoize.go:242-256 (`readUnmemoizedHeaders`). -/
def fresh (d : Disk) (c : GlobalConfig) (snap : Int) : Out (List Header) := headersOf d (reader c) (d.files (naming c) snap)

/-- cmd/memo/memoize.go:260-302 (`ReadHeaders`) of a run with configuration `c`. -/
def readHeaders (d : Disk) (c : GlobalConfig) (snap : Int) (memo : Option (List Nat)) : Out (List Header × List String) × Option (List Nat) :=
  Shellfish.Memo.readHeaders memo (fresh d c snap) (d.files (naming c) snap)

/-- The settings that determine the halo caches (cmd/memo/memoize.go:156-175 with cmd/env/env.go `HaloCatalog` and cmd/halo/io.go:28-57): the catalogue file and the columns
that are read.  (cmd/cmd.go:139-140 copies the snapshot range to `HSnapMin` and `HSnapMax`.) -/
def haloSettings (c : GlobalConfig) : String × Int × Int × List String × List Int := (c.haloDir, c.snapMin, c.snapMax, c.haloValueNames, c.haloValueColumns)

/-- io/nil.go:33-54 (`NilBuffer.ReadHeader`): `idx` is the number in the file name, `redshift` computes 1/a - 1, `to32` converts to float32; -1 is stored as 2^64 - 1. -/
def nilHeader (redshift to32 : Nat → Nat) (ctx : Context) (idx : Nat) : Out Header :=
  (Out.index ctx.nilScaleFactors[idx]?).bind fun a =>
    .ok ⟨redshift a, ctx.nilOmegaM, ctx.nilOmegaL, ctx.nilH100, 2 ^ 64 - 1, ctx.nilTotalWidth, [0, 0, 0], [to32 ctx.nilTotalWidth, to32 ctx.nilTotalWidth, to32 ctx.nilTotalWidth]⟩

end Shellfish.MemoConfig
