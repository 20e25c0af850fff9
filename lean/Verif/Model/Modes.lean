/-
Model of the ReadConfig and validate methods of the modes (cmd/id.go, tree.go, stats.go, shell.go, prof.go, phase.go, potential.go, coord.go, check.go) and of the global
configuration (cmd/cmd.go).  The variables of a mode are a list of values in the order of their declaration.  The texts of the errors are not modelled.
-/
import Verif.Model.Examples
import Verif.Model.Env
import Verif.Model.Version
import Mathlib.Data.Rat.Defs

namespace Shellfish.Modes
open Shellfish.Config Shellfish.Text

/-- The library together with the value of a Go floating point constant and the operators `<` and `<=` of float64. -/
structure FLib (F : Type) extends Lib F where
  const : ℚ → F
  lt : F → F → Bool
  le : F → F → Bool

/-- A mode: declarations and header name, default values, `validate`. -/
structure Mode (F : Type) where
  vars : Vars
  defaults : List (Val F)
  validate : List (Val F) → Bool

/-- The outcome of `ReadConfig` of a mode. -/
inductive Res (F : Type)
  | ok (st : List (Val F))
  | err
  | panic
deriving DecidableEq

/-- The end of a `ReadConfig` method after reading. -/
def Mode.finish {F : Type} (m : Mode F) : Outcome F → Res F
  | .ok st => if m.validate st then .ok st else .err
  | .err _ _ => .err
  | .panic => .panic

/-- The `ReadConfig` methods: cmd/id.go:115-132, cmd/tree.go:39-57, cmd/stats.go:119-144, cmd/shell.go:122-140, cmd/prof.go:115-154, cmd/phase.go:70-92, cmd/potential.go:55-65,
cmd/coord.go:36-45, cmd/check.go:72-87.  `file = none` is an empty file name, `some none` an unreadable file.  Without file and flags there is no validation. -/
def Mode.read {F : Type} (lib : Lib F) (m : Mode F) (file : Option (Option Str)) (flags : List Str) : Res F :=
  match file with
  | none => if flags = [] then .ok m.defaults else m.finish (readFlags lib m.vars flags m.defaults)
  | some content =>
    match readConfig lib m.vars content m.defaults with
    | .ok st => m.finish (readFlags lib m.vars flags st)
    | o => m.finish o

section
variable {F : Type} [DecidableEq F] (L : FLib F)

/-- cmd/id.go:136-175, `validate`; the comparison of the mass limits has no effect. -/
def idValidate : List (Val F) → Bool
  | [.string idType, .ints _, .int _, .int _, .int mult, .int snap, .string strategy, .float radiusMult, .float mMax, .float _] =>
    decide (idType = "halo-id".toList ∨ idType = "m200m".toList) &&
    (decide (strategy = "none".toList ∨ strategy = "subhalo".toList ∨ strategy = "neighbor".toList) || (decide (strategy = "overlap".toList) && !L.le radiusMult (L.const 0))) &&
    !decide (snap < 0) && !decide (mult ≤ 0) && !L.lt mMax (L.const 0)
  | _ => false

/-- cmd/id.go:101-113. -/
def idVars : Vars := ⟨chars "id.config", [(chars "IDType", .string), (chars "IDs", .ints), (chars "IDStart", .int), (chars "IDEnd", .int), (chars "Mult", .int), (chars "Snap", .int),
    (chars "ExclusionStrategy", .string), (chars "ExclusionRadiusMult", .float), (chars "M200mMax", .float), (chars "M200mMin", .float)]⟩

/-- cmd/id.go:101-113. -/
def idMode : Mode F where
  vars := idVars
  defaults := [.string "m200m".toList, .ints [], .int (-1), .int (-1), .int 1, .int (-1), .string "overlap".toList, .float (L.const 1), .float (L.const 0), .float (L.const 0)]
  validate := idValidate L

/-- cmd/tree.go:35-38, 60. -/
def treeVars : Vars := ⟨chars "tree.config", [(chars "SelectSnaps", .ints)]⟩

/-- cmd/tree.go:35-38, 60. -/
def treeMode : Mode F where
  vars := treeVars
  defaults := [.ints []]
  validate := fun _ => true

/-- cmd/stats.go:147-172, `validate`. -/
def statsValidate : List (Val F) → Bool
  | [.strings values, .int samples, .string strategy, .int _, .string _, .float _, .bool _] =>
    values.all (fun v => decide (v ∈ ["snap", "id", "m_sp", "r_sp", "a_sp", "b_sp", "c_sp", "SA_sp/V_sp"].map String.toList)) &&
    decide (strategy = "none".toList ∨ strategy = "contain".toList ∨ strategy = "overlap".toList) && !decide (samples ≤ 0)
  | _ => false

/-- cmd/stats.go:107-117. -/
def statsVars : Vars := ⟨chars "stats.config", [(chars "Values", .strings), (chars "MonteCarloSamples", .int), (chars "ExclusionStrategy", .string), (chars "Order", .int),
    (chars "ShellParticleFile", .string), (chars "ShellWidth", .float), (chars "SkipMass", .bool)]⟩

/-- cmd/stats.go:107-117. -/
def statsMode : Mode F where
  vars := statsVars
  defaults := [.strings [], .int 50000, .string "none".toList, .int 3, .string [], .float (L.const 0), .bool false]
  validate := statsValidate

/-- cmd/shell.go:143-187, `validate`. -/
def shellValidate : List (Val F) → Bool
  | [.int sub, .int bins, .int spokes, .int rings, .float rMax, .float rMin, .float rKernel, .float eta, .int order, .int levels, .int window, .float _, .float _, .bool _, .float _] =>
    !decide (sub ≤ 0) && !decide (bins ≤ 0) && !decide (spokes ≤ 0) && !decide (rings ≤ 0) && !L.le rMax (L.const 0) && !L.le rMin (L.const 0) &&
    !L.le rKernel (L.const 0) && !L.le eta (L.const 0) && !decide (order ≤ 0) && !decide (levels ≤ 0) && !decide (window ≤ 0) && !L.le rMax rMin
  | _ => false

/-- cmd/shell.go:102-120. -/
def shellVars : Vars := ⟨chars "shell.config", [(chars "SubsampleFactor", .int), (chars "RadialBins", .int), (chars "Spokes", .int), (chars "Rings", .int), (chars "RMaxMult", .float),
    (chars "RMinMult", .float), (chars "RKernelMult", .float), (chars "Eta", .float), (chars "Order", .int), (chars "Levels", .int), (chars "SmoothingWindow", .int),
    (chars "LOSSlopeCutoff", .float), (chars "BackgroundRhoMult", .float), (chars "PercentileProfile", .bool), (chars "Percentile", .float)]⟩

/-- cmd/shell.go:102-120. -/
def shellMode : Mode F where
  vars := shellVars
  defaults := [.int 1, .int 256, .int 256, .int 100, .float (L.const 3), .float (L.const 0.3), .float (L.const 0.2), .float (L.const 10), .int 3, .int 3, .int 121, .float (L.const 0),
    .float (L.const 0.5), .bool false, .float (L.const 50)]
  validate := shellValidate L

/-- cmd/prof.go:134-152: the names of the profile types. -/
def profTypes : List Str := ["density", "median-density", "median-error", "contained-density", "angular-fraction", "bound-density"].map String.toList

/-- cmd/prof.go:134-154 and 157-173 (`validate`). -/
def profValidate : List (Val F) → Bool
  | [.int bins, .int _, .int _, .float rMax, .float rMin, .int level, .float _, .string pType] =>
    decide (pType ∈ profTypes) && !decide (bins < 0) && !L.le rMin (L.const 0) && !L.le rMax (L.const 0) && !decide (level < 0)
  | _ => false

/-- cmd/prof.go:103-114. -/
def profVars : Vars := ⟨chars "prof.config", [(chars "Bins", .int), (chars "Order", .int), (chars "Samples", .int), (chars "RMaxMult", .float), (chars "RMinMult", .float),
    (chars "MedianPixelLevel", .int), (chars "Percentile", .float), (chars "ProfileType", .string)]⟩

/-- cmd/prof.go:103-114. -/
def profMode : Mode F where
  vars := profVars
  defaults := [.int 150, .int 3, .int 50000, .float (L.const 3), .float (L.const 0.03), .int 3, .float (L.const 50), .string []]
  validate := profValidate L

/-- cmd/phase.go:80-92 and 95-111 (`validate`). -/
def phaseValidate : List (Val F) → Bool
  | [.int rbins, .int vbins, .float rMax, .float vMax, .bool _, .string pType] =>
    decide (pType ∈ ["radial", "total"].map String.toList) && !decide (rbins < 0) && !decide (vbins < 0) && !L.lt rMax (L.const 0) && !L.lt vMax (L.const 0)
  | _ => false

/-- cmd/phase.go:58-68; the header name is that of prof. -/
def phaseVars : Vars := ⟨chars "prof.config", [(chars "RBins", .int), (chars "VBins", .int), (chars "RMaxMult", .float), (chars "VMaxMult", .float), (chars "SubtractHubble", .bool),
    (chars "ProfileType", .string)]⟩

/-- cmd/phase.go:58-68; the header name is that of prof. -/
def phaseMode : Mode F where
  vars := phaseVars
  defaults := [.int 100, .int 100, .float (L.const 3), .float (L.const 3), .bool false, .string []]
  validate := phaseValidate L

/-- cmd/potential.go:68-84, `validate`. -/
def potentialValidate : List (Val F) → Bool
  | [.int ncells, .float rGrid, .float rMax, .float rMin, .float _] =>
    !decide (ncells < 0) && !L.lt rGrid (L.const 0) && !L.lt rMax (L.const 0) && !L.lt rMin (L.const 0)
  | _ => false

/-- cmd/potential.go:46-53; the header name is that of prof. -/
def potentialVars : Vars := ⟨chars "prof.config", [(chars "RBins", .int), (chars "GridRMult", .float), (chars "RMaxMult", .float), (chars "RMinMult", .float), (chars "ParticleFraction", .float)]⟩

/-- cmd/potential.go:46-53; the header name is that of prof. -/
def potentialMode : Mode F where
  vars := potentialVars
  defaults := [.int 64, .float (L.const 8), .float (L.const 1), .float (L.const 1), .float (L.const 1)]
  validate := potentialValidate L

/-- cmd/coord.go:32-46. -/
def coordVars : Vars := ⟨chars "coord.config", [(chars "Values", .strings)]⟩

/-- cmd/coord.go:32-46. -/
def coordMode : Mode F where
  vars := coordVars
  defaults := [.strings (["X", "Y", "Z", "R200m"].map String.toList)]
  validate := fun _ => true

/-- cmd/check.go:80-87. -/
def checkValidate : List (Val F) → Bool
  | [.float _, .float _, .float _, .float _, .floats _, .int _, .floats halo] => decide (halo.length = 0 ∨ halo.length = 6)
  | _ => false

/-- cmd/check.go:60-70. -/
def checkVars : Vars := ⟨chars "check.config", [(chars "H0", .float), (chars "OmegaM", .float), (chars "OmegaL", .float), (chars "BoxWidth", .float), (chars "ParticleMasses", .floats),
    (chars "ParticleCount", .int), (chars "ExampleHalo", .floats)]⟩

/-- cmd/check.go:60-70. -/
def checkMode : Mode F where
  vars := checkVars
  defaults := [.float (L.const (-1)), .float (L.const (-1)), .float (L.const (-1)), .float (L.const (-1)), .floats [], .int (-1), .floats []]
  validate := checkValidate

/-! ### The global configuration -/

/-- cmd/cmd.go:46-86: the settings that `validate` looks at. -/
structure Global (F : Type) where
  version : Str
  snapshotFormat : Str
  snapshotType : Str
  haloDir : Str
  haloType : Str
  treeDir : Str
  treeType : Str
  memoDir : Str
  valueNames : List Str
  valueColumns : List Int
  valueComments : List Str
  positionUnits : Str
  radiusUnits : Str
  massUnits : Str
  meanings : List Str
  scaleFactorFile : Str
  blockMins : List Int
  blockMaxes : List Int
  snapMin : Int
  snapMax : Int
  endianness : Str
  validateFormats : Bool
  threads : Int
  logging : Str
  dmTypes : List Int
  singleMass : List Int
  positionScale : F
  massScale : F
  npart : Int
  nilOmegaM : F
  nilOmegaL : F
  nilH100 : F
  nilScales : List F
  nilWidth : F

/-- version/version.go:12. -/
def sourceVersion : Str := "1.0.4".toList

/-- cmd/cmd.go:89-135: the declarations. -/
def globalVars : Vars := ⟨chars "config", [(chars "Version", .string), (chars "SnapshotFormat", .string), (chars "SnapshotType", .string), (chars "HaloDir", .string),
  (chars "HaloType", .string), (chars "TreeDir", .string), (chars "TreeType", .string), (chars "MemoDir", .string), (chars "HaloValueNames", .strings),
  (chars "HaloValueColumns", .ints), (chars "HaloValueComments", .strings), (chars "HaloPositionUnits", .string), (chars "HaloRadiusUnits", .string), (chars "HaloMassUnits", .string),
  (chars "SnapshotFormatMeanings", .strings), (chars "ScaleFactorFile", .string), (chars "BlockMins", .ints), (chars "BlockMaxes", .ints), (chars "SnapMin", .int),
  (chars "SnapMax", .int), (chars "Endianness", .string), (chars "ValidateFormats", .bool), (chars "Threads", .int), (chars "Logging", .string),
  (chars "GadgetDMTypeIndices", .ints), (chars "GadgetSingleMassIndices", .ints), (chars "GadgetPositionUnits", .float), (chars "GadgetMassUnits", .float),
  (chars "LGadgetNpartNum", .int), (chars "NilSnapOmegaM", .float), (chars "NilSnapOmegaL", .float), (chars "NilSnapH100", .float), (chars "NilSnapScaleFactors", .floats),
  (chars "NilSnapTotalWidth", .float)]⟩

/-- cmd/cmd.go:89-135: the default values. -/
def globalDefaults : List (Val F) := [.string sourceVersion, .string [], .string [], .string [], .string "nil".toList, .string [], .string "nil".toList, .string [], .strings [], .ints [],
  .strings [], .string [], .string [], .string [], .strings [], .string [], .ints [], .ints [], .int (-1), .int (-1), .string "SystemOrder".toList, .bool false, .int (-1),
  .string "nil".toList, .ints [1], .ints [1], .float (L.const 1), .float (L.const 1), .int 2, .float (L.const (-1)), .float (L.const (-1)), .float (L.const (-1)), .floats [],
  .float (L.const (-1))]

/-- The record of the values. -/
def toGlobal : List (Val F) → Option (Global F)
  | .string a1 :: .string a2 :: .string a3 :: .string a4 :: .string a5 :: .string a6 :: .string a7 :: .string a8 :: .strings a9 :: .ints a10 :: .strings a11 ::
    .string a12 :: .string a13 :: .string a14 :: .strings a15 :: .string a16 :: .ints a17 :: .ints a18 :: .int a19 :: .int a20 :: .string a21 :: .bool a22 ::
    .int a23 :: .string a24 :: .ints a25 :: .ints a26 :: .float a27 :: .float a28 :: .int a29 :: .float a30 :: .float a31 :: .float a32 :: .floats a33 ::
    .float a34 :: [] =>
    some ⟨a1, a2, a3, a4, a5, a6, a7, a8, a9, a10, a11, a12, a13, a14, a15, a16, a17, a18, a19, a20, a21, a22, a23, a24, a25, a26, a27, a28, a29, a30, a31, a32, a33, a34⟩
  | _ => none

/-- cmd/cmd.go:149-163: the check of the version against the source version. -/
def versionOk (v src : Str) : Bool :=
  match Version.parse v, Version.parse src with
  | some (major, minor, patch), some (smajor, sminor, spatch) =>
    if (smajor = 0 ∨ major = 0) ∧ (major ≠ smajor ∨ minor ≠ sminor ∨ patch ≠ spatch) then false
    else if (smajor = 1 ∧ major = 1) ∧ (minor > sminor ∨ patch > spatch) then false
    else true
  | _, _ => false

/-- `strings.Join(strings.Split(s, " "), "")`. -/
def noBlanks (s : Str) : Str := (splitOn ' ' s).flatten

/-- The position and radius units that are accepted (cmd/cmd.go:190-192, 206). -/
def lengthUnits : List Str := ["cMpc/h", "ckpc/h", "pMpc/h", "pkpc/h", "cMpc", "ckpc", "pMpc", "pkpc"].map String.toList

/-- What `os.Stat` and `os.MkdirAll` say about a path (cmd/cmd.go:372-381, `validateDir`): it is a directory, another file, does not exist and can be made, or cannot be made. -/
inductive PathState
  | dir | file | creatable | uncreatable
deriving DecidableEq

/-- cmd/cmd.go:372-381, `validateDir`: a directory that does not exist is made. -/
def dirOk (fs : Str → PathState) (d : Str) : Bool := decide (fs d = .dir ∨ fs d = .creatable)

/-- cmd/cmd.go:303-329: the checks of the Nil* variables are cases of one switch, so that only the first one that is true is looked at; the one for NilSnapOmegaL is not an error. -/
def nilOk (g : Global F) : Bool :=
  if g.nilOmegaM = L.const (-1) then false
  else if g.nilOmegaL = L.const (-1) then true
  else if g.nilH100 = L.const (-1) then false
  else if g.nilWidth = L.const (-1) then false
  else if g.nilScales.length = 0 then false
  else true

/-- cmd/cmd.go:148-359, `validate`: the settings afterwards if there is no error (blanks in units are removed, units are set without a halo catalog).  Of the effects on the file system
the new directories are not modelled: the paths are different or the answers do not change. -/
def globalValidate (fs : Str → PathState) (g : Global F) : Option (Global F) :=
  if ¬ versionOk g.version sourceVersion then none
  else if g.snapshotType ∉ ["gotetra", "LGadget-2", "Gadget-2", "ARTIO", "Bolshoi", "BolshoiP", "nil"].map String.toList then none
  else if g.haloType ∉ ["Text", "nil"].map String.toList then none
  else
    let halos := g.haloType ≠ "nil".toList
    let g := if halos then { g with positionUnits := noBlanks g.positionUnits, radiusUnits := noBlanks g.radiusUnits, massUnits := noBlanks g.massUnits }
      else { g with positionUnits := "cMpc/h".toList, radiusUnits := "cMpc/h".toList, massUnits := "Msun/h".toList }
    if halos ∧ (g.positionUnits ∉ lengthUnits ∨ g.radiusUnits ∉ lengthUnits ∨ g.massUnits ≠ "Msun/h".toList) then none
    else if g.treeType ∉ ["consistent-trees", "nil"].map String.toList then none
    else if halos ∧ (g.haloDir = [] ∨ dirOk fs g.haloDir = false) then none
    else if halos ∧ (g.treeDir = [] ∨ dirOk fs g.treeDir = false) then none
    else if g.memoDir = [] ∨ dirOk fs g.memoDir = false then none
    else if halos ∧ (g.valueNames.length = 0 ∨ g.valueColumns.length = 0 ∨ g.valueNames.length ≠ g.valueColumns.length) then none
    else if halos ∧ ∃ n ∈ ["ID", "X", "Y", "Z", "M200m"].map String.toList, n ∉ g.valueNames then none
    else if g.snapshotType = "nil".toList ∧ nilOk L g = false then none
    else if g.endianness ∉ ["LittleEndian", "BigEndian", "SystemOrder"].map String.toList then none
    else if g.valueNames.length ≠ g.valueColumns.length ∨ g.valueNames.length ≠ g.valueComments.length then none
    else if g.npart > 2 ∨ g.npart ≤ 0 then none
    else if Env.validateFormat ⟨g.snapshotFormat, g.meanings, some g.scaleFactorFile, g.blockMins, g.blockMaxes, g.snapMin, g.snapMax⟩ g.logging then some g
    else none

/-- cmd/cmd.go:89-144, `ReadConfig`. -/
def globalRead (fs : Str → PathState) (file : Option Str) : Option (Global F) :=
  match readConfig L.toLib globalVars file (globalDefaults L) with
  | .ok st => (toGlobal st).bind (globalValidate L fs)
  | _ => none

end
end Shellfish.Modes
