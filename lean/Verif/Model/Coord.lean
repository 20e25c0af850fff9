/-
Model of coord mode (cmd/coord.go).  Floating point numbers are an ordered field `K`: there is no rounding except in the text written by `FormatCols`.  The files that are read
(snapshot headers and halo catalogues, cmd/memo/memoize.go) are parameters.
-/
import Verif.Model.Catalog
import Verif.Model.Group
import Verif.Model.Finder

namespace Shellfish.Coord
open Shellfish.Catalog Shellfish.Text Shellfish.Cmd
open Shellfish.Finder (toInt)

/-- The fields of the global configuration that coord mode uses (cmd/cmd.go:58-63). -/
structure Cfg where
  names : List Str
  comments : List Str
  posUnits : Str
  radUnits : Str

/-- cmd/coord.go:159-161 (`isIntType`). -/
def isIntType (comment : Str) : Bool := comment == "int".toList || comment == "\"int\"".toList

/-- cmd/coord.go:198-203 (`findString`); `none` is the panic "Impossible". -/
def findString (x : Str) : List Str → Option Nat
  | [] => none
  | y :: ys => if y = x then some 0 else (findString x ys).map (· + 1)

/-- The names in the `case` of cmd/coord.go:116 and 127. -/
def overdensityRadii : List Str := ["R200m".toList, "R200c".toList, "R500c".toList, "R2500c".toList]

/-- The names in the `case` of cmd/coord.go:167 and 249. -/
def convertedRadii : List Str := ["R200m".toList, "R200c".toList, "R500c".toList, "Rs".toList]

/-- The names in the `case` of cmd/coord.go:242. -/
def positions : List Str := ["X".toList, "Y".toList, "Z".toList]

/-- cmd/coord.go:125-132: the comment of a value; `none` is a panic. -/
def comment (g : Cfg) (v : Str) : Option Str :=
  if v ∈ overdensityRadii then some "Mpc/h".toList else (findString v g.names).bind fun j => g.comments[j]?

variable {K : Type} [Field K] [LinearOrder K] [IsStrictOrderedRing K] [FloorRing K]

/-- The four slices of cmd/coord.go:108-111. -/
structure Acc (K : Type) where
  icols : List (List Int)
  fcols : List (List K)
  icolOrder : List Nat
  fcolOrder : List Nat

/-- cmd/coord.go:124-144: the loop over the values, at value number `i`; `none` is a panic.  (The loop of lines 113-122 computes a number that is not used; it panics in the same
cases.) -/
def typeLoop (g : Cfg) (cols : List (List K)) : List Str → Nat → Acc K → Option (Acc K)
  | [], _, acc => some acc
  | v :: vs, i, acc =>
    match comment g v with
    | none => none
    | some c =>
      match cols[i]? with
      | none => none
      | some col =>
        if isIntType c then typeLoop g cols vs (i + 1) { acc with icols := acc.icols ++ [col.map toInt], icolOrder := acc.icolOrder ++ [i + 2] }
        else typeLoop g cols vs (i + 1) { acc with fcols := acc.fcols ++ [col], fcolOrder := acc.fcolOrder ++ [i + 2] }

/-- cmd/coord.go:108-147: the lines of the output catalogue. -/
def lines (ff : FloatFmt K) (g : Cfg) (values : List Str) (ids snaps : List Int) (cols : List (List K)) : Option (List Str) := do
  let acc ← typeLoop g cols values 0 ⟨[ids, snaps], [], [0, 1], []⟩
  formatCols ff acc.icols acc.fcols (acc.icolOrder ++ acc.fcolOrder)

/-- cmd/coord.go:165-184: the name of a column in the header. -/
def colName (g : Cfg) (v : Str) : Option Str :=
  if v ∈ convertedRadii then some (v ++ " [".toList ++ g.posUnits ++ "]".toList)
  else (findString v g.names).bind fun j => (g.comments[j]?).map fun c =>
    if c = [] ∨ c = "\"\"".toList ∨ isIntType c = true then v else v ++ " [".toList ++ c ++ "]".toList

/-- cmd/coord.go:163-196 (`makeCommentString`). -/
def makeCommentString (g : Cfg) (values : List Str) : Option Str :=
  (values.mapM (colName g)).bind fun colNames =>
    commentString ["ID".toList, "Snapshot".toList] colNames (List.range (2 + values.length)) (List.replicate (2 + values.length) 1)

/-- What coord mode reads and knows: the cosmology in the first header of a snapshot (`memo.ReadHeaders`), the columns of a snapshot's halo catalogue for the given ids
(`memo.ReadRockstar`), `UnitConversionFactor`; `none` is an error or a panic. -/
structure World (K C : Type) where
  cosmo : Int → Option C
  rockstar : Int → List Str → List Int → Option (List (List K))
  ucf : Str → C → Option K

/-- cmd/coord.go:240-257: the units of a column are converted to comoving Mpc/h. -/
def convert {C : Type} (w : World K C) (g : Cfg) (c : C) (v : Str) (col : List K) : Option (List K) :=
  if v ∈ positions then (w.ucf g.posUnits c).map fun u => col.map fun x => x * u
  else if v ∈ convertedRadii then (w.ucf g.radUnits c).map fun u => col.map fun x => x * u
  else some col

/-- cmd/coord.go:259-263 for one column: `col[idx] = scol[i]` for every `i, idx` in `idxs`; `none` is an index panic. -/
def scatter (scol : List K) : List Nat → Nat → List K → Option (List K)
  | [], _, col => some col
  | idx :: idxs, i, col =>
    match scol[i]? with
    | none => none
    | some x => if idx < col.length then scatter scol idxs (i + 1) (col.set idx x) else none

/-- `f` for a column, a value name and a column of the snapshot, until the first two run out; `none` when the third runs out (index panic). -/
def zipAll {α : Type} (f : List K → Str → List K → Option α) : List (List K) → List Str → List (List K) → Option (List α)
  | [], _, _ => some []
  | _ :: _, [], _ => some []
  | _ :: _, _ :: _, [] => none
  | c :: cs, v :: vs, s :: ss => (f c v s).bind fun a => (zipAll f cs vs ss).bind fun as => some (a :: as)

/-- cmd/coord.go:220-264: one turn of the loop over the snapshots. -/
def snapStep {C : Type} (w : World K C) (g : Cfg) (values : List Str) (snap0 : Int) (snapBins : GoMap Int) (idxBins : GoMap Nat) (cols : List (List K)) (snap : Int) :
    Option (List (List K)) :=
  if snap = -1 then some cols
  else
    (w.cosmo snap0).bind fun c => (w.rockstar snap values (snapBins.get snap)).bind fun scols =>
      zipAll (fun col v scol => (convert w g c v scol).bind fun s => scatter s (idxBins.get snap) 0 col) cols values scols

/-- cmd/coord.go:207-267 (`readHaloCoords`); `order` is the order in which Go ranges over the snapshots.  `none` is an error or a panic. -/
def readHaloCoords {C : Type} (w : World K C) (g : Cfg) (values : List Str) (ids snaps : List Int) (order : List Int) : Option (List (List K)) :=
  match snaps with
  | [] => some []
  | snap0 :: _ => (binBySnap snaps ids).bind fun b =>
      order.foldlM (snapStep w g values snap0 b.1 b.2) (values.map fun _ => List.replicate ids.length 0)

/-- cmd/coord.go:60-157 (`Run`) for the parsed columns `ids` and `snaps` of the input; `known` are the keys of `ColumnLookup`.  `none` is an error or a panic; the choice of the
particle buffer (lines 94-99), which may fail too, is left out. -/
def run {C : Type} (ff : FloatFmt K) (w : World K C) (g : Cfg) (known : Str → Bool) (values : List Str) (ids snaps : List Int) (order : List Int) : Option (List Str) :=
  if ids.length = 0 then none
  else if values.all known = false then none
  else (readHaloCoords w g values ids snaps order).bind fun cols => (lines ff g values ids snaps cols).bind fun ls =>
    (makeCommentString g values).map fun c => c :: ls

end Shellfish.Coord
