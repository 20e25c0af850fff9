/-
Model of package env (cmd/env): the enumeration of the snapshot files, and of `validateFormat` (cmd/cmd.go).
`fmt.Sprintf` is a parameter (`sprintf`); text is `List Char`; `int` is `Int` (no overflow).
-/
import Verif.Model.Catalog

namespace Shellfish.Env

open Shellfish.Text
open Shellfish.Catalog (Str Out)

/-- The dynamic types that reach `Sprintf`: `int` and `string` (cmd/env/env.go:117-133, `anonymize`). -/
inductive Arg
  | int (n : Int)
  | str (s : Str)
deriving DecidableEq

/-- cmd/env/env.go:46-54, `ParticleInfo`, with the content of the scale factor file (`none`: it cannot be read). -/
structure Info where
  format : Str
  meanings : List Str
  scaleFile : Option Str
  blockMins : List Int
  blockMaxes : List Int
  snapMin : Int
  snapMax : Int

/-- `out[i] = i + lo` for `out := make([]int, n)`; a negative length panics (`none`). -/
def intCol (lo n : Int) : Option (List Arg) :=
  if n < 0 then none else some ((List.range n.toNat).map fun (i : Nat) => Arg.int ((i : Int) + lo))

/-- cmd/env/env.go:72-81: the non-empty lines of the scale factor file, without surrounding blanks. -/
def scaleLines (text : Str) : List Str := ((splitOn '\n' text).map (trim (· == ' '))).filter (· ≠ [])

/-- Go slice indexing by an `int`; `none` is a panic. -/
def goGet {α : Type} (l : List α) (i : Int) : Option α := if i < 0 then none else l[i.toNat]?

/-- cmd/env/env.go:61-115, `GetColumn`; the flag says whether the column is aligned with the snapshots. -/
def getColumn (info : Info) (m : Str) : Out (List Arg × Bool) :=
  if m = "ScaleFactor".toList then
    match info.scaleFile with
    | none => .err
    | some text =>
      let out := scaleLines text
      if (out.length : Int) ≠ info.snapMax - info.snapMin + 1 then .err else .ok (out.map Arg.str, true)
  else if m = "Snapshot".toList then
    match intCol info.snapMin (info.snapMax - info.snapMin + 1) with
    | none => .panic
    | some c => .ok (c, true)
  else if 5 ≤ m.length ∧ m.take 5 = "Block".toList then
    let idx : Option Int := if 5 < m.length then atoi (m.drop 5) else some 0
    match idx with
    | none => .err
    | some i =>
      match goGet info.blockMaxes i, goGet info.blockMins i with
      | some hi, some lo =>
        match intCol lo (hi - lo + 1) with
        | none => .panic
        | some c => .ok (c, false)
      | _, _ => .panic
  else .panic

/-- cmd/env/env.go:189-202: the number of snapshots (`none` for -1) and of rows per snapshot; a panic (`none`) when two aligned columns
have different heights. -/
def countRows {α : Type} : List (List α × Bool) → Option Nat → Nat → Option (Option Nat × Nat)
  | [], snaps, non => some (snaps, non)
  | (c, true) :: rest, none, non => countRows rest (some c.length) non
  | (c, true) :: rest, some s, non => if s ≠ c.length then none else countRows rest (some s) non
  | (c, false) :: rest, snaps, non => countRows rest snaps (non * c.length)

/-- cmd/env/env.go:215-230: one row, with `divSize` and `modSize`; `none` is an index panic. -/
def fillRow {α : Type} (snap row : Nat) : List (List α × Bool) → Nat → Nat → Option (List α)
  | [], _, _ => some []
  | (c, true) :: rest, div, mod => do
    let x ← c[snap]?
    let xs ← fillRow snap row rest div mod
    some (x :: xs)
  | (c, false) :: rest, div, mod => do
    let x ← c[(row / (div * mod)) % c.length]?
    let xs ← fillRow snap row rest (div * mod) c.length
    some (x :: xs)

/-- cmd/env/env.go:187-236, `interleave`. -/
def interleave {α : Type} (cols : List (List α × Bool)) : Option (List (List (List α))) := do
  let (snaps, non) ← countRows cols none 1
  (List.range (snaps.getD 1)).mapM fun snap => (List.range non).mapM fun row => fillRow snap row cols 1 1

/-- cmd/env/Gadget-2.go:11-19: the columns, in order, stopping at the first error. -/
def getColumns (info : Info) : List Str → Out (List (List Arg × Bool))
  | [] => .ok []
  | m :: ms => match getColumn info m with
    | .err => .err
    | .panic => .panic
    | .ok c => match getColumns info ms with
      | .err => .err
      | .panic => .panic
      | .ok cs => .ok (c :: cs)

/-- cmd/env/Gadget-2.go:7-38 (`InitGadget2`; cmd/env/LGadget-2.go:7-38 `InitLGadget2`, cmd/env/bolshoi.go:7-38 `InitBolshoi`, cmd/env/bolshoiP.go:7-38 `InitBolshoiP` and cmd/env/ARTIO.go:7-39 `InitARTIO` have the same body):
the table of file names; `validate` is the ValidateFormats variable. -/
def initCatalogs (sprintf : Str → List Arg → Str) (info : Info) (validate : Bool) : Out (List (List Str)) :=
  match getColumns info info.meanings with
  | .err => .err
  | .panic => .panic
  | .ok cols => match interleave cols with
    | none => .panic
    | some args => if validate then .panic else .ok (args.map fun rows => rows.map fun r => sprintf info.format r)

/-- cmd/env/gotetra.go:7-45, `InitGotetra`. -/
def initGotetra (sprintf : Str → List Arg → Str) (info : Info) (validate : Bool) : Out (List (List Str)) :=
  if info.blockMins.length ≠ 3 then .err else initCatalogs sprintf info validate

/-- cmd/env/nil_snapshot.go:8-18, `InitNil`; the names and the value of `snapMin`, which is left at 0; `none` is a panic. -/
def initNil (info : Info) (validate : Bool) : Option (List (List Str) × Int) :=
  if info.snapMax - info.snapMin + 1 < 0 ∨ validate then none
  else some ((List.range (info.snapMax - info.snapMin + 1).toNat).map (fun (i : Nat) => [itoa (i : Int)]), 0)

/-- cmd/env/env.go:149-151, `ParticleCatalog`; `none` is an index panic. -/
def particleCatalog (names : List (List Str)) (snapMin snap block : Int) : Option Str := do
  let row ← goGet names (snap - snapMin)
  goGet row block

/-- cmd/env/env.go:145-147, `Blocks`. -/
def blocks (names : List (List Str)) : Option Nat := names.head?.map List.length

/-- cmd/cmd.go:423-445: the loop over the meanings; the result says whether it ends with an error, ends the
whole function with `nil`, or runs to its end. -/
inductive MeaningsResult
  | error
  | returnNil
  | fallOut
deriving DecidableEq

/-- cmd/cmd.go:423-445. -/
def checkMeanings (nBlocks : Nat) : List Str → MeaningsResult
  | [] => .fallOut
  | m :: ms =>
    if m = "ScaleFactor".toList ∨ m = "Snapshot".toList ∨ m = "Block".toList then checkMeanings nBlocks ms
    else if 5 < m.length ∧ m.take 5 = "Block".toList then
      match atoi (m.drop 5) with
      | none => .error
      | some n => if n < 0 ∨ (nBlocks : Int) ≤ n then .error else .returnNil
    else .error

/-- cmd/cmd.go:391-412 -/
def blocksOrdered : List Int → List Int → Bool
  | a :: as, b :: bs => decide (a ≤ b) && blocksOrdered as bs
  | _, _ => true

/-- cmd/cmd.go:385-455, `validateFormat`; true means no error.  `logging` is the Logging variable. -/
def validateFormat (info : Info) (logging : Str) : Bool :=
  if info.blockMins.length ≠ info.blockMaxes.length then false
  else if info.snapMin = -1 ∨ info.snapMax = -1 then false
  else if info.snapMax < info.snapMin then false
  else if ¬ blocksOrdered info.blockMins info.blockMaxes then false
  else if info.format.count '%' ≠ info.meanings.length then false
  else match checkMeanings info.blockMaxes.length info.meanings with
    | .error => false
    | .returnNil => true
    | .fallOut => logging = "nil".toList ∨ logging = "performance".toList ∨ logging = "debug".toList

/-- cmd/env/text_halos.go:9-36, `InitTextHalo`, given the sorted listing of the directory: the names kept and the
snapshot offset. -/
def initTextHalo (files : List Str) (hSnapMin hSnapMax : Int) : Out (List Str × Int) :=
  if (files.length : Int) < hSnapMax - hSnapMin + 1 then .err
  else if hSnapMax - hSnapMin + 1 < 0 then .panic
  else .ok (files.drop (files.length - (hSnapMax - hSnapMin + 1).toNat), hSnapMax - files.length)

/-- cmd/env/env.go:165-167, `HaloCatalog`. -/
def haloCatalog (names : List Str) (hSnapMin snap : Int) : Option Str := goGet names (snap - hSnapMin)

end Shellfish.Env
