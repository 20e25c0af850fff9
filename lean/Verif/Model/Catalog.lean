/-
Model of package catalog (cmd/catalog/catalog.go).
Text is `List Char` (bytes).  `fmt.Sprintf("%.6g", _)` and `strconv.ParseFloat` are parameters (`FloatFmt`).
Column indices are natural numbers (negative indices panic in Go and are not modelled).
-/
import Verif.Model.Text

namespace Shellfish.Catalog

open Shellfish.Text

/-- Go strings / byte slices. -/
abbrev Str := List Char

/-- Float formatting and parsing; `F` is the type of float64 values. -/
structure FloatFmt (F : Type) where
  /-- `fmt.Sprintf("%.6g", x)` -/
  fmt : F → Str
  /-- `strconv.ParseFloat(s, 64)` -/
  parse : Str → Option F

/-- Result of a call that may return an error or panic. -/
inductive Out (α : Type)
  | ok (a : α)
  | err
  | panic
deriving DecidableEq

/-- cmd/catalog/catalog.go:108-123 and 125-140: width of the widest entry (all entries, starting from the first). -/
def colWidth (col : List Str) : Nat := col.foldl (fun w s => if w < s.length then s.length else w) 0

/-- cmd/catalog/catalog.go:108-123, `formatIntCol` (the column is not empty when it is called; `col[0]` panics otherwise). -/
def formatIntCol (col : List Int) : List Str :=
  let strs := col.map itoa
  strs.map (padLeft (colWidth strs))

/-- cmd/catalog/catalog.go:125-140, `formatFloatCol`. -/
def formatFloatCol {F : Type} (ff : FloatFmt F) (col : List F) : List Str :=
  let strs := col.map ff.fmt
  strs.map (padLeft (colWidth strs))

/-- cmd/catalog/catalog.go:62-79: the height bookkeeping; `none` is the panic "Columns of unequal height." or the index panic of
an empty column (`col[0]`). `h = none` is height -1. -/
def checkHeights (h : Option Nat) : List Nat → Option (Option Nat)
  | [] => some h
  | n :: ns =>
    if n = 0 then none
    else match h with
      | none => checkHeights (some n) ns
      | some k => if k ≠ n then none else checkHeights (some k) ns

/-- cmd/catalog/catalog.go:81-93: the ordered columns; `none` is the panic "Column ordering out of range.". -/
def orderCols (icols fcols : List (List Str)) : List Nat → Option (List (List Str))
  | [] => some []
  | idx :: rest =>
    if icols.length + fcols.length ≤ idx then none
    else do
      let c ← if idx < icols.length then icols[idx]? else fcols[idx - icols.length]?
      let cs ← orderCols icols fcols rest
      some (c :: cs)

/-- cmd/catalog/catalog.go:95-103: row `i`: `tokens` has one entry per column, entries beyond the ordered columns stay "";
`none` is an index panic. -/
def rowTokens (ncols : Nat) (cols : List (List Str)) (i : Nat) : Option (List Str) :=
  if ncols < cols.length then none
  else (cols.mapM fun c => c[i]?).map fun ts => ts ++ List.replicate (ncols - cols.length) []

/-- cmd/catalog/catalog.go:52-106, `FormatCols`; `none` is a panic. -/
def formatCols {F : Type} (ff : FloatFmt F) (intCols : List (List Int)) (floatCols : List (List F)) (order : List Nat) :
    Option (List Str) :=
  if (intCols = [] ∧ floatCols.length = 0) ∨ intCols.head? = some [] ∨ floatCols.head?.map List.length = some 0 then some []
  else do
    let h ← checkHeights none (intCols.map List.length ++ floatCols.map List.length)
    let cols ← orderCols (intCols.map formatIntCol) (floatCols.map (formatFloatCol ff)) order
    let rows ← (List.range (h.getD 0)).mapM (rowTokens (intCols.length + floatCols.length) cols)
    some (rows.map (joinWith ' '))

/-- cmd/catalog/catalog.go:197-216, `split`: the pieces between separators and the number of comment characters. -/
def split (data : Str) (sep comm : Char) : List Str × Nat := (splitOn sep data, data.count comm)

/-- cmd/catalog/catalog.go:220-241, `uncomment`, the loop over the lines with its early exit. -/
def uncomment (comm : Char) : Nat → List Str → List Str
  | 0, lines => lines
  | _ + 1, [] => []
  | nComm + 1, line :: lines =>
    if comm ∉ line then line :: uncomment comm (nComm + 1) lines
    else
      let start := line.takeWhile (· ≠ comm)
      let n := 1 + (line.drop (start.length + 1)).count comm
      start :: uncomment comm (nComm + 1 - n) lines

/-- cmd/catalog/catalog.go:244-259, `trim` (in-place compaction). -/
def trimLines (sep : Char) (lines : List Str) : List Str := lines.filter fun l => l.any fun c => c ≠ sep

/-- White space of `bytes.Fields` (single-byte part). -/
def goSpace (c : Char) : Bool := c ∈ [' ', '\t', '\n', '\x0b', '\x0c', '\r', '\x85', '\xa0']

/-- Number of fields counted by `bytes.Fields`: starts of maximal runs of non-space characters. -/
def countFields (space : Char → Bool) (inField : Bool) : Str → Nat
  | [] => 0
  | c :: cs => (if !space c && !inField then 1 else 0) + countFields space (!space c) cs

/-- cmd/catalog/catalog.go:342-360: the second loop of `fields`; `cur` is the text from `fieldStart` on (`none`: -1), `n` the
number of fields, `na` the number stored so far.  `none` is an index panic. -/
def fieldsLoop (sep : Char) (n : Nat) : Str → Option Str → Nat → List Str → Option (List Str × Nat)
  | [], none, na, buf => some (buf, na)
  | [], some cur, na, buf => if na < buf.length then some (buf.set na cur, na + 1) else none
  | c :: cs, cur, na, buf =>
    if na < n then
      match cur with
      | none => if c ≠ sep then fieldsLoop sep n cs (some [c]) na buf else fieldsLoop sep n cs none na buf
      | some w =>
        if c = sep then
          if na < buf.length then fieldsLoop sep n cs none (na + 1) (buf.set na w) else none
        else fieldsLoop sep n cs (some (w ++ [c])) na buf
    else
      match cur with
      | none => some (buf, na)
      | some w => if na < buf.length then some (buf.set na (w ++ c :: cs), na + 1) else none

/-- cmd/catalog/catalog.go:330-363, `fields`; returns the filled prefix of the buffer and the buffer. -/
def fields (data : Str) (sep : Char) (buf : List Str) : Option (List Str × List Str) := do
  let n := countFields (fun c => c == sep) false data
  let (b, na) ← fieldsLoop sep n data none 0 buf
  some (b.take na, b)

/-- cmd/catalog/catalog.go:311-322: convert the requested words of a row. -/
def convRow {α : Type} (f : Str → Option α) (words : List Str) : List Nat → Out (List α)
  | [] => .ok []
  | j :: js =>
    match words[j]? with
    | none => .panic
    | some w => match f w with
      | none => .err
      | some a => match convRow f words js with
        | .ok as => .ok (a :: as)
        | .err => .err
        | .panic => .panic

/-- cmd/catalog/catalog.go:297-323: the loop over the lines; returns the converted rows. -/
def parseRows {F : Type} (ff : FloatFmt F) (sep : Char) (width : Nat) (ics fcs : List Nat) :
    List Str → List Str → Out (List (List Int × List F))
  | [], _ => .ok []
  | line :: lines, buf =>
    match fields line sep buf with
    | none => .panic
    | some (words, buf') =>
      if words.length ≠ width then .err
      else match convRow atoi words ics with
        | .panic => .panic
        | .err => .err
        | .ok is => match convRow ff.parse words fcs with
          | .panic => .panic
          | .err => .err
          | .ok fs => match parseRows ff sep width ics fcs lines buf' with
            | .ok rows => .ok ((is, fs) :: rows)
            | .err => .err
            | .panic => .panic

/-- cmd/catalog/catalog.go:261-326, `parse`.  The columns `icols[j]` are the `j`-th entries of the rows. -/
def parseLines {F : Type} (ff : FloatFmt F) (lines : List Str) (sep : Char) (ics fcs : List Nat) :
    Out (List (List Int) × List (List F)) :=
  match lines with
  | [] => .ok (ics.map fun _ => [], fcs.map fun _ => [])
  | l0 :: _ =>
    let width := countFields goSpace false l0
    if (ics ++ fcs).any (fun c => width ≤ c) then .err
    else match parseRows ff sep width ics fcs lines (List.replicate width []) with
      | .panic => .panic
      | .err => .err
      | .ok rows =>
        .ok ((List.range ics.length).map (fun j => rows.filterMap fun r => r.1[j]?),
             (List.range fcs.length).map (fun j => rows.filterMap fun r => r.2[j]?))

/-- cmd/catalog/catalog.go:143-150, `Parse`. -/
def parse {F : Type} (ff : FloatFmt F) (data : Str) (ics fcs : List Nat) : Out (List (List Int) × List (List F)) :=
  let (lines, nComm) := split data '\n' '#'
  parseLines ff (trimLines ' ' (uncomment '#' nComm lines)) ' ' ics fcs

/-- cmd/catalog/catalog.go:38-47: the labels with their column ranges, starting at column `n`. -/
def labels (n : Int) : List (Str × Int) → List Str
  | [] => []
  | (name, size) :: rest =>
    (if size = 1 then name ++ '(' :: (itoa n ++ [')'])
     else name ++ '(' :: (itoa n ++ '-' :: (itoa (n + size - 1) ++ [')']))) :: labels (n + size) rest

/-- cmd/catalog/catalog.go:28-36: names and sizes in the given order; `none` is a panic. -/
def orderNames (names : List Str) (sizes : List Int) : List Nat → Option (List (Str × Int))
  | [] => some []
  | idx :: rest => do
    let nm ← names[idx]?
    let s ← sizes[idx]?
    let r ← orderNames names sizes rest
    some ((nm, s) :: r)

/-- cmd/catalog/catalog.go:14-50, `CommentString`. -/
def commentString (intNames floatNames : List Str) (order : List Nat) (sizes : List Int) : Option Str := do
  let l ← orderNames (intNames ++ floatNames) sizes order
  some (joinWith ' ' ("# Column contents:".toList :: labels 0 l))

end Shellfish.Catalog
