/-
Specification of catalog text, independent of the scanner: lines, comments, blank-separated words.
-/
import Verif.Lemmas.Catalog

namespace Shellfish.Catalog

open Shellfish.Text

/-- The table written in `data`: the words of every line once comments are removed, without the lines that have no words. -/
def table (data : Str) : List (List Str) :=
  ((splitOn '\n' data).map fun l => words ' ' (l.takeWhile (· ≠ '#'))).filter (· ≠ [])

/-- Outside comments, the only white space is the blank and the newline. -/
def Plain (data : Str) : Prop := ∀ l ∈ splitOn '\n' data, ∀ c ∈ l.takeWhile (· ≠ '#'), goSpace c = true → c = ' '

/-- All rows have the same number of words and every requested column exists. -/
def Rectangular (rows : List (List Str)) (cs : List Nat) : Prop :=
  (∀ r ∈ rows, ∀ r' ∈ rows, r.length = r'.length) ∧ ∀ r ∈ rows, ∀ c ∈ cs, c < r.length

/-- `cols` are the columns `cs` of the table, read with `f`. -/
def Columns {α : Type} (f : Str → Option α) (rows : List (List Str)) (cs : List Nat) (cols : List (List α)) : Prop :=
  List.Forall₂ (fun c col => List.Forall₂ (fun r v => ∃ w, r[c]? = some w ∧ f w = some v) rows col) cs cols

/-- Every requested word of the row can be read. -/
def Readable {F : Type} (ff : FloatFmt F) (ics fcs : List Nat) (r : List Str) : Prop :=
  (∀ c ∈ ics, ∃ w v, r[c]? = some w ∧ atoi w = some v) ∧ (∀ c ∈ fcs, ∃ w v, r[c]? = some w ∧ ff.parse w = some v)

end Shellfish.Catalog
