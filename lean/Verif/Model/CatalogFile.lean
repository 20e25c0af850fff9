/-
Model of the reading of a catalogue file (cmd/catalog/catalog.go, `ReadFile`): what is parsed when the file changes or cannot be read completely.
-/
import Verif.Model.Catalog

namespace Shellfish.Catalog

/-- cmd/catalog/catalog.go:162-163: the buffer after `io.ReadAtLeast`: `size` bytes of which the first ones are those that could be read (`got`); the others keep the zero byte of `make`, because the
error of `io.ReadAtLeast` is dropped.  `got` may be longer than `size` if the file has grown since `Stat`: only `size` bytes are asked for. -/
def buffer (size : Nat) (got : Str) : Str := got.take size ++ List.replicate (size - got.length) '\x00'

/-- cmd/catalog/catalog.go:152-173, `ReadFile`.  `file` is `none` if the file cannot be opened (or `Stat` fails); otherwise it is the size reported by `Stat` and the bytes that can be read until the end
of the file or the first read error. -/
def readFile {F : Type} (ff : FloatFmt F) (file : Option (Nat × Str)) (ics fcs : List Nat) : Out (List (List Int) × List (List F)) :=
  match file with
  | none => .err
  | some (size, got) => parse ff (buffer size got) ics fcs

end Shellfish.Catalog
