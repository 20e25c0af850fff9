/-
`fmt.Sprintf` of Go for the formats used in names of particle files (cmd/env/Gadget-2.go:25-27): text, `%%`, `%d` and `%s` with an optional width, and `%d` with the flag 0.
Other verbs and flags, and arguments of the wrong number or type, are not modelled (`none`).
-/
import Verif.Model.Env

namespace Shellfish.Env
open Shellfish.Text
open Shellfish.Catalog (Str)

/-- A part of a format. -/
inductive Piece
  | lit (c : Char)
  | dec (zero : Bool) (width : Nat)
  | str (width : Nat)
deriving DecidableEq

/-- The state of the scan of a format: in text, or after a `%` with the flag 0 and the width read so far. -/
inductive Scan
  | text
  | verb (zero : Bool) (width : Option Nat)

/-- The parts of a format (package fmt, `doPrintf`). -/
def scan : Scan → Str → Option (List Piece)
  | .text, [] => some []
  | .text, c :: cs => if c = '%' then scan (.verb false none) cs else (scan .text cs).map (Piece.lit c :: ·)
  | .verb _ _, [] => none
  | .verb zero width, c :: cs =>
    if c = 'd' then (scan .text cs).map (Piece.dec zero (width.getD 0) :: ·)
    else if c = 's' ∧ zero = false then (scan .text cs).map (Piece.str (width.getD 0) :: ·)
    else if c = '%' ∧ zero = false ∧ width = none then (scan .text cs).map (Piece.lit '%' :: ·)
    else if c = '0' ∧ width = none then scan (.verb true none) cs
    else
      match digitVal c with
      | some d => scan (.verb zero (some (width.getD 0 * 10 + d))) cs
      | none => none

/-- The value of `%d`, `%5d` or `%05d` (package fmt, `fmtInteger`): padded with blanks on the left, or with zeros between sign and digits. -/
def fmtInt (zero : Bool) (width : Nat) (n : Int) : Str :=
  if zero then
    if n < 0 then '-' :: (List.replicate (width - 1 - (natDigits n.natAbs).length) '0' ++ natDigits n.natAbs)
    else List.replicate (width - (natDigits n.natAbs).length) '0' ++ natDigits n.natAbs
  else padLeft width (itoa n)

/-- The formatted text. -/
def render : List Piece → List Arg → Option Str
  | [], [] => some []
  | .lit c :: ps, args => (render ps args).map (c :: ·)
  | .dec zero width :: ps, .int n :: args => (render ps args).map (fmtInt zero width n ++ ·)
  | .str width :: ps, .str s :: args => (render ps args).map (padLeft width s ++ ·)
  | _, _ => none

/-- `fmt.Sprintf(format, args...)`. -/
def goSprintf (format : Str) (args : List Arg) : Option Str := (scan .text format).bind fun ps => render ps args

end Shellfish.Env
