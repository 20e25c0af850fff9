/-
Notation for texts: `chars "abc"` is the list `['a', 'b', 'c']` (written out, so that the kernel need not decode the string).
-/
import Lean.Elab.Term
import Lean.ToExpr

namespace Shellfish
open Lean Elab Term

/-- The list of the characters of a string literal. -/
elab "chars " s:str : term => return toExpr s.getString.toList

example : chars "a b" = ['a', ' ', 'b'] := rfl
example : chars "Snap = 100" = "Snap = 100".toList := by decide

end Shellfish
