/-
Model of package version (version/version.go).
-/
import Verif.Model.Text

namespace Shellfish.Version

open Shellfish.Text

/-- version/version.go:16-43, `Parse`; `none` is the returned error. -/
def parse (s : List Char) : Option (Int × Int × Int) :=
  let toks := splitOn '.' s
  match toks with
  | [t0, t1, t2] => do
    let major ← atoi t0
    let minor ← atoi t1
    let patch ← atoi t2
    if major < 0 ∨ minor < 0 ∨ patch < 0 then none else some (major, minor, patch)
  | _ => none

/-- version/version.go:47-66, `Later`; `none` is the returned error. -/
def later (s1 s2 : List Char) : Option Bool := do
  let (major1, minor1, patch1) ← parse s1
  let (major2, minor2, patch2) ← parse s2
  if major1 = major2 then
    if minor1 = minor2 then some (decide (patch1 > patch2))
    else some (decide (minor1 > minor2))
  else some (decide (major1 > major2))

end Shellfish.Version
