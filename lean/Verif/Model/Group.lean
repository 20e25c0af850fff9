/- Model of the grouping of the rows of an input catalog by snapshot and of the transposition of tables (cmd/shell.go, cmd/stats.go). -/
import Mathlib.Data.List.Sort

namespace Shellfish.Cmd

/-- A Go `map[int][]T`, as the list of its entries.  The order in which Go ranges over a map is not fixed: nothing below may depend on the order of the entries. -/
abbrev GoMap (α : Type) := List (Int × List α)

/-- `m[k]`: the empty slice if the key is absent. -/
def GoMap.get {α : Type} : GoMap α → Int → List α
  | [], _ => []
  | e :: m, k => if e.1 = k then e.2 else GoMap.get m k

/-- `m[k] = append(m[k], x)`. -/
def GoMap.push {α : Type} : GoMap α → Int → α → GoMap α
  | [], k, x => [(k, [x])]
  | e :: m, k, x => if e.1 = k then (e.1, e.2 ++ [x]) :: m else e :: GoMap.push m k x

/-- The keys of a map. -/
def GoMap.keys {α : Type} (m : GoMap α) : List Int := m.map (·.1)

/-- cmd/shell.go:665-669: the loop of `binBySnap`; `none` is the index panic of `ids[i]`. -/
def binBySnapLoop (ids : List Int) : List Int → Nat → GoMap Int × GoMap Nat → Option (GoMap Int × GoMap Nat)
  | [], _, ms => some ms
  | snap :: snaps, i, ms =>
    match ids[i]? with
    | none => none
    | some id => binBySnapLoop ids snaps (i + 1) (ms.1.push snap id, ms.2.push snap i)

/-- cmd/shell.go:662-671 (`binBySnap`). -/
def binBySnap (snaps ids : List Int) : Option (GoMap Int × GoMap Nat) := binBySnapLoop ids snaps 0 ([], [])

/-- cmd/stats.go:400-404: the loop of `binCoeffsBySnap`. -/
def binCoeffsLoop {β : Type} (ids : List Int) (coeffs : List β) :
    List Int → Nat → GoMap Int × GoMap β × GoMap Nat → Option (GoMap Int × GoMap β × GoMap Nat)
  | [], _, ms => some ms
  | snap :: snaps, i, ms =>
    match ids[i]? with
    | none => none
    | some id =>
      match coeffs[i]? with
      | none => none
      | some c => binCoeffsLoop ids coeffs snaps (i + 1) (ms.1.push snap id, ms.2.1.push snap c, ms.2.2.push snap i)

/-- cmd/stats.go:394-406 (`binCoeffsBySnap`). -/
def binCoeffsBySnap {β : Type} (snaps ids : List Int) (coeffs : List β) : Option (GoMap Int × GoMap β × GoMap Nat) :=
  binCoeffsLoop ids coeffs snaps 0 ([], [], [])

/-- cmd/shell.go:298-302, cmd/prof.go:313-317, cmd/phase.go:162-166, cmd/stats.go:251-255 (`sortedSnaps`): the keys, in the order in which the map was ranged over, sorted. -/
def sortedSnaps {α : Type} (m : GoMap α) : List Int := m.keys.mergeSort (fun a b => decide (a ≤ b))

/-- cmd/shell.go:272-286 (`transpose`); `none` is an index panic. -/
def transpose {β : Type} (inp : List (List β)) : Option (List (List β)) :=
  match inp with
  | [] => none
  | row :: _ => (List.range row.length).mapM fun (x : Nat) => inp.mapM fun r => r[x]?

end Shellfish.Cmd
