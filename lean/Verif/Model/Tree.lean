/-
Model of tree mode (cmd/tree.go, los/tree/tree.go).  The merger trees are read by the package consistent_trees, which is not part of the repository: one file is modelled by what its
functions return.  Halos are identified by their ids.
-/
import Verif.Model.Catalog

namespace Shellfish.Tree
open Shellfish.Catalog Shellfish.Text

/-- One tree file as seen through consistent_trees: the halos of the lists (`HaloLists(i)`, used by `LookupHaloInList`), `Desc`, `Prog` and `LookupIndex(Scale())` of a halo. -/
structure File where
  lists : List (List Int)
  desc : Int → Option Int
  prog : Int → Option Int
  index : Int → Int

/-- los/tree/tree.go:58-68 (`findHalo`), from list `i` on: the snapshot number of the halo. -/
def findHaloFrom (numLists : Nat) (id : Int) : List (List Int) → Nat → Option Int
  | [], _ => none
  | l :: ls, i => if id ∈ l then some (numLists - i) else findHaloFrom numLists id ls (i + 1)

/-- los/tree/tree.go:58-68 (`findHalo`). -/
def findHalo (t : File) (id : Int) : Option Int := findHaloFrom t.lists.length id t.lists 0

/-- los/tree/tree.go:87-94 and 102-109: the loop of `descTree` (with `next = Desc`) and `progTree` (with `next = Prog`); `none`: more than `fuel` turns. -/
def follow (t : File) (next : Int → Option Int) : Nat → Int → Option (List Int × List Int)
  | fuel, h =>
    match next h with
    | none => some ([], [])
    | some h' =>
      match fuel with
      | 0 => none
      | fuel + 1 => (follow t next fuel h').map fun r => (h' :: r.1, (t.lists.length - t.index h') :: r.2)

/-- los/tree/tree.go:70-81 (`findHistory`): ids and snapshots; the outer `none` is an endless loop, the inner one "not found". -/
def findHistory (t : File) (fuel : Nat) (id : Int) : Option (Option (List Int × List Int)) :=
  match findHalo t id with
  | none => some none
  | some snap => (follow t t.desc fuel id).bind fun d => (follow t t.prog fuel id).map fun p =>
      some (p.1.reverse ++ [id] ++ d.1, p.2.reverse ++ [snap] ++ d.2)

/-- los/tree/tree.go:29-36: the loop over the roots for one file. -/
def searchFile (t : File) (fuel : Nat) : List Int → List (Option (List Int × List Int)) → Option (List (Option (List Int × List Int)))
  | id :: roots, r :: rs =>
    (match r with | some x => some (some x) | none => findHistory t fuel id).bind fun r' => (searchFile t fuel roots rs).map fun rs' => r' :: rs'
  | _, rs => some rs

/-- los/tree/tree.go:26-41: the loop over the files, which ends early when all halos are found (`foundCount == len(roots)`). -/
def searchFiles (fuel : Nat) (roots : List Int) : List File → List (Option (List Int × List Int)) → Option (List (Option (List Int × List Int)))
  | [], rs => some rs
  | t :: ts, rs => (searchFile t fuel roots rs).bind fun rs' => if rs'.all (·.isSome) then some rs' else searchFiles fuel roots ts rs'

/-- The outcomes of a call. -/
inductive Out (α : Type)
  | ok (a : α)
  | err
  | loop

/-- los/tree/tree.go:15-56 (`HaloHistories`). -/
def haloHistories (fuel : Nat) (files : List File) (roots : List Int) (offset : Int) : Out (List (List Int × List Int)) :=
  if roots = [] then .ok []
  else
    match searchFiles fuel roots files (roots.map fun _ => none) with
    | none => .loop
    | some rs =>
      match rs.mapM id with
      | none => .err
      | some hs => .ok (hs.map fun h => (h.1, h.2.map (· + offset)))

/-- cmd/tree.go:95-104: the columns of the output, with a sentinel between two histories. -/
def joinHistories : List (List Int × List Int) → List Int × List Int
  | [] => ([], [])
  | [h] => h
  | h :: h' :: hs => (h.1 ++ -1 :: (joinHistories (h' :: hs)).1, h.2 ++ -1 :: (joinHistories (h' :: hs)).2)

/-- cmd/tree.go:109-124: the selection of the lines; one line is appended for every entry of `selectSnaps` that is equal to its snapshot. -/
def selectLines (snapMin snapMax : Int) (select : List Int) : List Str → List Int → List Str
  | l :: ls, s :: ss =>
    (if snapMin ≤ s ∧ s ≤ snapMax then (if select ≠ [] then (select.filter fun x => decide (x = s)).map fun _ => l else [l]) else []) ++ selectLines snapMin snapMax select ls ss
  | _, _ => []

/-- cmd/tree.go:62-136 (`Run`) for the parsed id column; `none` is an error or a panic.  There are no float columns. -/
def run (fuel : Nat) (files : List File) (offset snapMin snapMax : Int) (select inputIDs : List Int) : Option (List Str) :=
  match haloHistories fuel files inputIDs offset with
  | .ok hs =>
    let cols := joinHistories hs
    (formatCols (F := Unit) ⟨fun _ => [], fun _ => none⟩ [cols.1, cols.2] [] [0, 1]).bind fun lines =>
      (commentString ["ID".toList, "Snapshot".toList] [] [0, 1] [1, 1]).map fun c => c :: selectLines snapMin snapMax select lines cols.2
  | _ => none

/-- cmd/tree.go:146-151 (`treeFiles`): is a file of the directory a tree file? -/
def isTreeFile (name : Str) : Bool := decide (4 < name.length) && name.take 5 == "tree_".toList && name.drop (name.length - 4) == ".dat".toList

/-- cmd/tree.go:138-154 (`treeFiles`); the names come from `ioutil.ReadDir`. -/
def treeFiles (dir : Str) (join : Str → Str → Str) (names : List Str) : List Str := (names.filter isTreeFile).map (join dir)

end Shellfish.Tree
