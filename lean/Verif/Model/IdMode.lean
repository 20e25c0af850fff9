/-
Model of cmd/id.go: the id mode from its validated configuration to the rows (id, snapshot) it prints.  Reading the caches is modelled in Model/Memo; the caches that
the individual calls find are parameters.  The text format of the rows is modelled in Model/Catalog.
-/
import Verif.Model.Memo

namespace Shellfish.IdMode
open Shellfish.Memo (Out newIntFinder Reading Argsort Descsort VarColumns Cache readSortedRockstarIDs readRockstarIDs)
open Shellfish.Finder (Point newGrid insert findSubhalos hostCount subhalos)

variable {K : Type} [Field K] [LinearOrder K] [IsStrictOrderedRing K] [FloorRing K]

/-- cmd/id.go:21-29 (`IDConfig`). -/
structure Config (K : Type) where
  idType : String
  ids : List Int
  idStart : Int
  idEnd : Int
  snap : Int
  mult : Int
  m200mMax : K
  m200mMin : K
  exclusionStrategy : String
  exclusionRadiusMult : K

/-- A loop that stops at the first error or panic. -/
def mapOut {α β : Type} (f : α → Out β) : List α → Out (List β)
  | [] => .ok []
  | a :: as => (f a).bind fun b => (mapOut f as).bind fun bs => .ok (b :: bs)

/-- cmd/id.go:341-354: the masses of the ranked halos; `c1` and `c2` are the caches that the two calls find. -/
def masses (rd : Reading K) (so : Argsort K) (ds : Descsort K) (vc : VarColumns) (cols : List (List Nat)) (c1 c2 : Cache) : Out (List K) :=
  (readSortedRockstarIDs rd so ds vc cols c1 (-1) "M200m").1.bind fun rids =>
    (readRockstarIDs rd so vc cols c2 ["M200m"] (some rids)).1.bind fun r => Out.index r.2[0]?

/-- cmd/id.go:356-366: the loop of `getMassIDRange` from index `i` on. -/
def massLoop (mMin mMax : K) : Int → Int → List K → Int × Int
  | i, start, [] => (start, i - 1)
  | i, start, m :: ms =>
    let start' := if start = -1 ∧ mMax ≥ m then i else start
    if mMin > m then (start', i - 1) else massLoop mMin mMax (i + 1) start' ms

/-- cmd/id.go:330-364 (`getMassIDRange`): `ms` are the masses of the ranked halos.  Its error is ignored by the caller (cmd/id.go:205); only the id type has changed
then (a panic ends the program: see `run`). -/
def getMassIDRange (c : Config K) (ms : Out (List K)) : Config K :=
  match ms with
  | .ok ms => { c with idType := "m200m", idStart := (massLoop c.m200mMin c.m200mMax 0 (-1) ms).1, idEnd := (massLoop c.m200mMin c.m200mMax 0 (-1) ms).2 }
  | _ => { c with idType := "m200m" }

/-- cmd/id.go:367-387 (`getIDs`); `stdin` is the outcome of parsing the input catalogue. -/
def getIDs (idStart idEnd : Int) (ids : List Int) (stdin : Out (List Int)) : Out (List Int) :=
  if idStart ≠ -1 then
    if idEnd - idStart < 0 then .panic else .ok ((List.range (idEnd - idStart).toNat).map fun i : Nat => idStart + (i : Int))
  else if ids.length > 0 then .ok ids
  else stdin

/-- cmd/id.go:397-402: the largest id, at least 0. -/
def maxRank (rawIDs : List Int) : Int := rawIDs.foldl (fun m id => if id > m then id else m) 0

/-- cmd/id.go:389-410 (`convertSortedIDs`); `sorted` is `ReadSortedRockstarIDs`. -/
def convertSortedIDs (rawIDs : List Int) (sorted : Int → Out (List Int)) : Out (List Int) :=
  (sorted (maxRank rawIDs)).bind fun rids => mapOut (fun r => Out.index (Shellfish.Finder.get rids r)) rawIDs

/-- The ranked catalogue as the exclusion code sees it (cmd/id.go:441-462): ids, positions and radii in the units of the box, and the box width. -/
structure Ranked (K : Type) where
  rids : List Int
  ps : List (Point K)
  rs : List K
  width : K

/-- cmd/id.go:437-456 (and 501-519): the ranked catalogue is read; `rucf` and `pucf` are the unit conversion factors, `width` is the width of the box in the header.  The
error of the second call is returned by `findOverlapSubs` and ignored by `readSubIDs` (`ignore`), where indexing the empty result panics. -/
def readRanked (rd : Reading K) (so : Argsort K) (ds : Descsort K) (vc : VarColumns) (cols : List (List Nat)) (c1 c2 : Cache) (rucf pucf width : K) (ignore : Bool) : Out (Ranked K) :=
  (readSortedRockstarIDs rd so ds vc cols c1 (-1) "M200m").1.bind fun rids =>
    match (readRockstarIDs rd so vc cols c2 ["X", "Y", "Z", "R200m"] (some rids)).1 with
    | .ok (_, [xs, ys, zs, rs]) => .ok ⟨rids, (xs.zip (ys.zip zs)).map fun p => ⟨p.1 * pucf, p.2.1 * pucf, p.2.2 * pucf⟩, rs.map (· * rucf), width⟩
    | .ok _ => .panic
    | .error => if ignore then .panic else .error
    | .panic => .panic

/-- cmd/id.go:18 (`finderCells`). -/
def finderCells : Nat := 150

/-- cmd/id.go:466-474: the linear search for an id (an empty list leaves `isSub` false). -/
def searchSub (s : Shellfish.Finder.Lists) (id : Int) : Nat → List Int → Out Bool
  | _, [] => .ok false
  | j, r :: rs =>
    if r = id then (Out.index (hostCount s j)).bind fun c => .ok (decide (c > 0))
    else if rs = [] then .error else searchSub s id (j + 1) rs

/-- cmd/id.go:416-478 (`findOverlapSubs`); all ids have the snapshot of the configuration, so there is one group, in the order of the ids. -/
def findOverlapSubs (cat : Out (Ranked K)) (mult : K) (ids : List Int) : Out (List Bool) :=
  cat.bind fun cat => (Out.index (insert (newGrid finderCells cat.width cat.ps.length) cat.ps)).bind fun g =>
    (Out.index (findSubhalos g cat.ps cat.rs mult)).bind fun s => mapOut (fun id => searchSub s.1 id 0 cat.rids) ids

/-- cmd/id.go:480-557 (`readSubIDs`): the ids with their neighbours. -/
def readSubIDs (cat : Out (Ranked K)) (mult : K) (ids : List Int) : Out (List Int) :=
  cat.bind fun cat => (Out.index (insert (newGrid finderCells cat.width cat.ps.length) cat.ps)).bind fun g =>
    (Out.index (findSubhalos g cat.ps cat.rs mult)).bind fun s =>
      (mapOut (fun id => match newIntFinder cat.rids id with
        | none => .error
        | some j => (Out.index (subhalos s.1 j)).bind fun subs => (mapOut (fun k => Out.index (Shellfish.Finder.get cat.rids k)) subs).bind fun sids => .ok (id :: sids)) ids).bind fun ls =>
          .ok ls.flatten

/-- cmd/id.go:297-317: filter and repeat. -/
def rows (ids : List Int) (exclude : List Bool) (snap mult : Int) : List (Int × Int) :=
  ((ids.zip exclude).filter fun p => !p.2).flatMap fun p => List.replicate mult.toNat (p.1, snap)

/-- cmd/id.go:213-324: `Run` once the id range is known; `cat` is `readRanked` with the two values of its last argument. -/
def runRange (c : Config K) (stdin : Out (List Int)) (sorted : Int → Out (List Int)) (cat : Bool → Out (Ranked K)) : Out (List (Int × Int)) :=
  (if c.idStart ≤ c.idEnd then getIDs c.idStart c.idEnd c.ids stdin else .ok []).bind fun rawIds =>
    if rawIds = [] then if c.idStart ≤ c.idEnd then .ok [] else .panic
    else
      (if c.idType = "halo-id" then .ok rawIds else if c.idType = "m200m" then convertSortedIDs rawIds sorted else .panic).bind fun ids =>
        if c.exclusionStrategy = "none" then .ok (rows ids (List.replicate ids.length false) c.snap c.mult)
        else if c.exclusionStrategy = "subhalo" then .panic
        else if c.exclusionStrategy = "neighbor" then
          (readSubIDs (cat true) c.exclusionRadiusMult ids).bind fun all => .ok (rows all (List.replicate all.length false) c.snap c.mult)
        else if c.exclusionStrategy = "overlap" then (findOverlapSubs (cat false) c.exclusionRadiusMult ids).bind fun ex => .ok (rows ids ex c.snap c.mult)
        else .ok (rows ids (List.replicate ids.length false) c.snap c.mult)

/-- Whether a call panicked. -/
def _root_.Shellfish.Memo.Out.isPanic {α : Type} : Out α → Bool
  | .panic => true
  | _ => false

/-- cmd/id.go:160-325 (`Run`) after the check of the snapshot number (lines 176-184): `ms` are the masses of the ranked halos.  The header line is not part of the rows. -/
def run (c : Config K) (ms : Out (List K)) (stdin : Out (List Int)) (sorted : Int → Out (List Int)) (cat : Bool → Out (Ranked K)) : Out (List (Int × Int)) :=
  if c.m200mMax > 0 ∧ ms.isPanic then .panic else runRange (if c.m200mMax > 0 then getMassIDRange c ms else c) stdin sorted cat

end Shellfish.IdMode
