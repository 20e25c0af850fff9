/-
Model of cmd/memo/memoize.go and of the cache files written by cmd/halo/io.go.  Files are lists of bytes (natural numbers below 256).  A float64 is a 64-bit pattern
(a natural number below 2^64) in files and tables; `val` gives its value in an ordered field.  `sort.Sort` is not stable and its result on ties is not specified: it is
a parameter (`Argsort`).
-/
import Verif.Model.Finder

namespace Shellfish.Memo
open Shellfish.Finder (toInt)

/-- The outcomes of a call. -/
inductive Out (α : Type) where
  | ok (a : α)
  | error
  | panic
deriving DecidableEq, Repr

/-- Go's `if err != nil { return err }`. -/
def Out.bind {α β : Type} (o : Out α) (f : α → Out β) : Out β :=
  match o with
  | .ok a => f a
  | .error => .error
  | .panic => .panic

/-- An index or slice expression: outside of its range it panics. -/
def Out.index {α : Type} : Option α → Out α
  | some a => .ok a
  | none => .panic

/-- `encoding/binary`, little endian: a number of `k` bytes. -/
def le : Nat → Nat → List Nat
  | 0, _ => []
  | k + 1, w => w % 256 :: le k (w / 256)

/-- `encoding/binary`, little endian: the number of a list of bytes. -/
def unle : List Nat → Nat
  | [] => 0
  | b :: bs => b + 256 * unle bs

/-! IntFinder -/

/-- cmd/memo/memoize.go:226-233 (`NewIntFinder`; cmd/id.go:564-571 is the same): the map from id to index; a later index replaces an earlier one. -/
def newIntFinder (rids : List Int) : Int → Option Nat :=
  (rids.zipIdx).foldl (fun m (p : Int × Nat) => fun id => if id = p.1 then some p.2 else m id) fun _ => none

/-- cmd/memo/memoize.go:237-240 (`Find`; cmd/id.go:575-578 is the same). -/
def find (f : Int → Option Nat) (rid : Int) : Option Nat := f rid

/-! VarColumns -/

/-- cmd/halo/io.go:19-26 (`VarColumns`); `lookup` is the map `ColumnLookup`. -/
structure VarColumns where
  lookup : String → Option Nat
  names : List String
  columns : List Int
  generator : List String
  nBinary : Nat

/-- cmd/halo/io.go:34-38: one turn of the first loop of `NewVarColumns`. -/
def addName (vc : VarColumns) (name : String) (column : Int) : VarColumns :=
  { vc with lookup := fun s => if s = name then some vc.names.length else vc.lookup s, names := vc.names ++ [name], columns := vc.columns ++ [column], generator := vc.generator ++ [""],
            nBinary := vc.nBinary + 1 }

/-- cmd/halo/io.go:44-53: one turn of the second loop of `NewVarColumns`: a radius that is not in the catalogue is computed from its mass. -/
def addRadius (vc : VarColumns) (m r : String) : VarColumns :=
  if (vc.lookup m).isSome = true ∧ (vc.lookup r).isSome = false then
    { vc with lookup := fun s => if s = r then some vc.names.length else vc.lookup s, names := vc.names ++ [r], columns := vc.columns ++ [-1], generator := vc.generator ++ [m] }
  else vc

/-- cmd/halo/io.go:28-57 (`NewVarColumns`); the index of line 37 panics when there are fewer columns than names. -/
def newVarColumns (names : List String) (columns : List Int) : Option VarColumns :=
  if names.length ≤ columns.length then
    some ([("M200m", "R200m"), ("M200c", "R200c"), ("M500c", "R500c"), ("M2500c", "R2500c")].foldl (fun vc p => addRadius vc p.1 p.2)
      ((names.zip columns).foldl (fun vc p => addName vc p.1 p.2) ⟨fun _ => none, [], [], [], 0⟩))
  else none

variable {K : Type} [Field K] [LinearOrder K] [IsStrictOrderedRing K] [FloorRing K]

/-- How float64 patterns are read: their values, and the radius (in catalogue units) which `GetColumn` computes from a mass (cmd/halo/io.go:67-76; the formula is
modelled in Model/Radius). -/
structure Reading (K : Type) where
  val : Nat → K
  gen : String → K → K

/-- cmd/halo/io.go:59-79 (`GetColumn`); a name that is not in the map selects column 0. -/
def getColumn (rd : Reading K) (vc : VarColumns) (cols : List (List Nat)) (name : String) : Option (List K) :=
  (vc.generator[(vc.lookup name).getD 0]?).bind fun g =>
    if g = "" then (cols[(vc.lookup name).getD 0]?).map fun c => c.map rd.val
    else (cols[(vc.lookup g).getD 0]?).map fun c => c.map fun w => rd.gen name (rd.val w)

/-- cmd/halo/io.go:81-87 (`GetIDs`). -/
def getIDs (rd : Reading K) (vc : VarColumns) (cols : List (List Nat)) : Option (List Int) :=
  (cols[(vc.lookup "ID").getD 0]?).map fun c => c.map fun w => toInt (rd.val w)

/-! The halo cache -/

/-- cmd/halo/io.go:117-131 (`RockstarConvert`; lines 202-211 of `RockstarConvertTopN` with `n` rows): the bytes of the cache file. -/
def encode (n : Nat) (cols : List (List Nat)) : List Nat := le 8 n ++ cols.flatMap fun c => c.flatMap (le 8)

/-- An outcome of `idxSort` (cmd/halo/io.go:148-161): the row numbers in ascending order of the keys, ties in any order. -/
structure Argsort (K : Type) [LinearOrder K] where
  run : List K → List Nat
  perm : ∀ xs, (run xs).Perm (List.range xs.length)
  asc : ∀ xs, (run xs).Pairwise fun i j => ∀ a b, xs[i]? = some a → xs[j]? = some b → a ≤ b

/-- cmd/halo/io.go:100-134 (`RockstarConvert`): the file written for a catalogue with columns `cols`. -/
def convert (cols : List (List Nat)) : Out (List Nat) := (Out.index cols[0]?).bind fun c0 => .ok (encode c0.length cols)

/-- cmd/halo/io.go:163-214 (`RockstarConvertTopN`). -/
def convertTopN (rd : Reading K) (so : Argsort K) (vc : VarColumns) (n : Nat) (cols : List (List Nat)) : Out (List Nat) :=
  (Out.index cols[0]?).bind fun c0 =>
    (Out.index (getColumn rd vc cols "M200m")).bind fun ms =>
      (Out.index ((cols.mapM fun c => ((so.run ms).drop (c0.length - min n c0.length)).mapM fun i => c[i]?))).bind fun out => .ok (encode (min n c0.length) out)

/-- `binary.Read` of `k` words of 8 bytes at offset `off` (cmd/halo/io.go:246-264): too short a file is an error. -/
def readWords (file : List Nat) (off k : Nat) : Out (List Nat) :=
  if off + 8 * k ≤ file.length ∨ k = 0 then .ok ((List.range k).map fun i => unle ((file.drop (off + 8 * i)).take 8)) else .error

/-- cmd/halo/io.go:256-265: the columns are read in turn. -/
def readCols (file : List Nat) (n : Nat) : List Nat → Out (List (List Nat))
  | [] => .ok []
  | c :: cs => (readWords file (8 + n * 8 * c) n).bind fun col => (readCols file n cs).bind fun rest => .ok (col :: rest)

/-- cmd/halo/io.go:238-267 (`binaryColGetter`); a negative length panics (line 254). -/
def binaryColGetter (file : List Nat) (colIdxs : List Nat) : Out (List (List Nat)) :=
  (readWords file 0 1).bind fun ws => (Out.index ws[0]?).bind fun n => if 2 ^ 63 ≤ n ∧ colIdxs ≠ [] then .panic else readCols file n colIdxs

/-- cmd/halo/io.go:216-234 (`ReadBinaryRockstar`): ids and columns. -/
def readBinaryRockstar (rd : Reading K) (vc : VarColumns) (file : List Nat) : Out (List Int × List (List Nat)) :=
  (binaryColGetter file (List.range vc.nBinary)).bind fun cols => (Out.index (getIDs rd vc cols)).bind fun ids => .ok (ids, cols)

/-- cmd/memo/memoize.go:190-204: the rows of the requested ids. -/
def selectRows (rids : List Int) (rvals : List (List K)) (ids : List Int) : Out (List (List K)) :=
  match ids.mapM fun id => find (newIntFinder rids) id with
  | none => .error
  | some lines => Out.index (rvals.mapM fun rv => lines.mapM fun l => rv[l]?)

/-- cmd/memo/memoize.go:153-216 (`readRockstar`) once the snapshot headers are read.  `memo` is the cache file if it exists, `write` the bytes of a new one, `ids` the
requested ids (`none`: nil).  The result comes with the cache file afterwards. -/
def readRockstar (rd : Reading K) (vc : VarColumns) (memo : Option (List Nat)) (write : Out (List Nat)) (valNames : List String) (ids : Option (List Int)) :
    Out (List Int × List (List K)) × Option (List Nat) :=
  match (match memo with | some f => Out.ok f | none => write) with
  | .error => (.error, memo)
  | .panic => (.panic, memo)
  | .ok file =>
    ((readBinaryRockstar rd vc file).bind fun r =>
      (Out.index (valNames.mapM fun v => getColumn rd vc r.2 v)).bind fun rvals =>
        match ids with
        | none => .ok (r.1, rvals)
        | some ids => (selectRows r.1 rvals ids).bind fun vals => .ok (ids, vals), some file)

/-- The two cache files of a snapshot (cmd/memo/memoize.go:18-24). -/
structure Cache where
  full : Option (List Nat)
  short : Option (List Nat)
deriving DecidableEq

/-- cmd/memo/memoize.go:21 (`rockstarShortMemoNum`). -/
def shortNum : Nat := 10000

/-- cmd/memo/memoize.go:102-105 (`sortRockstar`): ids and masses in order of descending mass, ties in any order. -/
structure Descsort (K : Type) [LinearOrder K] where
  run : List (Int × K) → List (Int × K)
  perm : ∀ l, (run l).Perm l
  desc : ∀ l, (run l).Pairwise fun a b => b.2 ≤ a.2

/-- cmd/memo/memoize.go:66-78: the last part of `ReadSortedRockstarIDs`. -/
def sortedIDs (ds : Descsort K) (maxID : Int) (ids : List Int) (ms : List K) : Out (List Int) :=
  if (ids.length : Int) < maxID then .error
  else
    let out := (ds.run (ids.zip ms)).map Prod.fst
    if maxID = -1 then .ok out
    else if 0 ≤ maxID + 1 ∧ maxID + 1 ≤ out.length then .ok (out.take (maxID + 1).toNat) else .panic

/-- cmd/memo/memoize.go:28-79 (`ReadSortedRockstarIDs`) for the catalogue with columns `cols`, once the snapshot headers are read. -/
def readSortedRockstarIDs (rd : Reading K) (so : Argsort K) (ds : Descsort K) (vc : VarColumns) (cols : List (List Nat)) (cache : Cache) (maxID : Int) (valName : String) :
    Out (List Int) × Cache :=
  if (shortNum : Int) ≤ maxID ∨ maxID = -1 then
    let r := readRockstar rd vc cache.full (convert cols) [valName] none
    (r.1.bind fun x => (Out.index x.2[0]?).bind fun ms => sortedIDs ds maxID x.1 ms, { cache with full := r.2 })
  else
    let r := readRockstar rd vc cache.short (convertTopN rd so vc shortNum cols) [valName] none
    (r.1.bind fun x => (Out.index x.2[0]?).bind fun ms => sortedIDs ds maxID x.1 ms, { cache with short := r.2 })

/-- cmd/memo/memoize.go:109-151 (`ReadRockstar`) for the catalogue with columns `cols`, once the snapshot headers are read. -/
def readRockstarIDs (rd : Reading K) (so : Argsort K) (vc : VarColumns) (cols : List (List Nat)) (cache : Cache) (valNames : List String) (ids : Option (List Int)) :
    Out (List Int × List (List K)) × Cache :=
  match readRockstar rd vc cache.short (convertTopN rd so vc shortNum cols) valNames ids with
  | (.ok x, short) => (.ok x, { cache with short := short })
  | (.panic, short) => (.panic, { cache with short := short })
  | (.error, short) =>
    let r := readRockstar rd vc cache.full (convert cols) valNames ids
    (r.1, ⟨r.2, short⟩)

/-! The header cache -/

/-- io/io.go:71-83 (`CosmologyHeader`, `Header`), as bit patterns. -/
structure Header where
  z : Nat
  omegaM : Nat
  omegaL : Nat
  h100 : Nat
  n : Nat
  totalWidth : Nat
  origin : List Nat
  width : List Nat
deriving DecidableEq, Repr

/-- The zero value of a `Header`. -/
def Header.zero : Header := ⟨0, 0, 0, 0, 0, 0, [0, 0, 0], [0, 0, 0]⟩

/-- `binary.Write` of one header: 72 bytes. -/
def Header.enc (h : Header) : List Nat :=
  le 8 h.z ++ le 8 h.omegaM ++ le 8 h.omegaL ++ le 8 h.h100 ++ le 8 h.n ++ le 8 h.totalWidth ++ h.origin.flatMap (le 4) ++ h.width.flatMap (le 4)

/-- bytes `a` to `a + k` as a number -/
def field (bs : List Nat) (a k : Nat) : Nat := unle ((bs.drop a).take k)

/-- `binary.Read` of one header from 72 bytes. -/
def Header.dec (bs : List Nat) : Header :=
  ⟨field bs 0 8, field bs 8 8, field bs 16 8, field bs 24 8, field bs 32 8, field bs 40 8, [field bs 48 4, field bs 52 4, field bs 56 4],
    [field bs 60 4, field bs 64 4, field bs 68 4]⟩

/-- cmd/memo/memoize.go:290: `binary.Read` into a slice of `k` headers; its error is ignored, and on an error the slice keeps its zero values. -/
def readHeaderMemo (file : List Nat) (k : Nat) : List Header :=
  if 72 * k ≤ file.length then (List.range k).map fun i => Header.dec ((file.drop (72 * i)).take 72) else List.replicate k Header.zero

/-- cmd/memo/memoize.go:260-302 (`ReadHeaders`): `fresh` is the outcome of `readUnmemoizedHeaders` (lines 242-256), `files` the file names.  The result comes with the
cache file afterwards. -/
def readHeaders (memo : Option (List Nat)) (fresh : Out (List Header)) (files : List String) : Out (List Header × List String) × Option (List Nat) :=
  match memo with
  | none =>
    match fresh with
    | .ok hds => (.ok (hds, files), some (hds.flatMap Header.enc))
    | .error => (.error, none)
    | .panic => (.panic, none)
  | some file => (.ok (readHeaderMemo file files.length, files), memo)

end Shellfish.Memo
