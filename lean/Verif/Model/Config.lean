/-
Model of package parse (parse/config.go) and of the argument splitting in shellfish.go.

Text is `List Char` (Go strings are byte strings; all the characters the code looks for are ASCII).
Every registered variable has its own memory location (true of every caller in /repo), so the
variables are a list `store` parallel to the list of declarations.
`strings.ToLower` and `strconv.ParseFloat` are parameters (`Lib`): the theorems hold for any such functions.
-/
import Verif.Model.Text

namespace Shellfish.Config

open Shellfish.Text

/-- Go strings. -/
abbrev Str := List Char

/-- Library functions the model is parametric in; `F` is the type of float64 values. -/
structure Lib (F : Type) where
  /-- `strings.ToLower` -/
  lower : Str → Str
  /-- `strconv.ParseFloat(_, 64)`; `none` is an error -/
  parseFloat : Str → Option F

/-- parse/config.go:69-80. -/
inductive VarType
  | int | ints | float | floats | string | strings | bool | bools
deriving DecidableEq

/-- Values of the Go types a variable can have. -/
inductive Val (F : Type)
  | int (i : Int) | ints (l : List Int)
  | float (x : F) | floats (l : List F)
  | string (s : Str) | strings (l : List Str)
  | bool (b : Bool) | bools (l : List Bool)
deriving DecidableEq

/-- `strings.Trim(_, " ")`. -/
def trimSp (s : Str) : Str := trim (fun c => c == ' ') s

/-- `strconv.ParseBool`. -/
def parseBool (s : Str) : Option Bool :=
  if s ∈ ["1".toList, "t".toList, "T".toList, "TRUE".toList, "true".toList, "True".toList] then some true
  else if s ∈ ["0".toList, "f".toList, "F".toList, "FALSE".toList, "false".toList, "False".toList] then some false
  else none

/-- parse/config.go:153-159, `strToList`. -/
def strToList (a : Str) : List Str := (splitOn ',' a).map trimSp

/-- The loops of `intsConv`, `floatsConv`, `boolsConv` (parse/config.go:161-189, 202-215): the list built so far when the
loop ends, and whether it ended without an error. -/
def listConv {α : Type} (f : Str → Option α) : List Str → List α × Bool
  | [] => ([], true)
  | t :: ts => match f t with
    | none => ([], false)
    | some a => let r := listConv f ts; (a :: r.1, r.2)

/-- parse/config.go:113-215: the conversion functions; the stored value afterwards and the success flag.
(On failure the scalar conversions keep the old value, the list conversions leave a partial list.) -/
def conv {F : Type} (lib : Lib F) (ty : VarType) (old : Val F) (s : Str) : Val F × Bool :=
  match ty with
  | .int => match atoi s with | none => (old, false) | some i => (.int i, true)
  | .float => match lib.parseFloat s with | none => (old, false) | some x => (.float x, true)
  | .string => (.string (trimSp s), true)
  | .bool => match parseBool s with | none => (old, false) | some b => (.bool b, true)
  | .ints => let r := listConv atoi (strToList s); (.ints r.1, r.2)
  | .floats => let r := listConv lib.parseFloat (strToList s); (.floats r.1, r.2)
  | .strings => (.strings (strToList s), true)
  | .bools => let r := listConv parseBool (strToList s); (.bools r.1, r.2)

/-- parse/config.go:106-111, `ConfigVars` (the conversion functions are determined by the types). -/
structure Vars where
  name : Str
  decls : List (Str × VarType)

/-- The error values of `ReadConfig` (287-356) and `ReadFlags` (365-452), with the data they print. -/
inductive Err
  | io
  | noHeader
  | notAssign (line : Nat)
  | unknown (line : Nat) (name : Str)
  | dup (line1 line2 : Nat) (name : Str)
  | badValue (line : Nat) (var : Str) (ty : VarType) (shown : Str)
  | hasEquals (arg : Str)
  | noFlag (arg : Str)
  | noValue (name : Str)
  | unknownFlag (name : Str)
  | dupFlag (name : Str)
  | badFlag (var : Str) (ty : VarType) (shown : Str)
deriving DecidableEq

/-- Result of a call: the variables after it, with or without an error, or a panic. -/
inductive Outcome (F : Type)
  | ok (st : List (Val F))
  | err (e : Err) (st : List (Val F))
  | panic
deriving DecidableEq

/-- parse/config.go:464-488, `removeComments`: surviving lines with their (0-based) indices. -/
def removeComments (lines : List Str) : List (Str × Nat) :=
  (lines.zipIdx.map fun p => (trimSp (p.1.takeWhile (· ≠ '#')), p.2)).filter fun p => p.1 ≠ []

/-- parse/config.go:490-509, `associationList`, for the lines from index `i` on: the names and values, or the
index of the offending line. -/
def associationList (i : Nat) : List Str → Sum Nat (List (Str × Str))
  | [] => .inr []
  | l :: ls =>
    if '=' ∉ l then .inl i
    else
      let name := l.takeWhile (· ≠ '=')
      let val := if name.length < l.length - 1 then l.drop (name.length + 1) else []
      if trimSp name = [] then .inl i
      else match associationList (i + 1) ls with
        | .inl k => .inl k
        | .inr ps => .inr ((trimSp name, trimSp val) :: ps)

/-- The search loops of parse/config.go:514-520, 541-546, 339-344: index of the first declaration with that name up
to letter case, or the number of declarations. -/
def findVar {F : Type} (lib : Lib F) (decls : List (Str × VarType)) (n : Str) : Nat :=
  decls.findIdx fun d => lib.lower d.1 == lib.lower n

/-- parse/config.go:511-526, `checkValidNames`, from index `i` on; `none` is -1. -/
def checkValidNames {F : Type} (lib : Lib F) (decls : List (Str × VarType)) (i : Nat) : List Str → Option Nat
  | [] => none
  | n :: ns => if decls.any (fun d => lib.lower d.1 == lib.lower n) then checkValidNames lib decls (i + 1) ns
      else some i

/-- Inner loop of parse/config.go:530-534. -/
def dupOf {F : Type} (lib : Lib F) (n : Str) (j : Nat) : List Str → Option Nat
  | [] => none
  | m :: ms => if lib.lower n == lib.lower m then some j else dupOf lib n (j + 1) ms

/-- parse/config.go:528-537, `checkDuplicateNames`, from index `i` on; `none` is (-1, -1). -/
def checkDuplicateNames {F : Type} (lib : Lib F) (i : Nat) : List Str → Option (Nat × Nat)
  | [] => none
  | n :: ns => match dupOf lib n (i + 1) ns with
    | some j => some (i, j)
    | none => checkDuplicateNames lib (i + 1) ns

/-- parse/config.go:539-554, `convertAssoc`, from index `i` on: the variables afterwards and the index of the failing
assignment; `none` is an index panic. -/
def convertAssoc {F : Type} (lib : Lib F) (decls : List (Str × VarType)) (i : Nat) :
    List (Str × Str) → List (Val F) → Option (List (Val F) × Option Nat)
  | [], st => some (st, none)
  | p :: ps, st => do
    let j := findVar lib decls p.1
    let d ← decls[j]?
    let old ← st[j]?
    let r := conv lib d.2 old p.2
    if r.2 then convertAssoc lib decls (i + 1) ps (st.set j r.1) else some (st.set j r.1, some i)

/-- parse/config.go:337-358 and 435-455: conversion and the error message.  The message prints `vals[j]` where `j`
is the index of the *variable*, which may be out of range. `mkErr` builds the error from the index of the
assignment, the variable's name and type and the value printed. -/
def convertAll {F : Type} (lib : Lib F) (decls : List (Str × VarType)) (pairs : List (Str × Str)) (st : List (Val F))
    (mkErr : Nat → Str → VarType → Str → Option Err) : Outcome F :=
  match convertAssoc lib decls 0 pairs st with
  | none => .panic
  | some (st', none) => .ok st'
  | some (st', some i) =>
    match pairs[i]? with
    | none => .panic
    | some p =>
      let j := findVar lib decls p.1
      match decls[j]?, pairs[j]? with
      | some d, some shown => match mkErr i d.1 d.2 shown.2 with
        | some e => .err e st'
        | none => .panic
      | _, _ => .panic

/-- parse/config.go:284-359, `ReadConfig`; `file` is the content (`none`: unreadable file). -/
def readConfig {F : Type} (lib : Lib F) (vars : Vars) (file : Option Str) (st : List (Val F)) : Outcome F :=
  match file with
  | none => .err .io st
  | some bs =>
    let rl := removeComments (splitOn '\n' bs)
    let lines := rl.map Prod.fst
    let lineNums := rl.map (fun p => p.2 + 1)
    match lines with
    | [] => .err .noHeader st
    | h :: body =>
      if h ≠ '[' :: (vars.name ++ [']']) then .err .noHeader st
      else match associationList 0 body with
        | .inl i => match lineNums[i + 1]? with
          | some n => .err (.notAssign n) st
          | none => .panic
        | .inr pairs =>
          match checkValidNames lib vars.decls 0 (pairs.map Prod.fst) with
          | some i => match lineNums[i + 1]?, pairs[i]? with
            | some n, some p => .err (.unknown n p.1) st
            | _, _ => .panic
          | none =>
            match checkDuplicateNames lib 0 (pairs.map Prod.fst) with
            | some (i, j) => match lineNums[i + 1]?, lineNums[j + 1]?, pairs[i]? with
              | some n, some m, some p => .err (.dup n m p.1) st
              | _, _, _ => .panic
            | none => convertAll lib vars.decls pairs st (fun i v ty s => lineNums[i + 1]?.map fun n => .badValue n v ty s)

/-- parse/config.go:375. -/
def isFlag (a : Str) : Bool := decide (1 < a.length) && (a.take 2 == ['-', '-'])

/-- parse/config.go:458-460. -/
def flagVarName (flag : Str) : Str := trimLeft (fun c => c == '-') flag

/-- parse/config.go:385-397: the loop over the remaining arguments; `name` is the last name appended, `cur` is
`currValue`.  Returns the names with their joined values, in order. -/
def groupFlags (name : Str) (cur : List Str) : List Str → List (Str × Str)
  | [] => [(name, joinWith ',' cur)]
  | a :: as =>
    if isFlag a then (name, joinWith ',' cur) :: groupFlags (flagVarName a) [] as
    else groupFlags name (cur ++ [a]) as

/-- parse/config.go:361-456, `ReadFlags`. -/
def readFlags {F : Type} (lib : Lib F) (vars : Vars) (args : List Str) (st : List (Val F)) : Outcome F :=
  match args with
  | [] => .ok st
  | a0 :: rest =>
    match args.find? (fun a => decide ('=' ∈ a)) with
    | some a => .err (.hasEquals a) st
    | none =>
      if ¬ isFlag a0 then .err (.noFlag a0) st
      else
        let groups := groupFlags (flagVarName a0) [] rest
        match groups.find? (fun g => decide (g.2 = [])) with
        | some g => .err (.noValue g.1) st
        | none =>
          match associationList 0 (groups.map fun g => g.1 ++ '=' :: g.2) with
          | .inl _ => .panic
          | .inr pairs =>
            match checkValidNames lib vars.decls 0 (pairs.map Prod.fst) with
            | some i => match pairs[i]? with
              | some p => .err (.unknownFlag p.1) st
              | none => .panic
            | none =>
              match checkDuplicateNames lib 0 (pairs.map Prod.fst) with
              | some (i, _) => match pairs[i]? with
                | some p => .err (.dupFlag p.1) st
                | none => .panic
              | none => convertAll lib vars.decls pairs st (fun _ v ty s => some (.badFlag v ty s))

/-- shellfish.go:453-459, `getFlags`. -/
def getFlags : List Str → List Str
  | [] => []
  | [] :: rest => [] :: rest
  | ('-' :: t) :: rest => ('-' :: t) :: rest
  | _ :: rest => rest

/-- shellfish.go:480-485, `getConfig`. -/
def getConfig : List Str → Option Str
  | [] => none
  | [] :: _ => none
  | ('-' :: _) :: _ => none
  | f :: _ => some f

/-- The `ReadConfig` method of the modes, e.g. cmd/coord.go:36-45 (cmd/id.go:118-131, cmd/tree.go:42-56,
cmd/shell.go:125-139, cmd/stats.go:123-140, cmd/prof.go:120-132 add a call of `validate` after it): first the file, if one is
named, then the flags.  `content` gives the content of the named file. -/
def readMode {F : Type} (lib : Lib F) (vars : Vars) (content : Str → Option Str) (args : List Str)
    (st : List (Val F)) : Outcome F :=
  match getConfig args with
  | none => readFlags lib vars (getFlags args) st
  | some f => match readConfig lib vars (content f) st with
    | .ok st' => readFlags lib vars (getFlags args) st'
    | o => o

end Shellfish.Config
