/-
What a configuration file and a flag list mean, stated without reference to the parsing code.
-/
import Verif.Model.Config
import Mathlib.Data.List.Forall2

namespace Shellfish.Config

open Shellfish.Text

/-- A line with its comment and surrounding blanks removed. -/
def strip (line : Str) : Str := trimSp (line.takeWhile (· ≠ '#'))

/-- The significant lines of a file. -/
def significant (file : Str) : List Str := ((splitOn '\n' file).map strip).filter (· ≠ [])

/-- `line` has the form `n = v`: `n` is the non-empty text before the first '=', `v` the text after it,
both without surrounding blanks. -/
def Assigns (line n v : Str) : Prop :=
  ∃ a b, line = a ++ '=' :: b ∧ '=' ∉ a ∧ n = trimSp a ∧ v = trimSp b ∧ n ≠ []

/-- Each element of the comma-separated list `s` is accepted by `f`, giving `vs`. -/
def ListOf {α : Type} (f : Str → Option α) (s : Str) (vs : List α) : Prop :=
  List.Forall₂ (fun t v => f (trimSp t) = some v) (splitOn ',' s) vs

/-- The text `s` denotes the value `v` of type `ty`. -/
def Converts {F : Type} (lib : Lib F) : VarType → Str → Val F → Prop
  | .int, s, v => ∃ i, atoi s = some i ∧ v = .int i
  | .float, s, v => ∃ x, lib.parseFloat s = some x ∧ v = .float x
  | .bool, s, v => ∃ b, parseBool s = some b ∧ v = .bool b
  | .string, s, v => v = .string (trimSp s)
  | .ints, s, v => ∃ l, ListOf atoi s l ∧ v = .ints l
  | .floats, s, v => ∃ l, ListOf lib.parseFloat s l ∧ v = .floats l
  | .bools, s, v => ∃ l, ListOf parseBool s l ∧ v = .bools l
  | .strings, s, v => v = .strings ((splitOn ',' s).map trimSp)

/-- Two names are the same variable: letter case is ignored. -/
def Same {F : Type} (lib : Lib F) (a b : Str) : Prop := lib.lower a = lib.lower b

/-- The assignments `pairs` are acceptable for the declared variables: every name is declared and none occurs twice. -/
def Acceptable {F : Type} (lib : Lib F) (decls : List (Str × VarType)) (pairs : List (Str × Str)) : Prop :=
  (∀ p ∈ pairs, ∃ d ∈ decls, Same lib d.1 p.1) ∧ pairs.Pairwise (fun p q => ¬ Same lib p.1 q.1)

/-- `st'` is `st` with exactly the variables named in `pairs` set to the values written there. -/
def Updated {F : Type} (lib : Lib F) (decls : List (Str × VarType)) (pairs : List (Str × Str))
    (st st' : List (Val F)) : Prop :=
  st'.length = st.length ∧
  ∀ (j : Nat) (d : Str × VarType), decls[j]? = some d →
    (∀ p ∈ pairs, Same lib d.1 p.1 → ∃ v, Converts lib d.2 p.2 v ∧ st'[j]? = some v) ∧
    ((∀ p ∈ pairs, ¬ Same lib d.1 p.1) → st'[j]? = st[j]?)

/-- Declared variables have different names, and there is one value for each. -/
def WellDeclared {F : Type} (lib : Lib F) (decls : List (Str × VarType)) (st : List (Val F)) : Prop :=
  st.length = decls.length ∧ decls.Pairwise (fun d e => ¬ Same lib d.1 e.1)

/-- The meaning of a configuration file. -/
def FileMeans {F : Type} (lib : Lib F) (vars : Vars) (file : Str) (st st' : List (Val F)) : Prop :=
  ∃ lines pairs, significant file = ('[' :: (vars.name ++ [']'])) :: lines ∧
    List.Forall₂ (fun l p => Assigns l p.1 p.2) lines pairs ∧
    Acceptable lib vars.decls pairs ∧ Updated lib vars.decls pairs st st'

/-- An argument is a flag when it starts with "--". -/
def IsFlag (a : Str) : Prop := ∃ r, a = '-' :: '-' :: r

/-- `args` is a sequence of groups: a flag followed by the arguments up to the next flag. -/
def Grouped (args : List Str) (gs : List (Str × List Str)) : Prop :=
  args = gs.flatMap (fun g => g.1 :: g.2) ∧ ∀ g ∈ gs, IsFlag g.1 ∧ ∀ v ∈ g.2, ¬ IsFlag v

/-- The assignment a group stands for: the flag without its dashes, and its arguments joined by commas. -/
def groupPair (g : Str × List Str) : Str × Str :=
  (trimSp (trimLeft (fun c => c == '-') g.1), trimSp (joinWith ',' g.2))

/-- The meaning of a flag list. -/
def FlagsMean {F : Type} (lib : Lib F) (decls : List (Str × VarType)) (args : List Str) (st st' : List (Val F)) : Prop :=
  (∀ a ∈ args, '=' ∉ a) ∧
  ∃ gs, Grouped args gs ∧ (∀ g ∈ gs, joinWith ',' g.2 ≠ [] ∧ (groupPair g).1 ≠ []) ∧
    Acceptable lib decls (gs.map groupPair) ∧ Updated lib decls (gs.map groupPair) st st'

/-- Line number `n` (counting from 1) of the file. -/
def FileLine (file : Str) (n : Nat) (line : Str) : Prop := 1 ≤ n ∧ (splitOn '\n' file)[n - 1]? = some line

end Shellfish.Config
