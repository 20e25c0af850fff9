/-
Model of the program itself (shellfish.go:305-478, 591-616): the choice of the mode, the order of the steps, the standard output and the exit status.  Standard error is not modelled.
What the steps do is modelled elsewhere; here their outcomes are arguments.
-/
import Verif.Model.Config
import Verif.Model.Chars

namespace Shellfish.Main
open Shellfish.Text Shellfish.Config

/-- The outcome of a step: it succeeds, returns an error, or panics. -/
inductive Step
  | ok
  | err
  | panic
deriving DecidableEq

/-- The outcome of the `Run` method of a mode: lines, an error, a panic, or (cmd/check.go:108-121) text and exit status 1. -/
inductive RunRes
  | lines (l : List Str)
  | err
  | panic
  | exit (text : Str)
deriving DecidableEq

/-- The settings of the global configuration that the program looks at itself. -/
structure Settings where
  snapshotType : Str
  haloType : Str
  treeType : Str
  logging : Str

/-- What the steps do: `globalText` and `global` are the text that the reading of the global configuration prints (cmd/cmd.go:308 prints an empty line if NilSnapOmegaL is missing) and the
settings (`none` is an error); `memoText` and `memo` the same for `checkMemoDir`, which reads configurations again; `help` are the known help texts. -/
structure Deps where
  help : Str → Option Str
  description : Str
  version : Str
  globalText : Str
  global : Option Settings
  readMode : Str → Option Str → List Str → Step
  memoText : Str
  memo : Step
  catalogs : Step
  textHalo : Step
  run : Str → Str → RunRes

/-- The exit status and the standard output. -/
structure Exit where
  status : Nat
  out : Str
deriving DecidableEq

/-- `fmt.Println` of a text. -/
def println (s : Str) : Str := s ++ ['\n']

/-- cmd/cmd.go:17-27 (`ModeNames`). -/
def modeNames : List Str := [chars "id", chars "tree", chars "coord", chars "prof", chars "shell", chars "stats", chars "phase", chars "check", chars "potential"]

/-- shellfish.go:354-355: the modes with a catalog on the standard input. -/
def stdinModes : List Str := [chars "tree", chars "coord", chars "prof", chars "shell", chars "stats", chars "phase", chars "potential"]

/-- shellfish.go:407-408, 594-596: the modes that read snapshots. -/
def snapshotModes : List Str := [chars "shell", chars "stats", chars "prof", chars "check", chars "phase", chars "potential"]

/-- shellfish.go:591-616 (`initHalos`).  The test of the tree type after "Text" is not reached. -/
def initHalos (mode : Str) (s : Settings) (textHalo : Step) : Step :=
  if mode ∈ snapshotModes then .ok
  else if s.haloType = chars "nil" then .err
  else if s.haloType = chars "Text" then textHalo
  else if s.treeType = chars "nil" then .err
  else .panic

/-- The line that reports the end. -/
def terminating : Str := chars "Shellfish terminating."

/-- shellfish.go:429-439. -/
def knownLogging : List Str := [chars "nil", chars "performance", chars "debug"]

/-- The program after a step: `k` goes on; an error ends it with a message, a panic with status 2.  `out` is what was printed before. -/
def Step.next (s : Step) (out : Str) (k : Exit) : Exit :=
  match s with
  | .ok => k
  | .err => ⟨1, out ++ println terminating⟩
  | .panic => ⟨2, out⟩

/-- shellfish.go:378-449: the part of `main` after the standard input was read. -/
def runMode (d : Deps) (mode : Str) (args : List Str) (stdin : Str) : Exit :=
  match d.global with
  | none => ⟨1, d.globalText ++ println terminating⟩
  | some s =>
    (d.readMode mode (getConfig args) (getFlags args)).next d.globalText <|
    d.memo.next (d.globalText ++ d.memoText) <|
    if mode ∈ snapshotModes ∧ s.snapshotType = chars "nil" then ⟨1, d.globalText ++ d.memoText ++ println (chars "Shellfish terminating")⟩
    else
      d.catalogs.next (d.globalText ++ d.memoText) <|
      (initHalos mode s d.textHalo).next (d.globalText ++ d.memoText) <|
      if s.logging ∉ knownLogging then ⟨1, d.globalText ++ d.memoText⟩
      else
        match d.run mode stdin with
        | .lines l => ⟨0, d.globalText ++ d.memoText ++ (l.map println).flatten⟩
        | .err => ⟨1, d.globalText ++ d.memoText ++ println terminating⟩
        | .panic => ⟨2, d.globalText ++ d.memoText⟩
        | .exit t => ⟨1, d.globalText ++ d.memoText ++ t⟩

/-- shellfish.go:366-367: the index of the end of the first line. -/
def lineEnd (s : Str) : Nat := (s.takeWhile fun c => decide (c ≠ '\n')).length

/-- shellfish.go:305-450 (`main`).  `args` are the arguments after the name of the program; `stdin` is what can be read from the standard input (`none`: an error). -/
def main (d : Deps) (args : List Str) (stdin : Option Str) : Exit :=
  match args with
  | [] => ⟨1, []⟩
  | mode :: rest =>
    if mode = chars "help" then
      match rest with
      | [] => ⟨0, println d.description⟩
      | [t] => match d.help t with
        | none => ⟨0, println (chars "I don't recognize the help target '" ++ t ++ chars "'")⟩
        | some text => ⟨0, println text⟩
      | [_, _] => ⟨0, println (chars "The help mode can only take a single argument.")⟩
      | _ => ⟨0, []⟩
    else if mode = chars "version" then ⟨0, println (chars "Shellfish version " ++ d.version)⟩
    else if mode = chars "hello" then ⟨0, println (chars "Hello back at you! Installation was successful.")⟩
    else if mode ∉ modeNames then ⟨1, println terminating⟩
    else if mode ∈ stdinModes then
      match stdin with
      | none => ⟨1, println terminating⟩
      | some data =>
        if data = [] then ⟨0, []⟩
        else if 9 ≤ lineEnd data ∧ data.take 9 = chars "Shellfish" then ⟨1, println (data.take (lineEnd data))⟩
        else runMode d mode rest data
    else runMode d mode rest []

/-- A pipe of commands: the standard output of each is the standard input of the next; the result is that of the last. -/
def pipe : List (Deps × List Str) → Exit → Exit
  | [], e => e
  | (d, args) :: rest, e => pipe rest (main d args (some e.out))

end Shellfish.Main
