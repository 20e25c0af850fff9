/-
Commands that run at the same time and use the same cache directory: the cache files of cmd/memo/memoize.go at the grain of system calls, and the processes of a pipe (shellfish.go:340-451).
A file is a list of bytes.
-/
import Verif.Model.Memo

namespace Shellfish.Share

/-! ### One cache file -/

/-- Where a process is in the code that makes or reads a cache file: cmd/memo/memoize.go:258-301 (headers) and 147-178 with cmd/halo/io.go:100-134, 163-214, 238-267 (halos). -/
inductive Pc where
  | stat
  | create
  | write (n : Nat)
  | read (acc : List Nat)
  | done (bytes : List Nat)
deriving DecidableEq

/-- One byte written at an offset; a gap is filled with zero bytes. -/
def writeAt (s : List Nat) (n c : Nat) : List Nat := (s ++ List.replicate (n - s.length) 0).take n ++ c :: s.drop (n + 1)

/-- One step of a process: the file and the place in the program afterwards.  `bytes` is what the process writes when there is no such file; `back` says whether it then reads the file back (the halos) or goes
on with what it wrote (the headers).  `os.Create` truncates; every process writes and reads at its own offset, one byte at a time.  (Simplified: a read goes on to the end of the file; the bytes that are written
are computed before `create`; disk errors are not modelled.) -/
def step (bytes : List Nat) (back : Bool) (file : Option (List Nat)) : Pc → Option (List Nat) × Pc
  | .stat => (file, if file.isNone then .create else .read [])
  | .create => (some [], .write 0)
  | .write n => match bytes[n]? with
    | some c => (file.map fun s => writeAt s n c, .write (n + 1))
    | none => (file, if back then .read [] else .done bytes)
  | .read acc => match (file.getD [])[acc.length]? with
    | some c => (file, .read (acc ++ [c]))
    | none => (file, .done acc)
  | .done r => (file, .done r)

/-- Any number of processes with the same file: process `i` takes a step. -/
def turn (bytes : List Nat) (back : Bool) (st : Option (List Nat) × List Pc) (i : Nat) : Option (List Nat) × List Pc :=
  match st.2[i]? with
  | none => st
  | some p => ((step bytes back st.1 p).1, st.2.set i (step bytes back st.1 p).2)

/-- The schedule says whose turn it is. -/
def run (bytes : List Nat) (back : Bool) (sch : List Nat) (st : Option (List Nat) × List Pc) : Option (List Nat) × List Pc := sch.foldl (turn bytes back) st

/-! ### The processes of a pipe -/

/-- A command of a pipe: what it starts with once it has read its input, and what it does next with the disk: another action, or its output and the end of the process. -/
structure Command (D S T : Type) where
  start : T → S
  act : S → D → (S × D) ⊕ T

/-- Where a process is: shellfish.go:362-373 (`ioutil.ReadAll(os.Stdin)`: it waits until the process before it has ended), 375-444 (the configuration, the cache directory, the run of the mode), and after the end
of `main` (446-450), when its output is complete. -/
inductive Proc (S T : Type) where
  | waiting
  | working (s : S)
  | ended (out : T)

variable {D S T : Type}

/-- The input of process `i`: that of the pipe, or the output of the process before it once it has ended. -/
def inputOf (t : T) (ps : List (Proc S T)) : Nat → Option T
  | 0 => some t
  | i + 1 => match ps[i]? with
    | some (.ended o) => some o
    | _ => none

/-- One step of process `i`. -/
def pipeTurn (cs : List (Command D S T)) (t : T) (st : D × List (Proc S T)) (i : Nat) : D × List (Proc S T) :=
  match cs[i]?, st.2[i]? with
  | some c, some .waiting => match inputOf t st.2 i with
    | some o => (st.1, st.2.set i (.working (c.start o)))
    | none => st
  | some c, some (.working s) => match c.act s st.1 with
    | .inl r => (r.2, st.2.set i (.working r.1))
    | .inr o => (st.1, st.2.set i (.ended o))
  | _, _ => st

/-- A schedule of the processes of a pipe. -/
def pipeRun (cs : List (Command D S T)) (t : T) (sch : List Nat) (st : D × List (Proc S T)) : D × List (Proc S T) := sch.foldl (pipeTurn cs t) st

/-- All processes are started at once, and wait for their input (every mode but `id` and `check`, which do not read stdin and are the first of their pipe). -/
def pipeStart (cs : List (Command D S T)) (d : D) : D × List (Proc S T) := (d, List.replicate cs.length .waiting)

/-- A command that needs one cache file: the results of the commands before it and its own. -/
def cacheCommand (bytes : List Nat) (back : Bool) : Command (Option (List Nat)) (List (List Nat) × Pc) (List (List Nat)) where
  start := fun t => (t, .stat)
  act := fun s d => match s.2 with
    | .done r => .inr (s.1 ++ [r])
    | p => .inl ((s.1, (step bytes back d p).2), (step bytes back d p).1)

end Shellfish.Share
