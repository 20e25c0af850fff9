/-
Model of the setting `Threads` and of the number of goroutines that the modes start (cmd/stats.go:451-478, 482-511, cmd/shell.go:311-322, 423-440, cmd/prof.go:330-332, cmd/potential.go:145-147).
-/
import Mathlib.Data.List.Basic
import Mathlib.Tactic.Common

namespace Shellfish.Threads

/-- The `GOMAXPROCS` of Go's package runtime: it returns the setting before the call; a value below 1 changes nothing. -/
def gomaxprocs (procs : Nat) (n : Int) : Nat × Nat := (procs, if n < 1 then procs else n.toNat)

/-- cmd/stats.go:455-458, 487-490, cmd/shell.go:311-314, 427-430, cmd/prof.go:330-331, cmd/potential.go:145-146: `cores` is what `NumCPU` returns. -/
def count (cores : Nat) (threads : Int) : Int := if threads > 0 then threads else cores

/-- cmd/stats.go:455-461 (`massContained`), 487-493 (`appendShellParticles`): the goroutines (with the one that calls) of one call, and the setting of the runtime after it. -/
def statsCall (cores : Nat) (threads : Int) (procs : Nat) : Nat × Nat := gomaxprocs procs (count cores threads)

/-- cmd/stats.go:306-342: `n` calls of the two functions, one after the other. -/
def statsCalls (cores : Nat) (threads : Int) : Nat → Nat → List Nat
  | _, 0 => []
  | procs, n + 1 => (statsCall cores threads procs).1 :: statsCalls cores threads (statsCall cores threads procs).2 n

/-- cmd/shell.go:311-322: `loop` makes a halo for every worker but one (a negative length would panic). -/
def shellStart (cores : Nat) (threads : Int) : Option Nat := if count cores threads - 1 < 0 then none else some (count cores threads - 1).toNat

/-- cmd/shell.go:423-440 (`loadSphereVecs`): the goroutines (with the one that calls), and the setting of the runtime; `none` is the panic of 435-437. -/
def shellCall (cores : Nat) (threads : Int) (sphWorkers procs : Nat) : Option (Nat × Nat) :=
  let workers := count cores threads
  if (sphWorkers : Int) + 1 ≠ workers then none else some (workers.toNat, (gomaxprocs procs workers).2)

/-- cmd/shell.go:382-410: the calls of the loops over the files and halos. -/
def shellCalls (cores : Nat) (threads : Int) (sphWorkers : Nat) : Nat → Nat → Option (List Nat)
  | _, 0 => some []
  | procs, n + 1 => (shellCall cores threads sphWorkers procs).bind fun r => (shellCalls cores threads sphWorkers r.2 n).map fun l => r.1 :: l

/-- cmd/prof.go:330-332, cmd/potential.go:145-147: the workers of all files, and the setting of the runtime. -/
def profStart (cores : Nat) (threads : Int) (procs : Nat) : Int × Nat := (count cores threads, (gomaxprocs procs (count cores threads)).2)

end Shellfish.Threads
