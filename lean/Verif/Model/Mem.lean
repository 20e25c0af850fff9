/-
Goroutines that update shared arrays without locks: the loads and stores of the workers of a lock group are interleaved by an arbitrary scheduler (cmd/potential.go:255-313, and the
insertion loops of cmd/prof.go:462-518).  Only single loads and stores are atomic.
-/
import Mathlib.Algebra.Group.Defs

namespace Shellfish.Mem

/-- An update `a[cell] += amount`. -/
structure Upd (κ A : Type) where
  cell : κ
  amount : A

/-- The state: the memory, the updates that every worker still has to do, and the value it has loaded for its next update. -/
structure State (κ A : Type) where
  mem : κ → A
  todo : Nat → List (Upd κ A)
  reg : Nat → Option A

variable {κ A : Type} [DecidableEq κ] [Add A]

/-- One load or store of one worker (of `n`). -/
inductive Step (n : Nat) : State κ A → State κ A → Prop
  | load (s : State κ A) (w : Nat) (u : Upd κ A) (us : List (Upd κ A)) : w < n → s.todo w = u :: us → s.reg w = none →
      Step n s { s with reg := fun v => if v = w then some (s.mem u.cell) else s.reg v }
  | store (s : State κ A) (w : Nat) (u : Upd κ A) (us : List (Upd κ A)) (a : A) : w < n → s.todo w = u :: us → s.reg w = some a →
      Step n s { mem := fun c => if c = u.cell then a + u.amount else s.mem c, todo := fun v => if v = w then us else s.todo v, reg := fun v => if v = w then none else s.reg v }

/-- The states that some schedule reaches from the memory `mem` and the programs `prog` of the workers. -/
inductive Reach (n : Nat) (prog : Nat → List (Upd κ A)) (mem : κ → A) : State κ A → Prop
  | start : Reach n prog mem ⟨mem, prog, fun _ => none⟩
  | step {s t : State κ A} : Reach n prog mem s → Step n s t → Reach n prog mem t

/-- All workers have finished; `Synchronize` returns only then (C18). -/
def Done (n : Nat) (s : State κ A) : Prop := ∀ w, w < n → s.todo w = []

/-- `mem'` can be the memory after the section. -/
def Outcome (n : Nat) (prog : Nat → List (Upd κ A)) (mem mem' : κ → A) : Prop := ∃ s, Reach n prog mem s ∧ Done n s ∧ s.mem = mem'

end Shellfish.Mem
