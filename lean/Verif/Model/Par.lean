/-
Model of the parallel sections: `LockGroup` (cmd/utils.go) and the worker/collector loops of cmd/stats.go, cmd/shell.go,
cmd/prof.go and cmd/potential.go.  A parallel section is a transition system; the scheduler is arbitrary.
Memory effects of the workers are the values they fold into their private accumulators, or elements they own.
-/
namespace Shellfish.Par

/-- A parallel section: `n` workers, each with its private list of contributions, a channel of capacity `cap`, a way of
combining contributions, and the worker (if any) that the collecting goroutine runs itself before it starts collecting. -/
structure Section (M : Type) where
  n : Nat
  cap : Nat
  tasks : Nat → List M
  op : M → M → M
  unit : M
  own : Option Nat

/-- The state: per worker what is left to do, what is accumulated and whether the worker has sent its message; the
buffered channel; how many messages the collector has received and what it has collected. -/
structure State (M : Type) where
  todo : Nat → List M
  acc : Nat → M
  sent : Nat → Bool
  chan : List M
  got : Nat
  res : M

/-- Pointwise update. -/
def upd {α : Type} (f : Nat → α) (i : Nat) (x : α) : Nat → α := fun j => if j = i then x else f j

variable {M : Type}

/-- cmd/utils.go:76-88 (`NewLockGroup`), cmd/stats.go:460-470: nothing done, channel empty. -/
def init (S : Section M) : State M := ⟨S.tasks, fun _ => S.unit, fun _ => false, [], 0, S.unit⟩

/-- One step of some goroutine. -/
inductive Step (S : Section M) : State M → State M → Prop
  /-- the worker handles its next element (cmd/stats.go:527-540, 562-593; cmd/shell.go:492-497; cmd/prof.go:385-406) -/
  | work (s : State M) (w : Nat) (t : M) (ts : List M) : w < S.n → s.todo w = t :: ts →
      Step S s { s with todo := upd s.todo w ts, acc := upd s.acc w (S.op (s.acc w) t) }
  /-- the worker sends its message: cmd/utils.go:66-68 (`Unlock`), cmd/stats.go:542, cmd/shell.go:499; it
  waits while the channel is full -/
  | send (s : State M) (w : Nat) : w < S.n → s.todo w = [] → s.sent w = false → s.chan.length < S.cap →
      Step S s { s with sent := upd s.sent w true, chan := s.chan ++ [s.acc w] }
  /-- the collector receives: cmd/utils.go:94-96 (`Synchronize`), cmd/stats.go:473-475, 506-508, cmd/shell.go:460-462; it starts only when
  its own share, if it has one, is done -/
  | recv (s : State M) (m : M) (ms : List M) : s.got < S.n → s.chan = m :: ms → (∀ w, S.own = some w → s.sent w = true) →
      Step S s { s with chan := ms, got := s.got + 1, res := S.op s.res m }

/-- `Synchronize` (or the collecting loop) has returned. -/
def Returned (S : Section M) (s : State M) : Prop := s.got = S.n

/-- States that some schedule reaches. -/
inductive Reach (S : Section M) : State M → Prop
  | start : Reach S (init S)
  | step {s t : State M} : Reach S s → Step S s t → Reach S t

/-- A lock group of `n` workers with `work w` steps of work each; no own share, one-valued messages (cmd/utils.go:61-96, cmd/prof.go:381-413). -/
def lockGroup (n : Nat) (work : Nat → Nat) : Section Unit :=
  ⟨n, n, fun w => List.replicate (work w) (), fun _ _ => (), (), none⟩

/-- The loop `for i := start; i < n; i += skip` (cmd/stats.go:527, 562; cmd/shell.go:492; cmd/prof.go:385; cmd/potential.go:289); it does not end
when `skip` is 0, which the model cuts short. -/
def strided (start skip n : Nat) : List Nat :=
  if h : start < n ∧ 0 < skip then start :: strided (start + skip) skip n else []
termination_by n - start

/-- cmd/shell.go:490-492: the indices that worker `w` of `workers` visits with subsampling cube `k`. -/
def share (workers k n w : Nat) : List Nat := strided (w * k) (workers * k) n

/-- cmd/stats.go:451-478 (`massContained`), 482-511 (`appendShellParticles`): the section that folds `f i` over all `i < n`.  The collector runs the
last share itself. -/
def foldSection (workers k n : Nat) (f : Nat → M) (op : M → M → M) (unit : M) : Section M :=
  ⟨workers, workers, fun w => (share workers k n w).map f, op, unit, some (workers - 1)⟩

end Shellfish.Par
