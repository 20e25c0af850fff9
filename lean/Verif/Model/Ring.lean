/-
Model of los/profile_ring.go.  Densities and radii are elements of an arbitrary ordered field with a floor function (exact arithmetic instead of
float64), except that the ends of an inserted plateau may be minus infinity (`⊥`), as los/halo.go:249 and `math.Log(0)` produce it.
The field `Lines` is not modelled: no method reads it.
-/
import Mathlib.Algebra.Order.Floor.Ring
import Mathlib.Algebra.Order.Field.Basic
import Mathlib.Order.WithBot

namespace Shellfish.Los

variable {K : Type} [Field K] [LinearOrder K] [IsStrictOrderedRing K] [FloorRing K]

/-- los/profile_ring.go:34-40. -/
structure ProfileRing (K : Type) where
  derivs : List K
  bins : Nat
  n : Nat
  lowR : K
  highR : K
  dr : K

/-- los/profile_ring.go:75-81 (`Init`). -/
def init (lowR highR : K) (bins n : Nat) : ProfileRing K :=
  ⟨List.replicate (bins * n) 0, bins, n, lowR, highR, (highR - lowR) / (bins : K)⟩

/-- `a[i] += x` of Go; `none` is the index panic. -/
def addAt (l : List K) (i : Int) (x : K) : Option (List K) :=
  if 0 ≤ i ∧ i < l.length then some (l.modify i.toNat (· + x)) else none

/-- `math.Modf` (used at los/profile_ring.go:102, 113): integer part towards zero, and the rest. -/
def modf (x : K) : Int × K := if 0 ≤ x then (⌊x⌋, x - ⌊x⌋) else (⌈x⌉, x - ⌈x⌉)

/-- los/profile_ring.go:102-107 and 113-118: add a step of height `rho` at the radius `r` to profile `i`; the second addition is
skipped in the last bin. -/
def step (p : ProfileRing K) (r rho : K) (i : Nat) (d : List K) : Option (List K) :=
  let (idx, rem) := modf ((r - p.lowR) / p.dr)
  (addAt d (i * p.bins + idx) (rho * (1 - rem))).bind fun d =>
    if idx < (p.bins : Int) - 1 then addAt d (i * p.bins + idx + 1) (rho * rem) else some d

/-- los/profile_ring.go:101-110: the rising edge. -/
def insertStart (p : ProfileRing K) (start : WithBot K) (rho : K) (i : Nat) (d : List K) : Option (List K) :=
  match start with
  | ⊥ => addAt d (i * p.bins) rho
  | (s : K) => if p.lowR < s then step p s rho i d else addAt d (i * p.bins) rho

/-- los/profile_ring.go:112-119: the falling edge (`x -= y` is `x += -y`). -/
def insertEnd (p : ProfileRing K) (stop : K) (rho : K) (i : Nat) (d : List K) : Option (List K) :=
  if stop < p.highR then step p stop (-rho) i d else some d

/-- los/profile_ring.go:92-120 (`Insert`). -/
def insert (p : ProfileRing K) (start stop : WithBot K) (rho : K) (i : Nat) : Option (ProfileRing K) :=
  match stop with
  | ⊥ => some p
  | (e : K) =>
    if e ≤ p.lowR ∨ (p.highR : WithBot K) ≤ start then some p
    else ((insertStart p start rho i p.derivs).bind (insertEnd p e rho i)).map fun d => { p with derivs := d }

/-- The loop of los/profile_ring.go:126-129, from bin `j` with the running sum `sum`, for `todo` more bins. -/
def retrieveLoop (p : ProfileRing K) (i : Nat) : Nat → Nat → K → List K → Option (List K)
  | 0, _, _, out => some out
  | todo + 1, j, sum, out =>
    match p.derivs[j + p.bins * i]? with
    | none => none
    | some d => if j < out.length then retrieveLoop p i todo (j + 1) (sum + d) (out.set j (sum + d)) else none

/-- los/profile_ring.go:124-130 (`Retrieve`). -/
def retrieve (p : ProfileRing K) (i : Nat) (out : List K) : Option (List K) := retrieveLoop p i p.bins 0 0 out

/-- los/profile_ring.go:48-50: the loop of `Join` (`p1.derivs[i]` panics if it is shorter). -/
def joinDerivs (d1 d2 : List K) : Option (List K) :=
  if d2.length ≤ d1.length then some (List.zipWith (· + ·) d1 (d2 ++ List.replicate (d1.length - d2.length) 0)) else none

/-- los/profile_ring.go:44-52 (`Join`). -/
def join (p1 p2 : ProfileRing K) : Option (ProfileRing K) :=
  if p1.n ≠ p2.n ∨ p1.bins ≠ p2.bins then none
  else (joinDerivs p1.derivs p2.derivs).map fun d => { p1 with derivs := d }

/-- los/profile_ring.go:57-70 (`Split`): the new state of `p2`.  Line 64 assigns `p2.dr` to itself. -/
def split (p1 p2 : ProfileRing K) : ProfileRing K :=
  if p1.n ≠ p2.n ∨ p1.bins ≠ p2.bins then init p1.lowR p1.highR p1.bins p1.n
  else ⟨p2.derivs.map (fun _ => 0), p1.bins, p2.n, p1.lowR, p1.highR, p2.dr⟩

/-- The arguments of one call of `Insert`. -/
structure Op (K : Type) where
  start : WithBot K
  stop : WithBot K
  rho : K
  i : Nat

/-- A sequence of calls of `Insert` on one ring. -/
def insertAll (p : ProfileRing K) (ops : List (Op K)) : Option (ProfileRing K) :=
  ops.foldlM (fun p o => insert p o.start o.stop o.rho o.i) p

/-- los/halo.go:136-138 on one ring, for all workers. -/
def joinAll (p : ProfileRing K) (qs : List (ProfileRing K)) : Option (ProfileRing K) := qs.foldlM join p

/-- cmd/shell.go:452-464 on one ring: every scratch ring is split off from `p`, every worker inserts its share, the owner inserts its own
share into `p` itself, and the scratch rings are joined. -/
def parallel (p : ProfileRing K) (own : List (Op K)) (workers : List (ProfileRing K × List (Op K))) : Option (ProfileRing K) :=
  (insertAll p own).bind fun p1 =>
    (workers.mapM fun w => insertAll (split p w.1) w.2).bind fun qs => joinAll p1 qs

end Shellfish.Los
