/-
los/profile_ring.go and los/halo.go:350-356 in float64 arithmetic with its rounding (see Model/Round.lean for rounding, Init and the two edges of Insert).
The ends of a plateau may be minus infinity (`⊥`).
-/
import Verif.Model.Round
import Verif.Model.Ring

namespace Shellfish.Round
open Shellfish.Los (ProfileRing Op)

/-- los/profile_ring.go:101-110: the rising edge. -/
def riseR (p : ProfileRing ℚ) (start : WithBot ℚ) (rho : ℚ) (i : Nat) (d : List ℚ) : Option (List ℚ) :=
  match start with
  | ⊥ => addAtR d (i * p.bins) rho
  | (s : ℚ) => if p.lowR < s then step p s rho i d else addAtR d (i * p.bins) rho

/-- los/profile_ring.go:112-119: the falling edge. -/
def fallR (p : ProfileRing ℚ) (stop rho : ℚ) (i : Nat) (d : List ℚ) : Option (List ℚ) :=
  if stop < p.highR then step p stop (-rho) i d else some d

/-- los/profile_ring.go:92-120 (`Insert`). -/
def insertR (p : ProfileRing ℚ) (start stop : WithBot ℚ) (rho : ℚ) (i : Nat) : Option (ProfileRing ℚ) :=
  match stop with
  | ⊥ => some p
  | (e : ℚ) =>
    if e ≤ p.lowR ∨ (p.highR : WithBot ℚ) ≤ start then some p
    else ((riseR p start rho i p.derivs).bind (fallR p e rho i)).map fun d => { p with derivs := d }

/-- A sequence of calls of `Insert` on one ring. -/
def insertAllR (p : ProfileRing ℚ) (ops : List (Op ℚ)) : Option (ProfileRing ℚ) :=
  ops.foldlM (fun p o => insertR p o.start o.stop o.rho o.i) p

/-- The loop of los/profile_ring.go:126-129, from bin `j` with the running sum `sum`, for `todo` more bins. -/
def retrieveLoopR (p : ProfileRing ℚ) (i : Nat) : Nat → Nat → ℚ → List ℚ → Option (List ℚ)
  | 0, _, _, out => some out
  | todo + 1, j, sum, out =>
    match p.derivs[j + p.bins * i]? with
    | none => none
    | some d => if j < out.length then retrieveLoopR p i todo (j + 1) (r64 (sum + d)) (out.set j (r64 (sum + d))) else none

/-- los/profile_ring.go:124-130 (`Retrieve`). -/
def retrieveR (p : ProfileRing ℚ) (i : Nat) (out : List ℚ) : Option (List ℚ) := retrieveLoopR p i p.bins 0 0 out

/-- los/halo.go:350-356 (`GetRhos`) for one ring: densities below the default are replaced by it. -/
def getRhosR (defaultRho : ℚ) (p : ProfileRing ℚ) (i : Nat) (out : List ℚ) : Option (List ℚ) :=
  (retrieveR p i out).map fun l => l.map fun rho => if rho < defaultRho then defaultRho else rho

/-- los/profile_ring.go:48-50: the loop of `Join`. -/
def joinDerivsR (d1 d2 : List ℚ) : Option (List ℚ) :=
  if d2.length ≤ d1.length then some (List.zipWith (fun a b => r64 (a + b)) d1 d2 ++ d1.drop d2.length) else none

/-- los/profile_ring.go:44-52 (`Join`). -/
def joinR (p1 p2 : ProfileRing ℚ) : Option (ProfileRing ℚ) :=
  if p1.n ≠ p2.n ∨ p1.bins ≠ p2.bins then none
  else (joinDerivsR p1.derivs p2.derivs).map fun d => { p1 with derivs := d }

/-- los/profile_ring.go:57-70 (`Split`): the new state of `p2`. -/
def splitR (p1 p2 : ProfileRing ℚ) : ProfileRing ℚ :=
  if p1.n ≠ p2.n ∨ p1.bins ≠ p2.bins then ringInit p1.lowR p1.highR p1.bins p1.n
  else ⟨p2.derivs.map (fun _ => 0), p1.bins, p2.n, p1.lowR, p1.highR, p2.dr⟩

/-- los/halo.go:136-138 on one ring, for all workers. -/
def joinAllR (p : ProfileRing ℚ) (qs : List (ProfileRing ℚ)) : Option (ProfileRing ℚ) := qs.foldlM joinR p

/-- cmd/shell.go:452-464 on one ring: every scratch ring is split off from `p`, every worker inserts its share, the owner inserts its own share into `p` itself, and the scratch rings are joined. -/
def parallelR (p : ProfileRing ℚ) (own : List (Op ℚ)) (workers : List (ProfileRing ℚ × List (Op ℚ))) : Option (ProfileRing ℚ) :=
  (insertAllR p own).bind fun p1 =>
    (workers.mapM fun w => insertAllR (splitR p w.1) w.2).bind fun qs => joinAllR p1 qs

end Shellfish.Round
