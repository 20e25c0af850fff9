/-
Package math/rand in float64 arithmetic with its rounding: xorshift.go, tausworthe.go and the wrappers in rand.go.

Rounding is that of Model/Round.lean.  Conversions of integers beyond 2^53 to float64 are rounded; sums of integers do not overflow.
-/
import Verif.Model.Rand
import Verif.Model.Round

namespace Shellfish.Rand
open Shellfish.Round (r64)

/-- math/rand/xorshift.go:28 (and 40): `float64(math.MaxUint32-gen.w) / xorshiftMaxUint`. -/
def Xor.value64 (g : Xor) : ℚ := r64 ((4294967295 - (g.w.toNat : ℚ)) / 4294967295)

/-- math/rand/xorshift.go:24-33, `Next`; `none` is an endless recursion. -/
def Xor.next64 (g : Xor) : Option (ℚ × Xor) :=
  if g.step.value64 = 1 then Xor.next64 g.step else some (g.step.value64, g.step)
partial_fixpoint

/-- math/rand/xorshift.go:35-45, `NextSequence`; `i--` on 1.0 repeats the same entry. -/
def Xor.nextSeq64 (g : Xor) (k : Nat) : Option (List ℚ × Xor) :=
  match k with
  | 0 => some ([], g)
  | k + 1 =>
    if g.step.value64 = 1 then Xor.nextSeq64 g.step (k + 1)
    else do
      let r ← Xor.nextSeq64 g.step k
      some (g.step.value64 :: r.1, r.2)
partial_fixpoint

/-- math/rand/rand.go:95 and 107: `v*(high-low) + low`. -/
def spread64 (low high v : ℚ) : ℚ := r64 (r64 (v * r64 (high - low)) + low)

/-- math/rand/rand.go:91-96, `Uniform` with the Xorshift backend. -/
def Xor.uniform64 (g : Xor) (low high : ℚ) : Option (ℚ × Xor) := do
  let (v, g') ← g.next64
  if low = 0 ∧ high = 1 then some (v, g') else some (spread64 low high v, g')

/-- math/rand/rand.go:101-109, `UniformAt`. -/
def Xor.uniformAt64 (g : Xor) (low high : ℚ) (k : Nat) : Option (List ℚ × Xor) := do
  let (vs, g') ← g.nextSeq64 k
  if low = 0 ∧ high = 1 then some (vs, g')
  else some (vs.map (fun v => spread64 low high v), g')

/-- math/rand/rand.go:84-88, `UniformInt`. -/
def Xor.uniformInt64 (g : Xor) (low high : Int) : Option (Int × Xor) := do
  let (v, g') ← g.next64
  some (⌊r64 (r64 (r64 ((high - low : Int) : ℚ) * v) + r64 (low : ℚ))⌋, g')

/-- math/rand/tausworthe.go:27-33: the nested loops over `digit` and `i`; `digits` supplies, for each digit, the value of `digitGen.Uniform(0, f)` for each entry. -/
def tausAccum64 (digits : List (List ℚ)) (seq : List ℚ) : List ℚ :=
  digits.foldl (fun s ds => List.zipWith (fun a b => r64 (a + b)) s ds) seq

/-- math/rand/tausworthe.go:22-44, `Init`, given the digits drawn from the Golang generator. -/
def Taus.init64 (digits : List (List ℚ)) : Taus :=
  let seq := tausAccum64 digits (List.replicate tausLen 0)
  { seq := seq.map (fun v => if 1 ≤ v then r64 (v - 1) else v), leader := 0, first := 2444, second := 4187 }

/-- math/rand/tausworthe.go:47-50 (and 72-75): the next number. -/
def tausValue64 (a b : ℚ) : ℚ := if r64 (a - b) < 0 then r64 (r64 (a - b) + 1) else r64 (a - b)

/-- math/rand/tausworthe.go:46-68, `Next`; `none` is an index panic. -/
def Taus.next64 (g : Taus) : Option (ℚ × Taus) := do
  let a ← g.seq[g.first]?
  let b ← g.seq[g.second]?
  let v := tausValue64 a b
  let _ ← g.seq[g.leader]?
  let seq := g.seq.set g.leader v
  some (v, { seq := seq, leader := tausDec seq.length g.leader,
             first := tausDec seq.length g.first, second := tausDec seq.length g.second })

/-- math/rand/tausworthe.go:70-94, `NextSequence` (its own copy of the loop body). -/
def Taus.nextSeq64 (g : Taus) : Nat → Option (List ℚ × Taus)
  | 0 => some ([], g)
  | k + 1 => do
    let a ← g.seq[g.first]?
    let b ← g.seq[g.second]?
    let v := tausValue64 a b
    let _ ← g.seq[g.leader]?
    let seq := g.seq.set g.leader v
    let (vs, g') ← Taus.nextSeq64
      { seq := seq, leader := tausDec seq.length g.leader,
        first := tausDec seq.length g.first, second := tausDec seq.length g.second } k
    some (v :: vs, g')

end Shellfish.Rand
