/-
Model of package math/rand: xorshift.go, tausworthe.go, sobol.go and the wrappers in rand.go.

uint32 words are `BitVec 32`; float64 values are exact rationals.
The Go standard library generator behind `Golang` (math/rand.Float64) is not modelled: where
`tauswortheGenerator.Init` uses it, its outputs are arbitrary numbers in the range it documents.
-/
import Mathlib.Algebra.Order.Field.Rat
import Mathlib.Algebra.Order.Floor.Defs
import Mathlib.Data.Rat.Floor

namespace Shellfish.Rand

/-- math/rand/xorshift.go:13-15. -/
structure Xor where
  w : BitVec 32
  x : BitVec 32
  y : BitVec 32
  z : BitVec 32
deriving DecidableEq

/-- math/rand/xorshift.go:17-22, `Init`; `uint32(seed)` keeps the low 32 bits. -/
def Xor.init (seed : BitVec 64) : Xor :=
  { x := 123456789#32, y := 362436069#32, z := 521288629#32, w := seed.setWidth 32 }

/-- math/rand/xorshift.go:25-27 (and 37-39): the state update. -/
def Xor.step (g : Xor) : Xor :=
  let t := g.x ^^^ (g.x <<< 11)
  { x := g.y, y := g.z, z := g.w, w := g.w ^^^ (g.w >>> 19) ^^^ (t ^^^ (t >>> 8)) }

/-- math/rand/xorshift.go:28 (and 40): `float64(math.MaxUint32-gen.w) / xorshiftMaxUint`. -/
def Xor.value (g : Xor) : ℚ := (4294967295 - (g.w.toNat : ℚ)) / 4294967295

/-- math/rand/xorshift.go:24-33, `Next`: recursion on the value 1.0, unbounded in the source
(`partial_fixpoint`: `none` is divergence). -/
def Xor.next (g : Xor) : Option (ℚ × Xor) :=
  if g.step.value = 1 then Xor.next g.step else some (g.step.value, g.step)
partial_fixpoint

/-- math/rand/xorshift.go:35-45, `NextSequence`: `k` entries remain to be filled, `i--` on 1.0 repeats
the same entry. -/
def Xor.nextSeq (g : Xor) (k : Nat) : Option (List ℚ × Xor) :=
  match k with
  | 0 => some ([], g)
  | k + 1 =>
    if g.step.value = 1 then Xor.nextSeq g.step (k + 1)
    else do
      let r ← Xor.nextSeq g.step k
      some (g.step.value :: r.1, r.2)
partial_fixpoint

/-- math/rand/rand.go:90-96, `Uniform` with the Xorshift backend. -/
def Xor.uniform (g : Xor) (low high : ℚ) : Option (ℚ × Xor) := do
  let (v, g') ← g.next
  if low = 0 ∧ high = 1 then some (v, g') else some (v * (high - low) + low, g')

/-- math/rand/rand.go:101-109, `UniformAt`. -/
def Xor.uniformAt (g : Xor) (low high : ℚ) (k : Nat) : Option (List ℚ × Xor) := do
  let (vs, g') ← g.nextSeq k
  if low = 0 ∧ high = 1 then some (vs, g')
  else some (vs.map (fun v => v * (high - low) + low), g')

/-- math/rand/rand.go:84-88, `UniformInt`. -/
def Xor.uniformInt (g : Xor) (low high : Int) : Option (Int × Xor) := do
  let (v, g') ← g.next
  some (⌊((high - low : Int) : ℚ) * v + (low : ℚ)⌋, g')

/-- math/rand/tausworthe.go:17-20. -/
structure Taus where
  seq : List ℚ
  leader : Nat
  first : Nat
  second : Nat

/-- math/rand/tausworthe.go:7. -/
def tausLen : Nat := 9689

/-- math/rand/tausworthe.go:27-33: the nested loops over `digit` and `i`; `digits` supplies, for
each digit, the value added to each entry (`digitGen.Uniform(0, f)`). -/
def tausAccum (digits : List (List ℚ)) (seq : List ℚ) : List ℚ :=
  digits.foldl (fun s ds => List.zipWith (· + ·) s ds) seq

/-- math/rand/tausworthe.go:22-44, `Init`, given the digits drawn from the Golang generator. -/
def Taus.init (digits : List (List ℚ)) : Taus :=
  let seq := tausAccum digits (List.replicate tausLen 0)
  { seq := seq.map (fun v => if 1 ≤ v then v - 1 else v), leader := 0, first := 2444, second := 4187 }

/-- Decrement with wrap-around: tausworthe.go:53-65: `if i == 0 { i = len }; i--`. -/
def tausDec (n i : Nat) : Nat := (if i = 0 then n else i) - 1

/-- math/rand/tausworthe.go:46-68, `Next`; `none` is an index panic. -/
def Taus.next (g : Taus) : Option (ℚ × Taus) := do
  let a ← g.seq[g.first]?
  let b ← g.seq[g.second]?
  let d := a - b
  let v := if d < 0 then d + 1 else d
  let _ ← g.seq[g.leader]?
  let seq := g.seq.set g.leader v
  some (v, { seq := seq, leader := tausDec seq.length g.leader,
             first := tausDec seq.length g.first, second := tausDec seq.length g.second })

/-- math/rand/tausworthe.go:70-94, `NextSequence` (its own copy of the loop body). -/
def Taus.nextSeq (g : Taus) : Nat → Option (List ℚ × Taus)
  | 0 => some ([], g)
  | k + 1 => do
    let a ← g.seq[g.first]?
    let b ← g.seq[g.second]?
    let d := a - b
    let v := if d < 0 then d + 1 else d
    let _ ← g.seq[g.leader]?
    let seq := g.seq.set g.leader v
    let (vs, g') ← Taus.nextSeq
      { seq := seq, leader := tausDec seq.length g.leader,
        first := tausDec seq.length g.first, second := tausDec seq.length g.second } k
    some (v :: vs, g')

end Shellfish.Rand
