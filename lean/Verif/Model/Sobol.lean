/-
Model of math/rand/sobol.go.  uint32 words are `BitVec 32`; output values are exact rationals
(`float64(ix) * 2^-30` is exact in float64).
-/
import Mathlib.Algebra.Order.Field.Rat

namespace Shellfish.Sobol

/-- math/rand/sobol.go:8. -/
def maxDim : Nat := 6
/-- math/rand/sobol.go:9. -/
def maxBit : Nat := 30
/-- math/rand/sobol.go:10. -/
def maxSeqNum : Nat := 2 ^ maxBit

/-- math/rand/sobol.go:15. -/
def initMDeg : List Nat := [1, 2, 3, 3, 4, 4]
/-- math/rand/sobol.go:16. -/
def initIp : List Nat := [0, 1, 1, 2, 1, 4]
/-- math/rand/sobol.go:17-20 (the remaining entries of the array literal are zero). -/
def initIv : List (BitVec 32) :=
  [1, 1, 1, 1, 1, 1, 3, 1, 3, 3, 1, 1, 5, 7, 7, 3, 3, 5, 15, 11, 5, 15, 13, 9] ++
    List.replicate (30 * 6 - 24) 0

/-- sobol.go:25-32. -/
structure Seq where
  seqNum : Nat
  ix : List (BitVec 32)
  iv : List (BitVec 32)
  isInit : Bool

/-- The zero value `&SobolSequence{}` of sobol.go:36. -/
def Seq.zero : Seq := { seqNum := 0, ix := List.replicate 6 0, iv := List.replicate 180 0, isInit := false }

/-- sobol.go:65-70: the inner loop `for l := deg - 1; l >= 1; l--`; note the index `j-1` (not `j-l`). -/
def polyLoop (iv : List (BitVec 32)) (j k : Nat) : Nat → Nat → BitVec 32 → BitVec 32
  | 0, _, i => i
  | l + 1, ipp, i =>
    let i' := if ipp % 2 = 1 then i ^^^ iv.getD (maxDim * (j - 1) + k) 0 else i
    polyLoop iv j k l (ipp / 2) i'

/-- sobol.go:54-73: the body of the loop over dimensions `k`. -/
def initDim (iv : List (BitVec 32)) (k : Nat) : List (BitVec 32) :=
  let deg := initMDeg.getD k 0
  let iv1 := (List.range deg).foldl
    (fun iv j => iv.set (maxDim * j + k) (iv.getD (maxDim * j + k) 0 <<< (maxBit - j - 1))) iv
  (List.range' deg (maxBit - deg)).foldl
    (fun iv j =>
      let i := iv.getD (maxDim * (j - deg) + k) 0
      let i := i ^^^ (i >>> deg)
      iv.set (maxDim * j + k) (polyLoop iv j k (deg - 1) (initIp.getD k 0) i)) iv1

/-- The direction numbers after `Init` on a fresh sequence: sobol.go:50-73. -/
def ivTable : List (BitVec 32) := (List.range maxDim).foldl initDim initIv

/-- sobol.go:41-77, `Init`: clears `ix`; returns early (without resetting `seqNum`) when already
initialised. -/
def Seq.init (s : Seq) : Seq :=
  let s := { s with ix := s.ix.map (fun _ => 0) }
  if s.isInit then s
  else { s with seqNum := 0, iv := ivTable, isInit := true }

/-- sobol.go:35-39. -/
def new : Seq := Seq.zero.init

/-- sobol.go:100-105: index of the lowest zero bit, `MaxBit` when there is none. -/
def zeroIdxFrom (n : Nat) : Nat → Nat → Nat
  | 0, z => z
  | fuel + 1, z => if n.testBit z then zeroIdxFrom n fuel (z + 1) else z

/-- sobol.go:100-105. -/
def zeroIdx (n : Nat) : Nat := zeroIdxFrom n maxBit 0

/-- sobol.go:107-111: the loop over `k < dim`; `none` is an index panic. -/
def nextLoop (iv : List (BitVec 32)) (im : Nat) : List Nat → List (BitVec 32) → Option (List (BitVec 32) × List ℚ)
  | [], ix => some (ix, [])
  | k :: ks, ix => do
    let x ← ix[k]?
    let v ← iv[im + k]?
    let x' := x ^^^ v
    let (ix', ts) ← nextLoop iv im ks (ix.set k x')
    some (ix', (x'.toNat : ℚ) * (1 / 2 ^ 30) :: ts)

/-- sobol.go:87-113, `NextAt` (and `Next`, sobol.go:80-84) for a target of length `dim`; `none` is a panic. -/
def Seq.next (s : Seq) (dim : Nat) : Option (List ℚ × Seq) :=
  if maxDim < dim then none
  else if maxSeqNum ≤ s.seqNum then none
  else do
    let n := s.seqNum + 1
    let (ix, ts) ← nextLoop s.iv (zeroIdx n * maxDim) (List.range dim) s.ix
    some (ts, { s with seqNum := n, ix := ix })

end Shellfish.Sobol
