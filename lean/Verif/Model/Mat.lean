/-
Model of math/mat/mat.go (math/mat/mat32.go:8-305 is the same text with float32: types 8-21, `NewMatrix32` and `Init` 24-42, `Mult` 45-74, `Invert` 77-81, `Determinant` 84-87, 296-305, `SolveVector` and `SolveMatrix` 90-101, LU factors 104-186, substitution 191-239, `SolveMatrix` 244-271, `InvertAt` 275-292).  Floating point numbers are an ordered field `K` (no rounding).

Products and transposition work on the flat slices, because their claims are about the index arithmetic.  The LU decomposition is only defined for square matrices: there the cell
`Vals[i*n+j]` is written `A i j` with `i`, `j` in `Fin n` (the flat index determines `i` and `j`).
-/
import Mathlib.Algebra.Order.Field.Basic
import Mathlib.Algebra.BigOperators.Fin
import Mathlib.Data.List.FinRange

namespace Shellfish.Mat

variable {K : Type} [Field K] [LinearOrder K]

/-- math/mat/mat.go:16-19 (`Matrix`). -/
structure Matrix (K : Type) where
  vals : List K
  width : Nat
  height : Nat

/-- math/mat/mat.go:31-49 (`NewMatrix`, `Init`); `none` is one of the panics. -/
def newMatrix (vals : List K) (width height : Nat) : Option (Matrix K) :=
  if width = 0 then none else if height = 0 then none else if width * height ≠ vals.length then none else some ⟨vals, width, height⟩

/-- `out[i] += x`; `none` is the index panic. -/
def addAt (out : List K) (i : Nat) (x : K) : Option (List K) := (out[i]?).map fun y => out.set i (y + x)

/-- math/mat/mat.go:72-76: the innermost loop of `MultAt` for row offset `off` and column `j`. -/
def multCell (m1 m2 : Matrix K) (off j : Nat) (out : List K) (k : Nat) : Option (List K) := do
  let a ← m1.vals[off + k]?
  let b ← m2.vals[k * m2.width + j]?
  addAt out (off + j) (a * b)

/-- math/mat/mat.go:60-81 (`MultAt`): the cell that is written is `off + j` with the row offset of `m1`, not of `out`. -/
def multAt (m1 m2 out : Matrix K) : Option (Matrix K) :=
  if m1.width ≠ m2.height then none
  else
    ((List.range m1.height).foldlM (fun o i => (List.range m2.width).foldlM (fun o j => (List.range m1.width).foldlM (multCell m1 m2 (i * m1.width) j) o) o)
      (out.vals.map fun _ => 0)).map fun v => ⟨v, out.width, out.height⟩

/-- math/mat/mat.go:52-56 (`Mult`). -/
def mult (m1 m2 : Matrix K) : Option (Matrix K) := do
  let out ← newMatrix (List.replicate (m1.height * m2.width) 0) m2.width m1.height
  multAt m1 m2 out

/-- math/mat/mat.go:84-99 (`MultVec`); the result is the new content of `out`. -/
def multVec (m : Matrix K) (v out : List K) : Option (List K) :=
  if m.height ≠ out.length ∨ m.width ≠ v.length then none
  else (List.range m.height).mapM fun j => (List.range m.width).foldlM (fun s i => do
    let a ← m.vals[j * m.width + i]?
    let b ← v[i]?
    some (s + a * b)) 0

/-- math/mat/mat.go:102-116 (`VecMult`). -/
def vecMult (v : List K) (m : Matrix K) (out : List K) : Option (List K) :=
  if m.height ≠ v.length ∨ m.width ≠ out.length then none
  else (List.range m.width).mapM fun i => (List.range m.height).foldlM (fun s j => do
    let a ← v[j]?
    let b ← m.vals[i + m.width * j]?
    some (s + a * b)) 0

/-- math/mat/mat.go:178-181: one row of `baseTranspose`. -/
def transposeRow (m : List K) (width height mXLow my outx outYLow : Nat) (out : List K) (x : Nat) : Option (List K) :=
  (m[my * width + (mXLow + x)]?).bind fun a => if (outYLow + x) * height + outx < out.length then some (out.set ((outYLow + x) * height + outx) a) else none

/-- math/mat/mat.go:169-183 (`baseTranspose`). -/
def baseTranspose (m : List K) (width height mXLow mYLow mXWidth mYWidth outXLow outYLow : Nat) (out : List K) : Option (List K) :=
  (List.range mYWidth).foldlM (fun o y => (List.range mXWidth).foldlM (transposeRow m width height mXLow (mYLow + y) (outXLow + y) outYLow) o) out

/-- math/mat/mat.go:139-166 (`recTranspose`); `rec` is `transposeRecWidth`, 16000000 in the code. -/
def recTranspose (rec : Nat) (hrec : 0 < rec) (m : List K) (width height mXLow mYLow mXWidth mYWidth outXLow outYLow : Nat) (out : List K) : Option (List K) :=
  if mXWidth ≤ rec ∧ mYWidth ≤ rec then baseTranspose m width height mXLow mYLow mXWidth mYWidth outXLow outYLow out
  else if mXWidth > mYWidth then
    (recTranspose rec hrec m width height mXLow mYLow (mXWidth / 2) mYWidth outXLow outYLow out).bind
      (recTranspose rec hrec m width height (mXLow + mXWidth / 2) mYLow (mXWidth - mXWidth / 2) mYWidth outXLow (outYLow + mXWidth / 2))
  else
    (recTranspose rec hrec m width height mXLow mYLow mXWidth (mYWidth / 2) outXLow outYLow out).bind
      (recTranspose rec hrec m width height mXLow (mYLow + mYWidth / 2) mXWidth (mYWidth - mYWidth / 2) (outXLow + mYWidth / 2) outYLow)
termination_by mXWidth + mYWidth
decreasing_by all_goals omega

/-- math/mat/mat.go:119-132 (`Transpose`, `TransposeAt`). -/
def transpose (m : Matrix K) : Option (Matrix K) := do
  let out ← newMatrix (List.replicate (m.height * m.width) 0) m.height m.width
  let v ← recTranspose 16000000 (by decide) m.vals m.width m.height 0 0 m.width m.height 0 0 out.vals
  some ⟨v, out.width, out.height⟩

/-! LU decomposition -/

variable {n : Nat}

/-- The absolute value, `math.Abs`. -/
def abs (x : K) : K := if x < 0 then -x else x

/-- math/mat/mat.go:24-28 (`LUFactors`) with the local variables of `factorizeInPlace`: the matrix, the row scales, the row of the last pivot, the sign and the pivots. -/
structure LU (K : Type) (n : Nat) where
  A : Fin n → Fin n → K
  vv : Fin n → K
  imax : Fin n
  d : K
  pivot : Fin n → Fin n

/-- math/mat/mat.go:252-258: the largest absolute value in a row. -/
def rowBig (A : Fin n → Fin n → K) (i : Fin n) : K := (List.finRange n).foldl (fun big j => if abs (A i j) > big then abs (A i j) else big) 0

/-- math/mat/mat.go:267-274: the search for the pivot of column `k`, starting with `big = 0` and the row of the last pivot. -/
def findPivot (s : LU K n) (k : Fin n) : K × Fin n :=
  ((List.finRange n).filter fun i => k ≤ i).foldl (fun b i => if s.vv i * abs (s.A i k) > b.1 then (s.vv i * abs (s.A i k), i) else b) (0, s.imax)

/-- math/mat/mat.go:275-282: exchange of the rows `k` and `imax`. -/
def exchange (s : LU K n) (k imax : Fin n) : LU K n :=
  if k ≠ imax then
    { s with A := fun i => if i = imax then s.A k else if i = k then s.A imax else s.A i, d := -s.d, vv := fun i => if i = imax then s.vv k else s.vv i, imax := imax }
  else { s with imax := imax }

/-- math/mat/mat.go:284-286: a pivot 0 is replaced by 1e-20. -/
def fixPivot (s : LU K n) (k : Fin n) : LU K n :=
  if s.A k k = 0 then { s with A := fun i j => if i = k ∧ j = k then 1 / 10 ^ 20 else s.A i j } else s

/-- math/mat/mat.go:287-293: the elimination below the pivot (the rows below `k` are changed independently of each other). -/
def eliminate (s : LU K n) (k : Fin n) : LU K n :=
  { s with A := fun i j => if k < i then (if j = k then s.A i k / s.A k k else if k < j then s.A i j - s.A i k / s.A k k * s.A k j else s.A i j) else s.A i j }

/-- math/mat/mat.go:266-294: one iteration of the outer loop. -/
def luStep (s : LU K n) (k : Fin n) : LU K n :=
  let s1 := exchange s k (findPivot s k).2
  let s2 := { s1 with pivot := fun i => if i = k then s1.imax else s1.pivot i }
  eliminate (fixPivot s2 k) k

/-- math/mat/mat.go:266-294: the first `m` iterations. -/
def luLoop (s : LU K n) : (m : Nat) → m ≤ n → LU K n
  | 0, _ => s
  | m + 1, h => luStep (luLoop s m (Nat.le_of_succ_le h)) ⟨m, h⟩

/-- math/mat/mat.go:213-295 (`NewLUFactors`, `LU`, `LUFactorsAt`, `factorizeInPlace`) for a square matrix; `none` is the panic "Singular Matrix." for a row of zeros. -/
def factorize [NeZero n] (M : Fin n → Fin n → K) : Option (LU K n) :=
  if ∃ i, rowBig M i = 0 then none else some (luLoop ⟨M, fun i => 1 / rowBig M i, 0, 1, fun _ => 0⟩ n (Nat.le_refl n))

/-- math/mat/mat.go:405-414 (`LUFactors.Determinant`). -/
def LU.determinant (s : LU K n) : K := (List.finRange n).foldl (fun d i => d * s.A i i) s.d

/-- math/mat/mat.go:193-196 (`Determinant`). -/
def determinant [NeZero n] (M : Fin n → Fin n → K) : Option K := (factorize M).map LU.determinant

/-- math/mat/mat.go:326-328: `ys[pivot[i]] = bs[i]` for all `i`, in order; `ys` is what was there before. -/
def permute (pivot : Fin n → Fin n) (b ys : Fin n → K) : Fin n → K := (List.finRange n).foldl (fun ys i => Function.update ys (pivot i) (b i)) ys

/-- The sum over the indices that satisfy a condition, in the order of the loops of math/mat/mat.go:330-333 and 342-345. -/
def sumWhere (p : Fin n → Bool) (f : Fin n → K) : K := (List.finRange n).foldl (fun sum j => if p j then sum + f j else sum) 0

/-- math/mat/mat.go:329-335: the first `m` iterations of the loop of `forwardSubst`. -/
def forward (A : Fin n → Fin n → K) (ys : Fin n → K) : (m : Nat) → m ≤ n → Fin n → K
  | 0, _ => ys
  | m + 1, h =>
    let y := forward A ys m (Nat.le_of_succ_le h)
    Function.update y ⟨m, h⟩ (y ⟨m, h⟩ - sumWhere (fun j => j.1 < m) fun j => A ⟨m, h⟩ j * y j)

/-- math/mat/mat.go:340-348 (`backSubst`): the first `m` iterations, from the last row up (`ys` and `xs` are the same slice in the code). -/
def backward (A : Fin n → Fin n → K) (ys : Fin n → K) : (m : Nat) → m ≤ n → Fin n → K
  | 0, _ => ys
  | m + 1, h =>
    let x := backward A ys m (Nat.le_of_succ_le h)
    let i : Fin n := ⟨n - 1 - m, by omega⟩
    Function.update x i ((x i - sumWhere (fun j => i < j) fun j => A i j * x j) / A i i)

/-- math/mat/mat.go:300-321 (`LUFactors.SolveVector`); `xs` is the content of the output slice before the call (when it is the same slice as `b` the code copies `b` first). -/
def LU.solveVector (s : LU K n) (b xs : Fin n → K) : Fin n → K :=
  backward s.A (forward s.A (permute s.pivot b xs) n (Nat.le_refl n)) n (Nat.le_refl n)

/-- math/mat/mat.go:199-203 (`Matrix.SolveVector`): the output is a new slice. -/
def solveVector [NeZero n] (M : Fin n → Fin n → K) (b : Fin n → K) : Option (Fin n → K) := (factorize M).map fun s => s.solveVector b fun _ => 0

/-- math/mat/mat.go:353-380 (`LUFactors.SolveMatrix`): the columns are read from `x`, not from `b`; input and output of `SolveVector` are the same slice.  (Square matrices of equal size.) -/
def LU.solveMatrix (s : LU K n) (_b x : Fin n → Fin n → K) : Fin n → Fin n → K := fun i j => s.solveVector (fun i => x i j) (fun i => x i j) i

/-- math/mat/mat.go:206-210 (`Matrix.SolveMatrix`): `x` is a new matrix. -/
def solveMatrix [NeZero n] (M b : Fin n → Fin n → K) : Option (Fin n → Fin n → K) := (factorize M).map fun s => s.solveMatrix b fun _ _ => 0

/-- math/mat/mat.go:186-190, 384-401 (`Invert`, `InvertAt`). -/
def invert [NeZero n] (M : Fin n → Fin n → K) : Option (Fin n → Fin n → K) :=
  (factorize M).map fun s => s.solveMatrix (fun i j => if i = j then 1 else 0) fun i j => if i = j then 1 else 0

end Shellfish.Mat
