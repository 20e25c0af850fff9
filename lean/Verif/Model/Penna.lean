/-
Model of los/analyze/penna.go:12-108 and 170-194 (Penna-Dines shells) and of findOrder in cmd/stats.go.  float64 is the real numbers (no rounding).
The routines of github.com/gonum/matrix are not part of the repository: the product of matrices is Mathlib's, and what `Inverse` leaves in its receiver is an argument (the code ignores the error of a singular matrix).
-/
import Verif.Model.Shell
import Verif.Model.Mat
import Verif.Model.Rotation
import Mathlib.Data.Matrix.Mul

namespace Shellfish.Analyze
noncomputable section
open Shellfish.Geom (Vec)
open Shellfish.Mat (newMatrix vecMult transpose)

/-- los/analyze/penna.go:38-52 and 68-79: the powers (k, j, i) in the order in which the loops visit them (`m++`, `idx++`). -/
def powers (I J K : Nat) : List (Nat × Nat × Nat) :=
  (List.range K).flatMap fun k => (List.range J).flatMap fun j => (List.range I).map fun i => (k, j, i)

/-- The values that are precomputed for a point; `none` is NaN. -/
structure Trig where
  r : ℝ
  costh : Option ℝ
  sinth : Option ℝ
  cosphi : Option ℝ
  sinphi : Option ℝ

open Classical in
/-- `a / b` where only `0 / 0` occurs with a zero divisor. -/
def quot (a b : Option ℝ) : Option ℝ := a.bind fun x => b.bind fun y => if y = 0 then none else some (x / y)

/-- los/analyze/penna.go:25-31: the loop body.  At the origin all quotients are 0/0; on the z axis those by `sinths[i]` are. -/
def trigOf (p : Vec) : Trig :=
  let r := Real.sqrt (p.x * p.x + p.y * p.y + p.z * p.z)
  let costh := quot (some p.z) (some r)
  let sinth := costh.map fun c => Real.sqrt (1 - c * c)
  ⟨r, costh, sinth, quot (quot (some p.x) (some r)) sinth, quot (quot (some p.y) (some r)) sinth⟩

/-- `math.Pow` with an exponent that is a natural number: `Pow(NaN, 0)` is 1. -/
def powNat (x : Option ℝ) (n : Nat) : Option ℝ := if n = 0 then some 1 else x.map (· ^ n)

/-- los/analyze/penna.go:40-48: the entry of the matrix for the powers (k, j, i) and a point (`cosphi` is multiplied i times). -/
def entry (t : Nat × Nat × Nat) (q : Trig) : Option ℝ := do
  let a ← powNat q.sinth (t.2.2 + t.2.1)
  let b ← powNat q.cosphi t.2.2
  let c ← powNat q.costh t.1
  let d ← powNat q.sinphi t.2.1
  some (a * b * c * d)

/-- los/analyze/penna.go:34-53: `MVals`: the cell `m*M.Width+n` (every cell is written once); `none`: an entry is NaN. -/
def pennaVals (I J K : Nat) (qs : List Trig) : Option (List ℝ) := ((powers I J K).mapM fun t => qs.mapM (entry t)).map List.flatten

/-- `mat64.NewDense` with given values: rows one after the other. -/
def dense (h w : Nat) (vals : List ℝ) : Matrix (Fin h) (Fin w) ℝ := Matrix.of fun y x => vals.getD (y.1 * w + x.1) 0

/-- What gonum's `Inverse` leaves in its receiver. -/
abbrev Inverse := ∀ n : Nat, Matrix (Fin n) (Fin n) ℝ → Matrix (Fin n) (Fin n) ℝ

/-- los/analyze/penna.go:170-194 (`pinv`). -/
def pinv (inverse : Inverse) (m t : Shellfish.Mat.Matrix ℝ) : Option (Shellfish.Mat.Matrix ℝ) :=
  let gm := dense m.height m.width m.vals
  let gmt := dense m.width m.height t.vals
  let out1 := gm * gmt
  let out2 := gmt * inverse m.height out1
  newMatrix ((List.finRange m.width).flatMap fun y => (List.finRange m.height).map fun x => out2 y x) m.height m.width

/-- los/analyze/penna.go:14-58 (`PennaCoeffs`); `none` is a panic, or a NaN in the matrix (which spreads to the coefficients). -/
def pennaCoeffs (inverse : Inverse) (points : List Vec) (I J K : Nat) : Option (List ℝ) := do
  let qs := points.map trigOf
  let vals ← pennaVals I J K qs
  let M ← newMatrix vals qs.length (I * J * K)
  let t ← transpose M
  let inv ← pinv inverse M t
  vecMult (qs.map Trig.r) inv (List.replicate (I * J * K) 0)

/-- los/analyze/penna.go:62-82 (`PennaFunc`): the function that is returned; `none` is the index panic for too few coefficients. -/
def pennaFunc (cs : List ℝ) (I J K : Nat) (phi th : ℝ) : Option ℝ :=
  ((powers I J K).foldlM (fun (st : Nat × ℝ) t => (cs[st.1]?).map fun c =>
    (st.1 + 1, st.2 + c * Real.sin th ^ (t.2.2 + t.2.1) * Real.cos th ^ t.1 * Real.sin phi ^ t.2.1 * Real.cos phi ^ t.2.2)) ((0, 0) : Nat × ℝ)).map Prod.snd

/-- The same as a shell (0 where the code panics). -/
def pennaShell (cs : List ℝ) (I J K : Nat) : Shell := fun phi th => (pennaFunc cs I J K phi th).getD 0

/-- los/analyze/penna.go:88-108 (`PennaVolumeFit`): the points of the rings, rotated from the planes of the rings (los/halo.go, `PlaneToVolume`; its float32 is not modelled), and the fit to them. -/
def pennaVolumeFit (inverse : Inverse) (irots : List Shellfish.Geom.Mat) (rings : List (List (ℝ × ℝ))) (I J : Nat) : Option (List ℝ × Shell) := do
  let pts ← (rings.zipIdx).mapM fun (ring : List (ℝ × ℝ) × Nat) => ring.1.mapM fun p => (irots[ring.2]?).map fun m => Shellfish.Geom.rotateVec ⟨p.1, p.2, 0⟩ m
  let cs ← pennaCoeffs inverse pts.flatten I J 2
  some (cs, pennaShell cs I J 2)

/-- cmd/stats.go:424-434 (`findOrder`); `none` is the panic. -/
def findOrderFrom (len i : Nat) : Option Nat :=
  if 2 * i * i = len then some i else if 2 * i * i > len then none else findOrderFrom len (i + 1)
termination_by len + 1 - i
decreasing_by
  have : i * 1 ≤ i * i ∨ i = 0 := by rcases Nat.eq_zero_or_pos i with h | h; exact .inr h; exact .inl (Nat.mul_le_mul_left i h)
  rcases this with h | h
  · rw [Nat.mul_assoc] at *; omega
  · omega

/-- cmd/stats.go:424-434 (`findOrder`). -/
def findOrder (coeffs : List ℝ) : Option Nat := findOrderFrom coeffs.length 1

end
end Shellfish.Analyze
