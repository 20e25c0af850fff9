/-
los/analyze/penna.go:62-82 (`PennaFunc`) and los/analyze/shell.go:37-55, 349-354 (`CartesianSampledVolume`, `Contains`) in machine arithmetic.

Rounding is that of Model/Round.lean (no overflow, no underflow, zeros without sign).  Of the functions of package math except `Sqrt` nothing is fixed here; what is assumed of them is a hypothesis of the theorems.
-/
import Verif.Model.PolarRound
import Verif.Model.Penna

namespace Shellfish.Round
open Shellfish.Analyze (powers)

/-- `math.Atan2(y, x)`, `math.Acos`, the two results of `math.Sincos`, and `math.Pow` with a natural number as the exponent. -/
structure ShellMath where
  atan2 : ℚ → ℚ → ℚ
  acos : ℚ → ℚ
  sin : ℚ → ℚ
  cos : ℚ → ℚ
  pow : ℚ → ℕ → ℚ

/-- los/analyze/penna.go:70-77: the product that is added for the powers (k, j, i) and a coefficient. -/
def pennaTerm64 (F : ShellMath) (phi th c : ℚ) (t : ℕ × ℕ × ℕ) : ℚ :=
  r64 (r64 (r64 (r64 (c * F.pow (F.sin th) (t.2.2 + t.2.1)) * F.pow (F.cos th) t.1) * F.pow (F.sin phi) t.2.1) * F.pow (F.cos phi) t.2.2)

/-- los/analyze/penna.go:62-82 (`PennaFunc`): the function that is returned; `none` is the index panic for too few coefficients. -/
def pennaFunc64 (F : ShellMath) (cs : List ℚ) (I J K : ℕ) (phi th : ℚ) : Option ℚ :=
  ((powers I J K).foldlM (fun (st : ℕ × ℚ) t => (cs[st.1]?).map fun c => (st.1 + 1, r64 (st.2 + pennaTerm64 F phi th c t))) ((0, 0) : ℕ × ℚ)).map Prod.snd

/-- los/analyze/shell.go:349-354 (`Contains`) for the shell of the coefficients `cs`.  If the angle is NaN (`polar64`), so is the radius of the shell (some power in the sum has a positive exponent unless I = J = K = 1), and the
comparison is false. -/
noncomputable def contains64 (F : ShellMath) (cs : List ℚ) (I J K : ℕ) (x y z : ℚ) : Prop :=
  ∃ r c v, norm64 x y z = some r ∧ polar64 x y z = some c ∧ pennaFunc64 F cs I J K (F.atan2 y x) (F.acos c) = some v ∧ v > r

end Shellfish.Round
