/-
cmd/prof.go:463-524: the profiles of the prof mode from the positions and velocities of the particles, with the tests of the contained and of the bound density, in machine arithmetic.

Rounding is that of Model/Round.lean and Model/Round32.lean (no overflow, no underflow, zeros without sign).  Operations are rounded one by one, as on amd64.  Of `math.Log` (`lg`) and of the functions of `ShellMath` only the accuracy
is known.
-/
import Verif.Model.MassRound
import Verif.Model.BinRound

namespace Shellfish.Round

/-- cmd/prof.go:688-692 (`ExtendedSphere`): all are float32 numbers. -/
structure Ext32 where
  c : Pos32
  r : ℚ
  m : ℚ
  rs : ℚ
  v : Pos32

/-- A particle: position, velocity, mass (float32). -/
structure Part32 where
  x : Pos32
  v : Pos32
  m : ℚ

/-- The profile types that `insertPoints` knows (cmd/prof.go:494, 502). -/
inductive Kind32
  | density
  | contained
  | bound

/-- cmd/prof.go:478: `vVir`; `none` is NaN. -/
noncomputable def vVir32 (s : Ext32) : Option ℚ := (sqrt64 (r32 (r32 (s.m / r32 60000000000000) / s.r))).map fun q => r32 (r64 (508 * q))

/-- cmd/prof.go:479: `cVir`. -/
def cVir32 (s : Ext32) : ℚ := r32 (s.r / s.rs)

/-- cmd/prof.go:480-481: `phiPrefactor`. -/
def prefactor32 (lg : ℚ → ℚ) (s : Ext32) : ℚ :=
  r32 (1 / r32 (r64 (lg (r64 (1 + cVir32 s)) - r32 (cVir32 s / r32 (1 + cVir32 s)))))

/-- cmd/prof.go:503-504, 511-513: the square of the escape velocity at the squared distance `r2`; `none` is NaN. -/
noncomputable def vesc32 (lg : ℚ → ℚ) (s : Ext32) (r2 : ℚ) : Option ℚ :=
  (vVir32 s).bind fun w => (sqrt64 r2).map fun d =>
    let x := r32 (r32 d / s.r)
    let phi := r32 (r32 (r32 (r32 (w * w) * prefactor32 lg s) * r32 (lg (r32 (1 + r32 (cVir32 s * x))))) / x)
    r32 (phi * 2)

/-- cmd/prof.go:506-509: the square of the velocity with respect to the halo. -/
def speed32 (s : Ext32) (p : Part32) : ℚ := r2_32 (r32 (p.v.x - s.v.x)) (r32 (p.v.y - s.v.y)) (r32 (p.v.z - s.v.z))

/-- cmd/prof.go:494-497 and 502-518: whether a particle that is inside of the profile is counted. -/
def kept32 (lg : ℚ → ℚ) (F : ShellMath) (cs : List ℚ) (order : ℕ) (kind : Kind32) (tw : ℚ) (s : Ext32) (p : Part32) : Prop :=
  let d := offset32 tw s.c p.x
  match kind with
  | .density => True
  | .contained => contains64 F cs order order 2 d.x d.y d.z
  | .bound => ∃ e, vesc32 lg s (r2_32 d.x d.y d.z) = some e ∧ e > speed32 s p

open Classical in
/-- cmd/prof.go:484-518: a particle as the loop over the bins sees it. -/
noncomputable def toBin (lg : ℚ → ℚ) (F : ShellMath) (cs : List ℚ) (order : ℕ) (kind : Kind32) (tw : ℚ) (s : Ext32) (p : Part32) : BinPoint :=
  let d := offset32 tw s.c p.x
  ⟨d.x, d.y, d.z, p.m, r32 (p.v.x - s.v.x), r32 (p.v.y - s.v.y), r32 (p.v.z - s.v.z), decide (kept32 lg F cs order kind tw s p)⟩

/-- cmd/prof.go:463-522 (`insertPoints`); `none` is an index panic. -/
noncomputable def insertPoints64 (lg : ℚ → ℚ) (F : ShellMath) (cs : List ℚ) (order : ℕ) (kind : Kind32) (tw : ℚ) (s : Ext32) (minMult maxMult : ℚ) (bins : ℕ) (rhos : List ℚ) (ps : List Part32) : Option (List ℚ) :=
  profPoints64 lg s.r minMult maxMult bins rhos (ps.map (toBin lg F cs order kind tw s))

end Shellfish.Round
