/-
io/gadget2.go:34 and 288-321 (`fix`): positions, velocities and masses of Gadget-2 files in the units of the configuration, in machine arithmetic (float32 and float64 rounded as in Model/Round32.lean and Model/Round.lean).
Numbers that are not finite are left out; they are refused ("Corruption detected").
-/
import Verif.Model.LosRound
import Verif.Model.Round32

namespace Shellfish.Round

/-- io/gadget2.go:34: the width of the box in the header; `box` is `BoxSize`, `units` is `GadgetPositionUnits`. -/
def gadgetWidth64 (box units : ℚ) : ℚ := r64 (box * units)

/-- io/gadget2.go:294, 299-315: one coordinate; `none` is the error "Corruption detected".  (The wrapping is that of io/lgadget2.go, see `fixCoord32`.) -/
def gadgetCoord32 (box units x : ℚ) : Option ℚ := (fixCoord32 (r32 box) x).map fun y => r32 (y * r32 units)

/-- io/gadget2.go:292, 297: one component of a velocity; `none` is NaN (a negative scale factor). -/
noncomputable def gadgetVel32 (time v : ℚ) : Option ℚ := (sqrt64 time).map fun a => r32 (v * r32 a)

/-- io/gadget2.go:317: the mass of a particle; `units` is `GadgetMassUnits`. -/
def gadgetMass32 (units m : ℚ) : ℚ := r32 (m * r32 units)

end Shellfish.Round
