/-
Whole `Read` and `ReadHeader` of the LGadget-2, Gadget-2 and gotetra readers (io/lgadget2.go, io/gadget2.go, io/gotetra.go): masses, units and the metadata.  Floating point numbers are real numbers: there is no
rounding, no NaN and no infinity; `val32` and `val64` are the numbers that bits stand for.
-/
import Verif.Model.Bolshoi
import Verif.Model.Radius

namespace Shellfish.Io
open Shellfish.Bytes (Byte Order getNat getInt signed pieces)
open Shellfish.Memo (Out)
open Shellfish.Radius (Cosmo rhoAverage)

noncomputable section

/-- What `Read` returns. -/
structure Block where
  xs : List (List ℝ)
  vs : List (List ℝ)
  ms : List ℝ
  ids : List Int

/-- io/gotetra.go:50-54 (`calcUniformMass`). -/
def calcUniformMass (count : Int) (tw : ℝ) (c : Cosmo) : ℝ :=
  let rhoM0 := rhoAverage (c.h100 * 100) c.omegaM c.omegaL 0
  let mTot := tw * tw * tw * rhoM0
  mTot / (count : ℝ)

/-- io/lgadget2.go:33-36, 220-223 and io/gadget2.go:40-43: the cosmology of a header. -/
def GHeader.cosmo (val64 : Nat → ℝ) (h : GHeader) : Cosmo := ⟨val64 h.redshift, val64 h.omega0, val64 h.omegaLambda, val64 h.hubbleParam⟩

/-- The three dimensions of `boundingBox` (io/io.go:255-304). -/
def box3 (xs : List (List ℝ)) (tw : ℝ) : Option ((ℝ × ℝ) × (ℝ × ℝ) × (ℝ × ℝ)) :=
  (boundingBox (xs.map fun x => x.getD 0 0) tw).bind fun a => (boundingBox (xs.map fun x => x.getD 1 0) tw).bind fun b => (boundingBox (xs.map fun x => x.getD 2 0) tw).map fun c => (a, b, c)

/-- The fields of an `io.Header` from a cosmology, a number, a width and boxes. -/
def mkHeader (c : Cosmo) (n : Int) (tw : ℝ) (b : (ℝ × ℝ) × (ℝ × ℝ) × (ℝ × ℝ)) : BOut ℝ := ⟨c.z, c.omegaM, c.omegaL, c.h100, n, tw, (b.1.1, b.2.1.1, b.2.2.1), (b.1.2, b.2.1.2, b.2.2.2)⟩

/-! LGadget-2 -/

/-- io/lgadget2.go:200-231, 275-282 (`NewLGadget2Buffer`, `TotalParticles`) once the byte order is chosen: the mass that the buffer keeps (and that `MinMass` returns).  (A total of no particles makes the
mass infinite in Go and 0 here.) -/
def lgadgetNew (val64 : Nat → ℝ) (o : Order) (npartNum : Int) (file : List Byte) : Out ℝ :=
  (readFileHeader o file).bind fun h =>
    match lgadgetNum npartNum h.numPartTotal with
    | none => .panic
    | some n => .ok (calcUniformMass n (val64 h.boxSize) (h.cosmo val64))

/-- io/lgadget2.go:86-151, 233-246 (`readLGadget2Particles`, `Read`) on an open file, `mass` that of the buffer. -/
def lgadgetRead (val32 val64 : Nat → ℝ) (sys o : Order) (rw : Nat) (npartNum : Int) (mass : ℝ) (mem : Mem) (file : List Byte) : Out Block :=
  match lgadget2Raw sys o rw npartNum mem file with
  | none => .panic
  | some raw =>
    let rootA := Real.sqrt (val64 raw.header.time)
    match fixAll id (val64 raw.header.boxSize) 1 (raw.xs.map fun x => x.map val32) with
    | none => .error
    | some xs => .ok ⟨xs, raw.vs.map fun v => v.map fun w => val32 w * rootA, List.replicate raw.ids.length mass, raw.ids⟩

/-- io/lgadget2.go:24-40, 259-273 (`ReadHeader`, `postprocess`). -/
def lgadgetReadHeader (val32 val64 : Nat → ℝ) (sys o : Order) (rw : Nat) (npartNum : Int) (mass : ℝ) (mem : Mem) (file : List Byte) : Out (BOut ℝ) :=
  (readFileHeader o file).bind fun h => (lgadgetRead val32 val64 sys o rw npartNum mass mem file).bind fun b =>
    match lgadgetNum npartNum h.nPart, box3 b.xs (val64 h.boxSize) with
    | some n, some bx => .ok (mkHeader (h.cosmo val64) n (val64 h.boxSize) bx)
    | _, _ => .panic

/-! Gadget-2 -/

/-- io/gadget2.go:64-145, 290-323, 361-377 (`readGadget2Particles`, `fix`, `Read`) on an open file; `pu` and `mu` are `GadgetPositionUnits` and `GadgetMassUnits`. -/
def gadgetRead (val32 val64 : Nat → ℝ) (sys o : Order) (rw : Nat) (to32 : Nat → Nat) (dm single : List Int) (pu mu : ℝ) (mem : Mem) (file : List Byte) : Out Block :=
  match gadget2Raw sys o rw to32 dm single mem file with
  | none => .panic
  | some raw =>
    let rootA := Real.sqrt (val64 raw.header.time)
    match fixAll id (val64 raw.header.boxSize) pu (raw.xs.map fun x => x.map val32) with
    | none => .error
    | some xs => .ok ⟨xs, raw.vs.map fun v => v.map fun w => val32 w * rootA, raw.ms.map fun m => val32 m * mu, raw.ids⟩

/-- io/gadget2.go:28-48, 386-400 (`ReadHeader`, `postprocess`). -/
def gadgetReadHeader (val32 val64 : Nat → ℝ) (sys o : Order) (rw : Nat) (to32 : Nat → Nat) (dm single : List Int) (pu mu : ℝ) (mem : Mem) (file : List Byte) : Out (BOut ℝ) :=
  (readFileHeader o file).bind fun h => (gadgetRead val32 val64 sys o rw to32 dm single pu mu mem file).bind fun b =>
    match headerN dm h, box3 b.xs (val64 h.boxSize * pu) with
    | some n, some bx => .ok (mkHeader (h.cosmo val64) n (val64 h.boxSize * pu) bx)
    | _, _ => .panic

/-- io/gadget2.go:334-356, 402 (`NewGadget2Buffer`, `MinMass`): the field `mass` is never set. -/
def gadgetMinMass (o : Order) (file : List Byte) : Out ℝ := (readFileHeader o file).bind fun _ => .ok 0

/-! gotetra -/

/-- io/gotetra.go:106-118: the cosmology at the front of a sheet header. -/
def sheetCosmo (val64 : Nat → ℝ) (o : Order) (hd : List Byte) : Cosmo :=
  let f := fun a => val64 (getNat o ((hd.drop a).take 8))
  ⟨f 0, f 8, f 16, f 24⟩

/-- The bytes of the header of a sheet file. -/
def sheetBytes (file : List Byte) : List Byte := (file.drop 8).take 152

/-- io/gotetra.go:24-54, 206-208 (`NewGotetraBuffer`): segment width, grid width and mass of the buffer; a negative size is a panic in `make`.  (A count of 0 makes the mass infinite in Go and 0 here.) -/
def gotetraNew (val64 : Nat → ℝ) (file : Option (List Byte)) : Out (Nat × Nat × ℝ) :=
  (loadSheetHeader file).bind fun ho =>
    let h := ho.1
    if h.segmentWidth < 0 ∨ h.gridWidth < 0 then .panic
    else .ok (h.segmentWidth.toNat, h.gridWidth.toNat, calcUniformMass (h.countWidth * h.countWidth * h.countWidth) (val64 h.totalWidth) (sheetCosmo val64 ho.2 (sheetBytes (file.getD []))))

/-- io/gotetra.go:60-88 (`Read`) with the masses: `ms[si]` is set beside `xs[si]`; ids are never set (0) and there are no velocities. -/
def gotetraBlock (val32 : Nat → ℝ) (sys : Order) (rw : Nat) (buf : Nat × Nat × ℝ) (mem : List Byte) (file : Option (List Byte)) : Out Block :=
  (gotetraRead sys rw buf.1 buf.2.1 mem file).1.bind fun xs => .ok ⟨xs.map fun x => x.map val32, [], List.replicate xs.length buf.2.2, List.replicate xs.length 0⟩

/-- io/gotetra.go:120-126, 213-225 (`ReadHeader`, `postprocess`). -/
def gotetraHeader (val32 val64 : Nat → ℝ) (file : Option (List Byte)) : Out (BOut ℝ) :=
  (loadSheetHeader file).bind fun ho =>
    let h := ho.1
    let hd := sheetBytes (file.getD [])
    let f := fun a => val32 (getNat ho.2 ((hd.drop a).take 4))
    .ok (mkHeader (sheetCosmo val64 ho.2 hd) (h.segmentWidth * h.segmentWidth * h.segmentWidth) (val64 h.totalWidth) ((f 104, f 116), (f 108, f 120), (f 112, f 124)))

/-- io/gotetra.go:252-254 (`TotalParticles`): the number and the error. -/
def gotetraTotal (_file : Option (List Byte)) : Out Int := .ok (-1)

end

end Shellfish.Io
