/-
The Gadget-2 and LGadget-2 file formats, written down from their description (Gadget-2 user guide, section 6: blocks between two equal 32-bit lengths, particles
sorted by type) and independently of the readers.  Numbers are bit patterns.
-/
import Verif.Model.Io

namespace Shellfish.Gadget
open Shellfish.Bytes Shellfish.Io

/-- A particle: position and velocity (three float32 each), id and mass (float32). -/
structure Particle where
  x : List Nat
  v : List Nat
  id : Int
  mass : Nat
deriving DecidableEq

/-- A particle fits into the file format with ids of `k` bytes. -/
def Particle.Fits (k : Nat) (p : Particle) : Prop :=
  p.x.length = 3 ∧ p.v.length = 3 ∧ (∀ w ∈ p.x, w < 2 ^ 32) ∧ (∀ w ∈ p.v, w < 2 ^ 32) ∧ (-(256 ^ k : Nat) ≤ 2 * p.id ∧ 2 * p.id < (256 ^ k : Nat)) ∧ p.mass < 2 ^ 32

/-- Numbers of `k` bytes each. -/
def numbers (o : Order) (k : Nat) (xs : List Nat) : List Byte := xs.flatMap (putNat o k)

/-- A Fortran record: the length of the body, the body, the length of the body. -/
def record (o : Order) (body : List Byte) : List Byte := putInt o 4 body.length ++ body ++ putInt o 4 body.length

/-- The 256 bytes of the header.  (The flags and the padding are zero.) -/
def header (o : Order) (h : GHeader) : List Byte :=
  numbers o 4 h.nPart ++ numbers o 8 h.mass ++ numbers o 8 [h.time, h.redshift] ++ numbers o 4 [0, 0] ++ numbers o 4 h.numPartTotal ++ numbers o 4 [0, 0] ++
    numbers o 8 [h.boxSize, h.omega0, h.omegaLambda, h.hubbleParam] ++ numbers o 4 [0, 0] ++ numbers o 4 h.numPartTotalHW ++ List.replicate 64 0

/-- The fields of the header are in range. -/
def HeaderFits (h : GHeader) : Prop :=
  h.nPart.length = 6 ∧ h.mass.length = 6 ∧ h.numPartTotal.length = 6 ∧ h.numPartTotalHW.length = 6 ∧ (∀ w ∈ h.nPart, w < 2 ^ 32) ∧ (∀ w ∈ h.mass, w < 2 ^ 64) ∧
    (∀ w ∈ h.numPartTotal, w < 2 ^ 32) ∧ (∀ w ∈ h.numPartTotalHW, w < 2 ^ 32) ∧ h.time < 2 ^ 64 ∧ h.redshift < 2 ^ 64 ∧ h.boxSize < 2 ^ 64 ∧ h.omega0 < 2 ^ 64 ∧
    h.omegaLambda < 2 ^ 64 ∧ h.hubbleParam < 2 ^ 64

/-- The blocks of positions, velocities and ids (`k` bytes each). -/
def common (o : Order) (k : Nat) (ps : List Particle) : List Byte :=
  record o (numbers o 4 (ps.flatMap Particle.x)) ++ record o (numbers o 4 (ps.flatMap Particle.v)) ++ record o (ps.flatMap fun p => putInt o k p.id)

/-- The particles with their types, in file order: `byType` lists the particles of type 0, 1, ... -/
def typed (byType : List (List Particle)) : List (Nat × Particle) := byType.zipIdx.flatMap fun c => c.1.map fun p => (c.2, p)

/-- The block of masses: one for each particle whose type does not have its mass in the header. -/
def massBlock (o : Order) (single : List Int) (byType : List (List Particle)) : List Byte :=
  record o (numbers o 4 (((typed byType).filter fun c => ¬ (c.1 : Int) ∈ single).map fun c => c.2.mass))

/-- A Gadget-2 file.  `masses` says whether there is a block of masses. -/
def file (o : Order) (k : Nat) (masses : Bool) (h : GHeader) (single : List Int) (byType : List (List Particle)) : List Byte :=
  record o (header o h) ++ common o k ((typed byType).map Prod.snd) ++ (if masses then massBlock o single byType else [])

/-- The particles of the requested types, in file order. -/
def requested (dm : List Int) (byType : List (List Particle)) : List (Nat × Particle) := (typed byType).filter fun c => (c.1 : Int) ∈ dm

/-- The mass of a particle: that of its type, if there is one. -/
def massOf (to32 : Nat → Nat) (h : GHeader) (single : List Int) (c : Nat × Particle) : Nat := if (c.1 : Int) ∈ single then to32 (h.mass.getD c.1 0) else c.2.mass

end Shellfish.Gadget

namespace Shellfish.Gadget
open Shellfish.Bytes Shellfish.Io

/-- A Bolshoi particle in a file: position and velocity (float32), id (int64). -/
def bparticle (o : Order) (p : BParticle) : List Byte := numbers o 4 p.x ++ numbers o 4 p.v ++ putInt o 8 p.id

/-- A Bolshoi file: a comment, two headers, the boundary, the particle number, and blocks of particles, each after a record with its size. -/
def bolshoiFile (o : Order) (comment h1 h2 boundary : List Byte) (blocks : List (List BParticle)) : List Byte :=
  record o comment ++ record o h1 ++ record o h2 ++ record o boundary ++ record o (putInt o 4 (blocks.flatten.length : Nat)) ++
    blocks.flatMap fun b => record o (putInt o 4 (b.length : Nat)) ++ record o (b.flatMap (bparticle o))

end Shellfish.Gadget
