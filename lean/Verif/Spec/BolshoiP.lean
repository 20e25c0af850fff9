/-
The BolshoiP file format, written down independently of the reader: Fortran records; the particles come in blocks of three records (positions, velocities, weights with ids), component by component.
-/
import Verif.Spec.Gadget

namespace Shellfish.Gadget
open Shellfish.Bytes Shellfish.Io

/-- A particle of a BolshoiP file: position and velocity (three float32 each, as bits), a weight (float32) and an id (int64). -/
structure PPart where
  x : Nat × Nat × Nat
  v : Nat × Nat × Nat
  w : Nat
  id : Int
deriving DecidableEq

/-- The numbers fit into the format. -/
def PPart.Fits (p : PPart) : Prop :=
  (p.x.1 < 2 ^ 32 ∧ p.x.2.1 < 2 ^ 32 ∧ p.x.2.2 < 2 ^ 32) ∧ (p.v.1 < 2 ^ 32 ∧ p.v.2.1 < 2 ^ 32 ∧ p.v.2.2 < 2 ^ 32) ∧ p.w < 2 ^ 32 ∧ (-(256 ^ 8 : Nat) ≤ 2 * p.id ∧ 2 * p.id < (256 ^ 8 : Nat))

/-- A block: its size, then all first components, all second ones and all third ones of the positions, likewise the velocities, then the weights and the ids. -/
def pBlock (o : Order) (b : List PPart) : List Byte :=
  record o (putInt o 4 (b.length : Nat)) ++
    (record o (numbers o 4 (b.map fun p => p.x.1) ++ numbers o 4 (b.map fun p => p.x.2.1) ++ numbers o 4 (b.map fun p => p.x.2.2)) ++
      (record o (numbers o 4 (b.map fun p => p.v.1) ++ numbers o 4 (b.map fun p => p.v.2.1) ++ numbers o 4 (b.map fun p => p.v.2.2)) ++
        record o (numbers o 4 (b.map fun p => p.w) ++ b.flatMap fun p => putInt o 8 p.id)))

/-- A BolshoiP file. -/
def bolshoiPFile (o : Order) (comment h1 h2 boundary : List Byte) (blocks : List (List PPart)) : List Byte :=
  record o comment ++ (record o h1 ++ (record o h2 ++ (record o boundary ++ (record o (putInt o 4 (blocks.flatten.length : Nat)) ++ blocks.flatMap (pBlock o)))))

end Shellfish.Gadget
