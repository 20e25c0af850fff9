/-
Model of the part of Go's encoding/binary that the program uses: fixed-size integers in either byte order, written to and
read from a byte stream.  Floating point values are handled as their bit patterns.
This is part of the trusted base (documentation of encoding/binary).
-/
namespace Shellfish.Bytes

abbrev Byte := UInt8

/-- The `k` low bytes of `n`, least significant first. -/
def encLE : Nat → Nat → List Byte
  | 0, _ => []
  | k + 1, n => UInt8.ofNat n :: encLE k (n / 256)

/-- Value of a byte string, least significant first. -/
def decLE : List Byte → Nat
  | [] => 0
  | b :: bs => b.toNat + 256 * decLE bs

/-- binary.LittleEndian or binary.BigEndian. -/
inductive Order
  | little
  | big
deriving DecidableEq

/-- `order.PutUintN`, `k` bytes. -/
def putNat (o : Order) (k n : Nat) : List Byte := match o with
  | .little => encLE k n
  | .big => (encLE k n).reverse

/-- `order.UintN`. -/
def getNat (o : Order) (bs : List Byte) : Nat := match o with
  | .little => decLE bs
  | .big => decLE bs.reverse

/-- Signed integer of `k` bytes (two's complement), as `binary.Write` writes it. -/
def putInt (o : Order) (k : Nat) (x : Int) : List Byte := putNat o k (x % (256 ^ k : Nat)).toNat

/-- Two's complement value of a `k`-byte unsigned value. -/
def signed (k n : Nat) : Int := if 2 * n < 256 ^ k then (n : Int) else (n : Int) - (256 ^ k : Nat)

/-- Signed integer as `binary.Read` reads it. -/
def getInt (o : Order) (bs : List Byte) : Int := signed bs.length (getNat o bs)

/-- `binary.Write(wr, order, xs)` for a slice of `k`-byte signed integers. -/
def putInts (o : Order) (k : Nat) (xs : List Int) : List Byte := xs.flatMap (putInt o k)

/-- Cut a byte string into `n` pieces of `k` bytes. -/
def pieces (k : Nat) : Nat → List Byte → List (List Byte)
  | 0, _ => []
  | n + 1, bs => bs.take k :: pieces k n (bs.drop k)

/-- `binary.Read(rd, order, xs)` for a slice of `n` `k`-byte signed integers, error ignored: when the
stream is too short nothing is stored (the slice keeps its zeros) and the stream is used up. -/
def readInts (o : Order) (k n : Nat) (bs : List Byte) : List Int × List Byte :=
  if bs.length < n * k then (List.replicate n 0, [])
  else ((pieces k n bs).map (getInt o), bs.drop (n * k))

end Shellfish.Bytes
