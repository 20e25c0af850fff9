/-
Model of io/filter_data.go.  `unsafe.Sizeof(haloInfo{})` is 32.
-/
import Verif.Model.Bytes
import Verif.Model.Catalog

namespace Shellfish.Filter

open Shellfish.Bytes
open Shellfish.Catalog (Out)

/-- io/filter_data.go:11-15 -/
structure FilterData where
  snaps : List Int
  ids : List Int
  particles : List (List Int)
deriving DecidableEq

/-- io/filter_data.go:17-19; the fields are written in this order. -/
structure HaloInfo where
  id : Int
  snap : Int
  startByte : Int
  len : Int
deriving DecidableEq

/-- io/filter_data.go:21-34, `flagToOrder`; `sysBig`: the machine is big endian; `none` is a panic. -/
def flagToOrder (sysBig : Bool) (flag : List Char) : Option Order :=
  if flag = "LittleEndian".toList then some .little
  else if flag = "BigEndian".toList then some .big
  else if flag = "SystemOrder".toList then some (if sysBig then .big else .little)
  else none

/-- io/filter_data.go:47 -/
def baseOffset (n : Nat) : Int := 4 + 4 + n * 32

/-- io/filter_data.go:49-55: the table of halos; `totLen` stays 0; `none` is an index panic. -/
def infos (data : FilterData) : Option (List HaloInfo) :=
  let totLen : Int := 0
  (List.range data.snaps.length).mapM fun i => do
    let s ← data.snaps[i]?
    let id ← data.ids[i]?
    let p ← data.particles[i]?
    some { id := id, snap := s, startByte := totLen * 8 + baseOffset data.snaps.length, len := p.length }

/-- io/filter_data.go:56: the bytes of the table. -/
def putInfo (o : Order) (h : HaloInfo) : List Byte := putInt o 8 h.id ++ putInt o 8 h.snap ++ putInt o 8 h.startByte ++ putInt o 8 h.len

/-- io/filter_data.go:39-43: the byte order flag. -/
def flagBytes (o : Order) : List Byte := match o with
  | .big => putInt o 4 (-1)
  | .little => putInt o 4 0

/-- io/filter_data.go:36-63, `WriteFilter` (write errors are ignored by the code and not modelled): the bytes written; `none` is a panic. -/
def writeFilter (o : Order) (data : FilterData) : Option (List Byte) := do
  let info ← infos data
  let ps ← (List.range data.snaps.length).mapM fun i => data.particles[i]?
  some (flagBytes o ++ putInt o 4 data.snaps.length ++ info.flatMap (putInfo o) ++ ps.flatMap (putInts o 8))

/-- io/filter_data.go:83-84: the table of `n` halos; when the stream is too short all entries stay zero. -/
def readInfos (o : Order) (n : Nat) (bs : List Byte) : List HaloInfo × List Byte :=
  let (xs, rest) := readInts o 8 (n * 4) bs
  ((List.range n).map fun i => ⟨xs.getD (4 * i) 0, xs.getD (4 * i + 1) 0, xs.getD (4 * i + 2) 0, xs.getD (4 * i + 3) 0⟩, rest)

/-- io/filter_data.go:91-96: the particle lists; `none` is the panic of `make` with a negative length. -/
def readLists (o : Order) : List HaloInfo → List Byte → Option (List (List Int))
  | [], _ => some []
  | h :: hs, bs =>
    if h.len < 0 then none
    else
      let (xs, rest) := readInts o 8 h.len.toNat bs
      (readLists o hs rest).map (xs :: ·)

/-- io/filter_data.go:80-98: everything after the flag. -/
def readBody (o : Order) (bs : List Byte) : Out FilterData :=
  let (n, bs2) := readInts o 4 1 bs
  let haloNum := n.getD 0 0
  if haloNum < 0 then .panic
  else
    let (info, bs3) := readInfos o haloNum.toNat bs2
    match readLists o info bs3 with
    | none => .panic
    | some ps => .ok ⟨info.map HaloInfo.snap, info.map HaloInfo.id, ps⟩

/-- io/filter_data.go:65-99, `ReadFilter`. -/
def readFilter (bs : List Byte) : Out FilterData :=
  let (f, bs1) := readInts .little 4 1 bs
  if f.getD 0 0 = 0 then readBody .little bs1
  else if f.getD 0 0 = -1 then readBody .big bs1
  else .err

end Shellfish.Filter
