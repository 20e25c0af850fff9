/-
Model of what is left of io/bolshoi.go and of io/bolshoiP.go: headers, the particles of a BolshoiP file, the filters in place, units and masses.  Files are byte strings.  `val` is the number that the bits of a
float32 stand for, in an ordered field: there is no rounding, and no NaN.
-/
import Verif.Model.Io
import Verif.Model.Artio

namespace Shellfish.Io
open Shellfish.Bytes (Byte Order getNat getInt signed pieces)
open Shellfish.Memo (Out)

variable {K : Type} [Field K] [LinearOrder K] [IsStrictOrderedRing K]

/-- io/bolshoi.go:25-37 and io/bolshoiP.go:24-37 (`bolshoiHeader1/2`, `bolshoiPHeader1/2`), the fields that are used; floats as bits.  The Bolshoi files have no `Mass` (0 here). -/
structure BHeader where
  aExpn : Nat
  nGridCells : Int
  omegaM : Nat
  omegaL : Nat
  h100 : Nat
  boxWidth : Nat
  mass : Nat
  k : Int
  nx : Int
  ny : Int
  nz : Int
deriving DecidableEq

/-- `binary.Read` of the two headers. -/
def BHeader.parse (o : Order) (b1 b2 : List Byte) : BHeader :=
  ⟨getNat o (b1.take 4), getInt o ((b1.drop 16).take 4), getNat o ((b1.drop 28).take 4), getNat o ((b1.drop 32).take 4), getNat o ((b1.drop 36).take 4), getNat o ((b1.drop 40).take 4),
    getNat o ((b1.drop 44).take 4), getInt o (b2.take 4), getInt o ((b2.drop 4).take 4), getInt o ((b2.drop 8).take 4), getInt o ((b2.drop 12).take 4)⟩

/-- io/bolshoi.go:60-71 and io/bolshoiP.go:54-65 (`NewBolshoiBuffer`, `NewBolshoiPBuffer`) after the file is open, `s1` and `s2` the sizes of the headers (44, 20 and 48, 24): `none` is a panic. -/
def bolshoiNew (o : Order) (s1 s2 : Nat) (file : List Byte) : Option BHeader :=
  (fortranRead o 45 file).bind fun c => (fortranRead o s1 c.2).bind fun b1 => (fortranRead o s2 b1.2).bind fun b2 => some (.parse o b1.1 b2.1)

/-- io/bolshoi.go:200-210 and io/bolshoiP.go:177-187: the five records in front of the particles: the header, the number of particles and the rest of the file. -/
def bolshoiFront (o : Order) (s1 s2 : Nat) (file : List Byte) : Option (BHeader × Int × List Byte) :=
  (fortranRead o 45 file).bind fun c => (fortranRead o s1 c.2).bind fun b1 => (fortranRead o s2 b1.2).bind fun b2 => (fortranRead o 24 b2.2).bind fun bd =>
    (fortranRead o 4 bd.2).bind fun np => some (.parse o b1.1 b2.1, getInt o np.1, np.2)

/-- The fields of `Header` (io/io.go). -/
structure BOut (K : Type) where
  z : K
  omegaM : K
  omegaL : K
  h100 : K
  n : Int
  totalWidth : K
  origin : K × K × K
  width : K × K × K

/-- io/bolshoi.go:212-239 and io/bolshoiP.go:189-216: the header that `ReadHeader` makes; `none` is the division by zero of integers. -/
def bolshoiOut (val : Nat → K) (h : BHeader) (nPart : Int) : Option (BOut K) :=
  if h.nx = 0 ∨ h.ny = 0 then none
  else
    let c := bolshoiCell h.k h.nx h.ny
    let rx := bolshoiRange (val h.boxWidth) h.nx c.1
    let ry := bolshoiRange (val h.boxWidth) h.ny c.2.1
    let rz := bolshoiRange (val h.boxWidth) h.nz c.2.2
    some ⟨1 / val h.aExpn - 1, val h.omegaM, val h.omegaL, val h.h100, nPart, val h.boxWidth, (rx.1, ry.1, rz.1), (rx.2, ry.2, rz.2)⟩

/-- io/bolshoi.go:195-239 and io/bolshoiP.go:172-216 (`ReadHeader`) on an open file. -/
def bolshoiHeader (val : Nat → K) (o : Order) (s1 s2 : Nat) (file : List Byte) : Option (BOut K) := (bolshoiFront o s1 s2 file).bind fun f => bolshoiOut val f.1 f.2.1

/-- io/bolshoi.go:141-148 (`bolshoiInRange`) and io/bolshoiP.go:159-166 (`vecInRange`). -/
def inBox (hd : BOut K) (x : K × K × K) : Bool := decide (bolshoiIn1 x.1 (hd.origin.1, hd.width.1) ∧ bolshoiIn1 x.2.1 (hd.origin.2.1, hd.width.2.1) ∧ bolshoiIn1 x.2.2 (hd.origin.2.2, hd.width.2.2))

/-- io/bolshoi.go:241-252 and io/bolshoiP.go:218-229 (`MinMass`, `TotalParticles`), `box` the width of the file the buffer was made with. -/
def bolshoiMinMass (box : K) : K :=
  let boxMult := box / 250
  let nTot : K := 2048 * 2048 * 2048
  let nMult := 2048 * 2048 * 2048 / nTot
  135000000 * nMult * boxMult * boxMult * boxMult

/-- A particle as it is returned: position, velocity, mass, id. -/
structure Star (K : Type) where
  x : K × K × K
  v : K × K × K
  m : K
  id : Int

/-- A vector of three words. -/
def vec3 (val : Nat → K) (l : List Nat) : K × K × K := (val (l.getD 0 0), val (l.getD 1 0), val (l.getD 2 0))

/-! Bolshoi -/

/-- A particle in `pBuf`: position, velocity, id. -/
abbrev BP (K : Type) := (K × K × K) × (K × K × K) × Int

/-- io/bolshoi.go:124-139 (`filterBolshoiParticles`): the loop, in place: the slice and `j` after the pass over element `i`. -/
def bolshoiKeep (hd : BOut K) (conv : K → K) (s : List (BP K) × Nat) (i : Nat) : List (BP K) × Nat :=
  match s.1[i]? with
  | none => s
  | some pp =>
    let pp := ((conv pp.1.1, conv pp.1.2.1, conv pp.1.2.2), pp.2)
    if inBox hd pp.1 then (s.1.set s.2 pp, s.2 + 1) else s

/-- io/bolshoi.go:74-111 and 150-171 (`Read`, `filterBolshoiParticles`, `postprocessBolshoi`) on an open file, of a buffer that was made with a file of width `box0`; `none` is a panic.  (The output buffers are
expanded to the number of particles and every element is set.) -/
def bolshoiRead (val : Nat → K) (sys o : Order) (rw : Nat) (box0 : K) (mem file : List Byte) : Option (List (Star K)) :=
  (bolshoiRaw sys o rw mem file).bind fun ps => (bolshoiFront o 44 20 file).bind fun f => (bolshoiHeader val o 44 20 file).map fun hd =>
    let conv := fun x => (x - 1) * (val f.1.boxWidth / (f.1.nGridCells : K))
    let kept := (List.range ps.length).foldl (bolshoiKeep hd conv) (ps.map fun p => (vec3 val p.x, vec3 val p.v, p.id), 0)
    let scale := 1 / (1 + hd.z)
    (kept.1.take kept.2).map fun p => ⟨p.1, (p.2.1.1 * scale, p.2.1.2.1 * scale, p.2.1.2.2 * scale), bolshoiMinMass box0, p.2.2⟩

/-! BolshoiP -/

/-- The memory of the buffers that are read from a BolshoiP file (io/bolshoiP.go:12-22). -/
structure PMem where
  x0 : List Byte
  x1 : List Byte
  x2 : List Byte
  v0 : List Byte
  v1 : List Byte
  v2 : List Byte
  wp : List Byte
  ids : List Byte

/-- io/io.go:170-241 into the slice `buf[nRead: nRead+m]` of words of `k` bytes (4: `readFloat32AsByte`, 8: `readInt64AsByte`; errors are dropped): the memory and the rest of the file. -/
def readInto (sys o : Order) (rw k nRead m : Nat) (mem rest : List Byte) : List Byte × List Byte :=
  let slice := (mem.take ((nRead + m) * k)).drop (nRead * k)
  let q := if k = 8 then readInt64AsByte sys o rw m slice rest else readInt32AsByte sys o rw m slice rest
  (copyTo mem (nRead * k) ((nRead + m) * k) q.2.1, q.2.2)

/-- io/bolshoiP.go:98-119: the loop over the blocks.  (Simplification as in `bolshoiLoop`: a block that runs over `nPart` panics.) -/
def pLoop (sys o : Order) (rw nPart : Nat) : Nat → Nat → PMem → List Byte → Option PMem
  | 0, _, _, _ => none
  | fuel + 1, nRead, s, rest =>
    if nRead < nPart then
      (fortranRead o 4 rest).bind fun b =>
        if getInt o b.1 < 0 ∨ nRead + getInt o b.1 > nPart then none
        else
          let m := (getInt o b.1).toNat
          (readInt32 o b.2).bind fun r1 =>
            let x0 := readInto sys o rw 4 nRead m s.x0 r1.2
            let x1 := readInto sys o rw 4 nRead m s.x1 x0.2
            let x2 := readInto sys o rw 4 nRead m s.x2 x1.2
            (readInt32 o x2.2).bind fun r2 => (readInt32 o r2.2).bind fun r3 =>
              let v0 := readInto sys o rw 4 nRead m s.v0 r3.2
              let v1 := readInto sys o rw 4 nRead m s.v1 v0.2
              let v2 := readInto sys o rw 4 nRead m s.v2 v1.2
              (readInt32 o v2.2).bind fun r4 => (readInt32 o r4.2).bind fun r5 =>
                let wp := readInto sys o rw 4 nRead m s.wp r5.2
                let ids := readInto sys o rw 8 nRead m s.ids wp.2
                (readInt32 o ids.2).bind fun r6 => pLoop sys o rw nPart fuel (nRead + m) ⟨x0.1, x1.1, x2.1, v0.1, v1.1, v2.1, wp.1, ids.1⟩ r6.2
    else some s

/-- The output buffers of a BolshoiP reader (io/bolshoiP.go:19-21). -/
structure PBufs (K : Type) where
  xs : List (K × K × K)
  vs : List (K × K × K)
  ms : List K
  ids : List Int
  j : Nat

/-- io/bolshoiP.go:125-150: the pass of the loop over particle `i`, in place; `x i` and `v i` are the words that were read. -/
def pKeep (hd : BOut K) (scale mp : K) (x v : Nat → K × K × K) (s : PBufs K) (i : Nat) : PBufs K :=
  let xs := s.xs.set i (x i)
  let vs := s.vs.set i (v i)
  let xi := xs.getD i (0, 0, 0)
  if inBox hd xi then
    let vi := vs.getD i (0, 0, 0)
    ⟨xs.set s.j xi, vs.set s.j (scale * vi.1, scale * vi.2.1, scale * vi.2.2), s.ms.set s.j mp, s.ids.set s.j (s.ids.getD i 0), s.j + 1⟩
  else ⟨xs, vs, s.ms, s.ids, s.j⟩

/-- io/bolshoiP.go:68-156 (`Read`) on an open file; `old` is the memory of the words, `oldX`, `oldV`, `oldM` that of the output; `none` is a panic. -/
def bolshoiPRead (val : Nat → K) (sys o : Order) (rw : Nat) (old : PMem) (oldX oldV : List (K × K × K)) (oldM : List K) (file : List Byte) : Option (List (Star K)) :=
  (bolshoiFront o 48 24 file).bind fun f =>
    if f.2.1 < 0 then none
    else
      let n := f.2.1.toNat
      (pLoop sys o rw n (file.length + 1) 0 ⟨expand 4 n old.x0, expand 4 n old.x1, expand 4 n old.x2, expand 4 n old.v0, expand 4 n old.v1, expand 4 n old.v2, expand 4 n old.wp, expand 8 n old.ids⟩ f.2.2).bind fun mem =>
        (bolshoiHeader val o 48 24 file).map fun hd =>
          let w := fun (l : List Byte) i => val ((words sys 4 n l).getD i 0)
          let s := (List.range n).foldl (pKeep hd (1 / (1 + hd.z)) (val f.1.mass) (fun i => (w mem.x0 i, w mem.x1 i, w mem.x2 i)) (fun i => (w mem.v0 i, w mem.v1 i, w mem.v2 i)))
            ⟨Artio.expand (0, 0, 0) n oldX, Artio.expand (0, 0, 0) n oldV, Artio.expand 0 n oldM, (words sys 8 n mem.ids).map (signed 8), 0⟩
          (List.range s.j).map fun i => ⟨s.xs.getD i (0, 0, 0), s.vs.getD i (0, 0, 0), s.ms.getD i 0, s.ids.getD i 0⟩

end Shellfish.Io
