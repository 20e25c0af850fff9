/-
Model of the particle readers of io/: io/io.go, io/lgadget2.go, io/gadget2.go and io/gotetra.go.  Files are byte strings; numbers are bit patterns (natural numbers) until
they are computed with.  `none` of the reading steps is a panic.  `os.File.Read` delivers at most `rw` bytes in one call (Go: 1 GiB) and less at the end of the file.
-/
import Verif.Model.Bytes
import Verif.Model.Memo

namespace Shellfish.Io
open Shellfish.Bytes (Byte Order getNat getInt signed pieces)
open Shellfish.Memo (Out)

/-! Byte order (io/io.go) -/

/-- `l[i], l[j] = l[j], l[i]`.  (An index out of range panics; all calls below stay inside of the slice.) -/
def swapAt (l : List Byte) (i j : Nat) : List Byte :=
  match l[i]?, l[j]? with
  | some a, some b => (l.set i b).set j a
  | _, _ => l

/-- io/io.go:105-108: the inner loop of `reorder`, up to `h`. -/
def reorderWord (size word h : Nat) (l : List Byte) : List Byte := (List.range h).foldl (fun l i => swapAt l (word * size + i) ((word + 1) * size - (i + 1))) l

/-- io/io.go:100-107 (`reorder`). -/
def reorder (l : List Byte) (size words : Nat) : List Byte := (List.range words).foldl (fun l word => reorderWord size word (size / 2) l) l

/-- io/io.go:157-162 (`n` = 3 len(buf)), 206-211 and 233-238: the swapping loops of `readVecAsByte`, `readInt32AsByte` and `readFloat32AsByte`. -/
def swap4 (l : List Byte) (n : Nat) : List Byte := (List.range n).foldl (fun l i => (List.range 2).foldl (fun l j => swapAt l (i * 4 + j) (i * 4 + 3 - j)) l) l

/-- io/io.go:181-186: the swapping loop of `readInt64AsByte`. -/
def swap8 (l : List Byte) (n : Nat) : List Byte := (List.range n).foldl (fun l i => (List.range 4).foldl (fun l j => swapAt l (i * 8 + j) (i * 8 + 7 - j)) l) l

/-- `os.File.Read` into a slice of `len` bytes: the bytes (`none`: io.EOF) and the rest of the file. -/
def fileRead (rw len : Nat) (rest : List Byte) : Option (List Byte) × List Byte :=
  if len = 0 then (some [], rest) else if rest = [] then (none, []) else (some (rest.take (min len rw)), rest.drop (min len rw))

/-- The common shape of io/io.go:139-241: the memory of the buffer (`mem`) is overwritten as far as one `Read` call goes and then swapped.  The result is the error flag, the
memory and the rest of the file. -/
def readAsByte (sys o : Order) (rw len : Nat) (swap : List Byte → List Byte) (mem rest : List Byte) : Bool × List Byte × List Byte :=
  match fileRead rw len rest with
  | (none, r) => (true, mem, r)
  | (some got, r) => (false, if o = sys then got ++ mem.drop got.length else swap (got ++ mem.drop got.length), r)

/-- io/io.go:138-164 (`readVecAsByte`) for `n` vectors. -/
def readVecAsByte (sys o : Order) (rw n : Nat) (mem rest : List Byte) : Bool × List Byte × List Byte := readAsByte sys o rw (12 * n) (fun l => swap4 l (n * 3)) mem rest

/-- io/io.go:166-192 (`readInt64AsByte`). -/
def readInt64AsByte (sys o : Order) (rw n : Nat) (mem rest : List Byte) : Bool × List Byte × List Byte := readAsByte sys o rw (8 * n) (fun l => swap8 l n) mem rest

/-- io/io.go:195-218 (`readInt32AsByte`; lines 220-241, `readFloat32AsByte`, are the same). -/
def readInt32AsByte (sys o : Order) (rw n : Nat) (mem rest : List Byte) : Bool × List Byte × List Byte := readAsByte sys o rw (4 * n) (fun l => swap4 l n) mem rest

/-- The slice `l[a:b]` is changed in place. -/
def onSlice (l : List Byte) (a b : Nat) (f : List Byte → List Byte) : List Byte := l.take a ++ f ((l.take b).drop a) ++ l.drop b

/-- io/io.go:124-129: the swapping loop of `readBolshoiParticleAsByte`. -/
def swapBolshoi (l : List Byte) (n : Nat) : List Byte :=
  (List.range n).foldl (fun l i => onSlice (onSlice l (i * 32) (i * 32 + 24) fun s => reorder s 4 6) (i * 32 + 24) (i * 32 + 24 + 8) fun s => reorder s 8 1) l

/-- io/io.go:109-136 (`readBolshoiParticleAsByte`). -/
def readBolshoiParticleAsByte (sys o : Order) (rw n : Nat) (mem rest : List Byte) : Bool × List Byte × List Byte := readAsByte sys o rw (32 * n) (fun l => swapBolshoi l n) mem rest

/-- The first `n` words of `k` bytes of the memory, as the program sees them. -/
def words (sys : Order) (k n : Nat) (mem : List Byte) : List Nat := (pieces k n mem).map (getNat sys)

/-- The list in groups of three. -/
def triples : List Nat → List (List Nat)
  | a :: b :: c :: rest => [a, b, c] :: triples rest
  | _ => []

/-- io/lgadget2.go:62-68 (`readInt32`): `none` is the panic at the end of the file. -/
def readInt32 (o : Order) (rest : List Byte) : Option (Int × List Byte) := if rest.length < 4 then none else some (getInt o (rest.take 4), rest.drop 4)

/-- io/lgadget2.go:153-186 (`expandVectors`, `expandScalars`, `expandInts`) for elements of `k` bytes; the list is the memory up to the capacity.  (Simplification: `append`
may leave more capacity than needed.) -/
def expand (k n : Nat) (mem : List Byte) : List Byte :=
  if n * k ≤ mem.length then mem.take (n * k)
  else if mem.length / k * 3 / 2 > n then mem ++ List.replicate (n * k - mem.length) 0
  else List.replicate (n * k) 0

/-! Gadget-2 (io/gadget2.go) -/

/-- io/gadget2.go:11-24 (`gadget2Header`; io/lgadget2.go:12-23 has the same layout up to the last fields), without the flags and the padding. -/
structure GHeader where
  nPart : List Nat
  mass : List Nat
  time : Nat
  redshift : Nat
  numPartTotal : List Nat
  boxSize : Nat
  omega0 : Nat
  omegaLambda : Nat
  hubbleParam : Nat
  numPartTotalHW : List Nat
deriving DecidableEq

/-- `k`-byte fields of a header, from byte `a` on -/
def fields (o : Order) (bs : List Byte) (a k n : Nat) : List Nat := (List.range n).map fun i => getNat o ((bs.drop (a + k * i)).take k)

/-- `binary.Read` of the 256 bytes of a header. -/
def GHeader.parse (o : Order) (bs : List Byte) : GHeader :=
  ⟨fields o bs 0 4 6, fields o bs 24 8 6, getNat o ((bs.drop 72).take 8), getNat o ((bs.drop 80).take 8), fields o bs 96 4 6, getNat o ((bs.drop 128).take 8), getNat o ((bs.drop 136).take 8),
    getNat o ((bs.drop 144).take 8), getNat o ((bs.drop 152).take 8), fields o bs 168 4 6⟩

/-- The zero value of a header. -/
def GHeader.zero : GHeader := ⟨List.replicate 6 0, List.replicate 6 0, 0, 0, List.replicate 6 0, 0, 0, 0, 0, List.replicate 6 0⟩

/-- io/gadget2.go:85 (`binary.Read(f, order, gh)` with the error ignored). -/
def readHeader (o : Order) (rest : List Byte) : GHeader × List Byte := if rest.length < 256 then (.zero, []) else (.parse o (rest.take 256), rest.drop 256)

/-- io/gadget2.go:50-62 (`readGadget2Header`; io/lgadget2.go:72-84 is the same): the header is always read in little endian order. -/
def readFileHeader (o : Order) (file : List Byte) : Out GHeader :=
  match readInt32 o file with
  | none => .panic
  | some (_, r) => if r.length < 256 then .error else .ok (GHeader.parse .little (r.take 256))

/-- io/gadget2.go:147-152 (`isMultiMass`). -/
def isMultiMass (single : List Int) (i : Nat) : Bool := !single.any fun j => j = (i : Int)

/-- io/gadget2.go:154-159 (`isDM`). -/
def isDM (dm : List Int) (i : Nat) : Bool := dm.any fun j => j = (i : Int)

/-- io/gadget2.go:161-183 (`particleCount`, `dmCount`, `multiMassParticleCount`), for the types that are counted. -/
def countTypes (p : Nat → Bool) (nPart : List Nat) : Nat := (nPart.zipIdx.map fun c => if p c.2 then c.1 else 0).sum

/-- io/gadget2.go:190-201, 219-229 and others: the offsets of the types that `p` counts. -/
def offsets (p : Nat → Bool) (nPart : List Nat) : List Nat := (List.range (nPart.length + 1)).map fun i => countTypes p (nPart.take i)

/-- `copy(l[a:b], src)`, `src` a copy of as many elements. -/
def copyTo {α : Type} (l : List α) (a b : Nat) (src : List α) : List α := l.take a ++ src ++ l.drop b

/-- io/gadget2.go:218-239 (`packVec`), 241-262 (`packInt64`) and 264-285 (`packFloat32`). -/
def pack {α : Type} (nPart : List Nat) (dm : List Int) (buf : List α) : List α :=
  (List.range 6).foldl (fun buf i =>
    if isDM dm i then
      copyTo buf ((offsets (isDM dm) nPart).getD i 0) ((offsets (isDM dm) nPart).getD (i + 1) 0)
        ((buf.take ((offsets (fun _ => true) nPart).getD (i + 1) 0)).drop ((offsets (fun _ => true) nPart).getD i 0))
    else buf) buf

/-- io/gadget2.go:185-216 (`unpackMass`); `to32` converts float64 to float32. -/
def unpackMass (to32 : Nat → Nat) (gh : GHeader) (single : List Int) (multiMs ms : List Nat) : List Nat :=
  (List.range 6).foldl (fun ms i =>
    copyTo ms ((offsets (fun _ => true) gh.nPart).getD i 0) ((offsets (fun _ => true) gh.nPart).getD (i + 1) 0)
      (if isMultiMass single i then (multiMs.take ((offsets (isMultiMass single) gh.nPart).getD (i + 1) 0)).drop ((offsets (isMultiMass single) gh.nPart).getD i 0)
       else List.replicate (gh.nPart.getD i 0) (to32 (gh.mass.getD i 0)))) ms

/-- The memory of the five buffers. -/
structure Mem where
  xs : List Byte
  vs : List Byte
  ids : List Byte
  ms : List Byte
  multi : List Byte

/-- The arrays before periodicity and units are fixed; ids are signed. -/
structure Raw where
  header : GHeader
  xs : List (List Nat)
  vs : List (List Nat)
  ids : List Int
  ms : List Nat
deriving DecidableEq

/-- io/gadget2.go:110-121: the block of ids with a record length of `size`; an unknown size leaves memory and file position alone.  The second list is the rest of the file. -/
def readIds (sys o : Order) (rw total : Nat) (size : Int) (mem rest : List Byte) : List Int × List Byte :=
  if Int.tdiv size total = 8 then
    ((words sys 8 total (readInt64AsByte sys o rw total mem rest).2.1).map (Shellfish.Bytes.signed 8), (readInt64AsByte sys o rw total mem rest).2.2)
  else if Int.tdiv size total = 4 then
    ((words sys 4 total (readInt32AsByte sys o rw total (List.replicate (total * 4) 0) rest).2.1).map (Shellfish.Bytes.signed 4),
      (readInt32AsByte sys o rw total (List.replicate (total * 4) 0) rest).2.2)
  else ((words sys 8 total mem).map (Shellfish.Bytes.signed 8), rest)

/-- io/gadget2.go:122-144: masses, after the ids. -/
def gadget2Masses (sys o : Order) (rw : Nat) (to32 : Nat → Nat) (dm single : List Int) (mem : Mem) (gh : GHeader) (xs vs : List (List Nat)) (ids : List Int) (rest : List Byte) : Option Raw :=
  (readInt32 o rest).bind fun s7 => (readInt32 o s7.2).bind fun s8 =>
    (readInt32 o (readInt32AsByte sys o rw (countTypes (isMultiMass single) gh.nPart) (expand 4 (countTypes (isMultiMass single) gh.nPart) mem.multi) s8.2).2.2).bind fun _ =>
      some ⟨gh, (pack gh.nPart dm xs).take (countTypes (isDM dm) gh.nPart), (pack gh.nPart dm vs).take (countTypes (isDM dm) gh.nPart),
        (pack gh.nPart dm ids).take (countTypes (isDM dm) gh.nPart),
        (pack gh.nPart dm (unpackMass to32 gh single
          (words sys 4 (countTypes (isMultiMass single) gh.nPart)
            (readInt32AsByte sys o rw (countTypes (isMultiMass single) gh.nPart) (expand 4 (countTypes (isMultiMass single) gh.nPart) mem.multi) s8.2).2.1)
          (words sys 4 (countTypes (fun _ => true) gh.nPart) (expand 4 (countTypes (fun _ => true) gh.nPart) mem.ms)))).take (countTypes (isDM dm) gh.nPart)⟩

/-- io/gadget2.go:64-144 (`readGadget2Particles`) up to the call of `fix`; `file` is the open file. -/
def gadget2Raw (sys o : Order) (rw : Nat) (to32 : Nat → Nat) (dm single : List Int) (mem : Mem) (file : List Byte) : Option Raw :=
  (readInt32 o file).bind fun s0 =>
    (readInt32 o (readHeader o s0.2).2).bind fun s1 =>
      let gh := (readHeader o s0.2).1
      let total := countTypes (fun _ => true) gh.nPart
      (readInt32 o s1.2).bind fun s2 =>
        let a := readVecAsByte sys o rw total (expand 12 total mem.xs) s2.2
        (readInt32 o a.2.2).bind fun s3 => (readInt32 o s3.2).bind fun s4 =>
          let b := readVecAsByte sys o rw total (expand 12 total mem.vs) s4.2
          (readInt32 o b.2.2).bind fun s5 => (readInt32 o s5.2).bind fun s6 =>
            if total = 0 then none
            else
              let i := readIds sys o rw total s6.1 (expand 8 total mem.ids) s6.2
              gadget2Masses sys o rw to32 dm single mem gh (triples (words sys 4 (3 * total) a.2.1)) (triples (words sys 4 (3 * total) b.2.1)) i.1 i.2

/-- io/gadget2.go:42-46 and 34-37: the particle number of the header (an index out of range panics). -/
def headerN (dm : List Int) (gh : GHeader) : Option Nat := (dm.mapM fun i => Shellfish.Finder.get gh.nPart i).map List.sum

/-- io/gadget2.go:404-414 (`TotalParticles`). -/
def totalParticles (dm : List Int) (gh : GHeader) : Option Nat :=
  (dm.mapM fun i => (Shellfish.Finder.get gh.numPartTotal i).bind fun lo => (Shellfish.Finder.get gh.numPartTotalHW i).map fun hi => lo + hi * 2 ^ 32).map List.sum

/-! LGadget-2 (io/lgadget2.go) -/

/-- io/lgadget2.go:42-57 (`lgadgetParticleNum`). -/
def lgadgetNum (npartNum : Int) (npart : List Nat) : Option Nat :=
  if npartNum = 2 then if npart.getD 0 0 > 100000 then none else some (npart.getD 1 0 + npart.getD 0 0 * 2 ^ 32) else some (npart.getD 0 0)

/-- io/lgadget2.go:84-118 (`readLGadget2Particles`) up to the loop that fixes periodicity; the header is always little endian. -/
def lgadget2Raw (sys o : Order) (rw : Nat) (npartNum : Int) (mem : Mem) (file : List Byte) : Option Raw :=
  (readInt32 o file).bind fun s0 =>
    (readInt32 o (readHeader .little s0.2).2).bind fun s1 =>
      let gh := (readHeader .little s0.2).1
      (lgadgetNum npartNum gh.nPart).bind fun count =>
        (readInt32 o s1.2).bind fun s2 =>
          let a := readVecAsByte sys o rw count (expand 12 count mem.xs) s2.2
          (readInt32 o a.2.2).bind fun s3 => (readInt32 o s3.2).bind fun s4 =>
            let b := readVecAsByte sys o rw count (expand 12 count mem.vs) s4.2
            (readInt32 o b.2.2).bind fun s5 => (readInt32 o s5.2).bind fun s6 =>
              let i := readInt64AsByte sys o rw count (expand 8 count mem.ids) s6.2
              some ⟨gh, triples (words sys 4 (3 * count) a.2.1), triples (words sys 4 (3 * count) b.2.1), (words sys 8 count i.2.1).map (Shellfish.Bytes.signed 8), []⟩

/-! Bolshoi (io/bolshoi.go) -/

/-- io/bolshoi.go:177-193 (`fortranRead`) for a value of `size` bytes: the bytes and the rest of the file; `none` is a panic. -/
def fortranRead (o : Order) (size : Nat) (rest : List Byte) : Option (List Byte × List Byte) :=
  (readInt32 o rest).bind fun s1 =>
    if s1.1 ≠ (size : Int) then none else if s1.2.length < size then none
    else (readInt32 o (s1.2.drop size)).bind fun s2 => if s1.1 ≠ s2.1 then none else some (s1.2.take size, s2.2)

/-- io/bolshoi.go:95-101: the loop over the blocks of particles, on the memory of `pBuf`.  Every pass takes bytes from the file, so that `fuel` = length of the file is enough.
(Simplification: a block that runs over `nPart` panics; the program accepts it as long as it fits into the capacity of the buffer.) -/
def bolshoiLoop (sys o : Order) (rw nPart : Nat) : Nat → Nat → List Byte → List Byte → Option (List Byte)
  | 0, _, _, _ => none
  | fuel + 1, nRead, mem, rest =>
    if nRead < nPart then
      (fortranRead o 4 rest).bind fun b =>
        (readInt32 o b.2).bind fun s =>
          if getInt o b.1 < 0 ∨ nRead + getInt o b.1 > nPart then none
          else
            let m := (getInt o b.1).toNat
            let q := readBolshoiParticleAsByte sys o rw m ((mem.take ((nRead + m) * 32)).drop (nRead * 32)) s.2
            (readInt32 o q.2.2).bind fun e => bolshoiLoop sys o rw nPart fuel (nRead + m) (copyTo mem (nRead * 32) ((nRead + m) * 32) q.2.1) e.2
    else some mem

/-- io/bolshoi.go:39-43 (`bolshoiParticle`): position, velocity, id. -/
structure BParticle where
  x : List Nat
  v : List Nat
  id : Int
deriving DecidableEq

/-- A particle in the memory. -/
def BParticle.get (sys : Order) (bs : List Byte) : BParticle := ⟨words sys 4 3 (bs.take 12), words sys 4 3 ((bs.drop 12).take 12), signed 8 (getNat sys ((bs.drop 24).take 8))⟩

/-- io/bolshoi.go:74-101 (`Read`) up to the filter: the particles of the file.  (`expandBolshoiParticles`, lines 113-122, is `expand`.) -/
def bolshoiRaw (sys o : Order) (rw : Nat) (mem file : List Byte) : Option (List BParticle) :=
  (fortranRead o 45 file).bind fun c => (fortranRead o 44 c.2).bind fun b1 => (fortranRead o 20 b1.2).bind fun b2 => (fortranRead o 24 b2.2).bind fun bd =>
    (fortranRead o 4 bd.2).bind fun np =>
      if getInt o np.1 < 0 then none
      else (bolshoiLoop sys o rw (getInt o np.1).toNat (file.length + 1) 0 (expand 32 (getInt o np.1).toNat mem) np.2).map fun m => (pieces 32 (getInt o np.1).toNat m).map (.get sys)

/-! Periodicity and units -/

variable {K : Type} [Field K] [LinearOrder K] [IsStrictOrderedRing K]

/-- io/gadget2.go:300-316 and io/lgadget2.go:127-142, one coordinate (in file units): `none` is the error "Corruption detected".  `rnd` is the rounding of float32; NaN and
infinities are not modelled. -/
def fixCoord (rnd : K → K) (tw x : K) : Option K :=
  let x' := if x < 0 then rnd (x + tw) else if x ≥ tw then rnd (x - tw) else x
  if x' < -tw ∨ x' > 2 * tw then none else some x'

/-- io/gadget2.go:288-321 (`fix`): the positions of all particles; `units` is `GadgetPositionUnits`. -/
def fixAll (rnd : K → K) (tw units : K) (xs : List (List K)) : Option (List (List K)) := xs.mapM fun p => p.mapM fun x => (fixCoord rnd tw x).map fun y => rnd (y * units)

/-! The bounding box -/

/-- io/io.go:273-292, one coordinate of one particle: `(origin, width)` afterwards. -/
def boxStep (tw x : K) (s : K × K) : K × K :=
  if x > s.1 ∧ x < s.1 + s.2 then s
  else
    let x' := if x - s.1 > tw / 2 then x - tw else if x - s.1 < -(tw / 2) then x + tw else x
    if x' < s.1 then (x', s.2 + (s.1 - x')) else if x' - s.1 > s.2 then (s.1, x' - s.1) else s

/-- io/io.go:263-304 (`boundingBox`), one dimension (the three are independent): `none` is the panic for an empty slice. -/
def boundingBox (xs : List K) (tw : K) : Option (K × K) :=
  xs.head?.map fun x0 =>
    let s := xs.foldl (fun s x => boxStep tw x s) (x0, 0)
    if s.2 > tw / 2 then (0, tw) else s

/-! The blocks of a Bolshoi snapshot -/

/-- io/bolshoi.go:219-221 (`ReadHeader`): the integer coordinates of block `k` (counted from 1).  Go's `/` and `%` truncate. -/
def bolshoiCell (k nx ny : Int) : Int × Int × Int := (Int.tmod (k - 1) nx, Int.tmod (Int.tdiv (k - 1) nx) ny, Int.tdiv (k - 1) (nx * ny))

/-- io/bolshoi.go:222-227 (`ReadHeader`): origin and width in one dimension. -/
def bolshoiRange (box : K) (n i : Int) : K × K := (i * (box / n), box / n)

/-- io/bolshoi.go:141-148 (`bolshoiInRange`; io/bolshoiP.go:159-166, `vecInRange`, is the same), one dimension. -/
def bolshoiIn1 (x : K) (r : K × K) : Prop := x > r.1 ∧ x ≤ r.1 + r.2

instance (x : K) (r : K × K) : Decidable (bolshoiIn1 x r) := instDecidableAnd

/-- io/bolshoi.go:130-132: a stored coordinate in Mpc/h, in exact arithmetic. -/
def bolshoiUnits (box : K) (ngrid : Int) (g : K) : K := (g - 1) * (box / ngrid)

/-- io/bolshoi.go:124-148 (`filterBolshoiParticles`, `bolshoiInRange`): the positions kept from block `k`. -/
def bolshoiFilter (box : K) (ngrid nx ny nz k : Int) (ps : List (K × K × K)) : List (K × K × K) :=
  (ps.map fun p => (bolshoiUnits box ngrid p.1, bolshoiUnits box ngrid p.2.1, bolshoiUnits box ngrid p.2.2)).filter fun p =>
    bolshoiIn1 p.1 (bolshoiRange box nx (bolshoiCell k nx ny).1) ∧ bolshoiIn1 p.2.1 (bolshoiRange box ny (bolshoiCell k nx ny).2.1) ∧
      bolshoiIn1 p.2.2 (bolshoiRange box nz (bolshoiCell k nx ny).2.2)

/-! gotetra (io/gotetra.go) -/

/-- io/gotetra.go:106-118 (`rawGotetraHeader`), the fields that are used. -/
structure SheetHeader where
  countWidth : Int
  segmentWidth : Int
  gridWidth : Int
  gridCount : Int
  idx : Int
  cells : Int
  totalWidth : Nat
deriving DecidableEq

/-- `binary.Read` of the 152 bytes of a sheet header. -/
def SheetHeader.parse (o : Order) (bs : List Byte) : SheetHeader :=
  let i := fun a => getInt o ((bs.drop a).take 8)
  ⟨i 40, i 48, i 56, i 64, i 72, i 80, getNat o ((bs.drop 96).take 8)⟩

/-- io/gotetra.go:144-152 (`endianness`). -/
def endianness (flag : Int) : Option Order := if flag = 0 then some .little else if flag = -1 then some .big else none

/-- io/gotetra.go:177-211 (`loadSheetHeader`); `none` is a file that cannot be opened. -/
def loadSheetHeader (file : Option (List Byte)) : Out (SheetHeader × Order) :=
  match file with
  | none => .error
  | some f =>
    match readInt32 .little f with
    | none => .panic
    | some (flag, r) =>
      match endianness flag with
      | none => .panic
      | some o =>
        match readInt32 o r with
        | none => .panic
        | some (size, _) => if size ≠ 152 then .error else if f.length < 8 + 152 then .error else .ok (.parse o ((f.drop 8).take 152), o)

/-- io/gotetra.go:229-250 (`readSheetPositionsAt`) with a buffer of `n` vectors: the outcome and the memory of the buffer afterwards. -/
def readSheet (sys : Order) (rw n : Nat) (mem : List Byte) (file : Option (List Byte)) : Out Unit × List Byte :=
  match loadSheetHeader file with
  | .panic => (.panic, mem)
  | .error => (.ok (), mem)
  | .ok (h, o) =>
    if h.gridCount ≠ (n : Int) then (.error, mem)
    else
      let r := readVecAsByte sys o rw n mem ((file.getD []).drop 160)
      (if r.1 then .error else .ok (), r.2.1)

/-- io/gotetra.go:73-86: the loops of `Read`; `none` is an index out of range. -/
def segment {α : Type} (sw gw : Nat) (sheet : List α) : Option (List α) :=
  ((List.range sw).flatMap fun z => (List.range sw).flatMap fun y => (List.range sw).map fun x => x + y * gw + z * gw * gw).mapM fun gi => sheet[gi]?

/-- io/gotetra.go:60-88 (`Read`), from a buffer made for files with segment width `sw` and grid width `gw`: positions, and the memory of the sheet afterwards. -/
def gotetraRead (sys : Order) (rw sw gw : Nat) (mem : List Byte) (file : Option (List Byte)) : Out (List (List Nat)) × List Byte :=
  let r := readSheet sys rw (gw * gw * gw) mem file
  (match r.1 with
    | .panic => .panic
    | .error => .error
    | .ok () => (match segment sw gw (triples (words sys 4 (3 * (gw * gw * gw)) r.2)) with | none => .panic | some xs => .ok xs), r.2)

/-- io/gotetra.go:128-133 (`fileCoords`). -/
def fileCoords (idx cells : Int) : Int × Int × Int := (Int.tmod idx cells, Int.tmod (Int.tdiv idx cells) cells, Int.tdiv idx (cells * cells))

/-! Open and closed buffers -/

/-- The implementations of `VectorBuffer`. -/
inductive Kind where
  | gotetra
  | artio
  | lgadget2
  | gadget2
  | bolshoi
  | bolshoiP
  | nil
deriving DecidableEq

/-- The calls that concern the state. -/
inductive Call where
  | read
  | close
  | readHeader
deriving DecidableEq

/-- io/gotetra.go:59-98 and 214-226, io/artio.go:99-108, 216-230, io/lgadget2.go:228-267, io/gadget2.go:364-402, io/bolshoi.go:67-180, io/bolshoiP.go:66-168 and
io/nil.go:15-33: the `open` flag after a call (`none`: panic).  (Reads that return an error leave the flag set too.  ReadHeader of the three formats reads and closes the
buffer; the flag of the Bolshoi formats does not exist.  A NilBuffer's ReadHeader does not concern it.) -/
def step (k : Kind) (opened : Bool) (c : Call) : Option Bool :=
  match k, c with
  | .bolshoi, _ | .bolshoiP, _ => some false
  | .nil, .readHeader => some false
  | .nil, _ => none
  | _, .read => if opened then none else some true
  | _, .close => if opened then some false else none
  | .gotetra, .readHeader => some opened
  | _, .readHeader => if opened then none else some false

/-- A history of calls on a new buffer. -/
def history (k : Kind) (cs : List Call) : Option Bool := cs.foldlM (fun s c => step k s c) false

end Shellfish.Io
