/-
Model of io/artio.go: the reader of ARTIO filesets.  The library go-artio is not part of the repository: a fileset is modelled by what its calls deliver (`Fileset`).  Floating
point numbers are elements of an ordered field: there is no rounding.
-/
import Verif.Model.Io
import Verif.Model.Text
import Mathlib.Order.WithBot

namespace Shellfish.Artio
open Shellfish.Text (trim atoi)
open Shellfish.Memo (Out)

abbrev Str := List Char

variable {K : Type} [Field K] [LinearOrder K] [IsStrictOrderedRing K]

/-- A particle of a fileset: the index of its species, the cell of the space filling curve it is stored in, and its position in code units. -/
structure Part (K : Type) where
  species : Nat
  cell : Int
  pos : K × K × K

/-- What the calls of go-artio deliver.  `none` of `hubble`, `auni`, `omegaM`, `omegaL` is a missing key (`HasKey`); `none` of `parts` is an error of `OpenParticles`.  (Simplifications: the number of species
is the number of labels; the other keys are always present; `CountInRange` and `GetPositionsAt` do not fail once the particles are open.) -/
structure Fileset (K : Type) where
  labels : List Str
  masses : List K
  hubble : Option K
  massUnit : K
  lengthUnit : K
  boxSize : K
  auni : Option K
  omegaM : Option K
  omegaL : Option K
  sfcIndex : List Int
  parts : Option (List (Part K))

/-- `h.GetPositionsAt(i, a, b, …)`: the positions of the particles of species `i` in the cells from `a` to `b`. -/
def positionsAt (ps : List (Part K)) (i : Nat) (a b : Int) : List (K × K × K) := (ps.filter fun p => p.species = i ∧ a ≤ p.cell ∧ p.cell ≤ b).map Part.pos

/-- `h.CountInRange(a, b)` for `n` species. -/
def countInRange (ps : List (Part K)) (n : Nat) (a b : Int) : List Nat := (List.range n).map fun i => (positionsAt ps i a b).length

/-- `strings.LastIndex(s, ".")`: the parts before and after the last dot; `none`: there is no dot. -/
def lastDot (s : Str) : Option (Str × Str) :=
  match s.reverse.span (fun c => c != '.') with
  | (_, []) => none
  | (after, _ :: before) => some (before.reverse, after.reverse)

/-- io/artio.go:82-99 (`parseARTIOFilename`); `none` is the error. -/
def parseFilename (fname : Str) : Option (Str × Int) :=
  match lastDot fname with
  | none => none
  | some (fileset, block) => if block = [] then none else (atoi (trim (fun c => c == 'p') block)).map fun b => (fileset, b)

/-- io/artio.go:196-208 (`nBodyFlags`): the counter is increased for every species. -/
def nBodyFlags (labels : List Str) : Option (List Bool) :=
  let isNBody := labels.map fun l => decide (l = "N-BODY".toList)
  let nBodyCount := labels.length
  if nBodyCount = 0 then none else some isNBody

/-- io/artio.go:22-32 (`ARTIOBuffer`), with the memory of the slices; `idsBuf` is never set. -/
structure Buffer (K : Type) where
  opened : Bool
  xsBuf : List (K × K × K)
  msBuf : List K
  xsBufs : List (List (K × K × K))
  msBufs : List (List K)
  sMasses : List K
  sFlags : List Bool
  fileset : Str

/-- cosmo/const.go:5, 6. -/
def mpcMks : K := 308560 * 10 ^ 17
/-- cosmo/const.go:6. -/
def mSunMks : K := 198900 * 10 ^ 25

/-- io/artio.go:49-60, 172-183 and 233-244: the Hubble parameter; 0.7 if the header does not have it (`emulateHubble` is true). -/
def h100 (fs : Fileset K) : K := fs.hubble.getD (7 / 10)

/-- io/artio.go:61-62. -/
def massUnit (fs : Fileset K) : K := h100 fs / (mSunMks * 1000) * fs.massUnit

/-- io/artio.go:185-186 and 246-247. -/
def lengthUnit (fs : Fileset K) : K := h100 fs / (mpcMks * 100) * fs.lengthUnit

/-- io/artio.go:34-80 (`NewARTIOBuffer`); `disk` has the filesets that can be opened. -/
def newBuffer (disk : Str → Option (Fileset K)) (filename : Str) : Out (Buffer K) :=
  match parseFilename filename with
  | none => .error
  | some (fileset, _) =>
    match disk fileset with
    | none => .error
    | some fs =>
      match nBodyFlags fs.labels with
      | none => .error
      | some flags =>
        .ok ⟨false, [], [], List.replicate fs.labels.length [], List.replicate fs.labels.length [], fs.masses.map fun m => m * massUnit fs, flags, fileset⟩

/-- io/lgadget2.go:153-175 (`expandVectors`, `expandScalars`) on the memory of a slice. -/
def expand {α : Type} (zero : α) (n : Nat) (mem : List α) : List α :=
  if n ≤ mem.length then mem.take n else if mem.length * 3 / 2 > n then mem ++ List.replicate (n - mem.length) zero else List.replicate n zero

/-- io/artio.go:141-158: the loop over the species, on the buffers of the species; `none` is an index out of range. -/
def fillSpecies (ps : List (Part K)) (flags : List Bool) (sMasses : List K) (a b : Int) : Nat → List Nat → List (List (K × K × K)) → List (List K) → Option (List (List (K × K × K)) × List (List K) × Nat)
  | _, [], xsBufs, msBufs => some (xsBufs, msBufs, 0)
  | i, c :: cs, xsBufs, msBufs =>
    match flags[i]? with
    | none => none
    | some false => fillSpecies ps flags sMasses a b (i + 1) cs xsBufs msBufs
    | some true =>
      match xsBufs[i]?, msBufs[i]?, (if c = 0 then some 0 else sMasses[i]?) with
      | some _, some _, some m =>
        (fillSpecies ps flags sMasses a b (i + 1) cs (xsBufs.set i (positionsAt ps i a b)) (msBufs.set i (List.replicate c m))).map fun r => (r.1, r.2.1, c + r.2.2)
      | _, _, _ => none

/-- io/artio.go:161-170: one element after the other is copied to the output; `none` is an index out of range. -/
def copyOut {α : Type} (out : List α) (bufs : List (List α)) : Option (List α) := if bufs.flatten.length > out.length then none else some (bufs.flatten ++ out.drop bufs.flatten.length)

/-- What `Read` returns; the velocities are nil and the ids are the empty `idsBuf`. -/
structure Result (K : Type) where
  xs : List (K × K × K)
  vs : List (K × K × K)
  ms : List K
  ids : List Int

/-- io/artio.go:187-191. -/
def scale (u : K) (x : K × K × K) : K × K × K := (x.1 * u, x.2.1 * u, x.2.2 * u)

/-- io/artio.go:101-194 (`Read`): the outcome and the buffer afterwards.  The fileset is that of the buffer: only the number of the block is taken from the name. -/
def read (disk : Str → Option (Fileset K)) (buf : Buffer K) (filename : Str) : Out (Result K) × Buffer K :=
  if buf.opened then (.panic, buf)
  else
    let buf := { buf with opened := true }
    match disk buf.fileset with
    | none => (.error, buf)
    | some fs =>
      match fs.parts with
      | none => (.error, buf)
      | some ps =>
        match nBodyFlags fs.labels with
        | none => (.error, buf)
        | some flags =>
          match parseFilename filename with
          | none => (.error, buf)
          | some (_, fIdx) =>
            if fIdx < 0 then (.panic, buf)
            else
              match fs.sfcIndex[fIdx.toNat]?, fs.sfcIndex[fIdx.toNat + 1]? with
              | some start, some next =>
                match fillSpecies ps flags buf.sMasses start (next - 1) 0 (countInRange ps fs.labels.length start (next - 1)) buf.xsBufs buf.msBufs with
                | none => (.panic, buf)
                | some (xsBufs, msBufs, totCount) =>
                  match copyOut (expand (0, 0, 0) totCount buf.xsBuf) xsBufs, copyOut (expand 0 totCount buf.msBuf) msBufs with
                  | some xs, some ms =>
                    (.ok ⟨xs.map (scale (lengthUnit fs)), [], ms, []⟩, ⟨true, xs.map (scale (lengthUnit fs)), ms, xsBufs, msBufs, buf.sMasses, buf.sFlags, buf.fileset⟩)
                  | _, _ => (.panic, buf)
              | _, _ => (.panic, buf)

/-- io/artio.go:210-215 (`Close`). -/
def close (buf : Buffer K) : Option (Buffer K) := if buf.opened then some { buf with opened := false } else none

/-- io/artio.go:293-301 (`MinMass`); `⊤` is `math.Inf(+1)`.  (`sFlags` is as long as the species; `sMasses` longer than it would be an index out of range.) -/
def minMass (buf : Buffer K) : WithTop K := (buf.sMasses.zip buf.sFlags).foldl (fun m s => if s.2 = true ∧ (s.1 : WithTop K) < m then (s.1 : WithTop K) else m) ⊤

/-- The fields of `Header` that `ReadHeader` sets. -/
structure Header (K : Type) where
  totalWidth : K
  origin : K × K × K
  width : K × K × K
  n : Nat
  z : K
  omegaM : K
  omegaL : K
  h100 : K

/-- io/io.go:263-304 (`boundingBox`) in three dimensions. -/
def box (xs : List (K × K × K)) (tw : K) : Option ((K × K × K) × (K × K × K)) :=
  match Io.boundingBox (xs.map fun p => p.1) tw, Io.boundingBox (xs.map fun p => p.2.1) tw, Io.boundingBox (xs.map fun p => p.2.2) tw with
  | some a, some b, some c => some ((a.1, b.1, c.1), (a.2, b.2, c.2))
  | _, _, _ => none

/-- io/artio.go:221-291 (`ReadHeader`): the error of `Read` is overwritten by that of `FilesetOpen`; the buffer is closed at the end.  (`panic` is also the access to the missing key "hubble" in line 283.) -/
def readHeader (disk : Str → Option (Fileset K)) (buf : Buffer K) (filename : Str) : Out (Header K) × Buffer K :=
  match read disk buf filename with
  | (.panic, b) => (.panic, b)
  | (r, b) =>
    let xs := match r with | .ok r => r.xs | _ => []
    let b := { b with opened := false }
    match disk buf.fileset with
    | none => (.error, b)
    | some fs =>
      let tw := fs.boxSize * lengthUnit fs
      if tw < 1 / 1000 ∨ tw > 10 ^ 6 then (.error, b)
      else
        match box xs tw with
        | none => (.panic, b)
        | some (o, w) =>
          match fs.auni, fs.omegaM, fs.omegaL with
          | some a, some om, some ol =>
            match fs.hubble with
            | none => (.panic, b)
            | some h => if h > 10 then (.panic, b) else (.ok ⟨tw, o, w, xs.length, 1 / a - 1, om, ol, h⟩, b)
          | _, _, _ => (.error, b)

/-- One call on a buffer; the results are dropped, panics end the program. -/
inductive Call where
  | read (fname : Str)
  | readHeader (fname : Str)
  | close

/-- The buffer after a call; `none` is a panic. -/
def step (disk : Str → Option (Fileset K)) (buf : Buffer K) : Call → Option (Buffer K)
  | .read f => match read disk buf f with | (.panic, _) => none | (_, b) => some b
  | .readHeader f => match readHeader disk buf f with | (.panic, _) => none | (_, b) => some b
  | .close => close buf

end Shellfish.Artio
