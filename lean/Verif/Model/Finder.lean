/-
Model of cmd/halo/grid.go, cmd/halo/finder.go and cmd/halo/split_finder.go.  Coordinates and radii are elements of an arbitrary ordered field with a floor
function (exact arithmetic instead of float64).  The three coordinate slices have the same length and are one list of points.  `none` is a panic.
-/
import Verif.Model.Ring
import Mathlib.Data.List.Sort

namespace Shellfish.Finder
open Shellfish.Los (modf)

variable {K : Type} [Field K] [LinearOrder K] [IsStrictOrderedRing K] [FloorRing K]

structure Point (K : Type) where
  x : K
  y : K
  z : K

/-- cmd/halo/grid.go:7-15 (`Grid`); `tail` is -1. -/
structure Grid (K : Type) where
  cells : Nat
  cw : K
  width : K
  heads : List Int
  next : List Int

/-- cmd/halo/grid.go:17-31 (`NewGrid`). -/
def newGrid (cells : Nat) (width : K) (dataLen : Nat) : Grid K :=
  ⟨cells, width / (cells : K), width, List.replicate (cells * cells * cells) (-1), List.replicate dataLen 0⟩

/-- Index into a slice with an int; `none` is the index panic. -/
def get {α : Type} (l : List α) (i : Int) : Option α := if i < 0 then none else l[i.toNat]?

/-- Assignment `l[i] = a` with an int index. -/
def put {α : Type} (l : List α) (i : Int) (a : α) : Option (List α) := if 0 ≤ i ∧ i < l.length then some (l.set i.toNat a) else none

/-- cmd/halo/grid.go:47-61: one coordinate is moved into the box. -/
def wrapIn (x width : K) : K := if width ≤ x then x - width else if x < 0 then x + width else x

/-- Conversion to int: truncation. -/
def toInt (x : K) : Int := (modf x).1

/-- cmd/halo/grid.go:63-64: the cell of a point. -/
def cellOf (g : Grid K) (p : Point K) : Int :=
  toInt (wrapIn p.x g.width / g.cw) + toInt (wrapIn p.y g.width / g.cw) * (g.cells : Int) + toInt (wrapIn p.z g.width / g.cw) * (g.cells : Int) * (g.cells : Int)

/-- cmd/halo/grid.go:66-67: one turn of the loop of `Insert`. -/
def insertOne (g : Grid K) (i : Nat) (p : Point K) : Option (Grid K) :=
  (get g.heads (cellOf g p)).bind fun h =>
    (put g.next i h).bind fun next => (put g.heads (cellOf g p) (i : Int)).map fun heads => { g with heads := heads, next := next }

/-- cmd/halo/grid.go:43-69 (`Insert`), from index `i` on. -/
def insertFrom (g : Grid K) : Nat → List (Point K) → Option (Grid K)
  | _, [] => some g
  | i, p :: ps => (insertOne g i p).bind fun g' => insertFrom g' (i + 1) ps

/-- cmd/halo/grid.go:43-69 (`Insert`). -/
def insert (g : Grid K) (ps : List (Point K)) : Option (Grid K) := insertFrom g 0 ps

/-- cmd/halo/grid.go:91-97: the loop of `ReadIndexes`; `room` is what is left of the buffer, whose end makes line 94 panic. -/
def readLoop (next : List Int) : Nat → Int → Option (List Int)
  | room, cur =>
    if cur = -1 then some []
    else match room with
      | 0 => none
      | room + 1 => (get next cur).bind fun nx => (readLoop next room nx).map fun l => cur :: l

/-- cmd/halo/grid.go:87-100 (`ReadIndexes`) with a buffer of capacity `cap`. -/
def readIndexes (g : Grid K) (idx : Int) (cap : Nat) : Option (List Int) := (get g.heads idx).bind fun h => readLoop g.next cap h

/-- cmd/halo/grid.go:33-41 (`Length`); a chain of more than `len(Next)` links is circular, and the loop of the code does not end: `none`. -/
def length (g : Grid K) (idx : Int) : Option Nat := ((get g.heads idx).bind fun h => readLoop g.next g.next.length h).map List.length

/-- cmd/halo/grid.go:75-84 (`MaxLength`). -/
def maxLength (g : Grid K) : Option Nat := (List.range g.heads.length).foldlM (fun m (i : Nat) => (length g (i : Int)).map fun l => if l > m then l else m) 0

/-- cmd/halo/finder.go:15-17 (`Bounds`), one dimension. -/
structure Span where
  origin : Int
  span : Int

/-- cmd/halo/finder.go:22-31 (`SphereBounds`), one dimension. -/
def sphereBounds (pos r cw width : K) : Span :=
  let lo := if pos - r < 0 then pos - r + width else pos - r
  let hi := if pos - r < 0 then pos + r + width else pos + r
  ⟨toInt (lo / cw), toInt (hi / cw) - toInt (lo / cw) + 1⟩

/-- cmd/halo/finder.go:102-105, 108-111 and 114-117: the periodic cell number. -/
def wrapCell (i : Int) (c : Nat) : Int := if (c : Int) ≤ i then i - c else i

/-- The cell numbers that one of the loops of cmd/halo/finder.go:101-117 takes on. -/
def cellsOf (b : Span) (c : Nat) : List Int := (List.range b.span.toNat).map fun d : Nat => wrapCell (b.origin + (d : Int)) c

/-- cmd/halo/finder.go:101-119 (and cmd/halo/split_finder.go:53-69): the cells that are read. -/
def visits (bx by_ bz : Span) (c : Nat) : List Int :=
  (cellsOf bz c).flatMap fun z => (cellsOf by_ c).flatMap fun y => (cellsOf bx c).map fun x => z * c * c + y * c + x

/-- cmd/halo/finder.go:248-253: a displacement is moved to the nearest image. -/
def nearest (d L : K) : K :=
  let d1 := if d > L / 2 then d - L else d
  if d1 < -L / 2 then d1 + L else d1

/-- cmd/halo/finder.go:245-255 (and cmd/halo/split_finder.go:81-92): the squared distance. -/
def dist2 (p q : Point K) (L : K) : K :=
  nearest (p.x - q.x) L * nearest (p.x - q.x) L + nearest (p.y - q.y) L * nearest (p.y - q.y) L + nearest (p.z - q.z) L * nearest (p.z - q.z) L

/-- cmd/halo/finder.go:236-259 (`markSubhalos`): what is appended for the indices `idxs`. -/
def mark (ps : List (Point K)) (ih : Nat) (h : Point K) (r L : K) (idxs : List Int) : Option (List Int) :=
  (idxs.mapM fun j => if j ≤ (ih : Int) then some none else (get ps j).map fun q => if r * r ≥ dist2 h q L then some j else none).map fun l => l.filterMap id

/-- cmd/halo/finder.go:261-272 (`cumulativeMax`): suffix maxima; panics on an empty slice. -/
def suffixMax : List K → List K
  | [] => []
  | x :: xs => (match suffixMax xs with | [] => x | m :: _ => if x > m then x else m) :: suffixMax xs

/-- cmd/halo/finder.go:88-123: what halo `ih` appends. -/
def searchOne (g : Grid K) (ps : List (Point K)) (cap ih : Nat) (h : Point K) (r maxR : K) : Option (List Int) :=
  ((visits (sphereBounds h.x (r + maxR) g.cw g.width) (sphereBounds h.y (r + maxR) g.cw g.width) (sphereBounds h.z (r + maxR) g.cw g.width) g.cells).mapM
    fun idx => (readIndexes g idx cap).bind fun l => mark ps ih h r g.width l).map List.flatten

/-- The state of a `SubhaloFinder` (cmd/halo/finder.go:9-12) without its grid. -/
structure Lists where
  starts : List Nat
  subs : List Int

/-- cmd/halo/finder.go:88-124: the loop over the halos from `ih` on; `starts` and `subs` are extended. -/
def searchFrom (g : Grid K) (ps : List (Point K)) (cap : Nat) : Nat → List (K × K) → Lists → Option Lists
  | _, [], s => some s
  | ih, (r, m) :: rest, s =>
    (ps[ih]?).bind fun h =>
      (put s.starts ih s.subs.length).bind fun starts =>
        (searchOne g ps cap ih h r m).bind fun found => searchFrom g ps cap (ih + 1) rest ⟨starts, s.subs ++ found⟩

/-- cmd/halo/finder.go:131-137 (`StartEnd`). -/
def startEnd (s : Lists) (ih : Nat) : Option (Nat × Nat) :=
  (s.starts[ih]?).bind fun a => if (ih : Int) = (s.starts.length : Int) - 1 then some (a, s.subs.length) else (s.starts[ih + 1]?).map fun b => (a, b)

/-- `l[a:b]` of Go for a slice without spare capacity. -/
def slice {α : Type} (l : List α) (a b : Nat) : Option (List α) := if a ≤ b ∧ b ≤ l.length then some ((l.take b).drop a) else none

/-- The elements that a loop `for ish := start; ish < end; ish++` reads (cmd/halo/finder.go:177-180 and others); `none` when it leaves the slice. -/
def loopSlice {α : Type} (l : List α) (a b : Nat) : Option (List α) := if b ≤ a then some [] else slice l a b

/-- cmd/halo/finder.go:157-160 (`Intersects`). -/
def intersects (s : Lists) (ih : Nat) : Option (List Int) := (startEnd s ih).bind fun ab => slice s.subs ab.1 ab.2

/-- cmd/halo/finder.go:144-152: the loop of `HostCount`. -/
def hostLoop (ih : Int) : List Int → Nat
  | [] => 0
  | sh :: is => if sh > ih then 0 else hostLoop ih is + 1

/-- cmd/halo/finder.go:144-152 (`HostCount`). -/
def hostCount (s : Lists) (ih : Nat) : Option Nat := (intersects s ih).map (hostLoop ih)

/-- cmd/halo/finder.go:139-142 (`IntersectCount`). -/
def intersectCount (s : Lists) (ih : Nat) : Option Int := (startEnd s ih).map fun ab => (ab.2 : Int) - (ab.1 : Int)

/-- cmd/halo/finder.go:154-156 (`SubhaloCount`). -/
def subhaloCount (s : Lists) (ih : Nat) : Option Int := (intersectCount s ih).bind fun a => (hostCount s ih).map fun b : Nat => a - (b : Int)

/-- cmd/halo/finder.go:163-165 (`Hosts`). -/
def hosts (s : Lists) (ih : Nat) : Option (List Int) := (intersects s ih).bind fun l => (hostCount s ih).map fun c => l.take c

/-- cmd/halo/finder.go:167-169 (`Subhalos`). -/
def subhalos (s : Lists) (ih : Nat) : Option (List Int) := (intersects s ih).bind fun l => (hostCount s ih).map fun c => l.drop c

/-- cmd/halo/finder.go:175-181 and 189-195: the pairs (halo, subhalo) in the order in which both double loops visit them. -/
def pairs (s : Lists) : Option (List (Nat × Int)) :=
  ((List.range s.starts.length).mapM fun ih => (startEnd s ih).bind fun ab => (loopSlice s.subs ab.1 ab.2).map fun l => l.map fun sh => (ih, sh)).map List.flatten

/-- cmd/halo/finder.go:179: `counts[sh]++`. -/
def countStep (counts : List Nat) (p : Nat × Int) : Option (List Nat) := (get counts p.2).bind fun v => put counts p.2 (v + 1)

/-- cmd/halo/finder.go:184-187: prefix sums, `hostStarts`. -/
def prefixSums : Nat → List Nat → List Nat
  | _, [] => []
  | acc, c :: cs => acc :: prefixSums (acc + c) cs

/-- cmd/halo/finder.go:193-194: a host is stored and the start of its bucket moves on. -/
def hostStep (st : List Int × List Nat) (p : Nat × Int) : Option (List Int × List Nat) :=
  (get st.2 p.2).bind fun pos => (put st.1 (pos : Int) (p.1 : Int)).bind fun hosts => (put st.2 p.2 (pos + 1)).map fun starts => (hosts, starts)

/-- cmd/halo/finder.go:208-222: the new list of halo `ih` before sorting (hosts, then subhalos). -/
def mergeOne (s : Lists) (hosts : List Int) (hostStarts : List Nat) (ih : Nat) : Option (List Int) :=
  (startEnd ⟨hostStarts, s.subs⟩ ih).bind fun ab => (loopSlice hosts ab.1 ab.2).bind fun hs =>
    (startEnd s ih).bind fun cd => (loopSlice s.subs cd.1 cd.2).map fun ss => hs ++ ss

/-- cmd/halo/finder.go:207-208: the starts of the new lists. -/
def starts (ls : List (List Int)) : List Nat := prefixSums 0 (ls.map List.length)

/-- cmd/halo/finder.go:228-229: `sort.Sort` on the slice of halo `i`, in place. -/
def sortSlice (s : Lists) (i : Nat) : Option Lists :=
  (startEnd s i).bind fun ab => if ab.1 ≤ ab.2 ∧ ab.2 ≤ s.subs.length then
    some ⟨s.starts, s.subs.take ab.1 ++ ((s.subs.take ab.2).drop ab.1).mergeSort (fun a b => decide (a ≤ b)) ++ s.subs.drop ab.2⟩ else none

/-- cmd/halo/finder.go:173-230 (`crossMatch`).  (The slice `newSubhalos` has the length of the appended lists: every pair is counted once as a host and once as a
subhalo.) -/
def crossMatch (s : Lists) : Option Lists :=
  (pairs s).bind fun ps =>
    (ps.foldlM countStep (List.replicate s.starts.length 0)).bind fun counts =>
      (ps.foldlM hostStep (List.replicate s.subs.length 0, prefixSums 0 counts)).bind fun hs =>
        ((List.range counts.length).mapM (mergeOne s hs.1 (List.zipWith (· - ·) hs.2 counts))).bind fun ls =>
          (List.range ls.length).foldlM sortSlice ⟨starts ls, ls.flatten⟩

/-- cmd/halo/finder.go:76-128 (`FindSubhalos`) on a new finder (cmd/halo/finder.go:65-73): the finder's lists and the radii afterwards. -/
def findSubhalos (g : Grid K) (ps : List (Point K)) (rs : List K) (mult : K) : Option (Lists × List K) :=
  (maxLength g).bind fun cap =>
    if rs = [] then none
    else
      (searchFrom g ps cap 0 ((rs.map (· * mult)).zip (suffixMax (rs.map (· * mult)))) ⟨List.replicate g.next.length 0, []⟩).bind fun s =>
        (crossMatch s).map fun s' => (s', (rs.map (· * mult)).map (· / mult))

/-- cmd/halo/split_finder.go:76-99 (`addSubhalos`): the indices and squared distances that are stored. -/
def addSubs (ps : List (Point K)) (h : Point K) (r L : K) (idxs : List Int) : Option (List (Int × K)) :=
  (idxs.mapM fun j => (get ps j).map fun q => if r * r ≥ dist2 h q L then some (j, dist2 h q L) else none).map fun l => l.filterMap id

/-- cmd/halo/split_finder.go:38-74 (`SplitSubhaloFinder.FindSubhalos`); the buffers have the length of the grid's data, one more entry is an index panic. -/
def splitFind (g : Grid K) (ps : List (Point K)) (h : Point K) (r : K) : Option (List (Int × K)) :=
  (maxLength g).bind fun cap =>
    (((visits (sphereBounds h.x r g.cw g.width) (sphereBounds h.y r g.cw g.width) (sphereBounds h.z r g.cw g.width) g.cells).mapM
      fun idx => (readIndexes g idx cap).bind fun l => addSubs ps h r g.width l).map List.flatten).bind fun l =>
        if l.length ≤ g.next.length then some l else none

end Shellfish.Finder
