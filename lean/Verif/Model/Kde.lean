/-
Model of los/analyze/kde.go, of `FilterPoints` in los/analyze/penna.go and of los/analyze/ring_buffer.go: the candidate points of the lines of sight of a ring, and the filter which keeps the
points close to a curve.

Floating point numbers are real numbers (no rounding); a NaN in `connMaxes` is `none`.  Indices that the code never makes negative are natural numbers.  `PlotLevel` (plots for debugging) and
the `Cartesian` curves (never used) are left out.
-/
import Verif.Model.Interp
import Verif.Model.Halo
import Verif.Model.Smooth
import Verif.Model.Penna
import Mathlib.Analysis.SpecialFunctions.Trigonometric.Basic

namespace Shellfish.Kde
noncomputable section
open Shellfish.Interp (Spline newSpline)
open Shellfish.Los (goInt Halo)

/-! ## Kernel density estimates -/

/-- los/analyze/kde.go:15-20: the points where the KDE is evaluated. -/
def kdeXs (low high : ℝ) (n : Nat) : List ℝ := (List.range n).map fun i : Nat => if i = n - 1 then high else low + (high - low) / ((n : ℝ) - 1) * (i : ℝ)

/-- los/analyze/kde.go:25-32: the first and the last node that a point is added to. -/
def kdeRange (h low high : ℝ) (n : Nat) (x : ℝ) : Int × Int :=
  let dx := (high - low) / ((n : ℝ) - 1)
  let maxDist := h * 3
  let lowIdx := goInt ((x - maxDist - low) / dx)
  let highIdx := goInt ((x + maxDist - low) / dx) + 1
  (if lowIdx < 0 then 0 else lowIdx, if highIdx ≥ n then (n : Int) - 1 else highIdx)

/-- los/analyze/kde.go:24-37: the loop for one point.  (The indices are inside of the slices.) -/
def kdeAdd (h low high : ℝ) (n : Nat) (spYs : List ℝ) (x : ℝ) : List ℝ :=
  let r := kdeRange h low high n x
  (Los.indices r.1 (r.2 + 1)).foldl
    (fun ys i => ys.modify i.toNat fun y => let udx := ((kdeXs low high n).getD i.toNat 0 - x) / h; y + Real.exp (-udx * udx)) spYs

/-- los/analyze/kde.go:14-40 (`GaussianKDE`) for `n ≥ 2`.  With `high = low` the slice of the nodes is constant and `NewSpline` panics. -/
def gaussianKDE (xs : List ℝ) (h low high : ℝ) (n : Nat) : Option (Spline ℝ) :=
  newSpline (kdeXs low high n) (xs.foldl (kdeAdd h low high n) (List.replicate n 0))

/-! ## The tree -/

/-- los/analyze/kde.go:44-60 (`KDETree`). -/
structure KDETree where
  h : ℝ
  low : ℝ
  high : ℝ
  spTree : List (List (Spline ℝ))
  maxesTree : List (List (List ℝ))
  thTree : List (List ℝ)
  connMaxes : List (List (Option ℝ))
  spRs : List ℝ

/-- los/analyze/kde.go:156-175 (`binByTheta`); `none` is an index panic (an angle outside of the bins, or fewer angles than radii).  `int` rounds towards 0. -/
def binByTheta (rs ths : List ℝ) (bins : Nat) : Option (List (List ℝ) × List ℝ) := do
  let dth := 2 * Real.pi / (bins : ℝ)
  let rBins ← (rs.zipIdx).foldlM (fun (acc : List (List ℝ)) (p : ℝ × Nat) => do
    let th ← ths[p.2]?
    let idx := goInt (th / dth)
    if idx < 0 then none
    else do
      let bin ← acc[idx.toNat]?
      some (acc.set idx.toNat (bin ++ [p.1]))) (List.replicate bins [])
  some (rBins, (List.range bins).map fun i : Nat => 2 * Real.pi * ((i : ℝ) + 0.5) / (bins : ℝ))

/-- los/analyze/kde.go:141-150: one level of the tree. -/
def growLevel (h low high : ℝ) (rs phis : List ℝ) (split : Nat) : Option (List (Spline ℝ) × List ℝ) := do
  let bins ← binByTheta rs phis (2 ^ (1 + split))
  let sps ← bins.1.mapM fun rBin => gaussianKDE rBin h low high 100
  some (sps, bins.2)

/-- los/analyze/kde.go:193-206 (`localSplineMaxes`); `none` is a panic. -/
def localSplineMaxes (xs : List ℝ) (sp : Spline ℝ) : Option (List ℝ) := do
  let x0 ← xs[0]?
  let prev ← sp.eval x0
  let x1 ← xs[1]?
  let curr ← sp.eval x1
  let x2 ← xs[2]?
  let next ← sp.eval x2
  let maxes := if curr > next ∧ curr > prev then [x1] else []
  let st ← (List.range' 2 (xs.length - 1 - 2)).foldlM (fun (st : ℝ × ℝ × List ℝ) i => do
    let xn ← xs[i + 1]?
    let next ← sp.eval xn
    let x ← xs[i]?
    some (st.2.1, next, if st.2.1 > next ∧ st.2.1 > st.1 then st.2.2 ++ [x] else st.2.2)) (curr, next, maxes)
  some st.2.2

/-- los/analyze/kde.go:178-189 (`findMaxes`). -/
def findMaxes (spRs : List ℝ) (spTree : List (List (Spline ℝ))) : Option (List (List (List ℝ))) := spTree.mapM fun sps => sps.mapM (localSplineMaxes spRs)

/-- los/analyze/kde.go:262-270 (`getFinestMax`), with `idx/(1<<i)` as repeated halves; `none` is a panic. -/
def getFinestMax (conn : List (List (Option ℝ))) : Nat → Nat → Option ℝ
  | 0, idx => ((conn[0]?).bind (·[idx]?)).bind id
  | level + 1, idx => match (conn[level + 1]?).bind (·[idx]?) with
    | none => none
    | some (some r) => some r
    | some none => getFinestMax conn level (idx / 2)

/-- los/analyze/kde.go:274-282 (`GetConnMaxes`). -/
def getConnMaxes (thTree : List (List ℝ)) (conn : List (List (Option ℝ))) (level : Nat) : Option (List ℝ × List ℝ) := do
  let ths ← thTree[level]?
  let maxes ← conn[level]?
  let rs ← (List.range maxes.length).mapM fun i => getFinestMax conn level i
  some (rs, ths)

/-- los/analyze/kde.go:287-311 (`extendAngularRange`) for as many angles as radii. -/
def extendAngularRange (maxes ths : List ℝ) : List ℝ × List ℝ :=
  let n := maxes.length
  let buf := if 5 > n then n else 5
  (maxes.drop (n - buf) ++ maxes ++ maxes.take buf, (ths.drop (n - buf)).map (· - 2 * Real.pi) ++ ths ++ (ths.take buf).map (· + 2 * Real.pi))

/-- los/analyze/kde.go:325-332 (`GetRFunc` with `Radial`): the spline whose `Eval` is returned. -/
def getRFunc (thTree : List (List ℝ)) (conn : List (List (Option ℝ))) (level : Nat) : Option (Spline ℝ) := do
  let r ← getConnMaxes thTree conn level
  let ext := extendAngularRange r.1 r.2
  newSpline ext.2 ext.1

/-- los/analyze/kde.go:231-238: the maximum next to the one of the bin above (the first one, of two with the same distance). -/
def nearest (p : ℝ) (maxes : List ℝ) : Option ℝ :=
  (maxes.foldl (fun (best : Option (ℝ × ℝ)) m => match best with
    | none => some (m, |p - m|)
    | some b => if |p - m| < b.2 then some (m, |p - m|) else some b) none).map Prod.fst

/-- los/analyze/kde.go:247-252: the last maximum that is close to the curve `rFunc`. -/
def nearCurve (h : ℝ) (rFunc : Option ℝ) (maxes : List ℝ) : Option (Option ℝ) :=
  maxes.foldlM (fun (cur : Option ℝ) m => rFunc.bind fun r => some (if |m - r| < h then some m else cur)) none

/-- los/analyze/kde.go:220-254: one node; `split` is the index of the level above, `prev` the connected maximum of the node above, `rFunc` the curve of the level above at the angle of the
node.  (`len(maxes) == 0` does not happen inside of the loop over `maxes`.)  The outer `none` is a panic. -/
def connNode (h : ℝ) (split : Nat) (rFunc : Option ℝ) (prev : Option ℝ) (nodeMaxes : List ℝ) : Option (Option ℝ) :=
  match prev with
  | none => nearCurve h rFunc nodeMaxes
  | some p => match nearest p nodeMaxes with
    | none => nearCurve h rFunc nodeMaxes
    | some c => if split = 0 ∨ |c - p| < h then some (some c) else nearCurve h rFunc nodeMaxes

/-- los/analyze/kde.go:215-257: one level. -/
def connLevel (h : ℝ) (thTree : List (List ℝ)) (conn : List (List (Option ℝ))) (split : Nat) (maxes : List (List ℝ)) : Option (List (Option ℝ)) := do
  let prevMaxes ← conn.getLast?
  (maxes.zipIdx).foldlM (fun (curr : List (Option ℝ)) (nm : List ℝ × Nat) => do
    let prev ← prevMaxes[nm.2 / 2]?
    let rFunc := (getRFunc thTree conn split).bind fun sp => ((thTree[split + 1]?).bind (·[nm.2]?)).bind sp.eval
    let v ← connNode h split rFunc prev nm.1
    if nm.2 < curr.length then some (curr.set nm.2 v) else none) (List.replicate (2 * prevMaxes.length) none)

/-- los/analyze/kde.go:211-258 (`connectMaxes`). -/
def connectMaxes (h : ℝ) (thTree : List (List ℝ)) (maxesTree : List (List (List ℝ))) : Option (List (List (Option ℝ))) := do
  let level0 ← maxesTree[0]?
  let node0 ← level0[0]?
  let m ← node0[0]?
  (maxesTree.tail.zipIdx).foldlM (fun (conn : List (List (Option ℝ))) (ml : List (List ℝ) × Nat) => (connLevel h thTree conn ml.2 ml.1).map fun c => conn ++ [c]) [[some m]]

/-- los/analyze/kde.go:84-89: the largest radius. -/
def maxRadius : List ℝ → ℝ
  | [] => 0
  | r0 :: rs => (r0 :: rs).foldl (fun high r => if r > high then r else high) r0

/-- los/analyze/kde.go:91-96: the radii where maxima are looked for. -/
def radii (low high : ℝ) : List ℝ := (List.range 100).map fun i : Nat => if i = 99 then high else low + (high - low) / 100 * (i : ℝ)

/-- los/analyze/kde.go:66-106 (`NewKDETree`); `none` is a panic.  The second result is `ok`. -/
def newKDETree (rs phis : List ℝ) (splits : Nat) (h : ℝ) : Option (KDETree × Bool) :=
  if rs.length = 0 then none
  else do
    let low := (0 : ℝ)
    let high := maxRadius rs
    let spRs := radii low high
    let sp0 ← gaussianKDE rs h low high 100
    let levels ← (List.range splits).mapM (growLevel h low high rs phis)
    let spTree := [sp0] :: levels.map Prod.fst
    let thTree := [Real.pi] :: levels.map Prod.snd
    let maxesTree ← findMaxes spRs spTree
    let conn ← connectMaxes h thTree maxesTree
    some (⟨h, low, high, spTree, maxesTree, thTree, conn, spRs⟩, true)

/-- los/analyze/kde.go:355-370 (`FilterNearby`): the radii, the angles and the indices; `none` is a panic. -/
def KDETree.filterNearby (kt : KDETree) (rs ths : List ℝ) (level : Nat) (dr : ℝ) : Option (List ℝ × List ℝ × List Nat) := do
  let rFunc ← getRFunc kt.thTree kt.connMaxes level
  (rs.zipIdx).foldlM (fun (acc : List ℝ × List ℝ × List Nat) (p : ℝ × Nat) => do
    let th ← ths[p.2]?
    let v ← rFunc.eval th
    some (if |v - p.1| < dr / 2 then (acc.1 ++ [p.1], acc.2.1 ++ [th], acc.2.2 ++ [p.2]) else acc)) ([], [], [])

/-! ## Rings -/

/-- los/analyze/ring_buffer.go:15-25 (`RingBuffer`).  The buffers for profiles are left out: they are overwritten before they are read. -/
structure RingBuffer where
  planeXs : List ℝ
  planeYs : List ℝ
  xs : List ℝ
  ys : List ℝ
  zs : List ℝ
  rs : List ℝ
  phis : List ℝ
  oks : List Bool
  n : Nat
  bins : Nat

/-- los/analyze/ring_buffer.go:28-38 (`Init`). -/
def RingBuffer.init (n bins : Nat) : RingBuffer :=
  let z := List.replicate n (0 : ℝ)
  ⟨z, z, z, z, z, z, z, List.replicate n false, n, bins⟩

/-- los/analyze/ring_buffer.go:41-53 (`Clear`): the first `N` elements. -/
def RingBuffer.clear (r : RingBuffer) : RingBuffer :=
  let z := fun l : List ℝ => List.replicate r.n 0 ++ l.drop r.n
  { r with planeXs := z r.planeXs, planeYs := z r.planeYs, xs := z r.xs, ys := z r.ys, zs := z r.zs, rs := z r.rs, phis := z r.phis, oks := List.replicate r.n false ++ r.oks.drop r.n }

/-- los/halo.go:360-370 (`GetRs`); `none` is the panic. -/
def getRs (h : Halo) (bufLen : Nat) : Option (List ℝ) :=
  if bufLen ≠ h.bins then none
  else
    let dlr := (Real.log h.rMax - Real.log h.rMin) / (h.bins : ℝ)
    some ((List.range bufLen).map fun i : Nat => Real.exp (Real.log h.rMin + dlr * ((i : ℝ) + 0.5)))

/-- los/analyze/ring_buffer.go:62-93: the loop of `Splashback` for one line of sight.  `none` is a panic. -/
def splashLine (h : Halo) (ring window : Nat) (dLim : ℝ) (profRs : List ℝ) (st : RingBuffer × Smooth.Cache ℝ) (i : Nat) : Option (RingBuffer × Smooth.Cache ℝ) := do
  let r := st.1
  let rhos ← h.getRhos ring i (List.replicate r.bins 0)
  match Smooth.smooth st.2 profRs rhos window with
  | .panic => none
  | .notOk => some ({ r with oks := r.oks.set i false }, st.2)
  | .ok smoothRhos smoothDerivs _ cache => do
    let sr ← Smooth.splashbackRadius profRs smoothRhos smoothDerivs dLim
    match sr with
    | none => some ({ r with rs := r.rs.set i 0, oks := r.oks.set i false }, cache)
    | some rad => do
      let phi0 ← h.ringPhis[i]?
      let phi := if phi0 < 0 then phi0 + Real.pi else phi0
      let dir ← h.lineDir ring i
      some ({ r with rs := r.rs.set i rad, oks := r.oks.set i true, phis := r.phis.set i phi, planeXs := r.planeXs.set i (Real.cos phi * rad), planeYs := r.planeYs.set i (Real.sin phi * rad), xs := r.xs.set i (rad * dir.x), ys := r.ys.set i (rad * dir.y), zs := r.zs.set i (rad * dir.z) }, cache)

/-- los/analyze/ring_buffer.go:57-93 (`Splashback`); the cache is that of the smoothing kernels. -/
def RingBuffer.splashback (r : RingBuffer) (cache : Smooth.Cache ℝ) (h : Halo) (ring window : Nat) (dLim : ℝ) : Option (RingBuffer × Smooth.Cache ℝ) := do
  let profRs ← getRs h r.bins
  (List.range r.n).foldlM (splashLine h ring window dLim profRs) (r, cache)

/-- los/analyze/ring_buffer.go:97-106 and 110-119 (`OkPlaneCoords`, `OkPolarCoords`): the elements of a column where `Oks` is true. -/
def RingBuffer.okCoords (r : RingBuffer) (col : List ℝ) : Option (List ℝ) :=
  (r.oks.zipIdx).foldlM (fun (acc : List ℝ) (p : Bool × Nat) => if p.1 then (col[p.2]?).map fun x => acc ++ [x] else some acc) []

/-! ## The filter of rings -/

/-- los/analyze/penna.go:131-137: the valid radii and angles. -/
def validPoints (r : RingBuffer) : Option (List ℝ × List ℝ) :=
  (List.range r.rs.length).foldlM (fun (acc : List ℝ × List ℝ) i => do
    let ok ← r.oks[i]?
    if ok then do
      let rad ← r.rs[i]?
      let phi ← r.phis[i]?
      some (acc.1 ++ [rad], acc.2 ++ [phi])
    else some acc) ([], [])

/-- los/analyze/penna.go:146-153: at most `fuel` attempts with wider and wider kernels, until points are left. -/
def filterAttempts (validRs validPhis : List ℝ) (levels : Nat) (h : ℝ) : Nat → ℝ → List ℝ × List ℝ → Option (Option (List ℝ × List ℝ))
  | 0, _, f => some (some f)
  | fuel + 1, factor, f =>
    if f.1.length = 0 then do
      let kt ← newKDETree validRs validPhis levels (h * factor)
      if kt.2 then do
        let g ← kt.1.filterNearby validRs validPhis levels kt.1.h
        filterAttempts validRs validPhis levels h fuel (factor * 1.1) (g.1, g.2.1)
      else some none
    else some (some f)

/-- los/analyze/penna.go:119-162: one ring; the outer `none` is a panic, the inner one is `ok = false`.  (`validXs` and `validYs` are never read.) -/
def filterRing (levels : Nat) (h : ℝ) (r : RingBuffer) : Option (Option (List (ℝ × ℝ))) := do
  let v ← validPoints r
  let f ← filterAttempts v.1 v.2 levels h 10 1 ([], [])
  some (f.map fun g => (g.1.zip g.2).map fun p => (p.1 * Real.cos p.2, p.1 * Real.sin p.2))

/-- los/analyze/penna.go:115-165 (`FilterPoints`). -/
def filterPoints (levels : Nat) (h : ℝ) : List RingBuffer → Option (Option (List (List (ℝ × ℝ))))
  | [] => some (some [])
  | r :: rs => do
    let p ← filterRing levels h r
    match p with
    | none => some none
    | some p => do
      let ps ← filterPoints levels h rs
      some (ps.map (p :: ·))

/-- cmd/shell.go:613-627: `calcCoeffs`; the outer `none` is a panic, the inner one `ok = false`. -/
def calcCoeffs (inverse : Analyze.Inverse) (halo : Halo) (cache : Smooth.Cache ℝ) (buf : List RingBuffer) (window levels order : Nat) (dLim eta : ℝ) :
    Option (Option (List ℝ) × List RingBuffer × Smooth.Cache ℝ) := do
  let st ← (buf.zipIdx).foldlM (fun (st : List RingBuffer × Smooth.Cache ℝ) (r : RingBuffer × Nat) =>
    (r.1.clear.splashback st.2 halo r.2 window dLim).map fun x => (st.1 ++ [x.1], x.2)) ([], cache)
  let pts ← filterPoints levels (halo.rMax / eta) st.1
  match pts with
  | none => some (none, st)
  | some pts => do
    let cs ← Analyze.pennaVolumeFit inverse halo.irots pts order order
    some (some cs.1, st)

end
end Shellfish.Kde
