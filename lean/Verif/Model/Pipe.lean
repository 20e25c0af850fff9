/-
The `Run` methods of the tools as functions from the text of the standard input to the lines of the standard output.  What a tool computes from its columns (modelled elsewhere: C46, C49, C78, C79,
C80) is an argument: a result for every index of a row, an error, or a panic.
-/
import Verif.Model.Main
import Verif.Model.Catalog
import Verif.Model.Coord
import Verif.Model.Tree
import Verif.Model.Group
import Verif.Model.IdMode

namespace Shellfish.Pipe
open Shellfish.Text Shellfish.Main
open Shellfish.Catalog (FloatFmt parse formatCols commentString)
open Shellfish.Cmd (transpose)

/-- A text. -/
abbrev Str := List Char

variable {F : Type}

/-- shellfish.go:447-449: the lines are printed with `fmt.Println`. -/
def printed (ls : List Str) : Str := (ls.map println).flatten

/-- The tool goes on with the result of a call that may return an error or panic. -/
def andThen {α : Type} (o : Shellfish.Catalog.Out α) (k : α → RunRes) : RunRes :=
  match o with
  | .ok a => k a
  | .err => .err
  | .panic => .panic

/-- The last lines of every `Run`: `FormatCols`, `CommentString`, and the header before the lines (for example cmd/shell.go:255-269). -/
def emit (ff : FloatFmt F) (intNames floatNames : List Str) (nameOrder : List Nat) (sizes : List Int) (icols : List (List Int)) (fcols : List (List F)) (order : List Nat) : RunRes :=
  match formatCols ff icols fcols order, commentString intNames floatNames nameOrder sizes with
  | some ls, some c => .lines (c :: ls)
  | _, _ => .panic

/-- `transpose` of the rows of a result, or its panic. -/
def withCols (rows : List (List F)) (k : List (List F) → RunRes) : RunRes :=
  match transpose rows with
  | some cols => k cols
  | none => .panic

/-- `make([][]float64, len(ids))`, filled by the computation. -/
def tableOf {α : Type} (ids : List Int) (f : Nat → α) : List α := (List.range ids.length).map f

/-- cmd/shell.go:192-270 (`ShellConfig.Run`); `loop` is cmd/shell.go:288-375. -/
def shellRun (ff : FloatFmt F) (loop : List Int → List Int → List (List F) → Shellfish.Catalog.Out (Nat → List F)) (stdin : Str) : RunRes :=
  andThen (parse ff stdin [0, 1] [2, 3, 4, 5]) fun r =>
    match r with
    | ([ids, snaps], coords) =>
      if ids.length = 0 then .err
      else andThen (loop ids snaps coords) fun out => withCols (tableOf ids out) fun cols =>
        emit ff [chars "ID", chars "Snapshot"] [chars "X [cMpc/h]", chars "Y [cMpc/h]", chars "Z [cMpc/h]", chars "R200m [cMpc/h]", chars "P_ijk"] [0, 1, 2, 3, 4, 5, 6]
          [1, 1, 1, 1, 1, 1, ((out 0).length : Int)] [ids, snaps] (coords ++ cols) (List.range (2 + 4 + (out 0).length))
    | _ => .panic

/-- cmd/stats.go:355-381: the lines of `StatsConfig.Run` for the twelve numbers of every row. -/
def statsOut (ff : FloatFmt F) (ids snaps : List Int) (out : Nat → Fin 12 → F) : RunRes :=
  emit ff [chars "ID", chars "Snapshot"] [chars "M_sp [M_sun/h]", chars "R_sp [cMpc/h]", chars "Volume [cMpc^3/h^3]", chars "Surface Area [cMpc^2/h^2]", chars "Major Axis [cMpc/h]",
    chars "Intermediate Axis [cMpc/h]", chars "Minor Axis [cMpc/h]", chars "Ax", chars "Ay", chars "Az", chars "RMin [cMpc/h]", chars "RMax [cMpc/h]"] (List.range 14)
    (List.replicate 14 1) [ids, snaps] ((List.finRange 12).map fun j => tableOf ids fun i => out i j) (List.range 14)

/-- cmd/stats.go:168-381 (`StatsConfig.Run`); `stats` computes the twelve numbers of a row from the coordinates and the rows of coefficients.  `snaps[0]` (line 233) panics without rows. -/
def statsRun (ff : FloatFmt F) (order : Nat) (stats : List Int → List Int → List (List F) → List (List F) → Shellfish.Catalog.Out (Nat → Fin 12 → F)) (stdin : Str) : RunRes :=
  andThen (parse ff stdin [0, 1] ((List.range (4 + 2 * order * order)).map (· + 2))) fun r =>
    match r with
    | ([ids, snaps], floats) =>
      withCols (floats.drop 4) fun coeffs => if ids.length = 0 then .panic else andThen (stats ids snaps (floats.take 4) coeffs) (statsOut ff ids snaps)
    | _ => .panic

/-- cmd/prof.go:200-269: the float columns that a kind of profile reads. -/
def profCols (kind : Str) (order : Nat) : List Nat :=
  if kind = chars "contained-density" ∨ kind = chars "angular-fraction" then (List.range (4 + order * order * 2)).map (· + 2)
  else if kind = chars "bound-density" then [2, 3, 4, 5, 6, 7, 8, 9, 10]
  else [2, 3, 4, 5]

/-- cmd/prof.go:435-460: the lines of `ProfConfig.Run` for the radii and densities of every row, or nothing for the early `return nil, nil` (C49). -/
def profOut (ff : FloatFmt F) (bins : Nat) (ids snaps : List Int) (out : Option ((Nat → List F) × (Nat → List F))) : RunRes :=
  match out with
  | none => .lines []
  | some (rs, rhos) => withCols (tableOf ids rs) fun rCols => withCols (tableOf ids rhos) fun rhoCols =>
    emit ff [chars "ID", chars "Snapshot", chars "R [cMpc/h]", chars "Rho [h^2 Msun/cMpc^3]"] [] [0, 1, 2, 3] [1, 1, (bins : Int), (bins : Int)] [ids, snaps] (rCols ++ rhoCols)
      (List.range (rCols.length + rhoCols.length + 2))

/-- cmd/prof.go:177-460 (`ProfConfig.Run`) for all kinds but the angular fraction; `prof` gives the rows of radii and densities, or `none` for the early `return nil, nil` (C49). -/
def profRun (ff : FloatFmt F) (kind : Str) (order bins : Nat) (prof : List Int → List Int → List (List F) → Shellfish.Catalog.Out (Option ((Nat → List F) × (Nat → List F)))) (stdin : Str) : RunRes :=
  andThen (parse ff stdin [0, 1] (profCols kind order)) fun r =>
    match r with
    | ([ids, snaps], floats) => andThen (prof ids snaps floats) (profOut ff bins ids snaps)
    | _ => .panic

/-- cmd/prof.go:652-686 (`angularFractionMain`): the lines for the radius `(frac i j).1` and the fraction `(frac i j).2` of the bin `j` of the row `i`. -/
def angularOut (ff : FloatFmt F) (bins : Nat) (ids snaps : List Int) (frac : Nat → Nat → F × F) : RunRes :=
  let rCols := (List.range bins).map fun j => tableOf ids fun i => (frac i j).1
  let fCols := (List.range bins).map fun j => tableOf ids fun i => (frac i j).2
  emit ff [chars "ID", chars "Snapshot", chars "R [cMpc/h]", chars "Volume Fraction Contained"] [] [0, 1, 2, 3] [1, 1, (bins : Int), (bins : Int)] [ids, snaps] (rCols ++ fCols)
    (List.range (rCols.length + fCols.length + 2))

/-- cmd/prof.go:177-283 (`ProfConfig.Run`) for the angular fraction; `frac` is `AngularFractionProfile` of the shells made of the columns. -/
def angularRun (ff : FloatFmt F) (order bins : Nat) (frac : List (List F) → Nat → Nat → F × F) (stdin : Str) : RunRes :=
  andThen (parse ff stdin [0, 1] (profCols (chars "angular-fraction") order)) fun r =>
    match r with
    | ([ids, snaps], floats) => angularOut ff bins ids snaps (frac floats)
    | _ => .panic

/-- cmd/phase.go:112-267 (`PhaseConfig.Run`). -/
def phaseRun (ff : FloatFmt F) (rbins vbins : Nat) (phase : List Int → List Int → List (List F) → Shellfish.Catalog.Out ((Nat → List F) × (Nat → List F) × (Nat → List F))) (stdin : Str) : RunRes :=
  andThen (parse ff stdin [0, 1] [2, 3, 4, 5, 6, 7, 8, 9]) fun r =>
    match r with
    | ([ids, snaps], floats) =>
      if ids.length = 0 then .err
      else andThen (phase ids snaps floats) fun out =>
        withCols (tableOf ids out.1) fun rCols => withCols (tableOf ids out.2.1) fun vCols => withCols (tableOf ids out.2.2) fun rhoCols =>
          emit ff [chars "ID", chars "Snapshot", chars "R [cMpc/h]", chars "V [pkm/s]", chars "Rho [h^2 Msun/cMpc^3/(pkm/s), V major]"] [] [0, 1, 2, 3, 4]
            [1, 1, (vbins : Int), (rbins : Int), (rbins : Int) * vbins] [ids, snaps] (rCols ++ vCols ++ rhoCols) (List.range (rCols.length + vCols.length + rhoCols.length + 2))
    | _ => .panic

/-- cmd/potential.go:86-252 (`PotentialConfig.Run`). -/
def potentialRun (ff : FloatFmt F) (ncells : Nat) (pot : List Int → List Int → List (List F) → Shellfish.Catalog.Out ((Nat → List F) × (Nat → List F) × (Nat → List F) × (Nat → List F))) (stdin : Str) :
    RunRes :=
  andThen (parse ff stdin [0, 1] [2, 3, 4, 5, 6]) fun r =>
    match r with
    | ([ids, snaps], floats) =>
      if ids.length = 0 then .err
      else andThen (pot ids snaps floats) fun out =>
        withCols (tableOf ids out.1) fun rCols => withCols (tableOf ids out.2.1) fun xy => withCols (tableOf ids out.2.2.1) fun yz => withCols (tableOf ids out.2.2.2) fun xz =>
          emit ff [chars "ID", chars "Snapshot", chars "R [cMpc/h]", chars "Phi_xy/(G Mvir / Rvir)", chars "Phi_yz/(G Mvir / Rvir)", chars "Phi_xz/(G Mvir / Rvir)"] [] [0, 1, 2, 3, 4, 5]
            [1, 1, (ncells : Int), (ncells : Int) * ncells, (ncells : Int) * ncells, (ncells : Int) * ncells] [ids, snaps] (rCols ++ xy ++ yz ++ xz)
            (List.range (rCols.length + xy.length * 3 + 2))
    | _ => .panic

/-- cmd/coord.go:60-157 (`CoordConfig.Run`) on the text of the input; an error and a panic of the part after the parsing are not distinguished. -/
def coordRun {K C : Type} [Field K] [LinearOrder K] [IsStrictOrderedRing K] [FloorRing K] (ff : FloatFmt K) (w : Shellfish.Coord.World K C) (g : Shellfish.Coord.Cfg) (known : Str → Bool) (values : List Str)
    (order : List Int) (stdin : Str) : RunRes :=
  andThen (parse ff stdin [0, 1] []) fun r =>
    match r with
    | ([ids, snaps], _) =>
      match Shellfish.Coord.run ff w g known values ids snaps order with
      | some ls => .lines ls
      | none => .err
    | _ => .panic

/-- cmd/tree.go:62-136 (`TreeConfig.Run`) on the text of the input; an error and a panic of the part after the parsing are not distinguished. -/
def treeRun (ff : FloatFmt F) (fuel : Nat) (files : List Shellfish.Tree.File) (offset snapMin snapMax : Int) (select : List Int) (stdin : Str) : RunRes :=
  andThen (parse ff stdin [0, 1] []) fun r =>
    match r with
    | ([ids, _], _) =>
      match Shellfish.Tree.run fuel files offset snapMin snapMax select ids with
      | some ls => .lines ls
      | none => .err
    | _ => .panic

/-- cmd/id.go:299-312: the lines that are not excluded, each of them `mult` times. -/
def keepLines (mult : Int) : List Str → List Bool → Option (List Str)
  | [], _ => some []
  | _ :: _, [] => none
  | l :: ls, e :: es => (keepLines mult ls es).map fun rest => if e then rest else List.replicate mult.toNat l ++ rest

/-- cmd/id.go:293-324: the lines of the output. -/
def idLines (ids snaps : List Int) (exclude : List Bool) (mult : Int) : RunRes :=
  match formatCols (F := Unit) ⟨fun _ => [], fun _ => none⟩ [ids, snaps] [] [0, 1] with
  | none => .panic
  | some ls =>
    match keepLines mult ls exclude, commentString [chars "ID", chars "Snapshot"] [] [0, 1] [1, 1] with
    | some kept, some c => .lines (c :: kept)
    | _, _ => .panic

end Shellfish.Pipe
