/-
Model of the file of shell particles that `shellfish stats` writes: cmd/stats.go:344-346, 599-677.
-/
import Verif.Model.Filter
import Verif.Model.Stats

namespace Shellfish.ShellFile
open Shellfish.Bytes Shellfish.Filter
open Shellfish.Catalog (Out)

/-- What the file system does with the file: whether it can be created, how many of the bytes that are written reach it (all of them, when there is room; `WriteFilter` ignores the errors of its
writes), and whether it can be opened again. -/
structure Disk where
  canCreate : Bool
  room : Nat
  canOpen : Bool

/-- How `writeShellParticles` ends: it returns nil, it returns an error, or it panics. -/
inductive Ret
  | nil
  | err
  | panic
deriving DecidableEq

/-- cmd/stats.go:667-677 (`int64sEq`). -/
def int64sEq (xs ys : List Int) : Bool :=
  if xs.length ≠ ys.length then false
  else (List.range xs.length).all fun i => decide (xs[i]? = ys[i]?)

/-- cmd/stats.go:640-662: the comparison of what was read with what was written. -/
def same (check data : FilterData) : Bool :=
  if !int64sEq check.snaps data.snaps then false
  else if !int64sEq check.ids data.ids then false
  else if check.particles.length ≠ data.particles.length then false
  else (List.range data.particles.length).all fun i => int64sEq (check.particles.getD i []) (data.particles.getD i [])

/-- cmd/stats.go:599-665 (`writeShellParticles`): how it ends and what the file holds afterwards (`old`: before).  `int` and `int64` are the same numbers. -/
def writeShellParticles (sysBig : Bool) (flag : List Char) (d : Disk) (old : Option (List Byte)) (snaps ids : List Int) (particles : List (List Int)) : Ret × Option (List Byte) :=
  let data : FilterData := ⟨snaps, ids, particles⟩
  if !d.canCreate then (.err, old)
  else match flagToOrder sysBig flag with
    | none => (.panic, some [])
    | some o => match writeFilter o data with
      | none => (.panic, some [])
      | some bytes =>
        let file := bytes.take d.room
        if !d.canOpen then (.err, some file)
        else match readFilter file with
          | .panic => (.panic, some file)
          | .err => (.err, some file)
          | .ok check => if same check data then (.nil, some file) else (.panic, some file)

/-- cmd/stats.go:344-348: the end of `Run`: whether it goes on to print its catalog (the returned error is dropped), and the file afterwards. -/
def finish (shellFilter skipMass : Bool) (sysBig : Bool) (flag : List Char) (d : Disk) (old : Option (List Byte)) (snaps ids : List Int) (particles : List (List Int)) :
    Bool × Option (List Byte) :=
  if shellFilter && !skipMass then
    match writeShellParticles sysBig flag d old snaps ids particles with
    | (.panic, file) => (false, file)
    | (_, file) => (true, file)
  else (true, old)

end Shellfish.ShellFile
