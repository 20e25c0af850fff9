/-
C98, `shell | prof`: the profiles that need the shells read them from what `shell` printed.
-/
import Verif.Props.PipeHeader

namespace Shellfish.Pipe
open Shellfish.Text Shellfish.Main
open Shellfish.Catalog
open Shellfish.Cmd (transpose)

variable {F : Type}

theorem profCols_shell (kind : Str) (hk : kind = chars "contained-density" ∨ kind = chars "angular-fraction") (o : Nat) : profCols kind o = (List.range (4 + 2 * o * o)).map (· + 2) := by
  unfold profCols
  rw [if_pos hk]
  congr 2
  ring

section
variable (ff : FloatFmt F) (rd : F → F) (hff : Reads ff rd)
include hff

/-- C98, `shell | prof` with a kind of profile that uses the shells, and an Order `o'` at most that of `shell`: `prof` computes with the ids and snapshots, with the coordinates that `shell` was given,
and its column 4 + m of the row i is the coefficient number m of the shell of the halo i, for the first 2 o'² coefficients, each rounded by one printing and reading. -/
theorem C98_shell_prof (loop : List Int → List Int → List (List F) → Out (Nat → List F)) (stdin : Str) (rows : List (Int × Int)) (hh : Holds ff stdin rows) (coords : List (List F))
    (hco : parse ff stdin [0, 1] [2, 3, 4, 5] = .ok ([rows.map Prod.fst, rows.map Prod.snd], coords)) (res : Nat → List F)
    (hres : loop (rows.map Prod.fst) (rows.map Prod.snd) coords = .ok res) (o : Nat) (hshape : ∀ i < rows.length, (res i).length = 2 * o * o) (out : List Str) (h : shellRun ff loop stdin = .lines out)
    (o' : Nat) (ho : o' ≤ o) :
    ∃ floats : List (List F), floats.take 4 = coords.map (fun c => c.map rd) ∧ floats.length = 4 + 2 * o' * o' ∧
      (∀ i < rows.length, ∀ m < 2 * o' * o', (floats[4 + m]?.bind fun c => c[i]?) = (res i)[m]?.map rd) ∧
      (∀ bins prof, profRun ff (chars "contained-density") o' bins prof (printed out) =
        andThen (prof (rows.map Prod.fst) (rows.map Prod.snd) floats) (profOut ff bins (rows.map Prod.fst) (rows.map Prod.snd))) ∧
      ∀ bins frac, angularRun ff o' bins frac (printed out) = angularOut ff bins (rows.map Prod.fst) (rows.map Prod.snd) (frac floats) := by
  obtain ⟨coords', res', cols, h1, h2, h3, h4, h5, h6, h7⟩ := shell_reads ff rd hff loop stdin rows hh out h
  rw [hco] at h1
  cases h1
  rw [hres] at h3
  cases h3
  have hpos' : 0 < rows.length := List.length_pos_iff.mpr h2
  have hk : 2 * o' * o' ≤ 2 * o * o := Nat.mul_le_mul (Nat.mul_le_mul_left _ ho) ho
  obtain ⟨cols', t1, t2, t3, t4⟩ := Shellfish.Cmd.C68_transpose ((List.range rows.length).map res) (2 * o * o) (by simpa using h2) (by
    intro r hr
    obtain ⟨i, hi, rfl⟩ := List.mem_map.mp hr
    exact hshape i (List.mem_range.mp hi))
  rw [h4] at t1
  cases t1
  have hp := h7 (List.range (4 + 2 * o' * o')) (by
    intro j hj
    rw [List.mem_range] at hj
    rw [hshape 0 hpos']
    omega)
  have hg : ∀ j, j < 4 + 2 * o' * o' → ((List.range (4 + 2 * o' * o')).map fun j => ((coords ++ cols).getD j []).map rd)[j]? = some (((coords ++ cols).getD j []).map rd) := by
    intro j hj
    rw [List.getElem?_map, List.getElem?_range hj]
    rfl
  refine ⟨(List.range (4 + 2 * o' * o')).map fun j => ((coords ++ cols).getD j []).map rd, ?_, by simp, ?_, fun bins prof => ?_, fun bins frac => ?_⟩
  rotate_left 2
  · unfold profRun
    rw [profCols_shell _ (Or.inl rfl), hp]
    rfl
  · unfold angularRun
    rw [profCols_shell _ (Or.inr rfl), hp]
    rfl
  · apply List.ext_getElem?
    intro j
    rw [List.getElem?_take]
    by_cases hj : j < 4
    · rw [if_pos hj, hg j (by omega), List.getD_eq_getElem?_getD, List.getElem?_append_left (by omega), List.getElem?_map, List.getElem?_eq_getElem (by omega)]
      rfl
    · rw [if_neg hj, List.getElem?_eq_none (by rw [List.length_map]; omega)]
  · intro i hi m hm
    rw [hg _ (by omega), Option.bind_some, List.getD_eq_getElem?_getD, List.getElem?_append_right (by omega), List.getElem?_map]
    have a := t4 m (by omega) i
    rw [List.getElem?_map, List.getElem?_range hi] at a
    have e : 4 + m - coords.length = m := by omega
    rw [e]
    have hm' : m < cols.length := by omega
    rw [List.getElem?_eq_getElem hm'] at a ⊢
    rw [Option.bind_some] at a
    rw [Option.getD_some, a]
    rfl

/-- C98: a catalog of shells with fewer coefficients than the Order of `prof` needs is rejected with an error. -/
theorem C98_prof_order_larger (loop : List Int → List Int → List (List F) → Out (Nat → List F)) (stdin : Str) (rows : List (Int × Int))
    (hh : Holds ff stdin rows) (xs ys zs rs : List F) (hco : parse ff stdin [0, 1] [2, 3, 4, 5] = .ok ([rows.map Prod.fst, rows.map Prod.snd], [xs, ys, zs, rs])) (res : Nat → List F)
    (hres : loop (rows.map Prod.fst) (rows.map Prod.snd) [xs, ys, zs, rs] = .ok res) (o : Nat) (hshape : ∀ i < rows.length, (res i).length = 2 * o * o) (out : List Str)
    (h : shellRun ff loop stdin = .lines out) (o' : Nat) (ho : o < o') (bins : Nat) :
    (∀ prof, profRun ff (chars "contained-density") o' bins prof (printed out) = .err) ∧ ∀ frac, angularRun ff o' bins frac (printed out) = .err := by
  have hs := C98_order_larger ff rd hff loop stdin rows hh xs ys zs rs hco res hres o hshape out h o' ho (fun _ _ _ _ => .panic)
  have hp : parse ff (printed out) [0, 1] ((List.range (4 + 2 * o' * o')).map (· + 2)) = .err := by
    unfold statsRun at hs
    cases hq : parse ff (printed out) [0, 1] ((List.range (4 + 2 * o' * o')).map (· + 2)) with
    | err => rfl
    | panic => rw [hq] at hs; cases hs
    | ok r =>
      rw [hq] at hs
      simp only [andThen] at hs
      split at hs
      · unfold withCols at hs
        split at hs
        · split at hs <;> cases hs
        · cases hs
      · cases hs
  constructor
  · intro prof
    unfold profRun
    rw [profCols_shell _ (Or.inl rfl), hp]
    rfl
  · intro frac
    unfold angularRun
    rw [profCols_shell _ (Or.inr rfl), hp]
    rfl

end

/-- The case of `shellText` (Order 1, two halos): the coefficients of the first halo are 1, 1 and of the second 0, 1, and the profile is computed with them. -/
example : profRun bitFmt (chars "contained-density") 1 1 (fun _ _ fl => .ok (some (fun i => [((fl.getD 4 []).getD i false)], fun i => [((fl.getD 5 []).getD i false)]))) (printed shellText) =
    .lines [chars "# Column contents: ID(0) Snapshot(1) R [cMpc/h](2) Rho [h^2 Msun/cMpc^3](3)", chars " 5 10 1 1", chars "77 11 0 1"] := by decide +kernel

example : ∀ prof, profRun bitFmt (chars "contained-density") 2 1 prof (printed shellText) = .err :=
  (C98_prof_order_larger bitFmt id bitFmt_reads bitLoop twoHalos _ twoHalos_holds [false, true] [false, true] [false, true] [true, true] (by decide +kernel) _ rfl 1 (by intro i _; rfl) shellText
    (by decide +kernel) 2 (by norm_num) 1).1

end Shellfish.Pipe
