import Verif.Spec.Gadget
import Verif.Lemmas.Io

namespace Shellfish.Gadget
open Shellfish.Bytes Shellfish.Io

/-! Types, one after the other -/

/-- The particles of the types below `n` that `p` selects, one type after the other. -/
def flat {α : Type} (parts : Nat → List α) (p : Nat → Bool) (n : Nat) : List α := (List.range n).flatMap fun t => if p t then parts t else []

theorem flat_succ {α : Type} (parts : Nat → List α) (p : Nat → Bool) (n : Nat) : flat parts p (n + 1) = flat parts p n ++ (if p n then parts n else []) := by
  unfold flat
  rw [List.range_succ, List.flatMap_append]
  simp

theorem countTypes_take_succ (p : Nat → Bool) (nPart : List Nat) (i c : Nat) (h : nPart[i]? = some c) :
    countTypes p (nPart.take (i + 1)) = countTypes p (nPart.take i) + (if p i then c else 0) := by
  unfold countTypes
  have hi : i < nPart.length := by
    by_contra hh
    rw [List.getElem?_eq_none (by omega)] at h
    exact absurd h (by simp)
  have e : nPart.take (i + 1) = nPart.take i ++ [c] := by
    rw [List.take_add_one, h]; rfl
  rw [e, List.zipIdx_append, List.map_append, List.sum_append]
  have hl : (nPart.take i).length = i := by rw [List.length_take]; omega
  simp [hl]

/-- `nPart` counts the particles of `parts`. -/
def Counts {α : Type} (nPart : List Nat) (parts : Nat → List α) : Prop := nPart.length = 6 ∧ ∀ t < 6, nPart[t]? = some (parts t).length

theorem flat_length {α : Type} (nPart : List Nat) (parts : Nat → List α) (hc : Counts nPart parts) (p : Nat → Bool) (n : Nat) (hn : n ≤ 6) :
    (flat parts p n).length = countTypes p (nPart.take n) := by
  induction n with
  | zero => simp [flat, countTypes]
  | succ n ih =>
    rw [flat_succ, List.length_append, ih (by omega), countTypes_take_succ p nPart n _ (hc.2 n (by omega))]
    split <;> simp

theorem offsets_get (p : Nat → Bool) (nPart : List Nat) (h6 : nPart.length = 6) (i : Nat) (hi : i ≤ 6) : (offsets p nPart).getD i 0 = countTypes p (nPart.take i) := by
  unfold offsets
  rw [h6, List.getD_eq_getElem?_getD, List.getElem?_map, List.getElem?_range (by omega)]
  rfl

theorem flat_prefix {α : Type} (parts : Nat → List α) (p : Nat → Bool) (n m : Nat) (h : n ≤ m) : ∃ r, flat parts p m = flat parts p n ++ r := by
  induction m with
  | zero => exact ⟨[], by rw [Nat.le_zero.mp h, List.append_nil]⟩
  | succ m ih =>
    by_cases hnm : n = m + 1
    · exact ⟨[], by rw [hnm, List.append_nil]⟩
    · obtain ⟨r, hr⟩ := ih (by omega)
      exact ⟨r ++ (if p m then parts m else []), by rw [flat_succ, hr, List.append_assoc]⟩

/-- The slice between two offsets. -/
theorem flat_slice {α : Type} (nPart : List Nat) (parts : Nat → List α) (hc : Counts nPart parts) (p : Nat → Bool) (i : Nat) (hi : i < 6) :
    ((flat parts p 6).take ((offsets p nPart).getD (i + 1) 0)).drop ((offsets p nPart).getD i 0) = if p i then parts i else [] := by
  rw [offsets_get p nPart hc.1 _ (by omega), offsets_get p nPart hc.1 _ (by omega), ← flat_length nPart parts hc p _ (by omega), ← flat_length nPart parts hc p _ (by omega)]
  obtain ⟨r, hr⟩ := flat_prefix parts p (i + 1) 6 (by omega)
  rw [hr, List.take_left, flat_succ, List.drop_left]

/-- `pack` moves the selected types to the front. -/
theorem pack_flat {α : Type} (nPart : List Nat) (parts : Nat → List α) (hc : Counts nPart parts) (dm : List Int) :
    (pack nPart dm (flat parts (fun _ => true) 6)).take (countTypes (isDM dm) nPart) = flat parts (isDM dm) 6 := by
  have key : ∀ m ≤ 6, ∃ B : List α, (List.range m).foldl (fun buf i =>
      if isDM dm i then
        copyTo buf ((offsets (isDM dm) nPart).getD i 0) ((offsets (isDM dm) nPart).getD (i + 1) 0)
          ((buf.take ((offsets (fun _ => true) nPart).getD (i + 1) 0)).drop ((offsets (fun _ => true) nPart).getD i 0))
      else buf) (flat parts (fun _ => true) 6) = B ∧ B.take (flat parts (isDM dm) m).length = flat parts (isDM dm) m ∧
      B.drop (flat parts (fun _ => true) m).length = (flat parts (fun _ => true) 6).drop (flat parts (fun _ => true) m).length ∧
      B.length = (flat parts (fun _ => true) 6).length := by
    intro m hm
    induction m with
    | zero => exact ⟨_, rfl, by simp [flat], rfl, rfl⟩
    | succ m ih =>
      obtain ⟨B, hB, h1, h2, h3⟩ := ih (by omega)
      rw [List.range_succ, List.foldl_append, hB]
      simp only [List.foldl_cons, List.foldl_nil]
      have hle : (flat parts (isDM dm) m).length ≤ (flat parts (fun _ => true) m).length := by
        clear hB h1 h2 h3 ih
        induction m with
        | zero => simp [flat]
        | succ m ih =>
          have := ih (by omega)
          rw [flat_succ, flat_succ, List.length_append, List.length_append]
          split <;> simp <;> omega
      have hall : (flat parts (fun _ => true) (m + 1)).length = (flat parts (fun _ => true) m).length + (parts m).length := by
        rw [flat_succ, List.length_append]; simp
      obtain ⟨r, hr⟩ := flat_prefix parts (fun _ => true) (m + 1) 6 (by omega)
      have h6 : (flat parts (fun _ => true) (m + 1)).length ≤ (flat parts (fun _ => true) 6).length := by
        rw [hr, List.length_append]; omega
      have hd2 : B.drop (flat parts (fun _ => true) (m + 1)).length = (flat parts (fun _ => true) 6).drop (flat parts (fun _ => true) (m + 1)).length := by
        have := congrArg (List.drop (parts m).length) h2
        rw [List.drop_drop, List.drop_drop, ← hall] at this
        exact this
      by_cases hd : isDM dm m = true
      · rw [if_pos hd]
        refine ⟨_, rfl, ?_, ?_, ?_⟩
        all_goals rw [offsets_get (isDM dm) nPart hc.1 _ (by omega), offsets_get (isDM dm) nPart hc.1 _ (by omega), offsets_get (fun _ => true) nPart hc.1 _ (by omega),
          offsets_get (fun _ => true) nPart hc.1 _ (by omega), ← flat_length nPart parts hc _ _ (by omega), ← flat_length nPart parts hc _ _ (by omega), ← flat_length nPart parts hc _ _ (by omega),
          ← flat_length nPart parts hc _ _ (by omega)]
        all_goals
          have hsrc : (B.take (flat parts (fun _ => true) (m + 1)).length).drop (flat parts (fun _ => true) m).length = parts m := by
            rw [List.drop_take, h2, hall, Nat.add_sub_cancel_left, ← List.take_append_drop (parts m).length ((flat parts (fun _ => true) 6).drop _)]
            rw [hr, flat_succ, List.append_assoc, List.drop_left]
            simp
          have hsel : (flat parts (isDM dm) (m + 1)).length = (flat parts (isDM dm) m).length + (parts m).length := by
            rw [flat_succ, List.length_append, if_pos hd]
          rw [hsrc]
          unfold copyTo
        · rw [h1, flat_succ, if_pos hd, List.take_left' rfl]
        · rw [h1]
          have e : (flat parts (fun _ => true) (m + 1)).length = (flat parts (isDM dm) m ++ parts m).length + ((flat parts (fun _ => true) m).length - (flat parts (isDM dm) m).length) := by
            rw [List.length_append]; omega
          rw [← hd2, e, List.drop_length_add_append, List.drop_drop, hsel, List.length_append]
        · rw [h1, List.length_append, List.length_append, List.length_drop, hsel]
          omega
      · rw [if_neg hd]
        refine ⟨B, rfl, ?_, hd2, h3⟩
        rw [flat_succ, if_neg hd, List.append_nil, h1]
  obtain ⟨B, hB, h1, -, -⟩ := key 6 (by omega)
  unfold pack
  rw [hB]
  have := flat_length nPart parts hc (isDM dm) 6 (by omega)
  rw [List.take_of_length_le (by rw [hc.1])] at this
  rw [← this, h1]

/-- `unpackMass` expands the masses of the header. -/
theorem unpackMass_flat (to32 : Nat → Nat) (gh : GHeader) (parts : Nat → List Nat) (hc : Counts gh.nPart parts) (single : List Int) (ms : List Nat)
    (hms : ms.length = countTypes (fun _ => true) gh.nPart) :
    unpackMass to32 gh single (flat parts (isMultiMass single) 6) ms =
      flat (fun t => if isMultiMass single t then parts t else List.replicate (parts t).length (to32 (gh.mass.getD t 0))) (fun _ => true) 6 := by
  generalize hq : (fun t => if isMultiMass single t then parts t else List.replicate (parts t).length (to32 (gh.mass.getD t 0))) = q
  have hlq : ∀ t, (q t).length = (parts t).length := by
    intro t; rw [← hq]; simp only; split <;> simp
  have hcq : Counts gh.nPart q := ⟨hc.1, fun t ht => by rw [hlq t]; exact hc.2 t ht⟩
  have key : ∀ m ≤ 6, ∃ B : List Nat, (List.range m).foldl (fun ms i =>
      copyTo ms ((offsets (fun _ => true) gh.nPart).getD i 0) ((offsets (fun _ => true) gh.nPart).getD (i + 1) 0)
        (if isMultiMass single i then ((flat parts (isMultiMass single) 6).take ((offsets (isMultiMass single) gh.nPart).getD (i + 1) 0)).drop ((offsets (isMultiMass single) gh.nPart).getD i 0)
         else List.replicate (gh.nPart.getD i 0) (to32 (gh.mass.getD i 0)))) ms = B ∧ B.take (flat q (fun _ => true) m).length = flat q (fun _ => true) m ∧ B.length = ms.length := by
    intro m hm
    induction m with
    | zero => exact ⟨_, rfl, by simp [flat], rfl⟩
    | succ m ih =>
      obtain ⟨B, hB, h1, h3⟩ := ih (by omega)
      rw [List.range_succ, List.foldl_append, hB]
      simp only [List.foldl_cons, List.foldl_nil]
      have hsrc : (if isMultiMass single m then ((flat parts (isMultiMass single) 6).take ((offsets (isMultiMass single) gh.nPart).getD (m + 1) 0)).drop ((offsets (isMultiMass single) gh.nPart).getD m 0)
         else List.replicate (gh.nPart.getD m 0) (to32 (gh.mass.getD m 0))) = q m := by
        rw [flat_slice gh.nPart parts hc _ m (by omega), List.getD_eq_getElem?_getD, hc.2 m (by omega), ← hq]
        simp only [Option.getD_some]
        by_cases h : isMultiMass single m = true
        · rw [if_pos h, if_pos h, if_pos h]
        · rw [if_neg h, if_neg h]
      rw [hsrc, offsets_get _ _ hc.1 _ (by omega), offsets_get _ _ hc.1 _ (by omega), ← flat_length gh.nPart q hcq _ _ (by omega), ← flat_length gh.nPart q hcq _ _ (by omega)]
      have hall : (flat q (fun _ => true) (m + 1)).length = (flat q (fun _ => true) m).length + (q m).length := by
        rw [flat_succ, List.length_append]; simp
      obtain ⟨r, hr⟩ := flat_prefix q (fun _ => true) (m + 1) 6 (by omega)
      have h6 := flat_length gh.nPart q hcq (fun _ => true) 6 (by omega)
      rw [List.take_of_length_le (by rw [hc.1])] at h6
      have hle : (flat q (fun _ => true) (m + 1)).length ≤ B.length := by
        rw [h3, hms, ← h6, hr, List.length_append]; omega
      refine ⟨_, rfl, ?_, ?_⟩
      · unfold copyTo
        rw [h1, flat_succ, if_pos rfl, List.take_left' rfl]
      · unfold copyTo
        rw [h1, List.length_append, List.length_append, List.length_drop]
        omega
  obtain ⟨B, hB, h1, h2⟩ := key 6 (by omega)
  unfold unpackMass
  rw [hB, ← h1]
  have h6 := flat_length gh.nPart q hcq (fun _ => true) 6 (by omega)
  rw [List.take_of_length_le (by rw [hc.1])] at h6
  rw [List.take_of_length_le (by omega)]

end Shellfish.Gadget
