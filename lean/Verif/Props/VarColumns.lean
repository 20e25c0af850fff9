/-
C69: the values of a halo catalogue are found under their names; missing radii are computed from the masses.
-/
import Verif.Props.Memo
import Verif.Props.Radius
import Mathlib.Data.Real.Archimedean

namespace Shellfish.Memo
open Shellfish.Radius (Cosmo unitConversionFactor genColumn radiusFromString radiusOf rho)

/-! Specification -/

/-- The mass and the radius of the four definitions. -/
def definitions : List (String × String) := [("M200m", "R200m"), ("M200c", "R200c"), ("M500c", "R500c"), ("M2500c", "R2500c")]

/-- The definitions whose mass is in a catalogue and whose radius is not. -/
def missing (names : List String) : List (String × String) := definitions.filter fun p => decide (p.1 ∈ names ∧ p.2 ∉ names)

/-! Proofs -/

structure VarColumns.Inv (vc : VarColumns) : Prop where
  nodup : vc.names.Nodup
  gens : vc.generator.length = vc.names.length
  cols : vc.columns.length = vc.names.length
  look : ∀ s j, vc.lookup s = some j ↔ vc.names[j]? = some s

theorem VarColumns.Inv.isSome {vc : VarColumns} (h : vc.Inv) (s : String) : (vc.lookup s).isSome = true ↔ s ∈ vc.names := by
  rw [Option.isSome_iff_exists, List.mem_iff_getElem?]
  exact exists_congr fun j => h.look s j

theorem inv_push {vc : VarColumns} (h : vc.Inv) (r g : String) (c : Int) (nb : Nat) (hr : r ∉ vc.names) :
    VarColumns.Inv ⟨fun s => if s = r then some vc.names.length else vc.lookup s, vc.names ++ [r], vc.columns ++ [c], vc.generator ++ [g], nb⟩ := by
  refine ⟨?_, ?_, ?_, ?_⟩
  · rw [List.nodup_append]
    refine ⟨h.nodup, by simp, fun a ha b hb hab => ?_⟩
    rw [List.mem_singleton] at hb
    exact hr (hb ▸ hab ▸ ha)
  · simp [h.gens]
  · simp [h.cols]
  · intro s j
    dsimp only
    by_cases hs : s = r
    · rw [if_pos hs, hs]
      constructor
      · intro hj
        cases hj
        rw [List.getElem?_append_right (le_refl _), Nat.sub_self]
        rfl
      · intro hj
        by_cases hlt : j < vc.names.length
        · rw [List.getElem?_append_left hlt] at hj
          exact absurd (List.mem_of_getElem? hj) hr
        · have := (List.getElem?_eq_some_iff.mp hj).1
          rw [List.length_append, List.length_singleton] at this
          congr 1
          omega
    · rw [if_neg hs, h.look]
      by_cases hlt : j < vc.names.length
      · rw [List.getElem?_append_left hlt]
      · rw [List.getElem?_append_right (by omega), List.getElem?_eq_none (by omega)]
        simp only [reduceCtorEq, false_iff]
        intro hj
        have := List.mem_of_getElem? hj
        exact hs (List.mem_singleton.mp this)

theorem names_fold : ∀ (l : List (String × Int)) (vc : VarColumns), vc.Inv → (vc.names ++ l.map Prod.fst).Nodup →
    ∃ w, w = l.foldl (fun vc p => addName vc p.1 p.2) vc ∧ w.Inv ∧ w.names = vc.names ++ l.map Prod.fst ∧ w.columns = vc.columns ++ l.map Prod.snd ∧
      w.generator = vc.generator ++ l.map (fun _ => "") ∧ w.nBinary = vc.nBinary + l.length
  | [], vc, h, _ => ⟨vc, rfl, h, by simp, by simp, by simp, by simp⟩
  | p :: l, vc, h, hnd => by
    have hp : p.1 ∉ vc.names := by
      rw [List.nodup_append] at hnd
      exact fun hc => hnd.2.2 _ hc p.1 (by simp) rfl
    obtain ⟨w, h1, h2, h3, h4, h5, h6⟩ := names_fold l (addName vc p.1 p.2) (inv_push h p.1 "" p.2 _ hp) (by simpa [addName] using hnd)
    refine ⟨w, h1, h2, ?_, ?_, ?_, ?_⟩
    · rw [h3]; simp [addName]
    · rw [h4]; simp [addName]
    · rw [h5]; simp [addName]
    · rw [h6]; simp [addName]; omega

theorem radius_fold : ∀ (l : List (String × String)) (vc : VarColumns), vc.Inv → (l.map Prod.snd).Nodup → (∀ p ∈ l, ∀ q ∈ l, p.1 ≠ q.2) →
    ∃ w, w = l.foldl (fun vc p => addRadius vc p.1 p.2) vc ∧ w.Inv ∧
      w.names = vc.names ++ (l.filter fun p => decide (p.1 ∈ vc.names ∧ p.2 ∉ vc.names)).map Prod.snd ∧
      w.columns = vc.columns ++ (l.filter fun p => decide (p.1 ∈ vc.names ∧ p.2 ∉ vc.names)).map (fun _ => -1) ∧
      w.generator = vc.generator ++ (l.filter fun p => decide (p.1 ∈ vc.names ∧ p.2 ∉ vc.names)).map Prod.fst ∧ w.nBinary = vc.nBinary
  | [], vc, h, _, _ => ⟨vc, rfl, h, by simp, by simp, by simp, rfl⟩
  | p :: l, vc, h, hnd, hne => by
    rw [List.map_cons, List.nodup_cons] at hnd
    have hne' : ∀ a ∈ l, ∀ b ∈ l, a.1 ≠ b.2 := fun a ha b hb => hne a (List.mem_cons_of_mem _ ha) b (List.mem_cons_of_mem _ hb)
    by_cases hc : p.1 ∈ vc.names ∧ p.2 ∉ vc.names
    · have hstep : addRadius vc p.1 p.2 =
          ⟨fun s => if s = p.2 then some vc.names.length else vc.lookup s, vc.names ++ [p.2], vc.columns ++ [-1], vc.generator ++ [p.1], vc.nBinary⟩ := by
        unfold addRadius
        rw [if_pos ⟨(h.isSome _).mpr hc.1, by rw [Bool.eq_false_iff, ne_eq, h.isSome]; exact hc.2⟩]
      obtain ⟨w, h1, h2, h3, h4, h5, h6⟩ := radius_fold l _ (inv_push h p.2 p.1 (-1) vc.nBinary hc.2) hnd.2 hne'
      have hf : (l.filter fun q => decide (q.1 ∈ vc.names ++ [p.2] ∧ q.2 ∉ vc.names ++ [p.2])) = l.filter fun q => decide (q.1 ∈ vc.names ∧ q.2 ∉ vc.names) := by
        apply List.filter_congr
        intro q hq
        have q1 : q.1 ≠ p.2 := hne q (List.mem_cons_of_mem _ hq) p (List.mem_cons_self ..)
        have q2 : q.2 ≠ p.2 := fun e => hnd.1 (e ▸ List.mem_map_of_mem hq)
        simp [q1, q2]
      dsimp only at h3 h4 h5
      rw [hf] at h3 h4 h5
      refine ⟨w, by rw [List.foldl_cons, hstep]; exact h1, h2, ?_, ?_, ?_, h6⟩
      · rw [h3, List.filter_cons_of_pos (by simpa using hc)]; simp
      · rw [h4, List.filter_cons_of_pos (by simpa using hc)]; simp
      · rw [h5, List.filter_cons_of_pos (by simpa using hc)]; simp
    · have hstep : addRadius vc p.1 p.2 = vc := by
        unfold addRadius
        rw [if_neg]
        rintro ⟨h1, h2⟩
        refine hc ⟨(h.isSome _).mp h1, fun h3 => ?_⟩
        rw [(h.isSome _).mpr h3] at h2
        cases h2
      obtain ⟨w, h1, h2, h3, h4, h5, h6⟩ := radius_fold l vc h hnd.2 hne'
      rw [List.filter_cons_of_neg (by simpa using hc), List.foldl_cons, hstep]
      exact ⟨w, h1, h2, h3, h4, h5, h6⟩

/-- what `NewVarColumns` builds -/
theorem varColumns_spec (names : List String) (columns : List Int) (hnd : names.Nodup) (hl : names.length ≤ columns.length) :
    ∃ vc, newVarColumns names columns = some vc ∧ vc.Inv ∧ vc.names = names ++ (missing names).map Prod.snd ∧
      vc.columns = columns.take names.length ++ (missing names).map (fun _ => -1) ∧ vc.generator = names.map (fun _ => "") ++ (missing names).map Prod.fst ∧
      vc.nBinary = names.length := by
  have hmap : (names.zip columns).map Prod.fst = names := List.map_fst_zip hl
  obtain ⟨v, h1, h2, h3, h4, h5, h6⟩ := names_fold (names.zip columns) ⟨fun _ => none, [], [], [], 0⟩ ⟨by simp, rfl, rfl, by simp⟩ (by simpa [hmap] using hnd)
  rw [hmap] at h3
  simp only [List.nil_append] at h3 h4 h5
  obtain ⟨w, g1, g2, g3, g4, g5, g6⟩ := radius_fold definitions v h2 (by decide) (by decide)
  rw [h3] at g3 g4 g5
  refine ⟨w, ?_, g2, g3, ?_, ?_, ?_⟩
  · unfold newVarColumns
    rw [if_pos hl, g1, h1]
    rfl
  · have hz : ∀ (a : List String) (b : List Int), a.length ≤ b.length → (a.zip b).map Prod.snd = b.take a.length := by
      intro a
      induction a with
      | nil => intro b _; simp
      | cons x a ih =>
        intro b hb
        cases b with
        | nil => simp at hb
        | cons y b => simp [ih b (by simpa using hb)]
    rw [g4, h4, hz _ _ hl]
    rfl
  · rw [g5, h5]
    congr 1
    simp [hl]
  · rw [g6, h6, List.length_zip, min_eq_left hl]
    simp

variable {K : Type} [Field K] [LinearOrder K] [IsStrictOrderedRing K] [FloorRing K]

/-- C69 (listed names): a value named in the configuration is taken from the table column listed with it, whatever other values there are, and in the file's own numbers. -/
theorem C69_listed (rd : Reading K) (names : List String) (columns : List Int) (hnd : names.Nodup) (hl : names.length ≤ columns.length) (i : Nat) (s : String)
    (hs : names[i]? = some s) :
    ∃ vc, newVarColumns names columns = some vc ∧ vc.lookup s = some i ∧ vc.columns[i]? = columns[i]? ∧ vc.nBinary = names.length ∧
      ∀ cols : List (List Nat), getColumn rd vc cols s = (cols[i]?).map fun c => c.map rd.val := by
  obtain ⟨vc, h1, h2, h3, h4, h5, h6⟩ := varColumns_spec names columns hnd hl
  have hi : i < names.length := (List.getElem?_eq_some_iff.mp hs).1
  have hlook : vc.lookup s = some i := by
    rw [h2.look, h3, List.getElem?_append_left hi]
    exact hs
  refine ⟨vc, h1, hlook, ?_, h6, fun cols => ?_⟩
  · rw [h4, List.getElem?_append_left (by rw [List.length_take]; omega), List.getElem?_take_of_lt hi]
  · unfold getColumn
    rw [hlook, Option.getD_some, h5, List.getElem?_append_left (by simpa using hi), List.getElem?_map, hs]
    simp

/-- C69 (generated radii): a radius that is not in the catalogue is computed, row by row, from the mass of the same definition if this mass is in the catalogue. -/
theorem C69_generated (rd : Reading K) (names : List String) (columns : List Int) (hnd : names.Nodup) (hl : names.length ≤ columns.length) (i : Nat) (m r : String)
    (hd : (m, r) ∈ definitions) (hm : names[i]? = some m) (hr : r ∉ names) :
    ∃ vc, newVarColumns names columns = some vc ∧ (vc.lookup r).isSome ∧
      ∀ cols : List (List Nat), getColumn rd vc cols r = (cols[i]?).map fun c => c.map fun w => rd.gen r (rd.val w) := by
  obtain ⟨vc, h1, h2, h3, h4, h5, h6⟩ := varColumns_spec names columns hnd hl
  have hi : i < names.length := (List.getElem?_eq_some_iff.mp hm).1
  have hmem : (m, r) ∈ missing names := List.mem_filter.mpr ⟨hd, by simpa using ⟨List.mem_of_getElem? hm, hr⟩⟩
  obtain ⟨k, hk⟩ := List.mem_iff_getElem?.mp hmem
  have hlook : vc.lookup r = some (names.length + k) := by
    rw [h2.look, h3, List.getElem?_append_right (by omega), Nat.add_sub_cancel_left, List.getElem?_map, hk]
    rfl
  have hlm : vc.lookup m = some i := by
    rw [h2.look, h3, List.getElem?_append_left hi]
    exact hm
  refine ⟨vc, h1, by rw [hlook]; rfl, fun cols => ?_⟩
  unfold getColumn
  rw [hlook, Option.getD_some, h5, List.getElem?_append_right (by simp), List.length_map, Nat.add_sub_cancel_left, List.getElem?_map, hk, Option.map_some, Option.bind_some]
  have hne : m ≠ "" := by
    rintro rfl
    simp [definitions] at hd
  rw [if_neg hne, hlm, Option.getD_some]

/-- C69 (unknown names): no other name is known. -/
theorem C69_unknown (names : List String) (columns : List Int) (hnd : names.Nodup) (hl : names.length ≤ columns.length) (s : String) (hs : s ∉ names)
    (hg : ∀ m, (m, s) ∈ definitions → m ∉ names) : ∃ vc, newVarColumns names columns = some vc ∧ vc.lookup s = none := by
  obtain ⟨vc, h1, h2, h3, _⟩ := varColumns_spec names columns hnd hl
  refine ⟨vc, h1, ?_⟩
  rw [← Option.not_isSome_iff_eq_none, h2.isSome, h3, List.mem_append, List.mem_map]
  rintro (h | ⟨p, hp, rfl⟩)
  · exact hs h
  · obtain ⟨p1, p2⟩ := List.mem_filter.mp hp
    exact hg p.1 p1 (by simpa using (of_decide_eq_true p2).1)

/-- C69 is false for names which are not known: `GetColumn` does not report them but returns the first column of the catalogue. -/
theorem C69_unknown_false (rd : Reading K) : ∃ vc, newVarColumns ["ID", "M200m"] [0, 1] = some vc ∧ vc.lookup "Vmax" = none ∧
    getColumn rd vc [[7], [8]] "Vmax" = some [rd.val 7] := ⟨_, rfl, rfl, rfl⟩

/-- How the float64 patterns of a catalogue are read when its radii are in the given units: cmd/halo/io.go:67-76 for one row. -/
noncomputable def realReading (val : Nat → ℝ) (units : String) (c : Cosmo) : Reading ℝ :=
  ⟨val, fun name m => radiusOf ((rho (radiusFromString name).1 c).getD 0) c.z m / (unitConversionFactor units c).getD 0⟩

/-- the row-wise reading is what the code computes for the column -/
theorem realReading_gen (val : Nat → ℝ) (units : String) (c : Cosmo) (u : ℝ) (hu : unitConversionFactor units c = some u) (m r : String) (hd : (m, r) ∈ definitions)
    (ms : List ℝ) : genColumn units c r ms = some (ms.map ((realReading val units c).gen r)) := by
  have hr : Radius.toStr (radiusFromString r).1 = some r := by
    simp only [definitions, List.mem_cons, Prod.mk.injEq, List.not_mem_nil, or_false] at hd
    rcases hd with ⟨_, rfl⟩ | ⟨_, rfl⟩ | ⟨_, rfl⟩ | ⟨_, rfl⟩ <;> rfl
  obtain ⟨d, hd⟩ := Radius.rho_named _ c r hr
  unfold genColumn Radius.radius Radius.writeAll realReading
  rw [hd, hu, Option.bind_some, if_pos (by simp)]
  simp [hd]

/-- C69 (computed radii): the radius computed for a halo of mass `M`, converted from catalogue units to comoving Mpc/h, is the radius at which the mean density within is
the overdensity of its definition. -/
theorem C69_radius_value (val : Nat → ℝ) (units : String) (c : Cosmo) (hc : c.Ok) (u : ℝ) (hu : unitConversionFactor units c = some u) (names : List String)
    (columns : List Int) (hnd : names.Nodup) (hl : names.length ≤ columns.length) (i : Nat) (m r : String) (hd : (m, r) ∈ definitions) (hm : names[i]? = some m)
    (hr : r ∉ names) (delta : ℝ) (mean : Bool) (ho : Radius.overdensity r = some (delta, mean)) (flat : mean = true → c.omegaM + c.omegaL = 1)
    (cols : List (List Nat)) (col : List Nat) (hcol : cols[i]? = some col) (hpos : ∀ w ∈ col, 0 ≤ val w) :
    ∃ vc out, newVarColumns names columns = some vc ∧ getColumn (realReading val units c) vc cols r = some out ∧ genColumn units c r (col.map val) = some out ∧
      out.length = col.length ∧
      ∀ (k : Nat) w v, col[k]? = some w → out[k]? = some v → 4 / 3 * Real.pi * (v * u / (1 + c.z)) ^ 3 * (delta * Radius.refDensity mean c) = val w := by
  obtain ⟨vc, h1, _, h3⟩ := C69_generated (realReading val units c) names columns hnd hl i m r hd hm hr
  have hs : Radius.toStr (radiusFromString r).1 = some r := by
    simp only [definitions, List.mem_cons, Prod.mk.injEq, List.not_mem_nil, or_false] at hd
    rcases hd with ⟨_, rfl⟩ | ⟨_, rfl⟩ | ⟨_, rfl⟩ | ⟨_, rfl⟩ <;> rfl
  have hup : u ≠ 0 := by
    obtain ⟨p, k, h, he⟩ := Radius.C47_units_panic units c (by rw [hu]; simp)
    have h2 := Radius.C47_units p k h c
    rw [he, h2.1] at hu
    cases hu
    exact (h2.2 hc).ne'
  refine ⟨vc, _, h1, by rw [h3, hcol]; rfl, ?_, by simp, ?_⟩
  · rw [realReading_gen val units c u hu m r hd, List.map_map]
    rfl
  · intro k w v hw hv
    rw [List.getElem?_map, hw, Option.map_some, Option.some.injEq] at hv
    obtain ⟨rs, g1, g2, g3⟩ := Radius.C47_radius _ r hs delta mean ho c hc flat [val w] [0] (by simpa using hpos w (List.mem_of_getElem? hw)) rfl
    obtain ⟨d, hdd⟩ := Radius.rho_named _ c r hs
    unfold Radius.radius Radius.writeAll at g1
    rw [hdd] at g1
    simp at g1
    have := (g3 0 (val w) (radiusOf d c.z (val w)) rfl (by rw [← g1]; rfl)).2
    rw [← hv]
    simp only [realReading, hdd, hu, Option.getD_some]
    rw [div_mul_cancel₀ _ hup]
    exact this

/-- A catalogue with ID, M200m, M500c and R500c: only R200m is computed. -/
example : missing ["ID", "M200m", "M500c", "R500c"] = [("M200m", "R200m")] := by decide
/-- The hypotheses of `C69_listed` and `C69_generated` for it. -/
example : ["ID", "M200m", "M500c", "R500c"].Nodup ∧ ("M200m", "R200m") ∈ definitions ∧ ["ID", "M200m", "M500c", "R500c"][1]? = some "M200m" ∧
    "R200m" ∉ ["ID", "M200m", "M500c", "R500c"] := by decide
/-- Its units. -/
example : unitConversionFactor "ckpc/h" ⟨0, 3 / 10, 7 / 10, 7 / 10⟩ = some (1 / 10 ^ 3) := by simp [unitConversionFactor]

end Shellfish.Memo
