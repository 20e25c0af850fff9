/-
C90: the file of shell particles.
-/
import Verif.Model.ShellFile
import Verif.Props.Filter
import Verif.Props.Stats

namespace Shellfish.ShellFile
open Shellfish.Bytes Shellfish.Filter
open Shellfish.Catalog (Out)

/-- A file holds filter data when reading it gives the data. -/
def Holds (file : Option (List Byte)) (d : FilterData) : Prop := ∃ bytes, file = some bytes ∧ readFilter bytes = .ok d

/-- One of the three names of byte orders. -/
def OrderName (flag : List Char) : Prop := flag = "LittleEndian".toList ∨ flag = "BigEndian".toList ∨ flag = "SystemOrder".toList

theorem int64sEq_iff (xs ys : List Int) : int64sEq xs ys = true ↔ xs = ys := by
  unfold int64sEq
  by_cases h : xs.length ≠ ys.length
  · simp only [h, if_true, ne_eq, not_false_eq_true]
    exact ⟨fun h => (nomatch h), fun e => absurd (congrArg List.length e) h⟩
  · simp only [h, if_false, List.all_eq_true, List.mem_range, decide_eq_true_eq]
    push Not at h
    constructor
    · intro hx
      apply List.ext_getElem?
      intro i
      by_cases hi : i < xs.length
      · exact hx i hi
      · rw [List.getElem?_eq_none (by omega), List.getElem?_eq_none (by omega)]
    · rintro rfl i _
      rfl

theorem same_iff (a b : FilterData) : same a b = true ↔ a = b := by
  obtain ⟨s1, i1, p1⟩ := a
  obtain ⟨s2, i2, p2⟩ := b
  unfold same
  dsimp only
  have hs := int64sEq_iff s1 s2
  have hi := int64sEq_iff i1 i2
  by_cases h1 : int64sEq s1 s2 = true
  · by_cases h2 : int64sEq i1 i2 = true
    · obtain rfl := hs.1 h1
      obtain rfl := hi.1 h2
      simp only [h1, h2, Bool.not_true, Bool.false_eq_true, if_false]
      by_cases h3 : p1.length ≠ p2.length
      · simp only [h3, if_true, ne_eq, not_false_eq_true]
        refine ⟨fun h => (nomatch h), fun e => ?_⟩
        simp only [FilterData.mk.injEq, true_and] at e
        exact absurd (congrArg List.length e) h3
      · simp only [h3, if_false, List.all_eq_true, List.mem_range, int64sEq_iff]
        push Not at h3
        simp only [FilterData.mk.injEq, true_and]
        constructor
        · intro hx
          apply List.ext_getElem h3
          intro i a b
          have := hx i b
          rwa [List.getD_eq_getElem _ _ a, List.getD_eq_getElem _ _ b] at this
        · rintro rfl i _
          rfl
    · simp only [h1, h2, Bool.not_true, Bool.false_eq_true, if_false, Bool.not_false, if_true]
      simp only [Bool.not_eq_true] at h2
      refine ⟨fun h => (nomatch h), fun e => ?_⟩
      simp only [FilterData.mk.injEq] at e
      rw [hi.2 e.2.1] at h2
      exact (nomatch h2)
  · simp only [Bool.not_eq_true] at h1
    simp only [h1, Bool.not_false, if_true]
    refine ⟨fun h => (nomatch h), fun e => ?_⟩
    simp only [FilterData.mk.injEq] at e
    rw [hs.2 e.1] at h1
    exact (nomatch h1)

/-- C90: whatever the file system does, `writeShellParticles` only returns nil when the file holds the data it was given: data that was lost on the way is noticed. -/
theorem C90_checked (sysBig : Bool) (flag : List Char) (d : Disk) (old : Option (List Byte)) (snaps ids : List Int) (particles : List (List Int))
    (h : (writeShellParticles sysBig flag d old snaps ids particles).1 = .nil) :
    Holds (writeShellParticles sysBig flag d old snaps ids particles).2 ⟨snaps, ids, particles⟩ := by
  unfold writeShellParticles at h ⊢
  dsimp only at h ⊢
  by_cases hc : d.canCreate = true
  · simp only [hc, Bool.not_true, Bool.false_eq_true, if_false] at h ⊢
    cases ho : flagToOrder sysBig flag with
    | none => simp only [ho] at h; exact (nomatch h)
    | some o =>
      simp only [ho] at h ⊢
      cases hw : writeFilter o ⟨snaps, ids, particles⟩ with
      | none => simp only [hw] at h; exact (nomatch h)
      | some bytes =>
        simp only [hw] at h ⊢
        by_cases hp : d.canOpen = true
        · simp only [hp, Bool.not_true, Bool.false_eq_true, if_false] at h ⊢
          cases hr : readFilter (bytes.take d.room) with
          | panic => simp only [hr] at h; exact (nomatch h)
          | err => simp only [hr] at h; exact (nomatch h)
          | ok check =>
            simp only [hr] at h ⊢
            by_cases hs : same check ⟨snaps, ids, particles⟩ = true
            · simp only [hs, if_true] at h ⊢
              exact ⟨_, rfl, by rw [hr, (same_iff _ _).1 hs]⟩
            · simp only [hs, if_false] at h
              exact (nomatch h)
        · simp only [Bool.not_eq_true] at hp
          simp only [hp, Bool.not_false, if_true] at h
          exact (nomatch h)
  · simp only [Bool.not_eq_true] at hc
    simp only [hc, Bool.not_false, if_true] at h
    exact (nomatch h)

theorem flag_some (sysBig : Bool) {flag : List Char} (h : OrderName flag) : ∃ o, flagToOrder sysBig flag = some o := by
  unfold flagToOrder
  by_cases h1 : flag = "LittleEndian".toList
  · rw [if_pos h1]; exact ⟨_, rfl⟩
  by_cases h2 : flag = "BigEndian".toList
  · rw [if_neg h1, if_pos h2]; exact ⟨_, rfl⟩
  by_cases h3 : flag = "SystemOrder".toList
  · rw [if_neg h1, if_neg h2, if_pos h3]; exact ⟨_, rfl⟩
  rcases h with h | h | h <;> contradiction

/-- C90: on a file system that keeps what is written, the check never fails: for every catalog whose numbers fit the file, in every byte order, nil is returned and the file holds the data. -/
theorem C90_written (sysBig : Bool) (flag : List Char) (hf : OrderName flag) (d : Disk) (old : Option (List Byte)) (snaps ids : List Int) (particles : List (List Int))
    (hs : Storable ⟨snaps, ids, particles⟩) (hc : d.canCreate = true) (ho : d.canOpen = true)
    (hroom : ∀ o bytes, writeFilter o ⟨snaps, ids, particles⟩ = some bytes → bytes.length ≤ d.room) :
    (writeShellParticles sysBig flag d old snaps ids particles).1 = .nil ∧ Holds (writeShellParticles sysBig flag d old snaps ids particles).2 ⟨snaps, ids, particles⟩ := by
  obtain ⟨o, hfo⟩ := flag_some sysBig hf
  obtain ⟨bytes, hw, hr⟩ := C13_round_trip o _ hs []
  rw [List.append_nil] at hr
  have e : writeShellParticles sysBig flag d old snaps ids particles = (.nil, some bytes) := by
    unfold writeShellParticles
    simp only [hc, ho, hfo, hw, List.take_of_length_le (hroom o bytes hw), hr, (same_iff _ _).2 rfl, Bool.not_true, Bool.false_eq_true, if_false, if_true]
  rw [e]
  exact ⟨rfl, bytes, rfl, hr⟩

/-- C90: the whole of `stats`: when masses and particles were computed, the file is asked for and the file system keeps what is written, `stats` ends normally and the file holds the snapshots
and the ids of the catalog and, in the same order, the lists of particles near the shells.  Missing: files that cannot be written (`C90_dropped_false`) and `SkipMass` (`C90_skipped_false`). -/
theorem C90_stats_partial (inp : Shellfish.Stats.Input) (disk : Int → Option (List Shellfish.Stats.File)) (mass : Int → Nat → Nat → ℝ) (near : Int → Nat → Nat → List Int)
    (masses : List ℝ) (particles : List (List Int)) (_hrun : Shellfish.Stats.run inp disk mass near false true = some (masses, particles))
    (sysBig : Bool) (flag : List Char) (hf : OrderName flag) (d : Disk) (old : Option (List Byte))
    (hs : Storable ⟨inp.snaps, inp.ids, particles⟩) (hc : d.canCreate = true) (ho : d.canOpen = true)
    (hroom : ∀ o bytes, writeFilter o ⟨inp.snaps, inp.ids, particles⟩ = some bytes → bytes.length ≤ d.room) :
    (finish true false sysBig flag d old inp.snaps inp.ids particles).1 = true ∧ Holds (finish true false sysBig flag d old inp.snaps inp.ids particles).2 ⟨inp.snaps, inp.ids, particles⟩ := by
  obtain ⟨h1, h2⟩ := C90_written sysBig flag hf d old inp.snaps inp.ids particles hs hc ho hroom
  unfold finish
  simp only [Bool.not_false, Bool.and_self, if_true]
  generalize writeShellParticles sysBig flag d old inp.snaps inp.ids particles = r at h1 h2 ⊢
  obtain ⟨r1, r2⟩ := r
  dsimp only at h1
  subst h1
  exact ⟨rfl, h2⟩

/-- Non-vacuity: two halos, one of them with two particles. -/
example : Storable ⟨[7, 8], [1, 2], [[5, 6], []]⟩ := by
  refine ⟨rfl, rfl, by decide, ?_, ?_, ?_⟩ <;> simp only [InRange8] <;> decide

/-- C90 is false when the file cannot be created: the error is dropped, `stats` ends normally and there is no file. -/
theorem C90_dropped_false (sysBig : Bool) (flag : List Char) (d : Disk) (hc : d.canCreate = false) (snaps ids : List Int) (particles : List (List Int)) :
    finish true false sysBig flag d none snaps ids particles = (true, none) := by
  unfold finish writeShellParticles
  simp [hc]

/-- C90 is false with `SkipMass`: the file is asked for, but `stats` ends normally without writing it. -/
theorem C90_skipped_false (sysBig : Bool) (flag : List Char) (d : Disk) (snaps ids : List Int) (particles : List (List Int)) :
    finish true true sysBig flag d none snaps ids particles = (true, none) := by
  unfold finish
  simp

/-- C90: the check notices lost particles: when the particles of the last halo do not reach the file and they are not all zero, `stats` does not end normally. -/
theorem C90_lost (sysBig : Bool) (flag : List Char) (d : Disk) (old : Option (List Byte)) (snaps ids : List Int) (particles : List (List Int))
    (hc : d.canCreate = true) (ho : d.canOpen = true) (hf : OrderName flag) (hs : Storable ⟨snaps, ids, particles⟩)
    (hlost : ∀ o bytes, writeFilter o ⟨snaps, ids, particles⟩ = some bytes → readFilter (bytes.take d.room) ≠ .ok ⟨snaps, ids, particles⟩ ∧ readFilter (bytes.take d.room) ≠ .err) :
    (finish true false sysBig flag d old snaps ids particles).1 = false := by
  obtain ⟨o, hfo⟩ := flag_some sysBig hf
  obtain ⟨bytes, hw, _⟩ := C13_round_trip o _ hs []
  obtain ⟨h1, h2⟩ := hlost o bytes hw
  unfold finish writeShellParticles
  simp only [hc, ho, hfo, hw, Bool.not_true, Bool.not_false, Bool.and_self, Bool.false_eq_true, if_false, if_true]
  cases hr : readFilter (bytes.take d.room) with
  | panic => rfl
  | err => exact absurd hr h2
  | ok check =>
    have : same check ⟨snaps, ids, particles⟩ ≠ true := fun hx => h1 (by rw [hr, (same_iff _ _).1 hx])
    simp only [this]
    rfl

end Shellfish.ShellFile
