/- C28: a cache directory is only used with settings under which it is still right. -/
import Verif.Props.Memo
import Verif.Model.MemoConfig

namespace Shellfish.MemoConfig
open Shellfish.Memo (Out Header)

/-! Specification -/

/-- The settings that the check compares. -/
def compared (c : GlobalConfig) :
    (String × String × String × String × String × String) × (List Int × List Int × Int × Int × List String) × (List String × List Int × String × String × String) :=
  ((c.version, c.snapshotFormat, c.snapshotType, c.haloDir, c.haloType, c.treeDir), (c.blockMins, c.blockMaxes, c.snapMin, c.snapMax, c.snapshotFormatMeanings),
    (c.haloValueNames, c.haloValueColumns, c.haloPositionUnits, c.haloMassUnits, c.endianness))

/-- Header caches that earlier accepted runs left in the directory: each one is complete and was written by a run with the stored configuration or one that passed
the check against it. -/
def HeaderCache (d : Disk) (stored : GlobalConfig) (snap : Int) (memo : Option (List Nat)) : Prop :=
  ∀ bytes, memo = some bytes → ∃ c hds, configEqual c stored = true ∧ c.scaleFactorFile = stored.scaleFactorFile ∧ fresh d c snap = .ok hds ∧ bytes = hds.flatMap Header.enc

/-! Proofs -/

theorem allEqual_iff {α : Type} [DecidableEq α] (xs ys : List α) : allEqual xs ys = true ↔ xs = ys := by
  unfold allEqual
  induction xs generalizing ys with
  | nil => cases ys <;> simp
  | cons x xs ih =>
    cases ys with
    | nil => simp
    | cons y ys =>
      have := ih ys
      simp only [Bool.and_eq_true, decide_eq_true_eq, List.length_cons, List.zip_cons_cons, List.all_cons, Nat.add_right_cancel_iff, List.cons.injEq] at this ⊢
      tauto

/-- C28: a directory written under `stored` is accepted exactly if all compared settings are the same. -/
theorem C28_accept (stored config : GlobalConfig) : (checkMemoDir (some stored) config).1 = .ok () ↔ compared config = compared stored := by
  unfold checkMemoDir configEqual compared
  simp only
  constructor
  · intro h
    split at h
    · rename_i h'
      simp only [Bool.and_eq_true, decide_eq_true_eq, allEqual_iff] at h'
      simp only [Prod.mk.injEq]
      obtain ⟨⟨⟨⟨⟨⟨⟨⟨⟨⟨⟨⟨⟨⟨⟨⟨⟨h1, h2⟩, h3⟩, h4⟩, h5⟩, h6⟩, h7⟩, h8⟩, h9⟩, h10⟩, h11⟩, h12⟩, h13⟩, h14⟩, h15⟩, h16⟩, h17⟩, h18⟩ := h'
      exact ⟨⟨h1.symm, h2.symm, h3.symm, h4.symm, h5.symm, h6.symm⟩, ⟨h7.symm, h8.symm, h9.symm, h10.symm, h11.symm⟩, h12.symm, h13.symm, h14.symm, h15.symm, h18.symm⟩
    · cases h
  · intro h
    simp only [Prod.mk.injEq] at h
    obtain ⟨⟨h1, h2, h3, h4, h5, h6⟩, ⟨h7, h8, h9, h10, h11⟩, h12, h13, h14, h15, h18⟩ := h
    rw [if_pos]
    simp only [Bool.and_eq_true, decide_eq_true_eq, allEqual_iff]
    exact ⟨⟨⟨⟨⟨⟨⟨⟨⟨⟨⟨⟨⟨⟨⟨⟨⟨h1.symm, h2.symm⟩, h3.symm⟩, h4.symm⟩, h5.symm⟩, h6.symm⟩, h7.symm⟩, h8.symm⟩, h9.symm⟩, h10.symm⟩, h11.symm⟩, h12.symm⟩, h13.symm⟩, h14.symm⟩, h15.symm⟩, h13.symm⟩, h12.symm⟩, h18.symm⟩

/-- a rejected directory, or a new one: the stored configuration never changes once it is there, and a new one is stored -/
theorem C28_stored (stored : Option GlobalConfig) (config : GlobalConfig) :
    (checkMemoDir stored config).2 = some (stored.getD config) ∧ (stored = none → (checkMemoDir stored config).1 = .ok ()) ∧ (checkMemoDir stored config).1 ≠ .panic := by
  unfold checkMemoDir
  cases stored with
  | none => simp
  | some m => refine ⟨rfl, by simp, ?_⟩; simp only; split <;> simp

theorem accept_eq {stored config : GlobalConfig} (h : (checkMemoDir (some stored) config).1 = .ok ()) : configEqual config stored = true := by
  unfold checkMemoDir at h
  simp only at h
  split at h
  · assumption
  · cases h

theorem compared_of_eq {a b : GlobalConfig} (h : configEqual a b = true) : compared a = compared b := by
  apply (C28_accept b a).mp
  simp [checkMemoDir, h]

/-- the reader and the file names of an accepted configuration, for the two formats without settings of their own -/
theorem same_reader {a b : GlobalConfig} (h : compared a = compared b) (hs : a.scaleFactorFile = b.scaleFactorFile) (ht : b.snapshotType = "gotetra" ∨ b.snapshotType = "ARTIO") :
    reader a = reader b ∧ naming a = naming b := by
  unfold compared at h
  simp only [Prod.mk.injEq] at h
  obtain ⟨⟨h1, h2, h3, h4, h5, h6⟩, ⟨h7, h8, h9, h10, h11⟩, h12, h13, h14, h15, h18⟩ := h
  refine ⟨?_, ?_⟩
  · unfold reader
    rw [h3]
    rcases ht with ht | ht <;> rw [ht] <;> simp
  · unfold naming
    rw [h2, h3, h7, h8, h9, h10, h11, hs]

/-- C28, for gotetra and ARTIO snapshots and an unchanged scale factor file: in an accepted directory every header cache gives the headers that the current settings
give without a cache. -/
theorem C28_headers_partial (d : Disk) (stored config : GlobalConfig) (hok : (checkMemoDir (some stored) config).1 = .ok ())
    (ht : config.snapshotType = "gotetra" ∨ config.snapshotType = "ARTIO") (hs : config.scaleFactorFile = stored.scaleFactorFile) (snap : Int) (memo : Option (List Nat))
    (hm : HeaderCache d stored snap memo) (hds : List Header) (hf : ∀ h ∈ hds, h.Fits) (hfr : fresh d config snap = .ok hds) :
    (readHeaders d config snap memo).1 = .ok (hds, d.files (naming config) snap) ∧ HeaderCache d stored snap (readHeaders d config snap memo).2 := by
  have hcmp := (C28_accept stored config).mp hok
  have hlen : ∀ (r : Reader) (fs : List String) (hs' : List Header), headersOf d r fs = .ok hs' → fs.length = hs'.length := by
    intro r fs
    induction fs with
    | nil => intro hs' e; simp only [headersOf, Out.ok.injEq] at e; subst e; rfl
    | cons f fs ih =>
      intro hs' e
      simp only [headersOf] at e
      cases h1 : d.header r f with
      | ok a =>
        rw [h1] at e
        simp only [Out.bind] at e
        cases h2 : headersOf d r fs with
        | ok l => rw [h2] at e; simp only [Out.ok.injEq] at e; subst e; simp [ih l h2]
        | error => rw [h2] at e; cases e
        | panic => rw [h2] at e; cases e
      | error => rw [h1] at e; cases e
      | panic => rw [h1] at e; cases e
  have hl := hlen _ _ _ hfr
  have key : memo = none ∨ memo = some (hds.flatMap Header.enc) := by
    cases memo with
    | none => exact .inl rfl
    | some bytes =>
      obtain ⟨c, hds', e1, e2, e3, e4⟩ := hm bytes rfl
      have hc := compared_of_eq e1
      have ht' : stored.snapshotType = "gotetra" ∨ stored.snapshotType = "ARTIO" := by
        have : config.snapshotType = stored.snapshotType := by
          have h := hcmp
          unfold compared at h
          simp only [Prod.mk.injEq] at h
          exact h.1.2.2.1
        rwa [this] at ht
      obtain ⟨r1, r2⟩ := same_reader hc e2 ht'
      obtain ⟨q1, q2⟩ := same_reader hcmp hs ht'
      have : hds' = hds := by
        unfold fresh at e3 hfr
        rw [r1, r2] at e3
        rw [q1, q2, e3] at hfr
        exact Out.ok.inj hfr
      exact .inr (by rw [e4, this])
  have h27 := Shellfish.Memo.C27_cached_partial hds hf (d.files (naming config) snap) hl memo key
  unfold readHeaders
  rw [hfr]
  refine ⟨h27.1, ?_⟩
  intro bytes hb
  rw [h27.2] at hb
  exact ⟨config, hds, accept_eq hok, hs, hfr, (Option.some.inj hb).symm⟩

/-- C28: in an accepted directory the catalogue file and the columns from which the halo caches are made are those of the current settings. -/
theorem C28_halos (stored config : GlobalConfig) (hok : (checkMemoDir (some stored) config).1 = .ok ()) : haloSettings config = haloSettings stored := by
  have h := (C28_accept stored config).mp hok
  unfold compared at h
  simp only [Prod.mk.injEq] at h
  obtain ⟨⟨h1, h2, h3, h4, h5, h6⟩, ⟨h7, h8, h9, h10, h11⟩, h12, h13, h14, h15, h18⟩ := h
  unfold haloSettings
  rw [h4, h9, h10, h12, h13]

/-- a configuration for "nil" snapshots, with the given box width, units, and scale factor file -/
def sample (type : String) (width units : Nat) (scale : String) : GlobalConfig :=
  { snapshotFormat := "", snapshotFormatMeanings := [], scaleFactorFile := scale, blockMins := [], blockMaxes := [], snapMin := 0, snapMax := 0, haloDir := "h", treeDir := "t",
    hSnapMin := 0, hSnapMax := 0, version := "1.0.0", snapshotType := type, haloType := "Text", treeType := "nil", memoDir := "m", haloValueNames := ["ID", "X", "Y", "Z", "M200m"],
    haloValueColumns := [0, 1, 2, 3, 4], haloValueComments := [], haloPositionUnits := "cMpc/h", haloRadiusUnits := "ckpc/h", haloMassUnits := "Msun/h", endianness := "SystemOrder",
    validateFormats := false, threads := 1, logging := "nil", gadgetDMTypeIndices := [1], gadgetSingleMassIndices := [1], gadgetPositionUnits := units, gadgetMassUnits := 1,
    lGadgetNpartNum := 2, nilSnapOmegaM := 1, nilSnapOmegaL := 2, nilSnapH100 := 3, nilSnapScaleFactors := [4], nilSnapTotalWidth := width }

/-- C28: without a cache, the header of a "nil" snapshot has the cosmology and the box of the current settings, and the redshift of the scale factor of its index; a snapshot without a scale
factor panics. -/
theorem C28_nil_fresh (redshift to32 : Nat → Nat) (c : GlobalConfig) (ctx : Context) (idx : Nat) (hc : c.snapshotType = "nil") (hr : reader c = .nil ctx) :
    (∀ a, c.nilSnapScaleFactors[idx]? = some a → ∃ h, nilHeader redshift to32 ctx idx = .ok h ∧ h.omegaM = c.nilSnapOmegaM ∧ h.omegaL = c.nilSnapOmegaL ∧ h.h100 = c.nilSnapH100 ∧
      h.totalWidth = c.nilSnapTotalWidth ∧ h.z = redshift a ∧ h.origin = [0, 0, 0] ∧ ∀ w ∈ h.width, w = to32 c.nilSnapTotalWidth) ∧
    (c.nilSnapScaleFactors[idx]? = none → nilHeader redshift to32 ctx idx = .panic) := by
  have e : ctx = context c := by
    unfold reader at hr
    rw [hc] at hr
    simpa using hr.symm
  subst e
  constructor
  · intro a ha
    refine ⟨⟨redshift a, c.nilSnapOmegaM, c.nilSnapOmegaL, c.nilSnapH100, 2 ^ 64 - 1, c.nilSnapTotalWidth, [0, 0, 0], [to32 c.nilSnapTotalWidth, to32 c.nilSnapTotalWidth, to32 c.nilSnapTotalWidth]⟩,
      ?_, rfl, rfl, rfl, rfl, rfl, rfl, by simp⟩
    unfold nilHeader
    rw [show (context c).nilScaleFactors[idx]? = some a from ha]
    rfl
  · intro ha
    unfold nilHeader
    rw [show (context c).nilScaleFactors[idx]? = none from ha]
    rfl

example : (sample "nil" 5 1 "s").snapshotType = "nil" ∧ reader (sample "nil" 5 1 "s") = .nil (context (sample "nil" 5 1 "s")) ∧ (sample "nil" 5 1 "s").nilSnapScaleFactors[0]? = some 4 := by decide

/-- a disk with one snapshot file whose headers the readers of "nil" and "Gadget-2" files see -/
def sampleDisk : Disk :=
  { header := fun r _ => match r with
      | .nil ctx => nilHeader id id ctx 0
      | .gadget2 _ ctx => .ok ⟨0, 0, 0, 0, 0, ctx.positionUnits, [0, 0, 0], [0, 0, 0]⟩
      | _ => .ok Header.zero
    files := fun n _ => if n.type = "gotetra" then [n.scaleFactorFile, "b"] else ["nil 0"] }

/-- C28 is false: a directory written for a simulation box of width 5 is accepted by a run that is told that the width is 7, and the cache then gives 5. -/
theorem C28_nil_false : (checkMemoDir (some (sample "nil" 5 1 "s")) (sample "nil" 7 1 "s")).1 = .ok () ∧
    (readHeaders sampleDisk (sample "nil" 7 1 "s") 0 (readHeaders sampleDisk (sample "nil" 5 1 "s") 0 none).2).1 ≠ (readHeaders sampleDisk (sample "nil" 7 1 "s") 0 none).1 := by
  decide +kernel

/-- C28 is false for the Gadget units too. -/
theorem C28_units_false : (checkMemoDir (some (sample "Gadget-2" 5 1 "s")) (sample "Gadget-2" 5 1000 "s")).1 = .ok () ∧
    (readHeaders sampleDisk (sample "Gadget-2" 5 1000 "s") 0 (readHeaders sampleDisk (sample "Gadget-2" 5 1 "s") 0 none).2).1 ≠
      (readHeaders sampleDisk (sample "Gadget-2" 5 1000 "s") 0 none).1 := by
  decide +kernel

/-- non-vacuity of the theorems: an accepted directory with a cache of two headers, and a rejected one -/
example : (checkMemoDir (some (sample "gotetra" 5 1 "s")) (sample "gotetra" 7 1000 "s")).1 = .ok () ∧
    HeaderCache sampleDisk (sample "gotetra" 5 1 "s") 0 (readHeaders sampleDisk (sample "gotetra" 5 1 "s") 0 none).2 ∧
    fresh sampleDisk (sample "gotetra" 7 1000 "s") 0 = .ok [Header.zero, Header.zero] ∧ Header.zero.Fits ∧
    (checkMemoDir (some (sample "gotetra" 5 1 "s")) (sample "ARTIO" 7 1000 "s")).1 = .error := by
  refine ⟨by decide +kernel, ?_, by decide +kernel, ⟨by decide, by decide, by decide, by decide, by decide, by decide, ⟨0, 0, 0, rfl, by norm_num⟩, ⟨0, 0, 0, rfl, by norm_num⟩⟩, by decide +kernel⟩
  intro bytes hb
  exact ⟨sample "gotetra" 5 1 "s", [Header.zero, Header.zero], by decide +kernel, rfl, by decide +kernel, by
    have : (readHeaders sampleDisk (sample "gotetra" 5 1 "s") 0 none).2 = some ([Header.zero, Header.zero].flatMap Header.enc) := by decide +kernel
    rw [this] at hb; exact (Option.some.inj hb).symm⟩

end Shellfish.MemoConfig
