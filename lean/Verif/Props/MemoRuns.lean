/- C94: the cache directory over the life of a simulation: many runs, some of them interrupted, some at the same time. -/
import Verif.Props.Global
import Verif.Props.MemoConfig
import Verif.Model.MemoRuns

namespace Shellfish.MemoRuns
open Shellfish.Config Shellfish.Modes
open Shellfish.MemoConfig (GlobalConfig configEqual)

variable {F : Type} [DecidableEq F] (L : FLib F)

/-! ### Specification -/

/-- The settings that must not change between runs that share a cache directory. -/
structure SameSettings (a b : Global F) : Prop where
  version : a.version = b.version
  format : a.snapshotFormat = b.snapshotFormat
  type : a.snapshotType = b.snapshotType
  haloDir : a.haloDir = b.haloDir
  haloType : a.haloType = b.haloType
  treeDir : a.treeDir = b.treeDir
  blockMins : a.blockMins = b.blockMins
  blockMaxes : a.blockMaxes = b.blockMaxes
  snapMin : a.snapMin = b.snapMin
  snapMax : a.snapMax = b.snapMax
  meanings : a.meanings = b.meanings
  names : a.valueNames = b.valueNames
  columns : a.valueColumns = b.valueColumns
  positionUnits : a.positionUnits = b.positionUnits
  massUnits : a.massUnits = b.massUnits
  endianness : a.endianness = b.endianness

/-- The settings in a text, if it is a configuration file (with the defaults for those that it does not give). -/
def Means (text : Str) (g : Global F) : Prop := ∃ fs, globalRead L fs (some text) = some g

/-- A new cache directory. -/
def empty : Dir F := ⟨none, []⟩

/-! ### Lemmas -/

omit [DecidableEq F] in
theorem map_ofList_inj (a b : List Str) : a.map String.ofList = b.map String.ofList ↔ a = b :=
  ⟨fun h => List.map_injective_iff.mpr (fun x y e => by simpa using congrArg String.toList e) h, fun h => h ▸ rfl⟩

omit [DecidableEq F] in
theorem ofList_inj (a b : Str) : String.ofList a = String.ofList b ↔ a = b := ⟨fun e => by simpa using congrArg String.toList e, fun h => h ▸ rfl⟩

omit [DecidableEq F] in
theorem configEqual_iff (a b : Global F) : configEqual (asConfig a) (asConfig b) = true ↔ SameSettings a b := by
  have h1 := MemoConfig.C28_accept (asConfig b) (asConfig a)
  have h2 : (MemoConfig.checkMemoDir (some (asConfig b)) (asConfig a)).1 = .ok () ↔ configEqual (asConfig a) (asConfig b) = true := by
    unfold MemoConfig.checkMemoDir
    dsimp only
    cases configEqual (asConfig a) (asConfig b) <;> simp
  rw [← h2, h1]
  unfold MemoConfig.compared asConfig
  simp only [Prod.mk.injEq, ofList_inj, map_ofList_inj]
  constructor
  · rintro ⟨⟨h1, h2, h3, h4, h5, h6⟩, ⟨h7, h8, h9, h10, h11⟩, h12, h13, h14, h15, h16⟩
    exact ⟨h1, h2, h3, h4, h5, h6, h7, h8, h9, h10, h11, h12, h13, h14, h15, h16⟩
  · rintro ⟨h1, h2, h3, h4, h5, h6, h7, h8, h9, h10, h11, h12, h13, h14, h15, h16⟩
    exact ⟨⟨h1, h2, h3, h4, h5, h6⟩, ⟨h7, h8, h9, h10, h11⟩, h12, h13, h14, h15, h16⟩

omit [DecidableEq F] in
theorem SameSettings.symm {a b : Global F} (h : SameSettings a b) : SameSettings b a := by
  obtain ⟨h1, h2, h3, h4, h5, h6, h7, h8, h9, h10, h11, h12, h13, h14, h15, h16⟩ := h
  exact ⟨h1.symm, h2.symm, h3.symm, h4.symm, h5.symm, h6.symm, h7.symm, h8.symm, h9.symm, h10.symm, h11.symm, h12.symm, h13.symm, h14.symm, h15.symm, h16.symm⟩

omit [DecidableEq F] in
theorem SameSettings.trans {a b c : Global F} (h : SameSettings a b) (k : SameSettings b c) : SameSettings a c := by
  obtain ⟨h1, h2, h3, h4, h5, h6, h7, h8, h9, h10, h11, h12, h13, h14, h15, h16⟩ := h
  obtain ⟨k1, k2, k3, k4, k5, k6, k7, k8, k9, k10, k11, k12, k13, k14, k15, k16⟩ := k
  exact ⟨h1.trans k1, h2.trans k2, h3.trans k3, h4.trans k4, h5.trans k5, h6.trans k6, h7.trans k7, h8.trans k8, h9.trans k9, h10.trans k10, h11.trans k11, h12.trans k12, h13.trans k13,
    h14.trans k14, h15.trans k15, h16.trans k16⟩

omit [DecidableEq F] in
theorem SameSettings.refl (a : Global F) : SameSettings a a := ⟨rfl, rfl, rfl, rfl, rfl, rfl, rfl, rfl, rfl, rfl, rfl, rfl, rfl, rfl, rfl, rfl⟩

/-- a text has at most one meaning -/
theorem Means.unique {text : Str} {g g' : Global F} (h : Means L text g) (h' : Means L text g') : g = g' := by
  obtain ⟨fs, h⟩ := h
  obtain ⟨fs', h'⟩ := h'
  unfold globalRead at h h'
  cases hr : readConfig L.toLib globalVars (some text) (globalDefaults L) with
  | ok st =>
    rw [hr] at h h'
    dsimp only at h h'
    rw [Option.bind_eq_some_iff] at h h'
    obtain ⟨a, h1, h2⟩ := h
    obtain ⟨b, h3, h4⟩ := h'
    rw [h1] at h3
    cases h3
    rw [((globalValidate_iff L fs a g).mp h2).2, ((globalValidate_iff L fs' a g').mp h4).2]
  | err e s => rw [hr] at h; cases h
  | panic => rw [hr] at h; cases h

theorem compareTexts_iff (fs : Str → PathState) (text stored : Str) : compareTexts L fs text stored = true ↔
    ∃ c m, globalRead L fs (some text) = some c ∧ globalRead L fs (some stored) = some m ∧ SameSettings c m := by
  unfold compareTexts
  cases h1 : globalRead L fs (some text) with
  | none => simp
  | some c =>
    cases h2 : globalRead L fs (some stored) with
    | none => simp
    | some m =>
      dsimp only
      rw [configEqual_iff]
      constructor
      · exact fun h => ⟨c, m, rfl, rfl, h⟩
      · rintro ⟨c', m', e1, e2, h⟩
        cases e1
        cases e2
        exact h

theorem runs_cons (d : Dir F) (r : Run) (rs : List Run) : runs L d (r :: rs) = runs L (run L d r).2 rs := rfl

theorem runs_append (d : Dir F) (rs rs' : List Run) : runs L d (rs ++ rs') = runs L (runs L d rs) rs' := List.foldl_append ..

/-- What always holds of a cache directory. -/
def Inv (d : Dir F) : Prop := ∀ g ∈ d.caches, ∃ text m, d.config = some text ∧ Means L text m ∧ SameSettings g m

theorem inv_run (d : Dir F) (r : Run) (h : Inv L d) : Inv L (run L d r).2 := by
  unfold run
  cases hg : globalRead L r.fs (some r.text) with
  | none => exact h
  | some g =>
    dsimp only
    unfold checkMemoDir
    cases hc : d.config with
    | none =>
      have h0 : d.caches = [] := by
        rw [List.eq_nil_iff_forall_not_mem]
        intro c hm
        obtain ⟨t, m, e, -⟩ := h c hm
        rw [hc] at e
        cases e
      cases hs : r.stop with
      | copying k =>
        intro c hm
        simp [h0] at hm
      | later n =>
        intro c hm
        simp only [h0, List.nil_append, if_true, List.mem_replicate] at hm
        exact ⟨r.text, g, rfl, ⟨_, hg⟩, hm.2 ▸ SameSettings.refl g⟩
    | some s =>
      dsimp only
      intro c hm
      dsimp only at hm ⊢
      have old : c ∈ d.caches → ∃ text m, some s = some text ∧ Means L text m ∧ SameSettings c m := by
        intro hc'
        obtain ⟨t, m, e, h1, h2⟩ := h c hc'
        exact ⟨t, m, by rw [← e, hc], h1, h2⟩
      cases hq : compareTexts L r.fs r.text s with
      | false =>
        simp only [hq, Bool.false_eq_true, if_false] at hm
        exact old hm
      | true =>
        simp only [hq, if_true, List.mem_append, List.mem_replicate] at hm
        rcases hm with hm | hm
        · exact old hm
        · obtain ⟨c', m, e1, e2, e3⟩ := (compareTexts_iff L r.fs r.text s).mp hq
          rw [hg] at e1
          cases e1
          exact ⟨s, m, rfl, ⟨_, e2⟩, hm.2 ▸ e3⟩

theorem inv_runs (d : Dir F) (rs : List Run) (h : Inv L d) : Inv L (runs L d rs) := by
  induction rs generalizing d with
  | nil => exact h
  | cons r rs ih => exact ih _ (inv_run L d r h)

/-! ### Theorems -/

/-- C94: whatever runs there were, with whatever configuration files and wherever they ended, all cache files in the directory were written with the settings that `memo.config` gives, so with the
same ones. -/
theorem C94_safe (rs : List Run) (g : Global F) (hg : g ∈ (runs L empty rs).caches) :
    (∃ text m, (runs L empty rs).config = some text ∧ Means L text m ∧ SameSettings g m) ∧ ∀ g' ∈ (runs L empty rs).caches, SameSettings g g' := by
  have hi : Inv L (runs L (empty (F := F)) rs) := inv_runs L _ rs (fun c hc => (nomatch hc))
  refine ⟨hi g hg, fun g' hg' => ?_⟩
  obtain ⟨t, m, e, h1, h2⟩ := hi g hg
  obtain ⟨t', m', e', h1', h2'⟩ := hi g' hg'
  rw [e] at e'
  cases e'
  cases h1.unique L h1'
  exact h2.trans h2'.symm

/-- C94: a run that gets past the check uses only caches that were written with its own settings. -/
theorem C94_reused (rs : List Run) (r : Run) (hr : (run L (runs L empty rs) r).1 = true) :
    ∃ g, globalRead L r.fs (some r.text) = some g ∧ ∀ c ∈ (runs L empty rs).caches, SameSettings g c := by
  have hi : Inv L (runs L (empty (F := F)) rs) := inv_runs L _ rs (fun c hc => (nomatch hc))
  unfold run at hr
  cases hg : globalRead L r.fs (some r.text) with
  | none => rw [hg] at hr; cases hr
  | some g =>
    refine ⟨g, rfl, fun c hc => ?_⟩
    rw [hg] at hr
    dsimp only at hr
    obtain ⟨t, m, e, h1, h2⟩ := hi c hc
    unfold checkMemoDir at hr
    rw [e] at hr
    dsimp only at hr
    obtain ⟨c', m', e1, e2, e3⟩ := (compareTexts_iff L _ _ _).mp hr
    rw [hg] at e1
    cases e1
    cases h1.unique L ⟨_, e2⟩
    exact e3.trans h2.symm

/-- C94: a run that is refused leaves the caches as they are, and `memo.config` too if there is one. -/
theorem C94_refused (d : Dir F) (r : Run) (hr : (run L d r).1 = false) : (run L d r).2.caches = d.caches ∧ (d.config ≠ none → (run L d r).2.config = d.config) := by
  unfold run at hr ⊢
  cases hg : globalRead L r.fs (some r.text) with
  | none => exact ⟨rfl, fun _ => rfl⟩
  | some g =>
    rw [hg] at hr
    dsimp only at hr ⊢
    rw [hr]
    refine ⟨rfl, fun h => ?_⟩
    unfold checkMemoDir
    cases hc : d.config with
    | none => exact absurd hc h
    | some s => rfl

/-- C94, for runs that do not end while `memo.config` is being copied: if the first run is accepted then a later run (with the same directories on disk) is accepted exactly if its configuration file
is valid and has the same settings as the first, whatever happened between them. -/
theorem C94_again_partial (fs : Str → PathState) (text : Str) (n : Nat) (g : Global F) (hg : globalRead L fs (some text) = some g) (rs : List Run) (r : Run) (hfs : r.fs = fs) :
    (run L (runs L empty (⟨fs, text, .later n⟩ :: rs)) r).1 = true ↔ ∃ g', globalRead L fs (some r.text) = some g' ∧ SameSettings g' g := by
  have hfix : ∀ (rs : List Run) (d : Dir F), d.config = some text → (runs L d rs).config = some text := by
    intro rs
    induction rs with
    | nil => exact fun d h => h
    | cons r rs ih =>
      intro d h
      refine ih _ ?_
      show (run L d r).2.config = some text
      unfold run
      cases hq : globalRead L r.fs (some r.text) with
      | none => exact h
      | some q =>
        dsimp only
        unfold checkMemoDir
        rw [h]
  have h1 : (runs L (empty (F := F)) (⟨fs, text, .later n⟩ :: rs)).config = some text := by
    rw [runs_cons]
    refine hfix rs _ ?_
    unfold run
    dsimp only
    rw [hg]
    rfl
  unfold run
  rw [hfs]
  cases hr : globalRead L fs (some r.text) with
  | none => simp
  | some g' =>
    dsimp only
    unfold checkMemoDir
    rw [h1]
    dsimp only
    rw [compareTexts_iff, hfs, hr, hg]
    constructor
    · rintro ⟨c, m, e1, e2, h⟩
      cases e1
      cases e2
      exact ⟨_, rfl, h⟩
    · rintro ⟨c, e1, h⟩
      cases e1
      exact ⟨_, _, rfl, rfl, h⟩

/-- C94: what an interrupted copy leads to: the same command is accepted the next time exactly if the bytes that were written are a configuration file with the same settings. -/
theorem C94_interrupted_iff (fs : Str → PathState) (text : Str) (k n : Nat) (g : Global F) (hg : globalRead L fs (some text) = some g) :
    (run L (runs L empty [⟨fs, text, .copying k⟩]) ⟨fs, text, .later n⟩).1 = true ↔ ∃ m, globalRead L fs (some (text.take k)) = some m ∧ SameSettings g m := by
  have h1 : (runs L (empty (F := F)) [⟨fs, text, .copying k⟩]).config = some (text.take k) := by
    unfold runs run
    simp only [List.foldl_cons, List.foldl_nil]
    rw [hg]
    rfl
  unfold run
  dsimp only
  rw [hg]
  dsimp only
  unfold checkMemoDir
  rw [h1]
  dsimp only
  rw [compareTexts_iff, hg]
  constructor
  · rintro ⟨c, m, e1, e2, h⟩
    cases e1
    exact ⟨m, e2, h⟩
  · rintro ⟨m, e2, h⟩
    exact ⟨_, m, rfl, e2, h⟩

/-- C94 is false of interruptions: if the first run is interrupted while it copies the configuration file and what is written so far is no valid configuration file, then no run whatever is accepted
with that directory any more, until the user deletes the file. -/
theorem C94_stuck_false (fs : Str → PathState) (text : Str) (k : Nat) (g : Global F) (hg : globalRead L fs (some text) = some g) (hk : ∀ m, ¬ Means L (text.take k) m) (rs : List Run) (r : Run) :
    (run L (runs L empty (⟨fs, text, .copying k⟩ :: rs)) r).1 = false ∧ (runs L (empty (F := F)) (⟨fs, text, .copying k⟩ :: rs)).caches = [] := by
  have no : ∀ (d : Dir F) (r : Run), d.config = some (text.take k) → (run L d r).1 = false := by
    intro d r h
    unfold run
    cases hq : globalRead L r.fs (some r.text) with
    | none => rfl
    | some q =>
      dsimp only
      unfold checkMemoDir
      rw [h]
      dsimp only
      by_contra hne
      obtain ⟨c, m, -, e2, -⟩ := (compareTexts_iff L _ _ _).mp (by simpa using hne)
      exact hk m ⟨_, e2⟩
  have stay : ∀ (rs : List Run) (d : Dir F), d.config = some (text.take k) → d.caches = [] → (runs L d rs).config = some (text.take k) ∧ (runs L d rs).caches = [] := by
    intro rs
    induction rs with
    | nil => exact fun d h h' => ⟨h, h'⟩
    | cons r rs ih =>
      intro d h h'
      have hr := C94_refused L d r (no d r h)
      exact ih _ ((hr.2 (by rw [h]; exact fun e => (nomatch e))).trans h) (hr.1.trans h')
  have first : (run L (empty (F := F)) ⟨fs, text, .copying k⟩).2 = ⟨some (text.take k), []⟩ := by
    unfold run
    dsimp only
    rw [hg]
    rfl
  have := stay rs ⟨some (text.take k), []⟩ rfl rfl
  rw [runs_cons, first]
  exact ⟨no _ _ this.1, this.2⟩

/-- an empty file is no configuration file, so the hypothesis of `C94_stuck_false` is met when the run stops just after it created the file -/
theorem no_meaning_zero (text : Str) (m : Global F) : ¬ Means L (text.take 0) m := by
  rintro ⟨fs, h⟩
  unfold globalRead at h
  rw [List.take_zero] at h
  have : readConfig L.toLib globalVars (some []) (globalDefaults L) = .err .noHeader (globalDefaults L) := by
    unfold readConfig removeComments Shellfish.Text.splitOn
    rfl
  rw [this] at h
  cases h

theorem interleave_append (fs : Str → PathState) (a b : Str) (s t : List Bool) (x : Option Str × Pc × Pc) :
    interleave L fs a b (s ++ t) x = interleave L fs a b t (interleave L fs a b s x) := by
  induction s generalizing x with
  | nil => rfl
  | cons u s ih =>
    obtain ⟨c, p, q⟩ := x
    cases u <;> exact ih _

theorem writes_a (fs : Str → PathState) (a b : Str) (q : Pc) (m : Nat) (hm : m ≤ a.length) :
    interleave L fs a b (List.replicate m false) (some [], .write 0, q) = (some (a.take m), .write m, q) := by
  induction m with
  | zero => rfl
  | succ m ih =>
    have hm' : m < a.length := hm
    rw [List.replicate_succ', interleave_append, ih (by omega)]
    have h1 : (a.take m).length = m := by simp; omega
    simp only [interleave, step, writeAt, List.getElem?_eq_getElem hm', Option.map_some, h1, Nat.sub_self, List.replicate_zero, List.append_nil, List.take_take, Nat.min_self]
    rw [List.drop_of_length_le (by rw [h1]; omega), List.take_succ_eq_append_getElem hm']

theorem writes_b (fs : Str → PathState) (a b : Str) (p : Pc) (m : Nat) (hm : m ≤ b.length) :
    interleave L fs a b (List.replicate m true) (some [], p, .write 0) = (some (b.take m), p, .write m) := by
  induction m with
  | zero => rfl
  | succ m ih =>
    have hm' : m < b.length := hm
    rw [List.replicate_succ', interleave_append, ih (by omega)]
    have h1 : (b.take m).length = m := by simp; omega
    simp only [interleave, step, writeAt, List.getElem?_eq_getElem hm', Option.map_some, h1, Nat.sub_self, List.replicate_zero, List.append_nil, List.take_take, Nat.min_self]
    rw [List.drop_of_length_le (by rw [h1]; omega), List.take_succ_eq_append_getElem hm']

/-- C94 is false of runs that start at the same time: for any two configuration files, whatever their settings, there is an order of events in which both runs are accepted in a new directory. -/
theorem C94_race_false (fs : Str → PathState) (a b : Str) : ∃ sch, interleave L fs a b sch (none, .stat, .stat) = (some b, .accepted, .accepted) := by
  refine ⟨[false, true, false] ++ (List.replicate a.length false ++ ([false, true] ++ (List.replicate b.length true ++ [true]))), ?_⟩
  rw [interleave_append]
  have e1 : interleave L fs a b [false, true, false] (none, .stat, .stat) = (some [], .write 0, .create) := rfl
  rw [e1, interleave_append, writes_a L fs a b _ _ le_rfl, interleave_append]
  have e2 : interleave L fs a b [false, true] (some (a.take a.length), .write a.length, .create) = (some [], .accepted, .write 0) := by
    simp [interleave, step]
  rw [e2, interleave_append, writes_b L fs a b _ _ le_rfl]
  simp [interleave, step]

/-- C94, for runs that do not overlap: of two runs in a new directory, the second of which starts after the first has finished the check, the second is accepted exactly if both files are valid and have
the same settings. -/
theorem C94_sequential_partial (fs : Str → PathState) (a b : Str) : ∃ n, ∀ m, 2 ≤ m → ∃ c,
    interleave L fs a b (List.replicate n false ++ List.replicate m true) (none, .stat, .stat) = (some a, .accepted, c) ∧
      (c = .accepted ∨ c = .refused) ∧ (c = .accepted ↔ ∃ g g', globalRead L fs (some b) = some g ∧ globalRead L fs (some a) = some g' ∧ SameSettings g g') := by
  refine ⟨2 + (a.length + 1), fun m hm => ?_⟩
  obtain ⟨m, rfl⟩ : ∃ k, m = 2 + k := ⟨m - 2, by omega⟩
  have e1 : interleave L fs a b (List.replicate 2 false) (none, .stat, .stat) = (some [], .write 0, .stat) := rfl
  have e2 : interleave L fs a b (List.replicate (2 + (a.length + 1)) false) (none, .stat, .stat) = (some a, .accepted, .stat) := by
    rw [List.replicate_add, interleave_append, e1, List.replicate_add, interleave_append, writes_a L fs a b _ _ le_rfl]
    simp [interleave, step]
  have fin : ∀ (k : Nat) (c : Pc), c = .accepted ∨ c = .refused → interleave L fs a b (List.replicate k true) (some a, .accepted, c) = (some a, .accepted, c) := by
    intro k
    induction k with
    | zero => exact fun c _ => rfl
    | succ k ih =>
      intro c hc
      rw [List.replicate_succ]
      rcases hc with rfl | rfl
      · exact ih _ (Or.inl rfl)
      · exact ih _ (Or.inr rfl)
  rw [interleave_append, e2, List.replicate_add, interleave_append]
  have e3 : interleave L fs a b (List.replicate 2 true) (some a, .accepted, .stat) = (some a, .accepted, if compareTexts L fs b a then .accepted else .refused) := rfl
  have hc : (if compareTexts L fs b a then Pc.accepted else .refused) = .accepted ∨ (if compareTexts L fs b a then Pc.accepted else .refused) = .refused := by
    cases compareTexts L fs b a <;> simp
  refine ⟨_, by rw [e3]; exact fin m _ hc, hc, ?_⟩
  rw [← compareTexts_iff]
  cases compareTexts L fs b a <;> simp

/-! ### The hypotheses are met -/

/-- A run with the example configuration leaves caches, and the same run is accepted again. -/
example : ∃ g, (runs ratLib empty [⟨fun _ => .dir, globalExample, .later 2⟩]).caches = [g, g] ∧
    (run ratLib (runs ratLib empty [⟨fun _ => .dir, globalExample, .later 2⟩, ⟨fun _ => .dir, [], .later 5⟩]) ⟨fun _ => .dir, globalExample, .later 1⟩).1 = true := by
  obtain ⟨g, h⟩ := (C51_example_global ratLib ratLib_goLib (fun _ => .dir)).mpr (fun _ _ => Or.inl rfl)
  refine ⟨g, ?_, (C94_again_partial ratLib _ _ 2 g h _ _ rfl).mpr ⟨g, h, SameSettings.refl g⟩⟩
  unfold runs run
  simp only [List.foldl_cons, List.foldl_nil]
  rw [h]
  rfl

/-- The example configuration, interrupted just after the file was created: never accepted again. -/
example (rs : List Run) (r : Run) : (run ratLib (runs ratLib empty (⟨fun _ => .dir, globalExample, .copying 0⟩ :: rs)) r).1 = false := by
  obtain ⟨g, h⟩ := (C51_example_global ratLib ratLib_goLib (fun _ => .dir)).mpr (fun _ _ => Or.inl rfl)
  exact (C94_stuck_false ratLib _ _ 0 g h (no_meaning_zero ratLib _) rs r).1

end Shellfish.MemoRuns
