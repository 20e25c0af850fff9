/- C80: consequences, the normals of the rings, a concrete case, and what is false. -/
import Verif.Props.ShellRun
import Verif.Props.Rand
import Verif.Props.Radius

namespace Shellfish.ShellRun
open Real
open Shellfish.Geom (Vec dot)
open Shellfish.Los
open Shellfish.Cmd (GoMap binBySnap sortedSnaps rowsOf)

/-- C80: the number of threads does not change the output. -/
theorem C80_threads {β : Type} (cfg : Config) (hc : cfg.Ok) (norms : List Vec) (hnorm : ∀ v ∈ norms, dot v v = 1) (workers workers' : Nat) (hw : 0 < workers) (hw' : 0 < workers') (minMass : ℝ)
    (analyse : Halo → β) (blank : β) (rows : List Row) (hne : rows ≠ []) (disk : Int → Option (List File)) (hok : ∀ row ∈ rows, RowOk cfg disk row) :
    ∃ out, run cfg norms workers minMass analyse blank rows disk = some out ∧ run cfg norms workers' minMass analyse blank rows disk = some out := by
  obtain ⟨a, f, out, a1, a2, a3, a4, a5, a6⟩ := C80_rows_partial cfg hc norms hnorm workers hw minMass analyse blank rows hne disk hok
  obtain ⟨b, g, out', b1, b2, b3, b4, b5, b6⟩ := C80_rows_partial cfg hc norms hnorm workers' hw' minMass analyse blank rows hne disk hok
  have e : a.snap = b.snap := le_antisymm (a2 b b1) (b2 a a1)
  rw [e, b3, Option.some_inj] at a3
  subst a3
  refine ⟨out, a4, ?_⟩
  rw [b4]
  congr 1
  apply List.ext_getElem?
  intro k
  cases hk : rows[k]? with
  | none => rw [List.getElem?_eq_none (by rw [b5]; exact List.getElem?_eq_none_iff.1 hk), List.getElem?_eq_none (by rw [a5]; exact List.getElem?_eq_none_iff.1 hk)]
  | some row =>
    obtain ⟨files, hf, _⟩ := (hok row (List.mem_of_getElem? hk)).files
    obtain ⟨h, h1, h2⟩ := a6 k row files hk hf
    obtain ⟨h', h1', h2'⟩ := b6 k row files hk hf
    rw [h1, Option.some_inj] at h1'
    subst h1'
    rw [h2, h2']

/-- C80: a row gets the same result in any two catalogs (in any order of the rows) whose earliest snapshot is the same. -/
theorem C80_independent_partial {β : Type} (cfg : Config) (hc : cfg.Ok) (norms : List Vec) (hnorm : ∀ v ∈ norms, dot v v = 1) (workers workers' : Nat) (hw : 0 < workers) (hw' : 0 < workers') (minMass : ℝ)
    (analyse : Halo → β) (blank : β) (rows rows' : List Row) (disk : Int → Option (List File)) (hok : ∀ row ∈ rows, RowOk cfg disk row) (hok' : ∀ row ∈ rows', RowOk cfg disk row)
    (first first' : Row) (hf : first ∈ rows) (hf' : first' ∈ rows') (hmin : ∀ row ∈ rows, first.snap ≤ row.snap) (hmin' : ∀ row ∈ rows', first'.snap ≤ row.snap) (hsame : first.snap = first'.snap)
    (k k' : Nat) (row : Row) (hk : rows[k]? = some row) (hk' : rows'[k']? = some row) :
    ∃ out out' x, run cfg norms workers minMass analyse blank rows disk = some out ∧ run cfg norms workers' minMass analyse blank rows' disk = some out' ∧ out[k]? = some x ∧ out'[k']? = some x := by
  obtain ⟨a, f, out, a1, a2, a3, a4, a5, a6⟩ := C80_rows_partial cfg hc norms hnorm workers hw minMass analyse blank rows (List.ne_nil_of_mem hf) disk hok
  obtain ⟨b, g, out', b1, b2, b3, b4, b5, b6⟩ := C80_rows_partial cfg hc norms hnorm workers' hw' minMass analyse blank rows' (List.ne_nil_of_mem hf') disk hok'
  have e : a.snap = b.snap := by
    have e1 := le_antisymm (a2 first hf) (hmin a a1)
    have e2 := le_antisymm (b2 first' hf') (hmin' b b1)
    rw [e1, e2, hsame]
  rw [e, b3, Option.some_inj] at a3
  subst a3
  obtain ⟨files, hfs, _⟩ := (hok row (List.mem_of_getElem? hk)).files
  obtain ⟨h, h1, h2⟩ := a6 k row files hk hfs
  obtain ⟨h', h1', h2'⟩ := b6 k' row files hk' hfs
  rw [h1, Option.some_inj] at h1'
  subst h1'
  exact ⟨out, out', _, a4, b4, h2, h2'⟩

/-! ## The normals of the rings -/

theorem value_ne_half (g : Rand.Xor) : g.value ≠ 1 / 2 := by
  unfold Rand.Xor.value
  intro h
  have h1 : (4294967295 - (g.w.toNat : ℚ)) * 2 = 4294967295 := by
    field_simp at h
    linarith
  have h2 : (g.w.toNat : ℚ) * 2 = 4294967295 := by linarith
  have h3 : g.w.toNat * 2 = 4294967295 := by exact_mod_cast h2
  omega

theorem init_notZero (seed : BitVec 64) : ¬ (Rand.Xor.init seed).IsZero := by
  unfold Rand.Xor.IsZero Rand.Xor.init
  simp

theorem uniform_ok (g : Rand.Xor) (h : ¬ g.IsZero) : ∃ v g', g.uniform (-1) 1 = some (v, g') ∧ v ≠ 0 ∧ ¬ g'.IsZero := by
  obtain ⟨k, v, g', _, _, h1, h2, h3, _⟩ := Rand.Xor.next_spec g h
  refine ⟨v * (1 - -1) + -1, g', ?_, ?_, ?_⟩
  · unfold Rand.Xor.uniform
    rw [h1]
    rfl
  · rw [h3]
    intro e
    apply value_ne_half g'
    linarith
  · rw [h2]
    exact Rand.Xor.steps_notZero h k

theorem normVec_unit (fuel : Nat) : ∀ (g : Rand.Xor), ¬ g.IsZero → ∀ (v : Vec) (g' : Rand.Xor), normVec fuel g = some (v, g') → dot v v = 1 ∧ ¬ g'.IsZero := by
  induction fuel with
  | zero => intro g _ v g' h; cases h
  | succ fuel ih =>
    intro g hg v g' h
    obtain ⟨x, g1, e1, hx, z1⟩ := uniform_ok g hg
    obtain ⟨y, g2, e2, hy, z2⟩ := uniform_ok g1 z1
    obtain ⟨z, g3, e3, hz, z3⟩ := uniform_ok g2 z2
    have d1 : xorDraw g = some ((x : ℝ), g1) := by unfold xorDraw; rw [e1]; rfl
    have d2 : xorDraw g1 = some ((y : ℝ), g2) := by unfold xorDraw; rw [e2]; rfl
    have d3 : xorDraw g2 = some ((z : ℝ), g3) := by unfold xorDraw; rw [e3]; rfl
    unfold normVec normVecOn at h
    rw [d1, Option.bind_some] at h
    dsimp only at h
    rw [d2, Option.bind_some] at h
    dsimp only at h
    rw [d3, Option.bind_some] at h
    dsimp only at h
    split_ifs at h with hr
    · cases h
      refine ⟨?_, z3⟩
      have hx' : ((x : ℚ) : ℝ) ≠ 0 := by exact_mod_cast hx
      have hpos : 0 < (x : ℝ) * x + (y : ℝ) * y + (z : ℝ) * z := by
        have := mul_self_pos.2 hx'
        nlinarith [mul_self_nonneg (y : ℝ), mul_self_nonneg (z : ℝ)]
      unfold dot
      dsimp only
      have hs := Real.mul_self_sqrt hpos.le
      have hs' := (Real.sqrt_pos.2 hpos).ne'
      set r := √((x : ℝ) * x + (y : ℝ) * y + (z : ℝ) * z)
      field_simp
      linarith
    · exact ih g3 z3 v g' h

theorem normLoop_unit (fuel n : Nat) : ∀ (g : Rand.Xor), ¬ g.IsZero → ∀ vs, normLoop fuel n g = some vs → vs.length = n ∧ ∀ v ∈ vs, dot v v = 1 := by
  induction n with
  | zero => intro g _ vs h; cases h; exact ⟨rfl, by simp⟩
  | succ n ih =>
    intro g hg vs h
    unfold normLoop normLoopOn at h
    obtain ⟨⟨v, g'⟩, h1, h2⟩ := Option.bind_eq_some_iff.1 h
    obtain ⟨ws, h3, rfl⟩ := Option.map_eq_some_iff.1 h2
    obtain ⟨u, z⟩ := normVec_unit fuel g hg v g' h1
    obtain ⟨l, w⟩ := ih g' z ws h3
    refine ⟨by rw [List.length_cons, l], ?_⟩
    intro v' hv'
    rcases List.mem_cons.1 hv' with rfl | hv'
    · exact u
    · exact w v' hv'

/-- C80: for every seed and every number of rings, the normals of the rings are unit vectors (the random draws are never all zero, so that the division by their length is defined), as many as there
are rings; for three rings they are the axes, for every seed. -/
theorem C80_norms (fuel : Nat) (seed : BitVec 64) (n : Nat) (vs : List Vec) (h : normVecs fuel seed n = some vs) : vs.length = n ∧ (∀ v ∈ vs, dot v v = 1) ∧ (n = 3 → vs = [⟨0, 0, 1⟩, ⟨0, 1, 0⟩, ⟨1, 0, 0⟩]) := by
  unfold normVecs at h
  split_ifs at h with hn
  · cases h
    refine ⟨hn.symm, ?_, fun _ => rfl⟩
    intro v hv
    simp only [List.mem_cons, List.not_mem_nil, or_false] at hv
    rcases hv with rfl | rfl | rfl <;> norm_num [dot]
  · obtain ⟨h1, h2⟩ := normLoop_unit fuel n _ (init_notZero seed) vs h
    exact ⟨h1, h2, fun h => absurd h hn⟩

theorem normVec_fuel (fuel fuel' : Nat) (hle : fuel ≤ fuel') : ∀ (g : Rand.Xor) (r : Vec × Rand.Xor), normVec fuel g = some r → normVec fuel' g = some r := by
  induction fuel generalizing fuel' with
  | zero => intro g r h; cases h
  | succ fuel ih =>
    obtain ⟨f, rfl⟩ : ∃ f, fuel' = f + 1 := ⟨fuel' - 1, by omega⟩
    intro g r h
    unfold normVec normVecOn at h ⊢
    obtain ⟨x, e1, h⟩ := Option.bind_eq_some_iff.1 h
    obtain ⟨y, e2, h⟩ := Option.bind_eq_some_iff.1 h
    obtain ⟨z, e3, h⟩ := Option.bind_eq_some_iff.1 h
    rw [e1, Option.bind_some, e2, Option.bind_some, e3, Option.bind_some]
    dsimp only at h ⊢
    split_ifs at h ⊢ with hr
    · exact h
    · exact ih f (by omega) _ r h

/-- C80: the number of draws after which the model gives up does not matter: two runs of `normVecs` with the same seed that end give the same normals, so all halos of a run have the same rings. -/
theorem C80_norms_seed (fuel fuel' : Nat) (seed : BitVec 64) (n : Nat) (vs vs' : List Vec) (h : normVecs fuel seed n = some vs) (h' : normVecs fuel' seed n = some vs') : vs = vs' := by
  have mono : ∀ (f f' : Nat), f ≤ f' → ∀ (n : Nat) (g : Rand.Xor) (r : List Vec), normLoop f n g = some r → normLoop f' n g = some r := by
    intro f f' hle n
    induction n with
    | zero => intro g r h; exact h
    | succ n ih =>
      intro g r h
      unfold normLoop normLoopOn at h ⊢
      obtain ⟨v, h1, h2⟩ := Option.bind_eq_some_iff.1 h
      obtain ⟨ws, h3, h4⟩ := Option.map_eq_some_iff.1 h2
      rw [show normVecOn xorDraw f' g = some v from normVec_fuel f f' hle g v h1, Option.bind_some, show normLoopOn xorDraw f' n v.2 = some ws from ih _ _ h3]
      exact congrArg some h4
  unfold normVecs at h h'
  split_ifs at h h' with hn
  · rw [h, Option.some_inj] at h'; exact h'
  · have a := mono fuel (max fuel fuel') (le_max_left _ _) n _ vs h
    have b := mono fuel' (max fuel fuel') (le_max_right _ _) n _ vs' h'
    rw [a, Option.some_inj] at b
    exact b

-- a seed for which the first three draws are accepted
example : ∃ v, normVecs 1 1073741824#64 1 = some [v] := by
  have e1 : (Rand.Xor.init 1073741824#64).uniform (-1) 1 = some ((4294967295 - 2582273648) / 4294967295 * (1 - -1) + -1, ⟨2582273648#32, 362436069#32, 521288629#32, 1073741824#32⟩) := by
    unfold Rand.Xor.uniform
    rw [Rand.Xor.next_eq, show (Rand.Xor.init 1073741824#64).step = ⟨2582273648#32, 362436069#32, 521288629#32, 1073741824#32⟩ by decide, if_neg (by unfold Rand.Xor.value; norm_num)]
    simp [Rand.Xor.value]
  have e2 : (⟨2582273648#32, 362436069#32, 521288629#32, 1073741824#32⟩ : Rand.Xor).uniform (-1) 1 = some ((4294967295 - 1578632661) / 4294967295 * (1 - -1) + -1, ⟨1578632661#32, 521288629#32, 1073741824#32, 2582273648#32⟩) := by
    unfold Rand.Xor.uniform
    rw [Rand.Xor.next_eq, show (⟨2582273648#32, 362436069#32, 521288629#32, 1073741824#32⟩ : Rand.Xor).step = ⟨1578632661#32, 521288629#32, 1073741824#32, 2582273648#32⟩ by decide, if_neg (by unfold Rand.Xor.value; norm_num)]
    simp [Rand.Xor.value]
  have e3 : (⟨1578632661#32, 521288629#32, 1073741824#32, 2582273648#32⟩ : Rand.Xor).uniform (-1) 1 = some ((4294967295 - 3495514672) / 4294967295 * (1 - -1) + -1, ⟨3495514672#32, 1073741824#32, 2582273648#32, 1578632661#32⟩) := by
    unfold Rand.Xor.uniform
    rw [Rand.Xor.next_eq, show (⟨1578632661#32, 521288629#32, 1073741824#32, 2582273648#32⟩ : Rand.Xor).step = ⟨3495514672#32, 1073741824#32, 2582273648#32, 1578632661#32⟩ by decide, if_neg (by unfold Rand.Xor.value; norm_num)]
    simp [Rand.Xor.value]
  have e : ∃ r, normVec 1 (Rand.Xor.init 1073741824#64) = some r := by
    unfold normVec normVecOn xorDraw
    rw [e1, Option.map_some, Option.bind_some]
    dsimp only
    rw [e2, Option.map_some, Option.bind_some]
    dsimp only
    rw [e3, Option.map_some, Option.bind_some]
    dsimp only
    rw [if_pos (by rw [Real.sqrt_lt' (by norm_num)]; push_cast; norm_num)]
    exact ⟨_, rfl⟩
  obtain ⟨r, hr⟩ := e
  refine ⟨r.1, ?_⟩
  unfold normVecs
  rw [if_neg (by decide)]
  unfold normLoop normLoopOn
  rw [show normVecOn xorDraw 1 (Rand.Xor.init 1073741824#64) = some r from hr, Option.bind_some]
  rfl

/-! ## A non-trivial case -/

/-- Settings. -/
noncomputable def exCfg : Config := ⟨3, 8, 4, 1, 3, 1 / 2, 1 / 5, 1⟩

/-- The axes. -/
def exNorms : List Vec := [⟨0, 0, 1⟩, ⟨0, 1, 0⟩, ⟨1, 0, 0⟩]

/-- A file with one particle; `z` is its redshift. -/
noncomputable def exFile (z : ℝ) : File := ⟨⟨⟨45, 45, 45⟩, ⟨10, 10, 10⟩, 100⟩, ⟨z, 0.3, 0.7, 0.7⟩, [⟨⟨51, 50, 50⟩, 1⟩]⟩

/-- Snapshots 4 (redshift 1) and 5 (redshift 0). -/
noncomputable def exDisk (snap : Int) : Option (List File) := if snap = 5 then some [exFile 0] else if snap = 4 then some [exFile 1] else none

/-- A halo of a snapshot. -/
noncomputable def exRow (snap : Int) : Row := ⟨10, snap, ⟨50, 50, 50⟩, 1⟩

theorem exCfg_ok : exCfg.Ok := by constructor <;> norm_num [exCfg]

theorem exNorms_unit : ∀ v ∈ exNorms, dot v v = 1 := by
  intro v hv
  simp only [exNorms, List.mem_cons, List.not_mem_nil, or_false] at hv
  rcases hv with rfl | rfl | rfl <;> norm_num [dot]

theorem exRow_ok (snap : Int) (h : snap = 4 ∨ snap = 5) : RowOk exCfg exDisk (exRow snap) where
  radius := by norm_num [exRow]
  marker := by rcases h with rfl | rfl <;> norm_num [exRow]
  files := by
    have key : ∀ z : ℝ, ∀ f ∈ [exFile z], InBox f.region.totalWidth (exRow snap).x ∧ (∀ p ∈ f.particles, InBox f.region.totalWidth p.x) ∧
        (exRow snap).r * exCfg.rMaxMult + (exRow snap).r * exCfg.rKernelMult ≤ f.region.totalWidth / 2 := by
      intro z f hf
      rw [List.mem_singleton.1 hf]
      refine ⟨by norm_num [InBox, exFile, exRow], ?_, by norm_num [exFile, exRow, exCfg]⟩
      intro p hp
      simp only [exFile, List.mem_singleton] at hp
      rw [hp]
      norm_num [InBox, exFile]
    rcases h with rfl | rfl
    · exact ⟨[exFile 1], rfl, by simp, key 1⟩
    · exact ⟨[exFile 0], rfl, by simp, key 0⟩

-- the hypotheses of `C80_rows_partial` hold, and the particle is inserted into the halo
example : exCfg.Ok ∧ (∀ v ∈ exNorms, dot v v = 1) ∧ (∀ row ∈ [exRow 5, exRow 4, exRow 5], RowOk exCfg exDisk row) ∧ (rowBalls exCfg (exRow 5) [exFile 0]).length = 1 := by
  refine ⟨exCfg_ok, exNorms_unit, ?_, ?_⟩
  · intro row hr
    simp only [List.mem_cons, List.not_mem_nil, or_false] at hr
    rcases hr with rfl | rfl | rfl
    exacts [exRow_ok 5 (Or.inr rfl), exRow_ok 4 (Or.inl rfl), exRow_ok 5 (Or.inr rfl)]
  · classical
    have hs : sphereSheetIntersect ⟨(exRow 5).x, (exRow 5).r * exCfg.rMaxMult⟩ (exFile 0).region := by
      unfold sphereSheetIntersect inRange exFile exRow exCfg
      refine ⟨Or.inl ?_, Or.inl ?_, Or.inl ?_⟩ <;> norm_num
    have hev : everyNth (exCfg.sf ^ 3) (exFile 0).particles = [⟨⟨51, 50, 50⟩, 1⟩] := rfl
    have him : image 100 ⟨50, 50, 50⟩ ⟨51, 50, 50⟩ = ⟨51, 50, 50⟩ := by
      have hr : round ((1 : ℝ) / 100) = 0 := by
        rw [round_eq_zero_iff]
        norm_num
      unfold image nearest
      dsimp only
      rw [show (51 : ℝ) - 50 = 1 by norm_num, hr]
      norm_num
    have hd : Stats.distance ⟨50, 50, 50⟩ ⟨51, 50, 50⟩ = 1 := by
      unfold Stats.distance
      dsimp only
      rw [show ((51 : ℝ) - 50) ^ 2 + (50 - 50) ^ 2 + (50 - 50) ^ 2 = 1 ^ 2 by norm_num, Real.sqrt_sq (by norm_num)]
    have hre : Reaches (exRow 5).x (image (exFile 0).region.totalWidth (exRow 5).x ⟨51, 50, 50⟩) ((exRow 5).r * exCfg.rMinMult) ((exRow 5).r * exCfg.rMaxMult) ((exRow 5).r * exCfg.rKernelMult) := by
      unfold Reaches
      simp only [exRow, exFile, exCfg]
      rw [him, hd]
      norm_num
    unfold rowBalls fileBalls
    rw [List.filter_cons_of_pos (by simpa using hs), List.filter_nil, List.flatMap_cons, List.flatMap_nil, List.append_nil, hev]
    dsimp only
    rw [List.filter_cons_of_pos (by simpa using hre), List.filter_nil]
    rfl

/-! ## What is false -/

theorem rhoM_ex (z : ℝ) : (exFile z).rhoM = Radius.rhoCrit0 * 0.3 * (1 + z) ^ 3 := by
  unfold File.rhoM Radius.rhoAverage exFile
  dsimp only
  rw [Radius.rhoCritical_eq _ _ _ _ (by norm_num) (by norm_num)]
  norm_num

theorem insertAll_default (h h' : Halo) (bs : List Ball) (e : h.insertAll bs = some h') : h'.defaultRho = h.defaultRho := by
  obtain ⟨ps, rfl⟩ := insertAll_only bs h h' e
  rfl

/-- Independence of the other rows is false of the code: the lowest density of all halos is computed with the mean density of the first snapshot of the catalog.  Adding a row of an earlier snapshot changes
it by the factor 8 for a halo at redshift 0. -/
theorem C80_cosmology_false (workers : Nat) (hw : 0 < workers) : exCfg.Ok ∧ RowOk exCfg exDisk (exRow 5) ∧ RowOk exCfg exDisk (exRow 4) ∧ ∃ (out out' : List ℝ) (x : ℝ), 0 < x ∧
    run exCfg exNorms workers 1 Halo.defaultRho 0 [exRow 5] exDisk = some out ∧ run exCfg exNorms workers 1 Halo.defaultRho 0 [exRow 5, exRow 4] exDisk = some out' ∧ out[0]? = some (8 * x) ∧ out'[0]? = some x := by
  have o5 := exRow_ok 5 (Or.inr rfl)
  have o4 := exRow_ok 4 (Or.inl rfl)
  obtain ⟨a, f, out, a1, a2, a3, a4, a5, a6⟩ := C80_rows_partial exCfg exCfg_ok exNorms exNorms_unit workers hw 1 Halo.defaultRho 0 [exRow 5] (by simp) exDisk (by
    intro row hr; rw [List.mem_singleton.1 hr]; exact o5)
  obtain ⟨b, g, out', b1, b2, b3, b4, b5, b6⟩ := C80_rows_partial exCfg exCfg_ok exNorms exNorms_unit workers hw 1 Halo.defaultRho 0 [exRow 5, exRow 4] (by simp) exDisk (by
    intro row hr
    simp only [List.mem_cons, List.not_mem_nil, or_false] at hr
    rcases hr with rfl | rfl
    exacts [o5, o4])
  have hf : f = exFile 0 := by
    rw [List.mem_singleton.1 a1] at a3
    exact (Option.some_inj.1 a3).symm
  have hg : g = exFile 1 := by
    have hb : b = exRow 4 := by
      simp only [List.mem_cons, List.not_mem_nil, or_false] at b1
      rcases b1 with rfl | rfl
      · have := b2 (exRow 4) (by simp)
        norm_num [exRow] at this
      · rfl
    rw [hb] at b3
    exact (Option.some_inj.1 b3).symm
  subst hf hg
  obtain ⟨h, h1, h2⟩ := a6 0 (exRow 5) [exFile 0] rfl rfl
  obtain ⟨h', h1', h2'⟩ := b6 0 (exRow 5) [exFile 0] rfl rfl
  have e1 := insertAll_default _ _ _ h1
  have e2 := insertAll_default _ _ _ h1'
  have hp := Radius.rhoCrit0_pos
  have hv : 0 < volume ((exRow 5).r * exCfg.rKernelMult) := by
    unfold volume exRow exCfg
    have := Real.pi_pos
    norm_num
    positivity
  refine ⟨exCfg_ok, o5, o4, out, out', h'.defaultRho, ?_, a4, b4, ?_, h2'⟩
  · rw [e2]
    show 0 < 1 * (exCfg.sf : ℝ) ^ 3 / volume ((exRow 5).r * exCfg.rKernelMult) / (exFile 1).rhoM * exCfg.backgroundRhoMult
    rw [rhoM_ex]
    have : 0 < ((exCfg.sf : ℕ) : ℝ) := by norm_num [exCfg]
    have : 0 < exCfg.backgroundRhoMult := by norm_num [exCfg]
    positivity
  · rw [h2, e1, e2]
    congr 1
    show 1 * (exCfg.sf : ℝ) ^ 3 / volume ((exRow 5).r * exCfg.rKernelMult) / (exFile 0).rhoM * exCfg.backgroundRhoMult =
      8 * (1 * (exCfg.sf : ℝ) ^ 3 / volume ((exRow 5).r * exCfg.rKernelMult) / (exFile 1).rhoM * exCfg.backgroundRhoMult)
    rw [rhoM_ex, rhoM_ex]
    field_simp
    norm_num

theorem foldlM_none {α σ : Type} (f : σ → α → Option σ) (a : α) (h : ∀ s, f s a = none) (l : List α) (ha : a ∈ l) (s : σ) : l.foldlM f s = none := by
  induction l generalizing s with
  | nil => exact (nomatch ha)
  | cons b l ih =>
    rw [List.foldlM_cons]
    rcases List.mem_cons.1 ha with rfl | ha
    · rw [h]; rfl
    · cases f s b with
      | none => rfl
      | some t => exact ih ha t

theorem mapM_none {α γ : Type} (f : α → Option γ) (l : List α) (a : α) (ha : a ∈ l) (h : f a = none) : l.mapM f = none := by
  cases hm : l.mapM f with
  | none => rfl
  | some out =>
    obtain ⟨y, hy⟩ := Shellfish.Cmd.mapM_mem f l out hm a ha
    rw [h] at hy; cases hy

/-- One row without a positive radius (the code calls them normal: "This happens sometimes...") makes the whole run fail, whatever the other rows are. -/
theorem C80_radius_false {β : Type} (cfg : Config) (norms : List Vec) (workers : Nat) (minMass : ℝ) (analyse : Halo → β) (blank : β) (rows : List Row) (disk : Int → Option (List File)) (row : Row)
    (hrow : row ∈ rows) (hr : row.r ≤ 0) (hs : row.snap ≠ -1) : run cfg norms workers minMass analyse blank rows disk = none := by
  obtain ⟨sb, ib, e, h1, _, _, h4, h5⟩ := Shellfish.Cmd.C44_groups (rows.map (·.snap)) (rows.map (·.id)) (by simp)
  unfold run
  split_ifs with g1 g2
  · rfl
  · rfl
  · rw [e, Option.bind_some]
    dsimp only
    cases (((sortedSnaps sb).head?.bind disk).getD []).head? with
    | none => rfl
    | some hd0 =>
      dsimp only
      rw [foldlM_none _ row.snap ?_ _ (((Shellfish.Cmd.sortedSnaps_spec sb).1.mem_iff).2 ((h5 _).2 (List.mem_map_of_mem hrow)))]
      · rfl
      · intro st
        unfold snapStep
        rw [if_neg hs, h1]
        cases hm : (rowsOf (rows.map (·.snap)) row.snap).mapM fun k => rows[k]? with
        | none => rfl
        | some rs =>
          have hmem : row ∈ rs := by
            obtain ⟨k, hk⟩ := List.mem_iff_getElem?.1 hrow
            have hkm : k ∈ rowsOf (rows.map (·.snap)) row.snap := by rw [Stats.mem_rowsOf, List.getElem?_map, hk]; rfl
            have hall : ∀ k ∈ rowsOf (rows.map (·.snap)) row.snap, rows[k]? = some (rows.getD k row) := by
              intro j hj
              obtain ⟨y, hy⟩ := Shellfish.Cmd.mapM_mem _ _ _ hm j hj
              rw [List.getD_eq_getElem?_getD, hy]; rfl
            have := Shellfish.Cmd.mapM_ok (fun k => rows[k]?) (fun k => rows.getD k row) _ hall
            rw [hm, Option.some_inj] at this
            rw [this]
            refine List.mem_map.2 ⟨k, hkm, ?_⟩
            rw [List.getD_eq_getElem?_getD, hk]; rfl
          rw [Option.bind_some, mapM_none (createHalo cfg norms minMass hd0) rs row hmem (by unfold createHalo; rw [if_pos hr])]
          rfl

/-- One row of the marker snapshot -1 (which the loop wants to skip) makes the whole run fail: the headers of the smallest snapshot number are read before the loop, and there is no snapshot -1. -/
theorem C80_marker_false {β : Type} (cfg : Config) (norms : List Vec) (workers : Nat) (minMass : ℝ) (analyse : Halo → β) (blank : β) (rows : List Row) (disk : Int → Option (List File)) (row : Row)
    (hrow : row ∈ rows) (hs : row.snap = -1) (hmin : ∀ row ∈ rows, -1 ≤ row.snap) (hd : disk (-1) = none) : run cfg norms workers minMass analyse blank rows disk = none := by
  obtain ⟨sb, ib, e, h1, _, _, h4, h5⟩ := Shellfish.Cmd.C44_groups (rows.map (·.snap)) (rows.map (·.id)) (by simp)
  obtain ⟨hperm, hsorted⟩ := Shellfish.Cmd.sortedSnaps_spec sb
  have hmem : ∀ s, s ∈ sortedSnaps sb ↔ s ∈ rows.map (·.snap) := fun s => by rw [hperm.mem_iff, h5]
  have hhead : (sortedSnaps sb).head? = some (-1) := by
    have hin : (-1 : Int) ∈ sortedSnaps sb := (hmem _).2 (hs ▸ List.mem_map_of_mem hrow)
    cases hl : sortedSnaps sb with
    | nil => rw [hl] at hin; exact (nomatch hin)
    | cons a l =>
      rw [hl] at hin hsorted
      obtain ⟨r, hr, ha⟩ := List.mem_map.1 ((hmem a).1 (by rw [hl]; exact List.mem_cons_self))
      have h2 : -1 ≤ a := ha ▸ hmin r hr
      have h3 : a ≤ -1 := by
        rcases List.mem_cons.1 hin with e | e
        · exact e.ge
        · exact (List.pairwise_cons.1 hsorted).1 _ e
      rw [List.head?_cons]
      congr 1
      omega
  unfold run
  split_ifs with g1 g2
  · rfl
  · rfl
  · rw [e, Option.bind_some]
    dsimp only
    rw [hhead, Option.bind_some, hd]
    rfl

-- catalogs for which all other rows can be analysed
example : RowOk exCfg exDisk (exRow 5) ∧ (⟨11, 5, ⟨50, 50, 50⟩, 0⟩ : Row).r ≤ 0 ∧ (exRow (-1)).snap = -1 ∧ (∀ row ∈ [exRow 5, exRow (-1)], -1 ≤ row.snap) ∧ exDisk (-1) = none := by
  refine ⟨exRow_ok 5 (Or.inr rfl), le_refl _, rfl, ?_, ?_⟩
  · intro row hr
    simp only [List.mem_cons, List.not_mem_nil, or_false] at hr
    rcases hr with rfl | rfl <;> norm_num [exRow]
  · norm_num [exDisk]

end Shellfish.ShellRun
