/-
C93: the ring normals of a run are independent and uniform on the sphere.
-/
import Verif.Props.ShellVolume
import Verif.Model.ShellRun
import Mathlib.Probability.Independence.Basic
import Mathlib.MeasureTheory.Measure.Lebesgue.EqHaar

namespace Shellfish.ShellRun
open Shellfish Shellfish.Analyze MeasureTheory Set ENNReal

/-- The draws `gen.Uniform(-1, +1)` of an ideal generator: draw `i` is the number `i % 3` of the triple `i / 3` of `x`, each in `[0, 1)`, scaled as by math/rand/rand.go `Uniform`. -/
noncomputable def streamDraw (x : ℕ → ℝ × ℝ × ℝ) (i : ℕ) : Option (ℝ × ℕ) :=
  some ((if i % 3 = 0 then (x (i / 3)).1 else if i % 3 = 1 then (x (i / 3)).2.1 else (x (i / 3)).2.2) * (1 - -1) + -1, i + 1)

/-- The numbers of a vector. -/
def coords (v : Geom.Vec) : ℝ × ℝ × ℝ := (v.x, v.y, v.z)

/-- Specification: the Euclidean length. -/
noncomputable def len (p : ℝ × ℝ × ℝ) : ℝ := Real.sqrt (p.1 ^ 2 + p.2.1 ^ 2 + p.2.2 ^ 2)

/-- Specification: the direction of a point. -/
noncomputable def dir (p : ℝ × ℝ × ℝ) : ℝ × ℝ × ℝ := (p.1 / len p, p.2.1 / len p, p.2.2 / len p)

/-- Specification: the part of the unit ball in the directions `a`. -/
def sector (a : Set (ℝ × ℝ × ℝ)) : Set (ℝ × ℝ × ℝ) := {p | len p < 1 ∧ dir p ∈ a}

/-- Specification: the share of the sphere that `a` covers. -/
noncomputable def share (a : Set (ℝ × ℝ × ℝ)) : ℝ≥0∞ := volume (sector a) / volume {p : ℝ × ℝ × ℝ | len p < 1}

/-- The point of a triple of draws. -/
def scale (d : ℝ × ℝ × ℝ) : ℝ × ℝ × ℝ := (d.1 * (1 - -1) + -1, d.2.1 * (1 - -1) + -1, d.2.2 * (1 - -1) + -1)

theorem measurable_len : Measurable len := by unfold len; fun_prop

theorem measurable_dir : Measurable dir := by
  have := measurable_len
  unfold dir
  fun_prop

theorem measurable_scale : Measurable scale := by unfold scale; fun_prop

theorem measurableSet_sector {a : Set (ℝ × ℝ × ℝ)} (ha : MeasurableSet a) : MeasurableSet (sector a) :=
  (measurableSet_lt measurable_len measurable_const).inter (measurable_dir ha)

theorem sector_univ : sector univ = {p : ℝ × ℝ × ℝ | len p < 1} := by
  ext p; simp [sector]

theorem normVec_step (x : ℕ → ℝ × ℝ × ℝ) (fuel m : ℕ) :
    normVecOn (streamDraw x) (fuel + 1) (3 * m) =
      open Classical in if len (scale (x m)) < 1 then some (⟨(dir (scale (x m))).1, (dir (scale (x m))).2.1, (dir (scale (x m))).2.2⟩, 3 * (m + 1)) else normVecOn (streamDraw x) fuel (3 * (m + 1)) := by
  have e0 : streamDraw x (3 * m) = some ((x m).1 * (1 - -1) + -1, 3 * m + 1) := by
    unfold streamDraw
    rw [if_pos (by omega), show 3 * m / 3 = m by omega]
  have e1 : streamDraw x (3 * m + 1) = some ((x m).2.1 * (1 - -1) + -1, 3 * m + 1 + 1) := by
    unfold streamDraw
    rw [if_neg (by omega), if_pos (by omega), show (3 * m + 1) / 3 = m by omega]
  have e2 : streamDraw x (3 * m + 1 + 1) = some ((x m).2.2 * (1 - -1) + -1, 3 * (m + 1)) := by
    unfold streamDraw
    rw [if_neg (by omega), if_neg (by omega), show (3 * m + 1 + 1) / 3 = m by omega, show 3 * m + 1 + 1 + 1 = 3 * (m + 1) by omega]
  rw [normVecOn, e0, Option.bind_some, e1, Option.bind_some, e2, Option.bind_some]
  simp only [scale, dir, len, pow_two]

/-- The vectors of the run that starts with the triple `m` are in the sets `as`. -/
def hits (x : ℕ → ℝ × ℝ × ℝ) (as : List (Set (ℝ × ℝ × ℝ))) (m : ℕ) : Prop :=
  ∃ fuel vs, normLoopOn (streamDraw x) fuel as.length (3 * m) = some vs ∧ List.Forall₂ (fun v a => coords v ∈ a) vs as

/-- `j` triples are rejected, the next one is accepted with a direction in `a`, and the vectors from the later ones are in `as`. -/
def after (x : ℕ → ℝ × ℝ × ℝ) (a : Set (ℝ × ℝ × ℝ)) (as : List (Set (ℝ × ℝ × ℝ))) : ℕ → ℕ → Prop
  | 0, m => scale (x m) ∈ sector a ∧ hits x as (m + 1)
  | j + 1, m => scale (x m) ∉ sector univ ∧ after x a as j (m + 1)

theorem normVecOn_mono {γ : Type} (draw : γ → Option (ℝ × γ)) (fuel fuel' : ℕ) (hle : fuel ≤ fuel') : ∀ (g : γ) r, normVecOn draw fuel g = some r → normVecOn draw fuel' g = some r := by
  induction fuel generalizing fuel' with
  | zero => intro g r h; cases h
  | succ fuel ih =>
    obtain ⟨f, rfl⟩ : ∃ f, fuel' = f + 1 := ⟨fuel' - 1, by omega⟩
    intro g r h
    unfold normVecOn at h ⊢
    obtain ⟨x, e1, h⟩ := Option.bind_eq_some_iff.1 h
    obtain ⟨y, e2, h⟩ := Option.bind_eq_some_iff.1 h
    obtain ⟨z, e3, h⟩ := Option.bind_eq_some_iff.1 h
    rw [e1, Option.bind_some, e2, Option.bind_some, e3, Option.bind_some]
    dsimp only at h ⊢
    split_ifs at h ⊢ with hr
    · exact h
    · exact ih f (by omega) _ r h

theorem normLoopOn_mono {γ : Type} (draw : γ → Option (ℝ × γ)) (fuel fuel' : ℕ) (hle : fuel ≤ fuel') (n : ℕ) : ∀ (g : γ) r, normLoopOn draw fuel n g = some r → normLoopOn draw fuel' n g = some r := by
  induction n with
  | zero => intro g r h; exact h
  | succ n ih =>
    intro g r h
    unfold normLoopOn at h ⊢
    obtain ⟨v, h1, h2⟩ := Option.bind_eq_some_iff.1 h
    obtain ⟨ws, h3, h4⟩ := Option.map_eq_some_iff.1 h2
    rw [normVecOn_mono draw fuel fuel' hle g v h1, Option.bind_some, ih _ _ h3]
    exact congrArg some h4

theorem hits_cons (x : ℕ → ℝ × ℝ × ℝ) (a : Set (ℝ × ℝ × ℝ)) (as : List (Set (ℝ × ℝ × ℝ))) (m : ℕ) : hits x (a :: as) m ↔ ∃ j, after x a as j m := by
  classical
  constructor
  · rintro ⟨fuel, vs, h, hvs⟩
    rw [List.length_cons] at h
    unfold normLoopOn at h
    obtain ⟨v, h1, h2⟩ := Option.bind_eq_some_iff.1 h
    obtain ⟨ws, h3, h4⟩ := Option.map_eq_some_iff.1 h2
    subst h4
    obtain ⟨hv, hws⟩ := List.forall₂_cons.1 hvs
    have key : ∀ f m, normVecOn (streamDraw x) f (3 * m) = some v → ∃ j, after x a as j m := by
      intro f
      induction f with
      | zero => intro m h; cases h
      | succ f ih =>
        intro m h
        rw [normVec_step] at h
        by_cases hc : len (scale (x m)) < 1
        · rw [if_pos hc] at h
          rw [← Option.some_inj.1 h] at hv h3
          exact ⟨0, ⟨hc, hv⟩, fuel, ws, h3, hws⟩
        · rw [if_neg hc] at h
          obtain ⟨j, hj⟩ := ih _ h
          exact ⟨j + 1, by rw [sector_univ]; exact hc, hj⟩
    exact key fuel m h1
  · rintro ⟨j, h⟩
    have key : ∀ j m, after x a as j m → ∃ f v m', normVecOn (streamDraw x) f (3 * m) = some (v, 3 * m') ∧ coords v ∈ a ∧ hits x as m' := by
      intro j
      induction j with
      | zero =>
        intro m h
        obtain ⟨h1, h2⟩ := h
        refine ⟨1, ⟨(dir (scale (x m))).1, (dir (scale (x m))).2.1, (dir (scale (x m))).2.2⟩, m + 1, ?_, h1.2, h2⟩
        rw [normVec_step, if_pos h1.1]
      | succ j ih =>
        intro m h
        obtain ⟨h1, h2⟩ := h
        rw [sector_univ] at h1
        obtain ⟨f, v, m', e, r⟩ := ih _ h2
        exact ⟨f + 1, v, m', by rw [normVec_step, if_neg (show ¬ len (scale (x m)) < 1 from h1), e], r⟩
    obtain ⟨f, v, m', e, hv, f', vs, e', hvs⟩ := key j m h
    refine ⟨max f f', v :: vs, ?_, List.Forall₂.cons hv hvs⟩
    rw [List.length_cons]
    unfold normLoopOn
    rw [normVecOn_mono _ f _ (le_max_left _ _) _ _ e, Option.bind_some, normLoopOn_mono _ f' _ (le_max_right _ _) _ _ _ e']
    rfl

theorem after_unique (x : ℕ → ℝ × ℝ × ℝ) (a : Set (ℝ × ℝ × ℝ)) (as : List (Set (ℝ × ℝ × ℝ))) : ∀ i j m, after x a as i m → after x a as j m → i = j := by
  intro i
  induction i with
  | zero =>
    intro j m h h'
    cases j with
    | zero => rfl
    | succ j => exact absurd ⟨h.1.1, trivial⟩ h'.1
  | succ i ih =>
    intro j m h h'
    cases j with
    | zero => exact absurd ⟨h'.1.1, trivial⟩ h.1
    | succ j => rw [ih j _ h.2 h'.2]

section
variable {Ω : Type} [m0 : MeasurableSpace Ω] {μ : Measure Ω} [IsProbabilityMeasure μ] {X : ℕ → Ω → ℝ × ℝ × ℝ}

/-- What is known from the triples from the `m`-th on. -/
def later (X : ℕ → Ω → ℝ × ℝ × ℝ) (m : ℕ) : MeasurableSpace Ω := ⨆ i ∈ Ici m, MeasurableSpace.comap (X i) inferInstance

omit m0 in
theorem later_mono {m n : ℕ} (h : m ≤ n) : later X n ≤ later X m :=
  biSup_mono fun _ hi => le_trans h hi

omit m0 in
theorem later_one (m : ℕ) {A : Set (ℝ × ℝ × ℝ)} (hA : MeasurableSet A) : MeasurableSet[later X m] (X m ⁻¹' A) := by
  have : MeasurableSpace.comap (X m) inferInstance ≤ later X m := le_biSup (fun i => MeasurableSpace.comap (X i) inferInstance) (show m ∈ Ici m from le_refl m)
  exact this _ ⟨A, hA, rfl⟩

theorem later_le (hX : Draws μ uniform3 X) (m : ℕ) : later X m ≤ m0 :=
  iSup₂_le fun i _ => (hX.measurable i).comap_le

/-- One triple is independent of what follows. -/
theorem step_prob (hX : Draws μ uniform3 X) (m : ℕ) {A : Set (ℝ × ℝ × ℝ)} (hA : MeasurableSet A) {B : Set Ω} (hB : MeasurableSet[later X (m + 1)] B) :
    μ (X m ⁻¹' A ∩ B) = uniform3 A * μ B := by
  have hd : Disjoint ({m} : Set ℕ) (Ici (m + 1)) := by
    rw [disjoint_singleton_left]; simp
  have := ProbabilityTheory.indep_iSup_of_disjoint (fun i => (hX.measurable i).comap_le) hX.indep hd
  have h1 : MeasurableSet[⨆ i ∈ ({m} : Set ℕ), MeasurableSpace.comap (X i) inferInstance] (X m ⁻¹' A) := by
    have : MeasurableSpace.comap (X m) inferInstance ≤ ⨆ i ∈ ({m} : Set ℕ), MeasurableSpace.comap (X i) inferInstance :=
      le_biSup (fun i => MeasurableSpace.comap (X i) inferInstance) (mem_singleton m)
    exact this _ ⟨A, hA, rfl⟩
  rw [ProbabilityTheory.Indep_iff] at this
  rw [this _ _ h1 hB, ← hX.law m, Measure.map_apply (hX.measurable m) hA]

/-- The measure of the triples whose point is in a set within the cube. -/
theorem uniform3_scale {S : Set (ℝ × ℝ × ℝ)} (hS : MeasurableSet S) (hsub : ∀ p ∈ S, len p < 1) : uniform3 (scale ⁻¹' S) = ENNReal.ofReal ((2 ^ 3)⁻¹) * volume S := by
  have hA : scale ⁻¹' S = (fun d => (2 : ℝ) • d) ⁻¹' ((fun d => d + ((-1, -1, -1) : ℝ × ℝ × ℝ)) ⁻¹' S) := by
    ext d
    simp only [mem_preimage, scale]
    have : ((2 : ℝ) • d + ((-1, -1, -1) : ℝ × ℝ × ℝ)) = (d.1 * (1 - -1) + -1, d.2.1 * (1 - -1) + -1, d.2.2 * (1 - -1) + -1) := by
      ext <;> simp <;> ring
    rw [this]
  haveI : (volume : Measure (ℝ × ℝ × ℝ)).IsAddHaarMeasure := by
    haveI h2 : ((volume : Measure ℝ).prod (volume : Measure ℝ)).IsAddHaarMeasure := Measure.prod.instIsAddHaarMeasure _ _
    exact Measure.prod.instIsAddHaarMeasure (volume : Measure ℝ) ((volume : Measure ℝ).prod (volume : Measure ℝ))
  have hin : scale ⁻¹' S ⊆ Ico 0 1 ×ˢ (Ico 0 1 ×ˢ Ico 0 1) := by
    intro d hd
    have h := hsub _ hd
    unfold len scale at h
    rw [Real.sqrt_lt' one_pos] at h
    dsimp only at h
    have q : ∀ x y z : ℝ, (x * (1 - -1) + -1) ^ 2 + y ^ 2 + z ^ 2 < 1 ^ 2 → x ∈ Ico (0 : ℝ) 1 := by
      intro x y z hq
      constructor <;> nlinarith [sq_nonneg y, sq_nonneg z]
    exact ⟨q _ _ _ h, q _ (d.1 * (1 - -1) + -1) (d.2.2 * (1 - -1) + -1) (by linarith), q _ (d.1 * (1 - -1) + -1) (d.2.1 * (1 - -1) + -1) (by linarith)⟩
  rw [uniform3, Measure.restrict_apply (measurable_scale hS), inter_eq_left.2 hin, hA, Measure.addHaar_preimage_smul volume (by norm_num), measure_preimage_add_right]
  have : Module.finrank ℝ (ℝ × ℝ × ℝ) = 3 := by simp
  rw [this, abs_of_pos (by positivity)]

theorem measurable_hits (as : List (Set (ℝ × ℝ × ℝ))) (ha : ∀ a ∈ as, MeasurableSet a) : ∀ m, MeasurableSet[later X m] {ω | hits (fun i => X i ω) as m} := by
  induction as with
  | nil =>
    intro m
    have : {ω | hits (fun i => X i ω) [] m} = univ := by
      ext ω
      simp only [mem_setOf_eq, mem_univ, iff_true]
      exact ⟨0, [], rfl, List.Forall₂.nil⟩
    rw [this]
    exact MeasurableSet.univ
  | cons a as ih =>
    intro m
    have ih := ih fun b hb => ha b (List.mem_cons_of_mem _ hb)
    have ham := ha a List.mem_cons_self
    have : {ω | hits (fun i => X i ω) (a :: as) m} = ⋃ j, {ω | after (fun i => X i ω) a as j m} := by
      ext ω
      simp only [mem_setOf_eq, mem_iUnion, hits_cons]
    rw [this]
    refine MeasurableSet.iUnion fun j => ?_
    clear this
    induction j generalizing m with
    | zero => exact (later_one m (measurable_scale (measurableSet_sector ham))).inter (later_mono (Nat.le_succ m) _ (ih (m + 1)))
    | succ j jh => exact (later_one m (measurable_scale (measurableSet_sector MeasurableSet.univ).compl)).inter (later_mono (Nat.le_succ m) _ (jh (m + 1)))

theorem measurable_after (a : Set (ℝ × ℝ × ℝ)) (ham : MeasurableSet a) (as : List (Set (ℝ × ℝ × ℝ))) (ha : ∀ a ∈ as, MeasurableSet a) : ∀ j m, MeasurableSet[later X m] {ω | after (fun i => X i ω) a as j m} := by
  intro j
  induction j with
  | zero => exact fun m => (later_one m (measurable_scale (measurableSet_sector ham))).inter (later_mono (Nat.le_succ m) _ (measurable_hits as ha (m + 1)))
  | succ j jh => exact fun m => (later_one m (measurable_scale (measurableSet_sector MeasurableSet.univ).compl)).inter (later_mono (Nat.le_succ m) _ (jh (m + 1)))

theorem ball_pos : 0 < volume {p : ℝ × ℝ × ℝ | len p < 1} := by
  have ho : IsOpen {p : ℝ × ℝ × ℝ | len p < 1} := by
    refine isOpen_lt ?_ continuous_const
    unfold len; fun_prop
  refine ho.measure_pos _ ⟨0, ?_⟩
  simp [len]

theorem prob_hits (hX : Draws μ uniform3 X) (as : List (Set (ℝ × ℝ × ℝ))) (ha : ∀ a ∈ as, MeasurableSet a) : ∀ m, μ {ω | hits (fun i => X i ω) as m} = (as.map share).prod := by
  induction as with
  | nil =>
    intro m
    have : {ω | hits (fun i => X i ω) [] m} = univ := by
      ext ω
      simp only [mem_setOf_eq, mem_univ, iff_true]
      exact ⟨0, [], rfl, List.Forall₂.nil⟩
    rw [this, measure_univ]
    rfl
  | cons a as ih =>
    intro m
    have has : ∀ a ∈ as, MeasurableSet a := fun b hb => ha b (List.mem_cons_of_mem _ hb)
    have ih := ih has
    have ham := ha a List.mem_cons_self
    have : {ω | hits (fun i => X i ω) (a :: as) m} = ⋃ j, {ω | after (fun i => X i ω) a as j m} := by
      ext ω
      simp only [mem_setOf_eq, mem_iUnion, hits_cons]
    have hT : ∀ j m, μ {ω | after (fun i => X i ω) a as j m} = (1 - uniform3 (scale ⁻¹' sector univ)) ^ j * (uniform3 (scale ⁻¹' sector a) * (as.map share).prod) := by
      intro j
      induction j with
      | zero =>
        intro m
        rw [pow_zero, one_mul, ← ih (m + 1)]
        exact step_prob hX m (measurable_scale (measurableSet_sector ham)) (measurable_hits as has (m + 1))
      | succ j jh =>
        intro m
        rw [pow_succ', mul_assoc, ← jh (m + 1), ← prob_compl_eq_one_sub (measurable_scale (measurableSet_sector MeasurableSet.univ))]
        exact step_prob hX m (measurable_scale (measurableSet_sector MeasurableSet.univ).compl) (measurable_after a ham as has j (m + 1))
    rw [this, measure_iUnion]
    · simp only [hT]
      rw [ENNReal.tsum_mul_right, ENNReal.tsum_geometric, ENNReal.sub_sub_cancel one_ne_top prob_le_one, List.map_cons, List.prod_cons, ← mul_assoc]
      congr 1
      rw [uniform3_scale (measurableSet_sector MeasurableSet.univ) (fun p hp => hp.1), uniform3_scale (measurableSet_sector ham) (fun p hp => hp.1), sector_univ, share]
      have h0 : ENNReal.ofReal ((2 ^ 3)⁻¹) ≠ 0 := by
        rw [Ne, ENNReal.ofReal_eq_zero, not_le]; positivity
      rw [mul_comm, ← div_eq_mul_inv, ENNReal.mul_div_mul_left _ _ h0 ofReal_ne_top]
    · intro i j hij
      rw [Function.onFun, Set.disjoint_left]
      intro ω h h'
      exact hij (after_unique _ a as i j m h h')
    · exact fun j => later_le hX m _ (measurable_after a ham as has j m)

/-- C93: with an ideal generator the ring normals are independent, and each has a direction in a set `a` with the share of the unit ball that lies in the directions `a` as its probability: for every
list of sets, the loop of `normVecs` ends with one vector in each set with the product of their shares as its probability. -/
theorem C93_uniform (hX : Draws μ uniform3 X) (as : List (Set (ℝ × ℝ × ℝ))) (ha : ∀ a ∈ as, MeasurableSet a) :
    μ {ω | ∃ fuel vs, normLoopOn (streamDraw fun i => X i ω) fuel as.length 0 = some vs ∧ List.Forall₂ (fun v a => (v.x, v.y, v.z) ∈ a) vs as} = (as.map share).prod :=
  prob_hits hX as ha 0

/-- C93: the loop that draws the ring normals ends with probability one, for every number of rings. -/
theorem C93_ends (hX : Draws μ uniform3 X) (n : ℕ) : ∀ᵐ ω ∂μ, ∃ fuel vs, normLoopOn (streamDraw fun i => X i ω) fuel n 0 = some vs ∧ vs.length = n := by
  have h := C93_uniform hX (List.replicate n univ) (by intro a ha; rw [List.eq_of_mem_replicate ha]; exact MeasurableSet.univ)
  have h1 : share univ = 1 := by
    rw [share, sector_univ]
    refine ENNReal.div_self ball_pos.ne' ?_
    have hle := uniform3_scale (measurableSet_sector MeasurableSet.univ) (fun p hp => hp.1)
    intro ht
    rw [sector_univ, ht, ENNReal.mul_top (by rw [Ne, ENNReal.ofReal_eq_zero, not_le]; positivity)] at hle
    exact measure_ne_top _ _ hle
  rw [List.map_replicate, h1, List.prod_replicate, one_pow, List.length_replicate] at h
  have hm := (later_le hX 0 _ (measurable_hits (X := X) (List.replicate n univ) (by intro a ha; rw [List.eq_of_mem_replicate ha]; exact MeasurableSet.univ) 0))
  have h2 : ∀ᵐ ω ∂μ, hits (fun i => X i ω) (List.replicate n univ) 0 := by
    rw [ae_iff]
    refine (prob_compl_eq_zero_iff hm).2 ?_
    rw [← h]
    unfold hits
    rw [List.length_replicate]
    rfl
  filter_upwards [h2] with ω hω
  obtain ⟨fuel, vs, e, hf⟩ := hω
  rw [List.length_replicate] at e
  exact ⟨fuel, vs, e, by rw [hf.length_eq, List.length_replicate]⟩

/-- C93: the share does not depend on the orientation: a linear map that keeps lengths keeps the share of every set of directions, so no direction is preferred. -/
theorem C93_isotropic (f : (ℝ × ℝ × ℝ) →ₗ[ℝ] (ℝ × ℝ × ℝ)) (hf : ∀ p, len (f p) = len p) (a : Set (ℝ × ℝ × ℝ)) : share (f ⁻¹' a) = share a := by
  haveI : (volume : Measure (ℝ × ℝ × ℝ)).IsAddHaarMeasure := by
    haveI h2 : ((volume : Measure ℝ).prod (volume : Measure ℝ)).IsAddHaarMeasure := Measure.prod.instIsAddHaarMeasure _ _
    exact Measure.prod.instIsAddHaarMeasure (volume : Measure ℝ) ((volume : Measure ℝ).prod (volume : Measure ℝ))
  have hsec : ∀ a, sector (f ⁻¹' a) = f ⁻¹' sector a := by
    intro a
    ext p
    simp only [sector, mem_setOf_eq, mem_preimage, hf]
    have hd : ∀ p, dir p = (len p)⁻¹ • p := by
      intro p
      ext <;> simp [dir, div_eq_inv_mul]
    rw [hd (f p), hd p, hf, map_smul]
  have hinj : Function.Injective f := by
    rw [injective_iff_map_eq_zero]
    intro p hp
    have h := hf p
    rw [hp] at h
    have h0 : len 0 = 0 := by simp [len]
    rw [h0] at h
    have h := (Real.sqrt_eq_zero (by positivity)).1 h.symm
    have h1 : p.1 ^ 2 = 0 := by nlinarith [sq_nonneg p.1, sq_nonneg p.2.1, sq_nonneg p.2.2]
    have h2 : p.2.1 ^ 2 = 0 := by nlinarith [sq_nonneg p.1, sq_nonneg p.2.1, sq_nonneg p.2.2]
    have h3 : p.2.2 ^ 2 = 0 := by nlinarith [sq_nonneg p.1, sq_nonneg p.2.1, sq_nonneg p.2.2]
    ext <;> simp [pow_eq_zero_iff] at h1 h2 h3 ⊢ <;> assumption
  have hdet : LinearMap.det f ≠ 0 := by
    intro h
    have := LinearMap.bot_lt_ker_of_det_eq_zero h
    rw [LinearMap.ker_eq_bot.2 hinj] at this
    exact lt_irrefl _ this
  have hne : volume {p : ℝ × ℝ × ℝ | len p < 1} ≠ ⊤ := by
    have hle := uniform3_scale (measurableSet_sector MeasurableSet.univ) (fun p hp => hp.1)
    intro ht
    rw [sector_univ, ht, ENNReal.mul_top (by rw [Ne, ENNReal.ofReal_eq_zero, not_le]; positivity)] at hle
    exact measure_ne_top _ _ hle
  have hball := Measure.addHaar_preimage_linearMap (volume : Measure (ℝ × ℝ × ℝ)) hdet (sector univ)
  rw [← hsec, preimage_univ] at hball
  have h1 : ENNReal.ofReal |(LinearMap.det f)⁻¹| = 1 := by
    have hb := ball_pos
    rw [← sector_univ] at hb hne
    have := ENNReal.mul_left_inj hb.ne' hne |>.1 (hball.symm.trans (one_mul _).symm)
    exact this
  rw [share, share, hsec, Measure.addHaar_preimage_linearMap _ hdet, h1, one_mul]

end

/-- Non-vacuity: independent uniform draws, measurable sets of directions of which each is met, and a rotation. -/
example : Draws (Measure.infinitePi fun _ : ℕ => uniform3) uniform3 (fun i ω => ω i) ∧ (∀ a ∈ [{p : ℝ × ℝ × ℝ | 0 < p.2.2}, {p | p.1 < 0}], MeasurableSet a) := by
  refine ⟨draws_exist _, ?_⟩
  intro a ha
  simp only [List.mem_cons, List.not_mem_nil, or_false] at ha
  rcases ha with rfl | rfl
  · exact measurableSet_lt measurable_const (by fun_prop)
  · exact measurableSet_lt (by fun_prop) measurable_const

/-- Non-vacuity: a quarter turn about the z axis keeps lengths. -/
example : ∃ f : (ℝ × ℝ × ℝ) →ₗ[ℝ] (ℝ × ℝ × ℝ), (∀ p, len (f p) = len p) ∧ f (1, 0, 0) = (0, 1, 0) := by
  refine ⟨{ toFun := fun p => (-p.2.1, p.1, p.2.2), map_add' := fun p q => by ext <;> simp; ring, map_smul' := fun c p => by ext <;> simp }, fun p => ?_, by simp⟩
  simp only [len, LinearMap.coe_mk, AddHom.coe_mk]
  congr 1; ring

end Shellfish.ShellRun
