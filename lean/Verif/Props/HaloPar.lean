/- C20 for whole halos: splitting a halo over workers, inserting and joining (los/halo.go:107-140, cmd/shell.go:421-465). -/
import Verif.Lemmas.HaloPar
import Verif.Props.HaloCut

namespace Shellfish.Los
noncomputable section
open Real
open Shellfish.Geom (Vec Mat rotateVec eulerMatrixBetween atan2 dot zero)

/-- The particles that the calls `jobs` insert into halo `i`. -/
def ballsOf (i : Nat) (jobs : List Job) : List Ball :=
  ((jobs.filter fun j => j.halo = i).map fun j => j.own ++ j.shares.flatten).flatten

theorem profile_congr (a b : Halo) (ha : a.WF) (hb : b.WF) (hs : Same a b) (h : ∀ ring k j, ring < a.rings → j < a.bins → cell a ring k j = cell b ring k j)
    (ring i : Nat) (hr : ring < a.rings) (hi : i < a.n) : a.profile ring i = b.profile ring i := by
  rw [profile_cell a ha ring i hr hi, profile_cell b hb ring i (hs.rings ▸ hr) (hs.n ▸ hi), hs.bins]
  congr 1
  apply List.map_congr_left
  intro j hj
  exact h ring i j hr (by rw [hs.bins]; exact List.mem_range.mp hj)

/-- C20: however the particles are distributed over the owner and the workers, splitting a halo, inserting and joining gives, without a panic, the
profiles that inserting all the particles into the halo in any order gives. -/
theorem C20_halo (h : Halo) (hw : h.WF) (own : List Ball) (workers : List (Halo × List Ball)) (hu : ∀ w ∈ workers, HUsable h w.1)
    (all : List Ball) (hall : all.Perm (own ++ (workers.map Prod.snd).flatten)) :
    ∃ h1 scratch h2, h.pass own workers = some (h1, scratch) ∧ h.insertAll all = some h2 ∧
      ∀ ring i, ring < h.rings → i < h.n → h1.profile ring i = h2.profile ring i := by
  obtain ⟨h1, his, a1, a2, a3, _, _, a6⟩ := pass_spec h hw own workers hu
  obtain ⟨h2, b1, b2, b3, b4⟩ := insertAll_cell all h hw
  refine ⟨h1, his, h2, a1, b1, fun ring i hr hi => ?_⟩
  refine profile_congr h1 h2 a2 b2 (a3.symm.trans b3) ?_ ring i (a3.rings ▸ hr) (a3.n ▸ hi)
  intro ring k j hr hj
  rw [a6 ring k j (a3.rings ▸ hr) (a3.bins ▸ hj), b4 ring k j (a3.rings ▸ hr) (a3.bins ▸ hj)]
  congr 1
  exact ((hall.map _).sum_eq).symm

-- a fresh worker (the zero value) and the halo itself as a used worker
example : demo.WF ∧ HUsable demo Halo.zero ∧ HUsable demo demo := by
  refine ⟨demo_ok.1, Or.inl (Or.inl ?_), Or.inr ⟨demo_ok.1, rfl⟩⟩
  show 1 ≠ 0
  decide

theorem getElem?_set_list (l : List Halo) (i j : Nat) (a : Halo) (hi : i < l.length) : (l.set i a)[j]? = if i = j then some a else l[j]? := by
  by_cases h : i = j
  · subst h; rw [if_pos rfl, List.getElem?_set_self hi]
  · rw [if_neg h, List.getElem?_set_ne h]

theorem passes_spec (R B N : Nat) (ratio : ℝ) (w : Nat) (jobs : List Job) : ∀ (halos scratch : List Halo),
    (∀ h ∈ halos, h.WF ∧ h.rings = R ∧ h.bins = B ∧ h.n = N ∧ h.rMax / h.rMin = ratio) →
    scratch.length = w → (∀ s ∈ scratch, (R ≠ s.rings ∨ B ≠ s.bins ∨ N ≠ s.n) ∨ (s.WF ∧ s.rMax / s.rMin = ratio)) →
    (∀ j ∈ jobs, j.halo < halos.length ∧ j.shares.length = w) →
    ∃ halos', passes halos scratch jobs = some halos' ∧ halos'.length = halos.length ∧
      ∀ (i : Nat) (h : Halo), halos[i]? = some h → ∃ h', halos'[i]? = some h' ∧ h'.WF ∧ Same h h' ∧
        ∀ ring k j, ring < h.rings → j < h.bins → cell h' ring k j = cell h ring k j + ((ballsOf i jobs).map fun b => gainOf h b ring k j).sum := by
  induction jobs with
  | nil =>
    intro halos scratch hh _ _ _
    exact ⟨halos, rfl, rfl, fun i h hi => ⟨h, hi, (hh h (List.mem_of_getElem? hi)).1, Same.refl h, by simp [ballsOf]⟩⟩
  | cons job jobs ih =>
    intro halos scratch hh hl hs hj
    obtain ⟨j1, j2⟩ := hj job (by simp)
    have hget : halos[job.halo]? = some halos[job.halo] := List.getElem?_eq_getElem j1
    generalize halos[job.halo] = h0 at hget
    obtain ⟨w0, r0, b0, n0, q0⟩ := hh h0 (List.mem_of_getElem? hget)
    have hz : (scratch.zip job.shares).map Prod.snd = job.shares := List.map_snd_zip (by omega)
    obtain ⟨h1, his, a1, a2, a3, a4, a5, a6⟩ := pass_spec h0 w0 job.own (scratch.zip job.shares) (by
      intro x hx
      have hm : x.1 ∈ scratch := (List.of_mem_zip (show (x.1, x.2) ∈ scratch.zip job.shares from hx)).1
      rcases hs x.1 hm with h | ⟨h, h'⟩
      · left; rw [r0, b0, n0]; exact h
      · right; exact ⟨h, by rw [h', q0]⟩)
    rw [hz] at a6
    have hset := fun j => getElem?_set_list halos job.halo j h1 j1
    obtain ⟨halos', g1, g2, g3⟩ := ih (halos.set job.halo h1) his
      (by
        intro x hx
        obtain ⟨r, hr⟩ := List.mem_iff_getElem?.mp hx
        rw [hset r] at hr
        split_ifs at hr with hc
        · rw [Option.some.injEq] at hr
          subst hr
          exact ⟨a2, a3.rings ▸ r0, a3.bins ▸ b0, a3.n ▸ n0, by rw [← a3.rMin, ← a3.rMax]; exact q0⟩
        · exact hh x (List.mem_of_getElem? hr))
      (by rw [a4, List.length_zip, hl, j2, min_self])
      (by
        intro s hs'
        obtain ⟨sw, ss⟩ := a5 s hs'
        exact Or.inr ⟨sw, by rw [← ss.rMin, ← ss.rMax]; exact q0⟩)
      (by
        intro j hj'
        rw [List.length_set]
        exact hj j (by simp [hj']))
    refine ⟨halos', ?_, by rw [g2, List.length_set], ?_⟩
    · show (match halos[job.halo]? with
        | none => none
        | some h => (h.pass job.own (scratch.zip job.shares)).bind fun r => passes (halos.set job.halo r.1) r.2 jobs) = _
      rw [hget]
      simp only
      rw [a1, Option.bind_some]
      exact g1
    · intro i h hi
      by_cases hc : job.halo = i
      · subst hc
        rw [hget, Option.some.injEq] at hi
        subst hi
        obtain ⟨h', f1, f2, f3, f4⟩ := g3 job.halo h1 (by rw [hset, if_pos rfl])
        refine ⟨h', f1, f2, a3.trans f3, ?_⟩
        intro ring k j hr hjb
        rw [f4 ring k j (a3.rings ▸ hr) (a3.bins ▸ hjb), a6 ring k j hr hjb]
        have hb : ballsOf job.halo (job :: jobs) = (job.own ++ job.shares.flatten) ++ ballsOf job.halo jobs := by
          unfold ballsOf
          rw [List.filter_cons_of_pos (by simp), List.map_cons, List.flatten_cons]
        rw [hb, List.map_append (l₁ := job.own ++ job.shares.flatten), List.sum_append, add_assoc]
        congr 2
        congr 1
        apply List.map_congr_left
        intro x _
        exact gainOf_same a2 w0 a3.symm x ring k j
      · obtain ⟨h', f1, f2, f3, f4⟩ := g3 i h (by rw [hset, if_neg hc]; exact hi)
        refine ⟨h', f1, f2, f3, ?_⟩
        have hb : ballsOf i (job :: jobs) = ballsOf i jobs := by
          unfold ballsOf
          rw [List.filter_cons_of_neg (by simpa using hc)]
        rw [hb]
        exact f4

/-- C20: over a whole run - any sequence of files and halos, any number of workers, any distribution of the particles, workers starting as zero values and reused
throughout - every halo ends up, without a panic, with the profiles that inserting all its particles one after the other in any order gives, provided all
halos have the same numbers of rings, bins and lines of sight and the same ratio of outer and inner radius. -/
theorem C20_run (R B N : Nat) (ratio : ℝ) (halos : List Halo) (hh : ∀ h ∈ halos, h.WF ∧ h.rings = R ∧ h.bins = B ∧ h.n = N ∧ h.rMax / h.rMin = ratio)
    (workers : Nat) (jobs : List Job) (hj : ∀ j ∈ jobs, j.halo < halos.length ∧ j.shares.length = workers) :
    ∃ halos', passes halos (List.replicate workers Halo.zero) jobs = some halos' ∧ halos'.length = halos.length ∧
      ∀ (i : Nat) (h : Halo), halos[i]? = some h → ∀ all : List Ball, all.Perm (ballsOf i jobs) →
        ∃ h1 h2, halos'[i]? = some h1 ∧ h.insertAll all = some h2 ∧ ∀ ring k, ring < R → k < N → h1.profile ring k = h2.profile ring k := by
  have hzero : ∀ s ∈ List.replicate workers Halo.zero, halos ≠ [] → (R ≠ s.rings ∨ B ≠ s.bins ∨ N ≠ s.n) ∨ (s.WF ∧ s.rMax / s.rMin = ratio) := by
    intro s hs hne
    rw [(List.mem_replicate.mp hs).2]
    obtain ⟨h, hm⟩ := List.exists_mem_of_ne_nil _ hne
    obtain ⟨w, _, b, _⟩ := hh h hm
    left; right; left
    show B ≠ 0
    have := w.bins_pos
    omega
  rcases eq_or_ne halos [] with he | hne
  · subst he
    have : jobs = [] := by
      cases jobs with
      | nil => rfl
      | cons j _ => exact absurd (hj j (by simp)).1 (by simp)
    subst this
    exact ⟨[], rfl, rfl, by simp⟩
  · obtain ⟨halos', h1, h2, h3⟩ := passes_spec R B N ratio workers jobs halos (List.replicate workers Halo.zero) hh (by simp) (fun s hs => hzero s hs hne) hj
    refine ⟨halos', h1, h2, ?_⟩
    intro i h hi all hall
    obtain ⟨w, r, b, n, _⟩ := hh h (List.mem_of_getElem? hi)
    obtain ⟨h', f1, f2, f3, f4⟩ := h3 i h hi
    obtain ⟨g, g1, g2, g3, g4⟩ := insertAll_cell all h w
    refine ⟨h', g, f1, g1, fun ring k hr hk => ?_⟩
    refine profile_congr h' g f2 g2 (f3.symm.trans g3) ?_ ring k (by rw [← f3.rings, r]; exact hr) (by rw [← f3.n, n]; exact hk)
    intro ring k j hr hj
    rw [f4 ring k j (f3.rings ▸ hr) (f3.bins ▸ hj), g4 ring k j (f3.rings ▸ hr) (f3.bins ▸ hj)]
    congr 1
    exact ((hall.map _).sum_eq).symm

-- two halos of different sizes, one worker, both halos visited twice
example : let a := Halo.init [⟨0, 0, 1⟩] ⟨1, 1, 1⟩ (1 / 2) 5 3 8 0
    let b := Halo.init [⟨0, 0, 1⟩] ⟨9, 9, 9⟩ 1 10 3 8 0
    let ball : Ball := ⟨⟨2, 2, 1⟩, 1, 7⟩
    let jobs : List Job := [⟨0, [ball], [[ball]]⟩, ⟨1, [], [[ball]]⟩, ⟨0, [ball], [[]]⟩, ⟨1, [ball], [[]]⟩]
    (∀ h ∈ [a, b], h.WF ∧ h.rings = 1 ∧ h.bins = 3 ∧ h.n = 8 ∧ h.rMax / h.rMin = 10) ∧ ∀ j ∈ jobs, j.halo < [a, b].length ∧ j.shares.length = 1 := by
  refine ⟨?_, by simp⟩
  intro h hh
  have ok : ∀ (o : Vec) (r : ℝ), 0 < r → (Halo.init [⟨0, 0, 1⟩] o r (10 * r) 3 8 0).WF := fun o r hr =>
    (init_WF_halo _ (by intro v hv; rw [List.mem_singleton.mp hv]; norm_num [dot]) _ _ _ hr (by linarith) _ _ (by norm_num) (by norm_num) _).1
  rcases List.mem_cons.mp hh with rfl | hh
  · refine ⟨?_, rfl, rfl, rfl, by norm_num [Halo.init]⟩
    have := ok ⟨1, 1, 1⟩ (1 / 2) (by norm_num)
    norm_num at this ⊢
    exact this
  · rw [List.mem_singleton.mp hh]
    refine ⟨?_, rfl, rfl, rfl, by norm_num [Halo.init]⟩
    have := ok ⟨9, 9, 9⟩ 1 (by norm_num)
    norm_num at this ⊢
    exact this

end
end Shellfish.Los
