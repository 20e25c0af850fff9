/- Lemmas about the loop of the shell mode. -/
import Verif.Model.ShellRun
import Verif.Props.HaloPar
import Verif.Props.Par
import Verif.Props.Box
import Mathlib.Algebra.Order.Round
import Mathlib.Data.List.GetD

namespace Shellfish.Los
noncomputable section
open Real
open Shellfish.Geom (Vec)

/-- `b` is `a` with other profiles. -/
def OnlyProfs (a b : Halo) : Prop := ∃ ps, b = { a with profs := ps }

theorem OnlyProfs.refl (a : Halo) : OnlyProfs a a := ⟨a.profs, rfl⟩
theorem OnlyProfs.trans {a b c : Halo} (h : OnlyProfs a b) (g : OnlyProfs b c) : OnlyProfs a c := by
  obtain ⟨ps, rfl⟩ := h
  obtain ⟨qs, rfl⟩ := g
  exact ⟨qs, rfl⟩

theorem insertAll_only (bs : List Ball) : ∀ (h h' : Halo), h.insertAll bs = some h' → OnlyProfs h h' := by
  induction bs with
  | nil => intro h h' e; cases e; exact OnlyProfs.refl h
  | cons b bs ih =>
    intro h h' e
    unfold Halo.insertAll at e
    rw [List.foldlM_cons] at e
    cases e1 : h.insert b.center b.radius b.rho with
    | none => rw [e1] at e; cases e
    | some g =>
      rw [e1] at e
      refine OnlyProfs.trans ?_ (ih g h' e)
      unfold Halo.insert at e1
      obtain ⟨ps, _, rfl⟩ := Option.map_eq_some_iff.1 e1
      exact ⟨ps, rfl⟩

theorem join_only (hs : List Halo) : ∀ (h h' : Halo), h.join hs = some h' → OnlyProfs h h' := by
  induction hs with
  | nil => intro h h' e; cases e; exact OnlyProfs.refl h
  | cons hi hs ih =>
    intro h h' e
    unfold Halo.join at e
    rw [List.foldlM_cons] at e
    cases e1 : h.joinOne hi with
    | none => rw [e1] at e; cases e
    | some g =>
      rw [e1] at e
      refine OnlyProfs.trans ?_ (ih g h' e)
      unfold Halo.joinOne at e1
      split_ifs at e1
      obtain ⟨ps, _, rfl⟩ := Option.map_eq_some_iff.1 e1
      exact ⟨ps, rfl⟩

theorem pass_only (h h' : Halo) (own : List Ball) (ws : List (Halo × List Ball)) (his : List Halo) (e : h.pass own ws = some (h', his)) : OnlyProfs h h' := by
  unfold Halo.pass at e
  obtain ⟨his', _, e⟩ := Option.bind_eq_some_iff.1 e
  obtain ⟨h1, e1, e⟩ := Option.bind_eq_some_iff.1 e
  obtain ⟨h2, e2, e⟩ := Option.map_eq_some_iff.1 e
  cases e
  exact (insertAll_only _ _ _ e1).trans (join_only _ _ _ e2)

theorem derivs_ext (bins n : Nat) (hb : 0 < bins) (d d' : List ℝ) (hl : d.length = bins * n) (hl' : d'.length = bins * n)
    (h : ∀ k j, j < bins → cumul bins d k j = cumul bins d' k j) : d = d' := by
  apply List.ext_getElem (by rw [hl, hl'])
  intro i h1 h2
  have key : ∀ t k, t < bins → d.getD (t + bins * k) 0 = d'.getD (t + bins * k) 0 := by
    intro t k ht
    cases t with
    | zero =>
      have := h k 0 ht
      simpa [cumul] using this
    | succ t =>
      have e1 := h k (t + 1) ht
      have e2 := h k t (by omega)
      unfold cumul at e1 e2
      rw [Finset.sum_range_succ, Finset.sum_range_succ (fun t => d'.getD (t + bins * k) 0), e2] at e1
      exact add_left_cancel e1
  have := key (i % bins) (i / bins) (Nat.mod_lt _ hb)
  rw [Nat.mod_add_div] at this
  rwa [List.getD_eq_getElem _ _ h1, List.getD_eq_getElem _ _ h2] at this

/-- Two halos which come from the same halo and have the same stored densities are equal. -/
theorem halo_ext (a b c : Halo) (hb : b.WF) (hc : c.WF) (ob : OnlyProfs a b) (oc : OnlyProfs a c)
    (h : ∀ ring k j, ring < a.rings → j < a.bins → cell b ring k j = cell c ring k j) : b = c := by
  obtain ⟨ps, rfl⟩ := ob
  obtain ⟨qs, rfl⟩ := oc
  have e : ps = qs := by
    have l1 : ps.length = a.rings := hb.profs_len
    have l2 : qs.length = a.rings := hc.profs_len
    apply List.ext_getElem (by rw [l1, l2])
    intro i h1 h2
    obtain ⟨w1, a1, a2, a3, a4⟩ := hb.profs ps[i] (List.getElem_mem h1)
    obtain ⟨w2, b1, b2, b3, b4⟩ := hc.profs qs[i] (List.getElem_mem h2)
    dsimp only at a1 a2 a3 a4 b1 b2 b3 b4
    have hd : ps[i].derivs = qs[i].derivs := by
      apply derivs_ext a.bins a.n (by exact hb.bins_pos)
      · rw [w1.len, a3, a4]
      · rw [w2.len, b3, b4]
      · intro k j hj
        have := h i k j (by omega) hj
        unfold cell at this
        dsimp only at this
        rw [List.getElem?_eq_getElem h1, List.getElem?_eq_getElem h2] at this
        exact this
    have hdr : ps[i].dr = qs[i].dr := by rw [w1.dr, w2.dr, a1, a2, a3, b1, b2, b3]
    generalize ps[i] = p at *
    generalize qs[i] = q at *
    cases p; cases q
    simp_all
  rw [e]

end
end Shellfish.Los

namespace Shellfish.ShellRun
noncomputable section
open Real
open Shellfish.Geom (Vec)
open Shellfish.Los

/-- The workers' halos can be used for halos with these numbers and this ratio of the radii. -/
def Usable (R B N : Nat) (ratio : ℝ) (s : Halo) : Prop := (R ≠ s.rings ∨ B ≠ s.bins ∨ N ≠ s.n) ∨ (s.WF ∧ s.rMax / s.rMin = ratio)

theorem runJobs_spec (R B N : Nat) (ratio : ℝ) (w : Nat) (jobs : List Job) : ∀ (halos scratch : List Halo),
    (∀ h ∈ halos, h.WF ∧ h.rings = R ∧ h.bins = B ∧ h.n = N ∧ h.rMax / h.rMin = ratio) →
    scratch.length = w → (∀ s ∈ scratch, Usable R B N ratio s) →
    (∀ j ∈ jobs, j.halo < halos.length ∧ j.shares.length = w) →
    ∃ halos' scratch', runJobs halos scratch jobs = some (halos', scratch') ∧ halos'.length = halos.length ∧ scratch'.length = w ∧ (∀ s ∈ scratch', Usable R B N ratio s) ∧
      ∀ (i : Nat) (h : Halo), halos[i]? = some h → ∃ h', halos'[i]? = some h' ∧ h'.WF ∧ OnlyProfs h h' ∧ Same h h' ∧
        ∀ ring k j, ring < h.rings → j < h.bins → cell h' ring k j = cell h ring k j + ((ballsOf i jobs).map fun b => gainOf h b ring k j).sum := by
  induction jobs with
  | nil =>
    intro halos scratch hh hl hs _
    exact ⟨halos, scratch, rfl, rfl, hl, hs, fun i h hi => ⟨h, hi, (hh h (List.mem_of_getElem? hi)).1, OnlyProfs.refl h, Same.refl h, by simp [ballsOf]⟩⟩
  | cons job jobs ih =>
    intro halos scratch hh hl hs hj
    obtain ⟨j1, j2⟩ := hj job (by simp)
    have hget : halos[job.halo]? = some halos[job.halo] := List.getElem?_eq_getElem j1
    generalize halos[job.halo] = h0 at hget
    obtain ⟨w0, r0, b0, n0, q0⟩ := hh h0 (List.mem_of_getElem? hget)
    have hz : (scratch.zip job.shares).map Prod.snd = job.shares := List.map_snd_zip (by omega)
    obtain ⟨h1, his, a1, a2, a3, a4, a5, a6⟩ := pass_spec h0 w0 job.own (scratch.zip job.shares) (by
      intro x hx
      have hm : x.1 ∈ scratch := (List.of_mem_zip (show (x.1, x.2) ∈ scratch.zip job.shares from hx)).1
      rcases hs x.1 hm with h | ⟨h, h'⟩
      · left; rw [r0, b0, n0]; exact h
      · right; exact ⟨h, by rw [h', q0]⟩)
    have a7 := pass_only h0 h1 _ _ his a1
    rw [hz] at a6
    have hset := fun j => getElem?_set_list halos job.halo j h1 j1
    obtain ⟨halos', scratch', g1, g2, g4, g5, g3⟩ := ih (halos.set job.halo h1) his
      (by
        intro x hx
        obtain ⟨r, hr⟩ := List.mem_iff_getElem?.mp hx
        rw [hset r] at hr
        split_ifs at hr with hc
        · rw [Option.some.injEq] at hr
          subst hr
          exact ⟨a2, a3.rings ▸ r0, a3.bins ▸ b0, a3.n ▸ n0, by rw [← a3.rMin, ← a3.rMax]; exact q0⟩
        · exact hh x (List.mem_of_getElem? hr))
      (by rw [a4, List.length_zip, hl, j2, min_self])
      (by
        intro s hs'
        obtain ⟨sw, ss⟩ := a5 s hs'
        exact Or.inr ⟨sw, by rw [← ss.rMin, ← ss.rMax]; exact q0⟩)
      (by
        intro j hj'
        rw [List.length_set]
        exact hj j (by simp [hj']))
    refine ⟨halos', scratch', ?_, by rw [g2, List.length_set], g4, g5, ?_⟩
    · show (match halos[job.halo]? with
        | none => none
        | some h => (h.pass job.own (scratch.zip job.shares)).bind fun r => runJobs (halos.set job.halo r.1) r.2 jobs) = _
      rw [hget]
      simp only
      rw [a1, Option.bind_some]
      exact g1
    · intro i h hi
      by_cases hc : job.halo = i
      · subst hc
        rw [hget, Option.some.injEq] at hi
        subst hi
        obtain ⟨h', f1, f2, f5, f3, f4⟩ := g3 job.halo h1 (by rw [hset, if_pos rfl])
        refine ⟨h', f1, f2, a7.trans f5, a3.trans f3, ?_⟩
        intro ring k j hr hjb
        rw [f4 ring k j (a3.rings ▸ hr) (a3.bins ▸ hjb), a6 ring k j hr hjb]
        have hb : ballsOf job.halo (job :: jobs) = (job.own ++ job.shares.flatten) ++ ballsOf job.halo jobs := by
          unfold ballsOf
          rw [List.filter_cons_of_pos (by simp), List.map_cons, List.flatten_cons]
        rw [hb, List.map_append (l₁ := job.own ++ job.shares.flatten), List.sum_append, add_assoc]
        congr 2
        congr 1
        apply List.map_congr_left
        intro x _
        exact gainOf_same a2 w0 a3.symm x ring k j
      · obtain ⟨h', f1, f2, f5, f3, f4⟩ := g3 i h (by rw [hset, if_neg hc]; exact hi)
        refine ⟨h', f1, f2, f5, f3, ?_⟩
        have hb : ballsOf i (job :: jobs) = ballsOf i jobs := by
          unfold ballsOf
          rw [List.filter_cons_of_neg (by simpa using hc)]
        rw [hb]
        exact f4

/-- Every halo gets exactly the spheres of its jobs, in an order that does not matter. -/
theorem runJobs_insertAll (R B N : Nat) (ratio : ℝ) (w : Nat) (jobs : List Job) (halos scratch : List Halo)
    (hh : ∀ h ∈ halos, h.WF ∧ h.rings = R ∧ h.bins = B ∧ h.n = N ∧ h.rMax / h.rMin = ratio)
    (hl : scratch.length = w) (hs : ∀ s ∈ scratch, Usable R B N ratio s) (hj : ∀ j ∈ jobs, j.halo < halos.length ∧ j.shares.length = w) :
    ∃ halos' scratch', runJobs halos scratch jobs = some (halos', scratch') ∧ halos'.length = halos.length ∧ scratch'.length = w ∧ (∀ s ∈ scratch', Usable R B N ratio s) ∧
      ∀ (i : Nat) (h : Halo), halos[i]? = some h → ∀ all : List Ball, all.Perm (ballsOf i jobs) → halos'[i]? = h.insertAll all := by
  obtain ⟨halos', scratch', h1, h2, h3, h4, h5⟩ := runJobs_spec R B N ratio w jobs halos scratch hh hl hs hj
  refine ⟨halos', scratch', h1, h2, h3, h4, ?_⟩
  intro i h hi all hall
  obtain ⟨w, r, b, n, _⟩ := hh h (List.mem_of_getElem? hi)
  obtain ⟨h', f1, f2, f5, f3, f4⟩ := h5 i h hi
  obtain ⟨g, g1, g2, g3, g4⟩ := insertAll_cell all h w
  rw [f1, g1]
  congr 1
  refine halo_ext h h' g f2 g2 f5 (insertAll_only _ _ _ g1) ?_
  intro ring k j hr hj
  rw [f4 ring k j hr hj, g4 ring k j hr hj]
  congr 1
  exact ((hall.map _).sum_eq).symm

end
end Shellfish.ShellRun
