/-
Properties C18 (lock groups) and C19 (the work is split exactly once, whatever the schedule).
-/
import Mathlib.Logic.Relation
import Verif.Model.Par
import Mathlib.Algebra.BigOperators.Intervals
import Mathlib.Algebra.BigOperators.Group.Finset.Basic
import Mathlib.Algebra.Order.BigOperators.Group.Finset
import Mathlib.Data.Multiset.Basic
import Mathlib.Tactic.Ring
import Mathlib.Tactic.Linarith
import Mathlib.Tactic.Abel

namespace Shellfish.Par

open Finset

variable {M A : Type} [AddCommMonoid A]

theorem upd_same {α : Type} (f : Nat → α) (i : Nat) (x : α) : upd f i x i = x := by simp [upd]
theorem upd_ne {α : Type} (f : Nat → α) (i j : Nat) (x : α) (h : j ≠ i) : upd f i x j = f j := by simp [upd, h]

/-- split a sum over the workers at one worker -/
theorem sum_at (n w : Nat) (hw : w < n) (g : Nat → A) : ∑ j ∈ range n, g j = g w + ∑ j ∈ (range n).erase w, g j :=
  (Finset.add_sum_erase _ _ (mem_range.mpr hw)).symm

theorem sum_erase_congr (n w : Nat) (g g' : Nat → A) (h : ∀ j, j ≠ w → g j = g' j) : ∑ j ∈ (range n).erase w, g j = ∑ j ∈ (range n).erase w, g' j :=
  Finset.sum_congr rfl (fun j hj => h j (Finset.ne_of_mem_erase hj))

def sentCount (n : Nat) (sent : Nat → Bool) : Nat := ∑ j ∈ range n, (if sent j then 1 else 0)

theorem sentCount_le (n : Nat) (sent : Nat → Bool) : sentCount n sent ≤ n := by
  unfold sentCount
  calc _ ≤ ∑ j ∈ range n, 1 := Finset.sum_le_sum (fun j _ => by split <;> omega)
    _ = n := by simp

theorem sentCount_lt (n w : Nat) (hw : w < n) (sent : Nat → Bool) (h : sent w = false) : sentCount n sent < n := by
  unfold sentCount
  have : ∑ j ∈ range n, (if sent j then 1 else 0) < ∑ j ∈ range n, 1 := by
    refine Finset.sum_lt_sum (fun j _ => by split <;> omega) ⟨w, mem_range.mpr hw, by simp [h]⟩
  simpa using this

theorem sentCount_eq (n : Nat) (sent : Nat → Bool) (h : sentCount n sent = n) : ∀ w, w < n → sent w = true := by
  intro w hw
  by_contra hc
  have := sentCount_lt n w hw sent (by simpa using hc)
  omega

theorem sentCount_upd (n w : Nat) (hw : w < n) (sent : Nat → Bool) (h : sent w = false) : sentCount n (upd sent w true) = sentCount n sent + 1 := by
  unfold sentCount
  rw [sum_at n w hw, sum_at n w hw (g := fun j => if sent j then 1 else 0), upd_same, h,
    sum_erase_congr n w _ (fun j => if sent j = true then 1 else 0) (fun j hj => by rw [upd_ne _ _ _ _ hj])]
  simp; omega

structure Inv (S : Section M) (s : State M) : Prop where
  done : ∀ w, s.sent w = true → s.todo w = []
  count : s.got + s.chan.length = sentCount S.n s.sent

theorem inv_reach (S : Section M) (s : State M) (h : Reach S s) : Inv S s := by
  induction h with
  | start => exact ⟨by simp [init], by simp [init, sentCount]⟩
  | step _ hs ih =>
    cases hs with
    | work w t ts hw ht =>
      refine ⟨?_, ih.count⟩
      intro v hv
      by_cases hvw : v = w
      · subst hvw; have := ih.done v hv; rw [ht] at this; cases this
      · simp only [upd_ne _ _ _ _ hvw]; exact ih.done v hv
    | send w hw ht hs hc =>
      refine ⟨?_, ?_⟩
      · intro v hv
        by_cases hvw : v = w
        · subst hvw; exact ht
        · simp only [upd_ne _ _ _ _ hvw] at hv; exact ih.done v hv
      · rw [sentCount_upd S.n w hw _ hs, ← ih.count]; simp; omega
    | recv m ms hg hc ho =>
      refine ⟨ih.done, ?_⟩
      have := ih.count
      rw [hc] at this
      simp at this ⊢; omega

/-- the number of steps still possible -/
def remaining (S : Section M) (s : State M) : Nat :=
  (∑ w ∈ range S.n, ((s.todo w).length + if s.sent w then 0 else 1)) + (S.n - s.got)

theorem remaining_decreases (S : Section M) (s t : State M) (h : Step S s t) : remaining S t < remaining S s := by
  unfold remaining
  cases h with
  | work w t ts hw ht =>
    simp only
    rw [sum_at S.n w hw, sum_at S.n w hw (g := fun w => (s.todo w).length + if s.sent w then 0 else 1),
      sum_erase_congr S.n w _ (fun j => (s.todo j).length + if s.sent j = true then 0 else 1) (fun j hj => by simp only [upd_ne _ _ _ _ hj])]
    simp only [upd_same, ht, List.length_cons]; omega
  | send w hw ht hs hc =>
    simp only
    rw [sum_at S.n w hw, sum_at S.n w hw (g := fun w => (s.todo w).length + if s.sent w then 0 else 1),
      sum_erase_congr S.n w _ (fun j => (s.todo j).length + if s.sent j = true then 0 else 1) (fun j hj => by simp only [upd_ne _ _ _ _ hj])]
    simp only [upd_same, hs, if_true, Bool.false_eq_true, if_false]; omega
  | recv m ms hg hc ho => simp; omega

/-- C18 (safety): when the collecting call returns, every worker has finished all of its work and has signalled; nothing is left in the channel. -/
theorem C18_waits_for_all (S : Section M) (s : State M) (h : Reach S s) (hr : Returned S s) :
    (∀ w, w < S.n → s.todo w = [] ∧ s.sent w = true) ∧ s.chan = [] := by
  have inv := inv_reach S s h
  have hle := sentCount_le S.n s.sent
  have hc := inv.count
  unfold Returned at hr
  have heq : sentCount S.n s.sent = S.n := by omega
  refine ⟨fun w hw => ?_, List.eq_nil_of_length_eq_zero (by omega)⟩
  have := sentCount_eq S.n s.sent heq w hw
  exact ⟨inv.done w this, this⟩

/-- C18: signalling never blocks a worker: a worker that has finished its work and has not signalled yet finds room in the channel, in every
reachable state (the capacity is the number of workers). -/
theorem C18_unlock_never_blocks (S : Section M) (hcap : S.cap = S.n) (s : State M) (h : Reach S s) (w : Nat) (hw : w < S.n)
    (hu : s.sent w = false) : s.chan.length < S.cap := by
  have inv := inv_reach S s h
  have := sentCount_lt S.n w hw s.sent hu
  have hc := inv.count
  omega

/-- C18 (progress): no reachable state is stuck before the collecting call has returned. -/
theorem C18_no_deadlock (S : Section M) (hcap : S.cap = S.n) (hown : ∀ w, S.own = some w → w < S.n) (s : State M) (h : Reach S s)
    (hr : ¬ Returned S s) : ∃ t, Step S s t := by
  have inv := inv_reach S s h
  by_cases hall : ∀ w, w < S.n → s.sent w = true
  · have hc : sentCount S.n s.sent = S.n := by
      unfold sentCount
      rw [Finset.sum_congr rfl (fun j hj => by rw [hall j (mem_range.mp hj)])]
      simp
    have hcount := inv.count
    unfold Returned at hr
    cases hch : s.chan with
    | nil => rw [hch] at hcount; simp at hcount; omega
    | cons m ms =>
      rw [hch] at hcount
      simp at hcount
      exact ⟨_, .recv s m ms (by omega) hch (fun w hw => hall w (hown w hw))⟩
  · simp only [not_forall] at hall
    obtain ⟨w, hw, hs⟩ := hall
    have hs' : s.sent w = false := by simpa using hs
    cases ht : s.todo w with
    | cons t ts => exact ⟨_, .work s w t ts hw ht⟩
    | nil => exact ⟨_, .send s w hw ht hs' (C18_unlock_never_blocks S hcap s h w hw hs')⟩

/-- C18 (termination): there is no infinite schedule, so with `C18_no_deadlock` every schedule that keeps running ends with the collecting call
returned. -/
theorem C18_no_infinite_run (S : Section M) : ¬ ∃ run : Nat → State M, ∀ k, Step S (run k) (run (k + 1)) := by
  rintro ⟨run, h⟩
  have : ∀ k, remaining S (run k) + k ≤ remaining S (run 0) := by
    intro k
    induction k with
    | zero => omega
    | succ k ih =>
      have := remaining_decreases S _ _ (h k)
      omega
  have := this (remaining S (run 0) + 1)
  omega

/-- C18: from every reachable state some schedule leads to the return of the collecting call (so complete executions exist, for every section). -/
theorem C18_can_finish (S : Section M) (hcap : S.cap = S.n) (hown : ∀ w, S.own = some w → w < S.n) (s : State M) (h : Reach S s) :
    ∃ t, Relation.ReflTransGen (Step S) s t ∧ Reach S t ∧ Returned S t := by
  induction hn : remaining S s using Nat.strong_induction_on generalizing s with
  | _ n ih =>
    by_cases hr : Returned S s
    · exact ⟨s, .refl, h, hr⟩
    · obtain ⟨t, ht⟩ := C18_no_deadlock S hcap hown s h hr
      obtain ⟨u, h1, h2, h3⟩ := ih _ (hn ▸ remaining_decreases S s t ht) t (.step h ht) rfl
      exact ⟨u, .head ht h1, h2, h3⟩

/-- C18, for lock groups in so many words. -/
theorem C18_lock_group (n : Nat) (work : Nat → Nat) (s : State Unit) (h : Reach (lockGroup n work) s) :
    (Returned (lockGroup n work) s → ∀ w, w < n → s.todo w = [] ∧ s.sent w = true) ∧
    (∀ w, w < n → s.sent w = false → s.chan.length < n) ∧
    (¬ Returned (lockGroup n work) s → ∃ t, Step (lockGroup n work) s t) :=
  ⟨fun hr => (C18_waits_for_all _ s h hr).1, fun w hw hu => C18_unlock_never_blocks (lockGroup n work) rfl s h w hw hu,
    fun hr => C18_no_deadlock (lockGroup n work) rfl (by simp [lockGroup]) s h hr⟩

-- a lock group of two workers can run to its end: worker 1 first, then worker 0 after one unit of work
example : ∃ s, Reach (lockGroup 2 (fun w => 1 - w)) s ∧ Returned (lockGroup 2 (fun w => 1 - w)) s := by
  refine ⟨_, .step (.step (.step (.step (.step .start (.send _ 1 ?_ ?_ ?_ ?_)) (.recv _ () [] ?_ ?_ ?_)) (.work _ 0 () [] ?_ ?_)) (.send _ 0 ?_ ?_ ?_ ?_)) (.recv _ () [] ?_ ?_ ?_), ?_⟩
  all_goals simp [lockGroup, init, upd, Returned]

/-! the split of the work -/

theorem strided_mem (start skip n i : Nat) (hs : 0 < skip) : i ∈ strided start skip n ↔ start ≤ i ∧ i < n ∧ ∃ q, i = start + skip * q := by
  induction start using strided.induct (skip := skip) (n := n) with
  | case1 start h ih =>
    rw [strided, dif_pos h, List.mem_cons, ih]
    constructor
    · rintro (rfl | ⟨h1, h2, q, rfl⟩)
      · exact ⟨le_refl _, h.1, 0, by simp⟩
      · exact ⟨by omega, h2, q + 1, by ring⟩
    · rintro ⟨h1, h2, q, rfl⟩
      cases q with
      | zero => left; simp
      | succ q => right; exact ⟨by nlinarith, h2, q, by ring⟩
  | case2 start h =>
    rw [strided, dif_neg h]
    simp only [List.not_mem_nil, false_iff]
    rintro ⟨h1, h2, _⟩
    exact h ⟨by omega, hs⟩

theorem strided_nodup (start skip n : Nat) : (strided start skip n).Nodup := by
  induction start using strided.induct (skip := skip) (n := n) with
  | case1 start h ih =>
    rw [strided, dif_pos h, List.nodup_cons]
    refine ⟨?_, ih⟩
    rw [strided_mem _ _ _ _ h.2]
    rintro ⟨h1, _⟩
    omega
  | case2 start h => rw [strided, dif_neg h]; simp

theorem share_mem (workers k n w i : Nat) (hk : 0 < k) (hw : w < workers) :
    i ∈ share workers k n w ↔ i < n ∧ ∃ j, i = k * j ∧ j % workers = w := by
  unfold share
  have hpos : 0 < workers := by omega
  rw [strided_mem _ _ _ _ (Nat.mul_pos hpos hk)]
  constructor
  · rintro ⟨_, h2, q, rfl⟩
    refine ⟨h2, w + workers * q, by ring, ?_⟩
    rw [Nat.add_mul_mod_self_left, Nat.mod_eq_of_lt hw]
  · rintro ⟨h1, j, rfl, rfl⟩
    refine ⟨?_, h1, j / workers, ?_⟩
    · rw [Nat.mul_comm]; exact Nat.mul_le_mul_left _ (Nat.mod_le _ _)
    · calc k * j = k * (j % workers + workers * (j / workers)) := by rw [Nat.mod_add_div]
        _ = _ := by ring

/-- C19, the split: for every number of threads and every subsampling cube `k`, each of the indices `0, k, 2k, ...` below `n` is visited by exactly one worker, exactly
once, and no other index is visited. -/
theorem C19_each_index_once (workers k n : Nat) (hk : 0 < k) (hpos : 0 < workers) :
    (∀ i, k ∣ i → i < n → ∃! w, w < workers ∧ i ∈ share workers k n w) ∧
    (∀ w i, w < workers → i ∈ share workers k n w → k ∣ i ∧ i < n) ∧
    (∀ w, (share workers k n w).Nodup) := by
  refine ⟨?_, ?_, fun w => strided_nodup _ _ _⟩
  · rintro i ⟨j, rfl⟩ hi
    refine ⟨j % workers, ⟨Nat.mod_lt _ hpos, (share_mem workers k n _ _ hk (Nat.mod_lt _ hpos)).mpr ⟨hi, j, rfl, rfl⟩⟩, ?_⟩
    rintro w ⟨hw, hm⟩
    obtain ⟨_, j', h1, h2⟩ := (share_mem workers k n w _ hk hw).mp hm
    have : j = j' := Nat.eq_of_mul_eq_mul_left hk h1
    rw [this]; exact h2.symm
  · intro w i hw hm
    obtain ⟨h1, j, rfl, _⟩ := (share_mem workers k n w i hk hw).mp hm
    exact ⟨⟨j, rfl⟩, h1⟩

/-- C19: two different workers never touch the same index, so workers that update the element they visit never race. -/
theorem C19_no_shared_index (workers k n w v i : Nat) (hk : 0 < k) (hw : w < workers) (hv : v < workers) (h1 : i ∈ share workers k n w)
    (h2 : i ∈ share workers k n v) : w = v := by
  obtain ⟨_, j, rfl, rfl⟩ := (share_mem workers k n w i hk hw).mp h1
  obtain ⟨_, j', h3, rfl⟩ := (share_mem workers k n v _ hk hv).mp h2
  rw [Nat.eq_of_mul_eq_mul_left hk h3]

/-- what is still to come, plus what has been collected, never changes -/
def total (S : Section M) (φ : M → A) (s : State M) : A :=
  φ s.res + (s.chan.map φ).sum + ∑ w ∈ range S.n, (if s.sent w then 0 else φ (s.acc w) + ((s.todo w).map φ).sum)

theorem total_step (S : Section M) (φ : M → A) (hop : ∀ a b, φ (S.op a b) = φ a + φ b) (s t : State M) (h : Step S s t) (hi : Inv S s) :
    total S φ t = total S φ s := by
  unfold total
  cases h with
  | work w t ts hw ht =>
    simp only
    have hns : s.sent w = false := by
      by_contra hc
      have := hi.done w (by simpa using hc)
      rw [ht] at this; cases this
    rw [sum_at S.n w hw, sum_at S.n w hw (g := fun w => if s.sent w then 0 else φ (s.acc w) + ((s.todo w).map φ).sum),
      sum_erase_congr S.n w _ (fun j => if s.sent j = true then 0 else φ (s.acc j) + ((s.todo j).map φ).sum)
        (fun j hj => by simp only [upd_ne _ _ _ _ hj])]
    simp only [upd_same, hns, ht, hop, Bool.false_eq_true, if_false, List.map_cons, List.sum_cons]
    abel
  | send w hw ht hs hc =>
    simp only
    rw [sum_at S.n w hw, sum_at S.n w hw (g := fun w => if s.sent w then 0 else φ (s.acc w) + ((s.todo w).map φ).sum),
      sum_erase_congr S.n w _ (fun j => if s.sent j = true then 0 else φ (s.acc j) + ((s.todo j).map φ).sum) (fun j hj => by simp only [upd_ne _ _ _ _ hj])]
    simp only [upd_same, hs, ht, if_true, Bool.false_eq_true, if_false, List.map_append, List.sum_append, List.map_cons, List.map_nil, List.sum_cons, List.sum_nil]
    abel
  | recv m ms hg hc ho =>
    simp only [hop, hc, List.map_cons, List.sum_cons]
    abel

theorem total_reach (S : Section M) (φ : M → A) (hop : ∀ a b, φ (S.op a b) = φ a + φ b) (hunit : φ S.unit = 0) (s : State M) (h : Reach S s) :
    total S φ s = ∑ w ∈ range S.n, ((S.tasks w).map φ).sum := by
  induction h with
  | start => simp [total, init, hunit]
  | step hr hs ih => rw [total_step S φ hop _ _ hs (inv_reach S _ hr), ih]

theorem sum_shares (workers k n : Nat) (hk : 0 < k) (hpos : 0 < workers) (g : Nat → A) :
    ∑ w ∈ range workers, ((share workers k n w).map g).sum = ∑ i ∈ (range n).filter (k ∣ ·), g i := by
  have hset : ∀ w, ((share workers k n w).map g).sum = ∑ i ∈ (share workers k n w).toFinset, g i := by
    intro w
    rw [Finset.sum_list_map_count]
    refine Finset.sum_congr rfl (fun i hi => ?_)
    rw [List.count_eq_one_of_mem (show (share workers k n w).Nodup from strided_nodup _ _ _) (List.mem_toFinset.mp hi), one_nsmul]
  rw [Finset.sum_congr rfl (fun w _ => hset w), ← Finset.sum_biUnion]
  · refine Finset.sum_congr ?_ (fun _ _ => rfl)
    ext i
    simp only [mem_biUnion, mem_range, List.mem_toFinset, mem_filter]
    constructor
    · rintro ⟨w, hw, hm⟩
      obtain ⟨h1, j, rfl, _⟩ := (share_mem workers k n w i hk hw).mp hm
      exact ⟨h1, j, rfl⟩
    · rintro ⟨h1, j, rfl⟩
      exact ⟨j % workers, Nat.mod_lt _ hpos, (share_mem workers k n _ _ hk (Nat.mod_lt _ hpos)).mpr ⟨h1, j, rfl, rfl⟩⟩
  · intro w hw v hv hwv
    rw [Function.onFun, Finset.disjoint_left]
    intro i h1 h2
    exact hwv (C19_no_shared_index workers k n w v i hk (mem_range.mp hw) (mem_range.mp hv) (List.mem_toFinset.mp h1) (List.mem_toFinset.mp h2))

/-- C19: whatever the number of threads and the schedule, when the collecting loop ends the collected value is the sum of the contributions of all visited
indices: exactly as a single loop over `0, k, 2k, ...` would give, up to the order of the additions.  (`φ` maps contributions to a
commutative monoid: exact sums for masses, multisets for lists of particle ids.) -/
theorem C19_result_independent_of_schedule (workers k n : Nat) (hk : 0 < k) (hpos : 0 < workers) (f : Nat → M) (op : M → M → M) (unit : M)
    (φ : M → A) (hop : ∀ a b, φ (op a b) = φ a + φ b) (hunit : φ unit = 0) (s : State M)
    (h : Reach (foldSection workers k n f op unit) s) (hr : Returned (foldSection workers k n f op unit) s) :
    φ s.res = ∑ i ∈ (range n).filter (k ∣ ·), φ (f i) := by
  have ht := total_reach (foldSection workers k n f op unit) φ hop hunit s h
  obtain ⟨h1, h2⟩ := C18_waits_for_all _ s h hr
  have e : ∑ w ∈ range workers, (if s.sent w then 0 else φ (s.acc w) + ((s.todo w).map φ).sum) = 0 := by
    apply Finset.sum_eq_zero
    intro w hw
    rw [(h1 w (mem_range.mp hw)).2]; rfl
  unfold total at ht
  simp only [foldSection] at ht
  rw [h2, e] at ht
  simp only [List.map_nil, List.sum_nil, add_zero, List.map_map] at ht
  rw [ht, sum_shares workers k n hk hpos (φ ∘ f)]
  rfl

/-- C19 for the particle mass inside a shell (exact sums): the result is the sum over all particles. -/
theorem C19_mass (workers n : Nat) (hpos : 0 < workers) (m : Nat → A) (s : State A) (h : Reach (foldSection workers 1 n m (· + ·) 0) s)
    (hr : Returned (foldSection workers 1 n m (· + ·) 0) s) : s.res = ∑ i ∈ range n, m i := by
  have := C19_result_independent_of_schedule workers 1 n (by omega) hpos m (· + ·) 0 (fun a => a) (fun _ _ => rfl) rfl s h hr
  simpa using this

/-- C19 for the lists of particle ids of a shell: the result is a permutation of the ids selected by one pass over the particles. -/
theorem C19_ids (workers n : Nat) (hpos : 0 < workers) (sel : Nat → List Int) (s : State (List Int))
    (h : Reach (foldSection workers 1 n sel (· ++ ·) []) s) (hr : Returned (foldSection workers 1 n sel (· ++ ·) []) s) :
    s.res.Perm ((List.range n).flatMap sel) := by
  have := C19_result_independent_of_schedule workers 1 n (by omega) hpos sel (· ++ ·) [] (fun a => (a : Multiset Int)) (fun a b => by simp) rfl s h hr
  rw [← Multiset.coe_eq_coe]
  rw [this]
  have e : (range n).filter (1 ∣ ·) = range n := by simp
  rw [e]
  clear this e
  induction n with
  | zero => simp
  | succ n ih =>
    rw [Finset.sum_range_succ, List.range_succ]
    rw [show ∑ i ∈ range n, (sel i : Multiset Int) = ((List.range n).flatMap sel : List Int) from ?_]
    · simp
    · clear ih h hr
      induction n with
      | zero => simp
      | succ n ih => rw [Finset.sum_range_succ, ih, List.range_succ]; simp

-- with one worker: 0 and 2 are visited out of 4 with cube 2, and the section returns their sum
example : ∃ s, Reach (foldSection 1 2 4 (fun i => i + 10) (· + ·) 0) s ∧ Returned (foldSection 1 2 4 (fun i => i + 10) (· + ·) 0) s := by
  have hs : share 1 2 4 0 = [0, 2] := by
    simp [share, strided]
  refine ⟨_, .step (.step (.step (.step .start (.work _ 0 10 [12] ?_ ?_)) (.work _ 0 12 [] ?_ ?_)) (.send _ 0 ?_ ?_ ?_ ?_)) (.recv _ 22 [] ?_ ?_ ?_), ?_⟩
  all_goals simp [foldSection, init, upd, Returned, hs]

end Shellfish.Par
