/-
C101: repeated runs give the same numbers, with the rounding of floating point arithmetic.

Model/Par has the parallel sections with an arbitrary operation; here nothing is assumed of the operation (floating point addition is not associative).
-/
import Verif.Props.Par
import Verif.Props.Round
import Mathlib.Algebra.BigOperators.Ring.Finset

namespace Shellfish.Par

/-! ### Specification -/

variable {M : Type}

/-- What worker `w` computes from its share, in the order of its loop. -/
def shareOf (S : Section M) (w : Nat) : M := (S.tasks w).foldl S.op S.unit

/-- The values of the workers, combined in the order `order`. -/
def inOrder (S : Section M) (order : List Nat) : M := (order.map (shareOf S)).foldl S.op S.unit

/-- float64 addition. -/
def add64 (a b : ℚ) : ℚ := Round.r64 (a + b)

/-! ### The order of arrival -/

/-- The workers that have sent, in the order of the messages. -/
structure Arrived (S : Section M) (s : State M) (arr : List Nat) : Prop where
  rest : ∀ w, (s.todo w).foldl S.op (s.acc w) = shareOf S w
  done : ∀ w, s.sent w = true → s.todo w = []
  nodup : arr.Nodup
  sent : ∀ w ∈ arr, w < S.n ∧ s.sent w = true
  all : ∀ w, w < S.n → s.sent w = true → w ∈ arr
  got : s.got ≤ arr.length
  chan : s.chan = (arr.drop s.got).map (shareOf S)
  res : s.res = inOrder S (arr.take s.got)

theorem arrived (S : Section M) (s : State M) (h : Reach S s) : ∃ arr, Arrived S s arr := by
  induction h with
  | start => exact ⟨[], fun w => rfl, by simp [init], List.nodup_nil, by simp, by simp [init], by simp [init], rfl, rfl⟩
  | @step s _ _ hs ih =>
    obtain ⟨arr, i⟩ := ih
    cases hs with
    | work w t ts hw ht =>
      refine ⟨arr, ?_, ?_, i.nodup, i.sent, i.all, i.got, i.chan, i.res⟩
      · intro v
        by_cases hv : v = w
        · subst hv
          have := i.rest v
          rw [ht, List.foldl_cons] at this
          simpa only [upd_same] using this
        · simpa only [upd_ne _ _ _ _ hv] using i.rest v
      · intro v hv
        by_cases hvw : v = w
        · subst hvw; have := i.done v hv; rw [ht] at this; cases this
        · simpa only [upd_ne _ _ _ _ hvw] using i.done v hv
    | send w hw ht hs hc =>
      have hnot : w ∉ arr := fun hm => by have := (i.sent w hm).2; rw [hs] at this; cases this
      have hacc : s.acc w = shareOf S w := by have := i.rest w; rwa [ht, List.foldl_nil] at this
      refine ⟨arr ++ [w], i.rest, ?_, ?_, ?_, ?_, ?_, ?_, ?_⟩
      · intro v hv
        by_cases hvw : v = w
        · subst hvw; exact ht
        · simp only [upd_ne _ _ _ _ hvw] at hv; exact i.done v hv
      · rw [List.nodup_append]
        exact ⟨i.nodup, by simp, fun a ha b hb => by rw [List.mem_singleton.1 hb]; rintro rfl; exact hnot ha⟩
      · intro v hv
        rcases List.mem_append.1 hv with hv | hv
        · refine ⟨(i.sent v hv).1, ?_⟩
          dsimp only
          rw [upd_ne _ _ _ _ (show v ≠ w from fun e => hnot (e ▸ hv))]
          exact (i.sent v hv).2
        · rw [List.mem_singleton.1 hv]
          exact ⟨hw, upd_same _ _ _⟩
      · intro v hv hsv
        by_cases hvw : v = w
        · subst hvw; simp
        · simp only [upd_ne _ _ _ _ hvw] at hsv
          exact List.mem_append_left _ (i.all v hv hsv)
      · have := i.got
        simp only [List.length_append, List.length_singleton]
        omega
      · dsimp only
        rw [List.drop_append_of_le_length i.got, List.map_append, i.chan, hacc]
        rfl
      · dsimp only
        rw [List.take_append_of_le_length i.got]
        exact i.res
    | recv m ms hg hc ho =>
      have hch := i.chan
      rw [hc] at hch
      have hlt : s.got < arr.length := by
        by_contra hcon
        rw [List.drop_eq_nil_of_le (by omega)] at hch
        cases hch
      rw [List.drop_eq_getElem_cons hlt, List.map_cons, List.cons.injEq] at hch
      refine ⟨arr, i.rest, i.done, i.nodup, i.sent, i.all, hlt, hch.2, ?_⟩
      dsimp only
      unfold inOrder
      rw [List.take_succ_eq_append_getElem hlt, List.map_append, List.foldl_append, ← inOrder, ← i.res, hch.1]
      rfl

/-- When the collecting loop has ended, the workers have arrived in some order. -/
theorem arrived_all (S : Section M) (s : State M) (h : Reach S s) (hr : Returned S s) : ∃ order, order.Perm (List.range S.n) ∧ s.res = inOrder S order := by
  obtain ⟨arr, i⟩ := arrived S s h
  unfold Returned at hr
  have hsub : arr ⊆ List.range S.n := fun w hw => List.mem_range.2 (i.sent w hw).1
  have hlen : (List.range S.n).length ≤ arr.length := by rw [List.length_range, ← hr]; exact i.got
  have hp : arr.Perm (List.range S.n) := (i.nodup.subperm hsub).perm_of_length_le hlen
  refine ⟨arr, hp, ?_⟩
  have := i.res
  rwa [hr, List.take_of_length_le (by rw [hp.length_eq, List.length_range])] at this

/-- C101 for the shell, prof and potential modes: their workers write to values of their own (a halo of the worker, a profile, a cell of a map), and the values are used after all workers have reported.  Whatever
the schedule, each is then what its worker computes alone, in the order of its loop: with any arithmetic, rounded or not, all runs agree to the last bit. -/
theorem C101_own_values (S : Section M) (s : State M) (h : Reach S s) (hr : Returned S s) (w : Nat) (hw : w < S.n) : s.acc w = shareOf S w := by
  obtain ⟨arr, i⟩ := arrived S s h
  have := i.rest w
  rwa [((C18_waits_for_all S s h hr).1 w hw).1, List.foldl_nil] at this

/-- C101 for the halos of the shell mode (cmd/shell.go:452-465): the halo of the last worker, to which those of the other workers are joined in the order of their numbers.  Two runs with the same number of
threads agree, for every arithmetic in which densities are inserted (`S.op`) and joined (`join`). -/
theorem C101_joined (S : Section M) (join : M → M → M) (s s' : State M) (h : Reach S s) (hr : Returned S s) (h' : Reach S s') (hr' : Returned S s') (hn : 0 < S.n) :
    (List.range (S.n - 1)).foldl (fun a w => join a (s.acc w)) (s.acc (S.n - 1)) = (List.range (S.n - 1)).foldl (fun a w => join a (s'.acc w)) (s'.acc (S.n - 1)) := by
  have e : ∀ w < S.n, s.acc w = s'.acc w := fun w hw => by rw [C101_own_values S s h hr w hw, C101_own_values S s' h' hr' w hw]
  rw [e _ (by omega)]
  have key : ∀ (l : List Nat) (a : M), (∀ w ∈ l, w < S.n) → l.foldl (fun a w => join a (s.acc w)) a = l.foldl (fun a w => join a (s'.acc w)) a := by
    intro l
    induction l with
    | nil => intro a _; rfl
    | cons w l ih =>
      intro a hl
      rw [List.foldl_cons, List.foldl_cons, e w (hl w (by simp)), ih _ fun w hw => hl w (by simp [hw])]
  exact key _ _ fun w hw => by have := List.mem_range.1 hw; omega

/-! ### All orders occur -/

/-- The state in which the workers below `k` have done their work. -/
def worked (S : Section M) (k : Nat) : State M := ⟨fun w => if w < k then [] else S.tasks w, fun w => if w < k then shareOf S w else S.unit, fun _ => false, [], 0, S.unit⟩

theorem reach_work (S : Section M) (w : Nat) (hw : w < S.n) : ∀ (ts : List M) (s : State M), Reach S s → s.todo w = ts → Reach S { s with todo := upd s.todo w [], acc := upd s.acc w (ts.foldl S.op (s.acc w)) }
  | [], s, h, ht => by
    have e1 : upd s.todo w [] = s.todo := funext fun v => by
      by_cases hv : v = w
      · subst hv; rw [upd_same, ht]
      · rw [upd_ne _ _ _ _ hv]
    have e2 : upd s.acc w (s.acc w) = s.acc := funext fun v => by
      by_cases hv : v = w
      · subst hv; rw [upd_same]
      · rw [upd_ne _ _ _ _ hv]
    rw [List.foldl_nil, e1, e2]
    exact h
  | t :: ts, s, h, ht => by
    have h1 := reach_work S w hw ts _ (Reach.step h (Step.work s w t ts hw ht)) (upd_same _ _ _)
    dsimp only at h1
    have e1 : upd (upd s.todo w ts) w [] = upd s.todo w [] := funext fun v => by
      by_cases hv : v = w
      · subst hv; rw [upd_same, upd_same]
      · rw [upd_ne _ _ _ _ hv, upd_ne _ _ _ _ hv, upd_ne _ _ _ _ hv]
    have e2 : ∀ x y, upd (upd s.acc w x) w y = upd s.acc w y := fun x y => funext fun v => by
      by_cases hv : v = w
      · subst hv; rw [upd_same, upd_same]
      · rw [upd_ne _ _ _ _ hv, upd_ne _ _ _ _ hv, upd_ne _ _ _ _ hv]
    rw [e1, e2, upd_same] at h1
    rw [List.foldl_cons]
    exact h1

theorem reach_worked (S : Section M) : ∀ k ≤ S.n, Reach S (worked S k)
  | 0, _ => by
    have e : worked S 0 = init S := by simp [worked, init]
    rw [e]
    exact Reach.start
  | k + 1, hk => by
    have h := reach_work S k (by omega) _ _ (reach_worked S k (by omega)) rfl
    have e : worked S (k + 1) = { worked S k with todo := upd (worked S k).todo k [], acc := upd (worked S k).acc k (((worked S k).todo k).foldl S.op ((worked S k).acc k)) } := by
      simp only [worked, State.mk.injEq, and_true, true_and]
      constructor
      · funext v
        by_cases hv : v = k
        · subst hv; rw [upd_same, if_pos (by omega)]
        · rw [upd_ne _ _ _ _ hv]
          by_cases h1 : v < k
          · rw [if_pos h1, if_pos (by omega)]
          · rw [if_neg h1, if_neg (by omega)]
      · funext v
        by_cases hv : v = k
        · subst hv; rw [upd_same, if_pos (by omega), if_neg (by omega), if_neg (by omega)]; rfl
        · rw [upd_ne _ _ _ _ hv]
          by_cases h1 : v < k
          · rw [if_pos h1, if_pos (by omega)]
          · rw [if_neg h1, if_neg (by omega)]
    rw [e]
    exact h

theorem reach_sent (S : Section M) (hcap : S.cap = S.n) : ∀ (rest pre : List Nat), (pre ++ rest).Nodup → (∀ w ∈ pre ++ rest, w < S.n) →
    Reach S { worked S S.n with sent := fun w => decide (w ∈ pre), chan := pre.map (shareOf S) } → Reach S { worked S S.n with sent := fun w => decide (w ∈ pre ++ rest), chan := (pre ++ rest).map (shareOf S) }
  | [], pre, _, _, h => by simpa using h
  | w :: rest, pre, hnd, hlt, h => by
    have hw : w < S.n := hlt w (by simp)
    have hnot : w ∉ pre := fun hm => by
      rw [List.nodup_append] at hnd
      exact hnd.2.2 w hm w (by simp) rfl
    have hlen : pre.length < S.n := by
      have hsub : pre ++ [w] ⊆ List.range S.n := fun v hv => List.mem_range.2 (hlt v (by
        rcases List.mem_append.1 hv with h | h
        · simp [h]
        · simp [List.mem_singleton.1 h]))
      have hnd' : (pre ++ [w]).Nodup := by
        rw [List.nodup_append] at hnd ⊢
        exact ⟨hnd.1, by simp, fun a ha b hb => by rw [List.mem_singleton.1 hb]; rintro rfl; exact hnot ha⟩
      have := (hnd'.subperm hsub).length_le
      simp only [List.length_append, List.length_singleton, List.length_range] at this
      omega
    have hs := Reach.step h (Step.send _ w hw (by simp [worked, hw]) (by simpa using hnot) (by rw [hcap]; simpa using hlen))
    have e : ({ worked S S.n with sent := upd (fun v => decide (v ∈ pre)) w true, chan := pre.map (shareOf S) ++ [(worked S S.n).acc w] } : State M) =
        { worked S S.n with sent := fun v => decide (v ∈ pre ++ [w]), chan := (pre ++ [w]).map (shareOf S) } := by
      simp only [worked, State.mk.injEq, and_true, true_and]
      constructor
      · funext v
        by_cases hv : v = w
        · subst hv; rw [upd_same]; simp
        · rw [upd_ne _ _ _ _ hv]
          simp [hv]
      · rw [if_pos hw, List.map_append]
        rfl
    have hs' : Reach S { worked S S.n with sent := fun v => decide (v ∈ pre ++ [w]), chan := (pre ++ [w]).map (shareOf S) } := by
      rw [← e]
      exact hs
    have := reach_sent S hcap rest (pre ++ [w]) (by simpa using hnd) (by simpa using hlt) hs'
    simpa using this

theorem reach_received (S : Section M) (hown : ∀ w, S.own = some w → w < S.n) : ∀ (rest : List M) (s : State M), Reach S s → s.chan = rest → s.got + rest.length = S.n →
    (∀ w < S.n, s.sent w = true) → Reach S { s with chan := [], got := S.n, res := rest.foldl S.op s.res }
  | [], s, h, hc, hg, _ => by
    have e : ({ s with chan := [], got := S.n, res := s.res } : State M) = s := by
      cases s
      simp only [List.length_nil, Nat.add_zero] at hg
      simp only at hc
      rw [hc, ← hg]
    rw [List.foldl_nil, e]
    exact h
  | m :: rest, s, h, hc, hg, hs => by
    rw [List.length_cons] at hg
    have h1 := reach_received S hown rest _ (Reach.step h (Step.recv s m rest (by omega) hc fun w hw => hs w (hown w hw))) rfl (by dsimp only; omega) hs
    rw [List.foldl_cons]
    exact h1

/-- C101: exactly which results occur when the values of the workers are collected in the order in which they arrive (the masses and the lists of ids of the stats mode): those of all orders of the workers, and no
others. -/
theorem C101_collected (S : Section M) (hcap : S.cap = S.n) (hown : ∀ w, S.own = some w → w < S.n) (x : M) :
    (∃ s, Reach S s ∧ Returned S s ∧ s.res = x) ↔ ∃ order : List Nat, order.Perm (List.range S.n) ∧ x = inOrder S order := by
  constructor
  · rintro ⟨s, h, hr, rfl⟩
    exact arrived_all S s h hr
  · rintro ⟨order, hp, rfl⟩
    have hnd : order.Nodup := hp.nodup_iff.2 List.nodup_range
    have hlt : ∀ w ∈ order, w < S.n := fun w hw => List.mem_range.1 (hp.mem_iff.1 hw)
    have h0 : Reach S { worked S S.n with sent := fun w => decide (w ∈ ([] : List Nat)), chan := ([] : List Nat).map (shareOf S) } := by
      have := reach_worked S S.n le_rfl
      simpa [worked] using this
    have h1 := reach_sent S hcap order [] (by simpa using hnd) (by simpa using hlt) h0
    rw [List.nil_append] at h1
    have h2 := reach_received S hown _ _ h1 rfl (by simp [worked, hp.length_eq]) (fun w hw => by
      simpa using hp.mem_iff.2 (List.mem_range.2 hw))
    exact ⟨_, h2, rfl, rfl⟩

/-! ### Rounded masses -/

open Round (r64 r64_float r64_bounds r64_nonneg Float64)

theorem float_r64 (x : ℚ) : Float64 (r64 x) := (Round.C95_rounding x).1

theorem float_zero : Float64 0 := ⟨0, 0, by norm_num, by norm_num⟩

theorem float_fold : ∀ (l : List ℚ) (a : ℚ), Float64 a → Float64 (l.foldl add64 a)
  | [], a, h => h
  | x :: l, a, _ => float_fold l _ (float_r64 _)

theorem add64_comm (a b : ℚ) : add64 a b = add64 b a := by unfold add64; rw [add_comm]

theorem add64_zero (a : ℚ) (h : Float64 a) : add64 0 a = a := by unfold add64; rw [zero_add, r64_float h]

/-- The section of `massContained` (cmd/stats.go:451-478) in float64 arithmetic: `m i` is what particle `i` adds. -/
def mass64 (workers n : Nat) (m : Nat → ℚ) : Section ℚ := foldSection workers 1 n m add64 0

theorem mass64_share (workers n : Nat) (m : Nat → ℚ) (w : Nat) : shareOf (mass64 workers n m) w = ((share workers 1 n w).map m).foldl add64 0 := rfl

theorem mass64_order (workers n : Nat) (m : Nat → ℚ) (order : List Nat) : inOrder (mass64 workers n m) order = (order.map (shareOf (mass64 workers n m))).foldl add64 0 := rfl

/-- C101 for the masses of the stats mode, in part: with one or two threads, all runs agree to the last bit. -/
theorem C101_two_partial (workers n : Nat) (hw : 0 < workers) (h2 : workers ≤ 2) (m : Nat → ℚ) (s s' : State ℚ) (h : Reach (mass64 workers n m) s) (hr : Returned (mass64 workers n m) s)
    (h' : Reach (mass64 workers n m) s') (hr' : Returned (mass64 workers n m) s') : s.res = s'.res := by
  obtain ⟨o, ho, e⟩ := arrived_all _ s h hr
  obtain ⟨o', ho', e'⟩ := arrived_all _ s' h' hr'
  rw [e, e', mass64_order, mass64_order]
  have hn : (mass64 workers n m).n = workers := rfl
  rw [hn] at ho ho'
  obtain rfl | rfl : workers = 1 ∨ workers = 2 := by omega
  · have e1 : o = [0] := List.perm_singleton.1 ho
    have e2 : o' = [0] := List.perm_singleton.1 ho'
    rw [e1, e2]
  · have key : ∀ l : List Nat, l.Perm (List.range 2) → l = [0, 1] ∨ l = [1, 0] := by
      intro l hl
      match l, hl.length_eq with
      | [a, b], _ =>
        have ha : a ∈ List.range 2 := hl.mem_iff.1 (by simp)
        have hb : b ∈ List.range 2 := hl.mem_iff.1 (by simp)
        have hnd := hl.nodup_iff.2 List.nodup_range
        rw [List.mem_range] at ha hb
        have hne : a ≠ b := by simpa using hnd
        obtain ⟨rfl, rfl⟩ | ⟨rfl, rfl⟩ : (a = 0 ∧ b = 1) ∨ (a = 1 ∧ b = 0) := by omega
        · exact Or.inl rfl
        · exact Or.inr rfl
    have hf : ∀ w, Float64 (shareOf (mass64 2 n m) w) := fun w => float_fold _ _ float_zero
    have sw : ([0, 1].map (shareOf (mass64 2 n m))).foldl add64 0 = ([1, 0].map (shareOf (mass64 2 n m))).foldl add64 0 := by
      simp only [List.map_cons, List.map_nil, List.foldl_cons, List.foldl_nil]
      rw [add64_zero _ (hf 0), add64_zero _ (hf 1), add64_comm]
    rcases key o ho with rfl | rfl <;> rcases key o' ho' with rfl | rfl
    · rfl
    · exact sw
    · exact sw.symm
    · rfl

/-- Sums of whole multiples of a power of two are exact up to 2^53 of them. -/
theorem fold_exact (e : ℤ) : ∀ (l : List Nat) (a : Nat), a + l.sum ≤ 2 ^ 53 → (l.map fun k : Nat => (k : ℚ) * 2 ^ e).foldl add64 ((a : ℚ) * 2 ^ e) = ((a + l.sum : Nat) : ℚ) * 2 ^ e
  | [], a, _ => by simp
  | k :: l, a, h => by
    rw [List.sum_cons] at h
    have hrep : Float64 (((a + k : Nat) : ℚ) * 2 ^ e) := by
      by_cases hlt : a + k < 2 ^ 53
      · exact ⟨((a + k : Nat) : ℤ), e, by rw [abs_of_nonneg (by positivity)]; exact_mod_cast hlt, by push_cast; ring⟩
      · have he : a + k = 2 ^ 53 := by omega
        refine ⟨1, 53 + e, by norm_num, ?_⟩
        rw [he, zpow_add₀ (by norm_num)]
        norm_num
    have e1 : add64 ((a : ℚ) * 2 ^ e) ((k : ℚ) * 2 ^ e) = ((a + k : Nat) : ℚ) * 2 ^ e := by
      unfold add64
      rw [← add_mul, ← Nat.cast_add, r64_float hrep]
    rw [List.map_cons, List.foldl_cons, e1, fold_exact e l (a + k) (by omega), List.sum_cons]
    congr 2
    omega

theorem sum_orders (workers : Nat) (g : Nat → Nat) (order : List Nat) (hp : order.Perm (List.range workers)) : (order.map g).sum = ∑ w ∈ Finset.range workers, g w := by
  rw [(hp.map g).sum_eq]
  rfl

/-- C101 for the masses of the stats mode, in part: if all masses are whole multiples of one power of two `2^e`, and their sum is at most `2^53` times that power (particles of equal mass, or of masses that do not
differ too much: a float32 mass has 24 bits), then every run with every number of threads gives the exact sum. -/
theorem C101_exact_partial (e : ℤ) (a : Nat → Nat) (workers n : Nat) (hw : 0 < workers) (hsum : ∑ i ∈ Finset.range n, a i ≤ 2 ^ 53) (s : State ℚ) (h : Reach (mass64 workers n fun i => (a i : ℚ) * 2 ^ e) s)
    (hr : Returned (mass64 workers n fun i => (a i : ℚ) * 2 ^ e) s) : s.res = ∑ i ∈ Finset.range n, (a i : ℚ) * 2 ^ e := by
  obtain ⟨o, ho, eq⟩ := arrived_all _ s h hr
  have hn : (mass64 workers n fun i => (a i : ℚ) * 2 ^ e).n = workers := rfl
  rw [hn] at ho
  have htot : ∑ w ∈ Finset.range workers, ((share workers 1 n w).map a).sum = ∑ i ∈ Finset.range n, a i := by
    rw [sum_shares workers 1 n (by omega) hw a]
    simp
  have hle : ∀ w ∈ o, ((share workers 1 n w).map a).sum ≤ 2 ^ 53 := by
    intro w hm
    refine le_trans ?_ hsum
    rw [← htot]
    exact Finset.single_le_sum (f := fun w => ((share workers 1 n w).map a).sum) (fun _ _ => Nat.zero_le _) (Finset.mem_range.2 (List.mem_range.1 (ho.mem_iff.1 hm)))
  have hshare : ∀ w ∈ o, shareOf (mass64 workers n fun i => (a i : ℚ) * 2 ^ e) w = ((((share workers 1 n w).map a).sum : Nat) : ℚ) * 2 ^ e := by
    intro w hm
    rw [mass64_share]
    have h1 := fold_exact e ((share workers 1 n w).map a) 0 (by rw [Nat.zero_add]; exact hle w hm)
    rw [List.map_map, Nat.cast_zero, zero_mul, Nat.zero_add] at h1
    exact h1
  rw [eq, mass64_order, List.map_congr_left hshare]
  have h2 := fold_exact e (o.map fun w => ((share workers 1 n w).map a).sum) 0 (by rw [Nat.zero_add, sum_orders workers _ o ho, htot]; exact hsum)
  rw [List.map_map, Nat.cast_zero, zero_mul, Nat.zero_add, sum_orders workers _ o ho, htot] at h2
  rw [show (fun w => ((((share workers 1 n w).map a).sum : Nat) : ℚ) * 2 ^ e) = (fun k : Nat => (k : ℚ) * 2 ^ e) ∘ fun w => ((share workers 1 n w).map a).sum from rfl, h2]
  push_cast
  rw [Finset.sum_mul]

/-- The rounding of a sum of numbers that are not negative. -/
theorem fold_close : ∀ (l : List ℚ) (a : ℚ), 0 ≤ a → (∀ x ∈ l, 0 ≤ x) →
    (a + l.sum) * (1 - 1 / 2 ^ 53) ^ l.length ≤ l.foldl add64 a ∧ l.foldl add64 a ≤ (a + l.sum) * (1 + 1 / 2 ^ 53) ^ l.length
  | [], a, _, _ => by simp
  | x :: l, a, ha, hl => by
    have hx : 0 ≤ x := hl x (by simp)
    have hs : 0 ≤ l.sum := List.sum_nonneg fun y hy => hl y (by simp [hy])
    obtain ⟨h1, h2⟩ := fold_close l (add64 a x) (r64_nonneg (by linarith)) fun y hy => hl y (by simp [hy])
    obtain ⟨b1, b2⟩ := r64_bounds (show 0 ≤ a + x by linarith)
    rw [List.foldl_cons, List.length_cons, List.sum_cons]
    have d1 : (0 : ℚ) ≤ 1 - 1 / 2 ^ 53 := by norm_num
    have d2 : (1 : ℚ) - 1 / 2 ^ 53 ≤ 1 := by norm_num
    have u2 : (1 : ℚ) ≤ 1 + 1 / 2 ^ 53 := by norm_num
    constructor
    · refine le_trans ?_ h1
      rw [pow_succ (1 - 1 / 2 ^ 53 : ℚ), mul_comm ((1 - 1 / 2 ^ 53 : ℚ) ^ l.length), ← mul_assoc]
      refine mul_le_mul_of_nonneg_right ?_ (pow_nonneg d1 _)
      have : l.sum * (1 - 1 / 2 ^ 53) ≤ l.sum := mul_le_of_le_one_right hs d2
      unfold add64
      linarith
    · refine le_trans h2 ?_
      rw [pow_succ (1 + 1 / 2 ^ 53 : ℚ), mul_comm ((1 + 1 / 2 ^ 53 : ℚ) ^ l.length), ← mul_assoc]
      refine mul_le_mul_of_nonneg_right ?_ (pow_nonneg (by linarith) _)
      have : l.sum ≤ l.sum * (1 + 1 / 2 ^ 53) := le_mul_of_one_le_right hs u2
      unfold add64
      linarith

theorem strided_length (start skip n : Nat) : (strided start skip n).length ≤ n - start := by
  unfold strided
  split
  · rename_i hs
    have := strided_length (start + skip) skip n
    rw [List.length_cons]
    omega
  · simp
termination_by n - start

theorem strided_map_sum (m : Nat → ℚ) (workers n w : Nat) : ((share workers 1 n w).map m).length ≤ n := by
  rw [List.length_map]
  have := strided_length (w * 1) (workers * 1) n
  unfold share
  omega

/-- C101 for the masses of the stats mode: in every run, with any number of threads and any schedule, the mass is the exact sum up to the rounding of `n + workers` additions (masses are not negative).  Two runs
differ by no more than that. -/
theorem C101_close (workers n : Nat) (hw : 0 < workers) (m : Nat → ℚ) (hm : ∀ i, 0 ≤ m i) (s : State ℚ) (h : Reach (mass64 workers n m) s) (hr : Returned (mass64 workers n m) s) :
    (∑ i ∈ Finset.range n, m i) * (1 - 1 / 2 ^ 53) ^ (n + workers) ≤ s.res ∧ s.res ≤ (∑ i ∈ Finset.range n, m i) * (1 + 1 / 2 ^ 53) ^ (n + workers) := by
  obtain ⟨o, ho, eq⟩ := arrived_all _ s h hr
  have hn : (mass64 workers n m).n = workers := rfl
  rw [hn] at ho
  have htot : (o.map fun w => ((share workers 1 n w).map m).sum).sum = ∑ i ∈ Finset.range n, m i := by
    have h1 : (o.map fun w => ((share workers 1 n w).map m).sum).sum = ∑ w ∈ Finset.range workers, ((share workers 1 n w).map m).sum := by
      rw [(ho.map _).sum_eq]
      rfl
    rw [h1, sum_shares workers 1 n (by omega) hw m]
    simp
  have d0 : (0 : ℚ) ≤ 1 - 1 / 2 ^ 53 := by norm_num
  have d1 : (1 : ℚ) - 1 / 2 ^ 53 ≤ 1 := by norm_num
  have u1 : (1 : ℚ) ≤ 1 + 1 / 2 ^ 53 := by norm_num
  have hT : ∀ w, 0 ≤ ((share workers 1 n w).map m).sum := fun w => List.sum_nonneg fun y hy => by
    obtain ⟨i, _, rfl⟩ := List.mem_map.1 hy
    exact hm i
  have hsh : ∀ w, ((share workers 1 n w).map m).sum * (1 - 1 / 2 ^ 53) ^ n ≤ shareOf (mass64 workers n m) w ∧ shareOf (mass64 workers n m) w ≤ ((share workers 1 n w).map m).sum * (1 + 1 / 2 ^ 53) ^ n := by
    intro w
    obtain ⟨a1, a2⟩ := fold_close ((share workers 1 n w).map m) 0 le_rfl fun y hy => by
      obtain ⟨i, _, rfl⟩ := List.mem_map.1 hy
      exact hm i
    rw [zero_add] at a1 a2
    rw [mass64_share]
    exact ⟨le_trans (mul_le_mul_of_nonneg_left (pow_le_pow_of_le_one d0 d1 (strided_map_sum m workers n w)) (hT w)) a1,
      le_trans a2 (mul_le_mul_of_nonneg_left (pow_le_pow_right₀ u1 (strided_map_sum m workers n w)) (hT w))⟩
  have hpos : ∀ w, 0 ≤ shareOf (mass64 workers n m) w := fun w => le_trans (mul_nonneg (hT w) (pow_nonneg d0 _)) (hsh w).1
  obtain ⟨c1, c2⟩ := fold_close (o.map (shareOf (mass64 workers n m))) 0 le_rfl fun y hy => by
    obtain ⟨i, _, rfl⟩ := List.mem_map.1 hy
    exact hpos i
  rw [zero_add, List.length_map, ho.length_eq, List.length_range] at c1 c2
  have s1 : (∑ i ∈ Finset.range n, m i) * (1 - 1 / 2 ^ 53) ^ n ≤ (o.map (shareOf (mass64 workers n m))).sum := by
    rw [← htot, ← List.sum_map_mul_right]
    exact List.sum_le_sum fun w _ => (hsh w).1
  have s2 : (o.map (shareOf (mass64 workers n m))).sum ≤ (∑ i ∈ Finset.range n, m i) * (1 + 1 / 2 ^ 53) ^ n := by
    rw [← htot, ← List.sum_map_mul_right]
    exact List.sum_le_sum fun w _ => (hsh w).2
  rw [eq, mass64_order, pow_add, pow_add, ← mul_assoc, ← mul_assoc]
  exact ⟨le_trans (mul_le_mul_of_nonneg_right s1 (pow_nonneg d0 _)) c1, le_trans c2 (mul_le_mul_of_nonneg_right s2 (pow_nonneg (by linarith) _))⟩

/-! ### What is false -/

/-- Two small masses, and a large one. -/
def exMass (i : Nat) : ℚ := if i = 1 then 1 else 3 / 2 ^ 55

theorem big_small : r64 (1 + 3 / 2 ^ 55) = 1 := by
  unfold r64
  rw [Round.rn_eq 0 (2 ^ 52) (by rw [abs_of_pos] <;> norm_num) (by rw [abs_of_pos] <;> norm_num) (by rw [abs_lt]; norm_num)]
  norm_num

theorem small_small : r64 (3 / 2 ^ 55 + 3 / 2 ^ 55) = 3 / 2 ^ 54 := by
  rw [r64_float ⟨3, -54, by norm_num, by norm_num⟩]
  norm_num

theorem big_two : r64 (1 + 3 / 2 ^ 54) = 1 + 1 / 2 ^ 52 := by
  unfold r64
  rw [Round.rn_eq 0 (2 ^ 52 + 1) (by rw [abs_of_pos] <;> norm_num) (by rw [abs_of_pos] <;> norm_num) (by rw [abs_lt]; norm_num)]
  norm_num

theorem float_small : Float64 (3 / 2 ^ 55) := ⟨3, -55, by norm_num, by norm_num⟩

theorem float_one : Float64 1 := ⟨1, 0, by norm_num, by norm_num⟩

theorem three_shares (w : Nat) (hw : w < 3) : share 3 1 3 w = [w] := by
  interval_cases w <;> simp [share, strided]

/-- C101 is false of the masses of the stats mode: with three threads, two runs on the same three particles have different masses.  The large particle may arrive before or after the sum of the two small ones. -/
theorem C101_masses_false : ∃ s s', Reach (mass64 3 3 exMass) s ∧ Returned (mass64 3 3 exMass) s ∧ Reach (mass64 3 3 exMass) s' ∧ Returned (mass64 3 3 exMass) s' ∧ s.res = 1 ∧ s'.res = 1 + 1 / 2 ^ 52 := by
  have hshare : ∀ w < 3, shareOf (mass64 3 3 exMass) w = exMass w := by
    intro w hw
    rw [mass64_share, three_shares w hw]
    simp only [List.map_cons, List.map_nil, List.foldl_cons, List.foldl_nil]
    refine add64_zero _ ?_
    unfold exMass
    by_cases h : w = 1
    · rw [if_pos h]; exact float_one
    · rw [if_neg h]; exact float_small
  obtain ⟨s, h1, h2, h3⟩ := (C101_collected (mass64 3 3 exMass) rfl (by rintro w ⟨⟩; decide) 1).2 ⟨[0, 1, 2], by decide, by
    unfold inOrder
    simp only [List.map_cons, List.map_nil, List.foldl_cons, List.foldl_nil]
    rw [hshare 0 (by omega), hshare 1 (by omega), hshare 2 (by omega)]
    show 1 = add64 (add64 (add64 0 (3 / 2 ^ 55)) 1) (3 / 2 ^ 55)
    rw [add64_zero _ float_small, add64_comm (3 / 2 ^ 55) 1]
    unfold add64
    rw [big_small, big_small]⟩
  obtain ⟨s', h1', h2', h3'⟩ := (C101_collected (mass64 3 3 exMass) rfl (by rintro w ⟨⟩; decide) (1 + 1 / 2 ^ 52)).2 ⟨[0, 2, 1], by decide, by
    unfold inOrder
    simp only [List.map_cons, List.map_nil, List.foldl_cons, List.foldl_nil]
    rw [hshare 0 (by omega), hshare 1 (by omega), hshare 2 (by omega)]
    show 1 + 1 / 2 ^ 52 = add64 (add64 (add64 0 (3 / 2 ^ 55)) (3 / 2 ^ 55)) 1
    rw [add64_zero _ float_small]
    unfold add64
    rw [small_small, add_comm (3 / 2 ^ 54 : ℚ) 1, big_two]⟩
  exact ⟨s, s', h1, h2, h1', h2', h3, h3'⟩

/-- C101 is false of the shell particles: with two threads, two runs may write the ids of one halo in different orders. -/
theorem C101_ids_false (a b : Int) : ∃ s s', Reach (foldSection 2 1 2 (fun i => [if i = 0 then a else b]) (· ++ ·) []) s ∧ Returned (foldSection 2 1 2 (fun i => [if i = 0 then a else b]) (· ++ ·) []) s ∧
    Reach (foldSection 2 1 2 (fun i => [if i = 0 then a else b]) (· ++ ·) []) s' ∧ Returned (foldSection 2 1 2 (fun i => [if i = 0 then a else b]) (· ++ ·) []) s' ∧ s.res = [a, b] ∧ s'.res = [b, a] := by
  have hs : ∀ w < 2, share 2 1 2 w = [w] := by
    intro w hw
    interval_cases w <;> simp [share, strided]
  obtain ⟨s, h1, h2, h3⟩ := (C101_collected (foldSection 2 1 2 (fun i => [if i = 0 then a else b]) (· ++ ·) []) rfl (by rintro w ⟨⟩; show 2 - 1 < 2; decide) [a, b]).2 ⟨[0, 1], (by decide : [0, 1].Perm (List.range 2)), by
    simp [inOrder, shareOf, foldSection, hs 0, hs 1]⟩
  obtain ⟨s', h1', h2', h3'⟩ := (C101_collected (foldSection 2 1 2 (fun i => [if i = 0 then a else b]) (· ++ ·) []) rfl (by rintro w ⟨⟩; show 2 - 1 < 2; decide) [b, a]).2 ⟨[1, 0], (by decide : [1, 0].Perm (List.range 2)), by
    simp [inOrder, shareOf, foldSection, hs 0, hs 1]⟩
  exact ⟨s, s', h1, h2, h1', h2', h3, h3'⟩

/-- C101 is false of different numbers of threads, also in the shell mode: the same three densities, added to one cell of a profile by one thread, and by two threads whose cells are then added (cmd/shell.go:452-465),
give different numbers. -/
theorem C101_threads_false : shareOf (mass64 1 3 exMass) 0 = 1 ∧ add64 (shareOf (mass64 2 3 exMass) 1) (shareOf (mass64 2 3 exMass) 0) = 1 + 1 / 2 ^ 52 := by
  have e1 : share 1 1 3 0 = [0, 1, 2] := by simp [share, strided]
  have e2 : share 2 1 3 0 = [0, 2] := by simp [share, strided]
  have e3 : share 2 1 3 1 = [1] := by simp [share, strided]
  rw [mass64_share, mass64_share, mass64_share, e1, e2, e3]
  simp only [List.map_cons, List.map_nil, List.foldl_cons, List.foldl_nil]
  have x0 : exMass 0 = 3 / 2 ^ 55 := rfl
  have x1 : exMass 1 = 1 := rfl
  have x2 : exMass 2 = 3 / 2 ^ 55 := rfl
  rw [x0, x1, x2, add64_zero _ float_small, add64_zero _ float_one]
  constructor
  · rw [add64_comm (3 / 2 ^ 55) 1]
    unfold add64
    rw [big_small, big_small]
  · unfold add64
    rw [small_small, big_two]

-- five particles of equal mass 3 * 2^20: the hypotheses of `C101_exact_partial` hold, and the exact sum is reached
example : (∑ _i ∈ Finset.range 5, 3 ≤ 2 ^ 53) ∧ ∃ s, Reach (mass64 3 5 fun _ => ((3 : Nat) : ℚ) * 2 ^ (20 : ℤ)) s ∧ Returned (mass64 3 5 fun _ => ((3 : Nat) : ℚ) * 2 ^ (20 : ℤ)) s ∧ s.res = 15 * 2 ^ 20 := by
  refine ⟨by decide, ?_⟩
  obtain ⟨s, h1, h2, h3⟩ := (C101_collected (mass64 3 5 fun _ => ((3 : Nat) : ℚ) * 2 ^ (20 : ℤ)) rfl (by rintro w ⟨⟩; decide) _).2 ⟨[2, 0, 1], by decide, rfl⟩
  refine ⟨s, h1, h2, ?_⟩
  rw [C101_exact_partial 20 (fun _ => 3) 3 5 (by omega) (by decide) s h1 h2]
  norm_num

end Shellfish.Par
