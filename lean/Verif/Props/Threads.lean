/-
C100: the number of threads is the one of the setting `Threads`.
-/
import Verif.Model.Threads

namespace Shellfish.Threads

/-! ### Specification -/

/-- cmd/cmd.go:566-571: "Threads is the number of threads that should be run simultaneously.  If Threads is set to a non-positive value, it will automatically be set equal to the number of available cores." -/
def Documented (cores : Nat) (threads : Int) (workers : Nat) : Prop := (0 < threads → (workers : Int) = threads) ∧ (threads ≤ 0 → workers = cores)

theorem count_documented (cores : Nat) (threads : Int) : Documented cores threads (count cores threads).toNat := by
  unfold Documented count
  constructor
  · intro h; rw [if_pos h]; omega
  · intro h; rw [if_neg (by omega)]; omega

theorem count_pos (cores : Nat) (hc : 0 < cores) (threads : Int) : 0 < count cores threads := by
  unfold count
  by_cases h : threads > 0
  · rw [if_pos h]; exact h
  · rw [if_neg h]; omega

theorem documented_unique (cores : Nat) (threads : Int) (w w' : Nat) (h : Documented cores threads w) (h' : Documented cores threads w') : w = w' := by
  unfold Documented at h h'
  by_cases ht : 0 < threads
  · have := h.1 ht; have := h'.1 ht; omega
  · have := h.2 (by omega); have := h'.2 (by omega); omega

/-- C100 for the shell mode: for every setting, number of cores and earlier setting of the runtime, all its calls start the documented number of threads, at most as many run at once as the documentation says, and
the test of the number of buffers never fails. -/
theorem C100_shell (cores : Nat) (hc : 0 < cores) (threads : Int) (procs n : Nat) :
    ∃ sph w l, shellStart cores threads = some sph ∧ Documented cores threads w ∧ shellCalls cores threads sph procs n = some l ∧ l = List.replicate n w ∧ sph + 1 = w ∧
      ∀ r, shellCall cores threads sph procs = some r → r.2 = w := by
  have hp := count_pos cores hc threads
  have hcall : ∀ p, shellCall cores threads (count cores threads - 1).toNat p = some ((count cores threads).toNat, (count cores threads).toNat) := by
    intro p
    unfold shellCall gomaxprocs
    dsimp only
    rw [if_neg (by omega), if_neg (by omega)]
  refine ⟨(count cores threads - 1).toNat, (count cores threads).toNat, List.replicate n (count cores threads).toNat, ?_, count_documented _ _, ?_, rfl, by omega, ?_⟩
  · unfold shellStart
    rw [if_neg (by omega)]
  · induction n generalizing procs with
    | zero => rfl
    | succ n ih =>
      unfold shellCalls
      rw [hcall, Option.bind_some, ih, Option.map_some, List.replicate_succ]
  · intro r hr
    rw [hcall] at hr
    cases hr
    rfl

/-- C100 for the prof and potential modes. -/
theorem C100_prof (cores : Nat) (hc : 0 < cores) (threads : Int) (procs : Nat) :
    ∃ w, Documented cores threads w ∧ profStart cores threads procs = ((w : Int), w) := by
  have hp := count_pos cores hc threads
  refine ⟨(count cores threads).toNat, count_documented _ _, ?_⟩
  unfold profStart gomaxprocs
  dsimp only
  rw [if_neg (by omega), Int.toNat_of_nonneg (by omega)]

/-- C100 for the stats mode, in part: every call but the first of a run starts the documented number of threads.  The first starts as many as the runtime was set to before (see `C100_stats_false`). -/
theorem C100_stats_partial (cores : Nat) (hc : 0 < cores) (threads : Int) (procs n : Nat) :
    ∃ w, Documented cores threads w ∧ statsCalls cores threads procs (n + 1) = procs :: List.replicate n w := by
  have hp := count_pos cores hc threads
  refine ⟨(count cores threads).toNat, count_documented _ _, ?_⟩
  have hcall : ∀ p, statsCall cores threads p = (p, (count cores threads).toNat) := by
    intro p
    unfold statsCall gomaxprocs
    rw [if_neg (by omega)]
  have key : ∀ n, statsCalls cores threads (count cores threads).toNat n = List.replicate n (count cores threads).toNat := by
    intro n
    induction n with
    | zero => rfl
    | succ n ih => rw [statsCalls, hcall, ih, List.replicate_succ]
  rw [statsCalls, hcall, key]

/-- C100 is false of the stats mode: `GOMAXPROCS` returns the setting before the call, so the first call of a run starts the documented number of threads only if the runtime was already set to it.  With
`Threads = 1` on 8 cores, 8 threads work on the first file. -/
theorem C100_stats_false (cores : Nat) (threads : Int) (procs n : Nat) (w : Nat) (hw : Documented cores threads w) (hne : procs ≠ w) :
    ∃ w0, (statsCalls cores threads procs (n + 1))[0]? = some w0 ∧ ¬ Documented cores threads w0 :=
  ⟨procs, rfl, fun h => hne (documented_unique _ _ _ _ h hw)⟩

-- one thread on 8 cores, and three calls; five threads in the shell mode
example : statsCalls 8 1 8 3 = [8, 1, 1] ∧ Documented 8 1 1 ∧ ¬ Documented 8 1 8 ∧ statsCalls 8 (-1) 8 2 = [8, 8] ∧ shellCalls 8 5 4 8 3 = some [5, 5, 5] ∧ shellCall 8 5 3 8 = none := by
  refine ⟨by decide, by unfold Documented; omega, by unfold Documented; omega, by decide, by decide, by decide⟩

end Shellfish.Threads
