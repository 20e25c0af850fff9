/-
Unsynchronised updates of shared arrays: if every cell has one owner no update is lost, whatever the schedule (used by C79).
-/
import Verif.Model.Mem
import Mathlib.Algebra.BigOperators.Group.List.Basic
import Mathlib.Algebra.BigOperators.Group.Finset.Basic
import Mathlib.Algebra.BigOperators.Group.Finset.Piecewise
import Mathlib.Tactic.Abel

namespace Shellfish.Mem
variable {κ A : Type} [DecidableEq κ] [AddCommGroup A]

/-- The total of the updates of a cell. -/
def total (us : List (Upd κ A)) (c : κ) : A := ((us.filter fun u => decide (u.cell = c)).map Upd.amount).sum

theorem total_cons (u : Upd κ A) (us : List (Upd κ A)) (c : κ) : total (u :: us) c = (if u.cell = c then u.amount else 0) + total us c := by
  unfold total
  by_cases h : u.cell = c <;> simp [h]

/-- What holds in all reachable states when each cell has an owner. -/
structure Inv (n : Nat) (prog : Nat → List (Upd κ A)) (mem : κ → A) (own : κ → Nat) (s : State κ A) : Prop where
  sub : ∀ w, w < n → ∀ u ∈ s.todo w, u ∈ prog w
  reg : ∀ w, w < n → ∀ a, s.reg w = some a → ∃ u us, s.todo w = u :: us ∧ a = s.mem u.cell
  sum : ∀ c, own c < n → s.mem c + total (s.todo (own c)) c = mem c + total (prog (own c)) c
  rest : ∀ c, ¬ own c < n → s.mem c = mem c

theorem inv_reach (n : Nat) (prog : Nat → List (Upd κ A)) (mem : κ → A) (own : κ → Nat) (ho : ∀ w, w < n → ∀ u ∈ prog w, own u.cell = w) (s : State κ A) (h : Reach n prog mem s) :
    Inv n prog mem own s := by
  induction h with
  | start => exact ⟨fun _ _ _ h => h, fun _ _ _ h => (nomatch h), fun _ _ => rfl, fun _ _ => rfl⟩
  | @step s t _ hs ih =>
    cases hs with
    | load w u us hw ht hr =>
      refine ⟨ih.sub, ?_, ih.sum, ih.rest⟩
      intro v hv a ha
      dsimp only at ha ⊢
      by_cases hvw : v = w
      · subst hvw
        rw [if_pos rfl] at ha
        exact ⟨u, us, ht, (Option.some.inj ha).symm⟩
      · rw [if_neg hvw] at ha
        exact ih.reg v hv a ha
    | store w u us a hw ht hr =>
      obtain ⟨u', us', e, ha⟩ := ih.reg w hw a hr
      rw [ht] at e
      obtain ⟨rfl, rfl⟩ := List.cons.inj e
      have how : own u.cell = w := ho w hw u (ih.sub w hw u (ht ▸ List.mem_cons_self))
      refine ⟨?_, ?_, ?_, ?_⟩
      · intro v hv x hx
        dsimp only at hx
        by_cases hvw : v = w
        · subst hvw
          rw [if_pos rfl] at hx
          exact ih.sub v hv x (ht ▸ List.mem_cons_of_mem _ hx)
        · rw [if_neg hvw] at hx
          exact ih.sub v hv x hx
      · intro v hv b hb
        dsimp only at hb ⊢
        by_cases hvw : v = w
        · rw [if_pos hvw] at hb; cases hb
        · rw [if_neg hvw] at hb ⊢
          obtain ⟨x, xs, e1, e2⟩ := ih.reg v hv b hb
          refine ⟨x, xs, e1, ?_⟩
          have : own x.cell = v := ho v hv x (ih.sub v hv x (e1 ▸ List.mem_cons_self))
          rw [if_neg fun hc => hvw (by rw [← this, hc, how]), e2]
      · intro c hc
        have := ih.sum c hc
        dsimp only
        by_cases hcu : c = u.cell
        · subst hcu
          rw [how] at this ⊢
          rw [if_pos rfl, if_pos rfl, ha, ← this, ht, total_cons, if_pos rfl, add_assoc]
        · rw [if_neg hcu]
          by_cases hcw : own c = w
          · rw [if_pos hcw, ← this, hcw, ht, total_cons, if_neg (Ne.symm hcu), zero_add]
          · rw [if_neg hcw, this]
      · intro c hc
        dsimp only
        rw [if_neg fun hcu => hc (by rw [hcu, how]; exact hw)]
        exact ih.rest c hc

/-- If each cell has one owner, every schedule ends with all updates done. -/
theorem outcome_owned (n : Nat) (prog : Nat → List (Upd κ A)) (own : κ → Nat) (ho : ∀ w, w < n → ∀ u ∈ prog w, own u.cell = w) (mem mem' : κ → A) (h : Outcome n prog mem mem') (c : κ) :
    mem' c = if own c < n then mem c + total (prog (own c)) c else mem c := by
  obtain ⟨s, h1, h2, rfl⟩ := h
  have inv := inv_reach n prog mem own ho s h1
  by_cases hc : own c < n
  · rw [if_pos hc, ← inv.sum c hc, h2 _ hc]
    exact (add_zero _).symm
  · rw [if_neg hc]; exact inv.rest c hc

/-- Every section can be run to its end. -/
theorem outcome_exists (n : Nat) (prog : Nat → List (Upd κ A)) (mem : κ → A) : ∃ mem', Outcome n prog mem mem' := by
  have key : ∀ k (s : State κ A), ∑ w ∈ Finset.range n, (s.todo w).length = k → Reach n prog mem s → ∃ t, Reach n prog mem t ∧ Done n t := by
    intro k
    induction k with
    | zero =>
      intro s hs hr
      refine ⟨s, hr, fun w hw => ?_⟩
      have := Finset.sum_eq_zero_iff.1 hs w (Finset.mem_range.2 hw)
      exact List.eq_nil_of_length_eq_zero this
    | succ k ih =>
      intro s hs hr
      have : ∃ w, w < n ∧ s.todo w ≠ [] := by
        by_contra hc
        push Not at hc
        rw [Finset.sum_eq_zero fun w hw => by rw [hc w (Finset.mem_range.1 hw)]; rfl] at hs
        cases hs
      obtain ⟨w, hw, hne⟩ := this
      obtain ⟨u, us, ht⟩ := List.exists_cons_of_ne_nil hne
      have store : ∀ (t : State κ A) a, t.todo = s.todo → t.reg w = some a → Reach n prog mem t → ∃ t, Reach n prog mem t ∧ Done n t := by
        intro t a e hreg hr'
        refine ih _ ?_ (.step hr' (.store t w u us a hw (e ▸ ht) hreg))
        dsimp only
        rw [e]
        have h1 : ∑ v ∈ Finset.range n, (s.todo v).length = ∑ v ∈ Finset.range n, ((if v = w then us else s.todo v).length + if v = w then 1 else 0) := by
          apply Finset.sum_congr rfl
          intro v _
          by_cases hv : v = w
          · subst hv; rw [if_pos rfl, if_pos rfl, ht]; rfl
          · rw [if_neg hv, if_neg hv]; rfl
        rw [h1, Finset.sum_add_distrib, Finset.sum_ite_eq' (Finset.range n) w fun _ => 1, if_pos (Finset.mem_range.2 hw)] at hs
        omega
      cases hreg : s.reg w with
      | none =>
        exact store ⟨s.mem, s.todo, fun v => if v = w then some (s.mem u.cell) else s.reg v⟩ (s.mem u.cell) rfl (if_pos rfl) (.step hr (.load s w u us hw ht hreg))
      | some a => exact store s a rfl hreg hr
  obtain ⟨t, h1, h2⟩ := key _ _ rfl (.start : Reach n prog mem _)
  exact ⟨_, t, h1, h2, rfl⟩

-- without ownership an update can be lost: two workers add 1 to the same cell
example : Outcome 2 (fun _ => [(⟨0, 1⟩ : Upd Nat ℤ)]) (fun _ => 0) (fun c => if c = 0 then 1 else 0) := by
  refine ⟨_, .step (.step (.step (.step .start (.load _ 0 ⟨0, 1⟩ [] (by norm_num) rfl rfl)) (.load _ 1 ⟨0, 1⟩ [] (by norm_num) rfl rfl))
    (.store _ 0 ⟨0, 1⟩ [] 0 (by norm_num) rfl rfl)) (.store _ 1 ⟨0, 1⟩ [] 0 (by norm_num) rfl rfl), ?_, ?_⟩
  · intro w hw
    have : w = 0 ∨ w = 1 := by omega
    rcases this with rfl | rfl <;> rfl
  · funext c
    by_cases h : c = 0 <;> simp [h]

end Shellfish.Mem
