/- C106: commands that run at the same time. -/
import Verif.Model.Share
import Verif.Props.Memo

namespace Shellfish.Share

/-! ### Specification -/

/-- A process that has found no cache file and has not finished making one. -/
def Busy (p : Pc) : Prop := p = .create ∨ ∃ n, p = .write n

/-- A process that is through. -/
def Done (p : Pc) : Prop := ∃ r, p = .done r

/-- A command alone: it acts on the disk until it ends. -/
inductive Runs {D S T : Type} (c : Command D S T) : S → D → T → D → Prop
  | stop {s : S} {d : D} {o : T} (h : c.act s d = .inr o) : Runs c s d o d
  | more {s : S} {d : D} {r : S × D} {o : T} {d' : D} (h : c.act s d = .inl r) (rest : Runs c r.1 r.2 o d') : Runs c s d o d'

/-- The commands of a pipe one after the other, each with the output of the one before and the disk it left. -/
inductive PipeRuns {D S T : Type} : List (Command D S T) → T → D → T → D → Prop
  | nil {t : T} {d : D} : PipeRuns [] t d t d
  | cons {c : Command D S T} {cs : List (Command D S T)} {t o o' : T} {d d' d'' : D} (h : Runs c (c.start t) d o d') (rest : PipeRuns cs o d' o' d'') : PipeRuns (c :: cs) t d o' d''

/-! ### Writing at an offset -/

theorem writeAt_length (s : List Nat) (n c : Nat) : (writeAt s n c).length = max s.length (n + 1) := by
  unfold writeAt
  simp only [List.length_append, List.length_take, List.length_replicate, List.length_cons, List.length_drop]
  omega

theorem writeAt_get (s : List Nat) (n c k : Nat) (hk : k < s.length) : (writeAt s n c)[k]? = if k = n then some c else s[k]? := by
  unfold writeAt
  have hlen : ((s ++ List.replicate (n - s.length) 0).take n).length = n := by
    rw [List.length_take, List.length_append, List.length_replicate]; omega
  rcases lt_trichotomy k n with h | h | h
  · rw [List.getElem?_append_left (by rw [hlen]; exact h), List.getElem?_take_of_lt h, List.getElem?_append_left hk, if_neg (by omega)]
  · rw [List.getElem?_append_right (by rw [hlen]; omega), hlen, if_pos h, h, Nat.sub_self]; rfl
  · rw [List.getElem?_append_right (by rw [hlen]; omega), hlen, if_neg (by omega)]
    obtain ⟨j, rfl⟩ : ∃ j, k = n + 1 + j := ⟨k - n - 1, by omega⟩
    rw [show n + 1 + j - n = j + 1 by omega, List.getElem?_cons_succ, List.getElem?_drop]

theorem writeAt_self (s : List Nat) (n c : Nat) (h : n < (writeAt s n c).length) : (writeAt s n c)[n]? = some c := by
  unfold writeAt
  have hlen : ((s ++ List.replicate (n - s.length) 0).take n).length = n := by
    rw [List.length_take, List.length_append, List.length_replicate]; omega
  rw [List.getElem?_append_right (by rw [hlen]), hlen, Nat.sub_self]; rfl

theorem step_write_some {bytes : List Nat} {back : Bool} {file : Option (List Nat)} {n c : Nat} (h : bytes[n]? = some c) : step bytes back file (.write n) = (file.map fun s => writeAt s n c, .write (n + 1)) := by
  simp only [step, h]
theorem step_write_none {bytes : List Nat} {back : Bool} {file : Option (List Nat)} {n : Nat} (h : bytes[n]? = none) : step bytes back file (.write n) = (file, if back then .read [] else .done bytes) := by
  simp only [step, h]
theorem step_read_some {bytes : List Nat} {back : Bool} {file : Option (List Nat)} {acc : List Nat} {c : Nat} (h : (file.getD [])[acc.length]? = some c) :
    step bytes back file (.read acc) = (file, .read (acc ++ [c])) := by
  simp only [step, h]
theorem step_read_none {bytes : List Nat} {back : Bool} {file : Option (List Nat)} {acc : List Nat} (h : (file.getD [])[acc.length]? = none) : step bytes back file (.read acc) = (file, .done acc) := by
  simp only [step, h]

/-! ### Any number of processes -/

/-- the file and the processes in the course of a schedule -/
def Inv (bytes : List Nat) (st : Option (List Nat) × List Pc) : Prop :=
  (∀ p ∈ st.2, ∀ n, p = .write n → n ≤ bytes.length) ∧
  ((st.1 = none ∧ ∀ p ∈ st.2, p = .stat ∨ p = .create) ∨
    ∃ s, st.1 = some s ∧ s.length ≤ bytes.length ∧ (s = bytes ∨ ∃ (i n : ℕ), st.2[i]? = some (Pc.write n) ∧ ∀ k < n, s[k]? = bytes[k]?))

theorem prefix_eq {s bytes : List Nat} (hl : s.length ≤ bytes.length) (h : ∀ k < bytes.length, s[k]? = bytes[k]?) : s = bytes := by
  apply List.ext_getElem?
  intro k
  rcases lt_or_ge k bytes.length with hk | hk
  · exact h k hk
  · rw [List.getElem?_eq_none hk, List.getElem?_eq_none (by omega)]

theorem inv_turn (bytes : List Nat) (back : Bool) (st : Option (List Nat) × List Pc) (i : Nat) (h : Inv bytes st) : Inv bytes (turn bytes back st i) := by
  obtain ⟨file, ps⟩ := st
  unfold turn
  dsimp only
  cases hp : ps[i]? with
  | none => exact h
  | some p =>
    dsimp only
    obtain ⟨h1, h2⟩ := h
    dsimp only at h1 h2
    have hi : i < ps.length := (List.getElem?_eq_some_iff.mp hp).1
    have hmem : p ∈ ps := List.mem_of_getElem? hp
    have set_mem : ∀ (q x : Pc), x ∈ ps.set i q → x = q ∨ x ∈ ps := by
      intro q x hx
      rcases List.mem_or_eq_of_mem_set hx with h | h
      · exact Or.inr h
      · exact Or.inl h
    -- a step that leaves the file and is not a write before or after
    have idle : ∀ q : Pc, (∀ n, p ≠ .write n) → (∀ n, q ≠ .write n) → (file = none → q = .stat ∨ q = .create) → Inv bytes (file, ps.set i q) := by
      intro q np nq hq
      refine ⟨?_, ?_⟩
      · intro x hx n hn
        rcases set_mem q x hx with rfl | hx
        · exact absurd hn (nq n)
        · exact h1 x hx n hn
      · rcases h2 with ⟨e, h2⟩ | ⟨s, e, hl, h2⟩
        · left
          refine ⟨e, fun x hx => ?_⟩
          rcases set_mem q x hx with rfl | hx
          · exact hq e
          · exact h2 x hx
        · right
          refine ⟨s, e, hl, ?_⟩
          rcases h2 with h2 | ⟨j, n, hj, h2⟩
          · exact Or.inl h2
          · right
            refine ⟨j, n, ?_, h2⟩
            dsimp only
            have : i ≠ j := by rintro rfl; rw [hp] at hj; exact np n (Option.some.inj hj)
            rw [List.getElem?_set_ne this]; exact hj
    cases p with
    | stat =>
      unfold step
      dsimp only
      refine idle _ (fun n => by simp) (fun n => by split_ifs <;> simp) (fun e => ?_)
      rw [e]; right; rfl
    | create =>
      unfold step
      dsimp only
      refine ⟨?_, Or.inr ⟨[], rfl, by simp, Or.inr ⟨i, 0, ?_, fun k hk => absurd hk (by omega)⟩⟩⟩
      · intro x hx n hn
        rcases set_mem _ x hx with rfl | hx
        · cases hn; omega
        · exact h1 x hx n hn
      · dsimp only
        rw [List.getElem?_set_self hi]
    | write m =>
      have hm := h1 _ hmem m rfl
      rcases h2 with ⟨e, h2⟩ | ⟨s, e, hl, h2⟩
      · rcases h2 _ hmem with h | h <;> exact (nomatch h)
      · subst e
        cases hb : bytes[m]? with
        | none =>
          rw [step_write_none hb]
          dsimp only
          have hml : m = bytes.length := by have := List.getElem?_eq_none_iff.mp hb; omega
          refine ⟨?_, Or.inr ⟨s, rfl, hl, ?_⟩⟩
          · intro x hx n hn
            rcases set_mem _ x hx with rfl | hx
            · split_ifs at hn
            · exact h1 x hx n hn
          · rcases h2 with h2 | ⟨j, n, hj, h2⟩
            · exact Or.inl h2
            · by_cases hij : i = j
              · subst hij
                rw [hp] at hj
                cases hj
                left
                exact prefix_eq hl (fun k hk => h2 k (by omega))
              · right
                refine ⟨j, n, ?_, h2⟩
                dsimp only
                rw [List.getElem?_set_ne hij]; exact hj
        | some c =>
          rw [step_write_some hb]
          dsimp only
          have hmlt : m < bytes.length := (List.getElem?_eq_some_iff.mp hb).1
          have key : ∀ n, (∀ k < n, s[k]? = bytes[k]?) → n ≤ bytes.length → ∀ k < n, (writeAt s m c)[k]? = bytes[k]? := by
            intro n hn hnl k hk
            have hks : k < s.length := by
              have := hn k hk
              rw [List.getElem?_eq_getElem (by omega : k < bytes.length)] at this
              exact (List.getElem?_eq_some_iff.mp this).1
            rw [writeAt_get s m c k hks]
            by_cases e : k = m
            · rw [if_pos e, e, hb]
            · rw [if_neg e]; exact hn k hk
          have hwl : (writeAt s m c).length ≤ bytes.length := by rw [writeAt_length]; omega
          refine ⟨?_, Or.inr ⟨writeAt s m c, rfl, hwl, ?_⟩⟩
          · intro x hx n hn
            rcases set_mem _ x hx with rfl | hx
            · cases hn; omega
            · exact h1 x hx n hn
          · rcases h2 with h2 | ⟨j, n, hj, h2⟩
            · left
              exact prefix_eq hwl (key _ (fun k _ => by rw [h2]) le_rfl)
            · by_cases hij : i = j
              · subst hij
                rw [hp] at hj
                cases hj
                right
                refine ⟨i, m + 1, by dsimp only; rw [List.getElem?_set_self hi], fun k hk => ?_⟩
                rcases Nat.lt_succ_iff_lt_or_eq.mp hk with hk | rfl
                · exact key _ h2 hm k hk
                · rw [writeAt_self _ _ _ (by rw [writeAt_length]; omega), hb]
              · right
                refine ⟨j, n, by dsimp only; rw [List.getElem?_set_ne hij]; exact hj, key n h2 ?_⟩
                exact h1 _ (List.mem_of_getElem? hj) n rfl
    | read acc =>
      have hfile : file ≠ none := by
        intro e
        rcases h2 with ⟨_, h2⟩ | ⟨s, e', _⟩
        · rcases h2 _ hmem with h | h <;> exact (nomatch h)
        · rw [e] at e'; exact (nomatch e')
      cases hb : (file.getD [])[acc.length]? with
      | none => rw [step_read_none hb]; exact idle _ (fun n => by simp) (fun n => by simp) (fun e => absurd e hfile)
      | some c => rw [step_read_some hb]; exact idle _ (fun n => by simp) (fun n => by simp) (fun e => absurd e hfile)
    | done r =>
      unfold step
      have hfile : file ≠ none := by
        intro e
        rcases h2 with ⟨_, h2⟩ | ⟨s, e', _⟩
        · rcases h2 _ hmem with h | h <;> exact (nomatch h)
        · rw [e] at e'; exact (nomatch e')
      exact idle _ (fun n => by simp) (fun n => by simp) (fun e => absurd e hfile)

theorem inv_run (bytes : List Nat) (back : Bool) (sch : List Nat) (st : Option (List Nat) × List Pc) (h : Inv bytes st) : Inv bytes (run bytes back sch st) := by
  unfold run
  induction sch generalizing st with
  | nil => exact h
  | cons i sch ih => exact ih _ (inv_turn bytes back st i h)

theorem inv_start (bytes : List Nat) (file : Option (List Nat)) (hf : file = none ∨ file = some bytes) (n : Nat) : Inv bytes (file, List.replicate n .stat) := by
  refine ⟨fun p hp m hm => ?_, ?_⟩
  · rw [List.eq_of_mem_replicate hp] at hm; exact (nomatch hm)
  · rcases hf with rfl | rfl
    · exact Or.inl ⟨rfl, fun p hp => Or.inl (List.eq_of_mem_replicate hp)⟩
    · exact Or.inr ⟨bytes, rfl, le_rfl, Or.inl rfl⟩

theorem complete_of_idle {bytes : List Nat} {st : Option (List Nat) × List Pc} (h : Inv bytes st) (hf : st.1 ≠ none) (hb : ∀ p ∈ st.2, ¬ Busy p) : st.1 = some bytes := by
  rcases h.2 with ⟨e, _⟩ | ⟨s, e, _, h2 | ⟨i, n, hi, _⟩⟩
  · exact absurd e hf
  · rw [e, h2]
  · exact absurd (Or.inr ⟨n, rfl⟩) (hb _ (List.mem_of_getElem? hi))

/-! ### C106 -/

/-- C106: however many commands make or read a cache file at the same time, and whatever their schedule, the file is complete once they are all through. -/
theorem C106_complete (bytes : List Nat) (back : Bool) (file : Option (List Nat)) (hf : file = none ∨ file = some bytes) (n : Nat) (hn : 0 < n) (sch : List Nat)
    (hd : ∀ p ∈ (run bytes back sch (file, List.replicate n .stat)).2, Done p) : (run bytes back sch (file, List.replicate n .stat)).1 = some bytes := by
  have h := inv_run bytes back sch _ (inv_start bytes file hf n)
  have hlen : (run bytes back sch (file, List.replicate n .stat)).2.length = n := by
    have : ∀ (sch : List Nat) (st : Option (List Nat) × List Pc), (run bytes back sch st).2.length = st.2.length := by
      intro sch
      induction sch with
      | nil => intro st; rfl
      | cons i sch ih =>
        intro st
        rw [show run bytes back (i :: sch) st = run bytes back sch (turn bytes back st i) from rfl, ih]
        unfold turn
        split
        · rfl
        · rw [List.length_set]
    rw [this, List.length_replicate]
  refine complete_of_idle h ?_ ?_
  · intro e
    rcases h.2 with ⟨_, h2⟩ | ⟨s, e', _⟩
    · have hne : (run bytes back sch (file, List.replicate n .stat)).2 ≠ [] := by
        intro e; rw [e] at hlen; simp at hlen; omega
      obtain ⟨p, hp⟩ := List.exists_mem_of_ne_nil _ hne
      obtain ⟨r, hr⟩ := hd p hp
      rcases h2 p hp with h | h <;> (rw [hr] at h; exact (nomatch h))
    · rw [e] at e'; exact (nomatch e')
  · intro p hp hb
    obtain ⟨r, rfl⟩ := hd p hp
    rcases hb with h | ⟨n, h⟩ <;> exact (nomatch h)

/-- a process that reads a complete file that nobody is making -/
def Reads (bytes : List Nat) (p : Pc) : Prop := p = .stat ∨ (∃ acc, p = .read acc ∧ acc <+: bytes) ∨ p = .done bytes

theorem reads_turn {bytes : List Nat} {back : Bool} {ps : List Pc} {i j : Nat} {p : Pc} (hb : ∀ p ∈ ps, ¬ Busy p) (hp : ps[i]? = some p) (h : Reads bytes p) :
    (turn bytes back (some bytes, ps) j).1 = some bytes ∧ (∀ p ∈ (turn bytes back (some bytes, ps) j).2, ¬ Busy p) ∧ ∃ q, (turn bytes back (some bytes, ps) j).2[i]? = some q ∧ Reads bytes q := by
  unfold turn
  dsimp only
  cases hq : ps[j]? with
  | none => exact ⟨rfl, hb, p, hp, h⟩
  | some q =>
    dsimp only
    have hj : j < ps.length := (List.getElem?_eq_some_iff.mp hq).1
    have hnb := hb q (List.mem_of_getElem? hq)
    have s1 : (step bytes back (some bytes) q).1 = some bytes ∧ ¬ Busy (step bytes back (some bytes) q).2 := by
      unfold Busy
      cases q with
      | stat => exact ⟨rfl, by simp [step]⟩
      | create => exact absurd (Or.inl rfl) hnb
      | write n => exact absurd (Or.inr ⟨n, rfl⟩) hnb
      | read acc => unfold step; dsimp only; split <;> exact ⟨rfl, by simp⟩
      | done r => exact ⟨rfl, by simp [step]⟩
    refine ⟨s1.1, ?_, ?_⟩
    · intro x hx
      rcases List.mem_or_eq_of_mem_set hx with h | h
      · exact hb x h
      · rw [h]; exact s1.2
    · by_cases hij : j = i
      · subst hij
        rw [hp] at hq
        cases hq
        refine ⟨_, List.getElem?_set_self hj, ?_⟩
        rcases h with rfl | ⟨acc, rfl, hacc⟩ | rfl
        · exact Or.inr (Or.inl ⟨[], rfl, List.nil_prefix⟩)
        · obtain ⟨t, ht⟩ := hacc
          cases t with
          | nil =>
            rw [List.append_nil] at ht
            rw [step_read_none (by rw [Option.getD_some, List.getElem?_eq_none (by rw [ht])])]
            exact Or.inr (Or.inr (by rw [ht]))
          | cons c t =>
            rw [step_read_some (c := c) (by rw [Option.getD_some, ← ht, List.getElem?_append_right le_rfl, Nat.sub_self]; rfl)]
            exact Or.inr (Or.inl ⟨acc ++ [c], rfl, ⟨t, by rw [← ht]; simp⟩⟩)
        · exact Or.inr (Or.inr rfl)
      · exact ⟨p, by rw [List.getElem?_set_ne hij]; exact hp, h⟩

/-- C106, the part that holds for unrelated commands: a command that looks for a cache file when the file exists and nobody is making it gets the whole content, whatever happens meanwhile. -/
theorem C106_late_partial (bytes : List Nat) (back : Bool) (file : Option (List Nat)) (hf : file = none ∨ file = some bytes) (n : Nat) (before after : List Nat) (i : Nat) (r : List Nat)
    (hex : (run bytes back before (file, List.replicate n .stat)).1 ≠ none) (hb : ∀ p ∈ (run bytes back before (file, List.replicate n .stat)).2, ¬ Busy p)
    (hs : (run bytes back before (file, List.replicate n .stat)).2[i]? = some .stat)
    (hr : (run bytes back (before ++ after) (file, List.replicate n .stat)).2[i]? = some (.done r)) : r = bytes := by
  have hc := complete_of_idle (inv_run bytes back before _ (inv_start bytes file hf n)) hex hb
  rw [show run bytes back (before ++ after) (file, List.replicate n .stat) = run bytes back after (run bytes back before (file, List.replicate n .stat)) from List.foldl_append] at hr
  generalize hst : run bytes back before (file, List.replicate n .stat) = st at *
  obtain ⟨f, ps⟩ := st
  dsimp only at hc hb hs
  subst hc
  have key : ∀ (sch : List Nat) (ps : List Pc) (p : Pc), (∀ p ∈ ps, ¬ Busy p) → ps[i]? = some p → Reads bytes p → ∃ q, (run bytes back sch (some bytes, ps)).2[i]? = some q ∧ Reads bytes q := by
    intro sch
    induction sch with
    | nil => exact fun ps p _ hp h => ⟨p, hp, h⟩
    | cons j sch ih =>
      intro ps p hb hp h
      obtain ⟨t1, t2, q, t3, t4⟩ := reads_turn (back := back) (j := j) hb hp h
      have := ih (turn bytes back (some bytes, ps) j).2 q t2 t3 t4
      rw [show run bytes back (j :: sch) (some bytes, ps) = run bytes back sch (turn bytes back (some bytes, ps) j) from rfl]
      rwa [show turn bytes back (some bytes, ps) j = (some bytes, (turn bytes back (some bytes, ps) j).2) from Prod.ext t1 rfl]
  obtain ⟨q, hq, h⟩ := key after ps .stat hb hs (Or.inl rfl)
  rw [hr] at hq
  cases hq
  rcases h with h | ⟨acc, h, _⟩ | h
  · exact (nomatch h)
  · exact (nomatch h)
  · exact Pc.done.inj h

/-! ### Races -/

theorem run_append (bytes : List Nat) (back : Bool) (a b : List Nat) (st : Option (List Nat) × List Pc) : run bytes back (a ++ b) st = run bytes back b (run bytes back a st) := List.foldl_append

theorem writeAt_end (s : List Nat) (c : Nat) : writeAt s s.length c = s ++ [c] := by
  unfold writeAt
  rw [Nat.sub_self, List.replicate_zero, List.append_nil, List.take_length, List.drop_eq_nil_of_le (by omega)]

theorem writes (bytes : List Nat) (back : Bool) (q : Pc) (k : Nat) : ∀ s : List Nat, s.length + k ≤ bytes.length →
    run bytes back (List.replicate k 0) (some s, [.write s.length, q]) = (some (s ++ (bytes.drop s.length).take k), [.write (s.length + k), q]) := by
  induction k with
  | zero => intro s _; simp [run]
  | succ k ih =>
    intro s hs
    have hlt : s.length < bytes.length := by omega
    have hb : bytes[s.length]? = some bytes[s.length] := List.getElem?_eq_getElem hlt
    have e : turn bytes back (some s, [.write s.length, q]) 0 = (some (s ++ [bytes[s.length]]), [.write (s ++ [bytes[s.length]]).length, q]) := by
      unfold turn
      simp only [List.getElem?_cons_zero, List.set_cons_zero]
      rw [step_write_some hb, Option.map_some, writeAt_end, List.length_append, List.length_singleton]
    rw [List.replicate_succ, show run bytes back (0 :: List.replicate k 0) (some s, [.write s.length, q]) = run bytes back (List.replicate k 0) (turn bytes back (some s, [.write s.length, q]) 0) from rfl, e,
      ih _ (by rw [List.length_append, List.length_singleton]; omega)]
    rw [List.length_append, List.length_singleton, List.append_assoc, List.drop_eq_getElem_cons hlt, List.take_succ_cons]
    simp only [List.singleton_append, Prod.mk.injEq, List.cons.injEq, Pc.write.injEq, and_true, true_and]
    omega

theorem reads (bytes : List Nat) (back : Bool) (q : Pc) (rest : List Nat) : ∀ acc : List Nat,
    run bytes back (List.replicate (rest.length + 1) 0) (some (acc ++ rest), [.read acc, q]) = (some (acc ++ rest), [.done (acc ++ rest), q]) := by
  induction rest with
  | nil =>
    intro acc
    simp [run, turn, step]
  | cons c rest ih =>
    intro acc
    have e : turn bytes back (some (acc ++ c :: rest), [.read acc, q]) 0 = (some ((acc ++ [c]) ++ rest), [.read (acc ++ [c]), q]) := by
      simp [turn, step]
    rw [List.length_cons, List.replicate_succ, show run bytes back (0 :: List.replicate (rest.length + 1) 0) (some (acc ++ c :: rest), [.read acc, q]) =
      run bytes back (List.replicate (rest.length + 1) 0) (turn bytes back (some (acc ++ c :: rest), [.read acc, q]) 0) from rfl, e, ih]
    simp

/-- C106 is false of unrelated commands: a command that looks for the headers of a snapshot while another one is making their cache file goes on with zero headers, for every snapshot with at least one file. -/
theorem C106_zero_headers_false (hds : List Shellfish.Memo.Header) (hne : hds ≠ []) :
    ∃ sch r, (run (hds.flatMap Shellfish.Memo.Header.enc) false sch (none, [.stat, .stat])).2[1]? = some (.done r) ∧
      Shellfish.Memo.readHeaderMemo r hds.length = List.replicate hds.length Shellfish.Memo.Header.zero := by
  refine ⟨[0, 0, 1, 1], [], rfl, ?_⟩
  have := List.length_pos_iff.mpr hne
  unfold Shellfish.Memo.readHeaderMemo
  rw [if_neg (by simp; omega)]

/-- C106 is false of unrelated commands: when two commands make the cache of a halo catalogue at the same time, one of them can go on with a catalogue without halos, for every catalogue with halos. -/
theorem C106_no_halos_false (bytes : List Nat) (hl : 8 < bytes.length) :
    ∃ sch r, (run bytes true sch (none, [.stat, .stat])).2[0]? = some (.done r) ∧ ∀ k, Shellfish.Memo.binaryColGetter r (List.range k) = .ok (List.replicate k []) := by
  obtain ⟨m, hm⟩ : ∃ m, bytes.length = 9 + m := ⟨bytes.length - 9, by omega⟩
  have hb8 : bytes[8]? = some bytes[8] := List.getElem?_eq_getElem hl
  set f : List Nat := List.replicate 8 0 ++ [bytes[8]] with hf
  have hfl : f.length = 9 := by rw [hf]; simp
  set r := f ++ (bytes.drop f.length).take m with hr
  refine ⟨[0, 1, 0] ++ (List.replicate 8 0 ++ ([1, 0] ++ (List.replicate m 0 ++ ([0] ++ List.replicate (r.length + 1) 0)))), r, ?_, ?_⟩
  · have e1 : run bytes true [0, 1, 0] (none, [.stat, .stat]) = (some [], [.write ([] : List Nat).length, .create]) := rfl
    rw [run_append, e1, run_append, writes bytes true .create 8 [] (by simp; omega), run_append]
    have e2 : run bytes true [1, 0] (some ([] ++ (bytes.drop ([] : List Nat).length).take 8), [.write (([] : List Nat).length + 8), .create]) = (some f, [.write f.length, .write 0]) := by
      have : ([] : List Nat).length + 8 = 8 := rfl
      rw [this, hfl]
      rw [show ∀ st, run bytes true [1, 0] st = turn bytes true (turn bytes true st 1) 0 from fun _ => rfl]
      have t1 : turn bytes true (some ([] ++ (bytes.drop ([] : List Nat).length).take 8), [.write 8, .create]) 1 = (some [], [.write 8, .write 0]) := rfl
      rw [t1]
      unfold turn
      simp only [List.getElem?_cons_zero, List.set_cons_zero]
      rw [step_write_some hb8]
      rfl
    rw [e2, run_append, writes bytes true (.write 0) m f (by rw [hfl]; omega), run_append]
    have e3 : run bytes true [0] (some (f ++ (bytes.drop f.length).take m), [.write (f.length + m), .write 0]) = (some ([] ++ r), [.read [], .write 0]) := by
      rw [show ∀ st, run bytes true [0] st = turn bytes true st 0 from fun _ => rfl]
      unfold turn
      simp only [List.getElem?_cons_zero, List.set_cons_zero]
      rw [step_write_none (List.getElem?_eq_none (by rw [hfl, hm])), ← hr]
      rfl
    rw [e3, reads bytes true (.write 0) r []]
    rfl
  · intro k
    have hz : r = List.replicate 8 0 ++ ([bytes[8]] ++ (bytes.drop f.length).take m) := by rw [hr, hf, List.append_assoc]
    have hw : Shellfish.Memo.readWords r 0 1 = .ok [0] := by
      unfold Shellfish.Memo.readWords
      rw [if_pos (Or.inl (by rw [hz, List.length_append, List.length_replicate]; omega)), hz]
      rfl
    have hc : ∀ cs : List Nat, Shellfish.Memo.readCols r 0 cs = .ok (List.replicate cs.length []) := by
      intro cs
      induction cs with
      | nil => rfl
      | cons c cs ih =>
        unfold Shellfish.Memo.readCols
        rw [ih]
        unfold Shellfish.Memo.readWords
        rw [if_pos (Or.inr rfl)]
        rfl
    unfold Shellfish.Memo.binaryColGetter
    rw [hw]
    show (if 2 ^ 63 ≤ 0 ∧ List.range k ≠ [] then Shellfish.Memo.Out.panic else Shellfish.Memo.readCols r 0 (List.range k)) = _
    rw [if_neg (by rintro ⟨h, _⟩; norm_num at h), hc, List.length_range]

/-! ### Pipes -/

variable {D S T : Type}

theorem Runs.unique {c : Command D S T} {s : S} {d : D} {o o' : T} {d1 d2 : D} (h : Runs c s d o d1) (h' : Runs c s d o' d2) : o = o' ∧ d1 = d2 := by
  induction h with
  | stop h =>
    cases h' with
    | stop h' => rw [h] at h'; cases h'; exact ⟨rfl, rfl⟩
    | more h' _ => rw [h] at h'; exact (nomatch h')
  | more h _ ih =>
    cases h' with
    | stop h' => rw [h] at h'; exact (nomatch h')
    | more h' t => rw [h] at h'; cases h'; exact ih t

theorem PipeRuns.unique {cs : List (Command D S T)} {t : T} {d : D} {o o' : T} {d1 d2 : D} (h : PipeRuns cs t d o d1) (h' : PipeRuns cs t d o' d2) : o = o' ∧ d1 = d2 := by
  induction h with
  | nil => cases h'; exact ⟨rfl, rfl⟩
  | cons h _ ih =>
    cases h' with
    | cons g r => obtain ⟨rfl, rfl⟩ := h.unique g; exact ih r

theorem PipeRuns.snoc {cs : List (Command D S T)} {c : Command D S T} {t : T} {d : D} {o o' : T} {d1 d2 : D} (h : PipeRuns cs t d o d1) (g : Runs c (c.start o) d1 o' d2) :
    PipeRuns (cs ++ [c]) t d o' d2 := by
  induction h with
  | nil => exact .cons g .nil
  | cons h _ ih => exact .cons h (ih g)

theorem PipeRuns.split {as bs : List (Command D S T)} {t : T} {d : D} {o : T} {d' : D} (h : PipeRuns (as ++ bs) t d o d') : ∃ o1 d1, PipeRuns as t d o1 d1 ∧ PipeRuns bs o1 d1 o d' := by
  induction as generalizing t d with
  | nil => exact ⟨t, d, .nil, h⟩
  | cons a as ih =>
    cases h with
    | cons g r =>
      obtain ⟨o1, d1, h1, h2⟩ := ih r
      exact ⟨o1, d1, .cons g h1, h2⟩

/-- some actions of a command -/
inductive Steps (c : Command D S T) : S → D → S → D → Prop
  | refl {s : S} {d : D} : Steps c s d s d
  | tail {s : S} {d : D} {s1 : S} {d1 : D} {r : S × D} (h : Steps c s d s1 d1) (g : c.act s1 d1 = .inl r) : Steps c s d r.1 r.2

theorem Steps.runs {c : Command D S T} {s : S} {d : D} {s1 : S} {d1 : D} {o : T} {d' : D} (h : Steps c s d s1 d1) (g : Runs c s1 d1 o d') : Runs c s d o d' := by
  induction h with
  | refl => exact g
  | tail _ e ih => exact ih (.more e g)

theorem Steps.rest {c : Command D S T} {s : S} {d : D} {s1 : S} {d1 : D} {o : T} {d' : D} (h : Steps c s d s1 d1) (g : Runs c s d o d') : Runs c s1 d1 o d' := by
  induction h with
  | refl => exact g
  | tail _ e ih =>
    cases ih with
    | stop h => rw [e] at h; exact (nomatch h)
    | more h t => rw [e] at h; cases h; exact t

/-- the processes of a pipe in the course of a schedule: those before number `k` have ended, those behind it wait -/
def PInv (cs : List (Command D S T)) (t : T) (d : D) (st : D × List (Proc S T)) : Prop :=
  st.2.length = cs.length ∧ ∃ k o d', k ≤ cs.length ∧ PipeRuns (cs.take k) t d o d' ∧ inputOf t st.2 k = some o ∧ (∀ i < k, ∃ x, st.2[i]? = some (.ended x)) ∧
    (∀ i, k < i → i < cs.length → st.2[i]? = some .waiting) ∧
    ((st.1 = d' ∧ (k < cs.length → st.2[k]? = some .waiting)) ∨ ∃ c s, cs[k]? = some c ∧ st.2[k]? = some (.working s) ∧ Steps c (c.start o) d' s st.1)

theorem inputOf_succ (t : T) (ps : List (Proc S T)) (i : Nat) : inputOf t ps (i + 1) = match ps[i]? with | some (.ended o) => some o | _ => none := rfl

theorem inputOf_set {t : T} {ps : List (Proc S T)} {i k : Nat} (p : Proc S T) (h : k ≤ i) : inputOf t (ps.set i p) k = inputOf t ps k := by
  cases k with
  | zero => rfl
  | succ k => rw [inputOf_succ, inputOf_succ, List.getElem?_set_ne (by omega)]

theorem pinv_turn (cs : List (Command D S T)) (t : T) (d : D) (st : D × List (Proc S T)) (j : Nat) (h : PInv cs t d st) : PInv cs t d (pipeTurn cs t st j) := by
  obtain ⟨disk, ps⟩ := st
  have h' := h
  obtain ⟨hl, k, o, d', hk, hr, hi, he, hw, hc⟩ := h
  dsimp only at hl hi he hw hc
  unfold pipeTurn
  dsimp only
  cases hcj : cs[j]? with
  | none => exact h'
  | some c =>
    have hj : j < cs.length := (List.getElem?_eq_some_iff.mp hcj).1
    rcases lt_trichotomy j k with hjk | hjk | hjk
    · obtain ⟨x, hx⟩ := he j hjk
      rw [hx]; exact h'
    · subst hjk
      rcases hc with ⟨rfl, hc⟩ | ⟨c', s, hc', hs, hst⟩
      · rw [hc hj]
        dsimp only
        rw [hi]
        dsimp only
        refine ⟨by rw [List.length_set]; exact hl, j, o, disk, hk, hr, by dsimp only; rw [inputOf_set _ le_rfl]; exact hi, ?_, ?_, Or.inr ⟨c, c.start o, hcj, ?_, .refl⟩⟩
        · intro i hi'; dsimp only; rw [List.getElem?_set_ne (by omega)]; exact he i hi'
        · intro i h1 h2; dsimp only; rw [List.getElem?_set_ne (by omega)]; exact hw i h1 h2
        · dsimp only; rw [List.getElem?_set_self (by omega)]
      · rw [hc'] at hcj
        cases hcj
        rw [hs]
        dsimp only
        cases ha : c.act s disk with
        | inl r =>
          dsimp only
          refine ⟨by rw [List.length_set]; exact hl, j, o, d', hk, hr, by dsimp only; rw [inputOf_set _ le_rfl]; exact hi, ?_, ?_, Or.inr ⟨c, r.1, hc', ?_, .tail hst ha⟩⟩
          · intro i hi'; dsimp only; rw [List.getElem?_set_ne (by omega)]; exact he i hi'
          · intro i h1 h2; dsimp only; rw [List.getElem?_set_ne (by omega)]; exact hw i h1 h2
          · dsimp only; rw [List.getElem?_set_self (by omega)]
        | inr x =>
          dsimp only
          have htake : cs.take (j + 1) = cs.take j ++ [c] := by
            rw [List.take_add_one, hc']; rfl
          refine ⟨by rw [List.length_set]; exact hl, j + 1, x, disk, hj, ?_, ?_, ?_, ?_, Or.inl ⟨rfl, ?_⟩⟩
          · rw [htake]; exact hr.snoc (hst.runs (.stop ha))
          · dsimp only; rw [inputOf_succ, List.getElem?_set_self (by omega)]
          · intro i hi'
            dsimp only
            rcases Nat.lt_succ_iff_lt_or_eq.mp hi' with h1 | rfl
            · rw [List.getElem?_set_ne (by omega)]; exact he i h1
            · exact ⟨x, List.getElem?_set_self (by omega)⟩
          · intro i h1 h2; dsimp only; rw [List.getElem?_set_ne (by omega)]; exact hw i (by omega) h2
          · intro h1; dsimp only; rw [List.getElem?_set_ne (by omega)]; exact hw _ (by omega) h1
    · rw [hw j hjk hj]
      dsimp only
      have : inputOf t ps j = none := by
        obtain ⟨m, rfl⟩ : ∃ m, j = m + 1 := ⟨j - 1, by omega⟩
        rw [inputOf_succ]
        rcases Nat.lt_succ_iff_lt_or_eq.mp hjk with h1 | rfl
        · rw [hw m h1 (by omega)]
        · rcases hc with ⟨_, hc⟩ | ⟨c', s, _, hs, _⟩
          · rw [hc (by omega)]
          · rw [hs]
      rw [this]; exact h'

theorem pinv_start (cs : List (Command D S T)) (t : T) (d : D) : PInv cs t d (pipeStart cs d) := by
  refine ⟨by simp [pipeStart], 0, t, d, Nat.zero_le _, .nil, rfl, fun i hi => absurd hi (Nat.not_lt_zero i), ?_, Or.inl ⟨rfl, ?_⟩⟩
  · intro i _ hi; simp [pipeStart, hi]
  · intro hi; simp [pipeStart, hi]

theorem pinv_run (cs : List (Command D S T)) (t : T) (d : D) (sch : List Nat) (st : D × List (Proc S T)) (h : PInv cs t d st) : PInv cs t d (pipeRun cs t sch st) := by
  unfold pipeRun
  induction sch generalizing st with
  | nil => exact h
  | cons i sch ih => exact ih _ (pinv_turn cs t d st i h)

/-- C106: whatever the schedule of the processes of a pipe, the output of the last one and the disk are those of the commands run one after the other; all the others have then ended. -/
theorem C106_pipe (cs : List (Command D S T)) (t : T) (d : D) (sch : List Nat) (o : T) (h : (pipeRun cs t sch (pipeStart cs d)).2[cs.length - 1]? = some (.ended o)) :
    PipeRuns cs t d o (pipeRun cs t sch (pipeStart cs d)).1 ∧ ∀ i < cs.length, ∃ x, (pipeRun cs t sch (pipeStart cs d)).2[i]? = some (.ended x) := by
  have hinv := pinv_run cs t d sch _ (pinv_start cs t d)
  generalize pipeRun cs t sch (pipeStart cs d) = st at *
  obtain ⟨hl, k, o', d', hk, hr, hi, he, hw, hc⟩ := hinv
  have hpos : 0 < cs.length := by
    have := (List.getElem?_eq_some_iff.mp h).1
    omega
  have hkl : k = cs.length := by
    by_contra hne
    have hlt : k < cs.length := by omega
    rcases Nat.lt_or_ge k (cs.length - 1) with h1 | h1
    · rw [hw _ h1 (by omega)] at h; cases h
    · have hk' : k = cs.length - 1 := by omega
      rcases hc with ⟨_, hc⟩ | ⟨c, s, _, hs, _⟩
      · rw [← hk', hc hlt] at h; cases h
      · rw [← hk', hs] at h; cases h
  subst hkl
  rw [List.take_length] at hr
  have ho : o' = o := by
    obtain ⟨m, hm⟩ : ∃ m, cs.length = m + 1 := ⟨cs.length - 1, by omega⟩
    rw [hm] at hi h
    rw [inputOf_succ] at hi
    rw [Nat.add_sub_cancel] at h
    rw [h] at hi
    exact (Option.some.inj hi).symm
  subst ho
  refine ⟨?_, he⟩
  rcases hc with ⟨rfl, _⟩ | ⟨c, s, hcs, _⟩
  · exact hr
  · rw [List.getElem?_eq_none le_rfl] at hcs; exact (nomatch hcs)

/-- C106: two schedules of the same pipe that come to the end have the same output and leave the same disk. -/
theorem C106_pipe_same (cs : List (Command D S T)) (t : T) (d : D) (sch sch' : List Nat) (o o' : T) (h : (pipeRun cs t sch (pipeStart cs d)).2[cs.length - 1]? = some (.ended o))
    (h' : (pipeRun cs t sch' (pipeStart cs d)).2[cs.length - 1]? = some (.ended o')) : o = o' ∧ (pipeRun cs t sch (pipeStart cs d)).1 = (pipeRun cs t sch' (pipeStart cs d)).1 :=
  (C106_pipe cs t d sch o h).1.unique (C106_pipe cs t d sch' o' h').1

theorem pipeRun_append (cs : List (Command D S T)) (t : T) (a b : List Nat) (st : D × List (Proc S T)) : pipeRun cs t (a ++ b) st = pipeRun cs t b (pipeRun cs t a st) := List.foldl_append

/-- a process that is at work comes to its end -/
theorem finish (cs : List (Command D S T)) (t : T) {c : Command D S T} {k : Nat} (hc : cs[k]? = some c) {s : S} {d : D} {x : T} {d' : D} (h : Runs c s d x d') :
    ∀ ps : List (Proc S T), ps[k]? = some (.working s) → ∃ n, pipeRun cs t (List.replicate n k) (d, ps) = (d', ps.set k (.ended x)) := by
  induction h with
  | @stop s d o h =>
    intro ps hp
    refine ⟨1, ?_⟩
    show pipeTurn cs t (d, ps) k = _
    unfold pipeTurn
    dsimp only
    rw [hc, hp]
    dsimp only
    rw [h]
  | @more s d r o d' h _ ih =>
    intro ps hp
    have hk : k < ps.length := (List.getElem?_eq_some_iff.mp hp).1
    obtain ⟨n, hn⟩ := ih (ps.set k (.working r.1)) (List.getElem?_set_self hk)
    refine ⟨n + 1, ?_⟩
    have e : pipeTurn cs t (d, ps) k = (r.2, ps.set k (.working r.1)) := by
      unfold pipeTurn
      dsimp only
      rw [hc, hp]
      dsimp only
      rw [h]
    rw [List.replicate_succ, show pipeRun cs t (k :: List.replicate n k) (d, ps) = pipeRun cs t (List.replicate n k) (pipeTurn cs t (d, ps) k) from rfl, e, hn, List.set_set]

/-- C106: a pipe whose commands end one after the other cannot get stuck: from every state that a schedule leads to, it can still come to the end. -/
theorem C106_pipe_ends (cs : List (Command D S T)) (hne : cs ≠ []) (t : T) (d : D) (o : T) (d' : D) (h : PipeRuns cs t d o d') (sch : List Nat) :
    ∃ more, (pipeRun cs t (sch ++ more) (pipeStart cs d)).2[cs.length - 1]? = some (.ended o) ∧ (pipeRun cs t (sch ++ more) (pipeStart cs d)).1 = d' := by
  have key : ∀ (m : Nat) (st : D × List (Proc S T)), PInv cs t d st → (∃ k, (∀ i < k, ∃ x, st.2[i]? = some (.ended x)) ∧ cs.length - k ≤ m ∧ k ≤ cs.length) →
      ∃ more x, (pipeRun cs t more st).2[cs.length - 1]? = some (.ended x) := by
    intro m
    induction m with
    | zero =>
      rintro st _ ⟨k, he, hm, hk⟩
      have := List.length_pos_iff.mpr hne
      obtain ⟨x, hx⟩ := he (cs.length - 1) (by omega)
      exact ⟨[], x, hx⟩
    | succ m ih =>
      rintro st hinv ⟨k0, he0, hm, hk0⟩
      have hinv' := hinv
      obtain ⟨disk, ps⟩ := st
      obtain ⟨hl, k, o1, d1, hk, hr, hi, he, hw, hc⟩ := hinv
      dsimp only at hl hi he hw hc he0
      rcases Nat.lt_or_ge k cs.length with hlt | hge
      · have hkk : k0 ≤ k := by
          by_contra hgt
          obtain ⟨x, hx⟩ := he0 k (by omega)
          rcases hc with ⟨_, hc⟩ | ⟨c, s, _, hs, _⟩
          · rw [hc hlt] at hx; cases hx
          · rw [hs] at hx; cases hx
        have hck : cs[k]? = some cs[k] := List.getElem?_eq_getElem hlt
        have hsplit : cs = cs.take k ++ cs[k] :: cs.drop (k + 1) := by rw [← List.drop_eq_getElem_cons hlt, List.take_append_drop]
        have hfull := h
        rw [hsplit] at hfull
        obtain ⟨o2, d2, g1, g2⟩ := hfull.split
        obtain ⟨rfl, rfl⟩ := hr.unique g1
        cases g2 with
        | @cons _ _ _ x _ _ dx _ g3 _ =>
          have hkp : k < ps.length := by omega
          -- bring process k to work
          have hwork : ∃ pre ps1 s disk1, pipeRun cs t pre (disk, ps) = (disk1, ps1) ∧ ps1[k]? = some (.working s) ∧ Steps cs[k] (cs[k].start o1) d1 s disk1 ∧ (∀ i < k, ps1[i]? = ps[i]?) := by
            rcases hc with ⟨rfl, hc⟩ | ⟨c, s, hc', hs, hst⟩
            · refine ⟨[k], ps.set k (.working (cs[k].start o1)), cs[k].start o1, disk, ?_, List.getElem?_set_self hkp, .refl, fun i hi' => List.getElem?_set_ne (by omega)⟩
              show pipeTurn cs t (disk, ps) k = _
              unfold pipeTurn
              dsimp only
              rw [hck, hc hlt]
              dsimp only
              rw [hi]
            · rw [hck] at hc'
              cases hc'
              exact ⟨[], ps, s, disk, rfl, hs, hst, fun _ _ => rfl⟩
          obtain ⟨pre, ps1, s, disk1, e1, w1, st1, same⟩ := hwork
          obtain ⟨n, hn⟩ := finish cs t hck (st1.rest g3) ps1 w1
          have hk1 : k < ps1.length := (List.getElem?_eq_some_iff.mp w1).1
          have hrun : pipeRun cs t (pre ++ List.replicate n k) (disk, ps) = (dx, ps1.set k (.ended x)) := by rw [pipeRun_append, e1, hn]
          have hinv2 := pinv_run cs t d (pre ++ List.replicate n k) _ hinv'
          rw [hrun] at hinv2
          obtain ⟨more, y, hy⟩ := ih _ hinv2 ⟨k + 1, by
            intro i hi'
            dsimp only
            rcases Nat.lt_succ_iff_lt_or_eq.mp hi' with h1 | rfl
            · rw [List.getElem?_set_ne (by omega), same i h1]; exact he i h1
            · exact ⟨x, List.getElem?_set_self hk1⟩, by omega, hlt⟩
          refine ⟨(pre ++ List.replicate n k) ++ more, y, ?_⟩
          rw [pipeRun_append, hrun]; exact hy
      · have := List.length_pos_iff.mpr hne
        obtain ⟨x, hx⟩ := he (cs.length - 1) (by omega)
        exact ⟨[], x, hx⟩
  obtain ⟨more, x, hx⟩ := key cs.length _ (pinv_run cs t d sch _ (pinv_start cs t d)) ⟨0, fun i hi => absurd hi (Nat.not_lt_zero i), by omega, Nat.zero_le _⟩
  refine ⟨more, ?_⟩
  rw [← pipeRun_append] at hx
  obtain ⟨rfl, e⟩ := h.unique (C106_pipe cs t d _ x hx).1
  exact ⟨hx, e.symm⟩

/-! ### The cache in a pipe -/

theorem cache_runs {bytes : List Nat} {back : Bool} {s : List (List Nat) × Pc} {d d' : Option (List Nat)} {o : List (List Nat)} (h : Runs (cacheCommand bytes back) s d o d')
    (hs : (s.2 = .stat ∧ (d = none ∨ d = some bytes)) ∨ s.2 = .create ∨ (∃ n ≤ bytes.length, s.2 = .write n ∧ d = some (bytes.take n)) ∨ (∃ acc, s.2 = .read acc ∧ acc <+: bytes ∧ d = some bytes) ∨
      (s.2 = .done bytes ∧ d = some bytes)) : o = s.1 ++ [bytes] ∧ d' = some bytes := by
  induction h with
  | @stop s d o h =>
    obtain ⟨a, p⟩ := s
    unfold cacheCommand at h
    dsimp only at h hs
    rcases hs with ⟨rfl, _⟩ | rfl | ⟨n, _, rfl, _⟩ | ⟨acc, rfl, _⟩ | ⟨rfl, rfl⟩
    · exact (nomatch h)
    · exact (nomatch h)
    · exact (nomatch h)
    · exact (nomatch h)
    · cases h; exact ⟨rfl, rfl⟩
  | @more s d r o d' h _ ih =>
    obtain ⟨a, p⟩ := s
    unfold cacheCommand at h
    dsimp only at h hs
    rcases hs with ⟨rfl, hd⟩ | rfl | ⟨n, hn, rfl, rfl⟩ | ⟨acc, rfl, ⟨t, ht⟩, rfl⟩ | ⟨rfl, rfl⟩
    · cases h
      rcases hd with rfl | rfl
      · exact ih (Or.inr (Or.inl rfl))
      · exact ih (Or.inr (Or.inr (Or.inr (Or.inl ⟨[], rfl, List.nil_prefix, rfl⟩))))
    · cases h
      exact ih (Or.inr (Or.inr (Or.inl ⟨0, Nat.zero_le _, rfl, rfl⟩)))
    · cases hb : bytes[n]? with
      | none =>
        dsimp only at h
        rw [step_write_none hb] at h
        cases h
        have hnl : n = bytes.length := by have := List.getElem?_eq_none_iff.mp hb; omega
        rw [hnl, List.take_length] at ih
        refine ih ?_
        cases back with
        | true => exact Or.inr (Or.inr (Or.inr (Or.inl ⟨[], rfl, List.nil_prefix, rfl⟩)))
        | false => exact Or.inr (Or.inr (Or.inr (Or.inr ⟨rfl, rfl⟩)))
      | some c =>
        dsimp only at h
        rw [step_write_some hb] at h
        cases h
        have hlt : n < bytes.length := (List.getElem?_eq_some_iff.mp hb).1
        refine ih (Or.inr (Or.inr (Or.inl ⟨n + 1, hlt, rfl, ?_⟩)))
        have hl : (bytes.take n).length = n := by rw [List.length_take]; omega
        have := writeAt_end (bytes.take n) c
        rw [hl] at this
        dsimp only
        rw [Option.map_some, this, List.take_add_one, hb]
        rfl
    · cases t with
      | nil =>
        rw [List.append_nil] at ht
        dsimp only at h
        rw [step_read_none (by rw [Option.getD_some, List.getElem?_eq_none (by rw [ht])])] at h
        cases h
        exact ih (Or.inr (Or.inr (Or.inr (Or.inr ⟨by rw [ht], rfl⟩))))
      | cons c t =>
        dsimp only at h
        rw [step_read_some (c := c) (by rw [Option.getD_some, ← ht, List.getElem?_append_right le_rfl, Nat.sub_self]; rfl)] at h
        cases h
        exact ih (Or.inr (Or.inr (Or.inr (Or.inl ⟨acc ++ [c], rfl, ⟨t, by rw [← ht]; simp⟩, rfl⟩))))
    · exact (nomatch h)

/-- C106: every command of a pipe gets the whole content of a cache file, whichever of them makes it and whatever the schedule; the file is complete at the end. -/
theorem C106_pipe_cache (bytes : List Nat) (back : Bool) (n : Nat) (file : Option (List Nat)) (hf : file = none ∨ file = some bytes) (sch : List Nat) (o : List (List Nat)) (hn : 0 < n)
    (h : (pipeRun (List.replicate n (cacheCommand bytes back)) [] sch (pipeStart (List.replicate n (cacheCommand bytes back)) file)).2[n - 1]? = some (.ended o)) :
    o = List.replicate n bytes ∧ (pipeRun (List.replicate n (cacheCommand bytes back)) [] sch (pipeStart (List.replicate n (cacheCommand bytes back)) file)).1 = some bytes := by
  have hp := (C106_pipe (List.replicate n (cacheCommand bytes back)) [] file sch o (by rw [List.length_replicate]; exact h)).1
  generalize (pipeRun (List.replicate n (cacheCommand bytes back)) [] sch (pipeStart (List.replicate n (cacheCommand bytes back)) file)).1 = d at hp
  have key : ∀ (n : Nat) (t : List (List Nat)) (file d : Option (List Nat)), (file = none ∨ file = some bytes) → PipeRuns (List.replicate n (cacheCommand bytes back)) t file o d →
      o = t ++ List.replicate n bytes ∧ (0 < n ∨ file = some bytes → d = some bytes) := by
    intro n
    induction n with
    | zero =>
      intro t file d _ h
      cases h
      exact ⟨by simp, fun h => h.resolve_left (by omega)⟩
    | succ n ih =>
      intro t file d hf h
      cases h with
      | cons g r =>
        obtain ⟨rfl, rfl⟩ := cache_runs g (Or.inl ⟨rfl, hf⟩)
        obtain ⟨h1, h2⟩ := ih _ _ _ (Or.inr rfl) r
        refine ⟨?_, fun _ => h2 (Or.inr rfl)⟩
        rw [h1, List.replicate_succ]
        show t ++ [bytes] ++ _ = _
        simp
  obtain ⟨h1, h2⟩ := key n [] file d hf hp
  exact ⟨by simpa using h1, h2 (Or.inl hn)⟩

/-! ### Examples -/

/-- two commands that both find no file; both make it, and both are through -/
example : (run [7, 8] false [0, 1, 0, 0, 1, 0, 0, 1, 1, 1] (none, List.replicate 2 .stat)) = (some [7, 8], [.done [7, 8], .done [7, 8]]) := by decide
/-- a third command that comes later reads it -/
example : (run [7, 8] false [0, 0, 0, 0, 0, 1, 1, 1, 1] (none, List.replicate 2 .stat)) = (some [7, 8], [.done [7, 8], .done [7, 8]]) := by decide
/-- a pipe of two commands, with turns of the second one before its time, comes to its end -/
example : ∃ o, (pipeRun (List.replicate 2 (cacheCommand [7] true)) [] [1, 0, 1, 0, 1, 0, 0, 0, 0, 0, 1, 0, 0, 1, 1, 1, 1, 1, 1] (pipeStart (List.replicate 2 (cacheCommand [7] true)) none)).2[1]? = some (.ended o) :=
  ⟨_, rfl⟩

end Shellfish.Share
