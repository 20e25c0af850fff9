/-
C96: the tools that make rows (`id`, `tree`), `coord`, whole pipes, and `shell` followed by `stats`.
-/
import Verif.Props.Pipe
import Verif.Props.Penna

namespace Shellfish.Pipe
open Shellfish.Text Shellfish.Main
open Shellfish.Catalog
open Shellfish.Cmd (transpose)

variable {F : Type}

/-! ### `tree` and `id` -/

theorem selectLines_mem (a b : Int) (sel : List Int) : ∀ (ls : List Str) (ss : List Int), ∀ l ∈ Shellfish.Tree.selectLines a b sel ls ss, l ∈ ls
  | [], _, l, h => by cases h
  | _ :: _, [], l, h => by cases h
  | l0 :: ls, s :: ss, l, h => by
    unfold Shellfish.Tree.selectLines at h
    rcases List.mem_append.mp h with h | h
    · by_cases h1 : a ≤ s ∧ s ≤ b
      · rw [if_pos h1] at h
        by_cases h2 : sel ≠ []
        · rw [if_pos h2] at h
          obtain ⟨_, _, rfl⟩ := List.mem_map.mp h
          simp
        · rw [if_neg h2] at h
          rw [List.mem_singleton] at h
          simp [h]
      · rw [if_neg h1] at h; cases h
    · exact List.mem_cons_of_mem _ (selectLines_mem a b sel ls ss l h)

/-- C96, `tree`: the rows are replaced by the histories of the ids of the input (a row -1 -1 between two histories), restricted to the selected snapshots. -/
theorem C96_tree (ff : FloatFmt F) (fuel : Nat) (files : List Shellfish.Tree.File) (offset snapMin snapMax : Int) (select : List Int) (stdin : Str) (rows : List (Int × Int)) (hh : Holds ff stdin rows)
    (hs : List (List Int × List Int)) (hhs : Shellfish.Tree.haloHistories fuel files (rows.map Prod.fst) offset = .ok hs) (hl : ∀ h ∈ hs, h.1.length = h.2.length)
    (es : List (Int × Int)) (he : es = (Shellfish.Tree.entries (hs.map fun h => h.1.zip h.2)).flatMap fun e =>
      if snapMin ≤ e.2 ∧ e.2 ≤ snapMax then (if select ≠ [] then List.replicate (select.count e.2) e else [e]) else [])
    (hr : ∀ r ∈ es, (minInt ≤ r.1 ∧ r.1 ≤ maxInt) ∧ minInt ≤ r.2 ∧ r.2 ≤ maxInt) :
    ∃ out, treeRun ff fuel files offset snapMin snapMax select stdin = .lines out ∧ Holds ff (printed out) es := by
  obtain ⟨header, lines, e1, e2, e3⟩ := Shellfish.Tree.C45_lines fuel files offset snapMin snapMax select _ hs hhs hl
  rw [← he] at e3
  refine ⟨header :: lines, ?_, ?_⟩
  · unfold treeRun
    unfold Holds at hh
    rw [hh]
    simp only [andThen]
    rw [e1]
  · have hch : ∀ l ∈ lines, ∀ c ∈ l, c = ' ' ∨ numChar c := by
      unfold Shellfish.Tree.run at e1
      rw [hhs] at e1
      simp only [Option.bind_eq_some_iff, Option.map_eq_some_iff] at e1
      obtain ⟨ls, h1, c, _, h2⟩ := e1
      cases h2
      intro l hl
      exact formatCols_chars _ _ _ _ (by intro c hc; cases hc) ls h1 l (selectLines_mem _ _ _ _ _ l hl)
    rw [e2]
    exact printed_pairs ff " Column contents: ID(0) Snapshot(1)".toList (by decide) lines hch es hr e3

theorem keepLines_words (mult : Int) : ∀ (ls : List Str) (ids : List Int) (snap : Int) (ex : List Bool) (kept : List Str), ls.map (words ' ') = ids.map (fun i => [itoa i, itoa snap]) →
    keepLines mult ls ex = some kept → kept.map (words ' ') = (Shellfish.IdMode.rows ids ex snap mult).map (fun e => [itoa e.1, itoa e.2]) ∧ ∀ l ∈ kept, l ∈ ls
  | [], ids, snap, ex, kept, h1, h2 => by
    have : ids = [] := by simpa using h1
    subst this
    cases h2
    exact ⟨rfl, by simp⟩
  | l :: ls, ids, snap, [], kept, h1, h2 => by cases h2
  | l :: ls, [], snap, e :: es, kept, h1, h2 => by simp at h1
  | l :: ls, i :: ids, snap, e :: es, kept, h1, h2 => by
    rw [List.map_cons, List.map_cons, List.cons.injEq] at h1
    unfold keepLines at h2
    rw [Option.map_eq_some_iff] at h2
    obtain ⟨rest, hr, rfl⟩ := h2
    obtain ⟨k1, k2⟩ := keepLines_words mult ls ids snap es rest h1.2 hr
    have e0 : Shellfish.IdMode.rows (i :: ids) (e :: es) snap mult = (if e then [] else List.replicate mult.toNat (i, snap)) ++ Shellfish.IdMode.rows ids es snap mult := by
      unfold Shellfish.IdMode.rows
      cases e <;> simp
    rw [e0]
    cases e with
    | true => exact ⟨by simpa using k1, fun l' hl' => List.mem_cons_of_mem _ (k2 l' hl')⟩
    | false =>
      refine ⟨by simp [k1, h1.1], ?_⟩
      intro l' hl'
      simp only [Bool.false_eq_true, if_false, List.mem_append, List.mem_replicate] at hl'
      rcases hl' with h | h
      · simp [h.2]
      · exact List.mem_cons_of_mem _ (k2 l' h)

/-- C96, `id`: what `id` prints is a catalog of the ids that are not excluded, `Mult` times each, at the snapshot of the configuration. -/
theorem C96_id (ff : FloatFmt F) (ids : List Int) (snap : Int) (exclude : List Bool) (mult : Int) (hi : ∀ x ∈ ids, minInt ≤ x ∧ x ≤ maxInt) (hs : minInt ≤ snap ∧ snap ≤ maxInt) (out : List Str)
    (h : idLines ids (List.replicate ids.length snap) exclude mult = .lines out) :
    Holds ff (printed out) (((ids.zip exclude).filter fun p => !p.2).flatMap fun p => List.replicate mult.toNat (p.1, snap)) := by
  change Holds ff (printed out) (Shellfish.IdMode.rows ids exclude snap mult)
  unfold idLines at h
  cases h1 : formatCols (F := Unit) ⟨fun _ => [], fun _ => none⟩ [ids, List.replicate ids.length snap] [] [0, 1] with
  | none => rw [h1] at h; cases h
  | some ls =>
    rw [h1] at h
    dsimp only at h
    cases h2 : keepLines mult ls exclude with
    | none => rw [h2] at h; cases h
    | some kept =>
      have h3 : commentString [chars "ID", chars "Snapshot"] [] [0, 1] [1, 1] = some ('#' :: " Column contents: ID(0) Snapshot(1)".toList) := by decide +kernel
      rw [h2, h3] at h
      cases h
      have hw : ls.map (words ' ') = ids.map fun i => [itoa i, itoa snap] := by
        by_cases h0 : ids = []
        · subst h0
          simp [formatCols] at h1
          simp [← h1]
        · have hpos : 0 < ids.length := List.length_pos_iff.mpr h0
          obtain ⟨ls', w1, w2, w3⟩ := C09_words (F := Unit) ⟨fun _ => [], fun _ => none⟩ ids.length hpos [ids, List.replicate ids.length snap] [] [0, 1] (Or.inl (by simp))
            (by
              intro c hc
              simp only [List.mem_cons, List.not_mem_nil, or_false] at hc
              rcases hc with rfl | rfl <;> simp)
            (by intro c hc; cases hc)
            (by intro o ho; simp only [List.mem_cons, List.not_mem_nil, or_false] at ho; simp; omega) (by simp)
          rw [h1] at w1
          cases w1
          apply List.ext_getElem (by simp [w2])
          intro i i1 i2
          have hi' : i < ids.length := by simpa using i2
          obtain ⟨l, g1, g2⟩ := w3 i hi'
          rw [List.getElem_map, List.getElem_map]
          have : ls[i]'(by simpa using i1) = l := (List.getElem?_eq_some_iff.mp g1).2
          rw [this, g2]
          simp [cellText, hi']
      obtain ⟨k1, k2⟩ := keepLines_words mult ls ids snap exclude kept hw h2
      have hch := formatCols_chars _ _ _ _ (by intro c hc; cases hc) ls h1
      refine printed_pairs ff _ (by decide) kept (fun l hl => hch l (k2 l hl)) _ ?_ k1
      intro r hr
      unfold Shellfish.IdMode.rows at hr
      obtain ⟨p, hp, hr⟩ := List.mem_flatMap.mp hr
      rw [List.eq_of_mem_replicate hr]
      exact ⟨hi _ (List.of_mem_zip (List.mem_of_mem_filter hp)).1, hs⟩

/-! ### Pipes -/

/-- What a tool prints: nothing for an empty input; a report; nothing after a panic; or the lines of its run. -/
theorem stage_out (d : Deps) (hq : d.Quiet) (mode : Str) (rest : List Str) (ht : Takes (mode :: rest)) (hx : ∀ data t, d.run mode data ≠ .exit t) (data : Str) :
    Reports (main d (mode :: rest) (some data)) ∨ (main d (mode :: rest) (some data)).out = [] ∨
      ∃ l, d.run mode data = .lines l ∧ main d (mode :: rest) (some data) = ⟨0, printed l⟩ := by
  have hx' : ∀ e : Exit, e = ⟨1, println terminating⟩ → Reports e := by
    rintro e rfl
    exact ⟨rfl, terminating, by decide, by decide, rfl⟩
  rw [main_takes d mode rest ht]
  by_cases h1 : data = []
  · rw [if_pos h1]; exact Or.inr (Or.inl rfl)
  · rw [if_neg h1]
    by_cases h2 : 9 ≤ lineEnd data ∧ data.take 9 = chars "Shellfish"
    · rw [if_pos h2]
      refine Or.inl ⟨rfl, data.take (lineEnd data), ?_, ?_, rfl⟩
      · have e : data.take (lineEnd data) = data.takeWhile fun c => decide (c ≠ '\n') := by
          unfold lineEnd
          exact (List.prefix_iff_eq_take.mp (List.takeWhile_prefix _)).symm
        rw [e]
        intro hm
        have := List.mem_takeWhile_imp hm
        simp at this
      · rw [← h2.2]
        exact (List.take_prefix_take_left h2.1)
    · rw [if_neg h2]
      unfold runMode
      obtain ⟨q1, q2, q3⟩ := hq
      rw [q1, q2]
      cases hg : d.global with
      | none => exact Or.inl (hx' _ rfl)
      | some s =>
        dsimp only
        cases d.readMode mode (Shellfish.Config.getConfig rest) (Shellfish.Config.getFlags rest) with
        | err => exact Or.inl (hx' _ rfl)
        | panic => exact Or.inr (Or.inl rfl)
        | ok =>
          cases d.memo with
          | err => exact Or.inl (hx' _ rfl)
          | panic => exact Or.inr (Or.inl rfl)
          | ok =>
            simp only [Step.next, List.nil_append]
            by_cases h3 : mode ∈ snapshotModes ∧ s.snapshotType = chars "nil"
            · rw [if_pos h3]
              exact Or.inl ⟨rfl, chars "Shellfish terminating", by decide, by decide, rfl⟩
            · rw [if_neg h3]
              cases d.catalogs with
              | err => exact Or.inl (hx' _ rfl)
              | panic => exact Or.inr (Or.inl rfl)
              | ok =>
                dsimp only
                cases initHalos mode s d.textHalo with
                | err => exact Or.inl (hx' _ rfl)
                | panic => exact Or.inr (Or.inl rfl)
                | ok =>
                  dsimp only
                  rw [if_neg (not_not.mpr (show s.logging ∈ knownLogging from q3 s hg))]
                  cases hr : d.run mode data with
                  | lines l => exact Or.inr (Or.inr ⟨l, rfl, rfl⟩)
                  | err => exact Or.inl (hx' _ rfl)
                  | panic => exact Or.inr (Or.inl rfl)
                  | exit t => exact absurd hr (hx data t)

/-- A command of a pipe that keeps the halos of its input (or prints nothing, as `prof` may). -/
def Stage (ff : FloatFmt F) (st : Deps × List Str) : Prop :=
  st.1.Quiet ∧ ∃ mode rest, st.2 = mode :: rest ∧ Takes st.2 ∧ KeepsOrNothing ff (st.1.run mode) ∧ ∀ data t, st.1.run mode data ≠ .exit t

theorem stage_takes (ff : FloatFmt F) {stages : List (Deps × List Str)} (hs : ∀ st ∈ stages, Stage ff st) : ∀ st ∈ stages, Takes st.2 := by
  intro st hst
  obtain ⟨_, _, _, _, h, _⟩ := hs st hst
  exact h

/-- C96: whatever the pipe, with any number of tools, if its last command ends with status 0 then it printed nothing, or it printed exactly the halos that went into the pipe, in the same order.
(Nothing is printed when a command of the pipe panicked, `C85_panic_false`, or when `prof` stopped early.) -/
theorem C96_pipe (ff : FloatFmt F) (stages : List (Deps × List Str)) (hs : ∀ st ∈ stages, Stage ff st) (e : Exit) (rows : List (Int × Int)) (he : Holds ff e.out rows)
    (h : (pipe stages e).status = 0) : (pipe stages e).out = [] ∨ Holds ff (pipe stages e).out rows := by
  have key : ∀ (stages : List (Deps × List Str)), (∀ st ∈ stages, Stage ff st) → ∀ e : Exit, (e.out = [] ∨ Holds ff e.out rows) → (pipe stages e).status = 0 →
      (pipe stages e).out = [] ∨ Holds ff (pipe stages e).out rows := by
    intro stages
    induction stages with
    | nil => intro _ e he _; exact he
    | cons st stages ih =>
      intro hs e he h
      obtain ⟨hq, mode, rest, h2, ht, hk, hx⟩ := hs st (by simp)
      obtain ⟨d, args⟩ := st
      dsimp only at hq h2 ht hk hx
      subst h2
      unfold pipe at h ⊢
      have hs' : ∀ st ∈ stages, Stage ff st := fun st hst => hs st (by simp [hst])
      rcases stage_out d hq mode rest ht hx e.out with hr | hr | ⟨l, hr1, hr2⟩
      · rw [C85_reported stages (stage_takes ff hs') _ hr] at h
        have := hr.1
        omega
      · exact ih hs' _ (Or.inl hr) h
      · rcases he with he | he
        · rw [main_takes d mode rest ht, if_pos he] at h ⊢
          exact ih hs' _ (Or.inl rfl) h
        · refine ih hs' _ ?_ h
          rw [hr2]
          rcases hk e.out rows l he hr1 with rfl | h3
          · exact Or.inl rfl
          · exact Or.inr h3
  exact key stages hs e (Or.inr he) h

/-! ### `shell | stats` -/

theorem transpose_rows {β : Type} (inp : List (List β)) (c : Nat) (hc : 0 < c) (hne : inp ≠ []) (hr : ∀ r ∈ inp, r.length = c) : ∃ cols, transpose inp = some cols ∧ cols.length = c ∧
    (∀ col ∈ cols, col.length = inp.length) ∧ ∀ k, 0 < k → k ≤ c → transpose (cols.take k) = some (inp.map (·.take k)) := by
  obtain ⟨cols, h1, h2, h3, h4⟩ := Shellfish.Cmd.C68_transpose inp c hne hr
  refine ⟨cols, h1, h2, h3, ?_⟩
  intro k hk hkc
  have hlen : (cols.take k).length = k := by rw [List.length_take, h2]; omega
  have hpos : 0 < inp.length := List.length_pos_iff.mpr hne
  obtain ⟨back, g1, g2, g3, g4⟩ := Shellfish.Cmd.C68_transpose (cols.take k) inp.length (by intro h; rw [h] at hlen; simp at hlen; omega) (fun r hr' => h3 r (List.mem_of_mem_take hr'))
  rw [g1]
  congr 1
  apply List.ext_getElem (by simp [g2])
  intro y y1 y2
  have hy : y < inp.length := by omega
  have hb : (back[y]'y1).length = k := by rw [g3 _ (List.getElem_mem _), hlen]
  have hi : inp[y].length = c := hr _ (List.getElem_mem _)
  rw [List.getElem_map]
  apply List.ext_getElem (by rw [hb, List.length_take, hi]; omega)
  intro x x1 x2
  have hx : x < k := by omega
  have a := g4 y hy x
  rw [List.getElem?_eq_getElem y1, Option.bind_some, List.getElem?_eq_getElem x1, List.getElem?_take, if_pos hx, h4 x (by omega) y, List.getElem?_eq_getElem hy, Option.bind_some,
    List.getElem?_eq_getElem (by omega)] at a
  rw [List.getElem_take]
  exact Option.some.inj a

/-- C09: a column of IDs holds exactly the 64-bit integers: the decimal text of `n` is read back as `n` when it is in range,
and is an error otherwise. -/
theorem C09_int64 (n : Int) : (-9223372036854775808 ≤ n ∧ n ≤ 9223372036854775807 → atoi (itoa n) = some n) ∧
    (¬ (-9223372036854775808 ≤ n ∧ n ≤ 9223372036854775807) → atoi (itoa n) = none) := by
  constructor
  · rintro ⟨h1, h2⟩
    exact atoi_itoa n (by unfold minInt; exact h1) (by unfold maxInt; exact h2)
  · intro h
    have hr : ∀ m : Int, m = n → inIntRange m = none := by
      rintro m rfl
      unfold inIntRange minInt maxInt
      rw [if_neg h]
    unfold itoa
    by_cases hn : n < 0
    · rw [if_pos hn]
      simp only [atoi, natVal_natDigits, Option.bind_some]
      exact hr _ (by omega)
    · rw [if_neg hn]
      obtain ⟨c, t, hct, hc⟩ : ∃ c t, natDigits n.natAbs = c :: t ∧ c ≠ '-' ∧ c ≠ '+' := by
        match hs : natDigits n.natAbs with
        | [] => exact absurd hs (natDigits_ne_nil _)
        | c :: cs =>
          obtain ⟨d, hd, rfl⟩ := natDigits_digits n.natAbs c (by rw [hs]; simp)
          exact ⟨_, cs, rfl, digitChar_ne d hd _ (by decide), digitChar_ne d hd _ (by decide)⟩
      have hv := natVal_natDigits n.natAbs
      rw [hct] at hv ⊢
      unfold atoi
      split
      · rename_i heq; cases heq; exact absurd rfl hc.1
      · rename_i heq; cases heq; exact absurd rfl hc.2
      · rw [hv, Option.bind_some]
        exact hr _ (by omega)

example : atoi (itoa 9223372036854775807) = some 9223372036854775807 ∧ atoi (itoa 9223372036854775808) = none ∧
    atoi (itoa (-9223372036854775808)) = some (-9223372036854775808) :=
  ⟨(C09_int64 _).1 (by norm_num), (C09_int64 _).2 (by norm_num), (C09_int64 _).1 (by norm_num)⟩

variable (ff : FloatFmt F) (rd : F → F) (hff : Reads ff rd)
include hff

/-- C98, `shell | stats`: what `stats` of Order `o'` computes with, when it reads what `shell` printed: the ids and snapshots, the coordinates that `shell` was given, and the first 2 o'² coefficients of the
shell of each halo, each rounded by one printing and reading. -/
theorem C98_shell_stats (loop : List Int → List Int → List (List F) → Out (Nat → List F)) (stdin : Str) (rows : List (Int × Int)) (hh : Holds ff stdin rows) (coords : List (List F))
    (hco : parse ff stdin [0, 1] [2, 3, 4, 5] = .ok ([rows.map Prod.fst, rows.map Prod.snd], coords)) (res : Nat → List F)
    (hres : loop (rows.map Prod.fst) (rows.map Prod.snd) coords = .ok res) (o : Nat) (hshape : ∀ i < rows.length, (res i).length = 2 * o * o) (out : List Str) (h : shellRun ff loop stdin = .lines out)
    (o' : Nat) (hpos : 0 < o') (ho : o' ≤ o) (stats : List Int → List Int → List (List F) → List (List F) → Out (Nat → Fin 12 → F)) :
    statsRun ff o' stats (printed out) = andThen (stats (rows.map Prod.fst) (rows.map Prod.snd) (coords.map fun c => c.map rd) ((List.range rows.length).map fun i => ((res i).take (2 * o' * o')).map rd))
      (statsOut ff (rows.map Prod.fst) (rows.map Prod.snd)) := by
  obtain ⟨coords', res', cols, h1, h2, h3, h4, h5, h6, h7⟩ := shell_reads ff rd hff loop stdin rows hh out h
  rw [hco] at h1
  cases h1
  rw [hres] at h3
  cases h3
  have hpos' : 0 < rows.length := List.length_pos_iff.mpr h2
  have ho0 : 0 < 2 * o * o := Nat.mul_pos (Nat.mul_pos (by norm_num) (by omega)) (by omega)
  have hk0 : 0 < 2 * o' * o' := Nat.mul_pos (Nat.mul_pos (by norm_num) hpos) hpos
  have hk : 2 * o' * o' ≤ 2 * o * o := Nat.mul_le_mul (Nat.mul_le_mul_left _ ho) ho
  obtain ⟨cols', t1, t2, t3, t4⟩ := transpose_rows ((List.range rows.length).map res) (2 * o * o) ho0 (by simpa using h2) (by
    intro r hr
    obtain ⟨i, hi, rfl⟩ := List.mem_map.mp hr
    exact hshape i (List.mem_range.mp hi))
  rw [h4] at t1
  cases t1
  set k := 2 * o' * o' with hkdef
  have e0 : (List.range (4 + k)).map (fun j => ((coords ++ cols).getD j []).map rd) = (coords ++ cols.take k).map fun c => c.map rd := by
    apply List.ext_getElem
    · simp only [List.length_map, List.length_range, List.length_append, List.length_take, t2, h6]; omega
    · intro j j1 j2
      rw [List.getElem_map, List.getElem_range, List.getElem_map]
      congr 1
      simp only [List.length_map, List.length_range] at j1
      rw [List.getD_eq_getElem _ _ (by rw [List.length_append, h6, t2]; omega)]
      by_cases hj : j < 4
      · rw [List.getElem_append_left (by omega), List.getElem_append_left (by omega)]
      · rw [List.getElem_append_right (by omega), List.getElem_append_right (by omega), List.getElem_take]
  have hp := h7 (List.range (4 + k)) (by
    intro j hj
    rw [List.mem_range] at hj
    rw [hshape 0 hpos']
    omega)
  rw [e0] at hp
  unfold statsRun
  rw [hp]
  simp only [andThen]
  have e1 : ((coords ++ cols.take k).map fun c => c.map rd).drop 4 = (cols.take k).map fun c => c.map rd := by
    rw [List.map_append, List.drop_append_of_le_length (by simp [h6])]
    simp [h6]
  have e2 : ((coords ++ cols.take k).map fun c => c.map rd).take 4 = coords.map fun c => c.map rd := by
    rw [List.map_append, List.take_append_of_le_length (by simp [h6]), List.take_of_length_le (by simp [h6])]
  rw [e1, e2]
  have tmap : ∀ (m : List (List F)) (r : List (List F)), transpose m = some r → transpose (m.map fun c => c.map rd) = some (r.map fun c => c.map rd) := by
    have hm : ∀ {α β γ : Type} (f : α → Option β) (g : β → γ) (l : List α) (r : List β), l.mapM f = some r → l.mapM (fun a => (f a).map g) = some (r.map g) := by
      intro α β γ f g l
      induction l with
      | nil => intro r h; cases h; rfl
      | cons a l ih =>
        intro r h
        rw [List.mapM_cons] at h ⊢
        simp only [Option.bind_eq_bind, Option.bind_eq_some_iff] at h
        obtain ⟨b, hb, r', hr', h⟩ := h
        cases h
        rw [hb, ih r' hr']
        rfl
    intro m r h
    unfold transpose at h ⊢
    cases m with
    | nil => cases h
    | cons r0 rest =>
      dsimp only at h
      change ((List.range (r0.map rd).length).mapM fun x => ((r0 :: rest).map fun c => c.map rd).mapM fun r => r[x]?) = _
      rw [List.length_map]
      have := hm _ (fun c : List F => c.map rd) _ _ h
      rw [← this]
      congr 1
      funext x
      have hin : ∀ l : List (List F), (l.map fun c => c.map rd).mapM (fun r => r[x]?) = (l.mapM fun r => r[x]?).map fun c => c.map rd := by
        intro l
        induction l with
        | nil => rfl
        | cons a l ih =>
          rw [List.map_cons, List.mapM_cons, List.mapM_cons, ih, List.getElem?_map]
          cases a[x]? with
          | none => rfl
          | some b =>
            cases l.mapM fun r => r[x]? with
            | none => rfl
            | some bs => rfl
      exact hin (r0 :: rest)
  have t5 := tmap _ _ (t4 k hk0 hk)
  unfold withCols
  rw [t5]
  dsimp only
  rw [if_neg (by rw [List.length_map]; omega), List.map_map, List.map_map]
  rfl

end Shellfish.Pipe
