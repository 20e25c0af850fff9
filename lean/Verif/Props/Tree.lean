/-
C45: tree mode.
-/
import Verif.Model.Tree
import Verif.Props.CatalogWords
import Verif.Props.Group
import Mathlib.Data.List.GetD

namespace Shellfish.Tree
open Shellfish.Catalog Shellfish.Text

/-! Specification -/

/-- `l` are the halos reached from `h` one after the other until there is no next one. -/
def Chain (next : Int → Option Int) : Int → List Int → Prop
  | h, [] => next h = none
  | h, a :: l => next h = some a ∧ Chain next a l

/-- A tree file whose links respect time: list 0 is the last snapshot; a halo is in the list of its own index; descendants are in earlier lists, progenitors in later lists. -/
structure File.Ok (t : File) : Prop where
  index : ∀ (i : Nat) l h, t.lists[i]? = some l → h ∈ l → t.index h = i
  desc : ∀ h d, t.desc h = some d → (∃ l ∈ t.lists, h ∈ l) → (∃ l ∈ t.lists, d ∈ l) ∧ t.index d < t.index h
  prog : ∀ h p, t.prog h = some p → (∃ l ∈ t.lists, h ∈ l) → (∃ l ∈ t.lists, p ∈ l) ∧ t.index h < t.index p

/-- A halo is in a file. -/
def File.Has (t : File) (h : Int) : Prop := ∃ l ∈ t.lists, h ∈ l

/-- The history of a halo: its line of progenitors, the earliest first, the halo, and its line of descendants, with their snapshots (list 0 is snapshot `number of lists`, shifted by the
offset). -/
def IsHistory (t : File) (offset : Int) (root : Int) (hist : List (Int × Int)) : Prop :=
  ∃ past future, Chain t.prog root past ∧ Chain t.desc root future ∧
    hist = (past.reverse ++ [root] ++ future).map fun h => (h, t.lists.length - t.index h + offset)

/-! Proofs -/

theorem has_index {t : File} (ok : t.Ok) {h : Int} (hh : t.Has h) : 0 ≤ t.index h ∧ t.index h < t.lists.length := by
  obtain ⟨l, hl, hm⟩ := hh
  obtain ⟨i, hi⟩ := List.mem_iff_getElem?.mp hl
  have := ok.index i l h hi hm
  have := (List.getElem?_eq_some_iff.mp hi).1
  omega

theorem findHaloFrom_eq (n : Nat) (id : Int) : ∀ (ls : List (List Int)) (i : Nat),
    (∀ v, findHaloFrom n id ls i = some v → ∃ k, (∃ l, ls[k]? = some l ∧ id ∈ l) ∧ v = n - (i + k : Nat)) ∧ (findHaloFrom n id ls i = none ↔ ∀ l ∈ ls, id ∉ l)
  | [], i => ⟨by (intro v h; cases h), by simp [findHaloFrom]⟩
  | l :: ls, i => by
    unfold findHaloFrom
    obtain ⟨h1, h2⟩ := findHaloFrom_eq n id ls (i + 1)
    split_ifs with hm
    · refine ⟨?_, ?_⟩
      · intro v hv
        cases hv
        exact ⟨0, ⟨l, rfl, hm⟩, by simp⟩
      · simp [hm]
    · refine ⟨?_, ?_⟩
      · intro v hv
        obtain ⟨k, ⟨l', hk, hid⟩, hv⟩ := h1 v hv
        exact ⟨k + 1, ⟨l', hk, hid⟩, by rw [hv]; congr 2; omega⟩
      · rw [h2]; simp [hm]

theorem findHalo_eq {t : File} (ok : t.Ok) (id : Int) : (t.Has id → findHalo t id = some (t.lists.length - t.index id)) ∧ (¬ t.Has id → findHalo t id = none) := by
  obtain ⟨h1, h2⟩ := findHaloFrom_eq t.lists.length id t.lists 0
  refine ⟨fun hh => ?_, fun hh => ?_⟩
  · cases hf : findHaloFrom t.lists.length id t.lists 0 with
    | none =>
      rw [h2] at hf
      obtain ⟨l, hl, hm⟩ := hh
      exact absurd hm (hf l hl)
    | some v =>
      obtain ⟨k, ⟨l, hk, hm⟩, hv⟩ := h1 v hf
      unfold findHalo
      rw [hf, hv, ok.index k l id hk hm]
      simp
  · exact h2.mpr fun l hl hm => hh ⟨l, hl, hm⟩

theorem follow_eq (t : File) (next : Int → Option Int) (m : Int → Nat) (P : Int → Prop) (hm : ∀ h a, P h → next h = some a → P a ∧ m a < m h) :
    ∀ (fuel : Nat) (h : Int), P h → m h ≤ fuel → ∃ l, Chain next h l ∧ (∀ a ∈ l, P a ∧ m a < m h) ∧ l.Pairwise (fun a b => m b < m a) ∧
      follow t next fuel h = some (l, l.map fun a => t.lists.length - t.index a)
  | fuel, h, hP, hf => by
    cases hn : next h with
    | none =>
      refine ⟨[], hn, by simp, List.Pairwise.nil, ?_⟩
      unfold follow
      rw [hn]
      rfl
    | some a =>
      obtain ⟨hPa, hlt⟩ := hm h a hP hn
      cases fuel with
      | zero => omega
      | succ fuel =>
        obtain ⟨l, h1, h2, h3, h4⟩ := follow_eq t next m P hm fuel a hPa (by omega)
        refine ⟨a :: l, ⟨hn, h1⟩, ?_, ?_, ?_⟩
        · intro b hb
          rcases List.mem_cons.mp hb with rfl | hb
          · exact ⟨hPa, hlt⟩
          · exact ⟨(h2 b hb).1, lt_trans (h2 b hb).2 hlt⟩
        · exact List.pairwise_cons.mpr ⟨fun b hb => (h2 b hb).2, h3⟩
        · unfold follow
          rw [hn]
          dsimp only
          rw [h4]
          rfl

theorem chain_unique (next : Int → Option Int) : ∀ (l l' : List Int) (h : Int), Chain next h l → Chain next h l' → l = l'
  | [], [], _, _, _ => rfl
  | [], a :: l', h, h1, h2 => by rw [Chain] at h1; rw [h2.1] at h1; cases h1
  | a :: l, [], h, h1, h2 => by rw [Chain] at h2; rw [h1.1] at h2; cases h2
  | a :: l, b :: l', h, h1, h2 => by
    have : a = b := by have := h1.1.symm.trans h2.1; exact Option.some.inj this
    subst this
    rw [chain_unique next l l' a h1.2 h2.2]

/-- A halo has one history only. -/
theorem history_unique (t : File) (offset root : Int) (a b : List (Int × Int)) (ha : IsHistory t offset root a) (hb : IsHistory t offset root b) : a = b := by
  obtain ⟨p, f, h1, h2, rfl⟩ := ha
  obtain ⟨p', f', h1', h2', rfl⟩ := hb
  rw [chain_unique _ _ _ _ h1 h1', chain_unique _ _ _ _ h2 h2']

/-- C45 (one halo): the search finds a halo exactly when it is in the file; its history is complete, from the first progenitor to the last descendant, and has one entry per snapshot in
order of time. -/
theorem C45_history (t : File) (ok : t.Ok) (offset root : Int) (fuel : Nat) (hf : t.lists.length ≤ fuel) :
    (¬ t.Has root → findHistory t fuel root = some none) ∧
    (t.Has root → ∃ r hist, findHistory t fuel root = some (some r) ∧ IsHistory t offset root hist ∧ hist = r.1.zip (r.2.map (· + offset)) ∧ r.1.length = r.2.length ∧
      (hist.map Prod.snd).Pairwise (· < ·) ∧ ∃ s, (root, s) ∈ hist) := by
  refine ⟨fun hh => ?_, fun hh => ?_⟩
  · unfold findHistory
    rw [(findHalo_eq ok root).2 hh]
  obtain ⟨i1, i2⟩ := has_index ok hh
  obtain ⟨d, d1, d2, d3, d4⟩ := follow_eq t t.desc (fun h => (t.index h).toNat) t.Has (fun h a hP ha => by
    obtain ⟨q1, q2⟩ := ok.desc h a ha hP
    have := has_index ok hP
    have := has_index ok (show t.Has a from q1)
    exact ⟨q1, by omega⟩) fuel root hh (by omega)
  obtain ⟨p, p1, p2, p3, p4⟩ := follow_eq t t.prog (fun h => t.lists.length - (t.index h).toNat) t.Has (fun h a hP ha => by
    obtain ⟨q1, q2⟩ := ok.prog h a ha hP
    have := has_index ok hP
    have := has_index ok (show t.Has a from q1)
    exact ⟨q1, by omega⟩) fuel root hh (by omega)
  refine ⟨(p.reverse ++ [root] ++ d, (p.map fun a => (t.lists.length : Int) - t.index a).reverse ++ [(t.lists.length : Int) - t.index root] ++ d.map fun a => (t.lists.length : Int) - t.index a),
    (p.reverse ++ [root] ++ d).map fun h => (h, t.lists.length - t.index h + offset), ?_, ⟨p, d, p1, d1, rfl⟩, ?_, by simp, ?_, ⟨(t.lists.length : Int) - t.index root + offset, ?_⟩⟩
  · unfold findHistory
    rw [(findHalo_eq ok root).1 hh, d4, p4]
    rfl
  · dsimp only
    have : (p.map fun a => (t.lists.length : Int) - t.index a).reverse ++ [(t.lists.length : Int) - t.index root] ++ (d.map fun a => (t.lists.length : Int) - t.index a) =
        (p.reverse ++ [root] ++ d).map fun a => (t.lists.length : Int) - t.index a := by simp
    rw [this, List.map_map, List.zip_map_right]
    generalize p.reverse ++ [root] ++ d = l
    induction l with
    | nil => rfl
    | cons a l ih => simp [ih]
  · rw [List.map_map]
    have hroot : ∀ a ∈ p, t.index root < t.index a := fun a ha => by
      have := (p2 a ha).2
      have := has_index ok (p2 a ha).1
      omega
    have hroot' : ∀ a ∈ d, t.index a < t.index root := fun a ha => by
      have := (d2 a ha).2
      have := has_index ok (d2 a ha).1
      omega
    rw [List.pairwise_map]
    have hp' : p.Pairwise fun a b => t.index a < t.index b := p3.imp_of_mem fun {a b} ha hb h => by
      have := has_index ok (p2 a ha).1
      have := has_index ok (p2 b hb).1
      omega
    have hd' : d.Pairwise fun a b => t.index b < t.index a := d3.imp_of_mem fun {a b} ha hb h => by
      have := has_index ok (d2 a ha).1
      have := has_index ok (d2 b hb).1
      omega
    have : (p.reverse ++ [root] ++ d).Pairwise fun a b => t.index b < t.index a := by
      rw [List.pairwise_append, List.pairwise_append, List.pairwise_reverse]
      refine ⟨⟨hp', List.pairwise_singleton _ _, fun a ha b hb => ?_⟩, hd', fun a ha b hb => ?_⟩
      · rw [List.mem_singleton] at hb
        subst hb
        exact hroot a (List.mem_reverse.mp ha)
      · rcases List.mem_append.mp ha with ha | ha
        · exact lt_trans (hroot' b hb) (hroot a (List.mem_reverse.mp ha))
        · rw [List.mem_singleton] at ha
          subst ha
          exact hroot' b hb
    refine this.imp fun {a b} h => ?_
    show (t.lists.length : Int) - t.index a + offset < t.lists.length - t.index b + offset
    omega
  · exact List.mem_map.mpr ⟨root, by simp, rfl⟩

/-! ### Several files -/

/-- `t` is the first of the files that has the halo. -/
def FirstHas (files : List File) (root : Int) (t : File) : Prop := ∃ pre post, files = pre ++ t :: post ∧ t.Has root ∧ ∀ u ∈ pre, ¬ u.Has root

/-- The state of the search for one root after the files `pre`. -/
def Found (fuel : Nat) (pre : List File) (root : Int) : Option (List Int × List Int) → Prop
  | none => ∀ t ∈ pre, ¬ t.Has root
  | some x => ∃ t, FirstHas pre root t ∧ findHistory t fuel root = some (some x)

theorem FirstHas.append {pre : List File} {root : Int} {t : File} (h : FirstHas pre root t) (ts : List File) : FirstHas (pre ++ ts) root t := by
  obtain ⟨a, b, rfl, h2, h3⟩ := h
  exact ⟨a, b ++ ts, by simp, h2, h3⟩

theorem searchFile_eq (fuel : Nat) (pre : List File) (t : File) (ok : t.Ok) (hf : t.lists.length ≤ fuel) :
    ∀ (roots : List Int) (rs : List (Option (List Int × List Int))), List.Forall₂ (Found fuel pre) roots rs →
      ∃ rs', searchFile t fuel roots rs = some rs' ∧ List.Forall₂ (Found fuel (pre ++ [t])) roots rs'
  | _, _, .nil => ⟨[], rfl, .nil⟩
  | id :: roots, r :: rs, .cons h hs => by
    obtain ⟨rs', e, h'⟩ := searchFile_eq fuel pre t ok hf roots rs hs
    cases r with
    | some x =>
      obtain ⟨u, hu, hx⟩ := h
      refine ⟨some x :: rs', ?_, .cons ⟨u, hu.append _, hx⟩ h'⟩
      unfold searchFile
      dsimp only
      rw [e]
      rfl
    | none =>
      obtain ⟨c1, c2⟩ := C45_history t ok 0 id fuel hf
      by_cases hh : t.Has id
      · obtain ⟨x, _, hx, _⟩ := c2 hh
        refine ⟨some x :: rs', ?_, .cons ⟨t, ⟨pre, [], rfl, hh, h⟩, hx⟩ h'⟩
        unfold searchFile
        dsimp only
        rw [e, hx]
        rfl
      · refine ⟨none :: rs', ?_, .cons ?_ h'⟩
        · unfold searchFile
          dsimp only
          rw [e, c1 hh]
          rfl
        · intro u hu
          rcases List.mem_append.mp hu with hu | hu
          · exact h u hu
          · rw [List.mem_singleton] at hu
            subst hu
            exact hh

theorem forall2_append_files (fuel : Nat) (pre ts : List File) : ∀ (roots : List Int) (rs : List (Option (List Int × List Int))), rs.all (·.isSome) = true →
    List.Forall₂ (Found fuel pre) roots rs → List.Forall₂ (Found fuel (pre ++ ts)) roots rs
  | _, _, _, .nil => .nil
  | id :: roots, r :: rs, ha, .cons h hs => by
    rw [List.all_cons, Bool.and_eq_true] at ha
    refine .cons ?_ (forall2_append_files fuel pre ts roots rs ha.2 hs)
    cases r with
    | none => cases ha.1
    | some x =>
      obtain ⟨u, hu, hx⟩ := h
      exact ⟨u, hu.append _, hx⟩

theorem searchFiles_eq (fuel : Nat) (roots : List Int) : ∀ (ts pre : List File) (rs : List (Option (List Int × List Int))),
    (∀ t ∈ ts, t.Ok ∧ t.lists.length ≤ fuel) → List.Forall₂ (Found fuel pre) roots rs →
      ∃ rs', searchFiles fuel roots ts rs = some rs' ∧ List.Forall₂ (Found fuel (pre ++ ts)) roots rs'
  | [], pre, rs, _, h => ⟨rs, rfl, by simpa using h⟩
  | t :: ts, pre, rs, hok, h => by
    obtain ⟨rs', e, h'⟩ := searchFile_eq fuel pre t (hok t (by simp)).1 (hok t (by simp)).2 roots rs h
    unfold searchFiles
    rw [e, Option.bind_some]
    split_ifs with ha
    · refine ⟨rs', rfl, ?_⟩
      have := forall2_append_files fuel (pre ++ [t]) ts roots rs' ha h'
      simpa using this
    · obtain ⟨rs'', e', h''⟩ := searchFiles_eq fuel roots ts (pre ++ [t]) rs' (fun u hu => hok u (by simp [hu])) h'
      exact ⟨rs'', e', by simpa using h''⟩

/-- C45 (several files): the histories are those of the first file that has each halo, in the order of the roots; a root that is in no file is an error. -/
theorem C45_histories (fuel : Nat) (files : List File) (roots : List Int) (offset : Int) (hok : ∀ t ∈ files, t.Ok ∧ t.lists.length ≤ fuel) :
    ((∃ root ∈ roots, ∀ t ∈ files, ¬ t.Has root) → haloHistories fuel files roots offset = .err) ∧
    ((∀ root ∈ roots, ∃ t ∈ files, t.Has root) → ∃ hs, haloHistories fuel files roots offset = .ok hs ∧
      List.Forall₂ (fun root h => h.1.length = h.2.length ∧ ∃ t, FirstHas files root t ∧ IsHistory t offset root (h.1.zip h.2)) roots hs) := by
  have hinit : List.Forall₂ (Found fuel []) roots (roots.map fun _ => none) := by
    clear hok
    induction roots with
    | nil => exact .nil
    | cons a l ih => exact .cons (fun t ht => by cases ht) ih
  obtain ⟨rs, e, h⟩ := searchFiles_eq fuel roots files [] _ hok hinit
  rw [List.nil_append] at h
  refine ⟨fun hex => ?_, fun hall => ?_⟩
  · have hne : roots ≠ [] := by
      obtain ⟨root, hr, _⟩ := hex
      intro h0
      rw [h0] at hr
      cases hr
    unfold haloHistories
    rw [if_neg hne, e]
    dsimp only
    have hn : rs.mapM id = none := by
      clear e hinit hne
      obtain ⟨root, hr, hno⟩ := hex
      induction h with
      | nil => cases hr
      | @cons a b l l' h1 h2 ih =>
        rw [List.mapM_cons]
        rcases List.mem_cons.mp hr with rfl | hr
        · cases b with
          | none => rfl
          | some x =>
            obtain ⟨t, ⟨a, b, rfl, ht, _⟩, _⟩ := h1
            exact absurd ht (hno t (by simp))
        · cases b with
          | none => rfl
          | some x =>
            have := ih hr
            simp [this]
    rw [hn]
  · by_cases hne : roots = []
    · subst hne
      exact ⟨[], rfl, .nil⟩
    unfold haloHistories
    rw [if_neg hne, e]
    dsimp only
    suffices hs : ∃ hs, rs.mapM id = some hs ∧ List.Forall₂ (fun root h => h.1.length = h.2.length ∧ ∃ t, FirstHas files root t ∧
        IsHistory t offset root (h.1.zip (h.2.map (· + offset)))) roots hs by
      obtain ⟨hs, e1, e2⟩ := hs
      rw [e1]
      refine ⟨_, rfl, ?_⟩
      rw [List.forall₂_map_right_iff]
      exact e2.imp fun a b h => by simpa using h
    clear e hinit hne
    induction h with
    | nil => exact ⟨[], rfl, .nil⟩
    | @cons a b l l' h1 h2 ih =>
      obtain ⟨hs, e1, e2⟩ := ih fun r hr => hall r (by simp [hr])
      cases b with
      | none =>
        obtain ⟨t, ht, hh⟩ := hall a (by simp)
        exact absurd hh (h1 t ht)
      | some x =>
        obtain ⟨t, ht, hx⟩ := h1
        obtain ⟨pre, post, hfs, hth, hpre⟩ := id ht
        have hmem : t ∈ files := by rw [hfs]; simp
        obtain ⟨r, hist, q1, q2, q3, q4, _⟩ := (C45_history t (hok t hmem).1 offset a fuel (hok t hmem).2).2 hth
        rw [hx] at q1
        cases q1
        refine ⟨x :: hs, by rw [List.mapM_cons, e1]; rfl, .cons ⟨q4, t, ht, ?_⟩ e2⟩
        rw [← q3]
        exact q2

/-! ### The output -/

/-- The entries of the output before the selection: the histories with a separator. -/
def entries : List (List (Int × Int)) → List (Int × Int)
  | [] => []
  | [h] => h
  | h :: h' :: hs => h ++ (-1, -1) :: entries (h' :: hs)

theorem joinHistories_eq : ∀ (hs : List (List Int × List Int)), (∀ h ∈ hs, h.1.length = h.2.length) →
    (joinHistories hs).1.length = (joinHistories hs).2.length ∧ (joinHistories hs).1.zip (joinHistories hs).2 = entries (hs.map fun h => h.1.zip h.2)
  | [], _ => ⟨rfl, rfl⟩
  | [h], hl => ⟨hl h (by simp), rfl⟩
  | h :: h' :: hs, hl => by
    obtain ⟨h1, h2⟩ := joinHistories_eq (h' :: hs) fun x hx => hl x (by simp [hx])
    have h0 := hl h (by simp)
    refine ⟨?_, ?_⟩
    · simp only [joinHistories, List.length_append, List.length_cons]
      omega
    · simp only [joinHistories, List.map_cons, entries]
      rw [List.zip_append h0, List.zip_cons_cons, h2]
      rfl

theorem selectLines_map {α : Type} (f : Str → α) (snapMin snapMax : Int) (select : List Int) : ∀ (lines : List Str) (es : List (Int × Int)) (g : Int × Int → α),
    lines.map f = es.map g → (selectLines snapMin snapMax select lines (es.map Prod.snd)).map f =
      (es.flatMap fun e => if snapMin ≤ e.2 ∧ e.2 ≤ snapMax then (if select ≠ [] then List.replicate (select.count e.2) e else [e]) else []).map g
  | [], [], _, _ => rfl
  | [], _ :: _, _, h => by cases h
  | _ :: _, [], _, h => by cases h
  | l :: ls, e :: es, g, h => by
    rw [List.map_cons, List.map_cons, List.cons.injEq] at h
    have ih := selectLines_map f snapMin snapMax select ls es g h.2
    rw [List.map_cons, selectLines, List.flatMap_cons, List.map_append, List.map_append, ih]
    congr 1
    split_ifs
    · rw [List.map_map, List.map_replicate]
      have : (f ∘ fun _ => l) = fun (_ : Int) => g e := by funext x; exact h.1
      rw [this, List.map_const', ← List.countP_eq_length_filter]
      congr 1
    · simp [h.1]
    · rfl

/-- C45 (output): after the header there is one line for each entry of the histories whose snapshot is within [SnapMin, SnapMax] and, when SelectSnaps is given, for each time that snapshot
is listed there: the id and the snapshot. -/
theorem C45_lines (fuel : Nat) (files : List File) (offset snapMin snapMax : Int) (select roots : List Int) (hs : List (List Int × List Int))
    (hh : haloHistories fuel files roots offset = .ok hs) (hl : ∀ h ∈ hs, h.1.length = h.2.length) :
    ∃ header lines, run fuel files offset snapMin snapMax select roots = some (header :: lines) ∧ header = "# Column contents: ID(0) Snapshot(1)".toList ∧
      lines.map (words ' ') = ((entries (hs.map fun h => h.1.zip h.2)).flatMap fun e =>
        if snapMin ≤ e.2 ∧ e.2 ≤ snapMax then (if select ≠ [] then List.replicate (select.count e.2) e else [e]) else []).map fun e => [itoa e.1, itoa e.2] := by
  obtain ⟨j1, j2⟩ := joinHistories_eq hs hl
  set c := joinHistories hs with hc
  have hcom : commentString ["ID".toList, "Snapshot".toList] [] [0, 1] [1, 1] = some "# Column contents: ID(0) Snapshot(1)".toList := by decide +kernel
  have h2 : c.2 = (c.1.zip c.2).map Prod.snd := by rw [List.map_snd_zip (by omega)]
  suffices hw : ∃ lines, formatCols (F := Unit) ⟨fun _ => [], fun _ => none⟩ [c.1, c.2] [] [0, 1] = some lines ∧
      lines.map (words ' ') = (c.1.zip c.2).map fun e => [itoa e.1, itoa e.2] by
    obtain ⟨lines, e1, e2⟩ := hw
    refine ⟨_, selectLines snapMin snapMax select lines c.2, ?_, rfl, ?_⟩
    · unfold run
      rw [hh]
      dsimp only
      rw [← hc, e1, hcom]
      rfl
    · rw [← j2]
      conv_lhs => rw [h2]
      exact selectLines_map _ _ _ _ lines _ _ e2
  by_cases h0 : c.1 = []
  · have : c.2 = [] := by rw [← List.length_eq_zero_iff, ← j1, h0]; rfl
    refine ⟨[], ?_, by rw [h0]; rfl⟩
    rw [h0, this]
    rfl
  · obtain ⟨lines, e1, e2, e3⟩ := C09_words (⟨fun _ => [], fun _ => none⟩ : FloatFmt Unit) c.1.length (List.length_pos_iff.mpr h0) [c.1, c.2] [] [0, 1] (by simp)
      (by intro col hcol; rcases List.mem_cons.mp hcol with rfl | hcol; · rfl
          · rw [List.mem_singleton] at hcol; subst hcol; exact j1.symm)
      (by simp) (by simp) (by simp)
    refine ⟨lines, e1, ?_⟩
    apply List.ext_getElem?
    intro i
    rw [List.getElem?_map, List.getElem?_map]
    by_cases hi : i < c.1.length
    · obtain ⟨l, hl1, hl2⟩ := e3 i hi
      have hi' : i < c.2.length := by omega
      rw [hl1, Option.map_some, hl2, List.getElem?_eq_getElem (by rw [List.length_zip]; omega), List.getElem_zip]
      simp [cellText, hi, hi', List.getD]
    · rw [List.getElem?_eq_none (by omega), List.getElem?_eq_none (by rw [List.length_zip]; omega)]
      rfl

theorem entries_filter (p : Int × Int → Bool) (hp : p (-1, -1) = false) : ∀ (hs : List (List (Int × Int))), (entries hs).filter p = hs.flatten.filter p
  | [] => rfl
  | [h] => by simp [entries]
  | h :: h' :: hs => by
    rw [entries, List.filter_append, List.filter_cons_of_neg (by simp [hp]), entries_filter p hp (h' :: hs)]
    simp

/-- The selection of the user. -/
def wanted (snapMin snapMax : Int) (select : List Int) (e : Int × Int) : Bool := decide (snapMin ≤ e.2 ∧ e.2 ≤ snapMax ∧ (select = [] ∨ e.2 ∈ select))

/-- C45 (output): for a non-negative SnapMin and a SelectSnaps without repetitions the output are the wanted entries of the histories of the halos one after the other, in the order of the
input, each history in the order of time, one line per snapshot. -/
theorem C45_run_partial (fuel : Nat) (files : List File) (offset snapMin snapMax : Int) (select roots : List Int) (hok : ∀ t ∈ files, t.Ok ∧ t.lists.length ≤ fuel)
    (hall : ∀ root ∈ roots, ∃ t ∈ files, t.Has root) (h0 : 0 ≤ snapMin) (hsel : select.Nodup) :
    ∃ hists : List (List (Int × Int)), List.Forall₂ (fun root h => ∃ t, FirstHas files root t ∧ IsHistory t offset root h) roots hists ∧
      (∀ h ∈ hists, (h.map Prod.snd).Pairwise (· < ·)) ∧
      ∃ header lines, run fuel files offset snapMin snapMax select roots = some (header :: lines) ∧
        lines.map (words ' ') = (hists.flatten.filter (wanted snapMin snapMax select)).map fun e => [itoa e.1, itoa e.2] := by
  obtain ⟨hs, e, h⟩ := (C45_histories fuel files roots offset hok).2 hall
  have hl : ∀ h ∈ hs, h.1.length = h.2.length := by
    intro x hx
    obtain ⟨i, hi⟩ := List.mem_iff_getElem?.mp hx
    have hi' := (List.getElem?_eq_some_iff.mp hi).1
    have := (List.forall₂_iff_get.mp h).2 i (by rw [h.length_eq]; exact hi') hi'
    have hg : hs.get ⟨i, hi'⟩ = x := by simpa using (List.getElem?_eq_some_iff.mp hi).2
    rw [hg] at this
    exact this.1
  obtain ⟨header, lines, r1, _, r2⟩ := C45_lines fuel files offset snapMin snapMax select roots hs e hl
  refine ⟨hs.map fun h => h.1.zip h.2, ?_, ?_, header, lines, r1, ?_⟩
  · rw [List.forall₂_map_right_iff]
    exact h.imp fun a b hh => hh.2
  · intro x hx
    obtain ⟨y, hy, rfl⟩ := List.mem_map.mp hx
    obtain ⟨i, hi⟩ := List.mem_iff_getElem?.mp hy
    have hi' := (List.getElem?_eq_some_iff.mp hi).1
    have := (List.forall₂_iff_get.mp h).2 i (by rw [h.length_eq]; exact hi') hi'
    have hg : hs.get ⟨i, hi'⟩ = y := by simpa using (List.getElem?_eq_some_iff.mp hi).2
    rw [hg] at this
    obtain ⟨_, t, ⟨pre, post, hfs, hth, _⟩, hist⟩ := this
    have hmem : t ∈ files := by rw [hfs]; simp
    obtain ⟨r, hist', _, q2, _, _, q5, _⟩ := (C45_history t (hok t hmem).1 offset _ fuel (hok t hmem).2).2 hth
    rw [history_unique _ _ _ _ _ hist q2]
    exact q5
  · rw [r2]
    congr 1
    rw [← entries_filter _ (by simp [wanted]; intro h; omega)]
    induction entries (hs.map fun h => h.1.zip h.2) with
    | nil => rfl
    | cons a l ih =>
      rw [List.flatMap_cons, ih, List.filter_cons]
      by_cases ha : snapMin ≤ a.2 ∧ a.2 ≤ snapMax
      · rw [if_pos ha]
        by_cases hs0 : select = []
        · simp [hs0, wanted, ha]
        · rw [if_pos hs0]
          by_cases hm : a.2 ∈ select
          · rw [List.count_eq_one_of_mem hsel hm]
            simp [wanted, ha, hm]
          · rw [List.count_eq_zero_of_not_mem hm]
            simp [wanted, ha, hm, hs0]
      · rw [if_neg ha]
        have : wanted snapMin snapMax select a = false := by
          simp only [wanted, decide_eq_false_iff_not]
          tauto
        simp [this]

/-- C45 is false for the sentinels: for a non-negative SnapMin no line of the output is the sentinel, whatever the input; two histories are never separated. -/
theorem C45_sentinel_false (fuel : Nat) (files : List File) (offset snapMin snapMax : Int) (select roots : List Int) (hok : ∀ t ∈ files, t.Ok ∧ t.lists.length ≤ fuel)
    (hall : ∀ root ∈ roots, ∃ t ∈ files, t.Has root) (h0 : 0 ≤ snapMin) (hsel : select.Nodup) :
    ∃ header lines, run fuel files offset snapMin snapMax select roots = some (header :: lines) ∧ ∀ l ∈ lines, words ' ' l ≠ ["-1".toList, "-1".toList] := by
  obtain ⟨hists, _, _, header, lines, r, h⟩ := C45_run_partial fuel files offset snapMin snapMax select roots hok hall h0 hsel
  refine ⟨header, lines, r, fun l hl hw => ?_⟩
  have : words ' ' l ∈ lines.map (words ' ') := List.mem_map.mpr ⟨l, hl, rfl⟩
  rw [h, List.mem_map] at this
  obtain ⟨e, he, hw'⟩ := this
  have h1 := (List.mem_filter.mp he).2
  simp only [wanted, decide_eq_true_eq] at h1
  rw [hw, List.cons.injEq, List.cons.injEq] at hw'
  have h2 := hw'.2.1
  have : ∃ n : Nat, e.2 = n := ⟨e.2.toNat, by omega⟩
  obtain ⟨n, hn⟩ := this
  rw [hn] at h2
  unfold itoa at h2
  rw [if_neg (by omega)] at h2
  have h3 := natVal_natDigits (n : Int).natAbs
  rw [h2] at h3
  revert h3
  have h4 : natVal "-1".toList = none := by decide +kernel
  rw [h4]
  simp

/-- C45: a root that is in no file fails the whole run, e.g. the sentinel "-1 -1" of an earlier output used as input. -/
theorem C45_missing (fuel : Nat) (files : List File) (offset snapMin snapMax : Int) (select roots : List Int) (hok : ∀ t ∈ files, t.Ok ∧ t.lists.length ≤ fuel)
    (h : ∃ root ∈ roots, ∀ t ∈ files, ¬ t.Has root) : run fuel files offset snapMin snapMax select roots = none := by
  unfold run
  rw [(C45_histories fuel files roots offset hok).1 h]

/-- C45 (files): the tree files are the files named tree_*.dat. -/
theorem C45_files (name : Str) : isTreeFile name = true ↔ (∃ rest, name = "tree_".toList ++ rest) ∧ ∃ rest, name = rest ++ ".dat".toList := by
  unfold isTreeFile
  rw [Bool.and_eq_true, Bool.and_eq_true, decide_eq_true_eq, beq_iff_eq, beq_iff_eq]
  constructor
  · rintro ⟨⟨h1, h2⟩, h3⟩
    exact ⟨⟨name.drop 5, by rw [← h2, List.take_append_drop]⟩, ⟨name.take (name.length - 4), by rw [← h3, List.take_append_drop]⟩⟩
  · rintro ⟨⟨r, h1⟩, ⟨r', h2⟩⟩
    refine ⟨⟨?_, ?_⟩, ?_⟩
    · rw [h1]; simp
    · rw [h1]; exact List.take_left' rfl
    · rw [h2]; exact List.drop_left' (by simp)

/-! ### A concrete file: three snapshots, halo 10 → 11 → 12, and 20 which merges into 12. -/

def exFile : File where
  lists := [[12], [11, 20], [10]]
  desc h := if h = 10 then some 11 else if h = 11 ∨ h = 20 then some 12 else none
  prog h := if h = 12 then some 11 else if h = 11 then some 10 else none
  index h := if h = 12 then 0 else if h = 10 then 2 else 1

theorem exFile_ok : exFile.Ok := by
  refine ⟨?_, ?_, ?_⟩
  · intro i l h hi hm
    match i, hi with
    | 0, hi => cases hi; simp at hm; subst hm; rfl
    | 1, hi => cases hi; simp at hm; rcases hm with rfl | rfl <;> rfl
    | 2, hi => cases hi; simp at hm; subst hm; rfl
    | i + 3, hi => cases hi
  all_goals
    intro h d hd hh
    simp only [exFile] at hd hh ⊢
    split_ifs at hd <;> simp at hd <;> subst hd <;> simp_all
    try omega

example : run 3 [exFile] 5 0 100 [] [11, 20] = some (["# Column contents: ID(0) Snapshot(1)", "10  6", "11  7", "12  8", "20  7", "12  8"].map String.toList) := by decide +kernel

example : ∃ header lines, run 3 [exFile] 5 0 100 [] [11, 20] = some (header :: lines) ∧ ∀ l ∈ lines, words ' ' l ≠ ["-1".toList, "-1".toList] :=
  C45_sentinel_false _ _ _ _ _ _ _ (by simp [exFile_ok]; simp [exFile]) (by simp [File.Has, exFile]) (by omega) (by simp)

example : run 3 [exFile] 5 0 100 [] [11, -1] = none := C45_missing _ _ _ _ _ _ _ (by simp [exFile_ok]; simp [exFile]) ⟨-1, by simp, by simp [File.Has, exFile]⟩

/-- A snapshot that is listed twice in SelectSnaps is printed twice. -/
theorem C45_repeated_false : run 3 [exFile] 5 0 100 [7, 7] [11] = some (["# Column contents: ID(0) Snapshot(1)", "11 7", "11 7"].map String.toList) := by decide +kernel

example : isTreeFile "tree_0_0_0.dat".toList = true ∧ isTreeFile "tree_0_0_0.dat.gz".toList = false := by decide +kernel

end Shellfish.Tree
