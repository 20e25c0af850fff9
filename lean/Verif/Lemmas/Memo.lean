/- Lemmas about the cache files of cmd/memo. -/
import Verif.Model.Memo
import Verif.Lemmas.Search

namespace Shellfish.Memo
open Shellfish.Finder (toInt)

/-! bytes -/

theorem le_length (k w : Nat) : (le k w).length = k := by
  induction k generalizing w with
  | zero => rfl
  | succ k ih => simp [le, ih]

theorem unle_le (k w : Nat) (h : w < 256 ^ k) : unle (le k w) = w := by
  induction k generalizing w with
  | zero => simp only [Nat.pow_zero] at h; simp only [le, unle]; omega
  | succ k ih =>
    simp only [le, unle]
    rw [ih (w / 256) (by rw [pow_succ] at h; omega)]
    omega

theorem flatMap_le_length (k : Nat) (ws : List Nat) : (ws.flatMap (le k)).length = k * ws.length := by
  induction ws with
  | nil => simp
  | cons w ws ih => rw [List.flatMap_cons, List.length_append, le_length, ih, List.length_cons]; ring

/-- the `i`-th word of a sequence of words -/
theorem word_get (k : Nat) (ws : List Nat) (rest : List Nat) (i w : Nat) (hi : ws[i]? = some w) (hw : w < 256 ^ k) : unle (((ws.flatMap (le k) ++ rest).drop (k * i)).take k) = w := by
  have hlt : i < ws.length := by
    by_contra hc
    rw [List.getElem?_eq_none (by omega)] at hi; simp at hi
  have e : ws = ws.take i ++ w :: ws.drop (i + 1) := by
    rw [List.getElem?_eq_getElem hlt, Option.some.injEq] at hi
    rw [← hi, ← List.drop_eq_getElem_cons hlt, List.take_append_drop]
  have hl : ((ws.take i).flatMap (le k)).length = k * i := by rw [flatMap_le_length, List.length_take, min_eq_left (by omega)]
  have e2 : ws.flatMap (le k) ++ rest = (ws.take i).flatMap (le k) ++ (le k w ++ ((ws.drop (i + 1)).flatMap (le k) ++ rest)) := by
    conv_lhs => rw [e]
    rw [List.flatMap_append, List.flatMap_cons, List.append_assoc, List.append_assoc]
  rw [e2, List.drop_left' hl, List.take_left' (le_length _ _), unle_le k w hw]

theorem readWords_words (file pre rest : List Nat) (ws : List Nat) (hw : ∀ w ∈ ws, w < 2 ^ 64) (hf : file = pre ++ (ws.flatMap (le 8) ++ rest)) :
    readWords file pre.length ws.length = .ok ws := by
  unfold readWords
  have hlen : file.length = pre.length + (8 * ws.length + rest.length) := by rw [hf, List.length_append, List.length_append, flatMap_le_length]
  rw [if_pos (Or.inl (by omega))]
  congr 1
  apply List.ext_getElem?
  intro i
  rw [List.getElem?_map]
  by_cases hi : i < ws.length
  · rw [List.getElem?_range hi, Option.map_some, List.getElem?_eq_getElem hi]
    congr 1
    rw [hf, ← List.drop_drop, List.drop_left' rfl]
    exact word_get 8 ws rest i _ (List.getElem?_eq_getElem hi) (by
      have := hw _ (List.getElem_mem hi)
      calc _ < 2 ^ 64 := this
        _ = 256 ^ 8 := by norm_num)
  · rw [List.getElem?_eq_none (by simpa using hi), List.getElem?_eq_none (by omega)]; rfl

/-- all columns of a table have `n` words of 64 bits -/
def Table (n : Nat) (cols : List (List Nat)) : Prop := ∀ c ∈ cols, c.length = n ∧ ∀ w ∈ c, w < 2 ^ 64

theorem cols_length (n : Nat) (cols : List (List Nat)) (h : Table n cols) : (cols.flatMap fun c => c.flatMap (le 8)).length = 8 * n * cols.length := by
  induction cols with
  | nil => simp
  | cons c cols ih =>
    rw [List.flatMap_cons, List.length_append, ih (fun c hc => h c (by simp [hc])), flatMap_le_length, (h c (by simp)).1, List.length_cons]
    ring

theorem encode_length (n : Nat) (cols : List (List Nat)) (h : Table n cols) : (encode n cols).length = 8 + 8 * n * cols.length := by
  unfold encode; rw [List.length_append, le_length, cols_length n cols h]

theorem readCols_encode (n : Nat) (all : List (List Nat)) (h : Table n all) : ∀ (cols pre : List (List Nat)), all = pre ++ cols →
    readCols (encode n all) n ((List.range' pre.length cols.length)) = .ok cols := by
  intro cols
  induction cols with
  | nil => intro pre _; rfl
  | cons c cols ih =>
    intro pre hall
    rw [List.length_cons, List.range'_succ]
    unfold readCols
    have hpre : Table n pre := fun c hc => h c (by rw [hall]; simp [hc])
    have hc := h c (by rw [hall]; simp)
    have e : 8 + n * 8 * pre.length = (le 8 n ++ pre.flatMap fun c => c.flatMap (le 8)).length := by
      rw [List.length_append, le_length, cols_length n pre hpre]; ring
    have hr := readWords_words (encode n all) (le 8 n ++ pre.flatMap fun c => c.flatMap (le 8)) (cols.flatMap fun c => c.flatMap (le 8)) c hc.2 (by
      unfold encode
      rw [hall, List.flatMap_append, List.flatMap_cons]
      simp only [List.append_assoc])
    rw [← e, hc.1] at hr
    rw [hr]
    have := ih (pre ++ [c]) (by rw [hall]; simp)
    rw [List.length_append, List.length_singleton] at this
    simp only [Out.bind]
    rw [this]

theorem getter_encode (n : Nat) (cols : List (List Nat)) (h : Table n cols) (hn : n < 2 ^ 63) : binaryColGetter (encode n cols) (List.range cols.length) = .ok cols := by
  unfold binaryColGetter
  have := readWords_words (encode n cols) [] (cols.flatMap fun c => c.flatMap (le 8)) [n] (by intro w hw; simp at hw; omega) (by simp [encode])
  simp only [List.length_nil, List.length_singleton] at this
  rw [this]
  simp only [Out.bind, List.getElem?_cons_zero, Out.index]
  rw [if_neg (by omega), List.range_eq_range']
  exact readCols_encode n cols h cols [] rfl

theorem readCols_short (file : List Nat) (n c : Nat) (cs : List Nat) (hc : c ∈ cs) (hn : 0 < n) (h : file.length < 8 + n * 8 * c + 8 * n) : readCols file n cs = .error := by
  induction cs with
  | nil => simp at hc
  | cons a cs ih =>
    unfold readCols
    rw [List.mem_cons] at hc
    by_cases hca : c = a
    · subst hca
      unfold readWords
      rw [if_neg (by intro hcon; rcases hcon with h1 | h1 <;> omega)]
      rfl
    · have := ih (by tauto)
      rw [this]
      unfold readWords
      split_ifs <;> rfl

/-- a cache file that was not completely written is an error -/
theorem getter_prefix (n : Nat) (cols : List (List Nat)) (h : Table n cols) (hn : n < 2 ^ 63) (k : Nat) (hk : k < (encode n cols).length) :
    binaryColGetter ((encode n cols).take k) (List.range cols.length) = .error := by
  unfold binaryColGetter
  by_cases hk8 : k < 8
  · unfold readWords
    rw [if_neg (by rw [List.length_take]; omega)]
    rfl
  · have hr := readWords_words ((encode n cols).take k) [] ((cols.flatMap fun c => c.flatMap (le 8)).take (k - 8)) [n] (by intro w hw; simp at hw; omega) (by
      unfold encode
      rw [List.take_append, le_length, List.take_of_length_le (by rw [le_length]; omega)]
      simp)
    simp only [List.length_nil, List.length_singleton] at hr
    rw [hr]
    simp only [Out.bind, List.getElem?_cons_zero, Out.index]
    rw [if_neg (by omega)]
    rw [encode_length n cols h] at hk
    have hpos : 0 < cols.length := by
      by_contra hc
      have : cols.length = 0 := by omega
      rw [this] at hk; omega
    refine readCols_short _ n (cols.length - 1) _ (by rw [List.mem_range]; omega) (by
      by_contra hc0
      have : n = 0 := by omega
      rw [this] at hk; omega) ?_
    rw [List.length_take]
    have : 8 * n * cols.length = n * 8 * (cols.length - 1) + 8 * n := by
      obtain ⟨m, hm⟩ : ∃ m, cols.length = m + 1 := ⟨cols.length - 1, by omega⟩
      rw [hm, Nat.add_sub_cancel]; ring
    omega

/-! names -/

theorem addName_fold (l : List (String × Int)) : ∀ vc : VarColumns, vc.names.length = vc.nBinary → vc.generator = List.replicate vc.nBinary "" →
    (∀ (s : String) (j : Nat), vc.lookup s = some j ↔ j < vc.nBinary ∧ vc.names[j]? = some s) → (vc.names ++ l.map Prod.fst).Nodup →
    ∀ vc', l.foldl (fun vc p => addName vc p.1 p.2) vc = vc' → vc'.names = vc.names ++ l.map Prod.fst ∧ vc'.nBinary = vc.nBinary + l.length ∧
      vc'.generator = List.replicate vc'.nBinary "" ∧ (∀ (s : String) (j : Nat), vc'.lookup s = some j ↔ j < vc'.nBinary ∧ vc'.names[j]? = some s) := by
  induction l with
  | nil => intro vc _ h2 h3 _ vc' e; simp only [List.foldl_nil] at e; subst e; simp [h2, h3]
  | cons p l ih =>
    intro vc h1 h2 h3 h4 vc' e
    rw [List.foldl_cons] at e
    obtain ⟨a, b, c, d⟩ := ih (addName vc p.1 p.2) (by simp [addName, h1]) (by simp [addName, h2, List.replicate_succ']) (by
      intro s j
      simp only [addName]
      by_cases hs : s = p.1
      · rw [if_pos hs, Option.some.injEq]
        constructor
        · rintro rfl
          refine ⟨by omega, by rw [List.getElem?_append_right le_rfl]; simp [hs]⟩
        · rintro ⟨hj, hg⟩
          by_contra hne
          rw [List.getElem?_append_left (by omega)] at hg
          have hm := List.mem_of_getElem? hg
          rw [List.nodup_append] at h4
          exact h4.2.2 _ hm _ (by simp) hs
      · rw [if_neg hs, h3]
        constructor
        · rintro ⟨hj, hg⟩
          exact ⟨by omega, by rw [List.getElem?_append_left (by omega)]; exact hg⟩
        · rintro ⟨hj, hg⟩
          by_cases hjl : j < vc.names.length
          · rw [List.getElem?_append_left hjl] at hg
            exact ⟨by omega, hg⟩
          · have : j = vc.names.length := by omega
            subst this
            rw [List.getElem?_append_right le_rfl] at hg
            simp at hg
            exact absurd hg.symm hs) (by simpa [addName] using h4) vc' e
    refine ⟨by rw [a]; simp [addName], by rw [b]; simp [addName]; omega, c, d⟩

theorem addRadius_keeps (vc : VarColumns) (m r : String) (hlen : vc.generator.length = vc.names.length) :
    (addRadius vc m r).nBinary = vc.nBinary ∧ (∀ (s : String) (j : Nat), vc.lookup s = some j → (addRadius vc m r).lookup s = some j) ∧
      (∀ (j : Nat) (g : String), vc.generator[j]? = some g → (addRadius vc m r).generator[j]? = some g) ∧ (addRadius vc m r).generator.length = (addRadius vc m r).names.length := by
  unfold addRadius
  split_ifs with h
  · refine ⟨rfl, ?_, ?_, by simp [hlen]⟩
    · intro s j hs
      simp only
      rw [if_neg]
      · exact hs
      · rintro rfl
        rw [hs] at h
        simp at h
    · intro j g hg
      have : j < vc.generator.length := by
        by_contra hc
        rw [List.getElem?_eq_none (by omega)] at hg; simp at hg
      simp only
      rw [List.getElem?_append_left this]
      exact hg
  · exact ⟨rfl, fun _ _ h => h, fun _ _ h => h, hlen⟩

/-- a name of the configuration is looked up at its place, and is not generated -/
theorem lookup_name (names : List String) (columns : List Int) (vc : VarColumns) (hnd : names.Nodup) (h : newVarColumns names columns = some vc) :
    vc.nBinary = names.length ∧ ∀ (j : Nat) (s : String), names[j]? = some s → vc.lookup s = some j ∧ vc.generator[j]? = some "" := by
  unfold newVarColumns at h
  split_ifs at h with hl
  rw [Option.some.injEq] at h
  have hmap : (names.zip columns).map Prod.fst = names := by rw [List.map_fst_zip hl]
  obtain ⟨a, b, c, d⟩ := addName_fold (names.zip columns) ⟨fun _ => none, [], [], [], 0⟩ rfl rfl (by simp) (by simpa [hmap] using hnd) _ rfl
  set v0 := (names.zip columns).foldl (fun vc p => addName vc p.1 p.2) ⟨fun _ => none, [], [], [], 0⟩ with hv0
  rw [hmap] at a
  simp only [List.nil_append, Nat.zero_add] at a b
  have hb : v0.nBinary = names.length := by rw [b, List.length_zip, min_eq_left hl]
  have hgl : v0.generator.length = v0.names.length := by rw [c, List.length_replicate, a, hb]
  simp only [List.foldl_cons, List.foldl_nil] at h
  obtain ⟨n1, l1, g1, e1⟩ := addRadius_keeps v0 "M200m" "R200m" hgl
  obtain ⟨n2, l2, g2, e2⟩ := addRadius_keeps _ "M200c" "R200c" e1
  obtain ⟨n3, l3, g3, e3⟩ := addRadius_keeps _ "M500c" "R500c" e2
  obtain ⟨n4, l4, g4, e4⟩ := addRadius_keeps _ "M2500c" "R2500c" e3
  rw [h] at n4 l4 g4
  refine ⟨by rw [n4, n3, n2, n1, hb], ?_⟩
  intro j s hj
  have hjl : j < names.length := by
    by_contra hc
    rw [List.getElem?_eq_none (by omega)] at hj; simp at hj
  refine ⟨l4 _ _ (l3 _ _ (l2 _ _ (l1 _ _ ((d s j).mpr ⟨by omega, by rw [a]; exact hj⟩)))), g4 _ _ (g3 _ _ (g2 _ _ (g1 _ _ ?_)))⟩
  rw [c, List.getElem?_replicate, if_pos (by omega)]

/-! permutations -/

theorem perm_map_pre {α β : Type} (f : α → β) (l₁ l₂ : List β) (h : l₁.Perm l₂) : ∀ l : List α, l₂ = l.map f → ∃ l' : List α, l'.Perm l ∧ l₁ = l'.map f := by
  induction h with
  | nil =>
    intro l hl
    exact ⟨[], by rw [List.map_eq_nil_iff.mp hl.symm], rfl⟩
  | cons x _ ih =>
    intro l hl
    cases l with
    | nil => simp at hl
    | cons a l =>
      simp only [List.map_cons, List.cons.injEq] at hl
      obtain ⟨l', h1, h2⟩ := ih l hl.2
      exact ⟨a :: l', h1.cons a, by simp [hl.1, h2]⟩
  | swap x y _ =>
    intro l hl
    match l, hl with
    | a :: b :: l, hl =>
      simp only [List.map_cons, List.cons.injEq] at hl
      exact ⟨b :: a :: l, List.Perm.swap a b l, by simp [hl.1, hl.2.1, hl.2.2]⟩
  | trans _ _ ih1 ih2 =>
    intro l hl
    obtain ⟨l', h1, h2⟩ := ih2 l hl
    obtain ⟨l'', h3, h4⟩ := ih1 l' h2
    exact ⟨l'', h3.trans h1, h4⟩

/-! lookups -/

theorem newIntFinder_append (rids : List Int) (x : Int) (id : Int) : newIntFinder (rids ++ [x]) id = if id = x then some rids.length else newIntFinder rids id := by
  unfold newIntFinder
  rw [List.zipIdx_append, List.foldl_append]
  simp

theorem newIntFinder_spec (rids : List Int) (id : Int) : (∀ i : Nat, newIntFinder rids id = some i → rids[i]? = some id ∧ ∀ j : Nat, i < j → rids[j]? ≠ some id) ∧
    (newIntFinder rids id = none ↔ id ∉ rids) := by
  induction rids using List.reverseRecOn with
  | nil => simp [newIntFinder]
  | append_singleton rids x ih =>
    rw [newIntFinder_append]
    by_cases h : id = x
    · rw [if_pos h]
      refine ⟨?_, by simp [h]⟩
      intro i hi
      rw [Option.some.injEq] at hi
      subst hi
      refine ⟨by rw [List.getElem?_append_right le_rfl]; simp [h], fun j hj => ?_⟩
      rw [List.getElem?_eq_none (by simp; omega)]; simp
    · rw [if_neg h]
      refine ⟨?_, by rw [ih.2]; simp [h]⟩
      intro i hi
      obtain ⟨h1, h2⟩ := ih.1 i hi
      have hil : i < rids.length := by
        by_contra hc
        rw [List.getElem?_eq_none (by omega)] at h1; simp at h1
      refine ⟨by rw [List.getElem?_append_left hil]; exact h1, fun j hj => ?_⟩
      by_cases hjl : j < rids.length
      · rw [List.getElem?_append_left hjl]; exact h2 j hj
      · by_cases hje : j = rids.length
        · subst hje
          rw [List.getElem?_append_right le_rfl]
          simp only [Nat.sub_self, List.getElem?_cons_zero, ne_eq, Option.some.injEq]
          exact fun hx => h hx.symm
        · rw [List.getElem?_eq_none (by simp; omega)]; simp

end Shellfish.Memo
