/- C26: the mass-ranked halo ids; C27: the header cache; C29: looking up ids; C58: interrupted halo caches. -/
import Verif.Lemmas.Memo
import Mathlib.Data.Rat.Floor
import Mathlib.Algebra.Order.Ring.Rat

namespace Shellfish.Memo
open Shellfish.Finder (toInt mapM_some')

variable {K : Type} [Field K] [LinearOrder K] [IsStrictOrderedRing K] [FloorRing K]

/-! Specification -/

/-- A halo catalogue that the configuration describes: `cols` are the columns with the given (distinct) names, with `n` rows. -/
structure Usable (names : List String) (columns : List Int) (vc : VarColumns) (n : Nat) (cols : List (List Nat)) : Prop where
  distinct : names.Nodup
  vars : newVarColumns names columns = some vc
  hasID : "ID" ∈ names
  hasMass : "M200m" ∈ names
  width : cols.length = names.length
  rows : ∀ c ∈ cols, c.length = n ∧ ∀ w ∈ c, w < 2 ^ 64
  small : n < 2 ^ 63

/-- The entry of row `i` in the column called `s`. -/
def entry (names : List String) (cols : List (List Nat)) (s : String) (i : Nat) : Nat := (cols.getD (names.idxOf s) []).getD i 0

/-- The id of row `i`. -/
def idOf (rd : Reading K) (names : List String) (cols : List (List Nat)) (i : Nat) : Int := toInt (rd.val (entry names cols "ID" i))

/-- The mass of row `i`. -/
def massOf (rd : Reading K) (names : List String) (cols : List (List Nat)) (i : Nat) : K := rd.val (entry names cols "M200m" i)

/-- `order` lists all rows, most massive first. -/
def Ranking (rd : Reading K) (names : List String) (cols : List (List Nat)) (n : Nat) (order : List Nat) : Prop :=
  order.Perm (List.range n) ∧ order.Pairwise fun i j => massOf rd names cols j ≤ massOf rd names cols i

/-- Cache files that calls of the program left behind: each is missing or was written for this catalogue, perhaps not to its end. -/
structure Cache.Sound (rd : Reading K) (vc : VarColumns) (n : Nat) (cols : List (List Nat)) (c : Cache) : Prop where
  full : ∀ f, c.full = some f → ∃ k, f = (encode n cols).take k
  short : ∀ f, c.short = some f → ∃ (so : Argsort K) (g : List Nat) (k : Nat), convertTopN rd so vc shortNum cols = .ok g ∧ f = g.take k

/-- … and all were written to their end. -/
structure Cache.Complete (rd : Reading K) (vc : VarColumns) (n : Nat) (cols : List (List Nat)) (c : Cache) : Prop where
  full : ∀ f, c.full = some f → f = encode n cols
  short : ∀ f, c.short = some f → ∃ so : Argsort K, convertTopN rd so vc shortNum cols = .ok f

/-! Proofs -/

theorem Cache.Complete.sound {rd : Reading K} {vc : VarColumns} {n : Nat} {cols : List (List Nat)} {c : Cache} (h : c.Complete rd vc n cols) : c.Sound rd vc n cols :=
  ⟨fun f hf => ⟨(encode n cols).length, by rw [h.full f hf, List.take_length]⟩, fun f hf => by
    obtain ⟨so, hs⟩ := h.short f hf
    exact ⟨so, f, f.length, hs, by rw [List.take_length]⟩⟩

/-- the rows `top` of a table -/
def sel (top : List Nat) (cols : List (List Nat)) : List (List Nat) := cols.map fun c => top.map fun i => c.getD i 0

theorem sel_table (n : Nat) (cols : List (List Nat)) (h : Table n cols) (top : List Nat) : Table top.length (sel top cols) := by
  intro c hc
  obtain ⟨c0, h0, rfl⟩ := List.mem_map.mp hc
  refine ⟨by simp, fun w hw => ?_⟩
  obtain ⟨i, _, rfl⟩ := List.mem_map.mp hw
  rw [List.getD_eq_getElem?_getD]
  by_cases hi : i < c0.length
  · rw [List.getElem?_eq_getElem hi]
    exact (h c0 h0).2 _ (List.getElem_mem hi)
  · rw [List.getElem?_eq_none (by omega)]; simp

theorem Usable.at {names : List String} {columns : List Int} {vc : VarColumns} {n : Nat} {cols : List (List Nat)} (h : Usable names columns vc n cols) (s : String) (hs : s ∈ names) :
    vc.lookup s = some (names.idxOf s) ∧ vc.generator[names.idxOf s]? = some "" ∧ names.idxOf s < cols.length := by
  have hlt := List.idxOf_lt_length_iff.mpr hs
  obtain ⟨_, h2⟩ := lookup_name names columns vc h.distinct h.vars
  have := h2 (names.idxOf s) s (by rw [List.getElem?_eq_getElem hlt, List.getElem_idxOf])
  exact ⟨this.1, this.2, by rw [h.width]; exact hlt⟩

theorem sel_getD (cols : List (List Nat)) (top : List Nat) (j : Nat) (hj : j < cols.length) : (sel top cols)[j]? = some (top.map fun i => (cols.getD j []).getD i 0) := by
  unfold sel
  rw [List.getElem?_map, List.getElem?_eq_getElem hj, Option.map_some, List.getD_eq_getElem?_getD (l := cols), List.getElem?_eq_getElem hj]
  rfl

theorem sel_range (n : Nat) (cols : List (List Nat)) (h : Table n cols) : sel (List.range n) cols = cols := by
  unfold sel
  conv_rhs => rw [← List.map_id cols]
  apply List.map_congr_left
  intro c hc
  apply List.ext_getElem?
  intro i
  rw [List.getElem?_map]
  by_cases hi : i < n
  · rw [List.getElem?_range hi, Option.map_some, List.getD_eq_getElem?_getD]
    have := (h c hc).1
    rw [List.getElem?_eq_getElem (by omega)]; simp [List.getElem?_eq_getElem (show i < c.length by omega)]
  · have := (h c hc).1
    rw [List.getElem?_eq_none (by simpa using hi)]
    simp only [Option.map_none, id]
    rw [List.getElem?_eq_none (by omega)]

/-- a complete file with the rows `top` -/
theorem read_sel (rd : Reading K) {names : List String} {columns : List Int} {vc : VarColumns} {n : Nat} {cols : List (List Nat)} (h : Usable names columns vc n cols)
    (top : List Nat) (ht : top.length ≤ n) :
    readBinaryRockstar rd vc (encode top.length (sel top cols)) = .ok (top.map (idOf rd names cols), sel top cols) := by
  unfold readBinaryRockstar
  have hn := h.small
  have hnb := (lookup_name names columns vc h.distinct h.vars).1
  have hw : (sel top cols).length = cols.length := by simp [sel]
  have hg := getter_encode top.length (sel top cols) (sel_table n cols h.rows top) (by omega)
  rw [hnb, ← h.width, ← hw, hg]
  simp only [Out.bind]
  obtain ⟨l1, _, l3⟩ := h.at "ID" h.hasID
  unfold getIDs
  rw [l1, Option.getD_some, sel_getD cols top _ l3, Option.map_some, Out.index, List.map_map]
  rfl

/-- a value column of a file with the rows `top` -/
theorem getColumn_sel (rd : Reading K) {names : List String} {columns : List Int} {vc : VarColumns} {n : Nat} {cols : List (List Nat)} (h : Usable names columns vc n cols)
    (top : List Nat) (s : String) (hs : s ∈ names) : getColumn rd vc (sel top cols) s = some (top.map fun i => rd.val (entry names cols s i)) := by
  obtain ⟨l1, l2, l3⟩ := h.at s hs
  unfold getColumn
  rw [l1, Option.getD_some, l2, Option.bind_some, if_pos rfl, sel_getD cols top _ l3, Option.map_some, List.map_map]
  rfl

/-- the most massive rows -/
structure Top (rd : Reading K) (names : List String) (cols : List (List Nat)) (n : Nat) (top rest : List Nat) : Prop where
  perm : (rest ++ top).Perm (List.range n)
  asc : rest.Pairwise fun i j => massOf rd names cols i ≤ massOf rd names cols j
  above : ∀ i ∈ rest, ∀ j ∈ top, massOf rd names cols i ≤ massOf rd names cols j

theorem Top.length {rd : Reading K} {names : List String} {cols : List (List Nat)} {n : Nat} {top rest : List Nat} (h : Top rd names cols n top rest) :
    rest.length + top.length = n := by
  have := h.perm.length_eq
  rw [List.length_append, List.length_range] at this
  exact this

theorem Top.all (rd : Reading K) (names : List String) (cols : List (List Nat)) (n : Nat) : Top rd names cols n (List.range n) [] := ⟨by simp, by simp, by simp⟩

/-- what `RockstarConvertTopN` writes -/
theorem convertTopN_spec (rd : Reading K) (so : Argsort K) {names : List String} {columns : List Int} {vc : VarColumns} {n : Nat} {cols : List (List Nat)}
    (h : Usable names columns vc n cols) (m : Nat) : ∃ top rest, Top rd names cols n top rest ∧ top.length = min m n ∧
      convertTopN rd so vc m cols = .ok (encode top.length (sel top cols)) := by
  have hw := h.width
  have hpos : 0 < cols.length := by rw [hw]; exact List.length_pos_of_mem h.hasID
  have hc0 : (cols[0]'hpos).length = n := (h.rows _ (List.getElem_mem hpos)).1
  have hms := getColumn_sel rd h (List.range n) "M200m" h.hasMass
  rw [sel_range n cols h.rows] at hms
  set ms := (List.range n).map fun i => rd.val (entry names cols "M200m" i) with hmsdef
  have hlen : ms.length = n := by simp [hmsdef]
  have hget : ∀ i, i < n → ms[i]? = some (massOf rd names cols i) := by
    intro i hi
    rw [hmsdef, List.getElem?_map, List.getElem?_range hi]; rfl
  have hperm := so.perm ms
  rw [hlen] at hperm
  have hasc : (so.run ms).Pairwise fun i j => massOf rd names cols i ≤ massOf rd names cols j := by
    refine List.Pairwise.imp_of_mem ?_ (so.asc ms)
    intro i j hi hj hij
    have hi' := List.mem_range.mp (hperm.mem_iff.mp hi)
    have hj' := List.mem_range.mp (hperm.mem_iff.mp hj)
    exact hij _ _ (hget i hi') (hget j hj')
  have hrl : (so.run ms).length = n := by rw [hperm.length_eq, List.length_range]
  refine ⟨(so.run ms).drop (n - min m n), (so.run ms).take (n - min m n), ⟨?_, ?_, ?_⟩, by rw [List.length_drop, hrl]; omega, ?_⟩
  · rw [List.take_append_drop]; exact hperm
  · exact hasc.sublist (List.take_sublist _ _)
  · rw [← List.take_append_drop (n - min m n) (so.run ms), List.pairwise_append] at hasc
    exact hasc.2.2
  · unfold convertTopN
    rw [List.getElem?_eq_getElem hpos]
    simp only [Out.index, Out.bind]
    rw [hms]
    simp only [Out.index, Out.bind]
    rw [hc0, mapM_some' _ (fun c => ((so.run ms).drop (n - min m n)).map fun i => c.getD i 0)]
    · simp only [Out.index, Out.bind]
      congr 2
      rw [List.length_drop, hrl]; omega
    · intro c hc
      apply mapM_some'
      intro i hi
      have hi' := List.mem_range.mp (hperm.mem_iff.mp (List.mem_of_mem_drop hi))
      rw [List.getD_eq_getElem?_getD, List.getElem?_eq_getElem (by rw [(h.rows c hc).1]; exact hi')]; rfl

/-- the last part of `ReadSortedRockstarIDs` -/
theorem sortedIDs_spec (rd : Reading K) (ds : Descsort K) {names : List String} {cols : List (List Nat)} {n : Nat} {top rest : List Nat} (h : Top rd names cols n top rest) :
    ∃ order, Ranking rd names cols n order ∧ ∀ maxID : Int,
      (maxID = -1 → rest = [] → sortedIDs ds maxID (top.map (idOf rd names cols)) (top.map (massOf rd names cols)) = .ok (order.map (idOf rd names cols))) ∧
      (0 ≤ maxID → maxID < top.length → sortedIDs ds maxID (top.map (idOf rd names cols)) (top.map (massOf rd names cols)) = .ok ((order.take (maxID.toNat + 1)).map (idOf rd names cols))) ∧
      (maxID = top.length → sortedIDs ds maxID (top.map (idOf rd names cols)) (top.map (massOf rd names cols)) = .panic) ∧
      ((top.length : Int) < maxID → sortedIDs ds maxID (top.map (idOf rd names cols)) (top.map (massOf rd names cols)) = .error) := by
  have hz : (top.map (idOf rd names cols)).zip (top.map (massOf rd names cols)) = top.map fun i => (idOf rd names cols i, massOf rd names cols i) := by
    rw [List.zip_map', ]
  obtain ⟨top', t1, t2⟩ := perm_map_pre (fun i => (idOf rd names cols i, massOf rd names cols i)) _ _ (ds.perm _) top hz
  have hdesc := ds.desc ((top.map (idOf rd names cols)).zip (top.map (massOf rd names cols)))
  rw [t2, List.pairwise_map] at hdesc
  have hl := t1.length_eq
  refine ⟨top' ++ rest.reverse, ⟨?_, ?_⟩, ?_⟩
  · refine (List.Perm.append t1 (List.reverse_perm rest)).trans ?_
    exact List.perm_append_comm.trans h.perm
  · rw [List.pairwise_append]
    refine ⟨hdesc, by rw [List.pairwise_reverse]; exact h.asc, ?_⟩
    intro i hi j hj
    exact h.above j (List.mem_reverse.mp hj) i (t1.mem_iff.mp hi)
  · intro maxID
    have e : ((ds.run ((top.map (idOf rd names cols)).zip (top.map (massOf rd names cols)))).map Prod.fst) = top'.map (idOf rd names cols) := by
      rw [t2, List.map_map]; rfl
    have hlm : (top.map (idOf rd names cols)).length = top.length := by simp
    refine ⟨?_, ?_, ?_, ?_⟩
    · intro hm hr
      unfold sortedIDs
      rw [if_neg (by rw [hlm]; omega)]
      simp only
      rw [if_pos hm, e, hr]
      simp
    · intro h0 h1
      unfold sortedIDs
      rw [if_neg (by rw [hlm]; omega)]
      simp only
      rw [if_neg (by omega), e, if_pos ⟨by omega, by rw [List.length_map]; omega⟩]
      congr 1
      rw [show (maxID + 1).toNat = maxID.toNat + 1 by omega, ← List.map_take, List.take_append_of_le_length (by omega)]
    · intro h1
      unfold sortedIDs
      rw [if_neg (by rw [hlm]; omega)]
      simp only
      rw [if_neg (by omega), e, if_neg (by rw [List.length_map]; omega)]
    · intro h1
      unfold sortedIDs
      rw [if_pos (by rw [hlm]; exact h1)]

/-- reading a cache file that may be missing, complete or truncated; `m` rows are cached -/
theorem readRockstar_all (rd : Reading K) {names : List String} {columns : List Int} {vc : VarColumns} {n : Nat} {cols : List (List Nat)} (h : Usable names columns vc n cols)
    (vals : List String) (hv : ∀ v ∈ vals, v ∈ names) (file : List Nat) (top : List Nat) (ht : top.length ≤ n) (k : Nat) (hf : file = (encode top.length (sel top cols)).take k)
    (ids : Option (List Int)) (write : Out (List Nat)) :
    (readRockstar rd vc (some file) write vals ids).2 = some file ∧
    (((encode top.length (sel top cols)).length ≤ k → (readRockstar rd vc (some file) write vals ids).1 =
        match ids with
        | none => .ok (top.map (idOf rd names cols), vals.map fun v => top.map fun i => rd.val (entry names cols v i))
        | some ids => (selectRows (top.map (idOf rd names cols)) (vals.map fun v => top.map fun i => rd.val (entry names cols v i)) ids).bind fun r => .ok (ids, r)) ∧
      (k < (encode top.length (sel top cols)).length → (readRockstar rd vc (some file) write vals ids).1 = .error)) := by
  have hn := h.small
  have hnb := (lookup_name names columns vc h.distinct h.vars).1
  have hw : (sel top cols).length = cols.length := by simp [sel]
  refine ⟨rfl, ?_, ?_⟩
  · intro hk
    rw [List.take_of_length_le hk] at hf
    unfold readRockstar
    simp only
    rw [hf, read_sel rd h top ht]
    simp only [Out.bind]
    rw [mapM_some' _ (fun v => top.map fun i => rd.val (entry names cols v i)) vals (fun v hvm => getColumn_sel rd h top v (hv v hvm))]
    simp only [Out.index]
    cases ids <;> rfl
  · intro hk
    unfold readRockstar
    simp only
    have hp := getter_prefix top.length (sel top cols) (sel_table n cols h.rows top) (by omega) k hk
    unfold readBinaryRockstar
    rw [hf, hnb, ← h.width, ← hw, hp]
    rfl

theorem convert_ok (rd : Reading K) {names : List String} {columns : List Int} {vc : VarColumns} {n : Nat} {cols : List (List Nat)} (h : Usable names columns vc n cols) :
    convert cols = .ok (encode n cols) := by
  have hpos : 0 < cols.length := by rw [h.width]; exact List.length_pos_of_mem h.hasID
  unfold convert
  rw [List.getElem?_eq_getElem hpos]
  simp only [Out.index, Out.bind]
  rw [(h.rows _ (List.getElem_mem hpos)).1]

theorem readRockstar_none (rd : Reading K) (vc : VarColumns) (f : List Nat) (vals : List String) (ids : Option (List Int)) (write : Out (List Nat)) :
    readRockstar rd vc none (.ok f) vals ids = readRockstar rd vc (some f) write vals ids := rfl

/-- reading the full or the short cache -/
theorem cache_read (rd : Reading K) (so : Argsort K) {names : List String} {columns : List Int} {vc : VarColumns} {n : Nat} {cols : List (List Nat)} (h : Usable names columns vc n cols)
    (cache : Cache) (hc : cache.Sound rd vc n cols) (isShort : Bool) :
    ∃ top rest f k, Top rd names cols n top rest ∧ top.length = (if isShort then min shortNum n else n) ∧ f = (encode top.length (sel top cols)).take k ∧
      (cache.Complete rd vc n cols → (encode top.length (sel top cols)).length ≤ k) ∧
      (isShort = true → (cache.short = none ∨ cache.short = some f) ∧ ∀ vals ids, readRockstar rd vc cache.short (convertTopN rd so vc shortNum cols) vals ids = readRockstar rd vc (some f) .error vals ids ∧
          (∃ so' g k, convertTopN rd so' vc shortNum cols = .ok g ∧ f = g.take k)) ∧
      (isShort = false → (cache.full = none ∨ cache.full = some f) ∧ ∀ vals ids, readRockstar rd vc cache.full (convert cols) vals ids = readRockstar rd vc (some f) .error vals ids ∧
          ∃ k, f = (encode n cols).take k) := by
  cases isShort with
  | true =>
    cases hs : cache.short with
    | none =>
      obtain ⟨top, rest, t1, t2, t3⟩ := convertTopN_spec rd so h shortNum
      refine ⟨top, rest, _, (encode top.length (sel top cols)).length, t1, by simpa using t2, rfl, fun _ => le_rfl, ?_, by simp⟩
      intro _
      refine ⟨Or.inl rfl, fun vals ids => ⟨?_, so, _, _, t3, rfl⟩⟩
      rw [t3, List.take_length]; rfl
    | some f =>
      obtain ⟨so', g, k, hg, hf⟩ := hc.short f hs
      obtain ⟨top, rest, t1, t2, t3⟩ := convertTopN_spec rd so' h shortNum
      rw [t3, Out.ok.injEq] at hg
      subst hg
      by_cases hk : (encode top.length (sel top cols)).length ≤ k
      · exact ⟨top, rest, f, k, t1, by simpa using t2, hf, fun _ => hk, fun _ => ⟨Or.inr rfl, fun vals ids => ⟨rfl, so', _, k, t3, hf⟩⟩, by simp⟩
      · refine ⟨top, rest, f, k, t1, by simpa using t2, hf, fun hcm => ?_, fun _ => ⟨Or.inr rfl, fun vals ids => ⟨rfl, so', _, k, t3, hf⟩⟩, by simp⟩
        obtain ⟨so'', h''⟩ := hcm.short f hs
        obtain ⟨top2, rest2, u1, u2, u3⟩ := convertTopN_spec rd so'' h shortNum
        rw [u3, Out.ok.injEq] at h''
        have e1 : f.length = (encode top.length (sel top cols)).length := by
          rw [← h'', encode_length _ _ (sel_table n cols h.rows _), encode_length _ _ (sel_table n cols h.rows _), u2, t2]
          simp [sel]
        rw [hf, List.length_take] at e1
        omega
  | false =>
    cases hs : cache.full with
    | none =>
      refine ⟨List.range n, [], encode n cols, (encode n cols).length, Top.all rd names cols n, by simp, ?_, ?_, by simp, ?_⟩
      · rw [sel_range n cols h.rows, List.length_range, List.take_length]
      · intro _; rw [sel_range n cols h.rows, List.length_range]
      · intro _
        refine ⟨Or.inl rfl, fun vals ids => ⟨?_, (encode n cols).length, by rw [List.take_length]⟩⟩
        rw [convert_ok rd h]; rfl
    | some f =>
      obtain ⟨k, hf⟩ := hc.full f hs
      by_cases hk : (encode n cols).length ≤ k
      · refine ⟨List.range n, [], f, k, Top.all rd names cols n, by simp, ?_, ?_, by simp, fun _ => ⟨Or.inr rfl, fun vals ids => ⟨rfl, k, hf⟩⟩⟩
        · rw [sel_range n cols h.rows, List.length_range]; exact hf
        · intro _; rw [sel_range n cols h.rows, List.length_range]; exact hk
      · refine ⟨List.range n, [], f, k, Top.all rd names cols n, by simp, ?_, ?_, by simp, fun _ => ⟨Or.inr rfl, fun vals ids => ⟨rfl, k, hf⟩⟩⟩
        · rw [sel_range n cols h.rows, List.length_range]; exact hf
        · intro hcm
          have := hcm.full f hs
          rw [hf] at this
          have e1 := congrArg List.length this
          rw [List.length_take] at e1
          omega

/-- the outcome of `ReadSortedRockstarIDs` on sound caches -/
theorem sorted_outcome (rd : Reading K) (so : Argsort K) (ds : Descsort K) {names : List String} {columns : List Int} {vc : VarColumns} {n : Nat} {cols : List (List Nat)}
    (h : Usable names columns vc n cols) (cache : Cache) (hc : cache.Sound rd vc n cols) (maxID : Int) (h1 : -1 ≤ maxID) :
    ∃ order, Ranking rd names cols n order ∧
      ((readSortedRockstarIDs rd so ds vc cols cache maxID "M200m").1 = .error ∧ ¬ cache.Complete rd vc n cols ∨
        (maxID = -1 → (readSortedRockstarIDs rd so ds vc cols cache maxID "M200m").1 = .ok (order.map (idOf rd names cols))) ∧
        (0 ≤ maxID → maxID < n → (readSortedRockstarIDs rd so ds vc cols cache maxID "M200m").1 = .ok ((order.take (maxID.toNat + 1)).map (idOf rd names cols))) ∧
        (maxID = n → (readSortedRockstarIDs rd so ds vc cols cache maxID "M200m").1 = .panic) ∧
        ((n : Int) < maxID → (readSortedRockstarIDs rd so ds vc cols cache maxID "M200m").1 = .error)) ∧
      (readSortedRockstarIDs rd so ds vc cols cache maxID "M200m").2.Sound rd vc n cols ∧
      (cache.Complete rd vc n cols → (readSortedRockstarIDs rd so ds vc cols cache maxID "M200m").2.Complete rd vc n cols) := by
  by_cases hb : (shortNum : Int) ≤ maxID ∨ maxID = -1
  · obtain ⟨top, rest, f, k, t1, t2, t3, t4, _, t6⟩ := cache_read rd so h cache hc false
    simp only [Bool.false_eq_true, if_false] at t2
    obtain ⟨c1, c2⟩ := t6 rfl
    obtain ⟨r1, k', r2⟩ := c2 ["M200m"] none
    have hrest : rest = [] := List.length_eq_zero_iff.mp (by have := t1.length; omega)
    obtain ⟨order, o1, o2⟩ := sortedIDs_spec rd ds t1
    obtain ⟨a1, a2, a3⟩ := readRockstar_all rd h ["M200m"] (by simp [h.hasMass]) f top (by omega) k t3 none .error
    have hcache : (readSortedRockstarIDs rd so ds vc cols cache maxID "M200m").2 = { cache with full := some f } := by
      unfold readSortedRockstarIDs
      rw [if_pos hb]
      simp only
      rw [r1, a1]
    have hval : (readSortedRockstarIDs rd so ds vc cols cache maxID "M200m").1 =
        ((readRockstar rd vc (some f) .error ["M200m"] none).1.bind fun x => (Out.index x.2[0]?).bind fun ms => sortedIDs ds maxID x.1 ms) := by
      unfold readSortedRockstarIDs
      rw [if_pos hb]
      simp only
      rw [r1]
    refine ⟨order, o1, ?_, ?_, ?_⟩
    · rw [hval]
      by_cases hk : (encode top.length (sel top cols)).length ≤ k
      · right
        rw [a2 hk]
        have := o2 maxID
        rw [t2] at this
        simp only [List.map_cons, List.map_nil, Out.bind, List.getElem?_cons_zero, Out.index]
        exact ⟨fun hm => this.1 hm hrest, this.2.1, this.2.2.1, this.2.2.2⟩
      · left
        rw [a3 (by omega)]
        exact ⟨rfl, fun hcm => hk (t4 hcm)⟩
    · rw [hcache]
      exact ⟨fun g hg => by simp only [Option.some.injEq] at hg; subst hg; exact ⟨k', r2⟩, hc.short⟩
    · intro hcm
      rw [hcache]
      refine ⟨fun g hg => ?_, hcm.short⟩
      simp only [Option.some.injEq] at hg
      subst hg
      rw [t3, List.take_of_length_le (t4 hcm), t2]
      have : f.length = (encode n cols).length := by
        rw [t3, List.take_of_length_le (t4 hcm), encode_length _ _ (sel_table n cols h.rows _), encode_length _ _ h.rows, t2]; simp [sel]
      rw [r2, List.length_take] at this
      rw [t3, List.take_of_length_le (t4 hcm), t2, List.take_of_length_le (by omega)] at r2
      exact r2
  · obtain ⟨top, rest, f, k, t1, t2, t3, t4, t5, _⟩ := cache_read rd so h cache hc true
    simp only [if_true] at t2
    obtain ⟨c1, c2⟩ := t5 rfl
    obtain ⟨r1, so', g, k', r2, r3⟩ := c2 ["M200m"] none
    obtain ⟨order, o1, o2⟩ := sortedIDs_spec rd ds t1
    obtain ⟨a1, a2, a3⟩ := readRockstar_all rd h ["M200m"] (by simp [h.hasMass]) f top (by omega) k t3 none .error
    have hcache : (readSortedRockstarIDs rd so ds vc cols cache maxID "M200m").2 = { cache with short := some f } := by
      unfold readSortedRockstarIDs
      rw [if_neg hb]
      simp only
      rw [r1, a1]
    have hval : (readSortedRockstarIDs rd so ds vc cols cache maxID "M200m").1 =
        ((readRockstar rd vc (some f) .error ["M200m"] none).1.bind fun x => (Out.index x.2[0]?).bind fun ms => sortedIDs ds maxID x.1 ms) := by
      unfold readSortedRockstarIDs
      rw [if_neg hb]
      simp only
      rw [r1]
    refine ⟨order, o1, ?_, ?_, ?_⟩
    · rw [hval]
      by_cases hk : (encode top.length (sel top cols)).length ≤ k
      · right
        rw [a2 hk]
        have := o2 maxID
        simp only [List.map_cons, List.map_nil, Out.bind, List.getElem?_cons_zero, Out.index]
        refine ⟨fun hm => by omega, fun h0 hm => this.2.1 h0 (by rw [t2]; omega), fun hm => this.2.2.1 (by rw [t2]; omega), fun hm => this.2.2.2 (by rw [t2]; omega)⟩
      · left
        rw [a3 (by omega)]
        exact ⟨rfl, fun hcm => hk (t4 hcm)⟩
    · rw [hcache]
      exact ⟨hc.full, fun g' hg => by simp only [Option.some.injEq] at hg; subst hg; exact ⟨so', g, k', r2, r3⟩⟩
    · intro hcm
      rw [hcache]
      refine ⟨hcm.full, fun g' hg => ?_⟩
      simp only [Option.some.injEq] at hg
      subst hg
      refine ⟨so', ?_⟩
      rw [r2]
      congr 1
      obtain ⟨top2, rest2, u1, u2, u3⟩ := convertTopN_spec rd so' h shortNum
      rw [u3, Out.ok.injEq] at r2
      have : f.length = g.length := by
        rw [t3, List.take_of_length_le (t4 hcm), ← r2, encode_length _ _ (sel_table n cols h.rows _), encode_length _ _ (sel_table n cols h.rows _), t2, u2]; simp [sel]
      rw [r3, List.length_take] at this
      rw [r3, List.take_of_length_le (by omega)]

/-- C26: with caches that are missing or complete, `ReadSortedRockstarIDs(maxID)` returns, for every `maxID` below the number of halos, the ids of the first `maxID + 1`
halos of a ranking by descending mass, `-1` returns the whole ranking, and a `maxID` above the number of halos is an error.  The caches stay complete. -/
theorem C26_ranking_partial (rd : Reading K) (so : Argsort K) (ds : Descsort K) {names : List String} {columns : List Int} {vc : VarColumns} {n : Nat} {cols : List (List Nat)}
    (h : Usable names columns vc n cols) (cache : Cache) (hc : cache.Complete rd vc n cols) (maxID : Int) (h1 : -1 ≤ maxID) :
    ∃ order, Ranking rd names cols n order ∧
      (maxID = -1 → (readSortedRockstarIDs rd so ds vc cols cache maxID "M200m").1 = .ok (order.map (idOf rd names cols))) ∧
      (0 ≤ maxID → maxID < n → (readSortedRockstarIDs rd so ds vc cols cache maxID "M200m").1 = .ok ((order.take (maxID.toNat + 1)).map (idOf rd names cols))) ∧
      ((n : Int) < maxID → (readSortedRockstarIDs rd so ds vc cols cache maxID "M200m").1 = .error) ∧
      (readSortedRockstarIDs rd so ds vc cols cache maxID "M200m").2.Complete rd vc n cols := by
  obtain ⟨order, o1, o2, _, o4⟩ := sorted_outcome rd so ds h cache hc.sound maxID h1
  rcases o2 with ⟨_, o2⟩ | o2
  · exact absurd hc o2
  · exact ⟨order, o1, o2.1, o2.2.1, o2.2.2.2, o4 hc⟩

/-- C26 is false for `maxID` equal to the number of halos: instead of an error there is a panic, on every catalogue. -/
theorem C26_end_false (rd : Reading K) (so : Argsort K) (ds : Descsort K) {names : List String} {columns : List Int} {vc : VarColumns} {n : Nat} {cols : List (List Nat)}
    (h : Usable names columns vc n cols) (cache : Cache) (hc : cache.Complete rd vc n cols) : (readSortedRockstarIDs rd so ds vc cols cache n "M200m").1 = .panic := by
  obtain ⟨order, o1, o2, _, _⟩ := sorted_outcome rd so ds h cache hc.sound n (by omega)
  rcases o2 with ⟨_, o2⟩ | o2
  · exact absurd hc o2
  · exact o2.2.2.1 rfl

/-- C58: whatever prefix of a halo cache file an interruption left behind, `ReadSortedRockstarIDs` reports an error or gives the same result as without caches; it
never uses a part of a file as if it were whole. -/
theorem C58_sorted (rd : Reading K) (so : Argsort K) (ds : Descsort K) {names : List String} {columns : List Int} {vc : VarColumns} {n : Nat} {cols : List (List Nat)}
    (h : Usable names columns vc n cols) (cache : Cache) (hc : cache.Sound rd vc n cols) (maxID : Int) (h1 : -1 ≤ maxID) (h2 : maxID < n) :
    ((readSortedRockstarIDs rd so ds vc cols cache maxID "M200m").1 = .error ∨ ∃ order, Ranking rd names cols n order ∧
      (readSortedRockstarIDs rd so ds vc cols cache maxID "M200m").1 = .ok ((if maxID = -1 then order else order.take (maxID.toNat + 1)).map (idOf rd names cols))) ∧
      (readSortedRockstarIDs rd so ds vc cols cache maxID "M200m").2.Sound rd vc n cols := by
  obtain ⟨order, o1, o2, o3, _⟩ := sorted_outcome rd so ds h cache hc maxID h1
  refine ⟨?_, o3⟩
  rcases o2 with ⟨o2, _⟩ | o2
  · exact Or.inl o2
  · right
    refine ⟨order, o1, ?_⟩
    by_cases hm : maxID = -1
    · rw [if_pos hm]; exact o2.1 hm
    · rw [if_neg hm]; exact o2.2.1 (by omega) h2

/-! C29 -/

/-- C29: `IntFinder.Find` returns the last index at which the id is stored, and reports absence exactly when the id is not in the list. -/
theorem C29_find (rids : List Int) (id : Int) :
    (∀ i, find (newIntFinder rids) id = some i → rids[i]? = some id ∧ ∀ j, i < j → rids[j]? ≠ some id) ∧ (find (newIntFinder rids) id = none ↔ id ∉ rids) :=
  newIntFinder_spec rids id

example : find (newIntFinder [7, 3, 7, 5]) 7 = some 2 := by decide
example : find (newIntFinder [7, 3, 7, 5]) 4 = none := by decide

/-- the rows with the given ids -/
theorem selectRows_spec (rd : Reading K) {names : List String} {cols : List (List Nat)} {n : Nat} (top : List Nat) (hsub : ∀ i ∈ top, i < n)
    (hinj : ∀ i j, i < n → j < n → idOf rd names cols i = idOf rd names cols j → i = j) (vals : List String) (ids : List Int) :
    (∀ rows : List Nat, rows.map (idOf rd names cols) = ids → (∀ i ∈ rows, i ∈ top) →
      selectRows (top.map (idOf rd names cols)) (vals.map fun v => top.map fun i => rd.val (entry names cols v i)) ids = .ok (vals.map fun v => rows.map fun i => rd.val (entry names cols v i))) ∧
    ((∃ id ∈ ids, ∀ i ∈ top, idOf rd names cols i ≠ id) →
      selectRows (top.map (idOf rd names cols)) (vals.map fun v => top.map fun i => rd.val (entry names cols v i)) ids = .error) := by
  constructor
  · rintro rows rfl hrows
    have hfind : ∀ i ∈ rows, ∃ l, find (newIntFinder (top.map (idOf rd names cols))) (idOf rd names cols i) = some l ∧ top[l]? = some i := by
      intro i hi
      obtain ⟨s1, s2⟩ := newIntFinder_spec (top.map (idOf rd names cols)) (idOf rd names cols i)
      cases hf : newIntFinder (top.map (idOf rd names cols)) (idOf rd names cols i) with
      | none => exact absurd (List.mem_map_of_mem (hrows i hi)) (s2.mp hf)
      | some l =>
        refine ⟨l, hf, ?_⟩
        have := (s1 l hf).1
        rw [List.getElem?_map, Option.map_eq_some_iff] at this
        obtain ⟨j, hj, hj'⟩ := this
        rw [hj, hinj j i (hsub j (List.mem_of_getElem? hj)) (hsub i (hrows i hi)) hj']
    have hl : ∃ lines : List Nat, (rows.map (idOf rd names cols)).mapM (fun id => find (newIntFinder (top.map (idOf rd names cols))) id) = some lines ∧
        ∀ v, lines.mapM (fun l => (top.map fun i => rd.val (entry names cols v i))[l]?) = some (rows.map fun i => rd.val (entry names cols v i)) := by
      clear hrows
      induction rows with
      | nil => exact ⟨[], rfl, fun v => rfl⟩
      | cons i rows ih =>
        obtain ⟨lines, l1, l2⟩ := ih (fun j hj => hfind j (by simp [hj]))
        obtain ⟨l, f1, f2⟩ := hfind i (by simp)
        refine ⟨l :: lines, ?_, fun v => ?_⟩
        · rw [List.map_cons, List.mapM_cons, f1, l1]; rfl
        · rw [List.mapM_cons, l2 v, List.getElem?_map, f2]; rfl
    obtain ⟨lines, l1, l2⟩ := hl
    unfold selectRows
    rw [l1]
    simp only
    have : (vals.map fun v => top.map fun i => rd.val (entry names cols v i)).mapM (fun rv => lines.mapM fun l => rv[l]?) =
        some (vals.map fun v => rows.map fun i => rd.val (entry names cols v i)) := by
      clear hfind l1
      induction vals with
      | nil => rfl
      | cons v vals ih => rw [List.map_cons, List.mapM_cons, l2 v, ih]; rfl
    rw [this]; rfl
  · rintro ⟨id, hid, hno⟩
    have hnone : find (newIntFinder (top.map (idOf rd names cols))) id = none := by
      apply (newIntFinder_spec _ _).2.mpr
      intro hm
      obtain ⟨i, hi, rfl⟩ := List.mem_map.mp hm
      exact hno i hi rfl
    have : ids.mapM (fun id => find (newIntFinder (top.map (idOf rd names cols))) id) = none := by
      induction ids with
      | nil => simp at hid
      | cons a ids ih =>
        rw [List.mapM_cons]
        rw [List.mem_cons] at hid
        rcases hid with rfl | hid
        · rw [hnone]; rfl
        · rw [ih hid]
          cases find (newIntFinder (top.map (idOf rd names cols))) a <;> rfl
    unfold selectRows
    rw [this]

/-- C29 through the caches: on a catalogue with distinct ids, `ReadRockstar` returns for each requested id, in the order of the request, the values of the halo with that
id, and an error exactly when some id is not in the catalogue — whether the caches are missing or complete, and whether or not the short one contains the halos. -/
theorem C29_values (rd : Reading K) (so : Argsort K) {names : List String} {columns : List Int} {vc : VarColumns} {n : Nat} {cols : List (List Nat)}
    (h : Usable names columns vc n cols) (hinj : ∀ i j, i < n → j < n → idOf rd names cols i = idOf rd names cols j → i = j)
    (cache : Cache) (hc : cache.Complete rd vc n cols) (vals : List String) (hv : ∀ v ∈ vals, v ∈ names) (ids : List Int) :
    (∀ rows : List Nat, rows.map (idOf rd names cols) = ids → (∀ i ∈ rows, i < n) →
      (readRockstarIDs rd so vc cols cache vals (some ids)).1 = .ok (ids, vals.map fun v => rows.map fun i => rd.val (entry names cols v i))) ∧
    ((∃ id ∈ ids, ∀ i < n, idOf rd names cols i ≠ id) → (readRockstarIDs rd so vc cols cache vals (some ids)).1 = .error) := by
  classical
  obtain ⟨top, rest, f, k, t1, t2, t3, t4, t5, _⟩ := cache_read rd so h cache hc.sound true
  simp only [if_true] at t2
  have r1 := fun vals ids => ((t5 rfl).2 vals ids).1
  obtain ⟨top2, rest2, f2, k2, u1, u2, u3, u4, _, u6⟩ := cache_read rd so h cache hc.sound false
  simp only [Bool.false_eq_true, if_false] at u2
  have r2 := fun vals ids => ((u6 rfl).2 vals ids).1
  have hsub : ∀ i ∈ top, i < n := fun i hi => List.mem_range.mp (t1.perm.mem_iff.mp (by simp [hi]))
  have hrest2 : rest2 = [] := List.length_eq_zero_iff.mp (by have := u1.length; omega)
  have hmem2 : ∀ i, i ∈ top2 ↔ i < n := by
    intro i
    have := u1.perm.mem_iff (a := i)
    rw [hrest2, List.nil_append, List.mem_range] at this
    exact this
  obtain ⟨_, a2, _⟩ := readRockstar_all rd h vals hv f top (by omega) k t3 (some ids) .error
  obtain ⟨_, b2, _⟩ := readRockstar_all rd h vals hv f2 top2 (by omega) k2 u3 (some ids) .error
  have a := a2 (t4 hc)
  have b := b2 (u4 hc)
  obtain ⟨s1, s2⟩ := selectRows_spec rd top hsub hinj vals ids
  obtain ⟨v1, v2⟩ := selectRows_spec rd top2 (fun i hi => (hmem2 i).mp hi) hinj vals ids
  have hcall : (readRockstarIDs rd so vc cols cache vals (some ids)).1 = match (readRockstar rd vc (some f) .error vals (some ids)).1 with
      | .ok x => .ok x
      | .panic => .panic
      | .error => (readRockstar rd vc (some f2) .error vals (some ids)).1 := by
    unfold readRockstarIDs
    rw [r1, r2]
    generalize readRockstar rd vc (some f) Out.error vals (some ids) = z
    obtain ⟨z1, z2⟩ := z
    cases z1 <;> rfl
  constructor
  · intro rows hrows hlt
    rw [hcall, a, b]
    simp only
    by_cases hall : ∀ i ∈ rows, i ∈ top
    · rw [s1 rows hrows hall]; rfl
    · rw [s2 (by
        simp only [not_forall] at hall
        obtain ⟨i, hi, hi'⟩ := hall
        refine ⟨idOf rd names cols i, by rw [← hrows]; exact List.mem_map_of_mem hi, ?_⟩
        intro j hj he
        exact hi' (hinj j i (hsub j hj) (hlt i hi) he ▸ hj))]
      simp only [Out.bind]
      rw [v1 rows hrows (fun i hi => (hmem2 i).mpr (hlt i hi))]
  · rintro ⟨id, hid, hno⟩
    rw [hcall, a, b]
    simp only
    rw [s2 ⟨id, hid, fun i hi => hno i (hsub i hi)⟩]
    simp only [Out.bind]
    rw [v2 ⟨id, hid, fun i hi => hno i ((hmem2 i).mp hi)⟩]

/-- C58 for values: whatever prefixes of the halo cache files interruptions left behind, `ReadRockstar` reports an error or gives for each requested id the values of the halo
with that id; it reports an error when an id is not in the catalogue; and it leaves only such prefixes behind. -/
theorem C58_values (rd : Reading K) (so : Argsort K) {names : List String} {columns : List Int} {vc : VarColumns} {n : Nat} {cols : List (List Nat)}
    (h : Usable names columns vc n cols) (hinj : ∀ i j, i < n → j < n → idOf rd names cols i = idOf rd names cols j → i = j)
    (cache : Cache) (hc : cache.Sound rd vc n cols) (vals : List String) (hv : ∀ v ∈ vals, v ∈ names) (ids : List Int) :
    (∀ rows : List Nat, rows.map (idOf rd names cols) = ids → (∀ i ∈ rows, i < n) →
      (readRockstarIDs rd so vc cols cache vals (some ids)).1 = .error ∨
        (readRockstarIDs rd so vc cols cache vals (some ids)).1 = .ok (ids, vals.map fun v => rows.map fun i => rd.val (entry names cols v i))) ∧
    ((∃ id ∈ ids, ∀ i < n, idOf rd names cols i ≠ id) → (readRockstarIDs rd so vc cols cache vals (some ids)).1 = .error) ∧
    (readRockstarIDs rd so vc cols cache vals (some ids)).2.Sound rd vc n cols := by
  classical
  obtain ⟨top, rest, f, k, t1, t2, t3, _, t5, _⟩ := cache_read rd so h cache hc true
  simp only [if_true] at t2
  have r1 := fun vals ids => ((t5 rfl).2 vals ids).1
  obtain ⟨top2, rest2, f2, k2, u1, u2, u3, _, _, u6⟩ := cache_read rd so h cache hc false
  simp only [Bool.false_eq_true, if_false] at u2
  have r2 := fun vals ids => ((u6 rfl).2 vals ids).1
  have hsub : ∀ i ∈ top, i < n := fun i hi => List.mem_range.mp (t1.perm.mem_iff.mp (by simp [hi]))
  have hrest2 : rest2 = [] := List.length_eq_zero_iff.mp (by have := u1.length; omega)
  have hmem2 : ∀ i, i ∈ top2 ↔ i < n := by
    intro i
    have := u1.perm.mem_iff (a := i)
    rw [hrest2, List.nil_append, List.mem_range] at this
    exact this
  obtain ⟨a1, a2, a3⟩ := readRockstar_all rd h vals hv f top (by omega) k t3 (some ids) .error
  obtain ⟨b1, b2, b3⟩ := readRockstar_all rd h vals hv f2 top2 (by omega) k2 u3 (some ids) .error
  obtain ⟨s1, s2⟩ := selectRows_spec rd top hsub hinj vals ids
  obtain ⟨v1, v2⟩ := selectRows_spec rd top2 (fun i hi => (hmem2 i).mp hi) hinj vals ids
  have hcall : (readRockstarIDs rd so vc cols cache vals (some ids)).1 = match (readRockstar rd vc (some f) .error vals (some ids)).1 with
      | .ok x => .ok x
      | .panic => .panic
      | .error => (readRockstar rd vc (some f2) .error vals (some ids)).1 := by
    unfold readRockstarIDs
    rw [r1, r2]
    generalize readRockstar rd vc (some f) Out.error vals (some ids) = z
    obtain ⟨z1, z2⟩ := z
    cases z1 <;> rfl
  have second : ∀ rows : List Nat, rows.map (idOf rd names cols) = ids → (∀ i ∈ rows, i < n) →
      (readRockstar rd vc (some f2) .error vals (some ids)).1 = .error ∨
        (readRockstar rd vc (some f2) .error vals (some ids)).1 = .ok (ids, vals.map fun v => rows.map fun i => rd.val (entry names cols v i)) := by
    intro rows hrows hlt
    rcases Nat.lt_or_ge k2 (encode top2.length (sel top2 cols)).length with hk | hk
    · exact Or.inl (b3 hk)
    · right
      rw [b2 hk]
      simp only
      rw [v1 rows hrows (fun i hi => (hmem2 i).mpr (hlt i hi))]
      rfl
  refine ⟨?_, ?_, ?_⟩
  · intro rows hrows hlt
    rw [hcall]
    rcases Nat.lt_or_ge k (encode top.length (sel top cols)).length with hk | hk
    · rw [a3 hk]
      exact second rows hrows hlt
    · rw [a2 hk]
      simp only
      by_cases hall : ∀ i ∈ rows, i ∈ top
      · right
        rw [s1 rows hrows hall]; rfl
      · rw [s2 (by
          simp only [not_forall] at hall
          obtain ⟨i, hi, hi'⟩ := hall
          refine ⟨idOf rd names cols i, by rw [← hrows]; exact List.mem_map_of_mem hi, ?_⟩
          intro j hj he
          exact hi' (hinj j i (hsub j hj) (hlt i hi) he ▸ hj))]
        exact second rows hrows hlt
  · rintro ⟨id, hid, hno⟩
    have hb : (readRockstar rd vc (some f2) .error vals (some ids)).1 = .error := by
      rcases Nat.lt_or_ge k2 (encode top2.length (sel top2 cols)).length with hk | hk
      · exact b3 hk
      · rw [b2 hk]
        simp only
        rw [v2 ⟨id, hid, fun i hi => hno i ((hmem2 i).mp hi)⟩]
        rfl
    rw [hcall]
    rcases Nat.lt_or_ge k (encode top.length (sel top cols)).length with hk | hk
    · rw [a3 hk]; exact hb
    · rw [a2 hk]
      simp only
      rw [s2 ⟨id, hid, fun i hi => hno i (hsub i hi)⟩]
      exact hb
  · obtain ⟨_, so', g, k', e1, e2⟩ := (t5 rfl).2 vals (some ids)
    obtain ⟨_, k'', e3⟩ := (u6 rfl).2 vals (some ids)
    have hshort : ∀ c : Option (List Nat), (∀ x, c = some x → ∃ k, x = (encode n cols).take k) → (⟨c, some f⟩ : Cache).Sound rd vc n cols := by
      intro c hcs
      refine ⟨hcs, fun x hx => ?_⟩
      rw [← Option.some_injective _ hx]
      exact ⟨so', g, k', e1, e2⟩
    unfold readRockstarIDs
    rw [r1, r2]
    cases hz : readRockstar rd vc (some f) Out.error vals (some ids) with
    | mk z1 z2 =>
      rw [hz] at a1
      simp only at a1
      subst a1
      cases z1 with
      | ok x => exact hshort _ hc.full
      | panic => exact hshort _ hc.full
      | error =>
        simp only
        refine hshort _ fun x hx => ?_
        rw [b1] at hx
        rw [← Option.some_injective _ hx]
        exact ⟨k'', e3⟩

/-! a concrete catalogue -/

/-- float64 patterns read as integers (enough for an example) -/
def exRd : Reading ℚ := ⟨fun w => (w : ℚ), fun _ m => m⟩

/-- non-vacuity: three halos with ids 11, 12, 13 and masses 5, 9, 9, and the name list of a configuration -/
example : Usable ["M200m", "ID", "X"] [2, 0, 5] ((newVarColumns ["M200m", "ID", "X"] [2, 0, 5]).get rfl) 3 [[5, 9, 9], [11, 12, 13], [1, 2, 3]] :=
  ⟨by decide, (Option.some_get _).symm, by decide, by decide, rfl, by decide, by decide⟩

example : Ranking exRd ["M200m", "ID", "X"] [[5, 9, 9], [11, 12, 13], [1, 2, 3]] 3 [2, 1, 0] := ⟨by decide, by decide +kernel⟩

example : (⟨none, none⟩ : Cache).Complete exRd ((newVarColumns ["M200m", "ID", "X"] [2, 0, 5]).get rfl) 3 [[5, 9, 9], [11, 12, 13], [1, 2, 3]] := ⟨by simp, by simp⟩

example : (⟨some ((encode 3 [[5, 9, 9], [11, 12, 13], [1, 2, 3]]).take 17), none⟩ : Cache).Sound exRd ((newVarColumns ["M200m", "ID", "X"] [2, 0, 5]).get rfl) 3 [[5, 9, 9], [11, 12, 13], [1, 2, 3]] :=
  ⟨by intro f hf; simp only [Option.some.injEq] at hf; exact ⟨17, hf.symm⟩, by simp⟩

/-- a sort for the example: insertion by value, any order on ties will do -/
example : Nonempty (Argsort ℚ) :=
  ⟨{ run := fun xs => (List.range xs.length).mergeSort fun i j => decide (xs.getD i 0 ≤ xs.getD j 0)
     perm := fun xs => List.mergeSort_perm _ _
     asc := fun xs => by
       refine (List.pairwise_mergeSort (le := fun i j => decide (xs.getD i 0 ≤ xs.getD j 0)) ?_ ?_ _).imp ?_
       · intro a b c h1 h2; simp only [decide_eq_true_eq] at *; exact le_trans h1 h2
       · intro a b; simp only [Bool.or_eq_true, decide_eq_true_eq]; exact le_total _ _
       · intro i j hij a b ha hb
         simp only [decide_eq_true_eq, List.getD_eq_getElem?_getD, ha, hb, Option.getD_some] at hij
         exact hij }⟩

/-! C27 -/

/-- A header whose fields fit their types. -/
def Header.Fits (h : Header) : Prop :=
  h.z < 2 ^ 64 ∧ h.omegaM < 2 ^ 64 ∧ h.omegaL < 2 ^ 64 ∧ h.h100 < 2 ^ 64 ∧ h.n < 2 ^ 64 ∧ h.totalWidth < 2 ^ 64 ∧ (∃ a b c, h.origin = [a, b, c] ∧ a < 2 ^ 32 ∧ b < 2 ^ 32 ∧ c < 2 ^ 32) ∧
    ∃ a b c, h.width = [a, b, c] ∧ a < 2 ^ 32 ∧ b < 2 ^ 32 ∧ c < 2 ^ 32

theorem field_at (pre rest : List Nat) (k w : Nat) (hw : w < 256 ^ k) (a : Nat) (ha : a = pre.length) : field (pre ++ (le k w ++ rest)) a k = w := by
  unfold field
  rw [ha, List.drop_left' rfl, List.take_left' (le_length _ _), unle_le k w hw]

theorem enc_length (h : Header) (hf : h.Fits) : h.enc.length = 72 := by
  obtain ⟨_, _, _, _, _, _, ⟨a, b, c, e, _⟩, ⟨a', b', c', e', _⟩⟩ := hf
  unfold Header.enc
  rw [e, e']
  simp [le_length]

theorem dec_enc (h : Header) (hf : h.Fits) : Header.dec h.enc = h := by
  obtain ⟨h1, h2, h3, h4, h5, h6, ⟨a, b, c, e, ha, hb, hc⟩, ⟨a', b', c', e', ha', hb', hc'⟩⟩ := hf
  have p8 : (2 : Nat) ^ 64 = 256 ^ 8 := by norm_num
  have p4 : (2 : Nat) ^ 32 = 256 ^ 4 := by norm_num
  rw [p8] at h1 h2 h3 h4 h5 h6
  rw [p4] at ha hb hc ha' hb' hc'
  obtain ⟨z, om, ol, hh, n, tw, o, w⟩ := h
  simp only at *
  subst e e'
  unfold Header.dec Header.enc
  simp only [List.flatMap_cons, List.flatMap_nil, List.append_nil, List.append_assoc]
  refine Header.mk.injEq .. |>.mpr ⟨?_, ?_, ?_, ?_, ?_, ?_, ?_, ?_⟩
  · exact field_at [] _ 8 z h1 0 rfl
  · exact field_at (le 8 z) _ 8 om h2 8 (by simp [le_length])
  · have := field_at (le 8 z ++ le 8 om) (le 8 hh ++ (le 8 n ++ (le 8 tw ++ (le 4 a ++ (le 4 b ++ (le 4 c ++ (le 4 a' ++ (le 4 b' ++ le 4 c')))))))) 8 ol h3 16 (by simp [le_length])
    simpa only [List.append_assoc] using this
  · have := field_at (le 8 z ++ le 8 om ++ le 8 ol) (le 8 n ++ (le 8 tw ++ (le 4 a ++ (le 4 b ++ (le 4 c ++ (le 4 a' ++ (le 4 b' ++ le 4 c'))))))) 8 hh h4 24 (by simp [le_length])
    simpa only [List.append_assoc] using this
  · have := field_at (le 8 z ++ le 8 om ++ le 8 ol ++ le 8 hh) (le 8 tw ++ (le 4 a ++ (le 4 b ++ (le 4 c ++ (le 4 a' ++ (le 4 b' ++ le 4 c')))))) 8 n h5 32 (by simp [le_length])
    simpa only [List.append_assoc] using this
  · have := field_at (le 8 z ++ le 8 om ++ le 8 ol ++ le 8 hh ++ le 8 n) (le 4 a ++ (le 4 b ++ (le 4 c ++ (le 4 a' ++ (le 4 b' ++ le 4 c'))))) 8 tw h6 40 (by simp [le_length])
    simpa only [List.append_assoc] using this
  · have q1 := field_at (le 8 z ++ le 8 om ++ le 8 ol ++ le 8 hh ++ le 8 n ++ le 8 tw) (le 4 b ++ (le 4 c ++ (le 4 a' ++ (le 4 b' ++ le 4 c')))) 4 a ha 48 (by simp [le_length])
    have q2 := field_at (le 8 z ++ le 8 om ++ le 8 ol ++ le 8 hh ++ le 8 n ++ le 8 tw ++ le 4 a) (le 4 c ++ (le 4 a' ++ (le 4 b' ++ le 4 c'))) 4 b hb 52 (by simp [le_length])
    have q3 := field_at (le 8 z ++ le 8 om ++ le 8 ol ++ le 8 hh ++ le 8 n ++ le 8 tw ++ le 4 a ++ le 4 b) (le 4 a' ++ (le 4 b' ++ le 4 c')) 4 c hc 56 (by simp [le_length])
    simp only [List.append_assoc] at q1 q2 q3
    rw [q1, q2, q3]
  · have q1 := field_at (le 8 z ++ le 8 om ++ le 8 ol ++ le 8 hh ++ le 8 n ++ le 8 tw ++ le 4 a ++ le 4 b ++ le 4 c) (le 4 b' ++ le 4 c') 4 a' ha' 60 (by simp [le_length])
    have q2 := field_at (le 8 z ++ le 8 om ++ le 8 ol ++ le 8 hh ++ le 8 n ++ le 8 tw ++ le 4 a ++ le 4 b ++ le 4 c ++ le 4 a') (le 4 c') 4 b' hb' 64 (by simp [le_length])
    have q3 := field_at (le 8 z ++ le 8 om ++ le 8 ol ++ le 8 hh ++ le 8 n ++ le 8 tw ++ le 4 a ++ le 4 b ++ le 4 c ++ le 4 a' ++ le 4 b') [] 4 c' hc' 68 (by simp [le_length])
    simp only [List.append_assoc, List.append_nil] at q1 q2 q3
    rw [q1, q2, q3]

theorem enc_all_length (hds : List Header) (hf : ∀ h ∈ hds, h.Fits) : (hds.flatMap Header.enc).length = 72 * hds.length := by
  induction hds with
  | nil => rfl
  | cons h hds ih => rw [List.flatMap_cons, List.length_append, ih (fun g hg => hf g (by simp [hg])), enc_length h (hf h (by simp)), List.length_cons]; ring

theorem read_enc (hds : List Header) (hf : ∀ h ∈ hds, h.Fits) : readHeaderMemo (hds.flatMap Header.enc) hds.length = hds := by
  unfold readHeaderMemo
  rw [if_pos (by rw [enc_all_length hds hf])]
  apply List.ext_getElem?
  intro i
  rw [List.getElem?_map]
  by_cases hi : i < hds.length
  · rw [List.getElem?_range hi, Option.map_some, List.getElem?_eq_getElem hi]
    congr 1
    have e : hds = hds.take i ++ hds[i] :: hds.drop (i + 1) := by rw [← List.drop_eq_getElem_cons hi, List.take_append_drop]
    have hl : ((hds.take i).flatMap Header.enc).length = 72 * i := by
      rw [enc_all_length _ (fun g hg => hf g (List.mem_of_mem_take hg)), List.length_take, min_eq_left (by omega)]
    have e2 : hds.flatMap Header.enc = (hds.take i).flatMap Header.enc ++ (hds[i].enc ++ (hds.drop (i + 1)).flatMap Header.enc) := by
      conv_lhs => rw [e]
      rw [List.flatMap_append, List.flatMap_cons]
    rw [e2, List.drop_left' hl, List.take_left' (enc_length _ (hf _ (List.getElem_mem hi))), dec_enc _ (hf _ (List.getElem_mem hi))]
  · rw [List.getElem?_eq_none (by simpa using hi), List.getElem?_eq_none (by omega)]; rfl

/-- C27: a header cache that is missing or was written to its end gives the same headers and file names as reading the snapshot, now and in every later call. -/
theorem C27_cached_partial (hds : List Header) (hf : ∀ h ∈ hds, h.Fits) (files : List String) (hl : files.length = hds.length) (memo : Option (List Nat))
    (hm : memo = none ∨ memo = some (hds.flatMap Header.enc)) :
    (readHeaders memo (.ok hds) files).1 = .ok (hds, files) ∧ (readHeaders memo (.ok hds) files).2 = some (hds.flatMap Header.enc) := by
  rcases hm with rfl | rfl
  · exact ⟨rfl, rfl⟩
  · refine ⟨?_, rfl⟩
    unfold readHeaders
    simp only
    rw [hl, read_enc hds hf]

/-- a snapshot whose headers cannot be read leaves no cache behind -/
theorem C27_failed (files : List String) : readHeaders none .error files = (.error, none) := rfl

/-- C27 is false after an interruption: any proper prefix of the cache file that an interrupted run left behind is taken for a complete one, and every header is the zero
header — for every snapshot with at least one file. -/
theorem C27_interrupted_false (hds : List Header) (hf : ∀ h ∈ hds, h.Fits) (files : List String) (hl : files.length = hds.length) (k : Nat) (hk : k < (hds.flatMap Header.enc).length)
    (fresh : Out (List Header)) :
    (readHeaders (some ((hds.flatMap Header.enc).take k)) fresh files).1 = .ok (List.replicate hds.length Header.zero, files) := by
  unfold readHeaders readHeaderMemo
  simp only
  rw [if_neg (by rw [List.length_take, hl]; rw [enc_all_length hds hf] at hk ⊢; omega), hl]

/-- non-vacuity: the header of a box of width 100 with 512³ particles is not the zero header -/
example : (Header.mk 0 4599075939470750515 4604480259023595110 4604480259023595110 134217728 4636737291354636288 [0, 0, 0] [1120403456, 1120403456, 1120403456]).Fits ∧
    (Header.mk 0 4599075939470750515 4604480259023595110 4604480259023595110 134217728 4636737291354636288 [0, 0, 0] [1120403456, 1120403456, 1120403456]) ≠ Header.zero :=
  ⟨⟨by norm_num, by norm_num, by norm_num, by norm_num, by norm_num, by norm_num, ⟨0, 0, 0, rfl, by norm_num⟩, ⟨_, _, _, rfl, by norm_num⟩⟩, by decide⟩

end Shellfish.Memo
