/- C25: the halos selected by the id mode; C59: exclusion, neighbours and repetition. -/
import Verif.Lemmas.IdMode

namespace Shellfish.IdMode
open Shellfish.Memo (Out newIntFinder Reading Argsort Descsort VarColumns Cache readSortedRockstarIDs readRockstarIDs Usable Ranking idOf massOf entry)
open Shellfish.Finder (Point newGrid insert findSubhalos hostCount subhalos Within InBox IsSub indices)

variable {K : Type} [Field K] [LinearOrder K] [IsStrictOrderedRing K] [FloorRing K]

/-! Specification -/

/-- A halo catalogue with `n` rows and distinct ids, seen through the configured columns; caches that the calls find, each missing or complete; the width of the box and the
unit factors. -/
structure Setup (K : Type) [Field K] [LinearOrder K] [IsStrictOrderedRing K] [FloorRing K] where
  rd : Reading K
  so : Argsort K
  ds : Descsort K
  names : List String
  columns : List Int
  vc : VarColumns
  n : Nat
  cols : List (List Nat)
  caches : Nat → Cache
  width : K
  rucf : K
  pucf : K
  usable : Usable names columns vc n cols
  distinct : ∀ i j, i < n → j < n → idOf rd names cols i = idOf rd names cols j → i = j
  complete : ∀ k, (caches k).Complete rd vc n cols

variable (s : Setup K)

/-- The id of row `i`. -/
def Setup.id (i : Nat) : Int := idOf s.rd s.names s.cols i

/-- The mass of row `i`. -/
def Setup.mass (i : Nat) : K := massOf s.rd s.names s.cols i

/-- The position of row `i`, in the units of the box. -/
def Setup.pos (i : Nat) : Point K :=
  ⟨s.rd.val (entry s.names s.cols "X" i) * s.pucf, s.rd.val (entry s.names s.cols "Y" i) * s.pucf, s.rd.val (entry s.names s.cols "Z" i) * s.pucf⟩

/-- The radius R200m of row `i`, in the units of the box. -/
def Setup.radius (i : Nat) : K := s.rd.val (entry s.names s.cols "R200m" i) * s.rucf

/-- All rows, most massive first (halos of equal mass in some order). -/
def Setup.Ranks (order : List Nat) : Prop := order.Perm (List.range s.n) ∧ order.Pairwise fun i j => s.mass j ≤ s.mass i

/-- The id mode on this catalogue. -/
def Setup.run (c : Config K) (stdin : Out (List Int)) : Out (List (Int × Int)) :=
  IdMode.run c (masses s.rd s.so s.ds s.vc s.cols (s.caches 0) (s.caches 1)) stdin (fun m => (readSortedRockstarIDs s.rd s.so s.ds s.vc s.cols (s.caches 2) m "M200m").1)
    (readRanked s.rd s.so s.ds s.vc s.cols (s.caches 3) (s.caches 4) s.rucf s.pucf s.width)

/-- The printed rows for the chosen halos: each one `Mult` times in a row, with the snapshot number. -/
def Setup.printed (c : Config K) (l : List Nat) : List (Int × Int) := l.flatMap fun i => List.replicate c.mult.toNat (s.id i, c.snap)

/-- Halo `k` is ranked before halo `i`, and `i` is within `mult` times the radius of `k` in the periodic box. -/
def Setup.Covers (order : List Nat) (mult : K) (k i : Nat) : Prop :=
  (∃ a b : Nat, a < b ∧ order[a]? = some k ∧ order[b]? = some i) ∧ Within s.width (s.radius k * mult) (s.pos k) (s.pos i)

/-! Proofs -/

theorem ranks_iff (order : List Nat) : s.Ranks order ↔ Ranking s.rd s.names s.cols s.n order := Iff.rfl

theorem ranks_mem {order : List Nat} (h : s.Ranks order) (i : Nat) : i ∈ order ↔ i < s.n := by rw [h.1.mem_iff, List.mem_range]

theorem ranks_len {order : List Nat} (h : s.Ranks order) : order.length = s.n := by rw [h.1.length_eq, List.length_range]

theorem rows_none (ids : List Int) (snap mult : Int) : rows ids (List.replicate ids.length false) snap mult = ids.flatMap fun i => List.replicate mult.toNat (i, snap) := by
  unfold rows
  have e : (ids.zip (List.replicate ids.length false)).filter (fun p => !p.2) = ids.zip (List.replicate ids.length false) := by
    apply List.filter_eq_self.mpr
    intro p hp
    have := List.of_mem_zip hp
    rw [List.eq_of_mem_replicate this.2]; rfl
  rw [e]
  have z : ids.zip (List.replicate ids.length false) = ids.map fun i => (i, false) := by
    induction ids with
    | nil => rfl
    | cons a as ih =>
      simp only [List.length_cons, List.replicate_succ, List.zip_cons_cons, List.map_cons]
      rw [ih]
      apply List.filter_eq_self.mpr
      intro p hp
      have := List.of_mem_zip hp
      rw [List.eq_of_mem_replicate this.2]; rfl
  rw [z, List.flatMap_map]

theorem printed_map (c : Config K) (l : List Nat) : (l.map s.id).flatMap (fun i => List.replicate c.mult.toNat (i, c.snap)) = s.printed c l := by
  rw [List.flatMap_map]; rfl

/-- the ids of given ranks -/
theorem convert_ranks (raw : List Int) (hne : raw ≠ []) (hr : ∀ r ∈ raw, 0 ≤ r ∧ r < s.n) :
    ∃ order, s.Ranks order ∧ convertSortedIDs raw (fun m => (readSortedRockstarIDs s.rd s.so s.ds s.vc s.cols (s.caches 2) m "M200m").1) =
      .ok ((raw.map fun r => order.getD r.toNat 0).map s.id) := by
  obtain ⟨m0, m1, m2⟩ := maxRank_spec raw
  obtain ⟨r0, hr0⟩ := List.exists_mem_of_ne_nil _ hne
  have hn : 0 < s.n := by have := hr r0 hr0; omega
  have hm : maxRank raw < s.n := by rcases m2 with h | h; · omega
                                    · exact (hr _ h).2
  obtain ⟨order, o1, _, o3, _, _⟩ := Shellfish.Memo.C26_ranking_partial s.rd s.so s.ds s.usable (s.caches 2) (s.complete 2) (maxRank raw) (by omega)
  refine ⟨order, o1, ?_⟩
  have ol := ranks_len s o1
  unfold convertSortedIDs
  simp only
  rw [o3 m0 hm]
  simp only [Out.bind]
  rw [mapOut_ok _ (fun r => s.id (order.getD r.toNat 0)), List.map_map]
  · rfl
  · intro r hrm
    obtain ⟨a, b⟩ := hr r hrm
    have hle := m1 r hrm
    unfold Shellfish.Finder.get
    rw [if_neg (by omega), List.getElem?_map, List.getElem?_take, if_pos (by omega), List.getElem?_eq_getElem (by omega)]
    simp only [Option.map_some, Out.index]
    rw [List.getD_eq_getElem?_getD, List.getElem?_eq_getElem (by omega)]
    rfl

theorem run_noMass (c : Config K) (stdin : Out (List Int)) (h : ¬ 0 < c.m200mMax) : s.run c stdin = runRange c stdin
    (fun m => (readSortedRockstarIDs s.rd s.so s.ds s.vc s.cols (s.caches 2) m "M200m").1) (readRanked s.rd s.so s.ds s.vc s.cols (s.caches 3) (s.caches 4) s.rucf s.pucf s.width) := by
  unfold Setup.run IdMode.run
  rw [if_neg (fun hh => h hh.1), if_neg h]

theorem run_masses (c : Config K) (l : List K) (stdin : Out (List Int)) (sorted : Int → Out (List Int)) (cat : Bool → Out (Ranked K)) :
    IdMode.run c (.ok l) stdin sorted cat = runRange (if c.m200mMax > 0 then getMassIDRange c (.ok l) else c) stdin sorted cat := by
  unfold IdMode.run
  rw [if_neg (fun hh => by simpa [Out.isPanic] using hh.2)]

/-- selecting ranks -/
theorem runRange_ranks (c : Config K) (stdin : Out (List Int)) (cat : Bool → Out (Ranked K)) (raw : List Int) (hne : raw ≠ []) (hr : ∀ r ∈ raw, 0 ≤ r ∧ r < s.n)
    (hle : c.idStart ≤ c.idEnd) (hget : getIDs c.idStart c.idEnd c.ids stdin = .ok raw) (ht : c.idType = "m200m") (he : c.exclusionStrategy = "none") :
    ∃ order, s.Ranks order ∧ runRange c stdin (fun m => (readSortedRockstarIDs s.rd s.so s.ds s.vc s.cols (s.caches 2) m "M200m").1) cat =
      .ok (s.printed c (raw.map fun r => order.getD r.toNat 0)) := by
  obtain ⟨order, o1, o2⟩ := convert_ranks s raw hne hr
  refine ⟨order, o1, ?_⟩
  unfold runRange
  rw [if_pos hle, hget]
  simp only [Out.bind]
  rw [if_neg hne, ht]
  simp only [String.reduceEq, if_false, if_true]
  rw [o2]
  simp only
  rw [if_pos he, rows_none, printed_map]

/-- C25: the `IDs` variable with ranks prints the halos of these ranks, in the given order. -/
theorem C25_list (c : Config K) (stdin : Out (List Int)) (hm : c.m200mMax ≤ 0) (ht : c.idType = "m200m") (he : c.exclusionStrategy = "none") (h1 : c.idStart = -1) (h2 : c.idEnd = -1)
    (hne : c.ids ≠ []) (hr : ∀ r ∈ c.ids, 0 ≤ r ∧ r < s.n) :
    ∃ order, s.Ranks order ∧ s.run c stdin = .ok (s.printed c (c.ids.map fun r => order.getD r.toNat 0)) := by
  rw [run_noMass s c stdin (not_lt.mpr hm)]
  refine runRange_ranks s c stdin _ c.ids hne hr (by omega) ?_ ht he
  unfold getIDs
  rw [h1, if_neg (by simp), if_pos (List.length_pos_iff.mpr hne)]

/-- C25: the `IDs` variable with catalogue ids prints these ids in the given order. -/
theorem C25_ids (c : Config K) (stdin : Out (List Int)) (hm : c.m200mMax ≤ 0) (ht : c.idType = "halo-id") (he : c.exclusionStrategy = "none") (h1 : c.idStart = -1) (h2 : c.idEnd = -1)
    (l : List Nat) (hne : l ≠ []) (hids : c.ids = l.map s.id) : s.run c stdin = .ok (s.printed c l) := by
  have hne' : c.ids ≠ [] := by rw [hids]; simpa using hne
  rw [run_noMass s c stdin (not_lt.mpr hm)]
  unfold runRange getIDs
  rw [h1, h2, if_pos (le_refl _), if_neg (by simp), if_pos (List.length_pos_iff.mpr hne')]
  simp only [Out.bind]
  rw [if_neg hne', if_pos ht]
  simp only
  rw [if_pos he, rows_none, hids, printed_map]

theorem drop_take_map (order : List Nat) (a m : Nat) (h : a + m ≤ order.length) :
    ((List.range m).map fun i : Nat => (a : Int) + (i : Int)).map (fun r => order.getD r.toNat 0) = (order.drop a).take m := by
  apply List.ext_getElem?
  intro k
  rw [List.map_map, List.getElem?_map, List.getElem?_take]
  by_cases hk : k < m
  · rw [List.getElem?_range hk, if_pos hk, List.getElem?_drop, Option.map_some, List.getElem?_eq_getElem (by omega)]
    simp only [Function.comp]
    rw [show ((a : Int) + (k : Int)).toNat = a + k by omega, List.getD_eq_getElem?_getD, List.getElem?_eq_getElem (by omega), Option.getD_some]
  · rw [List.getElem?_eq_none (by simpa using hk), if_neg hk]; rfl

/-- C25, without the last halo of the range: `IDStart` = a and `IDEnd` = b print the halos with the ranks a, …, b - 1. -/
theorem C25_range_partial (c : Config K) (stdin : Out (List Int)) (hm : c.m200mMax ≤ 0) (ht : c.idType = "m200m") (he : c.exclusionStrategy = "none")
    (a b : Nat) (h1 : c.idStart = a) (h2 : c.idEnd = b) (hab : a ≤ b) (hb : b ≤ s.n) :
    ∃ order, s.Ranks order ∧ s.run c stdin = .ok (s.printed c ((order.drop a).take (b - a))) := by
  rw [run_noMass s c stdin (not_lt.mpr hm)]
  have hget : getIDs c.idStart c.idEnd c.ids stdin = .ok ((List.range (b - a)).map fun i : Nat => (a : Int) + (i : Int)) := by
    unfold getIDs
    rw [h1, h2, if_pos (by omega), if_neg (by omega), show ((b : Int) - (a : Int)).toNat = b - a by omega]
  by_cases hlt : a = b
  · subst hlt
    obtain ⟨order, o1, _⟩ := Shellfish.Memo.C26_ranking_partial s.rd s.so s.ds s.usable (s.caches 2) (s.complete 2) (-1) (by omega)
    refine ⟨order, o1, ?_⟩
    unfold runRange
    rw [if_pos (by omega), hget]
    simp [Out.bind, Setup.printed, h1, h2]
  · obtain ⟨order, o1, o2⟩ := runRange_ranks s c stdin (readRanked s.rd s.so s.ds s.vc s.cols (s.caches 3) (s.caches 4) s.rucf s.pucf s.width) _
      (by simp only [ne_eq, List.map_eq_nil_iff, List.range_eq_nil]; omega)
      (by intro r hr; obtain ⟨i, hi, rfl⟩ := List.mem_map.mp hr; have := List.mem_range.mp hi; omega) (by omega) hget ht he
    refine ⟨order, o1, ?_⟩
    have := ranks_len s o1
    rw [o2, drop_take_map order a (b - a) (by omega)]

theorem printed_length (c : Config K) (l : List Nat) : (s.printed c l).length = l.length * c.mult.toNat := by
  unfold Setup.printed
  rw [List.length_flatMap]
  simp only [List.length_replicate]
  induction l with
  | nil => simp
  | cons a as ih => rw [List.map_cons, List.sum_cons, ih, List.length_cons]; ring

/-- C25 is false: of the b - a + 1 halos of every range inside of the catalogue only b - a are printed (none if IDStart = IDEnd). -/
theorem C25_range_false (c : Config K) (stdin : Out (List Int)) (hm : c.m200mMax ≤ 0) (ht : c.idType = "m200m") (he : c.exclusionStrategy = "none")
    (a b : Nat) (h1 : c.idStart = a) (h2 : c.idEnd = b) (hab : a ≤ b) (hb : b < s.n) (hmult : 0 < c.mult) :
    ∃ out, s.run c stdin = .ok out ∧ out.length = (b - a) * c.mult.toNat ∧ out.length < (b - a + 1) * c.mult.toNat := by
  obtain ⟨order, o1, o2⟩ := C25_range_partial s c stdin hm ht he a b h1 h2 hab (by omega)
  have ol := ranks_len s o1
  refine ⟨_, o2, ?_, ?_⟩
  · rw [printed_length, List.length_take, List.length_drop]; congr 1; omega
  · rw [printed_length, List.length_take, List.length_drop]
    apply Nat.mul_lt_mul_of_pos_right
    · omega
    · omega

/-- the masses of the ranked halos -/
theorem masses_ok : ∃ order, s.Ranks order ∧ masses s.rd s.so s.ds s.vc s.cols (s.caches 0) (s.caches 1) = .ok (order.map s.mass) := by
  obtain ⟨order, o1, o2, _⟩ := Shellfish.Memo.C26_ranking_partial s.rd s.so s.ds s.usable (s.caches 0) (s.complete 0) (-1) (by omega)
  refine ⟨order, o1, ?_⟩
  unfold masses
  rw [o2 rfl]
  simp only [Out.bind]
  have h := (Shellfish.Memo.C29_values s.rd s.so s.usable s.distinct (s.caches 1) (s.complete 1) ["M200m"] (by simpa using s.usable.hasMass) (order.map (idOf s.rd s.names s.cols))).1
    order rfl (fun i hi => (ranks_mem s o1 i).mp hi)
  rw [h]
  rfl

/-- all rankings have the same masses -/
theorem ranks_masses {o1 o2 : List Nat} (h1 : s.Ranks o1) (h2 : s.Ranks o2) : o1.map s.mass = o2.map s.mass := by
  apply List.Perm.eq_of_pairwise (le := fun a b => b ≤ a)
  · intro a b _ _ x y; exact le_antisymm y x
  · rw [List.pairwise_map]; exact h1.2
  · rw [List.pairwise_map]; exact h2.2
  · exact (h1.1.trans h2.1.symm).map _

/-- C25 for a mass range, without the last halo of the range: the halos with a mass in [M200mMin, M200mMax] are printed in rank order, but not the last one of them. -/
theorem C25_mass_partial (c : Config K) (stdin : Out (List Int)) (hm : 0 < c.m200mMax) (he : c.exclusionStrategy = "none")
    (hex : ∃ i < s.n, c.m200mMin ≤ s.mass i ∧ s.mass i ≤ c.m200mMax) :
    ∃ order, s.Ranks order ∧ s.run c stdin = .ok (s.printed c (order.filter fun i => decide (c.m200mMin ≤ s.mass i ∧ s.mass i ≤ c.m200mMax)).dropLast) := by
  obtain ⟨order, o1, o2⟩ := masses_ok s
  set p := (order.takeWhile fun i => decide (c.m200mMax < s.mass i)).length with hp
  set q := (order.takeWhile fun i => decide (c.m200mMin ≤ s.mass i)).length with hq
  have hpm : ((order.map s.mass).takeWhile fun m => decide (c.m200mMax < m)).length = p := by rw [List.takeWhile_map, List.length_map]; rfl
  have hqm : ((order.map s.mass).takeWhile fun m => decide (c.m200mMin ≤ m)).length = q := by rw [List.takeWhile_map, List.length_map]; rfl
  have hql : q ≤ order.length := by rw [hq]; exact (List.takeWhile_prefix _).length_le
  have ol := ranks_len s o1
  have hpq : p < q := by
    obtain ⟨i, hi, h1, h2⟩ := hex
    have hmem : i ∈ order.filter fun i => decide (c.m200mMin ≤ s.mass i ∧ s.mass i ≤ c.m200mMax) := by
      rw [List.mem_filter]; exact ⟨(ranks_mem s o1 i).mpr hi, by simp [h1, h2]⟩
    rw [window_eq s.mass _ _ order o1.2] at hmem
    have := List.length_pos_of_mem hmem
    rw [List.length_drop, List.length_take] at this
    omega
  have hst : (massLoop c.m200mMin c.m200mMax 0 (-1) (order.map s.mass)).1 = p := by
    rw [massLoop_start _ _ _ 0 (by omega), hpm, hqm, if_pos (by rw [List.length_map]; omega)]; ring
  have hen : (massLoop c.m200mMin c.m200mMax 0 (-1) (order.map s.mass)).2 = q - 1 := by rw [massLoop_end, hqm]; ring
  have hrun : s.run c stdin = runRange { c with idType := "m200m", idStart := p, idEnd := q - 1 } stdin
      (fun m => (readSortedRockstarIDs s.rd s.so s.ds s.vc s.cols (s.caches 2) m "M200m").1) (readRanked s.rd s.so s.ds s.vc s.cols (s.caches 3) (s.caches 4) s.rucf s.pucf s.width) := by
    unfold Setup.run
    rw [o2, run_masses, if_pos hm]
    unfold getMassIDRange
    simp only
    rw [hst, hen]
  have hwin : ∀ o, s.Ranks o → o.filter (fun i => decide (c.m200mMin ≤ s.mass i ∧ s.mass i ≤ c.m200mMax)) = (o.take q).drop p := by
    intro o ho
    have e := ranks_masses s ho o1
    have hp' : (o.takeWhile fun i => decide (c.m200mMax < s.mass i)).length = p := by
      rw [← hpm, ← e, List.takeWhile_map, List.length_map]; rfl
    have hq' : (o.takeWhile fun i => decide (c.m200mMin ≤ s.mass i)).length = q := by
      rw [← hqm, ← e, List.takeWhile_map, List.length_map]; rfl
    rw [window_eq s.mass _ _ o ho.2, hp', hq']
  have hdl : ∀ o, s.Ranks o → ((o.take q).drop p).dropLast = (o.drop p).take (q - 1 - p) := by
    intro o ho
    have := ranks_len s ho
    rw [List.dropLast_eq_take, List.length_drop, List.length_take, List.drop_take, List.take_take]
    congr 1
    omega
  have hc2 : ∀ l, s.printed { c with idType := "m200m", idStart := (p : Int), idEnd := (q : Int) - 1 } l = s.printed c l := fun _ => rfl
  have hr := C25_range_partial s { c with idType := "m200m", idStart := (p : Int), idEnd := (q : Int) - 1, m200mMax := 0 } stdin (le_refl _) rfl he p (q - 1) rfl
    (by show (q : Int) - 1 = _; omega) (by omega) (by omega)
  obtain ⟨o, ho, hrr⟩ := hr
  refine ⟨o, ho, ?_⟩
  rw [run_noMass _ _ _ (by simp)] at hrr
  rw [hrun, hwin o ho, hdl o ho]
  exact hrr

theorem takeWhile_all {α : Type} (p : α → Bool) : ∀ l : List α, (∀ a ∈ l, p a = true) → l.takeWhile p = l
  | [], _ => rfl
  | a :: as, h => by rw [List.takeWhile_cons_of_pos (h a (by simp)), takeWhile_all p as fun b hb => h b (by simp [hb])]

/-- C25 is false: a mass range with no halo in it panics when some halo is lighter than M200mMin … -/
theorem C25_mass_empty_false (c : Config K) (stdin : Out (List Int)) (hm : 0 < c.m200mMax) (hmm : c.m200mMin ≤ c.m200mMax) (hex : ∃ i < s.n, s.mass i < c.m200mMin)
    (hno : ∀ i < s.n, s.mass i < c.m200mMin ∨ c.m200mMax < s.mass i) : s.run c stdin = .panic := by
  obtain ⟨order, o1, o2⟩ := masses_ok s
  have hall : ∀ m ∈ order.map s.mass, m < c.m200mMin ∨ c.m200mMax < m := by
    intro m h
    obtain ⟨i, hi, rfl⟩ := List.mem_map.mp h
    exact hno i ((ranks_mem s o1 i).mp hi)
  have heq : ∀ ms : List K, (∀ m ∈ ms, m < c.m200mMin ∨ c.m200mMax < m) → (ms.takeWhile fun m => decide (c.m200mMax < m)) = ms.takeWhile fun m => decide (c.m200mMin ≤ m) := by
    intro ms h
    induction ms with
    | nil => rfl
    | cons m ms ih =>
      have := h m (by simp)
      have ih' := ih fun x hx => h x (by simp [hx])
      by_cases hc : c.m200mMax < m
      · rw [List.takeWhile_cons_of_pos (by simpa using hc), List.takeWhile_cons_of_pos (by simpa using le_trans hmm hc.le), ih']
      · rw [List.takeWhile_cons_of_neg (by simpa using hc), List.takeWhile_cons_of_neg (by simpa using this.resolve_right hc)]
  have hlt : ((order.map s.mass).takeWhile fun m => decide (c.m200mMax < m)).length < (order.map s.mass).length := by
    rcases Nat.lt_or_ge ((order.map s.mass).takeWhile fun m => decide (c.m200mMax < m)).length (order.map s.mass).length with h | h
    · exact h
    · exfalso
      have e := (List.takeWhile_prefix (l := order.map s.mass) fun m => decide (c.m200mMax < m)).eq_of_length_le h
      obtain ⟨i, hi, hl⟩ := hex
      have hmem : s.mass i ∈ (order.map s.mass).takeWhile fun m => decide (c.m200mMax < m) := by
        rw [e]; exact List.mem_map_of_mem ((ranks_mem s o1 i).mpr hi)
      have := List.all_eq_true.mp (List.all_takeWhile (l := order.map s.mass) (p := fun m => decide (c.m200mMax < m))) _ hmem
      simp only [decide_eq_true_eq] at this
      exact absurd (lt_of_le_of_lt hmm this) (not_lt.mpr hl.le)
  have hst : (massLoop c.m200mMin c.m200mMax 0 (-1) (order.map s.mass)).1 = ((order.map s.mass).takeWhile fun m => decide (c.m200mMin ≤ m)).length := by
    rw [massLoop_start _ _ _ 0 (by omega), ← heq _ hall, if_pos ⟨le_refl _, hlt⟩]; ring
  have hen : (massLoop c.m200mMin c.m200mMax 0 (-1) (order.map s.mass)).2 = ((order.map s.mass).takeWhile fun m => decide (c.m200mMin ≤ m)).length - 1 := by rw [massLoop_end]; ring
  unfold Setup.run
  rw [o2, run_masses, if_pos hm]
  unfold getMassIDRange runRange
  simp only
  rw [if_neg (c := (massLoop c.m200mMin c.m200mMax 0 (-1) (order.map s.mass)).1 ≤ _) (by rw [hst, hen]; omega)]
  simp only [Out.bind]
  rw [if_pos trivial, if_neg (by rw [hst, hen]; omega)]

/-- … and when all halos are heavier than M200mMax, the ranks in `IDs` are printed instead, although none of them has a mass in the range. -/
theorem C25_mass_high_false (c : Config K) (stdin : Out (List Int)) (hm : 0 < c.m200mMax) (hmm : c.m200mMin ≤ c.m200mMax) (he : c.exclusionStrategy = "none")
    (hno : ∀ i < s.n, c.m200mMax < s.mass i) (hne : c.ids ≠ []) (hr : ∀ r ∈ c.ids, 0 ≤ r ∧ r < s.n) :
    ∃ order, s.Ranks order ∧ s.run c stdin = .ok (s.printed c (c.ids.map fun r => order.getD r.toNat 0)) := by
  obtain ⟨order, o1, o2⟩ := masses_ok s
  have hall : ∀ m ∈ order.map s.mass, c.m200mMax < m := by
    intro m h
    obtain ⟨i, hi, rfl⟩ := List.mem_map.mp h
    exact hno i ((ranks_mem s o1 i).mp hi)
  have e1 : ((order.map s.mass).takeWhile fun m => decide (c.m200mMax < m)) = order.map s.mass := takeWhile_all _ _ fun m hm => by simpa using hall m hm
  have hst : (massLoop c.m200mMin c.m200mMax 0 (-1) (order.map s.mass)).1 = -1 := by
    rw [massLoop_start _ _ _ 0 (by omega), e1, if_neg (by omega)]
  unfold Setup.run
  rw [o2, run_masses, if_pos hm]
  unfold getMassIDRange
  simp only
  rw [hst, massLoop_end]
  refine runRange_ranks s _ stdin _ c.ids hne hr ?_ ?_ rfl he
  · show (-1 : Int) ≤ 0 + ((order.map s.mass).takeWhile fun m => decide (c.m200mMin ≤ m)).length - 1
    omega
  · show getIDs (-1) _ c.ids stdin = _
    unfold getIDs
    rw [if_neg (by simp), if_pos (List.length_pos_iff.mpr hne)]

/-! C59 -/

theorem bind_ok {α β : Type} (a : α) (f : α → Out β) : (Out.ok a).bind f = f a := rfl

theorem index_some {α : Type} (a : α) : Out.index (some a) = .ok a := rfl

/-- the exclusion step of `Run` -/
def exclude (c : Config K) (cat : Bool → Out (Ranked K)) (ids : List Int) : Out (List (Int × Int)) :=
  if c.exclusionStrategy = "none" then .ok (rows ids (List.replicate ids.length false) c.snap c.mult)
  else if c.exclusionStrategy = "subhalo" then .panic
  else if c.exclusionStrategy = "neighbor" then
    (readSubIDs (cat true) c.exclusionRadiusMult ids).bind fun all => .ok (rows all (List.replicate all.length false) c.snap c.mult)
  else if c.exclusionStrategy = "overlap" then (findOverlapSubs (cat false) c.exclusionRadiusMult ids).bind fun ex => .ok (rows ids ex c.snap c.mult)
  else .ok (rows ids (List.replicate ids.length false) c.snap c.mult)

/-- the selection step of `Run`: `none` when there is nothing to do -/
def select (c : Config K) (stdin : Out (List Int)) (sorted : Int → Out (List Int)) : Out (Option (List Int)) :=
  (if c.idStart ≤ c.idEnd then getIDs c.idStart c.idEnd c.ids stdin else .ok []).bind fun rawIds =>
    if rawIds = [] then if c.idStart ≤ c.idEnd then .ok none else .panic
    else (if c.idType = "halo-id" then .ok rawIds else if c.idType = "m200m" then convertSortedIDs rawIds sorted else .panic).bind fun ids => .ok (some ids)

theorem runRange_select (c : Config K) (stdin : Out (List Int)) (sorted : Int → Out (List Int)) (cat : Bool → Out (Ranked K)) :
    runRange c stdin sorted cat = (select c stdin sorted).bind fun o => match o with | none => .ok [] | some ids => exclude c cat ids := by
  unfold runRange select exclude
  generalize (if c.idStart ≤ c.idEnd then getIDs c.idStart c.idEnd c.ids stdin else .ok []) = g
  cases g with
  | error => rfl
  | panic => rfl
  | ok raw =>
    simp only [Out.bind]
    by_cases hr : raw = []
    · rw [if_pos hr, if_pos hr]
      by_cases hl : c.idStart ≤ c.idEnd
      · rw [if_pos hl, if_pos hl]
      · rw [if_neg hl, if_neg hl]
    · rw [if_neg hr, if_neg hr]
      generalize (if c.idType = "halo-id" then Out.ok raw else if c.idType = "m200m" then convertSortedIDs raw sorted else .panic) = g
      cases g <;> rfl

/-- the ranked catalogue -/
theorem ranked_ok (hv : ∀ v ∈ ["X", "Y", "Z", "R200m"], v ∈ s.names) (ignore : Bool) :
    ∃ order, s.Ranks order ∧ readRanked s.rd s.so s.ds s.vc s.cols (s.caches 3) (s.caches 4) s.rucf s.pucf s.width ignore =
      .ok ⟨order.map s.id, order.map s.pos, order.map s.radius, s.width⟩ := by
  obtain ⟨order, o1, o2, _⟩ := Shellfish.Memo.C26_ranking_partial s.rd s.so s.ds s.usable (s.caches 3) (s.complete 3) (-1) (by omega)
  refine ⟨order, o1, ?_⟩
  unfold readRanked
  rw [o2 rfl]
  simp only [Out.bind]
  have h := (Shellfish.Memo.C29_values s.rd s.so s.usable s.distinct (s.caches 4) (s.complete 4) ["X", "Y", "Z", "R200m"] hv (order.map (idOf s.rd s.names s.cols))).1
    order rfl (fun i hi => (ranks_mem s o1 i).mp hi)
  rw [h]
  simp only [List.map_cons, List.map_nil]
  rw [List.zip_map', List.zip_map', List.map_map, List.map_map]
  rfl

theorem searchSub_ok (ls : Shellfish.Finder.Lists) (id : Int) (hc : Nat → Nat) : ∀ (rids : List Int) (o j : Nat), (∀ k, hostCount ls (o + k) = some (hc (o + k)) ∨ rids.length ≤ k) → rids[j]? = some id →
    (∀ k < j, rids[k]? ≠ some id) → searchSub ls id o rids = .ok (decide (hc (o + j) > 0))
  | [], _, j, _, h, _ => by simp at h
  | r :: rs, o, 0, hh, h, _ => by
    simp only [List.getElem?_cons_zero, Option.some.injEq] at h
    unfold searchSub
    have h0 := (hh 0).resolve_right (by simp)
    rw [if_pos h]
    simp only [Nat.add_zero] at h0 ⊢
    rw [h0]
    rfl
  | r :: rs, o, j + 1, hh, h, hfirst => by
    have hr : r ≠ id := by
      have := hfirst 0 (by omega)
      simpa using this
    simp only [List.getElem?_cons_succ] at h
    unfold searchSub
    rw [if_neg hr, if_neg (by rintro rfl; simp at h), searchSub_ok ls id hc rs (o + 1) j ?_ h ?_]
    · rw [show o + (j + 1) = o + 1 + j by ring]
    · intro k
      rcases hh (k + 1) with h | h
      · left; rw [show o + 1 + k = o + (k + 1) by ring]; exact h
      · right; simpa using h
    · intro k hk
      have := hfirst (k + 1) (by omega)
      simpa using this

/-- What the exclusion step needs: positions inside of the box, no negative radii, and radii that are small compared to the box. -/
structure Setup.Fits (mult : K) : Prop where
  columns : ∀ v ∈ ["X", "Y", "Z", "R200m"], v ∈ s.names
  nonempty : 0 < s.n
  width : 0 < s.width
  inBox : ∀ i < s.n, InBox s.width (s.pos i)
  radii : ∀ i < s.n, 0 ≤ s.radius i * mult
  small : ∀ i < s.n, ∀ j < s.n, 2 * (s.radius i * mult + s.radius j * mult) + s.width / 150 ≤ s.width

/-- the finder on the ranked catalogue -/
theorem finder_ok {order : List Nat} (ho : s.Ranks order) (mult : K) (hf : s.Fits mult) :
    ∃ g ls rs', insert (newGrid finderCells s.width (order.map s.pos).length) (order.map s.pos) = some g ∧ findSubhalos g (order.map s.pos) (order.map s.radius) mult = some (ls, rs') ∧
      ∀ i, i < s.n → subhalos ls i = some (indices s.n (IsSub s.width mult (order.map s.pos) (order.map s.radius) i)) ∧
        hostCount ls i = some (indices s.n fun k => IsSub s.width mult (order.map s.pos) (order.map s.radius) k i).length := by
  have ol := ranks_len s ho
  have hn := hf.nonempty
  have hmem : ∀ i ∈ order, i < s.n := fun i hi => (ranks_mem s ho i).mp hi
  obtain ⟨g, ls, rs', g1, g2, _, g3⟩ := Shellfish.Finder.search_all finderCells s.width (by decide) hf.width (order.map s.pos) (order.map s.radius) mult (by simp)
    (by simp only [ne_eq, List.map_eq_nil_iff]; intro e; rw [e] at ol; simp at ol; omega)
    (by intro p hp; obtain ⟨i, hi, rfl⟩ := List.mem_map.mp hp; exact hf.inBox i (hmem i hi))
    (by intro p hp; obtain ⟨i, hi, rfl⟩ := List.mem_map.mp hp; exact hf.radii i (hmem i hi))
    (by
      intro r hr r' hr'
      obtain ⟨i, hi, rfl⟩ := List.mem_map.mp hr
      obtain ⟨j, hj, rfl⟩ := List.mem_map.mp hr'
      have := hf.small i (hmem i hi) j (hmem j hj)
      simpa [finderCells] using this)
  refine ⟨g, ls, rs', g1, g2, ?_⟩
  intro i hi
  have := g3 i (by rw [List.length_map]; omega)
  rw [List.length_map, ol] at this
  exact ⟨this.1, this.2.2.2.1⟩

theorem isSub_covers {order : List Nat} (ho : s.Ranks order) (mult : K) (a b k i : Nat) (ha : order[a]? = some k) (hb : order[b]? = some i) :
    IsSub s.width mult (order.map s.pos) (order.map s.radius) a b ↔ s.Covers order mult k i := by
  have hnd : order.Nodup := ho.1.nodup_iff.mpr List.nodup_range
  have huniq : ∀ (x y m : Nat), order[x]? = some m → order[y]? = some m → x = y := by
    intro x y m hx hy
    have lx := (List.getElem?_eq_some_iff.mp hx).1
    exact (List.getElem?_inj lx hnd).mp (hx.trans hy.symm)
  unfold IsSub Setup.Covers
  constructor
  · rintro ⟨h1, p, q, r, e1, e2, e3, e4⟩
    rw [List.getElem?_map, ha, Option.map_some, Option.some.injEq] at e1 e3
    rw [List.getElem?_map, hb, Option.map_some, Option.some.injEq] at e2
    subst e1; subst e2; subst e3
    exact ⟨⟨a, b, h1, ha, hb⟩, e4⟩
  · rintro ⟨⟨a', b', h1, ha', hb'⟩, h2⟩
    rw [huniq a' a k ha' ha, huniq b' b i hb' hb] at h1
    exact ⟨h1, _, _, _, by rw [List.getElem?_map, ha]; rfl, by rw [List.getElem?_map, hb]; rfl, by rw [List.getElem?_map, ha]; rfl, h2⟩

/-- a selection that the id mode would print without exclusion and repetition -/
theorem selected (c : Config K) (stdin : Out (List Int)) (l : List Nat) (hl : ∀ i ∈ l, i < s.n)
    (hsel : s.run { c with exclusionStrategy := "none", mult := 1 } stdin = .ok (l.map fun i => (s.id i, c.snap))) (e : String) :
    ∃ c', c'.snap = c.snap ∧ c'.mult = c.mult ∧ c'.exclusionStrategy = e ∧ c'.exclusionRadiusMult = c.exclusionRadiusMult ∧
      ((s.run { c with exclusionStrategy := e } stdin = .ok [] ∧ l = []) ∨
        s.run { c with exclusionStrategy := e } stdin = exclude c' (readRanked s.rd s.so s.ds s.vc s.cols (s.caches 3) (s.caches 4) s.rucf s.pucf s.width) (l.map s.id)) := by
  obtain ⟨order, o1, o2⟩ := masses_ok s
  -- the configuration after the mass range has been looked up
  have hcfg : ∃ t a b, ∀ (e : String) (m : Int), (if ({ c with exclusionStrategy := e, mult := m } : Config K).m200mMax > 0 then
        getMassIDRange { c with exclusionStrategy := e, mult := m } (Out.ok (order.map s.mass)) else { c with exclusionStrategy := e, mult := m }) =
      { c with exclusionStrategy := e, mult := m, idType := t, idStart := a, idEnd := b } := by
    by_cases h : c.m200mMax > 0
    · exact ⟨"m200m", (massLoop c.m200mMin c.m200mMax 0 (-1) (order.map s.mass)).1, (massLoop c.m200mMin c.m200mMax 0 (-1) (order.map s.mass)).2, fun e m => if_pos h⟩
    · exact ⟨c.idType, c.idStart, c.idEnd, fun e m => if_neg h⟩
  obtain ⟨t, a, b, hcfg⟩ := hcfg
  unfold Setup.run at hsel
  rw [o2, run_masses, hcfg "none" 1, runRange_select] at hsel
  refine ⟨{ c with exclusionStrategy := e, mult := c.mult, idType := t, idStart := a, idEnd := b }, rfl, rfl, rfl, rfl, ?_⟩
  have hrun : s.run { c with exclusionStrategy := e } stdin = runRange { c with exclusionStrategy := e, mult := c.mult, idType := t, idStart := a, idEnd := b } stdin
      (fun m => (readSortedRockstarIDs s.rd s.so s.ds s.vc s.cols (s.caches 2) m "M200m").1) (readRanked s.rd s.so s.ds s.vc s.cols (s.caches 3) (s.caches 4) s.rucf s.pucf s.width) := by
    unfold Setup.run
    rw [o2, run_masses]
    rw [← hcfg e c.mult]
  rw [hrun, runRange_select]
  have hss : select { c with exclusionStrategy := e, mult := c.mult, idType := t, idStart := a, idEnd := b } stdin
      (fun m => (readSortedRockstarIDs s.rd s.so s.ds s.vc s.cols (s.caches 2) m "M200m").1) = select { c with exclusionStrategy := "none", mult := 1, idType := t, idStart := a, idEnd := b } stdin
      (fun m => (readSortedRockstarIDs s.rd s.so s.ds s.vc s.cols (s.caches 2) m "M200m").1) := rfl
  rw [hss]
  revert hsel
  generalize select { c with exclusionStrategy := "none", mult := 1, idType := t, idStart := a, idEnd := b } stdin
      (fun m => (readSortedRockstarIDs s.rd s.so s.ds s.vc s.cols (s.caches 2) m "M200m").1) = g
  intro hsel
  cases g with
  | error => cases hsel
  | panic => cases hsel
  | ok o =>
    cases o with
    | none =>
      left
      refine ⟨rfl, ?_⟩
      simp only [Out.bind, Out.ok.injEq] at hsel
      exact List.map_eq_nil_iff.mp hsel.symm
    | some ids =>
      right
      simp only [Out.bind] at hsel ⊢
      unfold exclude at hsel
      rw [if_pos rfl, rows_none] at hsel
      simp only [Out.ok.injEq] at hsel
      have : ids = l.map s.id := by
        have e1 : (ids.flatMap fun i => List.replicate (1 : Int).toNat (i, c.snap)) = ids.map fun i => (i, c.snap) := by
          rw [show (1 : Int).toNat = 1 by rfl]
          simp only [List.replicate_one]
          clear hsel
          induction ids with
          | nil => rfl
          | cons x xs ih => rw [List.flatMap_cons, ih]; rfl
        rw [e1] at hsel
        have := congrArg (List.map Prod.fst) hsel
        simp only [List.map_map] at this
        have z : ids.map (Prod.fst ∘ fun i => (i, c.snap)) = ids := by
          conv_rhs => rw [← List.map_id ids]
          rfl
        rw [z] at this
        rw [this]; rfl
      rw [this]

open Classical in
/-- C59: with `overlap`, exactly those selected halos are printed that are not within ExclusionRadiusMult times R200m of a halo of higher rank — each one `Mult` times, in
the order of the selection. -/
theorem C59_overlap_partial (c : Config K) (stdin : Out (List Int)) (l : List Nat) (hl : ∀ i ∈ l, i < s.n)
    (hsel : s.run { c with exclusionStrategy := "none", mult := 1 } stdin = .ok (l.map fun i => (s.id i, c.snap))) (hf : s.Fits c.exclusionRadiusMult) :
    ∃ order, s.Ranks order ∧
      s.run { c with exclusionStrategy := "overlap" } stdin = .ok (s.printed c (l.filter fun i => decide (¬ ∃ k, s.Covers order c.exclusionRadiusMult k i))) := by
  obtain ⟨order, o1, o2⟩ := ranked_ok s hf.columns false
  refine ⟨order, o1, ?_⟩
  obtain ⟨c', e1, e2, e3, e4, h⟩ := selected s c stdin l hl hsel "overlap"
  rcases h with ⟨h, rfl⟩ | h
  · rw [h]; rfl
  rw [h]
  unfold exclude findOverlapSubs
  rw [e3, o2]
  simp only [String.reduceEq, if_false, if_true]
  obtain ⟨g, ls, rs', g1, g2, g3⟩ := finder_ok s o1 c.exclusionRadiusMult hf
  have ol := ranks_len s o1
  simp only [Out.bind]
  rw [g1]
  simp only [Out.index]
  rw [e4, g2]
  simp only
  have hone : ∀ i ∈ l, searchSub ls (s.id i) 0 (order.map s.id) = .ok (decide (∃ k, s.Covers order c.exclusionRadiusMult k i)) := by
    intro i hi
    obtain ⟨b, hb⟩ := List.mem_iff_getElem?.mp ((ranks_mem s o1 i).mpr (hl i hi))
    have hbl : b < s.n := by rw [← ol]; exact (List.getElem?_eq_some_iff.mp hb).1
    rw [searchSub_ok ls (s.id i) (fun j => (indices s.n fun k => IsSub s.width c.exclusionRadiusMult (order.map s.pos) (order.map s.radius) k j).length) (order.map s.id) 0 b]
    · congr 1
      rw [decide_eq_decide]
      simp only [Nat.zero_add, gt_iff_lt]
      rw [List.length_pos_iff_exists_mem]
      constructor
      · rintro ⟨z, hz⟩
        unfold indices at hz
        obtain ⟨a, ha, rfl⟩ := List.mem_map.mp hz
        rw [List.mem_filter, List.mem_range, decide_eq_true_eq] at ha
        have hal : a < order.length := by omega
        exact ⟨order[a], (isSub_covers s o1 _ a b _ i (List.getElem?_eq_getElem hal) hb).mp ha.2⟩
      · rintro ⟨k, hk⟩
        obtain ⟨a, _, _, ha, _⟩ := hk.1
        refine ⟨(a : Int), ?_⟩
        unfold indices
        refine List.mem_map.mpr ⟨a, List.mem_filter.mpr ⟨List.mem_range.mpr (by rw [← ol]; exact (List.getElem?_eq_some_iff.mp ha).1), ?_⟩, rfl⟩
        rw [decide_eq_true_eq]
        exact (isSub_covers s o1 _ a b k i ha hb).mpr hk
    · intro k
      by_cases hk : k < s.n
      · left; rw [Nat.zero_add]; exact (g3 k hk).2
      · right; rw [List.length_map, ol]; omega
    · rw [List.getElem?_map, hb]; rfl
    · intro k hk hc
      rw [List.getElem?_map, Option.map_eq_some_iff] at hc
      obtain ⟨i', hi', he⟩ := hc
      have := s.distinct i' i ((ranks_mem s o1 i').mp (List.mem_of_getElem? hi')) (hl i hi) he
      subst this
      have hnd : order.Nodup := o1.1.nodup_iff.mpr List.nodup_range
      have := (List.getElem?_inj (List.getElem?_eq_some_iff.mp hi').1 hnd).mp (hi'.trans hb.symm)
      omega
  have hmap : mapOut (fun id => searchSub ls id 0 (order.map s.id)) (l.map s.id) = .ok (l.map fun i => decide (∃ k, s.Covers order c.exclusionRadiusMult k i)) := by
    clear hsel h
    induction l with
    | nil => rfl
    | cons a as ih =>
      unfold mapOut
      simp only [List.map_cons]
      rw [hone a (by simp)]
      simp only [Out.bind]
      rw [ih (fun i hi => hl i (by simp [hi])) (fun i hi => hone i (by simp [hi]))]
  rw [hmap]
  simp only
  congr 1
  unfold rows Setup.printed
  rw [e1, e2, List.zip_map', List.filter_map, List.flatMap_map]
  congr 1
  apply List.filter_congr
  intro i _
  by_cases hk : ∃ k, s.Covers order c.exclusionRadiusMult k i <;> simp [hk]

open Classical in
/-- C59: with `neighbor`, every selected halo is followed by the halos of lower rank within ExclusionRadiusMult times its R200m, in rank order. -/
theorem C59_neighbor_partial (c : Config K) (stdin : Out (List Int)) (l : List Nat) (hl : ∀ i ∈ l, i < s.n)
    (hsel : s.run { c with exclusionStrategy := "none", mult := 1 } stdin = .ok (l.map fun i => (s.id i, c.snap))) (hf : s.Fits c.exclusionRadiusMult) :
    ∃ order, s.Ranks order ∧
      s.run { c with exclusionStrategy := "neighbor" } stdin =
        .ok (s.printed c (l.flatMap fun i => i :: order.filter fun k => decide (s.Covers order c.exclusionRadiusMult i k))) := by
  obtain ⟨order, o1, o2⟩ := ranked_ok s hf.columns true
  refine ⟨order, o1, ?_⟩
  obtain ⟨c', e1, e2, e3, e4, h⟩ := selected s c stdin l hl hsel "neighbor"
  rcases h with ⟨h, rfl⟩ | h
  · rw [h]; rfl
  rw [h]
  unfold exclude readSubIDs
  rw [e3, o2]
  simp only [String.reduceEq, if_false, if_true]
  obtain ⟨g, ls, rs', g1, g2, g3⟩ := finder_ok s o1 c.exclusionRadiusMult hf
  have ol := ranks_len s o1
  have hnd : order.Nodup := o1.1.nodup_iff.mpr List.nodup_range
  rw [bind_ok, g1, index_some, bind_ok, e4, g2, index_some, bind_ok]
  have hone : ∀ i ∈ l, (match newIntFinder (order.map s.id) (s.id i) with
        | none => Out.error
        | some j => (Out.index (subhalos ls j)).bind fun subs => (mapOut (fun k => Out.index (Shellfish.Finder.get (order.map s.id) k)) subs).bind fun sids => .ok (s.id i :: sids)) =
      .ok ((i :: order.filter fun k => decide (s.Covers order c.exclusionRadiusMult i k)).map s.id) := by
    intro i hi
    obtain ⟨f1, f2⟩ := Shellfish.Memo.newIntFinder_spec (order.map s.id) (s.id i)
    have himem := (ranks_mem s o1 i).mpr (hl i hi)
    cases hfi : newIntFinder (order.map s.id) (s.id i) with
    | none => exact absurd (List.mem_map_of_mem himem) (f2.mp hfi)
    | some j =>
      have hj := (f1 j hfi).1
      rw [List.getElem?_map, Option.map_eq_some_iff] at hj
      obtain ⟨i', hi', he⟩ := hj
      have := s.distinct i' i ((ranks_mem s o1 i').mp (List.mem_of_getElem? hi')) (hl i hi) he
      subst this
      have hjl : j < s.n := by rw [← ol]; exact (List.getElem?_eq_some_iff.mp hi').1
      simp only
      rw [(g3 j hjl).1, index_some, bind_ok, mapOut_ok _ (fun k : Int => s.id (order.getD k.toNat 0)), bind_ok]
      · simp only [List.map_cons, Out.ok.injEq, List.cons.injEq, true_and]
        unfold indices
        rw [List.map_map]
        have e : (fun k : Int => s.id (order.getD k.toNat 0)) ∘ (fun k : Nat => (k : Int)) = s.id ∘ fun k => order.getD k 0 := rfl
        rw [e, ← List.map_map]
        congr 1
        have hr : order = (List.range s.n).map fun k => order.getD k 0 := by
          apply List.ext_getElem?
          intro k
          rw [List.getElem?_map]
          by_cases hk : k < s.n
          · rw [List.getElem?_range hk, Option.map_some, List.getD_eq_getElem?_getD, List.getElem?_eq_getElem (by omega)]; rfl
          · rw [List.getElem?_eq_none (by omega), List.getElem?_eq_none (by simpa using hk)]; rfl
        conv_rhs => rw [hr, List.filter_map]
        congr 1
        apply List.filter_congr
        intro k hk
        have hk' := List.mem_range.mp hk
        simp only [Function.comp, decide_eq_decide]
        rw [← hr]
        exact isSub_covers s o1 _ j k i' _ hi' (by rw [List.getD_eq_getElem?_getD, List.getElem?_eq_getElem (by omega)]; rfl)
      · intro k hk
        unfold indices at hk
        obtain ⟨a, ha, rfl⟩ := List.mem_map.mp hk
        have hal := List.mem_range.mp (List.mem_filter.mp ha).1
        unfold Shellfish.Finder.get
        rw [if_neg (by omega), List.getElem?_map, Int.toNat_natCast, List.getElem?_eq_getElem (by omega), Option.map_some, index_some]
        rw [List.getD_eq_getElem?_getD, List.getElem?_eq_getElem (by omega)]; rfl
  have hmap : ∀ (F : Int → Out (List Int)), (∀ i ∈ l, F (s.id i) = .ok ((i :: order.filter fun k => decide (s.Covers order c.exclusionRadiusMult i k)).map s.id)) →
      mapOut F (l.map s.id) = .ok (l.map fun i => (i :: order.filter fun k => decide (s.Covers order c.exclusionRadiusMult i k)).map s.id) := by
    clear hsel h hone
    intro F
    induction l with
    | nil => intro _; rfl
    | cons a as ih =>
      intro hF
      unfold mapOut
      simp only [List.map_cons]
      have := hF a (by simp)
      simp only [List.map_cons] at this
      rw [this]
      simp only [Out.bind]
      have := ih (fun i hi => hl i (by simp [hi])) (fun i hi => hF i (by simp [hi]))
      simp only [List.map_cons] at this
      rw [this]
  rw [hmap _ hone, bind_ok, bind_ok, rows_none, e1, e2]
  have : (l.map fun i => (i :: order.filter fun k => decide (s.Covers order c.exclusionRadiusMult i k)).map s.id).flatten =
      (l.flatMap fun i => i :: order.filter fun k => decide (s.Covers order c.exclusionRadiusMult i k)).map s.id := by
    rw [List.map_flatMap, List.flatMap_def]
  rw [this, printed_map]

/-! Examples -/

/-- a sort -/
def exSort : Argsort ℚ where
  run := fun xs => (List.range xs.length).mergeSort fun i j => decide (xs.getD i 0 ≤ xs.getD j 0)
  perm := fun xs => List.mergeSort_perm _ _
  asc := fun xs => by
    refine (List.pairwise_mergeSort (le := fun i j => decide (xs.getD i 0 ≤ xs.getD j 0)) ?_ ?_ _).imp ?_
    · intro a b c h1 h2; simp only [decide_eq_true_eq] at *; exact le_trans h1 h2
    · intro a b; simp only [Bool.or_eq_true, decide_eq_true_eq]; exact le_total _ _
    · intro i j hij a b ha hb
      simp only [decide_eq_true_eq, List.getD_eq_getElem?_getD, ha, hb, Option.getD_some] at hij
      exact hij

/-- the other sort -/
def exDesc : Descsort ℚ where
  run := fun l => l.mergeSort fun a b => decide (b.2 ≤ a.2)
  perm := fun l => List.mergeSort_perm _ _
  desc := fun l => by
    refine (List.pairwise_mergeSort (le := fun a b : Int × ℚ => decide (b.2 ≤ a.2)) ?_ ?_ _).imp ?_
    · intro a b c h1 h2; simp only [decide_eq_true_eq] at *; exact le_trans h2 h1
    · intro a b; simp only [Bool.or_eq_true, decide_eq_true_eq]; exact le_total _ _
    · intro a b h; simpa using h

/-- four halos in a box of width 1000: the second one is inside of the first one, the fourth one only touches its shell -/
def exSetup : Setup ℚ where
  rd := ⟨fun w => (w : ℚ), fun _ x => x⟩
  so := exSort
  ds := exDesc
  names := ["ID", "X", "Y", "Z", "M200m", "R200m"]
  columns := [0, 1, 2, 3, 4, 5]
  vc := (Shellfish.Memo.newVarColumns ["ID", "X", "Y", "Z", "M200m", "R200m"] [0, 1, 2, 3, 4, 5]).get rfl
  n := 4
  cols := [[11, 12, 13, 14], [100, 110, 500, 125], [50, 50, 50, 50], [50, 50, 50, 50], [9, 7, 5, 3], [20, 10, 10, 10]]
  caches := fun _ => ⟨none, none⟩
  width := 1000
  rucf := 1
  pucf := 1
  usable := ⟨by decide, (Option.some_get _).symm, by decide, by decide, rfl, by decide, by decide⟩
  distinct := by
    intro i j hi hj h
    have key : ∀ i < 4, idOf (⟨fun w => (w : ℚ), fun _ x => x⟩ : Reading ℚ) ["ID", "X", "Y", "Z", "M200m", "R200m"]
        [[11, 12, 13, 14], [100, 110, 500, 125], [50, 50, 50, 50], [50, 50, 50, 50], [9, 7, 5, 3], [20, 10, 10, 10]] i = 11 + (i : Int) := by decide +kernel
    rw [key i hi, key j hj] at h
    omega
  complete := fun _ => ⟨by simp, by simp⟩

/-- the selection of the second and of the fourth halo -/
def exConfig : Config ℚ := ⟨"halo-id", [12, 14], -1, -1, 100, 2, 0, 0, "overlap", 1⟩

theorem exFits : exSetup.Fits 1 := by
  refine ⟨by decide, by decide, by norm_num [exSetup], ?_, ?_, ?_⟩
  · have : ∀ i < 4, (0 ≤ (exSetup.pos i).x ∧ (exSetup.pos i).x < exSetup.width) ∧ (0 ≤ (exSetup.pos i).y ∧ (exSetup.pos i).y < exSetup.width) ∧
        (0 ≤ (exSetup.pos i).z ∧ (exSetup.pos i).z < exSetup.width) := by decide +kernel
    exact this
  · have : ∀ i < 4, 0 ≤ exSetup.radius i * 1 := by decide +kernel
    exact this
  · have : ∀ i < 4, ∀ j < 4, 2 * (exSetup.radius i * 1 + exSetup.radius j * 1) + exSetup.width / 150 ≤ exSetup.width := by decide +kernel
    exact this

theorem exSelected : exSetup.run { exConfig with exclusionStrategy := "none", mult := 1 } .error = .ok ([1, 3].map fun i => (exSetup.id i, exConfig.snap)) :=
  C25_ids exSetup { exConfig with exclusionStrategy := "none", mult := 1 } .error (by decide) rfl rfl rfl rfl [1, 3] (by decide) (by decide +kernel)

/-- non-vacuity of the theorems about ranges and masses: a ranking; three halos have a mass between 4 and 9, one has less, and none is between 10 and 20 -/
example : exSetup.Ranks [0, 1, 2, 3] ∧ (∃ i < exSetup.n, (4 : ℚ) ≤ exSetup.mass i ∧ exSetup.mass i ≤ 9) ∧ (∃ i < exSetup.n, exSetup.mass i < 10) ∧
    (∀ i < exSetup.n, exSetup.mass i < 10 ∨ 20 < exSetup.mass i) ∧ (∀ i < exSetup.n, 2 < exSetup.mass i) :=
  ⟨⟨by decide, by decide +kernel⟩, ⟨1, by decide, by decide +kernel⟩, ⟨1, by decide, by decide +kernel⟩, by decide +kernel, by decide +kernel⟩

open Classical in
/-- C59 is false for the documentation of `overlap` ("halos which have an R200m shell that overlaps with a larger halo's R200m shell are removed"): the fourth halo is
printed, although the spheres of the fourth and of the first, heavier, halo intersect. -/
theorem C59_shells_false : ∃ (s : Setup ℚ) (c : Config ℚ) (i k : Nat) (out : List (Int × Int)), s.mass i < s.mass k ∧ Within s.width (s.radius k + s.radius i) (s.pos k) (s.pos i) ∧
    c.exclusionStrategy = "overlap" ∧ c.exclusionRadiusMult = 1 ∧ s.run c .error = .ok out ∧ (s.id i, c.snap) ∈ out := by
  obtain ⟨order, o1, o2⟩ := C59_overlap_partial exSetup exConfig .error [1, 3] (by decide) exSelected exFits
  refine ⟨exSetup, exConfig, 3, 0, _, by decide +kernel, ⟨0, 0, 0, by decide +kernel⟩, rfl, rfl, o2, ?_⟩
  unfold Setup.printed
  rw [List.mem_flatMap]
  refine ⟨3, ?_, by decide +kernel⟩
  rw [List.mem_filter]
  refine ⟨by decide, ?_⟩
  refine (decide_eq_true_eq (p := ¬ ∃ k, exSetup.Covers order exConfig.exclusionRadiusMult k 3)).mpr ?_
  rintro ⟨k, ⟨a, b, hab, ha, hb⟩, i1, i2, i3, h⟩
  have hk := (ranks_mem exSetup o1 k).mp (List.mem_of_getElem? ha)
  have hx : ((exSetup.pos k).x - (exSetup.pos 3).x + i1 * exSetup.width) ^ 2 ≤ (exSetup.radius k * exConfig.exclusionRadiusMult) ^ 2 := by
    nlinarith [sq_nonneg ((exSetup.pos k).y - (exSetup.pos 3).y + i2 * exSetup.width), sq_nonneg ((exSetup.pos k).z - (exSetup.pos 3).z + i3 * exSetup.width)]
  have hz : (i1 : ℚ) ≤ -1 ∨ (i1 : ℚ) = 0 ∨ 1 ≤ (i1 : ℚ) := by
    rcases lt_trichotomy i1 0 with h | h | h
    · left; exact_mod_cast (by omega : i1 ≤ -1)
    · right; left; exact_mod_cast h
    · right; right; exact_mod_cast h
  have w : exSetup.width = 1000 := rfl
  have p3 : (exSetup.pos 3).x = 125 := by decide +kernel
  have hm : exConfig.exclusionRadiusMult = 1 := rfl
  rw [w, p3, hm] at hx
  have hk4 : k < 4 := hk
  rcases (by omega : k = 0 ∨ k = 1 ∨ k = 2 ∨ k = 3) with rfl | rfl | rfl | rfl
  · rw [show (exSetup.pos 0).x = 100 by decide +kernel, show exSetup.radius 0 = 20 by decide +kernel] at hx
    rcases hz with h | h | h <;> nlinarith
  · rw [show (exSetup.pos 1).x = 110 by decide +kernel, show exSetup.radius 1 = 10 by decide +kernel] at hx
    rcases hz with h | h | h <;> nlinarith
  · rw [show (exSetup.pos 2).x = 500 by decide +kernel, show exSetup.radius 2 = 10 by decide +kernel] at hx
    rcases hz with h | h | h <;> nlinarith
  · have hnd : order.Nodup := o1.1.nodup_iff.mpr List.nodup_range
    have := (List.getElem?_inj (List.getElem?_eq_some_iff.mp ha).1 hnd).mp (ha.trans hb.symm)
    omega

end Shellfish.IdMode
