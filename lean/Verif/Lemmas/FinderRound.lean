/- Lemmas about the search of cmd/halo/finder.go in float64 arithmetic. -/
import Verif.Model.FinderRound
import Verif.Lemmas.FindSub
import Verif.Lemmas.Round

namespace Shellfish.Round
open Shellfish.Finder (Point Grid Span Lists get put toInt readIndexes maxLength length readLoop visits cellsOf wrapCell suffixMax crossMatch starts Chain get_nat put_nat chain_read chain_set index_lt index_inj
  visits_spec mapM_some' filterMap_flatMap suffixMax_length suffixMax_mem flatten_take_append starts_append starts_get starts_length)

/-- a grid made by `NewGrid` -/
structure OK (g : Grid ℚ) : Prop where
  cw : g.cw = r64 (g.width / (g.cells : ℚ))
  heads : g.heads.length = g.cells * g.cells * g.cells

/-- the number of the cell of one coordinate, in a new grid -/
def part (cells : Nat) (W x : ℚ) : Int := toInt (r64 (wrapIn x W / r64 (W / (cells : ℚ))))

/-- every coordinate has a cell -/
def Housed (cells : Nat) (W : ℚ) (p : Point ℚ) : Prop :=
  (0 ≤ part cells W p.x ∧ part cells W p.x < cells) ∧ (0 ≤ part cells W p.y ∧ part cells W p.y < cells) ∧ (0 ≤ part cells W p.z ∧ part cells W p.z < cells)

theorem cellOf_part (g : Grid ℚ) (hg : OK g) (p : Point ℚ) :
    cellOf g p = part g.cells g.width p.x + part g.cells g.width p.y * (g.cells : Int) + part g.cells g.width p.z * (g.cells : Int) * (g.cells : Int) := by
  unfold cellOf cellIdx part
  rw [hg.cw]

theorem cellOf_range (g : Grid ℚ) (hg : OK g) (p : Point ℚ) (hp : Housed g.cells g.width p) : 0 ≤ cellOf g p ∧ cellOf g p < g.heads.length := by
  rw [cellOf_part g hg, hg.heads]
  exact index_lt g.cells _ _ _ hp.1 hp.2.1 hp.2.2

/-- the indices below `m` in cell `idx`, last first -/
def members (g : Grid ℚ) (ps : List (Point ℚ)) (m : Nat) (idx : Int) : List Int :=
  ((List.range m).filter fun i => decide ((ps[i]?).map (cellOf g) = some idx)).reverse.map fun i : Nat => (i : Int)

theorem members_succ (g : Grid ℚ) (ps : List (Point ℚ)) (m : Nat) (p : Point ℚ) (hp : ps[m]? = some p) (idx : Int) :
    members g ps (m + 1) idx = if cellOf g p = idx then (m : Int) :: members g ps m idx else members g ps m idx := by
  unfold members
  rw [List.range_succ, List.filter_append]
  by_cases h : cellOf g p = idx
  · rw [if_pos h, List.filter_cons_of_pos (by simp [hp, h]), List.filter_nil, List.reverse_append]
    simp
  · rw [if_neg h, List.filter_cons_of_neg (by simp [hp, h]), List.filter_nil, List.append_nil]

theorem mem_members (g : Grid ℚ) (ps : List (Point ℚ)) (m : Nat) (idx j : Int) :
    j ∈ members g ps m idx ↔ ∃ (i : Nat) (p : Point ℚ), j = i ∧ i < m ∧ ps[i]? = some p ∧ cellOf g p = idx := by
  unfold members
  simp only [List.mem_map, List.mem_reverse, List.mem_filter, List.mem_range, decide_eq_true_eq, Option.map_eq_some_iff]
  constructor
  · rintro ⟨i, ⟨h1, p, h2, h3⟩, rfl⟩; exact ⟨i, p, rfl, h1, h2, h3⟩
  · rintro ⟨i, p, rfl, h1, h2, h3⟩; exact ⟨i, ⟨h1, p, h2, h3⟩, rfl⟩

theorem members_desc (g : Grid ℚ) (ps : List (Point ℚ)) (m : Nat) (idx : Int) : (members g ps m idx).Pairwise (fun a b => b < a) := by
  unfold members
  rw [List.pairwise_map, List.pairwise_reverse]
  exact (List.Pairwise.filter _ List.pairwise_lt_range).imp (by intro a b h; omega)

theorem members_length (g : Grid ℚ) (ps : List (Point ℚ)) (m : Nat) (idx : Int) : (members g ps m idx).length ≤ m := by
  unfold members
  rw [List.length_map, List.length_reverse]
  exact le_trans (List.length_filter_le _ _) (by simp)

/-- the state after the first `m` points -/
structure Built (g : Grid ℚ) (ps : List (Point ℚ)) (m : Nat) : Prop where
  ok : OK g
  next : g.next.length = ps.length
  chains : ∀ idx : Nat, idx < g.heads.length → ∃ h, g.heads[idx]? = some h ∧ Chain g.next h (members g ps m idx)

theorem insertOne_built (g : Grid ℚ) (ps : List (Point ℚ)) (m : Nat) (p : Point ℚ) (hp : ps[m]? = some p) (hb : Built g ps m) (hpl : Housed g.cells g.width p) :
    ∃ g', insertOne g m p = some g' ∧ Built g' ps (m + 1) ∧ g'.cells = g.cells ∧ g'.width = g.width ∧ g'.cw = g.cw := by
  obtain ⟨r0, r1⟩ := cellOf_range g hb.ok p hpl
  obtain ⟨cidx, hcidx⟩ := Int.eq_ofNat_of_zero_le r0
  have hclt : cidx < g.heads.length := by omega
  have hm : m < ps.length := by
    by_contra hc
    rw [List.getElem?_eq_none (by omega)] at hp; simp at hp
  obtain ⟨h, hh, hchain⟩ := hb.chains cidx hclt
  refine ⟨{ g with heads := g.heads.set cidx (m : Int), next := g.next.set m h }, ?_, ⟨⟨hb.ok.cw, ?_⟩, ?_, ?_⟩, rfl, rfl, rfl⟩
  · unfold insertOne
    rw [hcidx]
    rw [get_nat, hh, Option.bind_some, put_nat _ _ _ (by rw [hb.next]; exact hm), Option.bind_some, put_nat _ _ _ hclt]
    rfl
  · show (g.heads.set cidx (m : Int)).length = _
    rw [List.length_set]; exact hb.ok.heads
  · show (g.next.set m h).length = _
    rw [List.length_set]; exact hb.next
  · intro idx hidx
    change idx < (g.heads.set cidx (m : Int)).length at hidx
    rw [List.length_set] at hidx
    have hnot : ∀ idx', (m : Int) ∉ members g ps m idx' := by
      intro idx' hc
      obtain ⟨i, _, h1, h2, _⟩ := (mem_members g ps m idx' m).mp hc
      omega
    have hmem : members { g with heads := g.heads.set cidx (m : Int), next := g.next.set m h } ps (m + 1) idx = members g ps (m + 1) idx := rfl
    rw [hmem, members_succ g ps m p hp]
    change ∃ h', (g.heads.set cidx (m : Int))[idx]? = some h' ∧ Chain (g.next.set m h) h' _
    by_cases hc : cidx = idx
    · subst hc
      rw [if_pos hcidx]
      refine ⟨m, by rw [List.getElem?_set_self hclt], ?_⟩
      refine Chain.cons m h _ ?_ ?_
      · rw [List.getElem?_set_self (by rw [hb.next]; exact hm)]
      · exact chain_set _ _ _ hchain m h (hnot _)
    · rw [if_neg (by rw [hcidx]; intro e; apply hc; exact_mod_cast e)]
      obtain ⟨h', a, b⟩ := hb.chains idx hidx
      exact ⟨h', by rw [List.getElem?_set_ne hc]; exact a, chain_set _ _ _ b m h (hnot _)⟩

theorem insertFrom_built (ps : List (Point ℚ)) : ∀ (rest : List (Point ℚ)) (g : Grid ℚ) (m : Nat), ps.drop m = rest → m + rest.length = ps.length → Built g ps m →
    (∀ p ∈ rest, Housed g.cells g.width p) → ∃ g', insertFrom g m rest = some g' ∧ Built g' ps ps.length ∧ g'.cells = g.cells ∧ g'.width = g.width ∧ g'.cw = g.cw := by
  intro rest
  induction rest with
  | nil =>
    intro g m _ hm hb _
    refine ⟨g, rfl, ?_, rfl, rfl, rfl⟩
    rw [← hm]; simpa using hb
  | cons p rest ih =>
    intro g m hd hm hb hpl
    have hp : ps[m]? = some p := by
      have : (ps.drop m)[0]? = some p := by rw [hd]; rfl
      rw [List.getElem?_drop] at this
      simpa using this
    obtain ⟨g1, a1, a2, a3, a4, a5⟩ := insertOne_built g ps m p hp hb (hpl p (by simp))
    obtain ⟨g2, b1, b2, b3, b4, b5⟩ := ih g1 (m + 1) (by rw [← List.drop_drop, hd]; rfl) (by simp at hm; omega) a2 (by
      intro q hq
      rw [a3, a4]; exact hpl q (by simp [hq]))
    refine ⟨g2, ?_, b2, b3.trans a3, b4.trans a4, b5.trans a5⟩
    show (insertOne g m p).bind _ = _
    rw [a1]; exact b1

/-- the grid after `Insert` -/
theorem insert_built (cells : Nat) (W : ℚ) (ps : List (Point ℚ)) (hp : ∀ p ∈ ps, Housed cells W p) :
    ∃ g, insertFrom (newGrid cells W ps.length) 0 ps = some g ∧ Built g ps ps.length ∧ g.cells = cells ∧ g.width = W ∧ g.cw = r64 (W / (cells : ℚ)) := by
  refine insertFrom_built ps ps (newGrid cells W ps.length) 0 rfl (by simp) ⟨⟨rfl, by simp [newGrid]⟩, by simp [newGrid], ?_⟩ hp
  intro idx hidx
  refine ⟨-1, ?_, ?_⟩
  · simp only [newGrid, List.length_replicate] at hidx ⊢
    rw [List.getElem?_replicate, if_pos hidx]
  · have : members (newGrid cells W ps.length) ps 0 idx = [] := rfl
    rw [this]; exact Chain.nil

theorem built_read (g : Grid ℚ) (ps : List (Point ℚ)) (hb : Built g ps ps.length) (idx : Nat) (hi : idx < g.cells * g.cells * g.cells) (cap : Nat)
    (hcap : (members g ps ps.length idx).length ≤ cap) : readIndexes g idx cap = some (members g ps ps.length idx) := by
  obtain ⟨h, h1, h2⟩ := hb.chains idx (by rw [hb.ok.heads]; exact hi)
  unfold readIndexes
  rw [get_nat, h1, Option.bind_some, chain_read _ _ _ h2 cap hcap]

theorem built_length (g : Grid ℚ) (ps : List (Point ℚ)) (hb : Built g ps ps.length) (idx : Nat) (hi : idx < g.cells * g.cells * g.cells) :
    length g idx = some (members g ps ps.length idx).length := by
  have := built_read g ps hb idx hi g.next.length (by rw [hb.next]; exact members_length _ _ _ _)
  unfold readIndexes at this
  unfold length
  rw [this]; rfl

theorem built_maxLength (g : Grid ℚ) (ps : List (Point ℚ)) (hb : Built g ps ps.length) :
    ∃ m, maxLength g = some m ∧ (∀ idx : Nat, idx < g.cells * g.cells * g.cells → (members g ps ps.length idx).length ≤ m) ∧
      (m = 0 ∨ ∃ idx : Nat, idx < g.cells * g.cells * g.cells ∧ (members g ps ps.length idx).length = m) := by
  unfold maxLength
  rw [hb.ok.heads]
  have key : ∀ k, k ≤ g.cells * g.cells * g.cells → ∃ m, (List.range k).foldlM (fun m (i : Nat) => (length g (i : Int)).map fun l => if l > m then l else m) 0 = some m ∧
      (∀ idx : Nat, idx < k → (members g ps ps.length idx).length ≤ m) ∧ (m = 0 ∨ ∃ idx : Nat, idx < k ∧ (members g ps ps.length idx).length = m) := by
    intro k
    induction k with
    | zero => intro _; exact ⟨0, rfl, by simp, Or.inl rfl⟩
    | succ k ih =>
      intro hk
      obtain ⟨m, h1, h2, h3⟩ := ih (by omega)
      rw [List.range_succ, List.foldlM_append, h1]
      simp only [Option.bind_eq_bind, Option.bind_some, List.foldlM_cons, List.foldlM_nil]
      rw [built_length g ps hb k (by omega)]
      simp only [Option.map_some, Option.bind_some, Option.pure_def]
      refine ⟨_, rfl, ?_, ?_⟩
      · intro idx hi
        rcases Nat.lt_succ_iff_lt_or_eq.mp hi with h | rfl
        · have := h2 idx h
          split_ifs <;> omega
        · split_ifs <;> omega
      · split_ifs with hlt
        · exact Or.inr ⟨k, by omega, rfl⟩
        · rcases h3 with h | ⟨idx, a, b⟩
          · exact Or.inl h
          · exact Or.inr ⟨idx, by omega, b⟩
  exact key _ le_rfl



/-- the loop over the cells of one dimension takes on every number at most once, and only numbers of cells -/
def Fits (b : Span) (c : Nat) : Prop := (cellsOf b c).Nodup ∧ ∀ x ∈ cellsOf b c, 0 ≤ x ∧ x < c

/-- the cells that are read for a halo -/
def reach (g : Grid ℚ) (h : Point ℚ) (R : ℚ) : List Int := visits (sphereBounds h.x R g.cw g.width) (sphereBounds h.y R g.cw g.width) (sphereBounds h.z R g.cw g.width) g.cells

def FitsAll (g : Grid ℚ) (h : Point ℚ) (R : ℚ) : Prop :=
  Fits (sphereBounds h.x R g.cw g.width) g.cells ∧ Fits (sphereBounds h.y R g.cw g.width) g.cells ∧ Fits (sphereBounds h.z R g.cw g.width) g.cells

theorem searchOne_spec (g : Grid ℚ) (ps : List (Point ℚ)) (hb : Built g ps ps.length) (cap : Nat)
    (hcap : ∀ idx : Nat, idx < g.cells * g.cells * g.cells → (members g ps ps.length idx).length ≤ cap) (ih : Nat) (h : Point ℚ) (r m : ℚ) (hfit : FitsAll g h (r64 (r + m))) :
    ∃ found, searchOne g ps cap ih h r m = some found ∧ found.Nodup ∧
      ∀ j, j ∈ found ↔ ∃ (i : Nat) (q : Point ℚ), j = i ∧ ih < i ∧ ps[i]? = some q ∧ cellOf g q ∈ reach g h (r64 (r + m)) ∧ r64 (r * r) ≥ dist2 h q g.width := by
  obtain ⟨v1, v2, _⟩ := visits_spec g.cells _ _ _ hfit.1 hfit.2.1 hfit.2.2
  change (reach g h (r64 (r + m))).Nodup at v1
  change ∀ idx ∈ reach g h (r64 (r + m)), _ at v2
  have hs : searchOne g ps cap ih h r m = ((reach g h (r64 (r + m))).mapM fun idx => (readIndexes g idx cap).bind fun l => mark ps ih h r g.width l).map List.flatten := rfl
  rw [hs]
  generalize reach g h (r64 (r + m)) = vs at v1 v2
  let F : Int → Option Int := fun j => if j ≤ (ih : Int) then none else (get ps j).bind fun q => if r64 (r * r) ≥ dist2 h q g.width then some j else none
  have hF : ∀ a b : Int, F a = some b → a = b := by
    intro a b hab
    dsimp only [F] at hab
    split_ifs at hab
    cases hg : get ps a with
    | none => rw [hg] at hab; simp at hab
    | some q => rw [hg, Option.bind_some] at hab; split_ifs at hab; simpa using hab
  have hm : ∀ idx : Nat, mark ps ih h r g.width (members g ps ps.length idx) = some ((members g ps ps.length idx).filterMap F) := by
    intro idx
    unfold mark
    rw [mapM_some' _ F]
    · simp only [Option.map_some]
      rw [List.filterMap_map]
      rfl
    · intro j hj
      obtain ⟨i, p, rfl, _, hp, _⟩ := (mem_members g ps _ idx j).mp hj
      dsimp only [F]
      split_ifs
      · rfl
      · rw [get_nat, hp]; rfl
  have hseen : (vs.flatMap fun idx => members g ps ps.length idx).Nodup := by
    rw [List.nodup_flatMap]
    refine ⟨fun idx _ => (members_desc g ps _ idx).imp (by intro a b hab; omega), ?_⟩
    refine v1.pairwise_of_forall_ne ?_
    intro a _ b _ hne
    simp only [Function.onFun, List.Disjoint]
    intro j ha hb'
    obtain ⟨i, p, e1, _, e3, e4⟩ := (mem_members g ps _ a j).mp ha
    obtain ⟨i', p', f1, _, f3, f4⟩ := (mem_members g ps _ b j).mp hb'
    have : i = i' := by omega
    subst this
    rw [e3, Option.some.injEq] at f3
    subst f3
    exact hne (e4.symm.trans f4)
  refine ⟨(vs.flatMap fun idx => members g ps ps.length idx).filterMap F, ?_, ?_, ?_⟩
  · rw [mapM_some' _ (fun idx => (members g ps ps.length idx).filterMap F)]
    · rw [Option.map_some, List.filterMap_flatMap]
      rfl
    · intro idx hi
      obtain ⟨n, rfl, hn⟩ := v2 idx hi
      rw [built_read g ps hb n hn cap (hcap n hn), Option.bind_some, hm]
  · refine List.Nodup.filterMap ?_ hseen
    intro a a' b hb1 hb2
    simp only [Option.mem_def] at hb1 hb2
    rw [hF a b hb1, hF a' b hb2]
  · intro j
    rw [List.mem_filterMap]
    constructor
    · rintro ⟨a, ha, hab⟩
      obtain ⟨idx, hi, hmem⟩ := List.mem_flatMap.mp ha
      obtain ⟨i, q, rfl, hlt, hq, hc⟩ := (mem_members g ps _ idx a).mp hmem
      dsimp only [F] at hab
      split_ifs at hab with hle
      rw [get_nat, hq, Option.bind_some] at hab
      split_ifs at hab with hd
      simp only [Option.some.injEq] at hab
      exact ⟨i, q, hab.symm, by omega, hq, by rw [hc]; exact hi, hd⟩
    · rintro ⟨i, q, rfl, hlt, hq, hv, hd⟩
      refine ⟨i, List.mem_flatMap.mpr ⟨_, hv, (mem_members g ps _ _ _).mpr ⟨i, q, rfl, ?_, hq, rfl⟩⟩, ?_⟩
      · by_contra hc
        rw [List.getElem?_eq_none (by omega)] at hq; simp at hq
      · dsimp only [F]
        rw [if_neg (by omega), get_nat, hq, Option.bind_some, if_pos hd]

/-- what is known of the lists of the halos before cross-matching -/
def Found (g : Grid ℚ) (ps : List (Point ℚ)) (rs : List ℚ) (i : Nat) (l : List Int) : Prop :=
  l.Nodup ∧ ∀ j, j ∈ l ↔ ∃ (k : Nat) (p q : Point ℚ) (r m : ℚ), j = k ∧ i < k ∧ ps[i]? = some p ∧ ps[k]? = some q ∧ rs[i]? = some r ∧ (suffixMax rs)[i]? = some m ∧
    cellOf g q ∈ reach g p (r64 (r + m)) ∧ r64 (r * r) ≥ dist2 p q g.width

theorem searchFrom_spec (g : Grid ℚ) (ps : List (Point ℚ)) (hb : Built g ps ps.length) (cap : Nat)
    (hcap : ∀ idx : Nat, idx < g.cells * g.cells * g.cells → (members g ps ps.length idx).length ≤ cap) (rs : List ℚ)
    (hfit : ∀ (i : Nat) (h : Point ℚ) (r m : ℚ), ps[i]? = some h → rs[i]? = some r → (suffixMax rs)[i]? = some m → FitsAll g h (r64 (r + m))) :
    ∀ (rest : List (ℚ × ℚ)) (S : List (List Int)), (rs.zip (suffixMax rs)).drop S.length = rest → S.length + rest.length = ps.length →
      (∀ i l, S[i]? = some l → Found g ps rs i l) →
      ∃ S' : List (List Int), searchFrom g ps cap S.length rest ⟨starts S ++ List.replicate rest.length 0, S.flatten⟩ = some ⟨starts S', S'.flatten⟩ ∧
        S'.length = ps.length ∧ ∀ i l, S'[i]? = some l → Found g ps rs i l := by
  intro rest
  induction rest with
  | nil =>
    intro S _ hl hS
    exact ⟨S, by simp [searchFrom], by simpa using hl, hS⟩
  | cons rm rest ih =>
    intro S hdrop hl hS
    obtain ⟨r, m⟩ := rm
    simp only [List.length_cons] at hl
    have hget : (rs.zip (suffixMax rs))[S.length]? = some (r, m) := by
      have : ((rs.zip (suffixMax rs)).drop S.length)[0]? = some (r, m) := by rw [hdrop]; rfl
      rw [List.getElem?_drop] at this
      simpa using this
    rw [List.getElem?_zip_eq_some] at hget
    obtain ⟨hg1, hg2⟩ := hget
    have hlt : S.length < ps.length := by omega
    have hh : ps[S.length]? = some ps[S.length] := List.getElem?_eq_getElem hlt
    obtain ⟨found, f1, f2, f3⟩ := searchOne_spec g ps hb cap hcap S.length _ r m (hfit _ _ r m hh hg1 hg2)
    obtain ⟨S', s1, s2, s3⟩ := ih (S ++ [found]) (by
        rw [List.length_append, List.length_singleton, ← List.drop_drop, hdrop]; rfl) (by
        rw [List.length_append, List.length_singleton]; omega) (by
        intro i l hi
        by_cases hil : i < S.length
        · rw [List.getElem?_append_left hil] at hi
          exact hS i l hi
        · have hie : i = S.length := by
            by_contra hc
            rw [List.getElem?_eq_none (by simp; omega)] at hi; simp at hi
          subst hie
          rw [List.getElem?_append_right le_rfl] at hi
          simp only [Nat.sub_self, List.getElem?_cons_zero, Option.some.injEq] at hi
          subst hi
          refine ⟨f2, fun j => ?_⟩
          rw [f3]
          constructor
          · rintro ⟨k, q, rfl, a, b, c, d⟩
            exact ⟨k, _, q, r, m, rfl, a, hh, b, hg1, hg2, c, d⟩
          · rintro ⟨k, p, q, r', m', rfl, a, hp, b, hr', hm', c, d⟩
            rw [hh, Option.some.injEq] at hp
            rw [hg1, Option.some.injEq] at hr'
            rw [hg2, Option.some.injEq] at hm'
            subst hp; subst hr'; subst hm'
            exact ⟨k, q, rfl, a, b, c, d⟩)
    refine ⟨S', ?_, s2, s3⟩
    unfold searchFrom
    rw [hh, Option.bind_some]
    have hput : put (starts S ++ List.replicate (rest.length + 1) 0) (S.length : Int) S.flatten.length = some (starts (S ++ [found]) ++ List.replicate rest.length 0) := by
      rw [put_nat _ _ _ (by simp [starts_length]), starts_append, List.set_append_right _ _ (by rw [starts_length]), starts_length, Nat.sub_self,
        List.replicate_succ, List.set_cons_zero]
      simp
    simp only [List.length_cons]
    rw [hput, Option.bind_some, f1, Option.bind_some]
    rw [flatten_take_append, List.length_append, List.length_singleton] at s1
    exact s1

end Shellfish.Round
