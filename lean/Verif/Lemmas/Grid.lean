/- Lemmas about the model of cmd/halo/grid.go. -/
import Verif.Model.Finder
import Mathlib.Tactic.Linarith
import Mathlib.Tactic.Ring
import Mathlib.Tactic.FieldSimp
import Mathlib.Tactic.Positivity

namespace Shellfish.Finder
open Shellfish.Los (modf)

variable {K : Type} [Field K] [LinearOrder K] [IsStrictOrderedRing K] [FloorRing K]

/-- the indices from `cur` on form the list `l` -/
inductive Chain (next : List Int) : Int → List Int → Prop
  | nil : Chain next (-1) []
  | cons (a : Nat) (nx : Int) (l : List Int) : next[a]? = some nx → Chain next nx l → Chain next (a : Int) ((a : Int) :: l)

theorem get_nat {α : Type} (l : List α) (i : Nat) : get l (i : Int) = l[i]? := by
  unfold get
  rw [if_neg (by omega)]
  simp

theorem put_nat {α : Type} (l : List α) (i : Nat) (a : α) (h : i < l.length) : put l (i : Int) a = some (l.set i a) := by
  unfold put
  rw [if_pos (by omega)]
  simp

theorem chain_read (next : List Int) (cur : Int) (l : List Int) (h : Chain next cur l) : ∀ room, l.length ≤ room → readLoop next room cur = some l := by
  induction h with
  | nil => intro room _; unfold readLoop; simp
  | cons a nx l hn _ ih =>
    intro room hr
    cases room with
    | zero => simp at hr
    | succ room =>
      unfold readLoop
      rw [if_neg (by omega)]
      simp only
      rw [get_nat, hn, Option.bind_some, ih room (by simpa using hr)]
      rfl

theorem chain_set (next : List Int) (cur : Int) (l : List Int) (h : Chain next cur l) (i : Nat) (v : Int) (hi : (i : Int) ∉ l) : Chain (next.set i v) cur l := by
  induction h with
  | nil => exact Chain.nil
  | cons a nx l hn _ ih =>
    simp only [List.mem_cons, not_or] at hi
    refine Chain.cons a nx l ?_ (ih hi.2)
    rw [List.getElem?_set_ne (by omega)]
    exact hn

/-- the cell number of one coordinate -/
def coord (g : Grid K) (x : K) : Int := toInt (wrapIn x g.width / g.cw)

theorem cellOf_eq (g : Grid K) (p : Point K) : cellOf g p = coord g p.x + coord g p.y * (g.cells : Int) + coord g p.z * (g.cells : Int) * (g.cells : Int) := rfl

theorem toInt_nonneg (x : K) (h : 0 ≤ x) : toInt x = ⌊x⌋ := by simp [toInt, modf, h]

theorem wrapIn_range (x W : K) (h1 : -W ≤ x) (h2 : x < 2 * W) : 0 ≤ wrapIn x W ∧ wrapIn x W < W ∧ ∃ k : ℤ, wrapIn x W = x + k * W := by
  unfold wrapIn
  split_ifs with ha hb
  · exact ⟨by linarith, by linarith, -1, by push_cast; ring⟩
  · exact ⟨by linarith, by linarith, 1, by push_cast; ring⟩
  · exact ⟨by linarith, by linarith, 0, by push_cast; ring⟩

/-- the cell of a coordinate in the box -/
theorem coord_range (g : Grid K) (hc : 0 < g.cells) (hw : 0 < g.width) (hcw : g.cw = g.width / (g.cells : K)) (x : K) (h1 : -g.width ≤ x) (h2 : x < 2 * g.width) :
    0 ≤ coord g x ∧ coord g x < g.cells ∧ (coord g x : K) * g.cw ≤ wrapIn x g.width ∧ wrapIn x g.width < ((coord g x : K) + 1) * g.cw := by
  have hc' : (0 : K) < g.cells := by exact_mod_cast hc
  have hcwp : 0 < g.cw := by rw [hcw]; positivity
  obtain ⟨a, b, _⟩ := wrapIn_range x g.width h1 h2
  have h0 : 0 ≤ wrapIn x g.width / g.cw := div_nonneg a hcwp.le
  have e : coord g x = ⌊wrapIn x g.width / g.cw⌋ := toInt_nonneg _ h0
  have hlt : wrapIn x g.width / g.cw < g.cells := by
    rw [div_lt_iff₀ hcwp, hcw]
    have : (g.cells : K) * (g.width / g.cells) = g.width := by field_simp
    rw [this]; exact b
  refine ⟨by rw [e]; exact Int.floor_nonneg.mpr h0, ?_, ?_, ?_⟩
  · rw [e, Int.floor_lt]; exact_mod_cast hlt
  · rw [e, ← le_div_iff₀ hcwp]; exact Int.floor_le _
  · rw [e, ← div_lt_iff₀ hcwp]; exact Int.lt_floor_add_one _

/-- a grid with the right sizes -/
structure Grid.OK (g : Grid K) : Prop where
  cells : 0 < g.cells
  width : 0 < g.width
  cw : g.cw = g.width / (g.cells : K)
  heads : g.heads.length = g.cells * g.cells * g.cells

/-- coordinates at most one box away -/
def Placed (W : K) (p : Point K) : Prop := (-W ≤ p.x ∧ p.x < 2 * W) ∧ (-W ≤ p.y ∧ p.y < 2 * W) ∧ (-W ≤ p.z ∧ p.z < 2 * W)

theorem index_lt (c : Nat) (x y z : Int) (hx : 0 ≤ x ∧ x < c) (hy : 0 ≤ y ∧ y < c) (hz : 0 ≤ z ∧ z < c) :
    0 ≤ x + y * (c : Int) + z * (c : Int) * (c : Int) ∧ x + y * (c : Int) + z * (c : Int) * (c : Int) < ((c * c * c : Nat) : Int) := by
  obtain ⟨hx0, hx1⟩ := hx
  obtain ⟨hy0, hy1⟩ := hy
  obtain ⟨hz0, hz1⟩ := hz
  have hc : (0 : Int) ≤ c := by omega
  constructor
  · positivity
  · push_cast
    have h1 : y * (c : Int) ≤ ((c : Int) - 1) * c := mul_le_mul_of_nonneg_right (by omega) hc
    have h2 : z * (c : Int) * c ≤ ((c : Int) - 1) * c * c := mul_le_mul_of_nonneg_right (mul_le_mul_of_nonneg_right (by omega) hc) hc
    nlinarith

theorem index_inj (c : Nat) (x y z x' y' z' : Int) (hx : 0 ≤ x ∧ x < c) (hy : 0 ≤ y ∧ y < c) (hx' : 0 ≤ x' ∧ x' < c) (hy' : 0 ≤ y' ∧ y' < c)
    (h : x + y * (c : Int) + z * (c : Int) * (c : Int) = x' + y' * (c : Int) + z' * (c : Int) * (c : Int)) : x = x' ∧ y = y' ∧ z = z' := by
  have hc : (0 : Int) < c := by omega
  have e1 : x % (c : Int) = x' % (c : Int) := by
    have : (x + y * (c : Int) + z * (c : Int) * (c : Int)) % (c : Int) = (x' + y' * (c : Int) + z' * (c : Int) * (c : Int)) % (c : Int) := by rw [h]
    rw [show x + y * (c : Int) + z * (c : Int) * (c : Int) = x + (y + z * c) * c by ring, show x' + y' * (c : Int) + z' * (c : Int) * (c : Int) = x' + (y' + z' * c) * c by ring,
      Int.add_mul_emod_self_right, Int.add_mul_emod_self_right] at this
    exact this
  rw [Int.emod_eq_of_lt hx.1 hx.2, Int.emod_eq_of_lt hx'.1 hx'.2] at e1
  subst e1
  have h2 : (y + z * c) * (c : Int) = (y' + z' * c) * c := by linarith
  have h3 : y + z * (c : Int) = y' + z' * c := mul_right_cancel₀ (by omega) h2
  have e2 : y % (c : Int) = y' % (c : Int) := by
    have : (y + z * (c : Int)) % (c : Int) = (y' + z' * c) % (c : Int) := by rw [h3]
    rw [Int.add_mul_emod_self_right, Int.add_mul_emod_self_right] at this
    exact this
  rw [Int.emod_eq_of_lt hy.1 hy.2, Int.emod_eq_of_lt hy'.1 hy'.2] at e2
  subst e2
  exact ⟨rfl, rfl, mul_right_cancel₀ (b := (c : Int)) (by omega) (by linarith)⟩

theorem cellOf_range (g : Grid K) (hg : g.OK) (p : Point K) (hp : Placed g.width p) : 0 ≤ cellOf g p ∧ cellOf g p < g.heads.length := by
  rw [cellOf_eq, hg.heads]
  have a := coord_range g hg.cells hg.width hg.cw p.x hp.1.1 hp.1.2
  have b := coord_range g hg.cells hg.width hg.cw p.y hp.2.1.1 hp.2.1.2
  have c := coord_range g hg.cells hg.width hg.cw p.z hp.2.2.1 hp.2.2.2
  exact index_lt g.cells _ _ _ ⟨a.1, a.2.1⟩ ⟨b.1, b.2.1⟩ ⟨c.1, c.2.1⟩

/-- the indices below `m` in cell `idx`, last first -/
def members (g : Grid K) (ps : List (Point K)) (m : Nat) (idx : Int) : List Int :=
  ((List.range m).filter fun i => decide ((ps[i]?).map (cellOf g) = some idx)).reverse.map fun i : Nat => (i : Int)

theorem members_succ (g : Grid K) (ps : List (Point K)) (m : Nat) (p : Point K) (hp : ps[m]? = some p) (idx : Int) :
    members g ps (m + 1) idx = if cellOf g p = idx then (m : Int) :: members g ps m idx else members g ps m idx := by
  unfold members
  rw [List.range_succ, List.filter_append]
  by_cases h : cellOf g p = idx
  · rw [if_pos h, List.filter_cons_of_pos (by simp [hp, h]), List.filter_nil, List.reverse_append]
    simp
  · rw [if_neg h, List.filter_cons_of_neg (by simp [hp, h]), List.filter_nil, List.append_nil]

theorem mem_members (g : Grid K) (ps : List (Point K)) (m : Nat) (idx j : Int) :
    j ∈ members g ps m idx ↔ ∃ (i : Nat) (p : Point K), j = i ∧ i < m ∧ ps[i]? = some p ∧ cellOf g p = idx := by
  unfold members
  simp only [List.mem_map, List.mem_reverse, List.mem_filter, List.mem_range, decide_eq_true_eq, Option.map_eq_some_iff]
  constructor
  · rintro ⟨i, ⟨h1, p, h2, h3⟩, rfl⟩; exact ⟨i, p, rfl, h1, h2, h3⟩
  · rintro ⟨i, p, rfl, h1, h2, h3⟩; exact ⟨i, ⟨h1, p, h2, h3⟩, rfl⟩

theorem members_desc (g : Grid K) (ps : List (Point K)) (m : Nat) (idx : Int) : (members g ps m idx).Pairwise (fun a b => b < a) := by
  unfold members
  rw [List.pairwise_map, List.pairwise_reverse]
  exact (List.Pairwise.filter _ List.pairwise_lt_range).imp (by intro a b h; omega)

theorem members_length (g : Grid K) (ps : List (Point K)) (m : Nat) (idx : Int) : (members g ps m idx).length ≤ m := by
  unfold members
  rw [List.length_map, List.length_reverse]
  exact le_trans (List.length_filter_le _ _) (by simp)

/-- the state after the first `m` points -/
structure Built (g : Grid K) (ps : List (Point K)) (m : Nat) : Prop where
  ok : g.OK
  next : g.next.length = ps.length
  chains : ∀ idx : Nat, idx < g.heads.length → ∃ h, g.heads[idx]? = some h ∧ Chain g.next h (members g ps m idx)

theorem insertOne_built (g : Grid K) (ps : List (Point K)) (m : Nat) (p : Point K) (hp : ps[m]? = some p) (hb : Built g ps m) (hpl : Placed g.width p) :
    ∃ g', insertOne g m p = some g' ∧ Built g' ps (m + 1) ∧ g'.cells = g.cells ∧ g'.width = g.width ∧ g'.cw = g.cw := by
  obtain ⟨r0, r1⟩ := cellOf_range g hb.ok p hpl
  obtain ⟨cidx, hcidx⟩ := Int.eq_ofNat_of_zero_le r0
  have hclt : cidx < g.heads.length := by omega
  have hm : m < ps.length := by
    by_contra hc
    rw [List.getElem?_eq_none (by omega)] at hp; simp at hp
  obtain ⟨h, hh, hchain⟩ := hb.chains cidx hclt
  refine ⟨{ g with heads := g.heads.set cidx (m : Int), next := g.next.set m h }, ?_, ⟨⟨hb.ok.cells, hb.ok.width, hb.ok.cw, ?_⟩, ?_, ?_⟩, rfl, rfl, rfl⟩
  · unfold insertOne
    rw [hcidx]
    rw [get_nat, hh, Option.bind_some, put_nat _ _ _ (by rw [hb.next]; exact hm), Option.bind_some, put_nat _ _ _ hclt]
    rfl
  · show (g.heads.set cidx (m : Int)).length = _
    rw [List.length_set]; exact hb.ok.heads
  · show (g.next.set m h).length = _
    rw [List.length_set]; exact hb.next
  · intro idx hidx
    change idx < (g.heads.set cidx (m : Int)).length at hidx
    rw [List.length_set] at hidx
    have hnot : ∀ idx', (m : Int) ∉ members g ps m idx' := by
      intro idx' hc
      obtain ⟨i, _, h1, h2, _⟩ := (mem_members g ps m idx' m).mp hc
      omega
    have hmem : members { g with heads := g.heads.set cidx (m : Int), next := g.next.set m h } ps (m + 1) idx = members g ps (m + 1) idx := rfl
    rw [hmem, members_succ g ps m p hp]
    change ∃ h', (g.heads.set cidx (m : Int))[idx]? = some h' ∧ Chain (g.next.set m h) h' _
    by_cases hc : cidx = idx
    · subst hc
      rw [if_pos hcidx]
      refine ⟨m, by rw [List.getElem?_set_self hclt], ?_⟩
      refine Chain.cons m h _ ?_ ?_
      · rw [List.getElem?_set_self (by rw [hb.next]; exact hm)]
      · exact chain_set _ _ _ hchain m h (hnot _)
    · rw [if_neg (by rw [hcidx]; intro e; apply hc; exact_mod_cast e)]
      obtain ⟨h', a, b⟩ := hb.chains idx hidx
      exact ⟨h', by rw [List.getElem?_set_ne hc]; exact a, chain_set _ _ _ b m h (hnot _)⟩

theorem insertFrom_built (ps : List (Point K)) : ∀ (rest : List (Point K)) (g : Grid K) (m : Nat), ps.drop m = rest → m + rest.length = ps.length → Built g ps m →
    (∀ p ∈ rest, Placed g.width p) → ∃ g', insertFrom g m rest = some g' ∧ Built g' ps ps.length ∧ g'.cells = g.cells ∧ g'.width = g.width ∧ g'.cw = g.cw := by
  intro rest
  induction rest with
  | nil =>
    intro g m _ hm hb _
    refine ⟨g, rfl, ?_, rfl, rfl, rfl⟩
    rw [← hm]; simpa using hb
  | cons p rest ih =>
    intro g m hd hm hb hpl
    have hp : ps[m]? = some p := by
      have : (ps.drop m)[0]? = some p := by rw [hd]; rfl
      rw [List.getElem?_drop] at this
      simpa using this
    obtain ⟨g1, a1, a2, a3, a4, a5⟩ := insertOne_built g ps m p hp hb (hpl p (by simp))
    obtain ⟨g2, b1, b2, b3, b4, b5⟩ := ih g1 (m + 1) (by rw [← List.drop_drop, hd]; rfl) (by simp at hm; omega) a2 (by
      intro q hq
      rw [a4]; exact hpl q (by simp [hq]))
    refine ⟨g2, ?_, b2, b3.trans a3, b4.trans a4, b5.trans a5⟩
    show (insertOne g m p).bind _ = _
    rw [a1]; exact b1

theorem newGrid_ok (cells : Nat) (W : K) (hc : 0 < cells) (hW : 0 < W) (n : Nat) : (newGrid cells W n).OK := ⟨hc, hW, rfl, by simp [newGrid]⟩

/-- the grid after `Insert` -/
theorem insert_built (cells : Nat) (W : K) (hc : 0 < cells) (hW : 0 < W) (ps : List (Point K)) (hp : ∀ p ∈ ps, Placed W p) :
    ∃ g, insert (newGrid cells W ps.length) ps = some g ∧ Built g ps ps.length ∧ g.cells = cells ∧ g.width = W ∧ g.cw = W / (cells : K) := by
  refine insertFrom_built ps ps (newGrid cells W ps.length) 0 rfl (by simp) ⟨newGrid_ok cells W hc hW _, by simp [newGrid], ?_⟩ hp
  intro idx hidx
  refine ⟨-1, ?_, ?_⟩
  · simp only [newGrid, List.length_replicate] at hidx ⊢
    rw [List.getElem?_replicate, if_pos hidx]
  · have : members (newGrid cells W ps.length) ps 0 idx = [] := rfl
    rw [this]; exact Chain.nil

theorem built_read (g : Grid K) (ps : List (Point K)) (hb : Built g ps ps.length) (idx : Nat) (hi : idx < g.cells * g.cells * g.cells) (cap : Nat)
    (hcap : (members g ps ps.length idx).length ≤ cap) : readIndexes g idx cap = some (members g ps ps.length idx) := by
  obtain ⟨h, h1, h2⟩ := hb.chains idx (by rw [hb.ok.heads]; exact hi)
  unfold readIndexes
  rw [get_nat, h1, Option.bind_some, chain_read _ _ _ h2 cap hcap]

theorem built_length (g : Grid K) (ps : List (Point K)) (hb : Built g ps ps.length) (idx : Nat) (hi : idx < g.cells * g.cells * g.cells) :
    length g idx = some (members g ps ps.length idx).length := by
  have := built_read g ps hb idx hi g.next.length (by rw [hb.next]; exact members_length _ _ _ _)
  unfold readIndexes at this
  unfold length
  rw [this]; rfl

theorem built_maxLength (g : Grid K) (ps : List (Point K)) (hb : Built g ps ps.length) :
    ∃ m, maxLength g = some m ∧ (∀ idx : Nat, idx < g.cells * g.cells * g.cells → (members g ps ps.length idx).length ≤ m) ∧
      (m = 0 ∨ ∃ idx : Nat, idx < g.cells * g.cells * g.cells ∧ (members g ps ps.length idx).length = m) := by
  unfold maxLength
  rw [hb.ok.heads]
  have key : ∀ k, k ≤ g.cells * g.cells * g.cells → ∃ m, (List.range k).foldlM (fun m (i : Nat) => (length g (i : Int)).map fun l => if l > m then l else m) 0 = some m ∧
      (∀ idx : Nat, idx < k → (members g ps ps.length idx).length ≤ m) ∧ (m = 0 ∨ ∃ idx : Nat, idx < k ∧ (members g ps ps.length idx).length = m) := by
    intro k
    induction k with
    | zero => intro _; exact ⟨0, rfl, by simp, Or.inl rfl⟩
    | succ k ih =>
      intro hk
      obtain ⟨m, h1, h2, h3⟩ := ih (by omega)
      rw [List.range_succ, List.foldlM_append, h1]
      simp only [Option.bind_eq_bind, Option.bind_some, List.foldlM_cons, List.foldlM_nil]
      rw [built_length g ps hb k (by omega)]
      simp only [Option.map_some, Option.bind_some, Option.pure_def]
      refine ⟨_, rfl, ?_, ?_⟩
      · intro idx hi
        rcases Nat.lt_succ_iff_lt_or_eq.mp hi with h | rfl
        · have := h2 idx h
          split_ifs <;> omega
        · split_ifs <;> omega
      · split_ifs with hlt
        · exact Or.inr ⟨k, by omega, rfl⟩
        · rcases h3 with h | ⟨idx, a, b⟩
          · exact Or.inl h
          · exact Or.inr ⟨idx, by omega, b⟩
  exact key _ le_rfl

end Shellfish.Finder
