/-
C60, C61: whole reads of Bolshoi and BolshoiP files (io/bolshoi.go, io/bolshoiP.go).
-/
import Verif.Lemmas.BolshoiP
import Verif.Props.Io
import Verif.Props.IoBox
import Verif.Props.Artio
import Mathlib.Data.List.GetD
import Mathlib.Tactic.FieldSimp

namespace Shellfish.Io
open Shellfish.Bytes Shellfish.Gadget

variable {K : Type} [Field K] [LinearOrder K] [IsStrictOrderedRing K]

/-! ## Specification -/

/-- File `h.k` of a snapshot of `nx * ny * nz` files has the cell `c` of the box: files are counted from 1, the first coordinate first. -/
def IsCell (h : BHeader) (c : Int × Int × Int) : Prop :=
  (0 ≤ c.1 ∧ c.1 < h.nx) ∧ (0 ≤ c.2.1 ∧ c.2.1 < h.ny) ∧ 0 ≤ c.2.2 ∧ h.k = 1 + c.1 + h.nx * (c.2.1 + h.ny * c.2.2)

/-- A position of the cell `i` of `n` cells of the width `box / n`; the upper end belongs to the cell. -/
def inCell1 (box : K) (n i : Int) (x : K) : Prop := (i : K) * (box / n) < x ∧ x ≤ ((i : K) + 1) * (box / n)

instance (box : K) (n i : Int) (x : K) : Decidable (inCell1 box n i x) := instDecidableAnd

/-- A position of the cell `c`. -/
def inCell (box : K) (h : BHeader) (c : Int × Int × Int) (x : K × K × K) : Prop := inCell1 box h.nx c.1 x.1 ∧ inCell1 box h.ny c.2.1 x.2.1 ∧ inCell1 box h.nz c.2.2 x.2.2

instance (box : K) (h : BHeader) (c : Int × Int × Int) (x : K × K × K) : Decidable (inCell box h c x) := instDecidableAnd

/-- A vector of a file. -/
def _root_.Shellfish.Gadget.PPart.pos (val : Nat → K) (p : PPart) : K × K × K := (val p.x.1, val p.x.2.1, val p.x.2.2)

/-! ## Front records -/

theorem front_file (o : Order) (s1 s2 : Nat) (b1 : s1 < 2 ^ 31) (b2 : s2 < 2 ^ 31) (comment h1 h2 boundary : List Byte) (l1 : comment.length = 45) (l2 : h1.length = s1) (l3 : h2.length = s2) (l4 : boundary.length = 24)
    (n : Nat) (hn : n < 2 ^ 31) (rest : List Byte) :
    bolshoiFront o s1 s2 (record o comment ++ (record o h1 ++ (record o h2 ++ (record o boundary ++ (record o (putInt o 4 (n : Nat)) ++ rest))))) = some (.parse o h1 h2, (n : Int), rest) := by
  have hir : InRange 4 ((n : Nat) : Int) := by
    unfold InRange; norm_num at hn ⊢; omega
  unfold bolshoiFront
  rw [fortranRead_record o _ _ (by omega) 45 l1, Option.bind_some]
  simp only
  rw [fortranRead_record o _ _ (by omega) s1 l2, Option.bind_some]
  simp only
  rw [fortranRead_record o _ _ (by omega) s2 l3, Option.bind_some]
  simp only
  rw [fortranRead_record o _ _ (by omega) 24 l4, Option.bind_some]
  simp only
  rw [fortranRead_record o _ _ (by rw [putInt_length]; norm_num) 4 (putInt_length o 4 _), Option.bind_some]
  simp only
  rw [getInt_putInt o 4 _ hir]

/-! ## The box of a file -/

theorem cell_eq (h : BHeader) (c : Int × Int × Int) (hc : IsCell h c) : bolshoiCell h.k h.nx h.ny = c := by
  obtain ⟨⟨a1, a2⟩, ⟨b1, b2⟩, c1, hk⟩ := hc
  have hx : 0 < h.nx := by omega
  have hy : 0 < h.ny := by omega
  unfold bolshoiCell
  have e : h.k - 1 = c.1 + h.nx * (c.2.1 + h.ny * c.2.2) := by rw [hk]; ring
  have n0 : 0 ≤ c.2.1 + h.ny * c.2.2 := by positivity
  have n1 : 0 ≤ h.k - 1 := by rw [e]; positivity
  have d1 : (h.k - 1) / h.nx = c.2.1 + h.ny * c.2.2 := by
    rw [e, Int.add_mul_ediv_left _ _ (ne_of_gt hx), Int.ediv_eq_zero_of_lt a1 a2, zero_add]
  have m1 : (h.k - 1) % h.nx = c.1 := by
    rw [e, Int.add_mul_emod_self_left, Int.emod_eq_of_lt a1 a2]
  have d2 : (c.2.1 + h.ny * c.2.2) / h.ny = c.2.2 := by
    rw [Int.add_mul_ediv_left _ _ (ne_of_gt hy), Int.ediv_eq_zero_of_lt b1 b2, zero_add]
  have m2 : (c.2.1 + h.ny * c.2.2) % h.ny = c.2.1 := by
    rw [Int.add_mul_emod_self_left, Int.emod_eq_of_lt b1 b2]
  rw [Int.tmod_eq_emod_of_nonneg n1, m1, Int.tdiv_eq_ediv_of_nonneg n1, d1, Int.tmod_eq_emod_of_nonneg n0, m2, Int.tdiv_eq_ediv_of_nonneg n1, ← Int.ediv_ediv_of_nonneg hx.le, d1, d2]

theorem out_eq (val : Nat → K) (h : BHeader) (c : Int × Int × Int) (hc : IsCell h c) (n : Int) :
    bolshoiOut val h n = some ⟨1 / val h.aExpn - 1, val h.omegaM, val h.omegaL, val h.h100, n, val h.boxWidth,
      ((c.1 : K) * (val h.boxWidth / h.nx), (c.2.1 : K) * (val h.boxWidth / h.ny), (c.2.2 : K) * (val h.boxWidth / h.nz)), (val h.boxWidth / h.nx, val h.boxWidth / h.ny, val h.boxWidth / h.nz)⟩ := by
  unfold bolshoiOut
  have hx : 0 < h.nx := by have := hc.1; omega
  have hy : 0 < h.ny := by have := hc.2.1; omega
  rw [if_neg (by omega), cell_eq h c hc]
  rfl

theorem inBox_iff (val : Nat → K) (h : BHeader) (c : Int × Int × Int) (hc : IsCell h c) (n : Int) (hd : BOut K) (ho : bolshoiOut val h n = some hd) (x : K × K × K) :
    inBox hd x = decide (inCell (val h.boxWidth) h c x) := by
  rw [out_eq val h c hc n, Option.some.injEq] at ho
  subst ho
  unfold inBox inCell inCell1 bolshoiIn1
  have e : ∀ (i : Int) (w : K), (i : K) * w + w = ((i : K) + 1) * w := fun i w => by ring
  simp only [e, gt_iff_lt]
  exact decide_eq_decide.2 Iff.rfl

/-! ## Filters in place -/

theorem take_set_ge {α : Type} (l : List α) (j m : Nat) (x : α) (h : j ≤ m) : (l.set m x).take j = l.take j := by
  rw [List.take_set]
  rw [List.set_eq_of_length_le]
  rw [List.length_take]; omega

theorem take_succ_set {α : Type} (l : List α) (j : Nat) (x : α) (h : j < l.length) : (l.set j x).take (j + 1) = l.take j ++ [x] := by
  rw [List.take_add_one, take_set_ge _ _ _ _ (le_refl _), List.getElem?_set_self h]
  rfl

theorem drop_set_le {α : Type} (l : List α) (j m : Nat) (x : α) (h : j < m) : (l.set j x).drop m = l.drop m := by
  rw [List.drop_set, if_pos h]

theorem bolshoiKeep_spec (hd : BOut K) (conv : K → K) (ps : List (BP K)) (m : Nat) (hm : m ≤ ps.length) :
    let s := (List.range m).foldl (bolshoiKeep hd conv) (ps, 0)
    s.1.length = ps.length ∧ s.2 ≤ m ∧ s.1.drop m = ps.drop m ∧
      s.1.take s.2 = (((ps.take m).map fun p => ((conv p.1.1, conv p.1.2.1, conv p.1.2.2), p.2)).filter fun p => inBox hd p.1) := by
  induction m with
  | zero => simp
  | succ m ih =>
    obtain ⟨i1, i2, i3, i4⟩ := ih (by omega)
    rw [List.range_succ, List.foldl_append]
    simp only [List.foldl_cons, List.foldl_nil]
    set s := (List.range m).foldl (bolshoiKeep hd conv) (ps, 0) with hs
    have hget : s.1[m]? = some ps[m] := by
      have := congrArg (fun l => l[0]?) i3
      simp only [List.getElem?_drop, Nat.add_zero] at this
      rw [this, List.getElem?_eq_getElem (by omega)]
    have htake : ps.take (m + 1) = ps.take m ++ [ps[m]] := by rw [List.take_add_one, List.getElem?_eq_getElem (by omega)]; rfl
    have hdrop : s.1.drop (m + 1) = ps.drop (m + 1) := by
      rw [← List.drop_drop (l := s.1) (i := 1) (j := m), i3, List.drop_drop]
    unfold bolshoiKeep
    simp only [hget]
    rw [htake, List.map_append, List.filter_append, ← i4]
    by_cases hk : inBox hd (conv ps[m].1.1, conv ps[m].1.2.1, conv ps[m].1.2.2) = true
    · simp only [hk, if_true]
      refine ⟨by rw [List.length_set]; exact i1, by omega, by rw [drop_set_le _ _ _ _ (by omega)]; exact hdrop, ?_⟩
      rw [take_succ_set _ _ _ (by omega)]
      simp [hk]
    · simp only [hk, Bool.false_eq_true, if_false]
      refine ⟨i1, by omega, hdrop, ?_⟩
      simp [hk]

theorem pKeep_spec (hd : BOut K) (scale mp : K) (x v : Nat → K × K × K) (n : Nat) (s0 : PBufs K) (lx : s0.xs.length = n) (lv : s0.vs.length = n) (lm : s0.ms.length = n) (li : s0.ids.length = n) (hj : s0.j = 0)
    (m : Nat) (hm : m ≤ n) :
    let s := (List.range m).foldl (pKeep hd scale mp x v) s0
    let q := (List.range m).filter fun i => inBox hd (x i)
    s.xs.length = n ∧ s.vs.length = n ∧ s.ms.length = n ∧ s.ids.length = n ∧ s.j ≤ m ∧ s.j = q.length ∧ s.ids.drop m = s0.ids.drop m ∧ s.xs.take s.j = q.map x ∧
      s.vs.take s.j = q.map (fun i => (scale * (v i).1, scale * (v i).2.1, scale * (v i).2.2)) ∧ s.ms.take s.j = q.map (fun _ => mp) ∧ s.ids.take s.j = q.map fun i => s0.ids.getD i 0 := by
  induction m with
  | zero => simp [lx, lv, lm, li, hj]
  | succ m ih =>
    obtain ⟨i1, i2, i3, i4, i5, i5', i6, i7, i8, i9, i10⟩ := ih (by omega)
    rw [List.range_succ, List.foldl_append, List.filter_append]
    simp only [List.foldl_cons, List.foldl_nil]
    set s := (List.range m).foldl (pKeep hd scale mp x v) s0 with hs
    have gx : (s.xs.set m (x m)).getD m (0, 0, 0) = x m := by
      rw [List.getD_eq_getElem _ _ (by rw [List.length_set]; omega), List.getElem_set_self]
    have gv : (s.vs.set m (v m)).getD m (0, 0, 0) = v m := by
      rw [List.getD_eq_getElem _ _ (by rw [List.length_set]; omega), List.getElem_set_self]
    have gi : s.ids.getD m 0 = s0.ids.getD m 0 := by
      have := congrArg (fun l => l.getD 0 0) i6
      simpa [List.getD_eq_getElem?_getD, List.getElem?_drop] using this
    have hdrop : s.ids.drop (m + 1) = s0.ids.drop (m + 1) := by
      rw [← List.drop_drop (l := s.ids) (i := 1) (j := m), i6, List.drop_drop]
    unfold pKeep
    simp only [gx, gv, gi]
    by_cases hk : inBox hd (x m) = true
    · simp only [hk, if_true, List.filter_cons, List.filter_nil, List.map_append, List.map_cons, List.map_nil, List.length_append, List.length_cons, List.length_nil, List.length_set]
      refine ⟨i1, i2, i3, i4, by omega, by omega, ?_, ?_, ?_, ?_, ?_⟩
      · rw [drop_set_le _ _ _ _ (by omega)]; exact hdrop
      · rw [take_succ_set _ _ _ (by rw [List.length_set]; omega), take_set_ge _ _ _ _ i5, i7]
      · rw [take_succ_set _ _ _ (by rw [List.length_set]; omega), take_set_ge _ _ _ _ i5, i8]
      · rw [take_succ_set _ _ _ (by omega), i9]
      · rw [take_succ_set _ _ _ (by omega), i10]
    · simp only [hk, Bool.false_eq_true, if_false, List.filter_cons, List.filter_nil, List.append_nil, List.length_set]
      exact ⟨i1, i2, i3, i4, by omega, i5', hdrop, by rw [take_set_ge _ _ _ _ i5, i7], by rw [take_set_ge _ _ _ _ i5, i8], i9, i10⟩

theorem getD_of_take {α β : Type} (l : List α) (q : List β) (f : β → α) (d : α) (j i : Nat) (h : l.take j = q.map f) (hi : i < q.length) (hj : j = q.length) : l.getD i d = f q[i] := by
  have : (l.take j)[i]? = some (f q[i]) := by rw [h, List.getElem?_map, List.getElem?_eq_getElem hi]; rfl
  rw [List.getElem?_take_of_lt (by omega)] at this
  rw [List.getD_eq_getElem?_getD, this]
  rfl

theorem range_filter {α β : Type} (ps : List α) (P : α → Bool) (f : α → β) (d : α) :
    ((List.range ps.length).filter fun i => P (ps.getD i d)).map (fun i => f (ps.getD i d)) = (ps.filter P).map f := by
  have e : ps = (List.range ps.length).map fun i => ps.getD i d := by
    apply List.ext_getElem
    · simp
    · intro i h1 h2
      rw [List.getElem_map, List.getElem_range, List.getD_eq_getElem _ _ h1]
  conv_rhs => rw [e]
  rw [List.filter_map, List.map_map]
  rfl

/-! ## C60 -/

/-- C60, Bolshoi: the whole of `Read`: for every file of the format, in both byte orders and whatever was in the buffer, the particles of the cell of the file and no others, in file order, each with its own
velocity and id: positions in Mpc/h, velocities times the scale factor, all masses the one of the buffer. -/
theorem C60_bolshoi_read (val : Nat → K) (sys o : Order) (rw : Nat) (hrw : rw < 2 ^ 31) (comment h1 h2 boundary : List Byte) (l1 : comment.length = 45) (l2 : h1.length = 44) (l3 : h2.length = 20)
    (l4 : boundary.length = 24) (blocks : List (List BParticle)) (hfit : ∀ b ∈ blocks, ∀ p ∈ b, p.Fits) (hsize : ∀ b ∈ blocks, 32 * b.length ≤ rw) (hn : blocks.flatten.length < 2 ^ 31)
    (mem : List Byte) (hmem : 32 ∣ mem.length) (box0 : K) (h : BHeader) (hh : h = .parse o h1 h2) (c : Int × Int × Int) (hc : IsCell h c) (ha : val h.aExpn ≠ 0) :
    let unit := fun g : K => (g - 1) * (val h.boxWidth / (h.nGridCells : K))
    let pos := fun p : BParticle => (unit (val (p.x.getD 0 0)), unit (val (p.x.getD 1 0)), unit (val (p.x.getD 2 0)))
    let a := val h.aExpn
    bolshoiRead val sys o rw box0 mem (bolshoiFile o comment h1 h2 boundary blocks) =
      some ((blocks.flatten.filter fun p => inCell (val h.boxWidth) h c (pos p)).map fun p =>
        ⟨pos p, (val (p.v.getD 0 0) * a, val (p.v.getD 1 0) * a, val (p.v.getD 2 0) * a), bolshoiMinMass box0, p.id⟩) := by
  intro unit pos a
  have hraw := C60_bolshoi_in_order sys o rw hrw comment h1 h2 boundary l1 l2 l3 l4 blocks hfit hsize hn mem hmem
  have hfile : bolshoiFile o comment h1 h2 boundary blocks = record o comment ++ (record o h1 ++ (record o h2 ++ (record o boundary ++ (record o (putInt o 4 (blocks.flatten.length : Nat)) ++
      blocks.flatMap fun b => record o (putInt o 4 (b.length : Nat)) ++ record o (b.flatMap (bparticle o)))))) := by
    unfold bolshoiFile; simp only [List.append_assoc]
  have hfront := front_file o 44 20 (by norm_num) (by norm_num) comment h1 h2 boundary l1 l2 l3 l4 _ hn (blocks.flatMap fun b => record o (putInt o 4 (b.length : Nat)) ++ record o (b.flatMap (bparticle o)))
  rw [← hfile, ← hh] at hfront
  unfold bolshoiRead
  rw [hraw, Option.bind_some, hfront, Option.bind_some]
  unfold bolshoiHeader
  rw [hfront, Option.bind_some]
  obtain ⟨hd, hhd⟩ : ∃ hd, bolshoiOut val h (blocks.flatten.length : Nat) = some hd := ⟨_, out_eq val h c hc _⟩
  have hz : 1 / (1 + hd.z) = a := by
    have := out_eq val h c hc (blocks.flatten.length : Nat)
    rw [hhd, Option.some.injEq] at this
    rw [this]
    simp only
    field_simp
    ring
  simp only [hhd, Option.map_some, Option.some.injEq]
  rw [hz]
  have key := bolshoiKeep_spec hd unit (blocks.flatten.map fun p => (vec3 val p.x, vec3 val p.v, p.id)) blocks.flatten.length (by rw [List.length_map])
  obtain ⟨_, _, _, k4⟩ := key
  rw [k4, List.take_of_length_le (by rw [List.length_map]), List.map_map, List.filter_map, List.map_map]
  congr 1
  apply List.filter_congr
  intro p _
  exact inBox_iff val h c hc _ hd hhd _

/-- C60, BolshoiP: likewise; the positions are in Mpc/h already, the mass is that of the header. -/
theorem C60_bolshoiP_read (val : Nat → K) (sys o : Order) (rw : Nat) (hrw : rw < 2 ^ 31) (comment h1 h2 boundary : List Byte) (l1 : comment.length = 45) (l2 : h1.length = 48) (l3 : h2.length = 24)
    (l4 : boundary.length = 24) (blocks : List (List PPart)) (hfit : ∀ b ∈ blocks, ∀ p ∈ b, p.Fits) (hsize : ∀ b ∈ blocks, 12 * b.length ≤ rw) (hn : blocks.flatten.length < 2 ^ 31)
    (old : PMem) (m0 : 4 ∣ old.x0.length) (m1 : 4 ∣ old.x1.length) (m2 : 4 ∣ old.x2.length) (m3 : 4 ∣ old.v0.length) (m4 : 4 ∣ old.v1.length) (m5 : 4 ∣ old.v2.length) (m6 : 4 ∣ old.wp.length) (m7 : 8 ∣ old.ids.length)
    (oldX oldV : List (K × K × K)) (oldM : List K) (h : BHeader) (hh : h = .parse o h1 h2) (c : Int × Int × Int) (hc : IsCell h c) (ha : val h.aExpn ≠ 0) :
    let a := val h.aExpn
    bolshoiPRead val sys o rw old oldX oldV oldM (bolshoiPFile o comment h1 h2 boundary blocks) =
      some ((blocks.flatten.filter fun p => inCell (val h.boxWidth) h c (p.pos val)).map fun p => ⟨p.pos val, (a * val p.v.1, a * val p.v.2.1, a * val p.v.2.2), val h.mass, p.id⟩) := by
  intro a
  have hfront := front_file o 48 24 (by norm_num) (by norm_num) comment h1 h2 boundary l1 l2 l3 l4 _ hn (blocks.flatMap (pBlock o))
  generalize hfl : bolshoiPFile o comment h1 h2 boundary blocks = fl
  have hfl2 : fl.length ≥ blocks.length := by
    rw [← hfl]
    unfold bolshoiPFile
    simp only [List.length_append]
    have : blocks.length ≤ (blocks.flatMap (pBlock o)).length := by
      clear hfit hsize hn hfront hfl
      induction blocks with
      | nil => simp
      | cons b bs ih =>
        rw [List.flatMap_cons, List.length_append, List.length_cons]
        have : 1 ≤ (pBlock o b).length := by
          unfold pBlock
          rw [List.length_append, record_length]
          omega
        omega
    omega
  have hfe : record o comment ++ (record o h1 ++ (record o h2 ++ (record o boundary ++ (record o (putInt o 4 (blocks.flatten.length : Nat)) ++ blocks.flatMap (pBlock o))))) = fl := hfl
  rw [hfe, ← hh] at hfront
  generalize hps : blocks.flatten = ps at *
  obtain ⟨s', hloop, f0, f1, f2, f3, f4, f5, f6, f7⟩ := pLoop_blocks sys o rw hrw ps.length blocks hfit hsize (fl.length + 1) 0
    ⟨expand 4 ps.length old.x0, expand 4 ps.length old.x1, expand 4 ps.length old.x2, expand 4 ps.length old.v0, expand 4 ps.length old.v1, expand 4 ps.length old.v2, expand 4 ps.length old.wp, expand 8 ps.length old.ids⟩ []
    (by omega) (by rw [hps]; omega) (expand_length 4 _ (by norm_num) _ m0) (expand_length 4 _ (by norm_num) _ m1) (expand_length 4 _ (by norm_num) _ m2) (expand_length 4 _ (by norm_num) _ m3)
    (expand_length 4 _ (by norm_num) _ m4) (expand_length 4 _ (by norm_num) _ m5) (expand_length 4 _ (by norm_num) _ m6) (expand_length 8 _ (by norm_num) _ m7)
  rw [List.append_nil] at hloop
  unfold bolshoiPRead bolshoiHeader
  rw [hfront, Option.bind_some, Option.bind_some]
  have hneg : ¬ ((ps.length : Int) < 0) := by omega
  obtain ⟨hd, hhd⟩ : ∃ hd, bolshoiOut val h (ps.length : Nat) = some hd := ⟨_, out_eq val h c hc _⟩
  have hz : 1 / (1 + hd.z) = a := by
    have := out_eq val h c hc (ps.length : Nat)
    rw [hhd, Option.some.injEq] at this
    rw [this]
    simp only
    field_simp
    ring
  simp only [hneg, if_false, Int.toNat_natCast, hloop, Option.bind_some, hhd, Option.map_some, Option.some.injEq]
  rw [hz]
  -- the words that were read
  have wd : ∀ (f : PPart → Nat) (m m' : List Byte), Filled sys 4 ps.length 0 f blocks.flatten m m' → words sys 4 ps.length m' = ps.map f := by
    intro f m m' hf
    rw [hf.2, hps]
    rfl
  rw [wd _ _ _ f0, wd _ _ _ f1, wd _ _ _ f2, wd _ _ _ f3, wd _ _ _ f4, wd _ _ _ f5]
  have wid : (words sys 8 ps.length s'.ids).map (signed 8) = ps.map PPart.id := by
    rw [f7.2, hps, List.take_zero, List.nil_append, List.map_map]
    apply List.map_congr_left
    intro p hp
    rw [← hps] at hp
    obtain ⟨b, hb, hpb⟩ := List.mem_flatten.1 hp
    exact signed_idWord _ (hfit b hb p hpb).2.2.2
  rw [wid]
  let d : PPart := ⟨(0, 0, 0), (0, 0, 0), 0, 0⟩
  have gd : ∀ (f : PPart → Nat), f d = 0 → ∀ i, (ps.map f).getD i 0 = f (ps.getD i d) := by
    intro f hf i
    rw [List.getD_eq_getElem?_getD, List.getD_eq_getElem?_getD, List.getElem?_map]
    cases ps[i]? with
    | none => exact hf.symm
    | some p => rfl
  have gid : ∀ i, (ps.map PPart.id).getD i 0 = (ps.getD i d).id := by
    intro i
    rw [List.getD_eq_getElem?_getD, List.getD_eq_getElem?_getD, List.getElem?_map]
    cases ps[i]? with
    | none => rfl
    | some p => rfl
  simp only [gd (fun p => p.x.1) rfl, gd (fun p => p.x.2.1) rfl, gd (fun p => p.x.2.2) rfl, gd (fun p => p.v.1) rfl, gd (fun p => p.v.2.1) rfl, gd (fun p => p.v.2.2) rfl]
  have key := pKeep_spec hd a (val h.mass) (fun i => (val (ps.getD i d).x.1, val (ps.getD i d).x.2.1, val (ps.getD i d).x.2.2)) (fun i => (val (ps.getD i d).v.1, val (ps.getD i d).v.2.1, val (ps.getD i d).v.2.2))
    ps.length ⟨Artio.expand (0, 0, 0) ps.length oldX, Artio.expand (0, 0, 0) ps.length oldV, Artio.expand 0 ps.length oldM, ps.map PPart.id, 0⟩
    (Artio.expand_length _ _ _) (Artio.expand_length _ _ _) (Artio.expand_length _ _ _) (by simp) rfl ps.length (le_refl _)
  generalize (List.range ps.length).foldl _ _ = s at key ⊢
  obtain ⟨_, _, _, _, _, k5, _, k7, k8, k9, k10⟩ := key
  have hq : ((List.range ps.length).filter fun i => inBox hd (val (ps.getD i d).x.1, val (ps.getD i d).x.2.1, val (ps.getD i d).x.2.2)) =
      (List.range ps.length).filter fun i => decide (inCell (val h.boxWidth) h c ((ps.getD i d).pos val)) := by
    apply List.filter_congr
    intro i _
    exact inBox_iff val h c hc _ hd hhd _
  rw [hq] at k5 k7 k8 k9 k10
  rw [← range_filter ps (fun p => decide (inCell (val h.boxWidth) h c (p.pos val))) _ d]
  generalize ((List.range ps.length).filter fun i => decide (inCell (val h.boxWidth) h c ((ps.getD i d).pos val))) = q at *
  apply List.ext_getElem
  · simp [k5]
  · intro i h1 h2
    have hi : i < q.length := by simpa using h2
    rw [List.getElem_map, List.getElem_map, List.getElem_range, getD_of_take _ q _ _ _ i k7 hi k5, getD_of_take _ q _ _ _ i k8 hi k5, getD_of_take _ q _ _ _ i k9 hi k5, getD_of_take _ q _ _ _ i k10 hi k5, gid]
    rfl
/-- The number of the file of a cell (from 0). -/
def cellOf (nx ny k : Nat) : Int × Int × Int := (((k % nx : Nat) : Int), ((k / nx % ny : Nat) : Int), ((k / (nx * ny) : Nat) : Int))

theorem cellOf_isCell (nx ny k : Nat) (hx : 0 < nx) (hy : 0 < ny) (h : BHeader) (h1 : h.nx = nx) (h2 : h.ny = ny) (hk : h.k = k + 1) : IsCell h (cellOf nx ny k) := by
  unfold IsCell cellOf
  rw [h1, h2, hk]
  have m1 := Nat.mod_lt k hx
  have m2 := Nat.mod_lt (k / nx) hy
  have e1 := Nat.mod_add_div k nx
  have e2 := Nat.mod_add_div (k / nx) ny
  rw [Nat.div_div_eq_div_mul] at e2
  dsimp only
  refine ⟨⟨Int.natCast_nonneg _, by exact_mod_cast m1⟩, ⟨Int.natCast_nonneg _, by exact_mod_cast m2⟩, Int.natCast_nonneg _, ?_⟩
  have : k = k % nx + nx * (k / nx % ny + ny * (k / (nx * ny))) := by rw [e2, e1]
  have : (k : Int) = ((k % nx + nx * (k / nx % ny + ny * (k / (nx * ny))) : Nat) : Int) := by exact_mod_cast this
  push_cast at this ⊢
  omega

/-- Every position of the box (0, L]^3 is in the cell of exactly one file. -/
theorem cell_unique [FloorRing K] (box : K) (hb : 0 < box) (nx ny nz : Nat) (hx : 0 < nx) (hy : 0 < ny) (hz : 0 < nz) (h : BHeader) (h1 : h.nx = nx) (h2 : h.ny = ny) (h3 : h.nz = nz)
    (x : K × K × K) (b1 : 0 < x.1 ∧ x.1 ≤ box) (b2 : 0 < x.2.1 ∧ x.2.1 ≤ box) (b3 : 0 < x.2.2 ∧ x.2.2 ≤ box) :
    ∃ k, k < nx * ny * nz ∧ ∀ j, j < nx * ny * nz → (inCell box h (cellOf nx ny j) x ↔ j = k) := by
  have hu : ∀ t : K, bolshoiUnits box 1 (t / box + 1) = t := by
    intro t; unfold bolshoiUnits; push_cast; field_simp; ring
  have hp : ∀ t : K, 0 < t ∧ t ≤ box → 1 < t / box + 1 ∧ t / box + 1 ≤ ((1 : Int) : K) + 1 := by
    intro t ht
    refine ⟨by have := div_pos ht.1 hb; linarith, ?_⟩
    have : t / box ≤ 1 := by rw [div_le_one hb]; exact ht.2
    push_cast; linarith
  obtain ⟨k, ⟨k1, k2⟩, hin, hout⟩ := C61_exactly_once_partial box hb 1 nx ny nz (by norm_num) (by exact_mod_cast hx) (by exact_mod_cast hy) (by exact_mod_cast hz) (x.1 / box + 1, x.2.1 / box + 1, x.2.2 / box + 1)
    (hp _ b1) (hp _ b2) (hp _ b3)
  have iff : ∀ j : Nat, bolshoiFilter box 1 nx ny nz ((j : Int) + 1) [(x.1 / box + 1, x.2.1 / box + 1, x.2.2 / box + 1)] = [(bolshoiUnits box 1 (x.1 / box + 1), bolshoiUnits box 1 (x.2.1 / box + 1), bolshoiUnits box 1 (x.2.2 / box + 1))] ↔
      inCell box h (cellOf nx ny j) x := by
    intro j
    have hc := cell_eq ⟨0, 0, 0, 0, 0, 0, 0, j + 1, nx, ny, nz⟩ (cellOf nx ny j) (cellOf_isCell nx ny j hx hy _ rfl rfl rfl)
    simp only at hc
    unfold bolshoiFilter inCell inCell1
    rw [hc, h1, h2, h3]
    unfold bolshoiRange bolshoiIn1
    simp only [List.map_cons, List.map_nil, hu, List.filter_cons, List.filter_nil]
    have e : ∀ (i : Int) (w : K), (i : K) * w + w = ((i : K) + 1) * w := fun i w => by ring
    simp only [e, gt_iff_lt]
    constructor
    · intro hh
      by_contra hne
      simp only [hne, decide_false, Bool.false_eq_true, if_false] at hh
      exact nomatch hh
    · intro hh
      simp only [hh, and_self, decide_true, if_true]
  obtain ⟨m, rfl⟩ : ∃ m : Nat, k = (m : Int) + 1 := ⟨(k - 1).toNat, by omega⟩
  refine ⟨m, by zify; omega, ?_⟩
  intro j hj
  constructor
  · intro hh
    by_contra hne
    have := hout (j + 1) (by omega) (by zify at hj; omega) (by omega)
    rw [(iff j).2 hh] at this
    exact nomatch this
  · rintro rfl
    exact (iff j).1 hin

theorem flatMap_filter_perm {α : Type} (N : Nat) (P : Nat → α → Bool) (l : List α) (h : ∀ x ∈ l, ∃ k, k < N ∧ ∀ j, j < N → (P j x = true ↔ j = k)) :
    ((List.range N).flatMap fun k => l.filter (P k)).Perm l := by
  induction l with
  | nil => simp
  | cons x l ih =>
    obtain ⟨k, hk, hu⟩ := h x (by simp)
    have ih := ih fun y hy => h y (by simp [hy])
    have split : List.range N = List.range k ++ k :: (List.range N).drop (k + 1) := by
      conv_lhs => rw [← List.take_append_drop k (List.range N)]
      rw [List.take_range, Nat.min_eq_left hk.le, List.drop_eq_getElem_cons (by simpa using hk), List.getElem_range]
    have hd : ∀ j ∈ (List.range N).drop (k + 1), j < N ∧ j ≠ k := by
      intro j hj
      obtain ⟨i, hi, rfl⟩ := List.mem_iff_getElem.1 hj
      rw [List.getElem_drop, List.getElem_range]
      rw [List.length_drop, List.length_range] at hi
      omega
    have other : ∀ j, j < N → j ≠ k → (x :: l).filter (P j) = l.filter (P j) := by
      intro j hj hne
      rw [List.filter_cons_of_neg]
      intro hp
      exact hne ((hu j hj).1 hp)
    rw [split] at ih ⊢
    rw [List.flatMap_append, List.flatMap_cons] at ih ⊢
    have a1 : ((List.range k).flatMap fun k => (x :: l).filter (P k)) = (List.range k).flatMap fun k => l.filter (P k) := by
      apply List.flatMap_congr
      intro j hj
      have := List.mem_range.1 hj
      exact other j (by omega) (by omega)
    have a2 : (((List.range N).drop (k + 1)).flatMap fun k => (x :: l).filter (P k)) = ((List.range N).drop (k + 1)).flatMap fun k => l.filter (P k) := by
      apply List.flatMap_congr
      intro j hj
      exact other j (hd j hj).1 (hd j hj).2
    rw [a1, a2, List.filter_cons_of_pos ((hu k hk).2 rfl), List.cons_append]
    exact List.perm_middle.trans (List.Perm.cons x ih)

/-- A set of BolshoiP files. -/
structure PFile where
  comment : List Byte
  h1 : List Byte
  h2 : List Byte
  boundary : List Byte
  blocks : List (List PPart)

/-- The file has the format, `rw` the size of the buffer of the reader. -/
def PFile.Ok (f : PFile) (rw : Nat) : Prop :=
  f.comment.length = 45 ∧ f.h1.length = 48 ∧ f.h2.length = 24 ∧ f.boundary.length = 24 ∧ (∀ b ∈ f.blocks, (∀ p ∈ b, p.Fits) ∧ 12 * b.length ≤ rw) ∧ f.blocks.flatten.length < 2 ^ 31

/-- C61, BolshoiP: a snapshot in `nx * ny * nz` files, each with all particles of its cell and with any copies of particles of other cells; all particles in (0, L]^3.  The reads of all files give
every particle of the snapshot exactly once (whatever order the particles are in). -/
theorem C61_bolshoiP [FloorRing K] (val : Nat → K) (sys o : Order) (rw : Nat) (hrw : rw < 2 ^ 31) (nx ny nz : Nat) (hx : 0 < nx) (hy : 0 < ny) (hz : 0 < nz) (box a mass : K) (hb : 0 < box) (ha : a ≠ 0)
    (snap : List PPart) (hs : ∀ p ∈ snap, (0 < (p.pos val).1 ∧ (p.pos val).1 ≤ box) ∧ (0 < (p.pos val).2.1 ∧ (p.pos val).2.1 ≤ box) ∧ 0 < (p.pos val).2.2 ∧ (p.pos val).2.2 ≤ box)
    (files : Nat → PFile) (hf : ∀ k, k < nx * ny * nz → (files k).Ok rw)
    (hd : ∀ k, k < nx * ny * nz → let h := BHeader.parse o (files k).h1 (files k).h2
      h.k = k + 1 ∧ h.nx = nx ∧ h.ny = ny ∧ h.nz = nz ∧ val h.boxWidth = box ∧ val h.aExpn = a ∧ val h.mass = mass)
    (hc : ∀ k, k < nx * ny * nz → let inside := fun p : PPart => decide (inCell box (BHeader.parse o (files k).h1 (files k).h2) (cellOf nx ny k) (p.pos val))
      ((files k).blocks.flatten.filter inside).Perm (snap.filter inside)) :
    ∃ reads : Nat → List (Star K), (∀ k, k < nx * ny * nz → bolshoiPRead val sys o rw ⟨[], [], [], [], [], [], [], []⟩ [] [] []
        (bolshoiPFile o (files k).comment (files k).h1 (files k).h2 (files k).boundary (files k).blocks) = some (reads k)) ∧
      ((List.range (nx * ny * nz)).flatMap reads).Perm (snap.map fun p => ⟨p.pos val, (a * val p.v.1, a * val p.v.2.1, a * val p.v.2.2), mass, p.id⟩) := by
  let hdr := fun k => BHeader.parse o (files k).h1 (files k).h2
  let inside := fun k => fun p : PPart => decide (inCell box (hdr k) (cellOf nx ny k) (p.pos val))
  let out := fun p : PPart => (⟨p.pos val, (a * val p.v.1, a * val p.v.2.1, a * val p.v.2.2), mass, p.id⟩ : Star K)
  refine ⟨fun k => ((files k).blocks.flatten.filter (inside k)).map out, ?_, ?_⟩
  · intro k hk
    obtain ⟨l1, l2, l3, l4, hbl, hn⟩ := hf k hk
    obtain ⟨e1, e2, e3, e4, e5, e6, e7⟩ := hd k hk
    have key := C60_bolshoiP_read val sys o rw hrw _ _ _ _ l1 l2 l3 l4 (files k).blocks (fun b hb => (hbl b hb).1) (fun b hb => (hbl b hb).2) hn ⟨[], [], [], [], [], [], [], []⟩ (by simp) (by simp) (by simp) (by simp) (by simp) (by simp)
      (by simp) (by simp) [] [] [] (hdr k) rfl (cellOf nx ny k) (cellOf_isCell nx ny k hx hy _ e2 e3 e1) (by rw [show val (hdr k).aExpn = a from e6]; exact ha)
    simp only [show val (hdr k).aExpn = a from e6, show val (hdr k).boxWidth = box from e5, show val (hdr k).mass = mass from e7] at key
    exact key
  · have p1 : ((List.range (nx * ny * nz)).flatMap fun k => ((files k).blocks.flatten.filter (inside k)).map out).Perm ((List.range (nx * ny * nz)).flatMap fun k => (snap.filter (inside k)).map out) := by
      apply List.Perm.flatMap_left
      intro k hk
      exact (hc k (List.mem_range.1 hk)).map out
    refine p1.trans ?_
    rw [← List.map_flatMap]
    apply List.Perm.map
    apply flatMap_filter_perm
    intro p hp
    obtain ⟨b1, b2, b3⟩ := hs p hp
    obtain ⟨k, hk, hu⟩ := cell_unique box hb nx ny nz hx hy hz ⟨0, 0, 0, 0, 0, 0, 0, 0, nx, ny, nz⟩ rfl rfl rfl (p.pos val) b1 b2 b3
    refine ⟨k, hk, fun j hj => ?_⟩
    rw [← hu j hj, decide_eq_true_eq]
    obtain ⟨e1, e2, e3, e4, e5, e6, e7⟩ := hd j hj
    unfold inCell
    rw [show (hdr j).nx = nx from e2, show (hdr j).ny = ny from e3, show (hdr j).nz = nz from e4]

/-- C60: what `ReadHeader` says about a file, of either format (`s1`, `s2` the sizes of the two header records): redshift, cosmology, the number of the particles of the file (also of those that `Read` drops) and the box of its cell. -/
theorem C60_bolshoi_header (val : Nat → K) (o : Order) (s1 s2 : Nat) (b1 : s1 < 2 ^ 31) (b2 : s2 < 2 ^ 31) (comment h1 h2 boundary : List Byte) (l1 : comment.length = 45) (l2 : h1.length = s1) (l3 : h2.length = s2) (l4 : boundary.length = 24)
    (n : Nat) (hn : n < 2 ^ 31) (rest : List Byte) (h : BHeader) (hh : h = .parse o h1 h2) (c : Int × Int × Int) (hc : IsCell h c) (ha : val h.aExpn ≠ 0) :
    ∃ hd, bolshoiHeader val o s1 s2 (record o comment ++ (record o h1 ++ (record o h2 ++ (record o boundary ++ (record o (putInt o 4 (n : Nat)) ++ rest))))) = some hd ∧
      val h.aExpn * (1 + hd.z) = 1 ∧ hd.omegaM = val h.omegaM ∧ hd.omegaL = val h.omegaL ∧ hd.h100 = val h.h100 ∧ hd.n = n ∧ hd.totalWidth = val h.boxWidth ∧
      ∀ x : K × K × K, inCell (val h.boxWidth) h c x ↔ ((hd.origin.1 < x.1 ∧ x.1 ≤ hd.origin.1 + hd.width.1) ∧ (hd.origin.2.1 < x.2.1 ∧ x.2.1 ≤ hd.origin.2.1 + hd.width.2.1) ∧
        hd.origin.2.2 < x.2.2 ∧ x.2.2 ≤ hd.origin.2.2 + hd.width.2.2) := by
  refine ⟨_, by unfold bolshoiHeader; rw [front_file o s1 s2 b1 b2 comment h1 h2 boundary l1 l2 l3 l4 n hn rest, Option.bind_some, ← hh]; exact out_eq val h c hc n, ?_, rfl, rfl, rfl, rfl, rfl, ?_⟩
  · simp only
    field_simp
    ring
  · intro x
    have e : ∀ (i : Int) (w : K), (i : K) * w + w = ((i : K) + 1) * w := fun i w => by ring
    simp only [e]
    rfl

/-- The numbers of the two header records of a Bolshoi file, in the order of the file; floats as bits.  BolshoiP files have a mass and a number of buffers besides. -/
structure HeaderFields where
  aExpn : Nat
  aStep : Nat
  iStep : Int
  nRowCells : Int
  nGridCells : Int
  nSpecies : Int
  nSeed : Int
  omegaM : Nat
  omegaL : Nat
  h100 : Nat
  boxWidth : Nat
  mass : Nat
  k : Int
  nx : Int
  ny : Int
  nz : Int
  dR : Nat
  nBuffer : Int

/-- The first header record. -/
def HeaderFields.put1 (o : Order) (massive : Bool) (f : HeaderFields) : List Byte :=
  putNat o 4 f.aExpn ++ (putNat o 4 f.aStep ++ (putInt o 4 f.iStep ++ (putInt o 4 f.nRowCells ++ (putInt o 4 f.nGridCells ++ (putInt o 4 f.nSpecies ++ (putInt o 4 f.nSeed ++
    (putNat o 4 f.omegaM ++ (putNat o 4 f.omegaL ++ (putNat o 4 f.h100 ++ (putNat o 4 f.boxWidth ++ if massive then putNat o 4 f.mass else []))))))))))
/-- The second header record. -/
def HeaderFields.put2 (o : Order) (massive : Bool) (f : HeaderFields) : List Byte :=
  putInt o 4 f.k ++ (putInt o 4 f.nx ++ (putInt o 4 f.ny ++ (putInt o 4 f.nz ++ (putNat o 4 f.dR ++ if massive then putInt o 4 f.nBuffer else []))))

/-- The numbers fit into words of 32 bits. -/
def HeaderFields.Fits (f : HeaderFields) : Prop :=
  (∀ x ∈ [f.aExpn, f.aStep, f.omegaM, f.omegaL, f.h100, f.boxWidth, f.mass, f.dR], x < 256 ^ 4) ∧ ∀ x ∈ [f.iStep, f.nRowCells, f.nGridCells, f.nSpecies, f.nSeed, f.k, f.nx, f.ny, f.nz, f.nBuffer], InRange 4 x

theorem drop_put (o : Order) (n : Nat) (x : Int) (l : List Byte) : (putInt o 4 x ++ l).drop (n + 4) = l.drop n := by
  rw [List.drop_append, putInt_length, List.drop_eq_nil_of_le (by rw [putInt_length]; omega)]
  simp
theorem drop_putN (o : Order) (n x : Nat) (l : List Byte) : (putNat o 4 x ++ l).drop (n + 4) = l.drop n := by
  rw [List.drop_append, putNat_length, List.drop_eq_nil_of_le (by rw [putNat_length]; omega)]
  simp
theorem take_put (o : Order) (x : Int) (l : List Byte) : (putInt o 4 x ++ l).take 4 = putInt o 4 x := by rw [List.take_left' (putInt_length o 4 x)]
theorem take_putN (o : Order) (x : Nat) (l : List Byte) : (putNat o 4 x ++ l).take 4 = putNat o 4 x := by rw [List.take_left' (putNat_length o 4 x)]

/-- C60: the layout of the headers: the fields of a Bolshoi file (`massive = false`, records of 44 and 20 bytes) and of a BolshoiP file (`massive = true`, 48 and 24 bytes) are those that stand in the file. -/
theorem C60_header_layout (o : Order) (massive : Bool) (f : HeaderFields) (hf : f.Fits) :
    (f.put1 o massive).length = (if massive then 48 else 44) ∧ (f.put2 o massive).length = (if massive then 24 else 20) ∧
    let h := BHeader.parse o (f.put1 o massive) (f.put2 o massive)
    h.aExpn = f.aExpn ∧ h.nGridCells = f.nGridCells ∧ h.omegaM = f.omegaM ∧ h.omegaL = f.omegaL ∧ h.h100 = f.h100 ∧ h.boxWidth = f.boxWidth ∧ (massive = true → h.mass = f.mass) ∧
      h.k = f.k ∧ h.nx = f.nx ∧ h.ny = f.ny ∧ h.nz = f.nz := by
  obtain ⟨h1, h2⟩ := hf
  simp only [List.mem_cons, List.not_mem_nil, or_false, forall_eq_or_imp, forall_eq] at h1 h2
  obtain ⟨a1, a2, a3, a4, a5, a6, a7, a8⟩ := h1
  obtain ⟨b1, b2, b3, b4, b5, b6, b7, b8, b9, b10⟩ := h2
  refine ⟨?_, ?_, ?_⟩
  · unfold HeaderFields.put1
    cases massive <;> simp [putNat_length, putInt_length]
  · unfold HeaderFields.put2
    cases massive <;> simp [putNat_length, putInt_length]
  · unfold BHeader.parse HeaderFields.put1 HeaderFields.put2
    dsimp only
    have g : ∀ n l, (List.drop (n + 4) l : List Byte) = List.drop (n + 4) l := fun _ _ => rfl
    refine ⟨?_, ?_, ?_, ?_, ?_, ?_, ?_, ?_, ?_, ?_, ?_⟩
    · rw [take_putN, getNat_putNat o 4 _ a1]
    · rw [show 16 = 0 + 4 + 4 + 4 + 4 from rfl, drop_putN, drop_putN, drop_put, drop_put, List.drop_zero, take_put, getInt_putInt o 4 _ b3]
    · rw [show 28 = 0 + 4 + 4 + 4 + 4 + 4 + 4 + 4 from rfl, drop_putN, drop_putN, drop_put, drop_put, drop_put, drop_put, drop_put, List.drop_zero, take_putN, getNat_putNat o 4 _ a3]
    · rw [show 32 = 0 + 4 + 4 + 4 + 4 + 4 + 4 + 4 + 4 from rfl, drop_putN, drop_putN, drop_put, drop_put, drop_put, drop_put, drop_put, drop_putN, List.drop_zero, take_putN, getNat_putNat o 4 _ a4]
    · rw [show 36 = 0 + 4 + 4 + 4 + 4 + 4 + 4 + 4 + 4 + 4 from rfl, drop_putN, drop_putN, drop_put, drop_put, drop_put, drop_put, drop_put, drop_putN, drop_putN, List.drop_zero, take_putN, getNat_putNat o 4 _ a5]
    · rw [show 40 = 0 + 4 + 4 + 4 + 4 + 4 + 4 + 4 + 4 + 4 + 4 from rfl, drop_putN, drop_putN, drop_put, drop_put, drop_put, drop_put, drop_put, drop_putN, drop_putN, drop_putN, List.drop_zero, take_putN, getNat_putNat o 4 _ a6]
    · intro hm
      rw [hm, if_pos rfl, show 44 = 0 + 4 + 4 + 4 + 4 + 4 + 4 + 4 + 4 + 4 + 4 + 4 from rfl, drop_putN, drop_putN, drop_put, drop_put, drop_put, drop_put, drop_put, drop_putN, drop_putN, drop_putN, drop_putN, List.drop_zero,
        List.take_of_length_le (by rw [putNat_length]), getNat_putNat o 4 _ a7]
    · rw [take_put, getInt_putInt o 4 _ b6]
    · rw [show 4 = 0 + 4 from rfl, drop_put, List.drop_zero, take_put, getInt_putInt o 4 _ b7]
    · rw [show 8 = 0 + 4 + 4 from rfl, drop_put, drop_put, List.drop_zero, take_put, getInt_putInt o 4 _ b8]
    · rw [show 12 = 0 + 4 + 4 + 4 from rfl, drop_put, drop_put, drop_put, List.drop_zero, take_put, getInt_putInt o 4 _ b9]

/-- C60: a buffer that is made with a file has the header of that file, of either format; the rest of the file does not matter. -/
theorem C60_bolshoi_new (o : Order) (massive : Bool) (f : HeaderFields) (hf : f.Fits) (comment rest : List Byte) (l1 : comment.length = 45) :
    ∃ h, bolshoiNew o (if massive then 48 else 44) (if massive then 24 else 20) (record o comment ++ (record o (f.put1 o massive) ++ (record o (f.put2 o massive) ++ rest))) = some h ∧
      h.aExpn = f.aExpn ∧ h.nGridCells = f.nGridCells ∧ h.omegaM = f.omegaM ∧ h.omegaL = f.omegaL ∧ h.h100 = f.h100 ∧ h.boxWidth = f.boxWidth ∧ (massive = true → h.mass = f.mass) ∧
      h.k = f.k ∧ h.nx = f.nx ∧ h.ny = f.ny ∧ h.nz = f.nz := by
  obtain ⟨e1, e2, e3⟩ := C60_header_layout o massive f hf
  refine ⟨_, ?_, e3⟩
  unfold bolshoiNew
  rw [fortranRead_record o _ _ (by omega) 45 l1, Option.bind_some]
  simp only
  rw [fortranRead_record o _ _ (by rw [e1]; split <;> omega) _ e1, Option.bind_some]
  simp only
  rw [fortranRead_record o _ _ (by rw [e2]; split <;> omega) _ e2, Option.bind_some]

example : (⟨1, 2, -3, 4, 5, 6, 7, 8, 9, 10, 11, 12, 13, 14, 15, 16, 17, -18⟩ : HeaderFields).Fits := by unfold HeaderFields.Fits InRange; decide +kernel

/-! Examples: file 2 of 2; the box is 10 wide, the scale factor is 2, the mass is 7. -/

def h1Ex : List Byte := [2, 0, 0, 0] ++ List.replicate 12 0 ++ [5, 0, 0, 0] ++ List.replicate 20 0 ++ [10, 0, 0, 0] ++ [7, 0, 0, 0]
def h2Ex : List Byte := [2, 0, 0, 0, 2, 0, 0, 0, 1, 0, 0, 0, 1, 0, 0, 0] ++ List.replicate 8 0
def blocksEx : List (List PPart) := [[⟨(7, 3, 9), (1, 2, 3), 1, -5⟩, ⟨(5, 3, 9), (1, 2, 3), 1, 6⟩], [], [⟨(10, 10, 10), (4, 4, 4), 1, 8⟩]]

example : IsCell (BHeader.parse .little h1Ex h2Ex) (1, 0, 0) := by unfold IsCell; decide +kernel

example : ∀ b ∈ blocksEx, ∀ p ∈ b, p.Fits := by unfold PPart.Fits; decide +kernel

example : bolshoiPRead (K := Rat) (fun n => n) .big .little (2 ^ 30) ⟨[], [], [], [], [], [], [], []⟩ [] [] [] (bolshoiPFile .little (List.replicate 45 0) h1Ex h2Ex (List.replicate 24 0) blocksEx) =
    some [⟨(7, 3, 9), (2, 4, 6), 7, -5⟩, ⟨(10, 10, 10), (8, 8, 8), 7, 8⟩] := by
  have := C60_bolshoiP_read (K := Rat) (fun n => n) .big .little (2 ^ 30) (by norm_num) (List.replicate 45 0) h1Ex h2Ex (List.replicate 24 0) (by simp) (by decide) (by decide) (by simp) blocksEx
    (by unfold PPart.Fits; decide +kernel) (by decide +kernel) (by decide +kernel) ⟨[], [], [], [], [], [], [], []⟩ (by simp) (by simp) (by simp) (by simp) (by simp) (by simp)
      (by simp) (by simp) [] [] [] ⟨2, 5, 0, 0, 0, 10, 7, 2, 2, 1, 1⟩ (by decide +kernel) (1, 0, 0) (by unfold IsCell; decide +kernel) (by norm_num)
  rw [this]
  norm_num [blocksEx, inCell, inCell1, PPart.pos, List.filter_cons]

def bBlocksEx : List (List BParticle) := [[⟨[5, 2, 3], [1, 2, 3], -5⟩, ⟨[3, 2, 3], [1, 2, 3], 6⟩], [], [⟨[6, 6, 6], [4, 4, 4], 8⟩]]

example : bolshoiRead (K := Rat) (fun n => n) .big .little (2 ^ 30) 250 [] (bolshoiFile .little (List.replicate 45 0) (h1Ex.take 44) (h2Ex.take 20) (List.replicate 24 0) bBlocksEx) =
    some [⟨(8, 2, 4), (2, 4, 6), 135000000, -5⟩, ⟨(10, 10, 10), (8, 8, 8), 135000000, 8⟩] := by
  have := C60_bolshoi_read (K := Rat) (fun n => n) .big .little (2 ^ 30) (by norm_num) (List.replicate 45 0) (h1Ex.take 44) (h2Ex.take 20) (List.replicate 24 0) (by simp) (by decide) (by decide) (by simp) bBlocksEx
    (by unfold BParticle.Fits InRange; decide +kernel) (by decide +kernel) (by decide +kernel) [] (by simp) 250 ⟨2, 5, 0, 0, 0, 10, 0, 2, 2, 1, 1⟩ (by decide +kernel) (1, 0, 0) (by unfold IsCell; decide +kernel) (by norm_num)
  rw [this]
  norm_num [bBlocksEx, inCell, inCell1, vec3, List.filter_cons, bolshoiMinMass]

/-- The hypotheses of `C61_bolshoiP`: two files, the first with a copy of a particle of the second. -/
example : let files := fun k : Nat => (⟨List.replicate 45 0, h1Ex, (if k = 0 then 1 else 2) :: h2Ex.drop 1, List.replicate 24 0,
      if k = 0 then [[⟨(5, 3, 9), (1, 2, 3), 1, 6⟩, ⟨(7, 3, 9), (1, 2, 3), 1, -5⟩]] else [[⟨(7, 3, 9), (1, 2, 3), 1, -5⟩]]⟩ : PFile)
    let snap : List PPart := [⟨(7, 3, 9), (1, 2, 3), 1, -5⟩, ⟨(5, 3, 9), (1, 2, 3), 1, 6⟩]
    ∀ k, k < 2 → (files k).Ok (2 ^ 30) ∧ (BHeader.parse .little (files k).h1 (files k).h2).k = k + 1 ∧
      let inside := fun p : PPart => decide (inCell (K := Rat) 10 (BHeader.parse .little (files k).h1 (files k).h2) (cellOf 2 1 k) (p.pos fun n => n))
      ((files k).blocks.flatten.filter inside).Perm (snap.filter inside) := by
  intro files snap k hk
  have p1 : BHeader.parse .little (files 0).h1 (files 0).h2 = ⟨2, 5, 0, 0, 0, 10, 7, 1, 2, 1, 1⟩ := by decide +kernel
  have p2 : BHeader.parse .little (files 1).h1 (files 1).h2 = ⟨2, 5, 0, 0, 0, 10, 7, 2, 2, 1, 1⟩ := by decide +kernel
  obtain rfl | rfl : k = 0 ∨ k = 1 := by omega
  · refine ⟨by unfold PFile.Ok PPart.Fits; decide +kernel, by rw [p1]; rfl, ?_⟩
    rw [p1]
    norm_num [files, snap, inCell, inCell1, PPart.pos, List.filter_cons, cellOf]
  · refine ⟨by unfold PFile.Ok PPart.Fits; decide +kernel, by rw [p2]; rfl, ?_⟩
    rw [p2]
    norm_num [files, snap, inCell, inCell1, PPart.pos, List.filter_cons, cellOf]

end Shellfish.Io
