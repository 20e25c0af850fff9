import Verif.Lemmas.Sobol
import Mathlib.Data.Set.Card
import Mathlib.Order.Interval.Finset.Nat
import Mathlib.Algebra.Order.BigOperators.Group.Finset

/-
Ranks over GF(2) of the leading bits of the direction numbers.  The checks are evaluated by the kernel
(`decide +kernel`); they are written with recursors so that this is fast.
-/
namespace Shellfish.Sobol

/-- evaluate `v` before it is passed on -/
noncomputable def force (v : Nat) (k : Nat → Bool) : Bool :=
  Nat.rec (motive := fun _ => Bool) (k Nat.zero) (fun n _ => k (Nat.succ n)) v

theorem force_eq (v : Nat) (k : Nat → Bool) : force v k = k v := by cases v <;> rfl

/-- `v` with the top bit of `w` cleared by XOR with `w` -/
def red (w v : Nat) : Nat := if v ^^^ w ≤ v then v ^^^ w else v

/-- reduce a list by `w`, in reverse, and pass it on -/
noncomputable def mapF (w : Nat) (k : List Nat → Bool) (l : List Nat) : List Nat → Bool :=
  List.rec (motive := fun _ => List Nat → Bool) k
    (fun v _ ih acc => force (Nat.xor v w) fun x => Bool.rec (ih (v :: acc)) (ih (x :: acc)) (Nat.ble x v)) l

theorem mapF_eq (w : Nat) (k : List Nat → Bool) (l : List Nat) : ∀ acc,
    mapF w k l acc = k ((l.map (red w)).reverse ++ acc) := by
  induction l with
  | nil => intro acc; rfl
  | cons v l ih =>
    intro acc
    have : mapF w k (v :: l) acc = force (Nat.xor v w) fun x =>
      Bool.rec (mapF w k l (v :: acc)) (mapF w k l (x :: acc)) (Nat.ble x v) := rfl
    rw [this, force_eq]
    by_cases h : v ^^^ w ≤ v
    · have h' : Nat.ble (Nat.xor v w) v = true := Nat.ble_eq.mpr h
      rw [h']
      show mapF w k l (Nat.xor v w :: acc) = _
      rw [ih, List.map_cons, List.reverse_cons, red, if_pos h, List.append_assoc]
      rfl
    · have h' : Nat.ble (Nat.xor v w) v = false := by
        rw [Bool.eq_false_iff]; intro hh; exact h (Nat.ble_eq.mp hh)
      rw [h']
      show mapF w k l (v :: acc) = _
      rw [ih, List.map_cons, List.reverse_cons, red, if_neg h, List.append_assoc]
      rfl

/-- elimination over GF(2): at most `t` of the vectors depend on the others -/
noncomputable def elim (n : Nat) : Nat → List Nat → Bool :=
  Nat.rec (motive := fun _ => Nat → List Nat → Bool) (fun _ _ => true) (fun _ ih t l =>
    List.rec (motive := fun _ => Bool) true (fun w ws _ =>
      Bool.rec (mapF w (ih t) ws []) (Nat.rec (motive := fun _ => Bool) false (fun t _ => ih t ws) t)
        (Nat.beq w 0)) l) n

/-- XOR of the vectors selected by a list of bits -/
def xs : List Nat → List Bool → Nat
  | w :: ws, g :: gs => (if g then w else 0) ^^^ xs ws gs
  | _, _ => 0

theorem xs_append (a b : List Nat) (g h : List Bool) (hl : g.length = a.length) :
    xs (a ++ b) (g ++ h) = xs a g ^^^ xs b h := by
  induction a generalizing g with
  | nil => cases g with
    | nil => simp [xs]
    | cons _ _ => simp at hl
  | cons w a ih => cases g with
    | nil => simp at hl
    | cons x g =>
      simp only [List.cons_append, xs]
      rw [ih g (by simpa using hl), Nat.xor_assoc]

theorem xs_reverse (a : List Nat) (g : List Bool) (hl : g.length = a.length) :
    xs a.reverse g.reverse = xs a g := by
  induction a generalizing g with
  | nil => cases g with
    | nil => rfl
    | cons _ _ => simp at hl
  | cons w a ih => cases g with
    | nil => simp at hl
    | cons x g =>
      have hl' : g.length = a.length := by simpa using hl
      rw [List.reverse_cons, List.reverse_cons, xs_append _ _ _ _ (by simpa using hl'), ih g hl']
      simp only [xs]
      rw [Nat.xor_comm]
      cases x <;> simp

theorem red_eq (w v : Nat) (hw : w ≠ 0) : red w v = if v.testBit w.log2 then v ^^^ w else v := by
  have hb : w.testBit w.log2 = true := Nat.testBit_log2 hw
  have hh : ∀ j, w.log2 < j → w.testBit j = false := by
    intro j hj
    apply Nat.testBit_lt_two_pow
    exact lt_of_lt_of_le Nat.lt_log2_self (Nat.pow_le_pow_right (by omega) hj)
  unfold red
  by_cases h : v.testBit w.log2 = true
  · rw [if_pos h, if_pos]
    apply le_of_lt
    apply Nat.lt_of_testBit w.log2
    · rw [Nat.testBit_xor, h, hb]; rfl
    · exact h
    · intro j hj; rw [Nat.testBit_xor, hh j hj, Bool.xor_false]
  · have h' : v.testBit w.log2 = false := by simpa using h
    rw [if_neg h, if_neg]
    apply not_le.mpr
    apply Nat.lt_of_testBit w.log2 h'
    · rw [Nat.testBit_xor, h', hb]; rfl
    · intro j hj; rw [Nat.testBit_xor, hh j hj, Bool.xor_false]

/-- parity of the pivots that were added -/
def par (b : Nat) : List Nat → List Bool → Bool
  | v :: vs, g :: gs => (g && v.testBit b) ^^ par b vs gs
  | _, _ => false

theorem xs_red (w : Nat) (hw : w ≠ 0) (ws : List Nat) : ∀ gs : List Bool,
    xs ws gs = xs (ws.map (red w)) gs ^^^ (if par w.log2 ws gs then w else 0) := by
  induction ws with
  | nil => intro gs; simp [xs, par]
  | cons v ws ih =>
    intro gs
    cases gs with
    | nil => simp [xs, par]
    | cons g gs =>
      simp only [List.map_cons, xs, par]
      rw [ih gs, red_eq w v hw]
      apply Nat.eq_of_testBit_eq
      intro i
      have key : ∀ (b c : Bool), ((if g then v else 0) ^^^ (xs (ws.map (red w)) gs ^^^ (if c then w else 0))).testBit i =
          ((if g then (if b then v ^^^ w else v) else 0) ^^^ xs (ws.map (red w)) gs ^^^
            (if ((g && b) ^^ c) then w else 0)).testBit i := by
        intro b c
        cases g <;> cases b <;> cases c <;>
          simp only [Nat.testBit_xor, Bool.false_eq_true, if_false, if_true, Nat.zero_testBit, Bool.and_true, Bool.and_false,
            Bool.true_and, Bool.false_and, Bool.xor_false, Bool.false_xor, Bool.xor_true, Bool.true_xor, Bool.not_true, Bool.not_false] <;>
          cases v.testBit i <;> cases w.testBit i <;> cases (xs (List.map (red w) ws) gs).testBit i <;> rfl
      exact key _ _

theorem xs_red_bit (w : Nat) (hw : w ≠ 0) (ws : List Nat) : ∀ gs : List Bool,
    (xs (ws.map (red w)) gs).testBit w.log2 = false := by
  induction ws with
  | nil => intro gs; simp [xs]
  | cons v ws ih =>
    intro gs
    cases gs with
    | nil => simp [xs]
    | cons g gs =>
      simp only [List.map_cons, xs, Nat.testBit_xor, ih gs, Bool.xor_false]
      cases g
      · simp
      · rw [if_pos rfl, red_eq w v hw]
        by_cases h : v.testBit w.log2 = true
        · rw [if_pos h, Nat.testBit_xor, h, Nat.testBit_log2 hw]; rfl
        · rw [if_neg h]; simpa using h

theorem elim_sound : ∀ (n t : Nat) (ws : List Nat), ws.length ≤ n → elim n t ws = true →
    ∃ K : List (List Bool), K.length ≤ 2 ^ t ∧ ∀ gs : List Bool, gs.length = ws.length → xs ws gs = 0 → gs ∈ K := by
  intro n
  induction n with
  | zero =>
    intro t ws hl _
    have : ws = [] := List.length_eq_zero_iff.mp (by omega)
    subst this
    refine ⟨[[]], by simpa using Nat.one_le_two_pow, ?_⟩
    intro gs hg _
    have : gs = [] := List.length_eq_zero_iff.mp (by simpa using hg)
    simp [this]
  | succ n ih =>
    intro t ws hl h
    cases ws with
    | nil =>
      refine ⟨[[]], by simpa using Nat.one_le_two_pow, ?_⟩
      intro gs hg _
      have : gs = [] := List.length_eq_zero_iff.mp (by simpa using hg)
      simp [this]
    | cons w ws =>
      have hl' : ws.length ≤ n := by simpa using hl
      by_cases hw : w = 0
      · subst hw
        cases t with
        | zero => exact absurd h (by show ¬ (false = true); simp)
        | succ t =>
          have h' : elim n t ws = true := h
          obtain ⟨K, hK, hall⟩ := ih t ws hl' h'
          refine ⟨K.map (false :: ·) ++ K.map (true :: ·), ?_, ?_⟩
          · simp only [List.length_append, List.length_map]; rw [pow_succ]; omega
          · intro gs hg hx
            cases gs with
            | nil => simp at hg
            | cons g gs =>
              have hx' : xs ws gs = 0 := by cases g <;> simpa [xs] using hx
              have := hall gs (by simpa using hg) hx'
              cases g
              · exact List.mem_append_left _ (List.mem_map.mpr ⟨gs, this, rfl⟩)
              · exact List.mem_append_right _ (List.mem_map.mpr ⟨gs, this, rfl⟩)
      · have hb : Nat.beq w 0 = false := by
          rw [Bool.eq_false_iff]; intro hh; exact hw (Nat.eq_of_beq_eq_true hh)
        have h' : mapF w (elim n t) ws [] = true := by
          have : elim (n + 1) t (w :: ws) = Bool.rec (mapF w (elim n t) ws [])
            (Nat.rec (motive := fun _ => Bool) false (fun t _ => elim n t ws) t) (Nat.beq w 0) := rfl
          rw [this, hb] at h
          exact h
        rw [mapF_eq, List.append_nil] at h'
        obtain ⟨K, hK, hall⟩ := ih t _ (by simpa using hl') h'
        refine ⟨K.map fun gs => par w.log2 ws gs.reverse :: gs.reverse, by simpa using hK, ?_⟩
        intro gs hg hx
        cases gs with
        | nil => simp at hg
        | cons g gs =>
          have hg' : gs.length = ws.length := by simpa using hg
          simp only [xs] at hx
          rw [xs_red w hw ws gs] at hx
          have hbit := congrArg (fun z => Nat.testBit z w.log2) hx
          simp only [Nat.testBit_xor, xs_red_bit w hw ws gs, Nat.zero_testBit, Bool.false_xor] at hbit
          have hgp : g = par w.log2 ws gs := by
            cases g <;> cases hp : par w.log2 ws gs <;> simp [hp, Nat.testBit_log2 hw] at hbit ⊢
          have hx' : xs (ws.map (red w)) gs = 0 := by
            rw [← hgp] at hx
            cases g
            · simpa using hx
            · rw [if_pos rfl, Nat.xor_comm, Nat.xor_assoc, Nat.xor_self, Nat.xor_zero] at hx
              exact hx
          have := hall gs.reverse (by simpa using hg') (by rw [xs_reverse _ _ (by simpa using hg')]; exact hx')
          refine List.mem_map.mpr ⟨gs.reverse, this, ?_⟩
          rw [List.reverse_reverse, ← hgp]

/-- the check for all `n` below a bound -/
noncomputable def allF (f : Nat → Bool) (n : Nat) : Bool :=
  Nat.rec (motive := fun _ => Bool) true (fun n ih => Bool.rec false ih (f n)) n

theorem allF_spec (f : Nat → Bool) (n : Nat) (h : allF f n = true) : ∀ i < n, f i = true := by
  induction n with
  | zero => intro i hi; omega
  | succ n ih =>
    have e : allF f (n + 1) = Bool.rec false (allF f n) (f n) := rfl
    rw [e] at h
    cases hf : f n
    · rw [hf] at h; exact absurd h (by show ¬ (false = true); simp)
    · rw [hf] at h
      intro i hi
      rcases Nat.lt_succ_iff_lt_or_eq.mp hi with h1 | h1
      · exact ih h i h1
      · rw [h1]; exact hf

/-- leading bits of a triple of direction numbers, packed -/
def pack (A B C : Nat) (e : Nat × Nat × Nat) : Nat :=
  (e.2.2 / 2 ^ (30 - C) * 2 ^ B + e.2.1 / 2 ^ (30 - B)) * 2 ^ A + e.1 / 2 ^ (30 - A)

/-- `pack` of a list, in reverse, evaluated, and passed on -/
noncomputable def packF (a a' b b' c' : Nat) (k : List Nat → Bool) (l : List (Nat × Nat × Nat)) : List Nat → Bool :=
  List.rec (motive := fun _ => List Nat → Bool) k (fun e _ ih acc =>
    Prod.rec (fun x yz => Prod.rec (fun y z =>
      force (Nat.add (Nat.mul (Nat.add (Nat.mul (Nat.div z c') b) (Nat.div y b')) a) (Nat.div x a'))
        fun v => ih (v :: acc)) yz) e) l

theorem packF_eq (A B C : Nat) (k : List Nat → Bool) (l : List (Nat × Nat × Nat)) : ∀ acc,
    packF (2 ^ A) (2 ^ (30 - A)) (2 ^ B) (2 ^ (30 - B)) (2 ^ (30 - C)) k l acc =
      k ((l.map (pack A B C)).reverse ++ acc) := by
  induction l with
  | nil => intro acc; rfl
  | cons e l ih =>
    intro acc
    obtain ⟨x, y, z⟩ := e
    have : packF (2 ^ A) (2 ^ (30 - A)) (2 ^ B) (2 ^ (30 - B)) (2 ^ (30 - C)) k ((x, y, z) :: l) acc =
      force (pack A B C (x, y, z)) fun v =>
        packF (2 ^ A) (2 ^ (30 - A)) (2 ^ B) (2 ^ (30 - B)) (2 ^ (30 - C)) k l (v :: acc) := rfl
    rw [this, force_eq, ih, List.map_cons, List.reverse_cons, List.append_assoc]
    rfl

/-- the rank of the columns `l` for numbers of bits `A`, `B`, `C` -/
noncomputable def chk1 (t A B C : Nat) (l : List (Nat × Nat × Nat)) : Bool :=
  force (2 ^ A) fun a => force (2 ^ (30 - A)) fun a' => force (2 ^ B) fun b => force (2 ^ (30 - B)) fun b' =>
    force (2 ^ (30 - C)) fun c' => packF a a' b b' c' (elim 30 t) l []

/-- all divisions `A + B + C = s`, or with `C = 0` in two dimensions -/
noncomputable def chk (two : Bool) (t s : Nat) (l : List (Nat × Nat × Nat)) : Bool :=
  allF (fun A => Bool.rec (allF (fun B => chk1 t A B (s - A - B) l) (s - A + 1)) (chk1 t A (s - A) 0 l) two) (s + 1)

/-- all numbers of columns: the table holds the last column first -/
noncomputable def chkAll (two : Bool) (t : Nat) (tab : List (Nat × Nat × Nat)) : Bool :=
  List.rec (motive := fun _ => Bool) true (fun e l ih =>
    Bool.rec false ih (Bool.rec true (force (Nat.sub (l.length + 1) t) fun s => chk two t s (e :: l)) (Nat.ble t (l.length + 1)))) tab

theorem chkAll_spec (two : Bool) (t : Nat) (tab : List (Nat × Nat × Nat)) (h : chkAll two t tab = true) :
    ∀ l, l <:+ tab → l ≠ [] → t ≤ l.length → chk two t (l.length - t) l = true := by
  induction tab with
  | nil => intro l hl hne _; exact absurd (List.suffix_nil.mp hl) hne
  | cons e tab ih =>
    have hdef : chkAll two t (e :: tab) = Bool.rec false (chkAll two t tab)
      (Bool.rec true (force (Nat.sub (tab.length + 1) t) fun s => chk two t s (e :: tab)) (Nat.ble t (tab.length + 1))) := rfl
    rw [hdef] at h
    generalize hx : (Bool.rec true (force (Nat.sub (tab.length + 1) t) fun s => chk two t s (e :: tab)) (Nat.ble t (tab.length + 1)) : Bool) = x at h
    cases x with
    | false => exact absurd h (by show ¬ (false = true); simp)
    | true =>
      intro l hl hne hlen
      rcases List.suffix_cons_iff.mp hl with rfl | h1
      · have hb : Nat.ble t (tab.length + 1) = true := Nat.ble_eq.mpr hlen
        rw [hb] at hx
        rw [force_eq] at hx
        exact hx
      · exact ih h l h1 hne hlen

theorem chk1_eq (t A B C : Nat) (l : List (Nat × Nat × Nat)) :
    chk1 t A B C l = elim 30 t (l.map (pack A B C)).reverse := by
  unfold chk1
  rw [force_eq, force_eq, force_eq, force_eq, force_eq, packF_eq, List.append_nil]

/-- the columns of the first `p` direction numbers of three dimensions -/
def V (k : Nat × Nat × Nat) (A B C j : Nat) : Nat := pack A B C (dir k.1 j, dir k.2.1 j, dir k.2.2 j)

/-- a table of the direction numbers, last first -/
def tabOf (k : Nat × Nat × Nat) : List (Nat × Nat × Nat) :=
  (List.range 30).reverse.map fun j => (dir k.1 j, dir k.2.1 j, dir k.2.2 j)

theorem tabOf_suffix (k : Nat × Nat × Nat) (p : Nat) (hp : p ≤ 30) :
    (List.range p).reverse.map (fun j => (dir k.1 j, dir k.2.1 j, dir k.2.2 j)) <:+ tabOf k := by
  obtain ⟨m, hm⟩ : ∃ m, 30 = p + m := ⟨30 - p, by omega⟩
  unfold tabOf
  rw [hm, List.range_add, List.reverse_append, List.map_append]
  exact List.suffix_append _ _

theorem rank_two (k : Nat × Nat × Nat) (t p A B : Nat) (h : chkAll true t (tabOf k) = true) (hp : p ≤ 30) (hp0 : 0 < p)
    (hs : A + B + t = p) : elim 30 t ((List.range p).map (V k A B 0)) = true := by
  have h1 := chkAll_spec true t _ h _ (tabOf_suffix k p hp) (by
    intro e; have := congrArg List.length e; simp at this; omega) (by simp; omega)
  have h2 := allF_spec _ _ h1 A (by simp; omega)
  have h3 : chk1 t A ((List.map (fun j => (dir k.1 j, dir k.2.1 j, dir k.2.2 j)) (List.range p).reverse).length - t - A) 0
    (List.map (fun j => (dir k.1 j, dir k.2.1 j, dir k.2.2 j)) (List.range p).reverse) = true := h2
  rw [chk1_eq] at h3
  simp only [List.length_map, List.length_reverse, List.length_range] at h3
  rw [show p - t - A = B by omega, List.map_map, List.map_reverse, List.reverse_reverse] at h3
  exact h3

theorem rank_three (k : Nat × Nat × Nat) (t p A B C : Nat) (h : chkAll false t (tabOf k) = true) (hp : p ≤ 30) (hp0 : 0 < p)
    (hs : A + B + C + t = p) : elim 30 t ((List.range p).map (V k A B C)) = true := by
  have h1 := chkAll_spec false t _ h _ (tabOf_suffix k p hp) (by
    intro e; have := congrArg List.length e; simp at this; omega) (by simp; omega)
  have h2 := allF_spec _ _ h1 A (by simp; omega)
  have h2' : allF (fun B => chk1 t A B ((List.map (fun j => (dir k.1 j, dir k.2.1 j, dir k.2.2 j)) (List.range p).reverse).length - t - A - B)
    (List.map (fun j => (dir k.1 j, dir k.2.1 j, dir k.2.2 j)) (List.range p).reverse))
    ((List.map (fun j => (dir k.1 j, dir k.2.1 j, dir k.2.2 j)) (List.range p).reverse).length - t - A + 1) = true := h2
  have h3 := allF_spec _ _ h2' B (by simp; omega)
  rw [chk1_eq] at h3
  simp only [List.length_map, List.length_reverse, List.length_range] at h3
  rw [show p - t - A - B = C by omega, List.map_map, List.map_reverse, List.reverse_reverse] at h3
  exact h3

theorem comb_xs (v : Nat → Nat) (p g : Nat) : comb v p g = xs ((List.range p).map v) ((List.range p).map g.testBit) := by
  induction p with
  | zero => simp [comb, xs]
  | succ p ih =>
    rw [List.range_succ, List.map_append, List.map_append, xs_append _ _ _ _ (by simp), comb, ih]
    simp [xs]

/-- the coefficient vectors that the columns send to zero -/
theorem kernel_of_rank (v : Nat → Nat) (t p : Nat) (hp : p ≤ 30) (h : elim 30 t ((List.range p).map v) = true) :
    ∃ K : List (List Bool), K.length ≤ 2 ^ t ∧ ∀ g, comb v p g = 0 → (List.range p).map g.testBit ∈ K := by
  obtain ⟨K, hK, hall⟩ := elim_sound 30 t _ (by simpa using hp) h
  refine ⟨K, hK, ?_⟩
  intro g hg
  exact hall _ (by simp) (by rw [← comb_xs]; exact hg)

theorem mul_add_xor (A a b c d : Nat) (hb : b < 2 ^ A) (hd : d < 2 ^ A) :
    (a * 2 ^ A + b) ^^^ (c * 2 ^ A + d) = (a ^^^ c) * 2 ^ A + (b ^^^ d) := by
  apply Nat.eq_of_testBit_eq
  intro i
  rw [Nat.testBit_xor, Nat.mul_comm a, Nat.mul_comm c, Nat.mul_comm (a ^^^ c), Nat.testBit_two_pow_mul_add _ hb,
    Nat.testBit_two_pow_mul_add _ hd, Nat.testBit_two_pow_mul_add _ (Nat.xor_lt_two_pow hb hd)]
  split <;> simp [Nat.testBit_xor]

theorem lead_lt (x A : Nat) (hA : A ≤ 30) (hx : x < 2 ^ 30) : x / 2 ^ (30 - A) < 2 ^ A := by
  rw [Nat.div_lt_iff_lt_mul (by positivity), ← pow_add, show A + (30 - A) = 30 by omega]
  exact hx

theorem div_xor (x y n : Nat) : (x ^^^ y) / 2 ^ n = x / 2 ^ n ^^^ y / 2 ^ n := by
  rw [← Nat.shiftRight_eq_div_pow, ← Nat.shiftRight_eq_div_pow, ← Nat.shiftRight_eq_div_pow, Nat.shiftRight_xor_distrib]

theorem pack_xor (A B C x y z x' y' z' : Nat) (hA : A ≤ 30) (hB : B ≤ 30) (hx : x < 2 ^ 30) (hx' : x' < 2 ^ 30)
    (hy : y < 2 ^ 30) (hy' : y' < 2 ^ 30) :
    pack A B C (x ^^^ x', y ^^^ y', z ^^^ z') = pack A B C (x, y, z) ^^^ pack A B C (x', y', z') := by
  unfold pack
  dsimp only
  rw [mul_add_xor _ _ _ _ _ (lead_lt x A hA hx) (lead_lt x' A hA hx'),
    mul_add_xor _ _ _ _ _ (lead_lt y B hB hy) (lead_lt y' B hB hy'), div_xor, div_xor, div_xor]

theorem pack_comb (k : Nat × Nat × Nat) (A B C p g : Nat) (hA : A ≤ 30) (hB : B ≤ 30) (hp : p ≤ 30)
    (h0 : k.1 < 6) (h1 : k.2.1 < 6) :
    pack A B C (comb (dir k.1) p g, comb (dir k.2.1) p g, comb (dir k.2.2) p g) = comb (V k A B C) p g := by
  induction p with
  | zero => simp [comb, pack]
  | succ p ih =>
    simp only [comb]
    rw [pack_xor A B C _ _ _ _ _ _ hA hB (comb_lt (dir_tri _ h0) _ _ (by omega)) (by
      split
      · exact (dir_tri _ h0 p (by omega)).2
      · positivity) (comb_lt (dir_tri _ h1) _ _ (by omega)) (by
      split
      · exact (dir_tri _ h1 p (by omega)).2
      · positivity), ih (by omega)]
    congr 1
    split
    · rfl
    · simp [pack]

theorem comb_small (v : Nat → Nat) (p g : Nat) (hp : p ≤ 30) (hg : g < 2 ^ p) : comb v 30 g = comb v p g := by
  obtain ⟨m, hm⟩ : ∃ m, 30 = p + m := ⟨30 - p, by omega⟩
  rw [hm]
  clear hp hm
  induction m with
  | zero => rfl
  | succ m ih =>
    rw [← Nat.add_assoc, comb, ih, Nat.testBit_lt_two_pow (lt_of_lt_of_le hg (Nat.pow_le_pow_right (by omega) (by omega)))]
    simp

theorem gray_lt (d p : Nat) (h : d < 2 ^ p) : gray d < 2 ^ p :=
  Nat.xor_lt_two_pow h (lt_of_le_of_lt (Nat.div_le_self _ _) h)

theorem gray_zero (d : Nat) (h : gray d = 0) : d = 0 := by
  by_contra hd
  obtain ⟨l, h1, h2, _⟩ := exists_top_bit d hd
  have := testBit_gray d l
  rw [h, h1, h2 (l + 1) (by omega)] at this
  simp at this

/-- point number `m - 1` in three dimensions, leading bits packed -/
def P (k : Nat × Nat × Nat) (A B C m : Nat) : Nat := pack A B C (coord k.1 (m - 1), coord k.2.1 (m - 1), coord k.2.2 (m - 1))

theorem P_xor (k : Nat × Nat × Nat) (A B C p m m' : Nat) (hA : A ≤ 30) (hB : B ≤ 30) (hp : p ≤ 30)
    (h0 : k.1 < 6) (h1 : k.2.1 < 6) (hm : 0 < m) (hm' : 0 < m') (hx : m ^^^ m' < 2 ^ p)
    (he : P k A B C m = P k A B C m') : comb (V k A B C) p (gray (m ^^^ m')) = 0 := by
  have e : ∀ k a, 0 < a → comb (dir k) 30 (gray a) = coord k (a - 1) ^^^ dir k 0 := by
    intro k a ha
    unfold coord
    rw [Nat.sub_add_cancel ha, Nat.xor_assoc, Nat.xor_self, Nat.xor_zero]
  have e2 : ∀ k, coord k (m - 1) ^^^ coord k (m' - 1) = comb (dir k) p (gray (m ^^^ m')) := by
    intro k
    rw [← comb_small _ p _ hp (gray_lt _ _ hx), gray_xor, comb_xor, e k m hm, e k m' hm']
    apply Nat.eq_of_testBit_eq
    intro i
    simp only [Nat.testBit_xor]
    cases (coord k (m - 1)).testBit i <;> cases (coord k (m' - 1)).testBit i <;> cases (dir k 0).testBit i <;> rfl
  rw [← pack_comb k A B C p _ hA hB hp h0 h1, ← e2, ← e2, ← e2,
    pack_xor A B C _ _ _ _ _ _ hA hB (coord_lt _ _ h0) (coord_lt _ _ h0) (coord_lt _ _ h1) (coord_lt _ _ h1)]
  unfold P at he
  rw [he, Nat.xor_self]

theorem xor_block (p a x y : Nat) (hx : 2 ^ p * a ≤ x) (hx' : x < 2 ^ p * (a + 1)) (hy : 2 ^ p * a ≤ y)
    (hy' : y < 2 ^ p * (a + 1)) : x ^^^ y < 2 ^ p := by
  have e : ∀ z, 2 ^ p * a ≤ z → z < 2 ^ p * (a + 1) → z / 2 ^ p = a := by
    intro z h1 h2
    apply Nat.div_eq_of_lt_le
    · rw [Nat.mul_comm]; exact h1
    · rw [Nat.mul_comm]; exact h2
  have h : (x ^^^ y) / 2 ^ p = 0 := by rw [div_xor, e x hx hx', e y hy hy', Nat.xor_self]
  exact (Nat.div_eq_zero_iff.mp h).resolve_left (by positivity)

/-- the numbers of a block that fall in a cell are at most `2 ^ t` -/
theorem fibre_le (k : Nat × Nat × Nat) (A B C p t a v : Nat) (hA : A ≤ 30) (hB : B ≤ 30) (hp : p ≤ 30)
    (h0 : k.1 < 6) (h1 : k.2.1 < 6) (hr : elim 30 t ((List.range p).map (V k A B C)) = true) (ha : 0 < 2 ^ p * a) :
    ((Finset.Ico (2 ^ p * a) (2 ^ p * (a + 1))).filter fun m => P k A B C m = v).card ≤ 2 ^ t := by
  classical
  obtain ⟨K, hK, hall⟩ := kernel_of_rank _ t p hp hr
  rcases Finset.eq_empty_or_nonempty ((Finset.Ico (2 ^ p * a) (2 ^ p * (a + 1))).filter fun m => P k A B C m = v) with he | ⟨m0, hm0⟩
  · rw [he]; simp
  · rw [Finset.mem_filter, Finset.mem_Ico] at hm0
    have hcard : K.toFinset.card ≤ 2 ^ t := le_trans (List.toFinset_card_le K) hK
    refine le_trans (Finset.card_le_card_of_injOn (fun m => (List.range p).map (gray (m ^^^ m0)).testBit) ?_ ?_) hcard
    · intro m hm
      rw [Finset.mem_coe, Finset.mem_filter, Finset.mem_Ico] at hm
      rw [Finset.mem_coe, List.mem_toFinset]
      apply hall
      exact P_xor k A B C p m m0 hA hB hp h0 h1 (by omega) (by omega)
        (xor_block p a m m0 hm.1.1 hm.1.2 hm0.1.1 hm0.1.2) (by rw [hm.2, hm0.2])
    · intro m hm m' hm' hmm
      rw [Finset.mem_coe, Finset.mem_filter, Finset.mem_Ico] at hm hm'
      have hx := xor_block p a m m0 hm.1.1 hm.1.2 hm0.1.1 hm0.1.2
      have hx' := xor_block p a m' m0 hm'.1.1 hm'.1.2 hm0.1.1 hm0.1.2
      have hg : gray (m ^^^ m0) = gray (m' ^^^ m0) := by
        apply Nat.eq_of_testBit_eq
        intro i
        by_cases hi : i < p
        · exact List.map_inj_left.mp hmm i (List.mem_range.mpr hi)
        · have hle : 2 ^ p ≤ 2 ^ i := Nat.pow_le_pow_right (by omega) (by omega)
          rw [Nat.testBit_lt_two_pow (lt_of_lt_of_le (gray_lt _ _ hx) hle),
            Nat.testBit_lt_two_pow (lt_of_lt_of_le (gray_lt _ _ hx') hle)]
      have hz : gray (m ^^^ m') = 0 := by
        have : m ^^^ m' = (m ^^^ m0) ^^^ (m' ^^^ m0) := by
          rw [Nat.xor_comm m' m0, Nat.xor_assoc, ← Nat.xor_assoc m0, Nat.xor_self, Nat.zero_xor]
        rw [this, gray_xor, hg, Nat.xor_self]
      exact Nat.xor_eq_zero_iff.mp (gray_zero _ hz)

theorem pack_lt (A B C x y z : Nat) (hA : A ≤ 30) (hB : B ≤ 30) (hC : C ≤ 30) (hx : x < 2 ^ 30) (hy : y < 2 ^ 30) (hz : z < 2 ^ 30) :
    pack A B C (x, y, z) < 2 ^ (A + B + C) := by
  unfold pack
  dsimp only
  have h1 := lead_lt x A hA hx
  have h2 := lead_lt y B hB hy
  have h3 := lead_lt z C hC hz
  have h4 : z / 2 ^ (30 - C) * 2 ^ B + y / 2 ^ (30 - B) < 2 ^ (B + C) := by
    calc z / 2 ^ (30 - C) * 2 ^ B + y / 2 ^ (30 - B) < (z / 2 ^ (30 - C) + 1) * 2 ^ B := by rw [Nat.add_mul]; omega
      _ ≤ 2 ^ C * 2 ^ B := Nat.mul_le_mul_right _ h3
      _ = 2 ^ (B + C) := by rw [← pow_add, Nat.add_comm]
  calc _ < (z / 2 ^ (30 - C) * 2 ^ B + y / 2 ^ (30 - B) + 1) * 2 ^ A := by rw [Nat.add_mul (_ + _)]; omega
    _ ≤ 2 ^ (B + C) * 2 ^ A := Nat.mul_le_mul_right _ h4
    _ = 2 ^ (A + B + C) := by rw [← pow_add]; congr 1; omega

/-- hence exactly `2 ^ t` -/
theorem fibre_eq (k : Nat × Nat × Nat) (A B C p t a v : Nat) (hs : A + B + C + t = p) (hp : p ≤ 30)
    (h0 : k.1 < 6) (h1 : k.2.1 < 6) (h2 : k.2.2 < 6) (hr : elim 30 t ((List.range p).map (V k A B C)) = true)
    (ha : 0 < 2 ^ p * a) (hv : v < 2 ^ (A + B + C)) :
    ((Finset.Ico (2 ^ p * a) (2 ^ p * (a + 1))).filter fun m => P k A B C m = v).card = 2 ^ t := by
  classical
  have hle : ∀ w ∈ Finset.range (2 ^ (A + B + C)),
      ((Finset.Ico (2 ^ p * a) (2 ^ p * (a + 1))).filter fun m => P k A B C m = w).card ≤ 2 ^ t := fun w _ =>
    fibre_le k A B C p t a w (by omega) (by omega) hp h0 h1 hr ha
  have hsum := Finset.card_eq_sum_card_fiberwise (f := P k A B C) (s := Finset.Ico (2 ^ p * a) (2 ^ p * (a + 1)))
    (t := Finset.range (2 ^ (A + B + C))) (by
      intro m _
      rw [Finset.mem_coe, Finset.mem_range]
      exact pack_lt _ _ _ _ _ _ (by omega) (by omega) (by omega) (coord_lt _ _ h0) (coord_lt _ _ h1) (coord_lt _ _ h2))
  have htot : ∑ w ∈ Finset.range (2 ^ (A + B + C)),
      ((Finset.Ico (2 ^ p * a) (2 ^ p * (a + 1))).filter fun m => P k A B C m = w).card =
      ∑ w ∈ Finset.range (2 ^ (A + B + C)), 2 ^ t := by
    rw [← hsum, Nat.card_Ico, Finset.sum_const, Finset.card_range, Nat.nsmul_eq_mul, ← pow_add, hs, Nat.mul_succ,
      Nat.add_sub_cancel_left]
  exact (Finset.sum_eq_sum_iff_of_le hle).mp htot v (Finset.mem_range.mpr hv)

end Shellfish.Sobol
