import Verif.Lemmas.BolshoiFile
import Verif.Spec.BolshoiP
import Verif.Model.Bolshoi

namespace Shellfish.Gadget
open Shellfish.Bytes Shellfish.Io

theorem words_add (sys : Order) (k a b : Nat) (l : List Byte) (h : a * k ≤ l.length) : words sys k (a + b) l = words sys k a (l.take (a * k)) ++ words sys k b (l.drop (a * k)) := by
  unfold words
  rw [pieces_add k a b l h, List.map_append]

theorem words_length (sys : Order) (k n : Nat) (l : List Byte) : (words sys k n l).length = n := by
  unfold words
  rw [List.length_map, pieces_length]

/-- A block of words that is read into a slice replaces the words of the slice. -/
theorem readInto_words (sys o : Order) (rw k nRead : Nat) (hk : k = 4 ∨ k = 8) (xs : List Nat) (hx : ∀ x ∈ xs, x < 256 ^ k) (mem rest : List Byte) (n : Nat) (hm : mem.length = n * k)
    (hn : nRead + xs.length ≤ n) (hrw : xs.length * k ≤ rw) :
    ∃ mem' : List Byte, readInto sys o rw k nRead xs.length mem (numbers o k xs ++ rest) = (mem', rest) ∧ mem'.length = n * k ∧
      words sys k n mem' = (words sys k n mem).take nRead ++ xs ++ (words sys k n mem).drop (nRead + xs.length) := by
  have hk0 : 0 < k := by omega
  have hb1 : nRead * k ≤ n * k := Nat.mul_le_mul_right _ (by omega)
  have hb2 : (nRead + xs.length) * k ≤ n * k := Nat.mul_le_mul_right _ hn
  have e0 : (nRead + xs.length) * k = nRead * k + xs.length * k := by ring
  have hslice : ((mem.take ((nRead + xs.length) * k)).drop (nRead * k)).length = xs.length * k := by
    rw [List.length_drop, List.length_take, hm, Nat.min_eq_left hb2]; omega
  have key : ∃ q : List Byte, (if k = 8 then readInt64AsByte sys o rw xs.length ((mem.take ((nRead + xs.length) * k)).drop (nRead * k)) (numbers o k xs ++ rest)
      else readInt32AsByte sys o rw xs.length ((mem.take ((nRead + xs.length) * k)).drop (nRead * k)) (numbers o k xs ++ rest)) = (false, q, rest) ∧ q.length = xs.length * k ∧ words sys k xs.length q = xs := by
    rcases hk with rfl | rfl
    · rw [if_neg (by norm_num)]
      exact readAsByte_block sys o rw 4 xs hx _ (fun l => swap4_eq l _) _ rest hslice hrw _ (Nat.mul_comm _ _)
    · rw [if_pos rfl]
      exact readAsByte_block sys o rw 8 xs hx _ (fun l => swap8_eq l _) _ rest hslice hrw _ (Nat.mul_comm _ _)
  obtain ⟨q, hq, hql, hqw⟩ := key
  refine ⟨copyTo mem (nRead * k) ((nRead + xs.length) * k) q, ?_, ?_, ?_⟩
  · unfold readInto
    simp only [hq]
  · unfold copyTo
    rw [List.length_append, List.length_append, List.length_take, List.length_drop, hql, hm]
    omega
  · obtain ⟨r, rfl⟩ : ∃ r, n = nRead + (xs.length + r) := ⟨n - nRead - xs.length, by omega⟩
    have lt : (mem.take (nRead * k)).length = nRead * k := by rw [List.length_take]; omega
    unfold copyTo
    have w1 : words sys k (nRead + (xs.length + r)) (mem.take (nRead * k) ++ q ++ mem.drop ((nRead + xs.length) * k)) =
        words sys k nRead (mem.take (nRead * k)) ++ (xs ++ words sys k r (mem.drop ((nRead + xs.length) * k))) := by
      rw [words_add sys k nRead _ _ (by simp only [List.length_append]; omega), List.append_assoc, List.take_left' lt, List.drop_left' lt,
        words_add sys k xs.length r _ (by simp only [List.length_append]; omega), List.take_left' hql, List.drop_left' hql, hqw]
    have w2 : words sys k (nRead + (xs.length + r)) mem = words sys k nRead (mem.take (nRead * k)) ++ (words sys k xs.length ((mem.drop (nRead * k)).take (xs.length * k)) ++
        words sys k r (mem.drop ((nRead + xs.length) * k))) := by
      rw [words_add sys k nRead _ _ (by omega), words_add sys k xs.length r _ (by rw [List.length_drop]; omega), List.drop_drop, ← e0]
    rw [w1, w2, List.take_left' (words_length _ _ _ _), ← List.append_assoc, ← List.append_assoc (words sys k nRead _),
      List.drop_left' (by rw [List.length_append, words_length, words_length]), List.append_assoc]

/-- The word that an id is written as. -/
def idWord (x : Int) : Nat := (x % (256 ^ 8 : Nat)).toNat

theorem idWord_lt (x : Int) : idWord x < 256 ^ 8 := by
  unfold idWord
  have := Int.emod_lt_of_pos x (show (0 : Int) < ((256 ^ 8 : Nat) : Int) by norm_num)
  have h2 := Int.emod_nonneg x (show ((256 ^ 8 : Nat) : Int) ≠ 0 by norm_num)
  omega

theorem signed_idWord (x : Int) (h : InRange 8 x) : signed 8 (idWord x) = x := by
  have := getInt_putInt .little 8 x h
  unfold getInt putInt at this
  rw [putNat_length] at this
  have e := getNat_putNat .little 8 _ (idWord_lt x)
  unfold idWord at e ⊢
  rw [e] at this
  exact this

theorem ids_numbers (o : Order) (b : List PPart) : (b.flatMap fun p => putInt o 8 p.id) = numbers o 8 (b.map fun p => idWord p.id) := by
  unfold numbers
  rw [List.flatMap_map]
  rfl

/-- The words of one buffer after the loop: the `n` words `f p` of the particles, behind the first `nRead`. -/
def Filled (sys : Order) (k n nRead : Nat) (f : PPart → Nat) (ps : List PPart) (mem mem' : List Byte) : Prop :=
  mem'.length = n * k ∧ words sys k n mem' = (words sys k n mem).take nRead ++ ps.map f

theorem filled_nil (sys : Order) (k n : Nat) (f : PPart → Nat) (mem : List Byte) (hm : mem.length = n * k) : Filled sys k n n f [] mem mem :=
  ⟨hm, by rw [List.take_of_length_le (by rw [words_length]), List.map_nil, List.append_nil]⟩

theorem filled_step (sys : Order) (k n nRead : Nat) (f : PPart → Nat) (b ps : List PPart) (mem mem1 mem' : List Byte) (hn : nRead + b.length ≤ n)
    (h1 : words sys k n mem1 = (words sys k n mem).take nRead ++ b.map f ++ (words sys k n mem).drop (nRead + (b.map f).length)) (h2 : Filled sys k n (nRead + b.length) f ps mem1 mem') :
    Filled sys k n nRead f (b ++ ps) mem mem' := by
  refine ⟨h2.1, ?_⟩
  have lt : ((words sys k n mem).take nRead ++ b.map f).length = nRead + b.length := by
    rw [List.length_append, List.length_take, words_length, List.length_map]; omega
  rw [h2.2, h1, List.take_left' lt, List.map_append, List.append_assoc]

theorem record3 (o : Order) (a b c rest : List Byte) : record o (a ++ b ++ c) ++ rest = putInt o 4 (((a ++ b ++ c).length : Nat) : Int) ++ (a ++ (b ++ (c ++ (putInt o 4 (((a ++ b ++ c).length : Nat) : Int) ++ rest)))) := by
  unfold record
  generalize (((a ++ b ++ c).length : Nat) : Int) = n
  simp only [List.append_assoc]

theorem record2 (o : Order) (a b rest : List Byte) : record o (a ++ b) ++ rest = putInt o 4 (((a ++ b).length : Nat) : Int) ++ (a ++ (b ++ (putInt o 4 (((a ++ b).length : Nat) : Int) ++ rest))) := by
  unfold record
  generalize (((a ++ b).length : Nat) : Int) = n
  simp only [List.append_assoc]

theorem pLoop_blocks (sys o : Order) (rw : Nat) (hrw : rw < 2 ^ 31) (n : Nat) (blocks : List (List PPart)) (hfit : ∀ b ∈ blocks, ∀ p ∈ b, p.Fits) (hsize : ∀ b ∈ blocks, 12 * b.length ≤ rw)
    (fuel nRead : Nat) (s : PMem) (rest : List Byte) (hfuel : blocks.length < fuel) (hn : nRead + blocks.flatten.length = n)
    (l0 : s.x0.length = n * 4) (l1 : s.x1.length = n * 4) (l2 : s.x2.length = n * 4) (l3 : s.v0.length = n * 4) (l4 : s.v1.length = n * 4) (l5 : s.v2.length = n * 4) (l6 : s.wp.length = n * 4) (l7 : s.ids.length = n * 8) :
    ∃ s' : PMem, pLoop sys o rw n fuel nRead s (blocks.flatMap (pBlock o) ++ rest) = some s' ∧
      Filled sys 4 n nRead (fun p => p.x.1) blocks.flatten s.x0 s'.x0 ∧ Filled sys 4 n nRead (fun p => p.x.2.1) blocks.flatten s.x1 s'.x1 ∧ Filled sys 4 n nRead (fun p => p.x.2.2) blocks.flatten s.x2 s'.x2 ∧
      Filled sys 4 n nRead (fun p => p.v.1) blocks.flatten s.v0 s'.v0 ∧ Filled sys 4 n nRead (fun p => p.v.2.1) blocks.flatten s.v1 s'.v1 ∧ Filled sys 4 n nRead (fun p => p.v.2.2) blocks.flatten s.v2 s'.v2 ∧
      Filled sys 4 n nRead (fun p => p.w) blocks.flatten s.wp s'.wp ∧ Filled sys 8 n nRead (fun p => idWord p.id) blocks.flatten s.ids s'.ids := by
  induction blocks generalizing fuel nRead s with
  | nil =>
    obtain ⟨f, rfl⟩ : ∃ f, fuel = f + 1 := ⟨fuel - 1, by simp at hfuel; omega⟩
    simp only [List.flatten_nil, List.length_nil, Nat.add_zero] at hn
    subst hn
    refine ⟨s, ?_, filled_nil _ _ _ _ _ l0, filled_nil _ _ _ _ _ l1, filled_nil _ _ _ _ _ l2, filled_nil _ _ _ _ _ l3, filled_nil _ _ _ _ _ l4, filled_nil _ _ _ _ _ l5, filled_nil _ _ _ _ _ l6, filled_nil _ _ _ _ _ l7⟩
    unfold pLoop
    rw [if_neg (by omega)]
  | cons b bs ih =>
    obtain ⟨f, rfl⟩ : ∃ f, fuel = f + 1 := ⟨fuel - 1, by simp at hfuel; omega⟩
    simp only [List.length_cons] at hfuel
    rw [List.flatten_cons, List.length_append] at hn
    by_cases hlt : nRead < n
    · have hbs := hsize b (by simp)
      have hbf := hfit b (by simp)
      have hir : InRange 4 ((b.length : Nat) : Int) := by
        unfold InRange; norm_num at hrw ⊢; omega
      have hcol : ∀ g : PPart → Nat, (b.map g).length = b.length := fun g => List.length_map _
      have fit4 : ∀ g : PPart → Nat, (∀ p : PPart, p.Fits → g p < 2 ^ 32) → ∀ x ∈ b.map g, x < 256 ^ 4 := by
        intro g hg x hx
        obtain ⟨p, hp, rfl⟩ := List.mem_map.1 hx
        have := hg p (hbf p hp)
        norm_num at this ⊢
        exact this
      have fit8 : ∀ x ∈ b.map (fun p => idWord p.id), x < 256 ^ 8 := by
        intro x hx
        obtain ⟨p, _, rfl⟩ := List.mem_map.1 hx
        exact idWord_lt _
      have rd4 := fun (g : PPart → Nat) (hg : ∀ p : PPart, p.Fits → g p < 2 ^ 32) (mem : List Byte) (hm : mem.length = n * 4) (rest : List Byte) =>
        readInto_words sys o rw 4 nRead (Or.inl rfl) (b.map g) (fit4 g hg) mem rest n hm (by rw [hcol]; omega) (by rw [hcol]; omega)
      generalize htail : bs.flatMap (pBlock o) ++ rest = tail at ih
      have hrec : ∀ body : List Byte, body.length ≤ 12 * b.length → InRange 4 ((body.length : Nat) : Int) := fun body h => inRange_length _ (by omega)
      -- the three records
      let R3 := record o (numbers o 4 (b.map fun p => p.w) ++ b.flatMap fun p => putInt o 8 p.id) ++ tail
      let R2 := record o (numbers o 4 (b.map fun p => p.v.1) ++ numbers o 4 (b.map fun p => p.v.2.1) ++ numbers o 4 (b.map fun p => p.v.2.2)) ++ R3
      let n1 : Int := ((numbers o 4 (b.map fun p => p.x.1) ++ numbers o 4 (b.map fun p => p.x.2.1) ++ numbers o 4 (b.map fun p => p.x.2.2)).length : Nat)
      let n2 : Int := ((numbers o 4 (b.map fun p => p.v.1) ++ numbers o 4 (b.map fun p => p.v.2.1) ++ numbers o 4 (b.map fun p => p.v.2.2)).length : Nat)
      let n3 : Int := ((numbers o 4 (b.map fun p => p.w) ++ b.flatMap fun p => putInt o 8 p.id).length : Nat)
      have i1 : InRange 4 n1 := hrec _ (by simp only [List.length_append, numbers_length, hcol]; omega)
      have i2 : InRange 4 n2 := hrec _ (by simp only [List.length_append, numbers_length, hcol]; omega)
      have i3 : InRange 4 n3 := hrec _ (by rw [ids_numbers]; simp only [List.length_append, numbers_length, hcol]; omega)
      obtain ⟨m0, r0, a0, b0⟩ := rd4 (fun p => p.x.1) (fun p h => h.1.1) s.x0 l0 (numbers o 4 (b.map fun p => p.x.2.1) ++ (numbers o 4 (b.map fun p => p.x.2.2) ++ (putInt o 4 n1 ++ R2)))
      obtain ⟨m1, r1, a1, b1⟩ := rd4 (fun p => p.x.2.1) (fun p h => h.1.2.1) s.x1 l1 (numbers o 4 (b.map fun p => p.x.2.2) ++ (putInt o 4 n1 ++ R2))
      obtain ⟨m2, r2, a2, b2⟩ := rd4 (fun p => p.x.2.2) (fun p h => h.1.2.2) s.x2 l2 (putInt o 4 n1 ++ R2)
      obtain ⟨m3, r3, a3, b3⟩ := rd4 (fun p => p.v.1) (fun p h => h.2.1.1) s.v0 l3 (numbers o 4 (b.map fun p => p.v.2.1) ++ (numbers o 4 (b.map fun p => p.v.2.2) ++ (putInt o 4 n2 ++ R3)))
      obtain ⟨m4, r4, a4, b4⟩ := rd4 (fun p => p.v.2.1) (fun p h => h.2.1.2.1) s.v1 l4 (numbers o 4 (b.map fun p => p.v.2.2) ++ (putInt o 4 n2 ++ R3))
      obtain ⟨m5, r5, a5, b5⟩ := rd4 (fun p => p.v.2.2) (fun p h => h.2.1.2.2) s.v2 l5 (putInt o 4 n2 ++ R3)
      obtain ⟨m6, r6, a6, b6⟩ := rd4 (fun p => p.w) (fun p h => h.2.2.1) s.wp l6 (numbers o 8 (b.map fun p => idWord p.id) ++ (putInt o 4 n3 ++ tail))
      obtain ⟨m7, r7, a7, b7⟩ := readInto_words sys o rw 8 nRead (Or.inr rfl) (b.map fun p => idWord p.id) fit8 s.ids (putInt o 4 n3 ++ tail) n l7 (by rw [hcol]; omega) (by rw [hcol]; omega)
      obtain ⟨s', h0, f0, f1, f2, f3, f4, f5, f6, f7⟩ := ih (fun c hc => hfit c (by simp [hc])) (fun c hc => hsize c (by simp [hc])) f (nRead + b.length) ⟨m0, m1, m2, m3, m4, m5, m6, m7⟩ (by omega) (by omega) a0 a1 a2 a3 a4 a5 a6 a7
      rw [List.flatten_cons]
      refine ⟨s', ?_, filled_step _ _ _ _ _ _ _ _ _ _ (by omega) b0 f0, filled_step _ _ _ _ _ _ _ _ _ _ (by omega) b1 f1, filled_step _ _ _ _ _ _ _ _ _ _ (by omega) b2 f2,
        filled_step _ _ _ _ _ _ _ _ _ _ (by omega) b3 f3, filled_step _ _ _ _ _ _ _ _ _ _ (by omega) b4 f4, filled_step _ _ _ _ _ _ _ _ _ _ (by omega) b5 f5,
        filled_step _ _ _ _ _ _ _ _ _ _ (by omega) b6 f6, filled_step _ _ _ _ _ _ _ _ _ _ (by omega) b7 f7⟩
      rw [hcol] at r0 r1 r2 r3 r4 r5 r6 r7
      have hfile : (b :: bs).flatMap (pBlock o) ++ rest = record o (putInt o 4 (b.length : Nat)) ++ (putInt o 4 n1 ++ (numbers o 4 (b.map fun p => p.x.1) ++
          (numbers o 4 (b.map fun p => p.x.2.1) ++ (numbers o 4 (b.map fun p => p.x.2.2) ++ (putInt o 4 n1 ++ R2))))) := by
        rw [List.flatMap_cons, List.append_assoc, htail]
        unfold pBlock
        rw [List.append_assoc]
        congr 1
        rw [List.append_assoc (record o _), List.append_assoc (record o _), record3]
      have hR2 : R2 = putInt o 4 n2 ++ (numbers o 4 (b.map fun p => p.v.1) ++ (numbers o 4 (b.map fun p => p.v.2.1) ++ (numbers o 4 (b.map fun p => p.v.2.2) ++ (putInt o 4 n2 ++ R3)))) := by
        exact record3 o _ _ _ _
      have hR3 : R3 = putInt o 4 n3 ++ (numbers o 4 (b.map fun p => p.w) ++ (numbers o 8 (b.map fun p => idWord p.id) ++ (putInt o 4 n3 ++ tail))) := by
        rw [← ids_numbers]
        exact record2 o _ _ _
      rw [hfile]
      unfold pLoop
      rw [if_pos hlt, fortranRead_record o _ _ (by rw [putInt_length]; norm_num) 4 (putInt_length o 4 _), Option.bind_some]
      simp only
      rw [getInt_putInt o 4 _ hir, if_neg (by push Not; constructor <;> omega)]
      simp only [Int.toNat_natCast]
      rw [readInt32_put o n1 i1, Option.bind_some]
      simp only [r0, r1, r2]
      rw [readInt32_put o n1 i1, Option.bind_some]
      simp only
      rw [hR2, readInt32_put o n2 i2, Option.bind_some]
      simp only [r3, r4, r5]
      rw [readInt32_put o n2 i2, Option.bind_some]
      simp only
      rw [hR3, readInt32_put o n3 i3, Option.bind_some]
      simp only [r6, r7]
      rw [readInt32_put o n3 i3, Option.bind_some]
      exact h0
    · have hb0 : b = [] := List.eq_nil_of_length_eq_zero (by omega)
      have hbs0 : bs.flatten = [] := List.eq_nil_of_length_eq_zero (by omega)
      have hnn : nRead = n := by omega
      subst hnn
      rw [List.flatten_cons, hb0, hbs0, List.append_nil]
      refine ⟨s, ?_, filled_nil _ _ _ _ _ l0, filled_nil _ _ _ _ _ l1, filled_nil _ _ _ _ _ l2, filled_nil _ _ _ _ _ l3, filled_nil _ _ _ _ _ l4, filled_nil _ _ _ _ _ l5, filled_nil _ _ _ _ _ l6, filled_nil _ _ _ _ _ l7⟩
      unfold pLoop
      rw [if_neg hlt]

end Shellfish.Gadget
