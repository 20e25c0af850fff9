import Verif.Lemmas.GadgetFile

namespace Shellfish.Io
open Shellfish.Bytes

/-- The swap of one Bolshoi particle. -/
def swap32 (c : List Byte) : List Byte := reorder (c.take 24) 4 6 ++ reorder (c.drop 24) 8 1

theorem swap32_length (c : List Byte) : (swap32 c).length = c.length := by
  unfold swap32
  rw [List.length_append, reorder_length, reorder_length, List.length_take, List.length_drop]; omega

theorem flatten_length (k : Nat) (cs : List (List Byte)) (h : ∀ c ∈ cs, c.length = k) : cs.flatten.length = cs.length * k := by
  induction cs with
  | nil => simp
  | cons c cs ih =>
    rw [List.flatten_cons, List.length_append, h c (by simp), ih (fun d hd => h d (by simp [hd])), List.length_cons]
    ring

theorem onSlice_append (pre mid post : List Byte) (a b : Nat) (f : List Byte → List Byte) (ha : pre.length = a) (hb : pre.length + mid.length = b) :
    onSlice (pre ++ mid ++ post) a b f = pre ++ f mid ++ post := by
  subst ha hb
  unfold onSlice
  have e1 : (pre ++ mid ++ post).take pre.length = pre := by rw [List.append_assoc, List.take_left]
  have e2 : (pre ++ mid ++ post).take (pre.length + mid.length) = pre ++ mid := List.take_left' (by rw [List.length_append])
  have e3 : (pre ++ mid ++ post).drop (pre.length + mid.length) = post := List.drop_left' (by rw [List.length_append])
  rw [e1, e2, e3, List.drop_left]

theorem swapBolshoi_step (pre c post : List Byte) (i : Nat) (hp : pre.length = i * 32) (hc : c.length = 32) :
    onSlice (onSlice (pre ++ c ++ post) (i * 32) (i * 32 + 24) fun s => reorder s 4 6) (i * 32 + 24) (i * 32 + 24 + 8) (fun s => reorder s 8 1) = pre ++ swap32 c ++ post := by
  have e : pre ++ c ++ post = pre ++ c.take 24 ++ (c.drop 24 ++ post) := by
    rw [List.append_assoc, List.append_assoc, ← List.append_assoc (c.take 24), List.take_append_drop]
  have l1 : (c.take 24).length = 24 := by rw [List.length_take]; omega
  have l2 : (c.drop 24).length = 8 := by rw [List.length_drop]; omega
  rw [e, onSlice_append pre (c.take 24) (c.drop 24 ++ post) _ _ _ hp (by omega)]
  have e2 : pre ++ reorder (c.take 24) 4 6 ++ (c.drop 24 ++ post) = (pre ++ reorder (c.take 24) 4 6) ++ c.drop 24 ++ post := by
    rw [List.append_assoc]; simp only [List.append_assoc]
  rw [e2, onSlice_append (pre ++ reorder (c.take 24) 4 6) (c.drop 24) post]
  · unfold swap32; simp only [List.append_assoc]
  · rw [List.length_append, reorder_length]; omega
  · rw [List.length_append, reorder_length]; omega

theorem swapBolshoi_flatten (cs : List (List Byte)) (h : ∀ c ∈ cs, c.length = 32) : swapBolshoi cs.flatten cs.length = (cs.map swap32).flatten := by
  have key : ∀ m ≤ cs.length, (List.range m).foldl
      (fun l i => onSlice (onSlice l (i * 32) (i * 32 + 24) fun s => reorder s 4 6) (i * 32 + 24) (i * 32 + 24 + 8) fun s => reorder s 8 1) cs.flatten =
      ((cs.take m).map swap32).flatten ++ (cs.drop m).flatten := by
    intro m hm
    induction m with
    | zero => simp
    | succ m ih =>
      have hlt : m < cs.length := by omega
      rw [List.range_succ, List.foldl_append, ih (by omega), List.foldl_cons, List.foldl_nil]
      have e1 : (cs.drop m).flatten = cs[m] ++ (cs.drop (m + 1)).flatten := by
        rw [← List.cons_getElem_drop_succ (h := hlt), List.flatten_cons]
      have e2 : cs.take (m + 1) = cs.take m ++ [cs[m]] := by
        rw [List.take_add_one, List.getElem?_eq_getElem hlt]; rfl
      rw [e1, ← List.append_assoc, swapBolshoi_step _ _ _ m ?_ (h _ (List.getElem_mem hlt)), e2, List.map_append, List.flatten_append]
      · simp
      · rw [flatten_length 32 _ ?_, List.length_map, List.length_take, Nat.min_eq_left (by omega)]
        intro c hc
        obtain ⟨d, hd, rfl⟩ := List.mem_map.mp hc
        rw [swap32_length]
        exact h d (List.mem_of_mem_take hd)
  unfold swapBolshoi
  rw [key cs.length (le_refl _), List.take_length, List.drop_length]
  simp

theorem pieces_flatten (k : Nat) (cs : List (List Byte)) (h : ∀ c ∈ cs, c.length = k) : pieces k cs.length cs.flatten = cs := by
  induction cs with
  | nil => rfl
  | cons c cs ih =>
    simp only [List.length_cons, pieces, List.flatten_cons]
    rw [List.take_left' (h c (by simp)), List.drop_left' (h c (by simp)), ih (fun d hd => h d (by simp [hd]))]

theorem flatten_pieces (k n : Nat) (l : List Byte) (h : l.length = n * k) : (pieces k n l).flatten = l := by
  induction n generalizing l with
  | zero => rw [Nat.zero_mul] at h; rw [List.eq_nil_of_length_eq_zero h]; rfl
  | succ n ih =>
    have hk : (n + 1) * k = n * k + k := by rw [Nat.add_mul, Nat.one_mul]
    simp only [pieces, List.flatten_cons]
    rw [ih _ (by rw [List.length_drop]; omega), List.take_append_drop]

theorem pieces_length_each (k n : Nat) (l : List Byte) (h : l.length = n * k) : ∀ c ∈ pieces k n l, c.length = k := by
  induction n generalizing l with
  | zero => intro c hc; simp [pieces] at hc
  | succ n ih =>
    have hk : (n + 1) * k = n * k + k := by rw [Nat.add_mul, Nat.one_mul]
    intro c hc
    simp only [pieces, List.mem_cons] at hc
    rcases hc with rfl | hc
    · rw [List.length_take]; omega
    · exact ih _ (by rw [List.length_drop]; omega) c hc

theorem swap32_swap32 (c : List Byte) (h : c.length = 32) : swap32 (swap32 c) = c := by
  have l1 : (reorder (c.take 24) 4 6).length = 24 := by rw [reorder_length, List.length_take]; omega
  have e : swap32 (swap32 c) = reorder (reorder (c.take 24) 4 6) 4 6 ++ reorder (reorder (c.drop 24) 8 1) 8 1 := by
    unfold swap32
    rw [List.take_left' l1, List.drop_left' l1]
  rw [e, reorder_reorder _ _ _ (by rw [List.length_take]; omega), reorder_reorder _ _ _ (by rw [List.length_drop]; omega), List.take_append_drop]

theorem swapBolshoi_swapBolshoi (l : List Byte) (n : Nat) (h : l.length = n * 32) : swapBolshoi (swapBolshoi l n) n = l := by
  have hp := pieces_length_each 32 n l h
  have hl := pieces_length 32 n l
  have hf := flatten_pieces 32 n l h
  have e1 := swapBolshoi_flatten (pieces 32 n l) hp
  rw [hl, hf] at e1
  have e2 := swapBolshoi_flatten ((pieces 32 n l).map swap32) (by
    intro c hc; obtain ⟨d, hd, rfl⟩ := List.mem_map.mp hc; rw [swap32_length, hp d hd])
  rw [List.length_map, hl, List.map_map] at e2
  rw [e1, e2]
  conv_rhs => rw [← hf]
  congr 1
  conv_rhs => rw [← List.map_id (pieces 32 n l)]
  apply List.map_congr_left
  intro c hc
  exact swap32_swap32 c (hp c hc)

/-! Particles -/

/-- A particle as it is stored in a file: six float32 and an int64. -/
def BParticle.put (o : Order) (p : BParticle) : List Byte := block o 4 p.x ++ block o 4 p.v ++ putInt o 8 p.id

/-- A particle fits into the format. -/
def BParticle.Fits (p : BParticle) : Prop := p.x.length = 3 ∧ p.v.length = 3 ∧ (∀ w ∈ p.x, w < 2 ^ 32) ∧ (∀ w ∈ p.v, w < 2 ^ 32) ∧ InRange 8 p.id

theorem put_length (o : Order) (p : BParticle) (h : p.Fits) : (p.put o).length = 32 := by
  unfold BParticle.put
  rw [List.length_append, List.length_append, block_length, block_length, putInt_length, h.1, h.2.1]

theorem get_put (o : Order) (p : BParticle) (h : p.Fits) : BParticle.get o (p.put o) = p := by
  obtain ⟨h1, h2, h3, h4, h5⟩ := h
  have l1 : (block o 4 p.x).length = 12 := by rw [block_length, h1]
  have l2 : (block o 4 p.v).length = 12 := by rw [block_length, h2]
  have l3 := putInt_length o 8 p.id
  have e1 : (p.put o).take 12 = block o 4 p.x := by
    unfold BParticle.put; rw [List.append_assoc, List.take_left' l1]
  have e2 : ((p.put o).drop 12).take 12 = block o 4 p.v := by
    unfold BParticle.put; rw [List.append_assoc, List.drop_left' l1, List.take_left' l2]
  have e3 : ((p.put o).drop 24).take 8 = putInt o 8 p.id := by
    unfold BParticle.put; rw [List.drop_left' (by rw [List.length_append]; omega), List.take_of_length_le (by omega)]
  unfold BParticle.get
  rw [e1, e2, e3]
  have w1 := words_block o 4 p.x (by intro x hx; have := h3 x hx; norm_num at this ⊢; exact this)
  have w2 := words_block o 4 p.v (by intro x hx; have := h4 x hx; norm_num at this ⊢; exact this)
  rw [h1] at w1; rw [h2] at w2
  have w3 := getInt_putInt o 8 p.id h5
  unfold getInt at w3
  rw [l3] at w3
  rw [w1, w2, w3]

theorem get_swap32 (sys o : Order) (ho : o ≠ sys) (c : List Byte) (hc : c.length = 32) : BParticle.get sys (swap32 c) = BParticle.get o c := by
  have l1 : (reorder (c.take 24) 4 6).length = 24 := by rw [reorder_length, List.length_take]; omega
  have l2 : (reorder (c.drop 24) 8 1).length = 8 := by rw [reorder_length, List.length_drop]; omega
  have hp6 : words sys 4 6 (reorder (c.take 24) 4 6) = words o 4 6 (c.take 24) := words_reorder sys o ho 4 6 _ (by rw [List.length_take]; omega)
  have split6 : ∀ (s : Order) (l : List Byte), words s 4 6 l = words s 4 3 (l.take 12) ++ words s 4 3 ((l.drop 12).take 12) := by
    intro s l
    unfold words
    simp only [pieces, List.map_cons, List.map_nil, List.cons_append, List.nil_append, List.drop_drop, List.take_take, List.drop_take, Nat.reduceAdd, Nat.reduceSub, Nat.reduceMul]
    norm_num
  have e1 : (swap32 c).take 24 = reorder (c.take 24) 4 6 := by unfold swap32; rw [List.take_left' l1]
  have e2 : (swap32 c).drop 24 = reorder (c.drop 24) 8 1 := by unfold swap32; rw [List.drop_left' l1]
  have t1 : ∀ l : List Byte, l.take 12 = (l.take 24).take 12 := by intro l; rw [List.take_take]; norm_num
  have t2 : ∀ l : List Byte, (l.drop 12).take 12 = ((l.take 24).drop 12).take 12 := by intro l; rw [List.drop_take, List.take_take]; norm_num
  rw [split6, split6] at hp6
  have hlen : (words sys 4 3 ((reorder (c.take 24) 4 6).take 12)).length = (words o 4 3 ((c.take 24).take 12)).length := by
    unfold words; rw [List.length_map, List.length_map, pieces_length, pieces_length]
  obtain ⟨w1, w2⟩ := List.append_inj hp6 hlen
  unfold BParticle.get
  rw [t1 (swap32 c), t2 (swap32 c), e1, w1, w2, ← t1, ← t2, e2]
  have hp1 : words sys 8 1 (reorder (c.drop 24) 8 1) = words o 8 1 (c.drop 24) := words_reorder sys o ho 8 1 _ (by rw [List.length_drop]; omega)
  unfold words at hp1
  simp only [pieces, List.map_cons, List.map_nil, List.cons.injEq, and_true] at hp1
  rw [hp1]

/-- One successful `Read` of a block of particles. -/
theorem readBolshoi_block (sys o : Order) (rw : Nat) (ps : List BParticle) (hp : ∀ p ∈ ps, p.Fits) (mem rest : List Byte) (hm : mem.length = ps.length * 32) (hrw : 32 * ps.length ≤ rw) :
    ∃ mem' : List Byte, readBolshoiParticleAsByte sys o rw ps.length mem ((ps.flatMap (·.put o)) ++ rest) = (false, mem', rest) ∧ mem'.length = ps.length * 32 ∧
      (pieces 32 ps.length mem').map (.get sys) = ps := by
  have hall : ∀ c ∈ ps.map (·.put o), c.length = 32 := by
    intro c hc; obtain ⟨p, h, rfl⟩ := List.mem_map.mp hc; exact put_length o p (hp p h)
  have hb : (ps.flatMap (·.put o)).length = ps.length * 32 := by
    have := flatten_length 32 _ hall
    rw [List.length_map] at this
    rw [← this]; rfl
  have hr : fileRead rw (32 * ps.length) ((ps.flatMap (·.put o)) ++ rest) = (some (ps.flatMap (·.put o)), rest) := by
    unfold fileRead
    by_cases h0 : 32 * ps.length = 0
    · have : (ps.flatMap (·.put o)) = [] := List.eq_nil_of_length_eq_zero (by omega)
      rw [if_pos h0, this]; rfl
    · rw [if_neg h0, if_neg (by intro h; have := congrArg List.length h; simp only [List.length_append, List.length_nil] at this; omega), Nat.min_eq_left hrw]
      rw [List.take_left' (by omega), List.drop_left' (by omega)]
  unfold readBolshoiParticleAsByte readAsByte
  rw [hr]
  simp only
  rw [List.drop_of_length_le (by omega), List.append_nil]
  have hpc : pieces 32 ps.length (ps.flatMap (·.put o)) = ps.map (·.put o) := by
    have := pieces_flatten 32 _ hall
    rw [List.length_map] at this
    exact this
  by_cases ho : o = sys
  · subst ho
    refine ⟨_, by rw [if_pos rfl], hb, ?_⟩
    rw [hpc, List.map_map]
    conv_rhs => rw [← List.map_id ps]
    apply List.map_congr_left
    intro p h
    exact get_put o p (hp p h)
  · have hs := swapBolshoi_flatten _ hall
    rw [List.length_map] at hs
    have hs' : swapBolshoi (ps.flatMap (·.put o)) ps.length = ((ps.map (·.put o)).map swap32).flatten := hs
    have hall2 : ∀ c ∈ (ps.map (·.put o)).map swap32, c.length = 32 := by
      intro c hc; obtain ⟨d, h, rfl⟩ := List.mem_map.mp hc; rw [swap32_length, hall d h]
    refine ⟨_, by rw [if_neg ho], ?_, ?_⟩
    · rw [hs', flatten_length 32 _ hall2, List.length_map, List.length_map]
    · have := pieces_flatten 32 _ hall2
      rw [List.length_map, List.length_map] at this
      rw [hs', this, List.map_map, List.map_map]
      conv_rhs => rw [← List.map_id ps]
      apply List.map_congr_left
      intro p h
      show BParticle.get sys (swap32 (p.put o)) = p
      rw [get_swap32 sys o ho _ (put_length o p (hp p h)), get_put o p (hp p h)]

end Shellfish.Io
