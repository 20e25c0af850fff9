import Verif.Lemmas.Gadget

namespace Shellfish.Gadget
open Shellfish.Bytes Shellfish.Io

theorem numbers_length (o : Order) (k : Nat) (xs : List Nat) : (numbers o k xs).length = xs.length * k := block_length o k xs

theorem numbers_append (o : Order) (k : Nat) (xs ys : List Nat) : numbers o k (xs ++ ys) = numbers o k xs ++ numbers o k ys := List.flatMap_append

theorem field_at (o : Order) (k x : Nat) (hx : x < 256 ^ k) (bs pre post : List Byte) (a : Nat) (ha : pre.length = a) (h : bs = pre ++ putNat o k x ++ post) :
    getNat o ((bs.drop a).take k) = x := by
  subst h ha
  rw [List.append_assoc, List.drop_left, List.take_left' (putNat_length o k x), getNat_putNat o k x hx]

theorem fields_at (o : Order) (k : Nat) (xs : List Nat) (hx : ∀ x ∈ xs, x < 256 ^ k) (bs pre post : List Byte) (a n : Nat) (hn : xs.length = n) (ha : pre.length = a)
    (h : bs = pre ++ numbers o k xs ++ post) : fields o bs a k n = xs := by
  subst hn
  unfold fields
  apply List.ext_getElem?
  intro i
  rw [List.getElem?_map]
  by_cases hi : i < xs.length
  · rw [List.getElem?_range hi, Option.map_some, List.getElem?_eq_getElem hi]
    congr 1
    have hsplit : xs = xs.take i ++ xs[i] :: xs.drop (i + 1) := by
      rw [List.cons_getElem_drop_succ, List.take_append_drop]
    apply field_at o k xs[i] (hx _ (List.getElem_mem hi)) bs (pre ++ numbers o k (xs.take i)) (numbers o k (xs.drop (i + 1)) ++ post)
    · rw [List.length_append, numbers_length, ha, List.length_take, Nat.min_eq_left (by omega), Nat.mul_comm]
    · rw [h]
      conv_lhs => rw [hsplit]
      rw [numbers_append]
      have e : numbers o k (xs[i] :: xs.drop (i + 1)) = putNat o k xs[i] ++ numbers o k (xs.drop (i + 1)) := by
        simp only [numbers, List.flatMap_cons]
      rw [e]
      simp only [List.append_assoc]
  · rw [List.getElem?_eq_none (by rw [List.length_range]; omega), List.getElem?_eq_none (by omega)]; rfl

theorem header_length (o : Order) (h : GHeader) (hh : HeaderFits h) : (header o h).length = 256 := by
  obtain ⟨h1, h2, h3, h4, -⟩ := hh
  unfold header
  simp only [List.length_append, numbers_length, h1, h2, h3, h4, List.length_cons, List.length_nil, List.length_replicate]

theorem parse_header (o : Order) (h : GHeader) (hh : HeaderFits h) : GHeader.parse o (header o h) = h := by
  obtain ⟨h1, h2, h3, h4, g1, g2, g3, g4, t1, t2, t3, t4, t5, t6⟩ := hh
  have e4 : (256 : Nat) ^ 4 = 2 ^ 32 := by norm_num
  have e8 : (256 : Nat) ^ 8 = 2 ^ 64 := by norm_num
  unfold GHeader.parse
  have a1 : fields o (header o h) 0 4 6 = h.nPart := by
    refine fields_at o 4 h.nPart (by rw [e4]; exact g1) _ [] (numbers o 8 h.mass ++ numbers o 8 [h.time, h.redshift] ++ numbers o 4 [0, 0] ++ numbers o 4 h.numPartTotal ++ numbers o 4 [0, 0] ++
    numbers o 8 [h.boxSize, h.omega0, h.omegaLambda, h.hubbleParam] ++ numbers o 4 [0, 0] ++ numbers o 4 h.numPartTotalHW ++ List.replicate 64 0) 0 6 h1 rfl ?_
    simp [header]
  have a2 : fields o (header o h) 24 8 6 = h.mass := by
    refine fields_at o 8 h.mass (by rw [e8]; exact g2) _ (numbers o 4 h.nPart) (numbers o 8 [h.time, h.redshift] ++ numbers o 4 [0, 0] ++ numbers o 4 h.numPartTotal ++ numbers o 4 [0, 0] ++
    numbers o 8 [h.boxSize, h.omega0, h.omegaLambda, h.hubbleParam] ++ numbers o 4 [0, 0] ++ numbers o 4 h.numPartTotalHW ++ List.replicate 64 0) 24 6 h2 ?_ ?_
    · rw [numbers_length, h1]
    · simp [header]
  have a3 : fields o (header o h) 96 4 6 = h.numPartTotal := by
    refine fields_at o 4 h.numPartTotal (by rw [e4]; exact g3) _ (numbers o 4 h.nPart ++ numbers o 8 h.mass ++ numbers o 8 [h.time, h.redshift] ++ numbers o 4 [0, 0]) (numbers o 4 [0, 0] ++
    numbers o 8 [h.boxSize, h.omega0, h.omegaLambda, h.hubbleParam] ++ numbers o 4 [0, 0] ++ numbers o 4 h.numPartTotalHW ++ List.replicate 64 0) 96 6 h3 ?_ ?_
    · simp [numbers_length, h1, h2]
    · simp [header]
  have a4 : fields o (header o h) 168 4 6 = h.numPartTotalHW := by
    refine fields_at o 4 h.numPartTotalHW (by rw [e4]; exact g4) _ (numbers o 4 h.nPart ++ numbers o 8 h.mass ++ numbers o 8 [h.time, h.redshift] ++ numbers o 4 [0, 0] ++ numbers o 4 h.numPartTotal ++
    numbers o 4 [0, 0] ++ numbers o 8 [h.boxSize, h.omega0, h.omegaLambda, h.hubbleParam] ++ numbers o 4 [0, 0]) (List.replicate 64 0) 168 6 h4 ?_ ?_
    · simp [numbers_length, h1, h2, h3]
    · simp [header]
  have b1 : getNat o (((header o h).drop 72).take 8) = h.time := by
    refine field_at o 8 h.time (by rw [e8]; exact t1) _ (numbers o 4 h.nPart ++ numbers o 8 h.mass) (numbers o 8 [h.redshift] ++ numbers o 4 [0, 0] ++ numbers o 4 h.numPartTotal ++ numbers o 4 [0, 0] ++
    numbers o 8 [h.boxSize, h.omega0, h.omegaLambda, h.hubbleParam] ++ numbers o 4 [0, 0] ++ numbers o 4 h.numPartTotalHW ++ List.replicate 64 0) 72 ?_ ?_
    · simp [numbers_length, h1, h2]
    · simp [header, numbers]
  have b2 : getNat o (((header o h).drop 80).take 8) = h.redshift := by
    refine field_at o 8 h.redshift (by rw [e8]; exact t2) _ (numbers o 4 h.nPart ++ numbers o 8 h.mass ++ numbers o 8 [h.time]) (numbers o 4 [0, 0] ++ numbers o 4 h.numPartTotal ++ numbers o 4 [0, 0] ++
    numbers o 8 [h.boxSize, h.omega0, h.omegaLambda, h.hubbleParam] ++ numbers o 4 [0, 0] ++ numbers o 4 h.numPartTotalHW ++ List.replicate 64 0) 80 ?_ ?_
    · simp [numbers_length, h1, h2]
    · simp [header, numbers]
  have b3 : getNat o (((header o h).drop 128).take 8) = h.boxSize := by
    refine field_at o 8 h.boxSize (by rw [e8]; exact t3) _ (numbers o 4 h.nPart ++ numbers o 8 h.mass ++ numbers o 8 [h.time, h.redshift] ++ numbers o 4 [0, 0] ++ numbers o 4 h.numPartTotal ++
      numbers o 4 [0, 0]) (numbers o 8 [h.omega0, h.omegaLambda, h.hubbleParam] ++ numbers o 4 [0, 0] ++ numbers o 4 h.numPartTotalHW ++ List.replicate 64 0) 128 ?_ ?_
    · simp [numbers_length, h1, h2, h3]
    · simp [header, numbers]
  have b4 : getNat o (((header o h).drop 136).take 8) = h.omega0 := by
    refine field_at o 8 h.omega0 (by rw [e8]; exact t4) _ (numbers o 4 h.nPart ++ numbers o 8 h.mass ++ numbers o 8 [h.time, h.redshift] ++ numbers o 4 [0, 0] ++ numbers o 4 h.numPartTotal ++
      numbers o 4 [0, 0] ++ numbers o 8 [h.boxSize]) (numbers o 8 [h.omegaLambda, h.hubbleParam] ++ numbers o 4 [0, 0] ++ numbers o 4 h.numPartTotalHW ++ List.replicate 64 0) 136 ?_ ?_
    · simp [numbers_length, h1, h2, h3]
    · simp [header, numbers]
  have b5 : getNat o (((header o h).drop 144).take 8) = h.omegaLambda := by
    refine field_at o 8 h.omegaLambda (by rw [e8]; exact t5) _ (numbers o 4 h.nPart ++ numbers o 8 h.mass ++ numbers o 8 [h.time, h.redshift] ++ numbers o 4 [0, 0] ++ numbers o 4 h.numPartTotal ++
      numbers o 4 [0, 0] ++ numbers o 8 [h.boxSize, h.omega0]) (numbers o 8 [h.hubbleParam] ++ numbers o 4 [0, 0] ++ numbers o 4 h.numPartTotalHW ++ List.replicate 64 0) 144 ?_ ?_
    · simp [numbers_length, h1, h2, h3]
    · simp [header, numbers]
  have b6 : getNat o (((header o h).drop 152).take 8) = h.hubbleParam := by
    refine field_at o 8 h.hubbleParam (by rw [e8]; exact t6) _ (numbers o 4 h.nPart ++ numbers o 8 h.mass ++ numbers o 8 [h.time, h.redshift] ++ numbers o 4 [0, 0] ++ numbers o 4 h.numPartTotal ++
      numbers o 4 [0, 0] ++ numbers o 8 [h.boxSize, h.omega0, h.omegaLambda]) (numbers o 4 [0, 0] ++ numbers o 4 h.numPartTotalHW ++ List.replicate 64 0) 152 ?_ ?_
    · simp [numbers_length, h1, h2, h3]
    · simp [header, numbers]
  rw [a1, a2, a3, a4, b1, b2, b3, b4, b5, b6]

theorem readInt32_put (o : Order) (x : Int) (hx : InRange 4 x) (rest : List Byte) : readInt32 o (putInt o 4 x ++ rest) = some (x, rest) := by
  unfold readInt32
  have hl := putInt_length o 4 x
  rw [if_neg (by rw [List.length_append]; omega), List.take_left' hl, List.drop_left' hl, getInt_putInt o 4 x hx]

theorem inRange_length (l : List Byte) (h : l.length < 2 ^ 31) : InRange 4 (l.length : Int) := by
  unfold InRange
  norm_num at h ⊢
  omega

/-- The header record. -/
theorem readHeader_record (o : Order) (h : GHeader) (hh : HeaderFits h) (rest : List Byte) :
    ∃ s : Int × List Byte, readInt32 o (record o (header o h) ++ rest) = some s ∧ (readHeader o s.2).1 = h ∧ ∃ n : Int, readInt32 o (readHeader o s.2).2 = some (n, rest) := by
  have hl := header_length o h hh
  have hr := inRange_length (header o h) (by omega)
  refine ⟨((header o h).length, header o h ++ putInt o 4 (header o h).length ++ rest), ?_, ?_⟩
  · unfold record
    rw [List.append_assoc, List.append_assoc, readInt32_put o _ hr, List.append_assoc]
  · have e : readHeader o (header o h ++ putInt o 4 (header o h).length ++ rest) = (h, putInt o 4 (header o h).length ++ rest) := by
      unfold readHeader
      rw [if_neg (by simp only [List.length_append]; omega), List.append_assoc, List.take_left' hl, List.drop_left' hl, parse_header o h hh]
    show (readHeader o (header o h ++ putInt o 4 (header o h).length ++ rest)).1 = h ∧ ∃ n : Int, readInt32 o (readHeader o (header o h ++ putInt o 4 (header o h).length ++ rest)).2 = some (n, rest)
    rw [e]
    exact ⟨rfl, _, readInt32_put o _ hr rest⟩

/-- A record of numbers. -/
theorem record_numbers (o : Order) (k : Nat) (xs : List Nat) (rest : List Byte) (h : xs.length * k < 2 ^ 31) :
    readInt32 o (record o (numbers o k xs) ++ rest) = some (((xs.length * k : Nat) : Int), numbers o k xs ++ (putInt o 4 (xs.length * k : Nat) ++ rest)) ∧
      readInt32 o (putInt o 4 ((xs.length * k : Nat) : Int) ++ rest) = some (((xs.length * k : Nat) : Int), rest) := by
  have hl := numbers_length o k xs
  have hr := inRange_length (numbers o k xs) (by omega)
  rw [hl] at hr
  refine ⟨?_, readInt32_put o _ hr rest⟩
  unfold record
  rw [hl, List.append_assoc, List.append_assoc, readInt32_put o _ hr]

theorem triples_flatMap (ps : List (List Nat)) (h : ∀ p ∈ ps, p.length = 3) : triples (ps.flatMap id) = ps := by
  induction ps with
  | nil => rfl
  | cons p ps ih =>
    have hp := h p (by simp)
    match p, hp with
    | [a, b, c], _ =>
      simp only [List.flatMap_cons, id, List.cons_append, List.nil_append, triples]
      rw [ih (fun q hq => h q (by simp [hq]))]

theorem flatMap_length3 (ps : List (List Nat)) (h : ∀ p ∈ ps, p.length = 3) : (ps.flatMap id).length = 3 * ps.length := by
  induction ps with
  | nil => rfl
  | cons p ps ih =>
    have hp := h p (by simp)
    have := ih (fun q hq => h q (by simp [hq]))
    simp only [List.flatMap_cons, id, List.length_append, List.length_cons, hp] at this ⊢
    omega

/-- Reading a block of vectors. -/
theorem readVec_block (sys o : Order) (rw : Nat) (ps : List (List Nat)) (h3 : ∀ p ∈ ps, p.length = 3) (hw : ∀ p ∈ ps, ∀ w ∈ p, w < 2 ^ 32) (mem rest : List Byte)
    (hm : mem.length = ps.length * 12) (hrw : 12 * ps.length ≤ rw) :
    ∃ mem' : List Byte, readVecAsByte sys o rw ps.length mem (numbers o 4 (ps.flatMap id) ++ rest) = (false, mem', rest) ∧ triples (words sys 4 (3 * ps.length) mem') = ps := by
  have hl := flatMap_length3 ps h3
  obtain ⟨mem', h1, h2, h4⟩ := readAsByte_block sys o rw 4 (ps.flatMap id)
    (by intro x hx; obtain ⟨p, hp, hxp⟩ := List.mem_flatMap.mp hx; have := hw p hp x hxp; norm_num at this ⊢; omega) (fun l => swap4 l (ps.length * 3))
    (by intro l; rw [swap4_eq, hl, Nat.mul_comm]) mem rest (by omega) (by omega) (12 * ps.length) (by omega)
  refine ⟨mem', h1, ?_⟩
  rw [hl] at h4
  rw [h4, triples_flatMap ps h3]

theorem signed_mod (k : Nat) (x : Int) (h : InRange k x) : signed k (x % (256 ^ k : Nat)).toNat = x := by
  have := getInt_putInt .little k x h
  unfold getInt putInt at this
  have hpos : (0 : Int) < (256 ^ k : Nat) := by
    have : 0 < 256 ^ k := Nat.pow_pos (by norm_num)
    exact_mod_cast this
  have hm2 := Int.emod_lt_of_pos x hpos
  have hm1 := Int.emod_nonneg x (ne_of_gt hpos)
  rw [putNat_length, getNat_putNat .little k _ (by omega)] at this
  exact this

/-- Reading a block of signed integers. -/
theorem readInts_block (sys o : Order) (rw k : Nat) (xs : List Int) (hx : ∀ x ∈ xs, InRange k x) (swap : List Byte → List Byte) (hs : ∀ l : List Byte, swap l = reorder l k xs.length)
    (mem rest : List Byte) (hm : mem.length = xs.length * k) (hrw : xs.length * k ≤ rw) :
    ∃ mem' : List Byte, readAsByte sys o rw (k * xs.length) swap mem ((xs.flatMap fun x => putInt o k x) ++ rest) = (false, mem', rest) ∧ (words sys k xs.length mem').map (signed k) = xs := by
  have hb : (xs.flatMap fun x => putInt o k x) = block o k (xs.map fun x : Int => (x % (256 ^ k : Nat)).toNat) := by
    unfold block
    rw [List.flatMap_map]; rfl
  rw [hb]
  have hlen : (xs.map fun x : Int => (x % (256 ^ k : Nat)).toNat).length = xs.length := List.length_map _
  obtain ⟨mem', h1, -, h3⟩ := readAsByte_block sys o rw k (xs.map fun x : Int => (x % (256 ^ k : Nat)).toNat)
    (by
      intro y hy
      obtain ⟨x, hxm, rfl⟩ := List.mem_map.mp hy
      have hpos : (0 : Int) < (256 ^ k : Nat) := by
        have : 0 < 256 ^ k := Nat.pow_pos (by norm_num)
        exact_mod_cast this
      have hm2 := Int.emod_lt_of_pos x hpos
      have hm1 := Int.emod_nonneg x (ne_of_gt hpos)
      omega) swap (by rw [hlen]; exact hs) mem rest (by rw [hlen]; exact hm) (by rw [hlen]; exact hrw) (k * xs.length) (by rw [hlen, Nat.mul_comm])
  refine ⟨mem', h1, ?_⟩
  rw [hlen] at h3
  rw [h3, List.map_map]
  conv_rhs => rw [← List.map_id xs]
  apply List.map_congr_left
  intro x hxm
  exact signed_mod k x (hx x hxm)

end Shellfish.Gadget
