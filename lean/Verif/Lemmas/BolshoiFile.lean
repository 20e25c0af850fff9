import Verif.Lemmas.Bolshoi

namespace Shellfish.Gadget
open Shellfish.Bytes Shellfish.Io

theorem fortranRead_record (o : Order) (body rest : List Byte) (h : body.length < 2 ^ 31) (size : Nat) (hs : body.length = size) : fortranRead o size (record o body ++ rest) = some (body, rest) := by
  subst hs
  have hr := inRange_length body h
  unfold fortranRead record
  rw [List.append_assoc, List.append_assoc, readInt32_put o _ hr, Option.bind_some, if_neg (by simp), if_neg (by simp [List.length_append])]
  simp only
  rw [List.drop_left, readInt32_put o _ hr, Option.bind_some, if_neg (by simp), List.take_left]

theorem pieces_add (k a b : Nat) (l : List Byte) (h : a * k ≤ l.length) : pieces k (a + b) l = pieces k a (l.take (a * k)) ++ pieces k b (l.drop (a * k)) := by
  induction a generalizing l with
  | zero => simp [pieces]
  | succ a ih =>
    have hk : (a + 1) * k = a * k + k := by rw [Nat.add_mul, Nat.one_mul]
    have e : a + 1 + b = (a + b) + 1 := by omega
    rw [e]
    simp only [pieces, List.cons_append]
    rw [ih _ (by rw [List.length_drop]; omega), List.take_take, Nat.min_eq_left (by omega), List.drop_drop, List.drop_take, hk, Nat.add_sub_cancel, Nat.add_comm k]

theorem record_length (o : Order) (body : List Byte) : (record o body).length = body.length + 8 := by
  unfold record
  simp only [List.length_append, putInt_length]; omega

theorem bolshoiLoop_blocks (sys o : Order) (rw : Nat) (hrw : rw < 2 ^ 31) (nPart : Nat) (blocks : List (List BParticle)) (hfit : ∀ b ∈ blocks, ∀ p ∈ b, p.Fits)
    (hsize : ∀ b ∈ blocks, 32 * b.length ≤ rw) (fuel nRead : Nat) (mem rest : List Byte) (hfuel : blocks.length < fuel) (hm : mem.length = nPart * 32) (hn : nRead + blocks.flatten.length = nPart) :
    ∃ mem' : List Byte, bolshoiLoop sys o rw nPart fuel nRead mem
        ((blocks.flatMap fun b => record o (putInt o 4 (b.length : Nat)) ++ record o (b.flatMap (bparticle o))) ++ rest) = some mem' ∧
      mem'.length = nPart * 32 ∧ mem'.take (nRead * 32) = mem.take (nRead * 32) ∧ (pieces 32 blocks.flatten.length (mem'.drop (nRead * 32))).map (.get sys) = blocks.flatten := by
  induction blocks generalizing fuel nRead mem with
  | nil =>
    obtain ⟨f, rfl⟩ : ∃ f, fuel = f + 1 := ⟨fuel - 1, by simp at hfuel; omega⟩
    simp only [List.flatten_nil, List.length_nil] at hn ⊢
    refine ⟨mem, ?_, hm, rfl, rfl⟩
    unfold bolshoiLoop
    rw [if_neg (by omega)]
  | cons b bs ih =>
    obtain ⟨f, rfl⟩ : ∃ f, fuel = f + 1 := ⟨fuel - 1, by simp at hfuel; omega⟩
    simp only [List.length_cons] at hfuel
    rw [List.flatten_cons, List.length_append] at hn
    by_cases hlt : nRead < nPart
    · have hbs := hsize b (by simp)
      have hbf := hfit b (by simp)
      have hbl : (b.flatMap (bparticle o)).length = 32 * b.length := by
        have := flatten_length 32 (b.map (·.put o)) (by intro c hc; obtain ⟨p, h, rfl⟩ := List.mem_map.mp hc; exact put_length o p (hbf p h))
        rw [List.length_map] at this
        have e : (b.flatMap (bparticle o)).length = ((b.map (·.put o)).flatten).length := rfl
        rw [e, this, Nat.mul_comm]
      have hir : InRange 4 ((b.length : Nat) : Int) := by
        unfold InRange; norm_num at hrw ⊢; omega
      have hslice : ((mem.take ((nRead + b.length) * 32)).drop (nRead * 32)).length = b.length * 32 := by
        rw [List.length_drop, List.length_take, hm, Nat.min_eq_left (by omega), Nat.add_mul]; omega
      generalize htail : (bs.flatMap fun b => record o (putInt o 4 (b.length : Nat)) ++ record o (b.flatMap (bparticle o))) ++ rest = tail at ih
      obtain ⟨q, hq1, hq2, hq3⟩ := readBolshoi_block sys o rw b hbf ((mem.take ((nRead + b.length) * 32)).drop (nRead * 32)) (putInt o 4 ((b.flatMap (bparticle o)).length : Nat) ++ tail) hslice hbs
      have hcl : (copyTo mem (nRead * 32) ((nRead + b.length) * 32) q).length = nPart * 32 := by
        unfold copyTo
        rw [List.length_append, List.length_append, List.length_take, List.length_drop, hq2, hm]; omega
      have hct : (copyTo mem (nRead * 32) ((nRead + b.length) * 32) q).take ((nRead + b.length) * 32) = mem.take (nRead * 32) ++ q := by
        unfold copyTo
        rw [List.take_left' (by rw [List.length_append, List.length_take, hq2, hm]; omega)]
      obtain ⟨mem', h1, h2, h3, h4⟩ := ih (fun c hc => hfit c (by simp [hc])) (fun c hc => hsize c (by simp [hc])) f (nRead + b.length) (copyTo mem (nRead * 32) ((nRead + b.length) * 32) q) (by omega) hcl (by omega)
      have hmt : (mem.take (nRead * 32)).length = nRead * 32 := by rw [List.length_take, hm]; omega
      rw [hct] at h3
      refine ⟨mem', ?_, h2, ?_, ?_⟩
      · rw [List.flatMap_cons, List.append_assoc, htail]
        unfold bolshoiLoop
        rw [if_pos hlt, List.append_assoc, fortranRead_record o _ _ (by rw [putInt_length]; norm_num) 4 (putInt_length o 4 _), Option.bind_some]
        simp only
        unfold record
        rw [List.append_assoc, List.append_assoc, readInt32_put o _ (inRange_length _ (by omega)), Option.bind_some, getInt_putInt o 4 _ hir, if_neg (by push_neg; constructor <;> omega)]
        simp only [Int.toNat_natCast]
        have hq1' : readBolshoiParticleAsByte sys o rw b.length ((mem.take ((nRead + b.length) * 32)).drop (nRead * 32))
            (b.flatMap (bparticle o) ++ (putInt o 4 ((b.flatMap (bparticle o)).length : Nat) ++ tail)) = (false, q, putInt o 4 ((b.flatMap (bparticle o)).length : Nat) ++ tail) := hq1
        rw [hq1']
        simp only
        rw [readInt32_put o _ (inRange_length _ (by omega)), Option.bind_some]
        exact h1
      · have := congrArg (List.take (nRead * 32)) h3
        rw [List.take_take, Nat.min_eq_left (by omega), List.take_left' hmt] at this
        exact this
      · rw [List.flatten_cons, List.length_append, pieces_add 32 b.length _ _ (by rw [List.length_drop, h2]; omega), List.map_append, List.drop_drop]
        have e1 : (mem'.drop (nRead * 32)).take (b.length * 32) = q := by
          have := congrArg (List.drop (nRead * 32)) h3
          rw [List.drop_left' hmt, List.drop_take] at this
          have e : (nRead + b.length) * 32 - nRead * 32 = b.length * 32 := by omega
          rw [e] at this
          exact this
        rw [e1, hq3]
        have e2 : nRead * 32 + b.length * 32 = (nRead + b.length) * 32 := by ring
        rw [e2, h4]
    · have hb0 : b.length = 0 := by omega
      have hbs0 : bs.flatten.length = 0 := by omega
      refine ⟨mem, ?_, hm, rfl, ?_⟩
      · unfold bolshoiLoop
        rw [if_neg hlt]
      · rw [List.flatten_cons, List.length_append, hb0, hbs0, List.eq_nil_of_length_eq_zero hb0, List.eq_nil_of_length_eq_zero hbs0]
        rfl

theorem bolshoiRaw_file (sys o : Order) (rw : Nat) (hrw : rw < 2 ^ 31) (comment h1 h2 boundary : List Byte) (l1 : comment.length = 45) (l2 : h1.length = 44) (l3 : h2.length = 20)
    (l4 : boundary.length = 24) (blocks : List (List BParticle)) (hfit : ∀ b ∈ blocks, ∀ p ∈ b, p.Fits) (hsize : ∀ b ∈ blocks, 32 * b.length ≤ rw) (hn : blocks.flatten.length < 2 ^ 31)
    (mem : List Byte) (hmem : 32 ∣ mem.length) :
    bolshoiRaw sys o rw mem (bolshoiFile o comment h1 h2 boundary blocks) = some blocks.flatten := by
  have hir : InRange 4 ((blocks.flatten.length : Nat) : Int) := by
    unfold InRange; norm_num at hn ⊢; omega
  generalize hfile : bolshoiFile o comment h1 h2 boundary blocks = fl
  have hfuel : blocks.length < fl.length + 1 := by
    rw [← hfile]
    unfold bolshoiFile
    rw [List.length_append]
    have : blocks.length ≤ (blocks.flatMap fun b => record o (putInt o 4 (b.length : Nat)) ++ record o (b.flatMap (bparticle o))).length := by
      clear hfit hsize hn hir hfile
      induction blocks with
      | nil => simp
      | cons b bs ih =>
        rw [List.flatMap_cons, List.length_append, List.length_append, record_length, record_length, List.length_cons]
        omega
    omega
  obtain ⟨mem', g1, g2, -, g4⟩ := bolshoiLoop_blocks sys o rw hrw blocks.flatten.length blocks hfit hsize (fl.length + 1) 0 (expand 32 blocks.flatten.length mem) [] hfuel
    (expand_length 32 _ (by norm_num) _ hmem) (by omega)
  rw [List.append_nil] at g1
  unfold bolshoiRaw
  have hflat : fl = record o comment ++ (record o h1 ++ (record o h2 ++ (record o boundary ++ (record o (putInt o 4 (blocks.flatten.length : Nat)) ++
    blocks.flatMap fun b => record o (putInt o 4 (b.length : Nat)) ++ record o (b.flatMap (bparticle o)))))) := by
    rw [← hfile]; unfold bolshoiFile; simp only [List.append_assoc]
  generalize fl.length + 1 = fuel at g1 ⊢
  rw [hflat, fortranRead_record o _ _ (by omega) 45 l1, Option.bind_some]
  simp only
  rw [fortranRead_record o _ _ (by omega) 44 l2, Option.bind_some]
  simp only
  rw [fortranRead_record o _ _ (by omega) 20 l3, Option.bind_some]
  simp only
  rw [fortranRead_record o _ _ (by omega) 24 l4, Option.bind_some]
  simp only
  rw [fortranRead_record o _ _ (by rw [putInt_length]; norm_num) 4 (putInt_length o 4 _), Option.bind_some]
  simp only
  rw [getInt_putInt o 4 _ hir, if_neg (by omega)]
  simp only [Int.toNat_natCast]
  rw [g1, Option.map_some]
  rw [Nat.zero_mul, List.drop_zero] at g4
  rw [g4]

end Shellfish.Gadget
