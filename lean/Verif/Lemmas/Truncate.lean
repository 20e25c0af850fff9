import Verif.Lemmas.GadgetRead
import Verif.Lemmas.BolshoiFile

namespace Shellfish.Gadget
open Shellfish.Bytes Shellfish.Io

theorem readInt32_take (o : Order) (x : Int) (hx : InRange 4 x) (rest : List Byte) (m : Nat) :
    readInt32 o ((putInt o 4 x ++ rest).take m) = if m < 4 then none else some (x, rest.take (m - 4)) := by
  have hl := putInt_length o 4 x
  by_cases h : m < 4
  · rw [if_pos h]
    unfold readInt32
    rw [if_pos (by rw [List.length_take]; omega)]
  · rw [if_neg h]
    have e : (putInt o 4 x ++ rest).take m = putInt o 4 x ++ rest.take (m - 4) := by
      rw [List.take_append, hl, List.take_of_length_le (by omega)]
    rw [e, readInt32_put o x hx]

theorem readInt32_nil (o : Order) : readInt32 o [] = none := by
  unfold readInt32; rw [if_pos (by simp)]

theorem readAsByte_take (sys o : Order) (rw len : Nat) (swap : List Byte → List Byte) (mem blk rest : List Byte) (hb : blk.length = len) (hrw : len ≤ rw) (m : Nat) :
    (readAsByte sys o rw len swap mem ((blk ++ rest).take m)).2.2 = if m < len then [] else rest.take (m - len) := by
  have key : (fileRead rw len ((blk ++ rest).take m)).2 = if m < len then [] else rest.take (m - len) := by
    unfold fileRead
    by_cases h0 : len = 0
    · rw [if_pos h0, if_neg (by omega)]
      have : blk = [] := List.eq_nil_of_length_eq_zero (by omega)
      rw [this, h0]; simp
    · rw [if_neg h0]
      by_cases hm : m < len
      · rw [if_pos hm]
        split
        · rfl
        · simp only
          rw [List.drop_of_length_le (by rw [List.length_take, Nat.min_eq_left hrw]; omega)]
      · rw [if_neg hm, if_neg]
        · simp only
          rw [Nat.min_eq_left hrw, List.take_append, hb, List.drop_append, List.drop_of_length_le (by rw [List.length_take]; omega), List.nil_append, List.length_take, hb, Nat.min_eq_right (by omega)]
          simp
        · intro h
          have := congrArg List.length h
          rw [List.length_take, List.length_append, List.length_nil] at this
          omega
  unfold readAsByte
  rw [← key]
  cases fileRead rw len ((blk ++ rest).take m) with
  | mk a b => cases a <;> rfl

theorem readHeader_take (o o' : Order) (hdr rest : List Byte) (hl : hdr.length = 256) (m : Nat) :
    readHeader o' ((hdr ++ rest).take m) = if m < 256 then (.zero, []) else (.parse o' hdr, rest.take (m - 256)) := by
  unfold readHeader
  by_cases h : m < 256
  · rw [if_pos h, if_pos (by rw [List.length_take]; omega)]
  · rw [if_neg h]
    have e : (hdr ++ rest).take m = hdr ++ rest.take (m - 256) := by
      rw [List.take_append, hl, List.take_of_length_le (by omega)]
    rw [e, if_neg (by rw [List.length_append]; omega), List.take_left' hl, List.drop_left' hl]

theorem record_take (o : Order) (body rest : List Byte) (h : body.length < 2 ^ 31) (m : Nat) :
    readInt32 o ((record o body ++ rest).take m) = if m < 4 then none else some ((body.length : Int), (body ++ (putInt o 4 (body.length : Nat) ++ rest)).take (m - 4)) := by
  unfold record
  rw [List.append_assoc, List.append_assoc, readInt32_take o _ (inRange_length _ h)]

/-- The end of a record. -/
theorem tail_take (o : Order) (n : Nat) (h : n < 2 ^ 31) (rest : List Byte) (m : Nat) :
    readInt32 o ((putInt o 4 (n : Nat) ++ rest).take m) = if m < 4 then none else some ((n : Int), rest.take (m - 4)) := by
  apply readInt32_take
  unfold InRange; norm_num at h ⊢; omega

theorem common_flat_length (o : Order) (k : Nat) (ps : List Particle) (hfits : ∀ p ∈ ps, p.Fits k) :
    (numbers o 4 (ps.flatMap Particle.x)).length = 12 * ps.length ∧ (numbers o 4 (ps.flatMap Particle.v)).length = 12 * ps.length ∧ (ps.flatMap fun p => putInt o k p.id).length = ps.length * k := by
  refine ⟨?_, ?_, ?_⟩
  · rw [numbers_length]
    induction ps with
    | nil => rfl
    | cons p ps ih =>
      have := ih (fun q hq => hfits q (by simp [hq]))
      rw [List.flatMap_cons, List.length_append, (hfits p (by simp)).1, List.length_cons]; omega
  · rw [numbers_length]
    induction ps with
    | nil => rfl
    | cons p ps ih =>
      have := ih (fun q hq => hfits q (by simp [hq]))
      rw [List.flatMap_cons, List.length_append, (hfits p (by simp)).2.1, List.length_cons]; omega
  · clear hfits
    induction ps with
    | nil => simp
    | cons p ps ih => rw [List.flatMap_cons, List.length_append, putInt_length, ih, List.length_cons]; ring

/-- Truncated Gadget-2 files. -/
theorem gadget2Raw_truncated (sys o : Order) (rw k : Nat) (hk : k = 8 ∨ k = 4) (hrw : rw < 2 ^ 31) (to32 : Nat → Nat) (dm single : List Int) (mem : Mem) (h : GHeader) (hh : HeaderFits h)
    (byType : List (List Particle)) (h6 : byType.length = 6) (hn : h.nPart = byType.map List.length) (hp : ∀ c ∈ typed byType, c.2.Fits k)
    (hsize : 12 * (typed byType).length ≤ rw) (m : Nat) (hm : m < (file o k true h single byType).length) :
    gadget2Raw sys o rw to32 dm single mem ((file o k true h single byType).take m) = none := by
  have htot : countTypes (fun _ => true) h.nPart = (typed byType).length := by
    rw [hn, count_typed byType h6, List.filter_true]
  have hfits : ∀ p ∈ (typed byType).map Prod.snd, p.Fits k := by
    intro p hp'
    obtain ⟨c, hc, rfl⟩ := List.mem_map.mp hp'
    exact hp c hc
  have hlen : (typed byType).length = ((typed byType).map Prod.snd).length := by rw [List.length_map]
  have hmulti : countTypes (isMultiMass single) h.nPart = (((typed byType).filter fun c => ¬ (c.1 : Int) ∈ single).map (fun c => c.2.mass)).length := by
    rw [List.length_map, hn, count_typed byType h6]
    congr 2
    funext c
    rw [isMultiMass_iff]
  unfold file at hm ⊢
  rw [if_pos rfl] at hm ⊢
  unfold common massBlock at hm ⊢
  generalize (typed byType).map Prod.snd = ps at *
  have hMle : (((typed byType).filter fun c => ¬ (c.1 : Int) ∈ single).map (fun c => c.2.mass)).length ≤ ps.length := by
    rw [List.length_map, ← hlen]; exact List.length_filter_le _ _
  generalize ((typed byType).filter fun c => ¬ (c.1 : Int) ∈ single).map (fun c => c.2.mass) = mm at *
  rw [hlen] at htot hsize
  obtain ⟨lx, lv, li⟩ := common_flat_length o k ps hfits
  have lh := header_length o h hh
  have lm := numbers_length o 4 mm
  have hkb : ps.length * k ≤ 8 * ps.length := by rcases hk with rfl | rfl <;> omega
  simp only [List.length_append, record_length, lx, lv, li, lh, lm] at hm
  generalize numbers o 4 (ps.flatMap Particle.x) = X at *
  generalize numbers o 4 (ps.flatMap Particle.v) = V at *
  generalize (ps.flatMap fun p => putInt o k p.id) = I at *
  generalize numbers o 4 mm = M at *
  have hpar := parse_header o h hh
  generalize header o h = H at *
  simp only [List.append_assoc]
  unfold gadget2Raw
  rw [record_take o H _ (by omega)]
  split
  · rfl
  rw [Option.bind_some]
  simp only
  rw [readHeader_take o o H _ lh, hpar]
  split
  · rw [readInt32_nil]; rfl
  simp only
  rw [tail_take o _ (by omega)]
  split
  · rfl
  rw [Option.bind_some]
  simp only [htot]
  rw [record_take o X _ (by omega)]
  split
  · rfl
  rw [Option.bind_some]
  simp only [readVecAsByte]
  rw [readAsByte_take sys o rw _ _ _ X _ lx (by omega)]
  split
  · rw [readInt32_nil]; rfl
  rw [tail_take o _ (by omega)]
  split
  · rfl
  rw [Option.bind_some]
  simp only
  rw [record_take o V _ (by omega)]
  split
  · rfl
  rw [Option.bind_some]
  simp only
  rw [readAsByte_take sys o rw _ _ _ V _ lv (by omega)]
  split
  · rw [readInt32_nil]; rfl
  rw [tail_take o _ (by omega)]
  split
  · rfl
  rw [Option.bind_some]
  simp only
  rw [record_take o I _ (by omega)]
  split
  · rfl
  rw [Option.bind_some]
  simp only
  split
  · rfl
  rename_i hz
  have hids : ∀ (mem' rest : List Byte) (m' : Nat), (readIds sys o rw ps.length (I.length : Int) mem' ((I ++ rest).take m')).2 = if m' < I.length then [] else rest.take (m' - I.length) := by
    intro mem' rest m'
    have hq : Int.tdiv (I.length : Int) (ps.length : Int) = k := by
      rw [li]; push_cast
      exact Int.mul_tdiv_cancel_left _ (by omega)
    unfold readIds
    rw [hq]
    rcases hk with rfl | rfl
    · rw [if_pos (by norm_num)]
      simp only [readInt64AsByte]
      rw [readAsByte_take sys o rw _ _ _ I _ (by omega) (by omega), li, Nat.mul_comm 8]
    · rw [if_neg (by norm_num), if_pos (by norm_num)]
      simp only [readInt32AsByte]
      rw [readAsByte_take sys o rw _ _ _ I _ (by omega) (by omega), li, Nat.mul_comm 4]
  unfold gadget2Masses
  rw [hids]
  split
  · rw [readInt32_nil]; rfl
  rw [tail_take o _ (by omega)]
  split
  · rfl
  rw [Option.bind_some]
  simp only
  rw [show record o M = record o M ++ [] from (List.append_nil _).symm, record_take o M _ (by omega)]
  split
  · rfl
  rw [Option.bind_some]
  simp only [readInt32AsByte, hmulti]
  rw [readAsByte_take sys o rw _ _ _ M _ (by omega) (by omega)]
  split
  · rw [readInt32_nil]; rfl
  rw [tail_take o _ (by omega)]
  split
  · rfl
  · omega

/-- LGadget-2 files truncated before the body of the ids. -/
theorem lgadget2Raw_truncated (sys : Order) (rw : Nat) (hrw : rw < 2 ^ 31) (npartNum : Int) (mem : Mem) (h : GHeader) (hh : HeaderFits h) (ps : List Particle)
    (hn : lgadgetNum npartNum h.nPart = some ps.length) (hfits : ∀ p ∈ ps, p.Fits 8) (hsize : 12 * ps.length ≤ rw) (m : Nat) (hm : m < 284 + 24 * ps.length) :
    lgadget2Raw sys .little rw npartNum mem ((record .little (header .little h) ++ common .little 8 ps).take m) = none := by
  unfold common
  obtain ⟨lx, lv, li⟩ := common_flat_length .little 8 ps hfits
  have lh := header_length .little h hh
  have hpar := parse_header .little h hh
  generalize numbers .little 4 (ps.flatMap Particle.x) = X at *
  generalize numbers .little 4 (ps.flatMap Particle.v) = V at *
  generalize (ps.flatMap fun p => putInt .little 8 p.id) = I at *
  generalize header .little h = H at *
  simp only [List.append_assoc]
  unfold lgadget2Raw
  rw [record_take .little H _ (by omega)]
  split
  · rfl
  rw [Option.bind_some]
  simp only
  rw [readHeader_take .little .little H _ lh, hpar]
  split
  · rw [readInt32_nil]; rfl
  simp only
  rw [tail_take .little _ (by omega)]
  split
  · rfl
  rw [Option.bind_some, hn, Option.bind_some]
  simp only
  rw [record_take .little X _ (by omega)]
  split
  · rfl
  rw [Option.bind_some]
  simp only [readVecAsByte]
  rw [readAsByte_take sys .little rw _ _ _ X _ lx (by omega)]
  split
  · rw [readInt32_nil]; rfl
  rw [tail_take .little _ (by omega)]
  split
  · rfl
  rw [Option.bind_some]
  simp only
  rw [record_take .little V _ (by omega)]
  split
  · rfl
  rw [Option.bind_some]
  simp only
  rw [readAsByte_take sys .little rw _ _ _ V _ lv (by omega)]
  split
  · rw [readInt32_nil]; rfl
  rw [tail_take .little _ (by omega)]
  split
  · rfl
  rw [Option.bind_some]
  simp only
  rw [show record .little I = record .little I ++ [] from (List.append_nil _).symm, record_take .little I _ (by omega)]
  split
  · rfl
  · omega

theorem fortranRead_take (o : Order) (body rest : List Byte) (h : body.length < 2 ^ 31) (size : Nat) (hs : body.length = size) (m : Nat) :
    fortranRead o size ((record o body ++ rest).take m) = if m < size + 8 then none else some (body, rest.take (m - (size + 8))) := by
  by_cases hm : m < size + 8
  · rw [if_pos hm]
    unfold fortranRead
    rw [record_take o body rest h]
    split
    · rfl
    · rw [Option.bind_some, if_neg (by simp [hs])]
      split
      · rfl
      · have e : (List.take (m - 4) (body ++ (putInt o 4 (body.length : Nat) ++ rest))).drop size = (putInt o 4 (body.length : Nat) ++ rest).take (m - 4 - size) := by
          rw [List.drop_take, ← hs, List.drop_left]
        simp only
        rw [e, tail_take o _ h, if_pos (by omega)]
        rfl
  · rw [if_neg hm]
    have e : (record o body ++ rest).take m = record o body ++ rest.take (m - (size + 8)) := by
      rw [List.take_append, record_length, List.take_of_length_le (by rw [record_length]; omega), hs]
    rw [e, fortranRead_record o body _ h size hs]

theorem bolshoiLoop_truncated (sys o : Order) (rw : Nat) (hrw : rw < 2 ^ 31) (nPart : Nat) (blocks : List (List BParticle)) (hfit : ∀ b ∈ blocks, ∀ p ∈ b, p.Fits)
    (hsize : ∀ b ∈ blocks, 32 * b.length ≤ rw) (hne : ∀ b ∈ blocks, b ≠ []) (fuel nRead : Nat) (mem : List Byte) (hn : nRead + blocks.flatten.length = nPart) (m : Nat)
    (hm : m < (blocks.flatMap fun b => record o (putInt o 4 (b.length : Nat)) ++ record o (b.flatMap (bparticle o))).length) :
    bolshoiLoop sys o rw nPart fuel nRead mem ((blocks.flatMap fun b => record o (putInt o 4 (b.length : Nat)) ++ record o (b.flatMap (bparticle o))).take m) = none := by
  induction blocks generalizing fuel nRead mem m with
  | nil => simp at hm
  | cons b bs ih =>
    cases fuel with
    | zero => rfl
    | succ f =>
      rw [List.flatten_cons, List.length_append] at hn
      have hb1 : 0 < b.length := by
        have := hne b (by simp)
        cases b with
        | nil => exact absurd rfl this
        | cons _ _ => simp
      have hbs := hsize b (by simp)
      have hbf := hfit b (by simp)
      have hbl : (b.flatMap (bparticle o)).length = 32 * b.length := by
        have := flatten_length 32 (b.map (·.put o)) (by intro c hc; obtain ⟨p, h, rfl⟩ := List.mem_map.mp hc; exact put_length o p (hbf p h))
        rw [List.length_map] at this
        have e : (b.flatMap (bparticle o)).length = ((b.map (·.put o)).flatten).length := rfl
        rw [e, this, Nat.mul_comm]
      have hir : InRange 4 ((b.length : Nat) : Int) := by
        unfold InRange; norm_num at hrw ⊢; omega
      have ih' := ih (fun c hc => hfit c (by simp [hc])) (fun c hc => hsize c (by simp [hc])) (fun c hc => hne c (by simp [hc]))
      rw [List.flatMap_cons, List.length_append, List.length_append, record_length, record_length, putInt_length, hbl] at hm
      rw [List.flatMap_cons]
      generalize (bs.flatMap fun b => record o (putInt o 4 (b.length : Nat)) ++ record o (b.flatMap (bparticle o))) = tail at *
      unfold bolshoiLoop
      rw [if_pos (by omega), List.append_assoc, fortranRead_take o _ _ (by rw [putInt_length]; norm_num) 4 (putInt_length o 4 _)]
      split
      · rfl
      rw [Option.bind_some]
      simp only
      rw [record_take o _ _ (by omega)]
      split
      · rfl
      rw [Option.bind_some, getInt_putInt o 4 _ hir, if_neg (by push_neg; constructor <;> omega)]
      simp only [Int.toNat_natCast, readBolshoiParticleAsByte]
      rw [readAsByte_take sys o rw _ _ _ _ _ hbl (by omega)]
      split
      · rw [readInt32_nil]; rfl
      rw [tail_take o _ (by omega)]
      split
      · rfl
      rw [Option.bind_some]
      exact ih' f _ _ (by omega) _ (by omega)

theorem bolshoiRaw_truncated (sys o : Order) (rw : Nat) (hrw : rw < 2 ^ 31) (comment h1 h2 boundary : List Byte) (l1 : comment.length = 45) (l2 : h1.length = 44) (l3 : h2.length = 20)
    (l4 : boundary.length = 24) (blocks : List (List BParticle)) (hfit : ∀ b ∈ blocks, ∀ p ∈ b, p.Fits) (hsize : ∀ b ∈ blocks, 32 * b.length ≤ rw) (hne : ∀ b ∈ blocks, b ≠ [])
    (hn : blocks.flatten.length < 2 ^ 31) (mem : List Byte) (m : Nat) (hm : m < (bolshoiFile o comment h1 h2 boundary blocks).length) :
    bolshoiRaw sys o rw mem ((bolshoiFile o comment h1 h2 boundary blocks).take m) = none := by
  have hir : InRange 4 ((blocks.flatten.length : Nat) : Int) := by
    unfold InRange; norm_num at hn ⊢; omega
  have loop := bolshoiLoop_truncated sys o rw hrw blocks.flatten.length blocks hfit hsize hne
  unfold bolshoiFile at hm ⊢
  simp only [List.length_append, record_length, l1, l2, l3, l4, putInt_length] at hm
  simp only [List.append_assoc]
  unfold bolshoiRaw
  generalize (List.take m _).length + 1 = fuel
  rw [fortranRead_take o _ _ (by omega) 45 l1]
  split
  · rfl
  rw [Option.bind_some]
  simp only
  rw [fortranRead_take o _ _ (by omega) 44 l2]
  split
  · rfl
  rw [Option.bind_some]
  simp only
  rw [fortranRead_take o _ _ (by omega) 20 l3]
  split
  · rfl
  rw [Option.bind_some]
  simp only
  rw [fortranRead_take o _ _ (by omega) 24 l4]
  split
  · rfl
  rw [Option.bind_some]
  simp only
  rw [fortranRead_take o _ _ (by rw [putInt_length]; norm_num) 4 (putInt_length o 4 _)]
  split
  · rfl
  rw [Option.bind_some]
  simp only
  rw [getInt_putInt o 4 _ hir, if_neg (by omega)]
  simp only [Int.toNat_natCast]
  rw [loop fuel 0 _ (by omega) _ (by omega)]
  rfl

end Shellfish.Gadget
