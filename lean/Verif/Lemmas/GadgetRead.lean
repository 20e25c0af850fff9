import Verif.Lemmas.GadgetFile

namespace Shellfish.Gadget
open Shellfish.Bytes Shellfish.Io

theorem isDM_iff (dm : List Int) (i : Nat) : isDM dm i = decide ((i : Int) ∈ dm) := by
  unfold isDM
  rw [Bool.eq_iff_iff]
  simp

theorem isMultiMass_iff (single : List Int) (i : Nat) : isMultiMass single i = decide (¬ (i : Int) ∈ single) := by
  unfold isMultiMass
  rw [Bool.eq_iff_iff]
  simp only [Bool.not_eq_true', List.any_eq_false, decide_eq_true_eq]
  constructor
  · intro h hm; exact h _ hm rfl
  · intro h x hx he; exact h (he ▸ hx)

theorem zipIdx_range {α : Type} (l : List (List α)) : l.zipIdx = (List.range l.length).map fun t : Nat => (l.getD t [], t) := by
  apply List.ext_getElem?
  intro i
  by_cases hi : i < l.length
  · rw [List.getElem?_zipIdx, List.getElem?_map, List.getElem?_range hi, List.getElem?_eq_getElem hi]
    simp [List.getD_eq_getElem?_getD, hi]
  · rw [List.getElem?_eq_none (by rw [List.length_zipIdx]; omega), List.getElem?_eq_none (by rw [List.length_map, List.length_range]; omega)]

theorem typed_flat {α : Type} (byType : List (List Particle)) (h6 : byType.length = 6) (p : Nat → Bool) (g : Nat × Particle → α) :
    ((typed byType).filter fun c => p c.1).map g = flat (fun t => (byType.getD t []).map fun q => g (t, q)) p 6 := by
  unfold typed flat
  rw [zipIdx_range, h6, List.flatMap_map, List.filter_flatMap, List.map_flatMap]
  apply List.flatMap_congr
  intro t _
  simp only [List.filter_map, List.map_map]
  by_cases h : p t = true
  · rw [if_pos h]
    have : (byType.getD t []).filter ((fun c : Nat × Particle => p c.1) ∘ fun q => (t, q)) = byType.getD t [] := List.filter_eq_self.mpr (fun a _ => h)
    rw [this]; rfl
  · rw [if_neg h]
    have : (byType.getD t []).filter ((fun c : Nat × Particle => p c.1) ∘ fun q => (t, q)) = [] := List.filter_eq_nil_iff.mpr (fun a _ => h)
    rw [this]; rfl

theorem typed_flat_all {α : Type} (byType : List (List Particle)) (h6 : byType.length = 6) (g : Nat × Particle → α) :
    (typed byType).map g = flat (fun t => (byType.getD t []).map fun q => g (t, q)) (fun _ => true) 6 := by
  have := typed_flat byType h6 (fun _ => true) g
  rw [List.filter_true] at this
  exact this

theorem counts_map {α : Type} (byType : List (List Particle)) (h6 : byType.length = 6) (g : Nat × Particle → α) :
    Counts (byType.map List.length) (fun t => (byType.getD t []).map fun q => g (t, q)) := by
  refine ⟨by rw [List.length_map, h6], fun t ht => ?_⟩
  rw [List.getElem?_map, List.getElem?_eq_getElem (by omega)]
  simp [List.getD_eq_getElem?_getD, List.getElem?_eq_getElem (show t < byType.length by omega)]

theorem count_typed (byType : List (List Particle)) (h6 : byType.length = 6) (p : Nat → Bool) :
    countTypes p (byType.map List.length) = ((typed byType).filter fun c => p c.1).length := by
  have h1 := typed_flat byType h6 p id
  have h2 := flat_length _ _ (counts_map byType h6 id) p 6 (by omega)
  rw [← h1, List.length_map, List.take_of_length_le (by rw [List.length_map, h6])] at h2
  exact h2.symm

/-- The memory of slices. -/
def MemOk (mem : Mem) : Prop := 12 ∣ mem.xs.length ∧ 12 ∣ mem.vs.length ∧ 8 ∣ mem.ids.length ∧ 4 ∣ mem.ms.length ∧ 4 ∣ mem.multi.length

theorem pack_typed {α : Type} (byType : List (List Particle)) (h6 : byType.length = 6) (dm : List Int) (g : Nat × Particle → α) :
    (pack (byType.map List.length) dm ((typed byType).map g)).take (countTypes (isDM dm) (byType.map List.length)) = (requested dm byType).map g := by
  rw [typed_flat_all byType h6 g, pack_flat _ _ (counts_map byType h6 g), ← typed_flat byType h6]
  unfold requested
  congr 2
  funext c
  rw [isDM_iff]

theorem words_length (sys : Order) (k n : Nat) (mem : List Byte) : (words sys k n mem).length = n := by
  unfold words; rw [List.length_map, pieces_length]

/-- The ids block with 8- or 4-byte ids. -/
theorem readIds_block (sys o : Order) (rw k : Nat) (hk : k = 8 ∨ k = 4) (xs : List Int) (hx : ∀ x ∈ xs, InRange k x) (mem rest : List Byte) (hn : 0 < xs.length)
    (hm : mem.length = xs.length * 8) (hrw : 8 * xs.length ≤ rw) :
    readIds sys o rw xs.length ((xs.length * k : Nat) : Int) mem ((xs.flatMap fun x => putInt o k x) ++ rest) = (xs, rest) := by
  have hq : Int.tdiv ((xs.length * k : Nat) : Int) (xs.length : Int) = k := by
    push_cast
    exact Int.mul_tdiv_cancel_left _ (by omega)
  unfold readIds
  rw [hq]
  rcases hk with rfl | rfl
  · obtain ⟨mem', h1, h2⟩ := readInts_block sys o rw 8 xs hx (fun l => swap8 l xs.length) (fun l => swap8_eq l _) mem rest hm (by omega)
    rw [if_pos (by norm_num)]
    unfold readInt64AsByte
    rw [h1, h2]
  · obtain ⟨mem', h1, h2⟩ := readInts_block sys o rw 4 xs hx (fun l => swap4 l xs.length) (fun l => swap4_eq l _) (List.replicate (xs.length * 4) 0) rest (by rw [List.length_replicate]) (by omega)
    rw [if_neg (by norm_num), if_pos (by norm_num)]
    unfold readInt32AsByte
    rw [h1, h2]

theorem putInts_flat_length (o : Order) (k : Nat) (xs : List Int) : (xs.flatMap fun x => putInt o k x).length = xs.length * k := putInts_length o k xs

/-- Whole Gadget-2 files. -/
theorem gadget2Raw_file (sys o : Order) (rw k : Nat) (hk : k = 8 ∨ k = 4) (hrw : rw < 2 ^ 31) (to32 : Nat → Nat) (dm single : List Int) (mem : Mem) (hmem : MemOk mem) (h : GHeader) (hh : HeaderFits h)
    (byType : List (List Particle)) (h6 : byType.length = 6) (hn : h.nPart = byType.map List.length) (hp : ∀ c ∈ typed byType, c.2.Fits k) (hpos : 0 < (typed byType).length)
    (hsize : 12 * (typed byType).length ≤ rw) :
    gadget2Raw sys o rw to32 dm single mem (file o k true h single byType) =
      some ⟨h, (requested dm byType).map (·.2.x), (requested dm byType).map (·.2.v), (requested dm byType).map (·.2.id), (requested dm byType).map (massOf to32 h single)⟩ := by
  have htot : countTypes (fun _ => true) h.nPart = (typed byType).length := by
    rw [hn, count_typed byType h6, List.filter_true]
  have hfits : ∀ p ∈ (typed byType).map Prod.snd, p.Fits k := by
    intro p hp'
    obtain ⟨c, hc, rfl⟩ := List.mem_map.mp hp'
    exact hp c hc
  generalize hP : (typed byType).map Prod.snd = ps at hfits
  have hlen : (typed byType).length = ps.length := by rw [← hP, List.length_map]
  rw [hlen] at htot hpos hsize
  have hmulti : countTypes (isMultiMass single) h.nPart = ((typed byType).filter fun c => ¬ (c.1 : Int) ∈ single).length := by
    rw [hn, count_typed byType h6]
    congr 2
    funext c
    rw [isMultiMass_iff]
  generalize hM : ((typed byType).filter fun c => ¬ (c.1 : Int) ∈ single).map (fun c => c.2.mass) = mm
  have hMl : countTypes (isMultiMass single) h.nPart = mm.length := by rw [hmulti, ← hM, List.length_map]
  have hMle : mm.length ≤ ps.length := by
    rw [← hM, List.length_map, ← hlen]; exact List.length_filter_le _ _
  have hMw : ∀ w ∈ mm, w < 256 ^ 4 := by
    intro w hw
    rw [← hM] at hw
    obtain ⟨c, hc, rfl⟩ := List.mem_map.mp hw
    have := (hp c (List.mem_of_mem_filter hc)).2.2.2.2.2
    norm_num at this ⊢; exact this
  have hx3 : ∀ q ∈ ps.map Particle.x, q.length = 3 := by
    intro q hq; obtain ⟨p, hp', rfl⟩ := List.mem_map.mp hq; exact (hfits p hp').1
  have hv3 : ∀ q ∈ ps.map Particle.v, q.length = 3 := by
    intro q hq; obtain ⟨p, hp', rfl⟩ := List.mem_map.mp hq; exact (hfits p hp').2.1
  have hxw : ∀ q ∈ ps.map Particle.x, ∀ w ∈ q, w < 2 ^ 32 := by
    intro q hq; obtain ⟨p, hp', rfl⟩ := List.mem_map.mp hq; exact (hfits p hp').2.2.1
  have hvw : ∀ q ∈ ps.map Particle.v, ∀ w ∈ q, w < 2 ^ 32 := by
    intro q hq; obtain ⟨p, hp', rfl⟩ := List.mem_map.mp hq; exact (hfits p hp').2.2.2.1
  have hir : ∀ x ∈ ps.map Particle.id, InRange k x := by
    intro q hq; obtain ⟨p, hp', rfl⟩ := List.mem_map.mp hq; exact (hfits p hp').2.2.2.2.1
  have hxl : (ps.flatMap Particle.x).length * 4 = 12 * ps.length := by
    have := flatMap_length3 _ hx3
    rw [List.flatMap_map, List.length_map] at this
    change (ps.flatMap fun a => a.x).length = _ at this
    change (ps.flatMap fun a => a.x).length * 4 = _
    omega
  have hvl : (ps.flatMap Particle.v).length * 4 = 12 * ps.length := by
    have := flatMap_length3 _ hv3
    rw [List.flatMap_map, List.length_map] at this
    change (ps.flatMap fun a => a.v).length = _ at this
    change (ps.flatMap fun a => a.v).length * 4 = _
    omega
  have hfx : ps.flatMap Particle.x = (ps.map Particle.x).flatMap id := by rw [List.flatMap_map]; rfl
  have hfv : ps.flatMap Particle.v = (ps.map Particle.v).flatMap id := by rw [List.flatMap_map]; rfl
  have hfi : (ps.flatMap fun p => putInt o k p.id) = (ps.map Particle.id).flatMap fun x => putInt o k x := by rw [List.flatMap_map]
  have hidl : (ps.flatMap fun p => putInt o k p.id).length = ps.length * k := by rw [hfi, putInts_flat_length, List.length_map]
  have hkb : ps.length * k ≤ 8 * ps.length := by rcases hk with rfl | rfl <;> omega
  -- the file as a chain of blocks
  obtain ⟨s0, e0, e1, n1, e2⟩ := readHeader_record o h hh (common o k ps ++ massBlock o single byType)
  have ecommon : common o k ps ++ massBlock o single byType =
      record o (numbers o 4 (ps.flatMap Particle.x)) ++ (record o (numbers o 4 (ps.flatMap Particle.v)) ++ (record o (ps.flatMap fun p => putInt o k p.id) ++ massBlock o single byType)) := by
    unfold common; simp only [List.append_assoc]
  rw [ecommon] at e2
  have emass : massBlock o single byType = record o (numbers o 4 mm) ++ [] := by
    unfold massBlock; rw [hM, List.append_nil]
  have x1 := record_numbers o 4 (ps.flatMap Particle.x) (record o (numbers o 4 (ps.flatMap Particle.v)) ++ (record o (ps.flatMap fun p => putInt o k p.id) ++ massBlock o single byType)) (by omega)
  have v1 := record_numbers o 4 (ps.flatMap Particle.v) (record o (ps.flatMap fun p => putInt o k p.id) ++ massBlock o single byType) (by omega)
  have m1 := record_numbers o 4 mm [] (by omega)
  have ids1 : readInt32 o (record o (ps.flatMap fun p => putInt o k p.id) ++ massBlock o single byType) =
      some (((ps.length * k : Nat) : Int), (ps.flatMap fun p => putInt o k p.id) ++ (putInt o 4 ((ps.length * k : Nat) : Int) ++ massBlock o single byType)) := by
    unfold record
    rw [hidl, List.append_assoc, List.append_assoc, readInt32_put o _ (by rw [← hidl]; exact inRange_length _ (by omega))]
  have ids2 : readInt32 o (putInt o 4 ((ps.length * k : Nat) : Int) ++ massBlock o single byType) = some (((ps.length * k : Nat) : Int), massBlock o single byType) :=
    readInt32_put o _ (by rw [← hidl]; exact inRange_length _ (by omega)) _
  obtain ⟨mx, hmx, hmx'⟩ := readVec_block sys o rw (ps.map Particle.x) hx3 hxw (expand 12 ps.length mem.xs)
    (putInt o 4 ((ps.flatMap Particle.x).length * 4 : Nat) ++ (record o (numbers o 4 (ps.flatMap Particle.v)) ++ (record o (ps.flatMap fun p => putInt o k p.id) ++ massBlock o single byType)))
    (by rw [expand_length 12 _ (by norm_num) _ hmem.1, List.length_map]) (by rw [List.length_map]; exact hsize)
  obtain ⟨mv, hmv, hmv'⟩ := readVec_block sys o rw (ps.map Particle.v) hv3 hvw (expand 12 ps.length mem.vs)
    (putInt o 4 ((ps.flatMap Particle.v).length * 4 : Nat) ++ (record o (ps.flatMap fun p => putInt o k p.id) ++ massBlock o single byType))
    (by rw [expand_length 12 _ (by norm_num) _ hmem.2.1, List.length_map]) (by rw [List.length_map]; exact hsize)
  have hids := readIds_block sys o rw k hk (ps.map Particle.id) hir (expand 8 ps.length mem.ids) (putInt o 4 ((ps.length * k : Nat) : Int) ++ massBlock o single byType)
    (by rw [List.length_map]; exact hpos) (by rw [expand_length 8 _ (by norm_num) _ hmem.2.2.1, List.length_map]) (by rw [List.length_map]; omega)
  obtain ⟨mmem, hmm, -, hmm'⟩ := readAsByte_block sys o rw 4 mm hMw (fun l => swap4 l mm.length) (fun l => swap4_eq l _) (expand 4 mm.length mem.multi) (putInt o 4 ((mm.length * 4 : Nat) : Int) ++ [])
    (expand_length 4 _ (by norm_num) _ hmem.2.2.2.2) (by omega) (4 * mm.length) (by omega)
  rw [List.length_map] at hmx hmx' hmv hmv' hids
  rw [← hfx] at hmx
  rw [← hfv] at hmv
  rw [← hfi] at hids
  unfold gadget2Raw file
  rw [hP, if_pos rfl, List.append_assoc, e0, Option.bind_some, e2, Option.bind_some]
  simp only [e1, htot]
  rw [x1.1, Option.bind_some]
  simp only [hmx]
  rw [x1.2, Option.bind_some]
  simp only
  rw [v1.1, Option.bind_some]
  simp only [hmv]
  rw [v1.2, Option.bind_some]
  simp only
  rw [ids1, Option.bind_some, if_neg (by omega)]
  simp only [hids, hmx', hmv']
  unfold gadget2Masses
  rw [ids2, Option.bind_some]
  simp only
  rw [emass, m1.1, Option.bind_some]
  simp only [hMl, readInt32AsByte]
  have hmm2 : readAsByte sys o rw (4 * mm.length) (fun l => swap4 l mm.length) (expand 4 mm.length mem.multi) (numbers o 4 mm ++ (putInt o 4 ((mm.length * 4 : Nat) : Int) ++ [])) =
      (false, mmem, putInt o 4 ((mm.length * 4 : Nat) : Int) ++ []) := hmm
  rw [hmm2]
  simp only [hmm']
  rw [m1.2, Option.bind_some]
  have hpx : ps.map Particle.x = (typed byType).map fun c => c.2.x := by rw [← hP, List.map_map]; rfl
  have hpv : ps.map Particle.v = (typed byType).map fun c => c.2.v := by rw [← hP, List.map_map]; rfl
  have hpi : ps.map Particle.id = (typed byType).map fun c => c.2.id := by rw [← hP, List.map_map]; rfl
  have hmflat : mm = flat (fun t => (byType.getD t []).map fun q => q.mass) (isMultiMass single) 6 := by
    rw [← hM, ← typed_flat byType h6 (isMultiMass single) (fun c => c.2.mass)]
    congr 2
    funext c
    rw [isMultiMass_iff]
  have hums := unpackMass_flat to32 h (fun t => (byType.getD t []).map fun q => q.mass) (by rw [hn]; exact counts_map byType h6 fun c => c.2.mass) single
    (words sys 4 (countTypes (fun _ => true) h.nPart) (expand 4 (countTypes (fun _ => true) h.nPart) mem.ms)) (words_length _ _ _ _)
  have hq : flat (fun t => if isMultiMass single t then (byType.getD t []).map fun q => q.mass else List.replicate ((byType.getD t []).map fun q => q.mass).length (to32 (h.mass.getD t 0))) (fun _ => true) 6 =
      (typed byType).map (massOf to32 h single) := by
    rw [typed_flat_all byType h6]
    unfold flat
    apply List.flatMap_congr
    intro t _
    rw [if_pos rfl, if_pos rfl]
    simp only [isMultiMass_iff]
    unfold massOf
    by_cases ht : (t : Int) ∈ single
    · rw [if_neg (by simp [ht])]
      simp only [ht, if_true, List.length_map, List.map_const']
    · rw [if_pos (by simp [ht])]
      simp only [ht, if_false]
  rw [hmflat, hums, hq, hpx, hpv, hpi, hn, pack_typed byType h6, pack_typed byType h6, pack_typed byType h6, pack_typed byType h6]

/-- Whole LGadget-2 files in little endian order. -/
theorem lgadget2Raw_file (sys : Order) (rw : Nat) (hrw : rw < 2 ^ 31) (npartNum : Int) (mem : Mem) (hmem : MemOk mem) (h : GHeader) (hh : HeaderFits h) (ps : List Particle)
    (hn : lgadgetNum npartNum h.nPart = some ps.length) (hfits : ∀ p ∈ ps, p.Fits 8) (hsize : 12 * ps.length ≤ rw) :
    lgadget2Raw sys .little rw npartNum mem (record .little (header .little h) ++ common .little 8 ps) =
      some ⟨h, ps.map Particle.x, ps.map Particle.v, ps.map Particle.id, []⟩ := by
  have hx3 : ∀ q ∈ ps.map Particle.x, q.length = 3 := by
    intro q hq; obtain ⟨p, hp', rfl⟩ := List.mem_map.mp hq; exact (hfits p hp').1
  have hv3 : ∀ q ∈ ps.map Particle.v, q.length = 3 := by
    intro q hq; obtain ⟨p, hp', rfl⟩ := List.mem_map.mp hq; exact (hfits p hp').2.1
  have hxw : ∀ q ∈ ps.map Particle.x, ∀ w ∈ q, w < 2 ^ 32 := by
    intro q hq; obtain ⟨p, hp', rfl⟩ := List.mem_map.mp hq; exact (hfits p hp').2.2.1
  have hvw : ∀ q ∈ ps.map Particle.v, ∀ w ∈ q, w < 2 ^ 32 := by
    intro q hq; obtain ⟨p, hp', rfl⟩ := List.mem_map.mp hq; exact (hfits p hp').2.2.2.1
  have hir : ∀ x ∈ ps.map Particle.id, InRange 8 x := by
    intro q hq; obtain ⟨p, hp', rfl⟩ := List.mem_map.mp hq; exact (hfits p hp').2.2.2.2.1
  have hxl : (ps.flatMap Particle.x).length * 4 = 12 * ps.length := by
    have := flatMap_length3 _ hx3
    rw [List.flatMap_map, List.length_map] at this
    change (ps.flatMap fun a => a.x).length = _ at this
    change (ps.flatMap fun a => a.x).length * 4 = _
    omega
  have hvl : (ps.flatMap Particle.v).length * 4 = 12 * ps.length := by
    have := flatMap_length3 _ hv3
    rw [List.flatMap_map, List.length_map] at this
    change (ps.flatMap fun a => a.v).length = _ at this
    change (ps.flatMap fun a => a.v).length * 4 = _
    omega
  have hfx : ps.flatMap Particle.x = (ps.map Particle.x).flatMap id := by rw [List.flatMap_map]; rfl
  have hfv : ps.flatMap Particle.v = (ps.map Particle.v).flatMap id := by rw [List.flatMap_map]; rfl
  have hfi : (ps.flatMap fun p => putInt .little 8 p.id) = (ps.map Particle.id).flatMap fun x => putInt .little 8 x := by rw [List.flatMap_map]
  have hidl : (ps.flatMap fun p => putInt .little 8 p.id).length = ps.length * 8 := by rw [hfi, putInts_flat_length, List.length_map]
  obtain ⟨s0, e0, e1, n1, e2⟩ := readHeader_record .little h hh (common .little 8 ps)
  have ecommon : common .little 8 ps =
      record .little (numbers .little 4 (ps.flatMap Particle.x)) ++ (record .little (numbers .little 4 (ps.flatMap Particle.v)) ++ record .little (ps.flatMap fun p => putInt .little 8 p.id)) := by
    unfold common; simp only [List.append_assoc]
  rw [ecommon] at e2
  have x1 := record_numbers .little 4 (ps.flatMap Particle.x) (record .little (numbers .little 4 (ps.flatMap Particle.v)) ++ record .little (ps.flatMap fun p => putInt .little 8 p.id)) (by omega)
  have v1 := record_numbers .little 4 (ps.flatMap Particle.v) (record .little (ps.flatMap fun p => putInt .little 8 p.id)) (by omega)
  have ids1 : readInt32 .little (record .little (ps.flatMap fun p => putInt .little 8 p.id)) =
      some (((ps.length * 8 : Nat) : Int), (ps.flatMap fun p => putInt .little 8 p.id) ++ putInt .little 4 ((ps.length * 8 : Nat) : Int)) := by
    unfold record
    rw [hidl, List.append_assoc, readInt32_put .little _ (by rw [← hidl]; exact inRange_length _ (by omega))]
  obtain ⟨mx, hmx, hmx'⟩ := readVec_block sys .little rw (ps.map Particle.x) hx3 hxw (expand 12 ps.length mem.xs)
    (putInt .little 4 ((ps.flatMap Particle.x).length * 4 : Nat) ++ (record .little (numbers .little 4 (ps.flatMap Particle.v)) ++ record .little (ps.flatMap fun p => putInt .little 8 p.id)))
    (by rw [expand_length 12 _ (by norm_num) _ hmem.1, List.length_map]) (by rw [List.length_map]; exact hsize)
  obtain ⟨mv, hmv, hmv'⟩ := readVec_block sys .little rw (ps.map Particle.v) hv3 hvw (expand 12 ps.length mem.vs)
    (putInt .little 4 ((ps.flatMap Particle.v).length * 4 : Nat) ++ record .little (ps.flatMap fun p => putInt .little 8 p.id))
    (by rw [expand_length 12 _ (by norm_num) _ hmem.2.1, List.length_map]) (by rw [List.length_map]; exact hsize)
  obtain ⟨mi, hmi, hmi'⟩ := readInts_block sys .little rw 8 (ps.map Particle.id) hir (fun l => swap8 l ps.length) (fun l => by rw [swap8_eq, List.length_map]) (expand 8 ps.length mem.ids)
    (putInt .little 4 ((ps.length * 8 : Nat) : Int)) (by rw [expand_length 8 _ (by norm_num) _ hmem.2.2.1, List.length_map]) (by rw [List.length_map]; omega)
  rw [List.length_map] at hmx hmx' hmv hmv' hmi hmi'
  rw [← hfx] at hmx
  rw [← hfv] at hmv
  rw [← hfi] at hmi
  unfold lgadget2Raw
  rw [e0, Option.bind_some, e2, Option.bind_some]
  simp only [e1]
  rw [hn, Option.bind_some, x1.1, Option.bind_some]
  simp only [hmx]
  rw [x1.2, Option.bind_some]
  simp only
  rw [v1.1, Option.bind_some]
  simp only [hmv]
  rw [v1.2, Option.bind_some]
  simp only
  rw [ids1, Option.bind_some]
  simp only [readInt64AsByte, hmi, hmx', hmv', hmi']

end Shellfish.Gadget
