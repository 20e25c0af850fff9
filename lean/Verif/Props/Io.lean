/-
Particle files: byte order, Gadget-2, LGadget-2, Bolshoi and gotetra files (C30, C31, C35, C60, C62).
-/
import Verif.Lemmas.GadgetRead
import Verif.Lemmas.Truncate
import Mathlib.Data.Rat.Floor

namespace Shellfish.Io
open Shellfish.Bytes Shellfish.Gadget
open Shellfish.Memo (Out)

/-! C30: byte order -/

/-- C30: every swap is its own inverse. -/
theorem C30_swap_twice (l : List Byte) (n : Nat) :
    (4 * n ≤ l.length → swap4 (swap4 l n) n = l) ∧ (8 * n ≤ l.length → swap8 (swap8 l n) n = l) ∧ (l.length = 32 * n → swapBolshoi (swapBolshoi l n) n = l) ∧
      ∀ size, size * n ≤ l.length → reorder (reorder l size n) size n = l := by
  refine ⟨fun h => ?_, fun h => ?_, fun h => swapBolshoi_swapBolshoi l n (by omega), fun size h => reorder_reorder l size n (by rw [Nat.mul_comm]; exact h)⟩
  · rw [swap4_eq, swap4_eq, reorder_reorder l 4 n (by omega)]
  · rw [swap8_eq, swap8_eq, reorder_reorder l 8 n (by omega)]

example : swap4 [1, 2, 3, 4, 5, 6, 7, 8, 9] 2 = [4, 3, 2, 1, 8, 7, 6, 5, 9] := by decide

/-- C30: where the bytes go: byte `p` of a word trades places with the byte at the same distance from the other end of that word, and nothing else moves. -/
theorem C30_swap_where (l : List Byte) (size n : Nat) (h : n * size ≤ l.length) (w i : Nat) (hi : i < size) :
    (reorder l size n)[w * size + i]? = if w < n then l[w * size + (size - 1 - i)]? else l[w * size + i]? := by
  rw [reorder_get l size n h]
  have hq : (w * size + i) / size = w := by rw [Nat.mul_comm, Nat.mul_add_div (by omega), Nat.div_eq_of_lt hi, Nat.add_zero]
  have hr : (w * size + i) % size = i := by rw [Nat.mul_comm, Nat.mul_add_mod, Nat.mod_eq_of_lt hi]
  rw [hq, hr]
  by_cases hw : w < n
  · rw [if_pos hw, if_pos]
    have := Nat.mul_le_mul_right size (by omega : w + 1 ≤ n)
    rw [Nat.add_mul, Nat.one_mul] at this
    omega
  · rw [if_neg hw, if_neg]
    have := Nat.mul_le_mul_right size (by omega : n ≤ w)
    omega

example : (reorder [1, 2, 3, 4, 5, 6, 7, 8, 9] 4 2)[5]? = some 7 := by decide

/-- C30: numbers written in byte order `o` and read on a machine of byte order `sys` are the numbers that were written (float32 vectors, int64, int32 and float32), the whole buffer is
overwritten and the file stands behind the block, provided that one `Read` call can deliver the block. -/
theorem C30_round_trip (sys o : Order) (rw : Nat) (xs : List Nat) (rest mem : List Byte) :
    ((∀ x ∈ xs, x < 2 ^ 32) → mem.length = 4 * xs.length → 4 * xs.length ≤ rw →
      ∃ mem', readInt32AsByte sys o rw xs.length mem (numbers o 4 xs ++ rest) = (false, mem', rest) ∧ words sys 4 xs.length mem' = xs) ∧
    ((∀ x ∈ xs, x < 2 ^ 64) → mem.length = 8 * xs.length → 8 * xs.length ≤ rw →
      ∃ mem', readInt64AsByte sys o rw xs.length mem (numbers o 8 xs ++ rest) = (false, mem', rest) ∧ words sys 8 xs.length mem' = xs) ∧
    (∀ n, xs.length = 3 * n → (∀ x ∈ xs, x < 2 ^ 32) → mem.length = 12 * n → 12 * n ≤ rw →
      ∃ mem', readVecAsByte sys o rw n mem (numbers o 4 xs ++ rest) = (false, mem', rest) ∧ words sys 4 (3 * n) mem' = xs) := by
  refine ⟨fun h1 h2 h3 => ?_, fun h1 h2 h3 => ?_, fun n hn h1 h2 h3 => ?_⟩
  · obtain ⟨m, g1, -, g2⟩ := readAsByte_block sys o rw 4 xs (by intro x hx; have := h1 x hx; norm_num at this ⊢; exact this) (fun l => swap4 l xs.length) (fun l => swap4_eq l _) mem rest (by omega)
      (by omega) (4 * xs.length) (by omega)
    exact ⟨m, g1, g2⟩
  · obtain ⟨m, g1, -, g2⟩ := readAsByte_block sys o rw 8 xs (by intro x hx; have := h1 x hx; norm_num at this ⊢; exact this) (fun l => swap8 l xs.length) (fun l => swap8_eq l _) mem rest (by omega)
      (by omega) (8 * xs.length) (by omega)
    exact ⟨m, g1, g2⟩
  · obtain ⟨m, g1, -, g2⟩ := readAsByte_block sys o rw 4 xs (by intro x hx; have := h1 x hx; norm_num at this ⊢; exact this) (fun l => swap4 l (n * 3)) (fun l => by rw [swap4_eq, hn, Nat.mul_comm]) mem rest
      (by omega) (by omega) (12 * n) (by omega)
    rw [hn] at g2
    exact ⟨m, g1, g2⟩

example : (readInt32AsByte .little .big 100 2 [9, 9, 9, 9, 9, 9, 9, 9] (numbers .big 4 [258, 7] ++ [1])) = (false, [2, 1, 0, 0, 7, 0, 0, 0], [1]) := by decide

/-- A header with one particle of type 1 -/
def hd1 : GHeader := ⟨[0, 1, 0, 0, 0, 0], [0, 0, 0, 0, 0, 0], 0, 0, [0, 1, 0, 0, 0, 0], 100, 0, 0, 0, [0, 0, 0, 0, 0, 0]⟩

/-- C30, for whole Gadget-2 files: a little endian file and its big endian twin give the same particles, on every machine. -/
theorem C30_gadget2_twins (sys sys' : Order) (rw k : Nat) (hk : k = 8 ∨ k = 4) (hrw : rw < 2 ^ 31) (to32 : Nat → Nat) (dm single : List Int) (mem mem' : Mem) (hmem : MemOk mem) (hmem' : MemOk mem')
    (h : GHeader) (hh : HeaderFits h) (byType : List (List Particle)) (h6 : byType.length = 6) (hn : h.nPart = byType.map List.length) (hp : ∀ c ∈ typed byType, c.2.Fits k)
    (hpos : 0 < (typed byType).length) (hsize : 12 * (typed byType).length ≤ rw) :
    gadget2Raw sys .little rw to32 dm single mem (file .little k true h single byType) = gadget2Raw sys' .big rw to32 dm single mem' (file .big k true h single byType) := by
  rw [gadget2Raw_file sys .little rw k hk hrw to32 dm single mem hmem h hh byType h6 hn hp hpos hsize, gadget2Raw_file sys' .big rw k hk hrw to32 dm single mem' hmem' h hh byType h6 hn hp hpos hsize]

/-- An empty buffer -/
def mem0 : Mem := ⟨[], [], [], [], []⟩

/-- One particle of type 1 -/
def byType1 : List (List Particle) := [[], [⟨[1, 2, 3], [4, 5, 6], 7, 8⟩], [], [], [], []]

example : MemOk mem0 ∧ HeaderFits hd1 ∧ hd1.nPart = byType1.map List.length ∧ (∀ c ∈ typed byType1, c.2.Fits 8) ∧ 0 < (typed byType1).length ∧ 12 * (typed byType1).length ≤ 2 ^ 30 := by
  refine ⟨⟨by decide, by decide, by decide, by decide, by decide⟩, ?_, by decide, ?_, by decide, by decide⟩
  · unfold HeaderFits; decide
  · intro c hc
    have : c = (1, ⟨[1, 2, 3], [4, 5, 6], 7, 8⟩) := by simpa [typed, byType1, List.zipIdx] using hc
    subst this
    unfold Particle.Fits
    decide

/-- C30 fails for the headers: `ReadHeader`, MinMass and TotalParticles of Gadget-2 files, and everything of LGadget-2 files, read the header in little endian order even when the file is big endian. -/
theorem C30_header_false : HeaderFits hd1 ∧ readFileHeader .little (record .little (header .little hd1)) = .ok hd1 ∧
    readFileHeader .big (record .big (header .big hd1)) = .ok (.parse .little (header .big hd1)) ∧ (GHeader.parse .little (header .big hd1)).nPart = [0, 16777216, 0, 0, 0, 0] ∧
    (GHeader.parse .little (header .big hd1)).boxSize ≠ hd1.boxSize := by
  refine ⟨by unfold HeaderFits; decide, by decide +kernel, by decide +kernel, by decide +kernel, by decide +kernel⟩

/-! C31: Gadget files -/

/-- C31, Gadget-2: a file with at least one particle and with a block of masses is read as written: entry `k` of the four arrays is position, velocity, id and mass of the k-th particle
(in file order) among the particles of the requested types; the mass is that of the header for types with a single mass.  Whatever the order of the file and of the machine, with 64-bit ids or
with 32-bit ids that fit into an int32, whatever was in the buffers before.  Positions, velocities and masses are those of the file, before units and periodicity. -/
theorem C31_gadget2_partial (sys o : Order) (rw k : Nat) (hk : k = 8 ∨ k = 4) (hrw : rw < 2 ^ 31) (to32 : Nat → Nat) (dm single : List Int) (mem : Mem) (hmem : MemOk mem) (h : GHeader) (hh : HeaderFits h)
    (byType : List (List Particle)) (h6 : byType.length = 6) (hn : h.nPart = byType.map List.length) (hp : ∀ c ∈ typed byType, c.2.Fits k) (hpos : 0 < (typed byType).length)
    (hsize : 12 * (typed byType).length ≤ rw) :
    gadget2Raw sys o rw to32 dm single mem (file o k true h single byType) =
      some ⟨h, (requested dm byType).map (·.2.x), (requested dm byType).map (·.2.v), (requested dm byType).map (·.2.id), (requested dm byType).map (massOf to32 h single)⟩ :=
  gadget2Raw_file sys o rw k hk hrw to32 dm single mem hmem h hh byType h6 hn hp hpos hsize

/-- C31: the total number of particles of the requested types, over all files of the snapshot, with the high words of the numbers: `Σ (low + 2³² high)`. -/
theorem C31_total (dm : List Int) (hr : ∀ i ∈ dm, 0 ≤ i ∧ i < 6) (h : GHeader) (h6 : h.numPartTotal.length = 6) (h6' : h.numPartTotalHW.length = 6) :
    totalParticles dm h = some (dm.map fun i => h.numPartTotal.getD i.toNat 0 + 4294967296 * h.numPartTotalHW.getD i.toNat 0).sum := by
  have g : ∀ (l : List Nat) (i : Int), l.length = 6 → 0 ≤ i ∧ i < 6 → Shellfish.Finder.get l i = some (l.getD i.toNat 0) := by
    intro l i hl hi
    unfold Shellfish.Finder.get
    rw [if_neg (by omega), List.getElem?_eq_getElem (by omega), List.getD_eq_getElem?_getD, List.getElem?_eq_getElem (by omega)]
    rfl
  unfold totalParticles
  induction dm with
  | nil => rfl
  | cons i dm ih =>
    have ih' := ih fun j hj => hr j (List.mem_cons_of_mem _ hj)
    have hi := hr i List.mem_cons_self
    rw [List.mapM_cons, g _ _ h6 hi, g _ _ h6' hi]
    simp only [Option.bind_eq_bind, Option.bind_some, Option.map_some]
    obtain ⟨l, hl, hs⟩ := Option.map_eq_some_iff.1 ih'
    rw [hl]
    simp only [Option.bind_some, Option.pure_def, Option.map_some, List.sum_cons, List.map_cons, hs]
    congr 2
    ring

example : totalParticles [1, 2] ⟨[1, 2, 1, 0, 0, 0], [0, 0, 0, 0, 0, 0], 0, 0, [0, 7, 5, 0, 0, 0], 0, 0, 0, 0, [0, 1, 0, 0, 0, 0]⟩ = some 4294967308 := by
  rw [C31_total _ (by decide) _ rfl rfl]; rfl

/-- Particles of three types -/
def byType3 : List (List Particle) := [[⟨[1, 1, 1], [1, 1, 1], 10, 100⟩], [⟨[2, 2, 2], [2, 2, 2], 20, 0⟩, ⟨[3, 3, 3], [3, 3, 3], 30, 0⟩], [⟨[4, 4, 4], [4, 4, 4], -40, 400⟩], [], [], []]

example : requested [2, 1] byType3 = [(1, ⟨[2, 2, 2], [2, 2, 2], 20, 0⟩), (1, ⟨[3, 3, 3], [3, 3, 3], 30, 0⟩), (2, ⟨[4, 4, 4], [4, 4, 4], -40, 400⟩)] := by decide
example : (requested [2, 1] byType3).map (massOf (fun x => x) ⟨[1, 2, 1, 0, 0, 0], [0, 55, 0, 0, 0, 0], 0, 0, [], 0, 0, 0, 0, []⟩ [1]) = [55, 55, 400] := by decide

/-- C31: the particle number in the header is the number of particles that are read, when no type is requested twice and all exist. -/
theorem C31_header_count (dm : List Int) (hd : dm.Nodup) (hr : ∀ i ∈ dm, 0 ≤ i ∧ i < 6) (h : GHeader) (h6 : h.nPart.length = 6) :
    headerN dm h = some (countTypes (isDM dm) h.nPart) := by
  have key : ∀ dm : List Int, (∀ i ∈ dm, 0 ≤ i ∧ i < 6) → dm.mapM (fun i => Shellfish.Finder.get h.nPart i) = some (dm.map fun i => h.nPart.getD i.toNat 0) := by
    intro dm hr
    induction dm with
    | nil => rfl
    | cons i dm ih =>
      have hi := hr i (by simp)
      rw [List.mapM_cons, ih (fun j hj => hr j (by simp [hj]))]
      have : Shellfish.Finder.get h.nPart i = some (h.nPart.getD i.toNat 0) := by
        unfold Shellfish.Finder.get
        rw [if_neg (by omega), List.getElem?_eq_getElem (by omega), List.getD_eq_getElem?_getD, List.getElem?_eq_getElem (by omega)]
        rfl
      rw [this]
      rfl
  unfold headerN
  rw [key dm hr, Option.map_some]
  congr 1
  have hcount : countTypes (isDM dm) h.nPart = ((List.range 6).map fun t : Nat => if (t : Int) ∈ dm then h.nPart.getD t 0 else 0).sum := by
    unfold countTypes
    have e : h.nPart.zipIdx = (List.range 6).map fun t : Nat => (h.nPart.getD t 0, t) := by
      apply List.ext_getElem?
      intro i
      by_cases hi : i < 6
      · rw [List.getElem?_zipIdx, List.getElem?_map, List.getElem?_range hi, List.getElem?_eq_getElem (by omega)]
        simp [List.getD_eq_getElem?_getD, List.getElem?_eq_getElem (show i < h.nPart.length by omega)]
      · rw [List.getElem?_eq_none (by rw [List.length_zipIdx]; omega), List.getElem?_eq_none (by rw [List.length_map, List.length_range]; omega)]
    rw [e, List.map_map]
    congr 1
    apply List.map_congr_left
    intro t _
    simp [isDM_iff]
  rw [hcount]
  have hperm : (dm.map Int.toNat).Perm ((List.range 6).filter fun t : Nat => (t : Int) ∈ dm) := by
    rw [List.perm_ext_iff_of_nodup]
    · intro t
      simp only [List.mem_map, List.mem_filter, List.mem_range, decide_eq_true_eq]
      constructor
      · rintro ⟨i, hi, rfl⟩
        have := hr i hi
        exact ⟨by omega, by rw [Int.toNat_of_nonneg this.1]; exact hi⟩
      · rintro ⟨h1, h2⟩
        exact ⟨(t : Int), h2, by simp⟩
    · apply List.Nodup.map_on _ hd
      intro a ha b hb hab
      have h1 := hr a ha
      have h2 := hr b hb
      omega
    · exact List.nodup_range.filter _
  have hsum := (hperm.map fun t => h.nPart.getD t 0).sum_eq
  rw [List.map_map] at hsum
  have hl : (dm.map fun i => h.nPart.getD i.toNat 0) = dm.map ((fun t => h.nPart.getD t 0) ∘ Int.toNat) := rfl
  rw [hl, hsum]
  clear hsum hperm hl hcount key
  generalize List.range 6 = ts
  induction ts with
  | nil => rfl
  | cons t ts ih =>
    by_cases ht : (t : Int) ∈ dm
    · rw [List.filter_cons_of_pos (by simpa using ht), List.map_cons, List.sum_cons, List.map_cons, List.sum_cons, if_pos ht, ih]
    · rw [List.filter_cons_of_neg (by simpa using ht), List.map_cons, List.sum_cons, if_neg ht, ih, Nat.zero_add]

example : headerN [2, 1] ⟨[1, 2, 5, 0, 0, 0], [], 0, 0, [], 0, 0, 0, 0, []⟩ = some 7 := by decide

/-- C31 fails when a type is requested twice: the header counts its particles twice, the arrays hold them once. -/
theorem C31_header_count_false : headerN [1, 1] hd1 = some 2 ∧ countTypes (isDM [1, 1]) hd1.nPart = 1 := by decide

/-- C31 fails for Gadget-2 files without a block of masses (Gadget-2 writes none when all types have their mass in the header): the reader panics at the end of the file. -/
theorem C31_no_mass_block_false (sys o : Order) : gadget2Raw sys o (2 ^ 30) id [1] [1] mem0 (file o 8 false hd1 [1] byType1) = none := by
  cases sys <;> cases o <;> decide +kernel

/-- C31 fails for a file without particles: division by zero. -/
theorem C31_no_particles_false (sys o : Order) :
    gadget2Raw sys o (2 ^ 30) id [1] [] mem0 (file o 8 true ⟨[0, 0, 0, 0, 0, 0], [0, 0, 0, 0, 0, 0], 0, 0, [0, 0, 0, 0, 0, 0], 100, 0, 0, 0, [0, 0, 0, 0, 0, 0]⟩ [] [[], [], [], [], [], []]) = none := by
  cases sys <;> cases o <;> decide +kernel

/-- C31 fails for 32-bit ids of 2^31 and more (Gadget's are unsigned): they come out negative. -/
theorem C31_big_ids_false : readIds .little .little (2 ^ 30) 1 4 (List.replicate 8 0) (numbers .little 4 [4294967295]) = ([-1], []) := by decide +kernel

/-- C31, LGadget-2 (little endian): as many particles as the header says, in file order, entry `k` of the arrays from the same particle.  All have the mass of the buffer. -/
theorem C31_lgadget2_partial (sys : Order) (rw : Nat) (hrw : rw < 2 ^ 31) (npartNum : Int) (mem : Mem) (hmem : MemOk mem) (h : GHeader) (hh : HeaderFits h) (ps : List Particle)
    (hn : if npartNum = 2 then h.nPart.getD 0 0 ≤ 100000 ∧ h.nPart.getD 1 0 + h.nPart.getD 0 0 * 2 ^ 32 = ps.length else h.nPart.getD 0 0 = ps.length) (hfits : ∀ p ∈ ps, p.Fits 8)
    (hsize : 12 * ps.length ≤ rw) :
    lgadget2Raw sys .little rw npartNum mem (record .little (header .little h) ++ common .little 8 ps) = some ⟨h, ps.map Particle.x, ps.map Particle.v, ps.map Particle.id, []⟩ := by
  apply lgadget2Raw_file sys rw hrw npartNum mem hmem h hh ps _ hfits hsize
  unfold lgadgetNum
  by_cases h2 : npartNum = 2
  · rw [if_pos h2] at hn ⊢
    rw [if_neg (by omega), hn.2]
  · rw [if_neg h2] at hn ⊢
    rw [hn]

example : (if (2 : Int) = 2 then hd1.nPart.getD 0 0 ≤ 100000 ∧ hd1.nPart.getD 1 0 + hd1.nPart.getD 0 0 * 2 ^ 32 = [(⟨[1, 2, 3], [4, 5, 6], 7, 8⟩ : Particle)].length else hd1.nPart.getD 0 0 = 1) := by decide

/-- C31 fails for big endian LGadget-2 files: whatever is read uses the header decoded in the wrong byte order; one particle is taken for 2^24. -/
theorem C31_lgadget2_false : (∀ (sys : Order) (rw : Nat) (npartNum : Int) (mem : Mem) (h : GHeader) (rest : List Byte) (raw : Raw), HeaderFits h →
    lgadget2Raw sys .big rw npartNum mem (record .big (header .big h) ++ rest) = some raw → raw.header = .parse .little (header .big h)) ∧
    lgadgetNum 1 (⟨[1, 0, 0, 0, 0, 0], [0, 0, 0, 0, 0, 0], 0, 0, [0, 0, 0, 0, 0, 0], 100, 0, 0, 0, [0, 0, 0, 0, 0, 0]⟩ : GHeader).nPart = some 1 ∧
    lgadgetNum 1 (GHeader.parse .little (header .big ⟨[1, 0, 0, 0, 0, 0], [0, 0, 0, 0, 0, 0], 0, 0, [0, 0, 0, 0, 0, 0], 100, 0, 0, 0, [0, 0, 0, 0, 0, 0]⟩)).nPart = some 16777216 := by
  refine ⟨?_, by decide, by decide +kernel⟩
  intro sys rw npartNum mem h rest raw hh hraw
  have hl := header_length .big h hh
  unfold lgadget2Raw record at hraw
  rw [List.append_assoc, List.append_assoc, readInt32_put .big _ (inRange_length _ (by omega)), Option.bind_some] at hraw
  have e : readHeader .little (header .big h ++ (putInt .big 4 (header .big h).length ++ rest)) = (.parse .little (header .big h), putInt .big 4 (header .big h).length ++ rest) := by
    unfold readHeader
    rw [if_neg (by simp only [List.length_append]; omega), List.take_left' hl, List.drop_left' hl]
  simp only [e] at hraw
  rw [readInt32_put .big _ (inRange_length _ (by omega)), Option.bind_some] at hraw
  simp only [Option.bind_eq_some_iff] at hraw
  obtain ⟨_, _, _, _, _, _, _, _, _, _, _, _, hr⟩ := hraw
  rw [← Option.some.inj hr]

/-! C60: Bolshoi files -/

/-- C60: all the particles of all blocks in file order, in either byte order, whatever was in the buffer. -/
theorem C60_bolshoi_in_order (sys o : Order) (rw : Nat) (hrw : rw < 2 ^ 31) (comment h1 h2 boundary : List Byte) (l1 : comment.length = 45) (l2 : h1.length = 44) (l3 : h2.length = 20)
    (l4 : boundary.length = 24) (blocks : List (List BParticle)) (hfit : ∀ b ∈ blocks, ∀ p ∈ b, p.Fits) (hsize : ∀ b ∈ blocks, 32 * b.length ≤ rw) (hn : blocks.flatten.length < 2 ^ 31)
    (mem : List Byte) (hmem : 32 ∣ mem.length) :
    bolshoiRaw sys o rw mem (bolshoiFile o comment h1 h2 boundary blocks) = some blocks.flatten :=
  bolshoiRaw_file sys o rw hrw comment h1 h2 boundary l1 l2 l3 l4 blocks hfit hsize hn mem hmem

example : bolshoiRaw .little .big (2 ^ 30) (List.replicate 64 3) (bolshoiFile .big (List.replicate 45 0) (List.replicate 44 0) (List.replicate 20 0) (List.replicate 24 0)
    [[⟨[1, 2, 3], [4, 5, 6], -7⟩], [], [⟨[10, 20, 30], [40, 50, 60], 70⟩]]) = some [⟨[1, 2, 3], [4, 5, 6], -7⟩, ⟨[10, 20, 30], [40, 50, 60], 70⟩] := by decide +kernel

/-! C62: damaged files -/

/-- C62, Gadget-2: a file that ends too early, at whatever byte, is never read: the reader panics, whatever the buffers held. -/
theorem C62_gadget2_partial (sys o : Order) (rw k : Nat) (hk : k = 8 ∨ k = 4) (hrw : rw < 2 ^ 31) (to32 : Nat → Nat) (dm single : List Int) (mem : Mem) (h : GHeader) (hh : HeaderFits h)
    (byType : List (List Particle)) (h6 : byType.length = 6) (hn : h.nPart = byType.map List.length) (hp : ∀ c ∈ typed byType, c.2.Fits k)
    (hsize : 12 * (typed byType).length ≤ rw) (m : Nat) (hm : m < (file o k true h single byType).length) :
    gadget2Raw sys o rw to32 dm single mem ((file o k true h single byType).take m) = none :=
  gadget2Raw_truncated sys o rw k hk hrw to32 dm single mem h hh byType h6 hn hp hsize m hm

example : (file .big 8 true hd1 [1] byType1).length = 328 := by decide +kernel

/-- C62, Bolshoi: likewise, when no block is empty. -/
theorem C62_bolshoi_partial (sys o : Order) (rw : Nat) (hrw : rw < 2 ^ 31) (comment h1 h2 boundary : List Byte) (l1 : comment.length = 45) (l2 : h1.length = 44) (l3 : h2.length = 20)
    (l4 : boundary.length = 24) (blocks : List (List BParticle)) (hfit : ∀ b ∈ blocks, ∀ p ∈ b, p.Fits) (hsize : ∀ b ∈ blocks, 32 * b.length ≤ rw) (hne : ∀ b ∈ blocks, b ≠ [])
    (hn : blocks.flatten.length < 2 ^ 31) (mem : List Byte) (m : Nat) (hm : m < (bolshoiFile o comment h1 h2 boundary blocks).length) :
    bolshoiRaw sys o rw mem ((bolshoiFile o comment h1 h2 boundary blocks).take m) = none :=
  bolshoiRaw_truncated sys o rw hrw comment h1 h2 boundary l1 l2 l3 l4 blocks hfit hsize hne hn mem m hm

example : (⟨[1, 2, 3], [4, 5, 6], -7⟩ : BParticle).Fits := by unfold BParticle.Fits InRange; decide

/-- C62, LGadget-2: a file that ends before the ids makes the reader panic ... -/
theorem C62_lgadget2_partial (sys : Order) (rw : Nat) (hrw : rw < 2 ^ 31) (npartNum : Int) (mem : Mem) (h : GHeader) (hh : HeaderFits h) (ps : List Particle)
    (hn : lgadgetNum npartNum h.nPart = some ps.length) (hfits : ∀ p ∈ ps, p.Fits 8) (hsize : 12 * ps.length ≤ rw) (m : Nat) (hm : m < 284 + 24 * ps.length) :
    lgadget2Raw sys .little rw npartNum mem ((record .little (header .little h) ++ common .little 8 ps).take m) = none :=
  lgadget2Raw_truncated sys rw hrw npartNum mem h hh ps hn hfits hsize m hm

example : lgadgetNum 2 hd1.nPart = some 1 := by decide

/-- C62 fails for LGadget-2 files that end inside of the ids: here the file ends before the id of its only particle, and the particle gets the id (77) that the buffer held before. -/
theorem C62_lgadget2_false : lgadget2Raw .little .little (2 ^ 30) 2 ⟨[], [], [77, 0, 0, 0, 0, 0, 0, 0], [], []⟩
    ((record .little (header .little hd1) ++ common .little 8 [⟨[1, 2, 3], [4, 5, 6], 7, 8⟩]).take 308) = some ⟨hd1, [[1, 2, 3]], [[4, 5, 6]], [77], []⟩ := by decide +kernel

/-- C62 fails for gotetra files: a file that does not exist is read without an error; the positions are those that the buffer held before, whatever they were. -/
theorem C62_gotetra_missing_false (sys : Order) (rw sw gw : Nat) (mem : List Byte) (hw : sw ≤ gw) :
    ∃ xs, gotetraRead sys rw sw gw mem none = (.ok xs, mem) := by
  have hr : readSheet sys rw (gw * gw * gw) mem none = (.ok (), mem) := rfl
  unfold gotetraRead
  rw [hr]
  simp only
  have hlen : ∀ l : List Nat, ∀ n, l.length = 3 * n → (triples l).length = n := by
    intro l n
    induction n generalizing l with
    | zero =>
      intro h
      have : l = [] := List.eq_nil_of_length_eq_zero (by omega)
      rw [this]; rfl
    | succ n ih =>
      intro h
      match l, h with
      | a :: b :: c :: r, h =>
        simp only [triples, List.length_cons] at h ⊢
        rw [ih r (by omega)]
  have hl := hlen _ _ (words_length sys 4 (3 * (gw * gw * gw)) mem)
  generalize triples (words sys 4 (3 * (gw * gw * gw)) mem) = sheet at hl
  have : ∃ xs, segment sw gw sheet = some xs := by
    unfold segment
    have hall : ∀ gi ∈ ((List.range sw).flatMap fun z => (List.range sw).flatMap fun y => (List.range sw).map fun x => x + y * gw + z * gw * gw), gi < sheet.length := by
      intro gi hgi
      simp only [List.mem_flatMap, List.mem_map, List.mem_range] at hgi
      obtain ⟨z, hz, y, hy, x, hx, rfl⟩ := hgi
      rw [hl]
      have h1 : x + y * gw < gw * gw := by nlinarith
      have h2 : z * (gw * gw) + gw * gw ≤ gw * (gw * gw) := by nlinarith [Nat.mul_le_mul_right (gw * gw) (by omega : z + 1 ≤ gw)]
      have h3 : z * gw * gw = z * (gw * gw) := by ring
      have h4 : gw * gw * gw = gw * (gw * gw) := by ring
      omega
    generalize ((List.range sw).flatMap fun z => (List.range sw).flatMap fun y => (List.range sw).map fun x => x + y * gw + z * gw * gw) = gis at hall
    induction gis with
    | nil => exact ⟨[], rfl⟩
    | cons g gs ih =>
      obtain ⟨xs, hxs⟩ := ih (fun i hi => hall i (by simp [hi]))
      refine ⟨sheet[g]'(hall g (by simp)) :: xs, ?_⟩
      rw [List.mapM_cons, hxs, List.getElem?_eq_getElem (hall g (by simp))]
      rfl
  obtain ⟨xs, hxs⟩ := this
  rw [hxs]
  exact ⟨xs, rfl⟩

example : gotetraRead .little 100 1 1 [1, 0, 0, 0, 2, 0, 0, 0, 3, 0, 0, 0] none = (.ok [[1, 2, 3]], [1, 0, 0, 0, 2, 0, 0, 0, 3, 0, 0, 0]) := by decide

/-! C35: gotetra sheets -/

theorem getD_range_map {α : Type} (n : Nat) (f : Nat → α) (i : Nat) (hi : i < n) : ((List.range n).map f)[i]? = some (f i) := by
  rw [List.getElem?_map, List.getElem?_range hi]; rfl

theorem flatMap_range_get {α : Type} (n k : Nat) (f : Nat → List α) (hf : ∀ i, (f i).length = k) (a b : Nat) (ha : a < n) (hb : b < k) :
    ((List.range n).flatMap f)[a * k + b]? = (f a)[b]? := by
  induction n with
  | zero => omega
  | succ n ih =>
    have hl : ((List.range n).flatMap f).length = n * k := by
      clear ih ha
      induction n with
      | zero => simp
      | succ n ih => rw [List.range_succ, List.flatMap_append, List.length_append, ih]; simp [hf]; ring
    rw [List.range_succ, List.flatMap_append]
    by_cases h : a < n
    · have : a * k + b < n * k := by
        have := Nat.mul_le_mul_right k (by omega : a + 1 ≤ n)
        rw [Nat.add_mul, Nat.one_mul] at this
        omega
      rw [List.getElem?_append_left (by omega), ih h]
    · have : a = n := by omega
      subst this
      rw [List.getElem?_append_right (by omega), hl, Nat.add_sub_cancel_left]
      simp

theorem flatMap_range_length {α : Type} (n k : Nat) (f : Nat → List α) (hf : ∀ i, (f i).length = k) : ((List.range n).flatMap f).length = n * k := by
  induction n with
  | zero => simp
  | succ n ih => rw [List.range_succ, List.flatMap_append, List.length_append, ih]; simp [hf]; ring

/-- C35: the segment is the sub-cube of the stored grid at its origin, with the same indexing (x fastest, then y, then z); it exists exactly when it is not wider than the grid (or empty). -/
theorem C35_segment {α : Type} (sw gw : Nat) (sheet : List α) (hs : sheet.length = gw * gw * gw) (hw : sw ≤ gw) :
    ∃ xs, segment sw gw sheet = some xs ∧ xs.length = sw * sw * sw ∧
      ∀ x y z, x < sw → y < sw → z < sw → xs[z * (sw * sw) + (y * sw + x)]? = sheet[z * (gw * gw) + (y * gw + x)]? := by
  generalize hg : ((List.range sw).flatMap fun z => (List.range sw).flatMap fun y => (List.range sw).map fun x => x + y * gw + z * gw * gw) = gis
  have hlin : ∀ z, ((List.range sw).flatMap fun y => (List.range sw).map fun x => x + y * gw + z * gw * gw).length = sw * sw := by
    intro z
    exact flatMap_range_length sw sw _ (by intro y; simp)
  have hlen : gis.length = sw * sw * sw := by
    rw [← hg, flatMap_range_length sw (sw * sw) _ hlin]; ring
  have hget : ∀ x y z, x < sw → y < sw → z < sw → gis[z * (sw * sw) + (y * sw + x)]? = some (x + y * gw + z * gw * gw) := by
    intro x y z hx hy hz
    rw [← hg, flatMap_range_get sw (sw * sw) _ hlin z (y * sw + x) hz (by nlinarith), flatMap_range_get sw sw _ (by intro y; simp) y x hy hx, getD_range_map sw _ x hx]
  have hall : ∀ gi ∈ gis, gi < sheet.length := by
    intro gi hgi
    rw [← hg] at hgi
    simp only [List.mem_flatMap, List.mem_map, List.mem_range] at hgi
    obtain ⟨z, hz, y, hy, x, hx, rfl⟩ := hgi
    rw [hs]
    have h1 : x + y * gw < gw * gw := by nlinarith
    have h2 : z * (gw * gw) + gw * gw ≤ gw * (gw * gw) := by nlinarith [Nat.mul_le_mul_right (gw * gw) (by omega : z + 1 ≤ gw)]
    have h3 : z * gw * gw = z * (gw * gw) := by ring
    have h4 : gw * gw * gw = gw * (gw * gw) := by ring
    omega
  have hm : ∀ l : List Nat, (∀ gi ∈ l, gi < sheet.length) → ∃ xs, l.mapM (fun gi => sheet[gi]?) = some xs ∧ xs.length = l.length ∧ ∀ (i gi : Nat), l[i]? = some gi → xs[i]? = sheet[gi]? := by
    intro l
    induction l with
    | nil => intro _; exact ⟨[], rfl, rfl, by simp⟩
    | cons g gs ih =>
      intro hall
      obtain ⟨xs, h1, h2, h3⟩ := ih (fun i hi => hall i (by simp [hi]))
      refine ⟨sheet[g]'(hall g (by simp)) :: xs, ?_, by simp [h2], ?_⟩
      · rw [List.mapM_cons, h1, List.getElem?_eq_getElem (hall g (by simp))]; rfl
      · intro i gi hi
        cases i with
        | zero =>
          simp only [List.getElem?_cons_zero, Option.some.injEq] at hi ⊢
          rw [← hi, List.getElem?_eq_getElem (hall g (by simp))]
        | succ i =>
          simp only [List.getElem?_cons_succ] at hi ⊢
          exact h3 i gi hi
  obtain ⟨xs, h1, h2, h3⟩ := hm gis hall
  refine ⟨xs, ?_, by rw [h2, hlen], ?_⟩
  · unfold segment; rw [hg, h1]
  · intro x y z hx hy hz
    rw [h3 _ _ (hget x y z hx hy hz)]
    congr 1
    ring

example : segment 2 3 (List.range 27) = some [0, 1, 3, 4, 9, 10, 12, 13] := by decide

/-- C35: a segment wider than the grid is refused with a panic. -/
theorem C35_segment_too_wide {α : Type} (sw gw : Nat) (sheet : List α) (hs : sheet.length = gw * gw * gw) (hw : gw < sw) : segment sw gw sheet = none := by
  unfold segment
  have hmem : gw + gw * gw + gw * gw * gw ∈ ((List.range sw).flatMap fun z => (List.range sw).flatMap fun y => (List.range sw).map fun x => x + y * gw + z * gw * gw) := by
    simp only [List.mem_flatMap, List.mem_map, List.mem_range]
    exact ⟨gw, hw, gw, hw, gw, hw, rfl⟩
  have hm : ∀ l : List Nat, (∃ gi ∈ l, sheet.length ≤ gi) → l.mapM (fun gi => sheet[gi]?) = none := by
    intro l
    induction l with
    | nil => rintro ⟨_, h, _⟩; simp at h
    | cons g gs ih =>
      rintro ⟨gi, hgi, hle⟩
      rw [List.mapM_cons]
      rcases List.mem_cons.mp hgi with rfl | hgi
      · rw [List.getElem?_eq_none hle]; rfl
      · rw [ih ⟨gi, hgi, hle⟩]
        cases sheet[g]? <;> rfl
  exact hm _ ⟨_, hmem, by rw [hs]; omega⟩

example : segment 2 1 [(5 : Nat)] = none := by decide

/-- C35: file numbers and cell coordinates correspond one to one. -/
theorem C35_file_coords (cells : Int) (hc : 0 < cells) :
    (∀ idx, 0 ≤ idx → idx < cells * cells * cells → ∃ x y z : Int, fileCoords idx cells = (x, y, z) ∧ 0 ≤ x ∧ x < cells ∧ 0 ≤ y ∧ y < cells ∧ 0 ≤ z ∧ z < cells ∧
      idx = x + y * cells + z * (cells * cells)) ∧
    ∀ x y z : Int, 0 ≤ x → x < cells → 0 ≤ y → y < cells → 0 ≤ z → z < cells → fileCoords (x + y * cells + z * (cells * cells)) cells = (x, y, z) := by
  constructor
  · intro idx h0 h1
    refine ⟨_, _, _, rfl, ?_⟩
    rw [Int.tmod_eq_emod_of_nonneg h0, Int.tdiv_eq_ediv_of_nonneg h0, Int.tdiv_eq_ediv_of_nonneg h0, Int.tmod_eq_emod_of_nonneg (Int.ediv_nonneg h0 hc.le)]
    have e1 := Int.emod_add_mul_ediv idx cells
    have e2 := Int.emod_add_mul_ediv (idx / cells) cells
    have e3 : idx / (cells * cells) = idx / cells / cells := (Int.ediv_ediv_of_nonneg hc.le).symm
    have e4 : idx / (cells * cells) < cells := Int.ediv_lt_of_lt_mul (by positivity) (by nlinarith)
    refine ⟨Int.emod_nonneg _ (by omega), Int.emod_lt_of_pos _ hc, Int.emod_nonneg _ (by omega), Int.emod_lt_of_pos _ hc, Int.ediv_nonneg h0 (by positivity), e4, ?_⟩
    rw [e3]
    nlinarith
  · intro x y z hx0 hx1 hy0 hy1 hz0 hz1
    have hnn : 0 ≤ x + y * cells + z * (cells * cells) := by positivity
    unfold fileCoords
    rw [Int.tmod_eq_emod_of_nonneg hnn, Int.tdiv_eq_ediv_of_nonneg hnn, Int.tdiv_eq_ediv_of_nonneg hnn, Int.tmod_eq_emod_of_nonneg (Int.ediv_nonneg hnn hc.le)]
    have d1 : (x + y * cells + z * (cells * cells)) / cells = y + z * cells := by
      have : x + y * cells + z * (cells * cells) = x + (y + z * cells) * cells := by ring
      rw [this, Int.add_mul_ediv_right _ _ (by omega), Int.ediv_eq_zero_of_lt hx0 hx1, zero_add]
    have m1 : (x + y * cells + z * (cells * cells)) % cells = x := by
      have : x + y * cells + z * (cells * cells) = x + (y + z * cells) * cells := by ring
      rw [this, Int.add_mul_emod_self_right, Int.emod_eq_of_lt hx0 hx1]
    have d2 : (x + y * cells + z * (cells * cells)) / (cells * cells) = z := by
      rw [← Int.ediv_ediv_of_nonneg hc.le, d1, Int.add_mul_ediv_right _ _ (by omega), Int.ediv_eq_zero_of_lt hy0 hy1, zero_add]
    rw [d1, m1, d2, Int.add_mul_emod_self_right, Int.emod_eq_of_lt hy0 hy1]

example : fileCoords 43 5 = (3, 3, 1) := by decide

/-- C35, whole files: a sheet file (flag, header size, header with the grid size, positions, anything after them) gives the sub-cube of its positions, in either byte order. -/
theorem C35_file (sys o : Order) (rw sw gw : Nat) (hw : sw ≤ gw) (hrw : 12 * (gw * gw * gw) ≤ rw) (hd : List Byte) (hl : hd.length = 152) (hcount : getInt o ((hd.drop 64).take 8) = ((gw * gw * gw : Nat) : Int))
    (ps : List (List Nat)) (hps : ps.length = gw * gw * gw) (h3 : ∀ p ∈ ps, p.length = 3) (hword : ∀ p ∈ ps, ∀ w ∈ p, w < 2 ^ 32) (rest mem : List Byte) (hm : mem.length = 12 * (gw * gw * gw)) :
    ∃ xs mem', gotetraRead sys rw sw gw mem (some (putInt .little 4 (if o = .little then 0 else -1) ++ (putInt o 4 152 ++ (hd ++ (numbers o 4 (ps.flatMap id) ++ rest))))) = (.ok xs, mem') ∧
      xs.length = sw * sw * sw ∧ ∀ x y z, x < sw → y < sw → z < sw → xs[z * (sw * sw) + (y * sw + x)]? = ps[z * (gw * gw) + (y * gw + x)]? := by
  obtain ⟨mem', h1, h2⟩ := readVec_block sys o rw ps h3 hword mem rest (by omega) (by omega)
  obtain ⟨xs, g1, g2, g3⟩ := C35_segment sw gw ps (by rw [hps]) hw
  refine ⟨xs, mem', ?_, g2, g3⟩
  generalize hf : numbers o 4 (ps.flatMap id) ++ rest = body at h1
  have hflag : readInt32 .little (putInt .little 4 (if o = .little then 0 else -1) ++ (putInt o 4 152 ++ (hd ++ body))) = some (if o = .little then 0 else -1, putInt o 4 152 ++ (hd ++ body)) := by
    apply readInt32_put
    cases o <;> unfold InRange <;> decide
  have hend : endianness (if o = .little then 0 else -1) = some o := by cases o <;> decide
  have hsz : readInt32 o (putInt o 4 152 ++ (hd ++ body)) = some (152, hd ++ body) := by
    apply readInt32_put
    unfold InRange; decide
  have hfl : (putInt .little 4 (if o = .little then 0 else -1)).length = 4 := putInt_length _ _ _
  have hsl : (putInt o 4 152).length = 4 := putInt_length _ _ _
  have hdrop : (putInt .little 4 (if o = .little then 0 else -1) ++ (putInt o 4 152 ++ (hd ++ body))).drop 8 = hd ++ body := by
    rw [← List.append_assoc, List.drop_left' (by rw [List.length_append]; omega)]
  have hload : loadSheetHeader (some (putInt .little 4 (if o = .little then 0 else -1) ++ (putInt o 4 152 ++ (hd ++ body)))) = .ok (.parse o hd, o) := by
    unfold loadSheetHeader
    simp only [hflag, hend, hsz]
    rw [if_neg (by simp), if_neg (by simp only [List.length_append]; omega), hdrop, List.take_left' hl]
  have hread : readSheet sys rw (gw * gw * gw) mem (some (putInt .little 4 (if o = .little then 0 else -1) ++ (putInt o 4 152 ++ (hd ++ body)))) = (.ok (), mem') := by
    unfold readSheet
    rw [hload]
    simp only
    have hgc : (SheetHeader.parse o hd).gridCount = ((gw * gw * gw : Nat) : Int) := hcount
    rw [if_neg (by rw [hgc]; simp)]
    have hd160 : ((some (putInt .little 4 (if o = .little then 0 else -1) ++ (putInt o 4 152 ++ (hd ++ body)))).getD []).drop 160 = body := by
      rw [Option.getD_some, show (160 : Nat) = 8 + 152 from rfl, ← List.drop_drop, hdrop, List.drop_left' hl]
    rw [hd160, ← hps, h1]
    rfl
  unfold gotetraRead
  rw [hread]
  simp only
  rw [← hps, h2, g1]

example : getInt .big (((List.replicate 64 0 ++ putInt .big 8 1 ++ List.replicate 80 0).drop 64).take 8) = ((1 * 1 * 1 : Nat) : Int) ∧
    (gotetraRead .little (2 ^ 30) 1 1 (List.replicate 12 9)
      (some (putInt .little 4 (-1) ++ (putInt .big 4 152 ++ ((List.replicate 64 0 ++ putInt .big 8 1 ++ List.replicate 80 0) ++ (numbers .big 4 [1, 2, 3] ++ [])))))).1 = .ok [[1, 2, 3]] := by decide +kernel

end Shellfish.Io
