/-
C92: what a reader reports about a file agrees with the particles that it returns (io/lgadget2.go, io/gadget2.go, io/gotetra.go, io/bolshoi.go, io/bolshoiP.go).
-/
import Verif.Model.Readers
import Verif.Props.Bolshoi
import Verif.Props.Radius
import Verif.Model.ShellRun

namespace Shellfish.Io
open Shellfish.Bytes Shellfish.Gadget
open Shellfish.Memo (Out)
open Shellfish.Radius (Cosmo rhoAverage refDensity)

noncomputable section

/-! ## Specification -/

/-- A position in the box `[0, tw * units)`, equal to the stored one up to multiples of the width of the box and in other units. -/
def Wrapped (tw units : ℝ) (stored got : List ℝ) : Prop := List.Forall₂ (fun x y => 0 ≤ y ∧ y < tw * units ∧ ∃ k : Int, y = (x + k * tw) * units) stored got

/-- One coordinate of a periodic box. -/
def Holds1 (tw o w x : ℝ) : Prop := ∃ k : Int, o ≤ x + k * tw ∧ x + k * tw ≤ o + w

/-- The position is in the box of the header. -/
def Holds (hd : BOut ℝ) (x : List ℝ) : Prop :=
  Holds1 hd.totalWidth hd.origin.1 hd.width.1 (x.getD 0 0) ∧ Holds1 hd.totalWidth hd.origin.2.1 hd.width.2.1 (x.getD 1 0) ∧ Holds1 hd.totalWidth hd.origin.2.2 hd.width.2.2 (x.getD 2 0)

/-- A header describes the particles: their number, the box of the simulation and a box around them; the cosmology is `c`. -/
def Describes (hd : BOut ℝ) (c : Cosmo) (tw : ℝ) (b : Block) : Prop :=
  hd.n = b.xs.length ∧ hd.totalWidth = tw ∧ hd.z = c.z ∧ hd.omegaM = c.omegaM ∧ hd.omegaL = c.omegaL ∧ hd.h100 = c.h100 ∧ ∀ x ∈ b.xs, Holds hd x

/-! ## Lemmas -/

theorem readFileHeader_record (h : GHeader) (hh : HeaderFits h) (rest : List Byte) : readFileHeader .little (record .little (header .little h) ++ rest) = .ok h := by
  have hl := header_length .little h hh
  unfold readFileHeader record
  rw [List.append_assoc, List.append_assoc, readInt32_put .little _ (inRange_length _ (by omega))]
  simp only
  rw [if_neg (by simp only [List.length_append]; omega), List.take_left' hl, parse_header .little h hh]

theorem box3_holds (tw : ℝ) (htw : 0 < tw) (xs : List (List ℝ)) (hne : xs ≠ []) (h3 : ∀ x ∈ xs, x.length = 3 ∧ ∀ t ∈ x, 0 ≤ t ∧ t ≤ tw) :
    ∃ b, box3 xs tw = some b ∧ ∀ (c : Cosmo) (n : Int), ∀ x ∈ xs, Holds (mkHeader c n tw b) x := by
  have key : ∀ j, j < 3 → ∃ o w, boundingBox (xs.map fun x => x.getD j 0) tw = some (o, w) ∧ 0 ≤ w ∧ w ≤ tw ∧ ∀ t ∈ xs.map fun x => x.getD j 0, ∃ k : Int, o ≤ t + k * tw ∧ t + k * tw ≤ o + w := by
    intro j hj
    apply C33_contains tw htw
    · simpa using hne
    · intro t ht
      obtain ⟨x, hx, rfl⟩ := List.mem_map.1 ht
      obtain ⟨l, hr⟩ := h3 x hx
      rw [List.getD_eq_getElem _ _ (by omega)]
      exact hr _ (List.getElem_mem _)
  obtain ⟨o0, w0, e0, _, _, k0⟩ := key 0 (by norm_num)
  obtain ⟨o1, w1, e1, _, _, k1⟩ := key 1 (by norm_num)
  obtain ⟨o2, w2, e2, _, _, k2⟩ := key 2 (by norm_num)
  refine ⟨((o0, w0), (o1, w1), (o2, w2)), ?_, ?_⟩
  · unfold box3
    rw [e0, e1, e2]
    rfl
  · intro c n x hx
    exact ⟨k0 _ (List.mem_map_of_mem hx), k1 _ (List.mem_map_of_mem hx), k2 _ (List.mem_map_of_mem hx)⟩

theorem wrapped_box (tw units : ℝ) (htw : 0 < tw) (hu : 0 < units) (xs ys : List (List ℝ)) (hl : ∀ x ∈ xs, x.length = 3) (h : List.Forall₂ (Wrapped tw units) xs ys) :
    ∀ y ∈ ys, y.length = 3 ∧ ∀ t ∈ y, 0 ≤ t ∧ t ≤ tw * units := by
  induction h with
  | nil => simp
  | cons hw hrest ih =>
    rename_i x y xs ys
    intro z hz
    rcases List.mem_cons.1 hz with rfl | hz
    · refine ⟨by rw [← hw.length_eq]; exact hl _ (by simp), ?_⟩
      have hl' : x.length = 3 := hl _ (by simp)
      clear ih hrest hl hl' hz
      unfold Wrapped at hw
      induction hw with
      | nil => simp
      | cons h1 _ ih =>
        intro t ht
        rcases List.mem_cons.1 ht with rfl | ht
        · exact ⟨h1.1, h1.2.1.le⟩
        · exact ih t ht
    · exact ih (fun q hq => hl q (by simp [hq])) z hz

/-! ## LGadget-2 -/

/-- C92, LGadget-2: the whole of `Read` and `ReadHeader` on a (little endian) file whose positions are at most one box away from the box: positions wrapped into the box, velocities times √a, every mass that
of the buffer, ids as stored, in file order; and the header says how many there are and where. -/
theorem C92_lgadget2 (val32 val64 : Nat → ℝ) (sys : Order) (rw : Nat) (hrw : rw < 2 ^ 31) (npartNum : Int) (mass : ℝ) (mem : Mem) (hmem : MemOk mem) (h : GHeader) (hh : HeaderFits h) (ps : List Particle) (hne : ps ≠ [])
    (hn : if npartNum = 2 then h.nPart.getD 0 0 ≤ 100000 ∧ h.nPart.getD 1 0 + h.nPart.getD 0 0 * 2 ^ 32 = ps.length else h.nPart.getD 0 0 = ps.length) (hfits : ∀ p ∈ ps, p.Fits 8)
    (hsize : 12 * ps.length ≤ rw) (htw : 0 < val64 h.boxSize) (hx : ∀ p ∈ ps, ∀ w ∈ p.x, -val64 h.boxSize ≤ val32 w ∧ val32 w < 2 * val64 h.boxSize) :
    ∃ b hd, lgadgetRead val32 val64 sys .little rw npartNum mass mem (record .little (header .little h) ++ common .little 8 ps) = .ok b ∧
      List.Forall₂ (Wrapped (val64 h.boxSize) 1) (ps.map fun p => p.x.map val32) b.xs ∧ b.vs = (ps.map fun p => p.v.map fun w => val32 w * Real.sqrt (val64 h.time)) ∧
      b.ms = List.replicate ps.length mass ∧ b.ids = ps.map Particle.id ∧
      lgadgetReadHeader val32 val64 sys .little rw npartNum mass mem (record .little (header .little h) ++ common .little 8 ps) = .ok hd ∧
      Describes hd ⟨val64 h.redshift, val64 h.omega0, val64 h.omegaLambda, val64 h.hubbleParam⟩ (val64 h.boxSize) b := by
  have hraw := C31_lgadget2_partial sys rw hrw npartNum mem hmem h hh ps hn hfits hsize
  obtain ⟨xs, hfix, hw⟩ := C32_all_partial (val64 h.boxSize) 1 htw one_pos (ps.map fun p => p.x.map val32) (by
    intro q hq x hx'
    obtain ⟨p, hp, rfl⟩ := List.mem_map.1 hq
    obtain ⟨w, hw, rfl⟩ := List.mem_map.1 hx'
    exact hx p hp w hw)
  have hlen : xs.length = ps.length := by rw [← hw.length_eq, List.length_map]
  have hread : lgadgetRead val32 val64 sys .little rw npartNum mass mem (record .little (header .little h) ++ common .little 8 ps) =
      .ok ⟨xs, ps.map fun p => p.v.map fun w => val32 w * Real.sqrt (val64 h.time), List.replicate ps.length mass, ps.map Particle.id⟩ := by
    unfold lgadgetRead
    rw [hraw]
    simp only [List.map_map, Function.comp_def, hfix, List.length_map]
  have hin := wrapped_box (val64 h.boxSize) 1 htw one_pos _ xs (by
    intro q hq
    obtain ⟨p, hp, rfl⟩ := List.mem_map.1 hq
    rw [List.length_map]; exact (hfits p hp).1) hw
  rw [mul_one] at hin
  obtain ⟨bx, hb1, hb2⟩ := box3_holds (val64 h.boxSize) htw xs (by intro e; rw [e] at hlen; exact hne (List.length_eq_zero_iff.1 hlen.symm)) hin
  refine ⟨_, mkHeader ⟨val64 h.redshift, val64 h.omega0, val64 h.omegaLambda, val64 h.hubbleParam⟩ ps.length (val64 h.boxSize) bx, hread, hw, rfl, rfl, rfl, ?_, ?_⟩
  · unfold lgadgetReadHeader
    rw [readFileHeader_record h hh, hread]
    have hnum : lgadgetNum npartNum h.nPart = some ps.length := by
      unfold lgadgetNum
      by_cases h2 : npartNum = 2
      · rw [if_pos h2] at hn ⊢
        rw [if_neg (by omega), hn.2]
      · rw [if_neg h2] at hn ⊢
        rw [hn]
    simp only [Out.bind, hnum, hb1]
    rfl
  · exact ⟨by rw [hlen]; rfl, rfl, rfl, rfl, rfl, rfl, fun x hx => hb2 _ _ x hx⟩

theorem uniform_total (n : Nat) (hn : 0 < n) (tw : ℝ) (c : Cosmo) (hc : c.Ok) : (n : ℝ) * calcUniformMass n tw c = tw ^ 3 * (refDensity true { c with z := 0 } * (c.omegaM + c.omegaL)) := by
  have hn' : (n : ℝ) ≠ 0 := by exact_mod_cast hn.ne'
  have key := (Radius.C47_densities { c with z := 0 } ⟨hc.h, by norm_num, hc.m, hc.l⟩).2
  simp only at key
  unfold calcUniformMass
  simp only [Int.cast_natCast]
  rw [key]
  field_simp

/-- The particles of the blocks together. -/
def totalMass (bs : List Block) : ℝ := (bs.map fun b => b.ms.sum).sum

/-- C92, LGadget-2: the masses of all particles of a snapshot add up to the mean matter density (today, comoving) times the volume of the box, in a flat universe; `MinMass` is the mass of every particle. -/
theorem C92_lgadget2_total (val32 val64 : Nat → ℝ) (sys : Order) (rw : Nat) (npartNum : Int) (h0 : GHeader) (hh : HeaderFits h0) (hc : Cosmo.Ok ⟨val64 h0.redshift, val64 h0.omega0, val64 h0.omegaLambda, val64 h0.hubbleParam⟩)
    (flat : val64 h0.omega0 + val64 h0.omegaLambda = 1) (n : Nat) (hpos : 0 < n) (hn : if npartNum = 2 then h0.numPartTotal.getD 0 0 ≤ 100000 ∧ h0.numPartTotal.getD 1 0 + h0.numPartTotal.getD 0 0 * 2 ^ 32 = n else h0.numPartTotal.getD 0 0 = n)
    (rest : List Byte) :
    ∃ mass, lgadgetNew val64 .little npartNum (record .little (header .little h0) ++ rest) = .ok mass ∧
      ∀ (files : List (Mem × List Byte)) (bs : List Block), List.Forall₂ (fun f b => lgadgetRead val32 val64 sys .little rw npartNum mass f.1 f.2 = .ok b) files bs →
        (∀ b ∈ bs, ∀ m ∈ b.ms, m = mass) ∧ ((bs.map fun b => b.ids.length).sum = n →
          totalMass bs = refDensity true ⟨0, val64 h0.omega0, val64 h0.omegaLambda, val64 h0.hubbleParam⟩ * (val64 h0.boxSize) ^ 3) := by
  have hnum : lgadgetNum npartNum h0.numPartTotal = some n := by
    unfold lgadgetNum
    by_cases h2 : npartNum = 2
    · rw [if_pos h2] at hn ⊢
      rw [if_neg (by omega), hn.2]
    · rw [if_neg h2] at hn ⊢
      rw [hn]
  refine ⟨calcUniformMass n (val64 h0.boxSize) (h0.cosmo val64), ?_, ?_⟩
  · unfold lgadgetNew
    rw [readFileHeader_record h0 hh]
    simp only [Out.bind, hnum]
  · intro files bs hf
    generalize hM : calcUniformMass n (val64 h0.boxSize) (h0.cosmo val64) = mass at hf ⊢
    have each : ∀ b ∈ bs, b.ms = List.replicate b.ids.length mass := by
      clear hM
      induction hf with
      | nil => simp
      | cons h1 _ ih =>
        rename_i f b fs bs
        intro b' hb'
        rcases List.mem_cons.1 hb' with rfl | hb'
        · unfold lgadgetRead at h1
          split at h1
          · exact nomatch h1
          · simp only at h1
            split at h1
            · exact nomatch h1
            · injection h1 with h1
              subst h1
              rfl
        · exact ih b' hb'
    refine ⟨fun b hb m hm => by rw [each b hb] at hm; exact List.eq_of_mem_replicate hm, ?_⟩
    intro hsum
    have : totalMass bs = (n : ℝ) * mass := by
      rw [← hsum]
      unfold totalMass
      clear hsum hf hM
      induction bs with
      | nil => simp
      | cons b bs ih =>
        rw [List.map_cons, List.sum_cons, List.map_cons, List.sum_cons, ih fun b hb => each b (by simp [hb]), each b (by simp), List.sum_replicate]
        push_cast
        rw [nsmul_eq_mul]
        ring
    rw [this, ← hM, uniform_total n hpos _ (h0.cosmo val64) hc]
    simp only [GHeader.cosmo]
    rw [flat]
    ring

/-! ## Gadget-2 -/

/-- C92, Gadget-2: the whole of `Read` and `ReadHeader` on a little endian file with a block of masses: as for LGadget-2, of the particles of the requested types; positions and masses in the units of the program. -/
theorem C92_gadget2 (val32 val64 : Nat → ℝ) (sys : Order) (rw k : Nat) (hk : k = 8 ∨ k = 4) (hrw : rw < 2 ^ 31) (to32 : Nat → Nat) (dm single : List Int) (hdm : dm.Nodup) (hdr : ∀ i ∈ dm, 0 ≤ i ∧ i < 6) (pu mu : ℝ) (hpu : 0 < pu)
    (mem : Mem) (hmem : MemOk mem) (h : GHeader) (hh : HeaderFits h) (byType : List (List Particle)) (h6 : byType.length = 6) (hn : h.nPart = byType.map List.length) (hp : ∀ c ∈ typed byType, c.2.Fits k)
    (hne : requested dm byType ≠ []) (hsize : 12 * (typed byType).length ≤ rw) (htw : 0 < val64 h.boxSize)
    (hx : ∀ c ∈ requested dm byType, ∀ w ∈ c.2.x, -val64 h.boxSize ≤ val32 w ∧ val32 w < 2 * val64 h.boxSize) :
    ∃ b hd, gadgetRead val32 val64 sys .little rw to32 dm single pu mu mem (file .little k true h single byType) = .ok b ∧
      List.Forall₂ (Wrapped (val64 h.boxSize) pu) ((requested dm byType).map fun c => c.2.x.map val32) b.xs ∧ b.vs = ((requested dm byType).map fun c => c.2.v.map fun w => val32 w * Real.sqrt (val64 h.time)) ∧
      b.ms = ((requested dm byType).map fun c => val32 (massOf to32 h single c) * mu) ∧ b.ids = ((requested dm byType).map fun c => c.2.id) ∧
      gadgetReadHeader val32 val64 sys .little rw to32 dm single pu mu mem (file .little k true h single byType) = .ok hd ∧
      Describes hd ⟨val64 h.redshift, val64 h.omega0, val64 h.omegaLambda, val64 h.hubbleParam⟩ (val64 h.boxSize * pu) b := by
  have hsub : ∀ c ∈ requested dm byType, c ∈ typed byType := fun c hc => (List.mem_filter.1 hc).1
  have hpos : 0 < (typed byType).length := by
    obtain ⟨c, hc⟩ := List.exists_mem_of_ne_nil _ hne
    exact List.length_pos_of_mem (hsub c hc)
  have hraw := C31_gadget2_partial sys .little rw k hk hrw to32 dm single mem hmem h hh byType h6 hn hp hpos hsize
  obtain ⟨xs, hfix, hw⟩ := C32_all_partial (val64 h.boxSize) pu htw hpu ((requested dm byType).map fun c => c.2.x.map val32) (by
    intro q hq x hx'
    obtain ⟨p, hp, rfl⟩ := List.mem_map.1 hq
    obtain ⟨w, hw, rfl⟩ := List.mem_map.1 hx'
    exact hx p hp w hw)
  have hlen : xs.length = (requested dm byType).length := by rw [← hw.length_eq, List.length_map]
  have hread : gadgetRead val32 val64 sys .little rw to32 dm single pu mu mem (file .little k true h single byType) =
      .ok ⟨xs, (requested dm byType).map fun c => c.2.v.map fun w => val32 w * Real.sqrt (val64 h.time), (requested dm byType).map fun c => val32 (massOf to32 h single c) * mu, (requested dm byType).map fun c => c.2.id⟩ := by
    unfold gadgetRead
    rw [hraw]
    simp only [List.map_map, Function.comp_def, hfix]
  have hin := wrapped_box (val64 h.boxSize) pu htw hpu _ xs (by
    intro q hq
    obtain ⟨p, hp', rfl⟩ := List.mem_map.1 hq
    rw [List.length_map]; exact (hp p (hsub p hp')).1) hw
  obtain ⟨bx, hb1, hb2⟩ := box3_holds (val64 h.boxSize * pu) (mul_pos htw hpu) xs (by intro e; rw [e] at hlen; exact hne (List.length_eq_zero_iff.1 hlen.symm)) hin
  have hcount := C31_header_count dm hdm hdr h hh.1
  have hct : countTypes (isDM dm) h.nPart = (requested dm byType).length := by
    have e : (fun c : Nat × Particle => isDM dm c.1) = fun c => decide ((c.1 : Int) ∈ dm) := funext fun c => isDM_iff dm c.1
    rw [hn, count_typed byType h6, e]
    rfl
  rw [hct] at hcount
  refine ⟨_, mkHeader ⟨val64 h.redshift, val64 h.omega0, val64 h.omegaLambda, val64 h.hubbleParam⟩ (requested dm byType).length (val64 h.boxSize * pu) bx, hread, hw, rfl, rfl, rfl, ?_, ?_⟩
  · unfold gadgetReadHeader
    have hrec : file .little k true h single byType = record .little (header .little h) ++ (common .little k ((typed byType).map Prod.snd) ++ massBlock .little single byType) := by
      unfold file; simp [List.append_assoc]
    rw [hread, hrec, readFileHeader_record h hh]
    simp only [Out.bind, hcount, hb1]
    rfl
  · exact ⟨by rw [hlen]; rfl, rfl, rfl, rfl, rfl, rfl, fun x hx => hb2 _ _ x hx⟩

/-! ## gotetra -/

theorem loadSheet_file (o : Order) (hd : List Byte) (hl : hd.length = 152) (body : List Byte) :
    loadSheetHeader (some (putInt .little 4 (if o = .little then 0 else -1) ++ (putInt o 4 152 ++ (hd ++ body)))) = .ok (.parse o hd, o) ∧
      sheetBytes (putInt .little 4 (if o = .little then 0 else -1) ++ (putInt o 4 152 ++ (hd ++ body))) = hd := by
  have hflag : readInt32 .little (putInt .little 4 (if o = .little then 0 else -1) ++ (putInt o 4 152 ++ (hd ++ body))) = some (if o = .little then 0 else -1, putInt o 4 152 ++ (hd ++ body)) := by
    apply readInt32_put
    cases o <;> unfold InRange <;> decide
  have hend : endianness (if o = .little then 0 else -1) = some o := by cases o <;> decide
  have hsz : readInt32 o (putInt o 4 152 ++ (hd ++ body)) = some (152, hd ++ body) := by
    apply readInt32_put
    unfold InRange; decide
  have hfl : (putInt .little 4 (if o = .little then 0 else -1)).length = 4 := putInt_length _ _ _
  have hsl : (putInt o 4 152).length = 4 := putInt_length _ _ _
  have hdrop : (putInt .little 4 (if o = .little then 0 else -1) ++ (putInt o 4 152 ++ (hd ++ body))).drop 8 = hd ++ body := by
    rw [← List.append_assoc, List.drop_left' (by rw [List.length_append]; omega)]
  constructor
  · unfold loadSheetHeader
    simp only [hflag, hend, hsz]
    rw [if_neg (by simp), if_neg (by simp only [List.length_append]; omega), hdrop, List.take_left' hl]
  · unfold sheetBytes
    rw [hdrop, List.take_left' hl]

/-- C92, gotetra: a sheet file of `sw³` particles, of a simulation of `cw³` particles, with the buffer that is made for it, in either byte order: `Read` gives the positions of the segment, each with the mass that `MinMass`
says, and the header gives their number; `cw³` such masses are the mean matter density (today, comoving) times the volume, in a flat universe. -/
theorem C92_gotetra (val32 val64 : Nat → ℝ) (sys o : Order) (rw sw gw cw : Nat) (hw : sw ≤ gw) (hrw : 12 * (gw * gw * gw) ≤ rw) (hcw : 0 < cw) (hd : List Byte) (hl : hd.length = 152)
    (f1 : getInt o ((hd.drop 40).take 8) = cw) (f2 : getInt o ((hd.drop 48).take 8) = sw) (f3 : getInt o ((hd.drop 56).take 8) = gw) (f4 : getInt o ((hd.drop 64).take 8) = ((gw * gw * gw : Nat) : Int))
    (c : Cosmo) (tw : ℝ) (hc : c.Ok) (c1 : val64 (getNat o (hd.take 8)) = c.z) (c2 : val64 (getNat o ((hd.drop 8).take 8)) = c.omegaM) (c3 : val64 (getNat o ((hd.drop 16).take 8)) = c.omegaL)
    (c4 : val64 (getNat o ((hd.drop 24).take 8)) = c.h100) (c5 : val64 (getNat o ((hd.drop 96).take 8)) = tw)
    (ps : List (List Nat)) (hps : ps.length = gw * gw * gw) (h3 : ∀ p ∈ ps, p.length = 3) (hword : ∀ p ∈ ps, ∀ w ∈ p, w < 2 ^ 32) (rest mem : List Byte) (hm : mem.length = 12 * (gw * gw * gw)) :
    let file := some (putInt .little 4 (if o = .little then 0 else -1) ++ (putInt o 4 152 ++ (hd ++ (numbers o 4 (ps.flatMap id) ++ rest))))
    ∃ mass b out, gotetraNew val64 file = .ok (sw, gw, mass) ∧ gotetraBlock val32 sys rw (sw, gw, mass) mem file = .ok b ∧ gotetraHeader val32 val64 file = .ok out ∧
      (∀ x y z, x < sw → y < sw → z < sw → b.xs[z * (sw * sw) + (y * sw + x)]? = (ps[z * (gw * gw) + (y * gw + x)]?).map fun p => p.map val32) ∧
      b.xs.length = sw * sw * sw ∧ b.ms = List.replicate (sw * sw * sw) mass ∧ out.n = b.xs.length ∧ out.totalWidth = tw ∧ out.z = c.z ∧ out.omegaM = c.omegaM ∧ out.omegaL = c.omegaL ∧ out.h100 = c.h100 ∧
      (c.omegaM + c.omegaL = 1 → (cw : ℝ) ^ 3 * mass = refDensity true { c with z := 0 } * tw ^ 3) := by
  intro file
  obtain ⟨xs, mem', e1, e2, e3⟩ := C35_file sys o rw sw gw hw hrw hd hl f4 ps hps h3 hword rest mem hm
  obtain ⟨hload, hbytes⟩ := loadSheet_file o hd hl (numbers o 4 (ps.flatMap id) ++ rest)
  have hcos : sheetCosmo val64 o hd = c := by
    unfold sheetCosmo
    simp only [List.drop_zero, c1, c2, c3, c4]
  have p1 : (SheetHeader.parse o hd).countWidth = cw := f1
  have p2 : (SheetHeader.parse o hd).segmentWidth = sw := f2
  have p3 : (SheetHeader.parse o hd).gridWidth = gw := f3
  have p4 : val64 (SheetHeader.parse o hd).totalWidth = tw := c5
  refine ⟨calcUniformMass ((cw : Int) * cw * cw) tw c, ⟨xs.map fun x => x.map val32, [], List.replicate xs.length (calcUniformMass ((cw : Int) * cw * cw) tw c), List.replicate xs.length 0⟩,
    mkHeader c ((sw : Int) * sw * sw) tw ((val32 (getNat o ((hd.drop 104).take 4)), val32 (getNat o ((hd.drop 116).take 4))), (val32 (getNat o ((hd.drop 108).take 4)), val32 (getNat o ((hd.drop 120).take 4))),
      (val32 (getNat o ((hd.drop 112).take 4)), val32 (getNat o ((hd.drop 124).take 4)))), ?_, ?_, ?_, ?_, ?_, ?_, ?_, rfl, rfl, rfl, rfl, rfl, ?_⟩
  · unfold gotetraNew
    simp only [file, hload, Out.bind, Option.getD_some, hbytes, hcos, p1, p2, p3, p4]
    rw [if_neg (by omega)]
    rfl
  · unfold gotetraBlock
    simp only [file, e1, Out.bind]
  · unfold gotetraHeader
    simp only [file, hload, Out.bind, Option.getD_some, hbytes, hcos, p2, p4]
  · intro x y z hx hy hz
    simp only [List.getElem?_map]
    rw [e3 x y z hx hy hz]
  · simp only [List.length_map]
    exact e2
  · simp only [e2]
  · simp only [List.length_map, e2, mkHeader]
    push_cast
    rfl
  · intro flat
    have key := uniform_total (cw * cw * cw) (by positivity) tw c hc
    rw [flat] at key
    push_cast at key
    rw [mul_one] at key
    rw [← mul_comm (tw ^ 3), ← key]
    ring

/-! ## Bolshoi -/

/-- C92, Bolshoi: every particle that `Read` returns has the mass that `MinMass` says. -/
theorem C92_bolshoi_min {K : Type} [Field K] [LinearOrder K] [IsStrictOrderedRing K] (val : Nat → K) (sys o : Order) (rw : Nat) (box0 : K) (mem file : List Byte) (ps : List (Star K)) (h : bolshoiRead val sys o rw box0 mem file = some ps) :
    ∀ p ∈ ps, p.m = bolshoiMinMass box0 := by
  unfold bolshoiRead at h
  simp only [Option.bind_eq_some_iff, Option.map_eq_some_iff] at h
  obtain ⟨raw, _, f, _, hd, _, rfl⟩ := h
  intro p hp
  obtain ⟨q, _, rfl⟩ := List.mem_map.1 hp
  rfl

/-- C92, Bolshoi: that mass is the one of the Bolshoi simulation, 1.35e8 Msun/h for a box of 250 Mpc/h, at the mean density of the file's box. -/
theorem C92_bolshoi_mass {K : Type} [Field K] [LinearOrder K] [IsStrictOrderedRing K] (val : Nat → K) (sys o : Order) (rw : Nat) (box0 : K) (mem file : List Byte) (ps : List (Star K))
    (h : bolshoiRead val sys o rw box0 mem file = some ps) : ∀ p ∈ ps, p.m = 135000000 * (box0 / 250) ^ 3 := by
  intro p hp
  rw [C92_bolshoi_min val sys o rw box0 mem file ps h p hp]
  unfold bolshoiMinMass
  norm_num
  ring

/-- C92 fails for BolshoiP: `MinMass` is computed from the width of the box as if this were the Bolshoi simulation, while the particles have the mass of the header. -/
theorem C92_bolshoiP_min_false : ∃ ps : List (Star Rat), bolshoiPRead (fun n => (n : Rat)) .big .little (2 ^ 30) ⟨[], [], [], [], [], [], [], []⟩ [] [] []
      (bolshoiPFile .little (List.replicate 45 0) h1Ex h2Ex (List.replicate 24 0) blocksEx) = some ps ∧ ps ≠ [] ∧ ∀ p ∈ ps, p.m < bolshoiMinMass ((BHeader.parse .little h1Ex h2Ex).boxWidth : Rat) := by
  have key := C60_bolshoiP_read (K := Rat) (fun n => n) .big .little (2 ^ 30) (by norm_num) (List.replicate 45 0) h1Ex h2Ex (List.replicate 24 0) (by simp) (by decide) (by decide) (by simp) blocksEx
    (by unfold PPart.Fits; decide +kernel) (by decide +kernel) (by decide +kernel) ⟨[], [], [], [], [], [], [], []⟩ (by simp) (by simp) (by simp) (by simp) (by simp) (by simp)
      (by simp) (by simp) [] [] [] ⟨2, 5, 0, 0, 0, 10, 7, 2, 2, 1, 1⟩ (by decide +kernel) (1, 0, 0) (by unfold IsCell; decide +kernel) (by norm_num)
  refine ⟨_, key, ?_, ?_⟩
  · norm_num [blocksEx, inCell, inCell1, PPart.pos, List.filter_cons]
    exact List.cons_ne_nil _ _
  · intro p hp
    obtain ⟨q, _, rfl⟩ := List.mem_map.1 hp
    have : BHeader.parse .little h1Ex h2Ex = ⟨2, 5, 0, 0, 0, 10, 7, 2, 2, 1, 1⟩ := by decide +kernel
    rw [this]
    norm_num [bolshoiMinMass]

/-- C92 fails for the numbers in the headers of Bolshoi (and BolshoiP) files: they count the particles of neighbouring cells that are in the file too, and that `Read` drops. -/
theorem C92_bolshoi_count_false : ∃ (hd : BOut Rat) (ps : List (Star Rat)),
    bolshoiHeader (fun n => (n : Rat)) .little 48 24 (bolshoiPFile .little (List.replicate 45 0) h1Ex h2Ex (List.replicate 24 0) blocksEx) = some hd ∧ hd.n = 3 ∧
    bolshoiPRead (fun n => (n : Rat)) .big .little (2 ^ 30) ⟨[], [], [], [], [], [], [], []⟩ [] [] [] (bolshoiPFile .little (List.replicate 45 0) h1Ex h2Ex (List.replicate 24 0) blocksEx) = some ps ∧ ps.length = 2 := by
  have key := C60_bolshoiP_read (K := Rat) (fun n => n) .big .little (2 ^ 30) (by norm_num) (List.replicate 45 0) h1Ex h2Ex (List.replicate 24 0) (by simp) (by decide) (by decide) (by simp) blocksEx
    (by unfold PPart.Fits; decide +kernel) (by decide +kernel) (by decide +kernel) ⟨[], [], [], [], [], [], [], []⟩ (by simp) (by simp) (by simp) (by simp) (by simp) (by simp)
      (by simp) (by simp) [] [] [] ⟨2, 5, 0, 0, 0, 10, 7, 2, 2, 1, 1⟩ (by decide +kernel) (1, 0, 0) (by unfold IsCell; decide +kernel) (by norm_num)
  obtain ⟨hd, e, _, _, _, _, hn, _⟩ := C60_bolshoi_header (K := Rat) (fun n => n) .little 48 24 (by norm_num) (by norm_num) (List.replicate 45 0) h1Ex h2Ex (List.replicate 24 0) (by simp) (by decide) (by decide) (by simp)
    blocksEx.flatten.length (by decide +kernel) (blocksEx.flatMap (pBlock .little)) ⟨2, 5, 0, 0, 0, 10, 7, 2, 2, 1, 1⟩ (by decide +kernel) (1, 0, 0) (by unfold IsCell; decide +kernel) (by norm_num)
  refine ⟨hd, _, e, by rw [hn]; rfl, key, ?_⟩
  norm_num [blocksEx, inCell, inCell1, PPart.pos, List.filter_cons]

/-- C92 fails for gotetra's `TotalParticles` (and ARTIO's): it is -1, without an error. -/
theorem C92_total_false (file : Option (List Byte)) : gotetraTotal file = .ok (-1) := rfl

/-- C92 fails for Gadget-2: `MinMass` is 0 for every file, whatever the masses.  So the shell mode starts from a background of density 0, and its setting BackgroundRhoMult has no effect. -/
theorem C92_gadget2_min_false : (∀ (h : GHeader), HeaderFits h → ∀ rest, gadgetMinMass .little (record .little (header .little h) ++ rest) = .ok 0) ∧
    ∀ (cfg : ShellRun.Config) (norms : List Geom.Vec) (f : ShellRun.File) (row : ShellRun.Row) (b : ℝ),
      ShellRun.createHalo cfg norms 0 f row = ShellRun.createHalo { cfg with backgroundRhoMult := b } norms 0 f row ∧ ∀ halo, ShellRun.createHalo cfg norms 0 f row = some halo → halo.defaultRho = 0 := by
  refine ⟨?_, ?_⟩
  · intro h hh rest
    unfold gadgetMinMass
    rw [readFileHeader_record h hh]
    rfl
  · intro cfg norms f row b
    unfold ShellRun.createHalo
    by_cases hr : row.r ≤ 0
    · simp [hr]
    · simp only [hr, if_false, zero_mul, zero_div, Option.some.injEq, true_and]
      rintro halo rfl
      rfl

/-! ## Examples -/

/-- The hypotheses of `C92_lgadget2`: a file of one particle, in a box of width 100. -/
example : HeaderFits hd1 ∧ MemOk mem0 ∧ (if (2 : Int) = 2 then hd1.nPart.getD 0 0 ≤ 100000 ∧ hd1.nPart.getD 1 0 + hd1.nPart.getD 0 0 * 2 ^ 32 = [(⟨[1, 2, 3], [4, 5, 6], 7, 8⟩ : Particle)].length else hd1.nPart.getD 0 0 = 1) ∧
    (∀ p ∈ [(⟨[1, 2, 3], [4, 5, 6], 7, 8⟩ : Particle)], ∀ w ∈ p.x, -((fun n : Nat => (n : ℝ)) hd1.boxSize) ≤ (w : ℝ) ∧ (w : ℝ) < 2 * (fun n : Nat => (n : ℝ)) hd1.boxSize) := by
  refine ⟨by unfold HeaderFits; decide, ⟨by decide, by decide, by decide, by decide, by decide⟩, by decide, ?_⟩
  intro p hp w hw
  rw [List.mem_singleton] at hp
  subst hp
  have : hd1.boxSize = 100 := rfl
  simp only [this]
  simp only [List.mem_cons, List.not_mem_nil, or_false] at hw
  rcases hw with rfl | rfl | rfl <;> norm_num

/-- The hypotheses of `C92_gadget2` on the requested particles. -/
example : ([1] : List Int).Nodup ∧ (∀ i ∈ ([1] : List Int), 0 ≤ i ∧ i < 6) ∧ requested [1] byType1 ≠ [] := by decide

/-- The hypotheses of `C92_lgadget2_total` on the header. -/
example : let h0 : GHeader := ⟨[0, 0, 0, 0, 0, 0], [0, 0, 0, 0, 0, 0], 1, 0, [1, 0, 0, 0, 0, 0], 100, 1, 0, 1, [0, 0, 0, 0, 0, 0]⟩
    HeaderFits h0 ∧ Cosmo.Ok ⟨(h0.redshift : ℝ), h0.omega0, h0.omegaLambda, h0.hubbleParam⟩ ∧ (h0.omega0 : ℝ) + h0.omegaLambda = 1 ∧ (if (1 : Int) = 2 then h0.numPartTotal.getD 0 0 ≤ 100000 ∧ h0.numPartTotal.getD 1 0 + h0.numPartTotal.getD 0 0 * 2 ^ 32 = 1 else h0.numPartTotal.getD 0 0 = 1) := by
  intro h0
  refine ⟨by unfold HeaderFits; decide, ⟨by norm_num [h0], by norm_num [h0], by norm_num [h0], by norm_num [h0]⟩, by norm_num [h0], by decide⟩

/-- The hypotheses of `C92_gotetra` on the header: redshift 0, ΩM = 1, ΩΛ = 0, h = 1; 2³ particles in 8 files. -/
def sheetEx : List Byte := numbers .little 8 [0, 1, 0, 1, 8, 2, 1, 2, 8, 0, 2, 0, 10] ++ List.replicate 48 0

example : sheetEx.length = 152 ∧ getInt .little ((sheetEx.drop 40).take 8) = 2 ∧ getInt .little ((sheetEx.drop 48).take 8) = 1 ∧ getInt .little ((sheetEx.drop 56).take 8) = 2 ∧
    getInt .little ((sheetEx.drop 64).take 8) = ((2 * 2 * 2 : Nat) : Int) ∧ getNat .little (sheetEx.take 8) = 0 ∧ getNat .little ((sheetEx.drop 8).take 8) = 1 ∧ getNat .little ((sheetEx.drop 96).take 8) = 10 := by decide +kernel

end

end Shellfish.Io
