/-
Properties C13 (filter files round-trip) and C14 (start offsets).
-/
import Verif.Model.Filter
import Verif.Lemmas.Bytes
import Verif.Props.CatalogWrite

namespace Shellfish.Filter

open Shellfish.Bytes
open Shellfish.Catalog (Out mapM_some)

/-- Filter data that can be stored: one id and one list per snapshot entry, sizes and values within int32 / int64. -/
def Storable (d : FilterData) : Prop :=
  d.ids.length = d.snaps.length ∧ d.particles.length = d.snaps.length ∧ d.snaps.length < 2147483648 ∧
  (∀ x ∈ d.snaps, InRange 8 x) ∧ (∀ x ∈ d.ids, InRange 8 x) ∧ ∀ p ∈ d.particles, (p.length : Int) < 9223372036854775808 ∧ ∀ x ∈ p, InRange 8 x

def theInfos (d : FilterData) : List HaloInfo :=
  (List.range d.snaps.length).map fun i =>
    ⟨d.ids.getD i 0, d.snaps.getD i 0, baseOffset d.snaps.length, ((d.particles.getD i []).length : Int)⟩

theorem infos_eq (d : FilterData) (h1 : d.ids.length = d.snaps.length) (h2 : d.particles.length = d.snaps.length) :
    infos d = some (theInfos d) := by
  unfold infos theInfos
  apply mapM_some
  intro i hi
  rw [List.mem_range] at hi
  simp [hi, (by omega : i < d.ids.length), (by omega : i < d.particles.length), List.getD]

theorem lists_eq (d : FilterData) (h2 : d.particles.length = d.snaps.length) :
    ((List.range d.snaps.length).mapM fun i => d.particles[i]?) = some d.particles := by
  rw [mapM_some (g := fun i => d.particles.getD i [])]
  · congr 1
    apply List.ext_getElem
    · simp [h2]
    · intro i h3 h4
      simp [List.getD, h4]
  · intro i hi
    rw [List.mem_range] at hi
    simp [(by omega : i < d.particles.length), List.getD]

theorem readLists_spec (o : Order) (hs : List HaloInfo) (ps : List (List Int)) (rest : List Byte)
    (h : hs.map (·.len) = ps.map (fun p => (p.length : Int))) (hr : ∀ p ∈ ps, ∀ x ∈ p, InRange 8 x) :
    readLists o hs (ps.flatMap (putInts o 8) ++ rest) = some ps := by
  induction hs generalizing ps with
  | nil => cases ps with
    | nil => rfl
    | cons p ps => simp at h
  | cons hd hs ih => cases ps with
    | nil => simp at h
    | cons p ps =>
      simp only [List.map_cons, List.cons.injEq] at h
      simp only [readLists]
      rw [if_neg (by rw [h.1]; omega), h.1, Int.toNat_natCast]
      rw [List.flatMap_cons, List.append_assoc, readInts_putInts o 8 p (hr p (by simp))]
      simp only
      rw [ih ps h.2 (fun q hq => hr q (by simp [hq]))]
      rfl

theorem putInfos_eq (o : Order) (l : List HaloInfo) :
    l.flatMap (putInfo o) = putInts o 8 (l.flatMap fun h => [h.id, h.snap, h.startByte, h.len]) := by
  induction l with
  | nil => rfl
  | cons h l ih =>
    rw [List.flatMap_cons, ih, List.flatMap_cons]
    simp [putInts, putInfo, List.append_assoc]

theorem flat4_getD (l : List HaloInfo) (i : Nat) (hi : i < l.length) :
    let xs := l.flatMap fun h => [h.id, h.snap, h.startByte, h.len]
    (⟨xs.getD (4 * i) 0, xs.getD (4 * i + 1) 0, xs.getD (4 * i + 2) 0, xs.getD (4 * i + 3) 0⟩ : HaloInfo) = l[i] := by
  induction l generalizing i with
  | nil => simp at hi
  | cons h l ih =>
    cases i with
    | zero => rfl
    | succ i =>
      have := ih i (by simpa using hi)
      simp only [List.flatMap_cons, List.getElem_cons_succ, List.cons_append, List.nil_append] at this ⊢
      rw [← this]
      have e : ∀ (a b c d : Int) (xs : List Int) (j : Nat), (a :: b :: c :: d :: xs).getD (4 * (i + 1) + j) 0 = xs.getD (4 * i + j) 0 := by
        intro a b c d xs j
        rw [show 4 * (i + 1) + j = (4 * i + j) + 1 + 1 + 1 + 1 by omega]
        simp only [List.getD_cons_succ]
      have e0 := e h.id h.snap h.startByte h.len (l.flatMap fun h => [h.id, h.snap, h.startByte, h.len]) 0
      simp only [Nat.add_zero] at e0
      rw [e0, e, e, e]

theorem readInfos_spec (o : Order) (l : List HaloInfo) (rest : List Byte)
    (hr : ∀ h ∈ l, InRange 8 h.id ∧ InRange 8 h.snap ∧ InRange 8 h.startByte ∧ InRange 8 h.len) :
    readInfos o l.length (l.flatMap (putInfo o) ++ rest) = (l, rest) := by
  unfold readInfos
  have hlen : (l.flatMap fun h => [h.id, h.snap, h.startByte, h.len]).length = l.length * 4 := by
    rw [List.length_flatMap]
    simp
  rw [putInfos_eq, ← hlen, readInts_putInts]
  · simp only
    congr 1
    apply List.ext_getElem
    · simp
    · intro i h1 h2
      rw [List.getElem_map, List.getElem_range]
      exact flat4_getD l i h2
  · intro x hx
    rw [List.mem_flatMap] at hx
    obtain ⟨h, hh, hx⟩ := hx
    obtain ⟨a, b, c, d⟩ := hr h hh
    simp only [List.mem_cons, List.not_mem_nil, or_false] at hx
    rcases hx with rfl | rfl | rfl | rfl <;> assumption

theorem InRange8 (x : Int) : InRange 8 x ↔ -9223372036854775808 ≤ x ∧ x < 9223372036854775808 := by
  unfold InRange; norm_num; omega

theorem InRange4 (x : Int) : InRange 4 x ↔ -2147483648 ≤ x ∧ x < 2147483648 := by
  unfold InRange; norm_num; omega

theorem flag_eq : putInt .big 4 (-1) = putInt .little 4 (-1) := by decide

/-- C13: a filter file written in either byte order is read back unchanged, whatever follows it in the stream. -/
theorem C13_round_trip (o : Order) (d : FilterData) (hd : Storable d) (rest : List Byte) :
    ∃ bytes, writeFilter o d = some bytes ∧ readFilter (bytes ++ rest) = .ok d := by
  obtain ⟨h1, h2, h3, h4, h5, h6⟩ := hd
  unfold writeFilter
  rw [infos_eq d h1 h2, lists_eq d h2]
  refine ⟨_, rfl, ?_⟩
  have hinfo : ∀ h ∈ theInfos d, InRange 8 h.id ∧ InRange 8 h.snap ∧ InRange 8 h.startByte ∧ InRange 8 h.len := by
    intro h hh
    simp only [theInfos, List.mem_map, List.mem_range] at hh
    obtain ⟨i, hi, rfl⟩ := hh
    refine ⟨?_, ?_, ?_, ?_⟩
    · have : i < d.ids.length := by omega
      simp only [List.getD, List.getElem?_eq_getElem this, Option.getD_some]
      exact h5 _ (List.getElem_mem this)
    · simp only [List.getD, List.getElem?_eq_getElem hi, Option.getD_some]
      exact h4 _ (List.getElem_mem hi)
    · rw [InRange8]; simp only [baseOffset]; omega
    · have : i < d.particles.length := by omega
      simp only [List.getD, List.getElem?_eq_getElem this, Option.getD_some]
      rw [InRange8]
      have := (h6 _ (List.getElem_mem this)).1
      omega
  have hil : (theInfos d).length = d.snaps.length := by simp [theInfos]
  have body : ∀ o : Order, readBody o (putInt o 4 d.snaps.length ++ ((theInfos d).flatMap (putInfo o) ++ (d.particles.flatMap (putInts o 8) ++ rest))) = .ok d := by
    intro o
    unfold readBody
    rw [readInts_one o 4 _ (by rw [InRange4]; omega)]
    simp only [List.getD_cons_zero]
    rw [if_neg (by omega), Int.toNat_natCast, ← hil, readInfos_spec o _ _ hinfo]
    simp only
    rw [readLists_spec o (theInfos d) d.particles rest]
    · simp only
      congr 1
      have e1 : (theInfos d).map (·.snap) = d.snaps := by
        apply List.ext_getElem
        · simp [theInfos]
        · intro i g1 g2; simp [theInfos, List.getD, g2]
      have e2 : (theInfos d).map (·.id) = d.ids := by
        apply List.ext_getElem
        · simp [theInfos, h1]
        · intro i g1 g2; simp [theInfos, List.getD, g2]
      rw [e1, e2]
    · apply List.ext_getElem
      · simp [theInfos, h2]
      · intro i g1 g2
        have : i < d.particles.length := by simpa using g2
        simp [theInfos, List.getD, this]
    · exact fun p hp => (h6 p hp).2
  unfold readFilter
  simp only [List.append_assoc]
  cases o with
  | little =>
    rw [show flagBytes .little = putInt .little 4 0 from rfl, readInts_one .little 4 0 (by rw [InRange4]; omega)]
    simp only [List.getD_cons_zero, if_true]
    exact body .little
  | big =>
    rw [show flagBytes .big = putInt .little 4 (-1) from flag_eq, readInts_one .little 4 (-1) (by rw [InRange4]; omega)]
    simp only [List.getD_cons_zero]
    rw [if_neg (by omega), if_pos trivial]
    exact body .big

/-- two halos with three and one particles -/
def exData : FilterData := ⟨[100, 100], [7, -3], [[1, 2, 3], [9223372036854775807]]⟩

-- the example data can be stored
example : Storable exData := by
  refine ⟨rfl, rfl, by decide, ?_, ?_, ?_⟩ <;> simp only [InRange8] <;> decide

/-- The place of halo `i`'s particle ids in the file: the ids start at byte `off`, and what precedes them is
the header and the ids of the halos before it. -/
def IdsBeginAt (o : Order) (d : FilterData) (bytes : List Byte) (i off : Nat) : Prop :=
  ∃ before after, bytes = before ++ putInts o 8 (d.particles.getD i []) ++ after ∧ before.length = off ∧
    after = (d.particles.drop (i + 1)).flatMap (putInts o 8)

/-- The StartByte recorded for halo `i`, read from the file: bytes 16..23 of the `i`-th 32-byte record after the
8-byte header. -/
def recordedStart (o : Order) (bytes : List Byte) (i : Nat) : Int := getInt o ((bytes.drop (8 + 32 * i + 16)).take 8)

theorem sum_take_lengths (o : Order) (ps : List (List Int)) (i : Nat) :
    ((ps.take i).flatMap (putInts o 8)).length = 8 * ((ps.take i).map List.length).sum := by
  induction ps generalizing i with
  | nil => simp
  | cons p ps ih => cases i with
    | zero => simp
    | succ i =>
      simp only [List.take_succ_cons, List.flatMap_cons, List.length_append, putInts_length, ih, List.map_cons, List.sum_cons]
      ring

theorem putInfo_length (o : Order) (h : HaloInfo) : (putInfo o h).length = 32 := by
  simp [putInfo, putInt_length]

theorem infos_bytes_length (o : Order) (l : List HaloInfo) : (l.flatMap (putInfo o)).length = 32 * l.length := by
  induction l with
  | nil => rfl
  | cons h l ih => rw [List.flatMap_cons, List.length_append, ih, putInfo_length, List.length_cons]; ring

/-- C14: what is recorded.  In every file the StartByte of every halo is 8 + 32·(number of halos), the end of the header;
the ids of halo `i` begin 8 bytes later for every particle of an earlier halo. -/
theorem C14_recorded (o : Order) (d : FilterData) (hd : Storable d) (i : Nat) (hi : i < d.snaps.length) :
    ∃ bytes, writeFilter o d = some bytes ∧ recordedStart o bytes i = 8 + 32 * d.snaps.length ∧
      IdsBeginAt o d bytes i (8 + 32 * d.snaps.length + 8 * ((d.particles.take i).map List.length).sum) := by
  obtain ⟨h1, h2, h3, h4, h5, h6⟩ := hd
  unfold writeFilter
  rw [infos_eq d h1 h2, lists_eq d h2]
  refine ⟨_, rfl, ?_, ?_⟩
  · unfold recordedStart
    generalize hfl : flagBytes o = fl
    have hfll : fl.length = 4 := by rw [← hfl]; cases o <;> simp [flagBytes, putInt_length]
    have hil : (theInfos d).length = d.snaps.length := by simp [theInfos]
    have hsplit : theInfos d = (theInfos d).take i ++ ((theInfos d)[i]'(by omega)) :: (theInfos d).drop (i + 1) := by
      rw [← List.drop_eq_getElem_cons (by omega), List.take_append_drop]
    have hst : ((theInfos d)[i]'(by omega)).startByte = 8 + 32 * d.snaps.length := by
      simp [theInfos, baseOffset]; omega
    generalize hrec : (theInfos d)[i]'(by omega) = r at hsplit hst
    rw [hsplit, List.flatMap_append, List.flatMap_cons]
    have hpre : (fl ++ putInt o 4 d.snaps.length ++ ((theInfos d).take i).flatMap (putInfo o) ++ putInt o 8 r.id ++ putInt o 8 r.snap).length = 8 + 32 * i + 16 := by
      simp only [List.length_append, putInt_length, hfll, infos_bytes_length, List.length_take, hil]
      omega
    have hcat : fl ++ putInt o 4 d.snaps.length ++ (((theInfos d).take i).flatMap (putInfo o) ++ (putInfo o r ++ ((theInfos d).drop (i + 1)).flatMap (putInfo o))) ++
        d.particles.flatMap (putInts o 8) =
        (fl ++ putInt o 4 d.snaps.length ++ ((theInfos d).take i).flatMap (putInfo o) ++ putInt o 8 r.id ++ putInt o 8 r.snap) ++
          (putInt o 8 r.startByte ++ (putInt o 8 r.len ++ ((theInfos d).drop (i + 1)).flatMap (putInfo o) ++ d.particles.flatMap (putInts o 8))) := by
      simp [putInfo, List.append_assoc]
    rw [hcat, ← hpre, List.drop_left]
    have h8 : (putInt o 8 r.startByte).length = 8 := putInt_length o 8 _
    rw [List.take_append_of_le_length (by omega), List.take_of_length_le (by omega), getInt_putInt, hst]
    rw [InRange8, hst]; omega
  · unfold IdsBeginAt
    have hpi : i < d.particles.length := by omega
    have hps : d.particles.flatMap (putInts o 8) = (d.particles.take i).flatMap (putInts o 8) ++ (putInts o 8 (d.particles.getD i []) ++
        (d.particles.drop (i + 1)).flatMap (putInts o 8)) := by
      have : d.particles = d.particles.take i ++ d.particles[i] :: d.particles.drop (i + 1) := by
        rw [← List.drop_eq_getElem_cons hpi, List.take_append_drop]
      conv_lhs => rw [this]
      rw [List.flatMap_append, List.flatMap_cons]
      simp [List.getD, hpi]
    refine ⟨flagBytes o ++ putInt o 4 d.snaps.length ++ (theInfos d).flatMap (putInfo o) ++ (d.particles.take i).flatMap (putInts o 8), _, ?_, ?_, rfl⟩
    · rw [hps]; simp only [← List.append_assoc]
    · simp only [List.length_append, putInt_length, infos_bytes_length, sum_take_lengths]
      have : (theInfos d).length = d.snaps.length := by simp [theInfos]
      cases o <;> simp [flagBytes, putInt_length, this]

/-- C14, exactly when it holds: the recorded StartByte of halo `i` is where its ids begin if and only if no earlier halo has
particles.  Missing from the full claim: all other halos, for which the recorded offset is wrong. -/
theorem C14_start_correct_iff_partial (o : Order) (d : FilterData) (hd : Storable d) (i : Nat) (hi : i < d.snaps.length) :
    ∃ bytes, writeFilter o d = some bytes ∧ ∃ off : Nat, IdsBeginAt o d bytes i off ∧
      ((recordedStart o bytes i = off) ↔ ∀ j, j < i → ∀ p, d.particles[j]? = some p → p = []) := by
  obtain ⟨bytes, h1, h2, h3⟩ := C14_recorded o d hd i hi
  refine ⟨bytes, h1, _, h3, ?_⟩
  rw [h2]
  have key : ∀ (ps : List (List Int)) (i : Nat), ((ps.take i).map List.length).sum = 0 ↔ ∀ j, j < i → ∀ p, ps[j]? = some p → p = [] := by
    intro ps
    induction ps with
    | nil => simp
    | cons p ps ih =>
      intro i
      cases i with
      | zero => simp
      | succ i =>
        simp only [List.take_succ_cons, List.map_cons, List.sum_cons, Nat.add_eq_zero_iff, ih, List.length_eq_zero_iff]
        constructor
        · rintro ⟨rfl, h⟩ j hj p hp
          cases j with
          | zero => simpa using hp.symm
          | succ j => exact h j (by omega) p (by simpa using hp)
        · intro h
          exact ⟨h 0 (by omega) p rfl, fun j hj q hq => h (j + 1) (by omega) q (by simpa using hq)⟩
  rw [← key]
  constructor
  · intro h; push_cast at h; omega
  · intro h; rw [h]; push_cast; omega

/-- C14 is false of the code: the second halo of the example file starts at byte 96, but 72 is recorded. -/
theorem C14_second_halo_false : ∃ bytes, writeFilter .little exData = some bytes ∧ recordedStart .little bytes 1 = 72 ∧ IdsBeginAt .little exData bytes 1 96 := by
  have hs : Storable exData := by
    refine ⟨rfl, rfl, by decide, ?_, ?_, ?_⟩ <;> simp only [InRange8] <;> decide
  obtain ⟨b, h1, h2, h3⟩ := C14_recorded .little exData hs 1 (by decide)
  exact ⟨b, h1, h2, h3⟩

end Shellfish.Filter
