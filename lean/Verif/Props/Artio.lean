/-
C91: an ARTIO snapshot is read completely, block by block (io/artio.go).
-/
import Verif.Model.Artio
import Verif.Lemmas.Text
import Verif.Props.IoBox
import Mathlib.Data.List.GetD
import Mathlib.Data.Rat.Floor
import Mathlib.Tactic.NormNum
import Mathlib.Tactic.Ring
import Mathlib.Tactic.IntervalCases
import Mathlib.Tactic.Linarith

namespace Shellfish.Artio
open Shellfish.Text
open Shellfish.Memo (Out)

/-! ## Specification -/

/-- The name of block `k`, with any number of zeros in front: "dir/snap.p0007". -/
def blockName (fileset : Str) (zeros k : Nat) : Str := fileset ++ '.' :: 'p' :: (List.replicate zeros '0' ++ natDigits k)

section
variable {K : Type} [Field K] [LinearOrder K] [IsStrictOrderedRing K]

/-- Species `i` holds N-body particles. -/
def NBody (fs : Fileset K) (i : Nat) : Prop := fs.labels[i]? = some "N-BODY".toList

instance (fs : Fileset K) (i : Nat) : Decidable (NBody fs i) := inferInstanceAs (Decidable (_ = _))

/-- The position of a particle in Mpc/h and its mass in Msun/h: `length_unit` is in cm, `mass_unit` in g. -/
def physical (fs : Fileset K) (p : Part K) : (K × K × K) × K :=
  let h := fs.hubble.getD (7 / 10)
  let u := h * fs.lengthUnit / (308560 * 10 ^ 17 * 100)
  ((p.pos.1 * u, p.pos.2.1 * u, p.pos.2.2 * u), fs.masses.getD p.species 0 * (h * fs.massUnit / (198900 * 10 ^ 25 * 1000)))

/-- The N-body particles of the cells from `a` up to, but without, `b`: species by species, in the order of the file. -/
def nBodyIn (fs : Fileset K) (ps : List (Part K)) (a b : Int) : List (Part K) :=
  (List.range fs.labels.length).flatMap fun i => if NBody fs i then ps.filter fun p => p.species = i ∧ a ≤ p.cell ∧ p.cell < b else []

end

/-! ## Names -/

theorem span_no (l r : Str) (h : '.' ∉ l) : (l ++ '.' :: r).span (fun c => c != '.') = (l, '.' :: r) := by
  rw [List.span_eq_takeWhile_dropWhile, List.takeWhile_append_of_pos, List.dropWhile_append_of_pos]
  · simp
  · intro c hc; simp only [bne_iff_ne, ne_eq]; rintro rfl; exact h hc
  · intro c hc; simp only [bne_iff_ne, ne_eq]; rintro rfl; exact h hc

theorem lastDot_eq (a b : Str) (h : '.' ∉ b) : lastDot (a ++ '.' :: b) = some (a, b) := by
  unfold lastDot
  have e : (a ++ '.' :: b).reverse = b.reverse ++ '.' :: a.reverse := by simp
  rw [e, span_no _ _ (by simpa using h)]
  simp

theorem digitChar_ne (d : Nat) (h : d < 10) : digitChar d ≠ '.' ∧ digitChar d ≠ 'p' ∧ digitChar d ≠ '-' ∧ digitChar d ≠ '+' := by
  interval_cases d <;> decide

theorem trimLeft_of_not (p : Char → Bool) (s : Str) (h : ∀ c ∈ s, p c = false) : trimLeft p s = s := by
  cases s with
  | nil => rfl
  | cons c cs => simp [trimLeft, h c (by simp)]

theorem trim_p (s : Str) (h : 'p' ∉ s) : trim (fun c => c == 'p') ('p' :: s) = s := by
  have hs : ∀ c ∈ s, (c == 'p') = false := by
    intro c hc; simp only [beq_eq_false_iff_ne, ne_eq]; rintro rfl; exact h hc
  unfold trim trimRight
  have e : trimLeft (fun c => c == 'p') ('p' :: s) = s := by
    simp [trimLeft, trimLeft_of_not _ s hs]
  rw [e, trimLeft_of_not _ _ (by simpa using hs), List.reverse_reverse]

theorem digitsVal_zeros (z : Nat) (s : Str) : digitsVal 0 (List.replicate z '0' ++ s) = digitsVal 0 s := by
  induction z with
  | zero => rfl
  | succ z ih =>
    rw [List.replicate_succ, List.cons_append]
    have : digitVal '0' = some 0 := by decide
    simp [digitsVal, this, ih]

theorem padded_digit (z k : Nat) : ∀ c ∈ List.replicate z '0' ++ natDigits k, ∃ d, d < 10 ∧ c = digitChar d := by
  intro c hc
  rcases List.mem_append.1 hc with h | h
  · exact ⟨0, by omega, by rw [List.eq_of_mem_replicate h]; decide⟩
  · exact natDigits_digits k c h

theorem atoi_padded (z k : Nat) (h : (k : Int) ≤ maxInt) : atoi (List.replicate z '0' ++ natDigits k) = some (k : Int) := by
  have hd := padded_digit z k
  have hn : natVal (List.replicate z '0' ++ natDigits k) = some k := by
    unfold natVal
    have hne : List.replicate z '0' ++ natDigits k ≠ [] := by
      simp [natDigits_ne_nil]
    rw [if_neg hne, digitsVal_zeros, digitsVal_natDigits]
  generalize List.replicate z '0' ++ natDigits k = s at hd hn
  unfold atoi
  split
  · rename_i t
    obtain ⟨d, h1, h2⟩ := hd '-' (by simp)
    exact absurd h2.symm (digitChar_ne d h1).2.2.1
  · rename_i t
    obtain ⟨d, h1, h2⟩ := hd '+' (by simp)
    exact absurd h2.symm (digitChar_ne d h1).2.2.2
  · rw [hn]
    simp only [Option.bind_some, inIntRange]
    rw [if_pos ⟨by unfold minInt; omega, h⟩]

/-- C91: the block and the fileset are found in the name, for every fileset (dots, slashes and letters `p` included), every block and every number of leading zeros. -/
theorem C91_names (fileset : Str) (zeros k : Nat) (hk : (k : Int) ≤ maxInt) : parseFilename (blockName fileset zeros k) = some (fileset, (k : Int)) := by
  have hd := padded_digit zeros k
  have h1 : '.' ∉ 'p' :: (List.replicate zeros '0' ++ natDigits k) := by
    intro h
    rcases List.mem_cons.1 h with h | h
    · exact absurd h (by decide)
    · obtain ⟨d, h1, h2⟩ := hd _ h
      exact (digitChar_ne d h1).1 h2.symm
  have h2 : 'p' ∉ List.replicate zeros '0' ++ natDigits k := by
    intro h
    obtain ⟨d, h1, h2⟩ := hd _ h
    exact (digitChar_ne d h1).2.1 h2.symm
  unfold parseFilename blockName
  rw [lastDot_eq _ _ h1]
  simp only [List.cons_ne_nil, if_false, reduceCtorEq]
  rw [trim_p _ h2, atoi_padded _ _ hk]
  rfl

/-- A name with dots in the directory and in the fileset. -/
example : blockName "sim.v2/snap.a1.000p".toList 2 7 = "sim.v2/snap.a1.000p.p007".toList ∧ parseFilename "sim.v2/snap.a1.000p.p007".toList = some ("sim.v2/snap.a1.000p".toList, 7) := by
  constructor
  · unfold blockName natDigits; decide
  · decide +kernel

/-- A name without a block number is refused. -/
example : parseFilename "snapshot".toList = none ∧ parseFilename "snap.dat".toList = none ∧ parseFilename "snap.".toList = none := by decide +kernel

variable {K : Type} [Field K] [LinearOrder K] [IsStrictOrderedRing K]

/-! ## One read -/

/-- The buffers of the species after the loop. -/
def target (ps : List (Part K)) (flags : List Bool) (a b : Int) (j : Nat) : List (K × K × K) := if flags.getD j false = true then positionsAt ps j a b else []

theorem fillSpecies_spec (ps : List (Part K)) (flags : List Bool) (sM : List K) (a b : Int) (n : Nat) (hf : flags.length = n) (hm : sM.length = n) :
    ∀ (m i : Nat) (xsB : List (List (K × K × K))) (msB : List (List K)), i + m = n → xsB.length = n → msB.length = n →
      (∀ j, i ≤ j → j < n → flags.getD j false = false → xsB[j]? = some [] ∧ msB[j]? = some []) →
      ∃ xs' ms', fillSpecies ps flags sM a b i ((List.range' i m).map fun j => (positionsAt ps j a b).length) xsB msB =
          some (xs', ms', ((List.range' i m).map fun j => (target ps flags a b j).length).sum) ∧ xs'.length = n ∧ ms'.length = n ∧
        (∀ j, i ≤ j → j < n → xs'[j]? = some (target ps flags a b j) ∧ ms'[j]? = some (List.replicate (target ps flags a b j).length (sM.getD j 0))) ∧
        (∀ j, j < i → xs'[j]? = xsB[j]? ∧ ms'[j]? = msB[j]?) := by
  intro m
  induction m with
  | zero =>
    intro i xsB msB hi hx hms hinv
    refine ⟨xsB, msB, by simp [fillSpecies], hx, hms, ?_, fun j _ => ⟨rfl, rfl⟩⟩
    intro j h1 h2
    omega
  | succ m ih =>
    intro i xsB msB hi hx hms hinv
    have hin : i < n := by omega
    have hfi : flags[i]? = some (flags.getD i false) := by
      rw [List.getD_eq_getElem _ _ (by omega), List.getElem?_eq_getElem (by omega)]
    rw [List.range'_succ, List.map_cons, List.map_cons, List.sum_cons]
    cases hfl : flags.getD i false with
    | false =>
      rw [hfl] at hfi
      obtain ⟨xs', ms', h1, h2, h3, h4, h5⟩ := ih (i + 1) xsB msB (by omega) hx hms (fun j hj => hinv j (by omega))
      have ht : target ps flags a b i = [] := by simp only [target, hfl, Bool.false_eq_true, if_false]
      refine ⟨xs', ms', ?_, h2, h3, ?_, fun j hj => h5 j (by omega)⟩
      · rw [fillSpecies]
        simp only [hfi]
        rw [h1, ht]
        simp
      · intro j hj hjn
        rcases Nat.eq_or_lt_of_le hj with rfl | hlt
        · rw [(h5 i (by omega)).1, (h5 i (by omega)).2, ht]
          simpa using hinv i (le_refl _) hin hfl
        · exact h4 j hlt hjn
    | true =>
      rw [hfl] at hfi
      have ht : target ps flags a b i = positionsAt ps i a b := by simp only [target, hfl, if_true]
      obtain ⟨xs', ms', h1, h2, h3, h4, h5⟩ := ih (i + 1) (xsB.set i (positionsAt ps i a b)) (msB.set i (List.replicate (positionsAt ps i a b).length (sM.getD i 0))) (by omega)
        (by simpa using hx) (by simpa using hms) (by
          intro j hj hjn hfj
          rw [List.getElem?_set_ne (by omega), List.getElem?_set_ne (by omega)]
          exact hinv j (by omega) hjn hfj)
      refine ⟨xs', ms', ?_, h2, h3, ?_, ?_⟩
      · rw [fillSpecies]
        have e1 : xsB[i]? = some xsB[i] := List.getElem?_eq_getElem (by omega)
        have e2 : msB[i]? = some msB[i] := List.getElem?_eq_getElem (by omega)
        have e3 : sM[i]? = some (sM.getD i 0) := by
          rw [List.getD_eq_getElem _ _ (by omega), List.getElem?_eq_getElem (by omega)]
        by_cases hc : (positionsAt ps i a b).length = 0
        · simp only [hfi, e1, e2, hc, if_true, List.replicate_zero]
          rw [hc, List.replicate_zero] at h1
          rw [h1, ht, hc]
          rfl
        · simp only [hfi, e1, e2, e3, hc, if_false]
          rw [h1, ht]
          rfl
      · intro j hj hjn
        rcases Nat.eq_or_lt_of_le hj with rfl | hlt
        · rw [(h5 i (by omega)).1, (h5 i (by omega)).2, ht, List.getElem?_set_self (by omega), List.getElem?_set_self (by omega)]
          exact ⟨rfl, rfl⟩
        · exact h4 j hlt hjn
      · intro j hj
        rw [(h5 j (by omega)).1, (h5 j (by omega)).2, List.getElem?_set_ne (by omega), List.getElem?_set_ne (by omega)]
        exact ⟨rfl, rfl⟩

theorem expand_length {α : Type} (zero : α) (n : Nat) (mem : List α) : (expand zero n mem).length = n := by
  unfold expand
  by_cases h1 : n ≤ mem.length
  · simp [h1]
  · by_cases h2 : mem.length * 3 / 2 > n
    · rw [if_neg h1, if_pos h2]
      simp
      omega
    · rw [if_neg h1, if_neg h2]
      simp

theorem copyOut_exact {α : Type} (zero : α) (n : Nat) (mem : List α) (bufs : List (List α)) (h : bufs.flatten.length = n) : copyOut (expand zero n mem) bufs = some bufs.flatten := by
  unfold copyOut
  rw [expand_length, if_neg (by omega), List.drop_of_length_le (by rw [expand_length]; omega), List.append_nil]

theorem flags_getD (labels : List Str) (j : Nat) : (labels.map fun l => decide (l = "N-BODY".toList)).getD j false = decide (labels[j]? = some "N-BODY".toList) := by
  rw [List.getD_eq_getElem?_getD, List.getElem?_map]
  cases labels[j]? <;> simp

/-- The state of a buffer that was made for a fileset. -/
structure Inv (fs : Fileset K) (name : Str) (buf : Buffer K) : Prop where
  fileset : buf.fileset = name
  masses : buf.sMasses = fs.masses.map fun m => m * massUnit fs
  flags : buf.sFlags = fs.labels.map fun l => decide (l = "N-BODY".toList)
  lx : buf.xsBufs.length = fs.labels.length
  lm : buf.msBufs.length = fs.labels.length
  rest : ∀ j, j < fs.labels.length → ¬ NBody fs j → buf.xsBufs[j]? = some [] ∧ buf.msBufs[j]? = some []

theorem flatten_map_range {α β : Type} (n : Nat) (f : Nat → List α) (g : α → β) : (((List.range n).map f).flatten).map g = (List.range n).flatMap fun i => (f i).map g := by
  rw [List.map_flatten, List.map_map, List.flatMap_def]
  rfl

theorem list_of_get {α : Type} (l : List α) (n : Nat) (f : Nat → α) (hl : l.length = n) (h : ∀ j, j < n → l[j]? = some (f j)) : l = (List.range n).map f := by
  apply List.ext_getElem?
  intro j
  by_cases hj : j < n
  · rw [h j hj, List.getElem?_map, List.getElem?_range hj]
    rfl
  · rw [List.getElem?_eq_none (by omega), List.getElem?_eq_none (by simp; omega)]

theorem zip_flatMap {α β ι : Type} (l : List ι) (f : ι → List α) (g : ι → List β) (h : ∀ i ∈ l, (f i).length = (g i).length) :
    (l.flatMap f).zip (l.flatMap g) = l.flatMap fun i => (f i).zip (g i) := by
  induction l with
  | nil => rfl
  | cons i l ih =>
    simp only [List.flatMap_cons]
    rw [List.zip_append (h i (by simp)), ih (fun j hj => h j (by simp [hj]))]

theorem read_spec (disk : Str → Option (Fileset K)) (fs : Fileset K) (name : Str) (hd : disk name = some fs) (ps : List (Part K)) (hp : fs.parts = some ps) (hl : fs.labels ≠ [])
    (hm : fs.masses.length = fs.labels.length) (buf : Buffer K) (hinv : Inv fs name buf) (ho : buf.opened = false) (f2 fname : Str) (k : Nat) (hf : parseFilename fname = some (f2, (k : Int)))
    (a b : Int) (ha : fs.sfcIndex[k]? = some a) (hb : fs.sfcIndex[k + 1]? = some b) :
    ∃ r buf', read disk buf fname = (.ok r, buf') ∧ Inv fs name buf' ∧ buf'.opened = true ∧ r.vs = [] ∧ r.ids = [] ∧ r.xs.length = r.ms.length ∧ r.xs.zip r.ms = (nBodyIn fs ps a b).map (physical fs) := by
  have hfl : nBodyFlags fs.labels = some (fs.labels.map fun l => decide (l = "N-BODY".toList)) := by
    unfold nBodyFlags
    rw [if_neg (by simpa using hl)]
  have hsm : (fs.masses.map fun m => m * massUnit fs).length = fs.labels.length := by simpa using hm
  obtain ⟨xs', ms', h1, h2, h3, h4, _⟩ := fillSpecies_spec ps (fs.labels.map fun l => decide (l = "N-BODY".toList)) (fs.masses.map fun m => m * massUnit fs) a (b - 1) fs.labels.length (by simp) hsm
    fs.labels.length 0 buf.xsBufs buf.msBufs (by omega) hinv.lx hinv.lm (by
      intro j _ hj hfj
      rw [flags_getD, decide_eq_false_iff_not] at hfj
      exact hinv.rest j hj hfj)
  have ex := list_of_get xs' _ _ h2 (fun j hj => (h4 j (Nat.zero_le _) hj).1)
  have em := list_of_get ms' _ _ h3 (fun j hj => (h4 j (Nat.zero_le _) hj).2)
  have hcount : countInRange ps fs.labels.length a (b - 1) = (List.range' 0 fs.labels.length).map fun j => (positionsAt ps j a (b - 1)).length := by
    unfold countInRange
    rw [List.range_eq_range']
  set T := target ps (fs.labels.map fun l => decide (l = "N-BODY".toList)) a (b - 1) with hT
  set sM := fs.masses.map fun m => m * massUnit fs with hsM
  have hlen : xs'.flatten.length = ((List.range' 0 fs.labels.length).map fun j => (T j).length).sum := by
    rw [ex, List.length_flatten, List.map_map, List.range_eq_range']
    rfl
  have hlenm : ms'.flatten.length = ((List.range' 0 fs.labels.length).map fun j => (T j).length).sum := by
    rw [em, List.length_flatten, List.map_map, List.range_eq_range']
    congr 1
    apply List.map_congr_left
    intro j _
    simp
  refine ⟨⟨xs'.flatten.map (scale (lengthUnit fs)), [], ms'.flatten, []⟩, ⟨true, xs'.flatten.map (scale (lengthUnit fs)), ms'.flatten, xs', ms', buf.sMasses, buf.sFlags, buf.fileset⟩, ?_, ?_, rfl, rfl, rfl, ?_, ?_⟩
  · unfold read
    have hk0 : ¬ (k : Int) < 0 := by omega
    have hkn : (k : Int).toNat = k := by omega
    simp only [ho, Bool.false_eq_true, if_false, hinv.fileset, hd, hp, hfl, hf, hk0, hkn, ha, hb, hinv.masses, ← hsM, hcount, h1]
    rw [copyOut_exact _ _ _ _ hlen, copyOut_exact _ _ _ _ hlenm]
  · refine ⟨hinv.fileset, hinv.masses, hinv.flags, h2, h3, ?_⟩
    intro j hj hnb
    have hTj : T j = [] := by
      simp only [hT, target, flags_getD]
      unfold NBody at hnb
      simp only [hnb, decide_false, Bool.false_eq_true, if_false]
    have := h4 j (Nat.zero_le _) hj
    rw [hTj] at this
    simpa using this
  · simp only [List.length_map]
    rw [hlen, hlenm]
  · dsimp only
    rw [ex, em, flatten_map_range, ← List.flatMap_def, zip_flatMap _ _ _ (by intro i _; simp)]
    unfold nBodyIn
    rw [List.map_flatMap]
    apply List.flatMap_congr
    intro i hi
    have hi' := List.mem_range.1 hi
    by_cases hn : NBody fs i
    · have hTi : T i = positionsAt ps i a (b - 1) := by
        simp only [hT, target, flags_getD]
        unfold NBody at hn
        simp only [hn, decide_true, if_true]
      rw [if_pos hn, hTi]
      unfold positionsAt
      have hflt : (ps.filter fun p => decide (p.species = i ∧ a ≤ p.cell ∧ p.cell ≤ b - 1)) = ps.filter fun p => decide (p.species = i ∧ a ≤ p.cell ∧ p.cell < b) := by
        apply List.filter_congr
        intro p _
        have : (p.cell ≤ b - 1) ↔ p.cell < b := by omega
        simp only [this]
      rw [hflt]
      have hsp : ∀ p ∈ ps.filter fun p => decide (p.species = i ∧ a ≤ p.cell ∧ p.cell < b), p.species = i := by
        intro p hp
        have := (List.mem_filter.1 hp).2
        simp only [decide_eq_true_eq] at this
        exact this.1
      generalize (ps.filter fun p => decide (p.species = i ∧ a ≤ p.cell ∧ p.cell < b)) = q at hsp
      rw [List.map_map, List.length_map]
      have hg : sM.getD i 0 = fs.masses.getD i 0 * massUnit fs := by
        rw [hsM, List.getD_eq_getElem _ _ (by simp; omega), List.getElem_map, List.getD_eq_getElem _ _ (by omega)]
      rw [hg]
      clear hg
      induction q with
      | nil => rfl
      | cons p q ih =>
        rw [List.map_cons, List.length_cons, List.replicate_succ, List.zip_cons_cons, List.map_cons]
        rw [ih (fun x hx => hsp x (by simp [hx]))]
        congr 1
        have := hsp p (by simp)
        unfold physical
        simp only [Function.comp, this, scale, lengthUnit, massUnit, h100, mpcMks, mSunMks]
        have e1 : ∀ h u : K, h / (308560 * 10 ^ 17 * 100) * u = h * u / (308560 * 10 ^ 17 * 100) := by intro h u; ring
        have e2 : ∀ h u : K, h / (198900 * 10 ^ 25 * 1000) * u = h * u / (198900 * 10 ^ 25 * 1000) := by intro h u; ring
        rw [e1, e2]
    · have hTi : T i = [] := by
        simp only [hT, target, flags_getD]
        unfold NBody at hn
        simp only [hn, decide_false, Bool.false_eq_true, if_false]
      rw [if_neg hn, hTi]
      rfl
/-! ## Histories -/

theorem newBuffer_inv (disk : Str → Option (Fileset K)) (f0 name : Str) (i0 : Int) (hf : parseFilename f0 = some (name, i0)) (fs : Fileset K) (hd : disk name = some fs) (b0 : Buffer K)
    (h : newBuffer disk f0 = .ok b0) : Inv fs name b0 ∧ b0.opened = false ∧ fs.labels ≠ [] := by
  unfold newBuffer nBodyFlags at h
  simp only [hf, hd] at h
  by_cases hl : fs.labels.length = 0
  · simp only [hl, if_true] at h
    exact (nomatch h)
  · simp only [hl, if_false] at h
    cases h
    refine ⟨⟨rfl, rfl, rfl, by simp, by simp, ?_⟩, rfl, fun h0 => hl (by simp [h0])⟩
    intro j hj _
    simp [List.getElem?_replicate, hj]

theorem inv_open {fs : Fileset K} {name : Str} {buf : Buffer K} (b : Bool) (h : Inv fs name buf) : Inv fs name { buf with opened := b } := ⟨h.1, h.2, h.3, h.4, h.5, h.6⟩

/-- A read leaves the state of the buffer in order unless it panics. -/
theorem read_inv (disk : Str → Option (Fileset K)) (fs : Fileset K) (name : Str) (hd : disk name = some fs) (hl : fs.labels ≠ []) (hm : fs.masses.length = fs.labels.length) (buf : Buffer K)
    (hinv : Inv fs name buf) (fname : Str) (h : (read disk buf fname).1 ≠ .panic) : Inv fs name (read disk buf fname).2 := by
  by_cases ho : buf.opened = true
  · exact absurd (by unfold read; simp [ho]) h
  simp only [Bool.not_eq_true] at ho
  have hfl : nBodyFlags fs.labels = some (fs.labels.map fun l => decide (l = "N-BODY".toList)) := by
    unfold nBodyFlags
    rw [if_neg (by simpa using hl)]
  cases hp : fs.parts with
  | none =>
    have : read disk buf fname = (.error, { buf with opened := true }) := by
      unfold read
      simp only [ho, Bool.false_eq_true, if_false, hinv.fileset, hd, hp]
    rw [this]
    exact inv_open _ hinv
  | some ps =>
    cases hf : parseFilename fname with
    | none =>
      have : read disk buf fname = (.error, { buf with opened := true }) := by
        unfold read
        simp only [ho, Bool.false_eq_true, if_false, hinv.fileset, hd, hp, hfl, hf]
      rw [this]
      exact inv_open _ hinv
    | some q =>
      obtain ⟨f2, i⟩ := q
      have hpan : ∀ (hi : i < 0), (read disk buf fname).1 = .panic := by
        intro hi
        unfold read
        simp only [ho, Bool.false_eq_true, if_false, hinv.fileset, hd, hp, hfl, hf, hi, if_true]
      by_cases hi : i < 0
      · exact absurd (hpan hi) h
      obtain ⟨k, rfl⟩ : ∃ k : Nat, i = k := ⟨i.toNat, by omega⟩
      cases ha : fs.sfcIndex[k]? with
      | none =>
        refine absurd ?_ h
        unfold read
        simp only [ho, Bool.false_eq_true, if_false, hinv.fileset, hd, hp, hfl, hf, hi, Int.toNat_natCast, ha]
      | some a =>
        cases hb : fs.sfcIndex[k + 1]? with
        | none =>
          refine absurd ?_ h
          unfold read
          simp only [ho, Bool.false_eq_true, if_false, hinv.fileset, hd, hp, hfl, hf, hi, Int.toNat_natCast, ha, hb]
        | some b =>
          obtain ⟨r, buf', h1, h2, _⟩ := read_spec disk fs name hd ps hp hl hm buf hinv ho f2 fname k hf a b ha hb
          rw [h1]
          exact h2

theorem step_inv (disk : Str → Option (Fileset K)) (fs : Fileset K) (name : Str) (hd : disk name = some fs) (hl : fs.labels ≠ []) (hm : fs.masses.length = fs.labels.length) (buf buf' : Buffer K)
    (hinv : Inv fs name buf) (c : Call) (h : step disk buf c = some buf') : Inv fs name buf' := by
  cases c with
  | read f =>
    have hr := read_inv disk fs name hd hl hm buf hinv f
    simp only [step] at h
    cases hq : read disk buf f with
    | mk o b =>
      rw [hq] at h hr
      cases o with
      | panic => exact (nomatch h)
      | ok r => simp only [Option.some.injEq] at h; subst h; exact hr (by simp)
      | error => simp only [Option.some.injEq] at h; subst h; exact hr (by simp)
  | close =>
    simp only [step, close] at h
    by_cases ho : buf.opened = true
    · simp only [ho, if_true, Option.some.injEq] at h
      subst h
      exact inv_open _ hinv
    · simp only [ho, if_false] at h
      exact (nomatch h)
  | readHeader f =>
    have hr := read_inv disk fs name hd hl hm buf hinv f
    have key : ∀ b, (read disk buf f).2 = b → (read disk buf f).1 ≠ .panic → (readHeader disk buf f).2 = { b with opened := false } ∨ (readHeader disk buf f).1 = .panic := by
      intro b hb hne
      unfold readHeader
      cases hq : read disk buf f with
      | mk o b' =>
        rw [hq] at hb hne
        dsimp only at hb
        subst hb
        cases o with
        | panic => exact absurd rfl hne
        | ok r =>
          left
          simp only
          repeat' (first | rfl | split)
        | error =>
          left
          simp only
          repeat' (first | rfl | split)
    by_cases hp : (read disk buf f).1 = .panic
    · exfalso
      simp only [step] at h
      have : (readHeader disk buf f).1 = .panic := by
        unfold readHeader
        cases hq : read disk buf f with
        | mk o b' => rw [hq] at hp; dsimp only at hp; subst hp; rfl
      cases hq : readHeader disk buf f with
      | mk o b' => rw [hq] at this h; dsimp only at this; subst this; exact (nomatch h)
    · have hi := hr hp
      rcases key _ rfl hp with hk | hk
      · simp only [step] at h
        cases hq : readHeader disk buf f with
        | mk o b' =>
          rw [hq] at h hk
          dsimp only at hk
          cases o with
          | panic => exact (nomatch h)
          | ok r => simp only [Option.some.injEq] at h; subst h; rw [hk]; exact inv_open _ hi
          | error => simp only [Option.some.injEq] at h; subst h; rw [hk]; exact inv_open _ hi
      · simp only [step] at h
        cases hq : readHeader disk buf f with
        | mk o b' => rw [hq] at hk h; dsimp only at hk; subst hk; exact (nomatch h)

theorem history_inv (disk : Str → Option (Fileset K)) (fs : Fileset K) (name : Str) (hd : disk name = some fs) (hl : fs.labels ≠ []) (hm : fs.masses.length = fs.labels.length) (cs : List Call) :
    ∀ (buf buf' : Buffer K), Inv fs name buf → cs.foldlM (step disk) buf = some buf' → Inv fs name buf' := by
  induction cs with
  | nil => intro buf buf' h h2; cases h2; exact h
  | cons c cs ih =>
    intro buf buf' h h2
    rw [List.foldlM_cons] at h2
    cases hs : step disk buf c with
    | none => rw [hs] at h2; exact (nomatch h2)
    | some b => rw [hs] at h2; exact ih b buf' (step_inv disk fs name hd hl hm buf b h c hs) h2

/-- The buffers that a program can have: made for the first file of the fileset `name`, then any calls in any order on any names. -/
def Reachable (disk : Str → Option (Fileset K)) (name : Str) (buf : Buffer K) : Prop :=
  ∃ f0 i0 b0 cs, parseFilename f0 = some (name, i0) ∧ newBuffer disk f0 = .ok b0 ∧ List.foldlM (step disk) b0 cs = some buf

theorem reachable_inv (disk : Str → Option (Fileset K)) (fs : Fileset K) (name : Str) (hd : disk name = some fs) (hm : fs.masses.length = fs.labels.length) (buf : Buffer K) (h : Reachable disk name buf) :
    Inv fs name buf ∧ fs.labels ≠ [] := by
  obtain ⟨f0, i0, b0, cs, h1, h2, h3⟩ := h
  obtain ⟨i1, _, i3⟩ := newBuffer_inv disk f0 name i0 h1 fs hd b0 h2
  exact ⟨history_inv disk fs name hd i3 hm cs b0 buf i1 h3, i3⟩

/-- C91: for every fileset and every buffer made for it, after every history of calls, reading block `k` of the fileset returns the N-body particles of its cells and nothing else: species by species, in the order
of the file, with positions in Mpc/h and masses in Msun/h.  (For a block of another fileset see `C91_other_fileset_false`.) -/
theorem C91_read_partial (disk : Str → Option (Fileset K)) (fs : Fileset K) (name : Str) (hd : disk name = some fs) (ps : List (Part K)) (hp : fs.parts = some ps)
    (hm : fs.masses.length = fs.labels.length) (buf : Buffer K) (hr : Reachable disk name buf) (ho : buf.opened = false) (zeros k : Nat) (hk : (k : Int) ≤ maxInt)
    (a b : Int) (ha : fs.sfcIndex[k]? = some a) (hb : fs.sfcIndex[k + 1]? = some b) :
    (read disk buf (blockName name zeros k)).1 = .ok ⟨((nBodyIn fs ps a b).map (physical fs)).map Prod.fst, [], ((nBodyIn fs ps a b).map (physical fs)).map Prod.snd, []⟩ := by
  obtain ⟨hinv, hl⟩ := reachable_inv disk fs name hd hm buf hr
  obtain ⟨r, buf', h1, _, _, h4, h5, h6, h7⟩ := read_spec disk fs name hd ps hp hl hm buf hinv ho name _ k (C91_names name zeros k hk) a b ha hb
  rw [h1, ← h7, List.map_fst_zip (by omega), List.map_snd_zip (by omega), ← h4, ← h5]

/-! ## All blocks -/

theorem perm_once {α ι : Type} (J : List ι) (q : ι → α → Bool) (Q : α → Bool) (ps : List α) (h : ∀ p ∈ ps, J.countP (fun j => q j p) = if Q p then 1 else 0) :
    (J.flatMap fun j => ps.filter (q j)).Perm (ps.filter Q) := by
  induction ps with
  | nil => simp
  | cons p ps ih =>
    have e : (J.flatMap fun j => (p :: ps).filter (q j)) = J.flatMap fun j => (if q j p then [p] else []) ++ ps.filter (q j) := by
      apply List.flatMap_congr
      intro j _
      by_cases hj : q j p = true <;> simp [hj]
    rw [e]
    refine (List.flatMap_append_perm J _ _).symm.trans ?_
    have e2 : ∀ J : List ι, (J.flatMap fun j => if q j p then [p] else []) = List.replicate (J.countP fun j => q j p) p := by
      intro J
      induction J with
      | nil => rfl
      | cons j J ihJ =>
        rw [List.flatMap_cons, ihJ, List.countP_cons]
        by_cases hj : q j p = true
        · simp only [hj, if_true, List.replicate_succ]
          rfl
        · simp only [hj, Bool.false_eq_true, if_false, Nat.add_zero]
          rfl
    rw [e2, h p (by simp)]
    by_cases hQ : Q p = true
    · simp only [hQ, if_true, List.filter_cons, List.replicate_succ, List.replicate_zero, List.cons_append, List.nil_append]
      exact (ih fun x hx => h x (by simp [hx])).cons p
    · simp only [hQ, Bool.false_eq_true, if_false, List.filter_cons, List.replicate_zero, List.nil_append]
      exact ih fun x hx => h x (by simp [hx])

theorem count_cells (s : Nat → Int) (c : Int) (n : Nat) (hs : ∀ k, k < n → s k ≤ s (k + 1)) :
    (List.range n).countP (fun k => decide (s k ≤ c ∧ c < s (k + 1))) = if s 0 ≤ c ∧ c < s n then 1 else 0 := by
  induction n with
  | zero => simp
  | succ n ih =>
    rw [List.range_succ, List.countP_append, ih (fun k hk => hs k (by omega))]
    have h0 : s 0 ≤ s n := by
      have : ∀ m, m ≤ n → s 0 ≤ s m := by
        intro m
        induction m with
        | zero => intro _; exact le_refl _
        | succ m ihm => intro hm; exact le_trans (ihm (by omega)) (hs m (by omega))
      exact this n (le_refl _)
    have h1 := hs n (by omega)
    simp only [List.countP_cons, List.countP_nil, decide_eq_true_eq]
    by_cases a1 : s 0 ≤ c <;> by_cases a2 : c < s n <;> by_cases a3 : c < s (n + 1) <;> by_cases a4 : s n ≤ c <;> simp [a1, a2, a3, a4] <;> omega

theorem nBodyIn_perm (fs : Fileset K) (ps : List (Part K)) (a b : Int) :
    (nBodyIn fs ps a b).Perm (ps.filter fun p => decide (NBody fs p.species ∧ a ≤ p.cell ∧ p.cell < b)) := by
  have e : nBodyIn fs ps a b = (List.range fs.labels.length).flatMap fun i => ps.filter fun p => decide (NBody fs i ∧ p.species = i ∧ a ≤ p.cell ∧ p.cell < b) := by
    unfold nBodyIn
    apply List.flatMap_congr
    intro i _
    by_cases h : NBody fs i <;> simp [h]
  rw [e]
  apply perm_once
  intro p _
  by_cases h : NBody fs p.species ∧ a ≤ p.cell ∧ p.cell < b
  · have hlt : p.species < fs.labels.length := by
      by_contra hc
      have := h.1
      unfold NBody at this
      rw [List.getElem?_eq_none (by omega)] at this
      exact (nomatch this)
    simp only [h, and_self, decide_true, if_true]
    have : (List.range fs.labels.length).countP (fun i => decide (NBody fs i ∧ p.species = i ∧ True ∧ True)) = (List.range fs.labels.length).count p.species := by
      unfold List.count
      apply List.countP_congr
      intro i _
      simp only [decide_eq_true_eq, beq_iff_eq]
      constructor
      · rintro ⟨_, h2, _⟩; exact h2.symm
      · rintro rfl; exact ⟨h.1, rfl, trivial, trivial⟩
    simp only [and_true] at this ⊢
    rw [this, List.count_eq_one_of_mem List.nodup_range (List.mem_range.2 hlt)]
  · simp only [h, decide_false, Bool.false_eq_true, if_false]
    rw [List.countP_eq_zero]
    intro i _
    simp only [decide_eq_true_eq]
    rintro ⟨h1, h2, h3⟩
    subst h2
    exact h ⟨h1, h3⟩

/-- C91: all blocks together hold every N-body particle of the fileset exactly once: for every fileset whose table of cells is sorted and covers its particles, whatever the program read before, the blocks `0 … n-1`
give all N-body particles, with multiplicity. -/
theorem C91_exactly_once_partial (disk : Str → Option (Fileset K)) (fs : Fileset K) (name : Str) (hd : disk name = some fs) (ps : List (Part K)) (hp : fs.parts = some ps)
    (hm : fs.masses.length = fs.labels.length) (n : Nat) (hn : fs.sfcIndex.length = n + 1) (hn2 : (n : Int) ≤ maxInt) (hs : fs.sfcIndex.Pairwise (· ≤ ·))
    (hc : ∀ p ∈ ps, fs.sfcIndex.getD 0 0 ≤ p.cell ∧ p.cell < fs.sfcIndex.getD n 0) (zeros : Nat) :
    ∃ blocks : Nat → List ((K × K × K) × K),
      (∀ k, k < n → ∀ buf, Reachable disk name buf → buf.opened = false → (read disk buf (blockName name zeros k)).1 = .ok ⟨(blocks k).map Prod.fst, [], (blocks k).map Prod.snd, []⟩) ∧
      ((List.range n).flatMap blocks).Perm ((ps.filter fun p => NBody fs p.species).map (physical fs)) := by
  have get : ∀ k, k ≤ n → fs.sfcIndex[k]? = some (fs.sfcIndex.getD k 0) := by
    intro k hk
    rw [List.getD_eq_getElem _ _ (by omega), List.getElem?_eq_getElem (by omega)]
  refine ⟨fun k => (nBodyIn fs ps (fs.sfcIndex.getD k 0) (fs.sfcIndex.getD (k + 1) 0)).map (physical fs), ?_, ?_⟩
  · intro k hk buf hr ho
    exact C91_read_partial disk fs name hd ps hp hm buf hr ho zeros k (by omega) _ _ (get k (by omega)) (get (k + 1) (by omega))
  · have hsort : ∀ k, k < n → fs.sfcIndex.getD k 0 ≤ fs.sfcIndex.getD (k + 1) 0 := by
      intro k hk
      rw [List.getD_eq_getElem _ _ (by omega), List.getD_eq_getElem _ _ (by omega)]
      exact List.pairwise_iff_getElem.1 hs k (k + 1) (by omega) (by omega) (by omega)
    rw [← List.map_flatMap]
    apply List.Perm.map
    have h1 : ((List.range n).flatMap fun k => nBodyIn fs ps (fs.sfcIndex.getD k 0) (fs.sfcIndex.getD (k + 1) 0)).Perm
        ((List.range n).flatMap fun k => ps.filter fun p => decide (NBody fs p.species ∧ fs.sfcIndex.getD k 0 ≤ p.cell ∧ p.cell < fs.sfcIndex.getD (k + 1) 0)) :=
      List.Perm.flatMap_left _ fun k _ => nBodyIn_perm fs ps _ _
    refine h1.trans (perm_once _ _ _ _ ?_)
    intro p hpm
    by_cases h : NBody fs p.species
    · simp only [h, true_and, decide_true, if_true]
      have := count_cells (fun k => fs.sfcIndex.getD k 0) p.cell n hsort
      rw [if_pos (hc p hpm)] at this
      exact this
    · simp [h]
/-! ## The smallest mass -/

theorem minMass_fold (l : List (K × Bool)) (m0 : WithTop K) :
    (l.foldl (fun m s => if s.2 = true ∧ (s.1 : WithTop K) < m then (s.1 : WithTop K) else m) m0 ≤ m0) ∧
    (∀ s ∈ l, s.2 = true → l.foldl (fun m s => if s.2 = true ∧ (s.1 : WithTop K) < m then (s.1 : WithTop K) else m) m0 ≤ (s.1 : WithTop K)) ∧
    (l.foldl (fun m s => if s.2 = true ∧ (s.1 : WithTop K) < m then (s.1 : WithTop K) else m) m0 = m0 ∨
      ∃ s ∈ l, s.2 = true ∧ l.foldl (fun m s => if s.2 = true ∧ (s.1 : WithTop K) < m then (s.1 : WithTop K) else m) m0 = (s.1 : WithTop K)) := by
  induction l generalizing m0 with
  | nil => exact ⟨le_refl _, by simp, Or.inl rfl⟩
  | cons s l ih =>
    rw [List.foldl_cons]
    obtain ⟨h1, h2, h3⟩ := ih (if s.2 = true ∧ (s.1 : WithTop K) < m0 then (s.1 : WithTop K) else m0)
    by_cases hc : s.2 = true ∧ (s.1 : WithTop K) < m0
    · rw [if_pos hc] at h1 h2 h3 ⊢
      refine ⟨le_trans h1 hc.2.le, ?_, ?_⟩
      · intro t ht hf
        rcases List.mem_cons.1 ht with rfl | ht
        · exact h1
        · exact h2 t ht hf
      · rcases h3 with h3 | ⟨t, ht, h4⟩
        · exact Or.inr ⟨s, by simp, hc.1, h3⟩
        · exact Or.inr ⟨t, by simp [ht], h4⟩
    · rw [if_neg hc] at h1 h2 h3 ⊢
      refine ⟨h1, ?_, ?_⟩
      · intro t ht hf
        rcases List.mem_cons.1 ht with rfl | ht
        · push Not at hc
          exact le_trans h1 (hc hf)
        · exact h2 t ht hf
      · rcases h3 with h3 | ⟨t, ht, h4⟩
        · exact Or.inl h3
        · exact Or.inr ⟨t, by simp [ht], h4⟩

/-- C91: after every history of calls `MinMass` is the smallest mass of the N-body species, in Msun/h: no N-body particle is lighter, and if there is an N-body species, one of them has this mass. -/
theorem C91_min_mass (disk : Str → Option (Fileset K)) (fs : Fileset K) (name : Str) (hd : disk name = some fs) (hm : fs.masses.length = fs.labels.length) (buf : Buffer K) (hr : Reachable disk name buf) :
    (∀ p : Part K, NBody fs p.species → minMass buf ≤ ((physical fs p).2 : WithTop K)) ∧
    ((∃ i, NBody fs i) → ∃ p : Part K, NBody fs p.species ∧ minMass buf = ((physical fs p).2 : WithTop K)) := by
  obtain ⟨hinv, hl⟩ := reachable_inv disk fs name hd hm buf hr
  have hlen : (buf.sMasses.zip buf.sFlags).length = fs.labels.length := by
    rw [List.length_zip, hinv.masses, hinv.flags]
    simp [hm]
  have hget : ∀ i (hi : i < (buf.sMasses.zip buf.sFlags).length), (buf.sMasses.zip buf.sFlags)[i] = (fs.masses.getD i 0 * massUnit fs, decide (NBody fs i)) := by
    intro i hi
    have hi' : i < fs.labels.length := by omega
    rw [List.getElem_zip]
    simp only [hinv.masses, hinv.flags, List.getElem_map, List.getD_eq_getElem _ _ (show i < fs.masses.length by omega), NBody, List.getElem?_eq_getElem hi', Option.some.injEq]
  have hph : ∀ p : Part K, (physical fs p).2 = fs.masses.getD p.species 0 * massUnit fs := by
    intro p
    unfold physical massUnit h100 mSunMks
    ring
  have hNB : ∀ i, NBody fs i → i < fs.labels.length := by
    intro i h
    by_contra hc
    unfold NBody at h
    rw [List.getElem?_eq_none (by omega)] at h
    exact (nomatch h)
  obtain ⟨h1, h2, h3⟩ := minMass_fold (buf.sMasses.zip buf.sFlags) ⊤
  constructor
  · intro p hn
    have hi := hNB _ hn
    have := h2 _ (List.getElem_mem (by rw [hlen]; exact hi)) (by rw [hget]; simpa using hn)
    rw [hget] at this
    rw [hph]
    exact this
  · rintro ⟨i, hn⟩
    have hi := hNB _ hn
    have hle := h2 _ (List.getElem_mem (by rw [hlen]; exact hi)) (by rw [hget]; simpa using hn)
    rcases h3 with h3 | ⟨s, hs, hf, h4⟩
    · exfalso
      rw [h3] at hle
      exact absurd hle (by simp)
    · obtain ⟨j, hj, rfl⟩ := List.getElem_of_mem hs
      rw [hget] at hf h4
      refine ⟨⟨j, 0, (0, 0, 0)⟩, by simpa using hf, ?_⟩
      rw [hph]
      exact h4

/-! ## Headers -/

/-- C91: the header of a block with N-body particles has the number of particles that `Read` returns, the width of the box in Mpc/h, the cosmology of the fileset, and a box that holds every particle (up to periods). -/
theorem C91_header_partial (disk : Str → Option (Fileset K)) (fs : Fileset K) (name : Str) (hd : disk name = some fs) (ps : List (Part K)) (hp : fs.parts = some ps)
    (hm : fs.masses.length = fs.labels.length) (buf : Buffer K) (hr : Reachable disk name buf) (ho : buf.opened = false) (zeros k : Nat) (hk : (k : Int) ≤ maxInt)
    (a b : Int) (ha : fs.sfcIndex[k]? = some a) (hb : fs.sfcIndex[k + 1]? = some b) (sf om ol h : K) (h1 : fs.auni = some sf) (h2 : fs.omegaM = some om) (h3 : fs.omegaL = some ol) (h4 : fs.hubble = some h)
    (hh : h ≤ 10) (tw : K) (htw : tw = fs.boxSize * (h * fs.lengthUnit / (308560 * 10 ^ 17 * 100))) (hlo : 1 / 1000 ≤ tw) (hhi : tw ≤ 10 ^ 6) (hne : nBodyIn fs ps a b ≠ [])
    (hin : ∀ p ∈ nBodyIn fs ps a b, let x := (physical fs p).1; (0 ≤ x.1 ∧ x.1 ≤ tw) ∧ (0 ≤ x.2.1 ∧ x.2.1 ≤ tw) ∧ (0 ≤ x.2.2 ∧ x.2.2 ≤ tw)) :
    ∃ hdr, (readHeader disk buf (blockName name zeros k)).1 = .ok hdr ∧ hdr.n = (nBodyIn fs ps a b).length ∧ hdr.totalWidth = tw ∧ hdr.z = 1 / sf - 1 ∧ hdr.omegaM = om ∧ hdr.omegaL = ol ∧ hdr.h100 = h ∧
      ∀ p ∈ nBodyIn fs ps a b, let x := (physical fs p).1;
        (∃ i : Int, hdr.origin.1 ≤ x.1 + i * tw ∧ x.1 + i * tw ≤ hdr.origin.1 + hdr.width.1) ∧ (∃ i : Int, hdr.origin.2.1 ≤ x.2.1 + i * tw ∧ x.2.1 + i * tw ≤ hdr.origin.2.1 + hdr.width.2.1) ∧
        (∃ i : Int, hdr.origin.2.2 ≤ x.2.2 + i * tw ∧ x.2.2 + i * tw ≤ hdr.origin.2.2 + hdr.width.2.2) := by
  have hread := C91_read_partial disk fs name hd ps hp hm buf hr ho zeros k hk a b ha hb
  obtain ⟨hinv, hl⟩ := reachable_inv disk fs name hd hm buf hr
  generalize hL : nBodyIn fs ps a b = L at hread hne hin ⊢
  have htwe : fs.boxSize * lengthUnit fs = tw := by
    rw [htw]
    unfold lengthUnit h100 mpcMks
    rw [h4]
    simp only [Option.getD_some]
    ring
  have hpos : 0 < tw := lt_of_lt_of_le (by norm_num) hlo
  have bx := fun (f : K × K × K → K) (hf : ∀ p ∈ L, 0 ≤ f (physical fs p).1 ∧ f (physical fs p).1 ≤ tw) =>
    Io.C33_contains tw hpos (((L.map (physical fs)).map Prod.fst).map f) (by simpa using hne) (by
      intro x hx
      simp only [List.mem_map] at hx
      obtain ⟨_, ⟨_, ⟨p, hp, rfl⟩, rfl⟩, rfl⟩ := hx
      exact hf p hp)
  obtain ⟨o1, w1, e1, _, _, c1⟩ := bx (fun x => x.1) (fun p hp => (hin p hp).1)
  obtain ⟨o2, w2, e2, _, _, c2⟩ := bx (fun x => x.2.1) (fun p hp => (hin p hp).2.1)
  obtain ⟨o3, w3, e3, _, _, c3⟩ := bx (fun x => x.2.2) (fun p hp => (hin p hp).2.2)
  refine ⟨⟨tw, (o1, o2, o3), (w1, w2, w3), ((L.map (physical fs)).map Prod.fst).length, 1 / sf - 1, om, ol, h⟩, ?_, by simp, rfl, rfl, rfl, rfl, rfl, ?_⟩
  · unfold readHeader
    cases hq : read disk buf (blockName name zeros k) with
    | mk o b' =>
      rw [hq] at hread
      dsimp only at hread
      subst hread
      have hnot : ¬ (tw < 1 / 1000 ∨ tw > 10 ^ 6) := by push Not; exact ⟨hlo, hhi⟩
      have hh' : ¬ h > 10 := not_lt.2 hh
      simp only [hinv.fileset, hd, htwe, hnot, if_false, box, e1, e2, e3, h1, h2, h3, h4, hh']
  · intro p hpm
    have mem : ∀ f : K × K × K → K, f (physical fs p).1 ∈ ((L.map (physical fs)).map Prod.fst).map f := by
      intro f
      exact List.mem_map_of_mem (List.mem_map_of_mem (List.mem_map_of_mem hpm))
    exact ⟨c1 _ (mem fun x => x.1), c2 _ (mem fun x => x.2.1), c3 _ (mem fun x => x.2.2)⟩

/-! ## A fileset, and what goes wrong -/

/-- A fileset with three species, two blocks and five particles. -/
def fs1 : Fileset ℚ where
  labels := ["N-BODY".toList, "STAR".toList, "N-BODY".toList]
  masses := [1, 2, 8]
  hubble := some (1 / 2)
  massUnit := 198900 * 10 ^ 25 * 1000 * 2
  lengthUnit := 308560 * 10 ^ 17 * 100 * 2
  boxSize := 10
  auni := some 1
  omegaM := some (1 / 4)
  omegaL := some (3 / 4)
  sfcIndex := [0, 4, 8]
  parts := some [⟨0, 0, (1, 1, 1)⟩, ⟨1, 1, (2, 2, 2)⟩, ⟨2, 3, (3, 3, 3)⟩, ⟨0, 4, (4, 4, 4)⟩, ⟨2, 7, (5, 5, 5)⟩]

/-- Another snapshot, with one particle. -/
def fs2 : Fileset ℚ := { fs1 with parts := some [⟨0, 0, (9, 9, 9)⟩] }
/-- A fileset without N-body particles. -/
def fs3 : Fileset ℚ := { fs1 with labels := ["STAR".toList, "STAR".toList, "GAS".toList] }
/-- A fileset whose particles cannot be read. -/
def fs4 : Fileset ℚ := { fs1 with parts := none }

/-- The disk of the examples. -/
def disk1 : Str → Option (Fileset ℚ) := fun s => if s = ['a'] then some fs1 else if s = ['b'] then some fs2 else if s = ['c'] then some fs3 else if s = ['d'] then some fs4 else none

theorem lengthUnit_one : lengthUnit fs1 = 1 := by unfold lengthUnit h100 mpcMks fs1; norm_num
theorem massUnit_one : massUnit fs1 = 1 := by unfold massUnit h100 mSunMks fs1; norm_num

theorem new_ok (c : Char) (fs : Fileset ℚ) (hc : c ≠ '.') (hd : disk1 [c] = some fs) (hl : fs.labels ≠ []) :
    newBuffer disk1 (blockName [c] 0 0) = .ok ⟨false, [], [], List.replicate fs.labels.length [], List.replicate fs.labels.length [], fs.masses.map fun m => m * massUnit fs,
      fs.labels.map fun l => decide (l = "N-BODY".toList), [c]⟩ := by
  unfold newBuffer nBodyFlags
  rw [C91_names [c] 0 0 (by decide)]
  simp only [hd]
  rw [if_neg (by simpa using hl)]

/-- A buffer that was made for the fileset "a" is reachable, and after reading and closing block 1 too. -/
theorem reachable_new (c : Char) (fs : Fileset ℚ) (hc : c ≠ '.') (hd : disk1 [c] = some fs) (hl : fs.labels ≠ []) : ∃ buf, newBuffer disk1 (blockName [c] 0 0) = .ok buf ∧ Reachable disk1 [c] buf ∧ buf.opened = false :=
  ⟨_, new_ok c fs hc hd hl, ⟨_, _, _, [], C91_names [c] 0 0 (by decide), new_ok c fs hc hd hl, rfl⟩, rfl⟩

/-- Block 1 of the fileset "a": the hypotheses of the theorems hold and the two N-body particles of its cells are read. -/
example : ∃ buf, Reachable disk1 ['a'] buf ∧ buf.opened = false ∧ (read disk1 buf (blockName ['a'] 3 1)).1 = .ok ⟨[(4, 4, 4), (5, 5, 5)], [], [1, 8], []⟩ := by
  obtain ⟨buf, _, hr, ho⟩ := reachable_new 'a' fs1 (by decide) rfl (by decide)
  refine ⟨buf, hr, ho, ?_⟩
  rw [C91_read_partial disk1 fs1 ['a'] rfl _ rfl rfl buf hr ho 3 1 (by decide) 4 8 rfl rfl]
  have e : nBodyIn fs1 [⟨0, 0, (1, 1, 1)⟩, ⟨1, 1, (2, 2, 2)⟩, ⟨2, 3, (3, 3, 3)⟩, ⟨0, 4, (4, 4, 4)⟩, ⟨2, 7, (5, 5, 5)⟩] 4 8 = [⟨0, 4, (4, 4, 4)⟩, ⟨2, 7, (5, 5, 5)⟩] := by
    rfl
  rw [e]
  simp only [List.map_cons, List.map_nil, physical, fs1]
  norm_num

/-- The table of cells of "a" is sorted and covers the particles. -/
example : fs1.sfcIndex.Pairwise (· ≤ ·) ∧ (∀ p ∈ fs1.parts.getD [], fs1.sfcIndex.getD 0 0 ≤ p.cell ∧ p.cell < fs1.sfcIndex.getD 2 0) := by
  constructor
  · unfold fs1; decide
  · unfold fs1; simp

/-- C91 is false for more than one snapshot: a buffer that was made for the fileset "a" reads "a" when it is asked for a block of the fileset "b", without an error: the name's fileset is dropped. -/
theorem C91_other_fileset_false : ∃ buf, newBuffer disk1 (blockName ['a'] 0 0) = .ok buf ∧
    (read disk1 buf (blockName ['b'] 0 0)).1 = .ok ⟨[(1, 1, 1), (3, 3, 3)], [], [1, 8], []⟩ ∧ nBodyIn fs2 [⟨0, 0, (9, 9, 9)⟩] 0 4 = [⟨0, 0, (9, 9, 9)⟩] := by
  obtain ⟨buf, hn, hr, ho⟩ := reachable_new 'a' fs1 (by decide) rfl (by decide)
  refine ⟨buf, hn, ?_, rfl⟩
  obtain ⟨hinv, hl⟩ := reachable_inv disk1 fs1 ['a'] rfl rfl buf hr
  obtain ⟨r, buf', h1, _, _, h4, h5, h6, h7⟩ := read_spec disk1 fs1 ['a'] rfl _ rfl hl rfl buf hinv ho ['b'] _ 0 (C91_names ['b'] 0 0 (by decide)) 0 4 rfl rfl
  rw [h1]
  have e : nBodyIn fs1 [⟨0, 0, (1, 1, 1)⟩, ⟨1, 1, (2, 2, 2)⟩, ⟨2, 3, (3, 3, 3)⟩, ⟨0, 4, (4, 4, 4)⟩, ⟨2, 7, (5, 5, 5)⟩] 0 4 = [⟨0, 0, (1, 1, 1)⟩, ⟨2, 3, (3, 3, 3)⟩] := by
    rfl
  rw [e] at h7
  have hx : r.xs = [(1, 1, 1), (3, 3, 3)] ∧ r.ms = [1, 8] := by
    have e1 : r.xs = (r.xs.zip r.ms).map Prod.fst := (List.map_fst_zip (by omega)).symm
    have e2 : r.ms = (r.xs.zip r.ms).map Prod.snd := (List.map_snd_zip (by omega)).symm
    rw [h7] at e1 e2
    rw [e1, e2]
    simp only [List.map_cons, List.map_nil, physical, fs1]
    norm_num
  rw [← hx.1, ← hx.2, ← h4, ← h5]

/-- C91: a fileset without N-body particles is not refused: the check counts all species.  The smallest mass is infinite and the header of every block crashes. -/
theorem C91_no_species_false : (∀ i, ¬ NBody fs3 i) ∧ ∃ buf, newBuffer disk1 (blockName ['c'] 0 0) = .ok buf ∧ minMass buf = ⊤ ∧
    (read disk1 buf (blockName ['c'] 0 0)).1 = .ok ⟨[], [], [], []⟩ ∧ (readHeader disk1 buf (blockName ['c'] 0 0)).1 = .panic := by
  have hnb : ∀ i, ¬ NBody fs3 i := by
    intro i h
    unfold NBody fs3 at h
    have := List.mem_of_getElem? h
    revert this
    decide
  refine ⟨hnb, ?_⟩
  obtain ⟨buf, hn, hr, ho⟩ := reachable_new 'c' fs3 (by decide) rfl (by decide)
  have hread := C91_read_partial disk1 fs3 ['c'] rfl _ rfl rfl buf hr ho 0 0 (by decide) 0 4 rfl rfl
  have e : nBodyIn fs3 [⟨0, 0, (1, 1, 1)⟩, ⟨1, 1, (2, 2, 2)⟩, ⟨2, 3, (3, 3, 3)⟩, ⟨0, 4, (4, 4, 4)⟩, ⟨2, 7, (5, 5, 5)⟩] 0 4 = [] := by
    unfold nBodyIn
    rw [List.flatMap_eq_nil_iff]
    intro i _
    rw [if_neg (hnb i)]
  rw [e] at hread
  refine ⟨buf, hn, ?_, hread, ?_⟩
  · rw [new_ok 'c' fs3 (by decide) rfl (by decide)] at hn
    cases hn
    rfl
  · obtain ⟨hinv, hl⟩ := reachable_inv disk1 fs3 ['c'] rfl rfl buf hr
    unfold readHeader
    cases hq : read disk1 buf (blockName ['c'] 0 0) with
    | mk o b' =>
      rw [hq] at hread
      dsimp only at hread
      subst hread
      have htw : fs3.boxSize * lengthUnit fs3 = 10 := by
        unfold lengthUnit h100 mpcMks fs3 fs1; norm_num
      simp only [hinv.fileset, show disk1 ['c'] = some fs3 from rfl, htw]
      norm_num
      rfl

/-- C91: `ReadHeader` drops the error of `Read`: if the particles of a fileset cannot be opened, there is a crash instead of an error. -/
theorem C91_error_dropped_false : ∃ buf, newBuffer disk1 (blockName ['d'] 0 0) = .ok buf ∧ (read disk1 buf (blockName ['d'] 0 0)).1 = .error ∧
    (readHeader disk1 buf (blockName ['d'] 0 0)).1 = .panic := by
  obtain ⟨buf, hn, hr, ho⟩ := reachable_new 'd' fs4 (by decide) rfl (by decide)
  obtain ⟨hinv, hl⟩ := reachable_inv disk1 fs4 ['d'] rfl rfl buf hr
  have hq : read disk1 buf (blockName ['d'] 0 0) = (.error, { buf with opened := true }) := by
    unfold read
    simp only [ho, Bool.false_eq_true, if_false, hinv.fileset, show disk1 ['d'] = some fs4 from rfl, show fs4.parts = none from rfl]
  refine ⟨buf, hn, by rw [hq], ?_⟩
  unfold readHeader
  rw [hq]
  have htw : fs4.boxSize * lengthUnit fs4 = 10 := by
    unfold lengthUnit h100 mpcMks fs4 fs1; norm_num
  simp only [hinv.fileset, show disk1 ['d'] = some fs4 from rfl, htw]
  norm_num
  rfl

end Shellfish.Artio
