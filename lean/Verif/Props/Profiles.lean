/- C81: profiles over all lines of sight of a halo (percentile, median and mean), and the table made of them. -/
import Verif.Model.Profiles
import Verif.Props.Sort
import Verif.Props.ProfBin
import Verif.Props.HaloLines

namespace Shellfish.Profiles
noncomputable section
open Real
open Shellfish.Los (Halo)
open Shellfish.Geom (Vec dot)
open Shellfish.Cmd (edge)
open Shellfish.Sort (IsMedian percentile median nthLargest)

/-! ## Specification -/

/-- The density of a line of sight in a radial bin: what the particles left there, but at least the background density. -/
def density (h : Halo) (ring i j : Nat) : ℝ := max (((h.profile ring i).getD []).getD j 0) h.defaultRho

/-- The densities of all lines of sight in a radial bin. -/
def column (h : Halo) (j : Nat) : List ℝ := (List.range h.rings).flatMap fun ring => (List.range h.n).map fun i => density h ring i j

/-- `v` is the `k`-th largest element of the list (the largest is the first). -/
def KthLargest (xs : List ℝ) (k : Nat) (v : ℝ) : Prop := v ∈ xs ∧ (xs.filter fun x => v < x).length < k ∧ k ≤ (xs.filter fun x => v ≤ x).length

/-- The center of radial bin `j` of `n` bins that are equal in the logarithm: the geometric mean of its edges. -/
def center (rMin rMax : ℝ) (n j : Nat) : ℝ := sqrt (edge rMin rMax n j * edge rMin rMax n (j + 1))

/-! ## Proofs -/

theorem getRhos_eq (h : Halo) (hw : h.WF) (ring i : Nat) (hr : ring < h.rings) (hi : i < h.n) :
    h.getRhos ring i (List.replicate h.bins 0) = some ((List.range h.bins).map fun j => density h ring i j) := by
  have hp := Los.profile_cell h hw ring i hr hi
  have hden : ∀ j ∈ List.range h.bins, density h ring i j = max (Los.cell h ring i j) h.defaultRho := by
    intro j hj
    unfold density
    rw [hp, Option.getD_some, List.getD_eq_getElem?_getD, List.getElem?_map, List.getElem?_range (List.mem_range.1 hj)]; rfl
  unfold Halo.profile at hp
  obtain ⟨p, h1, h2⟩ := Option.bind_eq_some_iff.1 hp
  unfold Halo.getRhos
  rw [h1, Option.bind_some, h2, Option.map_some, List.map_map]
  congr 1
  apply List.map_congr_left
  intro j hj
  rw [hden j hj]
  dsimp only [Function.comp_apply]
  split_ifs with hlt
  · exact (max_eq_right hlt.le).symm
  · exact (max_eq_left (not_lt.1 hlt)).symm

theorem lineBufs_eq (h : Halo) (hw : h.WF) :
    lineBufs h h.rings h.n h.bins = some ((List.range h.rings).flatMap fun ring => (List.range h.n).map fun i => (List.range h.bins).map fun j => density h ring i j) := by
  unfold lineBufs
  rw [Los.mapM_some _ (fun ring => (List.range h.n).map fun i => (List.range h.bins).map fun j => density h ring i j), Option.map_some, List.flatMap_def]
  intro ring hr
  exact Los.mapM_some _ _ _ fun i hi => getRhos_eq h hw ring i (List.mem_range.1 hr) (List.mem_range.1 hi)

theorem gather_eq (h : Halo) (j : Nat) (hj : j < h.bins) :
    gather ((List.range h.rings).flatMap fun ring => (List.range h.n).map fun i => (List.range h.bins).map fun j => density h ring i j) j = some (column h j) := by
  unfold gather
  rw [Los.mapM_some _ (fun b : List ℝ => b.getD j 0)]
  · congr 1
    unfold column
    rw [List.map_flatMap]
    congr 1
    funext ring
    rw [List.map_map]
    apply List.map_congr_left
    intro i _
    simp [List.getD_eq_getElem?_getD, hj]
  · intro b hb
    obtain ⟨ring, _, hb⟩ := List.mem_flatMap.1 hb
    obtain ⟨i, _, rfl⟩ := List.mem_map.1 hb
    simp [List.getD_eq_getElem?_getD, hj]

theorem column_length (h : Halo) (j : Nat) : (column h j).length = h.rings * h.n := by
  unfold column
  rw [List.length_flatMap]
  simp

theorem nthLargest_buf (xs : List ℝ) (n : Int) (b : List ℝ) (hb : b.length = xs.length) : nthLargest xs n (some b) = nthLargest xs n none := by
  unfold nthLargest
  simp [hb]

theorem percentile_spec (xs : List ℝ) (pn pd : Nat) (hd : 0 < pd) (hp : pn ≤ pd) (hx : 0 < xs.length) (b : List ℝ) (hb : b.length = xs.length) :
    ∃ v, percentile xs pn pd (some b) = some v ∧ KthLargest xs (max 1 (pn * xs.length / pd)) v := by
  have hle : pn * xs.length / pd ≤ xs.length := Nat.div_le_of_le_mul (Nat.mul_le_mul_right _ hp)
  obtain ⟨v, h1, h2, h3, h4⟩ := Sort.C02_nthLargest xs ((max 1 (pn * xs.length / pd) : Nat) : Int) none (by omega) (by omega) (by simp)
  refine ⟨v, ?_, h2, by exact_mod_cast h3, by exact_mod_cast h4⟩
  unfold percentile
  rw [if_neg (by omega), if_neg (by omega)]
  dsimp only
  rw [nthLargest_buf _ _ _ hb, ← h1]
  congr 2
  generalize pn * xs.length / pd = m
  split <;> omega

theorem center_eq (h : Halo) (hw : h.WF) (j : Nat) : exp (log h.rMin + (log h.rMax - log h.rMin) / (h.bins : ℝ) * ((j : ℝ) + 0.5)) = center h.rMin h.rMax h.bins j := by
  have h0 := hw.rmin
  have h1 := hw.rmax
  have hq : 0 < h.rMax / h.rMin := div_pos (by linarith) h0
  have hb : (0 : ℝ) < h.bins := by exact_mod_cast hw.bins_pos
  unfold center edge
  have e : ∀ k : ℕ, h.rMin * (h.rMax / h.rMin) ^ ((k : ℝ) / (h.bins : ℝ)) = exp (log h.rMin + (log h.rMax - log h.rMin) / (h.bins : ℝ) * k) := by
    intro k
    rw [rpow_def_of_pos hq, log_div (by linarith) (by linarith), exp_add, exp_log h0]
    congr 2
    field_simp
  rw [e, e, ← exp_add, ← exp_half]
  congr 1
  push_cast
  ring

theorem getRs_eq (h : Halo) (hw : h.WF) : Kde.getRs h h.bins = some ((List.range h.bins).map fun j => center h.rMin h.rMax h.bins j) := by
  unfold Kde.getRs
  rw [if_neg (by simp)]
  dsimp only
  congr 1
  apply List.map_congr_left
  intro j _
  exact center_eq h hw j

theorem mapM_exists {α β : Type} (f : α → Option β) (l : List α) (P : α → β → Prop) (h : ∀ a ∈ l, ∃ b, f a = some b ∧ P a b) :
    ∃ out, l.mapM f = some out ∧ out.length = l.length ∧ ∀ (k : Nat) (a : α) (b : β), l[k]? = some a → out[k]? = some b → P a b := by
  induction l with
  | nil => exact ⟨[], rfl, rfl, by intro k a b h; simp at h⟩
  | cons a l ih =>
    obtain ⟨b, h1, h2⟩ := h a (by simp)
    obtain ⟨out, o1, o2, o3⟩ := ih fun a ha => h a (by simp [ha])
    refine ⟨b :: out, ?_, by simp [o2], ?_⟩
    · rw [List.mapM_cons, h1, o1]; rfl
    · intro k a' b' ha hb
      cases k with
      | zero => simp at ha hb; subst ha hb; exact h2
      | succ k => simp at ha hb; exact o3 k a' b' ha hb

/-- C81: a percentile profile never panics for percentiles from 0 to 100; it is the list of the bin centers, followed by, for every bin, the density of the line of sight with rank `⌊p N⌋` (at least 1), counted
from the largest, among all `N` lines of sight of all rings. -/
theorem C81_percentile (h : Halo) (hw : h.WF) (hr : 0 < h.rings) (pn pd : Nat) (hd : 0 < pd) (hp : pn ≤ pd) :
    ∃ out, calcPercentile h h.rings h.n h.bins pn pd = some out ∧ out.length = 2 * h.bins ∧
      ∀ j < h.bins, out.getD j 0 = center h.rMin h.rMax h.bins j ∧ KthLargest (column h j) (max 1 (pn * (h.rings * h.n) / pd)) (out.getD (h.bins + j) 0) := by
  have hN : 0 < h.rings * h.n := Nat.mul_pos hr hw.n_pos
  obtain ⟨rhos, r1, r2, r3⟩ := mapM_exists (fun ri => (gather ((List.range h.rings).flatMap fun ring => (List.range h.n).map fun i => (List.range h.bins).map fun j => density h ring i j) ri).bind
      fun xs => percentile xs pn pd (some (List.replicate (h.n * h.rings) 0))) (List.range h.bins) (fun j v => KthLargest (column h j) (max 1 (pn * (h.rings * h.n) / pd)) v) (by
    intro j hj
    rw [gather_eq h j (List.mem_range.1 hj), Option.bind_some]
    obtain ⟨v, v1, v2⟩ := percentile_spec (column h j) pn pd hd hp (by rw [column_length]; exact hN) (List.replicate (h.n * h.rings) 0) (by rw [column_length]; simp [Nat.mul_comm])
    rw [column_length] at v2
    exact ⟨v, v1, v2⟩)
  refine ⟨((List.range h.bins).map fun j => center h.rMin h.rMax h.bins j) ++ rhos, ?_, ?_, ?_⟩
  · unfold calcPercentile
    rw [getRs_eq h hw, Option.bind_some, lineBufs_eq h hw, Option.bind_some, r1]; rfl
  · rw [List.length_append, r2]; simp; omega
  · intro j hj
    have hl : ((List.range h.bins).map fun j => center h.rMin h.rMax h.bins j).length = h.bins := by simp
    constructor
    · rw [List.getD_eq_getElem?_getD, List.getElem?_append_left (by rw [hl]; exact hj), List.getElem?_map, List.getElem?_range hj]; rfl
    · rw [List.getD_eq_getElem?_getD, List.getElem?_append_right (by rw [hl]; omega), hl, Nat.add_sub_cancel_left]
      have hj' : j < rhos.length := by rw [r2]; simpa using hj
      rw [List.getElem?_eq_getElem hj', Option.getD_some]
      exact r3 j j _ (List.getElem?_range hj) (List.getElem?_eq_getElem hj')

theorem density_floor (h : Halo) (ring i j : Nat) : h.defaultRho ≤ density h ring i j := le_max_right _ _

theorem column_floor (h : Halo) (j : Nat) (v : ℝ) (hv : v ∈ column h j) : h.defaultRho ≤ v := by
  unfold column at hv
  obtain ⟨r, _, hv⟩ := List.mem_flatMap.1 hv
  obtain ⟨i, _, rfl⟩ := List.mem_map.1 hv
  exact density_floor h r i j

theorem edge_lt (h : Halo) (hw : h.WF) (i j : Nat) (hij : i < j) : edge h.rMin h.rMax h.bins i < edge h.rMin h.rMax h.bins j := by
  have h0 := hw.rmin
  have hq : 1 < h.rMax / h.rMin := (one_lt_div h0).2 hw.rmax
  have hb : (0 : ℝ) < h.bins := by exact_mod_cast hw.bins_pos
  unfold edge
  apply mul_lt_mul_of_pos_left _ h0
  apply rpow_lt_rpow_of_exponent_lt hq
  exact div_lt_div_of_pos_right (by exact_mod_cast hij) hb

theorem edge_pos (h : Halo) (hw : h.WF) (i : Nat) : 0 < edge h.rMin h.rMax h.bins i := by
  have h0 := hw.rmin
  have h1 := hw.rmax
  have : 0 < h.rMax / h.rMin := div_pos (by linarith) h0
  unfold edge
  positivity

/-- C81: the radii of a profile lie strictly inside of their bins, so they increase from `rMin` to `rMax`; no density is below the background density of the halo. -/
theorem C81_ordered (h : Halo) (hw : h.WF) (hr : 0 < h.rings) (pn pd : Nat) (hd : 0 < pd) (hp : pn ≤ pd) (out : List ℝ) (ho : calcPercentile h h.rings h.n h.bins pn pd = some out) :
    (∀ j < h.bins, edge h.rMin h.rMax h.bins j < out.getD j 0 ∧ out.getD j 0 < edge h.rMin h.rMax h.bins (j + 1)) ∧ (∀ i j, i < j → j < h.bins → out.getD i 0 < out.getD j 0) ∧
    edge h.rMin h.rMax h.bins 0 = h.rMin ∧ edge h.rMin h.rMax h.bins h.bins = h.rMax ∧ ∀ j < h.bins, h.defaultRho ≤ out.getD (h.bins + j) 0 := by
  obtain ⟨out', o1, _, o3⟩ := C81_percentile h hw hr pn pd hd hp
  rw [ho, Option.some_inj] at o1
  subst o1
  have hb : (h.bins : ℝ) ≠ 0 := by exact_mod_cast hw.bins_pos.ne'
  have hin : ∀ j < h.bins, edge h.rMin h.rMax h.bins j < out.getD j 0 ∧ out.getD j 0 < edge h.rMin h.rMax h.bins (j + 1) := by
    intro j hj
    rw [(o3 j hj).1]
    have e1 := edge_pos h hw j
    have e2 := edge_lt h hw j (j + 1) (by omega)
    unfold center
    constructor
    · rw [lt_sqrt e1.le]; nlinarith
    · rw [sqrt_lt' (by linarith)]; nlinarith
  refine ⟨hin, ?_, ?_, ?_, fun j hj => column_floor h j _ (o3 j hj).2.1⟩
  · intro i j hij hj
    have a := (hin i (by omega)).2
    have b := (hin j hj).1
    rcases eq_or_lt_of_le (Nat.succ_le_of_lt hij) with e | e
    · subst e; exact a.trans b
    · exact a.trans ((edge_lt h hw (i + 1) j e).trans b)
  · unfold edge; simp
  · unfold edge
    rw [div_self hb, rpow_one, mul_div_cancel₀]
    exact hw.rmin.ne'

/-- C81: with the default setting, 50, and an even number of lines of sight, the profile is the median. Missing from the full property: odd numbers (one rank too high). -/
theorem C81_half_partial (h : Halo) (hw : h.WF) (k : Nat) (hk : 0 < k) (hN : h.rings * h.n = 2 * k) :
    ∃ out, calcPercentile h h.rings h.n h.bins 1 2 = some out ∧ ∀ j < h.bins, IsMedian (column h j) (out.getD (h.bins + j) 0) := by
  have hr : 0 < h.rings := Nat.pos_of_ne_zero (by rintro e; rw [e] at hN; omega)
  obtain ⟨out, o1, _, o3⟩ := C81_percentile h hw hr 1 2 (by omega) (by omega)
  refine ⟨out, o1, fun j hj => ?_⟩
  obtain ⟨m1, m2, m3⟩ := (o3 j hj).2
  rw [hN] at m2 m3
  have hl := column_length h j
  rw [hN] at hl
  have e : max 1 (1 * (2 * k) / 2) = k := by omega
  rw [e] at m2 m3
  refine ⟨m1, by omega, ?_⟩
  have hsplit : (column h j).length = ((column h j).filter fun x => out.getD (h.bins + j) 0 < x).length + ((column h j).filter fun x => x ≤ out.getD (h.bins + j) 0).length := by
    rw [← List.countP_eq_length_filter, ← List.countP_eq_length_filter, Nat.add_comm, List.length_eq_countP_add_countP (p := fun x => decide (x ≤ out.getD (h.bins + j) 0))]
    congr 1
    apply List.countP_congr
    intro x _
    simp [not_le]
  omega

/-- C81 is false of the code for other percentiles: the setting 100 gives the smallest density of all lines of sight, and the settings below 50 give densities above the median: the order is reversed. -/
theorem C81_reversed_false (h : Halo) (hw : h.WF) (hr : 0 < h.rings) :
    ∃ out, calcPercentile h h.rings h.n h.bins 1 1 = some out ∧ ∀ j < h.bins, ∀ x ∈ column h j, out.getD (h.bins + j) 0 ≤ x := by
  obtain ⟨out, o1, _, o3⟩ := C81_percentile h hw hr 1 1 (by omega) (by omega)
  refine ⟨out, o1, fun j hj x hx => ?_⟩
  obtain ⟨_, _, m3⟩ := (o3 j hj).2
  have hN : 0 < h.rings * h.n := Nat.mul_pos hr hw.n_pos
  rw [show max 1 (1 * (h.rings * h.n) / 1) = (column h j).length by rw [column_length, Nat.one_mul, Nat.div_one]; omega] at m3
  have : (column h j).filter (fun x => decide (out.getD (h.bins + j) 0 ≤ x)) = column h j := by
    apply List.filter_eq_self.2
    have := List.length_filter_eq_length_iff.1 (le_antisymm (List.length_filter_le _ _) m3)
    exact this
  rw [List.filter_eq_self] at this
  exact of_decide_eq_true (this x hx)

/-- C81: a larger percentile setting gives a smaller density, in every bin. -/
theorem C81_antitone (h : Halo) (hw : h.WF) (hr : 0 < h.rings) (pn qn pd : Nat) (hd : 0 < pd) (hpq : pn ≤ qn) (hq : qn ≤ pd) :
    ∃ a b, calcPercentile h h.rings h.n h.bins pn pd = some a ∧ calcPercentile h h.rings h.n h.bins qn pd = some b ∧ ∀ j < h.bins, b.getD (h.bins + j) 0 ≤ a.getD (h.bins + j) 0 := by
  obtain ⟨a, a1, _, a3⟩ := C81_percentile h hw hr pn pd hd (hpq.trans hq)
  obtain ⟨b, b1, _, b3⟩ := C81_percentile h hw hr qn pd hd hq
  refine ⟨a, b, a1, b1, fun j hj => ?_⟩
  obtain ⟨_, u2, _⟩ := (a3 j hj).2
  obtain ⟨_, _, w3⟩ := (b3 j hj).2
  by_contra hc
  have hc := not_le.1 hc
  have hmono : pn * (h.rings * h.n) / pd ≤ qn * (h.rings * h.n) / pd := Nat.div_le_div_right (Nat.mul_le_mul_right _ hpq)
  have hsub : ((column h j).filter fun x => b.getD (h.bins + j) 0 ≤ x).length ≤ ((column h j).filter fun x => a.getD (h.bins + j) 0 < x).length := by
    rw [← List.countP_eq_length_filter, ← List.countP_eq_length_filter]
    apply List.countP_mono_left
    intro x _ hx
    simp only [decide_eq_true_eq] at hx ⊢
    linarith
  omega

/-- C81: the median profile; for an even number of lines of sight it is that of `C81_half_partial`. -/
theorem C81_median_partial (h : Halo) (hw : h.WF) (k : Nat) (hk : 0 < k) (hN : h.rings * h.n = 2 * k) :
    ∃ out, medianProfile h = some out ∧ out.length = h.bins ∧ ∀ j < h.bins, IsMedian (column h j) (out.getD j 0) := by
  obtain ⟨rhos, r1, r2, r3⟩ := mapM_exists (fun ri => (gather ((List.range h.rings).flatMap fun ring => (List.range h.n).map fun i => (List.range h.bins).map fun j => density h ring i j) ri).bind
      fun xs => median xs (some xs)) (List.range h.bins) (fun j v => IsMedian (column h j) v) (by
    intro j hj
    rw [gather_eq h j (List.mem_range.1 hj), Option.bind_some]
    exact Sort.C02_median_even_partial (column h j) (some (column h j)) k hk (by rw [column_length, hN]) (by intro b hb; cases hb; rfl))
  refine ⟨rhos, ?_, by rw [r2]; simp, ?_⟩
  · unfold medianProfile
    rw [lineBufs_eq h hw, Option.bind_some]
    exact r1
  · intro j hj
    have hj' : j < rhos.length := by rw [r2]; simpa using hj
    rw [List.getD_eq_getElem?_getD, List.getElem?_eq_getElem hj', Option.getD_some]
    exact r3 j j _ (List.getElem?_range hj) (List.getElem?_eq_getElem hj')

/-- the sum of equally long lists -/
theorem sum_fold (bins : Nat) (bufs : List (List ℝ)) : ∀ (mean : List ℝ), mean.length = bins → (∀ b ∈ bufs, b.length = bins) →
    ∃ out, bufs.foldlM (fun (mean : List ℝ) (buf : List ℝ) => if mean.length < buf.length then none else some (List.zipWith (· + ·) mean (buf ++ List.replicate (mean.length - buf.length) 0))) mean = some out ∧
      out.length = bins ∧ ∀ j < bins, out.getD j 0 = mean.getD j 0 + (bufs.map fun b => b.getD j 0).sum := by
  induction bufs with
  | nil => intro mean hl _; exact ⟨mean, rfl, hl, by simp⟩
  | cons b bufs ih =>
    intro mean hl hb
    have hbl := hb b (by simp)
    obtain ⟨out, o1, o2, o3⟩ := ih (List.zipWith (· + ·) mean b) (by simp [hl, hbl]) fun b hb' => hb b (by simp [hb'])
    refine ⟨out, ?_, o2, ?_⟩
    · rw [List.foldlM_cons, if_neg (by omega), hbl, hl, Nat.sub_self, List.replicate_zero, List.append_nil]
      exact o1
    · intro j hj
      rw [o3 j hj, List.map_cons, List.sum_cons, ← add_assoc]
      congr 1
      simp only [List.getD_eq_getElem?_getD, List.getElem?_zipWith]
      rw [List.getElem?_eq_getElem (by omega : j < mean.length), List.getElem?_eq_getElem (by omega : j < b.length)]
      rfl

/-- C81: the mean profile is the mean over all lines of sight. -/
theorem C81_mean (h : Halo) (hw : h.WF) :
    ∃ out, meanProfile h = some out ∧ out.length = h.bins ∧ ∀ j < h.bins, out.getD j 0 = (column h j).sum / (column h j).length := by
  obtain ⟨out, o1, o2, o3⟩ := sum_fold h.bins ((List.range h.rings).flatMap fun ring => (List.range h.n).map fun i => (List.range h.bins).map fun j => density h ring i j) (List.replicate h.bins 0) (by simp) (by
    intro b hb
    obtain ⟨ring, _, hb⟩ := List.mem_flatMap.1 hb
    obtain ⟨i, _, rfl⟩ := List.mem_map.1 hb
    simp)
  refine ⟨out.map fun m => m / ((h.rings * h.n : Nat) : ℝ), ?_, by simp [o2], ?_⟩
  · unfold meanProfile
    rw [lineBufs_eq h hw, Option.bind_some, o1]; rfl
  · intro j hj
    have e : (((List.range h.rings).flatMap fun ring => (List.range h.n).map fun i => (List.range h.bins).map fun j => density h ring i j).map fun b => b.getD j 0) = column h j := by
      unfold column
      rw [List.map_flatMap]
      congr 1
      funext ring
      rw [List.map_map]
      apply List.map_congr_left
      intro i _
      simp [List.getD_eq_getElem?_getD, hj]
    have := o3 j hj
    rw [e, Los.getD_replicate_zero, zero_add, List.getD_eq_getElem?_getD, List.getElem?_eq_getElem (by omega : j < out.length), Option.getD_some] at this
    rw [List.getD_eq_getElem?_getD, List.getElem?_map, List.getElem?_eq_getElem (by omega : j < out.length), Option.map_some, Option.getD_some, this, column_length]

/-- C81: the table of the shell mode has entry `x` of row `y` in column `x`, row `y`, if all rows have the same length. -/
theorem C81_transpose (rows : List (List ℝ)) (hne : rows ≠ []) (n : Nat) (hl : ∀ row ∈ rows, row.length = n) :
    ∃ cols, transpose rows = some cols ∧ cols.length = n ∧ ∀ x < n, ∃ col, cols[x]? = some col ∧ col.length = rows.length ∧ ∀ (y : Nat) (row : List ℝ), rows[y]? = some row → col[y]? = row[x]? := by
  cases rows with
  | nil => exact absurd rfl hne
  | cons row0 rest =>
    have h0 := hl row0 (by simp)
    refine ⟨(List.range n).map fun x => (row0 :: rest).map fun row => row.getD x 0, ?_, by simp, ?_⟩
    · unfold transpose
      dsimp only
      rw [h0]
      apply Los.mapM_some
      intro x hx
      apply Los.mapM_some
      intro row hr
      have : x < row.length := by rw [hl row hr]; exact List.mem_range.1 hx
      rw [List.getD_eq_getElem?_getD, List.getElem?_eq_getElem this]; rfl
    · intro x hx
      refine ⟨(row0 :: rest).map fun row => row.getD x 0, by rw [List.getElem?_map, List.getElem?_range hx]; rfl, by simp, ?_⟩
      intro y row hy
      have : x < row.length := by rw [hl row (List.mem_of_getElem? hy)]; exact hx
      rw [List.getElem?_map, hy, Option.map_some, List.getD_eq_getElem?_getD, List.getElem?_eq_getElem this]; rfl

/-- The rows of the shell mode are not all of the same length in a percentile run with a row that is left out: that row has `RadialBins` numbers, the others twice as many.  If it is the first, the densities of all
other rows are dropped from the table; if it is not, the mode panics. -/
theorem C81_ragged_false (blank row : List ℝ) (hb : blank ≠ []) (hl : row.length = 2 * blank.length) :
    (∃ cols, transpose [blank, row] = some cols ∧ cols.length = blank.length) ∧ transpose [row, blank] = none := by
  have h0 : 0 < blank.length := List.length_pos_of_ne_nil hb
  constructor
  · refine ⟨(List.range blank.length).map fun x => [blank.getD x 0, row.getD x 0], ?_, by simp⟩
    unfold transpose
    dsimp only
    apply Los.mapM_some
    intro x hx
    have hx := List.mem_range.1 hx
    rw [List.mapM_cons, List.mapM_cons, List.mapM_nil, List.getD_eq_getElem?_getD, List.getD_eq_getElem?_getD, List.getElem?_eq_getElem hx, List.getElem?_eq_getElem (by omega : x < row.length)]
    rfl
  · unfold transpose
    dsimp only
    refine ShellRun.mapM_none _ _ blank.length (List.mem_range.2 (by omega)) ?_
    rw [List.mapM_cons, List.getElem?_eq_getElem (by omega : blank.length < row.length)]
    rw [List.mapM_cons, List.getElem?_eq_none (by omega)]
    rfl

/-- C81: a run of the shell mode with `PercentileProfile`: every row gets the radii between `RMinMult` and `RMaxMult` times its radius, and the percentile over all lines of sight of the halo that holds the spheres of
the row's own particles (`C80_lines_partial` says which densities these are). -/
theorem C81_run (cfg : ShellRun.Config) (hc : cfg.Ok) (norms : List Vec) (hnorm : ∀ v ∈ norms, dot v v = 1) (hrings : norms.length = cfg.rings) (hr : 0 < cfg.rings) (pn pd : Nat) (hd : 0 < pd) (hp : pn ≤ pd)
    (workers : Nat) (hw : 0 < workers) (minMass : ℝ) (rows : List ShellRun.Row) (hne : rows ≠ []) (disk : Int → Option (List ShellRun.File)) (hok : ∀ row ∈ rows, ShellRun.RowOk cfg disk row) :
    ∃ (hd0 : ShellRun.File) (out : List (Option (List ℝ))),
      ShellRun.run cfg norms workers minMass (fun h => calcPercentile h cfg.rings cfg.spokes cfg.radialBins pn pd) none rows disk = some out ∧ out.length = rows.length ∧
      ∀ (k : Nat) (row : ShellRun.Row) (files : List ShellRun.File), rows[k]? = some row → disk row.snap = some files →
        ∃ (h : Halo) (prof : List ℝ), (ShellRun.emptyHalo cfg norms minMass hd0.rhoM row).insertAll (ShellRun.rowBalls cfg row files) = some h ∧ out[k]? = some (some prof) ∧ prof.length = 2 * cfg.radialBins ∧
          ∀ j < cfg.radialBins, prof.getD j 0 = center (row.r * cfg.rMinMult) (row.r * cfg.rMaxMult) cfg.radialBins j ∧
            KthLargest (column h j) (max 1 (pn * (cfg.rings * cfg.spokes) / pd)) (prof.getD (cfg.radialBins + j) 0) := by
  obtain ⟨first, hd0, out, _, _, _, a4, a5, a6⟩ := ShellRun.C80_rows_partial cfg hc norms hnorm workers hw minMass (fun h => calcPercentile h cfg.rings cfg.spokes cfg.radialBins pn pd) none rows hne disk hok
  refine ⟨hd0, out, a4, a5, ?_⟩
  intro k row files hk hfiles
  obtain ⟨h, h1, h2⟩ := a6 k row files hk hfiles
  have hrow := hok row (List.mem_of_getElem? hk)
  have hrpos := hrow.radius
  have hrm := hc.rmin
  have hrx := hc.rmax
  obtain ⟨hwf, hor⟩ : (ShellRun.emptyHalo cfg norms minMass hd0.rhoM row).WF ∧ (ShellRun.emptyHalo cfg norms minMass hd0.rhoM row).Oriented :=
    Los.init_WF_halo norms hnorm row.x (row.r * cfg.rMinMult) (row.r * cfg.rMaxMult) (by positivity) (by nlinarith) cfg.radialBins cfg.spokes hc.bins hc.spokes _
  obtain ⟨h', e1, e2, e3, _⟩ := Los.insertAll_cell (ShellRun.rowBalls cfg row files) _ hwf
  rw [h1, Option.some_inj] at e1
  subst e1
  have g1 : h.rings = cfg.rings := e3.rings.symm.trans hrings
  have g2 : h.n = cfg.spokes := e3.n.symm
  have g3 : h.bins = cfg.radialBins := e3.bins.symm
  have g4 : h.rMin = row.r * cfg.rMinMult := e3.rMin.symm
  have g5 : h.rMax = row.r * cfg.rMaxMult := e3.rMax.symm
  obtain ⟨prof, p1, p2, p3⟩ := C81_percentile h e2 (by rw [g1]; exact hr) pn pd hd hp
  rw [g1, g2, g3] at p1
  rw [g3] at p2
  rw [g1, g2, g3, g4, g5] at p3
  exact ⟨h, prof, h1, by rw [h2]; exact congrArg some p1, p2, p3⟩

-- a halo with two rings of 16 lines of sight and 20 bins
example : ∃ h : Halo, h.WF ∧ 0 < h.rings ∧ h.rings * h.n = 2 * 16 ∧ h.bins = 20 :=
  ⟨Halo.init [⟨0, 0, 1⟩, ⟨1, 0, 0⟩] ⟨5, 6, 7⟩ (1 / 2) 3 20 16 0,
    (Los.init_WF_halo _ (by intro v hv; rcases List.mem_cons.mp hv with rfl | hv; norm_num [dot]; rw [List.mem_singleton.mp hv]; norm_num [dot]) _ _ _ (by norm_num) (by norm_num) _ _
      (by norm_num) (by norm_num) _).1, by simp [Halo.init], by simp [Halo.init], rfl⟩

example : ∃ cols, transpose [[1, 2, 3], [4, 5, 6]] = some cols ∧ cols.length = 3 := by
  obtain ⟨cols, h1, h2, _⟩ := C81_transpose [[1, 2, 3], [4, 5, 6]] (by simp) 3 (by intro row hr; simp at hr; rcases hr with rfl | rfl <;> rfl)
  exact ⟨cols, h1, h2⟩

end
end Shellfish.Profiles
