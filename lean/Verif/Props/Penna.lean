/- C75: Penna-Dines shells. -/
import Verif.Model.Penna
import Verif.Props.Shell
import Verif.Props.MatProd
import Mathlib.LinearAlgebra.Matrix.NonsingularInverse
import Mathlib.LinearAlgebra.Matrix.ToLinearEquiv

namespace Shellfish.Analyze
noncomputable section
open Shellfish.Geom (Vec)
open Real
open Finset (range)

/-! Specification -/

/-- A point in the direction (phi, theta) at a distance r. -/
structure Sight where
  phi : ℝ
  theta : ℝ
  r : ℝ

/-- The point in Cartesian coordinates. -/
def Sight.point (p : Sight) : Vec := cartesian p.phi p.theta p.r

/-- It is not on the z axis. -/
def Sight.offAxis (p : Sight) : Prop := 0 < p.r ∧ 0 < p.theta ∧ p.theta < π

/-- The sum of the squared differences between the shell and the points along their lines of sight. -/
def squaredError (c : List ℝ) (I J K : Nat) (pts : List Sight) : ℝ := (pts.map fun p => (pennaShell c I J K p.phi p.theta - p.r) ^ 2).sum

/-- The points determine the coefficients: only the shell with all coefficients zero vanishes in all of their directions. -/
def Determined (I J K : Nat) (pts : List Sight) : Prop :=
  ∀ c : List ℝ, c.length = I * J * K → (∀ p ∈ pts, pennaShell c I J K p.phi p.theta = 0) → ∀ x ∈ c, x = 0

/-- gonum's inverse of a matrix that is not singular. -/
def Inverse.Correct (inverse : Inverse) : Prop := ∀ n (A : Matrix (Fin n) (Fin n) ℝ), A.det ≠ 0 → inverse n A * A = 1

/-! The function -/

theorem powers_length (I J K : Nat) : (powers I J K).length = I * J * K := by
  unfold powers
  rw [List.length_flatMap]
  have : ((List.range K).map fun k => ((List.range J).flatMap fun j => (List.range I).map fun i => (k, j, i)).length) = (List.range K).map fun _ => I * J := by
    refine List.map_congr_left fun k _ => ?_
    rw [List.length_flatMap]
    simp [Nat.mul_comm]
  rw [this]
  simp [Nat.mul_comm]

/-- The monomial of the powers (k, j, i) in a direction. -/
def mono (t : Nat × Nat × Nat) (phi th : ℝ) : ℝ := (sin th * cos phi) ^ t.2.2 * (sin th * sin phi) ^ t.2.1 * cos th ^ t.1

theorem penna_fold (cs : List ℝ) (phi th : ℝ) (l : List (Nat × Nat × Nat)) (m : Nat) (a : ℝ) (h : m + l.length ≤ cs.length) :
    l.foldlM (fun (st : Nat × ℝ) t => (cs[st.1]?).map fun c => (st.1 + 1, st.2 + c * Real.sin th ^ (t.2.2 + t.2.1) * Real.cos th ^ t.1 * Real.sin phi ^ t.2.1 * Real.cos phi ^ t.2.2)) (m, a) =
      some (m + l.length, a + ∑ n ∈ range l.length, cs.getD (m + n) 0 * mono (l.getD n (0, 0, 0)) phi th) := by
  induction l generalizing m a with
  | nil => simp
  | cons t l ih =>
    rw [List.length_cons] at h
    rw [List.foldlM_cons]
    rw [show cs[(m, a).1]? = some (cs.getD m 0) from Shellfish.Mat.getElem?_getD (by omega)]
    simp only [Option.map_some, Option.bind_eq_bind, Option.bind_some]
    rw [ih _ _ (by omega), List.length_cons, Finset.sum_range_succ']
    congr 1
    refine Prod.ext (by simp; omega) ?_
    simp only [List.getD_cons_zero, List.getD_cons_succ, Nat.add_zero, Nat.add_assoc, Nat.add_comm 1]
    unfold mono
    ring

/-- The value is defined when there are enough coefficients. -/
theorem penna_eq (cs : List ℝ) (I J K : Nat) (h : I * J * K ≤ cs.length) (phi th : ℝ) :
    pennaFunc cs I J K phi th = some (∑ n ∈ range (I * J * K), cs.getD n 0 * mono ((powers I J K).getD n (0, 0, 0)) phi th) := by
  unfold pennaFunc
  rw [penna_fold cs phi th (powers I J K) 0 0 (by rw [powers_length]; omega)]
  simp [powers_length]

theorem shell_eq (cs : List ℝ) (I J K : Nat) (h : I * J * K ≤ cs.length) (phi th : ℝ) :
    pennaShell cs I J K phi th = ∑ n ∈ range (I * J * K), cs.getD n 0 * mono ((powers I J K).getD n (0, 0, 0)) phi th := by
  unfold pennaShell
  rw [penna_eq cs I J K h]
  rfl

theorem sum_flatMap {α : Type} (L K : Nat) (g : Nat → List α) (hL : ∀ k, (g k).length = L) (d : α) (f : Nat → α → ℝ) :
    ∑ n ∈ range (K * L), f n (((List.range K).flatMap g).getD n d) = ∑ k ∈ range K, ∑ n ∈ range L, f (k * L + n) ((g k).getD n d) := by
  have hlen : ∀ K, ((List.range K).flatMap g).length = K * L := by
    intro K
    rw [List.length_flatMap]
    simp [hL]
  induction K with
  | zero => simp
  | succ K ih =>
    rw [Nat.succ_mul, Finset.sum_range_add, Finset.sum_range_succ, ← ih, List.range_succ, List.flatMap_append]
    congr 1
    · refine Finset.sum_congr rfl fun n hn => ?_
      rw [List.getD_append _ _ _ _ (by rw [hlen]; exact Finset.mem_range.1 hn)]
    · refine Finset.sum_congr rfl fun n hn => ?_
      rw [List.getD_append_right _ _ _ _ (by rw [hlen]; omega), hlen]
      simp

/-- The shell of the coefficients is a polynomial in the coordinates of the direction: coefficient `(k·J + j)·I + i` belongs to x^i y^j z^k. -/
theorem C75_polynomial (cs : List ℝ) (I J K : Nat) (h : I * J * K ≤ cs.length) (phi th : ℝ) :
    pennaFunc cs I J K phi th = some (∑ k ∈ range K, ∑ j ∈ range J, ∑ i ∈ range I,
      cs.getD ((k * J + j) * I + i) 0 * ((cartesian phi th 1).x ^ i * (cartesian phi th 1).y ^ j * (cartesian phi th 1).z ^ k)) := by
  rw [penna_eq cs I J K h]
  congr 1
  unfold powers
  rw [show I * J * K = K * (J * I) by ring, sum_flatMap (J * I) K _ (fun k => by rw [List.length_flatMap]; simp) (0, 0, 0) fun n t => cs.getD n 0 * mono t phi th]
  refine Finset.sum_congr rfl fun k _ => ?_
  rw [sum_flatMap I J _ (fun j => by simp) (0, 0, 0) fun n t => cs.getD (k * (J * I) + n) 0 * mono t phi th]
  refine Finset.sum_congr rfl fun j _ => Finset.sum_congr rfl fun i hi => ?_
  have hi := Finset.mem_range.1 hi
  have ei : ((List.range I).map fun i => (k, j, i)).getD i (0, 0, 0) = (k, j, i) := by
    rw [List.getD_eq_getElem _ _ (by simpa using hi), List.getElem_map, List.getElem_range]
  rw [ei]
  unfold mono cartesian
  rw [show k * (J * I) + (j * I + i) = (k * J + j) * I + i by ring]
  simp

/-- With too few coefficients the code panics. -/
theorem C75_short (cs : List ℝ) (I J K : Nat) (h : cs.length < I * J * K) (phi th : ℝ) : pennaFunc cs I J K phi th = none := by
  have key : ∀ (l : List (Nat × Nat × Nat)) (m : Nat) (a : ℝ), m ≤ cs.length → cs.length < m + l.length →
      l.foldlM (fun (st : Nat × ℝ) t => (cs[st.1]?).map fun c => (st.1 + 1, st.2 + c * Real.sin th ^ (t.2.2 + t.2.1) * Real.cos th ^ t.1 * Real.sin phi ^ t.2.1 * Real.cos phi ^ t.2.2)) (m, a) = none := by
    intro l
    induction l with
    | nil => intro m a h1 h2; simp at h2; omega
    | cons t l ih =>
      intro m a h1 h2
      rw [List.length_cons] at h2
      rw [List.foldlM_cons]
      by_cases hm : m < cs.length
      · rw [show cs[(m, a).1]? = some (cs.getD m 0) from Shellfish.Mat.getElem?_getD hm]
        simp only [Option.map_some, Option.bind_eq_bind, Option.bind_some]
        exact ih _ _ (by omega) (by omega)
      · rw [show cs[(m, a).1]? = none from List.getElem?_eq_none (by show cs.length ≤ m; omega)]
        rfl
  unfold pennaFunc
  rw [key _ 0 0 (by omega) (by rw [powers_length]; omega)]
  rfl

/-- The shell does not change with the choice of the angles of a direction. -/
theorem C75_periodic (cs : List ℝ) (I J K : Nat) (phi th phi' th' : ℝ) (h : cartesian phi th 1 = cartesian phi' th' 1) : pennaFunc cs I J K phi th = pennaFunc cs I J K phi' th' := by
  by_cases hl : I * J * K ≤ cs.length
  · rw [C75_polynomial cs I J K hl, C75_polynomial cs I J K hl, h]
  · rw [C75_short cs I J K (by omega), C75_short cs I J K (by omega)]

/-! The fit -/

theorem mapM_some {α β : Type} (f : α → Option β) (g : α → β) (l : List α) (h : ∀ x ∈ l, f x = some (g x)) : l.mapM f = some (l.map g) := by
  induction l with
  | nil => rfl
  | cons x l ih =>
    rw [List.mapM_cons, h x List.mem_cons_self, ih fun y hy => h y (List.mem_cons_of_mem _ hy)]
    rfl

theorem trig_eq {p : Sight} (h : p.offAxis) : trigOf p.point = ⟨p.r, some (cos p.theta), some (sin p.theta), some (cos p.phi), some (sin p.phi)⟩ := by
  obtain ⟨h1, h2, h3⟩ := h
  have hs := Real.sin_pos_of_pos_of_lt_pi h2 h3
  have hn := norm_cartesian p.phi p.theta h1.le
  unfold trigOf Sight.point
  dsimp only
  rw [hn]
  have ec : quot (some (cartesian p.phi p.theta p.r).z) (some p.r) = some (cos p.theta) := by
    simp only [quot, Option.bind_some, if_neg h1.ne']
    unfold cartesian
    congr 1
    field_simp
  have es : Real.sqrt (1 - cos p.theta * cos p.theta) = sin p.theta := by
    rw [show 1 - cos p.theta * cos p.theta = sin p.theta ^ 2 by linear_combination -Real.sin_sq_add_cos_sq p.theta, Real.sqrt_sq hs.le]
  rw [ec]
  simp only [Option.map_some, es, quot, Option.bind_some, if_neg h1.ne', if_neg hs.ne']
  unfold cartesian
  dsimp only
  rw [show p.r * sin p.theta * cos p.phi / p.r / sin p.theta = cos p.phi by field_simp, show p.r * sin p.theta * sin p.phi / p.r / sin p.theta = sin p.phi by field_simp]

theorem entry_eq (t : Nat × Nat × Nat) {p : Sight} (h : p.offAxis) : entry t (trigOf p.point) = some (mono t p.phi p.theta) := by
  rw [trig_eq h]
  have hp : ∀ (x : ℝ) n, powNat (some x) n = some (x ^ n) := by
    intro x n
    unfold powNat
    split_ifs with h
    · rw [h, pow_zero]
    · rfl
  unfold entry
  simp only [hp, Option.bind_eq_bind, Option.bind_some]
  congr 1
  unfold mono
  ring

/-- The matrix of the fit. -/
def design (I J K : Nat) (pts : List Sight) : Matrix (Fin (I * J * K)) (Fin pts.length) ℝ :=
  Matrix.of fun m n => mono ((powers I J K).getD m.1 (0, 0, 0)) (pts.get n).phi (pts.get n).theta

theorem flatten_get {α : Type} (f : α → List ℝ) (l : List α) (w : Nat) (hw : ∀ t ∈ l, (f t).length = w) (d : α) (y x : Nat) (hy : y < l.length) (hx : x < w) :
    (l.map f).flatten.getD (y * w + x) 0 = (f (l.getD y d)).getD x 0 := by
  induction l generalizing y with
  | nil => simp at hy
  | cons t l ih =>
    rw [List.map_cons, List.flatten_cons]
    have ht := hw t List.mem_cons_self
    cases y with
    | zero =>
      rw [Nat.zero_mul, Nat.zero_add, List.getD_append _ _ _ _ (by omega), List.getD_cons_zero]
    | succ y =>
      rw [List.getD_append_right _ _ _ _ (by rw [ht]; nlinarith), ht, show (y + 1) * w + x - w = y * w + x by rw [Nat.succ_mul]; omega,
        ih (fun t h => hw t (List.mem_cons_of_mem _ h)) y (by simpa using hy), List.getD_cons_succ]

theorem flatten_length {α : Type} (f : α → List ℝ) (l : List α) (w : Nat) (hw : ∀ t ∈ l, (f t).length = w) : (l.map f).flatten.length = w * l.length := by
  induction l with
  | nil => simp
  | cons t l ih =>
    rw [List.map_cons, List.flatten_cons, List.length_append, ih (fun t h => hw t (List.mem_cons_of_mem _ h)), hw t List.mem_cons_self, List.length_cons]
    ring

theorem vals_eq (I J K : Nat) (pts : List Sight) (h : ∀ p ∈ pts, p.offAxis) :
    pennaVals I J K ((pts.map Sight.point).map trigOf) = some (((powers I J K).map fun t => pts.map fun p => mono t p.phi p.theta).flatten) := by
  unfold pennaVals
  rw [mapM_some _ (fun t => pts.map fun p => mono t p.phi p.theta)]
  · rfl
  · intro t _
    rw [List.map_map, List.mapM_map]
    exact mapM_some _ _ _ fun p hp => entry_eq t (h p hp)

/-- What the code computes, for whatever `Inverse` leaves. -/
theorem coeffs_eq (inverse : Inverse) (I J K : Nat) (pts : List Sight) (h : ∀ p ∈ pts, p.offAxis) (hI : 0 < I * J * K) (hN : pts ≠ []) :
    ∃ cs, pennaCoeffs inverse (pts.map Sight.point) I J K = some cs ∧ cs.length = I * J * K ∧
      ∀ m : Fin (I * J * K), cs.getD m.1 0 = ∑ n : Fin pts.length, (pts.get n).r * ((design I J K pts).transpose * inverse _ (design I J K pts * (design I J K pts).transpose)) n m := by
  have hN' := List.length_pos_of_ne_nil hN
  unfold pennaCoeffs
  dsimp only
  rw [vals_eq I J K pts h]
  simp only [Option.bind_eq_bind, Option.bind_some, List.length_map]
  set vals := ((powers I J K).map fun t => pts.map fun p => mono t p.phi p.theta).flatten with hv
  have hlen : vals.length = pts.length * (I * J * K) := by rw [hv, flatten_length _ _ pts.length (by simp), powers_length]
  have hM : Shellfish.Mat.newMatrix vals pts.length (I * J * K) = some ⟨vals, pts.length, I * J * K⟩ := by
    unfold Shellfish.Mat.newMatrix
    rw [if_neg (by omega), if_neg (by omega), if_neg (by rw [hlen]; simp)]
  rw [hM, Option.bind_some]
  obtain ⟨t, ht, tw, th, _, tv⟩ := Shellfish.Mat.C41_transpose ⟨vals, pts.length, I * J * K⟩ ⟨hN', hI, hlen⟩
  rw [ht, Option.bind_some]
  dsimp only at tw th tv
  have hat : ∀ m < I * J * K, ∀ n (hn : n < pts.length), vals.getD (m * pts.length + n) 0 = mono ((powers I J K).getD m (0, 0, 0)) pts[n].phi pts[n].theta := by
    intro m hm n hn
    rw [hv, flatten_get _ _ pts.length (by simp) (0, 0, 0) m n (by rw [powers_length]; exact hm) hn, List.getD_eq_getElem _ _ (by simpa using hn), List.getElem_map]
  have hgm : dense (I * J * K) pts.length vals = design I J K pts := by
    ext m n
    exact hat m.1 m.2 n.1 n.2
  have hgt : dense pts.length (I * J * K) t.vals = (design I J K pts).transpose := by
    ext n m
    have := tv n.1 n.2 m.1 m.2
    unfold Shellfish.Mat.Matrix.at at this
    rw [tw] at this
    show t.vals.getD (n.1 * (I * J * K) + m.1) 0 = _
    rw [this]
    exact hat m.1 m.2 n.1 n.2
  unfold pinv
  dsimp only
  rw [hgm, hgt]
  set out2 := (design I J K pts).transpose * inverse _ (design I J K pts * (design I J K pts).transpose) with ho
  set vals2 := (List.finRange pts.length).flatMap fun y => (List.finRange (I * J * K)).map fun x => out2 y x with hv2
  have hv2' : vals2 = ((List.finRange pts.length).map fun y => (List.finRange (I * J * K)).map fun x => out2 y x).flatten := by rw [hv2, List.flatMap_def]
  have hlen2 : vals2.length = I * J * K * pts.length := by rw [hv2', flatten_length _ _ (I * J * K) (by simp), List.length_finRange]
  have hM2 : Shellfish.Mat.newMatrix vals2 (I * J * K) pts.length = some ⟨vals2, I * J * K, pts.length⟩ := by
    unfold Shellfish.Mat.newMatrix
    rw [if_neg (by omega), if_neg (by omega), if_neg (by rw [hlen2]; simp)]
  rw [hM2, Option.bind_some]
  obtain ⟨cs, c1, c2, c3⟩ := Shellfish.Mat.C41_vec_mult ⟨vals2, I * J * K, pts.length⟩ (((pts.map Sight.point).map trigOf).map Trig.r) (List.replicate (I * J * K) 0) ⟨hI, hN', hlen2⟩ (by simp) (by simp)
  refine ⟨cs, c1, c2, fun m => ?_⟩
  rw [c3 m.1 m.2]
  dsimp only
  rw [Finset.sum_range]
  refine Finset.sum_congr rfl fun n _ => ?_
  congr 1
  · rw [List.map_map, List.map_map, List.getD_eq_getElem _ _ (by simpa using n.2), List.getElem_map, Function.comp, Function.comp, trig_eq (h _ (List.getElem_mem _))]
    rfl
  · unfold Shellfish.Mat.Matrix.at
    dsimp only
    rw [hv2', flatten_get _ _ (I * J * K) (by simp) n n.1 m.1 (by simpa using n.2) m.2, List.getD_eq_getElem _ _ (by simpa using m.2), List.getElem_map]
    have e1 : (List.finRange pts.length).getD n.1 n = n := by rw [List.getD_eq_getElem _ _ (by simp), List.getElem_finRange]; rfl
    have e2 : (List.finRange (I * J * K))[m.1]'(by simp) = m := by rw [List.getElem_finRange]; rfl
    exact congrArg₂ out2 e1 e2

/-- The coefficients as a vector. -/
def vec (P : Nat) (c : List ℝ) : Fin P → ℝ := fun m => c.getD m.1 0

theorem shell_vec (I J K : Nat) (pts : List Sight) (c : List ℝ) (hc : c.length = I * J * K) (n : Fin pts.length) :
    pennaShell c I J K (pts.get n).phi (pts.get n).theta = Matrix.vecMul (vec _ c) (design I J K pts) n := by
  rw [shell_eq c I J K hc.ge, Finset.sum_range]
  rfl

theorem error_vec (I J K : Nat) (pts : List Sight) (c : List ℝ) (hc : c.length = I * J * K) :
    squaredError c I J K pts = ∑ n : Fin pts.length, (Matrix.vecMul (vec _ c) (design I J K pts) n - (pts.get n).r) ^ 2 := by
  unfold squaredError
  rw [← List.sum_ofFn]
  congr 1
  refine List.ext_getElem (by simp) fun i h1 h2 => ?_
  simp only [List.getElem_map, List.getElem_ofFn]
  have := shell_vec I J K pts c hc ⟨i, by simpa using h1⟩
  simp only [List.get_eq_getElem] at this ⊢
  rw [this]

theorem vec_ext {P : Nat} {c d : List ℝ} (hc : c.length = P) (hd : d.length = P) (h : vec P c = vec P d) : c = d := by
  refine List.ext_getElem (by omega) fun i h1 h2 => ?_
  have := congrFun h ⟨i, by omega⟩
  unfold vec at this
  rwa [List.getD_eq_getElem _ _ h1, List.getD_eq_getElem _ _ h2] at this

/-- The points determine the coefficients exactly when the matrix that is inverted is not singular. -/
theorem determined_iff (I J K : Nat) (pts : List Sight) : Determined I J K pts ↔ (design I J K pts * (design I J K pts).transpose).det ≠ 0 := by
  set A := design I J K pts with hA
  have zero : ∀ v : Fin (I * J * K) → ℝ, Matrix.vecMul v (A * A.transpose) = 0 ↔ Matrix.vecMul v A = 0 := by
    intro v
    constructor
    · intro h
      have h1 : dotProduct (Matrix.vecMul v A) (Matrix.vecMul v A) = 0 := by
        have h2 : dotProduct (Matrix.vecMul v (A * A.transpose)) v = 0 := by rw [h]; simp
        rw [← Matrix.vecMul_vecMul, ← Matrix.mulVec_transpose, Matrix.transpose_transpose, dotProduct_comm, Matrix.dotProduct_mulVec] at h2
        exact h2
      funext n
      have := (Finset.sum_eq_zero_iff_of_nonneg fun n _ => mul_self_nonneg (Matrix.vecMul v A n)).1 h1 n (Finset.mem_univ _)
      exact mul_self_eq_zero.1 this
    · intro h
      rw [← Matrix.vecMul_vecMul, h, Matrix.zero_vecMul]
  constructor
  · intro hd hdet
    obtain ⟨v, hv, hv0⟩ := Matrix.exists_vecMul_eq_zero_iff.2 hdet
    have h1 := (zero v).1 hv0
    apply hv
    have e : vec (I * J * K) (List.ofFn v) = v := by
      funext m
      unfold vec
      rw [List.getD_eq_getElem _ _ (by simp), List.getElem_ofFn]
    have := hd (List.ofFn v) (by simp) fun p hp => by
      obtain ⟨n, hn, rfl⟩ := List.getElem_of_mem hp
      have := shell_vec I J K pts (List.ofFn v) (by simp) ⟨n, hn⟩
      rw [e, ← hA, h1] at this
      simpa using this
    funext m
    exact this (v m) (by simp [List.mem_ofFn])
  · intro hdet c hc h0 x hx
    have h1 : Matrix.vecMul (vec _ c) A = 0 := by
      funext n
      rw [← shell_vec I J K pts c hc n]
      exact h0 _ (List.get_mem _ _)
    by_contra hne
    refine hdet (Matrix.exists_vecMul_eq_zero_iff.1 ⟨vec _ c, ?_, (zero _).2 h1⟩)
    intro hz
    obtain ⟨i, hi, rfl⟩ := List.getElem_of_mem hx
    have := congrFun hz ⟨i, by omega⟩
    unfold vec at this
    rw [List.getD_eq_getElem _ _ hi] at this
    exact hne this

/-- The fit has the least squared error along the lines of sight, and is the only one that has it, when the points determine the coefficients. -/
theorem C75_least_squares (inverse : Inverse) (hinv : inverse.Correct) (I J K : Nat) (hI : 0 < I * J * K) (pts : List Sight) (hN : pts ≠ []) (h : ∀ p ∈ pts, p.offAxis) (hd : Determined I J K pts) :
    ∃ cs, pennaCoeffs inverse (pts.map Sight.point) I J K = some cs ∧ cs.length = I * J * K ∧
      ∀ c : List ℝ, c.length = I * J * K → squaredError cs I J K pts ≤ squaredError c I J K pts ∧ (squaredError c I J K pts = squaredError cs I J K pts → c = cs) := by
  obtain ⟨cs, h1, h2, h3⟩ := coeffs_eq inverse I J K pts h hI hN
  refine ⟨cs, h1, h2, fun c hc => ?_⟩
  have hdet := (determined_iff I J K pts).1 hd
  have hiv := hinv _ _ hdet
  set A := design I J K pts with hA
  set rv : Fin pts.length → ℝ := fun n => (pts.get n).r with hr
  have hcs : vec _ cs = Matrix.vecMul rv (A.transpose * inverse _ (A * A.transpose)) := by
    funext m
    exact h3 m
  have normal : Matrix.vecMul (Matrix.vecMul (vec _ cs) A - rv) A.transpose = 0 := by
    rw [Matrix.sub_vecMul, Matrix.vecMul_vecMul, hcs, Matrix.vecMul_vecMul, Matrix.mul_assoc, hiv, Matrix.mul_one, sub_self]
  set e := Matrix.vecMul (vec _ cs) A - rv with he
  set w := Matrix.vecMul (vec _ c - vec _ cs) A with hw
  have cross : ∑ n, w n * e n = 0 := by
    have : dotProduct (Matrix.vecMul e A.transpose) (vec _ c - vec _ cs) = 0 := by rw [normal]; simp
    rw [← Matrix.mulVec_transpose, Matrix.transpose_transpose, dotProduct_comm, Matrix.dotProduct_mulVec] at this
    exact this
  have split : squaredError c I J K pts = squaredError cs I J K pts + ∑ n, w n ^ 2 := by
    rw [error_vec I J K pts c hc, error_vec I J K pts cs h2, ← hA, ← Finset.sum_add_distrib]
    have : ∀ n, (Matrix.vecMul (vec _ c) A n - (pts.get n).r) ^ 2 = (Matrix.vecMul (vec _ cs) A n - (pts.get n).r) ^ 2 + w n ^ 2 + 2 * (w n * e n) := by
      intro n
      rw [hw, he, Matrix.sub_vecMul]
      simp only [Pi.sub_apply, hr]
      ring
    rw [Finset.sum_congr rfl fun n _ => this n, Finset.sum_add_distrib, ← Finset.mul_sum, cross, mul_zero, add_zero]
  have hpos : 0 ≤ ∑ n, w n ^ 2 := Finset.sum_nonneg fun n _ => sq_nonneg _
  refine ⟨by linarith, fun heq => ?_⟩
  have hz : ∑ n, w n ^ 2 = 0 := by linarith
  have hw0 : w = 0 := by
    funext n
    have := (Finset.sum_eq_zero_iff_of_nonneg fun n _ => sq_nonneg (w n)).1 hz n (Finset.mem_univ _)
    exact pow_eq_zero_iff (two_ne_zero) |>.1 this
  refine vec_ext hc h2 ?_
  have : vec (I * J * K) c - vec (I * J * K) cs = 0 := by
    by_contra hne
    refine hdet (Matrix.exists_vecMul_eq_zero_iff.1 ⟨_, hne, ?_⟩)
    rw [← Matrix.vecMul_vecMul, ← hw, hw0, Matrix.zero_vecMul]
  exact sub_eq_zero.1 this

/-- Points on a Penna-Dines shell give back its coefficients. -/
theorem C75_recovers (inverse : Inverse) (hinv : inverse.Correct) (I J K : Nat) (hI : 0 < I * J * K) (pts : List Sight) (hN : pts ≠ []) (h : ∀ p ∈ pts, p.offAxis) (hd : Determined I J K pts)
    (c : List ℝ) (hc : c.length = I * J * K) (hon : ∀ p ∈ pts, p.r = pennaShell c I J K p.phi p.theta) : pennaCoeffs inverse (pts.map Sight.point) I J K = some c := by
  obtain ⟨cs, h1, h2, h3⟩ := C75_least_squares inverse hinv I J K hI pts hN h hd
  obtain ⟨h4, h5⟩ := h3 c hc
  have e : squaredError c I J K pts = 0 := by
    unfold squaredError
    rw [List.map_congr_left (g := fun _ => (0 : ℝ)) fun p hp => by rw [hon p hp]; ring]
    simp
  have e' : 0 ≤ squaredError cs I J K pts := List.sum_nonneg fun x hx => by
    obtain ⟨p, _, rfl⟩ := List.mem_map.1 hx
    exact sq_nonneg _
  rw [h1, h5 (by linarith)]

end
end Shellfish.Analyze
