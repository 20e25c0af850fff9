/-
C135: smoothing into slices of the caller and in place.
-/
import Verif.Model.SmoothPlace
import Verif.Props.Convolve
import Verif.Props.SavGol
import Verif.Props.SmoothProf

namespace Shellfish.Smooth

/-! ### Specification -/

/-- The stored kernels are those of earlier calls: they have as many points as their window, and a centre. -/
def StoredOk (cache : Cache ℝ) : Prop := ∀ w k kd, cache.lookup w = some (k, kd) → k.cs.length = w ∧ k.center < w ∧ kd.cs.length = w ∧ kd.center < w

/-! ### Lemmas -/

theorem getSmoothingKernel_ok (cache : Cache ℝ) (hc : StoredOk cache) (window : ℕ) (dx : ℝ) (k kd : Kernel ℝ) (cache' : Cache ℝ) (h : getSmoothingKernel cache window dx = some ((k, kd), cache')) :
    k.cs.length = window ∧ k.center < window ∧ kd.cs.length = window ∧ kd.center < window := by
  unfold getSmoothingKernel at h
  split at h
  · rename_i ks hks
    obtain ⟨rfl, rfl⟩ := Prod.mk.inj (Option.some.inj h)
    exact hc _ _ _ hks
  · simp only [Option.bind_eq_bind, Option.bind_eq_some_iff] at h
    obtain ⟨k1, h1, k2, h2, h3⟩ := h
    obtain ⟨h4, -⟩ := Prod.mk.inj (Option.some.inj h3)
    obtain ⟨rfl, rfl⟩ := Prod.mk.inj h4
    unfold newSavGolKernel savgol at h1
    unfold newSavGolDerivKernel savgol at h2
    split at h1
    · cases h1
    split at h1
    · cases h1
    rename_i hodd hwid
    rw [if_neg hodd, if_neg (by omega), if_neg hwid] at h2
    simp only [Option.map_map, Option.map_eq_some_iff] at h1 h2
    obtain ⟨lu, -, rfl⟩ := h1
    obtain ⟨lu', -, rfl⟩ := h2
    simp only [Function.comp, List.length_map, List.length_range]
    omega

theorem convolveAt_any (k : Kernel ℝ) (hk : k.center < k.cs.length) (xs : List ℝ) (hn : k.cs.length ≤ xs.length) (out : List ℝ) (ho : xs.length ≤ out.length) :
    ∃ out', k.convolveAt xs .extension out = some out' ∧ out'.length = out.length ∧
      ∀ i, out'.getD i 0 = if i < xs.length then ∑ j ∈ Finset.range k.cs.length, k.cs.getD j 0 * codeExtended .extension xs ((i : Int) + j - k.center) else out.getD i 0 := by
  set G : ℕ → ℝ := fun i => ∑ j ∈ Finset.range k.cs.length, k.cs.getD j 0 * codeExtended .extension xs ((i : Int) + j - k.center) with hG
  set nr := k.cs.length - 1 - k.center with hnr
  obtain ⟨o1, a1, a2, a3⟩ := writeLoop (fun i => tapSum k (leftTap .extension xs) i) G 0 (k.center + 1) out (le_refl _) (by omega) fun t ht => by
    exact tapSum_eq _ _ _ _ fun j hj => leftTap_eq .extension xs _ k.center (by omega) (by omega) (by omega) (by simp)
  obtain ⟨o2, b1, b2, b3⟩ := writeLoop (fun t => tapSum k (getI xs) ((k.center + 1 + t : Nat) : Int)) (fun t => G (k.center + 1 + t)) ((k.center + 1 : Nat) : Int) (xs.length - nr - (k.center + 1)) o1
    (by omega) (by rw [a2]; omega) fun t ht => by
    refine tapSum_eq _ _ _ _ fun j hj => ?_
    rw [midTap_eq .extension xs _ (by omega) (by omega)]
  obtain ⟨o3, c1, c2, c3⟩ := writeLoop (fun t => tapSum k (rightTap .extension xs) ((xs.length : Int) - nr + t)) (fun t => G (xs.length - nr + t)) ((xs.length : Int) - nr) nr o2
    (by omega) (by rw [b2, a2]; omega) fun t ht => by
    refine tapSum_eq _ _ _ _ fun j hj => ?_
    rw [rightTap_eq .extension xs _ (by omega) (by omega)]
    congr 2; push_cast [Nat.cast_sub (show nr ≤ xs.length by omega)]; ring
  refine ⟨o3, ?_, by rw [c2, b2, a2], fun i => ?_⟩
  · unfold Kernel.convolveAt
    simp only [zero_add] at a1
    simp only [Nat.cast_add, Option.bind_eq_bind] at a1 b1 c1 ⊢
    rw [a1, Option.bind_some, b1, Option.bind_some]
    exact c1
  · rw [c3, b3, a3]
    by_cases hi : i < xs.length
    · rw [if_pos hi]
      split
      · congr 1; omega
      · split
        · congr 1; omega
        · rw [if_pos (by omega)]; congr 1
    · rw [if_neg hi, if_neg (by omega), if_neg (by omega), if_neg (by omega)]

/-- The slice that is written to holds the convolution, and what it held before beyond the end of the profile. -/
theorem convolveAt_split (k : Kernel ℝ) (hk : k.center < k.cs.length) (xs : List ℝ) (hn : k.cs.length ≤ xs.length) (out : List ℝ) (ho : xs.length ≤ out.length) :
    ∃ res, k.convolve xs .extension = some res ∧ res.length = xs.length ∧ k.convolveAt xs .extension out = some (res ++ out.drop xs.length) := by
  obtain ⟨res, h1, h2, h3⟩ := convolveAt_any k hk xs hn (List.replicate xs.length 0) (by simp)
  obtain ⟨out', g1, g2, g3⟩ := convolveAt_any k hk xs hn out ho
  rw [List.length_replicate] at h2
  refine ⟨res, h1, h2, ?_⟩
  rw [g1]
  congr 1
  refine List.ext_getElem (by rw [List.length_append, List.length_drop, g2, h2]; omega) fun i hi hi' => ?_
  have e := g3 i
  rw [List.getD_eq_getElem _ _ hi] at e
  rw [e]
  by_cases hlt : i < xs.length
  · have f := h3 i
    rw [if_pos hlt, List.getD_eq_getElem _ _ (by omega)] at f
    rw [if_pos hlt, List.getElem_append_left (by omega), f]
  · rw [if_neg hlt, List.getElem_append_right (by omega), List.getElem_drop, List.getD_eq_getElem _ _ (by omega)]
    congr 1
    omega

/-- A loop that leaves everything as it is. -/
theorem loop_fixed {α β : Type} (f : β → α → Option β) (x : β) : ∀ l : List α, (∀ a ∈ l, f x a = some x) → l.foldlM f x = some x
  | [], _ => rfl
  | a :: l, h => by
    rw [List.foldlM_cons, h a (List.mem_cons_self ..)]
    exact loop_fixed f x l fun b hb => h b (List.mem_cons_of_mem _ hb)

theorem getI_replicate (n : ℕ) (c : ℝ) (i : ℤ) (h0 : 0 ≤ i) (h : i < n) : getI (List.replicate n c) i = some c := by
  rw [getI_eq _ _ h0 (by simpa using h), List.getD_eq_getElem _ _ (by simp; omega), List.getElem_replicate]

theorem tapSum_constant (k : Kernel ℝ) (hs : ∑ j ∈ Finset.range k.cs.length, k.cs.getD j 0 = 1) (tap : ℤ → Option ℝ) (c : ℝ) (i : ℤ) (h : ∀ j < k.cs.length, tap (i + j - k.center) = some c) : tapSum k tap i = some c := by
  rw [tapSum_eq k tap i (fun _ => c) h, ← Finset.sum_mul, hs, one_mul]

theorem write_replicate (n : ℕ) (c : ℝ) (i : ℤ) (h0 : 0 ≤ i) (h : i < n) : write (List.replicate n c) i c = some (List.replicate n c) := by
  unfold write
  rw [if_pos ⟨h0, by simpa using h⟩]
  congr 1
  refine List.ext_getElem (by simp) fun m hm hm' => ?_
  rw [List.getElem_set]
  split <;> simp

theorem convolveSame_constant (k : Kernel ℝ) (hk : k.center < k.cs.length) (hs : ∑ j ∈ Finset.range k.cs.length, k.cs.getD j 0 = 1) (n : ℕ) (hn : k.cs.length ≤ n) (c : ℝ) :
    k.convolveSame .extension (List.replicate n c) = some (List.replicate n c) := by
  unfold Kernel.convolveSame
  simp only [List.length_replicate]
  rw [loop_fixed _ (List.replicate n c) (List.range (k.center + 1))]
  · simp only [Option.bind_eq_bind, Option.bind_some]
    rw [loop_fixed _ (List.replicate n c)]
    · rw [Option.bind_some]
      apply loop_fixed
      intro t ht
      rw [List.mem_range] at ht
      rw [tapSum_constant k hs _ c, Option.bind_some]
      · exact write_replicate n c _ (by omega) (by omega)
      · intro j hj
        unfold rightTap
        rw [List.length_replicate]
        split
        · exact getI_replicate n c _ (by omega) (by omega)
        · exact getI_replicate n c _ (by omega) (by omega)
    · intro t ht
      rw [List.mem_range] at ht
      rw [tapSum_constant k hs _ c, Option.bind_some]
      · exact write_replicate n c _ (by omega) (by omega)
      · intro j hj
        exact getI_replicate n c _ (by omega) (by omega)
  · intro i hi
    rw [List.mem_range] at hi
    rw [tapSum_constant k hs _ c, Option.bind_some]
    · exact write_replicate n c _ (by omega) (by omega)
    · intro j hj
      unfold leftTap
      split
      · exact getI_replicate n c _ (by omega) (by omega)
      · exact getI_replicate n c _ (by omega) (by omega)

/-! ### The theorems -/

/-- C135 (partial: slices that share no memory): with slices of the caller that are at least as long as the profile, whatever they hold, `Smooth` returns what it returns without them, in the first places of the slices; behind them the slopes are as they were
and the values are the exponentials of what was there. -/
theorem C135_own_partial (cache : Cache ℝ) (hc : StoredOk cache) (xs ys : List ℝ) (window : ℕ) (v d : List ℝ) (hv : ys.length ≤ v.length) (hd : ys.length ≤ d.length) (vals derivs ys' : List ℝ) (cache' : Cache ℝ)
    (h : smooth cache xs ys window = .ok vals derivs ys' cache') :
    smoothInto cache xs ys window (.own v d) = .ok (vals ++ (v.drop ys.length).map Real.exp) (derivs ++ d.drop ys.length) ys' cache' ∧ vals.length = ys.length ∧ derivs.length = ys.length := by
  unfold smooth at h
  unfold smoothInto
  split at h
  · cases h
  rename_i hlen
  split at h
  · cases h
  rename_i hwin
  rw [if_neg hlen, if_neg hwin]
  dsimp only at h ⊢
  cases hk : getSmoothingKernel cache window (Real.log (xs.getD 1 0) - Real.log (xs.getD 0 0)) with
  | none => rw [hk] at h; cases h
  | some r =>
    obtain ⟨⟨k, kd⟩, c'⟩ := r
    rw [hk] at h
    obtain ⟨k1, k2, k3, k4⟩ := getSmoothingKernel_ok cache hc window _ k kd c' hk
    have hl : (ys.map Real.log).length = ys.length := List.length_map ..
    rw [not_not] at hlen
    obtain ⟨r1, a1, a2, a3⟩ := convolveAt_split k (by omega) (ys.map Real.log) (by omega) v (by omega)
    obtain ⟨r2, b1, b2, b3⟩ := convolveAt_split kd (by omega) (ys.map Real.log) (by omega) d (by omega)
    simp only [a1, b1, SmoothResult.ok.injEq] at h
    obtain ⟨rfl, rfl, rfl, rfl⟩ := h
    refine ⟨?_, by rw [List.length_map, a2, hl], by rw [b2, hl]⟩
    simp only [smoothLoops, a3, b3, Option.bind_eq_bind, Option.bind_some, List.map_append, hl]

/-- What is not true: that the smoothing can be done in place.  With `Vals(ys)` a constant profile of density `c` comes back as the constant `exp c`, for every `c`, every window and every length. -/
theorem C135_in_place_false (cache : Cache ℝ) (xs : List ℝ) (n window : ℕ) (hfresh : cache.lookup window = none) (hodd : window % 2 = 1) (hw : 4 < window) (hx : xs.length = n) (hn : window < n) (c : ℝ) (hc : 0 < c) (d : List ℝ) (hd : d.length = n)
    (hdx : Real.log (xs.getD 1 0) - Real.log (xs.getD 0 0) ≠ 0) :
    ∃ derivs cache', smoothInto cache xs (List.replicate n c) window (.inPlace d) = .ok (List.replicate n (Real.exp c)) derivs (List.replicate n (Real.exp c)) cache' ∧ Real.exp c ≠ c := by
  have hk := C66_savgol (K := ℝ) 4 window
  rw [if_pos ⟨hodd, hw⟩] at hk
  obtain ⟨k, hk, k1, k2, k3⟩ := hk
  obtain ⟨kd, hkd, -⟩ := C66_first_derivative _ hdx 4 window (by omega) hodd hw
  have hs : ∑ j ∈ Finset.range k.cs.length, k.cs.getD j 0 = 1 := by
    have := k3 1 (by simp) 0 0
    rw [k2]
    simpa using this
  have hg : getSmoothingKernel cache window (Real.log (xs.getD 1 0) - Real.log (xs.getD 0 0)) = some ((k, kd), (window, k, kd) :: cache) := by
    unfold getSmoothingKernel
    rw [hfresh, hk, hkd]
    rfl
  have hkd2 : kd.cs.length = window ∧ kd.center < window := by
    unfold newSavGolDerivKernel savgol at hkd
    rw [if_neg (by omega), if_neg (by omega), if_neg (by omega)] at hkd
    simp only [Option.map_map, Option.map_eq_some_iff] at hkd
    obtain ⟨lu', -, rfl⟩ := hkd
    simp only [Function.comp, List.length_map, List.length_range]
    omega
  obtain ⟨r2, b1, b2, b3⟩ := convolveAt_split kd (by omega) (List.replicate n (Real.log c)) (by simp; omega) d (by simp; omega)
  refine ⟨r2 ++ d.drop n, (window, k, kd) :: cache, ?_, ?_⟩
  · unfold smoothInto
    rw [if_neg (by simp [hx]), if_neg (by omega)]
    dsimp only
    rw [hg]
    simp only [smoothLoops, List.map_replicate]
    rw [convolveSame_constant k (by omega) hs n (by omega), Option.bind_eq_bind, Option.bind_some, b3]
    simp only [Option.bind_eq_bind, Option.bind_some, List.map_replicate, Real.exp_log hc, List.length_replicate]
  · have := Real.add_one_lt_exp hc.ne'
    intro h
    rw [h] at this
    linarith

/-- What is not true either: with `Derivs(ys)` all reported slopes are positive, whatever the profile is, so that no splashback radius is found for a limit that is not positive. -/
theorem C135_slopes_false (cache : Cache ℝ) (xs ys : List ℝ) (window : ℕ) (v : List ℝ) (vals derivs ys' : List ℝ) (cache' : Cache ℝ) (h : smoothInto cache xs ys window (.slopesInPlace v) = .ok vals derivs ys' cache')
    (dLim : ℝ) (hlim : dLim ≤ 0) : (∀ s ∈ derivs, 0 < s) ∧ ∀ r, splashbackRadius xs vals derivs dLim ≠ some (some r) := by
  have hpos : ∀ s ∈ derivs, 0 < s := by
    unfold smoothInto at h
    split at h
    · cases h
    split at h
    · cases h
    dsimp only at h
    split at h
    · cases h
    split at h
    · rename_i heq
      simp only [smoothLoops, Option.bind_eq_bind, Option.bind_eq_some_iff] at heq
      obtain ⟨a, -, b, -, e⟩ := heq
      simp only [Option.some.injEq, Prod.mk.injEq] at e
      simp only [SmoothResult.ok.injEq] at h
      obtain ⟨-, rfl, -⟩ := h
      obtain ⟨-, rfl, -⟩ := e
      intro s hs
      obtain ⟨x, -, rfl⟩ := List.mem_map.mp hs
      exact Real.exp_pos x
    · cases h
  refine ⟨hpos, fun r hr => ?_⟩
  by_cases hl : vals.length = derivs.length
  swap
  · rw [C43_lengths _ _ _ _ hl] at hr
    cases hr
  unfold splashbackRadius at hr
  rw [if_neg (by simpa using hl)] at hr
  cases hh : vals.head? with
  | none => rw [hh] at hr; cases hr
  | some rho0 =>
    rw [hh] at hr
    dsimp only at hr
    have key : ∀ (l : List ℕ) (st st' : ℝ × ℝ × Option ℕ), st.2 = (dLim, none) → l.foldlM (fun st t => splashStep vals derivs st (t + 1)) st = some st' → st'.2 = (dLim, none) := by
      intro l
      induction l with
      | nil => intro st st' h0 h1; rw [List.foldlM_nil] at h1; cases h1; exact h0
      | cons t l ih =>
        intro st st' h0 h1
        rw [List.foldlM_cons] at h1
        simp only [Option.bind_eq_bind, Option.bind_eq_some_iff] at h1
        obtain ⟨s1, h2, h3⟩ := h1
        refine ih s1 st' ?_ h3
        unfold splashStep at h2
        simp only [Option.bind_eq_bind, Option.bind_eq_some_iff] at h2
        obtain ⟨rho, -, h2⟩ := h2
        split at h2
        · simp only [Option.bind_eq_some_iff] at h2
          obtain ⟨m, -, h2⟩ := h2
          split at h2
          · simp only [Option.bind_eq_some_iff] at h2
            obtain ⟨dd, hdd, h2⟩ := h2
            have := hpos dd (List.mem_of_getElem? hdd)
            rw [if_neg (by rw [h0]; simp only; linarith)] at h2
            cases h2
            exact h0
          · cases h2
            exact h0
        · cases h2
          exact h0
    simp only [Option.bind_eq_bind, Option.bind_eq_some_iff] at hr
    obtain ⟨st, h1, h2⟩ := hr
    rw [key _ _ _ rfl h1] at h2
    cases h2

/-- What is not true either: with one slice for both results the values and the slopes are the same numbers. -/
theorem C135_both_false (cache : Cache ℝ) (xs ys : List ℝ) (window : ℕ) (v : List ℝ) (vals derivs ys' : List ℝ) (cache' : Cache ℝ) (h : smoothInto cache xs ys window (.both v) = .ok vals derivs ys' cache') : vals = derivs ∧ ∀ s ∈ derivs, 0 < s := by
  unfold smoothInto at h
  split at h
  · cases h
  split at h
  · cases h
  dsimp only at h
  split at h
  · cases h
  split at h
  · rename_i heq
    simp only [smoothLoops, Option.bind_eq_bind, Option.bind_eq_some_iff] at heq
    obtain ⟨a, -, b, -, e⟩ := heq
    simp only [Option.some.injEq, Prod.mk.injEq] at e
    simp only [SmoothResult.ok.injEq] at h
    obtain ⟨rfl, rfl, -⟩ := h
    obtain ⟨rfl, rfl, -⟩ := e
    refine ⟨rfl, fun s hs => ?_⟩
    obtain ⟨x, -, rfl⟩ := List.mem_map.mp hs
    exact Real.exp_pos x
  · cases h

/-- C135: the stored kernels are as assumed in every history of calls: at the start, and after every call. -/
theorem C135_stored : StoredOk [] ∧ ∀ (cache : Cache ℝ), StoredOk cache → ∀ (window : ℕ) (dx : ℝ) (ks : Kernel ℝ × Kernel ℝ) (cache' : Cache ℝ), getSmoothingKernel cache window dx = some (ks, cache') → StoredOk cache' := by
  refine ⟨fun w k kd h => by simp at h, fun cache hc window dx ks cache' h => ?_⟩
  obtain ⟨k, kd⟩ := ks
  have hok := getSmoothingKernel_ok cache hc window dx k kd cache' h
  unfold getSmoothingKernel at h
  split at h
  · cases h
    exact hc
  · simp only [Option.bind_eq_bind, Option.bind_eq_some_iff] at h
    obtain ⟨k1, h1, k2, h2, h3⟩ := h
    obtain ⟨h4, h5⟩ := Prod.mk.inj (Option.some.inj h3)
    obtain ⟨rfl, rfl⟩ := Prod.mk.inj h4
    subst h5
    intro w a b hab
    rw [List.lookup_cons] at hab
    split at hab
    · rename_i hw
      have : w = window := by simpa using hw
      subst this
      obtain ⟨rfl, rfl⟩ := Prod.mk.inj (Option.some.inj hab)
      exact hok
    · exact hc w a b hab

/-! ### Examples -/

/-- A loop that keeps a property does not panic. -/
theorem loop_some {α β : Type} (P : β → Prop) (f : β → α → Option β) : ∀ (l : List α) (x : β), P x → (∀ y, P y → ∀ a ∈ l, ∃ z, f y a = some z ∧ P z) → ∃ z, l.foldlM f x = some z ∧ P z
  | [], x, hx, _ => ⟨x, rfl, hx⟩
  | a :: l, x, hx, h => by
    obtain ⟨y, h1, h2⟩ := h x hx a (List.mem_cons_self ..)
    rw [List.foldlM_cons, h1]
    exact loop_some P f l y h2 fun z hz b hb => h z hz b (List.mem_cons_of_mem _ hb)

theorem write_some (xs : List ℝ) (i : ℤ) (v : ℝ) (h0 : 0 ≤ i) (h : i < xs.length) : ∃ z, write xs i v = some z ∧ z.length = xs.length := by
  unfold write
  rw [if_pos ⟨h0, h⟩]
  exact ⟨_, rfl, by simp⟩

theorem convolveSame_some (k : Kernel ℝ) (hk : k.center < k.cs.length) (xs : List ℝ) (hn : k.cs.length ≤ xs.length) : ∃ out, k.convolveSame .extension xs = some out ∧ out.length = xs.length := by
  unfold Kernel.convolveSame
  dsimp only
  obtain ⟨x1, a1, a2⟩ := loop_some (fun y : List ℝ => y.length = xs.length) (fun xs (i : Nat) => (tapSum k (leftTap .extension xs) i).bind (write xs i)) (List.range (k.center + 1)) xs rfl (by
    intro y hy i hi
    rw [List.mem_range] at hi
    rw [tapSum_eq k _ _ (fun j => codeExtended .extension y ((i : ℤ) + j - k.center)) fun j hj => leftTap_eq .extension y _ k.center (by omega) (by omega) (by omega) (by simp), Option.bind_some]
    obtain ⟨z, z1, z2⟩ := write_some y i _ (by omega) (by omega)
    exact ⟨z, z1, by rw [z2, hy]⟩)
  rw [a1]
  simp only [Option.bind_eq_bind, Option.bind_some]
  obtain ⟨x2, b1, b2⟩ := loop_some (fun y : List ℝ => y.length = xs.length) (fun xs (t : Nat) => (tapSum k (getI xs) ((k.center + 1 + t : Nat) : Int)).bind (write xs ((k.center + 1 + t : Nat) : Int)))
    (List.range (xs.length - (k.cs.length - 1 - k.center) - (k.center + 1))) x1 a2 (by
    intro y hy i hi
    rw [List.mem_range] at hi
    rw [tapSum_eq k _ _ (fun j => codeExtended .extension y (((k.center + 1 + i : ℕ) : ℤ) + j - k.center)) fun j hj => midTap_eq .extension y _ (by omega) (by omega), Option.bind_some]
    obtain ⟨z, z1, z2⟩ := write_some y ((k.center + 1 + i : ℕ) : ℤ) _ (by omega) (by omega)
    exact ⟨z, z1, by rw [z2, hy]⟩)
  rw [b1, Option.bind_some]
  refine loop_some (fun y : List ℝ => y.length = xs.length) _ _ x2 b2 ?_
  intro y hy i hi
  rw [List.mem_range] at hi
  rw [tapSum_eq k _ _ (fun j => codeExtended .extension y (((xs.length : ℤ) - (k.cs.length - 1 - k.center : ℕ) + i) + j - k.center)) fun j hj => rightTap_eq .extension y _ (by omega) (by omega), Option.bind_some]
  obtain ⟨z, z1, z2⟩ := write_some y ((xs.length : ℤ) - (k.cs.length - 1 - k.center : ℕ) + i) _ (by omega) (by omega)
  exact ⟨z, z1, by rw [z2, hy]⟩

/-- Ten radii with logarithmic spacing 2 and a power law. -/
noncomputable def gridE : List ℝ := (List.range 10).map fun (i : Nat) => Real.exp (0 + i * 2)
noncomputable def powerE : List ℝ := (List.range 10).map fun (i : Nat) => 5 * Real.exp (0 + i * 2) ^ (-3 : ℝ)

theorem gridE_step : Real.log (gridE.getD 1 0) - Real.log (gridE.getD 0 0) = 2 := by
  unfold gridE
  rw [getD_map_range _ _ _ (by norm_num), getD_map_range _ _ _ (by norm_num), Real.log_exp, Real.log_exp]
  norm_num

/-- A power law is smoothed into slices of the caller with twelve places, which hold other numbers. -/
example : ∃ vals derivs cache', smoothInto [] gridE powerE 5 (.own (List.replicate 12 7) (List.replicate 12 8)) = .ok (vals ++ [Real.exp 7, Real.exp 7]) (derivs ++ [8, 8]) powerE cache' ∧ vals.getD 4 0 = powerE.getD 4 0 ∧ derivs.getD 4 0 = -3 := by
  obtain ⟨vals, derivs, cache', h1, h2⟩ := C67_power_law [] gridE powerE 5 2 5 (-3) (by norm_num) (by norm_num) (by norm_num) (by simp [gridE]) (by norm_num)
    ⟨0, fun i hi => by unfold gridE; rw [getD_map_range _ _ _ (by simpa [gridE] using hi)]⟩
    ⟨by simp [gridE, powerE], fun i hi => by unfold powerE gridE; rw [getD_map_range _ _ _ (by simpa [gridE] using hi), getD_map_range _ _ _ (by simpa [gridE] using hi)]⟩ rfl
  obtain ⟨h3, -, -⟩ := C135_own_partial [] C135_stored.1 gridE powerE 5 (List.replicate 12 7) (List.replicate 12 8) (by simp [powerE]) (by simp [powerE]) vals derivs powerE cache' h1
  refine ⟨vals, derivs, cache', ?_, h2 4 (by norm_num) (by simp [gridE])⟩
  rw [h3]
  simp [powerE, List.replicate]

/-- Ten densities of 1 come back as ten times 2.718. -/
example : ∃ derivs cache', smoothInto [] gridE (List.replicate 10 1) 5 (.inPlace (List.replicate 10 0)) = .ok (List.replicate 10 (Real.exp 1)) derivs (List.replicate 10 (Real.exp 1)) cache' := by
  obtain ⟨derivs, cache', h, -⟩ := C135_in_place_false [] gridE 10 5 rfl (by norm_num) (by norm_num) (by simp [gridE]) (by norm_num) 1 (by norm_num) (List.replicate 10 0) (by simp) (by rw [gridE_step]; norm_num)
  exact ⟨derivs, cache', h⟩

/-- The call with `Derivs(ys)` returns; its slopes are positive although the profile falls with the third power. -/
example : ∃ vals derivs ys' cache', smoothInto [] gridE powerE 5 (.slopesInPlace (List.replicate 10 0)) = .ok vals derivs ys' cache' ∧ ∀ s ∈ derivs, 0 < s := by
  have hk := C66_savgol (K := ℝ) 4 5
  rw [if_pos (by norm_num)] at hk
  obtain ⟨k, hk, -⟩ := hk
  obtain ⟨kd, hkd, -⟩ := C66_first_derivative (2 : ℝ) (by norm_num) 4 5 (by omega) (by norm_num) (by norm_num)
  have hg : getSmoothingKernel [] 5 (Real.log (gridE.getD 1 0) - Real.log (gridE.getD 0 0)) = some ((k, kd), [(5, k, kd)]) := by
    unfold getSmoothingKernel
    rw [gridE_step, hk, hkd]
    rfl
  obtain ⟨k1, k2, k3, k4⟩ := getSmoothingKernel_ok [] C135_stored.1 5 _ k kd _ hg
  have hl : (powerE.map Real.log).length = 10 := by simp [powerE]
  obtain ⟨r, -, -, a⟩ := convolveAt_split k (by omega) (powerE.map Real.log) (by omega) (List.replicate 10 0) (by simp [powerE])
  obtain ⟨o, b, -⟩ := convolveSame_some kd (by omega) (powerE.map Real.log) (by omega)
  have h : smoothInto [] gridE powerE 5 (.slopesInPlace (List.replicate 10 0)) = .ok ((r ++ (List.replicate 10 0).drop (powerE.map Real.log).length).map Real.exp) (o.map Real.exp) (o.map Real.exp) [(5, k, kd)] := by
    unfold smoothInto
    rw [if_neg (by simp [gridE, powerE]), if_neg (by simp [gridE])]
    dsimp only
    rw [hg]
    simp only [smoothLoops, a, b, Option.bind_eq_bind, Option.bind_some]
  exact ⟨_, _, _, _, h, (C135_slopes_false [] gridE powerE 5 _ _ _ _ _ h 0 le_rfl).1⟩

end Shellfish.Smooth
