/-
C99: the buffers and kernels that the shell mode keeps from halo to halo have no influence on its output.
-/
import Verif.Model.ShellFull
import Verif.Props.ShellRunMore
import Verif.Props.RingBuf

namespace Shellfish.ShellRun
open Shellfish.Geom (Vec dot)
open Shellfish.Los
open Shellfish.Kde
open Shellfish.Smooth (Cache smooth getSmoothingKernel)
open Shellfish.Cmd (GoMap binBySnap sortedSnaps rowsOf)

/-! ### Specification -/

/-- The coefficients of a halo when nothing was analysed before it: fresh buffers, no stored kernels. -/
noncomputable def fitAlone (inverse : Analyze.Inverse) (cfg : Config) (fc : FitConfig) (h : Halo) : Option (List ℝ) := (fitHalo inverse fc (Kept.start cfg) h).map Prod.fst

/-- All results, if none of them is missing. -/
def allOf {β : Type} (l : List (Option β)) : Option (List β) := l.mapM id

/-! ### The kernels -/

/-- The step of the logarithmic radii of a halo of the configuration. -/
noncomputable def Config.dlr (cfg : Config) : ℝ := (Real.log cfg.rMaxMult - Real.log cfg.rMinMult) / (cfg.radialBins : ℝ)

/-- A halo that `createHalos` makes. -/
def OfConfig (cfg : Config) (h : Halo) : Prop := h.bins = cfg.radialBins ∧ ∃ r : ℝ, 0 < r ∧ h.rMin = r * cfg.rMinMult ∧ h.rMax = r * cfg.rMaxMult

theorem getRs_log (cfg : Config) (hc : cfg.Ok) (h : Halo) (ho : OfConfig cfg h) (xs : List ℝ) (hx : getRs h cfg.radialBins = some xs) (h2 : 2 ≤ cfg.radialBins) :
    Real.log (xs.getD 1 0) - Real.log (xs.getD 0 0) = cfg.dlr := by
  obtain ⟨hb, r, hr, e1, e2⟩ := ho
  unfold getRs at hx
  rw [if_neg (by rw [hb]; simp)] at hx
  cases hx
  have h1 := hc.rmin
  have h3 : 0 < cfg.rMaxMult := h1.trans hc.rmax
  rw [List.getD_eq_getElem _ _ (by simp; omega), List.getD_eq_getElem _ _ (by simp; omega)]
  simp only [List.getElem_map, List.getElem_range, Real.log_exp]
  rw [e1, e2, Real.log_mul hr.ne' h3.ne', Real.log_mul hr.ne' h1.ne', hb]
  unfold Config.dlr
  push_cast
  ring

/-- Two stores of kernels that were filled with the same step give the same smoothed profile. -/
theorem smooth_kept (c : Cache ℝ) (dx : ℝ) (xs ys : List ℝ) (w : Nat) (hc : CacheOk [] w dx c) (hx : 2 ≤ xs.length → Real.log (xs.getD 1 0) - Real.log (xs.getD 0 0) = dx) :
    smooth c xs ys w = smooth [] xs ys w := by
  by_cases h2 : 2 ≤ xs.length
  · rw [← hx h2] at hc
    rcases smooth_same [] c xs ys w hc with ⟨a, b⟩ | ⟨a, b⟩ | ⟨_, _, _, _, a, b⟩ <;> rw [a, b]
  · unfold smooth
    by_cases h1 : xs.length ≠ ys.length
    · rw [if_pos h1, if_pos h1]
    · rw [if_neg h1, if_neg h1]
      by_cases h3 : xs.length ≤ w
      · rw [if_pos h3, if_pos h3]
      · have hw : w = 0 := by omega
        subst hw
        have : ∀ d : ℝ, getSmoothingKernel ([] : Cache ℝ) 0 d = none := fun d => rfl
        rcases hc with rfl | ⟨ks, hk⟩
        · rfl
        · rw [this] at hk; cases hk

theorem smooth_store (c : Cache ℝ) (dx : ℝ) (xs ys : List ℝ) (w : Nat) (hc : CacheOk [] w dx c) (hx : 2 ≤ xs.length → Real.log (xs.getD 1 0) - Real.log (xs.getD 0 0) = dx) (vals derivs ys1 : List ℝ)
    (c1 : Cache ℝ) (h : smooth c xs ys w = .ok vals derivs ys1 c1) : CacheOk [] w dx c1 := by
  rw [smooth_kept c dx xs ys w hc hx] at h
  by_cases h2 : 2 ≤ xs.length
  · rw [← hx h2]; exact Or.inr (smooth_cache _ _ _ _ _ _ _ _ h)
  · exfalso
    unfold smooth at h
    by_cases h1 : xs.length ≠ ys.length
    · rw [if_pos h1] at h; cases h
    · rw [if_neg h1] at h
      by_cases h3 : xs.length ≤ w
      · rw [if_pos h3] at h; cases h
      · have hw : w = 0 := by omega
        subst hw
        rw [if_neg h3] at h
        cases h

/-! ### One halo -/

/-- The same buffer, and stores of kernels of the same step. -/
def Sim (w : Nat) (dx : ℝ) (a b : RingBuffer × Cache ℝ) : Prop := a.1 = b.1 ∧ CacheOk [] w dx a.2 ∧ CacheOk [] w dx b.2

/-- Both fail, or both succeed with related results. -/
def SimO {α β : Type} (R : α → β → Prop) (a : Option α) (b : Option β) : Prop := (a = none ∧ b = none) ∨ ∃ x y, a = some x ∧ b = some y ∧ R x y

theorem SimO.bind {α β γ δ : Type} {R : α → β → Prop} {T : γ → δ → Prop} {a : Option α} {b : Option β} {f : α → Option γ} {g : β → Option δ} (h : SimO R a b) (hf : ∀ x y, R x y → SimO T (f x) (g y)) :
    SimO T (a.bind f) (b.bind g) := by
  rcases h with ⟨rfl, rfl⟩ | ⟨x, y, rfl, rfl, hr⟩
  · exact Or.inl ⟨rfl, rfl⟩
  · exact hf x y hr

theorem SimO.foldlM {ι α β : Type} {R : α → β → Prop} (f : α → ι → Option α) (g : β → ι → Option β) : ∀ (l : List ι) (x : α) (y : β), R x y → (∀ x y, R x y → ∀ i ∈ l, SimO R (f x i) (g y i)) →
    SimO R (l.foldlM f x) (l.foldlM g y)
  | [], x, y, h, _ => Or.inr ⟨x, y, rfl, rfl, h⟩
  | i :: l, x, y, h, hf => by
    rw [List.foldlM_cons, List.foldlM_cons]
    exact SimO.bind (hf x y h i (by simp)) fun x' y' h' => SimO.foldlM f g l x' y' h' fun x y h i hi => hf x y h i (by simp [hi])

theorem splashLine_sim (h : Halo) (ring w : Nat) (dLim dx : ℝ) (xs : List ℝ) (hx : 2 ≤ xs.length → Real.log (xs.getD 1 0) - Real.log (xs.getD 0 0) = dx) (a b : RingBuffer × Cache ℝ) (hs : Sim w dx a b)
    (i : Nat) : SimO (Sim w dx) (splashLine h ring w dLim xs a i) (splashLine h ring w dLim xs b i) := by
  obtain ⟨r, c⟩ := a
  obtain ⟨r', c'⟩ := b
  obtain ⟨e, h1, h2⟩ := hs
  dsimp only at e h1 h2
  subst e
  unfold splashLine
  dsimp only
  cases hr : h.getRhos ring i (List.replicate r.bins 0) with
  | none => exact Or.inl ⟨rfl, rfl⟩
  | some rhos =>
    simp only [Option.bind_eq_bind, Option.bind_some]
    have e : smooth c xs rhos w = smooth c' xs rhos w := (smooth_kept c dx xs rhos w h1 hx).trans (smooth_kept c' dx xs rhos w h2 hx).symm
    cases hsm : smooth c' xs rhos w with
    | panic => rw [e, hsm]; exact Or.inl ⟨rfl, rfl⟩
    | notOk => rw [e, hsm]; exact Or.inr ⟨_, _, rfl, rfl, rfl, h1, h2⟩
    | ok vals derivs ys1 c1 =>
      have hc1 := smooth_store c' dx xs rhos w h2 hx vals derivs ys1 c1 hsm
      rw [e, hsm]
      dsimp only
      cases Smooth.splashbackRadius xs vals derivs dLim with
      | none => exact Or.inl ⟨rfl, rfl⟩
      | some res =>
        simp only [Option.bind_some]
        cases res with
        | none => exact Or.inr ⟨_, _, rfl, rfl, rfl, hc1, hc1⟩
        | some R =>
          dsimp only
          cases h.ringPhis[i]? with
          | none => exact Or.inl ⟨rfl, rfl⟩
          | some phi =>
            simp only [Option.bind_some]
            cases h.lineDir ring i with
            | none => exact Or.inl ⟨rfl, rfl⟩
            | some dir => exact Or.inr ⟨_, _, rfl, rfl, rfl, hc1, hc1⟩

theorem splashback_sim (cfg : Config) (hc : cfg.Ok) (h : Halo) (ho : OfConfig cfg h) (r : RingBuffer) (hr : r.bins = cfg.radialBins) (ring w : Nat) (dLim : ℝ) (c c' : Cache ℝ)
    (h1 : CacheOk [] w cfg.dlr c) (h2 : CacheOk [] w cfg.dlr c') : SimO (Sim w cfg.dlr) (r.splashback c h ring w dLim) (r.splashback c' h ring w dLim) := by
  unfold RingBuffer.splashback
  rw [hr]
  cases hx : getRs h cfg.radialBins with
  | none => exact Or.inl ⟨rfl, rfl⟩
  | some xs =>
    simp only [Option.bind_eq_bind, Option.bind_some]
    have hlen : xs.length = cfg.radialBins := by
      unfold getRs at hx
      rw [if_neg (by rw [ho.1]; simp)] at hx
      cases hx; simp
    refine SimO.foldlM _ _ _ _ _ ⟨rfl, h1, h2⟩ fun x y hxy i _ => splashLine_sim h ring w dLim cfg.dlr xs (fun h2 => getRs_log cfg hc h ho xs hx (by omega)) x y hxy i

theorem splashLine_sized (h : Halo) (ring w : Nat) (dLim : ℝ) (xs : List ℝ) (a b : RingBuffer × Cache ℝ) (i : Nat) (hs : a.1.Sized) (hab : splashLine h ring w dLim xs a i = some b) :
    b.1.Sized ∧ b.1.n = a.1.n ∧ b.1.bins = a.1.bins := by
  obtain ⟨h1, h2, h3, h4, h5, h6, h7, h8⟩ := hs
  unfold splashLine at hab
  dsimp only at hab
  cases hr : h.getRhos ring i (List.replicate a.1.bins 0) with
  | none => rw [hr] at hab; cases hab
  | some rhos =>
    rw [hr] at hab
    simp only [Option.bind_eq_bind, Option.bind_some] at hab
    cases hsm : smooth a.2 xs rhos w with
    | panic => rw [hsm] at hab; cases hab
    | notOk => rw [hsm] at hab; cases hab; exact ⟨⟨h1, h2, h3, h4, h5, h6, h7, by simpa using h8⟩, rfl, rfl⟩
    | ok vals derivs ys1 c1 =>
      rw [hsm] at hab
      dsimp only at hab
      cases hsr : Smooth.splashbackRadius xs vals derivs dLim with
      | none => rw [hsr] at hab; cases hab
      | some res =>
        rw [hsr] at hab
        simp only [Option.bind_some] at hab
        cases res with
        | none => cases hab; exact ⟨⟨h1, h2, h3, h4, h5, by simpa using h6, h7, by simpa using h8⟩, rfl, rfl⟩
        | some R =>
          dsimp only at hab
          cases hp : h.ringPhis[i]? with
          | none => rw [hp] at hab; cases hab
          | some phi =>
            rw [hp] at hab
            simp only [Option.bind_some] at hab
            cases hd : h.lineDir ring i with
            | none => rw [hd] at hab; cases hab
            | some dir =>
              rw [hd] at hab
              cases hab
              exact ⟨⟨by simpa using h1, by simpa using h2, by simpa using h3, by simpa using h4, by simpa using h5, by simpa using h6, by simpa using h7, by simpa using h8⟩, rfl, rfl⟩

theorem splashback_sized (r : RingBuffer) (hs : r.Sized) (c : Cache ℝ) (h : Halo) (ring w : Nat) (dLim : ℝ) (b : RingBuffer × Cache ℝ) (hb : r.splashback c h ring w dLim = some b) :
    b.1.Sized ∧ b.1.n = r.n ∧ b.1.bins = r.bins := by
  unfold RingBuffer.splashback at hb
  cases hx : getRs h r.bins with
  | none => rw [hx] at hb; cases hb
  | some xs =>
    rw [hx] at hb
    simp only [Option.bind_eq_bind, Option.bind_some] at hb
    have key : ∀ (l : List Nat) (a b : RingBuffer × Cache ℝ), a.1.Sized → l.foldlM (splashLine h ring w dLim xs) a = some b → b.1.Sized ∧ b.1.n = a.1.n ∧ b.1.bins = a.1.bins := by
      intro l
      induction l with
      | nil => intro a b ha h; cases h; exact ⟨ha, rfl, rfl⟩
      | cons i l ih =>
        intro a b ha h
        rw [List.foldlM_cons] at h
        obtain ⟨a1, e1, e2⟩ := Option.bind_eq_some_iff.1 h
        obtain ⟨g1, g2, g3⟩ := splashLine_sized _ _ _ _ _ _ _ _ ha e1
        obtain ⟨k1, k2, k3⟩ := ih a1 b g1 e2
        exact ⟨k1, k2.trans g2, k3.trans g3⟩
    exact key _ (r, c) b hs hb

/-- What is kept: buffers of the right sizes, and kernels of the step of the configuration. -/
structure KeptOk (cfg : Config) (w : Nat) (s : Kept) : Prop where
  rings : s.1.length = cfg.rings
  bufs : ∀ r ∈ s.1, r.Sized ∧ r.n = cfg.spokes ∧ r.bins = cfg.radialBins
  cache : CacheOk [] w cfg.dlr s.2

theorem start_ok (cfg : Config) (w : Nat) : KeptOk cfg w (Kept.start cfg) :=
  ⟨by simp [Kept.start], fun r hr => by rw [List.eq_of_mem_replicate hr]; exact ⟨init_sized _ _, rfl, rfl⟩, Or.inl rfl⟩

theorem kept_fresh (cfg : Config) (w : Nat) (s : Kept) (hs : KeptOk cfg w s) : (s.1.map fun r => RingBuffer.init r.n r.bins) = (Kept.start cfg).1 := by
  show _ = List.replicate cfg.rings (RingBuffer.init cfg.spokes cfg.radialBins)
  refine List.eq_replicate_iff.2 ⟨by simp [hs.rings], fun b hb => ?_⟩
  obtain ⟨r, hr, rfl⟩ := List.mem_map.1 hb
  rw [(hs.bufs r hr).2.1, (hs.bufs r hr).2.2]

/-- The analysis of a halo with what was kept is that of the halo alone. -/
theorem fit_kept (inverse : Analyze.Inverse) (cfg : Config) (hc : cfg.Ok) (fc : FitConfig) (s : Kept) (hs : KeptOk cfg fc.window s) (h : Halo) (ho : OfConfig cfg h) :
    SimO (fun (x : List ℝ × Kept) (y : List ℝ) => x.1 = y ∧ KeptOk cfg fc.window x.2) (fitHalo inverse fc s h) (fitAlone inverse cfg fc h) := by
  unfold fitAlone fitHalo
  rw [C77_history inverse h s.2 s.1 _ _ _ _ _ fun r hr => (hs.bufs r hr).1, kept_fresh cfg _ s hs]
  unfold calcCoeffs
  set bufs := (Kept.start cfg).1
  have hbufs : ∀ r ∈ bufs, r.Sized ∧ r.n = cfg.spokes ∧ r.bins = cfg.radialBins := (start_ok cfg fc.window).bufs
  have hblen : bufs.length = cfg.rings := (start_ok cfg fc.window).rings
  have key : ∀ (l : List RingBuffer) (k : Nat) (a b : List RingBuffer × Cache ℝ), (∀ r ∈ l, r.Sized ∧ r.n = cfg.spokes ∧ r.bins = cfg.radialBins) → a.1 = b.1 → CacheOk [] fc.window cfg.dlr a.2 →
      CacheOk [] fc.window cfg.dlr b.2 → (∀ r ∈ a.1, r.Sized ∧ r.n = cfg.spokes ∧ r.bins = cfg.radialBins) →
      SimO (fun (x y : List RingBuffer × Cache ℝ) => x.1 = y.1 ∧ x.1.length = a.1.length + l.length ∧ (∀ r ∈ x.1, r.Sized ∧ r.n = cfg.spokes ∧ r.bins = cfg.radialBins) ∧ CacheOk [] fc.window cfg.dlr x.2)
        ((l.zipIdx k).foldlM (fun (st : List RingBuffer × Cache ℝ) (r : RingBuffer × Nat) => (r.1.clear.splashback st.2 h r.2 fc.window fc.dLim).map fun x => (st.1 ++ [x.1], x.2)) a)
        ((l.zipIdx k).foldlM (fun (st : List RingBuffer × Cache ℝ) (r : RingBuffer × Nat) => (r.1.clear.splashback st.2 h r.2 fc.window fc.dLim).map fun x => (st.1 ++ [x.1], x.2)) b) := by
    intro l
    induction l with
    | nil => intro k a b _ e h1 h2 ha; exact Or.inr ⟨a, b, rfl, rfl, e, by simp, ha, h1⟩
    | cons r l ih =>
      intro k a b hl e h1 h2 ha
      rw [List.zipIdx_cons, List.foldlM_cons, List.foldlM_cons]
      obtain ⟨hsz, hn, hb⟩ := hl r (by simp)
      dsimp only
      rw [C77_clear r hsz, hn, hb]
      rcases splashback_sim cfg hc h ho (RingBuffer.init cfg.spokes cfg.radialBins) rfl k fc.window fc.dLim a.2 b.2 h1 h2 with ⟨e1, e2⟩ | ⟨x, y, e1, e2, e3, e4, e5⟩
      · rw [e1, e2]; exact Or.inl ⟨rfl, rfl⟩
      · rw [e1, e2]
        have hsz1 := splashback_sized _ (init_sized cfg.spokes cfg.radialBins) _ _ _ _ _ _ e1
        rcases ih (k + 1) (a.1 ++ [x.1], x.2) (b.1 ++ [y.1], y.2) (fun r hr => hl r (by simp [hr])) (by rw [e, e3]) e4 e5 (by
          intro r' hr'
          rcases List.mem_append.1 hr' with hr' | hr'
          · exact ha r' hr'
          · rw [List.mem_singleton.1 hr']; exact hsz1) with ⟨f1, f2⟩ | ⟨x', y', f1, f2, f3, f4, f5, f6⟩
        · exact Or.inl ⟨f1, f2⟩
        · exact Or.inr ⟨x', y', f1, f2, f3, by rw [f4]; simp; omega, f5, f6⟩
  rcases key bufs 0 ([], s.2) ([], (Kept.start cfg).2) hbufs rfl hs.cache (Or.inl rfl) (by simp) with ⟨e1, e2⟩ | ⟨x, y, e1, e2, e3, e4, e5, e6⟩
  · rw [e1, e2]; exact Or.inl ⟨rfl, rfl⟩
  · rw [e1, e2]
    simp only [Option.bind_eq_bind, Option.bind_some]
    rw [← e3]
    have hk : KeptOk cfg fc.window (x.1, x.2) := ⟨by simpa [hblen] using e4, e5, e6⟩
    cases filterPoints fc.levels (h.rMax / fc.eta) x.1 with
    | none => exact Or.inl ⟨rfl, rfl⟩
    | some pts =>
      simp only [Option.bind_some]
      cases pts with
      | none => exact Or.inr ⟨_, _, rfl, rfl, rfl, hk⟩
      | some pts =>
        dsimp only
        cases Analyze.pennaVolumeFit inverse h.irots pts fc.order fc.order with
        | none => exact Or.inl ⟨rfl, rfl⟩
        | some cs => exact Or.inr ⟨_, _, rfl, rfl, rfl, hk⟩

/-! ### A run -/

theorem insert_shape (h : Halo) (v : Vec) (radius rho : ℝ) (h' : Halo) (e : h.insert v radius rho = some h') : h'.bins = h.bins ∧ h'.rMin = h.rMin ∧ h'.rMax = h.rMax := by
  unfold Halo.insert at e
  obtain ⟨ps, _, rfl⟩ := Option.map_eq_some_iff.1 e
  exact ⟨rfl, rfl, rfl⟩

theorem insertAll_shape : ∀ (bs : List Ball) (h h' : Halo), h.insertAll bs = some h' → h'.bins = h.bins ∧ h'.rMin = h.rMin ∧ h'.rMax = h.rMax
  | [], h, h', e => by cases e; exact ⟨rfl, rfl, rfl⟩
  | b :: bs, h, h', e => by
    unfold Halo.insertAll at e
    rw [List.foldlM_cons] at e
    obtain ⟨h1, e1, e2⟩ := Option.bind_eq_some_iff.1 e
    obtain ⟨a1, a2, a3⟩ := insert_shape _ _ _ _ _ e1
    obtain ⟨b1, b2, b3⟩ := insertAll_shape bs h1 h' e2
    exact ⟨b1.trans a1, b2.trans a2, b3.trans a3⟩

theorem join_shape : ∀ (hs : List Halo) (h h' : Halo), h.join hs = some h' → h'.bins = h.bins ∧ h'.rMin = h.rMin ∧ h'.rMax = h.rMax
  | [], h, h', e => by cases e; exact ⟨rfl, rfl, rfl⟩
  | b :: bs, h, h', e => by
    unfold Halo.join at e
    rw [List.foldlM_cons] at e
    obtain ⟨h1, e1, e2⟩ := Option.bind_eq_some_iff.1 e
    unfold Halo.joinOne at e1
    by_cases hn : h.rings ≠ b.rings ∨ h.bins ≠ b.bins ∨ h.n ≠ b.n
    · rw [if_pos hn] at e1; cases e1
    · rw [if_neg hn] at e1
      obtain ⟨ps, _, rfl⟩ := Option.map_eq_some_iff.1 e1
      exact join_shape bs { h with profs := ps } h' e2

theorem pass_shape (h : Halo) (own : List Ball) (ws : List (Halo × List Ball)) (r : Halo × List Halo) (e : h.pass own ws = some r) : r.1.bins = h.bins ∧ r.1.rMin = h.rMin ∧ r.1.rMax = h.rMax := by
  unfold Halo.pass at e
  obtain ⟨his, _, e⟩ := Option.bind_eq_some_iff.1 e
  obtain ⟨h1, e1, e⟩ := Option.bind_eq_some_iff.1 e
  obtain ⟨h2, e2, rfl⟩ := Option.map_eq_some_iff.1 e
  obtain ⟨a1, a2, a3⟩ := insertAll_shape _ _ _ e1
  obtain ⟨b1, b2, b3⟩ := join_shape _ _ _ e2
  exact ⟨b1.trans a1, b2.trans a2, b3.trans a3⟩

theorem runJobs_shape (cfg : Config) : ∀ (jobs : List Job) (halos scratch : List Halo) (r : List Halo × List Halo), runJobs halos scratch jobs = some r → (∀ h ∈ halos, OfConfig cfg h) → ∀ h ∈ r.1, OfConfig cfg h
  | [], halos, scratch, r, e, hh => by cases e; exact hh
  | job :: jobs, halos, scratch, r, e, hh => by
    unfold runJobs at e
    cases hj : halos[job.halo]? with
    | none => rw [hj] at e; cases e
    | some h =>
      rw [hj] at e
      obtain ⟨x, e1, e2⟩ := Option.bind_eq_some_iff.1 e
      refine runJobs_shape cfg jobs _ _ r e2 fun h' hm => ?_
      rcases List.mem_or_eq_of_mem_set hm with hm | rfl
      · exact hh h' hm
      · obtain ⟨a1, a2, a3⟩ := pass_shape _ _ _ _ e1
        obtain ⟨b1, rr, b2, b3, b4⟩ := hh h (List.mem_of_getElem? hj)
        exact ⟨a1.trans b1, rr, b2, a2.trans b3, a3.trans b4⟩

theorem createHalo_shape (cfg : Config) (norms : List Vec) (minMass : ℝ) (hd : File) (row : Row) (h : Halo) (e : createHalo cfg norms minMass hd row = some h) : OfConfig cfg h := by
  unfold createHalo at e
  by_cases hr : row.r ≤ 0
  · rw [if_pos hr] at e; cases e
  · rw [if_neg hr] at e
    cases e
    exact ⟨rfl, row.r, not_le.1 hr, rfl, rfl⟩

theorem mapM_mem {α β : Type} (f : α → Option β) : ∀ (l : List α) (r : List β), l.mapM f = some r → ∀ b ∈ r, ∃ a ∈ l, f a = some b
  | [], r, e, b, hb => by cases e; cases hb
  | a :: l, r, e, b, hb => by
    rw [List.mapM_cons] at e
    simp only [Option.bind_eq_bind, Option.bind_eq_some_iff] at e
    obtain ⟨x, e1, xs, e2, e3⟩ := e
    cases e3
    rcases List.mem_cons.1 hb with rfl | hb
    · exact ⟨a, by simp, e1⟩
    · obtain ⟨a', h1, h2⟩ := mapM_mem f l xs e2 b hb
      exact ⟨a', by simp [h1], h2⟩

theorem allOf_some {β : Type} (l : List β) : allOf (l.map some) = some l := by
  unfold allOf
  induction l with
  | nil => rfl
  | cons x l ih => rw [List.map_cons, List.mapM_cons, ih]; rfl

theorem allOf_none {β : Type} (l : List (Option β)) (h : none ∈ l) : allOf l = none := by
  unfold allOf
  induction l with
  | nil => cases h
  | cons x l ih =>
    rw [List.mapM_cons]
    rcases List.mem_cons.1 h with rfl | h
    · rfl
    · rw [ih h]; cases x <;> rfl

section General
variable {β S : Type} (step : S → Halo → Option (β × S)) (alone : Halo → Option β) (Inv : S → Prop) (good : Halo → Prop)
  (hstep : ∀ s h, Inv s → good h → SimO (fun (x : β × S) (y : β) => x.1 = y ∧ Inv x.2) (step s h) (alone h))
include hstep

/-- The analysis of the halos of a snapshot, one after the other. -/
theorem analysis_sim : ∀ (idxs : List Nat) (halos : List Halo) (out : List β) (s : S), idxs.Nodup → (∀ k ∈ idxs, k < out.length) → Inv s → (∀ h ∈ halos, good h) →
    (∃ out' s', analysisS step idxs halos (out, s) = some (out', s') ∧ Inv s' ∧ analysis alone idxs halos (out.map some) = out'.map some) ∨
    (analysisS step idxs halos (out, s) = none ∧ ∃ k ∈ idxs, (analysis alone idxs halos (out.map some))[k]? = some none)
  | [], halos, out, s, _, _, hs, _ => Or.inl ⟨out, s, rfl, hs, rfl⟩
  | k :: idxs, [], out, s, _, _, hs, _ => Or.inl ⟨out, s, rfl, hs, rfl⟩
  | k :: idxs, h :: halos, out, s, hn, hl, hs, hg => by
    rw [List.nodup_cons] at hn
    have e1 : analysisS step (k :: idxs) (h :: halos) (out, s) = ((step s h).map fun r => (out.set k r.1, r.2)).bind (analysisS step idxs halos) := by
      unfold analysisS
      rw [List.zip_cons_cons, List.foldlM_cons]
      rfl
    have e2 : analysis alone (k :: idxs) (h :: halos) (out.map some) = analysis alone idxs halos ((out.map some).set k (alone h)) := rfl
    rcases hstep s h hs (hg h (by simp)) with ⟨a1, a2⟩ | ⟨x, y, a1, a2, rfl, a3⟩
    · right
      rw [e1, e2, a1, a2]
      refine ⟨rfl, k, by simp, ?_⟩
      rw [analysis_other alone idxs k hn.1, List.getElem?_set_self (by rw [List.length_map]; exact hl k (by simp))]
    · rw [e1, e2, a1, a2]
      simp only [Option.map_some, Option.bind_some]
      have e3 : (out.map some).set k (some x.1) = (out.set k x.1).map some := by rw [List.map_set]
      rw [e3]
      rcases analysis_sim idxs halos (out.set k x.1) x.2 hn.2 (fun k' h' => by rw [List.length_set]; exact hl k' (by simp [h'])) a3 (fun h' hm => hg h' (by simp [hm])) with h1 | ⟨h1, k', h2, h3⟩
      · exact Or.inl h1
      · exact Or.inr ⟨h1, k', by simp [h2], h3⟩

end General

theorem analysisS_length {β S : Type} (step : S → Halo → Option (β × S)) : ∀ (idxs : List Nat) (halos : List Halo) (st st' : List β × S), analysisS step idxs halos st = some st' → st'.1.length = st.1.length
  | [], halos, st, st', e => by cases e; rfl
  | k :: idxs, [], st, st', e => by cases e; rfl
  | k :: idxs, h :: halos, st, st', e => by
    unfold analysisS at e
    rw [List.zip_cons_cons, List.foldlM_cons] at e
    obtain ⟨x, e1, e2⟩ := Option.bind_eq_some_iff.1 e
    obtain ⟨y, _, rfl⟩ := Option.map_eq_some_iff.1 e1
    have := analysisS_length step idxs halos _ st' e2
    rw [this, List.length_set]

/-- A missing result stays missing: no later snapshot has the row. -/
theorem snaps_missing {β : Type} (cfg : Config) (norms : List Vec) (workers : Nat) (minMass : ℝ) (alone : Halo → Option β) (rows : List Row) (disk : Int → Option (List File)) (hd0 : File) (ib : GoMap Nat)
    (k : Nat) : ∀ (l : List Int) (st : List (Option β) × List Halo), (∀ s ∈ l, k ∉ ib.get s) → st.1[k]? = some none → ∀ st', l.foldlM (snapStep cfg norms workers minMass alone rows disk hd0 ib) st = some st' →
      st'.1[k]? = some none
  | [], st, _, h, st', e => by cases e; exact h
  | s :: l, st, hk, h, st', e => by
    rw [List.foldlM_cons] at e
    obtain ⟨st1, e1, e2⟩ := Option.bind_eq_some_iff.1 e
    refine snaps_missing cfg norms workers minMass alone rows disk hd0 ib k l st1 (fun s' hs' => hk s' (by simp [hs'])) ?_ st' e2
    unfold snapStep at e1
    by_cases hm : s = -1
    · rw [if_pos hm] at e1; cases e1; exact h
    · rw [if_neg hm] at e1
      simp only [Option.bind_eq_some_iff, Option.map_eq_some_iff] at e1
      obtain ⟨_, _, _, _, _, _, r, _, rfl⟩ := e1
      dsimp only
      rw [analysis_other alone _ k (hk s (by simp))]
      exact h

/-- A run that keeps a state from halo to halo is a run that analyses every halo alone, if the state has no influence on the analysis of one halo. -/
theorem runS_eq {β S : Type} (cfg : Config) (norms : List Vec) (workers : Nat) (minMass : ℝ) (step : S → Halo → Option (β × S)) (alone : Halo → Option β) (Inv : S → Prop) (start : S) (hstart : Inv start)
    (hstep : ∀ s h, Inv s → OfConfig cfg h → SimO (fun (x : β × S) (y : β) => x.1 = y ∧ Inv x.2) (step s h) (alone h)) (blank : β) (rows : List Row) (disk : Int → Option (List File)) :
    runS cfg norms workers minMass step start blank rows disk = (run cfg norms workers minMass alone (some blank) rows disk).bind allOf := by
  unfold runS run
  by_cases h0 : rows = []
  · rw [if_pos h0, if_pos h0]; rfl
  rw [if_neg h0, if_neg h0]
  by_cases h1 : (rows.head?.bind fun r => disk r.snap).getD [] = []
  · rw [if_pos h1, if_pos h1]; rfl
  rw [if_neg h1, if_neg h1]
  obtain ⟨sb, ib, e, g1, _, _, g4, g5⟩ := Shellfish.Cmd.C44_groups (rows.map (·.snap)) (rows.map (·.id)) (by simp)
  rw [e]
  simp only [Option.bind_some]
  cases (((sortedSnaps sb).head?.bind disk).getD []).head? with
  | none => rfl
  | some hd0 =>
    dsimp only
    obtain ⟨hperm, _⟩ := Shellfish.Cmd.sortedSnaps_spec sb
    have hnd : (sortedSnaps sb).Nodup := hperm.nodup_iff.2 g4
    have key : ∀ (l : List Int) (out : List β) (s : S) (scratch : List Halo), l.Nodup → out.length = rows.length → Inv s →
        ((∃ o s' scr, l.foldlM (snapStepS cfg norms workers minMass step rows disk hd0 ib) ((out, s), scratch) = some ((o, s'), scr) ∧
            l.foldlM (snapStep cfg norms workers minMass alone rows disk hd0 ib) (out.map some, scratch) = some (o.map some, scr)) ∨
          (l.foldlM (snapStepS cfg norms workers minMass step rows disk hd0 ib) ((out, s), scratch) = none ∧
            ∀ st', l.foldlM (snapStep cfg norms workers minMass alone rows disk hd0 ib) (out.map some, scratch) = some st' → none ∈ st'.1)) := by
      intro l
      induction l with
      | nil => intro out s scratch _ _ _; exact Or.inl ⟨out, s, scratch, rfl, rfl⟩
      | cons snap l ih =>
        intro out s scratch hn hl hs
        rw [List.nodup_cons] at hn
        rw [List.foldlM_cons, List.foldlM_cons]
        by_cases hm : snap = -1
        · have e1 : snapStepS cfg norms workers minMass step rows disk hd0 ib ((out, s), scratch) snap = some ((out, s), scratch) := by unfold snapStepS; rw [if_pos hm]
          have e2 : snapStep cfg norms workers minMass alone rows disk hd0 ib (out.map some, scratch) snap = some (out.map some, scratch) := by unfold snapStep; rw [if_pos hm]
          rw [e1, e2]
          exact ih out s scratch hn.2 hl hs
        · have e1 : snapStepS cfg norms workers minMass step rows disk hd0 ib ((out, s), scratch) snap = (((ib.get snap).mapM fun k => rows[k]?).bind fun rs =>
              (rs.mapM (createHalo cfg norms minMass hd0)).bind fun halos => (disk snap).bind fun files =>
                (runJobs halos scratch (files.flatMap fun f => fileJobs cfg workers f id (bin halos f.region))).bind fun r => (analysisS step (ib.get snap) r.1 (out, s)).map fun o => (o, r.2)) := by
            unfold snapStepS; rw [if_neg hm]
          have e2 : snapStep cfg norms workers minMass alone rows disk hd0 ib (out.map some, scratch) snap = (((ib.get snap).mapM fun k => rows[k]?).bind fun rs =>
              (rs.mapM (createHalo cfg norms minMass hd0)).bind fun halos => (disk snap).bind fun files =>
                (runJobs halos scratch (files.flatMap fun f => fileJobs cfg workers f id (bin halos f.region))).map fun r => (analysis alone (ib.get snap) r.1 (out.map some), r.2)) := by
            unfold snapStep; rw [if_neg hm]
          rw [e1, e2]
          cases hrs : (ib.get snap).mapM fun k => rows[k]? with
          | none => exact Or.inr ⟨rfl, fun st' h => (nomatch h)⟩
          | some rs =>
            simp only [Option.bind_some]
            cases hh : rs.mapM (createHalo cfg norms minMass hd0) with
            | none => exact Or.inr ⟨rfl, fun st' h => (nomatch h)⟩
            | some halos =>
              simp only [Option.bind_some]
              cases disk snap with
              | none => exact Or.inr ⟨rfl, fun st' h => (nomatch h)⟩
              | some files =>
                simp only [Option.bind_some]
                cases hj : runJobs halos scratch (files.flatMap fun f => fileJobs cfg workers f id (bin halos f.region)) with
                | none => exact Or.inr ⟨rfl, fun st' h => (nomatch h)⟩
                | some r =>
                  simp only [Option.bind_some, Option.map_some]
                  have hgood : ∀ h ∈ r.1, OfConfig cfg h := by
                    refine runJobs_shape cfg _ _ _ r hj fun h hm' => ?_
                    obtain ⟨row, _, hrow⟩ := mapM_mem _ _ _ hh h hm'
                    exact createHalo_shape cfg norms minMass hd0 row h hrow
                  have hidx : ∀ k ∈ ib.get snap, k < out.length := by
                    intro k hk
                    rw [g1, Stats.mem_rowsOf, List.getElem?_map] at hk
                    rw [hl]
                    by_contra hc
                    rw [List.getElem?_eq_none (by omega)] at hk
                    cases hk
                  rcases analysis_sim step alone Inv (OfConfig cfg) hstep (ib.get snap) r.1 out s (by rw [g1]; exact Stats.rowsOf_nodup _ _) hidx hs hgood with ⟨out', s', a1, a2, a3⟩ | ⟨a1, k, a2, a3⟩
                  · rw [a1, a3]
                    simp only [Option.map_some]
                    exact ih out' s' r.2 hn.2 (by rw [analysisS_length step _ _ _ _ a1]; exact hl) a2
                  · right
                    rw [a1]
                    refine ⟨rfl, fun st' h => ?_⟩
                    refine List.mem_of_getElem? (snaps_missing cfg norms workers minMass alone rows disk hd0 ib k l _ (fun s' hs' hk => ?_) a3 st' h)
                    rw [g1, Stats.mem_rowsOf] at a2 hk
                    rw [a2] at hk
                    have : snap = s' := Option.some.inj hk
                    subst this
                    exact hn.1 hs'
    rw [show List.replicate rows.length (some blank) = (List.replicate rows.length blank).map some by rw [List.map_replicate]]
    rcases key _ (List.replicate rows.length blank) start (List.replicate (workers - 1) Halo.zero) hnd (by simp) hstart with ⟨o, s', scr, k1, k2⟩ | ⟨k1, k2⟩
    · rw [k1, k2]
      simp only [Option.map_some, Option.bind_some]
      rw [allOf_some]
    · rw [k1]
      cases hf : (sortedSnaps sb).foldlM (snapStep cfg norms workers minMass alone rows disk hd0 ib) ((List.replicate rows.length blank).map some, List.replicate (workers - 1) Halo.zero) with
      | none => rfl
      | some st' =>
        simp only [Option.map_some, Option.map_none, Option.bind_some]
        rw [allOf_none _ (k2 st' hf)]

/-- C99: the shell mode, with its buffers and kernels kept from halo to halo, does exactly what it would do if every halo were analysed alone, with fresh buffers and kernels: for every catalog, set of files and
number of threads, it has the same results, or fails on the same inputs. -/
theorem C99_alone (inverse : Analyze.Inverse) (cfg : Config) (hc : cfg.Ok) (fc : FitConfig) (norms : List Vec) (workers : Nat) (minMass : ℝ) (rows : List Row) (disk : Int → Option (List File)) :
    shellMode inverse cfg fc norms workers minMass rows disk =
      (run cfg norms workers minMass (fitAlone inverse cfg fc) (some (List.replicate (2 * fc.order * fc.order) 0)) rows disk).bind allOf :=
  runS_eq cfg norms workers minMass _ _ (KeptOk cfg fc.window) _ (start_ok cfg fc.window) (fun s h hs ho => fit_kept inverse cfg hc fc s hs h ho) _ rows disk

/-- All results: the list has them, in their places. -/
theorem allOf_eq {β : Type} (l : List (Option β)) (out : List β) : allOf l = some out ↔ l = out.map some := by
  constructor
  · unfold allOf
    induction l generalizing out with
    | nil => intro h; cases h; rfl
    | cons x l ih =>
      intro h
      rw [List.mapM_cons] at h
      obtain ⟨y, h1, h2⟩ := Option.bind_eq_some_iff.1 h
      obtain ⟨ys, h3, h4⟩ := Option.bind_eq_some_iff.1 h2
      cases h4
      rw [ih ys h3, List.map_cons, show x = some y from h1]
  · rintro rfl
    exact allOf_some out

/-- C99 for the rows of the output: in a run of the shell mode, with everything kept from halo to halo, row `k` of the output is what the analysis with fresh buffers and kernels makes of the halo of row `k` of
the catalog, which has the particles of that halo and no others; and the run has no output exactly if that analysis fails for some row. -/
theorem C99_rows (inverse : Analyze.Inverse) (cfg : Config) (hc : cfg.Ok) (fc : FitConfig) (norms : List Vec) (hnorm : ∀ v ∈ norms, dot v v = 1) (workers : Nat) (hw : 0 < workers) (minMass : ℝ) (rows : List Row)
    (hne : rows ≠ []) (disk : Int → Option (List File)) (hok : ∀ row ∈ rows, RowOk cfg disk row) :
    ∃ (first : Row) (hd0 : File), first ∈ rows ∧ (∀ row ∈ rows, first.snap ≤ row.snap) ∧ ((disk first.snap).getD [])[0]? = some hd0 ∧
      (∀ out, shellMode inverse cfg fc norms workers minMass rows disk = some out → out.length = rows.length ∧
        ∀ (k : Nat) (row : Row) (files : List File), rows[k]? = some row → disk row.snap = some files →
          ∃ (h : Halo) (x : List ℝ), (emptyHalo cfg norms minMass hd0.rhoM row).insertAll (rowBalls cfg row files) = some h ∧ fitAlone inverse cfg fc h = some x ∧ out[k]? = some x) ∧
      (shellMode inverse cfg fc norms workers minMass rows disk = none ↔ ∃ (row : Row) (files : List File) (h : Halo), row ∈ rows ∧ disk row.snap = some files ∧
        (emptyHalo cfg norms minMass hd0.rhoM row).insertAll (rowBalls cfg row files) = some h ∧ fitAlone inverse cfg fc h = none) := by
  obtain ⟨a, f, os, a1, a2, a3, a4, a5, a6⟩ := C80_rows_partial cfg hc norms hnorm workers hw minMass (fitAlone inverse cfg fc) (some (List.replicate (2 * fc.order * fc.order) 0)) rows hne disk hok
  refine ⟨a, f, a1, a2, a3, ?_, ?_⟩
  · intro out ho
    rw [C99_alone inverse cfg hc, a4, Option.bind_some, allOf_eq] at ho
    subst ho
    rw [List.length_map] at a5
    refine ⟨a5, fun k row files hk hd => ?_⟩
    obtain ⟨h, h1, h2⟩ := a6 k row files hk hd
    rw [List.getElem?_map, Option.map_eq_some_iff] at h2
    obtain ⟨x, h3, h4⟩ := h2
    exact ⟨h, x, h1, h4.symm, h3⟩
  · rw [C99_alone inverse cfg hc, a4, Option.bind_some]
    constructor
    · intro hn
      have hin : none ∈ os := by
        by_contra hc'
        have : ∃ out : List (List ℝ), os = out.map some := by
          clear a4 a5 a6 hn
          induction os with
          | nil => exact ⟨[], rfl⟩
          | cons x l ih =>
            obtain ⟨out, rfl⟩ := ih (fun h => hc' (by simp [h]))
            cases x with
            | none => exact absurd (by simp) hc'
            | some x => exact ⟨x :: out, rfl⟩
        obtain ⟨out, rfl⟩ := this
        rw [allOf_some] at hn
        cases hn
      obtain ⟨k, hk⟩ := List.getElem?_of_mem hin
      have hlt : k < rows.length := by
        rw [← a5]
        by_contra hc'
        rw [List.getElem?_eq_none (by omega)] at hk
        cases hk
      have hrow : rows[k]? = some rows[k] := List.getElem?_eq_getElem hlt
      obtain ⟨files, hfs, _⟩ := (hok _ (List.mem_of_getElem? hrow)).files
      obtain ⟨h, h1, h2⟩ := a6 k _ files hrow hfs
      rw [hk, Option.some_inj] at h2
      exact ⟨_, files, h, List.mem_of_getElem? hrow, hfs, h1, h2.symm⟩
    · rintro ⟨row, files, h, hm, hd, h1, h2⟩
      obtain ⟨k, hk⟩ := List.getElem?_of_mem hm
      obtain ⟨h', h1', h2'⟩ := a6 k row files hk hd
      rw [h1, Option.some_inj] at h1'
      subst h1'
      rw [h2] at h2'
      exact allOf_none _ (List.mem_of_getElem? h2')

/-- C99 for the number of threads: it has no influence on the shells. -/
theorem C99_threads (inverse : Analyze.Inverse) (cfg : Config) (hc : cfg.Ok) (fc : FitConfig) (norms : List Vec) (hnorm : ∀ v ∈ norms, dot v v = 1) (workers workers' : Nat) (hw : 0 < workers) (hw' : 0 < workers')
    (minMass : ℝ) (rows : List Row) (hne : rows ≠ []) (disk : Int → Option (List File)) (hok : ∀ row ∈ rows, RowOk cfg disk row) :
    shellMode inverse cfg fc norms workers minMass rows disk = shellMode inverse cfg fc norms workers' minMass rows disk := by
  obtain ⟨out, h1, h2⟩ := C80_threads cfg hc norms hnorm workers workers' hw hw' minMass (fitAlone inverse cfg fc) (some (List.replicate (2 * fc.order * fc.order) 0)) rows hne disk hok
  rw [C99_alone inverse cfg hc, C99_alone inverse cfg hc, h1, h2]

/-- C99 for the order of the catalog: the same rows in another order have the same shells, each with its row. -/
theorem C99_order (inverse : Analyze.Inverse) (cfg : Config) (hc : cfg.Ok) (fc : FitConfig) (norms : List Vec) (hnorm : ∀ v ∈ norms, dot v v = 1) (workers : Nat) (hw : 0 < workers) (minMass : ℝ) (rows rows' : List Row)
    (hp : rows.Perm rows') (hne : rows ≠ []) (disk : Int → Option (List File)) (hok : ∀ row ∈ rows, RowOk cfg disk row) (out : List (List ℝ)) (ho : shellMode inverse cfg fc norms workers minMass rows disk = some out) :
    ∃ out', shellMode inverse cfg fc norms workers minMass rows' disk = some out' ∧ ∀ (k k' : Nat) (row : Row), rows[k]? = some row → rows'[k']? = some row → out[k]? = out'[k']? := by
  have hok' : ∀ row ∈ rows', RowOk cfg disk row := fun row hr => hok row (hp.mem_iff.2 hr)
  have hne' : rows' ≠ [] := fun h => hne (by rw [h] at hp; exact hp.eq_nil)
  obtain ⟨a, f, a1, a2, a3, a4, a5⟩ := C99_rows inverse cfg hc fc norms hnorm workers hw minMass rows hne disk hok
  obtain ⟨b, g, b1, b2, b3, b4, b5⟩ := C99_rows inverse cfg hc fc norms hnorm workers hw minMass rows' hne' disk hok'
  have e : a.snap = b.snap := le_antisymm (a2 b (hp.mem_iff.2 b1)) (b2 a (hp.mem_iff.1 a1))
  rw [e, b3, Option.some_inj] at a3
  subst a3
  cases ho' : shellMode inverse cfg fc norms workers minMass rows' disk with
  | none =>
    obtain ⟨row, files, h, h1, h2⟩ := b5.1 ho'
    rw [a5.2 ⟨row, files, h, hp.mem_iff.2 h1, h2⟩] at ho
    cases ho
  | some out' =>
    refine ⟨out', rfl, fun k k' row hk hk' => ?_⟩
    obtain ⟨files, hfs, _⟩ := (hok row (List.mem_of_getElem? hk)).files
    obtain ⟨h, x, h1, h2, h3⟩ := (a4 out ho).2 k row files hk hfs
    obtain ⟨h', x', h1', h2', h3'⟩ := (b4 out' ho').2 k' row files hk' hfs
    rw [h1, Option.some_inj] at h1'
    subst h1'
    rw [h2, Option.some_inj] at h2'
    rw [h3, h3', h2']

-- the hypotheses hold of a catalog with two snapshots and a particle in each of the three halos
example : exCfg.Ok ∧ (∀ v ∈ exNorms, dot v v = 1) ∧ (∀ row ∈ [exRow 5, exRow 4, exRow 5], RowOk exCfg exDisk row) ∧ (Kept.start exCfg).1.length = 3 := by
  refine ⟨exCfg_ok, exNorms_unit, ?_, by simp [Kept.start, exCfg]⟩
  intro row hr
  simp only [List.mem_cons, List.not_mem_nil, or_false] at hr
  rcases hr with rfl | rfl | rfl
  exacts [exRow_ok 5 (Or.inr rfl), exRow_ok 4 (Or.inl rfl), exRow_ok 5 (Or.inr rfl)]

end Shellfish.ShellRun
