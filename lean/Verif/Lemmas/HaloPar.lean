/- Lemmas about splitting and joining whole halos (los/halo.go:107-140). -/
import Verif.Props.Halo

namespace Shellfish.Los
noncomputable section
open Real
open Shellfish.Geom (Vec Mat rotateVec eulerMatrixBetween atan2 dot zero)

/-- two halos with the same lines of sight, bins and position -/
structure Same (a b : Halo) : Prop where
  origin : a.origin = b.origin
  rings : a.rings = b.rings
  bins : a.bins = b.bins
  n : a.n = b.n
  rMin : a.rMin = b.rMin
  rMax : a.rMax = b.rMax
  norms : a.norms = b.norms

theorem Same.refl (a : Halo) : Same a a := ⟨rfl, rfl, rfl, rfl, rfl, rfl, rfl⟩
theorem Same.symm {a b : Halo} (h : Same a b) : Same b a := ⟨h.1.symm, h.2.symm, h.3.symm, h.4.symm, h.5.symm, h.6.symm, h.7.symm⟩
theorem Same.trans {a b c : Halo} (h : Same a b) (g : Same b c) : Same a c :=
  ⟨h.1.trans g.1, h.2.trans g.2, h.3.trans g.3, h.4.trans g.4, h.5.trans g.5, h.6.trans g.6, h.7.trans g.7⟩
theorem Same.profs (a : Halo) (ps : List (ProfileRing ℝ)) : Same a { a with profs := ps } := ⟨rfl, rfl, rfl, rfl, rfl, rfl, rfl⟩

/-- the stored density of a bin -/
def cell (h : Halo) (ring k j : Nat) : ℝ :=
  match h.profs[ring]? with
  | none => 0
  | some p => cumul h.bins p.derivs k j

/-- what a sphere adds to a bin -/
def gainOf (h : Halo) (b : Ball) (ring k j : Nat) : ℝ :=
  total (log h.rMin) (log h.rMax) h.bins (ringOps h (displace b.center h.origin) b.radius b.rho ring) k j

theorem profile_cell (h : Halo) (hw : h.WF) (ring i : Nat) (hr : ring < h.rings) (hi : i < h.n) :
    h.profile ring i = some ((List.range h.bins).map fun j => cell h ring i j) := by
  obtain ⟨p, hp⟩ := profs_get h hw ring hr
  rw [profile_eq h hw ring i p hp hi]
  unfold cell
  rw [hp]

theorem ringOps_same {a b : Halo} (ha : a.WF) (hb : b.WF) (hs : Same a b) (vec : Vec) (radius rho : ℝ) (ring : Nat) : ringOps a vec radius rho ring = ringOps b vec radius rho ring := by
  unfold ringOps ringChords
  rw [ha.rots, hb.rots, ha.vecs, hb.vecs, ha.dPhi, hb.dPhi, hs.norms, hs.n]

theorem gainOf_same {a b : Halo} (ha : a.WF) (hb : b.WF) (hs : Same a b) (x : Ball) (ring k j : Nat) : gainOf a x ring k j = gainOf b x ring k j := by
  unfold gainOf
  rw [ringOps_same ha hb hs, hs.rMin, hs.rMax, hs.bins, hs.origin]

theorem insert_cell (h : Halo) (hw : h.WF) (b : Ball) : ∃ h', h.insert b.center b.radius b.rho = some h' ∧ h'.WF ∧ Same h h' ∧
    ∀ ring k j, ring < h.rings → j < h.bins → cell h' ring k j = cell h ring k j + gainOf h b ring k j := by
  obtain ⟨ps, h1, h2, h3⟩ := halo_insert_spec h hw b.center b.radius b.rho
  refine ⟨_, h1, h2, Same.profs h ps, ?_⟩
  intro ring k j hr hj
  obtain ⟨p, hp⟩ := profs_get h hw ring hr
  obtain ⟨w, e1, e2, e3, e4⟩ := hw.profs p (List.mem_of_getElem? hp)
  have hs := ringOps_sensible h hw (displace b.center h.origin) b.radius b.rho ring
  obtain ⟨d, hd, _, hcum⟩ := insertAll_spec (ringOps h (displace b.center h.origin) b.radius b.rho ring) p w (by rw [e4]; exact hs)
  have hps := h3 ring p hp
  rw [hd] at hps
  have := hcum k j (by rw [e3]; exact hj)
  unfold cell
  change (match ps[ring]? with | none => 0 | some p => cumul h.bins p.derivs k j) = _
  rw [hps, hp]
  simp only
  rw [e1, e2, e3] at this
  exact this

theorem insertAll_cell (bs : List Ball) : ∀ (h : Halo), h.WF → ∃ h', h.insertAll bs = some h' ∧ h'.WF ∧ Same h h' ∧
    ∀ ring k j, ring < h.rings → j < h.bins → cell h' ring k j = cell h ring k j + (bs.map fun b => gainOf h b ring k j).sum := by
  induction bs with
  | nil => exact fun h hw => ⟨h, rfl, hw, Same.refl h, by simp⟩
  | cons b bs ih =>
    intro h hw
    obtain ⟨h1, a1, a2, a3, a4⟩ := insert_cell h hw b
    obtain ⟨h2, b1, b2, b3, b4⟩ := ih h1 a2
    refine ⟨h2, ?_, b2, a3.trans b3, ?_⟩
    · unfold Halo.insertAll at b1 ⊢
      rw [List.foldlM_cons, a1]; exact b1
    · intro ring k j hr hj
      rw [b4 ring k j (a3.rings ▸ hr) (a3.bins ▸ hj), a4 ring k j hr hj, List.map_cons, List.sum_cons, add_assoc]
      congr 2
      congr 1
      apply List.map_congr_left
      intro x _
      exact gainOf_same a2 hw a3.symm x ring k j

/-- A worker's halo that can be split off from `h`: it has another shape, or it was used before for a halo with the same ratio of outer and inner radius. -/
def HUsable (h s : Halo) : Prop :=
  (h.rings ≠ s.rings ∨ h.bins ≠ s.bins ∨ h.n ≠ s.n) ∨ (s.WF ∧ s.rMax / s.rMin = h.rMax / h.rMin)

theorem log_ratio (a b : Halo) (ha : a.WF) (hb : b.WF) (h : a.rMax / a.rMin = b.rMax / b.rMin) : log a.rMax - log a.rMin = log b.rMax - log b.rMin := by
  have h1 := ha.rmin; have h2 := ha.rmax; have h3 := hb.rmin; have h4 := hb.rmax
  rw [← log_div (by linarith) (by linarith), ← log_div (by linarith) (by linarith), h]

theorem zipWith_get (ps qs : List (ProfileRing ℝ)) (h : ps.length = qs.length) (r : Nat) (q' : ProfileRing ℝ) (hq : (List.zipWith split ps qs)[r]? = some q') :
    ∃ p q, ps[r]? = some p ∧ qs[r]? = some q ∧ q' = split p q := by
  rw [List.getElem?_zipWith] at hq
  cases hp : ps[r]? with
  | none => rw [hp] at hq; simp at hq
  | some p =>
    cases hq2 : qs[r]? with
    | none => rw [hp, hq2] at hq; simp at hq
    | some q => rw [hp, hq2] at hq; simp at hq; exact ⟨p, q, rfl, rfl, hq.symm⟩

theorem split_WF (p q : ProfileRing ℝ) (hw : WF p) (hu : Usable p q) : WF (split p q) ∧ (split p q).lowR = p.lowR ∧ (split p q).highR = p.highR ∧ (split p q).bins = p.bins ∧
    (split p q).n = p.n ∧ ∀ bins k j, cumul bins (split p q).derivs k j = 0 := by
  obtain ⟨d, h1, h2, h3⟩ := split_spec p q hw hu
  rw [h1]
  exact ⟨⟨h2, hw.pos, hw.lt, hw.dr⟩, rfl, rfl, rfl, rfl, fun bins k j => cumul_zero _ _ h3 k j⟩

theorem adopt_ok (h s : Halo) (hw : h.WF) (hu : HUsable h s) :
    Same h (h.adopt s) ∧ (h.adopt s).rots = h.rots ∧ (h.adopt s).ringVecs = stdVecs h.n ∧ (h.adopt s).dPhi = stdPhi h.n ∧ (h.adopt s).profs.length = h.rings ∧
    ∀ p ∈ h.profs, ∀ q ∈ (h.adopt s).profs, Usable p q := by
  unfold Halo.adopt
  by_cases hc : h.rings ≠ s.rings ∨ h.bins ≠ s.bins ∨ h.n ≠ s.n
  · rw [if_pos hc]
    refine ⟨⟨rfl, hw.norms_len.symm, rfl, rfl, rfl, rfl, rfl⟩, ?_, rfl, rfl, ?_, ?_⟩
    · exact hw.rots.symm
    · simp [Halo.init, hw.norms_len]
    · intro p hp q hq
      simp only [Halo.init, List.mem_map] at hq
      obtain ⟨_, _, rfl⟩ := hq
      obtain ⟨w, e1, e2, e3, e4⟩ := hw.profs p hp
      right
      refine ⟨by simp [init], ?_⟩
      show (log h.rMax - log h.rMin) / (h.bins : ℝ) = p.dr
      rw [w.dr, e1, e2, e3]
  · rw [if_neg hc]
    rcases hu with hu | ⟨hs, hratio⟩
    · exact absurd hu hc
    · simp only [not_or, not_not] at hc
      refine ⟨⟨rfl, hc.1, hc.2.1, hc.2.2, rfl, rfl, rfl⟩, rfl, ?_, ?_, ?_, ?_⟩
      · show s.ringVecs = _
        rw [hs.vecs, hc.2.2]
      · show s.dPhi = _
        rw [hs.dPhi, hc.2.2]
      · show s.profs.length = _
        rw [hs.profs_len, hc.1]
      · intro p hp q hq
        obtain ⟨w, e1, e2, e3, e4⟩ := hw.profs p hp
        obtain ⟨w', f1, f2, f3, f4⟩ := hs.profs q hq
        right
        refine ⟨w'.len, ?_⟩
        rw [w.dr, w'.dr, e1, e2, e3, f1, f2, f3, log_ratio s h hs hw hratio, hc.2.1]

theorem splitOne_spec (h s : Halo) (hw : h.WF) (hu : HUsable h s) :
    ∃ hi, h.splitOne s = some hi ∧ hi.WF ∧ Same h hi ∧ ∀ ring k j, cell hi ring k j = 0 := by
  obtain ⟨a1, a2, a3, a4, a5, a6⟩ := adopt_ok h s hw hu
  have hlen : h.profs.length = (h.adopt s).profs.length := by rw [hw.profs_len, a5]
  have hsp : h.splitOne s = some { h.adopt s with profs := List.zipWith split h.profs (h.adopt s).profs } := by
    unfold Halo.splitOne
    rw [if_pos (by omega), hlen, List.drop_length, List.append_nil]
  have hget : ∀ q' ∈ List.zipWith split h.profs (h.adopt s).profs, ∃ p q, p ∈ h.profs ∧ q ∈ (h.adopt s).profs ∧ q' = split p q := by
    intro q' hq'
    obtain ⟨r, hr⟩ := List.mem_iff_getElem?.mp hq'
    obtain ⟨p, q, h1, h2, h3⟩ := zipWith_get _ _ hlen r q' hr
    exact ⟨p, q, List.mem_of_getElem? h1, List.mem_of_getElem? h2, h3⟩
  refine ⟨_, hsp, ?_, a1.trans (Same.profs _ _), ?_⟩
  · refine ⟨?_, ?_, ?_, ?_, ?_, ?_, ?_, ?_, ?_, ?_, ?_⟩
    · show (h.adopt s).norms.length = (h.adopt s).rings
      rw [← a1.norms, ← a1.rings]; exact hw.norms_len
    · show ∀ v ∈ (h.adopt s).norms, _
      rw [← a1.norms]; exact hw.norms_unit
    · show (h.adopt s).rots = (h.adopt s).norms.map _
      rw [← a1.norms, a2]; exact hw.rots
    · show (h.adopt s).ringVecs = stdVecs (h.adopt s).n
      rw [← a1.n]; exact a3
    · show (h.adopt s).dPhi = stdPhi (h.adopt s).n
      rw [← a1.n]; exact a4
    · show (List.zipWith split h.profs (h.adopt s).profs).length = (h.adopt s).rings
      rw [List.length_zipWith, ← hlen, min_self, ← a1.rings]; exact hw.profs_len
    · intro q' hq'
      obtain ⟨p, q, hp, hq, rfl⟩ := hget q' hq'
      obtain ⟨w, e1, e2, e3, e4⟩ := hw.profs p hp
      obtain ⟨g1, g2, g3, g4, g5, _⟩ := split_WF p q w (a6 p hp q hq)
      show WF (split p q) ∧ (split p q).lowR = log (h.adopt s).rMin ∧ (split p q).highR = log (h.adopt s).rMax ∧ (split p q).bins = (h.adopt s).bins ∧ (split p q).n = (h.adopt s).n
      rw [← a1.rMin, ← a1.rMax, ← a1.bins, ← a1.n, g2, g3, g4, g5]
      exact ⟨g1, e1, e2, e3, e4⟩
    · show 0 < (h.adopt s).rMin
      rw [← a1.rMin]; exact hw.rmin
    · show (h.adopt s).rMin < (h.adopt s).rMax
      rw [← a1.rMin, ← a1.rMax]; exact hw.rmax
    · show 0 < (h.adopt s).bins
      rw [← a1.bins]; exact hw.bins_pos
    · show 0 < (h.adopt s).n
      rw [← a1.n]; exact hw.n_pos
  · intro ring k j
    unfold cell
    change (match (List.zipWith split h.profs (h.adopt s).profs)[ring]? with | none => 0 | some p => cumul (h.adopt s).bins p.derivs k j) = 0
    cases hg : (List.zipWith split h.profs (h.adopt s).profs)[ring]? with
    | none => rfl
    | some q' =>
      obtain ⟨p, q, hp, hq, rfl⟩ := hget q' (List.mem_of_getElem? hg)
      obtain ⟨w, _⟩ := hw.profs p hp
      exact (split_WF p q w (a6 p hp q hq)).2.2.2.2.2 _ k j

theorem joinProfs_spec (bins n : Nat) (lowR highR dr : ℝ) : ∀ (ps qs : List (ProfileRing ℝ)), ps.length = qs.length →
    (∀ p ∈ ps, WF p ∧ p.lowR = lowR ∧ p.highR = highR ∧ p.bins = bins ∧ p.n = n) →
    (∀ p ∈ qs, WF p ∧ p.lowR = lowR ∧ p.highR = highR ∧ p.bins = bins ∧ p.n = n) →
    ∃ rs, joinProfs ps qs = some rs ∧ rs.length = ps.length ∧ (∀ p ∈ rs, WF p ∧ p.lowR = lowR ∧ p.highR = highR ∧ p.bins = bins ∧ p.n = n) ∧
      ∀ (r : Nat) (p q : ProfileRing ℝ), ps[r]? = some p → qs[r]? = some q → ∃ s : ProfileRing ℝ, rs[r]? = some s ∧ ∀ k j, cumul bins s.derivs k j = cumul bins p.derivs k j + cumul bins q.derivs k j := by
  intro ps
  induction ps with
  | nil =>
    intro qs h _ _
    exact ⟨[], rfl, rfl, by simp, by simp⟩
  | cons p ps ih =>
    intro qs hl hp hq
    cases qs with
    | nil => simp at hl
    | cons q qs =>
      obtain ⟨rs, h1, h2, h3, h4⟩ := ih qs (by simpa using hl) (fun x hx => hp x (by simp [hx])) (fun x hx => hq x (by simp [hx]))
      obtain ⟨w, e1, e2, e3, e4⟩ := hp p (by simp)
      obtain ⟨w', f1, f2, f3, f4⟩ := hq q (by simp)
      have hqp : q = { p with derivs := q.derivs } := by
        have : q.dr = p.dr := by rw [w.dr, w'.dr, e1, e2, e3, f1, f2, f3]
        cases q; cases p
        simp_all
      obtain ⟨d, g1, g2, g3⟩ := join_spec p p.derivs q.derivs w.len (by rw [w'.len, e3, e4, f3, f4])
      refine ⟨{ p with derivs := d } :: rs, ?_, by simp [h2], ?_, ?_⟩
      · show ((join p q).bind fun r => (joinProfs ps qs).map fun rs => r :: rs) = _
        rw [hqp]
        rw [show join p { p with derivs := q.derivs } = some { p with derivs := d } from g1, Option.bind_some, h1]
        rfl
      · intro x hx
        rcases List.mem_cons.mp hx with rfl | hx
        · exact ⟨⟨g2, w.pos, w.lt, w.dr⟩, e1, e2, e3, e4⟩
        · exact h3 x hx
      · intro r p' q' hp' hq'
        cases r with
        | zero =>
          simp only [List.getElem?_cons_zero, Option.some.injEq] at hp' hq'
          subst hp' hq'
          refine ⟨_, rfl, fun k j => ?_⟩
          rw [← e3]; exact g3 k j
        | succ r => exact h4 r p' q' (by simpa using hp') (by simpa using hq')

theorem joinOne_spec (h hi : Halo) (hw : h.WF) (hwi : hi.WF) (hs : Same h hi) :
    ∃ h', h.joinOne hi = some h' ∧ h'.WF ∧ Same h h' ∧ ∀ ring k j, ring < h.rings → cell h' ring k j = cell h ring k j + cell hi ring k j := by
  obtain ⟨rs, h1, h2, h3, h4⟩ := joinProfs_spec h.bins h.n (log h.rMin) (log h.rMax) 0 h.profs hi.profs (by rw [hw.profs_len, hwi.profs_len, hs.rings]) hw.profs (by
    rw [hs.rMin, hs.rMax, hs.bins, hs.n]; exact hwi.profs)
  refine ⟨{ h with profs := rs }, ?_, ?_, Same.profs h rs, ?_⟩
  · unfold Halo.joinOne
    rw [if_neg (by rw [hs.rings, hs.bins, hs.n]; simp), h1]; rfl
  · exact ⟨hw.norms_len, hw.norms_unit, hw.rots, hw.vecs, hw.dPhi, by rw [← hw.profs_len]; exact h2, h3, hw.rmin, hw.rmax, hw.bins_pos, hw.n_pos⟩
  · intro ring k j hr
    obtain ⟨p, hp⟩ := profs_get h hw ring hr
    obtain ⟨q, hq⟩ := profs_get hi hwi ring (hs.rings ▸ hr)
    obtain ⟨s, hs1, hs2⟩ := h4 ring p q hp hq
    unfold cell
    change (match rs[ring]? with | none => 0 | some p => cumul h.bins p.derivs k j) = _
    rw [hs1, hp, hq]
    simp only
    rw [hs2, hs.bins]

theorem join_halo_spec (his : List Halo) : ∀ (h : Halo), h.WF → (∀ hi ∈ his, hi.WF ∧ Same h hi) →
    ∃ h', h.join his = some h' ∧ h'.WF ∧ Same h h' ∧ ∀ ring k j, ring < h.rings → cell h' ring k j = cell h ring k j + (his.map fun hi => cell hi ring k j).sum := by
  induction his with
  | nil => exact fun h hw _ => ⟨h, rfl, hw, Same.refl h, by simp⟩
  | cons hi his ih =>
    intro h hw hh
    obtain ⟨w, s⟩ := hh hi (by simp)
    obtain ⟨h1, a1, a2, a3, a4⟩ := joinOne_spec h hi hw w s
    obtain ⟨h2, b1, b2, b3, b4⟩ := ih h1 a2 (fun x hx => ⟨(hh x (by simp [hx])).1, a3.symm.trans (hh x (by simp [hx])).2⟩)
    refine ⟨h2, ?_, b2, a3.trans b3, ?_⟩
    · unfold Halo.join at b1 ⊢
      rw [List.foldlM_cons, a1]; exact b1
    · intro ring k j hr
      rw [b4 ring k j (a3.rings ▸ hr), a4 ring k j hr, List.map_cons, List.sum_cons, add_assoc]

theorem workers_halo_spec (h : Halo) (hw : h.WF) (workers : List (Halo × List Ball)) : (∀ w ∈ workers, HUsable h w.1) →
    ∃ his, (workers.mapM fun w => (h.splitOne w.1).bind fun hi => hi.insertAll w.2) = some his ∧ his.length = workers.length ∧ (∀ hi ∈ his, hi.WF ∧ Same h hi) ∧
      ∀ ring k j, ring < h.rings → j < h.bins → (his.map fun hi => cell hi ring k j).sum = (((workers.map Prod.snd).flatten).map fun b => gainOf h b ring k j).sum := by
  induction workers with
  | nil => exact fun _ => ⟨[], rfl, rfl, by simp, by simp⟩
  | cons w workers ih =>
    intro hu
    obtain ⟨his, h1, h2, h3, h4⟩ := ih (fun x hx => hu x (by simp [hx]))
    obtain ⟨s, a1, a2, a3, a4⟩ := splitOne_spec h w.1 hw (hu w (by simp))
    obtain ⟨t, b1, b2, b3, b4⟩ := insertAll_cell w.2 s a2
    refine ⟨t :: his, ?_, by simp [h2], ?_, ?_⟩
    · rw [List.mapM_cons, a1, Option.bind_some, b1, h1]; rfl
    · intro x hx
      rcases List.mem_cons.mp hx with rfl | hx
      · exact ⟨b2, a3.trans b3⟩
      · exact h3 x hx
    · intro ring k j hr hj
      rw [List.map_cons, List.sum_cons, h4 ring k j hr hj, b4 ring k j (a3.rings ▸ hr) (a3.bins ▸ hj), a4, zero_add, List.map_cons, List.flatten_cons, List.map_append, List.sum_append]
      congr 2
      apply List.map_congr_left
      intro x _
      exact gainOf_same a2 hw a3.symm x ring k j

theorem pass_spec (h : Halo) (hw : h.WF) (own : List Ball) (workers : List (Halo × List Ball)) (hu : ∀ w ∈ workers, HUsable h w.1) :
    ∃ h' his, h.pass own workers = some (h', his) ∧ h'.WF ∧ Same h h' ∧ his.length = workers.length ∧ (∀ hi ∈ his, hi.WF ∧ Same h hi) ∧
      ∀ ring k j, ring < h.rings → j < h.bins → cell h' ring k j = cell h ring k j + ((own ++ (workers.map Prod.snd).flatten).map fun b => gainOf h b ring k j).sum := by
  obtain ⟨his, h1, h2, h3, h4⟩ := workers_halo_spec h hw workers hu
  obtain ⟨g, a1, a2, a3, a4⟩ := insertAll_cell own h hw
  obtain ⟨h', b1, b2, b3, b4⟩ := join_halo_spec his g a2 (fun x hx => ⟨(h3 x hx).1, a3.symm.trans (h3 x hx).2⟩)
  refine ⟨h', his, ?_, b2, a3.trans b3, h2, h3, ?_⟩
  · unfold Halo.pass
    rw [h1, Option.bind_some, a1, Option.bind_some, b1]; rfl
  · intro ring k j hr hj
    rw [b4 ring k j (a3.rings ▸ hr), a4 ring k j hr hj, h4 ring k j hr hj, List.map_append, List.sum_append, add_assoc]

end
end Shellfish.Los
