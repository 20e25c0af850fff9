/- Lemmas about `SubhaloFinder.FindSubhalos`: the lists of all halos. -/
import Verif.Lemmas.CrossMatch

namespace Shellfish.Finder

variable {K : Type} [Field K] [LinearOrder K] [IsStrictOrderedRing K] [FloorRing K]

theorem suffixMax_length (rs : List K) : (suffixMax rs).length = rs.length := by
  induction rs with
  | nil => rfl
  | cons r rs ih => simp [suffixMax, ih]

/-- the suffix maxima are radii -/
theorem suffixMax_mem (rs : List K) : ∀ m ∈ suffixMax rs, m ∈ rs := by
  induction rs with
  | nil => simp [suffixMax]
  | cons r rs ih =>
    intro m hm
    simp only [suffixMax, List.mem_cons] at hm
    rcases hm with rfl | hm
    · cases h : suffixMax rs with
      | nil => simp
      | cons a l =>
        simp only
        split_ifs
        · simp
        · exact List.mem_cons_of_mem _ (ih a (by rw [h]; simp))
    · exact List.mem_cons_of_mem _ (ih m hm)

/-- what is known of the lists of the halos before cross-matching -/
def Found (W : K) (ps : List (Point K)) (rs : List K) (i : Nat) (l : List Int) : Prop :=
  l.Nodup ∧ ∀ j, j ∈ l ↔ ∃ (k : Nat) (p q : Point K) (r : K), j = k ∧ i < k ∧ ps[i]? = some p ∧ ps[k]? = some q ∧ rs[i]? = some r ∧ Within W r p q

theorem flatten_take_append (S : List (List Int)) (l : List Int) : (S ++ [l]).flatten = S.flatten ++ l := by simp

theorem starts_append (S : List (List Int)) (l : List Int) : starts (S ++ [l]) = starts S ++ [S.flatten.length] := by
  apply List.ext_getElem?
  intro k
  by_cases hk : k < S.length
  · rw [starts_get _ _ (by simp; omega), List.getElem?_append_left (by rw [starts_length]; exact hk), starts_get _ _ hk, List.take_append_of_le_length (by omega)]
  · by_cases hk' : k = S.length
    · subst hk'
      rw [starts_get _ _ (by simp), List.getElem?_append_right (by rw [starts_length])]
      simp [starts_length]
    · rw [List.getElem?_eq_none (by rw [starts_length]; simp; omega), List.getElem?_eq_none (by simp [starts_length]; omega)]

theorem searchFrom_spec (g : Grid K) (ps : List (Point K)) (hb : Built g ps ps.length) (hps : ∀ p ∈ ps, InBox g.width p) (cap : Nat)
    (hcap : ∀ idx : Nat, idx < g.cells * g.cells * g.cells → (members g ps ps.length idx).length ≤ cap) (rs : List K) (hlen : rs.length = ps.length)
    (hr : ∀ r ∈ rs, 0 ≤ r) (hsmall : ∀ r ∈ rs, ∀ m ∈ rs, 2 * (r + m) + g.cw ≤ g.width) :
    ∀ (rest : List (K × K)) (S : List (List Int)), (rs.zip (suffixMax rs)).drop S.length = rest → S.length + rest.length = ps.length →
      (∀ i l, S[i]? = some l → Found g.width ps rs i l) →
      ∃ S' : List (List Int), searchFrom g ps cap S.length rest ⟨starts S ++ List.replicate rest.length 0, S.flatten⟩ = some ⟨starts S', S'.flatten⟩ ∧
        S'.length = ps.length ∧ ∀ i l, S'[i]? = some l → Found g.width ps rs i l := by
  intro rest
  induction rest with
  | nil =>
    intro S _ hl hS
    exact ⟨S, by simp [searchFrom], by simpa using hl, hS⟩
  | cons rm rest ih =>
    intro S hdrop hl hS
    obtain ⟨r, m⟩ := rm
    simp only [List.length_cons] at hl
    have hget : (rs.zip (suffixMax rs))[S.length]? = some (r, m) := by
      have : ((rs.zip (suffixMax rs)).drop S.length)[0]? = some (r, m) := by rw [hdrop]; rfl
      rw [List.getElem?_drop] at this
      simpa using this
    rw [List.getElem?_zip_eq_some] at hget
    obtain ⟨hg1, hg2⟩ := hget
    have hrm := List.mem_of_getElem? hg1
    have hmm := suffixMax_mem rs _ (List.mem_of_getElem? hg2)
    have hlt : S.length < ps.length := by omega
    have hh : ps[S.length]? = some ps[S.length] := List.getElem?_eq_getElem hlt
    obtain ⟨found, f1, f2, f3⟩ := searchOne_spec g ps hb hps cap hcap S.length _ hh r m (hr r hrm) (hr m hmm) (hsmall r hrm m hmm)
    obtain ⟨S', s1, s2, s3⟩ := ih (S ++ [found]) (by
        rw [List.length_append, List.length_singleton, ← List.drop_drop, hdrop]; rfl) (by
        rw [List.length_append, List.length_singleton]; omega) (by
        intro i l hi
        by_cases hil : i < S.length
        · rw [List.getElem?_append_left hil] at hi
          exact hS i l hi
        · have hie : i = S.length := by
            by_contra hc
            rw [List.getElem?_eq_none (by simp; omega)] at hi; simp at hi
          subst hie
          rw [List.getElem?_append_right le_rfl] at hi
          simp only [Nat.sub_self, List.getElem?_cons_zero, Option.some.injEq] at hi
          subst hi
          refine ⟨f2, fun j => ?_⟩
          rw [f3]
          constructor
          · rintro ⟨k, q, rfl, a, b, c⟩
            exact ⟨k, _, q, r, rfl, a, hh, b, hg1, c⟩
          · rintro ⟨k, p, q, r', rfl, a, hp, b, hr', c⟩
            rw [hh, Option.some.injEq] at hp
            rw [hg1, Option.some.injEq] at hr'
            subst hp; subst hr'
            exact ⟨k, q, rfl, a, b, c⟩)
    refine ⟨S', ?_, s2, s3⟩
    unfold searchFrom
    rw [hh, Option.bind_some]
    have hput : put (starts S ++ List.replicate (rest.length + 1) 0) (S.length : Int) S.flatten.length = some (starts (S ++ [found]) ++ List.replicate rest.length 0) := by
      rw [put_nat _ _ _ (by simp [starts_length]), starts_append, List.set_append_right _ _ (by rw [starts_length]), starts_length, Nat.sub_self,
        List.replicate_succ, List.set_cons_zero]
      simp
    simp only [List.length_cons]
    rw [hput, Option.bind_some, f1, Option.bind_some]
    rw [flatten_take_append, List.length_append, List.length_singleton] at s1
    exact s1

/-! sorted lists of integers -/

theorem sorted_append (A B : List Int) (t : Int) (hA : ∀ a ∈ A, a < t) (hB : ∀ b ∈ B, t < b) : sorted (A ++ B) = sorted A ++ sorted B := by
  unfold sorted
  have tr : ∀ a b c : Int, decide (a ≤ b) = true → decide (b ≤ c) = true → decide (a ≤ c) = true := by
    intro a b c h1 h2; simp only [decide_eq_true_eq] at *; omega
  have tot : ∀ a b : Int, (decide (a ≤ b) || decide (b ≤ a)) = true := by
    intro a b; simp only [Bool.or_eq_true, decide_eq_true_eq]; omega
  refine List.Perm.eq_of_pairwise (le := fun a b : Int => a ≤ b) (fun a b _ _ h1 h2 => by omega) ?_ ?_ ?_
  · exact (List.pairwise_mergeSort tr tot (A ++ B)).imp (by intro a b h; simpa using h)
  · rw [List.pairwise_append]
    refine ⟨(List.pairwise_mergeSort tr tot A).imp (by intro a b h; simpa using h), (List.pairwise_mergeSort tr tot B).imp (by intro a b h; simpa using h), ?_⟩
    intro a ha b hb
    have := hA a ((List.mergeSort_perm _ _).mem_iff.mp ha)
    have := hB b ((List.mergeSort_perm _ _).mem_iff.mp hb)
    omega
  · exact (List.mergeSort_perm _ _).trans (((List.mergeSort_perm A _).append (List.mergeSort_perm B _)).symm)

theorem hostLoop_append (A B : List Int) (i : Nat) (hA : ∀ a ∈ A, a < (i : Int)) (hB : ∀ b ∈ B, (i : Int) < b) : hostLoop i (A ++ B) = A.length := by
  induction A with
  | nil =>
    cases B with
    | nil => rfl
    | cons b B =>
      have := hB b (by simp)
      simp only [List.nil_append, hostLoop]
      rw [if_pos (by omega)]; rfl
  | cons a A ih =>
    have := hA a (by simp)
    simp only [List.cons_append, hostLoop, List.length_cons]
    rw [if_neg (by omega), ih (fun x hx => hA x (by simp [hx]))]

/-- the ascending list of the numbers with a property -/
theorem eq_filter_range (l : List Int) (n : Nat) (P : Nat → Prop) [DecidablePred P] (hn : l.Nodup) (hm : ∀ j, j ∈ l ↔ ∃ k : Nat, j = k ∧ k < n ∧ P k) :
    sorted l = ((List.range n).filter fun k => decide (P k)).map fun k : Nat => (k : Int) := by
  unfold sorted
  have tr : ∀ a b c : Int, decide (a ≤ b) = true → decide (b ≤ c) = true → decide (a ≤ c) = true := by
    intro a b c h1 h2; simp only [decide_eq_true_eq] at *; omega
  have tot : ∀ a b : Int, (decide (a ≤ b) || decide (b ≤ a)) = true := by
    intro a b; simp only [Bool.or_eq_true, decide_eq_true_eq]; omega
  have hpw : (((List.range n).filter fun k => decide (P k)).map fun k : Nat => (k : Int)).Pairwise (· < ·) := by
    rw [List.pairwise_map]
    exact (List.Pairwise.filter _ List.pairwise_lt_range).imp (by intro a b h; omega)
  refine List.Perm.eq_of_pairwise (le := fun a b : Int => a ≤ b) (fun a b _ _ h1 h2 => by omega) ?_ ?_ ?_
  · exact (List.pairwise_mergeSort tr tot l).imp (by intro a b h; simpa using h)
  · exact hpw.imp (by intro a b h; omega)
  · refine (List.mergeSort_perm _ _).trans ?_
    rw [List.perm_ext_iff_of_nodup hn (hpw.imp (by intro a b h; omega))]
    intro a
    rw [hm]
    simp only [List.mem_map, List.mem_filter, List.mem_range, decide_eq_true_eq]
    constructor
    · rintro ⟨k, rfl, h1, h2⟩; exact ⟨k, ⟨h1, h2⟩, rfl⟩
    · rintro ⟨k, ⟨h1, h2⟩, rfl⟩; exact ⟨k, rfl, h1, h2⟩

/-- no pair occurs twice, so no host is listed twice -/
theorem hostsOf_nodup (S : List (List Int)) (hS : ∀ l ∈ S, l.Nodup) (j : Nat) : (hostsOf (pairList S) j).Nodup := by
  have hp : (pairList S).Nodup := by
    unfold pairList
    rw [List.nodup_flatMap]
    constructor
    · intro i hi
      rw [List.mem_range] at hi
      refine (hS _ ?_).map (by intro a b h; simpa using h)
      rw [List.getD_eq_getElem?_getD, List.getElem?_eq_getElem hi]
      exact List.getElem_mem hi
    · refine List.pairwise_lt_range.imp ?_
      intro a b hab x hx hy
      obtain ⟨_, _, rfl⟩ := List.mem_map.mp hx
      obtain ⟨_, _, h⟩ := List.mem_map.mp hy
      simp only [Prod.mk.injEq] at h
      omega
  unfold hostsOf
  refine List.Nodup.map_on ?_ (hp.filter _)
  rintro ⟨a, b⟩ ha ⟨c, d⟩ hc h
  rw [List.mem_filter] at ha hc
  simp only [decide_eq_true_eq] at ha hc h
  rw [Prod.mk.injEq]
  exact ⟨by exact_mod_cast h, by rw [ha.2, hc.2]⟩

theorem mem_hostsOf (P : List (Nat × Int)) (j : Nat) (x : Int) : x ∈ hostsOf P j ↔ ∃ i : Nat, x = i ∧ (i, (j : Int)) ∈ P := by
  unfold hostsOf
  simp only [List.mem_map, List.mem_filter, decide_eq_true_eq]
  constructor
  · rintro ⟨⟨a, b⟩, ⟨h1, h2⟩, rfl⟩
    simp only at h2
    subst h2
    exact ⟨a, rfl, h1⟩
  · rintro ⟨i, rfl, h⟩; exact ⟨(i, (j : Int)), ⟨h, rfl⟩, rfl⟩

end Shellfish.Finder
