/-
C97: the header of a tool announces, for every quantity, the columns that hold it.
-/
import Verif.Props.PipeCoord

namespace Shellfish.Pipe
open Shellfish.Text Shellfish.Main
open Shellfish.Catalog
open Shellfish.Cmd (transpose)

variable {F : Type}

/-! ### Specification -/

/-- The header announces the quantities `q`, each with its name and a number of columns, starting with column 0. -/
def Announces (q : List (Str × Nat)) (header : Str) : Prop :=
  ∃ ls : List Str, header = joinWith ' ' (chars "# Column contents:" :: ls) ∧ ls.length = q.length ∧
    ∀ (k : Nat) (name : Str) (size : Nat), q[k]? = some (name, size) →
      let start : Int := ((q.take k).map fun p : Str × Nat => (p.2 : Int)).sum
      ls[k]? = some (if size = 1 then name ++ ['('] ++ itoa start ++ [')'] else name ++ ['('] ++ itoa start ++ ['-'] ++ itoa (start + size - 1) ++ [')'])

/-- A header that announces `q` and `n` lines; in line `i` quantity `k` is the list of words number `k` of `vals i`, and it has as many words as were announced. -/
def Table (q : List (Str × Nat)) (n : Nat) (vals : Nat → List (List Str)) (out : List Str) : Prop :=
  ∃ header ls, out = header :: ls ∧ Announces q header ∧ ls.length = n ∧
    ∀ i < n, (vals i).map List.length = q.map Prod.snd ∧ ∃ l, ls[i]? = some l ∧ words ' ' l = (vals i).flatten

/-! ### Proofs -/

theorem announces (intNames floatNames : List Str) (sizes : List Nat) (hl : (intNames ++ floatNames).length = sizes.length) :
    ∃ c, commentString intNames floatNames (List.range sizes.length) (sizes.map fun s : Nat => (s : Int)) = some c ∧ Announces ((intNames ++ floatNames).zip sizes) c := by
  obtain ⟨ls, h1, h2, h3⟩ := C11_header intNames floatNames (List.range sizes.length) (sizes.map fun s : Nat => (s : Int)) (by intro o ho; rw [hl]; exact List.mem_range.mp ho)
    (by intro o ho; rw [List.length_map]; exact List.mem_range.mp ho)
  refine ⟨_, h1, ls, rfl, by rw [h2, List.length_zip, hl]; simp, ?_⟩
  intro k name size hk
  rw [List.getElem?_zip_eq_some] at hk
  obtain ⟨hk1, hk2⟩ := hk
  have hlt : k < sizes.length := (List.getElem?_eq_some_iff.mp hk2).1
  have h4 := h3 k k name size (by rw [List.getElem?_range hlt]) hk1 (by rw [List.getElem?_map, hk2]; rfl)
  have es : ((List.range sizes.length).map fun o => (sizes.map fun s : Nat => (s : Int)).getD o 0) = sizes.map fun s : Nat => (s : Int) := by
    apply List.ext_getElem (by simp)
    intro j j1 j2
    rw [List.getElem_map, List.getElem_range, List.getD_eq_getElem _ _ j2]
  rw [es] at h4
  have e1 : startCol (sizes.map fun s : Nat => (s : Int)) k = ((((intNames ++ floatNames).zip sizes).take k).map fun p : Str × Nat => (p.2 : Int)).sum := by
    unfold startCol
    rw [← List.map_take]
    congr 1
    have e2 : ((((intNames ++ floatNames).zip sizes).take k).map fun p : Str × Nat => (p.2 : Int)) = ((((intNames ++ floatNames).zip sizes).map Prod.snd).take k).map fun s : Nat => (s : Int) := by
      rw [← List.map_take, List.map_map]; rfl
    rw [e2, List.map_snd_zip (by omega)]
  rw [e1] at h4
  dsimp only
  rw [h4]
  unfold label
  generalize ((((intNames ++ floatNames).zip sizes).take k).map fun p : Str × Nat => (p.2 : Int)).sum = st
  congr 1
  by_cases hs : size = 1
  · subst hs
    simp
  · have : ¬ st = st + (size : Int) - 1 := by omega
    simp [hs, this]

/-- The words of the lines that `emit` prints. -/
theorem emit_words (ff : FloatFmt F) (rd : F → F) (hff : Reads ff rd) (intNames floatNames : List Str) (nameOrder : List Nat) (sizes : List Int) (ids snaps : List Int) (hpos : ids.length ≠ 0)
    (hlen : snaps.length = ids.length) (fcols : List (List F)) (hf : ∀ c ∈ fcols, c.length = ids.length) (n : Nat) (hn : n = 2 + fcols.length) (out : List Str)
    (h : emit ff intNames floatNames nameOrder sizes [ids, snaps] fcols (List.range n) = .lines out) :
    ∃ c ls, out = c :: ls ∧ commentString intNames floatNames nameOrder sizes = some c ∧ ls.length = ids.length ∧
      ∀ i < ids.length, ∃ l, ls[i]? = some l ∧ words ' ' l = itoa (ids.getD i 0) :: itoa (snaps.getD i 0) :: fcols.map fun col => (col.map ff.fmt).getD i [] := by
  unfold emit at h
  cases h1 : formatCols ff [ids, snaps] fcols (List.range n) with
  | none => rw [h1] at h; cases h
  | some ls =>
    cases h2 : commentString intNames floatNames nameOrder sizes with
    | none => rw [h1, h2] at h; cases h
    | some c =>
      rw [h1, h2] at h
      cases h
      refine ⟨c, ls, rfl, rfl, ?_⟩
      have hsp : ∀ x, ' ' ∉ ff.fmt x := fun x hm => by
        have := ((hff x).2.1 _ hm).1
        revert this; decide
      obtain ⟨ls', w1, w2, w3⟩ := C09_words ff ids.length (by omega) [ids, snaps] fcols (List.range n) (Or.inl (by simp))
        (by
          intro c hc
          simp only [List.mem_cons, List.not_mem_nil, or_false] at hc
          rcases hc with rfl | rfl
          · rfl
          · exact hlen)
        (fun c hc => ⟨hf c hc, fun x _ => ⟨(hff x).1, hsp x⟩⟩) (by intro o ho; rw [List.mem_range] at ho; simp only [List.length_cons, List.length_nil]; omega)
        (by simp only [List.length_range, List.length_cons, List.length_nil]; omega)
      rw [h1] at w1
      cases w1
      refine ⟨w2, ?_⟩
      intro i hi
      obtain ⟨l, g1, g2⟩ := w3 i hi
      refine ⟨l, g1, ?_⟩
      rw [g2]
      apply List.ext_getElem
      · simp only [List.length_map, List.length_range, List.length_cons]; omega
      · intro j j1 j2
        rw [List.getElem_map, List.getElem_range]
        unfold cellText
        have hi2 : i < snaps.length := by omega
        match j, j1, j2 with
        | 0, _, _ => simp [hi]
        | 1, _, _ => simp [hi2]
        | j + 2, j1, j2 =>
          simp only [List.length_cons, List.length_map] at j2
          simp only [List.map_cons, List.map_nil, List.cons_append, List.nil_append, List.getElem_cons_succ, List.getElem_map]
          rw [show ((List.map itoa ids :: List.map itoa snaps :: fcols.map fun c => c.map ff.fmt).getD (j + 2) []) = ((fcols.map fun c => c.map ff.fmt).getD j []) from rfl]
          have e : (fcols.map fun c => c.map ff.fmt).getD j [] = fcols[j].map ff.fmt := by
            rw [List.getD_eq_getElem _ _ (by rw [List.length_map]; omega), List.getElem_map]
          rw [e]

/-- The row of a transposed table. -/
theorem transpose_texts (ff : FloatFmt F) (n c : Nat) (f : Nat → List F) (hn : 0 < n) (hr : ∀ i < n, (f i).length = c) (cols : List (List F)) (h : transpose ((List.range n).map f) = some cols) :
    cols.length = c ∧ (∀ col ∈ cols, col.length = n) ∧ ∀ i < n, cols.map (fun col => (col.map ff.fmt).getD i []) = (f i).map ff.fmt := by
  obtain ⟨cols', h1, h2, h3, h4⟩ := Shellfish.Cmd.C68_transpose ((List.range n).map f) c (by
      intro h0
      rw [List.map_eq_nil_iff] at h0
      have := congrArg List.length h0
      simp at this
      omega) (by
    intro r hr'
    obtain ⟨i, hi, rfl⟩ := List.mem_map.mp hr'
    exact hr i (List.mem_range.mp hi))
  rw [h] at h1
  cases h1
  have h3' : ∀ col ∈ cols, col.length = n := by
    intro col hcol
    have := h3 col hcol
    simpa using this
  refine ⟨h2, h3', ?_⟩
  intro i hi
  apply List.ext_getElem (by simp [h2, hr i hi])
  intro x x1 x2
  have hx : x < c := by simp [h2] at x1; exact x1
  have hxl : x < cols.length := by omega
  have hcl : cols[x].length = n := h3' _ (List.getElem_mem _)
  have hxf : x < (f i).length := by rw [hr i hi]; exact hx
  rw [List.getElem_map, List.getElem_map, List.getD_eq_getElem _ _ (by rw [List.length_map, hcl]; exact hi), List.getElem_map]
  congr 1
  have := h4 x hx i
  rw [List.getElem?_eq_getElem hxl, Option.bind_some, List.getElem?_eq_getElem (by rw [hcl]; exact hi), List.getElem?_map, List.getElem?_range hi] at this
  simp only [Option.map_some, Option.bind_some] at this
  rw [List.getElem?_eq_getElem hxf] at this
  exact Option.some.inj this

theorem table_cols (ff : FloatFmt F) (ids : List Int) {ι : Type} (js : List ι) (f : Nat → ι → F) (i : Nat) (hi : i < ids.length) :
    (js.map fun j => tableOf ids fun i => f i j).map (fun col => (col.map ff.fmt).getD i []) = js.map fun j => ff.fmt (f i j) := by
  rw [List.map_map]
  apply List.map_congr_left
  intro j _
  simp [tableOf, hi]

variable (ff : FloatFmt F) (rd : F → F) (hff : Reads ff rd)
include hff

/-- C97, `shell`. -/
theorem C97_shell (loop : List Int → List Int → List (List F) → Out (Nat → List F)) (stdin : Str) (rows : List (Int × Int)) (hh : Holds ff stdin rows) (xs ys zs rs : List F)
    (hco : parse ff stdin [0, 1] [2, 3, 4, 5] = .ok ([rows.map Prod.fst, rows.map Prod.snd], [xs, ys, zs, rs])) (res : Nat → List F)
    (hres : loop (rows.map Prod.fst) (rows.map Prod.snd) [xs, ys, zs, rs] = .ok res) (p : Nat) (hshape : ∀ i < rows.length, (res i).length = p) (out : List Str) (h : shellRun ff loop stdin = .lines out) :
    Table [(chars "ID", 1), (chars "Snapshot", 1), (chars "X [cMpc/h]", 1), (chars "Y [cMpc/h]", 1), (chars "Z [cMpc/h]", 1), (chars "R200m [cMpc/h]", 1), (chars "P_ijk", p)] rows.length
      (fun i => [[itoa ((rows.map Prod.fst).getD i 0)], [itoa ((rows.map Prod.snd).getD i 0)], [(xs.map ff.fmt).getD i []], [(ys.map ff.fmt).getD i []], [(zs.map ff.fmt).getD i []],
        [(rs.map ff.fmt).getD i []], (res i).map ff.fmt]) out := by
  unfold shellRun at h
  obtain ⟨_, _, _, hb, hc⟩ := parse_two ff stdin _ _ _ hco rows hh
  rw [hco] at h
  simp only [andThen] at h
  by_cases h0 : (rows.map Prod.fst).length = 0
  · rw [if_pos h0] at h; cases h
  · rw [if_neg h0, hres] at h
    dsimp only at h
    obtain ⟨cols, h3, h⟩ := withCols_lines _ _ _ h
    rw [List.length_map] at h0
    have e : tableOf (rows.map Prod.fst) res = (List.range rows.length).map res := by rw [tableOf, List.length_map]
    rw [e] at h3
    obtain ⟨t1, t2, t3⟩ := transpose_texts ff rows.length p res (by omega) hshape cols h3
    rw [hshape 0 (by omega)] at h
    obtain ⟨c, ls, rfl, g1, g2, g3⟩ := emit_words ff rd hff _ _ _ _ _ _ (by rw [List.length_map]; exact h0) (by simp) _ (by
      intro c hc'
      rw [List.length_map]
      rcases List.mem_append.mp hc' with h | h
      · exact hc c h
      · exact t2 c h) _ (by rw [List.length_append, t1]; simp; omega) out h
    obtain ⟨c', g4, g5⟩ := announces [chars "ID", chars "Snapshot"] [chars "X [cMpc/h]", chars "Y [cMpc/h]", chars "Z [cMpc/h]", chars "R200m [cMpc/h]", chars "P_ijk"] [1, 1, 1, 1, 1, 1, p] rfl
    have g4' : some c = some c' := by rw [← g1, ← g4]; rfl
    cases g4'
    rw [List.length_map] at g2 g3
    refine ⟨c, ls, rfl, g5, g2, ?_⟩
    intro i hi
    obtain ⟨l, w1, w2⟩ := g3 i hi
    refine ⟨by simp [hshape i hi], l, w1, ?_⟩
    rw [w2, List.map_append, t3 i hi]
    simp

/-- C97, `stats`. -/
theorem C97_stats (order : Nat) (stats : List Int → List Int → List (List F) → List (List F) → Out (Nat → Fin 12 → F)) (stdin : Str) (rows : List (Int × Int)) (hh : Holds ff stdin rows)
    (floats coeffs : List (List F)) (hco : parse ff stdin [0, 1] ((List.range (4 + 2 * order * order)).map (· + 2)) = .ok ([rows.map Prod.fst, rows.map Prod.snd], floats))
    (hc : transpose (floats.drop 4) = some coeffs) (res : Nat → Fin 12 → F) (hres : stats (rows.map Prod.fst) (rows.map Prod.snd) (floats.take 4) coeffs = .ok res) (out : List Str)
    (h : statsRun ff order stats stdin = .lines out) :
    Table [(chars "ID", 1), (chars "Snapshot", 1), (chars "M_sp [M_sun/h]", 1), (chars "R_sp [cMpc/h]", 1), (chars "Volume [cMpc^3/h^3]", 1), (chars "Surface Area [cMpc^2/h^2]", 1),
        (chars "Major Axis [cMpc/h]", 1), (chars "Intermediate Axis [cMpc/h]", 1), (chars "Minor Axis [cMpc/h]", 1), (chars "Ax", 1), (chars "Ay", 1), (chars "Az", 1), (chars "RMin [cMpc/h]", 1),
        (chars "RMax [cMpc/h]", 1)] rows.length
      (fun i => [itoa ((rows.map Prod.fst).getD i 0)] :: [itoa ((rows.map Prod.snd).getD i 0)] :: (List.finRange 12).map fun j => [ff.fmt (res i j)]) out := by
  unfold statsRun at h
  rw [hco] at h
  simp only [andThen] at h
  unfold withCols at h
  rw [hc] at h
  dsimp only at h
  by_cases h0 : (rows.map Prod.fst).length = 0
  · rw [if_pos h0] at h; cases h
  · rw [if_neg h0, hres] at h
    unfold statsOut at h
    dsimp only at h
    obtain ⟨c, ls, rfl, g1, g2, g3⟩ := emit_words ff rd hff _ _ _ _ _ _ h0 (by simp) _ (by
      intro c hc'
      obtain ⟨j, _, rfl⟩ := List.mem_map.mp hc'
      exact tableOf_length _ _) _ (by simp) out h
    obtain ⟨c', g4, g5⟩ := announces [chars "ID", chars "Snapshot"] [chars "M_sp [M_sun/h]", chars "R_sp [cMpc/h]", chars "Volume [cMpc^3/h^3]", chars "Surface Area [cMpc^2/h^2]",
      chars "Major Axis [cMpc/h]", chars "Intermediate Axis [cMpc/h]", chars "Minor Axis [cMpc/h]", chars "Ax", chars "Ay", chars "Az", chars "RMin [cMpc/h]", chars "RMax [cMpc/h]"]
      [1, 1, 1, 1, 1, 1, 1, 1, 1, 1, 1, 1, 1, 1] rfl
    have g4' : some c = some c' := by rw [← g1, ← g4]; rfl
    cases g4'
    refine ⟨c, ls, rfl, g5, by rw [g2, List.length_map], ?_⟩
    intro i hi
    obtain ⟨l, w1, w2⟩ := g3 i (by rw [List.length_map]; exact hi)
    refine ⟨rfl, l, w1, ?_⟩
    rw [w2, table_cols ff _ _ _ i (by rw [List.length_map]; exact hi)]
    rw [List.flatten_cons, List.flatten_cons]
    simp only [List.cons_append, List.nil_append]
    congr 2

/-- C97, `prof`. -/
theorem C97_prof (kind : Str) (order bins : Nat) (prof : List Int → List Int → List (List F) → Out (Option ((Nat → List F) × (Nat → List F)))) (stdin : Str) (rows : List (Int × Int))
    (hh : Holds ff stdin rows) (floats : List (List F)) (hco : parse ff stdin [0, 1] (profCols kind order) = .ok ([rows.map Prod.fst, rows.map Prod.snd], floats)) (rs rhos : Nat → List F)
    (hres : prof (rows.map Prod.fst) (rows.map Prod.snd) floats = .ok (some (rs, rhos))) (hshape : ∀ i < rows.length, (rs i).length = bins ∧ (rhos i).length = bins) (out : List Str)
    (h : profRun ff kind order bins prof stdin = .lines out) :
    Table [(chars "ID", 1), (chars "Snapshot", 1), (chars "R [cMpc/h]", bins), (chars "Rho [h^2 Msun/cMpc^3]", bins)] rows.length
      (fun i => [[itoa ((rows.map Prod.fst).getD i 0)], [itoa ((rows.map Prod.snd).getD i 0)], (rs i).map ff.fmt, (rhos i).map ff.fmt]) out := by
  unfold profRun at h
  rw [hco] at h
  simp only [andThen] at h
  rw [hres] at h
  simp only [profOut] at h
  obtain ⟨c1, u1, h⟩ := withCols_lines _ _ _ h
  obtain ⟨c2, u2, h⟩ := withCols_lines _ _ _ h
  have h0 : rows.length ≠ 0 := by
    intro h0
    rw [List.length_eq_zero_iff] at h0
    rw [h0] at u1
    cases u1
  have e : ∀ f : Nat → List F, tableOf (rows.map Prod.fst) f = (List.range rows.length).map f := by intro f; rw [tableOf, List.length_map]
  rw [e] at u1 u2
  obtain ⟨t1, t2, t3⟩ := transpose_texts ff rows.length bins rs (by omega) (fun i hi => (hshape i hi).1) c1 u1
  obtain ⟨s1, s2, s3⟩ := transpose_texts ff rows.length bins rhos (by omega) (fun i hi => (hshape i hi).2) c2 u2
  obtain ⟨c, ls, rfl, g1, g2, g3⟩ := emit_words ff rd hff _ _ _ _ _ _ (by rw [List.length_map]; exact h0) (by simp) _ (by
    intro c hc'
    rw [List.length_map]
    rcases List.mem_append.mp hc' with h | h
    · exact t2 c h
    · exact s2 c h) _ (by rw [List.length_append]; omega) out h
  obtain ⟨c', g4, g5⟩ := announces [chars "ID", chars "Snapshot", chars "R [cMpc/h]", chars "Rho [h^2 Msun/cMpc^3]"] [] [1, 1, bins, bins] rfl
  have g4' : some c = some c' := by rw [← g1, ← g4]; rfl
  cases g4'
  rw [List.length_map] at g2 g3
  refine ⟨c, ls, rfl, g5, g2, ?_⟩
  intro i hi
  obtain ⟨l, w1, w2⟩ := g3 i hi
  refine ⟨by simp [hshape i hi], l, w1, ?_⟩
  rw [w2, List.map_append, t3 i hi, s3 i hi]
  simp

/-- C97, `prof` with the angular fraction. -/
theorem C97_angular (order bins : Nat) (frac : List (List F) → Nat → Nat → F × F) (stdin : Str) (rows : List (Int × Int)) (hne : rows ≠ [])
    (hh : Holds ff stdin rows) (floats : List (List F)) (hco : parse ff stdin [0, 1] (profCols (chars "angular-fraction") order) = .ok ([rows.map Prod.fst, rows.map Prod.snd], floats)) (out : List Str)
    (h : angularRun ff order bins frac stdin = .lines out) :
    Table [(chars "ID", 1), (chars "Snapshot", 1), (chars "R [cMpc/h]", bins), (chars "Volume Fraction Contained", bins)] rows.length
      (fun i => [[itoa ((rows.map Prod.fst).getD i 0)], [itoa ((rows.map Prod.snd).getD i 0)], (List.range bins).map fun j => ff.fmt (frac floats i j).1,
        (List.range bins).map fun j => ff.fmt (frac floats i j).2]) out := by
  unfold angularRun at h
  rw [hco] at h
  simp only [andThen, angularOut] at h
  have h0 : (rows.map Prod.fst).length ≠ 0 := by
    rw [List.length_map]
    exact fun h => hne (List.length_eq_zero_iff.mp h)
  obtain ⟨c, ls, rfl, g1, g2, g3⟩ := emit_words ff rd hff _ _ _ _ _ _ h0 (by simp) _ (by
    intro c hc'
    rcases List.mem_append.mp hc' with h | h
    · obtain ⟨j, _, rfl⟩ := List.mem_map.mp h
      exact tableOf_length _ _
    · obtain ⟨j, _, rfl⟩ := List.mem_map.mp h
      exact tableOf_length _ _) _ (by rw [List.length_append]; omega) out h
  obtain ⟨c', g4, g5⟩ := announces [chars "ID", chars "Snapshot", chars "R [cMpc/h]", chars "Volume Fraction Contained"] [] [1, 1, bins, bins] rfl
  have g4' : some c = some c' := by rw [← g1, ← g4]; rfl
  cases g4'
  refine ⟨c, ls, rfl, g5, by rw [g2, List.length_map], ?_⟩
  intro i hi
  have hi' : i < (rows.map Prod.fst).length := by rw [List.length_map]; exact hi
  obtain ⟨l, w1, w2⟩ := g3 i hi'
  refine ⟨by simp, l, w1, ?_⟩
  rw [w2, List.map_append, table_cols ff _ _ (fun i j => (frac floats i j).1) i hi', table_cols ff _ _ (fun i j => (frac floats i j).2) i hi']
  simp

/-- C97, `potential`. -/
theorem C97_potential (ncells : Nat) (pot : List Int → List Int → List (List F) → Out ((Nat → List F) × (Nat → List F) × (Nat → List F) × (Nat → List F))) (stdin : Str) (rows : List (Int × Int))
    (hh : Holds ff stdin rows) (floats : List (List F)) (hco : parse ff stdin [0, 1] [2, 3, 4, 5, 6] = .ok ([rows.map Prod.fst, rows.map Prod.snd], floats)) (rs xy yz xz : Nat → List F)
    (hres : pot (rows.map Prod.fst) (rows.map Prod.snd) floats = .ok (rs, xy, yz, xz))
    (hshape : ∀ i < rows.length, (rs i).length = ncells ∧ (xy i).length = ncells * ncells ∧ (yz i).length = ncells * ncells ∧ (xz i).length = ncells * ncells) (out : List Str)
    (h : potentialRun ff ncells pot stdin = .lines out) :
    Table [(chars "ID", 1), (chars "Snapshot", 1), (chars "R [cMpc/h]", ncells), (chars "Phi_xy/(G Mvir / Rvir)", ncells * ncells), (chars "Phi_yz/(G Mvir / Rvir)", ncells * ncells),
        (chars "Phi_xz/(G Mvir / Rvir)", ncells * ncells)] rows.length
      (fun i => [[itoa ((rows.map Prod.fst).getD i 0)], [itoa ((rows.map Prod.snd).getD i 0)], (rs i).map ff.fmt, (xy i).map ff.fmt, (yz i).map ff.fmt, (xz i).map ff.fmt]) out := by
  unfold potentialRun at h
  rw [hco] at h
  simp only [andThen] at h
  by_cases h0 : (rows.map Prod.fst).length = 0
  · rw [if_pos h0] at h; cases h
  · rw [if_neg h0, hres] at h
    dsimp only at h
    rw [List.length_map] at h0
    obtain ⟨c1, u1, h⟩ := withCols_lines _ _ _ h
    obtain ⟨c2, u2, h⟩ := withCols_lines _ _ _ h
    obtain ⟨c3, u3, h⟩ := withCols_lines _ _ _ h
    obtain ⟨c4, u4, h⟩ := withCols_lines _ _ _ h
    have e : ∀ f : Nat → List F, tableOf (rows.map Prod.fst) f = (List.range rows.length).map f := by intro f; rw [tableOf, List.length_map]
    rw [e] at u1 u2 u3 u4
    obtain ⟨a1, a2, a3⟩ := transpose_texts ff rows.length _ rs (by omega) (fun i hi => (hshape i hi).1) c1 u1
    obtain ⟨b1, b2, b3⟩ := transpose_texts ff rows.length _ xy (by omega) (fun i hi => (hshape i hi).2.1) c2 u2
    obtain ⟨d1, d2, d3⟩ := transpose_texts ff rows.length _ yz (by omega) (fun i hi => (hshape i hi).2.2.1) c3 u3
    obtain ⟨f1, f2, f3⟩ := transpose_texts ff rows.length _ xz (by omega) (fun i hi => (hshape i hi).2.2.2) c4 u4
    obtain ⟨c, ls, rfl, g1, g2, g3⟩ := emit_words ff rd hff _ _ _ _ _ _ (by rw [List.length_map]; exact h0) (by simp) _ (by
      intro c hc'
      rw [List.length_map]
      rw [List.mem_append, List.mem_append, List.mem_append] at hc'
      rcases hc' with ((h | h) | h) | h
      · exact a2 c h
      · exact b2 c h
      · exact d2 c h
      · exact f2 c h) _ (by simp only [List.length_append, a1, b1, d1, f1]; ring) out h
    obtain ⟨c', g4, g5⟩ := announces [chars "ID", chars "Snapshot", chars "R [cMpc/h]", chars "Phi_xy/(G Mvir / Rvir)", chars "Phi_yz/(G Mvir / Rvir)", chars "Phi_xz/(G Mvir / Rvir)"] []
      [1, 1, ncells, ncells * ncells, ncells * ncells, ncells * ncells] rfl
    have g4' : some c = some c' := by rw [← g1, ← g4]; simp; rfl
    cases g4'
    rw [List.length_map] at g2 g3
    refine ⟨c, ls, rfl, g5, g2, ?_⟩
    intro i hi
    obtain ⟨l, w1, w2⟩ := g3 i hi
    refine ⟨by simp [hshape i hi], l, w1, ?_⟩
    rw [w2, List.map_append, List.map_append, List.map_append, a3 i hi, b3 i hi, d3 i hi, f3 i hi]
    simp

/-- C97, `phase`: the lines hold RBins radii, VBins velocities and RBins · VBins densities, while the header announces VBins radii and RBins velocities. -/
theorem phase_table (rbins vbins : Nat) (phase : List Int → List Int → List (List F) → Out ((Nat → List F) × (Nat → List F) × (Nat → List F))) (stdin : Str) (rows : List (Int × Int))
    (hh : Holds ff stdin rows) (floats : List (List F)) (hco : parse ff stdin [0, 1] [2, 3, 4, 5, 6, 7, 8, 9] = .ok ([rows.map Prod.fst, rows.map Prod.snd], floats)) (rs vs rhos : Nat → List F)
    (hres : phase (rows.map Prod.fst) (rows.map Prod.snd) floats = .ok (rs, vs, rhos))
    (hshape : ∀ i < rows.length, (rs i).length = rbins ∧ (vs i).length = vbins ∧ (rhos i).length = rbins * vbins) (out : List Str) (h : phaseRun ff rbins vbins phase stdin = .lines out) :
    ∃ header ls, out = header :: ls ∧
      Announces [(chars "ID", 1), (chars "Snapshot", 1), (chars "R [cMpc/h]", vbins), (chars "V [pkm/s]", rbins), (chars "Rho [h^2 Msun/cMpc^3/(pkm/s), V major]", rbins * vbins)] header ∧
      ls.length = rows.length ∧ ∀ i < rows.length, ∃ l, ls[i]? = some l ∧
        words ' ' l = itoa ((rows.map Prod.fst).getD i 0) :: itoa ((rows.map Prod.snd).getD i 0) :: ((rs i).map ff.fmt ++ (vs i).map ff.fmt ++ (rhos i).map ff.fmt) := by
  unfold phaseRun at h
  rw [hco] at h
  simp only [andThen] at h
  by_cases h0 : (rows.map Prod.fst).length = 0
  · rw [if_pos h0] at h; cases h
  · rw [if_neg h0, hres] at h
    dsimp only at h
    rw [List.length_map] at h0
    obtain ⟨c1, u1, h⟩ := withCols_lines _ _ _ h
    obtain ⟨c2, u2, h⟩ := withCols_lines _ _ _ h
    obtain ⟨c3, u3, h⟩ := withCols_lines _ _ _ h
    have e : ∀ f : Nat → List F, tableOf (rows.map Prod.fst) f = (List.range rows.length).map f := by intro f; rw [tableOf, List.length_map]
    rw [e] at u1 u2 u3
    obtain ⟨a1, a2, a3⟩ := transpose_texts ff rows.length _ rs (by omega) (fun i hi => (hshape i hi).1) c1 u1
    obtain ⟨b1, b2, b3⟩ := transpose_texts ff rows.length _ vs (by omega) (fun i hi => (hshape i hi).2.1) c2 u2
    obtain ⟨d1, d2, d3⟩ := transpose_texts ff rows.length _ rhos (by omega) (fun i hi => (hshape i hi).2.2) c3 u3
    obtain ⟨c, ls, rfl, g1, g2, g3⟩ := emit_words ff rd hff _ _ _ _ _ _ (by rw [List.length_map]; exact h0) (by simp) _ (by
      intro c hc'
      rw [List.length_map]
      rw [List.mem_append, List.mem_append] at hc'
      rcases hc' with (h | h) | h
      · exact a2 c h
      · exact b2 c h
      · exact d2 c h) _ (by simp only [List.length_append]; ring) out h
    obtain ⟨c', g4, g5⟩ := announces [chars "ID", chars "Snapshot", chars "R [cMpc/h]", chars "V [pkm/s]", chars "Rho [h^2 Msun/cMpc^3/(pkm/s), V major]"] []
      [1, 1, vbins, rbins, rbins * vbins] rfl
    have g4' : some c = some c' := by rw [← g1, ← g4]; simp; rfl
    cases g4'
    rw [List.length_map] at g2 g3
    refine ⟨c, ls, rfl, g5, g2, ?_⟩
    intro i hi
    obtain ⟨l, w1, w2⟩ := g3 i hi
    refine ⟨l, w1, ?_⟩
    rw [w2, List.map_append, List.map_append, a3 i hi, b3 i hi, d3 i hi]

/-- C97, `phase`, as far as it goes: with as many bins in radius as in velocity. -/
theorem C97_phase_partial (bins : Nat) (phase : List Int → List Int → List (List F) → Out ((Nat → List F) × (Nat → List F) × (Nat → List F))) (stdin : Str) (rows : List (Int × Int))
    (hh : Holds ff stdin rows) (floats : List (List F)) (hco : parse ff stdin [0, 1] [2, 3, 4, 5, 6, 7, 8, 9] = .ok ([rows.map Prod.fst, rows.map Prod.snd], floats)) (rs vs rhos : Nat → List F)
    (hres : phase (rows.map Prod.fst) (rows.map Prod.snd) floats = .ok (rs, vs, rhos))
    (hshape : ∀ i < rows.length, (rs i).length = bins ∧ (vs i).length = bins ∧ (rhos i).length = bins * bins) (out : List Str) (h : phaseRun ff bins bins phase stdin = .lines out) :
    Table [(chars "ID", 1), (chars "Snapshot", 1), (chars "R [cMpc/h]", bins), (chars "V [pkm/s]", bins), (chars "Rho [h^2 Msun/cMpc^3/(pkm/s), V major]", bins * bins)] rows.length
      (fun i => [[itoa ((rows.map Prod.fst).getD i 0)], [itoa ((rows.map Prod.snd).getD i 0)], (rs i).map ff.fmt, (vs i).map ff.fmt, (rhos i).map ff.fmt]) out := by
  obtain ⟨c, ls, rfl, g1, g2, g3⟩ := phase_table ff rd hff bins bins phase stdin rows hh floats hco rs vs rhos hres hshape out h
  refine ⟨c, ls, rfl, g1, g2, ?_⟩
  intro i hi
  obtain ⟨l, w1, w2⟩ := g3 i hi
  exact ⟨by simp [hshape i hi], l, w1, by rw [w2]; simp⟩

omit hff

/-! ### Examples, and what is false -/

/-- A number format with two numbers. -/
def bitFmt : FloatFmt Bool := ⟨fun b => if b then ['1'] else ['0'], fun s => if s = ['1'] then some true else if s = ['0'] then some false else none⟩

theorem bitFmt_reads : Reads bitFmt id := by
  intro x
  cases x <;> exact ⟨by decide, by unfold numChar; decide, by decide⟩

/-- A catalog of two halos. -/
def twoHalos : Str := chars "# a comment\n 5 10 0 0 0 1\n77 11 1 1 1 1\n"

theorem twoHalos_holds : Holds bitFmt twoHalos [(5, 10), (77, 11)] := by unfold Holds; decide +kernel

/-- The coefficients of a shell of Order 1. -/
def bitLoop : List Int → List Int → List (List Bool) → Out (Nat → List Bool) := fun _ _ _ => .ok fun i => [decide (i = 0), true]

def shellText : List Str := [chars "# Column contents: ID(0) Snapshot(1) X [cMpc/h](2) Y [cMpc/h](3) Z [cMpc/h](4) R200m [cMpc/h](5) P_ijk(6-7)", chars " 5 10 0 0 0 1 1 1", chars "77 11 1 1 1 1 0 1"]

example : shellRun bitFmt bitLoop twoHalos = .lines shellText := by decide +kernel

example : Holds bitFmt (printed shellText) [(5, 10), (77, 11)] := C96_shell bitFmt id bitFmt_reads bitLoop twoHalos _ _ twoHalos_holds (by decide +kernel)

/-- The numbers of a row. -/
def bitStats : List Int → List Int → List (List Bool) → List (List Bool) → Out (Nat → Fin 12 → Bool) := fun _ _ _ coeffs => .ok fun i j => (coeffs.getD i []).getD (j.val % 2) false

/-- The tools of a pipe `shell | stats`. -/
def bitDeps : Deps where
  help := fun _ => none
  description := []
  version := []
  globalText := []
  global := some ⟨chars "gotetra", chars "Text", chars "consistent-trees", chars "nil"⟩
  readMode := fun _ _ _ => .ok
  memoText := []
  memo := .ok
  catalogs := .ok
  textHalo := .ok
  run := fun mode data => if mode = chars "shell" then shellRun bitFmt bitLoop data else statsRun bitFmt 1 bitStats data

theorem andThen_exit {α : Type} (o : Out α) (k : α → RunRes) (h : ∀ a t, k a ≠ .exit t) (t : Str) : andThen o k ≠ .exit t := by
  cases o with
  | ok a => exact h a t
  | err => exact fun h => (nomatch h)
  | panic => exact fun h => (nomatch h)

theorem withCols_exit (rows : List (List F)) (k : List (List F) → RunRes) (h : ∀ a t, k a ≠ .exit t) (t : Str) : withCols rows k ≠ .exit t := by
  unfold withCols
  cases transpose rows with
  | none => exact fun h => (nomatch h)
  | some cols => exact h cols t

theorem emit_exit (ff : FloatFmt F) (a b : List Str) (c : List Nat) (d : List Int) (e : List (List Int)) (f : List (List F)) (g : List Nat) (t : Str) : emit ff a b c d e f g ≠ .exit t := by
  unfold emit
  cases formatCols ff e f g with
  | none => exact fun h => (nomatch h)
  | some ls =>
    cases commentString a b c d with
    | none => exact fun h => (nomatch h)
    | some c => exact fun h => (nomatch h)

theorem shell_exit (ff : FloatFmt F) (loop : List Int → List Int → List (List F) → Out (Nat → List F)) (data t : Str) : shellRun ff loop data ≠ .exit t := by
  unfold shellRun
  refine andThen_exit _ _ ?_ t
  rintro ⟨A, B⟩ t
  split
  · rename_i ids snaps coords _
    by_cases h0 : ids.length = 0
    · rw [if_pos h0]; exact fun h => (nomatch h)
    · rw [if_neg h0]
      exact andThen_exit _ _ (fun out t => withCols_exit _ _ (fun cols t => emit_exit _ _ _ _ _ _ _ _ t) t) t
  · exact fun h => (nomatch h)

theorem stats_exit (ff : FloatFmt F) (o : Nat) (stats : List Int → List Int → List (List F) → List (List F) → Out (Nat → Fin 12 → F)) (data t : Str) : statsRun ff o stats data ≠ .exit t := by
  unfold statsRun
  refine andThen_exit _ _ ?_ t
  rintro ⟨A, B⟩ t
  split
  · rename_i ids snaps floats _
    refine withCols_exit _ _ (fun cols t => ?_) t
    by_cases h0 : ids.length = 0
    · rw [if_pos h0]; exact fun h => (nomatch h)
    · rw [if_neg h0]
      exact andThen_exit _ _ (fun out t => emit_exit _ _ _ _ _ _ _ _ t) t
  · exact fun h => (nomatch h)

/-- The pipe `shell | stats` meets the hypotheses of C96, ends with status 0, and prints two rows. -/
theorem C96_pipe_example : (∀ st ∈ [(bitDeps, [chars "shell"]), (bitDeps, [chars "stats"])], Stage bitFmt st) ∧
    (pipe [(bitDeps, [chars "shell"]), (bitDeps, [chars "stats"])] ⟨0, twoHalos⟩).status = 0 ∧ (pipe [(bitDeps, [chars "shell"]), (bitDeps, [chars "stats"])] ⟨0, twoHalos⟩).out ≠ [] := by
  have hq : bitDeps.Quiet := ⟨rfl, rfl, by rintro s h; cases h; decide⟩
  refine ⟨?_, by decide +kernel, by decide +kernel⟩
  intro st hst
  simp only [List.mem_cons, List.not_mem_nil, or_false] at hst
  rcases hst with rfl | rfl
  · exact ⟨hq, chars "shell", [], rfl, ⟨_, _, rfl, by decide⟩, (C96_shell bitFmt id bitFmt_reads bitLoop).or, shell_exit bitFmt bitLoop⟩
  · exact ⟨hq, chars "stats", [], rfl, ⟨_, _, rfl, by decide⟩, (C96_stats bitFmt id bitFmt_reads 1 bitStats).or, stats_exit bitFmt 1 bitStats⟩

/-- C98 fails when `stats` is run with a smaller Order than `shell`: it accepts the catalog, and computes with a different shell.  (Order 4 and Order 3, a shell x³ with one coefficient; numbers are
printed and read without rounding of 0 and 1.) -/
theorem C98_order_false (ff : FloatFmt ℝ) (rd : ℝ → ℝ) (hff : Reads ff rd) (h0 : rd 0 = 0) (h1 : rd 1 = 1) (loop : List Int → List Int → List (List ℝ) → Out (Nat → List ℝ)) (stdin : Str)
    (rows : List (Int × Int)) (hne : rows ≠ []) (hh : Holds ff stdin rows) (coords : List (List ℝ)) (hco : parse ff stdin [0, 1] [2, 3, 4, 5] = .ok ([rows.map Prod.fst, rows.map Prod.snd], coords))
    (hres : loop (rows.map Prod.fst) (rows.map Prod.snd) coords = .ok fun _ => [0, 0, 0, 1] ++ List.replicate 28 0) (out : List Str) (h : shellRun ff loop stdin = .lines out) :
    ∃ coeffs : List (List ℝ), (∀ stats, statsRun ff 3 stats (printed out) = andThen (stats (rows.map Prod.fst) (rows.map Prod.snd) (coords.map fun c => c.map rd) coeffs)
        (statsOut ff (rows.map Prod.fst) (rows.map Prod.snd))) ∧ coeffs.length = rows.length ∧
      ∀ c ∈ coeffs, Shellfish.Analyze.pennaFunc c 3 3 2 0 (Real.pi / 2) = some 0 ∧ Shellfish.Analyze.pennaFunc ([0, 0, 0, 1] ++ List.replicate 28 0) 4 4 2 0 (Real.pi / 2) = some 1 := by
  refine ⟨_, fun stats => C98_shell_stats ff rd hff loop stdin rows hh coords hco _ hres 4 (by simp) out h 3 (by norm_num) (by norm_num) stats, by simp, ?_⟩
  intro c hc
  obtain ⟨i, _, rfl⟩ := List.mem_map.mp hc
  constructor
  · rw [Shellfish.Analyze.C75_polynomial _ _ _ _ (by simp)]
    simp [Finset.sum_range_succ, List.replicate_succ, Shellfish.Analyze.cartesian, h0, h1]
  · rw [Shellfish.Analyze.C75_polynomial _ _ _ _ (by simp)]
    simp [Finset.sum_range_succ, List.replicate_succ, Shellfish.Analyze.cartesian]

/-- C98 fails of a catalog without halos: `stats` panics (where it means to say "No input IDs."). -/
theorem C98_empty_stats_false (ff : FloatFmt F) (order : Nat) (ho : 0 < order) (stats : List Int → List Int → List (List F) → List (List F) → Out (Nat → Fin 12 → F)) :
    statsRun ff order stats (chars "# Column contents: ID(0) Snapshot(1)\n") = .panic := by
  have hd : dataLines (chars "# Column contents: ID(0) Snapshot(1)\n") = [] := by decide +kernel
  unfold statsRun
  rw [parse_eq, hd]
  unfold parseLines
  simp only [andThen, List.map_cons, List.map_nil]
  have hk : ∀ k : Nat, withCols (List.replicate (k + 1) ([] : List F)) (fun coeffs => if ([] : List Int).length = 0 then RunRes.panic else
      andThen (stats [] [] ((((List.range (4 + 2 * order * order)).map fun x => x + 2).map fun _ => ([] : List F)).take 4) coeffs) (statsOut ff [] [])) = .panic := by
    intro k
    unfold withCols
    cases transpose (List.replicate (k + 1) ([] : List F)) with
    | none => rfl
    | some cols => simp
  have e : (((List.range (4 + 2 * order * order)).map fun x => x + 2).map fun _ => ([] : List F)).drop 4 = List.replicate (2 * order * order - 1 + 1) [] := by
    have : 0 < 2 * order * order := Nat.mul_pos (Nat.mul_pos (by norm_num) ho) ho
    rw [List.map_const', List.drop_replicate, List.length_map, List.length_range]
    congr 1
    omega
  rw [e]
  exact hk _

/-- C97 fails of `phase`, whenever RBins and VBins differ: the header announces VBins columns of radii and RBins columns of velocities, but each line holds RBins radii and then VBins velocities. -/
theorem C97_phase_false (ff : FloatFmt F) (rd : F → F) (hff : Reads ff rd) (rbins vbins : Nat)
    (phase : List Int → List Int → List (List F) → Out ((Nat → List F) × (Nat → List F) × (Nat → List F))) (stdin : Str) (rows : List (Int × Int))
    (hh : Holds ff stdin rows) (floats : List (List F)) (hco : parse ff stdin [0, 1] [2, 3, 4, 5, 6, 7, 8, 9] = .ok ([rows.map Prod.fst, rows.map Prod.snd], floats)) (rs vs rhos : Nat → List F)
    (hres : phase (rows.map Prod.fst) (rows.map Prod.snd) floats = .ok (rs, vs, rhos))
    (hshape : ∀ i < rows.length, (rs i).length = rbins ∧ (vs i).length = vbins ∧ (rhos i).length = rbins * vbins) (out : List Str) (h : phaseRun ff rbins vbins phase stdin = .lines out) :
    ∃ header ls, out = header :: ls ∧
      Announces [(chars "ID", 1), (chars "Snapshot", 1), (chars "R [cMpc/h]", vbins), (chars "V [pkm/s]", rbins), (chars "Rho [h^2 Msun/cMpc^3/(pkm/s), V major]", rbins * vbins)] header ∧
      ls.length = rows.length ∧ ∀ i < rows.length, ∃ l, ls[i]? = some l ∧
        words ' ' l = itoa ((rows.map Prod.fst).getD i 0) :: itoa ((rows.map Prod.snd).getD i 0) :: ((rs i).map ff.fmt ++ (vs i).map ff.fmt ++ (rhos i).map ff.fmt) :=
  phase_table ff rd hff rbins vbins phase stdin rows hh floats hco rs vs rhos hres hshape out h

/-- A concrete case: three bins in radius, one in velocity; the radii are in the columns 2, 3 and 4, and the header says that column 2 holds the radii and the columns 3-5 the velocities. -/
theorem C97_phase_example : phaseRun bitFmt 3 1 (fun _ _ _ => .ok (fun _ => [true, true, true], fun _ => [false], fun _ => [true, false, true])) (chars "5 10 0 0 0 1 0 0 0 1\n") =
    .lines [chars "# Column contents: ID(0) Snapshot(1) R [cMpc/h](2) V [pkm/s](3-5) Rho [h^2 Msun/cMpc^3/(pkm/s), V major](6-8)", chars "5 10 1 1 1 0 1 0 1"] := by decide +kernel

/-- C98, `shell | stats`: a catalog of shells with fewer coefficients than the Order of `stats` needs is rejected with an error. -/
theorem C98_order_larger (ff : FloatFmt F) (rd : F → F) (hff : Reads ff rd) (loop : List Int → List Int → List (List F) → Out (Nat → List F)) (stdin : Str) (rows : List (Int × Int))
    (hh : Holds ff stdin rows) (xs ys zs rs : List F) (hco : parse ff stdin [0, 1] [2, 3, 4, 5] = .ok ([rows.map Prod.fst, rows.map Prod.snd], [xs, ys, zs, rs])) (res : Nat → List F)
    (hres : loop (rows.map Prod.fst) (rows.map Prod.snd) [xs, ys, zs, rs] = .ok res) (o : Nat) (hshape : ∀ i < rows.length, (res i).length = 2 * o * o) (out : List Str)
    (h : shellRun ff loop stdin = .lines out) (o' : Nat) (ho : o < o') (stats : List Int → List Int → List (List F) → List (List F) → Out (Nat → Fin 12 → F)) :
    statsRun ff o' stats (printed out) = .err := by
  obtain ⟨header, ls, e1, ⟨hls, e2, _⟩, e3, e4⟩ := C97_shell ff rd hff loop stdin rows hh xs ys zs rs hco res hres _ hshape out h
  obtain ⟨ls', w1, w2⟩ : ∃ ls', out.tail = ls' ∧ ∀ l ∈ ls', ∀ c ∈ l, c = ' ' ∨ numChar c := by
    unfold shellRun at h
    rw [hco] at h
    simp only [andThen] at h
    by_cases h0 : (rows.map Prod.fst).length = 0
    · rw [if_pos h0] at h; cases h
    · rw [if_neg h0, hres] at h
      dsimp only at h
      obtain ⟨cols, h3, h⟩ := withCols_lines _ _ _ h
      unfold emit at h
      split at h
      · rename_i l c hf _
        cases h
        exact ⟨_, rfl, formatCols_chars ff _ _ _ (fun col _ x _ => (hff x).2.1) l hf⟩
      · cases h
  rw [e1] at w1
  cases w1
  have hne : rows ≠ [] := by
    rintro rfl
    unfold shellRun at h
    rw [hco] at h
    simp [andThen] at h
  have hpos : 0 < rows.length := List.length_pos_iff.mpr hne
  have hwords : ∀ l ∈ ls, (words ' ' l).length = 6 + 2 * o * o := by
    intro l hl
    obtain ⟨i, hi⟩ := List.mem_iff_getElem?.mp hl
    have hi' : i < rows.length := by rw [← e3]; exact (List.getElem?_eq_some_iff.mp hi).1
    obtain ⟨g1, l', g2, g3⟩ := e4 i hi'
    rw [hi] at g2
    cases g2
    rw [g3]
    simp [hshape i hi']
    omega
  obtain ⟨t, rfl, ht⟩ : ∃ t, header = '#' :: t ∧ '\n' ∉ t := by
    obtain ⟨c', g4, g5⟩ := announces [chars "ID", chars "Snapshot"] [chars "X [cMpc/h]", chars "Y [cMpc/h]", chars "Z [cMpc/h]", chars "R200m [cMpc/h]", chars "P_ijk"] [1, 1, 1, 1, 1, 1, 2 * o * o] rfl
    obtain ⟨t, k1, k2⟩ := comment_header _ _ _ _ c' g4 (by decide)
    refine ⟨t, ?_, k2⟩
    rw [← k1]
    obtain ⟨ls2, q1, q2, q3⟩ := g5
    rename_i e5
    rw [q1, e2]
    congr 2
    apply List.ext_getElem?
    intro k
    by_cases hk : k < 7
    · obtain ⟨nm, sz, hq⟩ : ∃ nm sz, ([(chars "ID", 1), (chars "Snapshot", 1), (chars "X [cMpc/h]", 1), (chars "Y [cMpc/h]", 1), (chars "Z [cMpc/h]", 1), (chars "R200m [cMpc/h]", 1),
          (chars "P_ijk", 2 * o * o)] : List (Str × Nat))[k]? = some (nm, sz) := by
        interval_cases k <;> exact ⟨_, _, rfl⟩
      rw [e5.2 k nm sz hq, q3 k nm sz hq]
      rfl
    · rw [List.getElem?_eq_none (by rw [e5.1]; simpa using hk), List.getElem?_eq_none (by rw [q2]; simpa using hk)]
  obtain ⟨hp, htab⟩ := printed_table t ht ls w2 (by
    intro l hl h0
    have := hwords l hl
    rw [h0] at this
    simp at this
    omega)
  have hsz : 2 * o * o < 2 * o' * o' := by nlinarith
  have hcol : 4 + 2 * o' * o' - 1 + 2 ∈ (List.range (4 + 2 * o' * o')).map (· + 2) := List.mem_map_of_mem (List.mem_range.mpr (by omega))
  rw [e1]
  unfold statsRun
  cases hparse : parse ff (printed (('#' :: t) :: ls)) [0, 1] ((List.range (4 + 2 * o' * o')).map (· + 2)) with
  | err => rfl
  | ok r =>
    obtain ⟨A, B⟩ := r
    rw [C10_ok_iff ff _ hp, htab] at hparse
    have hl0 : ls ≠ [] := by intro h0; rw [h0] at e3; simp at e3; omega
    obtain ⟨l, ls', hcons⟩ := List.exists_cons_of_ne_nil hl0
    have := hparse.1.2 (words ' ' l) (List.mem_map_of_mem (by rw [hcons]; simp)) _ (List.mem_append_right _ hcol)
    rw [hwords l (by rw [hcons]; simp)] at this
    omega
  | panic =>
    rw [C10_panic_iff ff _ hp, htab] at hparse
    obtain ⟨r0, rest, hr, hc, _⟩ := hparse
    have hm : r0 ∈ ls.map (words ' ') := by rw [hr]; simp
    obtain ⟨l, hl, rfl⟩ := List.mem_map.mp hm
    have := hc _ (List.mem_append_right _ hcol)
    rw [hwords l hl] at this
    omega

end Shellfish.Pipe
