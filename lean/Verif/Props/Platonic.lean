/-
C88: the Platonic solids.
-/
import Verif.Model.Platonic
import Mathlib.Tactic.Linarith
import Mathlib.Tactic.FieldSimp
import Mathlib.Tactic.LinearCombination
import Mathlib.Tactic.NormNum
import Mathlib.Tactic.Ring

namespace Shellfish.Platonic

/-! ### The specification -/

/-- The scalar product. -/
noncomputable def dot (p q : V3) : ℝ := p.1 * q.1 + p.2.1 * q.2.1 + p.2.2 * q.2.2

/-- The squared distance of two points. -/
noncomputable def dist2 (p q : V3) : ℝ := dot (p.1 - q.1, p.2.1 - q.2.1, p.2.2 - q.2.2) (p.1 - q.1, p.2.1 - q.2.1, p.2.2 - q.2.2)

/-- Two vectors are normal to the same plane through the origin. -/
def SamePlane (n m : V3) : Prop := ∀ p, dot n p = 0 ↔ dot m p = 0

/-- The numbers of sides of the Platonic solids. -/
def IsCount (n : Int) : Prop := n = 4 ∨ n = 6 ∨ n = 8 ∨ n = 12 ∨ n = 20

/-! ### Exact arithmetic with one quadratic irrational -/

/-- `p + q w`. -/
structure Q where
  p : Int
  q : Int
deriving DecidableEq, Inhabited

namespace Q
def add (x y : Q) : Q := ⟨x.p + y.p, x.q + y.q⟩
def neg (x : Q) : Q := ⟨-x.p, -x.q⟩
/-- The product when `w² = s w + t`. -/
def mul (s t : Int) (x y : Q) : Q := ⟨x.p * y.p + t * (x.q * y.q), x.p * y.q + x.q * y.p + s * (x.q * y.q)⟩
/-- A sufficient condition to be positive for `lo/1000 ≤ w ≤ hi/1000`. -/
def pos (lo hi : Int) (x : Q) : Bool := if 0 ≤ x.q then 0 < 1000 * x.p + lo * x.q else 0 < 1000 * x.p + hi * x.q
noncomputable def eval (w : ℝ) (x : Q) : ℝ := x.p + x.q * w

theorem eval_add (w : ℝ) (x y : Q) : (x.add y).eval w = x.eval w + y.eval w := by simp only [add, eval]; push_cast; ring
theorem eval_neg (w : ℝ) (x : Q) : x.neg.eval w = -x.eval w := by simp only [neg, eval]; push_cast; ring
theorem eval_mul (w : ℝ) (s t : Int) (hw : w * w = s * w + t) (x y : Q) : (mul s t x y).eval w = x.eval w * y.eval w := by
  simp only [mul, eval]; push_cast
  linear_combination (-(x.q : ℝ) * y.q) * hw
theorem pos_eval (w : ℝ) (lo hi : Int) (hl : (lo : ℝ) / 1000 ≤ w) (hh : w ≤ (hi : ℝ) / 1000) (x : Q) (h : x.pos lo hi = true) : 0 < x.eval w := by
  unfold pos at h
  unfold eval
  by_cases hq : 0 ≤ x.q
  · simp only [hq, if_true, decide_eq_true_eq] at h
    have h1 : (0 : ℝ) < 1000 * x.p + lo * x.q := by exact_mod_cast h
    have h2 : (0 : ℝ) ≤ x.q := by exact_mod_cast hq
    nlinarith
  · simp only [hq, if_false, decide_eq_true_eq] at h
    have h1 : (0 : ℝ) < 1000 * x.p + hi * x.q := by exact_mod_cast h
    have h2 : (x.q : ℝ) < 0 := by exact_mod_cast not_le.1 hq
    nlinarith
end Q

abbrev Q3 := Q × Q × Q

/-- The parameters of one solid: `w² = s w + t`, bounds of `w` in thousandths. -/
structure Par where
  s : Int
  t : Int
  lo : Int
  hi : Int

def qdot (P : Par) (x y : Q3) : Q := ((Q.mul P.s P.t x.1 y.1).add (Q.mul P.s P.t x.2.1 y.2.1)).add (Q.mul P.s P.t x.2.2 y.2.2)
def qneg (x : Q3) : Q3 := (x.1.neg, x.2.1.neg, x.2.2.neg)
def qadd (x y : Q3) : Q3 := (x.1.add y.1, x.2.1.add y.2.1, x.2.2.add y.2.2)
def qsum (vs : List Q3) : Q3 := vs.foldl qadd (⟨0, 0⟩, ⟨0, 0⟩, ⟨0, 0⟩)
/-- A scaled vector. -/
noncomputable def ev (w k : ℝ) (x : Q3) : V3 := (k * x.1.eval w, k * x.2.1.eval w, k * x.2.2.eval w)

theorem ev_add (w k : ℝ) (x y : Q3) : ev w k (qadd x y) = ((ev w k x).1 + (ev w k y).1, (ev w k x).2.1 + (ev w k y).2.1, (ev w k x).2.2 + (ev w k y).2.2) := by
  simp only [ev, qadd, Q.eval_add, mul_add]

theorem ev_neg (w k : ℝ) (x : Q3) : ev w k (qneg x) = (-(ev w k x).1, -(ev w k x).2.1, -(ev w k x).2.2) := by
  simp only [ev, qneg, Q.eval_neg, mul_neg]

theorem dot_ev (P : Par) (w k : ℝ) (hw : w * w = P.s * w + P.t) (x y : Q3) : dot (ev w k x) (ev w k y) = k * k * (qdot P x y).eval w := by
  simp only [dot, ev, qdot, Q.eval_add, Q.eval_mul w P.s P.t hw]
  ring

theorem sumVerts_ev (w k : ℝ) (vs : List Q3) : sumVerts (vs.map (ev w k)) = ev w k (qsum vs) := by
  have : ∀ (vs : List Q3) (a : Q3), (vs.map (ev w k)).foldl (fun v p => (v.1 + p.1, v.2.1 + p.2.1, v.2.2 + p.2.2)) (ev w k a) = ev w k (vs.foldl qadd a) := by
    intro vs
    induction vs with
    | nil => intro a; rfl
    | cons v vs ih => intro a; rw [List.map_cons, List.foldl_cons, List.foldl_cons, ← ih, ev_add]
  have h := this vs (⟨0, 0⟩, ⟨0, 0⟩, ⟨0, 0⟩)
  rw [show ev w k (⟨0, 0⟩, ⟨0, 0⟩, ⟨0, 0⟩) = (0, 0, 0) by simp [ev, Q.eval]] at h
  exact h

/-! ### The tables in exact form -/

def z : Q := ⟨0, 0⟩
def o : Q := ⟨1, 0⟩
def qTetrahedron : List (List Q3) := [
  [(o, o, o), (o.neg, o, o.neg), (o, o.neg, o.neg)],
  [(o.neg, o, o.neg), (o.neg, o.neg, o), (o, o.neg, o.neg)],
  [(o, o, o), (o, o.neg, o.neg), (o.neg, o.neg, o)],
  [(o, o, o), (o.neg, o.neg, o), (o.neg, o, o.neg)]]

def qHexahedron : List (List Q3) := [
  [(o, o.neg, o.neg), (o, o, o.neg), (o, o, o), (o, o.neg, o)],
  [(o.neg, o, o.neg), (o.neg, o, o), (o, o, o), (o, o, o.neg)],
  [(o.neg, o.neg, o), (o, o.neg, o), (o, o, o), (o.neg, o, o)],
  [(o.neg, o.neg, o.neg), (o, o.neg, o.neg), (o, o.neg, o), (o.neg, o.neg, o)],
  [(o.neg, o.neg, o.neg), (o.neg, o.neg, o), (o.neg, o, o), (o.neg, o, o.neg)],
  [(o.neg, o.neg, o.neg), (o.neg, o, o.neg), (o, o, o.neg), (o, o.neg, o.neg)]]

def qOctahedron (a b : Q) : List (List Q3) := [
  [(a.neg, z, a), (a.neg, z, a.neg), (z, b, z)],
  [(a.neg, z, a.neg), (a, z, a.neg), (z, b, z)],
  [(a, z, a.neg), (a, z, a), (z, b, z)],
  [(a, z, a), (a.neg, z, a), (z, b, z)],
  [(a, z, a), (a, z, a.neg), (z, b.neg, z)],
  [(a.neg, z, a), (a, z, a), (z, b.neg, z)],
  [(a.neg, z, a.neg), (a.neg, z, a), (z, b.neg, z)],
  [(a, z, a.neg), (a.neg, z, a.neg), (z, b.neg, z)]]

def qDodecahedron (b c : Q) : List (List Q3) := [
  [(c, z, o), (c.neg, z, o), (b.neg, b, b), (z, o, c), (b, b, b)],
  [(c.neg, z, o), (c, z, o), (b, b.neg, b), (z, o.neg, c), (b.neg, b.neg, b)],
  [(z, o.neg, c.neg), (z, o.neg, c), (b.neg, b.neg, b), (o.neg, c.neg, z), (b.neg, b.neg, b.neg)],
  [(z, o.neg, c), (z, o.neg, c.neg), (b, b.neg, b.neg), (o, c.neg, z), (b, b.neg, b)],
  [(o, c, z), (o, c.neg, z), (b, b.neg, b), (c, z, o), (b, b, b)],
  [(o.neg, c.neg, z), (o.neg, c, z), (b.neg, b, b), (c.neg, z, o), (b.neg, b.neg, b)],
  [(c, z, o.neg), (c.neg, z, o.neg), (b.neg, b.neg, b.neg), (z, o.neg, c.neg), (b, b.neg, b.neg)],
  [(c.neg, z, o.neg), (c, z, o.neg), (b, b, b.neg), (z, o, c.neg), (b.neg, b, b.neg)],
  [(z, o, c.neg), (z, o, c), (b, b, b), (o, c, z), (b, b, b.neg)],
  [(z, o, c), (z, o, c.neg), (b.neg, b, b.neg), (o.neg, c, z), (b.neg, b, b)],
  [(o.neg, c, z), (o.neg, c.neg, z), (b.neg, b.neg, b.neg), (c.neg, z, o.neg), (b.neg, b, b.neg)],
  [(o, c.neg, z), (o, c, z), (b, b, b.neg), (c, z, o.neg), (b, b.neg, b.neg)]]

def qIcosahedron (a b : Q) : List (List Q3) := [
  [(z, b, a), (b.neg, a, z), (b, a, z)],
  [(z, b, a.neg), (b, a, z), (b.neg, a, z)],
  [(z, b, a), (z, b.neg, a), (a.neg, z, b)],
  [(z, b, a), (a, z, b), (z, b.neg, a)],
  [(z, b, a), (a.neg, z, b), (b.neg, a, z)],
  [(z, b.neg, a.neg), (a.neg, z, b.neg), (b.neg, a.neg, z)],
  [(z, b, a), (b, a, z), (a, z, b)],
  [(b, a, z), (a, z, b.neg), (a, z, b)],
  [(z, b.neg, a), (a, z, b), (b, a.neg, z)],
  [(b.neg, a, z), (a.neg, z, b), (a.neg, z, b.neg)],
  [(z, b.neg, a.neg), (b.neg, a.neg, z), (b, a.neg, z)],
  [(z, b.neg, a), (b, a.neg, z), (b.neg, a.neg, z)],
  [(z, b, a.neg), (z, b.neg, a.neg), (a, z, b.neg)],
  [(z, b, a.neg), (a.neg, z, b.neg), (z, b.neg, a.neg)],
  [(z, b.neg, a.neg), (b, a.neg, z), (a, z, b.neg)],
  [(z, b, a.neg), (a, z, b.neg), (b, a, z)],
  [(z, b, a.neg), (b.neg, a, z), (a.neg, z, b.neg)],
  [(b.neg, a.neg, z), (a.neg, z, b.neg), (a.neg, z, b)],
  [(z, b.neg, a), (b.neg, a.neg, z), (a.neg, z, b)],
  [(b, a.neg, z), (a, z, b), (a, z, b.neg)]]

/-- The exact table of a solid. -/
def qtable (s : Solid) : List (List Q3) :=
  if s = tetrahedron then qTetrahedron
  else if s = hexahedron then qHexahedron
  else if s = octahedron then qOctahedron ⟨0, 1⟩ ⟨2, 0⟩
  else if s = dodecahedron then qDodecahedron ⟨-1, 1⟩ ⟨2, -1⟩
  else qIcosahedron ⟨1, 0⟩ ⟨-1, 1⟩

def golden : Par := ⟨1, 1, 1618, 1619⟩
def root2 : Par := ⟨0, 2, 1414, 1415⟩
def par (s : Solid) : Par := if s = octahedron then root2 else golden

theorem phi_sq : phi * phi = phi + 1 := by
  unfold phi
  have h : Real.sqrt 5 * Real.sqrt 5 = 5 := Real.mul_self_sqrt (by norm_num)
  linear_combination h / 4

theorem phi_pos : 0 < phi := by
  unfold phi
  have := Real.sqrt_nonneg 5
  linarith

theorem phi_inv : 1 / phi = phi - 1 := by
  have := phi_pos
  rw [div_eq_iff (ne_of_gt this)]
  linear_combination -phi_sq

theorem phi_bounds : (1618 : ℝ) / 1000 ≤ phi ∧ phi ≤ 1619 / 1000 := by
  unfold phi
  have h1 : (2236 : ℝ) / 1000 ≤ Real.sqrt 5 := by apply Real.le_sqrt_of_sq_le; norm_num
  have h2 : Real.sqrt 5 ≤ 2238 / 1000 := by
    rw [Real.sqrt_le_left (by norm_num)]; norm_num
  constructor <;> linarith

theorem root2_bounds : (1414 : ℝ) / 1000 ≤ Real.sqrt 2 ∧ Real.sqrt 2 ≤ 1415 / 1000 := by
  constructor
  · apply Real.le_sqrt_of_sq_le; norm_num
  · rw [Real.sqrt_le_left (by norm_num)]; norm_num

/-- One of the five flags. -/
theorem sides_cases {s : Solid} {n : Nat} (h : sides s = some n) :
    (s = tetrahedron ∧ n = 4) ∨ (s = hexahedron ∧ n = 6) ∨ (s = octahedron ∧ n = 8) ∨ (s = dodecahedron ∧ n = 12) ∨ (s = icosahedron ∧ n = 20) := by
  unfold sides at h
  by_cases h0 : s = tetrahedron
  · simp only [h0, if_true] at h; left; exact ⟨h0, (Option.some.inj h).symm⟩
  by_cases h1 : s = hexahedron
  · subst h1; right; left; simpa using h.symm
  by_cases h2 : s = octahedron
  · subst h2; right; right; left; simpa using h.symm
  by_cases h3 : s = dodecahedron
  · subst h3; right; right; right; left; simpa using h.symm
  by_cases h4 : s = icosahedron
  · subst h4; right; right; right; right; simpa using h.symm
  simp [h0, h1, h2, h3, h4] at h

/-- The tables are the exact tables, scaled. -/
theorem table_rep {s : Solid} {n : Nat} (h : sides s = some n) : ∃ w k : ℝ, 0 < k ∧ w * w = (par s).s * w + (par s).t ∧ ((par s).lo : ℝ) / 1000 ≤ w ∧ w ≤ ((par s).hi : ℝ) / 1000 ∧
    table s = some ((qtable s).map (List.map (ev w k))) ∧ (qtable s).length = n := by
  rcases sides_cases h with ⟨rfl, rfl⟩ | ⟨rfl, rfl⟩ | ⟨rfl, rfl⟩ | ⟨rfl, rfl⟩ | ⟨rfl, rfl⟩
  · refine ⟨phi, 1, one_pos, ?_, ?_, ?_, ?_, by decide⟩
    · simpa [par, golden] using phi_sq
    · simpa [par, golden] using phi_bounds.1
    · simpa [par, golden] using phi_bounds.2
    · simp [table, tetrahedronVertices, qtable, qTetrahedron, ev, Q.eval, Q.neg, z, o]
  · refine ⟨phi, 1, one_pos, ?_, ?_, ?_, ?_, by decide⟩
    · simpa [par, golden] using phi_sq
    · simpa [par, golden] using phi_bounds.1
    · simpa [par, golden] using phi_bounds.2
    · simp [table, hexahedronVertices, qtable, qHexahedron, ev, Q.eval, Q.neg, z, o]
  · refine ⟨Real.sqrt 2, 1 / 4, by norm_num, ?_, ?_, ?_, ?_, by decide⟩
    · simp [par, root2]
    · simpa [par, root2] using root2_bounds.1
    · simpa [par, root2] using root2_bounds.2
    · have ha : 1 / (2 * Real.sqrt 2) = 1 / 4 * Q.eval (Real.sqrt 2) ⟨0, 1⟩ := by
        have h2 : Real.sqrt 2 * Real.sqrt 2 = 2 := Real.mul_self_sqrt (by norm_num)
        have h0 : Real.sqrt 2 ≠ 0 := by
          intro h0; rw [h0] at h2; norm_num at h2
        simp only [Q.eval]
        field_simp
        push_cast
        linarith
      have hb : (1 : ℝ) / 2 = 1 / 4 * Q.eval (Real.sqrt 2) ⟨2, 0⟩ := by simp only [Q.eval]; push_cast; ring
      have hz : Q.eval (Real.sqrt 2) z = 0 := by simp [Q.eval, z]
      simp only [table, octahedronVertices]
      rw [ha, hb]
      simp [qtable, octahedronTable, qOctahedron, ev, Q.eval_neg, hz]
  · refine ⟨phi, 1, one_pos, ?_, ?_, ?_, ?_, by decide⟩
    · simpa [par, golden] using phi_sq
    · simpa [par, golden] using phi_bounds.1
    · simpa [par, golden] using phi_bounds.2
    · have ha : 1 / phi = 1 * Q.eval phi ⟨-1, 1⟩ := by rw [phi_inv]; simp only [Q.eval]; push_cast; ring
      have hb : 2 - phi = 1 * Q.eval phi ⟨2, -1⟩ := by simp only [Q.eval]; push_cast; ring
      have hz : Q.eval phi z = 0 := by simp [Q.eval, z]
      have ho : Q.eval phi o = 1 := by simp [Q.eval, o]
      simp only [table, dodecahedronVertices]
      rw [ha, hb]
      simp [qtable, dodecahedronTable, qDodecahedron, ev, Q.eval_neg, hz, ho]
  · refine ⟨phi, 1 / 2, by norm_num, ?_, ?_, ?_, ?_, by decide⟩
    · simpa [par, golden] using phi_sq
    · simpa [par, golden] using phi_bounds.1
    · simpa [par, golden] using phi_bounds.2
    · have ha : (1 : ℝ) / 2 = 1 / 2 * Q.eval phi ⟨1, 0⟩ := by simp only [Q.eval]; push_cast; ring
      have hb : 1 / (2 * phi) = 1 / 2 * Q.eval phi ⟨-1, 1⟩ := by
        rw [one_div, mul_inv, ← one_div phi, phi_inv]; simp only [Q.eval]; push_cast; ring
      have hz : Q.eval phi z = 0 := by simp [Q.eval, z]
      have key : ∀ a b : ℝ, a = 1 / 2 * Q.eval phi ⟨1, 0⟩ → b = 1 / 2 * Q.eval phi ⟨-1, 1⟩ →
          icosahedronTable a b = (qtable icosahedron).map (List.map (ev phi (1 / 2))) := by
        rintro a b rfl rfl
        simp [qtable, icosahedronTable, qIcosahedron, ev, Q.eval_neg, hz]
      simp only [table, icosahedronVertices]
      rw [key _ _ ha hb]
      simp

/-! ### The exact checks -/

def qsub (x y : Q3) : Q3 := qadd x (qneg y)
def qdist2 (P : Par) (x y : Q3) : Q := qdot P (qsub x y) (qsub x y)

/-- The numbers of the first face: squared length of the sum, its product with a vertex, squared side and squared radius. -/
def firstN (s : Solid) : Q := qdot (par s) (qsum (qtable s).head!) (qsum (qtable s).head!)
def firstD (s : Solid) : Q := qdot (par s) (qsum (qtable s).head!) (qtable s).head!.head!
def firstL (s : Solid) : Q := qdist2 (par s) (qtable s).head!.head! (qtable s).head!.tail.head!
def firstR (s : Solid) : Q := qdot (par s) (qtable s).head!.head! (qtable s).head!.head!

/-- The number of sides of a face. -/
def faceSize (s : Solid) : Nat := if s = hexahedron then 4 else if s = dodecahedron then 5 else 3

/-- Both points are vertices of face `j`. -/
def both (s : Solid) (p q : Q3) (j : Nat) : Bool := match (qtable s)[j]? with
  | some g => g.contains p && g.contains q
  | none => false

/-- The side from `p` to `q` of face `i` has the length of all sides and belongs to exactly one other face. -/
def chkSide (s : Solid) (i : Nat) (p q : Q3) : Bool :=
  qdist2 (par s) p q == firstL s && ((List.range (qtable s).length).any fun j => j != i && both s p q j &&
    (List.range (qtable s).length).all fun j' => j' == i || !both s p q j' || j' == j)

def chkFace (s : Solid) (i : Nat) (f : List Q3) : Bool :=
  f.length == faceSize s && qdot (par s) (qsum f) (qsum f) == firstN s && (f.all fun p => qdot (par s) (qsum f) p == firstD s && qdot (par s) p p == firstR s) &&
  ((qtable s).all fun g => g.all fun q => f.contains q || ((firstD s).add (qdot (par s) (qsum f) q).neg).pos (par s).lo (par s).hi) &&
  ((List.range f.length).all fun k => match f[k]?, f[(k + 1) % f.length]? with
    | some p, some q => chkSide s i p q
    | _, _ => true)

def chk (s : Solid) : Bool :=
  ((List.range (qtable s).length).all fun i => match (qtable s)[i]? with | some f => chkFace s i f | none => true) && (firstN s).pos (par s).lo (par s).hi && (firstD s).pos (par s).lo (par s).hi && (firstL s).pos (par s).lo (par s).hi

theorem chk_ok : chk tetrahedron = true ∧ chk hexahedron = true ∧ chk octahedron = true ∧ chk dodecahedron = true ∧ chk icosahedron = true := by
  decide +kernel

theorem chk_of {s : Solid} {n : Nat} (h : sides s = some n) : chk s = true := by
  rcases sides_cases h with ⟨rfl, rfl⟩ | ⟨rfl, rfl⟩ | ⟨rfl, rfl⟩ | ⟨rfl, rfl⟩ | ⟨rfl, rfl⟩
  · exact chk_ok.1
  · exact chk_ok.2.1
  · exact chk_ok.2.2.1
  · exact chk_ok.2.2.2.1
  · exact chk_ok.2.2.2.2

/-! ### From the exact tables to the API -/

theorem face_rep {s : Solid} {n : Nat} {w k : ℝ} (h : sides s = some n) (ht : table s = some ((qtable s).map (List.map (ev w k)))) (hl : (qtable s).length = n) (i : Int) (vs : List V3) :
    faceVertices s i = some vs ↔ ∃ (j : Nat) (f : List Q3), i = j ∧ (qtable s)[j]? = some f ∧ vs = f.map (ev w k) := by
  simp only [faceVertices, h, ht, Option.bind_eq_bind, Option.bind_some]
  by_cases h1 : i ≥ n
  · simp only [h1, if_true]
    constructor
    · intro h; exact (nomatch h)
    · rintro ⟨j, f, rfl, hf, _⟩
      have := (List.getElem?_eq_some_iff.1 hf).1
      omega
  · simp only [h1, if_false]
    by_cases h2 : i < 0
    · simp only [h2, if_true]
      constructor
      · intro h; exact (nomatch h)
      · rintro ⟨j, f, rfl, _, _⟩
        omega
    · simp only [h2, if_false, List.getElem?_map, Option.map_eq_some_iff]
      constructor
      · rintro ⟨f, hf, rfl⟩
        exact ⟨i.toNat, f, by omega, hf, rfl⟩
      · rintro ⟨j, f, rfl, hf, rfl⟩
        exact ⟨f, by simpa using hf, rfl⟩

theorem mapM_some_of {α β : Type} (f : α → Option β) (g : α → β) : ∀ l : List α, (∀ a ∈ l, f a = some (g a)) → l.mapM f = some (l.map g) := by
  intro l
  induction l with
  | nil => intro _; rfl
  | cons a l ih =>
    intro h
    rw [List.mapM_cons, h a (by simp), ih fun b hb => h b (by simp [hb])]
    rfl

theorem normals_rep {s : Solid} {n : Nat} {w k : ℝ} (h : sides s = some n) (ht : table s = some ((qtable s).map (List.map (ev w k)))) (hl : (qtable s).length = n) :
    normals s = some ((qtable s).map fun f => normalize (ev w k (qsum f))) := by
  simp only [normals, h, Option.bind_eq_bind, Option.bind_some]
  rw [mapM_some_of _ fun i : Nat => normalize (ev w k (qsum ((qtable s)[i]?.getD [])))]
  · congr 1
    apply List.ext_getElem
    · simp [hl]
    · intro i h1 h2
      simp only [List.length_map, hl] at h2
      simp [hl, h2]
  · intro i hi
    rw [List.mem_range] at hi
    have hg : (qtable s)[i]? = some (qtable s)[i] := List.getElem?_eq_getElem (hl ▸ hi)
    rw [(face_rep h ht hl i _).2 ⟨i, (qtable s)[i], rfl, hg, rfl⟩]
    simp [sumVerts_ev, hg]

theorem chk_face {s : Solid} {n : Nat} (h : sides s = some n) {i : Nat} {f : List Q3} (hf : (qtable s)[i]? = some f) : chkFace s i f = true := by
  have hc := chk_of h
  simp only [chk, Bool.and_eq_true, List.all_eq_true, List.mem_range] at hc
  have := hc.1.1.1 i (List.getElem?_eq_some_iff.1 hf).1
  rwa [hf] at this

theorem dot_scale (c : ℝ) (p q : V3) : dot (p.1 / c, p.2.1 / c, p.2.2 / c) q = dot p q / c := by
  simp only [dot]; ring

theorem dist_ev (P : Par) (w k : ℝ) (hw : w * w = P.s * w + P.t) (x y : Q3) : dist2 (ev w k x) (ev w k y) = k * k * (qdist2 P x y).eval w := by
  rw [qdist2, ← dot_ev P w k hw]
  simp only [qsub, ev_add, ev_neg, dist2, sub_eq_add_neg]

/-- The facts about one face, in exact form. -/
theorem face_facts {s : Solid} {n : Nat} (h : sides s = some n) {i : Nat} {f : List Q3} (hf : (qtable s)[i]? = some f) :
    f.length = faceSize s ∧ qdot (par s) (qsum f) (qsum f) = firstN s ∧ (∀ p ∈ f, qdot (par s) (qsum f) p = firstD s ∧ qdot (par s) p p = firstR s) ∧
    (∀ (j : Nat) (g : List Q3), (qtable s)[j]? = some g → ∀ q ∈ g, q ∈ f ∨ ((firstD s).add (qdot (par s) (qsum f) q).neg).pos (par s).lo (par s).hi = true) ∧
    ∀ (k : Nat) (p q : Q3), f[k]? = some p → f[(k + 1) % f.length]? = some q → chkSide s i p q = true := by
  have hc := chk_face h hf
  simp only [chkFace, Bool.and_eq_true, beq_iff_eq, List.all_eq_true, List.mem_range, Bool.or_eq_true, List.contains_iff_mem] at hc
  obtain ⟨⟨⟨⟨h1, h2⟩, h3⟩, h4⟩, h5⟩ := hc
  refine ⟨h1, h2, h3, fun j g hg q hq => h4 g (List.mem_of_getElem? hg) q hq, fun k p q hp hq => ?_⟩
  have := h5 k (List.getElem?_eq_some_iff.1 hp).1
  rw [hp, hq] at this
  exact this

/-- C88: the five flags are the five numbers of sides: a solid is made exactly for 4, 6, 8, 12 and 20 sides, and it has that many; `Sides` panics on other flags. -/
theorem C88_sides (n : Int) : ((newSolid n).2 = true ↔ IsCount n) ∧ ((newSolid n).2 = true → ∃ m : Nat, sides (newSolid n).1 = some m ∧ (m : Int) = n) := by
  unfold newSolid IsCount
  by_cases h0 : n = 4
  · simp [h0, sides]
  by_cases h1 : n = 6
  · simp [h1, sides]
  by_cases h2 : n = 8
  · simp [h2, sides]
  by_cases h3 : n = 12
  · simp [h3, sides]
  by_cases h4 : n = 20
  · simp [h4, sides]
  simp [h0, h1, h2, h3, h4]

/-- C88: `FaceVertices` and `Normals` describe a regular convex polyhedron around the origin.  There is a face for exactly the indices below `Sides`; all faces have the same number of
vertices; all sides have one length and all vertices one distance from the origin; the normal of a face has length 1 and is normal to the face, all faces are at one positive distance
from the origin, and every vertex that is not on a face is strictly behind it; every side of a face is a side of exactly one other face. -/
theorem C88_faces (s : Solid) (n : Nat) (h : sides s = some n) : ∃ (ns : List V3) (l r d : ℝ), normals s = some ns ∧ ns.length = n ∧ 0 < l ∧ 0 < d ∧
    (∀ i : Int, faceVertices s i ≠ none ↔ 0 ≤ i ∧ i < n) ∧
    ∀ (i : Nat) (vs : List V3), faceVertices s i = some vs → vs.length = faceSize s ∧
      (∃ m, ns[i]? = some m ∧ dot m m = 1 ∧ (∀ p ∈ vs, dot m p = d ∧ dot p p = r) ∧
        ∀ (j : Int) (us : List V3), faceVertices s j = some us → ∀ q ∈ us, q ∉ vs → dot m q < d) ∧
      ∀ (k : Nat) (p q : V3), vs[k]? = some p → vs[(k + 1) % vs.length]? = some q → dist2 p q = l ∧
        ∃! j : Int, j ≠ i ∧ ∃ us, faceVertices s j = some us ∧ p ∈ us ∧ q ∈ us := by
  obtain ⟨w, k, hk, hw, hlo, hhi, ht, hl⟩ := table_rep h
  have hc := chk_of h
  simp only [chk, Bool.and_eq_true] at hc
  have hN : 0 < (firstN s).eval w := Q.pos_eval w _ _ hlo hhi _ hc.1.1.2
  have hD : 0 < (firstD s).eval w := Q.pos_eval w _ _ hlo hhi _ hc.1.2
  have hL : 0 < (firstL s).eval w := Q.pos_eval w _ _ hlo hhi _ hc.2
  have hF := fun i vs => face_rep (w := w) (k := k) h ht hl i vs
  have hNf : ∀ (i : Nat) (f : List Q3), (qtable s)[i]? = some f → ∀ q : Q3,
      dot (normalize (ev w k (qsum f))) (ev w k q) = k * (qdot (par s) (qsum f) q).eval w / Real.sqrt ((firstN s).eval w) := by
    intro i f hf q
    have e : (ev w k (qsum f)).1 * (ev w k (qsum f)).1 + (ev w k (qsum f)).2.1 * (ev w k (qsum f)).2.1 + (ev w k (qsum f)).2.2 * (ev w k (qsum f)).2.2 = k ^ 2 * (firstN s).eval w := by
      have := dot_ev (par s) w k hw (qsum f) (qsum f)
      rw [(face_facts h hf).2.1] at this
      rw [sq, ← this]; rfl
    simp only [normalize, e]
    rw [dot_scale, dot_ev (par s) w k hw, Real.sqrt_mul (by positivity), Real.sqrt_sq hk.le]
    have : Real.sqrt ((firstN s).eval w) ≠ 0 := (Real.sqrt_pos.2 hN).ne'
    field_simp
  have hS := Real.sqrt_pos.2 hN
  /- membership in a face, exact and real -/
  have hmem : ∀ (i : Nat) (f : List Q3), (qtable s)[i]? = some f → ∀ (j : Nat) (g : List Q3), (qtable s)[j]? = some g → ∀ q ∈ g, q ∉ f →
      dot (normalize (ev w k (qsum f))) (ev w k q) < k * (firstD s).eval w / Real.sqrt ((firstN s).eval w) := by
    intro i f hf j g hg q hq hqf
    rcases (face_facts h hf).2.2.2.1 j g hg q hq with h1 | h1
    · exact absurd h1 hqf
    · have := Q.pos_eval w _ _ hlo hhi _ h1
      rw [Q.eval_add, Q.eval_neg] at this
      rw [hNf i f hf]
      exact div_lt_div_of_pos_right (mul_lt_mul_of_pos_left (by linarith) hk) hS
  have hon : ∀ (i : Nat) (f : List Q3), (qtable s)[i]? = some f → ∀ q ∈ f,
      dot (normalize (ev w k (qsum f))) (ev w k q) = k * (firstD s).eval w / Real.sqrt ((firstN s).eval w) := by
    intro i f hf q hq
    rw [hNf i f hf, ((face_facts h hf).2.2.1 q hq).1]
  have hback : ∀ (i : Nat) (f : List Q3), (qtable s)[i]? = some f → ∀ (j : Nat) (g : List Q3), (qtable s)[j]? = some g → ∀ q ∈ g, ev w k q ∈ f.map (ev w k) → q ∈ f := by
    intro i f hf j g hg q hq hm
    by_contra hqf
    have h1 := hmem i f hf j g hg q hq hqf
    obtain ⟨q', hq', e⟩ := List.mem_map.1 hm
    rw [← e, hon i f hf q' hq'] at h1
    exact lt_irrefl _ h1
  refine ⟨_, k * k * (firstL s).eval w, k * k * (firstR s).eval w, k * (firstD s).eval w / Real.sqrt ((firstN s).eval w), normals_rep h ht hl, by simp [hl], by positivity,
    by positivity, ?_, ?_⟩
  · intro i
    rw [Option.ne_none_iff_exists']
    constructor
    · rintro ⟨vs, hvs⟩
      obtain ⟨j, f, rfl, hf, _⟩ := (hF _ _).1 hvs
      have := (List.getElem?_eq_some_iff.1 hf).1
      omega
    · rintro ⟨h1, h2⟩
      have hi : i.toNat < (qtable s).length := by omega
      exact ⟨_, (hF _ _).2 ⟨i.toNat, _, by omega, List.getElem?_eq_getElem hi, rfl⟩⟩
  · intro i vs hvs
    obtain ⟨i', f, hi', hf, rfl⟩ := (hF _ _).1 hvs
    obtain rfl : i = i' := by exact_mod_cast hi'
    obtain ⟨f1, f2, f3, f4, f5⟩ := face_facts h hf
    refine ⟨by simpa using f1, ⟨normalize (ev w k (qsum f)), by rw [List.getElem?_map, hf]; rfl, ?_, ?_, ?_⟩, ?_⟩
    · have e := hNf i f hf (qsum f)
      rw [f2] at e
      have e2 : ∀ m : V3, dot m (normalize (ev w k (qsum f))) = dot m (ev w k (qsum f)) / (k * Real.sqrt ((firstN s).eval w)) := by
        intro m
        have e : (ev w k (qsum f)).1 * (ev w k (qsum f)).1 + (ev w k (qsum f)).2.1 * (ev w k (qsum f)).2.1 + (ev w k (qsum f)).2.2 * (ev w k (qsum f)).2.2 = k ^ 2 * (firstN s).eval w := by
          have := dot_ev (par s) w k hw (qsum f) (qsum f)
          rw [f2] at this
          rw [sq, ← this]; rfl
        simp only [normalize, e]
        rw [Real.sqrt_mul (by positivity), Real.sqrt_sq hk.le]
        simp only [dot]; ring
      rw [e2, e]
      have h2 := Real.mul_self_sqrt hN.le
      rw [div_div, div_eq_one_iff_eq (by positivity)]
      linear_combination -k * h2
    · intro p hp
      obtain ⟨q, hq, rfl⟩ := List.mem_map.1 hp
      exact ⟨hon i f hf q hq, by rw [dot_ev (par s) w k hw, (f3 q hq).2]⟩
    · intro j us hus q hq hqv
      obtain ⟨j', g, rfl, hg, rfl⟩ := (hF _ _).1 hus
      obtain ⟨q', hq', rfl⟩ := List.mem_map.1 hq
      exact hmem i f hf j' g hg q' hq' fun hc => hqv (List.mem_map_of_mem hc)
    · intro a p q hp hq
      rw [List.length_map] at hq
      rw [List.getElem?_map, Option.map_eq_some_iff] at hp hq
      obtain ⟨p', hp', rfl⟩ := hp
      obtain ⟨q', hq', rfl⟩ := hq
      have hs := f5 a p' q' hp' hq'
      simp only [chkSide, Bool.and_eq_true, beq_iff_eq, List.any_eq_true, List.mem_range, bne_iff_ne, List.all_eq_true, Bool.or_eq_true, Bool.not_eq_true'] at hs
      obtain ⟨s1, j, hj, ⟨j1, j2⟩, j3⟩ := hs
      refine ⟨by rw [dist_ev (par s) w k hw, s1], (j : Int), ⟨by exact_mod_cast j1, ?_⟩, ?_⟩
      · have hg := List.getElem?_eq_getElem hj
        simp only [both, hg, Bool.and_eq_true, List.contains_iff_mem] at j2
        exact ⟨_, (hF _ _).2 ⟨j, _, rfl, hg, rfl⟩, List.mem_map_of_mem j2.1, List.mem_map_of_mem j2.2⟩
      · rintro j' ⟨h1, us, hus, hp2, hq2⟩
        obtain ⟨j', g, rfl, hg, rfl⟩ := (hF _ _).1 hus
        have m1 := hback j' g hg i f hf p' (List.mem_of_getElem? hp') hp2
        have m2 := hback j' g hg i f hf q' (List.mem_of_getElem? hq') hq2
        have hb : both s p' q' j' = true := by simp [both, hg, m1, m2]
        rcases j3 j' (List.getElem?_eq_some_iff.1 hg).1 with (h3 | h3) | h3
        · exact absurd (by exact_mod_cast h3) h1
        · rw [hb] at h3; exact (nomatch h3)
        · exact_mod_cast h3

/-- Non-vacuity: the dodecahedron has 12 sides. -/
example : sides dodecahedron = some 12 := rfl

/-! ### Unique normals -/

/-- The faces whose normals are returned by `UniqueNormals`. -/
def half (s : Solid) : List (List Q3) := if s = tetrahedron then qtable s else (qtable s).take ((qtable s).length / 2)

/-- Two face sums are not parallel. -/
def apart (s : Solid) (v v' : Q3) : Bool :=
  ((firstN s).add (qdot (par s) v v')).pos (par s).lo (par s).hi && ((firstN s).add (qdot (par s) v v').neg).pos (par s).lo (par s).hi

def pairsApart (s : Solid) : List Q3 → Bool
  | [] => true
  | v :: vs => vs.all (apart s v) && pairsApart s vs

def covers (s : Solid) : Bool := (qtable s).all fun f => ((half s).map qsum).contains (qsum f) || ((half s).map qsum).contains (qneg (qsum f))

theorem unique_ok : ∀ s ∈ [tetrahedron, hexahedron, octahedron, dodecahedron], (covers s && pairsApart s ((half s).map qsum)) = true := by decide +kernel

theorem icosa_pair : (half icosahedron)[6]?.map qsum = (half icosahedron)[5]?.map fun f => qneg (qsum f) := by decide +kernel

theorem icosa_missing : ∃ f, (qtable icosahedron)[15]? = some f ∧ ((half icosahedron).all fun g => apart icosahedron (qsum g) (qsum f)) = true := by decide +kernel

theorem unique_rep {s : Solid} {n : Nat} {w k : ℝ} (h : sides s = some n) (ht : table s = some ((qtable s).map (List.map (ev w k)))) (hl : (qtable s).length = n) :
    uniqueNormals s = some ((half s).map fun f => normalize (ev w k (qsum f))) := by
  simp only [uniqueNormals, normals_rep h ht hl, Option.bind_eq_bind, Option.bind_some, half]
  by_cases h0 : s = tetrahedron
  · simp only [h0, if_true]
  · simp only [h0, if_false, List.length_map, List.map_take]

theorem samePlane_neg (m : V3) : SamePlane (-m.1, -m.2.1, -m.2.2) m := by
  intro p
  simp only [dot]
  constructor <;> intro h <;> linarith

theorem normalize_neg (v : V3) : normalize (-v.1, -v.2.1, -v.2.2) = (-(normalize v).1, -(normalize v).2.1, -(normalize v).2.2) := by
  simp only [normalize, neg_mul_neg, neg_div]

theorem not_samePlane {v v' : V3} {N : ℝ} (h1 : dot v v = N) (h2 : dot v' v' = N) (h3 : |dot v v'| < N) : ¬ SamePlane (normalize v) (normalize v') := by
  intro h
  have hN : 0 < N := lt_of_le_of_lt (abs_nonneg _) h3
  have hs : 0 < Real.sqrt N := Real.sqrt_pos.2 hN
  have e1 : ∀ p, dot (normalize v) p = dot v p / Real.sqrt N := by
    intro p
    have : v.1 * v.1 + v.2.1 * v.2.1 + v.2.2 * v.2.2 = N := h1
    simp only [normalize, this]
    exact dot_scale _ _ _
  have e2 : ∀ p, dot (normalize v') p = dot v' p / Real.sqrt N := by
    intro p
    have : v'.1 * v'.1 + v'.2.1 * v'.2.1 + v'.2.2 * v'.2.2 = N := h2
    simp only [normalize, this]
    exact dot_scale _ _ _
  let c := dot v v'
  have hp := h (N * v'.1 - c * v.1, N * v'.2.1 - c * v.2.1, N * v'.2.2 - c * v.2.2)
  rw [e1, e2, div_eq_zero_iff, div_eq_zero_iff, or_iff_left hs.ne', or_iff_left hs.ne'] at hp
  have d1 : dot v (N * v'.1 - c * v.1, N * v'.2.1 - c * v.2.1, N * v'.2.2 - c * v.2.2) = N * dot v v' - c * dot v v := by simp only [dot]; ring
  have d2 : dot v' (N * v'.1 - c * v.1, N * v'.2.1 - c * v.2.1, N * v'.2.2 - c * v.2.2) = N * dot v' v' - c * dot v v' := by simp only [dot]; ring
  rw [d1, d2, h1, h2] at hp
  have hc : c = dot v v' := rfl
  have h5 := hp.1 (by rw [hc]; ring)
  rw [abs_lt] at h3
  have : c * c < N * N := by rw [hc]; nlinarith
  rw [hc] at this h5
  linarith

theorem dot_comm (p q : V3) : dot p q = dot q p := by simp only [dot]; ring

theorem apart_spec {s : Solid} {w k : ℝ} (hk : 0 < k) (hw : w * w = (par s).s * w + (par s).t) (hlo : ((par s).lo : ℝ) / 1000 ≤ w) (hhi : w ≤ ((par s).hi : ℝ) / 1000)
    {v v' : Q3} (h1 : qdot (par s) v v = firstN s) (h2 : qdot (par s) v' v' = firstN s) (h : apart s v v' = true) :
    ¬ SamePlane (normalize (ev w k v)) (normalize (ev w k v')) := by
  simp only [apart, Bool.and_eq_true] at h
  have a1 := Q.pos_eval w _ _ hlo hhi _ h.1
  have a2 := Q.pos_eval w _ _ hlo hhi _ h.2
  rw [Q.eval_add] at a1
  rw [Q.eval_add, Q.eval_neg] at a2
  refine not_samePlane (N := k * k * (firstN s).eval w) ?_ ?_ ?_
  · rw [dot_ev (par s) w k hw, h1]
  · rw [dot_ev (par s) w k hw, h2]
  · rw [dot_ev (par s) w k hw, abs_lt]
    have := mul_pos hk hk
    constructor <;> nlinarith

theorem half_mem {s : Solid} {g : List Q3} (h : g ∈ half s) : g ∈ qtable s := by
  unfold half at h
  by_cases h0 : s = tetrahedron
  · simpa only [h0, if_true] using h
  · simp only [h0, if_false] at h
    exact List.mem_of_mem_take h

/-- C88: for the tetrahedron, the hexahedron, the octahedron and the dodecahedron `UniqueNormals` returns one normal for each plane through the origin that is parallel to a face: every normal
is normal to the plane of one of them, and no two of them are normal to the same plane.  The icosahedron is missing: `C88_unique_false`. -/
theorem C88_unique_partial (s : Solid) (n : Nat) (h : sides s = some n) (hs : s ≠ icosahedron) : ∃ ns us, normals s = some ns ∧ uniqueNormals s = some us ∧
    (∀ m ∈ us, m ∈ ns) ∧ (∀ m ∈ ns, ∃ u ∈ us, SamePlane u m) ∧ us.Pairwise fun u u' => ¬ SamePlane u u' := by
  obtain ⟨w, k, hk, hw, hlo, hhi, ht, hl⟩ := table_rep h
  have hm : s ∈ [tetrahedron, hexahedron, octahedron, dodecahedron] := by
    rcases sides_cases h with ⟨rfl, _⟩ | ⟨rfl, _⟩ | ⟨rfl, _⟩ | ⟨rfl, _⟩ | ⟨rfl, _⟩ <;> simp at hs ⊢
  have hc := unique_ok s hm
  rw [Bool.and_eq_true] at hc
  have hN : ∀ f ∈ qtable s, qdot (par s) (qsum f) (qsum f) = firstN s := by
    intro f hf
    obtain ⟨i, hi⟩ := List.mem_iff_getElem?.1 hf
    exact (face_facts h hi).2.1
  refine ⟨_, _, normals_rep h ht hl, unique_rep h ht hl, ?_, ?_, ?_⟩
  · intro m hm
    obtain ⟨g, hg, rfl⟩ := List.mem_map.1 hm
    exact List.mem_map_of_mem (half_mem hg)
  · intro m hm
    obtain ⟨f, hf, rfl⟩ := List.mem_map.1 hm
    have := hc.1
    simp only [covers, List.all_eq_true, Bool.or_eq_true, List.contains_iff_mem] at this
    rcases this f hf with h1 | h1
    · obtain ⟨g, hg, e⟩ := List.mem_map.1 h1
      exact ⟨_, List.mem_map.2 ⟨g, hg, rfl⟩, by rw [e]; exact fun p => Iff.rfl⟩
    · obtain ⟨g, hg, e⟩ := List.mem_map.1 h1
      refine ⟨_, List.mem_map.2 ⟨g, hg, rfl⟩, ?_⟩
      rw [e, ev_neg, normalize_neg]
      exact samePlane_neg _
  · have : ∀ l : List (List Q3), (∀ f ∈ l, f ∈ qtable s) → pairsApart s (l.map qsum) = true →
        (l.map fun f => normalize (ev w k (qsum f))).Pairwise fun u u' => ¬ SamePlane u u' := by
      intro l
      induction l with
      | nil => intro _ _; exact List.Pairwise.nil
      | cons f l ih =>
        intro h1 h2
        simp only [List.map_cons, pairsApart, Bool.and_eq_true, List.all_eq_true] at h2
        rw [List.map_cons, List.pairwise_cons]
        refine ⟨?_, ih (fun g hg => h1 g (by simp [hg])) h2.2⟩
        intro m hm
        obtain ⟨g, hg, rfl⟩ := List.mem_map.1 hm
        exact apart_spec hk hw hlo hhi (hN f (h1 f (by simp))) (hN g (h1 g (by simp [hg]))) (h2.1 _ (List.mem_map_of_mem hg))
    exact this _ (fun f hf => half_mem hf) hc.2

/-- Non-vacuity. -/
example : sides octahedron = some 8 ∧ octahedron ≠ icosahedron := ⟨rfl, by decide⟩

/-- C88 is false of the icosahedron: the sixth and the seventh of the ten vectors that `UniqueNormals` returns are normal to the same plane, and the plane parallel to the sixteenth face is
missing. -/
theorem C88_unique_false : ∃ ns us a b m, normals icosahedron = some ns ∧ uniqueNormals icosahedron = some us ∧ us[5]? = some a ∧ us[6]? = some b ∧ SamePlane b a ∧
    ns[15]? = some m ∧ ∀ u ∈ us, ¬ SamePlane u m := by
  have h : sides icosahedron = some 20 := rfl
  obtain ⟨w, k, hk, hw, hlo, hhi, ht, hl⟩ := table_rep h
  have hN : ∀ f ∈ qtable icosahedron, qdot (par icosahedron) (qsum f) (qsum f) = firstN icosahedron := by
    intro f hf
    obtain ⟨i, hi⟩ := List.mem_iff_getElem?.1 hf
    exact (face_facts h hi).2.1
  obtain ⟨f, hf, hmiss⟩ := icosa_missing
  have l5 : 5 < (half icosahedron).length := by decide
  have l6 : 6 < (half icosahedron).length := by decide
  have hp := icosa_pair
  rw [List.getElem?_eq_getElem l5, List.getElem?_eq_getElem l6] at hp
  have hp := Option.some.inj hp
  refine ⟨_, _, normalize (ev w k (qsum (half icosahedron)[5])), normalize (ev w k (qsum (half icosahedron)[6])), normalize (ev w k (qsum f)), normals_rep h ht hl, unique_rep h ht hl, ?_, ?_,
    ?_, ?_, ?_⟩
  · rw [List.getElem?_map, List.getElem?_eq_getElem l5]; rfl
  · rw [List.getElem?_map, List.getElem?_eq_getElem l6]; rfl
  · rw [hp, ev_neg, normalize_neg]
    exact samePlane_neg _
  · rw [List.getElem?_map, hf]; rfl
  · intro u hu
    obtain ⟨g, hg, rfl⟩ := List.mem_map.1 hu
    rw [List.all_eq_true] at hmiss
    exact apart_spec hk hw hlo hhi (hN g (half_mem hg)) (hN f (List.mem_of_getElem? hf)) (hmiss g hg)

/-- C88: asking for a solid by its number of unique normals gives a solid whose `UniqueNormals` has that length, for 3, 4, 6 and 10 and for no other number. -/
theorem C88_unique_count (n : Int) : ((newUniqueSolid n).2 = true ↔ n = 3 ∨ n = 4 ∨ n = 6 ∨ n = 10) ∧
    ((newUniqueSolid n).2 = true → ∃ us, uniqueNormals (newUniqueSolid n).1 = some us ∧ (us.length : Int) = n) := by
  have key : ∀ (s : Solid) (m c : Nat), sides s = some m → (half s).length = c → ∃ us, uniqueNormals s = some us ∧ us.length = c := by
    intro s m c h hc
    obtain ⟨w, k, _, _, _, _, ht, hl⟩ := table_rep h
    exact ⟨_, unique_rep h ht hl, by simpa using hc⟩
  unfold newUniqueSolid
  by_cases h0 : n = 3
  · obtain ⟨us, h1, h2⟩ := key hexahedron 6 3 rfl (by decide)
    simp [h0, h1, h2]
  by_cases h1 : n = 4
  · obtain ⟨us, h1', h2⟩ := key tetrahedron 4 4 rfl (by decide)
    simp [h1, h1', h2]
  by_cases h2 : n = 6
  · obtain ⟨us, h1', h2'⟩ := key dodecahedron 12 6 rfl (by decide)
    simp [h2, h1', h2']
  by_cases h3 : n = 10
  · obtain ⟨us, h1', h2'⟩ := key icosahedron 20 10 rfl (by decide)
    simp [h3, h1', h2']
  simp [h0, h1, h2, h3]

end Shellfish.Platonic
