import Verif.Mesh.Nodal
import Verif.Mesh.BBox
import Mathlib.LinearAlgebra.LinearIndependent.Basic
import Mathlib.LinearAlgebra.FiniteDimensional.Lemmas
import Mathlib.LinearAlgebra.Dimension.Constructions
import Mathlib.LinearAlgebra.FiniteDimensional.Basic
import Mathlib.Tactic.Linarith
import Mathlib.Tactic.Positivity

/-!
# Nodal adjacency and geometry (C100)

`make_element_lookup_tree` (meshmode/mesh/tools.py:50-67), `is_symmetric` and `check_nodal_adj_against_geometry`
(meshmode/mesh/refinement/utils.py:135-223), over an ordered field.  Elements have their mesh-wide numbers instead of
pairs of group and element.  The search tree of pytools and `np.linalg.lstsq` are parameters.
-/
namespace Meshmode

/-! ## Model -/

section
variable {K : Type} [Field K] [LinearOrder K] {d : Nat} {N : Type}

/-- A box: number of the element, lower and upper bounds. Code: meshmode/mesh/tools.py:62-65. -/
abbrev LookupBox (K : Type) (d : Nat) := Nat × (Fin d → K) × (Fin d → K)

/-- The box of an element, meshmode/mesh/tools.py:60-65; `none` for an element without vertices, or if a vertex does not
exist. -/
def elementBox (eps : K) (verts : List (Fin d → K)) (er : Nat × List Nat) : Option (LookupBox K d) :=
  (er.2.mapM fun v => verts[v]?).bind fun pts =>
    if pts.isEmpty then none
    else some (er.1, fun c => (npMin (pts.map fun p => p c)).getD 0 - eps,
      fun c => (npMax (pts.map fun p => p c)).getD 0 + eps)

/-- The boxes inserted by `make_element_lookup_tree`, meshmode/mesh/tools.py:58-65. -/
def lookupBoxes (eps : K) (verts : List (Fin d → K)) (groups : List (ElGroup N)) : Option (List (LookupBox K d)) :=
  (elementEntries groups).mapM (elementBox eps verts)

/-- The sum of the columns with the given coefficients, as `lstsq` has it.
Code: meshmode/mesh/refinement/utils.py:188-190. -/
def linComb (b : List K) (cols : List (Fin d → K)) : Fin d → K :=
  ∑ k : Fin cols.length, b.getD k 0 • cols[k]

/-- The square of `np.linalg.norm`, meshmode/mesh/refinement/utils.py:194-196. -/
def sqNorm (x : Fin d → K) : K := ∑ c, x c ^ 2

/-- `is_in_element_span`, meshmode/mesh/refinement/utils.py:192-196, with both sides of the comparison squared. -/
def inSpan (tol : K) (residual : List K) (vt : Fin d → K) : Bool :=
  residual.isEmpty || decide (sqNorm vt = 0) ||
    (decide (0 ≤ tol) && decide ((residual.map fun r => r ^ 2).sum ≤ tol ^ 2 * sqNorm vt))

/-- The test whether a point touches an element, meshmode/mesh/refinement/utils.py:177-200.  `nvpe` is the number of
vertices of the first element of the mesh, `junk` what `np.empty` leaves in columns that are not set; `none` is
`IndexError`. -/
def touchTest (lstsq : List (Fin d → K) → (Fin d → K) → List K × List K) (junk : Nat → Fin d → K) (tol : K)
    (nvpe : Nat) (verts : List (Fin d → K)) (row : List Nat) (p : Fin d → K) : Option Bool :=
  (row.mapM fun v => verts[v]?).bind fun pts =>
    match pts with
    | [] => none
    | origin :: others =>
      if nvpe < row.length then none
      else
        let cols := (List.range (nvpe - 1)).map fun k => match others[k]? with
          | some w => w - origin
          | none => junk k
        let vt := p - origin
        let sol := lstsq cols vt
        some (inSpan tol sol.2 vt && decide (sol.1.sum ≤ 1 + tol) && sol.1.all fun b => decide (-tol ≤ b))

/-- The pairs added for element `e`, one of its vertices at `p` and a match of the tree,
meshmode/mesh/refinement/utils.py:172-207. -/
def matchPairs (lstsq : List (Fin d → K) → (Fin d → K) → List K × List K) (junk : Nat → Fin d → K) (tol : K)
    (nvpe : Nat) (verts : List (Fin d → K)) (entries : List (Nat × List Nat)) (e : Nat) (p : Fin d → K) (near : Nat) :
    Option (List (Nat × Nat)) :=
  if near = e then some []
  else (entries.lookup near).bind fun row => (touchTest lstsq junk tol nvpe verts row p).map fun hit =>
    if hit then [(near, e), (e, near)] else []

/-- The pairs added for a vertex of an element, meshmode/mesh/refinement/utils.py:168-207. -/
def vertexPairs (lstsq : List (Fin d → K) → (Fin d → K) → List K × List K) (junk : Nat → Fin d → K) (tol : K)
    (nvpe : Nat) (verts : List (Fin d → K)) (entries : List (Nat × List Nat)) (tree : (Fin d → K) → List Nat)
    (e v : Nat) : Option (List (Nat × Nat)) :=
  (verts[v]?).bind fun p => ((tree p).mapM (matchPairs lstsq junk tol nvpe verts entries e p)).map List.flatten

/-- The pairs that the loops add to `connected_to_element_geometry`, meshmode/mesh/refinement/utils.py:161-207. -/
def geometryPairs (lstsq : List (Fin d → K) → (Fin d → K) → List K × List K) (junk : Nat → Fin d → K) (tol : K)
    (nvpe : Nat) (verts : List (Fin d → K)) (entries : List (Nat × List Nat)) (tree : (Fin d → K) → List Nat) :
    Option (List (Nat × Nat)) :=
  (entries.mapM fun (er : Nat × List Nat) =>
    (er.2.mapM (vertexPairs lstsq junk tol nvpe verts entries tree er.1)).map List.flatten).map List.flatten

/-- The double loop of `is_symmetric`, meshmode/mesh/refinement/utils.py:136-143, over the pairs in order; `none` is
`IndexError`. -/
def symmetricGo (relation : List (List Nat)) : List (Nat × Nat) → Option Bool
  | [] => some true
  | (a, b) :: ps => match relation[b]? with
    | none => none
    | some row => if a ∈ row then symmetricGo relation ps else some false

/-- `is_symmetric`, meshmode/mesh/refinement/utils.py:135-143. -/
def isSymmetric (relation : List (List Nat)) : Option Bool :=
  symmetricGo relation (relation.zipIdx.flatMap fun p => p.1.map fun b => (p.2, b))

/-- Outcomes. Code: meshmode/mesh/refinement/utils.py:146-223. -/
inductive AdjCheckErr where
  /-- an exception other than those of the assertions -/
  | raised
  /-- the first assertion: not symmetric -/
  | asymmetric
  /-- the second assertion: geometry and adjacency differ -/
  | mismatch
  deriving DecidableEq, Repr

/-- The comparison of the two lists of sets, meshmode/mesh/refinement/utils.py:223. -/
def sameSets (pairs : List (Nat × Nat)) (conn : List (List Nat)) : Bool :=
  conn.zipIdx.all fun p => (p.1.all fun b => decide ((p.2, b) ∈ pairs)) &&
    pairs.all fun q => decide (q.1 = p.2 → q.2 ∈ p.1)

/-- `check_nodal_adj_against_geometry`, meshmode/mesh/refinement/utils.py:146-223; `tree` makes the search tree from the
boxes. -/
def checkNodalAdj (tree : List (LookupBox K d) → (Fin d → K) → List Nat)
    (lstsq : List (Fin d → K) → (Fin d → K) → List K × List K) (junk : Nat → Fin d → K) (tol : K)
    (verts : List (Fin d → K)) (groups : List (ElGroup N)) (starts nbrs : List Nat) : Except AdjCheckErr Unit :=
  match lookupBoxes tol verts groups, (groups[0]?).bind fun g => g.vertexIndices[0]? with
  | some boxes, some first =>
    match geometryPairs lstsq junk tol first.length verts (elementEntries groups) (tree boxes),
        (List.range (nelements (groups.map ElGroup.nelements))).mapM fun e => csrRow starts nbrs e with
    | some pairs, some conn =>
      match isSymmetric conn with
      | none => .error .raised
      | some false => .error .asymmetric
      | some true => if sameSets pairs conn then .ok () else .error .mismatch
    | _, _ => .error .raised
  | _, _ => .error .raised

end

/-! ## Specification -/

section
variable {K : Type} [Field K] [LinearOrder K] {d : Nat} {N : Type}

/-- The edges from the first vertex of an element. (Specification or proof vocabulary, no code.) -/
def edgesFrom (verts : List (Fin d → K)) (row : List Nat) : List (Fin d → K) :=
  match row with
  | [] => []
  | v :: vs => vs.map fun w => verts.getD w 0 - verts.getD v 0

/-- The search tree finds elements there are, and among them all whose box contains the point.
(Specification or proof vocabulary, no code.) -/
def TreeOK (tree : List (LookupBox K d) → (Fin d → K) → List Nat) : Prop :=
  ∀ boxes p, (∀ e ∈ tree boxes p, ∃ lo hi, (e, lo, hi) ∈ boxes) ∧
    ∀ e lo hi, (e, lo, hi) ∈ boxes → (∀ c, lo c ≤ p c ∧ p c ≤ hi c) → e ∈ tree boxes p

/-- What numpy documents for `lstsq` with independent columns: coefficients with the smallest residual, and the residual
unless there are no more rows than columns. (Specification or proof vocabulary, no code.) -/
def LstsqOK (lstsq : List (Fin d → K) → (Fin d → K) → List K × List K) : Prop :=
  ∀ (cols : List (Fin d → K)) (vt : Fin d → K), LinearIndependent K (fun k : Fin cols.length => cols[k]) →
    (lstsq cols vt).1.length = cols.length ∧
    (∀ b : List K, sqNorm (vt - linComb (lstsq cols vt).1 cols) ≤ sqNorm (vt - linComb b cols)) ∧
    (lstsq cols vt).2 = if d ≤ cols.length then [] else [sqNorm (vt - linComb (lstsq cols vt).1 cols)]

/-- A mesh of simplices of dimension `n` that are not degenerate. (Specification or proof vocabulary, no code.) -/
structure SimplexMesh (n : Nat) (verts : List (Fin d → K)) (groups : List (ElGroup N)) : Prop where
  nonempty : ∃ g, groups[0]? = some g ∧ g.vertexIndices ≠ []
  wf : ∀ g ∈ groups, g.WF
  size : ∀ g ∈ groups, ∀ row ∈ g.vertexIndices, row.length = n + 1
  valid : ∀ g ∈ groups, ∀ row ∈ g.vertexIndices, ∀ v ∈ row, v < verts.length
  independent : ∀ g ∈ groups, ∀ row ∈ g.vertexIndices,
    LinearIndependent K (fun k : Fin (edgesFrom verts row).length => (edgesFrom verts row)[k])

/-- The point is in the simplex: a sum of vertices with weights. (Specification or proof vocabulary, no code.) -/
def InSimplex (verts : List (Fin d → K)) (row : List Nat) (p : Fin d → K) : Prop :=
  ∃ w : List K, w.length = row.length ∧ (∀ x ∈ w, 0 ≤ x) ∧ w.sum = 1 ∧
    ∀ c, p c = ((row.zip w).map fun vx => vx.2 * verts.getD vx.1 0 c).sum

/-- The point is within the tolerance of the simplex, in the sense of the check.
(Specification or proof vocabulary, no code.) -/
def NearSimplex (tol : K) (verts : List (Fin d → K)) (row : List Nat) (p : Fin d → K) : Prop :=
  ∃ b : List K, b.length = (edgesFrom verts row).length ∧ (∀ x ∈ b, -tol ≤ x) ∧ b.sum ≤ 1 + tol ∧
    sqNorm (p - verts.getD (row.getD 0 0) 0 - linComb b (edgesFrom verts row)) ^ 2 ≤
      tol ^ 2 * sqNorm (p - verts.getD (row.getD 0 0) 0)

end

/-! ## Lemmas: `is_symmetric` -/

theorem symmetricGo_true {rel : List (List Nat)} {ps : List (Nat × Nat)} :
    symmetricGo rel ps = some true ↔ ∀ p ∈ ps, ∃ row, rel[p.2]? = some row ∧ p.1 ∈ row := by
  induction ps with
  | nil => simp [symmetricGo]
  | cons p ps ih =>
    obtain ⟨a, b⟩ := p
    rw [symmetricGo, List.forall_mem_cons, ← ih]
    cases rel[b]? with
    | none => simp
    | some row =>
      by_cases h : a ∈ row <;> simp [h]

theorem symmetricGo_none {rel : List (List Nat)} {ps : List (Nat × Nat)}
    (h : ∀ p ∈ ps, p.2 < rel.length) : symmetricGo rel ps ≠ none := by
  induction ps with
  | nil => simp [symmetricGo]
  | cons p ps ih =>
    obtain ⟨a, b⟩ := p
    rw [symmetricGo, List.getElem?_eq_getElem (h (a, b) List.mem_cons_self)]
    simp only
    split
    · exact ih fun q hq => h q (List.mem_cons_of_mem _ hq)
    · simp

theorem mem_relPairs {rel : List (List Nat)} {a b : Nat} :
    (a, b) ∈ (rel.zipIdx.flatMap fun p => p.1.map fun b => (p.2, b)) ↔ ∃ row, rel[a]? = some row ∧ b ∈ row := by
  rw [List.mem_flatMap]
  constructor
  · rintro ⟨⟨row, k⟩, hp, hb⟩
    obtain ⟨b', hb', he⟩ := List.mem_map.1 hb
    simp only [Prod.mk.injEq] at he
    obtain ⟨rfl, rfl⟩ := he
    exact ⟨row, List.mem_zipIdx_iff_getElem?.1 hp, hb'⟩
  · rintro ⟨row, hr, hb⟩
    exact ⟨(row, a), List.mem_zipIdx_iff_getElem?.2 hr, List.mem_map.2 ⟨b, hb, rfl⟩⟩

/-- C100: `is_symmetric` answers yes exactly for relations that contain with each pair its reverse. -/
theorem C100_symmetric_iff (rel : List (List Nat)) : isSymmetric rel = some true ↔
    ∀ (a b : Nat) row, rel[a]? = some row → b ∈ row → ∃ row', rel[b]? = some row' ∧ a ∈ row' := by
  unfold isSymmetric
  rw [symmetricGo_true]
  constructor
  · intro h a b row hr hb
    exact h (a, b) (mem_relPairs.2 ⟨row, hr, hb⟩)
  · rintro h ⟨a, b⟩ hp
    obtain ⟨row, hr, hb⟩ := mem_relPairs.1 hp
    exact h a b row hr hb

/-- C100: it always answers, if the numbers in the relation are in range. -/
theorem C100_symmetric_defined (rel : List (List Nat)) (h : ∀ row ∈ rel, ∀ b ∈ row, b < rel.length) :
    ∃ ans, isSymmetric rel = some ans := by
  apply Option.ne_none_iff_exists'.1
  refine symmetricGo_none ?_
  rintro ⟨a, b⟩ hp
  obtain ⟨row, hr, hb⟩ := mem_relPairs.1 hp
  exact h row (List.mem_of_getElem? hr) b hb

/-! ## Lemmas: linear algebra -/

section
variable {K : Type} [Field K] [LinearOrder K] [IsStrictOrderedRing K] {d : Nat} {N : Type}

theorem sqNorm_nonneg (x : Fin d → K) : 0 ≤ sqNorm x := Finset.sum_nonneg fun _ _ => sq_nonneg _

theorem sqNorm_eq_zero {x : Fin d → K} : sqNorm x = 0 ↔ x = 0 := by
  unfold sqNorm
  rw [Finset.sum_eq_zero_iff_of_nonneg fun _ _ => sq_nonneg _]
  constructor
  · intro h
    funext c
    simpa using h c (Finset.mem_univ c)
  · rintro rfl
    simp

omit [LinearOrder K] [IsStrictOrderedRing K] in
theorem linComb_inj {cols : List (Fin d → K)} (hi : LinearIndependent K (fun k : Fin cols.length => cols[k]))
    {a b : List K} (ha : a.length = cols.length) (hb : b.length = cols.length)
    (h : linComb a cols = linComb b cols) : a = b := by
  apply List.ext_getElem (by omega)
  intro k h1 h2
  have := (Fintype.linearIndependent_iff.1 hi) (fun k => a.getD k 0 - b.getD k 0) (by
    simp only [sub_smul, Finset.sum_sub_distrib]
    exact sub_eq_zero.2 h) ⟨k, by omega⟩
  simp only [List.getD_eq_getElem?_getD, List.getElem?_eq_getElem h1, List.getElem?_eq_getElem h2,
    Option.getD_some] at this
  exact sub_eq_zero.1 this

omit [LinearOrder K] [IsStrictOrderedRing K] in
theorem linComb_onto {cols : List (Fin d → K)} (hi : LinearIndependent K (fun k : Fin cols.length => cols[k]))
    (hd : d ≤ cols.length) (x : Fin d → K) : ∃ b : List K, b.length = cols.length ∧ linComb b cols = x := by
  have hcard : Fintype.card (Fin cols.length) = Module.finrank K (Fin d → K) := by
    have := hi.fintype_card_le_finrank
    simp only [Fintype.card_fin, Module.finrank_fin_fun] at this ⊢
    omega
  have hx : x ∈ Submodule.span K (Set.range fun k : Fin cols.length => cols[k]) := by
    rw [hi.span_eq_top_of_card_eq_finrank' hcard]
    trivial
  obtain ⟨c, hc⟩ := (Submodule.mem_span_range_iff_exists_fun K).1 hx
  refine ⟨List.ofFn c, by simp, ?_⟩
  rw [← hc]
  unfold linComb
  refine Finset.sum_congr rfl fun k _ => ?_
  simp [List.getD_eq_getElem?_getD]

/-- The test for a point that is a combination of the edges with weights. -/
theorem lstsq_exact {lstsq : List (Fin d → K) → (Fin d → K) → List K × List K} (hl : LstsqOK lstsq)
    {cols : List (Fin d → K)} (hi : LinearIndependent K (fun k : Fin cols.length => cols[k])) {vt : Fin d → K}
    {b : List K} (hb : b.length = cols.length) (hvt : linComb b cols = vt) :
    (lstsq cols vt).1 = b ∧ ((lstsq cols vt).2 = [] ∨ (lstsq cols vt).2 = [0]) := by
  obtain ⟨h1, h2, h3⟩ := hl cols vt hi
  have h4 := h2 b
  rw [hvt, sub_self, show sqNorm (0 : Fin d → K) = 0 from sqNorm_eq_zero.2 rfl] at h4
  have h5 : sqNorm (vt - linComb (lstsq cols vt).1 cols) = 0 := le_antisymm h4 (sqNorm_nonneg _)
  refine ⟨linComb_inj hi h1 hb ?_, ?_⟩
  · rw [hvt]
    exact (sub_eq_zero.1 (sqNorm_eq_zero.1 h5)).symm
  · rw [h3, h5]
    split
    · exact Or.inl rfl
    · exact Or.inr rfl

omit [LinearOrder K] [IsStrictOrderedRing K] in
theorem linComb_nil (b : List K) : linComb b ([] : List (Fin d → K)) = 0 := by
  unfold linComb
  exact Finset.sum_eq_zero fun k _ => k.elim0

omit [LinearOrder K] [IsStrictOrderedRing K] in
theorem linComb_cons (x : K) (b : List K) (w : Fin d → K) (cols : List (Fin d → K)) :
    linComb (x :: b) (w :: cols) = x • w + linComb b cols := by
  unfold linComb
  simp only [List.length_cons]
  rw [Fin.sum_univ_succ]
  simp

omit [LinearOrder K] [IsStrictOrderedRing K] in
theorem linComb_zip {α : Type} (f : α → Fin d → K) (b : List K) (vs : List α) (h : b.length = vs.length) (c : Fin d) :
    linComb b (vs.map f) c = ((vs.zip b).map fun vx => vx.2 * f vx.1 c).sum := by
  induction vs generalizing b with
  | nil => simp [linComb_nil]
  | cons v vs ih =>
    cases b with
    | nil => simp at h
    | cons x b =>
      rw [List.map_cons, linComb_cons, Pi.add_apply, ih b (by simpa using h)]
      simp

omit [LinearOrder K] [IsStrictOrderedRing K] in
theorem zip_sub_sum {α : Type} (f : α → K) (o : K) (w : List K) (vs : List α) (h : w.length = vs.length) :
    ((vs.zip w).map fun vx => vx.2 * (f vx.1 - o)).sum = ((vs.zip w).map fun vx => vx.2 * f vx.1).sum - w.sum * o := by
  induction vs generalizing w with
  | nil =>
    have : w = [] := List.length_eq_zero_iff.1 (by simpa using h)
    simp [this]
  | cons v vs ih =>
    cases w with
    | nil => simp at h
    | cons x w =>
      simp only [List.zip_cons_cons, List.map_cons, List.sum_cons, ih w (by simpa using h)]
      ring

/-- A point of a simplex is a combination of the edges. -/
theorem inSimplex_edges {verts : List (Fin d → K)} {row : List Nat} {p : Fin d → K} (h : InSimplex verts row p) :
    ∃ b : List K, b.length = (edgesFrom verts row).length ∧ (∀ x ∈ b, 0 ≤ x) ∧ b.sum ≤ 1 ∧
      linComb b (edgesFrom verts row) = p - verts.getD (row.getD 0 0) 0 := by
  obtain ⟨w, hl, h0, h1, hp⟩ := h
  cases row with
  | nil =>
    have : w = [] := List.length_eq_zero_iff.1 (by simpa using hl)
    subst this
    simp at h1
  | cons v vs =>
    cases w with
    | nil => simp at hl
    | cons x b =>
      have hbl : b.length = vs.length := by simpa using hl
      rw [List.sum_cons] at h1
      refine ⟨b, by simp [edgesFrom, hbl], fun y hy => h0 y (List.mem_cons_of_mem _ hy), ?_, ?_⟩
      · have := h0 x List.mem_cons_self
        linarith
      · funext c
        have := zip_sub_sum (fun u => verts.getD u 0 c) (verts.getD v 0 c) b vs hbl
        simp only [edgesFrom, Pi.sub_apply]
        rw [linComb_zip _ b vs hbl, hp c]
        simp only [Pi.sub_apply, List.zip_cons_cons, List.map_cons, List.sum_cons, List.getD_cons_zero]
        rw [this]
        have hx : x = 1 - b.sum := by linarith
        rw [hx]
        ring

/-- A vertex of an element is in its simplex. -/
theorem inSimplex_vertex (verts : List (Fin d → K)) {row : List Nat} {v : Nat} (h : v ∈ row) :
    InSimplex verts row (verts.getD v 0) := by
  have hz : ∀ (vs : List Nat) (c : Fin d), ((vs.zip (List.replicate vs.length (0 : K))).map
      fun vx => vx.2 * verts.getD vx.1 0 c).sum = 0 := by
    intro vs c
    apply List.sum_eq_zero
    intro x hx
    obtain ⟨vx, hvx, rfl⟩ := List.mem_map.1 hx
    have := List.eq_of_mem_replicate (List.of_mem_zip hvx).2
    rw [this, zero_mul]
  induction row with
  | nil => simp at h
  | cons u vs ih =>
    rcases List.mem_cons.1 h with rfl | h
    · refine ⟨1 :: List.replicate vs.length 0, by simp, ?_, by simp, ?_⟩
      · intro x hx
        rcases List.mem_cons.1 hx with rfl | hx
        · exact zero_le_one
        · exact le_of_eq (List.eq_of_mem_replicate hx).symm
      · intro c
        simpa using hz vs c
    · obtain ⟨w, h1, h2, h3, h4⟩ := ih h
      refine ⟨0 :: w, by simp [h1], ?_, by simp [h3], ?_⟩
      · intro x hx
        rcases List.mem_cons.1 hx with rfl | hx
        · exact le_refl _
        · exact h2 x hx
      · intro c
        simp [h4 c]

theorem weighted_bounds {α : Type} (f : α → K) (lo hi : K) (w : List K) (vs : List α) (h : w.length = vs.length)
    (h0 : ∀ x ∈ w, 0 ≤ x) (hb : ∀ v ∈ vs, lo ≤ f v ∧ f v ≤ hi) :
    w.sum * lo ≤ ((vs.zip w).map fun vx => vx.2 * f vx.1).sum ∧
      ((vs.zip w).map fun vx => vx.2 * f vx.1).sum ≤ w.sum * hi := by
  induction vs generalizing w with
  | nil =>
    have : w = [] := List.length_eq_zero_iff.1 (by simpa using h)
    simp [this]
  | cons v vs ih =>
    cases w with
    | nil => simp at h
    | cons x w =>
      obtain ⟨h1, h2⟩ := ih w (by simpa using h) (fun y hy => h0 y (List.mem_cons_of_mem _ hy))
        fun u hu => hb u (List.mem_cons_of_mem _ hu)
      obtain ⟨h3, h4⟩ := hb v List.mem_cons_self
      have hx := h0 x List.mem_cons_self
      have h5 := mul_le_mul_of_nonneg_left h3 hx
      have h6 := mul_le_mul_of_nonneg_left h4 hx
      simp only [List.zip_cons_cons, List.map_cons, List.sum_cons]
      constructor <;> nlinarith

/-! ## Lemmas: boxes -/

omit [Field K] [LinearOrder K] [IsStrictOrderedRing K] in
theorem mapM_verts [Field K] {verts : List (Fin d → K)} {row : List Nat} (h : ∀ v ∈ row, v < verts.length) :
    (row.mapM fun v => verts[v]?) = some (row.map fun v => verts.getD v 0) := by
  apply mapM_some_eq_map
  intro v hv
  rw [List.getElem?_eq_getElem (h v hv), List.getD_eq_getElem?_getD, List.getElem?_eq_getElem (h v hv)]
  rfl

omit [IsStrictOrderedRing K] in
theorem elementBox_spec {eps : K} {verts : List (Fin d → K)} {e : Nat} {row : List Nat}
    (hne : row ≠ []) (h : ∀ v ∈ row, v < verts.length) :
    ∃ lo hi, elementBox eps verts (e, row) = some (e, lo, hi) ∧
      ∀ c, ∀ v ∈ row, lo c + eps ≤ verts.getD v 0 c ∧ verts.getD v 0 c ≤ hi c - eps := by
  unfold elementBox
  simp only [mapM_verts h, Option.bind_some]
  rw [if_neg (by simpa using hne)]
  refine ⟨_, _, rfl, ?_⟩
  intro c v hv
  have hmap : ((row.map fun v => verts.getD v 0).map fun p => p c) ≠ [] := by simpa using hne
  obtain ⟨m, hm, _, hm'⟩ := npMin_spec hmap
  obtain ⟨M, hM, _, hM'⟩ := npMax_spec hmap
  have hmem : verts.getD v 0 c ∈ ((row.map fun v => verts.getD v 0).map fun p => p c) :=
    List.mem_map.2 ⟨_, List.mem_map.2 ⟨v, hv, rfl⟩, rfl⟩
  simp only [hm, hM, Option.getD_some, sub_add_cancel, add_sub_cancel_right]
  exact ⟨hm' _ hmem, hM' _ hmem⟩

/-- C100: the box inserted for an element contains its straight simplex, with a margin on each side. -/
theorem C100_boxes {eps : K} {verts : List (Fin d → K)} {groups : List (ElGroup N)}
    (hval : ∀ g ∈ groups, ∀ row ∈ g.vertexIndices, row ≠ [] ∧ ∀ v ∈ row, v < verts.length) :
    ∃ boxes, lookupBoxes eps verts groups = some boxes ∧
      (∀ e lo hi, (e, lo, hi) ∈ boxes → ∃ row, HasRow groups e row) ∧
      ∀ e row, HasRow groups e row → ∃ lo hi, (e, lo, hi) ∈ boxes ∧
        ∀ p, InSimplex verts row p → ∀ c, lo c + eps ≤ p c ∧ p c ≤ hi c - eps := by
  have hrow : ∀ e row, HasRow groups e row → row ≠ [] ∧ ∀ v ∈ row, v < verts.length := by
    rintro e row ⟨g, i, grp, hg, hr, _⟩
    exact hval grp (List.mem_of_getElem? hg) row (List.mem_of_getElem? hr)
  obtain ⟨boxes, hb⟩ := mapM_isSome_of (f := elementBox eps verts) (l := elementEntries groups) fun er her => by
    obtain ⟨h1, h2⟩ := hrow er.1 er.2 (mem_elementEntries her)
    obtain ⟨lo, hi, h3, _⟩ := elementBox_spec (eps := eps) (e := er.1) h1 h2
    exact ⟨_, h3⟩
  obtain ⟨hbl, hbe⟩ := mapM_getElem?_some hb
  refine ⟨boxes, hb, ?_, ?_⟩
  · intro e lo hi hm
    obtain ⟨k, hk⟩ := List.mem_iff_getElem?.1 hm
    have hkl := (List.getElem?_eq_some_iff.1 hk).1
    have her := List.getElem?_eq_getElem (show k < (elementEntries groups).length by omega)
    obtain ⟨b, hb1, hb2⟩ := hbe k _ her
    generalize (elementEntries groups)[k] = er at her hb2
    obtain ⟨e', row⟩ := er
    have hrw := mem_elementEntries (List.mem_of_getElem? her)
    obtain ⟨h1, h2⟩ := hrow _ _ hrw
    obtain ⟨lo', hi', h3, _⟩ := elementBox_spec (eps := eps) (e := e') h1 h2
    rw [h3] at hb2
    rw [hk] at hb1
    rw [← hb1, Option.some.injEq, Prod.mk.injEq] at hb2
    exact ⟨_, hb2.1 ▸ hrw⟩
  · intro e row hr
    obtain ⟨h1, h2⟩ := hrow e row hr
    obtain ⟨lo, hi, h3, h4⟩ := elementBox_spec (eps := eps) (e := e) h1 h2
    obtain ⟨k, hk⟩ := List.mem_iff_getElem?.1 (elementEntries_mem hr)
    obtain ⟨b, hb1, hb2⟩ := hbe k _ hk
    rw [h3] at hb2
    rw [← Option.some.inj hb2] at hb1
    refine ⟨lo, hi, List.mem_of_getElem? hb1, ?_⟩
    rintro p ⟨w, hw1, hw2, hw3, hw4⟩ c
    have := weighted_bounds (fun v => verts.getD v 0 c) (lo c + eps) (hi c - eps) w row hw1 hw2 (h4 c)
    rw [hw3, one_mul, one_mul] at this
    rw [hw4 c]
    exact this

/-! ## Lemmas: the test of a point and an element -/

variable {lstsq : List (Fin d → K) → (Fin d → K) → List K × List K} {junk : Nat → Fin d → K} {tol : K}

omit [IsStrictOrderedRing K] in
theorem touchTest_eq {n : Nat} {verts : List (Fin d → K)} {row : List Nat} (hs : row.length = n + 1)
    (hv : ∀ v ∈ row, v < verts.length) (p : Fin d → K) :
    touchTest lstsq junk tol (n + 1) verts row p =
      some (inSpan tol (lstsq (edgesFrom verts row) (p - verts.getD (row.getD 0 0) 0)).2
          (p - verts.getD (row.getD 0 0) 0) &&
        decide ((lstsq (edgesFrom verts row) (p - verts.getD (row.getD 0 0) 0)).1.sum ≤ 1 + tol) &&
        (lstsq (edgesFrom verts row) (p - verts.getD (row.getD 0 0) 0)).1.all fun b => decide (-tol ≤ b)) := by
  cases row with
  | nil => simp at hs
  | cons v vs =>
    have hvs : vs.length = n := by simpa using hs
    unfold touchTest
    rw [mapM_verts hv]
    simp only [List.map_cons, Option.bind_some, List.getD_cons_zero]
    rw [if_neg (by omega)]
    have hcols : ((List.range (n + 1 - 1)).map fun k => match (vs.map fun v => verts.getD v 0)[k]? with
          | some w => w - verts.getD v 0
          | none => junk k) = edgesFrom verts (v :: vs) := by
      apply List.ext_getElem (by simp [edgesFrom, hvs])
      intro k h1 h2
      have hk : k < vs.length := by simpa [edgesFrom] using h2
      simp [edgesFrom, hk]
    rw [hcols]

theorem touch_of_inSimplex (hl : LstsqOK lstsq) (htol : 0 ≤ tol) {n : Nat} {verts : List (Fin d → K)} {row : List Nat}
    (hs : row.length = n + 1) (hv : ∀ v ∈ row, v < verts.length)
    (hi : LinearIndependent K (fun k : Fin (edgesFrom verts row).length => (edgesFrom verts row)[k]))
    {p : Fin d → K} (hp : InSimplex verts row p) :
    touchTest lstsq junk tol (n + 1) verts row p = some true := by
  rw [touchTest_eq hs hv]
  obtain ⟨b, h1, h2, h3, h4⟩ := inSimplex_edges hp
  obtain ⟨h5, h6⟩ := lstsq_exact hl hi h1 h4
  rw [h5]
  have hspan : inSpan tol (lstsq (edgesFrom verts row) (p - verts.getD (row.getD 0 0) 0)).2
      (p - verts.getD (row.getD 0 0) 0) = true := by
    rcases h6 with h6 | h6
    · rw [inSpan, h6]
      rfl
    · have := mul_nonneg (sq_nonneg tol) (sqNorm_nonneg (p - verts.getD (row.getD 0 0) 0))
      simp only [inSpan, h6, Bool.or_eq_true, Bool.and_eq_true, decide_eq_true_eq]
      exact Or.inr ⟨htol, by simpa using this⟩
  rw [hspan]
  simp only [Bool.true_and, Option.some.injEq, Bool.and_eq_true, decide_eq_true_eq, List.all_eq_true]
  refine ⟨by linarith, fun x hx => ?_⟩
  have := h2 x hx
  linarith

theorem near_of_touch (hl : LstsqOK lstsq) {n : Nat} {verts : List (Fin d → K)} {row : List Nat}
    (hs : row.length = n + 1) (hv : ∀ v ∈ row, v < verts.length)
    (hi : LinearIndependent K (fun k : Fin (edgesFrom verts row).length => (edgesFrom verts row)[k]))
    {p : Fin d → K} (h : touchTest lstsq junk tol (n + 1) verts row p = some true) :
    NearSimplex tol verts row p := by
  rw [touchTest_eq hs hv] at h
  simp only [Option.some.injEq, Bool.and_eq_true, decide_eq_true_eq, List.all_eq_true] at h
  obtain ⟨⟨h1, h2⟩, h3⟩ := h
  obtain ⟨h4, h5, h6⟩ := hl (edgesFrom verts row) (p - verts.getD (row.getD 0 0) 0) hi
  refine ⟨_, h4, h3, h2, ?_⟩
  generalize hvt : p - verts.getD (row.getD 0 0) 0 = vt at *
  have hzero : (∃ b : List K, linComb b (edgesFrom verts row) = vt) →
      sqNorm (vt - linComb (lstsq (edgesFrom verts row) vt).1 (edgesFrom verts row)) ^ 2 ≤ tol ^ 2 * sqNorm vt := by
    rintro ⟨b, hb⟩
    have h7 := h5 b
    rw [hb, sub_self, show sqNorm (0 : Fin d → K) = 0 from sqNorm_eq_zero.2 rfl] at h7
    rw [le_antisymm h7 (sqNorm_nonneg _)]
    have := mul_nonneg (sq_nonneg tol) (sqNorm_nonneg vt)
    simpa using this
  simp only [inSpan, Bool.or_eq_true, Bool.and_eq_true, decide_eq_true_eq] at h1
  by_cases hd : d ≤ (edgesFrom verts row).length
  · obtain ⟨b, _, hb⟩ := linComb_onto hi hd vt
    exact hzero ⟨b, hb⟩
  · rw [if_neg hd] at h6
    rcases h1 with (h1 | h1) | h1
    · rw [h6] at h1
      simp at h1
    · refine hzero ⟨[], ?_⟩
      rw [sqNorm_eq_zero.1 h1]
      unfold linComb
      simp
    · rw [h6] at h1
      simpa using h1.2

/-! ## Lemmas: the loops -/

omit [Field K] [LinearOrder K] [IsStrictOrderedRing K] in
theorem mem_mapM_flatten {α β : Type} {F : α → Option (List β)} {l : List α} {r : List β}
    (h : (l.mapM F).map List.flatten = some r) (z : β) : z ∈ r ↔ ∃ a ∈ l, ∃ ys, F a = some ys ∧ z ∈ ys := by
  obtain ⟨ls, hls, rfl⟩ := Option.map_eq_some_iff.1 h
  obtain ⟨hl, he⟩ := mapM_getElem?_some hls
  rw [List.mem_flatten]
  constructor
  · rintro ⟨ys, hys, hz⟩
    obtain ⟨k, hk⟩ := List.mem_iff_getElem?.1 hys
    have hkl := (List.getElem?_eq_some_iff.1 hk).1
    have ha := List.getElem?_eq_getElem (show k < l.length by omega)
    obtain ⟨b, hb1, hb2⟩ := he k _ ha
    rw [hk] at hb1
    exact ⟨_, List.mem_of_getElem? ha, ys, by rw [hb2, hb1], hz⟩
  · rintro ⟨a, ha, ys, hF, hz⟩
    obtain ⟨k, hk⟩ := List.mem_iff_getElem?.1 ha
    obtain ⟨b, hb1, hb2⟩ := he k a hk
    rw [hF] at hb2
    exact ⟨ys, Option.some.inj hb2 ▸ List.mem_of_getElem? hb1, hz⟩

theorem lookup_entries {groups : List (ElGroup N)} {e : Nat} {row : List Nat} :
    (elementEntries groups).lookup e = some row ↔ HasRow groups e row := by
  constructor
  · intro h
    obtain ⟨l1, l2, he, _⟩ := List.lookup_eq_some_iff.1 h
    exact mem_elementEntries (by rw [he]; simp)
  · intro h
    cases hl : (elementEntries groups).lookup e with
    | none =>
      rw [List.lookup_eq_none_iff] at hl
      have := hl _ (elementEntries_mem h)
      simp at this
    | some row' =>
      obtain ⟨l1, l2, he, _⟩ := List.lookup_eq_some_iff.1 hl
      rw [hasRow_unique h (mem_elementEntries (row := row') (by rw [he]; simp))]

omit [IsStrictOrderedRing K] in
/-- The loops succeed and give these pairs. -/
theorem geometryPairs_spec {n : Nat} {verts : List (Fin d → K)} {groups : List (ElGroup N)}
    (hm : SimplexMesh n verts groups) {tree : (Fin d → K) → List Nat}
    (ht : ∀ p, ∀ e ∈ tree p, ∃ row, HasRow groups e row) :
    ∃ pairs, geometryPairs lstsq junk tol (n + 1) verts (elementEntries groups) tree = some pairs ∧
      ∀ x y, (x, y) ∈ pairs ↔ x ≠ y ∧ ∃ rx ry, HasRow groups x rx ∧ HasRow groups y ry ∧
        ((∃ v ∈ ry, x ∈ tree (verts.getD v 0) ∧
            touchTest lstsq junk tol (n + 1) verts rx (verts.getD v 0) = some true) ∨
          ∃ v ∈ rx, y ∈ tree (verts.getD v 0) ∧
            touchTest lstsq junk tol (n + 1) verts ry (verts.getD v 0) = some true) := by
  have hrow : ∀ e row, HasRow groups e row → row.length = n + 1 ∧ ∀ v ∈ row, v < verts.length := by
    rintro e row ⟨g, i, grp, hg, hr, _⟩
    exact ⟨hm.size grp (List.mem_of_getElem? hg) row (List.mem_of_getElem? hr),
      hm.valid grp (List.mem_of_getElem? hg) row (List.mem_of_getElem? hr)⟩
  have htouch : ∀ e row p, HasRow groups e row → ∃ hit, touchTest lstsq junk tol (n + 1) verts row p = some hit := by
    intro e row p hr
    obtain ⟨h1, h2⟩ := hrow e row hr
    exact ⟨_, touchTest_eq h1 h2 p⟩
  have hmatch : ∀ e p near, (∃ row, HasRow groups near row) →
      ∃ l, matchPairs lstsq junk tol (n + 1) verts (elementEntries groups) e p near = some l ∧
        ∀ z, z ∈ l ↔ near ≠ e ∧ (∃ row, HasRow groups near row ∧
          touchTest lstsq junk tol (n + 1) verts row p = some true) ∧ (z = (near, e) ∨ z = (e, near)) := by
    rintro e p near ⟨row, hr⟩
    unfold matchPairs
    by_cases hne : near = e
    · simp [hne]
    · obtain ⟨hit, hh⟩ := htouch near row p hr
      rw [if_neg hne, lookup_entries.2 hr]
      simp only [Option.bind_some, hh, Option.map_some, Option.some.injEq, exists_eq_left']
      intro z
      have : (∃ row, HasRow groups near row ∧ touchTest lstsq junk tol (n + 1) verts row p = some true) ↔
          hit = true := by
        constructor
        · rintro ⟨row', hr', h⟩
          rw [hasRow_unique hr' hr, hh] at h
          exact Option.some.inj h
        · intro h
          exact ⟨row, hr, h ▸ hh⟩
      rw [this]
      cases hit <;> simp [hne]
  have hvert : ∀ e v, v < verts.length →
      ∃ l, vertexPairs lstsq junk tol (n + 1) verts (elementEntries groups) tree e v = some l ∧
        ∀ z, z ∈ l ↔ ∃ near ∈ tree (verts.getD v 0), near ≠ e ∧ (∃ row, HasRow groups near row ∧
          touchTest lstsq junk tol (n + 1) verts row (verts.getD v 0) = some true) ∧
            (z = (near, e) ∨ z = (e, near)) := by
    intro e v hv
    have hp : verts[v]? = some (verts.getD v 0) := by
      rw [List.getD_eq_getElem?_getD, List.getElem?_eq_getElem hv]; rfl
    obtain ⟨ls, hls⟩ := mapM_isSome_of (l := tree (verts.getD v 0))
      (f := matchPairs lstsq junk tol (n + 1) verts (elementEntries groups) e (verts.getD v 0)) fun near hn => by
        obtain ⟨l, hl, _⟩ := hmatch e (verts.getD v 0) near (ht _ near hn)
        exact ⟨l, hl⟩
    have hfl : ((tree (verts.getD v 0)).mapM
        (matchPairs lstsq junk tol (n + 1) verts (elementEntries groups) e (verts.getD v 0))).map List.flatten =
        some ls.flatten := by rw [hls]; rfl
    refine ⟨ls.flatten, ?_, ?_⟩
    · unfold vertexPairs
      rw [hp, Option.bind_some, hfl]
    · intro z
      rw [mem_mapM_flatten hfl]
      refine exists_congr fun near => and_congr_right fun hn => ?_
      obtain ⟨l, hl, hl'⟩ := hmatch e (verts.getD v 0) near (ht _ near hn)
      rw [← hl' z]
      exact ⟨fun ⟨ys, h1, h2⟩ => by rw [hl] at h1; exact Option.some.inj h1 ▸ h2, fun h => ⟨l, hl, h⟩⟩
  have hel : ∀ er ∈ elementEntries groups,
      ∃ l, (er.2.mapM (vertexPairs lstsq junk tol (n + 1) verts (elementEntries groups) tree er.1)).map
        List.flatten = some l ∧ ∀ z, z ∈ l ↔ ∃ v ∈ er.2, ∃ near ∈ tree (verts.getD v 0), near ≠ er.1 ∧
          (∃ row, HasRow groups near row ∧
            touchTest lstsq junk tol (n + 1) verts row (verts.getD v 0) = some true) ∧
            (z = (near, er.1) ∨ z = (er.1, near)) := by
    intro er her
    obtain ⟨_, hv⟩ := hrow er.1 er.2 (mem_elementEntries her)
    obtain ⟨ls, hls⟩ := mapM_isSome_of (l := er.2)
      (f := vertexPairs lstsq junk tol (n + 1) verts (elementEntries groups) tree er.1) fun v hv' => by
        obtain ⟨l, hl, _⟩ := hvert er.1 v (hv v hv')
        exact ⟨l, hl⟩
    have hfl : (er.2.mapM (vertexPairs lstsq junk tol (n + 1) verts (elementEntries groups) tree er.1)).map
        List.flatten = some ls.flatten := by rw [hls]; rfl
    refine ⟨_, hfl, ?_⟩
    intro z
    rw [mem_mapM_flatten hfl]
    refine exists_congr fun v => and_congr_right fun hv' => ?_
    obtain ⟨l, hl, hl'⟩ := hvert er.1 v (hv v hv')
    rw [← hl' z]
    exact ⟨fun ⟨ys, h1, h2⟩ => by rw [hl] at h1; exact Option.some.inj h1 ▸ h2, fun h => ⟨l, hl, h⟩⟩
  obtain ⟨ls, hls⟩ := mapM_isSome_of (l := elementEntries groups)
    (f := fun er : Nat × List Nat => (er.2.mapM (vertexPairs lstsq junk tol (n + 1) verts (elementEntries groups) tree
      er.1)).map List.flatten) fun er her => by
      obtain ⟨l, hl, _⟩ := hel er her
      exact ⟨l, hl⟩
  have hfl : ((elementEntries groups).mapM fun er : Nat × List Nat => (er.2.mapM (vertexPairs lstsq junk tol (n + 1)
      verts (elementEntries groups) tree er.1)).map List.flatten).map List.flatten = some ls.flatten := by
    rw [hls]; rfl
  refine ⟨ls.flatten, hfl, ?_⟩
  intro x y
  rw [mem_mapM_flatten hfl]
  constructor
  · rintro ⟨er, her, ys, hys, hz⟩
    obtain ⟨l, hl, hl'⟩ := hel er her
    rw [hl] at hys
    obtain rfl := Option.some.inj hys
    obtain ⟨v, hv, near, hn, hne, ⟨row, hr, hh⟩, hz⟩ := (hl' _).1 hz
    have hre := mem_elementEntries her
    rcases hz with hz | hz
    · simp only [Prod.mk.injEq] at hz
      obtain ⟨rfl, rfl⟩ := hz
      exact ⟨hne, row, er.2, hr, hre, Or.inl ⟨v, hv, hn, hh⟩⟩
    · simp only [Prod.mk.injEq] at hz
      obtain ⟨rfl, rfl⟩ := hz
      exact ⟨fun h => hne h.symm, er.2, row, hre, hr, Or.inr ⟨v, hv, hn, hh⟩⟩
  · rintro ⟨hne, rx, ry, hx, hy, ⟨v, hv, hn, hh⟩ | ⟨v, hv, hn, hh⟩⟩
    · obtain ⟨l, hl, hl'⟩ := hel (y, ry) (elementEntries_mem hy)
      exact ⟨(y, ry), elementEntries_mem hy, l, hl, (hl' _).2 ⟨v, hv, x, hn, hne, ⟨rx, hx, hh⟩, Or.inl rfl⟩⟩
    · obtain ⟨l, hl, hl'⟩ := hel (x, rx) (elementEntries_mem hx)
      exact ⟨(x, rx), elementEntries_mem hx, l, hl,
        (hl' _).2 ⟨v, hv, y, hn, fun h => hne h.symm, ⟨ry, hy, hh⟩, Or.inr rfl⟩⟩

theorem sameSets_iff {pairs : List (Nat × Nat)} {conn : List (List Nat)} :
    sameSets pairs conn = true ↔ ∀ (a : Nat) row, conn[a]? = some row → ∀ b, b ∈ row ↔ (a, b) ∈ pairs := by
  unfold sameSets
  simp only [List.all_eq_true, Bool.and_eq_true, decide_eq_true_eq]
  constructor
  · intro h a row hr b
    obtain ⟨h1, h2⟩ := h (row, a) (List.mem_zipIdx_iff_getElem?.2 hr)
    exact ⟨fun hb => h1 b hb, fun hb => h2 (a, b) hb rfl⟩
  · rintro h ⟨row, a⟩ hp
    have hr := List.mem_zipIdx_iff_getElem?.1 hp
    refine ⟨fun b hb => (h a row hr b).1 hb, ?_⟩
    rintro ⟨a', b⟩ hq rfl
    exact (h _ row hr b).2 hq

/-- The result of the check, for meshes of simplices. -/
theorem checkNodalAdj_spec (hl : LstsqOK lstsq) {tree : List (LookupBox K d) → (Fin d → K) → List Nat}
    (htree : TreeOK tree) (htol : 0 ≤ tol) {n : Nat} {verts : List (Fin d → K)} {groups : List (ElGroup N)}
    (hm : SimplexMesh n verts groups) {starts nbrs : List Nat}
    (hcsr : CsrValid starts nbrs (nelements (groups.map ElGroup.nelements))) :
    ∃ touch : Nat → Nat → Prop,
      (∀ a b ra rb v, HasRow groups a ra → HasRow groups b rb → v ∈ ra → InSimplex verts rb (verts.getD v 0) →
        touch a b) ∧
      (∀ a b, touch a b → ∃ ra rb v, HasRow groups a ra ∧ HasRow groups b rb ∧ v ∈ ra ∧
        NearSimplex tol verts rb (verts.getD v 0)) ∧
      ∃ conn ok, ((List.range (nelements (groups.map ElGroup.nelements))).mapM fun e => csrRow starts nbrs e) =
        some conn ∧
      (ok = true ↔ ∀ (a : Nat) row, conn[a]? = some row → ∀ b, b ∈ row ↔ a ≠ b ∧ (touch a b ∨ touch b a)) ∧
      checkNodalAdj tree lstsq junk tol verts groups starts nbrs = (match isSymmetric conn with
        | none => .error .raised
        | some false => .error .asymmetric
        | some true => if ok then .ok () else .error .mismatch) := by
  have hrow : ∀ e row, HasRow groups e row → row.length = n + 1 ∧ (∀ v ∈ row, v < verts.length) ∧
      LinearIndependent K (fun k : Fin (edgesFrom verts row).length => (edgesFrom verts row)[k]) := by
    rintro e row ⟨g, i, grp, hg, hr, _⟩
    exact ⟨hm.size grp (List.mem_of_getElem? hg) row (List.mem_of_getElem? hr),
      hm.valid grp (List.mem_of_getElem? hg) row (List.mem_of_getElem? hr),
      hm.independent grp (List.mem_of_getElem? hg) row (List.mem_of_getElem? hr)⟩
  obtain ⟨boxes, hb, hb1, hb2⟩ := C100_boxes (eps := tol) (verts := verts) (groups := groups) fun g hg row hr =>
    ⟨fun h0 => by have := hm.size g hg row hr; rw [h0] at this; simp at this, hm.valid g hg row hr⟩
  have htr : ∀ p, ∀ e ∈ tree boxes p, ∃ row, HasRow groups e row := by
    intro p e he
    obtain ⟨lo, hi, hbx⟩ := (htree boxes p).1 e he
    exact hb1 e lo hi hbx
  obtain ⟨pairs, hp, hp'⟩ := geometryPairs_spec (lstsq := lstsq) (junk := junk) (tol := tol) hm htr
  obtain ⟨g0, hg0, hg0'⟩ := hm.nonempty
  obtain ⟨first, rest, hfirst⟩ := List.exists_cons_of_ne_nil hg0'
  have hfl : first.length = n + 1 := hm.size g0 (List.mem_of_getElem? hg0) first (by rw [hfirst]; simp)
  obtain ⟨conn, hconn⟩ := mapM_isSome_of (l := List.range (nelements (groups.map ElGroup.nelements)))
    (f := fun e => csrRow starts nbrs e) fun e he => by
      have he' : e < nelements (groups.map ElGroup.nelements) := by simpa using he
      have h1 := List.getElem?_eq_getElem (show e < starts.length by rw [hcsr.1]; omega)
      have h2 := List.getElem?_eq_getElem (show e + 1 < starts.length by rw [hcsr.1]; omega)
      exact ⟨_, by simp only [csrRow, h1, h2, Option.bind_eq_bind, Option.bind_some]; rfl⟩
  refine ⟨fun a b => ∃ ra rb v, HasRow groups a ra ∧ HasRow groups b rb ∧ v ∈ ra ∧
    b ∈ tree boxes (verts.getD v 0) ∧ touchTest lstsq junk tol (n + 1) verts rb (verts.getD v 0) = some true,
    ?_, ?_, conn, sameSets pairs conn, hconn, ?_, ?_⟩
  · intro a b ra rb v ha hb' hv hs
    obtain ⟨h1, h2, h3⟩ := hrow b rb hb'
    obtain ⟨lo, hi, h4, h5⟩ := hb2 b rb hb'
    refine ⟨ra, rb, v, ha, hb', hv, (htree boxes _).2 b lo hi h4 ?_, touch_of_inSimplex hl htol h1 h2 h3 hs⟩
    intro c
    have := h5 _ hs c
    constructor <;> linarith
  · rintro a b ⟨ra, rb, v, ha, hb', hv, _, ht⟩
    obtain ⟨h1, h2, h3⟩ := hrow b rb hb'
    exact ⟨ra, rb, v, ha, hb', hv, near_of_touch hl h1 h2 h3 ht⟩
  · rw [sameSets_iff]
    refine forall_congr' fun a => forall_congr' fun row => forall_congr' fun _ => forall_congr' fun b => ?_
    rw [hp']
    refine iff_congr Iff.rfl (and_congr_right fun _ => ?_)
    constructor
    · rintro ⟨rx, ry, hx, hy, ⟨v, hv, hn, hh⟩ | ⟨v, hv, hn, hh⟩⟩
      · exact Or.inr ⟨ry, rx, v, hy, hx, hv, hn, hh⟩
      · exact Or.inl ⟨rx, ry, v, hx, hy, hv, hn, hh⟩
    · rintro (⟨rx, ry, v, hx, hy, hv, hn, hh⟩ | ⟨ry, rx, v, hy, hx, hv, hn, hh⟩)
      · exact ⟨rx, ry, hx, hy, Or.inr ⟨v, hv, hn, hh⟩⟩
      · exact ⟨rx, ry, hx, hy, Or.inl ⟨v, hv, hn, hh⟩⟩
  · unfold checkNodalAdj
    have hf : (groups[0]?).bind (fun g => g.vertexIndices[0]?) = some first := by
      rw [hg0, Option.bind_some, hfirst]; rfl
    simp only [hb, hf, hfl, hp, hconn]

theorem range_mapM_getElem {α : Type} {f : Nat → Option α} {m : Nat} {l : List α}
    (h : (List.range m).mapM f = some l) (a : Nat) (x : α) : l[a]? = some x ↔ a < m ∧ f a = some x := by
  obtain ⟨hl, he⟩ := mapM_getElem?_some h
  have hl' : l.length = m := by simpa using hl
  constructor
  · intro hx
    have ha : a < m := hl' ▸ (List.getElem?_eq_some_iff.1 hx).1
    obtain ⟨b, hb1, hb2⟩ := he a a (by simp [ha])
    rw [hx] at hb1
    exact ⟨ha, by rw [hb2, hb1]⟩
  · rintro ⟨ha, hf⟩
    obtain ⟨b, hb1, hb2⟩ := he a a (by simp [ha])
    rw [hb1, ← hb2, hf]

/-! ## C100 -/

/-- C100: on a mesh of simplices whose adjacency arrays fit together the check always ends, without an exception other
than a failed assertion. -/
theorem C100_defined (hl : LstsqOK lstsq) {tree : List (LookupBox K d) → (Fin d → K) → List Nat}
    (htree : TreeOK tree) (htol : 0 ≤ tol) {n : Nat} {verts : List (Fin d → K)} {groups : List (ElGroup N)}
    (hm : SimplexMesh n verts groups) {starts nbrs : List Nat}
    (hcsr : CsrValid starts nbrs (nelements (groups.map ElGroup.nelements)))
    (hnb : ∀ b ∈ nbrs, b < nelements (groups.map ElGroup.nelements)) :
    checkNodalAdj tree lstsq junk tol verts groups starts nbrs ≠ .error .raised := by
  obtain ⟨_, _, _, conn, ok, hconn, _, hc⟩ := checkNodalAdj_spec (junk := junk) hl htree htol hm hcsr
  have hlen : conn.length = nelements (groups.map ElGroup.nelements) := by
    simpa using (mapM_getElem?_some hconn).1
  obtain ⟨ans, hans⟩ := C100_symmetric_defined conn fun row hr b hb => by
    obtain ⟨a, ha⟩ := List.mem_iff_getElem?.1 hr
    obtain ⟨_, hrow⟩ := (range_mapM_getElem hconn a row).1 ha
    unfold csrRow at hrow
    obtain ⟨s, _, h1⟩ := Option.bind_eq_some_iff.1 hrow
    obtain ⟨t, _, h2⟩ := Option.bind_eq_some_iff.1 h1
    have h3 : (nbrs.drop s).take (t - s) = row := Option.some.inj h2
    rw [hlen]
    exact hnb b (List.mem_of_mem_drop (List.mem_of_mem_take (h3 ▸ hb)))
  rw [hc, hans]
  cases ans <;> cases ok <;> simp

/-- C100: if the check passes, elements touched by a vertex of another are its neighbours and have it as neighbour, and
of each two neighbours one has a vertex within the tolerance of the other. -/
theorem C100_sound (hl : LstsqOK lstsq) {tree : List (LookupBox K d) → (Fin d → K) → List Nat}
    (htree : TreeOK tree) (htol : 0 ≤ tol) {n : Nat} {verts : List (Fin d → K)} {groups : List (ElGroup N)}
    (hm : SimplexMesh n verts groups) {starts nbrs : List Nat}
    (hcsr : CsrValid starts nbrs (nelements (groups.map ElGroup.nelements)))
    (h : checkNodalAdj tree lstsq junk tol verts groups starts nbrs = .ok ()) :
    (∀ a b ra rb v, HasRow groups a ra → HasRow groups b rb → a ≠ b → v ∈ ra →
      InSimplex verts rb (verts.getD v 0) →
      (∃ row, csrRow starts nbrs a = some row ∧ b ∈ row) ∧ ∃ row, csrRow starts nbrs b = some row ∧ a ∈ row) ∧
    ∀ a b row, a < nelements (groups.map ElGroup.nelements) → csrRow starts nbrs a = some row → b ∈ row →
      a ≠ b ∧ ∃ ra rb, HasRow groups a ra ∧ HasRow groups b rb ∧
        ((∃ v ∈ ra, NearSimplex tol verts rb (verts.getD v 0)) ∨
          ∃ v ∈ rb, NearSimplex tol verts ra (verts.getD v 0)) := by
  obtain ⟨touch, h1, h2, conn, ok, hconn, hok, hc⟩ := checkNodalAdj_spec (junk := junk) hl htree htol hm hcsr
  have hlen : conn.length = nelements (groups.map ElGroup.nelements) := by
    simpa using (mapM_getElem?_some hconn).1
  rw [hc] at h
  have hokt : ok = true := by
    rcases hs : isSymmetric conn with _ | (_ | _) <;> rw [hs] at h <;> cases ok <;> simp at h ⊢
  have hall := hok.1 hokt
  constructor
  · intro a b ra rb v ha hb hne hv hin
    have ht := h1 a b ra rb v ha hb hv hin
    have key : ∀ x y, x < nelements (groups.map ElGroup.nelements) → x ≠ y → (touch x y ∨ touch y x) →
        ∃ row, csrRow starts nbrs x = some row ∧ y ∈ row := by
      intro x y hx hxy htt
      have hr := List.getElem?_eq_getElem (show x < conn.length by omega)
      exact ⟨_, ((range_mapM_getElem hconn x _).1 hr).2, (hall x _ hr y).2 ⟨hxy, htt⟩⟩
    exact ⟨key a b (hasRow_lt ha) hne (Or.inl ht), key b a (hasRow_lt hb) (Ne.symm hne) (Or.inr ht)⟩
  · intro a b row ha hr hb
    obtain ⟨hne, ht⟩ := (hall a row ((range_mapM_getElem hconn a row).2 ⟨ha, hr⟩) b).1 hb
    refine ⟨hne, ?_⟩
    rcases ht with ht | ht
    · obtain ⟨ra, rb, v, k1, k2, k3, k4⟩ := h2 a b ht
      exact ⟨ra, rb, k1, k2, Or.inl ⟨v, k3, k4⟩⟩
    · obtain ⟨rb, ra, v, k1, k2, k3, k4⟩ := h2 b a ht
      exact ⟨ra, rb, k2, k1, Or.inr ⟨v, k3, k4⟩⟩

/-- C100: on a conforming mesh of simplices, where a vertex is within the tolerance of an element only if it is one of
its vertices, the check passes exactly if the neighbours of each element are the other elements with a common vertex. -/
theorem C100_check_iff (hl : LstsqOK lstsq) {tree : List (LookupBox K d) → (Fin d → K) → List Nat}
    (htree : TreeOK tree) (htol : 0 ≤ tol) {n : Nat} {verts : List (Fin d → K)} {groups : List (ElGroup N)}
    (hm : SimplexMesh n verts groups) {starts nbrs : List Nat}
    (hcsr : CsrValid starts nbrs (nelements (groups.map ElGroup.nelements)))
    (hconf : ∀ a b ra rb v, HasRow groups a ra → HasRow groups b rb → v ∈ ra →
      NearSimplex tol verts rb (verts.getD v 0) → v ∈ rb) :
    checkNodalAdj tree lstsq junk tol verts groups starts nbrs = .ok () ↔
      ∀ a row, a < nelements (groups.map ElGroup.nelements) → csrRow starts nbrs a = some row →
        ∀ b, b ∈ row ↔ b ≠ a ∧ ShareVertex groups a b := by
  obtain ⟨touch, h1, h2, conn, ok, hconn, hok, hc⟩ := checkNodalAdj_spec (junk := junk) hl htree htol hm hcsr
  have htouch : ∀ a b, touch a b ↔ ShareVertex groups a b := by
    intro a b
    constructor
    · intro h
      obtain ⟨ra, rb, v, k1, k2, k3, k4⟩ := h2 a b h
      exact ⟨ra, rb, v, k1, k2, k3, hconf a b ra rb v k1 k2 k3 k4⟩
    · rintro ⟨ra, rb, v, k1, k2, k3, k4⟩
      exact h1 a b ra rb v k1 k2 k3 (inSimplex_vertex verts k4)
  have hsymm : ∀ a b, ShareVertex groups a b → ShareVertex groups b a := by
    rintro a b ⟨ra, rb, v, k1, k2, k3, k4⟩
    exact ⟨rb, ra, v, k2, k1, k4, k3⟩
  have hok' : ok = true ↔ ∀ a row, a < nelements (groups.map ElGroup.nelements) → csrRow starts nbrs a = some row →
      ∀ b, b ∈ row ↔ b ≠ a ∧ ShareVertex groups a b := by
    rw [hok]
    simp only [htouch]
    constructor
    · intro h a row ha hr b
      rw [h a row ((range_mapM_getElem hconn a row).2 ⟨ha, hr⟩) b]
      exact ⟨fun ⟨k1, k2⟩ => ⟨Ne.symm k1, k2.elim id (hsymm b a)⟩, fun ⟨k1, k2⟩ => ⟨Ne.symm k1, Or.inl k2⟩⟩
    · intro h a row hr b
      obtain ⟨ha, hr'⟩ := (range_mapM_getElem hconn a row).1 hr
      rw [h a row ha hr' b]
      exact ⟨fun ⟨k1, k2⟩ => ⟨Ne.symm k1, Or.inl k2⟩, fun ⟨k1, k2⟩ => ⟨Ne.symm k1, k2.elim id (hsymm b a)⟩⟩
  rw [hc, ← hok']
  constructor
  · intro h
    rcases hs : isSymmetric conn with _ | (_ | _) <;> rw [hs] at h <;> cases ok <;> simp at h ⊢
  · intro h
    have hall := hok'.1 h
    have hlen : conn.length = nelements (groups.map ElGroup.nelements) := by
      simpa using (mapM_getElem?_some hconn).1
    have hs : isSymmetric conn = some true := by
      rw [C100_symmetric_iff]
      intro a b row hr hb
      obtain ⟨ha, hr'⟩ := (range_mapM_getElem hconn a row).1 hr
      obtain ⟨hne, hsh⟩ := (hall a row ha hr' b).1 hb
      have hbl : b < nelements (groups.map ElGroup.nelements) := by
        obtain ⟨_, _, _, _, k2, _⟩ := hsh
        exact hasRow_lt k2
      have hrb := List.getElem?_eq_getElem (show b < conn.length by omega)
      refine ⟨_, hrb, ?_⟩
      obtain ⟨hb', hrb'⟩ := (range_mapM_getElem hconn b _).1 hrb
      exact (hall b _ hb' hrb' a).2 ⟨Ne.symm hne, hsymm a b hsh⟩
    rw [hs, h]
    rfl

/-- C100: the nodal adjacency that the library computes passes the check, on every conforming mesh of simplices. -/
theorem C100_computed (hl : LstsqOK lstsq) {tree : List (LookupBox K d) → (Fin d → K) → List Nat}
    (htree : TreeOK tree) (htol : 0 ≤ tol) {n : Nat} {verts : List (Fin d → K)} {groups : List (ElGroup N)}
    (hm : SimplexMesh n verts groups)
    (hconf : ∀ a b ra rb v, HasRow groups a ra → HasRow groups b rb → v ∈ ra →
      NearSimplex tol verts rb (verts.getD v 0) → v ∈ rb)
    {iter : List Nat → List Nat} (hiter : ∀ s, (iter s).Perm s) :
    ∃ starts nbrs, nodalAdjacency iter verts.length groups = some (starts, nbrs) ∧
      checkNodalAdj tree lstsq junk tol verts groups starts nbrs = .ok () := by
  have hne : groups ≠ [] := by
    obtain ⟨g, hg, _⟩ := hm.nonempty
    rintro rfl
    simp at hg
  obtain ⟨⟨starts, nbrs⟩, h⟩ := C04_nodal_adjacency_defined iter verts.length hne hm.wf fun g hg row hr =>
    ⟨fun h0 => by have := hm.size g hg row hr; rw [h0] at this; simp at this, hm.valid g hg row hr⟩
  obtain ⟨hcsr, hrows⟩ := C04_nodal_adjacency_is_vertex_sharing hiter h
  refine ⟨starts, nbrs, h, (C100_check_iff hl htree htol hm hcsr hconf).2 ?_⟩
  intro a row ha hr b
  obtain ⟨row', hr', _, hmem⟩ := hrows a ha
  rw [hr] at hr'
  obtain rfl := Option.some.inj hr'
  exact hmem b

/-- C100: adjacency between elements without a common vertex, or missing adjacency between elements with one, makes the
check fail. -/
theorem C100_detects (hl : LstsqOK lstsq) {tree : List (LookupBox K d) → (Fin d → K) → List Nat}
    (htree : TreeOK tree) (htol : 0 ≤ tol) {n : Nat} {verts : List (Fin d → K)} {groups : List (ElGroup N)}
    (hm : SimplexMesh n verts groups) {starts nbrs : List Nat}
    (hcsr : CsrValid starts nbrs (nelements (groups.map ElGroup.nelements)))
    (hnb : ∀ b ∈ nbrs, b < nelements (groups.map ElGroup.nelements))
    (hconf : ∀ a b ra rb v, HasRow groups a ra → HasRow groups b rb → v ∈ ra →
      NearSimplex tol verts rb (verts.getD v 0) → v ∈ rb)
    {a b : Nat} {row : List Nat} (ha : a < nelements (groups.map ElGroup.nelements))
    (hr : csrRow starts nbrs a = some row) (hwrong : ¬ (b ∈ row ↔ b ≠ a ∧ ShareVertex groups a b)) :
    checkNodalAdj tree lstsq junk tol verts groups starts nbrs = .error .asymmetric ∨
      checkNodalAdj tree lstsq junk tol verts groups starts nbrs = .error .mismatch := by
  have h1 := C100_defined (junk := junk) hl htree htol hm hcsr hnb
  have h2 : checkNodalAdj tree lstsq junk tol verts groups starts nbrs ≠ .ok () := fun h =>
    hwrong ((C100_check_iff hl htree htol hm hcsr hconf).1 h a row ha hr b)
  rcases h : checkNodalAdj tree lstsq junk tol verts groups starts nbrs with (_ | _ | _) | ⟨⟨⟩⟩
  · exact absurd h h1
  · exact Or.inl rfl
  · exact Or.inr rfl
  · exact absurd h h2

end

/-! ## Examples -/

/-- A search without a tree. (Example, no code.) -/
def exTree (boxes : List (LookupBox ℚ 2)) (p : Fin 2 → ℚ) : List Nat :=
  (boxes.filter fun b => decide (∀ c, b.2.1 c ≤ p c ∧ p c ≤ b.2.2 c)).map Prod.fst

/-- Least squares in the plane. (Example, no code.) -/
def exLstsq (cols : List (Fin 2 → ℚ)) (v : Fin 2 → ℚ) : List ℚ × List ℚ :=
  match cols with
  | [] => ([], [sqNorm v])
  | [c] =>
    let t := (c 0 * v 0 + c 1 * v 1) / (c 0 ^ 2 + c 1 ^ 2)
    ([t], [sqNorm (v - linComb [t] [c])])
  | [a, b] =>
    let D := a 0 * b 1 - a 1 * b 0
    ([(v 0 * b 1 - v 1 * b 0) / D, (a 0 * v 1 - a 1 * v 0) / D], [])
  | _ => ([], [])

theorem exTree_ok : TreeOK exTree := by
  intro boxes p
  constructor
  · intro e he
    obtain ⟨⟨e', lo, hi⟩, hb, rfl⟩ := List.mem_map.1 he
    exact ⟨lo, hi, (List.mem_filter.1 hb).1⟩
  · intro e lo hi hb h
    exact List.mem_map.2 ⟨(e, lo, hi), List.mem_filter.2 ⟨hb, by simpa using h⟩, rfl⟩

theorem exLstsq_ok : LstsqOK exLstsq := by
  intro cols v hind
  match cols, hind with
  | [], _ =>
    refine ⟨rfl, fun b => ?_, ?_⟩
    · simp [exLstsq, linComb]
    · simp [exLstsq, linComb]
  | [c], hind =>
    have hc : c ≠ 0 := by simpa using hind.ne_zero (⟨0, by simp⟩ : Fin [c].length)
    have hpos : 0 < c 0 ^ 2 + c 1 ^ 2 := by
      have := sqNorm_nonneg c
      have h2 : sqNorm c ≠ 0 := fun h => hc (sqNorm_eq_zero.1 h)
      simp only [sqNorm, Fin.sum_univ_two] at this h2
      exact lt_of_le_of_ne this (Ne.symm h2)
    refine ⟨rfl, fun b => ?_, by simp [exLstsq]⟩
    have e : ∀ l : List ℚ, linComb l [c] = l.getD 0 0 • c := by
      intro l
      simp [linComb]
    rw [e, e]
    generalize b.getD 0 0 = s
    simp only [exLstsq, sqNorm, Fin.sum_univ_two, List.getD_cons_zero, Pi.sub_apply, Pi.smul_apply, smul_eq_mul]
    set t := (c 0 * v 0 + c 1 * v 1) / (c 0 ^ 2 + c 1 ^ 2) with ht
    have htt : t * (c 0 ^ 2 + c 1 ^ 2) = c 0 * v 0 + c 1 * v 1 := by rw [ht]; field_simp
    have hdiff : (v 0 - s * c 0) ^ 2 + (v 1 - s * c 1) ^ 2 - ((v 0 - t * c 0) ^ 2 + (v 1 - t * c 1) ^ 2) =
        (s - t) ^ 2 * (c 0 ^ 2 + c 1 ^ 2) := by linear_combination (-2 * (t - s)) * htt
    have := mul_nonneg (sq_nonneg (s - t)) hpos.le
    linarith
  | [a, b], hind =>
    have hD : a 0 * b 1 - a 1 * b 0 ≠ 0 := by
      intro hD
      rw [Fintype.linearIndependent_iff] at hind
      have h0 : b = 0 := by
        have h1 := hind (fun k => if (k : Nat) = 0 then b 1 else -a 1) (by
          funext c
          simp only [List.length_cons, List.length_nil, Nat.reduceAdd, Fin.getElem_fin, Fin.sum_univ_two,
            Fin.val_zero, Fin.val_one, List.getElem_cons_zero, List.getElem_cons_succ, Pi.add_apply, Pi.smul_apply,
            smul_eq_mul, Pi.zero_apply]
          fin_cases c <;> simp <;> linarith) (⟨0, by simp⟩)
        have h2 := hind (fun k => if (k : Nat) = 0 then b 0 else -a 0) (by
          funext c
          simp only [List.length_cons, List.length_nil, Nat.reduceAdd, Fin.getElem_fin, Fin.sum_univ_two,
            Fin.val_zero, Fin.val_one, List.getElem_cons_zero, List.getElem_cons_succ, Pi.add_apply, Pi.smul_apply,
            smul_eq_mul, Pi.zero_apply]
          fin_cases c <;> simp <;> linarith) (⟨0, by simp⟩)
        funext c
        fin_cases c
        · simpa using h2
        · simpa using h1
      have h1 := hind (fun k => if (k : Nat) = 0 then 0 else 1) (by
        simp [Fin.sum_univ_two, h0]) (⟨1, by simp⟩)
      simp at h1
    have hz : v - linComb (exLstsq [a, b] v).1 [a, b] = 0 := by
      funext c
      simp only [linComb, exLstsq, List.length_cons, List.length_nil, Nat.reduceAdd, Fin.sum_univ_two,
        Fin.getElem_fin, Fin.val_zero, Fin.val_one, List.getElem_cons_zero, List.getElem_cons_succ, Pi.sub_apply,
        Pi.add_apply, Pi.smul_apply, smul_eq_mul, Pi.zero_apply, List.getD_cons_zero, List.getD_cons_succ]
      rw [sub_eq_zero, eq_comm, div_mul_eq_mul_div, div_mul_eq_mul_div, ← add_div, div_eq_iff hD]
      fin_cases c <;> simp <;> ring
    refine ⟨rfl, fun l => ?_, by simp [exLstsq]⟩
    rw [hz, sqNorm_eq_zero.2 rfl]
    exact sqNorm_nonneg _
  | a :: b :: c :: rest, hind =>
    exfalso
    have := hind.fintype_card_le_finrank
    simp at this

theorem indep_two {a b : Fin 2 → ℚ} (h : a 0 * b 1 - a 1 * b 0 ≠ 0) :
    LinearIndependent ℚ (fun k : Fin [a, b].length => [a, b][k]) := by
  rw [Fintype.linearIndependent_iff]
  intro g hg
  have h0 := congrFun hg 0
  have h1 := congrFun hg 1
  simp only [List.length_cons, List.length_nil, Nat.reduceAdd, Fin.getElem_fin, Fin.sum_univ_two,
    Fin.val_zero, Fin.val_one, List.getElem_cons_zero, List.getElem_cons_succ, Pi.add_apply, Pi.smul_apply,
    smul_eq_mul, Pi.zero_apply] at h0 h1
  intro k
  have e0 : g (0 : Fin 2) * (a 0 * b 1 - a 1 * b 0) = 0 := by linear_combination b 1 * h0 - b 0 * h1
  have e1 : g (1 : Fin 2) * (a 0 * b 1 - a 1 * b 0) = 0 := by linear_combination a 0 * h1 - a 1 * h0
  match k with
  | ⟨0, _⟩ => exact (mul_eq_zero.1 e0).resolve_right h
  | ⟨1, _⟩ => exact (mul_eq_zero.1 e1).resolve_right h

/-- A point of the plane. (Example, no code.) -/
def exPt (x y : ℚ) : Fin 2 → ℚ := ![x, y]

/-- A square of two triangles. (Example, no code.) -/
def exAdjVerts : List (Fin 2 → ℚ) := [exPt 0 0, exPt 1 0, exPt 0 1, exPt 1 1]

/-- Its groups. (Example, no code.) -/
def exAdjGroups : List (ElGroup Unit) := [⟨0, [], [[0, 1, 2], [3, 2, 1]], [(), ()]⟩]

theorem exAdj_mesh : SimplexMesh 2 exAdjVerts exAdjGroups where
  nonempty := ⟨_, rfl, by simp⟩
  wf := by
    intro g hg
    obtain rfl := List.mem_singleton.1 hg
    exact ⟨rfl, by simp⟩
  size := by decide
  valid := by decide
  independent := by
    intro g hg row hr
    obtain rfl := List.mem_singleton.1 hg
    rcases List.mem_cons.1 hr with rfl | hr
    · exact indep_two (a := exPt 1 0 - exPt 0 0) (b := exPt 0 1 - exPt 0 0) (by simp [exPt])
    · obtain rfl := List.mem_singleton.1 hr
      exact indep_two (a := exPt 0 1 - exPt 1 1) (b := exPt 1 0 - exPt 1 1) (by simp [exPt])

theorem exAdj_rows {e : Nat} {row : List Nat} (h : HasRow exAdjGroups e row) : row = [0, 1, 2] ∨ row = [3, 2, 1] := by
  obtain ⟨g, i, grp, hg, hr, _⟩ := h
  obtain rfl := List.mem_singleton.1 (List.mem_of_getElem? hg)
  simpa using List.mem_of_getElem? hr

theorem linComb_two (x y : ℚ) (a b : Fin 2 → ℚ) : linComb [x, y] [a, b] = x • a + y • b := by
  simp only [linComb, List.length_cons, List.length_nil, Nat.reduceAdd, Fin.sum_univ_two,
    Fin.getElem_fin, Fin.val_zero, Fin.val_one, List.getElem_cons_zero, List.getElem_cons_succ,
    List.getD_cons_zero, List.getD_cons_succ]

theorem exAdj_near (u v : ℚ) (h : u + v ≤ 11 / 10) :
    ¬ ((1 - u) ^ 2 + (1 - v) ^ 2) ^ 2 ≤ (1 / 10) ^ 2 * (1 ^ 2 + 1 ^ 2) := by
  intro h2
  have h3 : 2 / 5 ≤ (1 - u) ^ 2 + (1 - v) ^ 2 := by nlinarith [sq_nonneg (u - v), sq_nonneg (u + v - 11 / 10)]
  nlinarith

theorem exAdj_conf : ∀ a b ra rb v, HasRow exAdjGroups a ra → HasRow exAdjGroups b rb → v ∈ ra →
    NearSimplex (1 / 10) exAdjVerts rb (exAdjVerts.getD v 0) → v ∈ rb := by
  intro a b ra rb v ha hb hv hn
  obtain ⟨l, hl, _, hsum, hres⟩ := hn
  have hv4 : v = 0 ∨ v = 1 ∨ v = 2 ∨ v = 3 := by
    rcases exAdj_rows ha with rfl | rfl <;> simp at hv <;> omega
  rcases exAdj_rows hb with rfl | rfl
  · rcases hv4 with rfl | rfl | rfl | rfl
    · simp
    · simp
    · simp
    · exfalso
      match l, hl with
      | [x, y], _ =>
        refine exAdj_near x y (by simp at hsum; linarith) ?_
        rw [show edgesFrom exAdjVerts [0, 1, 2] = [exPt 1 0 - exPt 0 0, exPt 0 1 - exPt 0 0] from rfl,
          linComb_two] at hres
        simpa [sqNorm, exAdjVerts, exPt, Fin.sum_univ_two] using hres
  · rcases hv4 with rfl | rfl | rfl | rfl
    · exfalso
      match l, hl with
      | [x, y], _ =>
        refine exAdj_near x y (by simp at hsum; linarith) ?_
        rw [show edgesFrom exAdjVerts [3, 2, 1] = [exPt 0 1 - exPt 1 1, exPt 1 0 - exPt 1 1] from rfl,
          linComb_two] at hres
        simp [sqNorm, exAdjVerts, exPt, Fin.sum_univ_two] at hres
        nlinarith
    · simp
    · simp
    · simp

/-- The hypotheses of C100 hold for two triangles, and the adjacency of the library passes. -/
example : ∃ starts nbrs, nodalAdjacency id exAdjVerts.length exAdjGroups = some (starts, nbrs) ∧
    checkNodalAdj exTree exLstsq (fun _ => 0) (1 / 10) exAdjVerts exAdjGroups starts nbrs = .ok () :=
  C100_computed exLstsq_ok exTree_ok (by norm_num) exAdj_mesh exAdj_conf (fun _ => List.Perm.refl _)

/-- Missing neighbours are detected. -/
example : checkNodalAdj exTree exLstsq (fun _ => 0) (1 / 10) exAdjVerts exAdjGroups [0, 0, 0] [] =
    .error .mismatch := by decide +kernel

/-- One-sided adjacency is detected. -/
example : checkNodalAdj exTree exLstsq (fun _ => 0) (1 / 10) exAdjVerts exAdjGroups [0, 1, 1] [1] =
    .error .asymmetric := by decide +kernel

/-- The adjacency of the library: both triangles are neighbours. -/
example : nodalAdjacency id exAdjVerts.length exAdjGroups = some ([0, 1, 2], [1, 0]) ∧
    checkNodalAdj exTree exLstsq (fun _ => 0) (1 / 10) exAdjVerts exAdjGroups [0, 1, 2] [1, 0] = .ok () := by
  decide +kernel

/-- C100: with a hanging vertex the computed nodal adjacency fails the check: a vertex of the second triangle is in the
middle of an edge of the first, but they have no common vertex. -/
theorem C100_hanging_counterexample :
    let verts := [exPt 0 0, exPt 2 0, exPt 0 2, exPt 1 0, exPt 2 (-1), exPt 0 (-1)]
    let groups : List (ElGroup Unit) := [⟨0, [], [[0, 1, 2], [3, 4, 5]], [(), ()]⟩]
    nodalAdjacency id verts.length groups = some ([0, 0, 0], []) ∧
      checkNodalAdj exTree exLstsq (fun _ => 0) (1 / 10) verts groups [0, 0, 0] [] = .error .mismatch ∧
      checkNodalAdj exTree exLstsq (fun _ => 0) (1 / 10) verts groups [0, 1, 2] [1, 0] = .ok () := by
  decide +kernel

/-- C100: the number of vertices is that of the first element of the mesh, so that the check raises `IndexError` for the
right adjacency of a triangle and a quadrilateral in a later group. -/
theorem C100_mixed_counterexample :
    let verts := [exPt 0 0, exPt 1 0, exPt 0 1, exPt 1 (-1), exPt 0 (-1)]
    let groups : List (ElGroup Unit) := [⟨0, [], [[0, 1, 2]], [()]⟩, ⟨1, [], [[4, 3, 0, 1]], [()]⟩]
    nodalAdjacency id verts.length groups = some ([0, 1, 2], [1, 0]) ∧
      checkNodalAdj exTree exLstsq (fun _ => 0) (1 / 10) verts groups [0, 1, 2] [1, 0] = .error .raised := by
  decide +kernel

end Meshmode
