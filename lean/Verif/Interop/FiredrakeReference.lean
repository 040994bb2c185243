import Verif.Interop.FiredrakeExportNodes
import Verif.Interop.FiredrakeConn

/-!
# Reference cells and connections from Firedrake (C83)

`get_affine_reference_simplex_mapping` (meshmode/interop/firedrake/reference_cell.py), `_get_cells_to_use` and
`build_connection_from_firedrake` (meshmode/interop/firedrake/connection.py).
-/
namespace Meshmode
open Matrix

/-! ## Model: reference cells -/

/-- Exceptions for wrong arguments. Code: meshmode/interop/firedrake/reference_cell.py:60-67. -/
inductive RefCellErr where
  | type
  | value
  deriving DecidableEq, Repr

/-- The checks of the arguments; `none` stands for an object of another type.
Code: meshmode/interop/firedrake/reference_cell.py:60-67. -/
def refChecks (ambientDim : Option Int) (toMeshmode : Option Bool) : Except RefCellErr (Nat × Bool) :=
  match ambientDim with
  | none => .error .type
  | some dim =>
    if dim < 0 then .error .value
    else match toMeshmode with
      | none => .error .type
      | some b => .ok (dim.toNat, b)

variable {K : Type} [Field K]

/-- `ufc_simplex(dim).vertices`: the origin and the unit vectors.
Code: meshmode/interop/firedrake/reference_cell.py:75. -/
def firedrakeVertices (d : Nat) (i : Fin (d + 1)) (j : Fin d) : K := if i = j.succ then 1 else 0

/-- `unit_vertices_for_shape(Simplex(dim))` of modepy. Code: meshmode/interop/firedrake/reference_cell.py:76. -/
def modepyVertices (d : Nat) (i : Fin (d + 1)) (j : Fin d) : K := if i = j.succ then 1 else -1

/-- `from_span_verts` and `to_span_verts`; vertices are columns.
Code: meshmode/interop/firedrake/reference_cell.py:99-100. -/
def spanVerts {d : Nat} (v : Fin (d + 1) → Fin d → K) : Matrix (Fin d) (Fin d) K :=
  Matrix.of fun i j => v j.succ i - v 0 i

/-- `mat = la.solve(from_span_verts, to_span_verts)`. Code: meshmode/interop/firedrake/reference_cell.py:102. -/
noncomputable def refMat {d : Nat} (source target : Fin (d + 1) → Fin d → K) : Matrix (Fin d) (Fin d) K :=
  (spanVerts source)⁻¹ * spanVerts target

/-- `affine_map` at one point.  If the determinant is negative, `np.matmul` raises, as it gets the pair
`get_simplex_element_flip_matrix` returns (`none`).
Code: meshmode/interop/firedrake/reference_cell.py:78-115. -/
noncomputable def refMap [LinearOrder K] {d : Nat} (source target : Fin (d + 1) → Fin d → K) :
    Option ((Fin d → K) → Fin d → K) :=
  if d = 0 then some fun x => x + (target 0 - source 0)
  else if (refMat source target).det < 0 then none
  else some fun x => refMat source target *ᵥ x + (target 0 - refMat source target *ᵥ source 0)

/-- The function returned. Code: meshmode/interop/firedrake/reference_cell.py:38-115. -/
noncomputable def affineReference [LinearOrder K] (d : Nat) (toMeshmode : Bool) :
    Option ((Fin d → K) → Fin d → K) :=
  if toMeshmode then refMap (firedrakeVertices d) (modepyVertices d)
  else refMap (modepyVertices d) (firedrakeVertices d)

/-! ## Properties of reference cells -/

theorem spanVerts_firedrake (d : Nat) : spanVerts (firedrakeVertices (K := K) d) = 1 := by
  ext i j
  simp [spanVerts, firedrakeVertices, Matrix.one_apply, Fin.succ_inj, eq_comm]

theorem spanVerts_modepy (d : Nat) : spanVerts (modepyVertices (K := K) d) = (2 : K) • 1 := by
  ext i j
  simp only [spanVerts, modepyVertices, Matrix.of_apply, Fin.succ_inj, Matrix.smul_apply, Matrix.one_apply,
    (Fin.succ_ne_zero i).symm, if_false, smul_eq_mul, eq_comm (a := j) (b := i)]
  split_ifs <;> norm_num

theorem refMat_to (d : Nat) : refMat (firedrakeVertices (K := K) d) (modepyVertices d) = (2 : K) • 1 := by
  rw [refMat, spanVerts_firedrake, spanVerts_modepy]
  simp

theorem refMat_from [CharZero K] (d : Nat) :
    refMat (modepyVertices (K := K) d) (firedrakeVertices d) = (2 : K)⁻¹ • 1 := by
  rw [refMat, spanVerts_firedrake, spanVerts_modepy]
  have h2 : (2 : K) ≠ 0 := two_ne_zero
  rw [Matrix.mul_one]
  apply Matrix.inv_eq_left_inv
  rw [Matrix.smul_mul, Matrix.one_mul, smul_smul, inv_mul_cancel₀ h2, one_smul]

section ordered
variable [LinearOrder K] [IsStrictOrderedRing K]

/-- **C83.** The map from Firedrake's reference simplex to meshmode's is `2 x - 1`. -/
theorem C83_formula (d : Nat) (toMeshmode : Bool) : affineReference (K := K) d toMeshmode =
    some fun x j => if toMeshmode then 2 * x j - 1 else (x j + 1) / 2 := by
  have h2 : (2 : K) ≠ 0 := two_ne_zero
  cases d with
  | zero =>
    unfold affineReference refMap
    cases toMeshmode <;> simp only [if_true, Bool.false_eq_true, if_false, Option.some.injEq] <;>
      (funext x j; exact j.elim0)
  | succ d =>
    cases toMeshmode with
    | true =>
      unfold affineReference refMap
      simp only [if_true]
      rw [if_neg (Nat.succ_ne_zero d), refMat_to, if_neg]
      · congr 1
        funext x j
        simp [firedrakeVertices, modepyVertices, Matrix.smul_mulVec, (Fin.succ_ne_zero _).symm]
        ring
      · rw [Matrix.det_smul, Matrix.det_one]
        simp
    | false =>
      unfold affineReference refMap
      simp only [Bool.false_eq_true, if_false]
      rw [if_neg (Nat.succ_ne_zero d), refMat_from, if_neg]
      · congr 1
        funext x j
        simp [firedrakeVertices, modepyVertices, Matrix.smul_mulVec, (Fin.succ_ne_zero _).symm]
        field_simp
      · rw [Matrix.det_smul, Matrix.det_one]
        simp

/-- **C83.** The map is defined for every dimension, sends each vertex of one reference simplex to the vertex of the
other with the same number, and keeps barycentric coordinates. -/
theorem C83_reference (d : Nat) (toMeshmode : Bool) : ∃ f, affineReference (K := K) d toMeshmode = some f ∧
    (∀ i, f (if toMeshmode then firedrakeVertices d i else modepyVertices d i) =
      if toMeshmode then modepyVertices d i else firedrakeVertices d i) ∧
    ∀ b : Fin (d + 1) → K, ∑ i, b i = 1 →
      f (∑ i, b i • (if toMeshmode then firedrakeVertices d i else modepyVertices d i)) =
        ∑ i, b i • (if toMeshmode then modepyVertices d i else firedrakeVertices d i) := by
  refine ⟨_, C83_formula d toMeshmode, ?_, ?_⟩
  · intro i
    funext j
    cases toMeshmode
    · simp only [Bool.false_eq_true, if_false, firedrakeVertices, modepyVertices]
      split_ifs <;> norm_num
    · simp only [if_true, firedrakeVertices, modepyVertices]
      split_ifs <;> norm_num
  · intro b hb
    funext j
    cases toMeshmode
    · simp only [Bool.false_eq_true, if_false, Finset.sum_apply, Pi.smul_apply, smul_eq_mul]
      have : ∀ i : Fin (d + 1), b i * modepyVertices (K := K) d i j = 2 * (b i * firedrakeVertices d i j) - b i := by
        intro i
        simp only [firedrakeVertices, modepyVertices]
        split_ifs <;> ring
      simp only [this, Finset.sum_sub_distrib, ← Finset.mul_sum, hb]
      ring
    · simp only [if_true, Finset.sum_apply, Pi.smul_apply, smul_eq_mul]
      have : ∀ i : Fin (d + 1), b i * modepyVertices (K := K) d i j = 2 * (b i * firedrakeVertices d i j) - b i := by
        intro i
        simp only [firedrakeVertices, modepyVertices]
        split_ifs <;> ring
      simp only [this, Finset.sum_sub_distrib, ← Finset.mul_sum, hb]

/-- **C83.** The two directions are inverse to each other, and both keep orientations. -/
theorem C83_inverse (d : Nat) : ∃ f g, affineReference (K := K) d true = some f ∧
    affineReference (K := K) d false = some g ∧ (∀ x, g (f x) = x) ∧ ∀ x, f (g x) = x := by
  refine ⟨_, _, C83_formula d true, C83_formula d false, ?_, ?_⟩
  · intro x
    funext j
    simp only [if_true, Bool.false_eq_true, if_false]
    ring
  · intro x
    funext j
    simp only [if_true, Bool.false_eq_true, if_false]
    ring

omit [LinearOrder K] [IsStrictOrderedRing K] in
/-- **C83.** The order of factors in `la.solve` is that of the inverse problem: with other reference vertices the map
would send vertices to vertices exactly if the two matrices commute. Here both are multiples of the identity. -/
theorem C83_solve_iff {d : Nat} (source target : Fin (d + 1) → Fin d → K) (hs : IsUnit (spanVerts source).det) :
    (∀ i, refMat source target *ᵥ source i + (target 0 - refMat source target *ᵥ source 0) = target i) ↔
      spanVerts source * spanVerts target = spanVerts target * spanVerts source := by
  have hcol : (∀ i, refMat source target *ᵥ source i + (target 0 - refMat source target *ᵥ source 0) = target i) ↔
      refMat source target * spanVerts source = spanVerts target := by
    constructor
    · intro H
      ext a j
      have h1 := congrFun (H j.succ) a
      simp only [Pi.add_apply, Pi.sub_apply] at h1
      have h2 : (refMat source target * spanVerts source) a j =
          (refMat source target *ᵥ source j.succ) a - (refMat source target *ᵥ source 0) a := by
        simp only [Matrix.mul_apply, Matrix.mulVec, dotProduct, spanVerts, Matrix.of_apply]
        rw [← Finset.sum_sub_distrib]
        exact Finset.sum_congr rfl fun l _ => by ring
      rw [h2]
      simp only [spanVerts, Matrix.of_apply, ← h1]
      ring
    · intro H i
      rcases Fin.eq_zero_or_eq_succ i with rfl | ⟨j, rfl⟩
      · funext a
        simp
      · funext a
        have h1 := congrFun (congrFun H a) j
        have h2 : (refMat source target * spanVerts source) a j =
            (refMat source target *ᵥ source j.succ) a - (refMat source target *ᵥ source 0) a := by
          simp only [Matrix.mul_apply, Matrix.mulVec, dotProduct, spanVerts, Matrix.of_apply]
          rw [← Finset.sum_sub_distrib]
          exact Finset.sum_congr rfl fun l _ => by ring
        rw [h2] at h1
        simp only [spanVerts, Matrix.of_apply] at h1
        simp only [Pi.add_apply, Pi.sub_apply]
        rw [add_sub_left_comm, h1]; exact add_sub_cancel _ _
  rw [hcol, refMat]
  constructor
  · intro H
    calc spanVerts source * spanVerts target
        = spanVerts source * ((spanVerts source)⁻¹ * spanVerts target * spanVerts source) := by rw [H]
      _ = spanVerts target * spanVerts source := by
        rw [Matrix.mul_assoc, ← Matrix.mul_assoc, Matrix.mul_nonsing_inv _ hs, Matrix.one_mul]
  · intro H
    rw [Matrix.mul_assoc, ← H, ← Matrix.mul_assoc, Matrix.nonsing_inv_mul _ hs, Matrix.one_mul]

end ordered

/-- **C83.** Which arguments are accepted. -/
theorem C83_checks (dim : Option Int) (b : Option Bool) (n : Nat) (t : Bool) :
    refChecks dim b = .ok (n, t) ↔ dim = some (n : Int) ∧ b = some t := by
  unfold refChecks
  cases dim with
  | none => simp
  | some i =>
    simp only
    by_cases hi : i < 0
    · rw [if_pos hi]
      simp only [reduceCtorEq, Option.some.injEq, false_iff]
      rintro ⟨rfl, -⟩
      omega
    · rw [if_neg hi]
      cases b with
      | none => simp
      | some b =>
        simp only [Except.ok.injEq, Prod.mk.injEq, Option.some.injEq]
        constructor
        · rintro ⟨rfl, rfl⟩; exact ⟨by omega, rfl⟩
        · rintro ⟨rfl, rfl⟩; exact ⟨by omega, rfl⟩

/-! ## Cells near a boundary -/

/-- `_get_cells_to_use` from the nodes of cells and the nodes of the boundary; `none` is `None`.
Code: meshmode/interop/firedrake/connection.py:598-609. -/
def cellsToUse (cellNodes : List (List Nat)) (boundaryNodes : Option (List Nat)) : Option (List Nat) :=
  boundaryNodes.map fun bs =>
    (List.range cellNodes.length).filter fun c => (cellNodes.getD c []).any fun n => bs.contains n

/-- **C83.** The cells used: all cells with a node among those of the boundary, in order, each once; all cells if
there is no restriction. -/
theorem C83_cells (cellNodes : List (List Nat)) (bs : List Nat) : cellsToUse cellNodes none = none ∧
    ∃ use, cellsToUse cellNodes (some bs) = some use ∧ use.Pairwise (· < ·) ∧
      ∀ c, c ∈ use ↔ ∃ ns, cellNodes[c]? = some ns ∧ ∃ n ∈ ns, n ∈ bs := by
  refine ⟨rfl, _, rfl, List.pairwise_lt_range.filter _, fun c => ?_⟩
  rw [List.mem_filter, List.mem_range, List.any_eq_true]
  constructor
  · rintro ⟨hc, n, hn, hb⟩
    rw [List.getD_eq_getElem?_getD, List.getElem?_eq_getElem hc, Option.getD_some] at hn
    exact ⟨_, List.getElem?_eq_getElem hc, n, hn, by simpa using hb⟩
  · rintro ⟨ns, hc, n, hn, hb⟩
    refine ⟨(List.getElem?_eq_some_iff.1 hc).1, n, ?_, by simpa using hb⟩
    rw [List.getD_eq_getElem?_getD, hc]
    exact hn

/-- What continuous coordinates mean for nodes: every node lies on some part of the mesh spanned by vertices
(`vertsOf`), a cell having the node has these vertices, and the nodes of the boundary are those whose vertices are
all vertices of one marked facet. (Specification or proof vocabulary, no code.) -/
structure ContinuousNodes (cellNodes cellVerts : List (List Nat)) (facets : List (List Nat)) (vertsOf : Nat → List Nat)
    (bs : List Nat) : Prop where
  cells : cellNodes.length = cellVerts.length
  nonempty : ∀ n, vertsOf n ≠ []
  /-- a cell has exactly the nodes spanned by vertices of the cell -/
  spanned : ∀ (c : Nat) ns vs, cellNodes[c]? = some ns → cellVerts[c]? = some vs →
    ∀ n ∈ ns, ∀ v ∈ vertsOf n, v ∈ vs
  vertex : ∀ (c : Nat) ns vs, cellNodes[c]? = some ns → cellVerts[c]? = some vs →
    ∀ v ∈ vs, ∃ n ∈ ns, vertsOf n = [v]
  boundary : ∀ n, (∃ ns ∈ cellNodes, n ∈ ns) → (n ∈ bs ↔ ∃ f ∈ facets, ∀ v ∈ vertsOf n, v ∈ f)

/-- **C83.** With continuous coordinates these are, as documented, the cells with a vertex on a marked facet. -/
theorem C83_cells_vertices {cellNodes cellVerts facets : List (List Nat)} {vertsOf : Nat → List Nat} {bs use : List Nat}
    (H : ContinuousNodes cellNodes cellVerts facets vertsOf bs) (h : cellsToUse cellNodes (some bs) = some use)
    (c : Nat) : c ∈ use ↔ ∃ vs, cellVerts[c]? = some vs ∧ ∃ v ∈ vs, ∃ f ∈ facets, v ∈ f := by
  obtain ⟨-, use', hu, -, hmem⟩ := C83_cells cellNodes bs
  rw [h, Option.some.injEq] at hu
  subst hu
  rw [hmem]
  constructor
  · rintro ⟨ns, hns, n, hn, hb⟩
    have hl := (List.getElem?_eq_some_iff.1 hns).1
    rw [H.cells] at hl
    have hvs := List.getElem?_eq_getElem hl
    obtain ⟨f, hf, hall⟩ := (H.boundary n ⟨ns, List.mem_of_getElem? hns, hn⟩).1 hb
    obtain ⟨v, l, hv⟩ := List.exists_cons_of_ne_nil (H.nonempty n)
    have hvm : v ∈ vertsOf n := by rw [hv]; exact List.mem_cons_self
    exact ⟨_, hvs, v, H.spanned c ns _ hns hvs n hn v hvm, f, hf, hall v hvm⟩
  · rintro ⟨vs, hvs, v, hv, f, hf, hvf⟩
    have hl := (List.getElem?_eq_some_iff.1 hvs).1
    rw [← H.cells] at hl
    have hns := List.getElem?_eq_getElem hl
    obtain ⟨n, hn, hvn⟩ := H.vertex c _ vs hns hvs v hv
    refine ⟨_, hns, n, hn, (H.boundary n ⟨_, List.mem_of_getElem? hns, hn⟩).2 ⟨f, hf, ?_⟩⟩
    intro w hw
    rw [hvn, List.mem_singleton] at hw
    rw [hw]
    exact hvf

/-- Two triangles with the common vertex 2 and quadratic coordinates; the facet with vertices 0 and 2 is marked.
Nodes 5 to 7 and 8 to 10 are on edges. (Example, no code.) -/
def exVertsOf : Nat → List Nat
  | 5 => [0, 1] | 6 => [1, 2] | 7 => [2, 0] | 8 => [2, 3] | 9 => [3, 4] | 10 => [4, 2]
  | n => [n]

example : ContinuousNodes [[0, 1, 2, 5, 6, 7], [2, 3, 4, 8, 9, 10]] [[0, 1, 2], [2, 3, 4]] [[0, 2]] exVertsOf
    [0, 2, 7] where
  cells := rfl
  nonempty := by
    intro n
    unfold exVertsOf
    split <;> simp
  spanned := by
    intro c ns vs h1 h2
    match c, h1, h2 with
    | 0, h1, h2 => cases h1; cases h2; decide
    | 1, h1, h2 => cases h1; cases h2; decide
  vertex := by
    intro c ns vs h1 h2
    match c, h1, h2 with
    | 0, h1, h2 => cases h1; cases h2; decide
    | 1, h1, h2 => cases h1; cases h2; decide
  boundary := by
    rintro n ⟨ns, hns, hn⟩
    have : n ∈ [0, 1, 2, 5, 6, 7, 3, 4, 8, 9, 10] := by
      simp only [List.mem_cons, List.not_mem_nil, or_false] at hns
      rcases hns with rfl | rfl
      · revert n; decide
      · revert n; decide
    clear hns hn
    revert n
    decide

example : cellsToUse [[0, 1, 2, 5, 6, 7], [2, 3, 4, 8, 9, 10]] (some [0, 2, 7]) = some [0, 1] := by decide

/-- **C83.** With discontinuous coordinates, where cells share no nodes, a cell with only a vertex on the marked facet is
not found. -/
theorem C83_cells_counterexample : ∃ (cellNodes cellVerts : List (List Nat)) (facet bs use : List Nat),
    cellNodes.flatten.Nodup ∧ cellsToUse cellNodes (some bs) = some use ∧
    -- the nodes of the boundary are those of the facet in its cell
    (∀ (l n v : Nat), (cellNodes.getD 0 [])[l]? = some n → (cellVerts.getD 0 [])[l]? = some v → (n ∈ bs ↔ v ∈ facet)) ∧
    ∃ c vs, cellVerts[c]? = some vs ∧ c ∉ use ∧ ∃ v ∈ vs, v ∈ facet := by
  refine ⟨[[0, 1, 2], [3, 4, 5]], [[0, 1, 2], [2, 3, 4]], [0, 2], [0, 2], [0], by decide, by decide, ?_, 1, [2, 3, 4],
    rfl, by decide, 2, by decide, by decide⟩
  intro l n v h1 h2
  match l, h1, h2 with
  | 0, h1, h2 => cases h1; cases h2; decide
  | 1, h1, h2 => cases h1; cases h2; decide
  | 2, h1, h2 => cases h1; cases h2; decide

/-! ## The argument `restrict_to_boundary` -/

/-- The argument; entries of a tuple that are not integers are `none`.
Code: meshmode/interop/firedrake/connection.py:690-715. -/
inductive Restrict where
  | no
  | marker (i : Int)
  | tuple (l : List (Option Int))
  | str (s : String)
  | other

/-- The loop over a tuple. Code: meshmode/interop/firedrake/connection.py:696-705. -/
def restrictTuple (markers : List Int) : List (Option Int) → Except RefCellErr Unit
  | [] => .ok ()
  | none :: _ => .error .type
  | some i :: l => if i ∈ markers then restrictTuple markers l else .error .value

/-- The checks. `markers` is `unique_markers`. Code: meshmode/interop/firedrake/connection.py:686-715. -/
def restrictChecks (markers : List Int) : Restrict → Except RefCellErr Unit
  | .no => .ok ()
  | .marker i => if i ∈ markers then .ok () else .error .value
  | .tuple l => restrictTuple markers l
  | .str s => if s = "on_boundary" then .ok () else .error .value
  | .other => .error .type

/-- **C83.** Which restrictions are accepted. -/
theorem C83_restrict (markers : List Int) (r : Restrict) : restrictChecks markers r = .ok () ↔
    r = .no ∨ (∃ i ∈ markers, r = .marker i) ∨ (∃ l : List Int, r = .tuple (l.map some) ∧ ∀ i ∈ l, i ∈ markers) ∨
      r = .str "on_boundary" := by
  cases r with
  | no => simp [restrictChecks]
  | other => simp [restrictChecks]
  | str s =>
    simp only [restrictChecks]
    split_ifs with h
    · simp [h]
    · simp [h]
  | marker i =>
    simp only [restrictChecks]
    split_ifs with h
    · simp [h]
    · simp [h]
  | tuple l =>
    have key : restrictChecks markers (.tuple l) = .ok () ↔ ∀ e ∈ l, ∃ i ∈ markers, e = some i := by
      unfold restrictChecks
      simp only
      induction l with
      | nil => simp [restrictTuple]
      | cons e l ih =>
        cases e with
        | none =>
          constructor
          · intro h; cases h
          · intro h
            obtain ⟨i, -, hi⟩ := h none List.mem_cons_self
            cases hi
        | some i =>
          by_cases hi : i ∈ markers
          · simp only [restrictTuple, if_pos hi, List.forall_mem_cons]
            exact ih.trans ⟨fun h => ⟨⟨i, hi, rfl⟩, h⟩, fun h => h.2⟩
          · simp only [restrictTuple, if_neg hi]
            constructor
            · intro h; cases h
            · intro h
              obtain ⟨j, hj, hij⟩ := h (some i) List.mem_cons_self
              cases hij
              exact absurd hj hi
    rw [key]
    constructor
    · intro h
      refine .inr (.inr (.inl ⟨l.filterMap id, ?_, ?_⟩))
      · congr 1
        clear key
        induction l with
        | nil => rfl
        | cons e l ih =>
          obtain ⟨i, -, rfl⟩ := h e List.mem_cons_self
          simp only [List.filterMap_cons, id, List.map_cons, List.cons.injEq, true_and]
          exact ih fun e he => h e (List.mem_cons_of_mem _ he)
      · intro i hi
        obtain ⟨e, he, hei⟩ := List.mem_filterMap.1 hi
        obtain ⟨j, hj, rfl⟩ := h e he
        simp only [id, Option.some.injEq] at hei
        rw [← hei]
        exact hj
    · rintro (h | ⟨i, -, h⟩ | ⟨l', h, hl⟩ | h)
      · cases h
      · cases h
      · cases h
        intro e he
        obtain ⟨i, hi, rfl⟩ := List.mem_map.1 he
        exact ⟨i, hl i hi, rfl⟩
      · cases h

example : restrictChecks [1, 2] (.tuple [some 2, some 1]) = .ok () := by decide

/-! ## The nodes of a connection from Firedrake -/

variable {d n n' : Nat}

/-- The flip of elements in import: the first two barycentric coordinates are exchanged
(`permutation=None`). Code: meshmode/mesh/processing.py:714-725. -/
def swapBary : Equiv.Perm (Fin (d + 2)) := Equiv.swap 0 1

/-- **C83.** The flip exchanges the first two vertices of an element and keeps the others, so the volume spanned by
the edges at the first vertex changes its sign. -/
theorem C83_flip (d : Nat) :
    (swapBary : Equiv.Perm (Fin (d + 2))) 0 = 1 ∧ (swapBary : Equiv.Perm (Fin (d + 2))) 1 = 0 ∧
    (∀ i : Fin (d + 2), i ≠ 0 → i ≠ 1 → swapBary i = i) ∧
    Equiv.Perm.sign (swapBary : Equiv.Perm (Fin (d + 2))) = -1 ∧
    ∀ V : Fin (d + 2) → Fin (d + 1) → K,
      (Matrix.of fun i j : Fin (d + 1) => V (swapBary i.succ) j - V (swapBary 0) j).det =
        -(Matrix.of fun i j : Fin (d + 1) => V i.succ j - V 0 j).det := by
  have hs : ∀ i : Fin (d + 2), i ≠ 0 → i ≠ 1 → (swapBary : Equiv.Perm (Fin (d + 2))) i = i :=
    fun i h0 h1 => Equiv.swap_apply_of_ne_of_ne h0 h1
  refine ⟨Equiv.swap_apply_left _ _, Equiv.swap_apply_right _ _, hs,
    Equiv.Perm.sign_swap (by simp), fun V => ?_⟩
  have h01 : (swapBary : Equiv.Perm (Fin (d + 2))) 0 = 1 := Equiv.swap_apply_left _ _
  have h10 : (swapBary : Equiv.Perm (Fin (d + 2))) 1 = 0 := Equiv.swap_apply_right _ _
  set M : Matrix (Fin (d + 1)) (Fin (d + 1)) K := Matrix.of fun i j => V i.succ j - V 0 j with hM
  have hB : (Matrix.updateRow M 0 ((-1 : K) • M 0)).det = -M.det := by
    rw [Matrix.det_updateRow_smul, Matrix.updateRow_eq_self]
    ring
  rw [← hB]
  refine Matrix.det_eq_of_forall_row_eq_smul_add_const (fun i => if i = 0 then 0 else 1) 0 (if_pos rfl) fun i j => ?_
  have h1 : (1 : Fin (d + 2)) = Fin.succ 0 := rfl
  by_cases hi : i = 0
  · subst hi
    rw [Matrix.of_apply, ← h1, h10, h01, h1]
    simp [hM]
  · have : (swapBary : Equiv.Perm (Fin (d + 2))) i.succ = i.succ :=
      hs _ (Fin.succ_ne_zero i) fun h => hi (Fin.succ_injective _ (h.trans h1))
    rw [Matrix.of_apply, this, h01, Matrix.updateRow_self, Matrix.updateRow_ne hi, if_neg hi, h1]
    simp [hM]

example : (swapBary : Equiv.Perm (Fin 4)) 0 = 1 ∧ (swapBary : Equiv.Perm (Fin 4)) 3 = 3 := by decide

/-- **C83.** A connection from Firedrake associates with node `m` of an element the Firedrake node at the same place,
for elements that were flipped in import and for those that were not.  `u` are the coordinates of one axis in the
Firedrake cell, with basis `φ` and unit nodes `x`; `y` are the unit nodes of the function space with basis `ψ`, and
`nodes` its nodes in the cell. -/
theorem C83_connection {φ : Fin n → (Fin (d + 2) → K) → K} {ψ : Fin n' → (Fin (d + 2) → K) → K}
    {x : Fin n → Fin (d + 2) → K} {y : Fin n' → Fin (d + 2) → K} (hx : IsUnit (vandermonde φ x).det)
    (hy : IsUnit (vandermonde ψ y).det) (hs' : SymmetricNodes y) (hφ : SymmetricSpace φ)
    {rint : K → Int} (h0 : rint 0 = 0) (h1 : rint 1 = 1) (orient : Int) (u : Fin n → K) (nodes : Fin n' → Int) :
    ∃ (row : Fin n' → Int) (τ : Equiv.Perm (Fin n')),
      reorderNodes orient nodes (Matrix.of fun k l => rint (flipMatrix ψ y (flipBary swapBary) k l)) = some row ∧
      ∀ m, row m = nodes (τ m) ∧
        nodalInterp φ x u (y (τ m)) =
          nodalInterp φ x (if orient < 0 then flipMatrix φ x (flipBary swapBary) *ᵥ u else u) (y m) := by
  choose τ hτ using hs' swapBary
  have hinj := nodes_injective hy
  have hsw : ∀ b : Fin (d + 2) → K, flipBary swapBary (flipBary swapBary b) = b := by
    intro b
    funext i
    simp [flipBary, swapBary]
  have hττ : ∀ m, τ (τ m) = m := fun m => hinj (by rw [← hτ, ← hτ, hsw])
  have hmat : (Matrix.of fun k l => rint (flipMatrix ψ y (flipBary swapBary) k l)) =
      (Matrix.of fun k l => if τ k = l then (1 : Int) else 0) := by
    ext k l
    simp only [Matrix.of_apply, flipMatrix_perm hy hτ, eq_comm (a := l)]
    split_ifs
    · exact h1
    · exact h0
  have hsq : (Matrix.of fun k l => if τ k = l then (1 : Int) else 0) *
      (Matrix.of fun k l => if τ k = l then (1 : Int) else 0) = 1 := by
    ext k l
    rw [Matrix.mul_apply, Finset.sum_eq_single (τ k)]
    · simp [Matrix.one_apply, hττ]
    · intro b _ hb
      simp [Ne.symm hb]
    · simp
  rw [hmat]
  unfold reorderNodes
  rw [if_pos hsq]
  by_cases ho : orient < 0
  · refine ⟨_, ⟨τ, τ, hττ, hττ⟩, rfl, fun m => ⟨?_, ?_⟩⟩
    · rw [if_pos ho]
      simp [Matrix.mulVec, dotProduct]
    · obtain ⟨R, hR⟩ := hφ swapBary
      rw [if_pos ho, C45_same_geometry φ x (flipBary swapBary) hx hR, hτ]
      rfl
  · refine ⟨_, 1, rfl, fun m => ⟨?_, ?_⟩⟩
    · rw [if_neg ho]; rfl
    · rw [if_neg ho]; rfl

end Meshmode
