import Verif.Np
import Mathlib.Tactic.Ring
import Mathlib.Tactic.FieldSimp
import Mathlib.Tactic.NormNum
import Mathlib.Algebra.Order.Field.Rat
import Mathlib.Data.Nat.Cast.Field
import Mathlib.Tactic.Linarith

/-!
# Curves and tori (C51)

`make_curve_mesh` and `generate_torus_and_cycle_vertices` (meshmode/mesh/generation.py).
-/
namespace Meshmode

/-! ## Model: curves -/

/-- What `make_curve_mesh` passes to the mesh: vertices, vertex numbers and nodes of the elements, and the
parametrization points. Code: meshmode/mesh/generation.py:404-478. -/
structure CurveMesh (P : Type) where
  vertices : List P
  rows : List (List Nat)
  nodes : List (List P)
  params : List ℚ
  deriving DecidableEq, Repr

/-- `t = el_starts + el_lengths*nodes_01`, meshmode/mesh/generation.py:455-460, for one element. -/
def elementParams (unitNodes : List ℚ) (a b : ℚ) : List ℚ :=
  unitNodes.map fun r => a + (b - a) * (1 / 2 * (r + 1))

/-- `make_curve_mesh`, meshmode/mesh/generation.py:404-478.  `near` is the test that the curve closes,
`‖·‖ < 1e-12`; `none` is a failed assertion (or an `IndexError` for no boundaries, or the `ValueError` for
the maximum of no vertex numbers).  Curve parameters are exact numbers. -/
def makeCurveMesh {P : Type} (near : P → P → Bool) (f : ℚ → P) (bds unitNodes : List ℚ)
    (closed : Bool) : Option (CurveMesh P) :=
  if bds.head? ≠ some 0 ∨ bds.getLast? ≠ some 1 then none
  else
    let nelements := bds.length - 1
    let wrap := if closed then nelements else nelements + 1
    let vertices := (bds.map f).take wrap
    let rows := (List.range nelements).map fun e => [e, (e + 1) % wrap]
    if rows.flatten = [] ∨ vertices.length ≠ rows.flatten.foldr max 0 + 1 then none
    else if closed && !near (f 0) (f 1) then none
    else
      let t := (bds.zip bds.tail).map fun p => elementParams unitNodes p.1 p.2
      some ⟨vertices, rows, t.map (·.map f), t.flatten⟩

/-! ## Model: tori -/

/-- `idx`, meshmode/mesh/generation.py:853-854. -/
def torusIdx (nMajor i j : Nat) : Nat := i + j * (nMajor + 1)

/-- The element rows in the grid with endpoints, meshmode/mesh/generation.py:856-880; `simplex` says
whether `group_cls` is a simplex group (otherwise it is a tensor product group). -/
def torusGridRows (simplex : Bool) (nMajor nMinor : Nat) : List (List Nat) :=
  let idx := torusIdx nMajor
  if simplex then
    ((List.range nMajor).flatMap fun i => (List.range nMinor).map fun j =>
      [idx i j, idx (i + 1) j, idx i (j + 1)]) ++
    ((List.range nMajor).flatMap fun i => (List.range nMinor).map fun j =>
      [idx (i + 1) j, idx (i + 1) (j + 1), idx i (j + 1)])
  else
    (List.range nMajor).flatMap fun i => (List.range nMinor).map fun j =>
      [idx i j, idx (i + 1) j, idx i (j + 1), idx (i + 1) (j + 1)]

/-- "wrap the indices around", meshmode/mesh/generation.py:907-910. -/
def torusWrap (nMajor nMinor v : Nat) : Nat :=
  (v % (nMajor + 1)) % nMajor + (v / (nMajor + 1) % nMinor) * nMajor

/-- The vertices, meshmode/mesh/generation.py:902-905, 913-918: `meshgrid` then `reshape`, with the point
for parameters `u`, `v` (multiples of a full turn) given by `pt`. -/
def torusVertices {P : Type} (pt : ℚ → ℚ → P) (nMajor nMinor : Nat) : List P :=
  (List.range nMinor).flatMap fun (j : Nat) => (List.range nMajor).map fun (i : Nat) =>
    pt ((i : ℚ) / nMajor) ((j : ℚ) / nMinor)

/-- The parameters of the grid with endpoints, used for the nodes,
meshmode/mesh/generation.py:886-889. -/
def torusGridParams (nMajor nMinor : Nat) : List (ℚ × ℚ) :=
  (List.range (nMinor + 1)).flatMap fun (j : Nat) => (List.range (nMajor + 1)).map fun (i : Nat) =>
    ((i : ℚ) / nMajor, (j : ℚ) / nMinor)

/-- `generate_torus_and_cycle_vertices`, meshmode/mesh/generation.py:810-938: the vertices, the vertex
numbers of the elements, and the two lists of cycle vertices. -/
def generateTorus {P : Type} (pt : ℚ → ℚ → P) (simplex : Bool) (nMajor nMinor : Nat) :
    List P × List (List Nat) × List Nat × List Nat :=
  (torusVertices pt nMajor nMinor,
    (torusGridRows simplex nMajor nMinor).map (·.map (torusWrap nMajor nMinor)),
    (List.range nMajor).map fun i => torusIdx nMajor i 0,
    (List.range nMinor).map fun j => torusIdx nMajor 0 j)

/-! ## Curves -/

theorem foldr_max_eq {l : List Nat} {m : Nat} (hm : m ∈ l) (h : ∀ x ∈ l, x ≤ m) :
    l.foldr max 0 = m := by
  apply Nat.le_antisymm
  · clear hm
    induction l with
    | nil => simp
    | cons a l ih =>
      simp only [List.foldr_cons]
      have := h a (by simp)
      have := ih fun x hx => h x (by simp [hx])
      omega
  · clear h
    induction l with
    | nil => simp at hm
    | cons a l ih =>
      simp only [List.foldr_cons]
      rcases List.mem_cons.1 hm with rfl | hm
      · omega
      · have := ih hm
        omega

section curve
variable {P : Type} {near : P → P → Bool} {f : ℚ → P} {bds unitNodes : List ℚ} {closed : Bool}
  {M : CurveMesh P}

theorem makeCurveMesh_some (h : makeCurveMesh near f bds unitNodes closed = some M) :
    bds.head? = some 0 ∧ bds.getLast? = some 1 ∧ 2 ≤ bds.length ∧
    M.vertices = (bds.map f).take (if closed then bds.length - 1 else bds.length) ∧
    M.rows = (List.range (bds.length - 1)).map
      (fun e => [e, (e + 1) % (if closed then bds.length - 1 else bds.length)]) ∧
    M.nodes = (bds.zip bds.tail).map (fun p => (elementParams unitNodes p.1 p.2).map f) ∧
    M.params = ((bds.zip bds.tail).map fun p => elementParams unitNodes p.1 p.2).flatten := by
  unfold makeCurveMesh at h
  split at h
  · simp at h
  · rename_i h1
    simp only [not_or, not_not, ne_eq] at h1
    have h2 : 2 ≤ bds.length := by
      match bds, h1 with
      | [], h1 => simp at h1
      | [a], h1 =>
        simp only [List.head?_cons, Option.some.injEq, List.getLast?_singleton] at h1
        rw [h1.1] at h1
        exact absurd h1.2 (by norm_num)
      | a :: b :: l, _ => simp
    simp only [Option.ite_none_left_eq_some, Option.some.injEq] at h
    obtain ⟨_, _, h⟩ := h
    subst h
    refine ⟨h1.1, h1.2, h2, ?_, ?_, ?_, rfl⟩
    · simp only
      cases closed
      · simp only [Bool.false_eq_true, if_false]
        congr 1
        omega
      · rfl
    · simp only
      cases closed
      · simp only [Bool.false_eq_true, if_false]
        have : bds.length - 1 + 1 = bds.length := by omega
        rw [this]
      · rfl
    · simp

/-- C51: the curve is meshed for every list of at least two boundaries from 0 to 1, provided that a closed
curve closes. -/
theorem C51_curve_defined (near : P → P → Bool) (f : ℚ → P) (bds unitNodes : List ℚ) (closed : Bool)
    (h0 : bds.head? = some 0) (h1 : bds.getLast? = some 1)
    (hc : closed = true → near (f 0) (f 1) = true) :
    ∃ M, makeCurveMesh near f bds unitNodes closed = some M := by
  have h2 : 2 ≤ bds.length := by
    match bds, h0, h1 with
    | [], h0, _ => simp at h0
    | [a], h0, h1 =>
      simp only [List.head?_cons, Option.some.injEq, List.getLast?_singleton] at h0 h1
      rw [h0] at h1
      exact absurd h1 (by norm_num)
    | a :: b :: l, _, _ => simp
  unfold makeCurveMesh
  rw [if_neg (by simp [h0, h1])]
  simp only
  have hne : (((List.range (bds.length - 1)).map fun e =>
      [e, (e + 1) % (if closed then bds.length - 1 else bds.length - 1 + 1)]).flatten) ≠ [] := by
    intro h
    have := List.flatten_eq_nil_iff.1 h [0, (0 + 1) % (if closed then bds.length - 1 else
      bds.length - 1 + 1)] (List.mem_map.2 ⟨0, by simp; omega, rfl⟩)
    simp at this
  have hmax : (((List.range (bds.length - 1)).map fun e =>
      [e, (e + 1) % (if closed then bds.length - 1 else bds.length - 1 + 1)]).flatten).foldr max 0 =
      (if closed then bds.length - 1 else bds.length - 1 + 1) - 1 := by
    apply foldr_max_eq
    · simp only [List.mem_flatten, List.mem_map, List.mem_range]
      cases closed
      · refine ⟨_, ⟨bds.length - 2, by omega, rfl⟩, ?_⟩
        simp only [Bool.false_eq_true, if_false]
        have : (bds.length - 2 + 1) % (bds.length - 1 + 1) = bds.length - 2 + 1 :=
          Nat.mod_eq_of_lt (by omega)
        rw [this]
        simp
        omega
      · refine ⟨_, ⟨bds.length - 2, by omega, rfl⟩, ?_⟩
        simp
        omega
    · intro x hx
      simp only [List.mem_flatten, List.mem_map, List.mem_range] at hx
      obtain ⟨_, ⟨e, he, rfl⟩, hx⟩ := hx
      simp only [List.mem_cons, List.not_mem_nil, or_false] at hx
      rcases hx with rfl | rfl
      · split <;> omega
      · have : (e + 1) % (if closed then bds.length - 1 else bds.length - 1 + 1) <
          (if closed then bds.length - 1 else bds.length - 1 + 1) :=
          Nat.mod_lt _ (by split <;> omega)
        omega
  rw [if_neg, if_neg]
  · exact ⟨_, rfl⟩
  · cases closed <;> simp_all
  · rw [not_or, not_not]
    refine ⟨hne, ?_⟩
    rw [hmax, List.length_take, List.length_map]
    cases closed <;> simp <;> omega

/-- C51: element `e` of a curve joins vertex `e` to vertex `e + 1`, which for the last element of a closed
curve is vertex 0; the vertices are the points of the curve at the element boundaries, except that a closed
curve has no vertex for the last boundary; and all vertex numbers are valid. -/
theorem C51_curve (h : makeCurveMesh near f bds unitNodes closed = some M) :
    M.rows.length = bds.length - 1 ∧
    M.vertices.length = (if closed then bds.length - 1 else bds.length) ∧
    (∀ v, v < M.vertices.length → M.vertices[v]? = (bds[v]?).map f) ∧
    (∀ e, e + 1 < bds.length → M.rows[e]? =
      some [e, if closed = true ∧ e + 2 = bds.length then 0 else e + 1]) ∧
    (∀ row ∈ M.rows, ∀ v ∈ row, v < M.vertices.length) := by
  obtain ⟨h0, h1, h2, hv, hr, _, _⟩ := makeCurveMesh_some h
  have hvl : M.vertices.length = (if closed then bds.length - 1 else bds.length) := by
    rw [hv, List.length_take, List.length_map]
    split <;> omega
  refine ⟨by simp [hr], hvl, ?_, ?_, ?_⟩
  · intro v hvv
    rw [hvl] at hvv
    rw [hv, List.getElem?_take_of_lt hvv, List.getElem?_map]
  · intro e he
    rw [hr, List.getElem?_map, List.getElem?_range (by omega)]
    simp only [Option.map_some, Option.some.injEq, List.cons.injEq, true_and, and_true]
    cases closed
    · simp only [Bool.false_eq_true, if_false, false_and]
      exact Nat.mod_eq_of_lt he
    · simp only [if_true, true_and]
      split
      · rename_i h3
        have : e + 1 = bds.length - 1 := by omega
        rw [this, Nat.mod_self]
      · exact Nat.mod_eq_of_lt (by omega)
  · intro row hrow v hvr
    rw [hr] at hrow
    obtain ⟨e, he, rfl⟩ := List.mem_map.1 hrow
    rw [List.mem_range] at he
    rw [hvl]
    simp only [List.mem_cons, List.not_mem_nil, or_false] at hvr
    rcases hvr with rfl | rfl
    · split <;> omega
    · exact Nat.mod_lt _ (by split <;> omega)

/-- C51: if a closed curve closes exactly, the two vertices of each element are the points of the curve
at the two ends of its interval; its nodes are points of the curve for parameters in between, from the
one end (unit node -1) to the other (unit node 1). -/
theorem C51_curve_geometry (h : makeCurveMesh near f bds unitNodes closed = some M)
    (hc : closed = true → f 0 = f 1) {e : Nat} {a b : ℚ} (ha : bds[e]? = some a)
    (hb : bds[e + 1]? = some b) :
    (∃ v w, M.rows[e]? = some [v, w] ∧ M.vertices[v]? = some (f a) ∧ M.vertices[w]? = some (f b)) ∧
    (∃ ns, M.nodes[e]? = some ns ∧ ns.length = unitNodes.length ∧
      ∀ (k : Nat) (r : ℚ), unitNodes[k]? = some r → ∃ t, ns[k]? = some (f t) ∧ (r = -1 → t = a) ∧
        (r = 1 → t = b) ∧ (-1 ≤ r → r ≤ 1 → a ≤ b → a ≤ t ∧ t ≤ b)) := by
  obtain ⟨h0, h1, h2, hv, hr, hn, _⟩ := makeCurveMesh_some h
  obtain ⟨_, hvl, hvert, hrow, _⟩ := C51_curve h
  have he : e + 1 < bds.length := (List.getElem?_eq_some_iff.1 hb).1
  constructor
  · refine ⟨_, _, hrow e he, ?_, ?_⟩
    · rw [hvert e (by rw [hvl]; split <;> omega), ha]
      rfl
    · split
      · rename_i h3
        rw [hvert 0 (by rw [hvl]; split <;> omega), ← List.head?_eq_getElem?, h0]
        have : b = 1 := by
          rw [List.getLast?_eq_getElem?] at h1
          have : bds.length - 1 = e + 1 := by omega
          rw [this, hb] at h1
          simpa using h1
        rw [this]
        simp [hc h3.1]
      · rename_i h3
        rw [hvert (e + 1) (by
          rw [hvl]
          cases closed
          · simpa using he
          · simp at h3 ⊢
            omega), hb]
        rfl
  · refine ⟨(elementParams unitNodes a b).map f, ?_, by simp [elementParams], ?_⟩
    · rw [hn, List.getElem?_map]
      have : (bds.zip bds.tail)[e]? = some (a, b) := by
        rw [List.getElem?_zip_eq_some (z := (a, b))]
        refine ⟨ha, ?_⟩
        rw [List.getElem?_tail]
        exact hb
      rw [this]
      rfl
    · intro k r hk
      refine ⟨a + (b - a) * (1 / 2 * (r + 1)), ?_, ?_, ?_, ?_⟩
      · simp [elementParams, hk]
      · rintro rfl
        ring
      · rintro rfl
        ring
      · intro h1 h2 h3
        have e1 : 0 ≤ (b - a) * (1 / 2 * (r + 1)) :=
          mul_nonneg (by linarith) (by linarith)
        have e2 : 0 ≤ (b - a) * (1 / 2 * (1 - r)) :=
          mul_nonneg (by linarith) (by linarith)
        constructor
        · linarith
        · nlinarith

/-- C51: going round a closed curve of at least two elements, every vertex is the end of exactly one
element and the start of exactly one, which are different. -/
theorem C51_closed (h : makeCurveMesh near f bds unitNodes true = some M) {v : Nat}
    (hv : v < M.vertices.length) :
    (∃ w, M.rows[v]? = some [v, w]) ∧
    (∃! e : Nat, ∃ w, M.rows[e]? = some [w, v]) ∧
    (2 ≤ M.rows.length → M.rows[v]? ≠ some [v, v]) := by
  obtain ⟨_, hvl, _, hrow, _⟩ := C51_curve h
  obtain ⟨_, _, h2, _⟩ := makeCurveMesh_some h
  have hrl := (C51_curve h).1
  simp only [if_true] at hvl
  simp only [true_and] at hrow
  refine ⟨⟨_, hrow v (by omega)⟩, ?_, ?_⟩
  · refine ⟨if v = 0 then bds.length - 2 else v - 1, ?_, ?_⟩
    · simp only
      split
      · rename_i h3
        subst h3
        refine ⟨bds.length - 2, ?_⟩
        rw [hrow _ (by omega)]
        rw [if_pos (by omega)]
      · refine ⟨v - 1, ?_⟩
        rw [hrow _ (by omega), if_neg (by omega)]
        congr 3
        omega
    · rintro e ⟨w, hw⟩
      have he : e < M.rows.length := (List.getElem?_eq_some_iff.1 hw).1
      rw [hrow e (by omega)] at hw
      simp only [Option.some.injEq, List.cons.injEq, and_true] at hw
      obtain ⟨rfl, hw⟩ := hw
      split at hw <;> split <;> omega
  · intro h3 h4
    rw [hrow v (by omega)] at h4
    simp only [Option.some.injEq, List.cons.injEq, and_true, true_and] at h4
    split at h4 <;> omega

end curve

/-- A closed curve of three elements. -/
example : (makeCurveMesh (fun _ _ => true) (fun t => t * (1 - t)) [0, 1/4, 1/2, 1] [-1, 1] true).map
    (fun M => (M.rows, M.vertices, M.nodes)) =
    some ([[0, 1], [1, 2], [2, 0]], [0, 3/16, 1/4], [[0, 3/16], [3/16, 1/4], [1/4, 0]]) := by
  decide +kernel

/-! ## Tori -/

theorem torusWrap_idx {nMajor nMinor : Nat} {i j : Nat} (hi : i ≤ nMajor) :
    torusWrap nMajor nMinor (torusIdx nMajor i j) = i % nMajor + (j % nMinor) * nMajor := by
  unfold torusWrap torusIdx
  rw [Nat.add_mul_mod_self_right, Nat.mod_eq_of_lt (by omega : i < nMajor + 1),
    Nat.add_mul_div_right _ _ (by omega : 0 < nMajor + 1),
    Nat.div_eq_of_lt (by omega : i < nMajor + 1), Nat.zero_add]

/-- Entry `i + j*n` of rows of `n` entries. -/
theorem getElem?_grid {α : Type} (g : Nat → Nat → α) (m n i j : Nat) (hi : i < n) (hj : j < m) :
    ((List.range m).flatMap fun j => (List.range n).map fun i => g i j)[i + j * n]? = some (g i j) := by
  induction m generalizing j with
  | zero => omega
  | succ m ih =>
    rw [List.range_succ, List.flatMap_append]
    have hl : ((List.range m).flatMap fun j => (List.range n).map fun i => g i j).length = m * n := by
      rw [List.length_flatMap]
      simp
    by_cases h : j < m
    · rw [List.getElem?_append_left]
      · exact ih j h
      · rw [hl]
        calc i + j * n < n + j * n := by omega
          _ = (j + 1) * n := by ring
          _ ≤ m * n := Nat.mul_le_mul_right _ h
    · have hj' : j = m := by omega
      subst hj'
      rw [List.getElem?_append_right (by rw [hl]; omega), hl]
      simp [hi]

theorem length_grid {α : Type} (g : Nat → Nat → α) (m n : Nat) :
    ((List.range m).flatMap fun j => (List.range n).map fun i => g i j).length = m * n := by
  rw [List.length_flatMap]
  simp

/-- The number of the vertex at position `i`, `j` of the torus (periodically).
(Specification or proof vocabulary, no code.) -/
def torusVertexNr (nMajor nMinor i j : Nat) : Nat := i % nMajor + (j % nMinor) * nMajor

/-- C51: the elements of the torus are the cells `(i, j)` of a periodic grid, each a quadrilateral or
two triangles (in the orientation drawn in the code). -/
theorem C51_torus_elements {P : Type} (pt : ℚ → ℚ → P) (nMajor nMinor : Nat) (row : List Nat) :
    let nr := torusVertexNr nMajor nMinor
    (row ∈ (generateTorus pt true nMajor nMinor).2.1 ↔ ∃ i j, i < nMajor ∧ j < nMinor ∧
      (row = [nr i j, nr (i + 1) j, nr i (j + 1)] ∨
        row = [nr (i + 1) j, nr (i + 1) (j + 1), nr i (j + 1)])) ∧
    (row ∈ (generateTorus pt false nMajor nMinor).2.1 ↔ ∃ i j, i < nMajor ∧ j < nMinor ∧
      row = [nr i j, nr (i + 1) j, nr i (j + 1), nr (i + 1) (j + 1)]) := by
  intro nr
  have hw : ∀ i j, i ≤ nMajor → torusWrap nMajor nMinor (torusIdx nMajor i j) = nr i j :=
    fun i j hi => torusWrap_idx hi
  constructor
  · simp only [generateTorus, torusGridRows, if_true, List.map_append, List.mem_append, List.mem_map,
      List.mem_flatMap, List.mem_range]
    constructor
    · rintro (⟨_, ⟨i, hi, j, hj, rfl⟩, rfl⟩ | ⟨_, ⟨i, hi, j, hj, rfl⟩, rfl⟩)
      · refine ⟨i, j, hi, hj, Or.inl ?_⟩
        simp only [List.map_cons, List.map_nil]
        rw [hw _ _ (by omega), hw _ _ (by omega), hw _ _ (by omega)]
      · refine ⟨i, j, hi, hj, Or.inr ?_⟩
        simp only [List.map_cons, List.map_nil]
        rw [hw _ _ (by omega), hw _ _ (by omega), hw _ _ (by omega)]
    · rintro ⟨i, j, hi, hj, rfl | rfl⟩
      · refine Or.inl ⟨_, ⟨i, hi, j, hj, rfl⟩, ?_⟩
        simp only [List.map_cons, List.map_nil]
        rw [hw _ _ (by omega), hw _ _ (by omega), hw _ _ (by omega)]
      · refine Or.inr ⟨_, ⟨i, hi, j, hj, rfl⟩, ?_⟩
        simp only [List.map_cons, List.map_nil]
        rw [hw _ _ (by omega), hw _ _ (by omega), hw _ _ (by omega)]
  · simp only [generateTorus, torusGridRows, Bool.false_eq_true, if_false, List.mem_map,
      List.mem_flatMap, List.mem_range]
    constructor
    · rintro ⟨_, ⟨i, hi, j, hj, rfl⟩, rfl⟩
      refine ⟨i, j, hi, hj, ?_⟩
      simp only [List.map_cons, List.map_nil]
      rw [hw _ _ (by omega), hw _ _ (by omega), hw _ _ (by omega), hw _ _ (by omega)]
    · rintro ⟨i, j, hi, hj, rfl⟩
      refine ⟨_, ⟨i, hi, j, hj, rfl⟩, ?_⟩
      simp only [List.map_cons, List.map_nil]
      rw [hw _ _ (by omega), hw _ _ (by omega), hw _ _ (by omega), hw _ _ (by omega)]

/-- C51: no cell is missing or repeated. -/
theorem C51_torus_counts {P : Type} (pt : ℚ → ℚ → P) (nMajor nMinor : Nat) :
    (generateTorus pt true nMajor nMinor).2.1.length = 2 * (nMajor * nMinor) ∧
    (generateTorus pt false nMajor nMinor).2.1.length = nMajor * nMinor ∧
    (∀ b, (generateTorus pt b nMajor nMinor).1.length = nMajor * nMinor) := by
  refine ⟨?_, ?_, ?_⟩
  · simp only [generateTorus, torusGridRows, if_true, List.length_map, List.length_append]
    rw [length_grid (fun j i => [torusIdx nMajor i j, torusIdx nMajor (i + 1) j,
      torusIdx nMajor i (j + 1)]), length_grid (fun j i => [torusIdx nMajor (i + 1) j,
      torusIdx nMajor (i + 1) (j + 1), torusIdx nMajor i (j + 1)])]
    ring
  · simp only [generateTorus, torusGridRows, Bool.false_eq_true, if_false, List.length_map]
    rw [length_grid (fun j i => [torusIdx nMajor i j, torusIdx nMajor (i + 1) j,
      torusIdx nMajor i (j + 1), torusIdx nMajor (i + 1) (j + 1)])]
  · intro b
    simp only [generateTorus, torusVertices]
    rw [length_grid (fun i j : Nat => pt ((i : ℚ) / nMajor) ((j : ℚ) / nMinor)), Nat.mul_comm]

/-- C51: the numbers of torus vertices are valid, and, the torus being periodic, the vertex with the number
for position `i`, `j` is at parameters `i / n_major`, `j / n_minor`. -/
theorem C51_torus_vertices {P : Type} (pt : ℚ → ℚ → P) (b : Bool) {nMajor nMinor : Nat}
    (hM : 0 < nMajor) (hm : 0 < nMinor) (hu : ∀ u v, pt (u + 1) v = pt u v)
    (hv : ∀ u v, pt u (v + 1) = pt u v) (i j : Nat) :
    torusVertexNr nMajor nMinor i j < (generateTorus pt b nMajor nMinor).1.length ∧
    (generateTorus pt b nMajor nMinor).1[torusVertexNr nMajor nMinor i j]? =
      some (pt ((i : ℚ) / nMajor) ((j : ℚ) / nMinor)) := by
  have hg := getElem?_grid (fun i j : Nat => pt ((i : ℚ) / nMajor) ((j : ℚ) / nMinor)) nMinor nMajor
    (i % nMajor) (j % nMinor) (Nat.mod_lt _ hM) (Nat.mod_lt _ hm)
  have hper : ∀ (n : Nat) (q : ℚ → P), (∀ x, q (x + 1) = q x) → ∀ x, q (x + n) = q x := by
    intro n q hq
    induction n with
    | zero => simp
    | succ n ih =>
      intro x
      push_cast
      rw [← add_assoc, hq, ih]
  have hdiv : ∀ (n k : Nat), 0 < n → (k : ℚ) / n = ((k % n : Nat) : ℚ) / n + (k / n : Nat) := by
    intro n k hn
    have hn' : (n : ℚ) ≠ 0 := by positivity
    rw [div_add' _ _ _ hn']
    congr 1
    exact_mod_cast (Nat.mod_add_div' k n).symm
  refine ⟨(List.getElem?_eq_some_iff.1 hg).1, ?_⟩
  refine hg.trans ?_
  simp only [Option.some.injEq]
  rw [hdiv nMajor i hM, hdiv nMinor j hm, hper _ (fun x => pt x _) (fun x => hu x _),
    hper _ (fun y => pt _ y) (fun y => hv _ y)]

/-- C51: the vertices that the nodes of an element are interpolated from have the parameters of its
vertices. -/
theorem C51_torus_grid (nMajor nMinor i j : Nat) (hi : i ≤ nMajor) (hj : j ≤ nMinor) :
    (torusGridParams nMajor nMinor)[torusIdx nMajor i j]? = some ((i : ℚ) / nMajor, (j : ℚ) / nMinor) :=
  getElem?_grid (fun i j : Nat => ((i : ℚ) / nMajor, (j : ℚ) / nMinor)) (nMinor + 1) (nMajor + 1)
    i j (by omega) (by omega)

/-- C51: the vertices returned for the major direction run along it, one step at a time, at the start of
the minor direction. -/
theorem C51_major_cycle {P : Type} (pt : ℚ → ℚ → P) (b : Bool) {nMajor nMinor : Nat}
    (hm : 0 < nMinor) :
    (generateTorus pt b nMajor nMinor).2.2.1 =
      (List.range nMajor).map fun i => torusVertexNr nMajor nMinor i 0 := by
  simp only [generateTorus]
  refine List.map_congr_left fun i hi => ?_
  rw [List.mem_range] at hi
  simp [torusIdx, torusVertexNr, Nat.mod_eq_of_lt hi, Nat.mod_eq_of_lt hm]

/-- What the vertices returned for the minor direction are: they use the numbering of the grid with
endpoints rather than that of the mesh, so that the `j`-th is also `j` steps along the *major* direction. -/
theorem C51_minor_cycle_diagonal {P : Type} (pt : ℚ → ℚ → P) (b : Bool) (nMajor nMinor j : Nat)
    (hj : j < nMinor) (hj' : j < nMajor) :
    (generateTorus pt b nMajor nMinor).2.2.2[j]? = some (torusVertexNr nMajor nMinor j j) := by
  simp only [generateTorus, List.getElem?_map, List.getElem?_range hj, Option.map_some, torusIdx,
    torusVertexNr, Nat.mod_eq_of_lt hj, Nat.mod_eq_of_lt hj']
  congr 1
  ring

/-- C51, minor cycle: entry `j` is the vertex `j` steps along the minor direction exactly for `j = 0`;
and it is the number of a vertex at all exactly if `j * (n_major + 1) < n_major * n_minor`. -/
theorem C51_minor_cycle_partial {P : Type} (pt : ℚ → ℚ → P) (b : Bool) {nMajor nMinor : Nat}
    (j : Nat) (hj : j < nMinor) :
    ∃ v, (generateTorus pt b nMajor nMinor).2.2.2[j]? = some v ∧
      (v = torusVertexNr nMajor nMinor 0 j ↔ j = 0) ∧
      (v < (generateTorus pt b nMajor nMinor).1.length ↔ j * (nMajor + 1) < nMajor * nMinor) := by
  refine ⟨torusIdx nMajor 0 j, ?_, ?_, ?_⟩
  · simp [generateTorus, hj]
  · simp only [torusIdx, torusVertexNr, Nat.zero_mod, Nat.mod_eq_of_lt hj, Nat.zero_add]
    rw [Nat.mul_add, Nat.mul_one]
    omega
  · rw [(C51_torus_counts pt nMajor nMinor).2.2 b, torusIdx, Nat.zero_add]

/-- The minor cycle of a torus of 3 by 3 cells is 0, 4, 8: the diagonal (the column is 0, 3, 6); that of
3 by 4 cells has an entry which is not the number of a vertex. -/
theorem C51_minor_cycle_counterexample :
    (generateTorus (fun u v => (u, v)) true 3 3).2.2.2 = [0, 4, 8] ∧
    (generateTorus (fun u v => (u, v)) true 3 3).1[4]? = some (1 / 3, 1 / 3) ∧
    torusVertexNr 3 3 0 1 = 3 ∧
    (generateTorus (fun u v => (u, v)) true 3 4).2.2.2 = [0, 4, 8, 12] ∧
    (generateTorus (fun u v => (u, v)) true 3 4).1.length = 12 := by
  decide +kernel

end Meshmode
