import Verif.Np
import Verif.Mesh.FacialProps
import Verif.Connection.Face
import Mathlib.Algebra.Field.Defs
import Mathlib.Tactic.Ring

/-!
# Box meshes: the model, vertex numbering and elements (C21)

`generate_box_mesh` (meshmode/mesh/generation.py:1191-1637). A point of the grid of a `d`-dimensional box,
`d ≤ 3`, is given by three numbers, those beyond `d` being zero; the axes beyond `d` have one point and one
cell. Positions are counted in half grid cells, so that grid points have even coordinates and the midpoints
of the `"X"` meshes have coordinates `(2 i + 1, 2 j + 1, 0)`.
The branches for `periodic` are in Verif/Gen/Periodic.lean.
Not modelled: `dtype`s, rounding and the parsing of the face
identifiers (`"+x"`), which appear as pairs (`true` for `+`, axis).
-/
namespace Meshmode

/-! ## Model -/

/-- Three numbers: entries of `np.ndindex(shape)`, meshmode/mesh/generation.py:1369-1373 and 1467-1472. -/
structure P3 where
  x : Nat
  y : Nat
  z : Nat
  deriving DecidableEq, Repr

/-- Entry `axis` (as in `base_idx_tuples[:, axis]`, meshmode/mesh/generation.py:1388). -/
def P3.get (p : P3) : Nat → Nat
  | 0 => p.x
  | 1 => p.y
  | _ => p.z

/-- The position of the point with offset `o` (in half cells) in the cell `c` (as `i0`, `i0+1`, `j0`, ... in
meshmode/mesh/generation.py:1372-1378). -/
def P3.at2 (c o : P3) : P3 := ⟨2 * c.x + o.x, 2 * c.y + o.y, 2 * c.z + o.z⟩

/-- `np.ndindex(shape)`, meshmode/mesh/generation.py:1369: all index tuples, the last index varying
fastest. -/
def P3.indices (m : P3) : List P3 :=
  (List.range m.x).flatMap fun i => (List.range m.y).flatMap fun j =>
    (List.range m.z).map fun k => ⟨i, j, k⟩

/-- Entry `p` of `np.arange(product(n)).reshape(n)`, meshmode/mesh/generation.py:1281
(`vertex_indices`). -/
def P3.rowMajor (n p : P3) : Nat := (p.x * n.y + p.y) * n.z + p.z

/-- `shape`, meshmode/mesh/generation.py:1276 (`1` for the axes beyond the dimension). -/
def boxShape (lens : List Nat) : P3 := ⟨lens.getD 0 1, lens.getD 1 1, lens.getD 2 1⟩

/-- `shape_m1`, meshmode/mesh/generation.py:1301 (`1` for the axes beyond the dimension). -/
def boxCellShape (lens : List Nat) : P3 :=
  ⟨(lens[0]?.map (· - 1)).getD 1, (lens[1]?.map (· - 1)).getD 1, (lens[2]?.map (· - 1)).getD 1⟩

/-- `group_cls` and `mesh_type` (meshmode/mesh/generation.py:1199-1201): tensor product elements, simplices,
or simplices with `mesh_type="X"`. -/
inductive BoxKind where
  | tensor | simplex | crossed
  deriving DecidableEq, Repr

/-- How a cell is divided: for each subelement the offsets of its vertices in half cells, and the reference
face vertex numbers (`face_vertex_indices()`). Code: meshmode/mesh/generation.py:1191-1640. -/
structure BoxTpl where
  dim : Nat
  subs : List (List P3)
  fvi : List (List Nat)
  deriving DecidableEq, Repr

/-- `el_vertices` for one cell (meshmode/mesh/generation.py:1319, 1381, 1393-1397, 1421-1423, 1484-1486,
1497-1503), with the face vertices of modepy's shapes; `none` where the code raises `ValueError` or
`NotImplementedError`. -/
def boxTpl : Nat → BoxKind → Option BoxTpl
  | 1, .tensor => some ⟨1, [[⟨0,0,0⟩, ⟨2,0,0⟩]], [[0], [1]]⟩
  | 1, .simplex => some ⟨1, [[⟨0,0,0⟩, ⟨2,0,0⟩]], [[0], [1]]⟩
  | 2, .tensor => some ⟨2, [[⟨0,0,0⟩, ⟨2,0,0⟩, ⟨0,2,0⟩, ⟨2,2,0⟩]], [[0, 2], [1, 3], [0, 1], [2, 3]]⟩
  | 2, .simplex => some ⟨2, [[⟨0,0,0⟩, ⟨2,0,0⟩, ⟨0,2,0⟩], [⟨2,2,0⟩, ⟨0,2,0⟩, ⟨2,0,0⟩]],
      [[0, 1], [2, 0], [1, 2]]⟩
  | 2, .crossed => some ⟨2, [[⟨0,0,0⟩, ⟨2,0,0⟩, ⟨1,1,0⟩], [⟨2,0,0⟩, ⟨2,2,0⟩, ⟨1,1,0⟩],
      [⟨2,2,0⟩, ⟨0,2,0⟩, ⟨1,1,0⟩], [⟨0,2,0⟩, ⟨0,0,0⟩, ⟨1,1,0⟩]], [[0, 1], [2, 0], [1, 2]]⟩
  | 3, .tensor => some ⟨3, [[⟨0,0,0⟩, ⟨2,0,0⟩, ⟨0,2,0⟩, ⟨2,2,0⟩, ⟨0,0,2⟩, ⟨2,0,2⟩, ⟨0,2,2⟩, ⟨2,2,2⟩]],
      [[0, 2, 4, 6], [1, 3, 5, 7], [0, 1, 4, 5], [2, 3, 6, 7], [0, 1, 2, 3], [4, 5, 6, 7]]⟩
  | 3, .simplex => some ⟨3, [[⟨0,0,0⟩, ⟨2,0,0⟩, ⟨0,2,0⟩, ⟨0,0,2⟩], [⟨2,0,2⟩, ⟨2,0,0⟩, ⟨0,0,2⟩, ⟨0,2,0⟩],
      [⟨2,0,2⟩, ⟨0,2,2⟩, ⟨0,2,0⟩, ⟨0,0,2⟩], [⟨2,0,0⟩, ⟨0,2,0⟩, ⟨2,0,2⟩, ⟨2,2,0⟩],
      [⟨0,2,2⟩, ⟨0,2,0⟩, ⟨2,2,0⟩, ⟨2,0,2⟩], [⟨0,2,2⟩, ⟨2,2,2⟩, ⟨2,0,2⟩, ⟨2,2,0⟩]],
      [[0, 2, 1], [0, 1, 3], [0, 3, 2], [1, 2, 3]]⟩
  | _, _ => none

/-- The subelements along a side of the box (`true`: upper side): `box_face_to_elements` and the offset tables
in meshmode/mesh/generation.py:1320-1322, 1383-1389, 1405-1409, 1431-1433, 1511-1517. -/
def boxSideSubs : Nat → BoxKind → Bool × Nat → List Nat
  | 2, .simplex, (p, _) => [if p then 1 else 0]
  | 2, .crossed, (false, 0) => [3]
  | 2, .crossed, (true, 0) => [1]
  | 2, .crossed, (false, _) => [0]
  | 2, .crossed, (true, _) => [2]
  | 3, .simplex, (false, 0) => [0, 2]
  | 3, .simplex, (true, 0) => [3, 5]
  | 3, .simplex, (false, 1) => [0, 1]
  | 3, .simplex, (true, 1) => [4, 5]
  | 3, .simplex, (false, _) => [0, 3]
  | 3, .simplex, (true, _) => [2, 5]
  | _, _, _ => [0]

/-- The number of the vertex at a position: `vertex_indices` for grid points (row-major), else
`midpoint_indices` (column-major), meshmode/mesh/generation.py:1281 and 1340-1342. -/
def boxVertexNr (n m p : P3) : Nat :=
  if p.x % 2 = 0 ∧ p.y % 2 = 0 ∧ p.z % 2 = 0 then n.rowMajor ⟨p.x / 2, p.y / 2, p.z / 2⟩
  else n.x * n.y * n.z + (p.x / 2 + p.y / 2 * m.x)

/-- The positions of the vertices in the order of the columns of `vertices`: the grid points
(meshmode/mesh/generation.py:1283-1288, row-major) and, for `mesh_type="X"`, the midpoints (:1344-1352,
column-major). -/
def boxPositions (n m : P3) (kind : BoxKind) : List P3 :=
  (n.indices.map fun i => ⟨2 * i.x, 2 * i.y, 2 * i.z⟩) ++
    if kind = .crossed then (List.range m.y).flatMap fun j => (List.range m.x).map fun i =>
      ⟨2 * i + 1, 2 * j + 1, 0⟩ else []

/-- The coordinate of a half-cell position along an axis: `axis_coords[idim][i]`, or
`0.5*(left_axis_coords+right_axis_coords)` (meshmode/mesh/generation.py:1286, 1347-1350). -/
def boxCoord {K : Type} [Field K] (ax : List K) (p : Nat) : K :=
  if p % 2 = 0 then ax.getD (p / 2) 0 else (ax.getD (p / 2) 0 + ax.getD (p / 2 + 1) 0) / 2

/-- `vertices`, meshmode/mesh/generation.py:1283-1288 and 1344-1353. -/
def boxVertices {K : Type} [Field K] (axes : List (List K)) (kind : BoxKind) : List (List K) :=
  let lens := axes.map List.length
  (boxPositions (boxShape lens) (boxCellShape lens) kind).map fun p =>
    axes.zipIdx.map fun a => boxCoord a.1 (p.get a.2)

/-- `el_vertices`, meshmode/mesh/generation.py:1308-1325, 1366-1429, 1464-1509: the subelements of the cells,
in the order of the cells. -/
def boxElements (n m : P3) (T : BoxTpl) : List (List Nat) :=
  m.indices.flatMap fun c => T.subs.map fun sub => sub.map fun o => boxVertexNr n m (c.at2 o)

/-- `make_group_from_vertices(vertices, el_vertices, ...)`, meshmode/mesh/generation.py:1537-1539; the nodes
of an element are an arbitrary function of its vertex numbers. -/
def boxGroup {N : Type} (nodeOf : List Nat → N) (n m : P3) (T : BoxTpl) : ElGroup N :=
  ⟨0, T.fvi, boxElements n m T, (boxElements n m T).map nodeOf⟩

/-- The checks and the choice of the group, meshmode/mesh/generation.py:1265-1270, 1308-1535: no axis may have
exactly one point. -/
def generateBox {N : Type} (nodeOf : List Nat → N) (lens : List Nat) (kind : BoxKind) :
    Option (ElGroup N) := do
  if lens.any (· == 1) then none
  else
    let T ← boxTpl lens.length kind
    some (boxGroup nodeOf (boxShape lens) (boxCellShape lens) T)

/-- `box_faces`, meshmode/mesh/generation.py:1303-1306: the sides of the box. -/
def boxSides (dim : Nat) : List (Bool × Nat) :=
  (List.range dim).flatMap fun a => [(false, a), (true, a)]

/-- `box_face_to_elements`, meshmode/mesh/generation.py:1383-1389, 1411-1418, 1435-1442, 1519-1527:
`nsubelements*box_elements + offset` for the cells on the side. -/
def boxSideElements (m : P3) (T : BoxTpl) (kind : BoxKind) (side : Bool × Nat) : List Nat :=
  let idx := if side.1 then m.get side.2 - 1 else 0
  let cells := (m.indices.zipIdx.filter fun c => c.1.get side.2 == idx).map Prod.snd
  (boxSideSubs T.dim kind side).flatMap fun off => cells.map fun k => T.subs.length * k + off

/-- `box_face_to_tags`, meshmode/mesh/generation.py:1556-1576. -/
def boxSideTags (tagToFace : List (BTag × List (Bool × Nat))) (side : Bool × Nat) : List BTag :=
  tagToFace.flatMap fun tf => (tf.2.filter (· == side)).map fun _ => tf.1

/-- `vert_index_to_tuple`, meshmode/mesh/generation.py:1578-1582 (`none` for the rows of `-1`). -/
def boxVertTuple (n : P3) (v : Nat) : Option P3 :=
  if v < n.x * n.y * n.z then some ⟨v / n.z / n.y, v / n.z % n.y, v % n.z⟩ else none

/-- The assignments to `face_vertex_indices_to_tags`, in order: meshmode/mesh/generation.py:1584-1600. -/
def boxTagWrites (n m : P3) (T : BoxTpl) (kind : BoxKind)
    (tagToFace : List (BTag × List (Bool × Nat))) : List (List Nat × List BTag) :=
  (boxSides T.dim).flatMap fun side =>
    let tags := boxSideTags tagToFace side
    if tags = [] then [] else
    let vertFace := if side.1 then n.get side.2 - 1 else 0
    T.fvi.flatMap fun ref => (boxSideElements m T kind side).filterMap fun e => do
      let row ← (boxElements n m T)[e]?
      let fvi := ref.map fun k => row.getD k 0
      if fvi.all fun v => (boxVertTuple n v).map (P3.get · side.2) == some vertFace
      then some (fvi, tags) else none

/-- `d[frozenset(fvi)] = tags`, meshmode/mesh/generation.py:1600. -/
def frozenSet (d : List (List Nat × List BTag)) (w : List Nat × List BTag) :
    List (List Nat × List BTag) :=
  if d.any fun kv => sameSet kv.1 w.1 then d.map fun kv => if sameSet kv.1 w.1 then (kv.1, w.2) else kv
  else d ++ [w]

/-- `face_vertex_indices_to_tags`, meshmode/mesh/generation.py:1553 and 1584-1600. -/
def boxTagDict (n m : P3) (T : BoxTpl) (kind : BoxKind)
    (tagToFace : List (BTag × List (Bool × Nat))) : List (List Nat × List BTag) :=
  (boxTagWrites n m T kind tagToFace).foldl frozenSet []

/-! ## Lists of blocks of equal length -/

theorem flatMap_const_getElem? {α β : Type} {F : α → List β} {l : List α} {w : Nat}
    (hw : ∀ a ∈ l, (F a).length = w) {i j : Nat} {a : α} (hi : l[i]? = some a) (hj : j < w) :
    (l.flatMap F)[i * w + j]? = (F a)[j]? := by
  have h := flatMap_getElem?_offset F l i a hi j (by rw [hw a (List.mem_of_getElem? hi)]; exact hj)
  have hs : ((l.take i).map fun a => (F a).length).sum = i * w := by
    have : ((l.take i).map fun a => (F a).length) = List.replicate i w := by
      rw [List.eq_replicate_iff]
      constructor
      · rw [List.length_map, List.length_take]
        have := (List.getElem?_eq_some_iff.1 hi).1
        omega
      · intro b hb
        obtain ⟨a, ha, rfl⟩ := List.mem_map.1 hb
        exact hw a (List.mem_of_mem_take ha)
    rw [this]
    simp
  rw [hs] at h
  exact h

theorem flatMap_const_length {α β : Type} {F : α → List β} {l : List α} {w : Nat}
    (hw : ∀ a ∈ l, (F a).length = w) : (l.flatMap F).length = l.length * w := by
  induction l with
  | nil => simp
  | cons a l ih =>
    rw [List.flatMap_cons, List.length_append, ih fun b hb => hw b (List.mem_cons_of_mem _ hb),
      hw a List.mem_cons_self, List.length_cons]
    ring

theorem flatMap_const_of_lt {α β : Type} {F : α → List β} {l : List α} {w : Nat}
    (hw : ∀ a ∈ l, (F a).length = w) {e : Nat} (he : e < (l.flatMap F).length) :
    ∃ (i j : Nat) (a : α), l[i]? = some a ∧ j < w ∧ e = i * w + j ∧ (l.flatMap F)[e]? = (F a)[j]? := by
  rw [flatMap_const_length hw] at he
  have hwpos : 0 < w := by
    rcases Nat.eq_zero_or_pos w with h | h
    · rw [h] at he; omega
    · exact h
  have hi : e / w < l.length := Nat.div_lt_of_lt_mul (by rw [Nat.mul_comm]; exact he)
  have hj : e % w < w := Nat.mod_lt _ hwpos
  have hdm : e = e / w * w + e % w := by rw [Nat.mul_comm]; exact (Nat.div_add_mod e w).symm
  have hget : l[e / w]? = some l[e / w] := List.getElem?_eq_getElem hi
  refine ⟨e / w, e % w, l[e / w], hget, hj, hdm, ?_⟩
  have := flatMap_const_getElem? hw hget hj
  rw [← hdm] at this
  exact this

/-! ## Index tuples -/

/-- `p` is an index tuple for an array of shape `n`.
(Specification or proof vocabulary, no code.) -/
def P3.InShape (n p : P3) : Prop := p.x < n.x ∧ p.y < n.y ∧ p.z < n.z

theorem mem_indices {n p : P3} : p ∈ n.indices ↔ n.InShape p := by
  simp only [P3.indices, List.mem_flatMap, List.mem_map, List.mem_range, P3.InShape]
  constructor
  · rintro ⟨i, hi, j, hj, k, hk, rfl⟩; exact ⟨hi, hj, hk⟩
  · rintro ⟨h1, h2, h3⟩; exact ⟨p.x, h1, p.y, h2, p.z, h3, rfl⟩

theorem indices_getElem? {n p : P3} (h : n.InShape p) : n.indices[n.rowMajor p]? = some p := by
  obtain ⟨h1, h2, h3⟩ := h
  have e : n.rowMajor p = p.x * (n.y * n.z) + (p.y * n.z + p.z) := by
    unfold P3.rowMajor; ring
  rw [e]
  unfold P3.indices
  have hlt : p.y * n.z + p.z < n.y * n.z := by
    have : (p.y + 1) * n.z ≤ n.y * n.z := Nat.mul_le_mul_right _ h2
    rw [Nat.add_mul] at this; omega
  rw [flatMap_const_getElem? (F := fun i => (List.range n.y).flatMap fun j =>
      (List.range n.z).map fun k => (⟨i, j, k⟩ : P3)) (w := n.y * n.z)
    (fun a _ => by
      rw [flatMap_const_length (w := n.z) (fun b _ => by simp)]; simp)
    (List.getElem?_range h1) hlt]
  rw [flatMap_const_getElem? (F := fun j => (List.range n.z).map fun k => (⟨p.x, j, k⟩ : P3)) (w := n.z)
    (fun a _ => by simp) (List.getElem?_range h2) h3]
  simp [h3]

theorem length_indices (n : P3) : n.indices.length = n.x * n.y * n.z := by
  unfold P3.indices
  rw [flatMap_const_length (w := n.y * n.z) (fun a _ => by
      rw [flatMap_const_length (w := n.z) (fun b _ => by simp)]; simp)]
  simp; ring

theorem rowMajor_lt {n p : P3} (h : n.InShape p) : n.rowMajor p < n.x * n.y * n.z := by
  rw [← length_indices]
  exact (List.getElem?_eq_some_iff.1 (indices_getElem? h)).1

theorem rowMajor_inj {n p q : P3} (hp : n.InShape p) (hq : n.InShape q)
    (h : n.rowMajor p = n.rowMajor q) : p = q := by
  have := indices_getElem? hp
  rw [h, indices_getElem? hq] at this
  exact (Option.some.inj this).symm

theorem nodup_indices (n : P3) : n.indices.Nodup := by
  unfold P3.indices
  rw [List.nodup_flatMap]
  refine ⟨?_, ?_⟩
  · intro i _
    rw [List.nodup_flatMap]
    refine ⟨?_, ?_⟩
    · intro j _
      exact List.nodup_range.map fun a b h => by simpa using h
    · refine List.nodup_range.imp_of_mem ?_
      intro a b _ _ hab
      simp only [Function.onFun, List.disjoint_left, List.mem_map]
      rintro _ ⟨_, _, rfl⟩ ⟨_, _, h⟩
      simp at h
      exact hab h.1.symm
  · refine List.nodup_range.imp_of_mem ?_
    intro a b _ _ hab
    simp only [Function.onFun, List.disjoint_left, List.mem_flatMap, List.mem_map]
    rintro _ ⟨_, _, _, _, rfl⟩ ⟨_, _, _, _, h⟩
    simp at h
    exact hab h.1.symm

theorem indices_getElem?_iff {n p : P3} {k : Nat} :
    n.indices[k]? = some p ↔ n.InShape p ∧ k = n.rowMajor p := by
  constructor
  · intro h
    have hp := mem_indices.1 (List.mem_of_getElem? h)
    refine ⟨hp, ?_⟩
    exact (List.getElem?_inj (List.getElem?_eq_some_iff.1 h).1 (nodup_indices n)).1
      (h.trans (indices_getElem? hp).symm)
  · rintro ⟨h, rfl⟩
    exact indices_getElem? h

theorem boxVertTuple_rowMajor {n p : P3} (h : n.InShape p) :
    boxVertTuple n (n.rowMajor p) = some p := by
  unfold boxVertTuple
  rw [if_pos (rowMajor_lt h)]
  obtain ⟨h1, h2, h3⟩ := h
  have e1 : n.rowMajor p / n.z = p.x * n.y + p.y := by
    unfold P3.rowMajor
    rw [Nat.add_comm, Nat.add_mul_div_right _ _ (by omega), Nat.div_eq_of_lt h3, Nat.zero_add]
  have e2 : n.rowMajor p % n.z = p.z := by
    unfold P3.rowMajor
    rw [Nat.add_comm, Nat.add_mul_mod_self_right, Nat.mod_eq_of_lt h3]
  rw [e1, e2]
  have e3 : (p.x * n.y + p.y) / n.y = p.x := by
    rw [Nat.add_comm, Nat.add_mul_div_right _ _ (by omega), Nat.div_eq_of_lt h2, Nat.zero_add]
  have e4 : (p.x * n.y + p.y) % n.y = p.y := by
    rw [Nat.add_comm, Nat.add_mul_mod_self_right, Nat.mod_eq_of_lt h2]
  rw [e3, e4]

/-- The positions that have vertices: the grid points and, with midpoints, the cell centres.
(Specification or proof vocabulary, no code.) -/
def VertexAt (n m : P3) (kind : BoxKind) (p : P3) : Prop :=
  (∃ i, n.InShape i ∧ p = ⟨2 * i.x, 2 * i.y, 2 * i.z⟩) ∨
  (kind = .crossed ∧ ∃ i j, i < m.x ∧ j < m.y ∧ p = ⟨2 * i + 1, 2 * j + 1, 0⟩)

theorem boxVertexNr_grid (n m i : P3) : boxVertexNr n m ⟨2 * i.x, 2 * i.y, 2 * i.z⟩ = n.rowMajor i := by
  unfold boxVertexNr
  rw [if_pos (by simp)]
  simp

theorem boxVertexNr_mid (n m : P3) (i j : Nat) :
    boxVertexNr n m ⟨2 * i + 1, 2 * j + 1, 0⟩ = n.x * n.y * n.z + (i + j * m.x) := by
  unfold boxVertexNr
  rw [if_neg (by simp)]
  have h : ∀ i : Nat, (2 * i + 1) / 2 = i := by intro i; omega
  simp only [h]

/-- The vertex with the number of a position is at that position. -/
theorem boxPositions_getElem? {n m : P3} {kind : BoxKind} {p : P3} (h : VertexAt n m kind p) :
    (boxPositions n m kind)[boxVertexNr n m p]? = some p := by
  rcases h with ⟨i, hi, rfl⟩ | ⟨hk, i, j, hi, hj, rfl⟩
  · rw [boxVertexNr_grid, boxPositions, List.getElem?_append_left
      (by rw [List.length_map, length_indices]; exact rowMajor_lt hi), List.getElem?_map,
      indices_getElem? hi]
    rfl
  · rw [boxVertexNr_mid, boxPositions, List.getElem?_append_right
      (by rw [List.length_map, length_indices]; omega), List.length_map, length_indices, if_pos hk,
      Nat.add_sub_cancel_left, Nat.add_comm, flatMap_const_getElem? (w := m.x) (fun a _ => by simp)
        (List.getElem?_range hj) hi]
    simp [hi]

theorem boxVertexNr_inj {n m : P3} {kind : BoxKind} {p q : P3} (hp : VertexAt n m kind p)
    (hq : VertexAt n m kind q) (h : boxVertexNr n m p = boxVertexNr n m q) : p = q := by
  have := boxPositions_getElem? hp
  rw [h, boxPositions_getElem? hq] at this
  exact (Option.some.inj this).symm

end Meshmode
