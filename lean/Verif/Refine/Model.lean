import Verif.Np
import Verif.Mesh.Types
import Verif.Mesh.Numbering

/-!
# Refinement: model (C19, C20)

`RefinerWithoutAdjacency.refine` (meshmode/mesh/refinement/no_adjacency.py:84-259), the tessellation
description (meshmode/mesh/refinement/tessellate.py:53-91, 160-168, 252-290), and the batches of
`make_refinement_connection` (meshmode/discretization/connection/refinement.py:38-115).

Meshes without vertices are not modelled.  Coordinates of midpoints and of child nodes (resampling
with modepy) are parameters.
-/
namespace Meshmode

variable {N P : Type}

/-- `ElementTessellationInfo`, meshmode/mesh/refinement/tessellate.py:54-89: children as index lists
into the reference vertices, their number, and original vertices and midpoints among them. -/
structure Tess where
  children : List (List Nat)
  nref : Nat
  origIdx : List Nat
  midIdx : List Nat
  midPairs : List (Nat × Nat)
  deriving DecidableEq, Repr

/-- `_midpoint_tuples`, meshmode/mesh/refinement/tessellate.py:160-168; `none` for `ValueError`. -/
def midpointTuple (a b : List Nat) : Option (List Nat) :=
  if a.length = b.length then
    (a.zip b).mapM fun p => if (p.1 + p.2) % 2 = 0 then some ((p.1 + p.2) / 2) else none
  else none

/-- `_get_group_tessellation_info_modepy`, meshmode/mesh/refinement/tessellate.py:253-286.
`ref1`, `ref2` are modepy's node tuples of order 1 and 2, `children` is `mp.submesh_for_shape`.
In the dictionary of vertex pairs the last pair `i < j` with a given midpoint stays. -/
def tessInfo (ref1 ref2 : List (List Nat)) (children : List (List Nat)) : Option Tess := do
  let orig := ref1.map fun t => t.map (2 * ·)
  let mids := ref2.filter fun t => !(orig.contains t)
  let pairs := (List.range orig.length).flatMap fun i =>
    (List.range orig.length).filterMap fun j => if i < j then some (i, j) else none
  let origIdx ← orig.mapM fun t => ref2.idxOf? t
  let midIdx ← mids.mapM fun t => ref2.idxOf? t
  let midPairs ← mids.mapM fun t => pairs.reverse.find? fun p =>
    match orig[p.1]?, orig[p.2]? with
    | some a, some b => midpointTuple a b == some t
    | _, _ => false
  pure ⟨children, ref2.length, origIdx, midIdx, midPairs⟩

/-- The key of an edge in `global_vertex_pair_to_midpoint`: the smaller number first,
meshmode/mesh/refinement/no_adjacency.py:180-184. -/
def edgeKey (a b : Nat) : Nat × Nat := if a > b then (b, a) else (a, b)

/-- `global_vertex_pair_to_midpoint`, `inew_vertex`, `additional_vertices`.
Code: meshmode/mesh/refinement/no_adjacency.py:84-262. -/
structure RState (P : Type) where
  table : List ((Nat × Nat) × Nat)
  inew : Nat
  added : List P
  deriving DecidableEq, Repr

/-- One midpoint of one element, meshmode/mesh/refinement/no_adjacency.py:180-195; `none` for
`IndexError`. -/
def midStep (row : List Nat) (pt : P) (pair : Nat × Nat) (s : RState P) :
    Option (Nat × RState P) :=
  match row[pair.1]?, row[pair.2]? with
  | some a, some b =>
    match s.table.lookup (edgeKey a b) with
    | some m => some (m, s)
    | none => some (s.inew, ⟨(edgeKey a b, s.inew) :: s.table, s.inew + 1, s.added ++ [pt]⟩)
  | _, _ => none

/-- All midpoints of one element (with their numbers `imidpoint`), in order,
meshmode/mesh/refinement/no_adjacency.py:175-197. -/
def elMids (row : List Nat) (pt : Nat → P) : List ((Nat × Nat) × Nat) → RState P →
    Option (List Nat × RState P)
  | [], s => some ([], s)
  | (pair, im) :: rest, s =>
    match midStep row (pt im) pair s with
    | none => none
    | some (m, s1) =>
      match elMids row pt rest s1 with
      | none => none
      | some (ms, s2) => some (m :: ms, s2)

/-- `refining_vertices`, meshmode/mesh/refinement/no_adjacency.py:164-199: original vertices, then
midpoints; `none` when the number of vertices does not fit or an entry was never set. -/
def refiningVertices (t : Tess) (row mids : List Nat) : Option (List Nat) :=
  if t.origIdx.length = row.length ∧ t.midIdx.length = mids.length then
    (List.range t.nref).mapM fun k =>
      ((t.origIdx ++ t.midIdx).zip (row ++ mids)).reverse.lookup k
  else none

/-- `refining_vertices[el_tess_info.children]`, meshmode/mesh/refinement/no_adjacency.py:201-202. -/
def childRows (t : Tess) (rv : List Nat) : Option (List (List Nat)) :=
  t.children.mapM fun c => c.mapM (rv[·]?)

/-- The loop over refined elements, meshmode/mesh/refinement/no_adjacency.py:161-202: the child
rows of each. -/
def refineEls (t : Tess) (rows : List (List Nat)) (pt : Nat → Nat → P) : List Nat → RState P →
    Option (List (Nat × List (List Nat)) × RState P)
  | [], s => some ([], s)
  | e :: es, s =>
    match rows[e]? with
    | none => none
    | some row =>
      match elMids row (pt e) t.midPairs.zipIdx s with
      | none => none
      | some (mids, s1) =>
        match (refiningVertices t row mids).bind (childRows t) with
        | none => none
        | some ch =>
          match refineEls t rows pt es s1 with
          | none => none
          | some (rest, s2) => some ((e, ch) :: rest, s2)

/-- Assignments of blocks of rows into an array of `n` rows; `none` if a row was never set (the
asserts at meshmode/mesh/refinement/no_adjacency.py:204 and 229). -/
def scatter {α : Type} (n : Nat) (writes : List (Nat × List α)) : Option (List α) :=
  (List.range n).mapM fun k =>
    writes.reverse.findSome? fun w => if w.1 ≤ k then w.2[k - w.1]? else none

/-- `nchild_elements`, meshmode/mesh/refinement/no_adjacency.py:118-120. -/
def childCounts (t : Tess) (flags : List Bool) : List Nat :=
  flags.map fun f => if f then t.children.length else 1

/-- `child_el_indices`, meshmode/mesh/refinement/no_adjacency.py:122-124. -/
def childStarts (t : Tess) (flags : List Bool) : List Nat := 0 :: cumsum (childCounts t flags)

/-- `element_mapping`, meshmode/mesh/refinement/no_adjacency.py:136-140. -/
def elementMapping (t : Tess) (flags : List Bool) : List (List Nat) :=
  (List.range flags.length).map fun i =>
    List.range' ((childStarts t flags).getD i 0) ((childCounts t flags).getD i 0)

/-- `new[unrefined_el_new_indices] = old[~grp_flags]`,
meshmode/mesh/refinement/no_adjacency.py:126, 158-159, 219. -/
def keepWrites {α : Type} (t : Tess) (flags : List Bool) (old : List α) : List (Nat × List α) :=
  (npWhere (flags.map (! ·))).filterMap fun i =>
    old[i]?.map fun r => ((childStarts t flags).getD i 0, [r])

/-- The body of the loop over groups, meshmode/mesh/refinement/no_adjacency.py:110-238.  `nv` is
`mesh.nvertices`: the counter of new vertices restarts there for every group.  `tn e` are the nodes
of the children of element `e`, `pt e i` the coordinates of its midpoint `i`. -/
def refineGroup (t : Tess) (tn : Nat → List N) (pt : Nat → Nat → P) (nv : Nat) (g : ElGroup N)
    (flags : List Bool) (table : List ((Nat × Nat) × Nat)) (added : List P) :
    Option (ElGroup N × RState P) :=
  match refineEls t g.vertexIndices pt (npWhere flags) ⟨table, nv, added⟩ with
  | none => none
  | some (ch, s) =>
    match scatter (childCounts t flags).sum (keepWrites t flags g.vertexIndices ++
        ch.map fun c => ((childStarts t flags).getD c.1 0, c.2)),
      scatter (childCounts t flags).sum (keepWrites t flags g.nodes ++
        (npWhere flags).map fun e => ((childStarts t flags).getD e 0, tn e)) with
    | some rows, some nodes => some (⟨g.kind, g.fvi, rows, nodes⟩, s)
    | _, _ => none

/-- Geometry used by the refiner for a group: its tessellation, nodes of children, midpoints.
Code: meshmode/mesh/refinement/no_adjacency.py:84-262. -/
structure Geo (N P : Type) where
  tess : ElGroup N → Tess
  tn : ElGroup N → Nat → List N
  pt : ElGroup N → Nat → Nat → P

/-- The loop over groups, with each group's part of the flags.
Code: meshmode/mesh/refinement/no_adjacency.py:84-262. -/
def refineGroups (geo : Geo N P) (nv : Nat) : List (ElGroup N × List Bool) →
    List ((Nat × Nat) × Nat) → List P →
    Option (List (ElGroup N) × List ((Nat × Nat) × Nat) × List P)
  | [], table, added => some ([], table, added)
  | (g, flags) :: rest, table, added =>
    match refineGroup (geo.tess g) (geo.tn g) (geo.pt g) nv g flags table added with
    | none => none
    | some (g', s) =>
      match refineGroups geo nv rest s.table s.added with
      | none => none
      | some (gs, table', added') => some (g' :: gs, table', added')

/-- `refine_flags[base:base + grp.nelements]` for every group,
meshmode/mesh/refinement/no_adjacency.py:110-116. -/
def refineFlags (groups : List (ElGroup N)) (flags : List Bool) : List (List Bool) :=
  (groups.zip (baseElementNrs (groups.map ElGroup.nelements))).map fun p =>
    (flags.drop p.2).take p.1.nelements

/-- A refiner: current mesh (vertices, groups, `is_conforming`), records of the last refinement
(tessellation and element mapping per group), and table of midpoints.
Code: meshmode/mesh/refinement/no_adjacency.py:49-82. -/
structure Refiner (N P : Type) where
  vertices : List P
  groups : List (ElGroup N)
  conforming : Option Bool
  records : List (Tess × List (List Nat))
  table : List ((Nat × Nat) × Nat)

/-- `is_conforming` of the refined mesh, meshmode/mesh/refinement/no_adjacency.py:251-253. -/
def refinedConforming (conforming : Option Bool) (flags : List Bool) : Option Bool :=
  if conforming = some true then some (flags.all id || flags.all (! ·)) else conforming

/-- `RefinerWithoutAdjacency.refine`, meshmode/mesh/refinement/no_adjacency.py:84-259; `none` if it
raises. -/
def Refiner.refine (geo : Geo N P) (r : Refiner N P) (flags : List Bool) :
    Option (Refiner N P) :=
  if flags.length ≠ (r.groups.map ElGroup.nelements).sum then none
  else
    let gf := refineFlags r.groups flags
    match refineGroups geo r.vertices.length (r.groups.zip gf) r.table [] with
    | none => none
    | some (gs, table, added) =>
      some ⟨r.vertices ++ added, gs, refinedConforming r.conforming flags,
        (r.groups.zip gf).map fun p => (geo.tess p.1, elementMapping (geo.tess p.1) p.2), table⟩

/-- `RefinerWithoutAdjacency.__init__`, meshmode/mesh/refinement/no_adjacency.py:71-74. -/
def Refiner.init (vertices : List P) (groups : List (ElGroup N)) (conforming : Option Bool) :
    Refiner N P := ⟨vertices, groups, conforming, [], []⟩

/-- Entries of one bin of `_build_interpolation_batches_for_group`
(meshmode/discretization/connection/refinement.py:77-93): pairs (coarse element, fine element).
Bin 0 has the elements with one child, bin `k + 1` the `k`-th children of the others. -/
def refinementBin (mapping : List (List Nat)) (k : Nat) : List (Nat × Nat) :=
  mapping.zipIdx.filterMap fun p =>
    if p.1.length = 1 then
      if k = 0 then p.1[0]?.map fun c => (p.2, c) else none
    else
      if k = 0 then none else p.1[k - 1]?.map fun c => (p.2, c)

/-- All bins (empty ones are skipped in the code, which does not change the entries); `none` when a
refined element does not have `nchildren` children (assert at
meshmode/discretization/connection/refinement.py:87). -/
def refinementBins (nchildren : Nat) (mapping : List (List Nat)) :
    Option (List (List (Nat × Nat))) :=
  if mapping.all fun m => m.length == 1 || m.length == nchildren then
    some ((List.range (nchildren + 1)).map (refinementBin mapping))
  else none

end Meshmode
